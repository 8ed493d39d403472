import Verif.Props.Aggregate
import Verif.Props.Process
import Verif.Props.Compact

/-!
# C124: an observer knows what the engine remembers

Facts are enough to tell the history of every aggregate instance, which process instances exist,
which timeouts are pending, and when projections were last compacted by a tick.
-/

namespace Verif

variable {W R : Type}

/-! ## Specification -/

/-- What is told to the outside: facts to observers, and `Reset()` (`none`) to whoever calls it. -/
def heard (t : List (Obs R)) : List (Option Fact) :=
  t.filterMap fun
    | .fact f => some (some f)
    | .reset => some none
    | .call _ => none

/-- What an observer takes down while a message is being handled. -/
structure Note where
  /-- the aggregate instance, once it is known -/
  aggInst : Option String := none
  /-- does the aggregate instance exist? -/
  alive : Bool := false
  events : List Env := []
  /-- the process instance, once it is known -/
  procInst : Option String := none
  /-- has the process instance ended? -/
  ended : Bool := false
  timeouts : List Env := []
  deriving DecidableEq

/-- Take down a fact. -/
def Note.add (n : Note) : Fact → Note
  | .aggLoaded _ id _ => { n with aggInst := n.aggInst.or (some id), alive := true }
  | .aggNotFound _ id _ => { n with aggInst := n.aggInst.or (some id), alive := false }
  | .aggCreated .. => { n with alive := true }
  | .aggReverted .. => { n with alive := true }
  | .aggDestroyed .. => { n with alive := false }
  | .aggEvent _ _ _ e => { n with events := n.events ++ [e] }
  | .procLoaded _ id _ => { n with procInst := n.procInst.or (some id) }
  | .procNotFound _ id _ => { n with procInst := n.procInst.or (some id) }
  | .procEnded .. => { n with ended := true }
  | .procReverted .. => { n with ended := false }
  | .procTimeout _ _ _ e => { n with timeouts := n.timeouts ++ [e] }
  | _ => n

/-- What an observer believes the engine to remember. -/
structure Mirror where
  agg : String → String → Option (List Env) := fun _ _ => none
  live : String → String → Bool := fun _ _ => false
  pending : String → List Env := fun _ => []
  /-- when projections were last compacted by a tick -/
  compacted : String → Time := fun _ => 0
  now : Time := 0
  /-- is the tick of a handler in progress? -/
  ticking : Bool := false
  /-- the handling in progress -/
  cur : Option (HConfig × Note) := none

/-- A handling has completed. -/
def Mirror.completed (m : Mirror) (h : HConfig) (n : Note) (err : Option Err) : Mirror :=
  match h.htype, n.aggInst, n.procInst, err with
  | .aggregate, some id, _, _ =>
    { m with agg := fun name i =>
        if name = h.name ∧ i = id then
          if n.alive then some ((m.agg name i).getD [] ++ n.events) else none
        else m.agg name i }
  | .process, _, some id, none =>
    { m with
      live := fun name i => if name = h.name ∧ i = id then !n.ended else m.live name i
      pending := fun name =>
        if name = h.name then
          if n.ended then (m.pending name).filter (fun e => !e.byInstance id)
          else m.pending name ++ n.timeouts.filter (fun e => decide (m.now < e.scheduledFor))
        else m.pending name }
  | _, _, _, _ => m

/-- An observer learns of a fact, or of a reset. -/
def Mirror.hear (m : Mirror) : Option Fact → Mirror
  | none => { now := m.now, ticking := m.ticking, compacted := m.compacted }
  | some (.dispatchCycleBegun _ c) => { m with cur := none, now := c.now, ticking := false }
  | some (.tickCycleBegun c) => { m with cur := none, now := c.now, ticking := false }
  | some (.handlingBegun h _) => { m with cur := some (h, {}) }
  | some (.handlingCompleted _ _ err) =>
    match m.cur with
    | some (h, n) => { m.completed h n err with cur := none }
    | none => m
  | some (.tickBegun h) =>
    { m with
      ticking := true
      pending := fun name =>
        if h.htype = .process ∧ name = h.name then
          (m.pending name).filter (fun e => decide (m.now < e.scheduledFor))
        else m.pending name }
  | some (.tickCompleted h err) =>
    { m with ticking := false, cur := m.cur.map fun (h', n) => (h', n.add (.tickCompleted h err)) }
  | some (.prjCompactBegun h) =>
    { m with
      compacted := fun name => if m.ticking ∧ name = h.name then m.now else m.compacted name
      cur := m.cur.map fun (h', n) => (h', n.add (.prjCompactBegun h)) }
  | some f => { m with cur := m.cur.map fun (h, n) => (h, n.add f) }

/-- What an observer believes after all it has heard. -/
def Mirror.after (l : List (Option Fact)) : Mirror := l.foldl Mirror.hear {}

/-! ## Proof -/

/-- The note on a handling. -/
def noteOf (seg : List (Obs R)) : Note :=
  ⟨aggInstIn seg, aggExistsAfter false seg, aggEventsIn seg, procInstIn seg, endedAfter false seg,
    timeoutsIn seg⟩

theorem noteOf_snoc (seg : List (Obs R)) (o : Obs R) :
    noteOf (seg ++ [o]) = match o with | .fact f => (noteOf seg).add f | _ => noteOf seg := by
  cases o with
  | call c => simp [noteOf, aggInstIn, aggExistsAfter, aggEventsIn, procInstIn, endedAfter, timeoutsIn]
  | reset => simp [noteOf, aggInstIn, aggExistsAfter, aggEventsIn, procInstIn, endedAfter, timeoutsIn]
  | fact f =>
    cases f <;>
      simp [noteOf, Note.add, aggInstIn, aggExistsAfter, aggEventsIn, procInstIn, endedAfter, timeoutsIn]

/-- The observer's state corresponds to the state of the scan. -/
structure Mirrors (m : Mirror) (a : Scan R) : Prop where
  agg : ∀ name id, m.agg name id = aggHistory name id a.done
  live : ∀ name id, m.live name id = procLive name id a.done
  pending : ∀ name, m.pending name = pendingAfter name a.done
  now : m.now = a.time
  cur : m.cur = a.cur.map fun (h, _, seg) => (h, noteOf seg)

theorem ite_iff {α : Type} {p q : Prop} [Decidable p] [Decidable q] (h : p ↔ q) {x y : α} :
    (if p then x else y) = if q then x else y := by
  by_cases hp : p
  · rw [if_pos hp, if_pos (h.1 hp)]
  · rw [if_neg hp, if_neg (fun hq => hp (h.2 hq))]

theorem aggHistory_snoc' (name id : String) (L : List (Happening R)) (x : Happening R) :
    aggHistory name id (L ++ [x]) =
      if x.isAgg name id then
        if aggExistsAfter false x.seg then some ((aggHistory name id L).getD [] ++ aggEventsIn x.seg) else none
      else aggHistory name id L := by
  simp [aggHistory]

theorem pendingAfter_snoc' (name : String) (L : List (Happening R)) (x : Happening R) :
    pendingAfter name (L ++ [x]) = x.pend name (pendingAfter name L) := by
  simp [pendingAfter]

theorem Mirrors.inner {m : Mirror} {a : Scan R} (hm : Mirrors m a) (f : Fact) :
    Mirrors { m with cur := m.cur.map fun (h, n) => (h, n.add f) }
      (match a.cur with
       | some (h, e, seg) => { a with cur := some (h, e, seg ++ [.fact f]) }
       | none => a) := by
  obtain ⟨h1, h2, h3, h4, h5⟩ := hm
  rcases hc : a.cur with _ | ⟨h, e, seg⟩
  · simp only [hc] at h5 ⊢
    refine ⟨h1, h2, h3, h4, ?_⟩
    rw [h5, hc]; rfl
  · simp only [hc] at h5 ⊢
    refine ⟨h1, h2, h3, h4, ?_⟩
    simp [h5, noteOf_snoc]

theorem Mirrors.handled {m : Mirror} {a : Scan R} (hm : Mirrors m a) (h : HConfig) (e : Env)
    (seg : List (Obs R)) (err : Option Err) :
    Mirrors { m.completed h (noteOf seg) err with cur := none }
      ⟨a.done ++ [.handled a.time h e seg err], none, a.time⟩ := by
  obtain ⟨h1, h2, h3, h4, h5⟩ := hm
  have hkeep : (h.htype = .aggregate → aggInstIn seg = none) →
      (h.htype = .process → procInstIn seg = none ∨ err ≠ none) →
      m.completed h (noteOf seg) err = m := by
    intro ha hp
    cases ht : h.htype with
    | aggregate => simp [Mirror.completed, noteOf, ht, ha ht]
    | process =>
      rcases hp ht with hp | hp
      · simp [Mirror.completed, noteOf, ht, hp]
      · cases err with
        | none => exact absurd rfl hp
        | some x => simp [Mirror.completed, noteOf, ht]
    | integration => simp [Mirror.completed, ht]
    | projection => simp [Mirror.completed, ht]
  have hnow : (m.completed h (noteOf seg) err).now = m.now := by
    unfold Mirror.completed; split <;> rfl
  refine ⟨fun name id => ?_, fun name id => ?_, fun name => ?_, hnow.trans h4, rfl⟩
  · rw [aggHistory_snoc', ← h1]
    show (m.completed h (noteOf seg) err).agg name id = _
    rw [ite_iff (show Happening.isAgg name id (.handled a.time h e seg err) ↔
      h.htype = .aggregate ∧ h.name = name ∧ aggInstIn seg = some id from Iff.rfl)]
    simp only [Happening.seg]
    by_cases ht : h.htype = .aggregate
    · cases hi : aggInstIn seg with
      | none =>
        rw [hkeep (fun _ => hi) (fun hp => by rw [ht] at hp; cases hp)]
        simp
      | some i =>
        simp only [Mirror.completed, noteOf, ht, hi, Option.some.injEq, true_and]
        simp only [eq_comm]
    · rw [if_neg (fun x => ht x.1)]
      unfold Mirror.completed
      split
      · exact absurd ‹h.htype = .aggregate› ht
      · rfl
      · rfl
  · rw [procLive_snoc, ← h2]
    show (m.completed h (noteOf seg) err).live name id = _
    rw [ite_iff (show Happening.isProc name id (.handled a.time h e seg err) ↔
      h.htype = .process ∧ h.name = name ∧ procInstIn seg = some id ∧ err = none from Iff.rfl)]
    simp only [Happening.seg]
    by_cases ht : h.htype = .process
    · cases hi : procInstIn seg with
      | none =>
        rw [hkeep (fun hp => by rw [ht] at hp; cases hp) (fun _ => .inl hi)]
        simp
      | some i =>
        cases err with
        | some x =>
          rw [hkeep (fun hp => by rw [ht] at hp; cases hp) (fun _ => .inr nofun)]
          simp
        | none =>
          simp only [Mirror.completed, noteOf, ht, hi, Option.some.injEq, true_and, and_true]
          simp only [eq_comm]
    · rw [if_neg (fun x => ht x.1)]
      unfold Mirror.completed
      split
      · rfl
      · exact absurd ‹h.htype = .process› ht
      · rfl
  · rw [pendingAfter_snoc', ← h3]
    show (m.completed h (noteOf seg) err).pending name = _
    simp only [Happening.pend]
    by_cases ht : h.htype = .process
    · cases hi : procInstIn seg with
      | none =>
        rw [hkeep (fun hp => by rw [ht] at hp; cases hp) (fun _ => .inl hi)]
        split <;> rfl
      | some i =>
        cases err with
        | some x =>
          rw [hkeep (fun hp => by rw [ht] at hp; cases hp) (fun _ => .inr nofun)]
          simp
        | none =>
          simp only [Mirror.completed, noteOf, ht, hi, true_and, and_true, futureIn, h4]
          simp only [eq_comm]
    · rw [if_neg (fun x => ht x.1)]
      unfold Mirror.completed
      split
      · rfl
      · exact absurd ‹h.htype = .process› ht
      · rfl

theorem Mirrors.hear {m : Mirror} {a : Scan R} (hm : Mirrors m a) (o : Obs R) :
    Mirrors ((heard [o]).foldl Mirror.hear m) (a.step o) := by
  cases o with
  | reset =>
    exact ⟨fun _ _ => rfl, fun _ _ => rfl, fun _ => rfl, hm.now, rfl⟩
  | call c =>
    show Mirrors m (match a.cur with
      | some (h, e, seg) => { a with cur := some (h, e, seg ++ [.call c]) }
      | none => a)
    obtain ⟨h1, h2, h3, h4, h5⟩ := hm
    rcases hc : a.cur with _ | ⟨h, e, seg⟩
    · simp only
      exact ⟨h1, h2, h3, h4, h5⟩
    · simp only
      refine ⟨h1, h2, h3, h4, ?_⟩
      rw [h5, hc]
      simp [noteOf_snoc]
  | fact f =>
    cases f with
    | dispatchCycleBegun e c => exact ⟨hm.agg, hm.live, hm.pending, rfl, rfl⟩
    | tickCycleBegun c => exact ⟨hm.agg, hm.live, hm.pending, rfl, rfl⟩
    | handlingBegun h e => exact ⟨hm.agg, hm.live, hm.pending, hm.now, rfl⟩
    | handlingCompleted h' e' err =>
      show Mirrors (match m.cur with
        | some (h, n) => { m.completed h n err with cur := none }
        | none => m) (match a.cur with
        | some (h, e, seg) => ⟨a.done ++ [.handled a.time h e seg err], none, a.time⟩
        | none => a)
      have h5 := hm.cur
      rcases hc : a.cur with _ | ⟨h, e, seg⟩
      · rw [hc] at h5
        rw [h5]
        exact hm
      · rw [hc] at h5
        rw [h5]
        exact hm.handled h e seg err
    | tickBegun h =>
      refine ⟨fun name id => ?_, fun name id => ?_, fun name => ?_, hm.now, hm.cur⟩
      · show m.agg name id = aggHistory name id (a.done ++ [.ticked a.time h])
        rw [aggHistory_snoc', hm.agg]; rfl
      · show m.live name id = procLive name id (a.done ++ [.ticked a.time h])
        rw [procLive_snoc, hm.live]; rfl
      · show (if h.htype = .process ∧ name = h.name then
          (m.pending name).filter (fun e => decide (m.now < e.scheduledFor))
          else m.pending name) = pendingAfter name (a.done ++ [.ticked a.time h])
        rw [pendingAfter_snoc', hm.pending, hm.now]
        simp only [Happening.pend, eq_comm]
    | tickCompleted h er =>
      have := hm.inner (.tickCompleted h er)
      exact ⟨this.agg, this.live, this.pending, this.now, this.cur⟩
    | prjCompactBegun h =>
      have := hm.inner (.prjCompactBegun h)
      exact ⟨this.agg, this.live, this.pending, this.now, this.cur⟩
    | _ => exact hm.inner _

theorem mirrors_after (t : List (Obs R)) : Mirrors (Mirror.after (heard t)) (scan t) := by
  induction t using List.reverseRecOn' with
  | nil => exact ⟨fun _ _ => rfl, fun _ _ => rfl, fun _ => rfl, rfl, rfl⟩
  | append_singleton t o ih =>
    rw [scan_snoc]
    have : Mirror.after (heard (t ++ [o])) = (heard [o]).foldl Mirror.hear (Mirror.after (heard t)) := by
      simp [Mirror.after, heard, List.filterMap_append, List.foldl_append]
    rw [this]
    exact ih.hear o

/-! ### Compactions -/

/-- What an observer believes after a trace. -/
abbrev mirrored (t : List (Obs R)) : Mirror := Mirror.after (heard t)

theorem mirrored_snoc (t : List (Obs R)) (o : Obs R) :
    mirrored (t ++ [o]) = (heard [o]).foldl Mirror.hear (mirrored t) := by
  simp [mirrored, Mirror.after, heard, List.filterMap_append, List.foldl_append]

/-- The part of the observer's state that has to do with compactions. -/
structure Books (m : Mirror) (last : String → Time) (now : Option Time) (tick : Bool) : Prop where
  last : m.compacted = last
  now : ∀ t, now = some t → m.now = t
  tick : m.ticking = tick

theorem completed_books (m : Mirror) (h : HConfig) (n : Note) (err : Option Err) :
    (m.completed h n err).compacted = m.compacted ∧ (m.completed h n err).now = m.now ∧
      (m.completed h n err).ticking = m.ticking := by
  unfold Mirror.completed
  split <;> exact ⟨rfl, rfl, rfl⟩

/-- Facts that change neither the time nor the tick in progress. -/
theorem Books.mute {t : List (Obs R)} {last : String → Time} {now : Option Time} {tick : Bool}
    (hb : Books (mirrored t) last now tick) {f : Fact} (hf : f.mute)
    (hc : tick = false ∨ ∀ h, f ≠ .prjCompactBegun h) : Books (mirrored (t ++ [.fact f])) last now tick := by
  rw [mirrored_snoc]
  obtain ⟨h1, h2, h3⟩ := hb
  show Books ((mirrored t).hear (some f)) last now tick
  generalize mirrored t = m at *
  cases f with
  | tickBegun => exact hf.elim
  | tickCompleted => exact hf.elim
  | tickCycleBegun => exact hf.elim
  | dispatchCycleBegun => exact hf.elim
  | handlingCompleted h e err =>
    unfold Mirror.hear
    simp only
    split
    · rename_i h' n _
      obtain ⟨c1, c2, c3⟩ := completed_books m h' n err
      exact ⟨c1.trans h1, fun t ht => c2.trans (h2 t ht), c3.trans h3⟩
    · exact ⟨h1, h2, h3⟩
  | prjCompactBegun h =>
    rcases hc with rfl | hc
    · refine ⟨?_, h2, h3⟩
      funext name
      show (if m.ticking ∧ name = h.name then m.now else m.compacted name) = _
      rw [h3, h1]
      simp
    · exact absurd rfl (hc h)
  | _ => exact ⟨h1, h2, h3⟩

theorem Books.call {t : List (Obs R)} {last : String → Time} {now : Option Time} {tick : Bool}
    (hb : Books (mirrored t) last now tick) (c : Call R) : Books (mirrored (t ++ [.call c])) last now tick := by
  rw [mirrored_snoc]
  exact hb

theorem Books.inner {h : HConfig} {now : Time} {env : Env} {last : String → Time} {x : Option Time}
    (seg : List (Obs R)) (hi : ∀ o ∈ seg, InnerObs h now env o) :
    ∀ {t : List (Obs R)}, Books (mirrored t) last x false → Books (mirrored (t ++ seg)) last x false := by
  induction seg with
  | nil => intro t a; simpa using a
  | cons o seg ih =>
    intro t a
    have ho := hi o (by simp)
    have ha : Books (mirrored (t ++ [o])) last x false := by
      cases o with
      | reset => exact ho.elim
      | call c => exact a.call c
      | fact f =>
        refine a.mute ?_ (.inl rfl)
        rcases ho with ho | ⟨ev, ho, _⟩
        · cases f <;> first | exact ho.elim | trivial
        · cases f <;> first | trivial | cases ho
    have := ih (fun p hp => hi p (by simp [hp])) ha
    simpa using this

/-- Inside an operation, outside ticks of handlers. -/
abbrev BooksI (oo : OpOpts) (s : Sys W R) : Prop := Books (mirrored s.trace) s.lastCompact (some oo.now) false

/-- Between operations. -/
def BooksQ (s : Sys W R) : Prop := (mirrored s.trace).compacted = s.lastCompact

theorem BooksI.handle {A : App W R} {oo : OpOpts} {s s' : Sys W R} {env : Env} {h : HConfig}
    {res : HRes} (hi : BooksI oo s) (hr : handleOne A oo env h s = (s', res)) : BooksI oo s' := by
  unfold handleOne at hr
  split at hr
  · cases hr
    exact hi.mute trivial (.inl rfl)
  · have h1 : BooksI oo (s.notify (.handlingBegun h env)) := hi.mute trivial (.inl rfl)
    obtain ⟨seg, e1, e2, _, _, _, _, _, e3⟩ :=
      ctlHandle_sum A h oo.now env (s.notify (.handlingBegun h env))
    have h2 : BooksI oo (ctlHandle A h oo.now env (s.notify (.handlingBegun h env))).1 := by
      unfold BooksI
      rw [e1, e3]
      exact Books.inner seg e2 h1
    split at hr
    · rename_i he; rw [he] at h2; cases hr; exact h2
    · rename_i he; rw [he] at h2; cases hr; exact h2.mute trivial (.inl rfl)

theorem Books.logs {h : HConfig} {last : String → Time} {x : Option Time} {tick : Bool} (logs : List (Obs R))
    (hl : ∀ o ∈ logs, ∃ t, o = .fact (.prjLog h none t)) : ∀ {t : List (Obs R)},
    Books (mirrored t) last x tick → Books (mirrored (t ++ logs)) last x tick := by
  induction logs with
  | nil => intro t h; simpa using h
  | cons o logs ih =>
    intro t hi
    obtain ⟨x, rfl⟩ := hl o (by simp)
    have := ih (fun p hp => hl p (by simp [hp])) (hi.mute (f := .prjLog h none x) trivial (.inr nofun))
    simpa using this

theorem BooksI.ticked {A : App W R} {oo : OpOpts} {s s' : Sys W R} {h : HConfig} {res : HRes}
    (hi : BooksI oo s) (hr : ctlTick A h oo.now (s.notify (.tickBegun h)) = (s', res)) :
    Books (mirrored s'.trace) s'.lastCompact (some oo.now) true := by
  have h0 : Books (mirrored (s.trace ++ [.fact (.tickBegun h)])) s.lastCompact (some oo.now) true := by
    rw [mirrored_snoc]
    exact ⟨hi.last, hi.now, rfl⟩
  obtain ⟨seg, e⟩ := ctlTick_sum A h oo.now (s.notify (.tickBegun h))
  rw [hr] at e
  have ht : s'.trace = s.trace ++ [.fact (.tickBegun h)] ++ seg := e.trace
  have hl := e.last
  simp only [Sys.notify_last] at hl
  rcases e.shape with ⟨rfl, hn⟩ | ⟨hd, hp, logs, hlogs, hseg⟩
  · simp only [Sys.notify_last] at hn
    have hl' : s'.lastCompact = s.lastCompact := by
      refine hl.trans (if_neg ?_)
      rintro ⟨hc, hg⟩; have := hn hc; omega
    rw [ht, hl', List.append_nil]
    exact h0
  · simp only [Sys.notify_last] at hd
    have hl' : s'.lastCompact = upd s.lastCompact h.name oo.now := hl.trans (if_pos ⟨hp, hd⟩)
    rw [hl']
    have h1 : Books (mirrored (s.trace ++ [.fact (.tickBegun h)] ++ [.fact (.prjCompactBegun h)]))
        (upd s.lastCompact h.name oo.now) (some oo.now) true := by
      rw [mirrored_snoc]
      refine ⟨?_, h0.now, h0.tick⟩
      funext name
      show (if (mirrored (s.trace ++ [.fact (.tickBegun h)])).ticking ∧ name = h.name then
        (mirrored (s.trace ++ [.fact (.tickBegun h)])).now
        else (mirrored (s.trace ++ [.fact (.tickBegun h)])).compacted name) = _
      rw [h0.tick, h0.last, h0.now _ rfl]
      simp [upd]
    have h2 := Books.logs logs hlogs (h1.call (.prjCompact h oo.now))
    rw [ht]
    rcases res with v | ⟨envs, er⟩
    · simp only at hseg
      subst hseg
      simpa using h2
    · simp only at hseg
      subst hseg
      have h3 := h2.mute (f := .prjCompactCompleted h er) trivial (.inr nofun)
      simpa using h3

theorem Books.complete {oo : OpOpts} {h : HConfig} {s : Sys W R} (er : Option Err)
    (hi : Books (mirrored s.trace) s.lastCompact (some oo.now) true) :
    BooksI oo (s.notify (.tickCompleted h er)) := by
  unfold BooksI
  rw [Sys.notify_trace, mirrored_snoc]
  exact ⟨hi.last, hi.now, rfl⟩

theorem books_lift (A : App W R) :
    Lift A BooksQ (fun oo _ _ s => BooksI oo s)
      (fun oo _ _ _ _ _ s => BooksI oo s) (fun oo _ _ _ s => BooksI oo s) where
  init w := rfl
  world s w hs := hs
  reset s hs := by
    unfold BooksQ
    show (mirrored (s.trace ++ [.reset])).compacted = _
    rw [mirrored_snoc]
    exact hs
  resetter s i hs := by
    unfold BooksQ
    show (mirrored (s.trace ++ [.call (.resetter i)])).compacted = _
    rw [mirrored_snoc]
    exact hs
  takeID s hs := hs
  dBegin oo s m hs _ _ _ := by
    unfold BooksI
    rw [Sys.notify_trace, mirrored_snoc]
    exact ⟨hs, fun t ht => by cases ht; rfl, rfl⟩
  dEnd oo q errs s env er hi :=
    (Books.mute hi (f := .dispatchCycleCompleted env (oo.cycle A).maps er) trivial (.inl rfl)).last
  stop oo q errs s hi := hi.last
  disp oo :=
    { begin_ := fun env q errs s hs _ hi => hi.mute trivial (.inl rfl)
      handle := fun env done h rest q errs de s s' envs e ht hj hr => BooksI.handle hj hr
      panic := fun env done h rest q errs de s s' v ht hj hr => (BooksI.handle hj hr).last
      panicT := fun env q errs s v ht hi => hi.last
      end_ := fun env hs q errs de s _ hj => hj.mute trivial (.inl rfl) }
  tBegin oo s hs := by
    unfold BooksI
    rw [Sys.notify_trace, mirrored_snoc]
    exact ⟨hs, fun t ht => by cases ht; rfl, rfl⟩
  tick oo :=
    { skip := fun done h q errs s r hm hi hr => hi.mute trivial (.inl rfl)
      tick := fun done h q errs s s' envs e hm hi hsk hr => (BooksI.ticked hi hr).complete e
      panic := fun done h q errs s s' v hm hi hsk hr => (BooksI.ticked hi hr).last }
  tDisp oo order q errs s _ hi := hi
  tStop oo done q errs s er hi :=
    (Books.mute hi (f := .tickCycleCompleted (oo.cycle A).maps er) trivial (.inl rfl)).last
  tEnd oo q errs s er hi :=
    (Books.mute hi (f := .tickCycleCompleted (oo.cycle A).maps er) trivial (.inl rfl)).last

/-! ## Theorems -/

/-- **C124**: an observer that keeps its own books from the facts it is notified of, and knows of
resets, knows the history of every aggregate instance, which process instances exist, which timeouts
are pending, and when each projection was last compacted by a tick. -/
theorem C124_observer {A : App W R} (wf : A.WF) {s : Sys W R} (hs : Reach A s) :
    (Mirror.after (heard s.trace)).agg = s.agg ∧
    (∀ name id, (Mirror.after (heard s.trace)).live name id = ((s.proc name).inst id).isSome) ∧
    (∀ name, (s.proc name).timeouts.Perm ((Mirror.after (heard s.trace)).pending name)) ∧
    (Mirror.after (heard s.trace)).compacted = s.lastCompact := by
  have hm := mirrors_after s.trace
  refine ⟨?_, fun name id => ?_, fun name => ?_, (books_lift A).reach hs⟩
  · funext name id
    rw [hm.agg, C21_history wf hs]; rfl
  · rw [hm.live]
    have h := C28_exists wf hs name id
    rw [← procLive_iff] at h
    exact (Bool.eq_iff_iff.2 h).symm
  · rw [hm.pending]
    exact (C29_pending wf hs name).1

/-- **C124**: if two engines, with whatever handlers, have told the same, they have the same histories
of aggregates, process instances, pending timeouts and times of compactions. -/
theorem C124_same {W' R' : Type} {A : App W R} {B : App W' R'} (wfA : A.WF) (wfB : B.WF) {s : Sys W R}
    {t : Sys W' R'} (hs : Reach A s) (ht : Reach B t) (h : heard s.trace = heard t.trace) :
    s.agg = t.agg ∧
    (∀ name id, ((s.proc name).inst id).isSome = ((t.proc name).inst id).isSome) ∧
    (∀ name, (s.proc name).timeouts.Perm (t.proc name).timeouts) ∧ s.lastCompact = t.lastCompact := by
  obtain ⟨a1, a2, a3, a4⟩ := C124_observer wfA hs
  obtain ⟨b1, b2, b3, b4⟩ := C124_observer wfB ht
  rw [h] at a1 a2 a3 a4
  exact ⟨a1.symm.trans b1, fun n i => (a2 n i).symm.trans (b2 n i), fun n => (a3 n).trans (b3 n).symm,
    a4.symm.trans b4⟩

/-! ## Concrete cases -/

namespace Demo

/-- A command, another command and a tick. -/
def watchedOps : List Op :=
  [.dispatch 20 (msgC "x") [.currentTime 1], .dispatch 20 (msgC "y") [.currentTime 3],
   .tick 20 [agg, proc, int, prj] [.currentTime 5]]

theorem watched_reach : Reach app (runOps app watchedOps (Sys.init 0)) :=
  runOps_reach _ (by
    intro op ho
    simp only [watchedOps, List.mem_cons, List.not_mem_nil, or_false] at ho
    rcases ho with rfl | rfl | rfl
    · trivial
    · trivial
    · exact .refl _) (.init 0)

/-- What an observer of the engine believes then. -/
def believed : Mirror := Mirror.after (heard (runOps app watchedOps (Sys.init 0)).trace)

end Demo

set_option maxRecDepth 100000 in
/-- What an observer of this engine knows: a history of two events, a process instance and two pending
timeouts. -/
example : (Demo.believed.agg "agg" "a").map (List.map fun e => (e.id, e.msg.body)) = some [(2, "x"), (7, "y")] ∧
    Demo.believed.live "proc" "p" = true ∧
    (Demo.believed.pending "proc").map (fun e => (e.id, e.msg.body, e.scheduledFor)) =
      [(4, "x", 10), (9, "y", 10)] := by
  decide +kernel

set_option maxRecDepth 100000 in
/-- The observer takes down when ticks compact the projection, and keeps it when the engine is reset. -/
example : (Mirror.after (heard (Demo.runOps Demo.app
    [.tick 20 [Demo.agg, Demo.proc, Demo.int, Demo.prj] [.currentTime 1000000000000000], .reset]
    (Sys.init 0)).trace)).compacted "prj" = 1000000000000000 := by
  decide +kernel

/-- What an observer does not know: which ID the next message will have.  A dispatch that is rejected
takes an ID, and nobody is notified of it. -/
theorem C124_limits : ∃ (s t : Sys Nat (List String)), Reach Demo.app s ∧ Reach Demo.app t ∧
    heard s.trace = heard t.trace ∧ s.nextID ≠ t.nextID :=
  ⟨Sys.init 0, _, .init 0, .step (.dispatch 20 ⟨Demo.tmoT, "x", none⟩ []) (.init 0) trivial,
    rfl, by decide +kernel⟩

end Verif
