import Verif.EngineKeeps
import Verif.Props.Aggregate
import Verif.Props.Flow
import Verif.Demo

/-!
# Concurrent use of an engine (C89)

Goroutines that use the same engine leave it in a state that a sequential program can reach, up to
the names of the messages.
-/

namespace Verif.Conc

variable {W R : Type}

/-! ## Specification -/

/-- The operation, with the time at which it is called as its first option. -/
def atTime (now : Time) : Op → Op
  | .dispatch fuel m os => .dispatch fuel m (.currentTime now :: os)
  | .tick fuel order os => .tick fuel order (.currentTime now :: os)
  | .reset => .reset

/-- The engine after operations that are performed one after the other by a program that has only
one goroutine. -/
def inTurn (A : App W R) (w : W) (ops : List (Time × Op)) : Sys W R :=
  ops.foldl (fun s x => ((atTime x.1 x.2).exec A s).1) (Sys.init w)

/-- The operations that acquired the mutex, in this order. -/
def acquired (ops : Nat → List (Time × Op)) (ls : List (Label (Sys W R))) : List (Time × Op) :=
  (sections ls).filterMap (fun x => (ops x.1)[x.2.1]?)

/-! ## Proof -/

theorem newOpOpts_at (A : App W R) (s : Sys W R) (now : Time) (os : List OpOption) :
    newOpOpts A s (.currentTime now :: os) = optsAt A now os := rfl

theorem callOf_solo {A : App W R} (hl : ∀ w, A.uc.lockErr w = none) (x : Time × Op) (s : Sys W R) :
    (callOf A x).solo (s.at 0, s.nextID) =
      let r := ((atTime x.1 x.2).exec A s).1
      (r.at 0, r.nextID) := by
  rcases x with ⟨now, op⟩
  cases op with
  | dispatch fuel m os =>
    simp only [callOf, Call.solo, atTime, Op.exec, engDispatch, dispatchC, newOpOpts_at]
    rcases optsAt A now os with v | oo
    · rfl
    · simp only
      by_cases h1 : m.type.kind = .timeout
      · simp only [h1, if_true]; rfl
      simp only [h1, if_false]
      rcases m.invalid with _ | v
      case some => rfl
      simp only
      by_cases h2 : A.route m = []
      · simp only [h2, if_true]; rfl
      simp only [h2, if_false, hl]
      show sol _ (s.at (s.nextID + 1)) = _
      rw [sol_notify, dispatchLoopC_sol]
      change sol (finishC _ (dispatchLoop A oo fuel [Env.root (s.nextID + 1) m oo.now] []
        (({ s with nextID := s.nextID + 1 } : Sys W R).notify _)).2)
        (dispatchLoop A oo fuel [Env.root (s.nextID + 1) m oo.now] []
        (({ s with nextID := s.nextID + 1 } : Sys W R).notify _)).1 = _
      rcases dispatchLoop A oo fuel [Env.root (s.nextID + 1) m oo.now] []
        (({ s with nextID := s.nextID + 1 } : Sys W R).notify
          (.dispatchCycleBegun (Env.root (s.nextID + 1) m oo.now) (oo.cycle A))) with ⟨s', es | v | _⟩
      · exact (sol_notify _ _).trans (sol_end _ (.inl rfl))
      · exact sol_end _ (.inr rfl)
      · exact sol_end _ (.inl rfl)
  | tick fuel order os =>
    simp only [callOf, Call.solo, atTime, Op.exec, engTick, engTickC, newOpOpts_at]
    rcases optsAt A now os with v | oo
    · rfl
    · simp only [hl]
      show sol _ s = _
      rw [sol_notify, tickC_sol]
      rcases engTickLocked A oo fuel order (s.notify (.tickCycleBegun (oo.cycle A))) with ⟨s', es | v | _⟩
      · exact (sol_notify _ _).trans (sol_end _ (.inl rfl))
      · exact sol_end _ (.inr rfl)
      · exact sol_end _ (.inl rfl)
  | reset =>
    simp only [callOf, Call.solo, atTime, Op.exec, engResetC]
    have e : engReset A (s.at 0) = ((engReset A s).1.at 0, (engReset A s).2) := by
      have := engReset_ren (anon_id A) s
      simpa only [sys_ren_id] using this
    have e' : (engReset A s).1.nextID = 0 := by
      rw [show engReset A s = engReset A (s.at 0) from rfl, e]; rfl
    show solo (match (engReset A (s.at 0)).2 with
      | .panicked _ => _
      | _ => _) (engReset A (s.at 0)).1 0 = _
    rw [e, e']
    rcases (engReset A s).2 with es | v | _ <;> rfl

theorem sequential_inTurn {A : App W R} (hl : ∀ w, A.uc.lockErr w = none) (w : W)
    (ops : List (Time × Op)) :
    sequential (Sys.init w) (ops.map (callOf A)) = ((inTurn A w ops).at 0, (inTurn A w ops).nextID) := by
  unfold sequential inTurn
  rw [List.foldl_map]
  have : ∀ (ops : List (Time × Op)) (s : Sys W R),
      ops.foldl (fun x y => (callOf A y).solo x) (s.at 0, s.nextID) =
        let r := ops.foldl (fun s x => ((atTime x.1 x.2).exec A s).1) s
        (r.at 0, r.nextID) := by
    intro ops
    induction ops with
    | nil => intro s; rfl
    | cons x ops ih =>
      intro s
      simp only [List.foldl_cons]
      rw [callOf_solo hl]
      exact ih _
  exact this ops (Sys.init w)

theorem entered_acquired (A : App W R) (ops : Nat → List (Time × Op)) (ls : List (Label (Sys W R))) :
    entered (fun t => (ops t).map (callOf A)) ls = (acquired ops ls).map (callOf A) := by
  unfold entered acquired
  rw [List.map_filterMap]
  congr 1
  funext x
  simp

theorem inTurn_reach {A : App W R} (w : W) (ops : List (Time × Op))
    (hop : ∀ x ∈ ops, x.2.ok A) : Reach A (inTurn A w ops) := by
  unfold inTurn
  have : ∀ (ops : List (Time × Op)) (s : Sys W R), (∀ x ∈ ops, x.2.ok A) → Reach A s →
      Reach A (ops.foldl (fun s x => ((atTime x.1 x.2).exec A s).1) s) := by
    intro ops
    induction ops with
    | nil => intro s _ hs; exact hs
    | cons x ops ih =>
      intro s hx hs
      refine ih _ (fun y hy => hx y (List.mem_cons_of_mem _ hy)) (.step _ hs ?_)
      have := hx x (List.mem_cons_self ..)
      rcases x with ⟨now, _ | _ | _⟩ <;> exact this
  exact this ops _ hop (.init w)

theorem acquired_mem {ops : Nat → List (Time × Op)} {ls : List (Label (Sys W R))} {x : Time × Op}
    (hx : x ∈ acquired ops ls) : ∃ t, x ∈ ops t := by
  unfold acquired at hx
  obtain ⟨y, _, hy⟩ := List.mem_filterMap.1 hx
  exact ⟨y.1, List.mem_of_getElem? hy⟩

/-! ## Properties -/

/-- **C89** Goroutines dispatch messages and tick an engine.  Whenever none of them holds its mutex,
the engine is in the state in which a sequential program would have left it that performs the same
operations in the order in which they acquired the mutex, except that messages have other IDs. -/
theorem C89_sequential {A : App W R} {ρ : (Nat → Nat) → W → W} {w : W}
    {ops : Nat → List (Time × Op)} {ls : List (Label (Sys W R))} {s : St (Sys W R)}
    (hl : ∀ w, A.uc.lockErr w = none) (han : ∀ σ, Inj σ → A.Anon σ (ρ σ))
    (hw : ∀ σ, Inj σ → ρ σ w = w)
    (h : Steps (init (Sys.init w) (fun t => (ops t).map (callOf A))) ls s)
    (hn : holding ls = none) (hr : ∀ t, ∀ x ∈ ops t, x.2 ≠ .reset) :
    ∃ σ, Inj σ ∧ s.ctl = (inTurn A w (acquired ops ls)).ren σ (ρ σ) 0 := by
  obtain ⟨σ, hσ, he⟩ := C65_sequential_partial (act := actS ρ) (c := Sys.init w)
    (prog := fun t => (ops t).map (callOf A))
    (fun σ hσ => by
      show (Sys.init w).ren σ (ρ σ) 0 = Sys.init w
      simp only [Sys.ren, Sys.init, hw σ hσ]
      rfl)
    (fun t call hc => by
      obtain ⟨x, _, rfl⟩ := List.mem_map.1 hc
      exact callOf_blind han x) h hn (no_reset hr h)
  refine ⟨σ, hσ, ?_⟩
  rw [he, entered_acquired, sequential_inTurn hl]
  rfl

/-- **C89** What is true of every state that sequential programs reach, and does not depend on the
names of messages, is true of what goroutines leave behind. -/
theorem C89_transfer {A : App W R} {ρ : (Nat → Nat) → W → W} {w : W}
    {ops : Nat → List (Time × Op)} {ls : List (Label (Sys W R))} {s : St (Sys W R)}
    (hl : ∀ w, A.uc.lockErr w = none) (han : ∀ σ, Inj σ → A.Anon σ (ρ σ))
    (hw : ∀ σ, Inj σ → ρ σ w = w) (hop : ∀ t, ∀ x ∈ ops t, x.2.ok A)
    (h : Steps (init (Sys.init w) (fun t => (ops t).map (callOf A))) ls s)
    (hn : holding ls = none) (hr : ∀ t, ∀ x ∈ ops t, x.2 ≠ .reset)
    {P : Sys W R → Prop} (hP : ∀ s, Reach A s → P s)
    (hσ : ∀ σ s, Inj σ → P s → P (s.ren σ (ρ σ) 0)) : P s.ctl := by
  obtain ⟨σ, h1, e⟩ := C89_sequential hl han hw h hn hr
  rw [e]
  refine hσ σ _ h1 (hP _ (inTurn_reach w _ fun x hx => ?_))
  obtain ⟨t, ht⟩ := acquired_mem hx
  exact hop t x ht

/-! ## What goroutines can rely on -/

theorem dispatchedIn_ren (σ : Nat → Nat) (t : List (Obs R)) :
    dispatchedIn (t.map (Obs.ren σ)) = (dispatchedIn t).map (Env.ren σ) := by
  unfold dispatchedIn
  rw [List.filterMap_map, List.map_filterMap]
  congr 1
  funext o
  rcases o with f | c | _
  · cases f <;> rfl
  · cases c <;> rfl
  · rfl

theorem aggEventsIn_ren (σ : Nat → Nat) (t : List (Obs R)) :
    aggEventsIn (t.map (Obs.ren σ)) = (aggEventsIn t).map (Env.ren σ) := by
  unfold aggEventsIn
  rw [List.filterMap_map, List.map_filterMap]
  congr 1
  funext o
  rcases o with f | c | _
  · cases f <;> rfl
  · cases c <;> rfl
  · rfl

theorem sinceReset_ren (σ : Nat → Nat) (t : List (Obs R)) :
    sinceReset (t.map (Obs.ren σ)) = (sinceReset t).map (Obs.ren σ) := by
  unfold sinceReset
  rw [List.foldl_map]
  have : ∀ (t acc : List (Obs R)),
      t.foldl (fun acc o => match Obs.ren σ o with | .reset => [] | o => acc ++ [o])
        (acc.map (Obs.ren σ)) =
      (t.foldl (fun acc o => match o with | .reset => [] | o => acc ++ [o]) acc).map (Obs.ren σ) := by
    intro t
    induction t with
    | nil => intro acc; rfl
    | cons o t ih =>
      intro acc
      simp only [List.foldl_cons]
      rw [← ih]
      congr 1
      rcases o with f | c | _
      · simp [Obs.ren]
      · simp [Obs.ren]
      · rfl
  exact this t []

theorem aggExistsAfter_ren (σ : Nat → Nat) (b : Bool) (t : List (Obs R)) :
    aggExistsAfter b (t.map (Obs.ren σ)) = aggExistsAfter b t := by
  unfold aggExistsAfter
  rw [List.foldl_map]
  congr 1
  funext b o
  rcases o with f | c | _
  · cases f <;> rfl
  · cases c <;> rfl
  · rfl

theorem aggInstIn_ren (σ : Nat → Nat) (t : List (Obs R)) :
    aggInstIn (t.map (Obs.ren σ)) = aggInstIn t := by
  unfold aggInstIn
  rw [List.findSome?_map]
  congr 1
  funext o
  rcases o with f | c | _
  · cases f <;> rfl
  · cases c <;> rfl
  · rfl

/-- Rename the message IDs in a happening. -/
def hapRen (σ : Nat → Nat) : Happening R → Happening R
  | .handled now h env seg err => .handled now h (env.ren σ) (seg.map (Obs.ren σ)) err
  | .ticked now h => .ticked now h

/-- Rename the message IDs in the state of a scan. -/
def scanRen (σ : Nat → Nat) (a : Scan R) : Scan R :=
  ⟨a.done.map (hapRen σ), a.cur.map (fun x => (x.1, x.2.1.ren σ, x.2.2.map (Obs.ren σ))), a.time⟩

theorem step_ren (σ : Nat → Nat) (a : Scan R) (o : Obs R) :
    (scanRen σ a).step (o.ren σ) = scanRen σ (a.step o) := by
  rcases a with ⟨d, _ | ⟨h, e, seg⟩, t⟩ <;> rcases o with f | c | _
  · cases f <;> simp [Obs.ren, Fact.ren, Scan.step, scanRen, hapRen]
  · rfl
  · rfl
  · cases f <;> simp [Obs.ren, Fact.ren, Scan.step, scanRen, hapRen]
  · simp [Obs.ren, Scan.step, scanRen]
  · rfl

theorem happenings_ren (σ : Nat → Nat) (t : List (Obs R)) :
    happenings (t.map (Obs.ren σ)) = (happenings t).map (hapRen σ) := by
  unfold happenings scan
  rw [List.foldl_map]
  have : ∀ (t : List (Obs R)) (a : Scan R),
      t.foldl (fun a o => a.step (o.ren σ)) (scanRen σ a) = scanRen σ (t.foldl Scan.step a) := by
    intro t
    induction t with
    | nil => intro a; rfl
    | cons o t ih => intro a; simp only [List.foldl_cons]; rw [step_ren, ih]
  have := this t ⟨[], none, 0⟩
  exact congrArg Scan.done this

theorem isAgg_ren (σ : Nat → Nat) (name id : String) (x : Happening R) :
    (hapRen σ x).isAgg name id ↔ x.isAgg name id := by
  cases x with
  | handled now h env seg err => simp [hapRen, Happening.isAgg, aggInstIn_ren]
  | ticked now h => rfl

theorem seg_ren (σ : Nat → Nat) (x : Happening R) : (hapRen σ x).seg = x.seg.map (Obs.ren σ) := by
  cases x <;> rfl

theorem aggHistory_ren (σ : Nat → Nat) (name id : String) (L : List (Happening R)) :
    aggHistory name id (L.map (hapRen σ)) = (aggHistory name id L).map (List.map (Env.ren σ)) := by
  unfold aggHistory
  rw [List.foldl_map]
  have : ∀ (L : List (Happening R)) (cur : Option (List Env)),
      L.foldl (fun cur x =>
        if (hapRen σ x).isAgg name id then
          if aggExistsAfter false (hapRen σ x).seg then
            some (cur.getD [] ++ aggEventsIn (hapRen σ x).seg) else none
        else cur) (cur.map (List.map (Env.ren σ))) =
      (L.foldl (fun cur x =>
        if x.isAgg name id then
          if aggExistsAfter false x.seg then some (cur.getD [] ++ aggEventsIn x.seg) else none
        else cur) cur).map (List.map (Env.ren σ)) := by
    intro L
    induction L with
    | nil => intro cur; rfl
    | cons x L ih =>
      intro cur
      simp only [List.foldl_cons]
      rw [← ih]
      congr 1
      simp only [isAgg_ren, seg_ren, aggExistsAfter_ren, aggEventsIn_ren]
      split
      · split
        · cases cur <;> simp
        · rfl
      · rfl
  exact this L none

/-- **C89** However goroutines dispatch messages, no two of the messages have the same ID. -/
theorem C89_distinct {A : App W R} (wf : A.WF) {ρ : (Nat → Nat) → W → W} {w : W}
    {ops : Nat → List (Time × Op)} {ls : List (Label (Sys W R))} {s : St (Sys W R)}
    (hl : ∀ w, A.uc.lockErr w = none) (han : ∀ σ, Inj σ → A.Anon σ (ρ σ))
    (hw : ∀ σ, Inj σ → ρ σ w = w) (hop : ∀ t, ∀ x ∈ ops t, x.2.ok A)
    (h : Steps (init (Sys.init w) (fun t => (ops t).map (callOf A))) ls s)
    (hn : holding ls = none) (hr : ∀ t, ∀ x ∈ ops t, x.2 ≠ .reset) :
    ((dispatchedIn (sinceReset s.ctl.trace)).map Env.id).Nodup := by
  refine C89_transfer hl han hw hop h hn hr
    (P := fun s => ((dispatchedIn (sinceReset s.trace)).map Env.id).Nodup)
    (fun s hs => C06_distinct wf hs) ?_
  intro σ s hσ hs
  show ((dispatchedIn (sinceReset (s.trace.map (Obs.ren σ)))).map Env.id).Nodup
  rw [sinceReset_ren, dispatchedIn_ren, List.map_map,
    show (Env.id ∘ Env.ren σ) = (σ ∘ Env.id) from rfl, ← List.map_map]
  rw [List.nodup_iff_pairwise_ne] at hs ⊢
  rw [List.pairwise_map]
  exact hs.imp fun hne he => hne (hσ _ _ he)

/-- **C89** However goroutines dispatch messages, no event of an aggregate gets lost: what is stored
of an instance are the events of its completed handlings, in order, and each handling was given the
root that results from applying the events of all handlings of the instance before it. -/
theorem C89_aggregate {A : App W R} (wf : A.WF) {ρ : (Nat → Nat) → W → W} {w : W}
    {ops : Nat → List (Time × Op)} {ls : List (Label (Sys W R))} {s : St (Sys W R)}
    (hl : ∀ w, A.uc.lockErr w = none) (han : ∀ σ, Inj σ → A.Anon σ (ρ σ))
    (hw : ∀ σ, Inj σ → ρ σ w = w) (hop : ∀ t, ∀ x ∈ ops t, x.2.ok A)
    (h : Steps (init (Sys.init w) (fun t => (ops t).map (callOf A))) ls s)
    (hn : holding ls = none) (hr : ∀ t, ∀ x ∈ ops t, x.2 ≠ .reset)
    {r0 : HConfig → R} {ap : HConfig → R → Message → R} (g : A.uc.PureRoots r0 ap) :
    (∀ name id, s.ctl.agg name id = aggHistory name id (happenings s.ctl.trace)) ∧
    Always (fun pre o => ∀ h id r m, o = .call (.aggHandle h id r m) →
      r = (((aggHistory h.name id (happenings pre)).getD []).map Env.msg).foldl (ap h) (r0 h))
      s.ctl.trace := by
  refine C89_transfer hl han hw hop h hn hr
    (P := fun s => (∀ name id, s.agg name id = aggHistory name id (happenings s.trace)) ∧
      Always (fun pre o => ∀ h id r m, o = .call (.aggHandle h id r m) →
        r = (((aggHistory h.name id (happenings pre)).getD []).map Env.msg).foldl (ap h) (r0 h))
        s.trace)
    (fun s hs => ⟨C21_history wf hs, C22_replay_pure wf hs g⟩) ?_
  intro σ s hσ ⟨h1, h2⟩
  refine ⟨fun name id => ?_, ?_⟩
  · show (s.agg name id).map (List.map (Env.ren σ)) =
      aggHistory name id (happenings (s.trace.map (Obs.ren σ)))
    rw [happenings_ren, aggHistory_ren, h1]
  · intro pre o post ht h id r m ho
    obtain ⟨pre', rest, e1, e2, e3⟩ := List.map_eq_append_iff.1 (show s.trace.map (Obs.ren σ) = _ from ht)
    obtain ⟨o', post', e4, e5, e6⟩ := List.map_eq_cons_iff.1 e3
    subst e4
    have ho' : o' = .call (.aggHandle h id r m) := by
      rw [ho] at e5
      rcases o' with f | c | _
      · cases e5
      · cases c <;> simp [Obs.ren, Call.ren] at e5
        obtain ⟨rfl, rfl, rfl, rfl⟩ := e5
        rfl
      · cases e5
    have := h2 pre' o' post' e1 h id r m ho'
    rw [this, ← e2, happenings_ren, aggHistory_ren]
    cases aggHistory h.name id (happenings pre') with
    | none => rfl
    | some es =>
      simp only [Option.map_some, Option.getD_some, List.map_map]
      rfl

/-! ## Instances -/

namespace Demo

/-- Perform the operations one after the other, then return. -/
def say {O α : Type} (a : α) : List O → Prog (List Nat) O α
  | [] => .ret a
  | o :: os => Prog.do_ o (say a os)

/-- The handlers of `Verif.Demo`, except that the projection puts the message IDs that it is given
into the world, and tells from them which messages it has seen. -/
def uc : UserCode (List Nat) (List String) where
  aggRoute _ _ w := (w, .ok "a")
  aggNew _ w := (w, .ok (some []))
  aggApply _ r m w := (w, r ++ [m.body], none)
  aggHandle _ _ _ m := say () [.record ⟨Verif.Demo.evtE, m.body, none⟩]
  procRoute _ _ w := (w, .ok (.ok (some "p")))
  procNew _ w := (w, .ok (some []))
  procHandle _ _ r m _ :=
    match m.type.kind with
    | .timeout => say none [.setRoot (r ++ [m.body]), .execute ⟨Verif.Demo.cmdD, m.body, none⟩, .end_]
    | _ => say none [.setRoot (r ++ [m.body]), .execute ⟨Verif.Demo.cmdD, m.body, none⟩,
        .schedule ⟨Verif.Demo.tmoT, m.body, none⟩ 10]
  intHandle _ m := say none [.log m.body, .record ⟨Verif.Demo.evtF, m.body, none⟩]
  prjVersion _ res w := (w, .ok (.ok (if res ∈ w then [1] else [])))
  prjHandle _ res _ _ _ _ := .get fun w => .set (w ++ [res]) (.ret (.ok true))
  prjClose _ _ w := (w, .ok none)
  prjCompact _ _ := .ret none
  schedule _ := []
  resetters := [fun _ => ([], none)]
  ctxErr _ := none
  lockErr _ := none
  wallClock _ := 0

def app : App (List Nat) (List String) where
  cfgs := [Verif.Demo.agg, Verif.Demo.proc, Verif.Demo.int, Verif.Demo.prj]
  uc := uc
  compactDuringHandling := false
  sort := Verif.Demo.sortImpl

theorem app_wf : app.WF := ⟨Verif.Demo.app_wf.names, Verif.Demo.app_wf.handlers⟩

theorem say_sim {O α : Type} (f : List Nat → List Nat) (a : α) (os : List O) :
    Prog.Sim f (say a os) (say a os) := by
  induction os with
  | nil => exact .ret a
  | cons o os ih =>
    refine .op o fun p => ?_
    cases p with
    | none => exact ih
    | some v => exact .panic v

theorem insert_ren (σ : Nat → Nat) (e : Env) (l : List Env) :
    Verif.Demo.insert (e.ren σ) (l.map (Env.ren σ)) = (Verif.Demo.insert e l).map (Env.ren σ) := by
  induction l with
  | nil => rfl
  | cons x xs ih =>
    simp only [List.map_cons, Verif.Demo.insert]
    rw [ih, show (e.ren σ).scheduledFor = e.scheduledFor from rfl,
      show (x.ren σ).scheduledFor = x.scheduledFor from rfl]
    split <;> rfl

theorem isort_ren (σ : Nat → Nat) (l : List Env) :
    Verif.Demo.isort (l.map (Env.ren σ)) = (Verif.Demo.isort l).map (Env.ren σ) := by
  induction l with
  | nil => rfl
  | cons x xs ih => simp only [List.map_cons, Verif.Demo.isort, ih, insert_ren]

/-- The handlers do not look into message IDs; the projection compares them. -/
theorem app_anon (σ : Nat → Nat) (hσ : Inj σ) : app.Anon σ (List.map σ) where
  aggRoute _ _ _ := rfl
  aggNew _ _ := rfl
  aggApply _ _ _ _ := rfl
  aggHandle _ _ _ _ := say_sim _ _ _
  procRoute _ _ _ := rfl
  procNew _ _ := rfl
  procHandle _ _ r m _ := by
    show Prog.Sim _ (match m.type.kind with | .timeout => _ | _ => _) (match m.type.kind with | .timeout => _ | _ => _)
    cases m.type.kind <;> exact say_sim _ _ _
  intHandle _ _ := say_sim _ _ _
  prjVersion _ res w := by
    show (w.map σ, Except.ok (Except.ok (if σ res ∈ w.map σ then [1] else []))) = _
    have : (σ res ∈ w.map σ) = (res ∈ w) := propext ⟨fun hm => by
      obtain ⟨y, hy, he⟩ := List.mem_map.1 hm
      exact hσ _ _ he ▸ hy, fun hm => List.mem_map.2 ⟨_, hm, rfl⟩⟩
    simp only [this]
    rfl
  prjHandle _ res _ _ _ _ := by
    refine .get fun w => ?_
    rw [show w.map σ ++ [σ res] = (w ++ [res]).map σ by simp]
    exact .set _ (.ret _)
  prjClose _ _ _ := rfl
  prjCompact _ _ := .ret _
  schedule _ := rfl
  resetters f hf w := by
    rcases List.mem_singleton.1 hf with rfl
    rfl
  ctxErr _ := rfl
  sort l := isort_ren σ l

/-- Two goroutines dispatch a command each; the second one ticks the engine later. -/
def ops : Nat → List (Time × Op)
  | 0 => [(1, .dispatch 20 (Verif.Demo.msgC "x") [])]
  | 1 => [(3, .dispatch 20 (Verif.Demo.msgC "y") []),
          (10, .tick 20 [Verif.Demo.agg, Verif.Demo.proc, Verif.Demo.int, Verif.Demo.prj] [])]
  | _ => []

theorem ops_ok : ∀ t, ∀ x ∈ ops t, x.2.ok app
  | 0, x, hx => by rw [List.mem_singleton.1 hx]; trivial
  | 1, x, hx => by
    rcases List.mem_cons.1 hx with rfl | hx
    · trivial
    · rw [List.mem_singleton.1 hx]; exact List.Perm.refl _
  | _ + 2, _, hx => nomatch hx

/-- Goroutine 0 takes a message ID while goroutine 1 holds the mutex.  Then it dispatches its
message, then goroutine 1 ticks. -/
def schedule : List Nat :=
  List.replicate 12 1 ++ [0] ++ List.replicate 44 1 ++ List.replicate 54 0 ++ List.replicate 42 1

def start : St (Sys (List Nat) (List String)) :=
  init (Sys.init []) (fun t => (ops t).map (callOf app))

theorem any_some {α : Type} {p : α → Bool} {o : Option α} (h : o.any p = true) :
    ∃ x, o = some x ∧ p x = true := by
  cases o with
  | none => exact nomatch h
  | some x => exact ⟨x, rfl, h⟩

theorem ops_no_reset : ∀ t, ∀ x ∈ ops t, x.2 ≠ .reset
  | 0, x, hx => by rw [List.mem_singleton.1 hx]; exact fun h => (nomatch h)
  | 1, x, hx => by
    rcases List.mem_cons.1 hx with rfl | hx
    · exact fun h => (nomatch h)
    · rw [List.mem_singleton.1 hx]; exact fun h => (nomatch h)
  | _ + 2, _, hx => nomatch hx

/-- Goroutine 0 dispatches an event, goroutine 1 another one, goroutine 2 resets the engine. -/
def withReset : Nat → List (Time × Op)
  | 0 => [(1, .dispatch 20 ⟨Verif.Demo.evtE, "x", none⟩ [.enableType .process false])]
  | 1 => [(3, .dispatch 20 ⟨Verif.Demo.evtE, "y", none⟩ [.enableType .process false])]
  | 2 => [(2, .reset)]
  | _ => []

end Demo

/-- The hypotheses on application and calls, and roots that are values. -/
example : Demo.app.WF ∧ (∀ w, Demo.app.uc.lockErr w = none) ∧
    (∀ σ, Inj σ → Demo.app.Anon σ (List.map σ)) ∧ (∀ t, ∀ x ∈ Demo.ops t, x.2.ok Demo.app) ∧
    (∀ t, ∀ x ∈ Demo.ops t, x.2 ≠ .reset) ∧
    Demo.app.uc.PureRoots (fun _ => []) (fun _ r m => r ++ [m.body]) :=
  ⟨Demo.app_wf, fun _ => rfl, Demo.app_anon, Demo.ops_ok, Demo.ops_no_reset,
    ⟨fun _ _ _ _ => rfl, fun _ _ => rfl⟩⟩

set_option maxRecDepth 100000 in
/-- Goroutines that meet the hypotheses of the theorems (with `Demo.app_wf`, `Demo.app_anon`,
`Demo.ops_ok` and `Demo.ops_no_reset`): the messages that they dispatch have the
IDs of the first list, those of the sequential program the IDs of the second list.  The projection
was given the events of both goroutines and of the tick. -/
example : ∃ ls s, Steps (init (Sys.init []) (fun t => (Demo.ops t).map (callOf Demo.app))) ls s ∧
    holding ls = none ∧
    (acquired Demo.ops ls).map (·.1) = [3, 1, 10] ∧
    (dispatchedIn s.ctl.trace).map Env.id = [1, 3, 4, 6, 2, 7, 8, 10, 5, 9, 11, 12] ∧
    (dispatchedIn (inTurn Demo.app [] (acquired Demo.ops ls)).trace).map Env.id =
      [1, 2, 3, 5, 6, 7, 8, 10, 4, 9, 11, 12] ∧
    s.ctl.w = [3, 6, 7, 10, 12] ∧ (inTurn Demo.app [] (acquired Demo.ops ls)).w = [2, 5, 7, 10, 12] := by
  have h : ((runOf Demo.start Demo.schedule).any fun x =>
      decide (holding x.1 = none) &&
      decide ((acquired Demo.ops x.1).map (·.1) = [3, 1, 10]) &&
      decide ((dispatchedIn x.2.ctl.trace).map Env.id = [1, 3, 4, 6, 2, 7, 8, 10, 5, 9, 11, 12]) &&
      decide ((dispatchedIn (inTurn Demo.app [] (acquired Demo.ops x.1)).trace).map Env.id =
        [1, 2, 3, 5, 6, 7, 8, 10, 4, 9, 11, 12]) &&
      decide (x.2.ctl.w = [3, 6, 7, 10, 12]) &&
      decide ((inTurn Demo.app [] (acquired Demo.ops x.1)).w = [2, 5, 7, 10, 12])) = true := by
    decide +kernel
  obtain ⟨⟨ls, s⟩, hr, hx⟩ := Demo.any_some h
  simp only [Bool.and_eq_true, decide_eq_true_eq] at hx
  obtain ⟨⟨⟨⟨⟨h1, h3⟩, h4⟩, h5⟩, h6⟩, h7⟩ := hx
  exact ⟨ls, s, runOf_steps hr, h1, h3, h4, h5, h6, h7⟩

set_option maxRecDepth 100000 in
/-- **C89** If the engine is reset the claim is false, even for handlers that do not look into
message IDs: goroutine 0 takes an ID, goroutine 2 resets the engine, goroutine 1 takes the same ID
and dispatches its event, then goroutine 0 dispatches its event.  The projection, which forgets
everything on a reset, takes the second event for the first one and does not handle it.  The
sequential program has both events handled. -/
theorem C89_reset_fails : ∃ ls s,
    Steps (init (Sys.init []) (fun t => (Demo.withReset t).map (callOf Demo.app))) ls s ∧
    holding ls = none ∧
    ((acquired Demo.withReset ls).map (·.1) = [2, 3, 1]) ∧
    s.ctl.w.length = 1 ∧ (inTurn Demo.app [] (acquired Demo.withReset ls)).w.length = 2 := by
  have h : ((runOf (init (Sys.init []) (fun t => (Demo.withReset t).map (callOf Demo.app)))
      ([0] ++ List.replicate 5 2 ++ List.replicate 12 1 ++ List.replicate 11 0)).any fun x =>
      decide (holding x.1 = none) &&
      decide ((acquired Demo.withReset x.1).map (·.1) = [2, 3, 1]) &&
      decide (x.2.ctl.w.length = 1) &&
      decide ((inTurn Demo.app [] (acquired Demo.withReset x.1)).w.length = 2)) = true := by
    decide +kernel
  obtain ⟨⟨ls, s⟩, hr, hx⟩ := Demo.any_some h
  simp only [Bool.and_eq_true, decide_eq_true_eq] at hx
  obtain ⟨⟨⟨h1, h2⟩, h3⟩, h4⟩ := hx
  exact ⟨ls, s, runOf_steps hr, h1, h2, h3, h4⟩

end Verif.Conc
