import Verif.WatchedGrow
import Verif.Demo

/-!
# Observers that panic, and observers that do anything

C110: an observer that panics stops the operation there, and changes nothing before.  C111: what
observers cannot do.
-/

namespace Verif

variable {W R : Type}

/-! ## C110 -/

/-- **C110.**  As long as no observer panics on a fact of the operation, an operation with these
observers is the operation without observers. -/
theorem C110_same (A : App W R) (P : PanicsOn R) (op : Op) (s : Sys W R)
    (h : (upToPanic P s.trace (during s (op.exec A s).1)).2 = none) :
    op.execO P.watch A s = op.exec A s := by
  obtain ⟨seg, h1, h2⟩ := op.execO_follow (A := A) (P := P) s
  rw [during_seg h1] at h
  rw [h] at h2
  exact h2

/-- **C110.**  In every case what happens up to the first panic of an observer, and that the
observers are told the fact on which one of them panics, is as without observers. -/
theorem C110_prefix (A : App W R) (P : PanicsOn R) (op : Op) (s : Sys W R) :
    ∃ rest, (op.execO P.watch A s).1.trace =
      s.trace ++ (upToPanic P s.trace (during s (op.exec A s).1)).1 ++ rest := by
  obtain ⟨seg, h1, h2⟩ := op.execO_follow (A := A) (P := P) s
  rw [during_seg h1]
  split at h2
  · rename_i hn
    have hall : ∀ (l tr : List (Obs R)), (upToPanic P tr l).2 = none → (upToPanic P tr l).1 = l := by
      intro l
      induction l with
      | nil => intro tr _; rfl
      | cons o l ih =>
        intro tr h
        rw [upToPanic] at h ⊢
        cases hp : P.at tr o with
        | some v => rw [hp] at h; cases h
        | none => rw [hp] at h; dsimp only at h ⊢; rw [ih _ h]
    exact ⟨[], by rw [h2, hall _ _ hn, h1, List.append_nil]⟩
  · obtain ⟨segO, e1, ⟨rest, hr⟩, -⟩ := h2
    exact ⟨rest, by rw [e1, ← hr, List.append_assoc]⟩

/-- **C110.**  If the handlers do not recover from panics, the operation ends where the first
observer panics, with this observer's panic. -/
theorem C110_stop {A : App W R} {P : PanicsOn R} (hA : Strict A P) (op : Op) (s : Sys W R)
    (seg : List (Obs R)) (v : PanicVal)
    (h : upToPanic P s.trace (during s (op.exec A s).1) = (seg, some v)) :
    (op.execO P.watch A s).1.trace = s.trace ++ seg ∧ (op.execO P.watch A s).2 = .panicked v := by
  obtain ⟨seg', h1, h2⟩ := op.execO_follow (A := A) (P := P) s
  rw [during_seg h1] at h
  rw [h] at h2
  obtain ⟨segO, e1, -, e3⟩ := h2
  obtain ⟨rfl, hb⟩ := e3 hA
  exact ⟨e1, hb⟩

/-- What `upToPanic` is: the longest part without panics, and the fact after it. -/
theorem C110_first (P : PanicsOn R) (tr l seg : List (Obs R)) (v : PanicVal) :
    upToPanic P tr l = (seg, some v) ↔
      ∃ pre f post, l = pre ++ .fact f :: post ∧ seg = pre ++ [.fact f] ∧ P (tr ++ pre) f = some v ∧
        ∀ a g b, pre = a ++ .fact g :: b → P (tr ++ a) g = none := by
  induction l generalizing tr seg with
  | nil => simp [upToPanic]
  | cons o l ih =>
    rw [upToPanic]
    constructor
    · intro h
      cases hp : P.at tr o with
      | some v' =>
        rw [hp] at h
        cases o with
        | fact f =>
          simp only [Prod.mk.injEq, Option.some.injEq] at h
          exact ⟨[], f, l, rfl, h.1.symm, by rw [List.append_nil, ← h.2]; exact hp, by simp⟩
        | call c => cases hp
        | reset => cases hp
      | none =>
        rw [hp] at h
        simp only [Prod.mk.injEq] at h
        obtain ⟨pre, f, post, rfl, e2, e3, e4⟩ :=
          (ih (tr ++ [o]) (upToPanic P (tr ++ [o]) l).1).1 (by rw [← h.2])
        refine ⟨o :: pre, f, post, rfl, by rw [← h.1, e2]; rfl, by simpa using e3, ?_⟩
        intro a g b hab
        cases a with
        | nil =>
          simp only [List.nil_append, List.cons.injEq] at hab
          rw [hab.1] at hp
          simpa [PanicsOn.at] using hp
        | cons x a =>
          simp only [List.cons_append, List.cons.injEq] at hab
          have := e4 a g b hab.2
          rw [← hab.1]; simpa using this
    · rintro ⟨pre, f, post, e1, rfl, e3, e4⟩
      cases pre with
      | nil =>
        simp only [List.nil_append, List.cons.injEq] at e1
        have hp : P.at tr o = some v := by rw [e1.1]; simpa [PanicsOn.at] using e3
        rw [hp, e1.1]; rfl
      | cons x pre =>
        simp only [List.cons_append, List.cons.injEq] at e1
        have hp : P.at tr o = none := by
          rw [e1.1]
          cases x with
          | fact g => simpa [PanicsOn.at] using e4 [] g pre rfl
          | call c => rfl
          | reset => rfl
        rw [hp]
        have := (ih (tr ++ [o]) (pre ++ [.fact f])).2 ⟨pre, f, post, e1.2, rfl, by
          rw [e1.1]; simpa using e3, fun a g b hab => by
            have := e4 (x :: a) g b (by rw [hab]; rfl)
            rw [e1.1]; simpa using this⟩
        dsimp only
        rw [this, e1.1]
        rfl

/-! ### On a concrete run -/

/-- An observer that panics when an event is recorded by the aggregate of `Demo`. -/
def Demo.nervous : PanicsOn (List String) := fun _ f =>
  match f with
  | .aggEvent .. => some (.user "boom")
  | _ => none

theorem Demo.ops_strict {O α : Type} (a : α) (l : List O) : (Demo.ops a l).Strict := by
  induction l with
  | nil => exact .ret a
  | cons o l ih => exact .op ih (fun _ => rfl)

theorem Demo.nervous_strict : Strict Demo.app Demo.nervous where
  value tr f v h := by
    unfold Demo.nervous at h
    split at h
    · cases h; exact fun h => nomatch h
    · cases h
  parallel := rfl
  agg _ _ _ _ := Demo.ops_strict _ _
  proc _ _ _ m _ := by
    show (match m.type.kind with | .timeout => _ | _ => _ : Prog ..).Strict
    split <;> exact Demo.ops_strict _ _
  int _ _ := Demo.ops_strict _ _
  prj _ _ _ _ _ _ := Demo.ops_strict _ _
  compact _ _ := .ret _

set_option maxRecDepth 100000 in
/-- The observer of the recorded event panics: the operation ends, with the event as the last thing
told; the aggregate has no history. -/
example :
    let r := (Op.dispatch 20 (Demo.msgC "x") [.currentTime 1]).execO Demo.nervous.watch Demo.app
      (Sys.init 0)
    r.2 = .panicked (.user "boom") ∧ r.1.agg "agg" "a" = none ∧
      (r.1.trace.getLast?.bind Obs.created).map Env.id = some 2 := by
  decide +kernel

set_option maxRecDepth 100000 in
example :
    (upToPanic Demo.nervous [] (during (Sys.init 0)
      ((Op.dispatch 20 (Demo.msgC "x") [.currentTime 1]).exec Demo.app (Sys.init 0)).1)).2 =
        some (.user "boom") := by
  decide +kernel

set_option maxRecDepth 100000 in
/-- A tick tells of no event recorded by the aggregate: it is as without observers. -/
example :
    let s := Demo.runOps Demo.app (Demo.history.take 2) (Sys.init 0)
    (upToPanic Demo.nervous s.trace (during s
      ((Op.tick 20 Demo.app.cfgs [.currentTime 10]).exec Demo.app s).1)).2 = none := by
  decide +kernel

/-! ### Handlers that recover -/

/-- A handler that records an event and carries on if this panics. -/
def Demo.heedless : UserCode Nat (List String) :=
  { Demo.uc with aggHandle := fun _ _ _ m => .op (.record ⟨Demo.evtE, m.body, none⟩) (fun _ => .ret ()) }

def Demo.carelessApp : App Nat (List String) := { Demo.app with uc := Demo.heedless }

/-- An observer that panics when it is told of a new instance. -/
def Demo.jumpy : PanicsOn (List String) := fun _ f =>
  match f with
  | .aggCreated .. => some (.user "boom")
  | _ => none

set_option maxRecDepth 100000 in
/-- **C110.**  It does depend on the handlers: if a handler recovers from the observer's panic the
operation goes on and succeeds.  Here the observers have been told that the instance was created by
a handling that was completed, but there is no such instance. -/
theorem C110_recovered : ∃ (A : App Nat (List String)) (P : PanicsOn (List String)) (op : Op)
    (h : HConfig) (env : Env),
    (op.execO P.watch A (Sys.init 0)).2 = .done [] ∧
    (op.execO P.watch A (Sys.init 0)).1.agg h.name "a" = none ∧
    Obs.fact (.aggCreated h "a" env) ∈ (op.execO P.watch A (Sys.init 0)).1.trace ∧
    Obs.fact (.handlingCompleted h env none) ∈ (op.execO P.watch A (Sys.init 0)).1.trace := by
  refine ⟨Demo.carelessApp, Demo.jumpy, .dispatch 20 (Demo.msgC "x") [.currentTime 1], Demo.agg,
    Env.root 1 (Demo.msgC "x") 1, ?_, ?_, ?_, ?_⟩
  · decide +kernel
  · decide +kernel
  · decide +kernel
  · decide +kernel

/-! ## C111 -/

/-- **C111.**  Whatever observers do, a handling that ends with a panic commits nothing: no history,
no list of pending timeouts changes, no instance comes or goes; only the root of an existing process
instance may have been changed by its handler. -/
theorem C111_panic (O : Watch W R) (A : App W R) (h : HConfig) (now : Time) (env : Env)
    (s s' : Sys W R) (v : PanicVal) (hp : ctlHandleO O A h now env s = (s', .error v)) :
    s'.agg = s.agg ∧ s'.lastCompact = s.lastCompact ∧
    (∀ n, (s'.proc n).timeouts = (s.proc n).timeouts) ∧
    (∀ n x, ((s'.proc n).inst x).isSome = ((s.proc n).inst x).isSome) ∧
    (∀ n x, (s'.proc n).inst x ≠ (s.proc n).inst x →
      n = h.name ∧ h.htype = .process ∧ ((s.proc n).inst x).isSome) := by
  have still : ∀ {t : Sys W R}, Goes s t → t.agg = s.agg ∧ t.lastCompact = s.lastCompact ∧
      (∀ n, (t.proc n).timeouts = (s.proc n).timeouts) ∧
      (∀ n x, ((t.proc n).inst x).isSome = ((s.proc n).inst x).isSome) ∧
      (∀ n x, (t.proc n).inst x ≠ (s.proc n).inst x →
        n = h.name ∧ h.htype = .process ∧ ((s.proc n).inst x).isSome) := by
    rintro t ⟨seg, -, g⟩
    exact ⟨g.agg, g.last, fun n => by rw [g.proc], fun n x => by rw [g.proc],
      fun n x hx => absurd (by rw [g.proc]) hx⟩
  unfold ctlHandleO at hp
  cases ht : h.htype with
  | aggregate =>
    rw [ht] at hp still
    have e := aggHandleO_goes (O := O) (A := A) h now env s
    rw [show aggHandleO O A h now env s = _ from hp] at e
    cases e with
    | kept g => exact still g
  | process =>
    rw [ht] at hp still
    have e := procHandleO_goes (O := O) (A := A) h now env s
    rw [show procHandleO O A h now env s = _ from hp] at e
    cases e with
    | kept g g' => exact still ⟨_, g, g'⟩
    | @root t _ id r g hi =>
      obtain ⟨seg, -, g⟩ := g
      refine ⟨g.agg, g.last, ?_, ?_, ?_⟩
      · intro n
        by_cases hn : n = h.name
        · subst hn; simp [procAlias, Sys.setProc, upd, g.proc]
        · simp [procAlias, Sys.setProc, upd, hn, g.proc]
      · intro n x
        by_cases hn : n = h.name
        · subst hn
          by_cases hx : x = id
          · subst hx; simp [procAlias, Sys.setProc, upd, hi]
          · simp [procAlias, Sys.setProc, upd, hx, g.proc]
        · simp [procAlias, Sys.setProc, upd, hn, g.proc]
      · intro n x hne
        by_cases hn : n = h.name
        · subst hn
          by_cases hx : x = id
          · subst hx; exact ⟨rfl, rfl, hi⟩
          · exact absurd (by simp [procAlias, Sys.setProc, upd, hx, g.proc]) hne
        · exact absurd (by simp [procAlias, Sys.setProc, upd, hn, g.proc]) hne
  | integration =>
    rw [ht] at hp still
    have g := intHandleO_goes (O := O) (A := A) h now env s
    rw [show intHandleO O A h now env s = _ from hp] at g
    exact still g
  | projection =>
    rw [ht] at hp still
    have g := prjHandleO_goes (O := O) (A := A) h now env s
    rw [show prjHandleO O A h now env s = _ from hp] at g
    exact still g

/-- **C111.**  Whatever observers do, a handling by an aggregate that ends without panic changes the
history of one instance only: it is gone, or it has got the events that are returned to be
dispatched.  These are all the messages that the observers were told of, in this order. -/
theorem C111_success (O : Watch W R) (A : App W R) (h : HConfig) (now : Time) (env : Env)
    (s s' : Sys W R) (evs : List Env) (e : Option Err) (ht : h.htype = .aggregate)
    (hp : ctlHandleO O A h now env s = (s', .ok (evs, e))) :
    e = none ∧ ∃ id, (∀ n i, ¬(n = h.name ∧ i = id) → s'.agg n i = s.agg n i) ∧
      (s'.agg h.name id = none ∨ s'.agg h.name id = some ((s.agg h.name id).getD [] ++ evs)) ∧
      evs = createdIn (during s s') ∧
      (∀ ev ∈ evs, ∃ env', .fact (.aggEvent h id env' ev) ∈ during s s') := by
  have g := aggHandleO_goes (O := O) (A := A) h now env s
  unfold ctlHandleO at hp
  rw [ht] at hp
  rw [show aggHandleO O A h now env s = _ from hp] at g
  generalize hr : ((s', .ok (evs, e)) : Sys W R × HRes) = r at g
  cases g with
  | kept g => cases hr
  | @stored t id sc sc' h0 g =>
    cases hr
    obtain ⟨seg, new, g1, g2, g3, g4, g5⟩ := g
    rw [h0, List.nil_append] at g3
    have hd : during s (aggCommit h id t sc') = seg :=
      during_seg (by rw [← g1.trace]; unfold aggCommit; split <;> rfl)
    refine ⟨rfl, id, ?_, ?_, by rw [hd, g3, g4], ?_⟩
    · intro n i hni
      have : (aggCommit h id t sc').agg n i = t.agg n i := by
        unfold aggCommit
        by_cases hn : n = h.name
        · by_cases hi : i = id
          · exact absurd ⟨hn, hi⟩ hni
          · subst hn; split <;> simp [upd, hi]
        · split <;> simp [upd, hn]
      rw [this, g2.agg]
    · unfold aggCommit
      split
      · exact .inr (by simp [upd, g2.agg])
      · exact .inl (by simp [upd])
    · intro ev he
      rw [g3] at he
      obtain ⟨env', hm⟩ := g5 ev he
      exact ⟨env', by rw [hd]; exact hm⟩

/-- **C111.**  Whatever observers do, a handling by a process that ends without panic and without
error returns, to be dispatched, the commands that the observers were told of in their order, and
then those of the timeouts that are due.  One instance is stored, and the later timeouts have been
added to those that were pending; or the observers have been told that the instance ended: then its
timeouts are gone, or there was nothing of it before; or there was nothing to do. -/
theorem C111_process (O : Watch W R) (A : App W R) (h : HConfig) (now : Time) (env : Env)
    (s s' : Sys W R) (l : List Env) (ht : h.htype = .process)
    (hp : ctlHandleO O A h now env s = (s', .ok (l, none))) :
    let made := timeoutsIn (during s s')
    let due := made.filter (fun e => decide (e.scheduledFor ≤ now))
    let later := made.filter (fun e => decide (now < e.scheduledFor))
    let ended := ∃ id env', .fact (.procEnded h id env') ∈ during s s'
    s'.agg = s.agg ∧ s'.lastCompact = s.lastCompact ∧ (∀ n, n ≠ h.name → s'.proc n = s.proc n) ∧
    ((s'.proc = s.proc ∧ l = commandsIn (during s s') ∧ (made = [] ∨ ended)) ∨
      (∃ id, (∀ i, i ≠ id → (s'.proc h.name).inst i = (s.proc h.name).inst i) ∧
        (((s'.proc h.name).inst id = none ∧ l = commandsIn (during s s') ∧ ended ∧
            (s'.proc h.name).timeouts =
              (s.proc h.name).timeouts.filter (fun e => !e.ofInstance id)) ∨
          (((s'.proc h.name).inst id).isSome ∧ l = commandsIn (during s s') ++ due ∧
            (s'.proc h.name).timeouts.Perm ((s.proc h.name).timeouts ++ later))))) := by
  have g := procHandleO_goes (O := O) (A := A) h now env s
  unfold ctlHandleO at hp
  rw [ht] at hp
  rw [show procHandleO O A h now env s = _ from hp] at g
  generalize hr : ((s', .ok (l, none)) : Sys W R × HRes) = r at g
  cases g with
  | kept g g' hq =>
    cases hr
    have hd := during_seg g.trace
    dsimp only
    rw [hd]
    refine ⟨g'.agg, g'.last, fun n _ => by rw [g'.proc], .inl ⟨g'.proc, ?_⟩⟩
    rcases hq l none rfl with ⟨h, -⟩ | ⟨-, h1, h2⟩
    · exact absurd rfl h
    · exact ⟨h1, h2⟩
  | root g hi hr' => cases hr; exact absurd rfl (hr' l)
  | @gone seg t id env' g g' he =>
    cases hr
    have hd : during s (procDelete h id t) = seg := during_seg g.trace
    dsimp only
    rw [hd]
    refine ⟨g'.agg, g'.last, ?_, .inr ⟨id, ?_, .inl ⟨?_, rfl, ⟨id, env', he⟩, ?_⟩⟩⟩
    · intro n hn; simp [procDelete, Sys.setProc, upd, hn, g'.proc]
    · intro i hi; simp [procDelete, Sys.setProc, upd, hi, g'.proc]
    · simp [procDelete, Sys.setProc, upd]
    · simp [procDelete, Sys.setProc, upd, g'.proc]
  | @stored t id r sc' g =>
    cases hr
    obtain ⟨seg, g1, g', g3, g4, g5, -, -⟩ := g
    have hd : during s (procUpdate A h id t sc') = seg := during_seg g1.trace
    dsimp only
    rw [hd]
    refine ⟨g'.agg, g'.last, ?_, .inr ⟨id, ?_, .inr ⟨?_, ?_, ?_⟩⟩⟩
    · intro n hn; simp [procUpdate, Sys.setProc, upd, hn, g'.proc]
    · intro i hi; simp [procUpdate, Sys.setProc, upd, hi, g'.proc]
    · simp [procUpdate, Sys.setProc, upd]
    · rw [g3, g4]; rfl
    · have : sc'.pending = (timeoutsIn seg).filter (fun e => decide (now < e.scheduledFor)) := g5
      rw [← this]
      have : ((procUpdate A h id t sc').proc h.name).timeouts =
          A.sort.sort ((s.proc h.name).timeouts ++ sc'.pending) := by
        simp [procUpdate, Sys.setProc, upd, g'.proc]
      rw [this]
      exact A.sort.perm _

/-- **C111.**  Whatever observers do, a handling by an integration that ends without panic, with or
without error, returns the events that the observers were told of, in their order, and changes
nothing else. -/
theorem C111_integration (O : Watch W R) (A : App W R) (h : HConfig) (now : Time) (env : Env)
    (s s' : Sys W R) (l : List Env) (e : Option Err) (ht : h.htype = .integration)
    (hp : ctlHandleO O A h now env s = (s', .ok (l, e))) :
    l = createdIn (during s s') ∧ s'.agg = s.agg ∧ s'.proc = s.proc ∧
      s'.lastCompact = s.lastCompact := by
  unfold ctlHandleO at hp
  rw [ht] at hp
  obtain ⟨seg, g1, g2, g3⟩ := intHandleO_ends (O := O) (A := A) h now env s
  rw [show intHandleO O A h now env s = _ from hp] at g1 g2 g3
  exact ⟨by rw [during_seg g1.trace]; exact g3 l e rfl, g2.agg, g2.proc, g2.last⟩

/-- **C111.**  Whatever the observers of the operations of a history do, no two messages made since
the last reset have the same ID, and IDs increase. -/
theorem C111_ids {A : App W R} {s : Sys W R} (hs : ReachO A s) :
    (createdIn (sinceReset s.trace)).Pairwise (fun a b => a.id < b.id) ∧
      ((createdIn (sinceReset s.trace)).map Env.id).Nodup := by
  refine ⟨hs.sound.ids, ?_⟩
  rw [List.Nodup, List.pairwise_map]
  exact hs.sound.ids.imp (fun h => Nat.ne_of_lt h)

/-- **C111.**  Whatever observers do, the history of an aggregate instance has no event but those
that this instance was told to have recorded since the last reset, each of them once, in the order in
which they were recorded. -/
theorem C111_history {A : App W R} {s : Sys W R} (hs : ReachO A s) (n i : String) (l : List Env)
    (hl : s.agg n i = some l) :
    l.Pairwise (fun a b => a.id < b.id) ∧
      ∀ e ∈ l, ∃ h env, h.name = n ∧ .fact (.aggEvent h i env e) ∈ sinceReset s.trace :=
  hs.sound.hist n i l hl

/-- **C111.**  Whatever observers do, what is pending is a timeout that was scheduled, by an instance
of this process, since the last reset. -/
theorem C111_pending {A : App W R} {s : Sys W R} (hs : ReachO A s) (n : String) :
    ∀ e ∈ (s.proc n).timeouts,
      ∃ h i env, h.name = n ∧ .fact (.procTimeout h i env e) ∈ sinceReset s.trace :=
  hs.sound.pend n

/-! ### What observers can do -/

/-- An observer that panics when a handling by the aggregate has been completed. -/
def Demo.belated : PanicsOn (List String) := fun _ f =>
  match f with
  | .handlingCompleted h _ _ => if h.name = "agg" then some (.user "boom") else none
  | _ => none

/-- The first operation of `Demo` with this observer, the other two without. -/
def Demo.belatedFinal : Sys Nat (List String) :=
  Demo.runOps Demo.app (Demo.history.drop 1)
    ((Op.dispatch 20 (Demo.msgC "x") [.currentTime 1]).execO Demo.belated.watch Demo.app (Sys.init 0)).1

set_option maxRecDepth 100000 in
/-- **C111.**  An observer that panics when a handling has been completed makes the engine lose
messages: the event is part of the history of the aggregate, but is not dispatched, neither by the
operation nor by later ones. -/
theorem C111_lost :
    ((Op.dispatch 20 (Demo.msgC "x") [.currentTime 1]).execO Demo.belated.watch Demo.app
      (Sys.init 0)).2 = .panicked (.user "boom") ∧
    (Demo.belatedFinal.agg "agg" "a").map (List.map Env.id) = some [2, 4] ∧
    2 ∉ (dispatchedIn Demo.belatedFinal.trace).map Env.id ∧
    4 ∈ (dispatchedIn Demo.belatedFinal.trace).map Env.id := by
  refine ⟨?_, ?_, ?_, ?_⟩ <;> decide +kernel

/-- `Demo.belatedFinal` is a state that `C111_ids`, `C111_history` and `C111_pending` are about. -/
theorem Demo.lateFinal_reach : ReachO Demo.app Demo.belatedFinal := by
  have plain : ∀ (l : List Op) {s : Sys Nat (List String)}, ReachO Demo.app s →
      ReachO Demo.app (Demo.runOps Demo.app l s) := by
    intro l
    induction l with
    | nil => intro s hs; exact hs
    | cons op l ih =>
      intro s hs
      refine ih ?_
      rw [← C110_same Demo.app (fun _ _ => none) op s ?_]
      · exact .step _ op hs
      · generalize s.trace = tr
        generalize during s (op.exec Demo.app s).1 = l
        induction l generalizing tr with
        | nil => rfl
        | cons o l ih =>
          rw [upToPanic, show PanicsOn.at (fun _ _ => none) tr o = none by cases o <;> rfl]
          exact ih _
  exact plain _ (.step _ _ (.init 0))

set_option maxRecDepth 100000 in
/-- The hypotheses of `C111_panic` and `C111_success`. -/
example :
    let env := Env.root 1 (Demo.msgC "x") 1
    (∃ v, (ctlHandleO Demo.nervous.watch Demo.app Demo.agg 1 env (Sys.init 0)).2 = .error v) ∧
    (∃ r, (ctlHandleO Demo.belated.watch Demo.app Demo.agg 1 env (Sys.init 0)).2 = .ok r ∧
      r.1 ≠ []) := by
  exact ⟨⟨.user "boom", rfl⟩, ⟨_, rfl, by decide +kernel⟩⟩

set_option maxRecDepth 100000 in
/-- The hypotheses of `C111_process` (at time 20 the timeout at time 10 is due) and
`C111_integration`. -/
example :
    (∃ r, (ctlHandleO Demo.belated.watch Demo.app Demo.proc 20
      (Env.root 1 ⟨Demo.evtE, "x", none⟩ 1) (Sys.init 0)).2 = .ok r ∧ r.1.length = 2 ∧ r.2 = none) ∧
    (∃ r, (ctlHandleO Demo.belated.watch Demo.app Demo.int 20
      (Env.root 1 ⟨Demo.cmdD, "x", none⟩ 1) (Sys.init 0)).2 = .ok r ∧ r.1.length = 1) := by
  exact ⟨⟨_, rfl, by decide +kernel, by decide +kernel⟩, ⟨_, rfl, by decide +kernel⟩⟩

end Verif
