import Verif.EngineKeeps
import Verif.Shift
import Verif.Props.EngineSerial
import Verif.Props.AbsentTest

/-!
# C123: what the engine does does not depend on how many message IDs it has handed out

The IDs continue where they are.  Apart from that, dispatching and ticking do the same.
-/

namespace Verif

variable {W R : Type}

/-! ## Specification -/

/-- The engine, had it handed out `k` more message IDs before.  `ρ` does it to the IDs that
projections have stored in the world. -/
def Sys.further (k : Nat) (ρ : W → W) (s : Sys W R) : Sys W R :=
  s.ren (fun n => n + k) ρ (s.nextID + k)

/-- The operations, one after the other, and their results. -/
def Op.results (A : App W R) : List Op → Sys W R → Sys W R × List (Outcome (List EngErr))
  | [], s => (s, [])
  | op :: ops, s =>
    ((Op.results A ops (op.exec A s).1).1, (op.exec A s).2 :: (Op.results A ops (op.exec A s).1).2)

/-! ## Proof -/

namespace Conc

theorem solo_further {C : Type} {act : (Nat → Nat) → C → C} {k : Nat} {b b' : Crit C}
    (h : Renamed act (fun n => n + k) b b') (hk : Keeps b) (c : C) (n : Nat) :
    solo b' (act (fun n => n + k) c) (n + k) =
      (act (fun n => n + k) (solo b c n).1, (solo b c n).2 + k) := by
  induction h generalizing c n with
  | done => rfl
  | panic => rfl
  | touch hf hr ih =>
    cases hk with
    | touch hk =>
      simp only [solo, hf]
      exact ih _ (hk _) _ _
  | id hr ih =>
    cases hk with
    | id hk =>
      simp only [solo]
      have := ih (n + 1) (hk _) c (n + 1)
      rw [show n + k + 1 = n + 1 + k by omega]
      exact this
  | resetIDs => cases hk

end Conc

open Conc in
/-- A function and its interruptible version, applied to both states. -/
theorem further_of {α : Type} {ρ : W → W} {k : Nat} {F F' : Sys W R → Sys W R × α}
    {FC FC' : (α → Crit (Sys W R)) → Crit (Sys W R)}
    (hs : ∀ κ s, sol (FC κ) s = sol (κ (F s).2) (F s).1)
    (hs' : ∀ κ s, sol (FC' κ) s = sol (κ (F' s).2) (F' s).1)
    (hr : ∀ κ κ', (∀ o, Same (fun _ => ρ) (fun n => n + k) (κ o) (κ' o)) →
      Same (fun _ => ρ) (fun n => n + k) (FC κ) (FC' κ'))
    (hk : ∀ κ, (∀ o, Keeps (κ o)) → Keeps (FC κ)) (s : Sys W R) :
    F' (s.further k ρ) = ((F s).1.further k ρ, (F s).2) := by
  classical
  have key : ∀ κ : α → Crit (Sys W R), (∀ o, Keeps (κ o)) →
      (∀ o, Same (fun _ => ρ) (fun n => n + k) (κ o) (κ o)) →
      sol (κ (F' (s.further k ρ)).2) (F' (s.further k ρ)).1 =
        (actS (fun _ => ρ) (fun n => n + k) (sol (κ (F s).2) (F s).1).1, (sol (κ (F s).2) (F s).1).2 + k) := by
    intro κ h1 h2
    rw [← hs', ← hs]
    exact solo_further (hr κ κ h2) (hk κ h1) (s.at 0) s.nextID
  have h1 := key (fun _ => .done) (fun _ => .done) (fun _ => .done)
  have h2 := key (fun o => if o = (F s).2 then .done else .id fun _ => .done)
    (fun o => by split; exact .done; exact .id fun _ => .done)
    (fun o => by split; exact .done; exact .id fun _ => .done)
  simp only [if_true] at h2
  generalize F' (s.further k ρ) = x at h1 h2 ⊢
  obtain ⟨s1, o⟩ := x
  simp only [sol, solo, Prod.mk.injEq] at h1
  obtain ⟨ha, hb⟩ := h1
  have ho : o = (F s).2 := by
    rcases Classical.em (o = (F s).2) with h | h
    · exact h
    · simp only [if_neg h, sol, solo, Prod.mk.injEq] at h2
      have := h2.2
      omega
  rw [ho]
  refine Prod.ext ?_ rfl
  show s1 = _
  cases s1
  simp only [Sys.at, actS, Sys.ren, Sys.mk.injEq, Sys.further] at ha hb ⊢
  exact ⟨ha.1, hb, ha.2.2⟩

section
variable {A : App W R} {k : Nat} {ρ : W → W}

theorem dispatchLoop_further (an : A.Anon (fun n => n + k) ρ) (oo : OpOpts) (n : Nat) (q : List Env)
    (errs : List EngErr) (s : Sys W R) :
    dispatchLoop A oo n (q.map (Env.ren fun n => n + k)) errs (s.further k ρ) =
      ((dispatchLoop A oo n q errs s).1.further k ρ, (dispatchLoop A oo n q errs s).2) :=
  further_of (F := dispatchLoop A oo n q errs) (FC := Conc.dispatchLoopC A oo n q errs)
    (FC' := Conc.dispatchLoopC A oo n (q.map (Env.ren fun n => n + k)) errs)
    (fun κ s => Conc.dispatchLoopC_sol A oo n q errs s κ)
    (fun κ s => Conc.dispatchLoopC_sol A oo n _ errs s κ)
    (fun _ _ h => Conc.dispatchLoopC_same (ρ := fun _ => ρ) an oo n q errs h)
    (fun _ h => Conc.dispatchLoopC_keeps A oo n q errs h) s

theorem tickLocked_further (an : A.Anon (fun n => n + k) ρ) (oo : OpOpts) (fuel : Nat) (order : List HConfig)
    (s : Sys W R) :
    engTickLocked A oo fuel order (s.further k ρ) =
      ((engTickLocked A oo fuel order s).1.further k ρ, (engTickLocked A oo fuel order s).2) :=
  further_of (F := engTickLocked A oo fuel order) (FC := Conc.tickC A oo fuel order)
    (FC' := Conc.tickC A oo fuel order)
    (fun κ s => Conc.tickC_sol A oo fuel order s κ)
    (fun κ s => Conc.tickC_sol A oo fuel order s κ)
    (fun _ _ h => Conc.tickC_same (ρ := fun _ => ρ) an oo fuel order h)
    (fun κ h => by
      refine Conc.keeps_act fun x => ?_
      rcases x with v | ⟨q, es, _ | c⟩
      · exact h _
      · refine Conc.dispatchLoopC_keeps A _ fuel _ [] fun o => ?_
        cases o <;> exact h _
      · exact h _) s

theorem further_notify (s : Sys W R) (f : Fact) :
    (s.further k ρ).notify (f.ren fun n => n + k) = (s.notify f).further k ρ :=
  ren_notify _ s f

theorem newOpOpts_further (hw : ∀ w, A.uc.wallClock (ρ w) = A.uc.wallClock w) (s : Sys W R)
    (os : List OpOption) : newOpOpts A (s.further k ρ) os = newOpOpts A s os := by
  unfold newOpOpts
  rw [show (s.further k ρ).w = ρ s.w from rfl, hw]

theorem engTick_further (an : A.Anon (fun n => n + k) ρ) (hl : ∀ w, A.uc.lockErr (ρ w) = A.uc.lockErr w)
    (hw : ∀ w, A.uc.wallClock (ρ w) = A.uc.wallClock w) (fuel : Nat) (order : List HConfig)
    (os : List OpOption) (s : Sys W R) :
    engTick A fuel order os (s.further k ρ) =
      ((engTick A fuel order os s).1.further k ρ, (engTick A fuel order os s).2) := by
  unfold engTick
  rw [newOpOpts_further hw]
  cases newOpOpts A s os with
  | error v => rfl
  | ok oo =>
    simp only
    rw [show (s.further k ρ).notify (.tickCycleBegun (oo.cycle A)) =
      (s.notify (.tickCycleBegun (oo.cycle A))).further k ρ
      from further_notify s (.tickCycleBegun (oo.cycle A))]
    generalize s.notify (.tickCycleBegun (oo.cycle A)) = t
    rw [show (t.further k ρ).w = ρ t.w from rfl, hl]
    cases A.uc.lockErr t.w with
    | some e => exact Prod.ext (further_notify t (.tickCycleCompleted (oo.cycle A).maps [.lock e])) rfl
    | none =>
      simp only
      rw [tickLocked_further an]
      rcases engTickLocked A oo fuel order t with ⟨t1, es | v | _⟩
      · exact Prod.ext (further_notify t1 (.tickCycleCompleted (oo.cycle A).maps es)) rfl
      · rfl
      · rfl

theorem engDispatch_further (an : A.Anon (fun n => n + k) ρ) (hl : ∀ w, A.uc.lockErr (ρ w) = A.uc.lockErr w)
    (hw : ∀ w, A.uc.wallClock (ρ w) = A.uc.wallClock w) (fuel : Nat) (m : Message)
    (os : List OpOption) (s : Sys W R) :
    engDispatch A fuel m os (s.further k ρ) =
      ((engDispatch A fuel m os s).1.further k ρ, (engDispatch A fuel m os s).2) := by
  have hs : ({ s.further k ρ with nextID := (s.further k ρ).nextID + 1 } : Sys W R) =
      ({ s with nextID := s.nextID + 1 } : Sys W R).further k ρ := by
    simp only [Sys.further, Sys.ren, Sys.mk.injEq, true_and, and_true]
    omega
  have he : ∀ now, Env.root ((s.further k ρ).nextID + 1) m now =
      (Env.root (s.nextID + 1) m now).ren fun n => n + k := by
    intro now
    have : (s.further k ρ).nextID + 1 = s.nextID + 1 + k := by
      simp only [Sys.further, Sys.ren]
      omega
    rw [this]
    rfl
  unfold engDispatch
  simp only [hs, he]
  generalize ({ s with nextID := s.nextID + 1 } : Sys W R) = u
  rw [newOpOpts_further hw]
  cases newOpOpts A u os with
  | error v => rfl
  | ok oo =>
    simp only
    by_cases h1 : m.type.kind = .timeout
    · simp only [if_pos h1]
    simp only [if_neg h1]
    cases m.invalid with
    | some e => rfl
    | none =>
      simp only
      by_cases h2 : A.route m = []
      · simp only [if_pos h2]
      simp only [if_neg h2]
      generalize Env.root (s.nextID + 1) m oo.now = env
      rw [show (u.further k ρ).notify (.dispatchCycleBegun (env.ren fun n => n + k) (oo.cycle A)) =
        (u.notify (.dispatchCycleBegun env (oo.cycle A))).further k ρ
        from further_notify u (.dispatchCycleBegun env (oo.cycle A))]
      generalize u.notify (.dispatchCycleBegun env (oo.cycle A)) = t
      rw [show (t.further k ρ).w = ρ t.w from rfl, hl]
      cases A.uc.lockErr t.w with
      | some e => exact Prod.ext (further_notify t (.dispatchCycleCompleted env (oo.cycle A).maps [.lock e])) rfl
      | none =>
        simp only
        rw [show [env.ren fun n => n + k] = [env].map (Env.ren fun n => n + k) from rfl,
          dispatchLoop_further an]
        rcases dispatchLoop A oo fuel [env] [] t with ⟨t1, es | v | _⟩
        · exact Prod.ext (further_notify t1 (.dispatchCycleCompleted env (oo.cycle A).maps es)) rfl
        · rfl
        · rfl

/-! ## Theorems -/

/-- **C123**: whatever the number of message IDs handed out, `Dispatch()` and `Tick()` return the
same, notify observers of the same facts, call the same handlers and leave the same behind — with the
IDs continued. -/
theorem C123_operation (an : A.Anon (fun n => n + k) ρ) (hl : ∀ w, A.uc.lockErr (ρ w) = A.uc.lockErr w)
    (hw : ∀ w, A.uc.wallClock (ρ w) = A.uc.wallClock w) (op : Op) (hop : op ≠ .reset) (s : Sys W R) :
    op.exec A (s.further k ρ) = ((op.exec A s).1.further k ρ, (op.exec A s).2) := by
  cases op with
  | dispatch n m os => exact engDispatch_further an hl hw n m os s
  | tick n order os => exact engTick_further an hl hw n order os s
  | reset => exact absurd rfl hop

/-- **C123** for any number of operations. -/
theorem C123_history (an : A.Anon (fun n => n + k) ρ) (hl : ∀ w, A.uc.lockErr (ρ w) = A.uc.lockErr w)
    (hw : ∀ w, A.uc.wallClock (ρ w) = A.uc.wallClock w) (ops : List Op) (hop : .reset ∉ ops) (s : Sys W R) :
    Op.results A ops (s.further k ρ) = ((Op.results A ops s).1.further k ρ, (Op.results A ops s).2) := by
  induction ops generalizing s with
  | nil => rfl
  | cons op ops ih =>
    simp only [Op.results]
    rw [C123_operation an hl hw op (fun h => hop (by simp [h])) s]
    simp only
    rw [ih (fun h => hop (by simp [h]))]

/-- **C123** for `Reset()`: afterwards the numbers of IDs handed out are the same, and what was
before cannot be seen in what follows: both engines go on alike. -/
theorem C123_reset (an : A.Anon (fun n => n + k) ρ) (s : Sys W R) :
    Op.reset.exec A (s.further k ρ) =
      ((Op.reset.exec A s).1.ren (fun n => n + k) ρ 0, (Op.reset.exec A s).2) := by
  have h : ∀ n, Op.reset.exec A (s.ren (fun n => n + k) ρ n) =
      Op.reset.exec A (s.ren (fun n => n + k) ρ 0) := fun n => rfl
  rw [show s.further k ρ = s.ren (fun n => n + k) ρ (s.nextID + k) from rfl, h]
  have := engReset_ren an s
  simp only [Op.exec]
  rw [this]

theorem results_on (p : List (Obs R)) (ops : List Op) (s : Sys W R) :
    Op.results A ops (s.on p) = lft p (Op.results A ops s) := by
  induction ops generalizing s with
  | nil => rfl
  | cons op ops ih =>
    simp only [Op.results]
    rw [exec_on]
    simp only [lft]
    rw [ih]
    rfl

/-- **C123** for engines that have nothing left to remember: no aggregate instance with a history, no
process instance, no pending timeout.  Whatever messages have been through such an engine, it does
what a new engine would do: the IDs are just higher. -/
theorem C123_nothing_left (s : Sys W R) (hagg : ∀ h id, s.agg h id = none)
    (hproc : ∀ h, s.proc h = ⟨fun _ => none, []⟩) (an : A.Anon (fun n => n + s.nextID) ρ)
    (hl : ∀ w, A.uc.lockErr (ρ w) = A.uc.lockErr w) (hw : ∀ w, A.uc.wallClock (ρ w) = A.uc.wallClock w)
    (w : W) (hρ : ρ w = s.w) (ops : List Op) (hop : .reset ∉ ops) :
    Op.results A ops s =
      (let r := Op.results A ops { Sys.init w with lastCompact := s.lastCompact }
       ((r.1.further s.nextID ρ).on s.trace, r.2)) := by
  have hs : s = (({ Sys.init w with lastCompact := s.lastCompact } : Sys W R).further s.nextID ρ).on s.trace := by
    have h1 : s.agg = fun _ _ => none := by funext h id; exact hagg h id
    have h2 : s.proc = fun _ => ⟨fun _ => none, []⟩ := by funext h; exact hproc h
    obtain ⟨sw, sn, sa, sp, sl, st⟩ := s
    simp only at h1 h2 hρ
    subst h1 h2 hρ
    simp [Sys.further, Sys.ren, Sys.on, Sys.init]
  have h := C123_history an hl hw ops hop ({ Sys.init w with lastCompact := s.lastCompact } : Sys W R)
  have h' := results_on (A := A) s.trace ops
    (({ Sys.init w with lastCompact := s.lastCompact } : Sys W R).further s.nextID ρ)
  rw [← hs, h] at h'
  exact h'

end

theorem counts_ren (σ : Nat → Nat) (md : Bool) (f : Fact) :
    (f.ren σ).counts md = (f.counts md).map (Env.ren σ) := by
  unfold Fact.counts
  cases md <;> cases f <;> rfl

/-- **C123** for verdicts: an expectation has the same verdict on facts about messages with other
IDs. -/
theorem C123_verdict (σ : Nat → Nat) (s : PScope) (fs : List Fact) (x : Expectation)
    (hu : x.Unaware s s fs (fs.map (Fact.ren σ))) :
    ∀ b, x.verdict s (fs.map (Fact.ren σ)) = .decided b ↔ x.verdict s fs = .decided b := by
  have hc : ∀ md, countedIn md (fs.map (Fact.ren σ)) = countedIn md fs := by
    intro md
    clear hu
    unfold countedIn
    rw [List.filterMap_map]
    induction fs with
    | nil => rfl
    | cons f fs ih =>
      have h := counts_ren σ md f
      simp only [List.filterMap_cons, Function.comp_apply, h]
      cases f.counts md with
      | none => exact ih
      | some e => exact congrArg (e.msg :: ·) ih
  intro b
  rcases verdict_same (s := s) (s' := s) (strict := True) rfl rfl (fun _ h => h) (hc _) x hu
    (fun _ _ _ h => h) with h | ⟨⟨r, h1⟩, h2⟩
  · rw [h]
  · obtain ⟨r', h2⟩ := h2 trivial
    rw [h1, h2]
    simp

/-! ## Concrete cases -/

namespace Demo.Ids

/-- The options of an operation that takes place at `t`. -/
def at_ (t : Time) : List OpOption := [.currentTime t]

/-- A command, and a tick that makes a timeout due. -/
def later : List Op :=
  [.dispatch 20 (Verif.Demo.msgC "y") (at_ 3),
   .tick 20 [Verif.Demo.agg, Verif.Demo.proc, Verif.Demo.int, Verif.Demo.prj] (at_ 20)]

/-- The engine after a command. -/
def used : Sys (List Nat) (List String) :=
  (engDispatch Conc.Demo.app 20 (Verif.Demo.msgC "x") (at_ 1) (Sys.init [])).1

/-- The engine after a command for the integration: there is nothing left to remember. -/
def spent : Sys (List Nat) (List String) :=
  (engDispatch Conc.Demo.app 20 ⟨Verif.Demo.cmdD, "z", none⟩ (at_ 1) (Sys.init [])).1

end Demo.Ids

/-- The handlers meet the hypotheses of C123: the projection stores IDs and compares them. -/
example (k : Nat) : Conc.Demo.app.Anon (fun n => n + k) (List.map fun n => n + k) ∧
    (∀ w : List Nat, Conc.Demo.app.uc.lockErr (w.map fun n => n + k) = Conc.Demo.app.uc.lockErr w) ∧
    (∀ w : List Nat, Conc.Demo.app.uc.wallClock (w.map fun n => n + k) = Conc.Demo.app.uc.wallClock w) ∧
    .reset ∉ Demo.Ids.later :=
  ⟨Conc.Demo.app_anon _ fun _ _ h => Nat.add_right_cancel h, fun _ => rfl, fun _ => rfl, by
    simp [Demo.Ids.later]⟩

set_option maxRecDepth 100000 in
/-- A used engine, and the same engine had it handed out a hundred IDs more: a command and a tick
dispatch the same messages, with IDs that are higher by a hundred. -/
example : (dispatchedIn (Op.results Conc.Demo.app Demo.Ids.later Demo.Ids.used).1.trace).map Env.id =
      [1, 2, 3, 5, 6, 7, 8, 10, 4, 9, 11, 12] ∧
    (dispatchedIn (Op.results Conc.Demo.app Demo.Ids.later
      (Demo.Ids.used.further 100 (List.map fun n => n + 100))).1.trace).map Env.id =
      [101, 102, 103, 105, 106, 107, 108, 110, 104, 109, 111, 112] ∧
    (Op.results Conc.Demo.app Demo.Ids.later Demo.Ids.used).1.w = [2, 5, 7, 10, 12] ∧
    (Op.results Conc.Demo.app Demo.Ids.later Demo.Ids.used).2.length = 2 := by
  decide +kernel

set_option maxRecDepth 100000 in
/-- An engine that meets the hypotheses of `C123_nothing_left`, with two IDs handed out. -/
example : (∀ h id, Demo.Ids.spent.agg h id = none) ∧
    (∀ h, Demo.Ids.spent.proc h = ⟨fun _ => none, []⟩) ∧ Demo.Ids.spent.nextID = 2 ∧
    ([0].map fun n => n + 2) = Demo.Ids.spent.w := by
  refine ⟨fun _ _ => rfl, fun _ => rfl, ?_, ?_⟩ <;> decide +kernel

/-- An expectation that meets the hypothesis of `C123_verdict`, and facts that it is about. -/
example (s : PScope) (fs : List Fact) (m : Message) (σ : Nat → Nat) :
    (Expectation.not (.message m)).Unaware s s fs (fs.map (Fact.ren σ)) := trivial

end Verif
