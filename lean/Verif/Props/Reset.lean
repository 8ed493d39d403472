import Verif.Shift
import Verif.Frame
import Verif.Props.Compact

/-!
# What a reset does

C18.
-/

namespace Verif

variable {W R : Type}

/-! ## Specification -/

/-- What resetters do to the world, one after the other, up to the first that panics. -/
def resetWorld : List (W → W × Option PanicVal) → W → W × Option PanicVal
  | [], w => (w, none)
  | f :: fs, w =>
    match f w with
    | (w, some v) => (w, some v)
    | (w, none) => resetWorld fs w

/-- Something that happens to an engine: its surroundings change, or it is used. -/
inductive Event (W : Type) where
  | world (w : W)
  | op (o : Op)

/-- What can be seen of an engine while things happen to it: for every operation, what is
observed during it, how it ends, and the world it leaves. -/
def behaviour (A : App W R) : List (Event W) → Sys W R →
    List (List (Obs R) × Outcome (List EngErr) × W)
  | [], _ => []
  | .world w :: es, s => behaviour A es { s with w := w }
  | .op o :: es, s =>
    (during s (o.exec A s).1, (o.exec A s).2, (o.exec A s).1.w) :: behaviour A es (o.exec A s).1

/-! ## Lemmas -/

theorem runResetters_sum (fs : List (W → W × Option PanicVal)) : ∀ (i : Nat) (s : Sys W R),
    ∃ k, (runResetters i fs s).1 = { s with
        trace := s.trace ++ (List.range' i k).map (fun j => .call (.resetter j)),
        w := (resetWorld fs s.w).1 } ∧
      (runResetters i fs s).2 = (match (resetWorld fs s.w).2 with
        | none => .done []
        | some v => .panicked v) ∧
      k ≤ fs.length ∧ ((resetWorld fs s.w).2 = none → k = fs.length) := by
  induction fs with
  | nil => intro i s; exact ⟨0, by simp [runResetters, resetWorld], rfl, Nat.le_refl _, fun _ => rfl⟩
  | cons f fs ih =>
    intro i s
    unfold runResetters resetWorld
    rcases hf : f s.w with ⟨w, _ | v⟩
    · obtain ⟨k, h1, h2, h3, h4⟩ := ih (i + 1) ({ s.emit (.call (.resetter i)) with w := w })
      refine ⟨k + 1, ?_, ?_, by simpa using h3, ?_⟩
      · simp only [Sys.user, hf]
        rw [h1]
        simp [Sys.emit, List.range'_succ]
      · simp only [Sys.user, hf]
        exact h2
      · intro h; simp only at h; simp [h4 h]
    · refine ⟨1, ?_, ?_, by simp, by simp⟩
      · simp [Sys.user, hf, Sys.emit, List.range'_succ]
      · simp [Sys.user, hf]

theorem during_on (p : List (Obs R)) (s s' : Sys W R) :
    during (s.on p) (s'.on p) = during s s' := by
  simp [during, Sys.on, List.drop_append]

theorem behaviour_on (A : App W R) (p : List (Obs R)) (es : List (Event W)) : ∀ s : Sys W R,
    behaviour A es (s.on p) = behaviour A es s := by
  induction es with
  | nil => intro s; rfl
  | cons e es ih =>
    intro s
    cases e with
    | world w => exact ih { s with w := w }
    | op o =>
      simp only [behaviour]
      rw [exec_on]
      simp only [lft]
      rw [during_on, ih]
      rfl

/-! ## C18 -/

/-- **C18 (1).**  A reset runs the resetters once each in the order in which they were
registered (up to one that panics) and nothing else; afterwards the engine has no aggregate
history, no process instances, no pending timeouts, and numbers messages from the start. -/
theorem C18_reset (A : App W R) (s : Sys W R) :
    let r := Op.reset.exec A s
    r.1.nextID = 0 ∧ (∀ n id, r.1.agg n id = none) ∧ (∀ n id, (r.1.proc n).inst id = none) ∧
    (∀ n, (r.1.proc n).timeouts = []) ∧
    r.1.w = (resetWorld A.uc.resetters s.w).1 ∧
    (∃ k, during s r.1 = .reset :: (List.range k).map (fun i => .call (.resetter i)) ∧
      k ≤ A.uc.resetters.length ∧
      ((resetWorld A.uc.resetters s.w).2 = none → k = A.uc.resetters.length)) ∧
    r.2 = (match (resetWorld A.uc.resetters s.w).2 with
      | none => .done []
      | some v => .panicked v) := by
  intro r
  obtain ⟨k, h1, h2, h3, h4⟩ := runResetters_sum A.uc.resetters 0 ({ s.emit .reset with
      nextID := 0, agg := fun _ _ => none, proc := fun _ => ⟨fun _ => none, []⟩ } : Sys W R)
  have e1 : r.1 = _ := h1
  have e2 : r.2 = _ := h2
  refine ⟨by rw [e1], fun n id => by rw [e1], fun n id => by rw [e1], fun n => by rw [e1],
    by rw [e1]; rfl, ⟨k, ?_, h3, h4⟩, e2⟩
  refine during_seg ?_
  rw [e1]
  simp [Sys.emit, List.range_eq_range']

/-- **C18 (2).**  If no tick has ever compacted a projection, then after a reset the engine
behaves like a new one in the same surroundings, whatever happens to it later.

The full claim, without the hypothesis, is false of the code: see `C18_fails`. -/
theorem C18_like_new_partial {A : App W R} {s : Sys W R} (hs : Reach A s)
    (hc : ∀ n, tickCompactions n s.trace = []) (es : List (Event W)) :
    behaviour A es (Op.reset.exec A s).1 =
      behaviour A es (Sys.init (Op.reset.exec A s).1.w) := by
  obtain ⟨k, h1, -, -, -⟩ := runResetters_sum A.uc.resetters 0 ({ s.emit .reset with
      nextID := 0, agg := fun _ _ => none, proc := fun _ => ⟨fun _ => none, []⟩ } : Sys W R)
  have e1 : (Op.reset.exec A s).1 = _ := h1
  have hl : s.lastCompact = fun _ => 0 := by
    funext n
    rw [((compacted_lift A).reach hs).last n]
    simp [lastTickCompaction, hc]
  have : (Op.reset.exec A s).1 = (Sys.init (Op.reset.exec A s).1.w : Sys W R).on
      (Op.reset.exec A s).1.trace := by
    rw [e1]
    simp [Sys.on, Sys.init, Sys.emit, hl]
  rw [this, behaviour_on]
  rfl

/-- **C18 (3).**  The clocks of compaction are all that a reset leaves: the engine behaves like a
new one in the same surroundings, whose projections were last compacted when they were. -/
theorem C18_like_new_but_clocks {A : App W R} {s : Sys W R} (hs : Reach A s) (es : List (Event W)) :
    behaviour A es (Op.reset.exec A s).1 =
      behaviour A es { (Sys.init (Op.reset.exec A s).1.w : Sys W R) with
        lastCompact := fun n => lastTickCompaction n s.trace } := by
  obtain ⟨k, h1, -, -, -⟩ := runResetters_sum A.uc.resetters 0 ({ s.emit .reset with
      nextID := 0, agg := fun _ _ => none, proc := fun _ => ⟨fun _ => none, []⟩ } : Sys W R)
  have e1 : (Op.reset.exec A s).1 = _ := h1
  have hl : s.lastCompact = fun n => lastTickCompaction n s.trace := by
    funext n
    rw [((compacted_lift A).reach hs).last n]
  have : (Op.reset.exec A s).1 = ({ (Sys.init (Op.reset.exec A s).1.w : Sys W R) with
      lastCompact := fun n => lastTickCompaction n s.trace } : Sys W R).on (Op.reset.exec A s).1.trace := by
    rw [e1]
    simp [Sys.on, Sys.init, Sys.emit, hl]
  rw [this, behaviour_on]
  rfl

namespace Demo

/-- A tick long after Go's zero time. -/
def tickAt (t : Int) : Op := .tick 20 [agg, proc, int, prj] [.currentTime t]

/-- An engine in use. -/
def used : Sys Nat (List String) := runOps app [tickAt 4000000000000] (Sys.init 0)

theorem compactionsFrom_nil {R : Type} (n : String) (t : List (Obs R)) :
    ∀ cur, t.all (fun o => !(o matches .call (.prjCompact ..))) = true →
      compactionsFrom n cur t = [] := by
  induction t with
  | nil => intros; rfl
  | cons o t ih =>
    intro cur h
    simp only [List.all_cons, Bool.and_eq_true] at h
    unfold compactionsFrom
    rw [ih _ h.2]
    split
    · simp at h
    · rfl

theorem used_reach : Reach app used :=
  runOps_reach _ (by simp [tickAt, Op.ok, app]) (.init 0)

end Demo

set_option maxRecDepth 100000 in
/-- **C18, full claim, is false.**  Projections remember across a reset when they were last
compacted: an engine that was ticked, reset, and ticked again a quarter of an hour later does
not compact; a new engine does. -/
theorem C18_fails : ¬ ∀ (W R : Type) (A : App W R) (s : Sys W R), A.WF → Reach A s →
    ∀ es : List (Event W), behaviour A es (Op.reset.exec A s).1 =
      behaviour A es (Sys.init (Op.reset.exec A s).1.w) := by
  intro h
  have := h _ _ Demo.app Demo.used Demo.app_wf Demo.used_reach [.op (Demo.tickAt 5000000000000)]
  exact absurd this (by decide +kernel)

set_option maxRecDepth 100000 in
/-- The hypotheses of (2) are met by a busy engine. -/
example : Reach Demo.app Demo.final ∧ (∀ n, tickCompactions n Demo.final.trace = []) ∧
    Demo.final.nextID = 12 ∧ ((Demo.final.agg "agg" "a").map List.length) = some 2 ∧
    (Op.reset.exec Demo.app Demo.final).1.nextID = 0 :=
  ⟨Demo.final_reach, fun n => Demo.compactionsFrom_nil n _ _ (by decide +kernel), by decide +kernel⟩

end Verif
