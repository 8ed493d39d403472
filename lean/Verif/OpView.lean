import Verif.OpTick
import Verif.Options

/-!
# One view of both operations

`during s s'` is what was observed between two states, `happenedDuring s s'` the handlings
completed and controllers ticked between them.  `op_flat` describes every operation other than
`Reset()` in these terms.  Proof machinery, except for the definitions used in statements.
-/

namespace Verif

variable {W R : Type}

/-- What was observed between two states, the first of which came earlier. -/
def during (s s' : Sys W R) : List (Obs R) := s'.trace.drop s.trace.length

/-- The handlings completed and controllers ticked between two states. -/
def happenedDuring (s s' : Sys W R) : List (Happening R) :=
  (happenings s'.trace).drop (happenings s.trace).length

/-- The options given to an operation. -/
def Op.opts : Op → List OpOption
  | .dispatch _ _ os => os
  | .tick _ _ os => os
  | .reset => []

/-- The engine time of an operation started in state `s`. -/
def Op.time (A : App W R) (s : Sys W R) (op : Op) : Time := engineTime op.opts (A.uc.wallClock s.w)

/-- The pending timeouts of handler `h` that are due. -/
def dueTimeouts (s : Sys W R) (now : Time) (h : HConfig) : List Env :=
  (s.proc h.name).timeouts.filter (fun e => decide (e.scheduledFor ≤ now))

/-- The messages an operation starts with: the message given to `Dispatch()`, or the due timeouts
of the process handlers that take part in the tick, handler by handler. -/
def Op.initial (A : App W R) (s : Sys W R) (op : Op) : List Env :=
  match op with
  | .dispatch _ m _ =>
    [{ id := s.nextID + 1, causation := s.nextID + 1, correlation := s.nextID + 1, msg := m,
       createdAt := op.time A s }]
  | .tick _ order os =>
    (order.filter (fun h => takesPart os h && decide (h.htype = .process))).flatMap
      (dueTimeouts s (op.time A s))
  | .reset => []

/-- The operation ended because it could not get the engine's lock, or because the context was
cancelled. -/
def Interrupted (errs : List EngErr) : Prop := (∃ c, .ctx c ∈ errs) ∨ ∃ e, .lock e ∈ errs

theorem released_eq {A : App W R} (wf : A.WF) {s : Sys W R} (hs : Reach A s) (oo : OpOpts)
    (os : List OpOption) (h1 : newOpOpts A s os = .ok oo) (h : HConfig) :
    released oo s h = if takesPart os h && decide (h.htype = .process) then dueTimeouts s oo.now h
      else [] := by
  unfold released dueTimeouts
  have e : (skipHandler oo h = none ∧ h.htype = .process) ↔
      (takesPart os h && decide (h.htype = .process)) = true := by
    rw [newOpOpts_skip h1, Bool.and_eq_true, takesPart_iff, decide_eq_true_eq]
  by_cases hc : skipHandler oo h = none ∧ h.htype = .process
  · rw [if_pos hc, if_pos (e.1 hc)]
    exact takeWhile_sorted _ _ (((proc_refine A).reach wf hs).1 h.name).sorted
  · rw [if_neg hc, if_neg (fun x => hc (e.2 x))]

theorem flatMap_if {α β : Type} (p : α → Bool) (f : α → List β) (l : List α) :
    l.flatMap (fun x => if p x then f x else []) = (l.filter p).flatMap f := by
  induction l with
  | nil => rfl
  | cons x l ih =>
    rw [List.flatMap_cons, ih, List.filter_cons]
    split <;> simp

theorem flat_during {A : App W R} {oo : OpOpts} {s s' : Sys W R} {init : List Env}
    {out : Outcome (List EngErr)} {t : List (Obs R)} {L : List (Happening R)} {left : List Env}
    (g : OpFlat A oo s init s' out t L left) : t = during s s' ∧ L = happenedDuring s s' := by
  unfold during happenedDuring
  rw [g.happens, g.trace]
  simp

/-- Every operation other than `Reset()` is either rejected, or described by `OpFlat`. -/
theorem op_flat {A : App W R} (wf : A.WF) {s : Sys W R} (hs : Reach A s) (op : Op) (hop : op.ok A)
    (hne : op ≠ .reset) {s' : Sys W R} {out : Outcome (List EngErr)} (hr : op.exec A s = (s', out)) :
    (during s s' = [] ∧ happenedDuring s s' = [] ∧ s'.agg = s.agg ∧ s'.proc = s.proc ∧
      s'.lastCompact = s.lastCompact ∧ ∃ v, out = .panicked v) ∨
    ∃ oo left, newOpOpts A s op.opts = .ok oo ∧
      OpFlat A oo s (op.initial A s) s' out (during s s') (happenedDuring s s') left ∧
      ∀ n order os, op = .tick n order os →
        TickPhases oo order out (during s s') (happenedDuring s s') := by
  cases op with
  | reset => exact absurd rfl hne
  | dispatch n m os =>
    rcases dispatch_op wf (core_reach wf hs) n m os hr with ⟨h1, v, h2⟩ | ⟨oo, h1, _, _, _, t, L, left, g, _⟩
    · left; subst h1; exact ⟨by simp [during], by simp [happenedDuring], rfl, rfl, rfl, v, h2⟩
    · right
      obtain ⟨rfl, rfl⟩ := flat_during g
      refine ⟨oo, left, h1, ?_, fun _ _ _ h => nomatch h⟩
      have e : Op.initial A s (.dispatch n m os) = [Env.root (s.nextID + 1) m oo.now] := by
        rw [newOpOpts_now h1]; rfl
      rw [e]; exact g
  | tick n order os =>
    rcases tick_op wf (core_reach wf hs) n order hop os hr with ⟨h1, v, h2⟩ | ⟨oo, h1, t, L, left, g, tp, _⟩
    · left; subst h1; exact ⟨by simp [during], by simp [happenedDuring], rfl, rfl, rfl, v, h2⟩
    · right
      obtain ⟨rfl, rfl⟩ := flat_during g
      refine ⟨oo, left, h1, ?_, ?_⟩
      · have e : Op.initial A s (.tick n order os) = order.flatMap (released oo s) := by
          have : released oo s = fun h => if takesPart os h && decide (h.htype = .process) then
              dueTimeouts s oo.now h else [] := funext (released_eq wf hs oo os h1)
          rw [this, flatMap_if, newOpOpts_now h1]; rfl
        rw [e]; exact g
      · rintro _ _ _ ⟨⟩; exact tp

/-- An operation that finished was not rejected. -/
theorem op_done {A : App W R} (wf : A.WF) {s : Sys W R} (hs : Reach A s) (op : Op) (hop : op.ok A)
    (hne : op ≠ .reset) {s' : Sys W R} {errs : List EngErr} (hr : op.exec A s = (s', .done errs)) :
    ∃ oo left, newOpOpts A s op.opts = .ok oo ∧
      OpFlat A oo s (op.initial A s) s' (.done errs) (during s s') (happenedDuring s s') left ∧
      (¬ Interrupted errs → left = [] ∧ errs = errorsIn (during s s')) ∧
      ∀ n order os, op = .tick n order os →
        TickPhases oo order (.done errs) (during s s') (happenedDuring s s') := by
  rcases op_flat wf hs op hop hne hr with ⟨_, _, _, _, _, v, hv⟩ | ⟨oo, left, h1, g, tp⟩
  · cases hv
  · refine ⟨oo, left, h1, g, ?_, tp⟩
    intro hi
    rcases g.done errs rfl with h | ⟨pre, c, h, _⟩ | ⟨e, h, _⟩
    · exact h
    · exact absurd (.inl ⟨c, by rw [h]; simp⟩) hi
    · exact absurd (.inr ⟨e, by rw [h]; simp⟩) hi

/-- Errors of handlers are not errors of the context or of the lock. -/
theorem errorsIn_handler {t : List (Obs R)} {x : EngErr} (h : x ∈ errorsIn t) :
    ∃ n ty e, x = .handler n ty e := by
  unfold errorsIn at h
  obtain ⟨o, _, ho⟩ := List.mem_filterMap.1 h
  clear h
  split at ho
  · cases ho; exact ⟨_, _, _, rfl⟩
  · cases ho; exact ⟨_, _, _, rfl⟩
  · cases ho

end Verif
