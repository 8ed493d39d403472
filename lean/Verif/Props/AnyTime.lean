import Verif.Retime
import Verif.Refine
import Verif.Demo

/-!
# C120: what the engine does, does not depend on what time it is

Operations that take place some time later (or earlier) are handled the same, with the times of
messages, of facts and of what handlers are told moved accordingly.
-/

namespace Verif

variable {W R : Type}

/-! ## Specification -/

/-- Something that happens to an engine: an operation, or a change of the world. -/
inductive EStep (W : Type) where
  | op (op : Op)
  | world (w : W)

/-- The engine and what the operations return. -/
def Sys.steps (A : App W R) : List (EStep W) → Sys W R → Sys W R × List (Outcome (List EngErr))
  | [], s => (s, [])
  | .world w :: l, s => Sys.steps A l { s with w := w }
  | .op o :: l, s =>
    ((Sys.steps A l (o.exec A s).1).1, (o.exec A s).2 :: (Sys.steps A l (o.exec A s).1).2)

/-- The same, some time later. -/
def EStep.later (d : Int) (ρ : W → W) : EStep W → EStep W
  | .op o => .op (o.later d)
  | .world w => .world (ρ w)

/-- The operation is told the time, which is not within the first hour of Go's calendar, before or
after the move. -/
def Op.Dated (d : Int) (op : Op) : Prop :=
  op = .reset ∨ (∃ t, OpOption.currentTime t ∈ op.opts) ∧
    ∀ t, OpOption.currentTime t ∈ op.opts → Modern d t

/-! ## Proofs -/

section
variable {A : App W R} {d : Int} {ρ : W → W}

theorem reach_timed (wf : A.WF) {s : Sys W R} (hs : Reach A s) : s.Timed := fun n e he => by
  obtain ⟨_, ⟨_, _, _, _, _, hk⟩, _⟩ := (core_reach wf hs).pend n e he
  exact hk

theorem engineTime_mem (os : List OpOption) (w : Time) (h : ∃ t, OpOption.currentTime t ∈ os) :
    OpOption.currentTime (engineTime os w) ∈ os := by
  unfold engineTime
  cases hl : lastSome OpOption.timeSetting os with
  | none =>
    obtain ⟨t, ht⟩ := h
    have := List.findSome?_eq_none_iff.1 hl _ (List.mem_reverse.2 ht)
    cases this
  | some t =>
    obtain ⟨o, ho, h1⟩ := List.exists_of_findSome?_eq_some hl
    cases o with
    | currentTime x => cases h1; exact List.mem_reverse.1 ho
    | _ => cases h1

/-- One operation: given the moved operation, the moved engine does the same, and is in the moved
state afterwards.  In particular, it notifies observers of the same facts and calls the same
handlers in the same order; only times differ. -/
theorem C120_operation (wf : A.WF) (an : A.AnyTime d ρ) {s : Sys W R} (hs : Reach A s) (op : Op)
    (ht : op = .reset ∨ op.Told A d ρ s)
    (hm : ∀ n order os, op = .tick n order os → Modern d (op.time A s)) :
    ((op.later d).exec A (s.later d ρ)).1 = (op.exec A s).1.later d ρ ∧
    ((op.later d).exec A (s.later d ρ)).2 = (op.exec A s).2 := by
  have h := (op_later an op s (reach_timed wf hs) ht hm).1
  rw [h]
  exact ⟨rfl, rfl⟩

theorem Op.Dated.told {op : Op} (h : op.Dated d) (s : Sys W R) : op = .reset ∨ op.Told A d ρ s := by
  rcases h with h | h
  · exact .inl h
  · exact .inr (.inl h.1)

theorem Op.Dated.modern {op : Op} (h : op.Dated d) (s : Sys W R) :
    ∀ n order os, op = .tick n order os → Modern d (op.time A s) := by
  rintro n order os rfl
  rcases h with h | ⟨h1, h2⟩
  · cases h
  · exact h2 _ (engineTime_mem os _ h1)

/-- Any history: an engine on which the moved operations are performed is, at the end, in the moved
state, and each operation returned the same.  Applies to new engines, see `C120_new`. -/
theorem C120_history (wf : A.WF) (an : A.AnyTime d ρ) (l : List (EStep W)) :
    ∀ {s : Sys W R}, Reach A s → (∀ op, EStep.op op ∈ l → op.ok A ∧ op.Dated d) →
    Sys.steps A (l.map (EStep.later d ρ)) (s.later d ρ) =
      ((Sys.steps A l s).1.later d ρ, (Sys.steps A l s).2) := by
  induction l with
  | nil => intro s _ _; rfl
  | cons x l ih =>
    intro s hs hl
    have hl' : ∀ op, EStep.op op ∈ l → op.ok A ∧ op.Dated d := fun op h =>
      hl op (List.mem_cons_of_mem _ h)
    cases x with
    | world w => exact ih (.world w hs) hl'
    | op o =>
      have ho := hl o (by simp)
      obtain ⟨h1, h2⟩ := C120_operation wf an hs o (ho.2.told s) (ho.2.modern s)
      have := ih (.step o hs ho.1) hl'
      simp only [List.map_cons, EStep.later, Sys.steps, h1, h2, this]

/-- A new engine: what observers are told and which handlers are called is the same, with the times
moved; the operations return the same. -/
theorem C120_new (wf : A.WF) (an : A.AnyTime d ρ) (w : W) (l : List (EStep W))
    (hl : ∀ op, EStep.op op ∈ l → op.ok A ∧ op.Dated d) :
    let x := Sys.steps A l (Sys.init w)
    let x' := Sys.steps A (l.map (EStep.later d ρ)) (Sys.init (ρ w))
    x'.1.trace = x.1.trace.map (Obs.later d) ∧ x'.1.w = ρ x.1.w ∧ x'.2 = x.2 := by
  have := C120_history wf an l (.init w) hl
  rw [init_later] at this
  intro x x'
  have hx : x' = (x.1.later d ρ, x.2) := this
  rw [hx]
  exact ⟨rfl, rfl, rfl⟩

end

/-! ## A concrete application -/

namespace Demo

/-- Perform the operations one after the other, then return. -/
def does {O α : Type} (a : α) : List O → Prog Int O α
  | [] => .ret a
  | o :: os => .op o fun
    | some v => .panic v
    | none => does a os

/-- An application whose world is a clock.  The process handler looks at the time of the event,
schedules a timeout five seconds later, and sets the clock to the time it has seen; projections set
the clock too. -/
def clockUC : UserCode Int (List String) where
  aggRoute _ _ w := (w, .ok "a")
  aggNew _ w := (w, .ok (some []))
  aggApply _ r m w := (w, r ++ [m.body], none)
  aggHandle _ _ _ m := does () [.record ⟨evtE, m.body, none⟩]
  procRoute _ _ w := (w, .ok (.ok (some "p")))
  procNew _ w := (w, .ok (some []))
  procHandle _ _ r m t :=
    match m.type.kind with
    | .timeout => .set t (does none [.setRoot (r ++ [m.body]), .execute ⟨cmdD, m.body, none⟩, .end_])
    | _ => .set t (does none [.setRoot (r ++ [m.body]),
        .schedule ⟨tmoT, m.body, none⟩ (t + 5000000000)])
  intHandle _ m := does none [.log m.body, .record ⟨evtF, m.body, none⟩]
  prjVersion _ _ w := (w, .ok (.ok []))
  prjHandle _ _ _ _ m t := .set t (does (.ok true) [.log m.body])
  prjClose _ _ w := (w, .ok none)
  prjCompact _ now := .set now (.ret none)
  schedule _ := []
  resetters := [fun w => (w, none)]
  ctxErr _ := none
  lockErr _ := none
  wallClock w := w

def clockApp : App Int (List String) where
  cfgs := [agg, proc, int, prj]
  uc := clockUC
  compactDuringHandling := false
  sort := sortImpl

theorem clockApp_wf : clockApp.WF := ⟨app_wf.names, app_wf.handlers⟩

theorem does_sim {O α : Type} (ρ : Int → Int) (a : α) (l : List O) :
    Prog.Sim ρ (does a l) (does a l) := by
  induction l with
  | nil => exact .ret a
  | cons o l ih => exact .op o fun p => by cases p with | none => exact ih | some v => exact .panic v

theorem does_late {α : Type} (d : Int) (ρ : Int → Int) (a : α) (l : List (ProcOp (List String))) :
    Prog.Late d ρ (does a l) (does a (l.map (ProcOp.later d))) := by
  induction l with
  | nil => exact .ret a
  | cons o l ih => exact .op o fun p => by cases p with | none => exact ih | some v => exact .panic v

theorem insert_later (d : Int) (e : Env) (he : e.msg.type.kind = .timeout) (l : List Env)
    (hl : ∀ x ∈ l, x.msg.type.kind = .timeout) :
    insert (e.later d) (l.map (Env.later d)) = (insert e l).map (Env.later d) := by
  induction l with
  | nil => rfl
  | cons x l ih =>
    have ih := ih fun y hy => hl y (List.mem_cons_of_mem _ hy)
    have hx := hl x (by simp)
    unfold insert
    have e1 : (e.later d).scheduledFor = e.scheduledFor + d := by simp [Env.later, he]
    have e2 : (x.later d).scheduledFor = x.scheduledFor + d := by simp [Env.later, hx]
    simp only [List.map_cons, e1, e2]
    by_cases h : e.scheduledFor ≤ x.scheduledFor
    · rw [if_pos h, if_pos (by omega)]; rfl
    · rw [if_neg h, if_neg (by omega), ih]; rfl

theorem isort_later (d : Int) (l : List Env) (hl : ∀ x ∈ l, x.msg.type.kind = .timeout) :
    isort (l.map (Env.later d)) = (isort l).map (Env.later d) := by
  induction l with
  | nil => rfl
  | cons x l ih =>
    have hl' : ∀ y ∈ l, y.msg.type.kind = .timeout := fun y hy => hl y (List.mem_cons_of_mem _ hy)
    simp only [List.map_cons, isort]
    rw [ih hl', insert_later d x (hl x (by simp))]
    intro y hy
    exact hl' y ((sortImpl.perm l).mem_iff.1 hy)

/-- The user code of this application fits any time. -/
theorem clockApp_anyTime (d : Int) : clockApp.AnyTime d (· + d) where
  aggRoute _ _ _ := rfl
  aggNew _ _ := rfl
  aggApply _ _ _ _ := rfl
  aggHandle _ _ _ _ := does_sim _ _ _
  procRoute _ _ _ := rfl
  procNew _ _ := rfl
  procHandle h id r m t := by
    simp only [clockApp, clockUC]
    cases m.type.kind with
    | timeout => exact .set t (does_late d _ none [.setRoot (r ++ [m.body]),
        .execute ⟨cmdD, m.body, none⟩, .end_])
    | _ =>
      rw [show t + d + 5000000000 = t + 5000000000 + d by omega]
      exact .set t (does_late d _ none [.setRoot (r ++ [m.body]),
        .schedule ⟨tmoT, m.body, none⟩ (t + 5000000000)])
  intHandle _ _ := does_sim _ _ _
  prjVersion _ _ _ := rfl
  prjHandle _ _ _ _ _ t := .set t (does_sim _ _ _)
  prjClose _ _ _ := rfl
  prjCompact _ now := .set now (.ret none)
  schedule _ := rfl
  resetters f hf w := by
    have : f = fun w => (w, none) := by simpa [clockApp, clockUC] using hf
    rw [this]
  ctxErr _ := rfl
  lockErr _ := rfl
  sort l hl := isort_later d l hl

/-- Some hours after Go's zero time: a command, a tick that is too early for the timeout, and one
that is not; then a reset. -/
def clockSteps : List (EStep Int) :=
  [.op (.dispatch 20 (msgC "x") [.currentTime 7200000000000]),
   .op (.tick 20 [agg, proc, int, prj] [.currentTime 7203000000000]),
   .world 5,
   .op (.tick 20 [agg, proc, int, prj] [.currentTime 7205000000000]),
   .op .reset]

theorem clockSteps_ok (d : Int) (hd : -3600000000000 ≤ d) :
    ∀ op, EStep.op op ∈ clockSteps → op.ok clockApp ∧ op.Dated d := by
  intro op h
  simp only [clockSteps, List.mem_cons, List.not_mem_nil, or_false, EStep.op.injEq, reduceCtorEq,
    false_or] at h
  have key : ∀ t0 : Time, 7200000000000 ≤ t0 →
      (∃ t, OpOption.currentTime t ∈ [OpOption.currentTime t0]) ∧
      ∀ t, OpOption.currentTime t ∈ [OpOption.currentTime t0] → Modern d t := by
    intro t0 h0
    refine ⟨⟨t0, by simp⟩, ?_⟩
    intro t ht
    simp only [List.mem_singleton, OpOption.currentTime.injEq] at ht
    subst ht
    unfold Modern compactInterval
    omega
  rcases h with rfl | rfl | rfl | rfl
  · exact ⟨trivial, .inr (key _ (by decide))⟩
  · exact ⟨.refl _, .inr (key _ (by decide))⟩
  · exact ⟨.refl _, .inr (key _ (by decide))⟩
  · exact ⟨trivial, .inl rfl⟩

/-- What this history does: the timeout is handled, the handlers see times, and the projection is
compacted. -/
def clockEnd : Sys Int (List String) := (Sys.steps clockApp (clockSteps.take 4) (Sys.init 3)).1

set_option maxRecDepth 100000 in
example : clockEnd.trace.filterMap (fun
      | .call (.procHandle _ _ _ m t) => some (m.type.name, t)
      | .call (.prjCompact _ t) => some ("compact", t)
      | _ => none) =
    [("E", 7200000000000), ("compact", 7203000000000), ("T", 7205000000000)] := by decide +kernel

/-- The theorem, for this history a year later. -/
example : let d : Int := 31536000000000000
    (Sys.steps clockApp (clockSteps.map (EStep.later d (· + d))) (Sys.init (3 + d))).2 =
      (Sys.steps clockApp clockSteps (Sys.init 3)).2 :=
  (C120_new clockApp_wf (clockApp_anyTime _) 3 clockSteps (clockSteps_ok _ (by decide))).2.2

end Demo

/-- Within the first hour of Go's calendar it does matter what time it is: a projection that was
never compacted is compacted by a tick only if it takes place at least an hour after the zero time. -/
theorem C120_early : ∃ (d : Int) (op : Op), op.ok Demo.clockApp ∧
    (∃ t, OpOption.currentTime t ∈ op.opts) ∧ Demo.clockApp.AnyTime d (· + d) ∧
    ((op.later d).exec Demo.clockApp ((Sys.init 0).later d (· + d))).1 ≠
      (op.exec Demo.clockApp (Sys.init 0)).1.later d (· + d) := by
  refine ⟨3600000000000, .tick 5 [Demo.agg, Demo.proc, Demo.int, Demo.prj] [.currentTime 10],
    .refl _, ⟨10, by simp [Op.opts]⟩, Demo.clockApp_anyTime _, ?_⟩
  intro h
  have h' := congrArg (fun s => s.trace.length) h
  revert h'
  decide +kernel

end Verif
