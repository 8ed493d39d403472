import Verif.Props.Dispatch
import Verif.Props.Process

/-!
# What handlings emit, and timeouts in ticks: C24, C31, C33, C37, C38

See `Verif.Props.Dispatch` for `during` and `happenedDuring`.
-/

namespace Verif

variable {W R : Type}

/-- What a handling emits is dispatched, as a block. -/
theorem emitted_block {A : App W R} (wf : A.WF) {s : Sys W R} (hs : Reach A s) {op : Op}
    (hop : op.ok A) (hne : op ≠ .reset) {s' : Sys W R} {errs : List EngErr}
    (hr : op.exec A s = (s', .done errs)) (hi : ¬ Interrupted errs) {x : Happening R}
    (hx : x ∈ happenedDuring s s') : x.emits <:+: dispatchedIn (during s s') := by
  rw [C05_complete wf hs op hop hne hr hi]
  obtain ⟨L1, L2, hL⟩ := List.append_of_mem hx
  rw [hL]
  refine ⟨op.initial A s ++ L1.flatMap Happening.emits, L2.flatMap Happening.emits, ?_⟩
  simp

/-! ## C24, C38 -/

/-- **C24.** The events recorded by an aggregate in a command handling are dispatched, in order, also
if the handling left the instance destroyed. -/
theorem C24_dispatched {A : App W R} (wf : A.WF) {s : Sys W R} (hs : Reach A s) (op : Op)
    (hop : op.ok A) (hne : op ≠ .reset) {s' : Sys W R} {errs : List EngErr}
    (hr : op.exec A s = (s', .done errs)) (hi : ¬ Interrupted errs)
    {now : Time} {h : HConfig} {env : Env} {seg : List (Obs R)} {err : Option Err}
    (hx : .handled now h env seg err ∈ happenedDuring s s') (ht : h.htype = .aggregate) :
    aggEventsIn seg <:+: dispatchedIn (during s s') := by
  have := emitted_block wf hs hop hne hr hi hx
  simp only [Happening.emits, emission, ht] at this
  exact this

/-- **C38.** The events recorded by an integration are dispatched, in order, whatever error its
handler returned. -/
theorem C38_dispatched {A : App W R} (wf : A.WF) {s : Sys W R} (hs : Reach A s) (op : Op)
    (hop : op.ok A) (hne : op ≠ .reset) {s' : Sys W R} {errs : List EngErr}
    (hr : op.exec A s = (s', .done errs)) (hi : ¬ Interrupted errs)
    {now : Time} {h : HConfig} {env : Env} {seg : List (Obs R)} {err : Option Err}
    (hx : .handled now h env seg err ∈ happenedDuring s s') (ht : h.htype = .integration) :
    intEventsIn seg <:+: dispatchedIn (during s s') := by
  have := emitted_block wf hs hop hne hr hi hx
  simp only [Happening.emits, emission, ht] at this
  exact this

namespace Demo

def failed : Sys Nat (List String) := ((Op.dispatch 20 (msgC "x") []).exec failing (Sys.init 0)).1

end Demo

set_option maxRecDepth 100000 in
/-- In the failing demo the integration returned an error after recording an event; the result of
the operation is not an interruption. -/
example : (happenedDuring (Sys.init 0) Demo.failed).any (fun x => match x with
      | .handled _ h _ seg (some _) => h.htype = .integration ∧ (intEventsIn seg).length = 1
      | _ => false) = true ∧
    ((Op.dispatch 20 (Demo.msgC "x") []).exec Demo.failing (Sys.init 0)).2 =
      .done [.handler "prj" .projection "prj failed", .handler "int" .integration "int failed",
        .handler "prj" .projection "prj failed"] := by decide +kernel

/-! ## C33, C37 -/

/-- **C33, C37.** The commands executed by a process handling that completed without error are
dispatched, in order, also if it left the instance ended. -/
theorem C33_commands {A : App W R} (wf : A.WF) {s : Sys W R} (hs : Reach A s) (op : Op)
    (hop : op.ok A) (hne : op ≠ .reset) {s' : Sys W R} {errs : List EngErr}
    (hr : op.exec A s = (s', .done errs)) (hi : ¬ Interrupted errs)
    {now : Time} {h : HConfig} {env : Env} {seg : List (Obs R)}
    (hx : .handled now h env seg none ∈ happenedDuring s s') (ht : h.htype = .process) :
    commandsIn seg <:+: dispatchedIn (during s s') := by
  have := emitted_block wf hs hop hne hr hi hx
  simp only [Happening.emits, emission, ht] at this
  exact (List.prefix_append _ _).isInfix.trans this

/-- **C37.** Timeouts scheduled for a time that is not after the engine time, by a handling that
completed without error and did not leave the instance ended, are dispatched in the same
operation right after the handling's commands. -/
theorem C37_immediate {A : App W R} (wf : A.WF) {s : Sys W R} (hs : Reach A s) (op : Op)
    (hop : op.ok A) (hne : op ≠ .reset) {s' : Sys W R} {errs : List EngErr}
    (hr : op.exec A s = (s', .done errs)) (hi : ¬ Interrupted errs)
    {now : Time} {h : HConfig} {env : Env} {seg : List (Obs R)}
    (hx : .handled now h env seg none ∈ happenedDuring s s') (ht : h.htype = .process)
    (he : endedAfter false seg = false) :
    commandsIn seg ++ (timeoutsIn seg).filter (fun e => decide (e.scheduledFor ≤ op.time A s)) <:+:
      dispatchedIn (during s s') := by
  have := emitted_block wf hs hop hne hr hi hx
  obtain ⟨oo, left, h1, g, _⟩ := op_done wf hs op hop hne hr
  have h2 : now = op.time A s := by
    have := g.times _ hx
    simp only [Happening.time] at this
    rw [this, newOpOpts_now h1]; rfl
  simp only [Happening.emits, emission, ht, he] at this
  rw [← h2]
  exact this

set_option maxRecDepth 100000 in
/-- With engine time 20 the timeout at 10 is scheduled in the past and dispatched immediately. -/
example : (happenedDuring (Sys.init 0)
      ((Op.dispatch 20 (Demo.msgC "x") [.currentTime 20]).exec Demo.app (Sys.init 0)).1).any (fun x => match x with
        | .handled _ h _ seg none => h.htype = .process ∧ endedAfter false seg = false ∧
            (timeoutsIn seg).any (fun e => e.scheduledFor ≤ 20)
        | _ => false) = true ∧
    ((Op.dispatch 20 (Demo.msgC "x") [.currentTime 20]).exec Demo.app (Sys.init 0)).2 = .done [] := by
  decide +kernel

/-! ## C31 -/

theorem pend_now {name : String} {now : Time} (x : Happening R) (cur : List Env) (hx : x.time = now)
    (hc : ∀ e ∈ cur, now < e.scheduledFor) : ∀ e ∈ x.pend name cur, now < e.scheduledFor := by
  cases x with
  | ticked t h =>
    simp only [Happening.time] at hx; subst hx
    simp only [Happening.pend]
    split
    · intro e he; simpa using (List.mem_filter.1 he).2
    · exact hc
  | handled t h env seg err =>
    simp only [Happening.time] at hx; subst hx
    simp only [Happening.pend]
    split
    · split
      · exact hc
      · split
        · intro e he; exact hc e (List.mem_filter.1 he).1
        · intro e he
          rcases List.mem_append.1 he with he | he
          · exact hc e he
          · unfold futureIn at he; simpa using (List.mem_filter.1 he).2
    · exact hc

theorem pend_all {name : String} {now : Time} (L : List (Happening R)) (hL : ∀ x ∈ L, x.time = now) :
    ∀ cur : List Env, ((∀ e ∈ cur, now < e.scheduledFor) ∨
      ∃ h, .ticked now h ∈ L ∧ h.htype = .process ∧ h.name = name) →
      ∀ e ∈ L.foldl (fun cur x => x.pend name cur) cur, now < e.scheduledFor := by
  induction L with
  | nil =>
    rintro cur (h | ⟨h, hm, _⟩)
    · exact h
    · cases hm
  | cons x L ih =>
    intro cur hc
    rw [List.foldl_cons]
    apply ih (fun y hy => hL y (by simp [hy]))
    rcases hc with hc | ⟨h, hm, ht, hn⟩
    · exact .inl (pend_now x cur (hL x (by simp)) hc)
    · rcases List.mem_cons.1 hm with rfl | hm
      · left
        simp only [Happening.pend, ht, hn, and_self, if_true]
        intro e he; simpa using (List.mem_filter.1 he).2
      · exact .inr ⟨h, hm, ht, hn⟩

/-- **C31.** After a tick that is not cancelled (and does not panic), every pending timeout of every
process handler that took part is scheduled for after the time of the tick. -/
theorem C31_none_left {A : App W R} (wf : A.WF) {s : Sys W R} (hs : Reach A s) (n : Nat)
    (order : List HConfig) (ho : order.Perm A.cfgs) (os : List OpOption) {s' : Sys W R}
    {errs : List EngErr} (hr : (Op.tick n order os).exec A s = (s', .done errs))
    (hi : ¬ Interrupted errs) (h : HConfig) (hm : h ∈ A.cfgs) (hp : h.htype = .process)
    (ht : takesPart os h = true) :
    ∀ e ∈ (s'.proc h.name).timeouts, (Op.tick n order os).time A s < e.scheduledFor := by
  obtain ⟨oo, left, h1, g, _, tp⟩ := op_done wf hs (.tick n order os) ho (fun h => nomatch h) hr
  have hs' : Reach A s' := by
    have := Reach.step (.tick n order os) hs ho
    rw [hr] at this; exact this
  have hnow : oo.now = (Op.tick n order os).time A s := newOpOpts_now h1
  intro e he
  have he := (C29_pending wf hs' h.name).1.mem_iff.1 he
  rw [g.happens] at he
  unfold pendingAfter at he
  rw [List.foldl_append] at he
  rw [← hnow]
  refine pend_all (happenedDuring s s') g.times _ (.inr ⟨h, ?_, hp, rfl⟩) e he
  rcases tp _ _ _ rfl with ⟨_, h2, _⟩ | ⟨L2, h2, h3⟩
  · exact absurd (h2 errs rfl) hi
  · rw [h2]
    refine List.mem_append_left _ (List.mem_map_of_mem (List.mem_filter.2 ⟨ho.mem_iff.2 hm, ?_⟩))
    have h1 : newOpOpts A s os = .ok oo := h1
    rw [newOpOpts_skip h1, takesPart_iff.1 ht]; rfl

set_option maxRecDepth 100000 in
/-- In the demo the tick at 10 finds two due timeouts. -/
example : Reach Demo.app Demo.before ∧ Demo.tick10.exec Demo.app Demo.before = (Demo.after, .done []) ∧
    ¬ Interrupted [] ∧ ((Demo.before.proc "proc").timeouts.map Env.scheduledFor) = [10, 10] :=
  ⟨Demo.before_reach, Demo.tick10_exec, Demo.not_interrupted, by decide +kernel⟩

end Verif
