import Verif.OpView
import Verif.Fuel
import Verif.Demo

/-!
# Operations: C03, C05, C07, C10–C12

Every theorem is about one operation `op` started in any state `s` reached from a new engine
by any history, with any user code; it ends in `s'` with outcome `out`.  `during s s'` is what
was observed in the operation, `happenedDuring s s'` the handlings completed and controllers
ticked in it.
-/

namespace Verif

variable {W R : Type}

namespace Demo

/-- The state after two dispatches. -/
def before : Sys Nat (List String) := runOps app (history.take 2) (Sys.init 0)

theorem before_reach : Reach app before :=
  runOps_reach _ (fun op ho => history_ok op (List.mem_of_mem_take ho)) (.init 0)

/-- A tick at time 10, which releases two timeouts. -/
def tick10 : Op := .tick 20 [agg, proc, int, prj] [.currentTime 10]

theorem tick10_ok : tick10.ok app := List.Perm.refl _

/-- The state after the tick. -/
def after : Sys Nat (List String) := (tick10.exec app before).1

set_option maxRecDepth 100000 in
theorem tick10_exec : tick10.exec app before = (after, .done []) := by
  have : (tick10.exec app before).2 = .done [] := by decide +kernel
  rw [← this]; rfl

theorem not_interrupted : ¬ Interrupted [] := by
  rintro (⟨c, h⟩ | ⟨e, h⟩) <;> cases h

end Demo

/-! ## C05 -/

/-- **C05.** An operation that finishes without cancellation has dispatched exactly its initial
messages followed by the messages emitted by each handling, in the order the handlings
completed. -/
theorem C05_complete {A : App W R} (wf : A.WF) {s : Sys W R} (hs : Reach A s) (op : Op)
    (hop : op.ok A) (hne : op ≠ .reset) {s' : Sys W R} {errs : List EngErr}
    (hr : op.exec A s = (s', .done errs)) (hi : ¬ Interrupted errs) :
    dispatchedIn (during s s') =
      op.initial A s ++ (happenedDuring s s').flatMap Happening.emits := by
  obtain ⟨oo, left, _, g, h1, _⟩ := op_done wf hs op hop hne hr
  have := g.disp
  rw [(h1 hi).1, List.append_nil] at this
  exact this

/-- **C05.** However an operation ends (panic, cancellation, lock error, still running), what it
has dispatched so far is a prefix of its initial messages followed by the messages emitted. -/
theorem C05_prefix {A : App W R} (wf : A.WF) {s : Sys W R} (hs : Reach A s) (op : Op)
    (hop : op.ok A) (hne : op ≠ .reset) {s' : Sys W R} {out : Outcome (List EngErr)}
    (hr : op.exec A s = (s', out)) :
    dispatchedIn (during s s') <+:
      op.initial A s ++ (happenedDuring s s').flatMap Happening.emits := by
  rcases op_flat wf hs op hop hne hr with ⟨h1, _⟩ | ⟨oo, left, _, g, _⟩
  · rw [h1]; exact List.nil_prefix
  · exact ⟨left, g.disp⟩

set_option maxRecDepth 100000 in
/-- In the demo the tick starts with two timeouts and dispatches four messages; the state is
reachable, the operation allowed and its result not an interruption. -/
example : Reach Demo.app Demo.before ∧ Demo.tick10.ok Demo.app ∧
    Demo.tick10.exec Demo.app Demo.before = (Demo.after, .done []) ∧ ¬ Interrupted [] ∧
    (Demo.tick10.initial Demo.app Demo.before).length = 2 ∧
    (dispatchedIn (during Demo.before Demo.after)).length = 4 :=
  ⟨Demo.before_reach, Demo.tick10_ok, Demo.tick10_exec, Demo.not_interrupted, by decide +kernel⟩

/-! ## C03 -/

/-- **C03.** All messages dispatched during one `Dispatch()` call carry, as correlation ID, the ID
of the message passed to that call. -/
theorem C03_conversation {A : App W R} (wf : A.WF) {s : Sys W R} (hs : Reach A s) (n : Nat)
    (m : Message) (os : List OpOption) {s' : Sys W R} {out : Outcome (List EngErr)}
    (hr : (Op.dispatch n m os).exec A s = (s', out)) :
    ∀ e ∈ dispatchedIn (during s s'), e.correlation = s.nextID + 1 := by
  rcases op_flat wf hs (.dispatch n m os) trivial (fun h => nomatch h) hr with
    ⟨h1, _⟩ | ⟨oo, left, _, g, _⟩
  · rw [h1]; intro e he; cases he
  · refine g.corr (s.nextID + 1) ?_
    intro e he
    rw [Op.initial, List.mem_singleton] at he
    rw [he]

/-! ## C07 -/

/-- **C07.** In an operation that does not panic, every dispatched message is offered (handled or
skipped) exactly once to each of its consumers, in registration order, and to nobody else;
a timeout is offered exactly to the handler that scheduled it. -/
theorem C07_offers {A : App W R} (wf : A.WF) {s : Sys W R} (hs : Reach A s) (op : Op)
    (hop : op.ok A) (hne : op ≠ .reset) {s' : Sys W R} {out : Outcome (List EngErr)}
    (hr : op.exec A s = (s', out)) (hp : ∀ v, out ≠ .panicked v) :
    offersIn (during s s') = (dispatchedIn (during s s')).flatMap
      (fun e => (consumers A.cfgs e).map (fun h => (e, h))) := by
  rcases op_flat wf hs op hop hne hr with ⟨_, _, _, _, _, v, hv⟩ | ⟨oo, left, _, g, _⟩
  · exact absurd hv (hp v)
  · obtain ⟨miss, h1, h2⟩ := g.offers
    rw [h2 hp, List.append_nil] at h1
    exact h1

/-- **C07.** If user code panics, only offers of the message being dispatched are missing. -/
theorem C07_panic {A : App W R} (wf : A.WF) {s : Sys W R} (hs : Reach A s) (op : Op)
    (hop : op.ok A) (hne : op ≠ .reset) {s' : Sys W R} {out : Outcome (List EngErr)}
    (hr : op.exec A s = (s', out)) :
    offersIn (during s s') <+: (dispatchedIn (during s s')).flatMap
      (fun e => (consumers A.cfgs e).map (fun h => (e, h))) := by
  rcases op_flat wf hs op hop hne hr with ⟨h1, _⟩ | ⟨oo, left, _, g, _⟩
  · rw [h1]; exact List.nil_prefix
  · obtain ⟨miss, h1, _⟩ := g.offers
    exact ⟨miss, h1⟩

set_option maxRecDepth 100000 in
/-- In the demo `E` is offered to two handlers. -/
example : Reach Demo.app (Sys.init 0) ∧
    (offersIn ((Op.dispatch 20 (Demo.msgC "x") []).exec Demo.app (Sys.init 0)).1.trace).map
      (fun x => (x.1.msg.type.name, x.2.name)) =
    [("C", "agg"), ("E", "proc"), ("E", "prj"), ("D", "int"), ("F", "prj")] :=
  ⟨.init 0, by decide +kernel⟩

/-! ## C10 -/

/-- **C10.** The result of an operation that is not cancelled (and does not panic) is the list of
all errors of handlings and ticks in order of occurrence, tagged with handler name and type.
That an error stops nothing else is C05 and C07, which do not depend on errors. -/
theorem C10_errors {A : App W R} (wf : A.WF) {s : Sys W R} (hs : Reach A s) (op : Op)
    (hop : op.ok A) (hne : op ≠ .reset) {s' : Sys W R} {errs : List EngErr}
    (hr : op.exec A s = (s', .done errs)) (hi : ¬ Interrupted errs) :
    errs = errorsIn (during s s') := by
  obtain ⟨oo, left, _, g, h1, _⟩ := op_done wf hs op hop hne hr
  exact (h1 hi).2

namespace Demo

/-- The demo with handlers that fail: the integration and the projection return errors. -/
def failing : App Nat (List String) :=
  { app with uc := { uc with
      intHandle := fun _ m => ops (some "int failed") [.record ⟨evtF, m.body, none⟩]
      prjHandle := fun _ _ _ _ _ _ => .ret (.error "prj failed") } }

theorem failing_wf : failing.WF := ⟨app_wf.names, app_wf.handlers⟩

end Demo

set_option maxRecDepth 100000 in
/-- Three errors of two handlers, in order; everything was dispatched nevertheless. -/
example : Demo.failing.WF ∧ Reach Demo.failing (Sys.init 0) ∧
    ((Op.dispatch 20 (Demo.msgC "x") []).exec Demo.failing (Sys.init 0)).2 =
      .done [.handler "prj" .projection "prj failed", .handler "int" .integration "int failed",
        .handler "prj" .projection "prj failed"] ∧
    (dispatchedIn ((Op.dispatch 20 (Demo.msgC "x") []).exec Demo.failing (Sys.init 0)).1.trace).length = 4 :=
  ⟨Demo.failing_wf, .init 0, by decide +kernel⟩

/-! ## C11 -/

theorem dispatch_accept {A : App W R} {s : Sys W R} {m : Message} {os : List OpOption} {oo : OpOpts}
    (h1 : newOpOpts A s os = .ok oo) (h2 : m.type.kind ≠ .timeout) (h3 : m.invalid = none)
    (h4 : A.route m ≠ []) (n : Nat) :
    engDispatch A n m os s =
      (let root := Env.root (s.nextID + 1) m oo.now
       let s1 := ({ s with nextID := s.nextID + 1 } : Sys W R).notify (.dispatchCycleBegun root (oo.cycle A))
       match A.uc.lockErr s1.w with
       | some e => (s1.notify (.dispatchCycleCompleted root (oo.cycle A).maps [.lock e]), .done [.lock e])
       | none =>
         match dispatchLoop A oo n [root] [] s1 with
         | (s, .done errs) => (s.notify (.dispatchCycleCompleted root (oo.cycle A).maps errs), .done errs)
         | (s, o) => (s, o)) := by
  unfold engDispatch
  have h1 : newOpOpts A ({ s with nextID := s.nextID + 1 } : Sys W R) os = .ok oo := h1
  simp only [h1, if_neg h2, h3, if_neg h4]
  rfl

/-- The cases of a `Dispatch()` that does not depend on its budget, and one that runs the loop. -/
theorem dispatch_cases (A : App W R) (s : Sys W R) (m : Message) (os : List OpOption) :
    (∃ s1 out, (∀ n, engDispatch A n m os s = (s1, out)) ∧ out ≠ .running ∧
      (∀ errs, out = .done errs → ∃ e, errs = [.lock e]) ∧ dispatchedIn (during s s1) = []) ∨
    ∃ (root : Env) (oo : OpOpts) (s1 : Sys W R), s1.trace = s.trace ++ [.fact (.dispatchCycleBegun root (oo.cycle A))] ∧
      ∀ n, engDispatch A n m os s =
        match dispatchLoop A oo n [root] [] s1 with
        | (s, .done errs) => (s.notify (.dispatchCycleCompleted root (oo.cycle A).maps errs), .done errs)
        | (s, o) => (s, o) := by
  have hrej : ∀ v, (∃ s1 out, (∀ n : Nat, ((({ s with nextID := s.nextID + 1 } : Sys W R),
      (Outcome.panicked v : Outcome (List EngErr)))) = (s1, out)) ∧ out ≠ .running ∧
      (∀ errs, out = .done errs → ∃ e, errs = [.lock e]) ∧ dispatchedIn (during s s1) = []) :=
    fun v => ⟨_, _, fun _ => rfl, nofun, nofun, by simp [during, dispatchedIn]⟩
  rcases h1 : newOpOpts A s os with v | oo
  · left
    have h1' : newOpOpts A ({ s with nextID := s.nextID + 1 } : Sys W R) os = .error v := h1
    have : ∀ n, engDispatch A n m os s = (({ s with nextID := s.nextID + 1 } : Sys W R), .panicked v) := by
      intro n; unfold engDispatch; simp only [h1']
    simp only [this]; exact hrej v
  · have h1' : newOpOpts A ({ s with nextID := s.nextID + 1 } : Sys W R) os = .ok oo := h1
    by_cases h2 : m.type.kind = .timeout
    · left
      have : ∀ n, engDispatch A n m os s =
          (({ s with nextID := s.nextID + 1 } : Sys W R), .panicked (.misuse "timeout")) := by
        intro n; unfold engDispatch; simp only [h1', if_pos h2]
      simp only [this]; exact hrej _
    · rcases h3 : m.invalid with _ | iv
      · by_cases h4 : A.route m = []
        · left
          have : ∀ n, engDispatch A n m os s = (({ s with nextID := s.nextID + 1 } : Sys W R),
              .panicked (.misuse (notConsumedText m))) := by
            intro n; unfold engDispatch; simp only [h1', if_neg h2, h3, if_pos h4]
          simp only [this]; exact hrej _
        · simp only [dispatch_accept h1 h2 h3 h4]
          split
          · rename_i e he
            left
            refine ⟨_, _, fun _ => rfl, nofun, ?_, ?_⟩
            · rintro errs ⟨⟩; exact ⟨e, rfl⟩
            · simp [during, dispatchedIn]
          · right; exact ⟨_, oo, _, by simp, fun _ => rfl⟩
      · left
        have : ∀ n, engDispatch A n m os s = (({ s with nextID := s.nextID + 1 } : Sys W R),
            .panicked (.misuse (cannotDispatchText m iv))) := by
          intro n; unfold engDispatch; simp only [h1', if_neg h2, h3]
        simp only [this]; exact hrej _

/-- **C11.** If the context is cancelled when `Dispatch()` finishes, the result is exactly the
context's error (unless the lock could not be obtained in the first place); otherwise the result
does not contain a context error.  The offers of the messages dispatched are complete in either
case (`C07_offers`). -/
theorem C11_result {A : App W R} (wf : A.WF) {s : Sys W R} (hs : Reach A s) (n : Nat)
    (m : Message) (os : List OpOption) {s' : Sys W R} {errs : List EngErr}
    (hr : (Op.dispatch n m os).exec A s = (s', .done errs)) (hl : ∀ e, errs ≠ [.lock e]) :
    (∀ c, A.uc.ctxErr s'.w = some c → errs = [.ctx c]) ∧
    (A.uc.ctxErr s'.w = none → ∀ c, .ctx c ∉ errs) := by
  have hr : engDispatch A n m os s = (s', .done errs) := hr
  constructor
  · intro c hc
    rcases dispatch_cases A s m os with ⟨s1, out, h1, _, h3, _⟩ | ⟨root, oo, s1, _, h⟩
    · rw [h1] at hr; cases hr
      obtain ⟨e, he⟩ := h3 _ rfl
      exact absurd he (hl e)
    · rw [h] at hr
      rcases hd : dispatchLoop A oo n [root] [] s1 with ⟨s2, o2⟩
      rw [hd] at hr
      cases o2 with
      | done errs =>
        simp only at hr; cases hr
        exact loop_cancelled A oo n [root] [] s1 s2 errs c (by simp) hd hc
      | panicked v => simp only at hr; cases hr
      | running => simp only at hr; cases hr
  · intro hc c hm
    obtain ⟨oo, left, _, g, _⟩ := op_done wf hs (.dispatch n m os) trivial (fun h => nomatch h) hr
    rcases g.done errs rfl with ⟨_, h2⟩ | ⟨pre, c', h, _, h3⟩ | ⟨e, h, _⟩
    · rw [h2] at hm
      obtain ⟨_, _, _, h0⟩ := errorsIn_handler hm
      cases h0
    · rw [hc] at h3; cases h3
    · exact hl e h

/-- **C11.** Let `Dispatch()` run, and look at it after any number `j ≥ 1` of messages that is not
all it will dispatch: there is a point, right after the `j`th message was completed, when the
context was not cancelled.  Hence no message is dispatched after one that found the context
cancelled when it was completed. -/
theorem C11_stops {A : App W R} (s : Sys W R) (n : Nat) (m : Message) (os : List OpOption)
    {s' : Sys W R} {out : Outcome (List EngErr)} (hr : (Op.dispatch n m os).exec A s = (s', out))
    (j : Nat) (hj : 0 < j) (hlt : j < (dispatchedIn (during s s')).length) :
    ∃ s1, (Op.dispatch j m os).exec A s = (s1, .running) ∧ A.uc.ctxErr s1.w = none ∧
      s1.trace <+: s'.trace ∧ (dispatchedIn (during s s1)).length = j ∧
      ∃ e de, (during s s1).getLast? = some (.fact (.dispatchCompleted e de)) := by
  have hr : engDispatch A n m os s = (s', out) := hr
  show ∃ s1, engDispatch A j m os s = (s1, .running) ∧ _
  rcases dispatch_cases A s m os with ⟨s1, out, h1, _, _, h4⟩ | ⟨root, oo, s0, h0, h⟩
  · rw [h1] at hr; cases hr
    rw [h4] at hlt; exact absurd hlt (Nat.not_lt_zero _)
  · have cnt : ∀ k s2 o2, engDispatch A k m os s = (s2, o2) →
        (dispatchedIn (during s s2)).length ≤ k := by
      intro k s2 o2 hk
      obtain ⟨t, k1, k2, _⟩ := loop_count A oo k [root] [] s0
      rw [h] at hk
      rcases hd : dispatchLoop A oo k [root] [] s0 with ⟨s3, o3⟩
      rw [hd] at hk k1
      have key : s2.trace = s.trace ++ ([.fact (.dispatchCycleBegun root (oo.cycle A))] ++ t) ∨
          ∃ errs, s2.trace = s.trace ++ ([.fact (.dispatchCycleBegun root (oo.cycle A))] ++ t ++
            [.fact (.dispatchCycleCompleted root (oo.cycle A).maps errs)]) := by
        cases o3 with
        | done errs =>
          simp only at hk k1; cases hk
          right; exact ⟨errs, by rw [Sys.notify_trace, k1, h0]; simp⟩
        | panicked v => simp only at hk k1; cases hk; left; rw [k1, h0]; simp
        | running => simp only at hk k1; cases hk; left; rw [k1, h0]; simp
      rcases key with e | ⟨errs, e⟩
      · unfold during; rw [e, List.drop_left, dispatchedIn_append]; simpa [dispatchedIn] using k2
      · unfold during; rw [e, List.drop_left, dispatchedIn_append, dispatchedIn_append]
        simpa [dispatchedIn] using k2
    have hjn : j < n := Nat.lt_of_lt_of_le hlt (cnt n s' out hr)
    obtain ⟨d, rfl⟩ : ∃ d, n = j + d := ⟨n - j, by omega⟩
    obtain ⟨t, k1, k2, k3⟩ := loop_count A oo j [root] [] s0
    obtain ⟨e1, e2⟩ := loop_extend A oo j [root] [] s0
    by_cases hrun : (dispatchLoop A oo j [root] [] s0).2 = .running
    · obtain ⟨k4, k5⟩ := k3 hrun
      obtain ⟨k6, e, de, k7⟩ := k5 hj
      obtain ⟨q1, errs1, _, k8⟩ := e2 hrun
      rcases hd : dispatchLoop A oo j [root] [] s0 with ⟨s1, o1⟩
      rw [hd] at hrun k1 k6 k8
      simp only at hrun k1 k6 k8
      subst hrun
      have hdu : during s s1 = [.fact (.dispatchCycleBegun root (oo.cycle A))] ++ t := by
        unfold during; rw [k1, h0, List.append_assoc, List.drop_left]
      refine ⟨s1, by rw [h, hd], k6, ?_, ?_, e, de, ?_⟩
      · obtain ⟨t2, k9, _⟩ := loop_count A oo d q1 errs1 s1
        rw [h, k8 d] at hr
        rcases hd2 : dispatchLoop A oo d q1 errs1 s1 with ⟨s3, o3⟩
        rw [hd2] at hr k9
        simp only at k9
        cases o3 with
        | done errs =>
          simp only at hr; cases hr
          exact ⟨t2 ++ [_], by rw [Sys.notify_trace, k9, List.append_assoc]⟩
        | panicked v => simp only at hr; cases hr; exact ⟨t2, k9.symm⟩
        | running => simp only at hr; cases hr; exact ⟨t2, k9.symm⟩
      · rw [hdu, dispatchedIn_append]; simpa [dispatchedIn] using k4
      · rw [hdu, List.getLast?_append, k7]; rfl
    · have : engDispatch A (j + d) m os s = engDispatch A j m os s := by
        rw [h, h, e1 hrun d]
      rw [this] at hr
      exact absurd (cnt j s' out hr) (by omega)

/-- **C11.** If `Tick()` is stopped by a cancelled context, the context's error ends the result; what
precedes it are errors of handlers. -/
theorem C11_tick {A : App W R} (wf : A.WF) {s : Sys W R} (hs : Reach A s) (n : Nat)
    (order : List HConfig) (ho : order.Perm A.cfgs) (os : List OpOption) {s' : Sys W R}
    {errs : List EngErr} (hr : (Op.tick n order os).exec A s = (s', .done errs)) (c : Err)
    (hc : .ctx c ∈ errs) :
    A.uc.ctxErr s'.w = some c ∧ ∃ pre, errs = pre ++ [.ctx c] ∧ pre <+: errorsIn (during s s') := by
  obtain ⟨oo, left, _, g, _⟩ := op_done wf hs (.tick n order os) ho (fun h => nomatch h) hr
  have hno : ∀ l, l <+: errorsIn (during s s') → .ctx c ∉ l := by
    intro l hl hm
    obtain ⟨_, _, _, h0⟩ := errorsIn_handler (hl.subset hm)
    cases h0
  rcases g.done errs rfl with ⟨_, h2⟩ | ⟨pre, c', h, h2, h3⟩ | ⟨e, h, _⟩
  · exact absurd hc (hno errs (by rw [h2]; exact List.prefix_refl _))
  · rw [h, List.mem_append, List.mem_singleton] at hc
    rcases hc with hc | hc
    · exact absurd hc (hno pre h2)
    · cases hc; exact ⟨h3, pre, h, h2⟩
  · rw [h, List.mem_singleton] at hc; cases hc

/-- **C11.** If `Tick()` is stopped (by cancellation or a panic) before all controllers that take part
have been ticked, no message is dispatched. -/
theorem C11_tick_phase {A : App W R} (wf : A.WF) {s : Sys W R} (hs : Reach A s) (n : Nat)
    (order : List HConfig) (ho : order.Perm A.cfgs) (os : List OpOption) {s' : Sys W R}
    {out : Outcome (List EngErr)} (hr : (Op.tick n order os).exec A s = (s', out))
    (h : HConfig) (hm : h ∈ A.cfgs) (ht : takesPart os h = true)
    (hno : ∀ now, .ticked now h ∉ happenedDuring s s') : dispatchedIn (during s s') = [] := by
  rcases op_flat wf hs (.tick n order os) ho (fun h => nomatch h) hr with
    ⟨h1, _⟩ | ⟨oo, left, h1, g, tp⟩
  · rw [h1]; rfl
  · rcases tp _ _ _ rfl with ⟨h2, _⟩ | ⟨L2, h2, _⟩
    · exact h2
    · refine absurd ?_ (hno oo.now)
      rw [h2]
      refine List.mem_append_left _ (List.mem_map_of_mem (List.mem_filter.2 ⟨ho.mem_iff.2 hm, ?_⟩))
      have h1 : newOpOpts A s os = .ok oo := h1
      rw [newOpOpts_skip h1, takesPart_iff.1 ht]; rfl

namespace Demo

/-- The demo with a projection whose handler cancels the context. -/
def cancelling : App Nat (List String) :=
  { app with uc := { uc with
      prjHandle := fun _ _ _ _ _ _ => .set 1 (.ret (.ok true)) } }

end Demo

set_option maxRecDepth 100000 in
/-- The projection cancels the context while it handles `E`; the command `D` produced by the process
is not dispatched. -/
example : Demo.cancelling.WF ∧ Reach Demo.cancelling (Sys.init 0) ∧
    ((Op.dispatch 20 (Demo.msgC "x") []).exec Demo.cancelling (Sys.init 0)).2 =
      .done [.ctx "context canceled"] ∧
    (dispatchedIn ((Op.dispatch 20 (Demo.msgC "x") []).exec Demo.cancelling (Sys.init 0)).1.trace).length = 2 ∧
    1 < (dispatchedIn (during (Sys.init 0)
      ((Op.dispatch 20 (Demo.msgC "x") []).exec Demo.cancelling (Sys.init 0)).1)).length :=
  ⟨⟨Demo.app_wf.names, Demo.app_wf.handlers⟩, .init 0, by decide +kernel⟩

/-! ## C12 -/

/-- **C12.** The observations of an operation are well bracketed (`bracketStep` says what may occur
where): if the operation finishes, everything that was opened is closed. -/
theorem C12_closed {A : App W R} (wf : A.WF) {s : Sys W R} (hs : Reach A s) (op : Op)
    (hop : op.ok A) (hne : op ≠ .reset) {s' : Sys W R} {errs : List EngErr}
    (hr : op.exec A s = (s', .done errs)) : bracketRun [] (during s s') = some [] := by
  obtain ⟨oo, left, _, g, _⟩ := op_done wf hs op hop hne hr
  obtain ⟨fr, h1, h2⟩ := g.brackets
  rw [h1, h2 errs rfl]

/-- **C12.** Also if user code panics nothing is observed at a place where it should not be. -/
theorem C12_always {A : App W R} (wf : A.WF) {s : Sys W R} (hs : Reach A s) (op : Op)
    (hop : op.ok A) (hne : op ≠ .reset) {s' : Sys W R} {out : Outcome (List EngErr)}
    (hr : op.exec A s = (s', out)) : ∃ st, bracketRun [] (during s s') = some st := by
  rcases op_flat wf hs op hop hne hr with ⟨h1, _⟩ | ⟨oo, left, _, g, _⟩
  · rw [h1]; exact ⟨[], rfl⟩
  · obtain ⟨fr, h1, _⟩ := g.brackets
    exact ⟨fr, h1⟩

set_option maxRecDepth 100000 in
example : Demo.tick10.exec Demo.app Demo.before = (Demo.after, .done []) ∧
    (during Demo.before Demo.after).length = 38 := ⟨Demo.tick10_exec, by decide +kernel⟩

end Verif
