import Verif.Fuel
import Verif.OpView
import Verif.Demo

/-!
# Operations that end: C80

An operation goes on forever only if its messages go round in circles.  `Ranked A rank` says that
commands and events do not: everything that a handler produces ranks lower than everything that it
consumes.  (Timeouts are consumed by the handler that produces them, so they are exempt.)
-/

namespace Verif

variable {W R : Type}

/-- The commands and events that a handler produces rank lower than what it consumes. -/
def Ranked (A : App W R) (rank : MType → Nat) : Prop :=
  ∀ h ∈ A.cfgs, ∀ c ∈ h.consumes, ∀ p ∈ h.produces, p.kind ≠ .timeout → rank p < rank c

/-- Timeouts that were already due when they were announced. -/
def dueAtOnce (t : List (Obs R)) : List Env :=
  (createdIn t).filter
    (fun e => decide (e.msg.type.kind = .timeout) && decide (e.scheduledFor ≤ e.createdAt))

/-- The same operation with another budget. -/
def Op.withFuel (n : Nat) : Op → Op
  | .dispatch _ m os => .dispatch n m os
  | .tick _ order os => .tick n order os
  | .reset => .reset

/-! ## Helpers -/

theorem dueAtOnce_append (a b : List (Obs R)) : dueAtOnce (a ++ b) = dueAtOnce a ++ dueAtOnce b := by
  simp [dueAtOnce, createdIn_append]

/-- What the handlings of one message put into the queue. -/
theorem handleAll_new {A : App W R} (wf : A.WF) {oo : OpOpts} {rank : MType → Nat} (hR : Ranked A rank)
    {env : Env} {hs : List HConfig} (ht : A.targets env = .ok hs) :
    ∀ (rest : List HConfig) (q : List Env) (de : List EngErr) (s s' : Sys W R) (q' : List Env)
      (de' : List EngErr), (∀ h ∈ rest, h ∈ hs) → CoreJ A oo env q s →
      handleAll A oo env rest q de s = (s', .ok (q', de')) →
      CoreJ A oo env q' s' ∧ ∃ new t, q' = q ++ new ∧ s'.trace = s.trace ++ t ∧
        ∀ e ∈ new, rank e.msg.type < rank env.msg.type ∨ e ∈ dueAtOnce t := by
  intro rest
  induction rest with
  | nil =>
    intro q de s s' q' de' _ hj hr
    cases hr
    exact ⟨hj, [], [], by simp, by simp, by simp⟩
  | cons h rest ih =>
    intro q de s s' q' de' hm hj hr
    unfold handleAll at hr
    rcases hc : handleOne A oo env h s with ⟨s1, v | ⟨envs, e⟩⟩
    · rw [hc] at hr; cases hr
    · rw [hc] at hr
      simp only at hr
      have hj1 := hj.handle wf ht (hm h (by simp)) hc
      obtain ⟨hj2, new, t, e1, e2, e3⟩ := ih _ _ _ _ _ _ (fun x hx => hm x (by simp [hx])) hj1 hr
      have hoff := hj.offered wf ht (hm h (by simp))
      have key : ∃ t1, s1.trace = s.trace ++ t1 ∧
          ∀ x ∈ envs, rank x.msg.type < rank env.msg.type ∨ x ∈ dueAtOnce t1 := by
        rcases handleOne_cases hoff.handler hoff.consumed hc with
          ⟨r, _, rfl, h0⟩ | ⟨hk, s2, seg, hh, ⟨v, hv, _⟩ | ⟨envs', e', hv, rfl⟩⟩
        · cases h0; exact ⟨_, Sys.notify_trace _ _, by simp⟩
        · cases hv
        · cases hv
          refine ⟨.fact (.handlingBegun h env) :: seg ++ [.fact (.handlingCompleted h env e)],
            by rw [Sys.notify_trace, hh.trace, Sys.notify_trace]; simp, ?_⟩
          intro x hx
          rw [hh.ok _ _ rfl] at hx
          obtain ⟨hcr, hto⟩ := emission_ok hoff.handler hh.inner hx
          have hch := createdIn_produced hh.inner hcr
          by_cases hkd : x.msg.type.kind = .timeout
          · right
            unfold dueAtOnce
            refine List.mem_filter.2 ⟨?_, ?_⟩
            · have e : (Obs.fact (.handlingBegun h env) :: seg ++ [.fact (.handlingCompleted h env e)] :
                  List (Obs R)) = [.fact (.handlingBegun h env)] ++ seg ++
                    [.fact (.handlingCompleted h env e)] := rfl
              rw [e, createdIn_append, createdIn_append]
              simp [hcr]
            · rw [hch.createdAt, decide_eq_true hkd, decide_eq_true (hto hkd).1]; rfl
          · exact .inl (hR h hoff.handler _ hoff.consumed _ hch.declared hkd)
      obtain ⟨t1, k1, k2⟩ := key
      refine ⟨hj2, envs ++ new, t1 ++ t, by rw [e1, List.append_assoc], by rw [e2, k1, List.append_assoc], ?_⟩
      intro x hx
      rw [dueAtOnce_append]
      rcases List.mem_append.1 hx with hx | hx
      · rcases k2 x hx with h | h
        · exact .inl h
        · exact .inr (by simp [h])
      · rcases e3 x hx with h | h
        · exact .inl h
        · exact .inr (by simp [h])

/-- One message of the dispatch loop. -/
theorem loop_next {A : App W R} (wf : A.WF) {oo : OpOpts} {rank : MType → Nat} (hR : Ranked A rank)
    {env : Env} {q : List Env} (errs : List EngErr) {s : Sys W R} (hi : CoreI A oo (env :: q) s) :
    (∃ r, r.2 ≠ .running ∧ ∀ n, dispatchLoop A oo (n + 1) (env :: q) errs s = r) ∨
    ∃ new e1 s1 t, CoreI A oo (q ++ new) s1 ∧ s1.trace = s.trace ++ t ∧
      (∀ e ∈ new, rank e.msg.type < rank env.msg.type ∨ e ∈ dueAtOnce t) ∧
      ∀ n, dispatchLoop A oo (n + 1) (env :: q) errs s = dispatchLoop A oo n (q ++ new) e1 s1 := by
  rcases ht : A.targets env with v | hs
  · exact .inl ⟨(s, .panicked v), nofun, fun n => by rw [dispatchLoop, ht]⟩
  · rcases hc : handleAll A oo env hs q [] (s.notify (.dispatchBegun env)) with ⟨s1, v | ⟨q1, de⟩⟩
    · exact .inl ⟨(s1, .panicked v), nofun, fun n => by rw [dispatchLoop, ht]; simp only [hc]⟩
    · cases hx : A.uc.ctxErr (s1.notify (.dispatchCompleted env de)).w with
      | some e =>
        exact .inl ⟨(s1.notify (.dispatchCompleted env de), .done [.ctx e]), nofun,
          fun n => by rw [dispatchLoop, ht]; simp only [hc, hx]⟩
      | none =>
        obtain ⟨hj, new, t, e1, e2, e3⟩ :=
          handleAll_new wf hR ht hs _ _ _ _ _ _ (fun _ h => h) hi.begin_ hc
        subst e1
        refine .inr ⟨new, errs ++ de, s1.notify (.dispatchCompleted env de),
          [.fact (.dispatchBegun env)] ++ t ++ [.fact (.dispatchCompleted env de)], hj.end_ de, ?_, ?_,
          fun n => by rw [dispatchLoop, ht]; simp only [hc, hx]⟩
        · rw [Sys.notify_trace, e2, Sys.notify_trace]; simp
        · intro x hx
          rw [dueAtOnce_append, dueAtOnce_append]
          rcases e3 x hx with h | h
          · exact .inl h
          · exact .inr (by simp [h])

theorem loop_nil (A : App W R) (oo : OpOpts) (n : Nat) (errs : List EngErr) (s : Sys W R) :
    dispatchLoop A oo n [] errs s = (s, .done errs) := by
  cases n <;> rfl

/-- The loop ends, or announces a timeout that is already due. -/
theorem loop_ends {A : App W R} (wf : A.WF) {oo : OpOpts} {rank : MType → Nat} (hR : Ranked A rank)
    (r : Nat) : ∀ (q1 q2 : List Env) (errs : List EngErr) (s : Sys W R), CoreI A oo (q1 ++ q2) s →
      (∀ e ∈ q1, rank e.msg.type ≤ r) → (∀ e ∈ q2, rank e.msg.type < r) →
      ∃ n, (dispatchLoop A oo n (q1 ++ q2) errs s).2 ≠ .running ∨
        ∃ q' e' t, t ≠ [] ∧ CoreI A oo q' (dispatchLoop A oo n (q1 ++ q2) errs s).1 ∧
          (dispatchLoop A oo n (q1 ++ q2) errs s).1.trace = s.trace ++ t ∧ dueAtOnce t ≠ [] ∧
          ∀ m, dispatchLoop A oo (n + m) (q1 ++ q2) errs s =
            dispatchLoop A oo m q' e' (dispatchLoop A oo n (q1 ++ q2) errs s).1 := by
  induction r with
  | zero =>
    intro q1
    induction q1 with
    | nil =>
      intro q2 errs s _ _ h2
      cases q2 with
      | nil => exact ⟨0, .inl (by simp [loop_nil])⟩
      | cons a b => exact absurd (h2 a (by simp)) (Nat.not_lt_zero _)
    | cons env q1 ih =>
      intro q2 errs s hi h1 h2
      exact loop_ends_cons wf hR ih hi h1 h2
  | succ r ihr =>
    intro q1
    induction q1 with
    | nil =>
      intro q2 errs s hi _ h2
      obtain ⟨n, h⟩ := ihr q2 [] errs s (by simpa using hi) (fun e he => Nat.le_of_lt_succ (h2 e he)) (by simp)
      exact ⟨n, by simpa using h⟩
    | cons env q1 ih =>
      intro q2 errs s hi h1 h2
      exact loop_ends_cons wf hR ih hi h1 h2
where
  loop_ends_cons {A : App W R} (wf : A.WF) {oo : OpOpts} {rank : MType → Nat} (hR : Ranked A rank)
      {r : Nat} {env : Env} {q1 : List Env}
      (ih : ∀ (q2 : List Env) (errs : List EngErr) (s : Sys W R), CoreI A oo (q1 ++ q2) s →
        (∀ e ∈ q1, rank e.msg.type ≤ r) → (∀ e ∈ q2, rank e.msg.type < r) →
        ∃ n, (dispatchLoop A oo n (q1 ++ q2) errs s).2 ≠ .running ∨
          ∃ q' e' t, t ≠ [] ∧ CoreI A oo q' (dispatchLoop A oo n (q1 ++ q2) errs s).1 ∧
            (dispatchLoop A oo n (q1 ++ q2) errs s).1.trace = s.trace ++ t ∧ dueAtOnce t ≠ [] ∧
            ∀ m, dispatchLoop A oo (n + m) (q1 ++ q2) errs s =
              dispatchLoop A oo m q' e' (dispatchLoop A oo n (q1 ++ q2) errs s).1)
      {q2 : List Env} {errs : List EngErr} {s : Sys W R} (hi : CoreI A oo (env :: q1 ++ q2) s)
      (h1 : ∀ e ∈ env :: q1, rank e.msg.type ≤ r) (h2 : ∀ e ∈ q2, rank e.msg.type < r) :
      ∃ n, (dispatchLoop A oo n (env :: q1 ++ q2) errs s).2 ≠ .running ∨
        ∃ q' e' t, t ≠ [] ∧ CoreI A oo q' (dispatchLoop A oo n (env :: q1 ++ q2) errs s).1 ∧
          (dispatchLoop A oo n (env :: q1 ++ q2) errs s).1.trace = s.trace ++ t ∧ dueAtOnce t ≠ [] ∧
          ∀ m, dispatchLoop A oo (n + m) (env :: q1 ++ q2) errs s =
            dispatchLoop A oo m q' e' (dispatchLoop A oo n (env :: q1 ++ q2) errs s).1 := by
    rcases loop_next wf hR errs (q := q1 ++ q2) hi with ⟨x, hx, he⟩ | ⟨new, e1, s1, t, hi1, ht, hn, he⟩
    · exact ⟨1, .inl (by have := he 0; rw [List.cons_append, this]; exact hx)⟩
    · by_cases hd : dueAtOnce t = []
      · have hn' : ∀ e ∈ q2 ++ new, rank e.msg.type < r := by
          intro e hm
          rcases List.mem_append.1 hm with hm | hm
          · exact h2 e hm
          · rcases hn e hm with h | h
            · exact Nat.lt_of_lt_of_le h (h1 env (by simp))
            · rw [hd] at h; cases h
        obtain ⟨n, h⟩ := ih (q2 ++ new) e1 s1 (by rw [← List.append_assoc]; exact hi1)
          (fun e hm => h1 e (by simp [hm])) hn'
        refine ⟨n + 1, ?_⟩
        rw [List.cons_append, he n, List.append_assoc]
        rcases h with h | ⟨q', e', u, hu, k1, k2, k3, k4⟩
        · exact .inl h
        · refine .inr ⟨q', e', t ++ u, by simp [hu], k1, by rw [k2, ht, List.append_assoc], ?_, ?_⟩
          · rw [dueAtOnce_append]; simp [k3]
          · intro m
            rw [show n + 1 + m = (n + m) + 1 by omega, he, List.append_assoc]
            exact k4 m
      · have h0 : ∀ q e (s : Sys W R), (dispatchLoop A oo 0 q e s).1 = s := by
          intro q e s; cases q <;> rfl
        refine ⟨1, .inr ⟨q1 ++ q2 ++ new, e1, t, ?_, ?_, ?_, hd, ?_⟩⟩
        · intro h; subst h; exact hd rfl
        · rw [List.cons_append, he 0, h0]; exact hi1
        · rw [List.cons_append, he 0, h0]; exact ht
        · intro m
          rw [List.cons_append, he 0, h0, Nat.add_comm 1 m]; exact he m

theorem exists_bound (rank : MType → Nat) (q : List Env) : ∃ r, ∀ e ∈ q, rank e.msg.type ≤ r := by
  induction q with
  | nil => exact ⟨0, by simp⟩
  | cons a q ih =>
    obtain ⟨r, h⟩ := ih
    refine ⟨max r (rank a.msg.type), ?_⟩
    intro e he
    rcases List.mem_cons.1 he with rfl | he
    · exact Nat.le_max_right _ _
    · exact Nat.le_trans (h e he) (Nat.le_max_left _ _)

theorem loop_forever {A : App W R} (wf : A.WF) {oo : OpOpts} {rank : MType → Nat} (hR : Ranked A rank)
    (k : Nat) : ∀ (q : List Env) (errs : List EngErr) (s : Sys W R), CoreI A oo q s →
      ∃ n, (dispatchLoop A oo n q errs s).2 ≠ .running ∨
        ∃ t, (dispatchLoop A oo n q errs s).1.trace = s.trace ++ t ∧ k ≤ (dueAtOnce t).length := by
  induction k with
  | zero =>
    intro q errs s _
    obtain ⟨t, h, _⟩ := loop_count A oo 0 q errs s
    exact ⟨0, .inr ⟨t, h, Nat.zero_le _⟩⟩
  | succ k ih =>
    intro q errs s hi
    obtain ⟨r, hr⟩ := exists_bound rank q
    obtain ⟨n, h⟩ := loop_ends wf hR r q [] errs s (by simpa using hi) hr (by simp)
    rw [List.append_nil] at h
    rcases h with h | ⟨q', e', t, _, k1, k2, k3, k4⟩
    · exact ⟨n, .inl h⟩
    · obtain ⟨m, h⟩ := ih q' e' _ k1
      refine ⟨n + m, ?_⟩
      rw [k4 m]
      rcases h with h | ⟨u, h1, h2⟩
      · exact .inl h
      · refine .inr ⟨t ++ u, by rw [h1, k2, List.append_assoc], ?_⟩
        rw [dueAtOnce_append, List.length_append]
        have : 1 ≤ (dueAtOnce t).length := by
          cases hd : dueAtOnce t with
          | nil => exact absurd hd k3
          | cons a b => simp
        omega

theorem tickAll_grows (A : App W R) (oo : OpOpts) (l : List HConfig) :
    ∀ (q : List Env) (errs : List EngErr) (s : Sys W R),
      ∃ t, (tickAll A oo l q errs s).1.trace = s.trace ++ t := by
  induction l with
  | nil => intro q errs s; exact ⟨[], by simp [tickAll]⟩
  | cons h l ih =>
    intro q errs s
    unfold tickAll
    split
    · obtain ⟨t, ht⟩ := ih q errs (s.notify (.tickSkipped h _))
      exact ⟨_, by rw [ht, Sys.notify_trace, List.append_assoc]⟩
    · obtain ⟨seg, g⟩ := ctlTick_sum A h oo.now (s.notify (.tickBegun h))
      rcases hh : ctlTick A h oo.now (s.notify (.tickBegun h)) with ⟨s1, v | ⟨envs, e⟩⟩
      · rw [hh] at g
        have g1 : s1.trace = s.trace ++ ([.fact (.tickBegun h)] ++ seg) := by
          rw [← List.append_assoc, ← Sys.notify_trace]; exact g.trace
        exact ⟨_, g1⟩
      · rw [hh] at g
        have g1 : s1.trace = s.trace ++ ([.fact (.tickBegun h)] ++ seg) := by
          rw [← List.append_assoc, ← Sys.notify_trace]; exact g.trace
        simp only
        split
        · exact ⟨_, by rw [Sys.notify_trace, g1, List.append_assoc]⟩
        · obtain ⟨t, ht⟩ := ih (q ++ envs) (errs ++ tagErr h e) (s1.notify (.tickCompleted h e))
          exact ⟨_, by rw [ht, Sys.notify_trace, g1, List.append_assoc, List.append_assoc]⟩

/-- Every operation is rejected, or ends before its dispatch loop, or is such a loop between a
prologue and an epilogue. -/
theorem op_loop {A : App W R} (wf : A.WF) {s : Sys W R} (hs : Reach A s) (op : Op) (hop : op.ok A) :
    (∃ r, r.2 ≠ .running ∧ ∀ n, (op.withFuel n).exec A s = r) ∨
    ∃ oo q s1 t, ∃ f : Sys W R × Outcome (List EngErr) → Sys W R × Outcome (List EngErr),
      CoreI A oo q s1 ∧ s1.trace = s.trace ++ t ∧
      (∀ x, (x.2 = .running → f x = x) ∧ (x.2 ≠ .running → (f x).2 ≠ .running)) ∧
      ∀ n, (op.withFuel n).exec A s = f (dispatchLoop A oo n q [] s1) := by
  have hc := core_reach wf hs
  cases op with
  | reset =>
    refine .inl ⟨engReset A s, ?_, fun n => rfl⟩
    unfold engReset
    generalize ({ s.emit .reset with
      nextID := 0, agg := fun _ _ => none, proc := fun _ => ⟨fun _ => none, []⟩ } : Sys W R) = s0
    generalize 0 = i
    generalize A.uc.resetters = fs
    induction fs generalizing i s0 with
    | nil => nofun
    | cons f fs ih =>
      unfold runResetters
      rcases s0.user (.resetter i) f with ⟨s1, _ | v⟩
      · exact ih _ _
      · nofun
  | dispatch n m os =>
    rcases ho : newOpOpts A { s with nextID := s.nextID + 1 } os with v | oo
    · exact .inl ⟨({ s with nextID := s.nextID + 1 }, .panicked v), nofun, fun n => by
        show engDispatch A n m os s = _
        simp only [engDispatch, ho]⟩
    by_cases hk : m.type.kind = .timeout
    · exact .inl ⟨({ s with nextID := s.nextID + 1 }, .panicked (.misuse "timeout")), nofun, fun n => by
        show engDispatch A n m os s = _
        simp only [engDispatch, ho, if_pos hk]⟩
    rcases hv : m.invalid with _ | iv
    case some =>
      exact .inl ⟨({ s with nextID := s.nextID + 1 }, .panicked (.misuse (cannotDispatchText m iv))),
        nofun, fun n => by
          show engDispatch A n m os s = _
          simp only [engDispatch, ho, if_neg hk, hv]⟩
    by_cases hrt : A.route m = []
    · exact .inl ⟨({ s with nextID := s.nextID + 1 }, .panicked (.misuse (notConsumedText m))),
        nofun, fun n => by
          show engDispatch A n m os s = _
          simp only [engDispatch, ho, if_neg hk, hv, if_pos hrt]⟩
    have hi := (core_lift A wf).dBegin oo s m hc hrt hv hk
    let env := Env.root (s.nextID + 1) m oo.now
    let s0 := ({ s with nextID := s.nextID + 1 } : Sys W R).notify (.dispatchCycleBegun env (oo.cycle A))
    cases hl : A.uc.lockErr s0.w with
    | some e =>
      exact .inl ⟨(s0.notify (.dispatchCycleCompleted env (oo.cycle A).maps [.lock e]), .done [.lock e]), nofun, fun n => by
        show engDispatch A n m os s = _
        simp only [engDispatch, ho, if_neg hk, hv, if_neg hrt]
        rw [show A.uc.lockErr _ = some e from hl]⟩
    | none =>
      refine .inr ⟨oo, [env], s0, _,
        fun x => match x with
          | (x, .done errs) => (x.notify (.dispatchCycleCompleted env (oo.cycle A).maps errs), .done errs)
          | (x, o) => (x, o), hi, Sys.notify_trace _ _, ?_, ?_⟩
      · rintro ⟨x, o⟩; cases o <;> simp
      · intro n
        show engDispatch A n m os s = _
        simp only [engDispatch, ho, if_neg hk, hv, if_neg hrt]
        rw [show A.uc.lockErr _ = none from hl]
        rfl
  | tick n order os =>
    have hop : order.Perm A.cfgs := hop
    rcases ho : newOpOpts A s os with v | oo
    · exact .inl ⟨(s, .panicked v), nofun, fun n => by
        show engTick A n order os s = _
        simp only [engTick, ho]⟩
    let s0 := s.notify (.tickCycleBegun (oo.cycle A))
    have h1 : CoreI A oo [] s0 := (core_lift A wf).tBegin oo s hc
    cases hl : A.uc.lockErr s0.w with
    | some e =>
      exact .inl ⟨(s0.notify (.tickCycleCompleted (oo.cycle A).maps [.lock e]), .done [.lock e]), nofun, fun n => by
        show engTick A n order os s = _
        simp only [engTick, ho]
        rw [show A.uc.lockErr _ = some e from hl]⟩
    | none =>
      have h2 := ((core_lift A wf).tick oo).all order [] [] [] s0 (fun h hh => hop.mem_iff.1 hh) h1
      obtain ⟨t, ht⟩ := tickAll_grows A oo order [] [] s0
      have he : ∀ n, engTick A n order os s =
          match engTickLocked A oo n order s0 with
          | (s, .done errs) => (s.notify (.tickCycleCompleted (oo.cycle A).maps errs), .done errs)
          | (s, o) => (s, o) := by
        intro n
        simp only [engTick, ho]
        rw [show A.uc.lockErr _ = none from hl]
        rfl
      rcases hh : tickAll A oo order [] [] s0 with ⟨s1, v | ⟨q, errs, c⟩⟩
      · exact .inl ⟨(s1, .panicked v), nofun, fun n => by
          show engTick A n order os s = _
          rw [he]; simp only [engTickLocked, hh]⟩
      · rw [hh] at h2 ht
        cases c with
        | some c =>
          exact .inl ⟨(s1.notify (.tickCycleCompleted (oo.cycle A).maps [.ctx c]), .done [.ctx c]), nofun, fun n => by
            show engTick A n order os s = _
            rw [he]; simp only [engTickLocked, hh]⟩
        | none =>
          refine .inr ⟨oo, q, s1, .fact (.tickCycleBegun (oo.cycle A)) :: t,
            fun x => match x with
              | (x, .done derrs) => (x.notify (.tickCycleCompleted (oo.cycle A).maps (errs ++ derrs)), .done (errs ++ derrs))
              | (x, o) => (x, o), h2, ?_, ?_, ?_⟩
          · rw [ht]; show (s.notify _).trace ++ t = _; rw [Sys.notify_trace]; simp
          · rintro ⟨x, o⟩; cases o <;> simp
          · intro n
            show engTick A n order os s = _
            rw [he]; simp only [engTickLocked, hh]
            rcases dispatchLoop A oo n q [] s1 with ⟨x, o⟩
            cases o <;> rfl

/-- **C80.**  An operation of a ranked application ends, unless it announces timeouts that are already
due, over and over again: for every `k` there comes a point where it has announced `k` of them. -/
theorem C80_forever {A : App W R} (wf : A.WF) {s : Sys W R} (hs : Reach A s) (op : Op)
    (hop : op.ok A) (rank : MType → Nat) (hR : Ranked A rank)
    (hrun : ∀ n, ((op.withFuel n).exec A s).2 = .running) (k : Nat) :
    ∃ n, k ≤ (dueAtOnce (during s ((op.withFuel n).exec A s).1)).length := by
  rcases op_loop wf hs op hop with ⟨r, h1, h2⟩ | ⟨oo, q, s1, t, f, hi, ht, hf, he⟩
  · exact absurd ((h2 0) ▸ hrun 0) h1
  · obtain ⟨n, h⟩ := loop_forever wf hR k q [] s1 hi
    have hrn := hrun n
    rw [he] at hrn
    rcases h with h | ⟨u, hu, hk⟩
    · exact absurd hrn ((hf _).2 h)
    · refine ⟨n, ?_⟩
      have hr2 : (dispatchLoop A oo n q [] s1).2 = .running := by
        apply Classical.byContradiction; intro hne; exact (hf _).2 hne hrn
      rw [he, (hf _).1 hr2]
      unfold during
      rw [hu, ht, List.append_assoc, List.drop_left, dueAtOnce_append, List.length_append]
      omega

/-- A larger budget does not change the result of an operation that has ended. -/
theorem op_stable {A : App W R} (wf : A.WF) {s : Sys W R} (hs : Reach A s) (op : Op) (hop : op.ok A)
    {n : Nat} (hn : ((op.withFuel n).exec A s).2 ≠ .running) {m : Nat} (hm : n ≤ m) :
    (op.withFuel m).exec A s = (op.withFuel n).exec A s := by
  rcases op_loop wf hs op hop with ⟨r, h1, h2⟩ | ⟨oo, q, s1, t, f, hi, ht, hf, he⟩
  · rw [h2, h2]
  · rw [he] at hn
    have : (dispatchLoop A oo n q [] s1).2 ≠ .running := fun h => hn (by rw [(hf _).1 h]; exact h)
    obtain ⟨d, rfl⟩ := Nat.exists_eq_add_of_le hm
    rw [he, he, (loop_extend A oo n q [] s1).1 this d]

/-- **C80.**  An operation of a ranked application that never announces a timeout which is already
due ends: with enough budget it comes to one and the same result. -/
theorem C80_ends {A : App W R} (wf : A.WF) {s : Sys W R} (hs : Reach A s) (op : Op)
    (hop : op.ok A) (rank : MType → Nat) (hR : Ranked A rank)
    (hno : ∀ n, dueAtOnce (during s ((op.withFuel n).exec A s).1) = []) :
    ∃ n r, r.2 ≠ .running ∧ ∀ m, n ≤ m → (op.withFuel m).exec A s = r := by
  by_cases h : ∃ n, ((op.withFuel n).exec A s).2 ≠ .running
  · obtain ⟨n, hn⟩ := h
    exact ⟨n, _, hn, fun m hm => op_stable wf hs op hop hn hm⟩
  · obtain ⟨n, hn⟩ := C80_forever wf hs op hop rank hR
      (fun n => Classical.byContradiction fun hx => h ⟨n, hx⟩) 1
    rw [hno n] at hn
    exact absurd hn (by simp)

/-- **C80.**  In particular this is so if no handler produces timeouts. -/
theorem C80_no_timeouts {A : App W R} (wf : A.WF) {s : Sys W R} (hs : Reach A s) (op : Op)
    (hop : op.ok A) (rank : MType → Nat) (hR : Ranked A rank)
    (hno : ∀ h ∈ A.cfgs, ∀ p ∈ h.produces, p.kind ≠ .timeout) :
    ∃ n r, r.2 ≠ .running ∧ ∀ m, n ≤ m → (op.withFuel m).exec A s = r := by
  refine C80_ends wf hs op hop rank hR (fun n => ?_)
  have hop' : (op.withFuel n).ok A := by cases op <;> exact hop
  have hs' : Reach A ((op.withFuel n).exec A s).1 := .step _ hs hop'
  unfold dueAtOnce
  rw [List.filter_eq_nil_iff]
  intro e he hk
  have he' : e ∈ createdIn ((op.withFuel n).exec A s).1.trace := by
    unfold createdIn during at *
    obtain ⟨o, ho, hoe⟩ := List.mem_filterMap.1 he
    exact List.mem_filterMap.2 ⟨o, List.mem_of_mem_drop ho, hoe⟩
  have hk : e.msg.type.kind = .timeout := by
    rw [Bool.and_eq_true, decide_eq_true_eq] at hk; exact hk.1
  obtain ⟨o, ho, hoe⟩ := List.mem_filterMap.1 he'
  obtain ⟨pre, post, hpp⟩ := List.append_of_mem ho
  have hem := (core_reach wf hs').em pre o post hpp
  cases o with
  | reset => cases hoe
  | call c => cases hoe
  | fact f =>
    have key : ∀ h env, f.produced = some (h, env, e) → False := by
      intro h env hf
      obtain ⟨hp, _⟩ := hem.1 h env e hf
      exact hno h hp.handler _ hp.child.declared hk
    cases f <;> cases hoe
    all_goals first
      | exact (hem.2.2.2.2 _ _ rfl).2.2.2.2.2.1 hk
      | exact key _ _ rfl

/-! ## Concrete cases -/

namespace Demo

/-- A command causes an event and the event causes a command. -/
def ping : HConfig :=
  { name := "ping", htype := .integration, consumes := [cmdC], produces := [evtE] }
def pong : HConfig := { name := "pong", htype := .process, consumes := [evtE], produces := [cmdC] }

def circle : App Nat (List String) where
  cfgs := [ping, pong]
  uc := { uc with
    intHandle := fun _ m => ops none [.record ⟨evtE, m.body, none⟩]
    procHandle := fun _ _ _ m _ => ops none [.execute ⟨cmdC, m.body, none⟩]
    ctxErr := fun _ => none }
  compactDuringHandling := false
  sort := sortImpl

theorem circle_wf : circle.WF where
  names := by decide
  handlers := by
    intro h hh
    simp only [circle, List.mem_cons, List.not_mem_nil, or_false] at hh
    rcases hh with rfl | rfl <;>
      exact ⟨by simp [ping, pong, cmdC, evtE], by simp [ping, pong, cmdC, evtE]⟩

theorem circle_loop (oo : OpOpts) (ho : skipHandler oo ping = none ∧ skipHandler oo pong = none) (n : Nat) :
    ∀ (env : Env) (errs : List EngErr) (s : Sys Nat (List String)),
      env.msg.type = cmdC ∨ env.msg.type = evtE →
      (dispatchLoop circle oo n [env] errs s).2 = .running := by
  induction n with
  | zero => intro env errs s _; rfl
  | succ n ih =>
    intro env errs s he
    rcases he with he | he
    · have ht : circle.targets env = .ok [ping] := by
        simp [App.targets, he, cmdC, App.route, circle, HConfig.consumes?, ping, pong, evtE]
      have hh : ∀ s, ∃ s' env', env'.msg.type = evtE ∧
          handleAll circle oo env [ping] [] [] s = (s', .ok ([env'], [])) := by
        intro s
        simp only [handleAll, handleOne, ho.1]
        simp only [ctlHandle, ping, intHandle, HConfig.consumes?, he, circle, ops,
          Prog.do_, intRun, intOp, HConfig.produces?]
        simp [cmdC, evtE, intEmit, intRun, tagErr, Env.child]
      obtain ⟨s1, env', h1, h2⟩ := hh (s.notify (.dispatchBegun env))
      simp only [dispatchLoop, ht, h2]
      exact ih _ _ _ (.inr h1)
    · have ht : circle.targets env = .ok [pong] := by
        simp [App.targets, he, cmdC, App.route, circle, HConfig.consumes?, ping, pong, evtE]
      have hh : ∀ s, ∃ s' env', env'.msg.type = cmdC ∧
          handleAll circle oo env [pong] [] [] s = (s', .ok ([env'], [])) := by
        intro s
        rcases hi : (s.proc "pong").inst "p" with _ | r
        all_goals
          simp only [handleAll, handleOne, ho.2]
          simp only [ctlHandle, pong, procHandle, HConfig.consumes?, he, circle, ops,
            Prog.do_, uc, Sys.user, procWithID, Sys.notify, Sys.emit, hi]
          simp [cmdC, evtE, procEmitCommand, procRevive, tagErr, Env.child, procInvoke, procRun, procOp,
            HConfig.produces?, Sys.notify, Sys.emit]
      obtain ⟨s1, env', h1, h2⟩ := hh (s.notify (.dispatchBegun env))
      simp only [dispatchLoop, ht, h2]
      exact ih _ _ _ (.inl h1)

/-- Without a ranking, an operation may go on forever though there are no timeouts at all. -/
theorem circle_runs (n : Nat) (b : String) :
    ((Op.dispatch n (msgC b) []).exec circle (Sys.init 0)).2 = .running := by
  have hr : circle.route (msgC b) ≠ [] := by
    simp [App.route, circle, HConfig.consumes?, ping, pong, msgC, cmdC, evtE]
  have hk : ¬ (msgC b).type.kind = .timeout := by simp [msgC, cmdC]
  have hl := circle_loop (OpOpts.default 0) ⟨rfl, rfl⟩ n
  simp only [Op.exec, engDispatch, newOpOpts, OpOpts.applyAll, if_neg hr, if_neg hk]
  rw [show (msgC b).invalid = none from rfl]
  simp only
  rw [show circle.uc.lockErr _ = none from rfl]
  simp only
  generalize hx : dispatchLoop circle _ n _ [] _ = x
  have hx2 : x.2 = .running := by rw [← hx]; exact hl _ _ _ (.inl rfl)
  obtain ⟨s, o⟩ := x
  cases hx2
  rfl

/-- A process that schedules timeouts that are due already. -/
def rush : HConfig :=
  { name := "rush", htype := .process, consumes := [evtE, tmoT], produces := [tmoT] }

def rushing : App Nat (List String) where
  cfgs := [rush]
  uc := { uc with
    procHandle := fun _ _ _ m _ => ops none [.schedule ⟨tmoT, m.body, none⟩ 0]
    ctxErr := fun _ => none }
  compactDuringHandling := false
  sort := sortImpl

theorem rushing_wf : rushing.WF where
  names := by decide
  handlers := by
    intro h hh
    simp only [rushing, List.mem_cons, List.not_mem_nil, or_false] at hh
    subst hh
    exact ⟨by simp [rush, evtE, tmoT], by simp [rush, evtE, tmoT]⟩

theorem rushing_handle (oo : OpOpts) (ho : skipHandler oo rush = none) (hn : 0 ≤ oo.now) (env : Env)
    (s : Sys Nat (List String))
    (he : env.msg.type = evtE ∨ env.msg.type = tmoT ∧ env.origin = some ⟨rush, .process, "p"⟩ ∧
      ((s.proc "rush").inst "p").isSome) :
    ∃ s' env', (env'.msg.type = tmoT ∧ env'.origin = some ⟨rush, .process, "p"⟩ ∧
      ((s'.proc "rush").inst "p").isSome) ∧
      handleAll rushing oo env [rush] [] [] s = (s', .ok ([env'], [])) := by
  have hn' : ¬ oo.now < 0 := by omega
  rcases hi : (s.proc "rush").inst "p" with _ | r
  · rcases he with he | ⟨_, _, he⟩
    · simp only [handleAll, handleOne, ho]
      simp only [ctlHandle, rush, procHandle, HConfig.consumes?, he, rushing, ops,
        Prog.do_, uc, Sys.user, procWithID, Sys.notify, Sys.emit, hi]
      simp [tmoT, evtE, procEmitTimeout, procRevive, tagErr, Env.childTimeout, procInvoke, procRun, procOp,
        HConfig.produces?, Sys.notify, Sys.emit, hn', procUpdate, Sys.setProc, upd]
    · rw [hi] at he; cases he
  · rcases he with he | ⟨he, heo, _⟩
    · simp only [handleAll, handleOne, ho]
      simp only [ctlHandle, rush, procHandle, HConfig.consumes?, he, rushing, ops,
        Prog.do_, uc, Sys.user, procWithID, Sys.notify, Sys.emit, hi]
      simp [tmoT, evtE, procEmitTimeout, procRevive, tagErr, Env.childTimeout, procInvoke, procRun, procOp,
        HConfig.produces?, Sys.notify, Sys.emit, hn', procUpdate, Sys.setProc, upd]
    · simp only [handleAll, handleOne, ho]
      simp only [ctlHandle, rush, procHandle, HConfig.consumes?, he, heo, rushing, ops,
        Prog.do_, uc, Sys.user, procWithID, Sys.notify, Sys.emit, hi]
      simp [tmoT, evtE, procEmitTimeout, procRevive, tagErr, Env.childTimeout, procInvoke, procRun, procOp,
        HConfig.produces?, Sys.notify, Sys.emit, hn', procUpdate, Sys.setProc, upd]

theorem rushing_loop (oo : OpOpts) (ho : skipHandler oo rush = none) (hn : 0 ≤ oo.now) (n : Nat) :
    ∀ (env : Env) (errs : List EngErr) (s : Sys Nat (List String)),
      env.msg.type = evtE ∨ env.msg.type = tmoT ∧ env.origin = some ⟨rush, .process, "p"⟩ ∧
        ((s.proc "rush").inst "p").isSome →
      (dispatchLoop rushing oo n [env] errs s).2 = .running := by
  induction n with
  | zero => intro env errs s _; rfl
  | succ n ih =>
    intro env errs s he
    have ht : rushing.targets env = .ok [rush] := by
      rcases he with he | ⟨he, heo, _⟩
      · simp [App.targets, he, App.route, rushing, HConfig.consumes?, rush, evtE]
      · simp [App.targets, he, heo, App.find, rushing, rush, tmoT]
    obtain ⟨s1, env', h1, h2⟩ := rushing_handle oo ho hn env (s.notify (.dispatchBegun env)) he
    simp only [dispatchLoop, ht, h2]
    exact ih _ _ _ (.inr h1)

def msgE (b : String) : Message := ⟨evtE, b, none⟩

/-- The ranking is trivial: the process produces nothing but timeouts. -/
theorem rushing_ranked : Ranked rushing (fun _ => 0) := by
  intro h hh c _ p hp hk
  simp only [rushing, List.mem_cons, List.not_mem_nil, or_false] at hh
  subst hh
  simp only [rush, List.mem_cons, List.not_mem_nil, or_false] at hp
  subst hp
  exact absurd rfl hk

theorem rushing_runs (n : Nat) (b : String) :
    ((Op.dispatch n (msgE b) []).exec rushing (Sys.init 0)).2 = .running := by
  have hr : rushing.route (msgE b) ≠ [] := by
    simp [App.route, rushing, HConfig.consumes?, rush, tmoT, msgE, evtE]
  have hk : ¬ (msgE b).type.kind = .timeout := by simp [msgE, evtE]
  have hl := rushing_loop (OpOpts.default 0) rfl (Int.le_refl _) n
  simp only [Op.exec, engDispatch, newOpOpts, OpOpts.applyAll, if_neg hr, if_neg hk]
  rw [show (msgE b).invalid = none from rfl]
  simp only
  rw [show rushing.uc.lockErr _ = none from rfl]
  simp only
  generalize hx : dispatchLoop rushing _ n _ [] _ = x
  have hx2 : x.2 = .running := by rw [← hx]; exact hl _ _ _ (.inl rfl)
  obtain ⟨s, o⟩ := x
  cases hx2
  rfl

/-- The hypotheses of `C80_forever` are met: the process goes on scheduling. -/
example (k : Nat) : ∃ n, k ≤ (dueAtOnce (during (Sys.init 0)
    ((Op.dispatch n (msgE "x") []).exec rushing (Sys.init 0)).1)).length :=
  C80_forever rushing_wf (.init 0) (.dispatch 0 (msgE "x") []) trivial (fun _ => 0) rushing_ranked
    (fun n => rushing_runs n "x") k

/-- `C > E > D > F` and `T > D`. -/
def demoRank (t : MType) : Nat :=
  if t = cmdC then 4 else if t = evtE ∨ t = tmoT then 3 else if t = cmdD then 2 else 1

theorem demo_ranked : Ranked app demoRank := by
  intro h hh
  simp only [app, List.mem_cons, List.not_mem_nil, or_false] at hh
  rcases hh with rfl | rfl | rfl | rfl <;> decide

set_option maxRecDepth 100000 in
theorem demo_calm : ∀ n, n < 8 → dueAtOnce (during (Sys.init 0)
    ((Op.dispatch n (msgC "x") [.currentTime 1]).exec app (Sys.init 0)).1) = [] := by
  decide +kernel

set_option maxRecDepth 100000 in
/-- The hypotheses of `C80_ends` are met by an application that does use timeouts. -/
example : ∃ n r, r.2 ≠ .running ∧ ∀ m, n ≤ m →
    (Op.dispatch m (msgC "x") [.currentTime 1]).exec app (Sys.init 0) = r := by
  refine C80_ends app_wf (.init 0) (.dispatch 0 (msgC "x") [.currentTime 1]) trivial demoRank demo_ranked ?_
  intro n
  by_cases hn : n < 8
  · exact demo_calm n hn
  · rw [op_stable app_wf (.init 0) (.dispatch 0 (msgC "x") [.currentTime 1]) trivial (n := 7)
      (by decide +kernel) (by omega)]
    exact demo_calm 7 (by omega)

/-- An application without timeouts. -/
def calm : App Nat (List String) where
  cfgs := [agg, { proc with consumes := [evtE], produces := [cmdD] }, int, prj]
  uc := { uc with procHandle := fun _ _ _ m _ => ops none [.execute ⟨cmdD, m.body, none⟩] }
  compactDuringHandling := false
  sort := sortImpl

theorem calm_wf : calm.WF where
  names := by decide
  handlers := by
    intro h hh
    simp only [calm, List.mem_cons, List.not_mem_nil, or_false] at hh
    rcases hh with rfl | rfl | rfl | rfl <;>
      exact ⟨by simp [agg, proc, int, prj, cmdC, cmdD, evtE, evtF],
        by simp [agg, proc, int, prj, cmdC, cmdD, evtE, evtF]⟩

/-- The hypotheses of `C80_no_timeouts` are met. -/
example (op : Op) (hop : op.ok calm) {s : Sys Nat (List String)} (hs : Reach calm s) :
    ∃ n r, r.2 ≠ .running ∧ ∀ m, n ≤ m → (op.withFuel m).exec calm s = r := by
  refine C80_no_timeouts calm_wf hs op hop demoRank ?_ ?_
  · intro h hh
    simp only [calm, List.mem_cons, List.not_mem_nil, or_false] at hh
    rcases hh with rfl | rfl | rfl | rfl <;> decide
  · intro h hh
    simp only [calm, List.mem_cons, List.not_mem_nil, or_false] at hh
    rcases hh with rfl | rfl | rfl | rfl <;> decide

end Demo

/-- **C80.**  The ranking is needed: a command and an event that cause each other keep an operation
going forever, although there are no timeouts. -/
theorem C80_circle : ∃ A : App Nat (List String), A.WF ∧ (∀ h ∈ A.cfgs, ∀ p ∈ h.produces, p.kind ≠ .timeout) ∧
    ∃ m : Message, ∀ n, ((Op.dispatch n m []).exec A (Sys.init 0)).2 = .running := by
  refine ⟨Demo.circle, Demo.circle_wf, ?_, Demo.msgC "x", fun n => Demo.circle_runs n "x"⟩
  intro h hh
  simp only [Demo.circle, List.mem_cons, List.not_mem_nil, or_false] at hh
  rcases hh with rfl | rfl <;> decide

end Verif
