import Verif.OpLog

/-!
# Step budgets

A run of the dispatch loop with a larger budget continues a run with a smaller one; a run that is
still going after `n` messages has found the context not cancelled after each of them.  Proof
machinery.
-/

namespace Verif

variable {W R : Type}

theorem handleOne_quiet (A : App W R) (oo : OpOpts) (env : Env) (h : HConfig) (s : Sys W R) :
    ∃ t, (handleOne A oo env h s).1.trace = s.trace ++ t ∧ dispatchedIn t = [] := by
  unfold handleOne
  split
  · rename_i r _; exact ⟨[.fact (.handlingSkipped h env r)], by simp, rfl⟩
  · obtain ⟨seg, h1, h2, _⟩ := ctlHandle_sum A h oo.now env (s.notify (.handlingBegun h env))
    rcases hc : ctlHandle A h oo.now env (s.notify (.handlingBegun h env)) with ⟨s1, v | ⟨envs, e⟩⟩
    · rw [hc] at h1; simp only at h1
      refine ⟨.fact (.handlingBegun h env) :: seg, by simp only [h1, Sys.notify_trace]; simp, ?_⟩
      have e : Obs.fact (.handlingBegun h env) :: seg = [.fact (.handlingBegun h env)] ++ seg := rfl
      rw [e, dispatchedIn_append, inner_dispatched h2]; rfl
    · rw [hc] at h1; simp only at h1
      refine ⟨[.fact (.handlingBegun h env)] ++ seg ++ [.fact (.handlingCompleted h env e)], ?_, ?_⟩
      · simp only [Sys.notify_trace, h1]; simp
      · rw [dispatchedIn_append, dispatchedIn_append, inner_dispatched h2]; rfl

theorem handleAll_quiet (A : App W R) (oo : OpOpts) (env : Env) (hs : List HConfig) :
    ∀ (q : List Env) (de : List EngErr) (s : Sys W R),
      ∃ t, (handleAll A oo env hs q de s).1.trace = s.trace ++ t ∧ dispatchedIn t = [] := by
  induction hs with
  | nil => intro q de s; exact ⟨[], by simp [handleAll], rfl⟩
  | cons h hs ih =>
    intro q de s
    obtain ⟨t1, h1, h2⟩ := handleOne_quiet A oo env h s
    unfold handleAll
    rcases hc : handleOne A oo env h s with ⟨s1, v | ⟨envs, e⟩⟩
    · rw [hc] at h1; exact ⟨t1, h1, h2⟩
    · rw [hc] at h1; simp only at h1
      obtain ⟨t2, h3, h4⟩ := ih (q ++ envs) (de ++ tagErr h e) s1
      exact ⟨t1 ++ t2, by simp only [h3, h1, List.append_assoc], by rw [dispatchedIn_append, h2, h4]; rfl⟩

/-- A budget of `n` allows at most `n` messages; it is used up if the loop is still going; and
then (for `n > 0`) the context was not cancelled when the last one completed. -/
theorem loop_count (A : App W R) (oo : OpOpts) (n : Nat) :
    ∀ (q : List Env) (errs : List EngErr) (s : Sys W R),
      ∃ t, (dispatchLoop A oo n q errs s).1.trace = s.trace ++ t ∧ (dispatchedIn t).length ≤ n ∧
        ((dispatchLoop A oo n q errs s).2 = .running → (dispatchedIn t).length = n ∧
          (0 < n → A.uc.ctxErr (dispatchLoop A oo n q errs s).1.w = none ∧
            ∃ e de, t.getLast? = some (.fact (.dispatchCompleted e de)))) := by
  induction n with
  | zero =>
    intro q errs s
    refine ⟨[], ?_, Nat.le_refl _, fun _ => ⟨rfl, fun h => absurd h (Nat.lt_irrefl _)⟩⟩
    cases q <;> simp [dispatchLoop]
  | succ n ih =>
    intro q errs s
    cases q with
    | nil => exact ⟨[], by simp [dispatchLoop], Nat.zero_le _, nofun⟩
    | cons env q =>
      unfold dispatchLoop
      split
      · exact ⟨[], by simp, Nat.zero_le _, nofun⟩
      · rename_i hs _
        obtain ⟨t, h1, h2⟩ := handleAll_quiet A oo env hs q [] (s.notify (.dispatchBegun env))
        rcases hc : handleAll A oo env hs q [] (s.notify (.dispatchBegun env)) with ⟨s1, v | ⟨q1, de⟩⟩
        · rw [hc] at h1; simp only at h1
          refine ⟨[.fact (.dispatchBegun env)] ++ t, by simp only [h1, Sys.notify_trace]; simp, ?_, nofun⟩
          rw [dispatchedIn_append, h2]; simp [dispatchedIn]
        · rw [hc] at h1
          simp only at h1 ⊢
          have hd : dispatchedIn ([.fact (.dispatchBegun env)] ++ t ++ [.fact (.dispatchCompleted env de)] :
              List (Obs R)) = [env] := by
            rw [dispatchedIn_append, dispatchedIn_append, h2]; rfl
          have htr : (s1.notify (.dispatchCompleted env de)).trace = s.trace ++
              ([.fact (.dispatchBegun env)] ++ t ++ [.fact (.dispatchCompleted env de)]) := by
            rw [Sys.notify_trace, h1, Sys.notify_trace]; simp
          split
          · refine ⟨_, htr, ?_, nofun⟩
            rw [hd]; exact Nat.succ_le_succ (Nat.zero_le _)
          · rename_i hcx
            obtain ⟨t2, h3, h4, h5⟩ := ih q1 (errs ++ de) (s1.notify (.dispatchCompleted env de))
            refine ⟨([.fact (.dispatchBegun env)] ++ t ++ [.fact (.dispatchCompleted env de)]) ++ t2, ?_, ?_, ?_⟩
            · rw [h3, htr, List.append_assoc]
            · rw [dispatchedIn_append, hd, List.length_append]
              simp only [List.length_singleton]; omega
            · intro hrun
              obtain ⟨k1, k2⟩ := h5 hrun
              refine ⟨?_, fun _ => ?_⟩
              · rw [dispatchedIn_append, hd, List.length_append, k1]
                simp only [List.length_singleton]; omega
              · cases n with
                | zero =>
                  have e0 : dispatchLoop A oo 0 q1 (errs ++ de) (s1.notify (.dispatchCompleted env de)) =
                      (s1.notify (.dispatchCompleted env de),
                        (dispatchLoop A oo 0 q1 (errs ++ de) (s1.notify (.dispatchCompleted env de))).2) := by
                    cases q1 <;> rfl
                  have : t2 = [] := by
                    rw [e0] at h3
                    simpa using h3
                  subst this
                  refine ⟨?_, env, de, by rw [List.append_nil, List.getLast?_append]; rfl⟩
                  rw [e0]; exact hcx
                | succ n =>
                  obtain ⟨k3, e, de', k4⟩ := k2 (Nat.succ_pos _)
                  refine ⟨k3, e, de', ?_⟩
                  rw [List.getLast?_append, k4]; rfl

theorem loop_step (A : App W R) (oo : OpOpts) (env : Env) (q : List Env) (errs : List EngErr)
    (s : Sys W R) :
    (∃ r, r.2 ≠ .running ∧ ∀ n, dispatchLoop A oo (n + 1) (env :: q) errs s = r) ∨
    ∃ q1 e1 s1, ∀ n, dispatchLoop A oo (n + 1) (env :: q) errs s = dispatchLoop A oo n q1 e1 s1 := by
  rcases ht : A.targets env with v | hs
  · exact .inl ⟨(s, .panicked v), nofun, fun n => by rw [dispatchLoop, ht]⟩
  · rcases hc : handleAll A oo env hs q [] (s.notify (.dispatchBegun env)) with ⟨s1, v | ⟨q1, de⟩⟩
    · exact .inl ⟨(s1, .panicked v), nofun, fun n => by rw [dispatchLoop, ht]; simp only [hc]⟩
    · cases hx : A.uc.ctxErr (s1.notify (.dispatchCompleted env de)).w with
      | some e =>
        exact .inl ⟨(s1.notify (.dispatchCompleted env de), .done [.ctx e]), nofun,
          fun n => by rw [dispatchLoop, ht]; simp only [hc, hx]⟩
      | none =>
        exact .inr ⟨q1, errs ++ de, s1.notify (.dispatchCompleted env de),
          fun n => by rw [dispatchLoop, ht]; simp only [hc, hx]⟩

/-- More budget continues the run. -/
theorem loop_extend (A : App W R) (oo : OpOpts) (n : Nat) :
    ∀ (q : List Env) (errs : List EngErr) (s : Sys W R),
      ((dispatchLoop A oo n q errs s).2 ≠ .running →
        ∀ m, dispatchLoop A oo (n + m) q errs s = dispatchLoop A oo n q errs s) ∧
      ((dispatchLoop A oo n q errs s).2 = .running →
        ∃ q1 errs1, q1 ≠ [] ∧ ∀ m, dispatchLoop A oo (n + m) q errs s =
          dispatchLoop A oo m q1 errs1 (dispatchLoop A oo n q errs s).1) := by
  induction n with
  | zero =>
    intro q errs s
    cases q with
    | nil => exact ⟨fun _ m => by cases m <;> simp [dispatchLoop], nofun⟩
    | cons env q =>
      refine ⟨fun h => absurd rfl h, fun _ => ⟨env :: q, errs, by simp, fun m => ?_⟩⟩
      rw [Nat.zero_add]; rfl
  | succ n ih =>
    intro q errs s
    cases q with
    | nil => exact ⟨fun _ m => by simp [dispatchLoop], fun h => by simp [dispatchLoop] at h⟩
    | cons env q =>
      have e : ∀ m, n + 1 + m = (n + m) + 1 := fun m => by omega
      simp only [e]
      rcases loop_step A oo env q errs s with ⟨r, h1, h2⟩ | ⟨q1, e1, s1, h2⟩
      · simp only [h2]
        exact ⟨fun _ _ => trivial, fun h => absurd h h1⟩
      · simp only [h2]
        exact ih q1 e1 s1

/-- If the context is found cancelled at the end, its error is the result. -/
theorem loop_cancelled (A : App W R) (oo : OpOpts) (n : Nat) :
    ∀ (q : List Env) (errs : List EngErr) (s s' : Sys W R) (r : List EngErr) (c : Err), q ≠ [] →
      dispatchLoop A oo n q errs s = (s', .done r) → A.uc.ctxErr s'.w = some c → r = [.ctx c] := by
  induction n with
  | zero =>
    intro q errs s s' r c hq hr
    cases q with
    | nil => exact absurd rfl hq
    | cons env q => cases hr
  | succ n ih =>
    intro q errs s s' r c hq hr hx
    cases q with
    | nil => exact absurd rfl hq
    | cons env q =>
      unfold dispatchLoop at hr
      split at hr
      · cases hr
      · rename_i hs _
        rcases hc : handleAll A oo env hs q [] (s.notify (.dispatchBegun env)) with ⟨s1, v | ⟨q1, de⟩⟩
        · rw [hc] at hr; cases hr
        · rw [hc] at hr
          simp only at hr
          split at hr
          · rename_i e he
            cases hr
            have he : A.uc.ctxErr s1.w = some e := he
            have hx : A.uc.ctxErr s1.w = some c := hx
            rw [he] at hx; cases hx; rfl
          · rename_i he
            cases q1 with
            | nil =>
              have : dispatchLoop A oo n [] (errs ++ de) (s1.notify (.dispatchCompleted env de)) =
                  (s1.notify (.dispatchCompleted env de), .done (errs ++ de)) := by
                cases n <;> rfl
              rw [this] at hr
              cases hr
              rw [he] at hx; cases hx
            | cons a b => exact ih _ _ _ _ _ _ (by simp) hr hx

end Verif
