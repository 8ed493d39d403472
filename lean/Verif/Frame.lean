import Verif.OpView

/-!
# What a handling leaves alone

Proof machinery: rules for relations between the states before and after (parts
of) an operation, and the frame of single handlings.
-/

namespace Verif

variable {W R : Type}

/-! ## Relations preserved by operations -/

theorem during_seg {s s' : Sys W R} {seg : List (Obs R)} (h : s'.trace = s.trace ++ seg) :
    during s s' = seg := by
  simp [during, h]

/-- Obligations for a relation between states of one operation. -/
structure StepRel (A : App W R) (Q : Sys W R → Sys W R → Prop) : Prop where
  refl : ∀ s, Q s s
  trans : ∀ a b c, Q a b → Q b c → Q a c
  fact : ∀ s f, Q s (s.notify f)
  takeID : ∀ s, Q s { s with nextID := s.nextID + 1 }
  handle : ∀ h now env s, h ∈ A.cfgs → Q s (ctlHandle A h now env s).1
  tick : ∀ h now s, h ∈ A.cfgs → Q s (ctlTick A h now (s.notify (.tickBegun h))).1

theorem targets_mem {A : App W R} {env : Env} {hs : List HConfig} (ht : A.targets env = .ok hs) :
    ∀ h ∈ hs, h ∈ A.cfgs := by
  unfold App.targets at ht
  intro h hh
  have hroute : ∀ m, h ∈ A.route m → h ∈ A.cfgs := fun m hm => (List.mem_filter.1 hm).1
  split at ht
  · split at ht
    · cases ht
    · split at ht
      · cases ht
      · rename_i hf
        cases ht
        rw [List.mem_singleton.1 hh]
        exact List.mem_of_find?_eq_some hf
  · cases ht; exact hroute _ hh

namespace StepRel

variable {A : App W R} {Q : Sys W R → Sys W R → Prop}

theorem handleOne (r : StepRel A Q) (oo : OpOpts) (env : Env) {h : HConfig} (hm : h ∈ A.cfgs)
    (s : Sys W R) : Q s (Verif.handleOne A oo env h s).1 := by
  unfold Verif.handleOne
  split
  · exact r.fact _ _
  · have h1 := r.trans _ _ _ (r.fact s (.handlingBegun h env))
      (r.handle h oo.now env (s.notify (.handlingBegun h env)) hm)
    split
    · rename_i he; rw [he] at h1; exact h1
    · rename_i he; rw [he] at h1; exact r.trans _ _ _ h1 (r.fact _ _)

theorem handleAll (r : StepRel A Q) (oo : OpOpts) (env : Env) (hs : List HConfig)
    (hm : ∀ h ∈ hs, h ∈ A.cfgs) (q : List Env) (de : List EngErr) (s : Sys W R) :
    Q s (Verif.handleAll A oo env hs q de s).1 := by
  induction hs generalizing q de s with
  | nil => exact r.refl s
  | cons h hs ih =>
    unfold Verif.handleAll
    have h1 := r.handleOne oo env (hm h (by simp)) s
    split
    · rename_i he; rw [he] at h1; exact h1
    · rename_i he; rw [he] at h1
      exact r.trans _ _ _ h1 (ih (fun x hx => hm x (by simp [hx])) _ _ _)

theorem loop (r : StepRel A Q) (oo : OpOpts) (n : Nat) (q : List Env) (errs : List EngErr)
    (s : Sys W R) : Q s (dispatchLoop A oo n q errs s).1 := by
  induction n generalizing q errs s with
  | zero => cases q <;> exact r.refl s
  | succ n ih =>
    cases q with
    | nil => exact r.refl s
    | cons env q =>
      unfold dispatchLoop
      split
      · exact r.refl s
      · rename_i hs ht
        have h1 := r.trans _ _ _ (r.fact s (.dispatchBegun env))
          (r.handleAll oo env hs (targets_mem ht) q [] (s.notify (.dispatchBegun env)))
        split
        · rename_i he; rw [he] at h1; exact h1
        · rename_i he; rw [he] at h1
          simp only
          have h2 := r.trans _ _ _ h1 (r.fact _ (.dispatchCompleted env ‹_›))
          split
          · exact h2
          · exact r.trans _ _ _ h2 (ih _ _ _)

theorem dispatch (r : StepRel A Q) (n : Nat) (m : Message) (os : List OpOption) (s : Sys W R) :
    Q s (engDispatch A n m os s).1 := by
  unfold engDispatch
  have h0 := r.takeID s
  simp only
  split
  · exact h0
  · rename_i oo _
    split
    · exact h0
    · split
      · exact h0
      · split
        · exact h0
        · have h1 := r.trans _ _ _ h0 (r.fact _
            (.dispatchCycleBegun (Env.root (s.nextID + 1) m oo.now) (oo.cycle A)))
          split
          · exact r.trans _ _ _ h1 (r.fact _ _)
          · have h2 := r.trans _ _ _ h1 (r.loop oo n [Env.root (s.nextID + 1) m oo.now] [] _)
            split
            · rename_i he; rw [he] at h2; exact r.trans _ _ _ h2 (r.fact _ _)
            · rename_i he; rw [he] at h2; exact h2

theorem tickAll (r : StepRel A Q) (oo : OpOpts) (hs : List HConfig)
    (hm : ∀ h ∈ hs, h ∈ A.cfgs) (q : List Env) (errs : List EngErr) (s : Sys W R) :
    Q s (Verif.tickAll A oo hs q errs s).1 := by
  induction hs generalizing q errs s with
  | nil => exact r.refl s
  | cons h hs ih =>
    have hr : ∀ x ∈ hs, x ∈ A.cfgs := fun x hx => hm x (by simp [hx])
    unfold Verif.tickAll
    split
    · exact r.trans _ _ _ (r.fact _ _) (ih hr _ _ _)
    · have h1 := r.tick h oo.now s (hm h (by simp))
      split
      · rename_i he; rw [he] at h1; exact h1
      · rename_i he; rw [he] at h1
        simp only
        have h2 := r.trans _ _ _ h1 (r.fact _ (.tickCompleted h ‹_›))
        split
        · exact h2
        · exact r.trans _ _ _ h2 (ih hr _ _ _)

theorem tickOp (r : StepRel A Q) (n : Nat) (order : List HConfig) (ho : order.Perm A.cfgs)
    (os : List OpOption) (s : Sys W R) : Q s (engTick A n order os s).1 := by
  unfold engTick
  split
  · exact r.refl s
  · rename_i oo _
    have h1 := r.fact s (.tickCycleBegun (oo.cycle A))
    simp only
    split
    · exact r.trans _ _ _ h1 (r.fact _ _)
    · unfold engTickLocked
      have h2 := r.trans _ _ _ h1
        (r.tickAll oo order (fun h hh => ho.mem_iff.1 hh) [] [] (s.notify (.tickCycleBegun (oo.cycle A))))
      rcases hh : Verif.tickAll A oo order [] [] (s.notify (.tickCycleBegun (oo.cycle A))) with
        ⟨s1, v | ⟨q, errs, c⟩⟩
      · rw [hh] at h2; exact h2
      · rw [hh] at h2
        cases c with
        | some c => exact r.trans _ _ _ h2 (r.fact _ _)
        | none =>
          have h3 := r.trans _ _ _ h2 (r.loop oo n q [] s1)
          simp only
          rcases hl : dispatchLoop A oo n q [] s1 with ⟨s2, o⟩
          rw [hl] at h3
          cases o with
          | done e => exact r.trans _ _ _ h3 (r.fact _ _)
          | panicked v => exact h3
          | running => exact h3

/-- The relation holds between the states before and after any operation but a reset. -/
theorem exec (r : StepRel A Q) (op : Op) (hop : op.ok A) (hr : op ≠ .reset) (s : Sys W R) :
    Q s (op.exec A s).1 := by
  cases op with
  | dispatch n m os => exact r.dispatch n m os s
  | tick n order os => exact r.tickOp n order hop os s
  | reset => exact absurd rfl hr

end StepRel

/-! ## The frame of a handling -/

theorem aggWithID_agg (A : App W R) (h : HConfig) (id : String) (now : Time) (env : Env)
    (s : Sys W R) : (aggWithID A h id now env s).1.agg = s.agg ∨
      ∃ v, (aggWithID A h id now env s).1.agg = upd s.agg h.name (upd (s.agg h.name) id v) := by
  have key : ∀ (r : R) (ex : Bool) (s1 : Sys W R), s1.agg = s.agg →
      (aggInvoke A h id now env r ex s1).1.agg = s.agg ∨
      ∃ v, (aggInvoke A h id now env r ex s1).1.agg = upd s.agg h.name (upd (s.agg h.name) id v) := by
    intro r ex s1 h1
    obtain ⟨seg, _, _, _, _, h2, h3⟩ := aggInvoke_sum A h id now env r ex s1
    rcases hr : (aggInvoke A h id now env r ex s1).2 with v | ⟨envs, e⟩
    · exact .inl ((h3 v hr).trans h1)
    · right
      rw [(h2 envs e hr).2.2, h1]
      exact ⟨_, rfl⟩
  unfold aggWithID
  split
  · rename_i he; obtain ⟨rfl, _⟩ := user_eq he; exact .inl rfl
  · rename_i he; obtain ⟨rfl, _⟩ := user_eq he; exact .inl rfl
  · rename_i r he; obtain ⟨rfl, _⟩ := user_eq he
    split
    · rename_i hist _
      obtain ⟨_, _, _, h3, _⟩ := aggReplay_trace A h hist r
        { s.emit (.call (.aggNew h)) with w := (A.uc.aggNew h s.w).1 }
      split
      · rename_i hh; rw [hh] at h3; exact .inl h3
      · rename_i hh; rw [hh] at h3; exact key _ _ _ h3
    · exact key _ _ _ rfl

/-- Process state `p'` differs from `p` at most in instance `id` and its timeouts. -/
def ProcFrame (id : String) (p p' : ProcState R) : Prop :=
  (∀ x, x ≠ id → p'.inst x = p.inst x) ∧
  ∀ e : Env, e.origin.map Origin.instanceID ≠ some id → p'.timeouts.count e = p.timeouts.count e

theorem ofInstance_eq (e : Env) (id : String) :
    e.ofInstance id = true ↔ e.origin.map Origin.instanceID = some id := by
  unfold Env.ofInstance
  cases e.origin <;> simp

theorem count_filter_other (id : String) (l : List Env) (e : Env)
    (he : e.origin.map Origin.instanceID ≠ some id) :
    (l.filter (fun e => !e.ofInstance id)).count e = l.count e := by
  rw [List.count_filter]
  simp only [Bool.not_eq_true']
  cases hx : e.ofInstance id with
  | false => rfl
  | true => exact absurd ((ofInstance_eq e id).1 hx) he

theorem procInvoke_frame (A : App W R) (h : HConfig) (id : String) (now : Time) (env : Env)
    (r : R) (s : Sys W R) (ex : Bool) (hex : ex = ((s.proc h.name).inst id).isSome) :
    (∀ n, n ≠ h.name → (procInvoke A h id now env r ex s).1.proc n = s.proc n) ∧
    ProcFrame id (s.proc h.name) ((procInvoke A h id now env r ex s).1.proc h.name) := by
  obtain ⟨post, _, _, _, q4, q5, q6, q7, q8⟩ := procInvoke_sum A h id now env r s ex hex
  refine ⟨q4, q6, ?_⟩
  intro e he
  rcases hr : (procInvoke A h id now env r ex s).2 with v | ⟨envs, er⟩
  · rw [(q8 v hr).1]
  · have h1 := (q7 envs er hr).2
    cases er with
    | some x => rw [h1.1]
    | none =>
      simp only at h1
      split at h1
      · rw [h1.2]
        split
        · exact count_filter_other id _ e he
        · rfl
      · rw [h1.2, (A.sort.perm _).count_eq, List.count_append]
        have : (pendingIn now post).count e = 0 := by
          rw [List.count_eq_zero]
          intro hm
          unfold pendingIn timeoutsIn at hm
          have hm := (List.mem_filter.1 hm).1
          obtain ⟨o, ho, hoe⟩ := List.mem_filterMap.1 hm
          have hob := q5.1 o ho
          cases o with
          | call c => simp at hoe
          | reset => simp at hoe
          | fact f =>
            cases f <;> simp only [reduceCtorEq, Option.some.injEq] at hoe
            subst hoe
            obtain ⟨_, _, _, k, m, t, rfl, _⟩ := hob
            exact he rfl
        omega

theorem procWithID_frame (A : App W R) (h : HConfig) (id : String) (now : Time) (env : Env)
    (s : Sys W R) :
    (∀ n, n ≠ h.name → (procWithID A h id now env s).1.proc n = s.proc n) ∧
    ProcFrame id (s.proc h.name) ((procWithID A h id now env s).1.proc h.name) := by
  unfold procWithID
  split
  · rename_i r hr
    exact procInvoke_frame A h id now env r _ true (by simp [hr])
  · rename_i hn
    split
    · rename_i he; obtain ⟨rfl, _⟩ := user_eq he
      exact ⟨fun _ _ => rfl, fun _ _ => rfl, fun _ _ => rfl⟩
    · rename_i he; obtain ⟨rfl, _⟩ := user_eq he
      exact ⟨fun _ _ => rfl, fun _ _ => rfl, fun _ _ => rfl⟩
    · rename_i r he; obtain ⟨rfl, _⟩ := user_eq he
      exact procInvoke_frame A h id now env r _ false (by simp [hn])

theorem procWithID_called (A : App W R) (h : HConfig) (id : String) (now : Time) (env : Env)
    (s : Sys W R) : (procWithID A h id now env s).1.proc = s.proc ∨
      ∃ r t seg, (procWithID A h id now env s).1.trace = s.trace ++ seg ∧
        Obs.call (.procHandle h id r env.msg t) ∈ seg := by
  generalize hx : procWithID A h id now env s = x
  unfold procWithID at hx
  split at hx
  · rename_i r hr
    obtain ⟨post, q, _⟩ := procInvoke_sum A h id now env r (s.notify (.procLoaded h id env)) true
      (by simp [hr])
    rw [hx] at q
    refine .inr ⟨r, procSeenTime env, .fact (.procLoaded h id env) ::
      .call (.procHandle h id r env.msg (procSeenTime env)) :: post, ?_, by simp⟩
    rw [q]; simp
  · rename_i hn
    split at hx
    · rename_i he; obtain ⟨rfl, _⟩ := user_eq he; subst hx; exact .inl rfl
    · rename_i he; obtain ⟨rfl, _⟩ := user_eq he; subst hx; exact .inl rfl
    · rename_i r he; obtain ⟨rfl, _⟩ := user_eq he
      obtain ⟨post, q, _⟩ := procInvoke_sum A h id now env r
        (({ (s.notify (.procNotFound h id env)).emit (.call (.procNew h)) with
          w := (A.uc.procNew h s.w).1 } : Sys W R).notify (.procBegun h id env)) false
        (by simp [hn])
      rw [← hx]
      refine .inr ⟨r, procSeenTime env, .fact (.procNotFound h id env) :: .call (.procNew h) ::
        .fact (.procBegun h id env) ::
        .call (.procHandle h id r env.msg (procSeenTime env)) :: post, ?_, by simp⟩
      refine q.trans ?_
      simp

/-- A process handling leaves the controller's state alone, or calls the handler for the one
instance it may change. -/
theorem procHandle_frame (A : App W R) (h : HConfig) (now : Time) (env : Env) (s : Sys W R) :
    (procHandle A h now env s).1.proc = s.proc ∨
    ∃ id r t seg, (procHandle A h now env s).1.trace = s.trace ++ seg ∧
      Obs.call (.procHandle h id r env.msg t) ∈ seg ∧
      (∀ n, n ≠ h.name → (procHandle A h now env s).1.proc n = s.proc n) ∧
      ProcFrame id (s.proc h.name) ((procHandle A h now env s).1.proc h.name) := by
  have key : ∀ (id : String) (s1 : Sys W R) (pre : List (Obs R)), s1.trace = s.trace ++ pre →
      s1.proc = s.proc → (procWithID A h id now env s1).1.proc = s.proc ∨
    ∃ id' r t seg, (procWithID A h id now env s1).1.trace = s.trace ++ seg ∧
      Obs.call (.procHandle h id' r env.msg t) ∈ seg ∧
      (∀ n, n ≠ h.name → (procWithID A h id now env s1).1.proc n = s.proc n) ∧
      ProcFrame id' (s.proc h.name) ((procWithID A h id now env s1).1.proc h.name) := by
    intro id s1 pre ht hp
    obtain ⟨f1, f2⟩ := procWithID_frame A h id now env s1
    rw [hp] at f1 f2
    rcases procWithID_called A h id now env s1 with h1 | ⟨r, t, seg, h1, h2⟩
    · exact .inl (h1.trans hp)
    · exact .inr ⟨id, r, t, pre ++ seg, by rw [h1, ht, List.append_assoc],
        List.mem_append_right _ h2, f1, f2⟩
  generalize hx : procHandle A h now env s = x
  unfold procHandle at hx
  split at hx
  · subst hx; exact .inl rfl
  split at hx
  · subst hx; exact .inl rfl
  · split at hx
    · rename_i he; obtain ⟨rfl, _⟩ := user_eq he; subst hx; exact .inl rfl
    · rename_i he; obtain ⟨rfl, _⟩ := user_eq he; subst hx; exact .inl rfl
    · rename_i he; obtain ⟨rfl, _⟩ := user_eq he; subst hx; exact .inl rfl
    · rename_i id he; obtain ⟨rfl, _⟩ := user_eq he
      split at hx
      · subst hx; exact .inl rfl
      · subst hx; exact key id _ [.call (.procRoute h env.msg)] rfl rfl
  · split at hx
    · subst hx; exact .inl rfl
    · rename_i o ho
      split at hx
      · subst hx; exact key o.instanceID s [] (by simp) rfl
      · subst hx; exact .inl rfl

end Verif
