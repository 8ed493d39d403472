import Verif.Steps

/-!
# Lifting rules

Rules that turn facts about single handlings and single controller ticks into
facts about dispatch loops, ticks, operations and histories.  Proof machinery.
-/

namespace Verif

variable {W R : Type}

/-- Obligations for an invariant of the dispatch loop.
`I q errs s`: between messages, with queue `q` and accumulated errors `errs`.
`J env done q errs de s`: while `env` is being offered to its controllers, `done`
of which have been dealt with.  `K`: after a panic. -/
structure DispRule (A : App W R) (oo : OpOpts)
    (I : List Env → List EngErr → Sys W R → Prop)
    (J : Env → List HConfig → List Env → List EngErr → List EngErr → Sys W R → Prop)
    (K : Sys W R → Prop) : Prop where
  begin_ : ∀ env q errs s hs, A.targets env = .ok hs → I (env :: q) errs s →
    J env [] q errs [] (s.notify (.dispatchBegun env))
  handle : ∀ env done h rest q errs de s s' envs e, A.targets env = .ok (done ++ h :: rest) →
    J env done q errs de s → handleOne A oo env h s = (s', .ok (envs, e)) →
    J env (done ++ [h]) (q ++ envs) errs (de ++ tagErr h e) s'
  panic : ∀ env done h rest q errs de s s' v, A.targets env = .ok (done ++ h :: rest) →
    J env done q errs de s → handleOne A oo env h s = (s', .error v) → K s'
  panicT : ∀ env q errs s v, A.targets env = .error v → I (env :: q) errs s → K s
  end_ : ∀ env hs q errs de s, A.targets env = .ok hs → J env hs q errs de s →
    I q (errs ++ de) (s.notify (.dispatchCompleted env de))

/-- What holds after the dispatch loop. -/
def DispPost (A : App W R) (I : List Env → List EngErr → Sys W R → Prop) (K : Sys W R → Prop) :
    Sys W R × Outcome (List EngErr) → Prop
  | (s, .done e) => I [] e s ∨ ∃ q e' c, I q e' s ∧ A.uc.ctxErr s.w = some c ∧ e = [.ctx c]
  | (s, .running) => ∃ q e, I q e s
  | (s, .panicked _) => K s

namespace DispRule

variable {A : App W R} {oo : OpOpts} {I : List Env → List EngErr → Sys W R → Prop}
  {J : Env → List HConfig → List Env → List EngErr → List EngErr → Sys W R → Prop}
  {K : Sys W R → Prop}

theorem handleAll (r : DispRule A oo I J K) (env : Env) (errs : List EngErr) :
    ∀ (rest done : List HConfig) (q : List Env) (de : List EngErr) (s : Sys W R),
      A.targets env = .ok (done ++ rest) → J env done q errs de s →
      match Verif.handleAll A oo env rest q de s with
      | (s', .error _) => K s'
      | (s', .ok (q', de')) => J env (done ++ rest) q' errs de' s' := by
  intro rest
  induction rest with
  | nil => intro done q de s _ hJ; simpa [Verif.handleAll] using hJ
  | cons h rest ih =>
    intro done q de s ht hJ
    unfold Verif.handleAll
    rcases hh : handleOne A oo env h s with ⟨s1, v | ⟨envs, e⟩⟩
    · exact r.panic _ _ _ _ _ _ _ _ _ _ ht hJ hh
    · have h1 := r.handle _ _ _ _ _ _ _ _ _ _ _ ht hJ hh
      have := ih (done ++ [h]) (q ++ envs) (de ++ tagErr h e) s1 (by simpa using ht) h1
      simpa using this

theorem loop (r : DispRule A oo I J K) :
    ∀ (n : Nat) (q : List Env) (errs : List EngErr) (s : Sys W R), I q errs s →
      DispPost A I K (dispatchLoop A oo n q errs s) := by
  intro n
  induction n with
  | zero =>
    intro q errs s hI
    cases q with
    | nil => exact .inl hI
    | cons env q => exact ⟨_, _, hI⟩
  | succ n ih =>
    intro q errs s hI
    cases q with
    | nil => exact .inl hI
    | cons env q =>
      unfold dispatchLoop
      split
      · rename_i v hv; exact r.panicT _ _ _ _ _ hv hI
      · rename_i hs hv
        have h1 := r.handleAll env errs hs [] q [] _ (by simpa using hv)
          (r.begin_ _ _ _ _ _ hv hI)
        split
        · rename_i he; rw [he] at h1; exact h1
        · rename_i he; rw [he] at h1
          have h2 := r.end_ _ _ _ _ _ _ hv h1
          simp only
          split
          · rename_i c hc
            exact .inr ⟨_, _, c, h2, hc, rfl⟩
          · exact ih _ _ _ h2

end DispRule

/-- Obligations for an invariant of the tick loop. -/
structure TickRule (A : App W R) (oo : OpOpts)
    (T : List HConfig → List Env → List EngErr → Sys W R → Prop) (K : Sys W R → Prop) : Prop where
  skip : ∀ done h q errs s r, h ∈ A.cfgs → T done q errs s → skipHandler oo h = some r →
    T (done ++ [h]) q errs (s.notify (.tickSkipped h r))
  tick : ∀ done h q errs s s' envs e, h ∈ A.cfgs → T done q errs s → skipHandler oo h = none →
    ctlTick A h oo.now (s.notify (.tickBegun h)) = (s', .ok (envs, e)) →
    T (done ++ [h]) (q ++ envs) (errs ++ tagErr h e) (s'.notify (.tickCompleted h e))
  panic : ∀ done h q errs s s' v, h ∈ A.cfgs → T done q errs s → skipHandler oo h = none →
    ctlTick A h oo.now (s.notify (.tickBegun h)) = (s', .error v) → K s'

/-- What holds after the tick loop. -/
def TickPost (A : App W R) (T : List HConfig → List Env → List EngErr → Sys W R → Prop)
    (K : Sys W R → Prop) (all : List HConfig) :
    Sys W R × Except PanicVal (List Env × List EngErr × Option Err) → Prop
  | (s', .error _) => K s'
  | (s', .ok (q', errs', none)) => T all q' errs' s'
  | (s', .ok (q', errs', some c)) => ∃ done', T done' q' errs' s' ∧ A.uc.ctxErr s'.w = some c

theorem TickRule.all {A : App W R} {oo : OpOpts}
    {T : List HConfig → List Env → List EngErr → Sys W R → Prop} {K : Sys W R → Prop}
    (r : TickRule A oo T K) :
    ∀ (rest done : List HConfig) (q : List Env) (errs : List EngErr) (s : Sys W R),
      (∀ h ∈ rest, h ∈ A.cfgs) → T done q errs s →
      TickPost A T K (done ++ rest) (tickAll A oo rest q errs s) := by
  intro rest
  induction rest with
  | nil => intro done q errs s _ hT; simpa [tickAll, TickPost] using hT
  | cons h rest ih =>
    intro done q errs s hm hT
    have hmh : h ∈ A.cfgs := hm h (by simp)
    have hmr : ∀ x ∈ rest, x ∈ A.cfgs := fun x hx => hm x (by simp [hx])
    unfold tickAll
    split
    · rename_i rs hs
      have := ih (done ++ [h]) q errs _ hmr (r.skip _ _ _ _ _ _ hmh hT hs)
      simpa using this
    · rename_i hs
      rcases hh : ctlTick A h oo.now (s.notify (.tickBegun h)) with ⟨s1, v | ⟨envs, e⟩⟩
      · exact r.panic _ _ _ _ _ _ _ hmh hT hs hh
      · have h1 := r.tick _ _ _ _ _ _ _ _ hmh hT hs hh
        simp only
        split
        · rename_i c hc
          exact ⟨_, h1, hc⟩
        · have := ih (done ++ [h]) _ _ _ hmr h1
          simpa using this

/-- Obligations for an invariant `G` of all reachable states. -/
structure Lift (A : App W R) (G : Sys W R → Prop)
    (I : OpOpts → List Env → List EngErr → Sys W R → Prop)
    (J : OpOpts → Env → List HConfig → List Env → List EngErr → List EngErr → Sys W R → Prop)
    (T : OpOpts → List HConfig → List Env → List EngErr → Sys W R → Prop) : Prop where
  init : ∀ w, G (Sys.init w)
  world : ∀ s w, G s → G { s with w := w }
  reset : ∀ s, G s → G { s.emit .reset with
      nextID := 0, agg := fun _ _ => none, proc := fun _ => ⟨fun _ => none, []⟩ }
  resetter : ∀ s i, G s → G (s.emit (.call (.resetter i)))
  takeID : ∀ s, G s → G { s with nextID := s.nextID + 1 }
  dBegin : ∀ oo s m, G s → A.route m ≠ [] → m.invalid = none → m.type.kind ≠ .timeout →
    I oo [Env.root (s.nextID + 1) m oo.now] []
      ({ s with nextID := s.nextID + 1 }.notify
        (.dispatchCycleBegun (Env.root (s.nextID + 1) m oo.now) (oo.cycle A)))
  dEnd : ∀ oo q errs s env er, I oo q errs s → G (s.notify (.dispatchCycleCompleted env (oo.cycle A).maps er))
  stop : ∀ oo q errs s, I oo q errs s → G s
  disp : ∀ oo, DispRule A oo (I oo) (J oo) G
  tBegin : ∀ oo s, G s → T oo [] [] [] (s.notify (.tickCycleBegun (oo.cycle A)))
  tick : ∀ oo, TickRule A oo (T oo) G
  tDisp : ∀ oo order q errs s, order.Perm A.cfgs → T oo order q errs s → I oo q [] s
  tStop : ∀ oo done q errs s er, T oo done q errs s → G (s.notify (.tickCycleCompleted (oo.cycle A).maps er))
  tEnd : ∀ oo q errs s er, I oo q errs s → G (s.notify (.tickCycleCompleted (oo.cycle A).maps er))

namespace Lift

variable {A : App W R} {G : Sys W R → Prop}
  {I : OpOpts → List Env → List EngErr → Sys W R → Prop}
  {J : OpOpts → Env → List HConfig → List Env → List EngErr → List EngErr → Sys W R → Prop}
  {T : OpOpts → List HConfig → List Env → List EngErr → Sys W R → Prop}

theorem postG (l : Lift A G I J T) (oo : OpOpts) (x : Sys W R × Outcome (List EngErr))
    (hx : DispPost A (I oo) G x) : G x.1 := by
  obtain ⟨s, o⟩ := x
  cases o with
  | done e =>
    rcases hx with hx | ⟨q, e', c, hx, _⟩
    · exact l.stop _ _ _ _ hx
    · exact l.stop _ _ _ _ hx
  | panicked v => exact hx
  | running => obtain ⟨q, e, hx⟩ := hx; exact l.stop _ _ _ _ hx

theorem dispatch (l : Lift A G I J T) (n : Nat) (m : Message) (os : List OpOption) (s : Sys W R)
    (hs : G s) : G (engDispatch A n m os s).1 := by
  unfold engDispatch
  have h0 := l.takeID s hs
  simp only
  split
  · exact h0
  · rename_i oo _
    split
    · exact h0
    · rename_i hk
      split
      · exact h0
      · rename_i hv
        split
        · exact h0
        · rename_i hr
          have h1 := l.dBegin oo s m hs hr hv hk
          split
          · exact l.dEnd _ _ _ _ _ _ h1
          · have h2 := (l.disp oo).loop n _ _ _ h1
            split
            · rename_i he; rw [he] at h2
              rcases h2 with hx | ⟨q, e', c, hx, _⟩
              · exact l.dEnd _ _ _ _ _ _ hx
              · exact l.dEnd _ _ _ _ _ _ hx
            · rename_i he; rw [he] at h2; exact l.postG oo _ h2

theorem tickOp (l : Lift A G I J T) (n : Nat) (order : List HConfig) (ho : order.Perm A.cfgs)
    (os : List OpOption) (s : Sys W R) (hs : G s) : G (engTick A n order os s).1 := by
  unfold engTick
  split
  · exact hs
  · rename_i oo _
    have h1 := l.tBegin oo s hs
    simp only
    split
    · exact l.tStop _ _ _ _ _ _ h1
    · unfold engTickLocked
      have h2 := (l.tick oo).all order [] [] [] _ (fun h hh => ho.mem_iff.1 hh) h1
      rcases hh : tickAll A oo order [] [] (s.notify (.tickCycleBegun (oo.cycle A))) with
        ⟨s1, v | ⟨q, errs, c⟩⟩
      · rw [hh] at h2; exact h2
      · rw [hh] at h2
        cases c with
        | some c =>
          obtain ⟨done', h2, _⟩ := h2
          exact l.tStop _ _ _ _ _ _ h2
        | none =>
          simp only [TickPost] at h2
          have h3 := (l.disp oo).loop n q [] s1 (l.tDisp oo order q errs s1 ho (by simpa using h2))
          simp only
          rcases hl : dispatchLoop A oo n q [] s1 with ⟨s2, o⟩
          rw [hl] at h3
          cases o with
          | done e =>
            rcases h3 with hx | ⟨q, e', c, hx, _⟩
            · exact l.tEnd _ _ _ _ _ hx
            · exact l.tEnd _ _ _ _ _ hx
          | panicked v => exact h3
          | running => obtain ⟨q, e, hx⟩ := h3; exact l.stop _ _ _ _ hx

theorem resetOp (l : Lift A G I J T) (s : Sys W R) (hs : G s) : G (engReset A s).1 := by
  unfold engReset
  have h0 := l.reset s hs
  generalize ({ s.emit .reset with
      nextID := 0, agg := fun _ _ => none, proc := fun _ => ⟨fun _ => none, []⟩ } : Sys W R) = s0 at h0
  generalize 0 = i
  generalize A.uc.resetters = fs
  induction fs generalizing i s0 with
  | nil => exact h0
  | cons f fs ih =>
    unfold runResetters Sys.user
    have h1 := l.world _ (f s0.w).1 (l.resetter s0 i h0)
    simp only
    split
    · rename_i he; simp only [Prod.mk.injEq] at he; rw [← he.1]; exact h1
    · rename_i he; simp only [Prod.mk.injEq] at he; rw [← he.1]; exact ih _ h1 _

/-- An invariant that satisfies the obligations holds in every reachable state. -/
theorem reach (l : Lift A G I J T) {s : Sys W R} (h : Reach A s) : G s := by
  induction h with
  | init w => exact l.init w
  | world w _ ih => exact l.world _ w ih
  | step op _ hop ih =>
    cases op with
    | dispatch n m os => exact l.dispatch n m os _ ih
    | tick n order os => exact l.tickOp n order hop os _ ih
    | reset => exact l.resetOp _ ih

end Lift

end Verif
