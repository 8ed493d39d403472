import Verif.Shift
import Verif.Inv
import Verif.Options
import Verif.OpView
import Verif.Demo
import Verif.Props.Panic

/-!
# C117: a handler that does not take part might as well not be there

An application is compared with the same application from which some handlers have been removed.
As long as operations leave these handlers out (by their configuration, by their type or by name),
the two engines do the same: same outcomes, same calls into user code, same states, same facts but
for those that say that one of these handlers was left out.
-/

namespace Verif

variable {W R : Type}

/-! ## Specification -/

/-- The application without the handlers whose names are `gone`. -/
def App.without (A : App W R) (gone : String → Bool) : App W R :=
  { A with cfgs := A.cfgs.filter (fun h => !gone h.name) }

/-- An option that is not about one of these handlers by name. -/
def OpOption.about (gone : String → Bool) : OpOption → Bool
  | .enableHandler n _ => !gone n
  | _ => true

/-- The operation without its mentions of these handlers. -/
def Op.without (gone : String → Bool) : Op → Op
  | .dispatch n m os => .dispatch n m (os.filter (OpOption.about gone))
  | .tick n order os => .tick n (order.filter (fun h => !gone h.name)) (os.filter (OpOption.about gone))
  | .reset => .reset

/-- What a fact says without mention of these handlers, `none` if that is nothing.  Facts that these
handlers were skipped disappear, and the maps of enabled handlers lose their entries for them. -/
def Fact.without (gone : String → Bool) : Fact → Option Fact
  | .handlingSkipped h env r => if gone h.name then none else some (.handlingSkipped h env r)
  | .tickSkipped h r => if gone h.name then none else some (.tickSkipped h r)
  | .dispatchCycleBegun env c =>
    some (.dispatchCycleBegun env { c with names := c.names.filter (fun p => !gone p.1) })
  | .dispatchCycleCompleted env m err =>
    some (.dispatchCycleCompleted env { m with names := m.names.filter (fun p => !gone p.1) } err)
  | .tickCycleBegun c => some (.tickCycleBegun { c with names := c.names.filter (fun p => !gone p.1) })
  | .tickCycleCompleted m err =>
    some (.tickCycleCompleted { m with names := m.names.filter (fun p => !gone p.1) } err)
  | f => some f

/-- The same for observations: calls into user code all stay. -/
def Obs.without (gone : String → Bool) : Obs R → Option (Obs R)
  | .fact f => (f.without gone).map .fact
  | o => some o

/-- A state whose record does not mention these handlers.  All else is the same. -/
def Sys.without (gone : String → Bool) (s : Sys W R) : Sys W R :=
  { s with trace := s.trace.filterMap (Obs.without gone) }

/-- The operation leaves these handlers of the application out, and if it dispatches a message that
one of them consumes, another handler of the application consumes it as well. -/
structure Op.LeavesOut (A : App W R) (gone : String → Bool) (op : Op) : Prop where
  out : ∀ h ∈ A.cfgs, gone h.name = true → takesPart op.opts h = false
  consumed : ∀ n m os, op = .dispatch n m os → ∀ h ∈ A.cfgs, gone h.name = true → m.type ∈ h.consumes →
    ∃ h' ∈ A.cfgs, gone h'.name = false ∧ m.type ∈ h'.consumes

/-- Perform operations one after the other; before each the world (everything outside the engine)
may change.  The result is the last state and the outcomes. -/
def performAll (A : App W R) : List ((W → W) × Op) → Sys W R → Sys W R × List (Outcome (List EngErr))
  | [], s => (s, [])
  | (f, op) :: l, s =>
    let x := op.exec A { s with w := f s.w }
    let y := performAll A l x.1
    (y.1, x.2 :: y.2)

/-! ## Handlings and ticks of the handlers that stay -/

theorem aggReplay_cfgs (A : App W R) (l : List HConfig) (h : HConfig) (es : List Env) : ∀ (r : R) (s : Sys W R),
    aggReplay ({ A with cfgs := l } : App W R) h es r s = aggReplay A h es r s := by
  induction es with
  | nil => intro r s; rfl
  | cons e es ih =>
    intro r s
    simp only [aggReplay, ih]

theorem aggRun_cfgs (A : App W R) (l : List HConfig) (h : HConfig) (id : String) (now : Time) (env : Env)
    (p : Prog W (AggOp R) Unit) : ∀ (s : Sys W R) (sc : AggScope R),
    aggRun ({ A with cfgs := l } : App W R) h id now env p s sc = aggRun A h id now env p s sc := by
  have ho : ∀ o s sc, aggOp ({ A with cfgs := l } : App W R) h id now env o s sc = aggOp A h id now env o s sc :=
    fun _ _ _ => rfl
  induction p with
  | op o k ih =>
    intro s sc
    simp only [aggRun, ho]
    exact ih _ _ _
  | _ => simp_all [aggRun]

theorem ctlHandle_cfgs (A : App W R) (l : List HConfig) (h : HConfig) (now : Time) (env : Env) (s : Sys W R) :
    ctlHandle ({ A with cfgs := l } : App W R) h now env s = ctlHandle A h now env s := by
  unfold ctlHandle
  cases h.htype with
  | aggregate =>
    simp only [aggHandle, aggWithID, aggInvoke, aggRun_cfgs, aggReplay_cfgs]
  | process => rfl
  | integration => rfl
  | projection => rfl

section
variable (gone : String → Bool)

theorem without_notify (s : Sys W R) (f f' : Fact) (hf : f.without gone = some f') :
    (s.notify f).without gone = (s.without gone).notify f' := by
  simp [Sys.without, Sys.notify, Sys.emit, List.filterMap_append, Obs.without, hf]

theorem without_notify_none (s : Sys W R) (f : Fact) (hf : f.without gone = none) :
    (s.notify f).without gone = s.without gone := by
  simp [Sys.without, Sys.notify, Sys.emit, List.filterMap_append, Obs.without, hf]

/-- What does not look at the trace and records nothing about skipping does the same. -/
theorem without_of {α : Type} (f : Sys W R → Sys W R × α)
    (hon : ∀ p s, f (s.on p) = lft p (f s))
    (hseg : ∀ s : Sys W R, s.trace = [] → ∀ o ∈ (f s).1.trace, Obs.without gone o = some o) (s : Sys W R) :
    f (s.without gone) = ((f s).1.without gone, (f s).2) := by
  have h1 : s = ({ s with trace := [] } : Sys W R).on s.trace := by simp [Sys.on]
  have h2 : s.without gone = ({ s with trace := [] } : Sys W R).on (s.trace.filterMap (Obs.without gone)) := by
    simp [Sys.on, Sys.without]
  have hs := hseg { s with trace := [] } rfl
  rw [h2, hon]
  conv => rhs; rw [h1, hon]
  generalize f { s with trace := [] } = z at hs ⊢
  have : z.1.trace.filterMap (Obs.without gone) = z.1.trace := by
    generalize z.1.trace = l at hs
    induction l with
    | nil => rfl
    | cons o l ih =>
      rw [List.filterMap_cons, hs o (by simp)]
      simp only
      rw [ih (fun x hx => hs x (by simp [hx]))]
  simp only [lft, Sys.on, Sys.without, List.filterMap_append, this]

theorem inner_without {h : HConfig} {now : Time} {env : Env} {o : Obs R} (ho : InnerObs h now env o) :
    Obs.without gone o = some o := by
  cases o with
  | reset => rfl
  | call c => rfl
  | fact f =>
    rcases ho with ho | ⟨ev, ho, _⟩
    · cases f <;> first | exact ho.elim | rfl
    · cases f <;> first | cases ho; done | rfl

theorem tick_without {h : HConfig} {now : Time} {o : Obs R} (ho : TickObs h now o) :
    Obs.without gone o = some o := by
  cases o with
  | reset => rfl
  | call c => rfl
  | fact f => cases f <;> first | exact ho.elim | rfl

theorem ctlHandle_without (A : App W R) (h : HConfig) (now : Time) (env : Env) (s : Sys W R) :
    ctlHandle (A.without gone) h now env (s.without gone) =
      ((ctlHandle A h now env s).1.without gone, (ctlHandle A h now env s).2) := by
  have e : ctlHandle (A.without gone) h now env (s.without gone) =
    ctlHandle A h now env (s.without gone) := ctlHandle_cfgs A _ h now env _
  rw [e]
  refine without_of gone (ctlHandle A h now env) (fun p s => ctlHandle_on p A h now env s) ?_ s
  intro s hs o ho
  obtain ⟨seg, h1, h2, _⟩ := ctlHandle_sum A h now env s
  rw [h1, hs] at ho
  exact inner_without gone (h2 o ho)

theorem ctlTick_without (A : App W R) (h : HConfig) (now : Time) (s : Sys W R) :
    ctlTick (A.without gone) h now (s.without gone) =
      ((ctlTick A h now s).1.without gone, (ctlTick A h now s).2) := by
  have e : ctlTick (A.without gone) h now (s.without gone) =
    ctlTick A h now (s.without gone) := rfl
  rw [e]
  refine without_of gone (ctlTick A h now) (fun p s => ctlTick_on p A h now s) ?_ s
  intro s hs o ho
  obtain ⟨seg, g⟩ := ctlTick_sum A h now s
  rw [g.trace, hs] at ho
  exact tick_without gone (g.obs o ho).1

/-! ## Options -/

/-- The options of the two operations say the same about everything but the missing handlers. -/
structure OptsAgree (oo oo' : OpOpts) : Prop where
  now : oo'.now = oo.now
  types : oo'.types = oo.types
  names : ∀ n, gone n = false → oo'.names n = oo.names n

theorem applyAll_without (A : App W R) (hg : ∀ n, gone n = true → n ∈ A.cfgs.map HConfig.name)
    (os : List OpOption) : ∀ oo oo', OptsAgree gone oo oo' →
    (∃ v, oo.applyAll A os = .error v ∧
      oo'.applyAll (A.without gone) (os.filter (OpOption.about gone)) = .error v) ∨
    ∃ x x', oo.applyAll A os = .ok x ∧
      oo'.applyAll (A.without gone) (os.filter (OpOption.about gone)) = .ok x' ∧
      OptsAgree gone x x' := by
  induction os with
  | nil => intro oo oo' ha; exact .inr ⟨oo, oo', rfl, rfl, ha⟩
  | cons o os ih =>
    intro oo oo' ha
    cases o with
    | enableType t b =>
      exact ih _ _ ⟨ha.now, by rw [ha.types], ha.names⟩
    | currentTime t => exact ih _ _ ⟨rfl, ha.types, ha.names⟩
    | observer k => exact ih _ _ ⟨ha.now, ha.types, ha.names⟩
    | enableHandler n b =>
      cases hn : gone n with
      | true =>
        have hf : (OpOption.enableHandler n b :: os).filter (OpOption.about gone) =
          os.filter (OpOption.about gone) := by simp [OpOption.about, hn]
        rw [hf]
        simp only [OpOpts.applyAll, OpOpts.apply, if_pos (hg n hn)]
        refine ih _ _ ⟨ha.now, ha.types, ?_⟩
        intro x hx
        have : x ≠ n := fun e => by rw [e, hn] at hx; cases hx
        simp [upd, this, ha.names x hx]
      | false =>
        have hf : (OpOption.enableHandler n b :: os).filter (OpOption.about gone) =
          .enableHandler n b :: os.filter (OpOption.about gone) := by simp [OpOption.about, hn]
        rw [hf]
        simp only [OpOpts.applyAll, OpOpts.apply]
        have hm : n ∈ (A.without gone).cfgs.map HConfig.name ↔ n ∈ A.cfgs.map HConfig.name := by
          simp only [App.without, List.mem_map, List.mem_filter]
          constructor
          · rintro ⟨h, ⟨hh, _⟩, e⟩; exact ⟨h, hh, e⟩
          · rintro ⟨h, hh, e⟩; exact ⟨h, ⟨hh, by rw [e, hn]; rfl⟩, e⟩
        by_cases hk : n ∈ A.cfgs.map HConfig.name
        · rw [if_pos hk, if_pos (hm.2 hk)]
          refine ih _ _ ⟨ha.now, ha.types, ?_⟩
          intro x hx
          simp only [upd]
          split
          · rfl
          · exact ha.names x hx
        · rw [if_neg hk, if_neg (fun h => hk (hm.1 h))]
          exact .inl ⟨_, rfl, rfl⟩

theorem newOpOpts_without (A : App W R) (hg : ∀ n, gone n = true → n ∈ A.cfgs.map HConfig.name)
    (s : Sys W R) (os : List OpOption) :
    (∃ v, newOpOpts A s os = .error v ∧
      newOpOpts (A.without gone) (s.without gone) (os.filter (OpOption.about gone)) = .error v) ∨
    ∃ oo oo', newOpOpts A s os = .ok oo ∧
      newOpOpts (A.without gone) (s.without gone) (os.filter (OpOption.about gone)) = .ok oo' ∧
      OptsAgree gone oo oo' :=
  applyAll_without gone A hg os (OpOpts.default (A.uc.wallClock s.w))
    (OpOpts.default (A.uc.wallClock s.w)) ⟨rfl, rfl, fun _ _ => rfl⟩

theorem skip_without {oo oo' : OpOpts} (ha : OptsAgree gone oo oo') {h : HConfig}
    (hh : gone h.name = false) : skipHandler oo' h = skipHandler oo h := by
  unfold skipHandler
  rw [ha.names _ hh, ha.types]

theorem cycle_without {oo oo' : OpOpts} (ha : OptsAgree gone oo oo') (A : App W R) :
    oo'.cycle (A.without gone) =
      { oo.cycle A with names := (oo.cycle A).names.filter (fun p => !gone p.1) } := by
  simp only [OpOpts.cycle, ha.now, ha.types, CycleInfo.mk.injEq, true_and, App.without]
  induction A.cfgs with
  | nil => rfl
  | cons h l ih =>
    cases hh : gone h.name with
    | true =>
      simp only [List.filter_cons, hh, Bool.not_true, Bool.false_eq_true, if_false, ih,
        List.filterMap_cons]
      cases oo.names h.name with
      | none => rfl
      | some b => simp [hh]
    | false =>
      simp only [List.filter_cons, hh, Bool.not_false, if_true, List.filterMap_cons, ha.names _ hh, ih]
      cases oo.names h.name with
      | none => rfl
      | some b => simp [hh]

/-! ## The loops -/

/-- A message that is not a timeout of a missing handler. -/
def Remains (e : Env) : Prop :=
  e.msg.type.kind = .timeout → ∀ o, e.origin = some o → gone o.handler.name = false

theorem find_without (A : App W R) {n : String} (hn : gone n = false) :
    (A.without gone).find n = A.find n := by
  unfold App.find App.without
  simp only
  induction A.cfgs with
  | nil => rfl
  | cons h l ih =>
    cases hh : gone h.name with
    | true =>
      have : h.name ≠ n := fun e => by rw [e, hn] at hh; cases hh
      simp only [List.filter_cons, hh, Bool.not_true, Bool.false_eq_true, if_false, ih,
        List.find?_cons, this, decide_false]
    | false =>
      simp only [List.filter_cons, hh, Bool.not_false, if_true, List.find?_cons, ih]

theorem route_without (A : App W R) (m : Message) :
    (A.without gone).route m = (A.route m).filter (fun h => !gone h.name) := by
  simp only [App.route, App.without, List.filter_filter, Bool.and_comm]

theorem targets_without (A : App W R) {env : Env} (hr : Remains gone env) :
    (∃ v, A.targets env = .error v ∧ (A.without gone).targets env = .error v) ∨
    ∃ hs, A.targets env = .ok hs ∧ (∀ h ∈ hs, h ∈ A.cfgs) ∧
      (A.without gone).targets env = .ok (hs.filter (fun h => !gone h.name)) := by
  have hroute : ∀ h ∈ A.route env.msg, h ∈ A.cfgs := fun h hh => (List.mem_filter.1 hh).1
  unfold App.targets
  cases hk : env.msg.type.kind with
  | command => exact .inr ⟨_, rfl, hroute, by rw [route_without]⟩
  | event => exact .inr ⟨_, rfl, hroute, by rw [route_without]⟩
  | timeout =>
    simp only
    cases ho : env.origin with
    | none => exact .inl ⟨_, rfl, rfl⟩
    | some o =>
      have hg := hr hk o ho
      simp only [find_without gone A hg]
      cases hf : A.find o.handler.name with
      | none => exact .inl ⟨_, rfl, rfl⟩
      | some h =>
        have hn : h.name = o.handler.name := by
          have := List.find?_some hf
          simpa using this
        refine .inr ⟨[h], rfl, ?_, ?_⟩
        · intro x hx
          rw [List.mem_singleton] at hx; subst hx
          exact List.mem_of_find?_eq_some hf
        · simp [hn, hg]

/-- Messages of a handler that stays. -/
theorem ctlHandle_remains (A : App W R) {h : HConfig} (hh : gone h.name = false) {now : Time} {env : Env}
    {s s' : Sys W R} {envs : List Env} {x : Option Err}
    (e : ctlHandle A h now env s = (s', .ok (envs, x))) : ∀ c ∈ envs, Remains gone c := by
  have e' : ctlHandle ({ A with cfgs := [h] } : App W R) h now env s = (s', .ok (envs, x)) :=
    (ctlHandle_cfgs A _ h now env s).trans e
  intro c hc hk o ho
  obtain ⟨o', ho', hm, _⟩ := ctlHandle_timeouts (List.mem_singleton.2 rfl) e' c hc hk
  rw [ho] at ho'; cases ho'
  rw [List.mem_singleton.1 hm]; exact hh

theorem handleAll_without (A : App W R) {oo oo' : OpOpts} (ha : OptsAgree gone oo oo')
    (hout : ∀ h ∈ A.cfgs, gone h.name = true → skipHandler oo h ≠ none) (env : Env)
    (hs : List HConfig) : (∀ h ∈ hs, h ∈ A.cfgs) → ∀ (q : List Env) (de : List EngErr) (s : Sys W R),
    handleAll (A.without gone) oo' env (hs.filter (fun h => !gone h.name)) q de (s.without gone) =
      ((handleAll A oo env hs q de s).1.without gone, (handleAll A oo env hs q de s).2) ∧
    ((∀ c ∈ q, Remains gone c) → ∀ q' de', (handleAll A oo env hs q de s).2 = .ok (q', de') →
      ∀ c ∈ q', Remains gone c) := by
  induction hs with
  | nil =>
    intro _ q de s
    refine ⟨rfl, fun hq q' de' e => ?_⟩
    cases e; exact hq
  | cons h hs ih =>
    intro hm q de s
    have hm' : ∀ x ∈ hs, x ∈ A.cfgs := fun x hx => hm x (by simp [hx])
    cases hh : gone h.name with
    | true =>
      have hsk := hout h (hm h (by simp)) hh
      rcases hr : skipHandler oo h with _ | r
      · exact absurd hr hsk
      · have hf : (h :: hs).filter (fun h => !gone h.name) = hs.filter (fun h => !gone h.name) := by
          simp [hh]
        rw [hf]
        have := ih hm' q de (s.notify (.handlingSkipped h env r))
        rw [without_notify_none gone s _ (by simp [Fact.without, hh])] at this
        have he : handleAll A oo env (h :: hs) q de s =
            handleAll A oo env hs q de (s.notify (.handlingSkipped h env r)) := by
          simp [handleAll, handleOne, hr, tagErr]
        rw [he]; exact this
    | false =>
      have hf : (h :: hs).filter (fun h => !gone h.name) = h :: hs.filter (fun h => !gone h.name) := by
        simp [hh]
      rw [hf]
      have h1 : handleOne (A.without gone) oo' env h (s.without gone) =
          ((handleOne A oo env h s).1.without gone, (handleOne A oo env h s).2) ∧
          ∀ envs e, (handleOne A oo env h s).2 = .ok (envs, e) → ∀ c ∈ envs, Remains gone c := by
        unfold handleOne
        rw [skip_without gone ha hh, ha.now]
        cases skipHandler oo h with
        | some r =>
          refine ⟨by rw [without_notify gone s _ _ (by simp only [Fact.without, hh]; rfl)], ?_⟩
          intro envs e he; cases he; simp
        | none =>
          simp only
          rw [← without_notify gone s (.handlingBegun h env) _ rfl, ctlHandle_without]
          rcases hc : ctlHandle A h oo.now env (s.notify (.handlingBegun h env)) with ⟨s1, v | ⟨envs, e⟩⟩
          · exact ⟨rfl, fun _ _ h => by cases h⟩
          · refine ⟨by simp only [without_notify gone s1 (.handlingCompleted h env e) _ rfl], ?_⟩
            intro envs' e' he; cases he
            exact ctlHandle_remains gone A hh hc
      obtain ⟨h1, h2⟩ := h1
      unfold handleAll
      rw [h1]
      rcases ho : handleOne A oo env h s with ⟨s1, v | ⟨envs, e⟩⟩
      · exact ⟨rfl, fun _ _ _ h => by cases h⟩
      · rw [ho] at h2
        have := ih hm' (q ++ envs) (de ++ tagErr h e) s1
        refine ⟨this.1, fun hq => this.2 ?_⟩
        intro c hc
        rcases List.mem_append.1 hc with hc | hc
        · exact hq c hc
        · exact h2 _ _ rfl c hc

theorem dispatchLoop_without (A : App W R) {oo oo' : OpOpts} (ha : OptsAgree gone oo oo')
    (hout : ∀ h ∈ A.cfgs, gone h.name = true → skipHandler oo h ≠ none) (n : Nat) :
    ∀ (q : List Env) (errs : List EngErr) (s : Sys W R), (∀ c ∈ q, Remains gone c) →
    dispatchLoop (A.without gone) oo' n q errs (s.without gone) =
      ((dispatchLoop A oo n q errs s).1.without gone, (dispatchLoop A oo n q errs s).2) := by
  induction n with
  | zero => intro q errs s _; cases q <;> rfl
  | succ n ih =>
    intro q errs s hq
    cases q with
    | nil => rfl
    | cons env q =>
      unfold dispatchLoop
      rcases targets_without gone A (hq env (by simp)) with ⟨v, h1, h2⟩ | ⟨hs, h1, hm, h2⟩
      · rw [h1, h2]
      · rw [h1, h2]
        simp only
        obtain ⟨h3, h4⟩ := handleAll_without gone A ha hout env hs hm q [] (s.notify (.dispatchBegun env))
        rw [← without_notify gone s (.dispatchBegun env) _ rfl, h3]
        rcases hx : handleAll A oo env hs q [] (s.notify (.dispatchBegun env)) with ⟨s1, v | ⟨q', de⟩⟩
        · rfl
        · rw [hx] at h4
          have hq' := h4 (fun c hc => hq c (by simp [hc])) _ _ rfl
          simp only
          rw [← without_notify gone s1 (.dispatchCompleted env de) _ rfl]
          have hw : ((s1.notify (.dispatchCompleted env de)).without gone).w =
            (s1.notify (.dispatchCompleted env de)).w := rfl
          rw [hw]
          change (match A.uc.ctxErr _ with | some e => _ | none => _) = _
          cases A.uc.ctxErr (s1.notify (.dispatchCompleted env de)).w with
          | some e => rfl
          | none => exact ih _ _ _ hq'

/-- Pending timeouts are filed under the handler that scheduled them. -/
def Filed (s : Sys W R) : Prop :=
  ∀ n e, e ∈ (s.proc n).timeouts → ∀ o, e.origin = some o → o.handler.name = n

theorem tickAll_without (A : App W R) {oo oo' : OpOpts} (ha : OptsAgree gone oo oo')
    (hout : ∀ h ∈ A.cfgs, gone h.name = true → skipHandler oo h ≠ none) (hs : List HConfig) :
    (∀ h ∈ hs, h ∈ A.cfgs) → ∀ (q : List Env) (errs : List EngErr) (s : Sys W R), Filed s →
    tickAll (A.without gone) oo' (hs.filter (fun h => !gone h.name)) q errs (s.without gone) =
      ((tickAll A oo hs q errs s).1.without gone, (tickAll A oo hs q errs s).2) ∧
    ((∀ c ∈ q, Remains gone c) → ∀ q' errs' c', (tickAll A oo hs q errs s).2 = .ok (q', errs', c') →
      ∀ c ∈ q', Remains gone c) := by
  induction hs with
  | nil =>
    intro _ q errs s _
    refine ⟨rfl, fun hq q' de' c' e => ?_⟩
    cases e; exact hq
  | cons h hs ih =>
    intro hm q errs s hp
    have hm' : ∀ x ∈ hs, x ∈ A.cfgs := fun x hx => hm x (by simp [hx])
    cases hh : gone h.name with
    | true =>
      have hsk := hout h (hm h (by simp)) hh
      rcases hr : skipHandler oo h with _ | r
      · exact absurd hr hsk
      · have hf : (h :: hs).filter (fun h => !gone h.name) = hs.filter (fun h => !gone h.name) := by
          simp [hh]
        rw [hf]
        have := ih hm' q errs (s.notify (.tickSkipped h r)) hp
        rw [without_notify_none gone s _ (by simp [Fact.without, hh])] at this
        have he : tickAll A oo (h :: hs) q errs s =
            tickAll A oo hs q errs (s.notify (.tickSkipped h r)) := by
          simp [tickAll, hr]
        rw [he]; exact this
    | false =>
      have hf : (h :: hs).filter (fun h => !gone h.name) = h :: hs.filter (fun h => !gone h.name) := by
        simp [hh]
      rw [hf]
      unfold tickAll
      rw [skip_without gone ha hh, ha.now]
      cases skipHandler oo h with
      | some r =>
        simp only
        rw [← without_notify gone s (.tickSkipped h r) _ (by simp only [Fact.without, hh]; rfl)]
        exact ih hm' q errs (s.notify (.tickSkipped h r)) hp
      | none =>
        simp only
        rw [← without_notify gone s (.tickBegun h) _ rfl, ctlTick_without]
        obtain ⟨seg, g⟩ := ctlTick_sum A h oo.now (s.notify (.tickBegun h))
        rcases hc : ctlTick A h oo.now (s.notify (.tickBegun h)) with ⟨s1, v | ⟨envs, e⟩⟩
        · exact ⟨rfl, fun _ _ _ _ h => by cases h⟩
        · rw [hc] at g
          have g1 : s1.proc = _ := g.proc
          have g2 := g.ok _ _ rfl
          have hq1 : (∀ c ∈ q, Remains gone c) → ∀ c ∈ q ++ envs, Remains gone c := by
            intro hq c hc
            rcases List.mem_append.1 hc with hc | hc
            · exact hq c hc
            · intro _ o ho
              rw [g2] at hc
              split at hc
              · rw [hp _ _ ((List.takeWhile_sublist _).mem hc) o ho]; exact hh
              · cases hc
          have hp1 : Filed s1 := by
            intro n t ht
            rw [g1] at ht
            split at ht
            · unfold upd at ht
              split at ht
              · rename_i hn; rw [hn]; exact hp _ _ ((List.dropWhile_sublist _).mem ht)
              · exact hp _ _ ht
            · exact hp _ _ ht
          simp only
          rw [← without_notify gone s1 (.tickCompleted h e) _ rfl]
          have hw : ((s1.notify (.tickCompleted h e)).without gone).w = (s1.notify (.tickCompleted h e)).w := rfl
          rw [hw]
          change (match A.uc.ctxErr _ with | some e => _ | none => _) = _ ∧ _
          cases A.uc.ctxErr (s1.notify (.tickCompleted h e)).w with
          | some c =>
            refine ⟨rfl, fun hq q' errs' c' he => ?_⟩
            cases he; exact hq1 hq
          | none =>
            have := ih hm' (q ++ envs) (errs ++ tagErr h e) (s1.notify (.tickCompleted h e)) hp1
            exact ⟨this.1, fun hq => this.2 (hq1 hq)⟩


/-! ## Operations -/

theorem filed_reach {A : App W R} (wf : A.WF) {s : Sys W R} (hs : Reach A s) : Filed s := by
  intro n e he o ho
  obtain ⟨_, _, o', ho', hn⟩ := (core_reach wf hs).pend n e he
  rw [ho] at ho'; cases ho'; exact hn

theorem out_skips {A : App W R} {s : Sys W R} {os : List OpOption} {oo : OpOpts}
    (h : newOpOpts A s os = .ok oo)
    (hout : ∀ h ∈ A.cfgs, gone h.name = true → takesPart os h = false) :
    ∀ h ∈ A.cfgs, gone h.name = true → skipHandler oo h ≠ none := by
  intro x hx hg e
  rw [newOpOpts_skip h] at e
  have := hout x hx hg
  rw [takesPart_iff.2 e] at this; cases this

theorem reset_without (A : App W R) (s : Sys W R) :
    engReset (A.without gone) (s.without gone) = ((engReset A s).1.without gone, (engReset A s).2) := by
  have key : ∀ (fs : List (W → W × Option PanicVal)) (i : Nat) (s : Sys W R),
      runResetters i fs (s.without gone) =
        ((runResetters i fs s).1.without gone, (runResetters i fs s).2) := by
    intro fs
    induction fs with
    | nil => intro i s; rfl
    | cons f fs ih =>
      intro i s
      unfold runResetters
      have hu : (s.without gone).user (.resetter i) f =
          (((s.user (.resetter i) f).1).without gone, (s.user (.resetter i) f).2) := by
        simp [Sys.user, Sys.without, Sys.emit, Obs.without]
      rw [hu]
      rcases s.user (.resetter i) f with ⟨s1, _ | v⟩
      · exact ih _ s1
      · rfl
  unfold engReset
  rw [← key]
  congr 1
  simp [Sys.without, Sys.emit, Obs.without]

end

/-- **C117.** Operations that leave some handlers out do the same, handler for handler and call for
call, in the application without these handlers: same outcome and same state.  The facts are the
same but for those that say that these handlers were skipped. -/
theorem C117_operation {A : App W R} (wf : A.WF) {s : Sys W R} (hs : Reach A s) (gone : String → Bool)
    (hg : ∀ n, gone n = true → n ∈ A.cfgs.map HConfig.name) (op : Op) (hop : op.ok A)
    (hl : op.LeavesOut A gone) :
    (op.without gone).exec (A.without gone) (s.without gone) =
      ((op.exec A s).1.without gone, (op.exec A s).2) := by
  cases op with
  | reset => exact reset_without gone A s
  | tick n order os =>
    simp only [Op.without, Op.exec]
    unfold engTick
    rcases newOpOpts_without gone A hg s os with ⟨v, h1, h2⟩ | ⟨oo, oo', h1, h2, ha⟩
    · rw [h1, h2]
    · rw [h1, h2]
      simp only
      have hout := out_skips gone h1 hl.out
      rw [cycle_without gone ha A, ← without_notify gone s (.tickCycleBegun (oo.cycle A)) _ rfl]
      change (match A.uc.lockErr (s.notify (.tickCycleBegun (oo.cycle A))).w with
        | some e => _ | none => _) = _
      cases A.uc.lockErr (s.notify (.tickCycleBegun (oo.cycle A))).w with
      | some e =>
        simp only
        rw [without_notify gone _ (.tickCycleCompleted (oo.cycle A).maps [.lock e]) _ rfl]
        rfl
      | none =>
        simp only
        have hp : Filed (s.notify (.tickCycleBegun (oo.cycle A))) :=
          fun n e he => filed_reach wf hs n e he
        obtain ⟨h3, h4⟩ := tickAll_without gone A ha hout order (fun h hh => hop.mem_iff.1 hh) [] []
          (s.notify (.tickCycleBegun (oo.cycle A))) hp
        unfold engTickLocked
        rw [h3]
        rcases hx : tickAll A oo order [] [] (s.notify (.tickCycleBegun (oo.cycle A))) with
          ⟨s1, v | ⟨q, errs, _ | c⟩⟩
        · rfl
        · rw [hx] at h4
          simp only
          rw [dispatchLoop_without gone A ha hout n q [] s1 (h4 (by simp) _ _ _ rfl)]
          rcases dispatchLoop A oo n q [] s1 with ⟨s2, o⟩
          cases o with
          | done e =>
            simp only
            rw [without_notify gone _ (.tickCycleCompleted (oo.cycle A).maps (errs ++ e)) _ rfl]
            rfl
          | panicked v => rfl
          | running => rfl
        · simp only
          rw [without_notify gone _ (.tickCycleCompleted (oo.cycle A).maps [.ctx c]) _ rfl]
          rfl
  | dispatch n m os =>
    simp only [Op.without, Op.exec]
    unfold engDispatch
    simp only
    have he : ({ s.without gone with nextID := (s.without gone).nextID + 1 } : Sys W R) =
      ({ s with nextID := s.nextID + 1 } : Sys W R).without gone := rfl
    rw [he]
    rcases newOpOpts_without gone A hg { s with nextID := s.nextID + 1 } os with
      ⟨v, h1, h2⟩ | ⟨oo, oo', h1, h2, ha⟩
    · rw [h1, h2]
    · rw [h1, h2]
      simp only
      have hout := out_skips gone h1 hl.out
      split
      · rfl
      · rename_i hk
        split
        · rfl
        · have hrr : A.route m = [] ↔ (A.without gone).route m = [] := by
            rw [route_without]
            constructor
            · intro e; rw [e]; rfl
            · intro e
              rcases hx : A.route m with _ | ⟨h, l⟩
              · rfl
              · exfalso
                have hh : h ∈ A.route m := by rw [hx]; simp
                have key : ∀ x ∈ A.route m, gone x.name ≠ false := by
                  intro x hx hg
                  have : x ∈ (A.route m).filter (fun h => !gone h.name) :=
                    List.mem_filter.2 ⟨hx, by simp [hg]⟩
                  rw [e] at this; cases this
                obtain ⟨h1, h2⟩ := List.mem_filter.1 hh
                have hg1 : gone h.name = true := by
                  cases hq : gone h.name with
                  | true => rfl
                  | false => exact absurd hq (key h hh)
                obtain ⟨y, hy, hy1, hy2⟩ := hl.consumed n m os rfl h h1 hg1
                  (by simpa [HConfig.consumes?] using h2)
                exact key y (List.mem_filter.2 ⟨hy, by simpa [HConfig.consumes?] using hy2⟩) hy1
          by_cases hr : A.route m = []
          · rw [if_pos hr, if_pos (hrr.1 hr)]
          have hr' : ¬ (A.without gone).route m = [] := fun e => hr (hrr.2 e)
          rw [if_neg hr, if_neg hr', cycle_without gone ha A, ha.now]
          have hid : (s.without gone).nextID = s.nextID := rfl
          rw [hid]
          generalize henv : Env.root (s.nextID + 1) m oo.now = env
          have hrem : ∀ c ∈ [env], Remains gone c := by
            intro c hc _ o ho
            rw [List.mem_singleton.1 hc, ← henv] at ho; cases ho
          rw [← without_notify gone { s with nextID := s.nextID + 1 } (.dispatchCycleBegun env (oo.cycle A)) _ rfl]
          generalize ({ s with nextID := s.nextID + 1 } : Sys W R).notify
            (.dispatchCycleBegun env (oo.cycle A)) = s1
          change (match A.uc.lockErr s1.w with | some e => _ | none => _) = _
          cases A.uc.lockErr s1.w with
          | some e =>
            simp only
            rw [without_notify gone _ (.dispatchCycleCompleted env (oo.cycle A).maps [.lock e]) _ rfl]
            rfl
          | none =>
            simp only
            rw [dispatchLoop_without gone A ha hout n [env] [] s1 hrem]
            rcases dispatchLoop A oo n [env] [] s1 with ⟨s2, o⟩
            cases o with
            | done e =>
              simp only
              rw [without_notify gone _ (.dispatchCycleCompleted env (oo.cycle A).maps e) _ rfl]
              rfl
            | panicked v => rfl
            | running => rfl

theorem without_wf {A : App W R} (wf : A.WF) (gone : String → Bool) : (A.without gone).WF where
  names := (List.Sublist.map HConfig.name List.filter_sublist).nodup wf.names
  handlers := fun h hh => wf.handlers h (List.mem_filter.1 hh).1

theorem without_ok {A : App W R} {gone : String → Bool} {op : Op} (hop : op.ok A) :
    (op.without gone).ok (A.without gone) := by
  cases op with
  | tick n order os => exact List.Perm.filter _ hop
  | dispatch n m os => trivial
  | reset => trivial

/-- **C117, histories.** Handlers that are left out of all operations might as well not be there.
The application without them is a proper application, the operations are proper operations of it,
and all goes as it does with them: the same outcomes, the same calls into user code, and in the end
the same state. -/
theorem C117_history {A : App W R} (wf : A.WF) (gone : String → Bool)
    (hg : ∀ n, gone n = true → n ∈ A.cfgs.map HConfig.name) (l : List ((W → W) × Op))
    (hop : ∀ x ∈ l, x.2.ok A) (hl : ∀ x ∈ l, x.2.LeavesOut A gone) (w : W) :
    (A.without gone).WF ∧ (∀ x ∈ l, (x.2.without gone).ok (A.without gone)) ∧
    performAll (A.without gone) (l.map (fun x => (x.1, x.2.without gone))) (Sys.init w) =
      ((performAll A l (Sys.init w)).1.without gone, (performAll A l (Sys.init w)).2) := by
  refine ⟨without_wf wf gone, fun x hx => without_ok (hop x hx), ?_⟩
  have key : ∀ s : Sys W R, Reach A s →
      performAll (A.without gone) (l.map (fun x => (x.1, x.2.without gone))) (s.without gone) =
      ((performAll A l s).1.without gone, (performAll A l s).2) := by
    induction l with
    | nil => intro s _; rfl
    | cons x l ih =>
      intro s hs
      obtain ⟨f, op⟩ := x
      have h1 := C117_operation wf (.world (f s.w) hs) gone hg op (hop (f, op) (by simp))
        (hl (f, op) (by simp))
      have h2 := ih (fun y hy => hop y (by simp [hy])) (fun y hy => hl y (by simp [hy])) _
        (.step op (.world (f s.w) hs) (hop (f, op) (by simp)))
      have h1' : (op.without gone).exec (A.without gone) { s.without gone with w := f (s.without gone).w } =
        ((op.exec A { s with w := f s.w }).1.without gone, (op.exec A { s with w := f s.w }).2) := h1
      simp only [List.map_cons, performAll]
      rw [h1', h2]
  exact key (Sys.init w) (.init w)

/-- The calls into user code in a trace. -/
def userCalls (t : List (Obs R)) : List (Call R) :=
  t.filterMap fun
    | .call c => some c
    | _ => none

/-- **C117, what `without` leaves.** The states compared differ in facts only: user code is called
the same way, with the same arguments, in the same order. -/
theorem C117_calls (gone : String → Bool) (s : Sys W R) :
    userCalls (s.without gone).trace = userCalls s.trace ∧ (s.without gone).w = s.w ∧
    (s.without gone).nextID = s.nextID ∧ (s.without gone).agg = s.agg ∧
    (s.without gone).proc = s.proc ∧ (s.without gone).lastCompact = s.lastCompact := by
  refine ⟨?_, rfl, rfl, rfl, rfl, rfl⟩
  show userCalls (s.trace.filterMap (Obs.without gone)) = _
  induction s.trace with
  | nil => rfl
  | cons o t ih =>
    unfold userCalls at ih ⊢
    cases o with
    | call c => simp only [List.filterMap_cons, Obs.without, ih]
    | reset => simp only [List.filterMap_cons, Obs.without, ih]
    | fact f =>
      simp only [List.filterMap_cons, Obs.without]
      cases f.without gone with
      | none => exact ih
      | some f => simp only [Option.map_some, List.filterMap_cons, ih]

theorem handleAll_idle (A : App W R) (oo : OpOpts) (env : Env) (hs : List HConfig)
    (hsk : ∀ h ∈ hs, skipHandler oo h ≠ none) : ∀ (q : List Env) (de : List EngErr) (s : Sys W R),
    ∃ fs : List Fact, handleAll A oo env hs q de s =
      ({ s with trace := s.trace ++ fs.map .fact }, .ok (q, de)) := by
  induction hs with
  | nil => intro q de s; exact ⟨[], by simp [handleAll]⟩
  | cons h hs ih =>
    intro q de s
    rcases hr : skipHandler oo h with _ | r
    · exact absurd hr (hsk h (by simp))
    · obtain ⟨fs, e⟩ := ih (fun x hx => hsk x (by simp [hx])) q de (s.notify (.handlingSkipped h env r))
      refine ⟨.handlingSkipped h env r :: fs, ?_⟩
      have he : handleAll A oo env (h :: hs) q de s =
          handleAll A oo env hs q de (s.notify (.handlingSkipped h env r)) := by
        simp [handleAll, handleOne, hr, tagErr]
      rw [he, e]
      simp [Sys.notify, Sys.emit]

/-- **C117, where the two differ.** If a proper message is consumed by no handler but those left
out, a dispatch of it calls no user code and changes nothing, but it returns; without these handlers
it is rejected. -/
theorem C117_unheard {A : App W R} {s : Sys W R} (gone : String → Bool)
    (hg : ∀ n, gone n = true → n ∈ A.cfgs.map HConfig.name) (n : Nat) (m : Message) (os : List OpOption)
    (hout : ∀ h ∈ A.cfgs, gone h.name = true → takesPart os h = false)
    (hk : m.type.kind ≠ .timeout) (hv : m.invalid = none) (hn : namesKnown A.cfgs os)
    (h0 : ∃ h ∈ A.cfgs, m.type ∈ h.consumes)
    (hc : ∀ h ∈ A.cfgs, m.type ∈ h.consumes → gone h.name = true) :
    (∃ (errs : List EngErr) (fs : List Fact), ((Op.dispatch (n + 1) m os).exec A s) =
      ({ s with nextID := s.nextID + 1, trace := s.trace ++ fs.map .fact }, .done errs)) ∧
    (((Op.dispatch (n + 1) m os).without gone).exec (A.without gone) (s.without gone)) =
      ({ s.without gone with nextID := s.nextID + 1 }, .panicked (.misuse (notConsumedText m))) := by
  obtain ⟨hx, hmx, hcx⟩ := h0
  have hr : A.route m ≠ [] := by
    intro e
    have : hx ∈ A.route m := List.mem_filter.2 ⟨hmx, by simpa [HConfig.consumes?] using hcx⟩
    rw [e] at this; cases this
  have hr' : (A.without gone).route m = [] := by
    rw [route_without, List.filter_eq_nil_iff]
    intro h hh
    obtain ⟨h1, h2⟩ := List.mem_filter.1 hh
    have := hc h h1 (by simpa [HConfig.consumes?] using h2)
    simp [this]
  have hok : ∃ oo, newOpOpts A { s with nextID := s.nextID + 1 } os = .ok oo := newOpOpts_names.2 hn
  rcases newOpOpts_without gone A hg { s with nextID := s.nextID + 1 } os with
    ⟨v, h1, _⟩ | ⟨oo, oo', h1, h2, ha⟩
  · obtain ⟨oo, ho⟩ := hok
    rw [h1] at ho; cases ho
  constructor
  · have hsk := out_skips gone h1 hout
    simp only [Op.exec, engDispatch, h1, if_neg hk, hv, if_neg hr]
    cases A.uc.lockErr (({ s with nextID := s.nextID + 1 } : Sys W R).notify (.dispatchCycleBegun
      (Env.root (s.nextID + 1) m oo.now) (oo.cycle A))).w with
    | some e =>
      exact ⟨[.lock e], [.dispatchCycleBegun (Env.root (s.nextID + 1) m oo.now) (oo.cycle A),
        .dispatchCycleCompleted (Env.root (s.nextID + 1) m oo.now) (oo.cycle A).maps [.lock e]],
        by simp [Sys.notify, Sys.emit]⟩
    | none =>
      simp only
      generalize henv : Env.root (s.nextID + 1) m oo.now = env
      have hmsg : env.msg = m := by rw [← henv]; rfl
      have ht : A.targets env = .ok (A.route m) := by
        unfold App.targets
        rw [hmsg]
        cases hkk : m.type.kind with
        | timeout => exact absurd hkk hk
        | _ => rfl
      obtain ⟨fs, hf⟩ := handleAll_idle A oo env (A.route m) (fun h hh => by
        obtain ⟨h1, h2⟩ := List.mem_filter.1 hh
        exact hsk h h1 (hc h h1 (by simpa [HConfig.consumes?] using h2))) [] []
        ((({ s with nextID := s.nextID + 1 } : Sys W R).notify
          (.dispatchCycleBegun env (oo.cycle A))).notify (.dispatchBegun env))
      unfold dispatchLoop
      rw [ht]
      simp only
      rw [hf]
      simp only
      cases A.uc.ctxErr _ with
      | some e =>
        exact ⟨[.ctx e], .dispatchCycleBegun env (oo.cycle A) :: .dispatchBegun env :: (fs ++
          [.dispatchCompleted env [], .dispatchCycleCompleted env (oo.cycle A).maps [.ctx e]]),
          by simp [Sys.notify, Sys.emit]⟩
      | none =>
        refine ⟨[], .dispatchCycleBegun env (oo.cycle A) :: .dispatchBegun env :: (fs ++
          [.dispatchCompleted env [], .dispatchCycleCompleted env (oo.cycle A).maps []]), ?_⟩
        cases n <;> simp [Sys.notify, Sys.emit, dispatchLoop]
  · have he : ({ s.without gone with nextID := (s.without gone).nextID + 1 } : Sys W R) =
      ({ s with nextID := s.nextID + 1 } : Sys W R).without gone := rfl
    simp only [Op.without, Op.exec, engDispatch]
    rw [he, h2]
    simp only [if_neg hk, hv, hr', if_true]
    rfl

/-! ## Examples -/

/-- The integration and the projection of the demo, which a test leaves out unless told
otherwise. -/
def Demo.extras (n : String) : Bool := n == "int" || n == "prj"

def Demo.leaveOut : List OpOption := [.enableType .integration false, .enableType .projection false]

/-- Two commands at times 1 and 3, then a tick at time 10 and one more command.  The process is left
out of the third operation as well, by name. -/
def Demo.without : List ((Nat → Nat) × Op) :=
  [(id, .dispatch 20 (Demo.msgC "x") (.currentTime 1 :: Demo.leaveOut)),
   (id, .dispatch 20 (Demo.msgC "y") (.currentTime 3 :: .enableHandler "int" false :: Demo.leaveOut)),
   (fun w => w + 2, .dispatch 20 (Demo.msgC "z") (.enableHandler "proc" false :: Demo.leaveOut)),
   (id, .tick 20 [Demo.int, Demo.agg, Demo.prj, Demo.proc] (.currentTime 10 :: Demo.leaveOut))]

theorem Demo.without_ok : ∀ x ∈ Demo.without, x.2.ok Demo.app := by
  intro x hx
  simp only [Demo.without, List.mem_cons, List.not_mem_nil, or_false] at hx
  rcases hx with rfl | rfl | rfl | rfl
  · trivial
  · trivial
  · trivial
  · show List.Perm [Demo.int, Demo.agg, Demo.prj, Demo.proc] [Demo.agg, Demo.proc, Demo.int, Demo.prj]
    decide

theorem Demo.without_leaves : ∀ x ∈ Demo.without, x.2.LeavesOut Demo.app Demo.extras := by
  intro x hx
  simp only [Demo.without, List.mem_cons, List.not_mem_nil, or_false] at hx
  rcases hx with rfl | rfl | rfl | rfl <;>
    refine ⟨by decide, fun n m os e h hm hg hc => ?_⟩ <;> cases e <;>
    exact ⟨Demo.agg, by simp [Demo.app], by decide, by decide⟩

/-- The hypotheses of `C117_history` are met by a history in which much happens: with all four
handlers, the two that take part are called many times, messages and timeouts are produced, and
the others are skipped; without them nothing is skipped but the process, once. -/
example : (performAll (Demo.app.without Demo.extras)
      (Demo.without.map (fun x => (x.1, x.2.without Demo.extras))) (Sys.init 0)) =
    (((performAll Demo.app Demo.without (Sys.init 0)).1.without Demo.extras),
      (performAll Demo.app Demo.without (Sys.init 0)).2) :=
  (C117_history Demo.app_wf Demo.extras (by
    intro n hn
    simp only [Demo.extras, Bool.or_eq_true, beq_iff_eq] at hn
    rcases hn with rfl | rfl <;> decide) Demo.without Demo.without_ok Demo.without_leaves 0).2.2

def Demo.skips (t : List (Obs (List String))) : Nat := t.countP fun
  | .fact (.handlingSkipped ..) | .fact (.tickSkipped ..) => true
  | _ => false

set_option maxRecDepth 100000 in
example :
    (userCalls (performAll Demo.app Demo.without (Sys.init 0)).1.trace).length = 21 ∧
    Demo.skips (performAll Demo.app Demo.without (Sys.init 0)).1.trace = 9 ∧
    Demo.skips (performAll (Demo.app.without Demo.extras)
      (Demo.without.map (fun x => (x.1, x.2.without Demo.extras))) (Sys.init 0)).1.trace = 1 ∧
    (performAll Demo.app Demo.without (Sys.init 0)).2.length = 4 := by decide +kernel

/-- The hypotheses of `C117_unheard` are met: only the process and the projection consume events of
type `E`. -/
example : (∀ h ∈ Demo.app.cfgs, (fun n => n == "proc" || n == "prj") h.name = true →
      takesPart [.enableType .process false, .enableHandler "prj" false] h = false) ∧
    namesKnown Demo.app.cfgs [.enableType .process false, .enableHandler "prj" false] ∧
    (∃ h ∈ Demo.app.cfgs, Demo.evtE ∈ h.consumes) ∧
    (∀ h ∈ Demo.app.cfgs, Demo.evtE ∈ h.consumes → (fun n => n == "proc" || n == "prj") h.name = true) := by
  refine ⟨by decide, ?_, by decide, by decide⟩
  intro n b hn
  simp at hn
  rw [hn.1]; decide

end Verif
