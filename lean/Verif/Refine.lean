import Verif.Inv

/-!
# Refinement of engine-held state to a function of the past

`Refine` collects what has to be shown, per handling and per controller tick, so
that a relation between the happenings and the engine-held state holds in every
reachable state, and a relation between the happenings and each observation
holds for every observation.
-/

namespace Verif

variable {W R : Type}

theorem scan_time (t : List (Obs R)) : (scan t).time = (timeNow t).getD 0 := by
  induction t using List.reverseRecOn' with
  | nil => rfl
  | append_singleton t o ih =>
    rw [scan_snoc, timeNow_snoc]
    cases o with
    | call c => unfold Scan.step; simp only; split <;> exact ih
    | reset => exact ih
    | fact f =>
      unfold Scan.step
      cases f <;> first | rfl | exact ih | (simp only; split <;> exact ih)

theorem happenings_idle {t : List (Obs R)} {now : Time} (ht : timeNow t = some now) :
    (scan t).time = now := by rw [scan_time, ht]; rfl

/-- Inner observations are collected by the scan. -/
theorem scan_inner {h : HConfig} {now : Time} {env : Env} (seg t : List (Obs R))
    (hs : ∀ o ∈ seg, InnerObs h now env o) {h' : HConfig} {e' : Env} {seg0 : List (Obs R)}
    (hc : (scan t).cur = some (h', e', seg0)) :
    scan (t ++ seg) = { scan t with cur := some (h', e', seg0 ++ seg) } := by
  induction seg generalizing t seg0 with
  | nil => simp [← hc]
  | cons o seg ih =>
    have e : t ++ o :: seg = (t ++ [o]) ++ seg := by simp
    have hstep : scan (t ++ [o]) = { scan t with cur := some (h', e', seg0 ++ [o]) } := by
      rw [scan_snoc]
      have ho := hs o (by simp)
      unfold Scan.step
      cases o with
      | reset => exact ho.elim
      | call c => simp only [hc]
      | fact f =>
        cases f <;>
          first
          | (simp only [hc]; done)
          | (exfalso; rcases ho with ho | ⟨ev, ho, _⟩
             · exact ho
             · cases ho)
    rw [e, ih (t ++ [o]) (fun x hx => hs x (by simp [hx])) (by rw [hstep]), hstep]
    simp

/-- The scan over a whole handling. -/
theorem scan_handling {h : HConfig} {now : Time} {env : Env} (seg t : List (Obs R))
    (hs : ∀ o ∈ seg, InnerObs h now env o) :
    (∀ a b, seg = a ++ b → (scan (t ++ .fact (.handlingBegun h env) :: a)).done = (scan t).done ∧
      (scan (t ++ .fact (.handlingBegun h env) :: a)).cur = some (h, env, a)) ∧
    (∀ err, happenings (t ++ .fact (.handlingBegun h env) :: (seg ++ [.fact (.handlingCompleted h env err)])) =
      happenings t ++ [.handled (scan t).time h env seg err]) := by
  have h1 : scan (t ++ [.fact (.handlingBegun h env)]) = { scan t with cur := some (h, env, []) } := by
    rw [scan_snoc]; rfl
  have h2 : ∀ a, (∀ o ∈ a, InnerObs h now env o) →
      scan (t ++ .fact (.handlingBegun h env) :: a) = { scan t with cur := some (h, env, a) } := by
    intro a ha
    have e : t ++ .fact (.handlingBegun h env) :: a = (t ++ [.fact (.handlingBegun h env)]) ++ a := by
      simp
    rw [e, scan_inner a _ ha (by rw [h1]), h1]
    simp
  refine ⟨?_, ?_⟩
  · intro a b hab
    rw [h2 a (fun o ho => hs o (by simp [hab, ho]))]
    exact ⟨rfl, rfl⟩
  · intro err
    have e : t ++ .fact (.handlingBegun h env) :: (seg ++ [.fact (.handlingCompleted h env err)]) =
        (t ++ .fact (.handlingBegun h env) :: seg) ++ [.fact (.handlingCompleted h env err)] := by simp
    unfold happenings
    rw [e, scan_snoc, h2 seg hs]
    rfl

/-- Facts that neither begin nor belong to a handling or a controller tick. -/
def Fact.outer : Fact → Prop
  | .dispatchCycleBegun _ _ | .dispatchCycleCompleted _ _ _ | .dispatchBegun _
  | .dispatchCompleted _ _ | .handlingSkipped _ _ _ | .tickCycleBegun _ | .tickCycleCompleted _ _
  | .tickSkipped _ _ => True
  | _ => False

theorem happenings_outer {f : Fact} (hf : f.outer) (t : List (Obs R)) :
    happenings (t ++ [.fact f]) = happenings t := by
  unfold happenings
  rw [scan_snoc]
  unfold Scan.step
  cases f <;> first | rfl | exact hf.elim | (simp only; split <;> rfl)

theorem happenings_ticked (h : HConfig) (t : List (Obs R)) :
    happenings (t ++ [.fact (.tickBegun h)]) = happenings t ++ [.ticked (scan t).time h] := by
  unfold happenings
  rw [scan_snoc]; rfl

theorem happenings_tickObs {h : HConfig} {now : Time} (seg t : List (Obs R))
    (hs : ∀ o ∈ seg, TickObs h now o) : happenings (t ++ seg) = happenings t := by
  induction seg generalizing t with
  | nil => simp
  | cons o seg ih =>
    have e : t ++ o :: seg = (t ++ [o]) ++ seg := by simp
    rw [e, ih _ (fun x hx => hs x (by simp [hx]))]
    have ho := hs o (by simp)
    unfold happenings
    rw [scan_snoc]
    unfold Scan.step
    cases o with
    | reset => exact ho.elim
    | call c => simp only; split <;> rfl
    | fact f => cases f <;> first | exact ho.elim | (simp only; split <;> rfl)

theorem happenings_plainTick (h : HConfig) (e : Option Err) (t : List (Obs R)) :
    happenings (t ++ [.fact (.tickCompleted h e)]) = happenings t := by
  unfold happenings
  rw [scan_snoc]
  unfold Scan.step
  simp only; split <;> rfl

/-- Everything known about one handling: `h` handled `env` from state `s` (just
after the handling was begun) to `s'`, with result `res`, observing `seg`. -/
structure Handling (A : App W R) (h : HConfig) (now : Time) (env : Env) (s s' : Sys W R) (res : HRes)
    (seg : List (Obs R)) : Prop where
  run : ctlHandle A h now env s = (s', res)
  handler : h ∈ A.cfgs
  consumed : env.msg.type ∈ h.consumes
  trace : s'.trace = s.trace ++ seg
  inner : ∀ o ∈ seg, InnerObs h now env o
  ok : ∀ envs e, res = .ok (envs, e) → envs = emission h now seg e
  agg : h.htype = .aggregate → AggSum A h now env s s' res seg
  proc : h.htype = .process → ProcSum A h now env s s' res seg
  noProc : h.htype ≠ .process → s'.proc = s.proc
  noAgg : h.htype ≠ .aggregate → s'.agg = s.agg
  last : s'.lastCompact = s.lastCompact

theorem ctlHandle_handling {A : App W R} {h : HConfig} {now : Time} {env : Env} {s s' : Sys W R}
    {res : HRes} (hr : ctlHandle A h now env s = (s', res)) (hm : h ∈ A.cfgs)
    (hcon : env.msg.type ∈ h.consumes) :
    ∃ seg, Handling A h now env s s' res seg := by
  obtain ⟨seg, h1, h2, h3, h4, h5, h6, h7, h8⟩ := ctlHandle_sum A h now env s
  rw [hr] at h1 h3 h4 h5 h6 h7 h8
  exact ⟨seg, hr, hm, hcon, h1, h2, h3, h4, h5, h6, h7, h8⟩

/-- What one call of `handleOne` did. -/
theorem handleOne_cases {A : App W R} {oo : OpOpts} {env : Env} {h : HConfig} {s s' : Sys W R}
    {res : HRes} (hm : h ∈ A.cfgs) (hcon : env.msg.type ∈ h.consumes)
    (hr : handleOne A oo env h s = (s', res)) :
    (∃ r, skipHandler oo h = some r ∧ s' = s.notify (.handlingSkipped h env r) ∧
      res = .ok ([], none)) ∨
    (skipHandler oo h = none ∧ ∃ s1 seg,
      Handling A h oo.now env (s.notify (.handlingBegun h env)) s1 res seg ∧
      ((∃ v, res = .error v ∧ s' = s1) ∨
       ∃ envs e, res = .ok (envs, e) ∧ s' = s1.notify (.handlingCompleted h env e))) := by
  unfold handleOne at hr
  split at hr
  · rename_i r hk; cases hr; exact .inl ⟨r, hk, rfl, rfl⟩
  · rename_i hk
    rcases hc : ctlHandle A h oo.now env (s.notify (.handlingBegun h env)) with ⟨s1, v | ⟨envs, e⟩⟩
    · rw [hc] at hr; cases hr
      obtain ⟨seg, hh⟩ := ctlHandle_handling hc hm hcon
      exact .inr ⟨hk, s', seg, hh, .inl ⟨v, rfl, rfl⟩⟩
    · rw [hc] at hr; cases hr
      obtain ⟨seg, hh⟩ := ctlHandle_handling hc hm hcon
      exact .inr ⟨hk, s1, seg, hh, .inr ⟨envs, e, rfl, rfl⟩⟩

/-- Same engine-held state. -/
structure SameStore (s s' : Sys W R) : Prop where
  agg : s'.agg = s.agg
  proc : s'.proc = s.proc
  last : s'.lastCompact = s.lastCompact

/-- The handling in progress, with what was observed in it so far. -/
abbrev Cur (R : Type) := Option (HConfig × Env × List (Obs R))

/-- What was observed in the handling in progress. -/
def Cur.seg : Cur R → List (Obs R)
  | some (_, _, seg) => seg
  | none => []

/-- Obligations for a refinement: `P L s` relates the happenings to the engine-held
state, `Q L c o` relates the happenings and the handling in progress to an observation. -/
structure Refine (A : App W R) (P : List (Happening R) → Sys W R → Prop)
    (Q : List (Happening R) → Cur R → Obs R → Prop) : Prop where
  frame : ∀ L s s', SameStore s s' → P L s → P L s'
  init : ∀ w, P [] (Sys.init w)
  reset : ∀ L s, P L s → P [] { s with
    nextID := 0, agg := fun _ _ => none, proc := fun _ => ⟨fun _ => none, []⟩ }
  ok : ∀ L h now env s s' envs e seg, PendOK A s → P L s →
    Handling A h now env s s' (.ok (envs, e)) seg →
    P (L ++ [.handled now h env seg e]) s'
  panic : ∀ L h now env s s' v seg, PendOK A s → P L s →
    Handling A h now env s s' (.error v) seg → P L s'
  tick : ∀ L h now s s' res seg, h ∈ A.cfgs → PendOK A s → P L s →
    TickSum h now s s' res seg → P (L ++ [.ticked now h]) s'
  obs : ∀ L h now env s s' res seg, PendOK A s → P L s → Handling A h now env s s' res seg →
    ∀ a o b, seg = a ++ o :: b → Q L (some (h, env, a)) o
  tickObs : ∀ L c h now o, TickObs h now o → Q L c o
  plain : ∀ L c f, (f.outer ∨ (∃ h e, f = .handlingBegun h e) ∨ (∃ h e x, f = .handlingCompleted h e x) ∨
    (∃ h, f = .tickBegun h) ∨ ∃ h e, f = .tickCompleted h e) → Q L c (.fact f)
  resetter : ∀ L c i, Q L c (.call (.resetter i))
  resetObs : ∀ L c, Q L c .reset

namespace Refine

variable {A : App W R} {P : List (Happening R) → Sys W R → Prop}
  {Q : List (Happening R) → Cur R → Obs R → Prop}

/-- The invariant that is lifted. -/
structure Inv (A : App W R) (P : List (Happening R) → Sys W R → Prop)
    (Q : List (Happening R) → Cur R → Obs R → Prop) (s : Sys W R) : Prop where
  store : P (happenings s.trace) s
  obs : Always (fun pre o => Q (happenings pre) (scan pre).cur o) s.trace

theorem outer (r : Refine A P Q) {s : Sys W R} (hi : Inv A P Q s) {f : Fact} (hf : f.outer) :
    Inv A P Q (s.notify f) := by
  refine ⟨?_, ?_⟩
  · rw [Sys.notify_trace, happenings_outer hf]
    exact r.frame _ s _ ⟨rfl, rfl, rfl⟩ hi.store
  · rw [Sys.notify_trace, always_snoc]
    exact ⟨hi.obs, r.plain _ _ _ (.inl hf)⟩

theorem handling (r : Refine A P Q) {s s1 : Sys W R} (hi : Inv A P Q s) (hp : PendOK A s)
    {h : HConfig} {now : Time} {env : Env} {res : HRes} {seg : List (Obs R)}
    (ht : timeNow s.trace = some now)
    (hh : Handling A h now env (s.notify (.handlingBegun h env)) s1 res seg) :
    (∀ v, res = .error v → Inv A P Q s1) ∧
    (∀ envs e, res = .ok (envs, e) → Inv A P Q (s1.notify (.handlingCompleted h env e))) := by
  have hst : P (happenings s.trace) (s.notify (.handlingBegun h env)) :=
    r.frame _ s _ ⟨rfl, rfl, rfl⟩ hi.store
  have hp' : PendOK A (s.notify (.handlingBegun h env)) := by
    intro n e he
    obtain ⟨a, b, c⟩ := hp n e he
    exact ⟨created_mono (seg := [.fact (.handlingBegun h env)]) rfl (by simp) a, b, c⟩
  obtain ⟨k1, k2⟩ := scan_handling seg s.trace hh.inner
  have htr : s1.trace = s.trace ++ .fact (.handlingBegun h env) :: seg := by
    rw [hh.trace]; simp
  have hobs1 : Always (fun pre o => Q (happenings pre) (scan pre).cur o) s1.trace := by
    rw [htr, always_append]
    refine ⟨hi.obs, ?_⟩
    intro a o b hab
    cases a with
    | nil =>
      simp only [List.nil_append, List.cons.injEq] at hab
      rw [← hab.1]
      exact r.plain _ _ _ (.inr (.inl ⟨h, env, rfl⟩))
    | cons x a =>
      simp only [List.cons_append, List.cons.injEq] at hab
      obtain ⟨rfl, hab⟩ := hab
      unfold happenings
      rw [(k1 a _ hab).1, (k1 a _ hab).2]
      exact r.obs _ h now env _ s1 res seg hp' hst hh a o b hab
  have htm := happenings_idle ht
  refine ⟨?_, ?_⟩
  · rintro v rfl
    refine ⟨?_, hobs1⟩
    have : happenings s1.trace = happenings s.trace := by
      rw [htr]; exact (k1 seg [] (by simp)).1
    rw [this]
    exact r.panic _ h now env _ s1 v seg hp' hst hh
  · rintro envs e rfl
    refine ⟨?_, ?_⟩
    · have : happenings (s1.notify (.handlingCompleted h env e)).trace =
          happenings s.trace ++ [.handled now h env seg e] := by
        rw [Sys.notify_trace, htr]
        have := k2 e
        rw [htm] at this
        rw [← this]; simp
      rw [this]
      exact r.frame _ s1 _ ⟨rfl, rfl, rfl⟩ (r.ok _ h now env _ s1 envs e seg hp' hst hh)
    · rw [Sys.notify_trace, always_snoc]
      exact ⟨hobs1, r.plain _ _ _ (.inr (.inr (.inl ⟨h, env, e, rfl⟩)))⟩

theorem ticking (r : Refine A P Q) {s s' : Sys W R} (hi : Inv A P Q s) (hp : PendOK A s)
    {h : HConfig} {now : Time} {res : HRes} (hm : h ∈ A.cfgs)
    (ht : timeNow s.trace = some now)
    (hr : ctlTick A h now (s.notify (.tickBegun h)) = (s', res)) : Inv A P Q s' := by
  obtain ⟨seg, g⟩ := ctlTick_sum A h now (s.notify (.tickBegun h))
  rw [hr] at g
  have hst : P (happenings s.trace) (s.notify (.tickBegun h)) :=
    r.frame _ s _ ⟨rfl, rfl, rfl⟩ hi.store
  have hp' : PendOK A (s.notify (.tickBegun h)) := by
    intro n e he
    obtain ⟨a, b, c⟩ := hp n e he
    exact ⟨created_mono (seg := [.fact (.tickBegun h)]) rfl (by simp) a, b, c⟩
  have htr : s'.trace = (s.trace ++ [.fact (.tickBegun h)]) ++ seg := g.trace
  have hobs : ∀ o ∈ seg, TickObs h now o := fun o ho => (g.obs o ho).1
  refine ⟨?_, ?_⟩
  · rw [htr, happenings_tickObs seg _ hobs, happenings_ticked, happenings_idle ht]
    exact r.tick _ h now _ s' res seg hm hp' hst g
  · rw [htr, always_append, always_snoc]
    refine ⟨⟨hi.obs, r.plain _ _ _ (.inr (.inr (.inr (.inl ⟨h, rfl⟩))))⟩, ?_⟩
    rintro a o b rfl
    exact r.tickObs _ _ h now o (hobs o (by simp))

theorem lift (r : Refine A P Q) (wf : A.WF) :
    Lift A (fun s => Core A s ∧ Inv A P Q s)
      (fun oo q _ s => CoreI A oo q s ∧ Inv A P Q s)
      (fun oo env _ q _ _ s => CoreJ A oo env q s ∧ Inv A P Q s)
      (fun oo _ q _ s => CoreI A oo q s ∧ Inv A P Q s) where
  init w := ⟨(core_lift A wf).init w, ⟨r.init w, by simp [Sys.init]⟩⟩
  world s w hs := ⟨(core_lift A wf).world s w hs.1,
    ⟨r.frame _ s _ ⟨rfl, rfl, rfl⟩ hs.2.store, hs.2.obs⟩⟩
  reset s hs := by
    refine ⟨(core_lift A wf).reset s hs.1, ?_, ?_⟩
    · have : happenings (s.emit (.reset : Obs R)).trace = [] := by
        unfold happenings; rw [Sys.emit_trace, scan_snoc]; rfl
      simp only [this]
      have := r.reset _ s hs.2.store
      refine r.frame [] _ _ ?_ this
      exact ⟨rfl, rfl, rfl⟩
    · simp only [Sys.emit_trace]
      rw [always_snoc]; exact ⟨hs.2.obs, r.resetObs _ _⟩
  resetter s i hs := by
    refine ⟨(core_lift A wf).resetter s i hs.1, ?_, ?_⟩
    · have : happenings (s.emit (.call (.resetter i))).trace = happenings s.trace := by
        unfold happenings; rw [Sys.emit_trace, scan_snoc]; unfold Scan.step
        simp only; split <;> rfl
      rw [this]
      exact r.frame _ s _ ⟨rfl, rfl, rfl⟩ hs.2.store
    · rw [Sys.emit_trace, always_snoc]; exact ⟨hs.2.obs, r.resetter _ _ i⟩
  takeID s hs := ⟨(core_lift A wf).takeID s hs.1,
    ⟨r.frame _ s _ ⟨rfl, rfl, rfl⟩ hs.2.store, hs.2.obs⟩⟩
  dBegin oo s m hs hr hv hk := by
    refine ⟨(core_lift A wf).dBegin oo s m hs.1 hr hv hk, ?_⟩
    have h1 : Inv A P Q ({ s with nextID := s.nextID + 1 } : Sys W R) :=
      ⟨r.frame _ s _ ⟨rfl, rfl, rfl⟩ hs.2.store, hs.2.obs⟩
    exact r.outer h1 trivial
  dEnd oo q errs s env er hi := ⟨hi.1.core.plain trivial, r.outer hi.2 trivial⟩
  stop oo q errs s hi := ⟨hi.1.core, hi.2⟩
  disp oo :=
    { begin_ := fun env q errs s hs _ hi => ⟨hi.1.begin_, r.outer hi.2 trivial⟩
      handle := fun env done h rest q errs de s s' envs e ht hj hr => by
        have hoff := hj.1.offered wf ht (h := h) (by simp)
        refine ⟨hj.1.handle wf ht (by simp) hr, ?_⟩
        rcases handleOne_cases hoff.handler hoff.consumed hr with
          ⟨rs, _, rfl, _⟩ | ⟨_, s1, seg, hh, ⟨v, hv, _⟩ | ⟨envs', e', hv, rfl⟩⟩
        · exact r.outer hj.2 trivial
        · cases hv
        · exact (r.handling hj.2 hj.1.base.core.pend hj.1.base.time hh).2 envs' e' hv
      panic := fun env done h rest q errs de s s' v ht hj hr => by
        have hoff := hj.1.offered wf ht (h := h) (by simp)
        refine ⟨hj.1.panic wf ht (by simp) hr, ?_⟩
        rcases handleOne_cases hoff.handler hoff.consumed hr with
          ⟨rs, _, _, h0⟩ | ⟨_, s1, seg, hh, ⟨v, hv, rfl⟩ | ⟨envs', e', hv, _⟩⟩
        · cases h0
        · exact (r.handling hj.2 hj.1.base.core.pend hj.1.base.time hh).1 v hv
        · cases hv
      panicT := fun env q errs s v ht hi => ⟨hi.1.core, hi.2⟩
      end_ := fun env hs q errs de s _ hj => ⟨hj.1.end_ de, r.outer hj.2 trivial⟩ }
  tBegin oo s hs := ⟨(core_lift A wf).tBegin oo s hs.1, r.outer hs.2 trivial⟩
  tick oo :=
    { skip := fun done h q errs s rs hm hi hr =>
        ⟨hi.1.notify trivial rfl, r.outer hi.2 trivial⟩
      tick := fun done h q errs s s' envs e hm hi hsk hr => by
        refine ⟨((core_lift A wf).tick oo).tick done h q errs s s' envs e hm hi.1 hsk hr, ?_⟩
        have := r.ticking hi.2 hi.1.core.pend hm hi.1.time hr
        refine ⟨?_, ?_⟩
        · rw [Sys.notify_trace, happenings_plainTick]
          exact r.frame _ s' _ ⟨rfl, rfl, rfl⟩ this.store
        · rw [Sys.notify_trace, always_snoc]
          exact ⟨this.obs, r.plain _ _ _ (.inr (.inr (.inr (.inr ⟨h, e, rfl⟩))))⟩
      panic := fun done h q errs s s' v hm hi hsk hr =>
        ⟨((core_lift A wf).tick oo).panic done h q errs s s' v hm hi.1 hsk hr,
          r.ticking hi.2 hi.1.core.pend hm hi.1.time hr⟩ }
  tDisp oo order q errs s _ hi := hi
  tStop oo done q errs s er hi := ⟨hi.1.core.plain trivial, r.outer hi.2 trivial⟩
  tEnd oo q errs s er hi := ⟨hi.1.core.plain trivial, r.outer hi.2 trivial⟩

/-- A refinement holds in every reachable state. -/
theorem reach (r : Refine A P Q) (wf : A.WF) {s : Sys W R} (hs : Reach A s) :
    P (happenings s.trace) s ∧ Always (fun pre o => Q (happenings pre) (scan pre).cur o) s.trace :=
  let h := ((r.lift wf).reach hs).2
  ⟨h.store, h.obs⟩

end Refine

end Verif
