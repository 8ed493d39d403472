import Verif.Refit

/-!
# Other names of instances

What the engine does when the instances of aggregates and processes have other names.  Specification,
and proof machinery: the engine compares the names of instances with each other and with the empty
string, but does nothing else with them.
-/

namespace Verif

variable {W R W' R' : Type}

/-! ## Specification -/

/-- Other names of instances, one for each and none for two, and the representation of roots and of
the world that goes with them. -/
structure Naming (W R W' R' : Type) where
  root : R → R'
  world : W → W'
  inst : String → String
  orig : String → String
  orig_inst : ∀ i, orig (inst i) = i
  inst_orig : ∀ i, inst (orig i) = i
  empty : inst "" = ""

/-- Rename the instance that a message comes from. -/
def Env.nm (σ : String → String) (e : Env) : Env :=
  { e with origin := e.origin.map fun o => { o with instanceID := σ o.instanceID } }

/-- Rename the instances in a fact. -/
def Fact.nm (σ : String → String) : Fact → Fact
  | .dispatchCycleBegun env c => .dispatchCycleBegun (env.nm σ) c
  | .dispatchCycleCompleted env m err => .dispatchCycleCompleted (env.nm σ) m err
  | .dispatchBegun env => .dispatchBegun (env.nm σ)
  | .dispatchCompleted env err => .dispatchCompleted (env.nm σ) err
  | .handlingBegun h env => .handlingBegun h (env.nm σ)
  | .handlingCompleted h env err => .handlingCompleted h (env.nm σ) err
  | .handlingSkipped h env r => .handlingSkipped h (env.nm σ) r
  | .tickCycleBegun c => .tickCycleBegun c
  | .tickCycleCompleted m err => .tickCycleCompleted m err
  | .tickBegun h => .tickBegun h
  | .tickCompleted h err => .tickCompleted h err
  | .tickSkipped h r => .tickSkipped h r
  | .aggLoaded h id env => .aggLoaded h (σ id) (env.nm σ)
  | .aggNotFound h id env => .aggNotFound h (σ id) (env.nm σ)
  | .aggCreated h id env => .aggCreated h (σ id) (env.nm σ)
  | .aggDestroyed h id env => .aggDestroyed h (σ id) (env.nm σ)
  | .aggReverted h id env => .aggReverted h (σ id) (env.nm σ)
  | .aggEvent h id env ev => .aggEvent h (σ id) (env.nm σ) (ev.nm σ)
  | .aggLog h id env s => .aggLog h (σ id) (env.nm σ) s
  | .procLoaded h id env => .procLoaded h (σ id) (env.nm σ)
  | .procEventIgnored h env => .procEventIgnored h (env.nm σ)
  | .procTimeoutIgnored h id env => .procTimeoutIgnored h (σ id) (env.nm σ)
  | .procNotFound h id env => .procNotFound h (σ id) (env.nm σ)
  | .procBegun h id env => .procBegun h (σ id) (env.nm σ)
  | .procEnded h id env => .procEnded h (σ id) (env.nm σ)
  | .procReverted h id env => .procReverted h (σ id) (env.nm σ)
  | .procCommand h id env cmd => .procCommand h (σ id) (env.nm σ) (cmd.nm σ)
  | .procTimeout h id env tmo => .procTimeout h (σ id) (env.nm σ) (tmo.nm σ)
  | .procLog h id env s => .procLog h (σ id) (env.nm σ) s
  | .intEvent h env ev => .intEvent h (env.nm σ) (ev.nm σ)
  | .intLog h env s => .intLog h (env.nm σ) s
  | .prjCompactBegun h => .prjCompactBegun h
  | .prjCompactCompleted h err => .prjCompactCompleted h err
  | .prjLog h env s => .prjLog h (env.map (Env.nm σ)) s

/-- Rename the instance that user code is called for. -/
def Call.nm (v : Naming W R W' R') : Call R → Call R'
  | .aggRoute h m => .aggRoute h m
  | .aggNew h => .aggNew h
  | .aggApply h r m => .aggApply h (v.root r) m
  | .aggHandle h id r m => .aggHandle h (v.inst id) (v.root r) m
  | .procRoute h m => .procRoute h m
  | .procNew h => .procNew h
  | .procHandle h id r m t => .procHandle h (v.inst id) (v.root r) m t
  | .intHandle h m => .intHandle h m
  | .prjVersion h res => .prjVersion h res
  | .prjHandle h res cur next m => .prjHandle h res cur next m
  | .prjClose h res => .prjClose h res
  | .prjCompact h now => .prjCompact h now
  | .resetter i => .resetter i

/-- Rename the instances in an observation. -/
def Obs.nm (v : Naming W R W' R') : Obs R → Obs R'
  | .fact x => .fact (x.nm v.inst)
  | .call c => .call (c.nm v)
  | .reset => .reset

/-- Rename the instances in the state of an engine. -/
def Sys.nm (v : Naming W R W' R') (s : Sys W R) : Sys W' R' where
  w := v.world s.w
  nextID := s.nextID
  agg := fun h id => (s.agg h (v.orig id)).map (List.map (Env.nm v.inst))
  proc := fun h => ⟨fun id => ((s.proc h).inst (v.orig id)).map v.root, (s.proc h).timeouts.map (Env.nm v.inst)⟩
  lastCompact := s.lastCompact
  trace := s.trace.map (Obs.nm v)

/-- `A'` is the application `A`, with other names of instances: messages are routed to the instance
with the other name, and the handlers do for that instance what they do for the one with the old
name.  Sorting timeouts by time does not look into names. -/
structure App.Relabels (A : App W R) (A' : App W' R') (v : Naming W R W' R') : Prop where
  cfgs : A'.cfgs = A.cfgs
  compact : A'.compactDuringHandling = A.compactDuringHandling
  sort : ∀ l, A'.sort.sort (l.map (Env.nm v.inst)) = (A.sort.sort l).map (Env.nm v.inst)
  aggRoute : ∀ h m, AltFn v.world (Except.map v.inst) (A.uc.aggRoute h m) (A'.uc.aggRoute h m)
  aggNew : ∀ h, AltFn v.world (Except.map (Option.map v.root)) (A.uc.aggNew h) (A'.uc.aggNew h)
  aggApply : ∀ h r m,
    AltFn v.world (fun x => (v.root x.1, x.2)) (A.uc.aggApply h r m) (A'.uc.aggApply h (v.root r) m)
  aggHandle : ∀ h id r m, Prog.Alt v.world (AggOp.alt v.root) (A.uc.aggHandle h id r m)
    (A'.uc.aggHandle h (v.inst id) (v.root r) m)
  procRoute : ∀ h m, AltFn v.world (Except.map (Except.map (Option.map v.inst))) (A.uc.procRoute h m)
    (A'.uc.procRoute h m)
  procNew : ∀ h, AltFn v.world (Except.map (Option.map v.root)) (A.uc.procNew h) (A'.uc.procNew h)
  procHandle : ∀ h id r m t, Prog.Alt v.world (ProcOp.alt v.root) (A.uc.procHandle h id r m t)
    (A'.uc.procHandle h (v.inst id) (v.root r) m t)
  intHandle : ∀ h m, Prog.Alt v.world id (A.uc.intHandle h m) (A'.uc.intHandle h m)
  prjVersion : ∀ h res, AltFn v.world id (A.uc.prjVersion h res) (A'.uc.prjVersion h res)
  prjHandle : ∀ h res cur next m t,
    Prog.Alt v.world id (A.uc.prjHandle h res cur next m t) (A'.uc.prjHandle h res cur next m t)
  prjClose : ∀ h res, AltFn v.world id (A.uc.prjClose h res) (A'.uc.prjClose h res)
  prjCompact : ∀ h now, Prog.Alt v.world id (A.uc.prjCompact h now) (A'.uc.prjCompact h now)
  schedule : ∀ w, A'.uc.schedule (v.world w) = A.uc.schedule w
  resetters : AltFns v.world A.uc.resetters A'.uc.resetters
  ctxErr : ∀ w, A'.uc.ctxErr (v.world w) = A.uc.ctxErr w
  lockErr : ∀ w, A'.uc.lockErr (v.world w) = A.uc.lockErr w
  wallClock : ∀ w, A'.uc.wallClock (v.world w) = A.uc.wallClock w

/-! ## Lemmas -/

/-- Rename the instances in the scope of an aggregate. -/
def AggScope.nm (v : Naming W R W' R') (sc : AggScope R) : AggScope R' where
  root := sc.root.map v.root
  exists_ := sc.exists_
  destroyed := sc.destroyed
  events := sc.events.map (Env.nm v.inst)
  given := sc.given

/-- Rename the instances in the scope of a process. -/
def ProcScope.nm (v : Naming W R W' R') (sc : ProcScope R) : ProcScope R' where
  root := v.root sc.root
  ended := sc.ended
  commands := sc.commands.map (Env.nm v.inst)
  ready := sc.ready.map (Env.nm v.inst)
  pending := sc.pending.map (Env.nm v.inst)

/-- Rename the instances in the result of `Handle`. -/
def HRes.nm (σ : String → String) : HRes → HRes
  | .error v => .error v
  | .ok (envs, e) => .ok (envs.map (Env.nm σ), e)

section
variable {v : Naming W R W' R'}

theorem Naming.inst_empty (v : Naming W R W' R') (i : String) : v.inst i = "" ↔ i = "" := by
  constructor
  · intro h
    have := congrArg v.orig h
    rwa [v.orig_inst, ← v.empty, v.orig_inst] at this
  · rintro rfl
    exact v.empty

theorem Naming.eq_orig (v : Naming W R W' R') (x i : String) : x = v.inst i ↔ v.orig x = i := by
  constructor
  · rintro rfl; exact v.orig_inst i
  · rintro rfl; exact (v.inst_orig x).symm

theorem nm_emit (s : Sys W R) (o : Obs R) : (s.nm v).emit (o.nm v) = (s.emit o).nm v := by
  simp [Sys.nm, Sys.emit]

theorem nm_call (s : Sys W R) (c : Call R) :
    (s.nm v).emit (.call (c.nm v)) = (s.emit (.call c)).nm v := nm_emit s (.call c)

theorem nm_notify (s : Sys W R) (x : Fact) : (s.nm v).notify (x.nm v.inst) = (s.notify x).nm v :=
  nm_emit s (.fact x)

theorem nm_told (s : Sys W R) (x : Fact) {x' : Fact} (h : x' = x.nm v.inst) :
    (s.nm v).notify x' = (s.notify x).nm v := by subst h; exact nm_notify s x

theorem nm_user {α α' : Type} (s : Sys W R) (c : Call R) {φ : α → α'} {x : W → W × α}
    {x' : W' → W' × α'} (h : AltFn v.world φ x x') :
    (s.nm v).user (c.nm v) x' = ((s.user c x).1.nm v, φ (s.user c x).2) := by
  have := h s.w
  simp [Sys.user, Sys.nm, Sys.emit, Obs.nm, this]

theorem setProc_nm (s : Sys W R) (h : HConfig) (i : String → Option R) (l : List Env) :
    (s.nm v).setProc h ⟨fun id => (i (v.orig id)).map v.root, l.map (Env.nm v.inst)⟩ =
      (s.setProc h ⟨i, l⟩).nm v := by
  simp only [Sys.setProc, Sys.nm, Sys.mk.injEq, true_and, and_true]
  funext x
  simp only [upd]
  split <;> rfl

/-! ### Aggregates -/

theorem aggDestroy_nm {A : App W R} {A' : App W' R'} (al : A.Relabels A' v) (h : HConfig)
    (id : String) (env : Env) (s : Sys W R) (sc : AggScope R) :
    aggDestroy A' h (v.inst id) (env.nm v.inst) (s.nm v) (sc.nm v) =
      let r := aggDestroy A h id env s sc
      (r.1.nm v, r.2.1.nm v, r.2.2) := by
  unfold aggDestroy
  rw [show (sc.nm v).exists_ = sc.exists_ from rfl]
  split
  · rfl
  · have := nm_user s (.aggNew h) (al.aggNew h)
    simp only [Call.nm] at this
    rw [this]
    rcases s.user (.aggNew h) (A.uc.aggNew h) with ⟨s1, p | r⟩
    · rfl
    · simp only [Except.map]
      rw [nm_told s1 (.aggDestroyed h id env) (by rfl)]; rfl

theorem aggApplyScope_nm {A : App W R} {A' : App W' R'} (al : A.Relabels A' v) (h : HConfig)
    (m : Message) (s : Sys W R) (sc : AggScope R) :
    aggApplyScope A' h m (s.nm v) (sc.nm v) =
      let r := aggApplyScope A h m s sc
      (r.1.nm v, r.2.1.nm v, r.2.2) := by
  unfold aggApplyScope
  rw [show (sc.nm v).root = sc.root.map v.root from rfl]
  rcases sc.root with _ | r
  · rfl
  · have := nm_user s (.aggApply h r m) (al.aggApply h r m)
    simp only [Call.nm] at this
    simp only [Option.map_some]
    rw [this]
    rcases s.user (.aggApply h r m) (A.uc.aggApply h r m) with ⟨s1, r', _ | p⟩ <;> rfl

theorem aggRevive_nm (h : HConfig) (id : String) (env : Env) (s : Sys W R) (sc : AggScope R) :
    aggRevive h (v.inst id) (env.nm v.inst) (s.nm v) (sc.nm v) =
      let r := aggRevive h id env s sc
      (r.1.nm v, r.2.nm v) := by
  unfold aggRevive
  rw [show (sc.nm v).exists_ = sc.exists_ from rfl, show (sc.nm v).destroyed = sc.destroyed from rfl]
  split
  · rfl
  · split
    · rw [nm_told s (.aggReverted h id env) (by rfl)]; rfl
    · rw [nm_told s (.aggCreated h id env) (by rfl)]; rfl

theorem child_nm (env : Env) (k : Nat) (m : Message) (t : Time) (h : HConfig) (ht : HandlerType) (i : String) :
    (env.nm v.inst).child k m t ⟨h, ht, v.inst i⟩ = (env.child k m t ⟨h, ht, i⟩).nm v.inst := rfl

theorem childTimeout_nm (env : Env) (k : Nat) (m : Message) (t t' : Time) (h : HConfig) (ht : HandlerType)
    (i : String) : (env.nm v.inst).childTimeout k m t t' ⟨h, ht, v.inst i⟩ =
      (env.childTimeout k m t t' ⟨h, ht, i⟩).nm v.inst := rfl

theorem nm_next (s : Sys W R) : ({ s.nm v with nextID := (s.nm v).nextID + 1 } : Sys W' R') =
    ({ s with nextID := s.nextID + 1 } : Sys W R).nm v := rfl

theorem aggEmit_nm (h : HConfig) (id : String) (now : Time) (env : Env) (m : Message) (s : Sys W R)
    (sc : AggScope R) :
    aggEmit h (v.inst id) now (env.nm v.inst) m (s.nm v) (sc.nm v) =
      let r := aggEmit h id now env m s sc
      (r.1.nm v, r.2.nm v) := by
  unfold aggEmit
  simp only
  rw [nm_next, child_nm, nm_told _ (.aggEvent h id env (env.child (s.nextID + 1) m now ⟨h, .aggregate, id⟩)) (by rfl)]
  simp [AggScope.nm, Sys.nm]

theorem aggOp_nm {A : App W R} {A' : App W' R'} (al : A.Relabels A' v) (h : HConfig) (id : String)
    (now : Time) (env : Env) (o : AggOp R) (s : Sys W R) (sc : AggScope R) :
    aggOp A' h (v.inst id) now (env.nm v.inst) (o.alt v.root) (s.nm v) (sc.nm v) =
      let r := aggOp A h id now env o s sc
      (r.1.nm v, r.2.1.nm v, r.2.2) := by
  cases o with
  | record m =>
    simp only [AggOp.alt, aggOp]
    unfold aggRecord
    split
    · rfl
    · cases m.invalid with
      | some e => rfl
      | none =>
        simp only
        rw [aggRevive_nm]
        rcases aggRevive h id env s sc with ⟨s1, sc1⟩
        simp only
        rw [aggApplyScope_nm al]
        rcases aggApplyScope A h m s1 sc1 with ⟨s2, sc2, _ | p⟩
        · simp only
          rw [aggEmit_nm]
        · rfl
  | destroy => exact aggDestroy_nm al h id env s sc
  | setRoot r =>
    simp only [AggOp.alt, aggOp]
    rw [show (sc.nm v).given = sc.given from rfl]
    split <;> rfl
  | log t =>
    simp only [AggOp.alt, aggOp]
    rw [nm_told s (.aggLog h id env t) (by rfl)]

theorem aggRun_nm {A : App W R} {A' : App W' R'} (al : A.Relabels A' v) (h : HConfig) (id : String)
    (now : Time) (env : Env) {p : Prog W (AggOp R) Unit} {p' : Prog W' (AggOp R') Unit}
    (sim : Prog.Alt v.world (AggOp.alt v.root) p p') : ∀ (s : Sys W R) (sc : AggScope R),
    aggRun A' h (v.inst id) now (env.nm v.inst) p' (s.nm v) (sc.nm v) =
      let r := aggRun A h id now env p s sc
      (r.1.nm v, r.2.1.nm v, r.2.2) := by
  induction sim with
  | ret a => intro s sc; rfl
  | panic p => intro s sc; rfl
  | get h ih => intro s sc; exact ih s.w s sc
  | set w h ih => intro s sc; exact ih { s with w := w } sc
  | op o h ih =>
    intro s sc
    unfold aggRun
    rw [aggOp_nm al]
    simp only
    rw [ih]

theorem aggReplay_nm {A : App W R} {A' : App W' R'} (al : A.Relabels A' v) (h : HConfig)
    (es : List Env) : ∀ (r : R) (s : Sys W R),
    aggReplay A' h (es.map (Env.nm v.inst)) (v.root r) (s.nm v) =
      let x := aggReplay A h es r s
      (x.1.nm v, x.2.map v.root) := by
  induction es with
  | nil => intro r s; rfl
  | cons e es ih =>
    intro r s
    unfold aggReplay
    simp only [List.map_cons]
    have := nm_user s (.aggApply h r e.msg) (al.aggApply h r e.msg)
    simp only [Call.nm] at this
    rw [show (e.nm v.inst).msg = e.msg from rfl, this]
    rcases s.user (.aggApply h r e.msg) (A.uc.aggApply h r e.msg) with ⟨s1, r', _ | p⟩
    · exact ih r' s1
    · rfl

theorem nm_agg (s : Sys W R) (h id : String) :
    (s.nm v).agg h (v.inst id) = (s.agg h id).map (List.map (Env.nm v.inst)) := by
  simp only [Sys.nm, v.orig_inst]

theorem nm_inst (s : Sys W R) (h id : String) :
    ((s.nm v).proc h).inst (v.inst id) = ((s.proc h).inst id).map v.root := by
  simp only [Sys.nm, v.orig_inst]

theorem aggCommit_nm (h : HConfig) (id : String) (s : Sys W R) (sc : AggScope R) :
    aggCommit h (v.inst id) (s.nm v) (sc.nm v) = (aggCommit h id s sc).nm v := by
  unfold aggCommit
  rw [show (sc.nm v).exists_ = sc.exists_ from rfl, nm_agg]
  split
  · simp only [Sys.nm, Sys.mk.injEq, true_and, and_true]
    funext x y
    simp only [upd]
    split
    · simp only [upd, v.eq_orig]
      split
      · cases s.agg h.name id <;> simp [AggScope.nm]
      · rfl
    · rfl
  · simp only [Sys.nm, Sys.mk.injEq, true_and, and_true]
    funext x y
    simp only [upd]
    split
    · simp only [upd, v.eq_orig]
      split <;> rfl
    · rfl

theorem aggInvoke_nm {A : App W R} {A' : App W' R'} (al : A.Relabels A' v) (h : HConfig)
    (id : String) (now : Time) (env : Env) (r : R) (ex : Bool) (s : Sys W R) :
    aggInvoke A' h (v.inst id) now (env.nm v.inst) (v.root r) ex (s.nm v) =
      let x := aggInvoke A h id now env r ex s
      (x.1.nm v, x.2.nm v.inst) := by
  unfold aggInvoke
  have e := nm_call s (.aggHandle h id r env.msg) (v := v)
  simp only [Call.nm] at e
  rw [show (env.nm v.inst).msg = env.msg from rfl, e,
    show (⟨some (v.root r), ex, false, [], true⟩ : AggScope R') =
      (⟨some r, ex, false, [], true⟩ : AggScope R).nm v from rfl,
    aggRun_nm al h id now env (al.aggHandle h id r env.msg)]
  rcases aggRun A h id now env (A.uc.aggHandle h id r env.msg) _ _ with ⟨s1, sc1, _ | p⟩
  · simp only
    rw [aggCommit_nm]; rfl
  · rfl

theorem aggHandle_nm {A : App W R} {A' : App W' R'} (al : A.Relabels A' v) (h : HConfig)
    (now : Time) (env : Env) (s : Sys W R) :
    aggHandle A' h now (env.nm v.inst) (s.nm v) =
      let x := aggHandle A h now env s
      (x.1.nm v, x.2.nm v.inst) := by
  unfold aggHandle
  rw [show (env.nm v.inst).msg = env.msg from rfl]
  split
  · rfl
  split
  · rfl
  have := nm_user s (.aggRoute h env.msg) (al.aggRoute h env.msg)
  simp only [Call.nm] at this
  rw [this]
  rcases s.user (.aggRoute h env.msg) (A.uc.aggRoute h env.msg) with ⟨s1, p | i⟩
  · rfl
  · simp only [Except.map, v.inst_empty]
    split
    · rfl
    · unfold aggWithID
      have := nm_user s1 (.aggNew h) (al.aggNew h)
      simp only [Call.nm] at this
      rw [this]
      rcases s1.user (.aggNew h) (A.uc.aggNew h) with ⟨s2, p | _ | r⟩
      · rfl
      · rfl
      · simp only [Except.map, Option.map_some]
        rw [nm_agg]
        rcases s2.agg h.name i with _ | hist
        · simp only [Option.map_none]
          rw [nm_told s2 (.aggNotFound h i env) (by rfl), aggInvoke_nm al]
        · simp only [Option.map_some]
          rw [aggReplay_nm al]
          rcases aggReplay A h hist r s2 with ⟨s3, p | r'⟩
          · rfl
          · simp only [Except.map]
            rw [nm_told s3 (.aggLoaded h i env) (by rfl), aggInvoke_nm al]

/-! ### Processes -/

theorem procRevive_nm (h : HConfig) (id : String) (env : Env) (s : Sys W R) (sc : ProcScope R) :
    procRevive h (v.inst id) (env.nm v.inst) (s.nm v) (sc.nm v) =
      let r := procRevive h id env s sc
      (r.1.nm v, r.2.nm v) := by
  unfold procRevive
  rw [show (sc.nm v).ended = sc.ended from rfl]
  split
  · rw [nm_told s (.procReverted h id env) (by rfl)]; rfl
  · rfl

theorem procOp_nm (h : HConfig) (id : String) (now : Time) (env : Env) (o : ProcOp R) (s : Sys W R)
    (sc : ProcScope R) :
    procOp h (v.inst id) now (env.nm v.inst) (o.alt v.root) (s.nm v) (sc.nm v) =
      let r := procOp h id now env o s sc
      (r.1.nm v, r.2.1.nm v, r.2.2) := by
  cases o with
  | end_ =>
    simp only [ProcOp.alt, procOp]
    rw [show (sc.nm v).ended = sc.ended from rfl]
    split
    · rfl
    · rw [nm_told s (.procEnded h id env) (by rfl)]; rfl
  | execute m =>
    simp only [ProcOp.alt, procOp]
    split
    · rfl
    · cases m.invalid with
      | some e => rfl
      | none =>
        simp only
        rw [procRevive_nm]
        rcases procRevive h id env s sc with ⟨s1, sc1⟩
        simp only [procEmitCommand]
        rw [nm_next, child_nm,
          nm_told _ (.procCommand h id env (env.child (s1.nextID + 1) m now ⟨h, .process, id⟩)) (by rfl)]
        simp [ProcScope.nm, Sys.nm]
  | schedule m t =>
    simp only [ProcOp.alt, procOp]
    split
    · rfl
    · cases m.invalid with
      | some e => rfl
      | none =>
        simp only
        rw [procRevive_nm]
        rcases procRevive h id env s sc with ⟨s1, sc1⟩
        simp only [procEmitTimeout]
        rw [nm_next, childTimeout_nm,
          nm_told _ (.procTimeout h id env (env.childTimeout (s1.nextID + 1) m now t ⟨h, .process, id⟩)) (by rfl)]
        split <;> simp [ProcScope.nm, Sys.nm]
  | setRoot r => rfl
  | log t =>
    simp only [ProcOp.alt, procOp]
    rw [nm_told s (.procLog h id env t) (by rfl)]

theorem procRun_nm (h : HConfig) (id : String) (now : Time) (env : Env)
    {p : Prog W (ProcOp R) (Option Err)} {p' : Prog W' (ProcOp R') (Option Err)}
    (sim : Prog.Alt v.world (ProcOp.alt v.root) p p') : ∀ (s : Sys W R) (sc : ProcScope R),
    procRun h (v.inst id) now (env.nm v.inst) p' (s.nm v) (sc.nm v) =
      let r := procRun h id now env p s sc
      (r.1.nm v, r.2.1.nm v, r.2.2) := by
  induction sim with
  | ret a => intro s sc; rfl
  | panic p => intro s sc; rfl
  | get h ih => intro s sc; exact ih s.w s sc
  | set w h ih => intro s sc; exact ih { s with w := w } sc
  | op o h ih =>
    intro s sc
    unfold procRun
    rw [procOp_nm]
    simp only
    rw [ih]

theorem upd_nm (i : String → Option R) (k : String) (r : Option R) :
    upd (fun id => (i (v.orig id)).map v.root) (v.inst k) (r.map v.root) =
      fun id => (upd i k r (v.orig id)).map v.root := by
  funext x
  simp only [upd, v.eq_orig]
  split <;> rfl

theorem procUpdate_nm {A : App W R} {A' : App W' R'} (al : A.Relabels A' v) (h : HConfig)
    (id : String) (s : Sys W R) (sc : ProcScope R) :
    procUpdate A' h (v.inst id) (s.nm v) (sc.nm v) = (procUpdate A h id s sc).nm v := by
  unfold procUpdate
  rw [← setProc_nm, ← upd_nm, ← al.sort, List.map_append]
  rfl

theorem ofInstance_nm (e : Env) (id : String) : (e.nm v.inst).ofInstance (v.inst id) = e.ofInstance id := by
  unfold Env.ofInstance Env.nm
  cases e.origin with
  | none => rfl
  | some o => simp only [Option.map_some, v.eq_orig, v.orig_inst]

theorem procDelete_nm (h : HConfig) (id : String) (s : Sys W R) :
    procDelete h (v.inst id) (s.nm v) = (procDelete h id s).nm v := by
  unfold procDelete
  have hf : (((s.nm v).proc h.name).timeouts.filter fun e => !e.ofInstance (v.inst id)) =
      ((s.proc h.name).timeouts.filter fun e => !e.ofInstance id).map (Env.nm v.inst) := by
    simp only [Sys.nm, List.filter_map, Function.comp_def, ofInstance_nm]
  rw [← setProc_nm, ← upd_nm, hf]
  rfl

theorem procAlias_nm (h : HConfig) (id : String) (ex : Bool) (s : Sys W R) (r : R) :
    procAlias h (v.inst id) ex (s.nm v) (v.root r) = (procAlias h id ex s r).nm v := by
  unfold procAlias
  split
  · rw [← setProc_nm, ← upd_nm]; rfl
  · rfl

theorem procSeenTime_nm (env : Env) : procSeenTime (env.nm v.inst) = procSeenTime env := rfl

theorem procInvoke_nm {A : App W R} {A' : App W' R'} (al : A.Relabels A' v) (h : HConfig)
    (id : String) (now : Time) (env : Env) (r : R) (ex : Bool) (s : Sys W R) :
    procInvoke A' h (v.inst id) now (env.nm v.inst) (v.root r) ex (s.nm v) =
      let x := procInvoke A h id now env r ex s
      (x.1.nm v, x.2.nm v.inst) := by
  unfold procInvoke
  have e := nm_call s (.procHandle h id r env.msg (procSeenTime env)) (v := v)
  simp only [Call.nm] at e
  rw [procSeenTime_nm, show (env.nm v.inst).msg = env.msg from rfl, e,
    show (⟨v.root r, false, [], [], []⟩ : ProcScope R') =
      (⟨r, false, [], [], []⟩ : ProcScope R).nm v from rfl,
    procRun_nm h id now env (al.procHandle h id r env.msg (procSeenTime env))]
  rcases procRun h id now env (A.uc.procHandle h id r env.msg (procSeenTime env)) _ _ with
    ⟨s1, sc1, p | _ | e⟩
  · simp only
    rw [show (sc1.nm v).root = v.root sc1.root from rfl, procAlias_nm]; rfl
  · simp only
    rw [show (sc1.nm v).ended = sc1.ended from rfl]
    split
    · split
      · rw [procDelete_nm]; rfl
      · rfl
    · rw [procUpdate_nm al]
      simp [HRes.nm, ProcScope.nm]
  · simp only
    rw [show (sc1.nm v).root = v.root sc1.root from rfl, procAlias_nm]; rfl

theorem procWithID_nm {A : App W R} {A' : App W' R'} (al : A.Relabels A' v) (h : HConfig)
    (id : String) (now : Time) (env : Env) (s : Sys W R) :
    procWithID A' h (v.inst id) now (env.nm v.inst) (s.nm v) =
      let x := procWithID A h id now env s
      (x.1.nm v, x.2.nm v.inst) := by
  unfold procWithID
  rw [nm_inst]
  rcases (s.proc h.name).inst id with _ | r
  · simp only [Option.map_none]
    have := nm_user (s.notify (.procNotFound h id env)) (.procNew h) (al.procNew h)
    simp only [Call.nm] at this
    rw [nm_told s (.procNotFound h id env) (by rfl), this]
    rcases (s.notify (.procNotFound h id env)).user (.procNew h) (A.uc.procNew h) with ⟨s2, p | _ | r⟩
    · rfl
    · simp only [Except.map, Option.map_none]
      rw [nm_told s2 (.procBegun h id env) (by rfl)]; rfl
    · simp only [Except.map, Option.map_some]
      rw [nm_told s2 (.procBegun h id env) (by rfl), procInvoke_nm al]
  · simp only [Option.map_some]
    rw [nm_told s (.procLoaded h id env) (by rfl), procInvoke_nm al]

theorem procHandle_nm {A : App W R} {A' : App W' R'} (al : A.Relabels A' v) (h : HConfig)
    (now : Time) (env : Env) (s : Sys W R) :
    procHandle A' h now (env.nm v.inst) (s.nm v) =
      let x := procHandle A h now env s
      (x.1.nm v, x.2.nm v.inst) := by
  unfold procHandle
  rw [show (env.nm v.inst).msg = env.msg from rfl]
  split
  · rfl
  cases env.msg.type.kind with
  | command => rfl
  | event =>
    simp only
    have := nm_user s (.procRoute h env.msg) (al.procRoute h env.msg)
    simp only [Call.nm] at this
    rw [this]
    rcases s.user (.procRoute h env.msg) (A.uc.procRoute h env.msg) with ⟨s1, p | e | _ | i⟩
    · rfl
    · rfl
    · simp only [Except.map, Option.map_none]
      rw [nm_told s1 (.procEventIgnored h env) (by rfl)]; rfl
    · simp only [Except.map, Option.map_some, v.inst_empty]
      split
      · rfl
      · rw [procWithID_nm al]
  | timeout =>
    simp only
    rw [show (env.nm v.inst).origin = env.origin.map fun o => { o with instanceID := v.inst o.instanceID } from rfl]
    rcases env.origin with _ | o
    · rfl
    · simp only [Option.map_some]
      rw [nm_inst]
      rcases (s.proc h.name).inst o.instanceID with _ | r
      · simp only [Option.map_none]
        rw [nm_told s (.procTimeoutIgnored h o.instanceID env) (by rfl)]; rfl
      · simp only [Option.map_some]
        rw [procWithID_nm al]

theorem procTick_nm (h : HConfig) (now : Time) (s : Sys W R) :
    procTick h now (s.nm v) =
      let r := procTick h now s
      (r.1.nm v, r.2.map (Env.nm v.inst)) := by
  have h1 : ∀ l : List Env, (l.map (Env.nm v.inst)).dropWhile (fun e => decide (e.scheduledFor ≤ now)) =
      (l.dropWhile (fun e => decide (e.scheduledFor ≤ now))).map (Env.nm v.inst) := by
    intro l; rw [List.dropWhile_map]; rfl
  have h2 : ∀ l : List Env, (l.map (Env.nm v.inst)).takeWhile (fun e => decide (e.scheduledFor ≤ now)) =
      (l.takeWhile (fun e => decide (e.scheduledFor ≤ now))).map (Env.nm v.inst) := by
    intro l; rw [List.takeWhile_map]; rfl
  unfold procTick
  simp only
  rw [← setProc_nm, ← h1, ← h2]
  rfl

/-! ### Integrations -/

theorem intRun_nm (h : HConfig) (now : Time) (env : Env) {p : Prog W IntOp (Option Err)}
    {p' : Prog W' IntOp (Option Err)} (sim : Prog.Alt v.world id p p') :
    ∀ (s : Sys W R) (evs : List Env),
    intRun h now (env.nm v.inst) p' (s.nm v) (evs.map (Env.nm v.inst)) =
      let r := intRun h now env p s evs
      (r.1.nm v, r.2.1.map (Env.nm v.inst), r.2.2) := by
  induction sim with
  | ret a => intro s sc; rfl
  | panic p => intro s sc; rfl
  | get h ih => intro s sc; exact ih s.w s sc
  | set w h ih => intro s sc; exact ih { s with w := w } sc
  | @op o k k' _ ih =>
    intro s evs
    have ho : intOp h now (env.nm v.inst) o (s.nm v) (evs.map (Env.nm v.inst)) =
        ((intOp h now env o s evs).1.nm v, (intOp h now env o s evs).2.1.map (Env.nm v.inst),
          (intOp h now env o s evs).2.2) := by
      cases o with
      | record m =>
        simp only [intOp]
        split
        · rfl
        · cases m.invalid with
          | some e => rfl
          | none =>
            simp only [intEmit]
            rw [show (⟨h, .integration, ""⟩ : Origin) = ⟨h, .integration, v.inst ""⟩ by rw [v.empty],
              nm_next, child_nm, v.empty,
              nm_told _ (.intEvent h env (env.child (s.nextID + 1) m now ⟨h, .integration, ""⟩)) (by rfl)]
            simp [Sys.nm]
      | log t => simp only [intOp]; rw [nm_told s (.intLog h env t) (by rfl)]
    unfold intRun
    simp only [id]
    rw [ho]
    rcases intOp h now env o s evs with ⟨s1, evs1, q⟩
    simp only
    rw [ih]

theorem intHandle_nm {A : App W R} {A' : App W' R'} (al : A.Relabels A' v) (h : HConfig)
    (now : Time) (env : Env) (s : Sys W R) :
    intHandle A' h now (env.nm v.inst) (s.nm v) =
      let x := intHandle A h now env s
      (x.1.nm v, x.2.nm v.inst) := by
  unfold intHandle
  rw [show (env.nm v.inst).msg = env.msg from rfl]
  split
  · rfl
  split
  · rfl
  have e := nm_call s (.intHandle h env.msg) (v := v)
  simp only [Call.nm] at e
  have e2 := intRun_nm h now env (al.intHandle h env.msg) (s.emit (.call (.intHandle h env.msg))) []
  simp only [List.map_nil] at e2
  rw [e, e2]
  rcases intRun h now env (A.uc.intHandle h env.msg) _ _ with ⟨s1, evs, p | r⟩ <;> rfl

/-! ### Projections -/

theorem prjRun_nm {α : Type} (h : HConfig) (env : Option Env) {p : Prog W PrjOp α}
    {p' : Prog W' PrjOp α} (sim : Prog.Alt v.world id p p') : ∀ (s : Sys W R),
    prjRun h (env.map (Env.nm v.inst)) p' (s.nm v) =
      let r := prjRun h env p s
      (r.1.nm v, r.2) := by
  induction sim with
  | ret a => intro s; rfl
  | panic p => intro s; rfl
  | get h ih => intro s; exact ih s.w s
  | set w h ih => intro s; exact ih { s with w := w }
  | op o _ ih =>
    intro s
    cases o with
    | log t =>
      simp only [id]
      unfold prjRun
      rw [nm_told s (.prjLog h env t) (by rfl)]
      exact ih none _

theorem prjStep_nm {α : Type} (h : HConfig) (env : Option Env) {p : Prog W PrjOp α}
    {p' : Prog W' PrjOp α} (sim : Prog.Alt v.world id p p') (s : Sys W R) :
    Prog.Alt v.world id (prjStep h env p s).1 (prjStep h (env.map (Env.nm v.inst)) p' (s.nm v)).1 ∧
    (prjStep h (env.map (Env.nm v.inst)) p' (s.nm v)).2 = (prjStep h env p s).2.nm v := by
  cases sim with
  | ret a => exact ⟨.ret a, rfl⟩
  | panic p => exact ⟨.panic p, rfl⟩
  | get h => exact ⟨h s.w, rfl⟩
  | set w h => exact ⟨h, rfl⟩
  | op o k =>
    cases o with
    | log t => exact ⟨k none, nm_notify s (.prjLog h env t)⟩

theorem prjPar_nm (h : HConfig) (env : Env) : ∀ (bs : List Bool)
    {hp : Prog W PrjOp (Except Err Bool)} {hp' : Prog W' PrjOp (Except Err Bool)}
    {cp : Prog W PrjOp (Option Err)} {cp' : Prog W' PrjOp (Option Err)}
    (_ : Prog.Alt v.world id hp hp') (_ : Prog.Alt v.world id cp cp') (s : Sys W R),
    prjPar h (env.nm v.inst) bs hp' cp' (s.nm v) =
      let r := prjPar h env bs hp cp s
      (r.1.nm v, r.2) := by
  intro bs
  induction bs with
  | nil =>
    intro hp hp' cp cp' sh sc s
    unfold prjPar
    have h1 := prjRun_nm h (some env) sh s
    simp only [Option.map_some] at h1
    rw [h1]
    rcases prjRun h (some env) hp s with ⟨s1, p | r⟩
    · rfl
    · simp only
      have h2 := prjRun_nm h none sc s1
      simp only [Option.map_none] at h2
      rw [h2]
      rcases prjRun h none cp s1 with ⟨s2, p | r⟩ <;> rfl
  | cons b bs ih =>
    intro hp hp' cp cp' sh sc s
    have hstep := prjStep_nm h (some env) sh s
    have cstep := prjStep_nm h none sc s
    simp only [Option.map_some, Option.map_none] at hstep cstep
    have sh' := sh
    have sc' := sc
    have e1 := ih sh' cstep.1 (prjStep h none cp s).2
    have e2 := ih hstep.1 sc' (prjStep h (some env) hp s).2
    rw [← cstep.2] at e1
    rw [← hstep.2] at e2
    cases sc with
    | panic p => unfold prjPar; rfl
    | _ =>
      cases sh with
      | panic p => unfold prjPar; rfl
      | _ =>
        unfold prjPar
        cases b with
        | true => exact e1
        | false => exact e2

theorem prjApply_nm {A : App W R} {A' : App W' R'} (al : A.Relabels A' v) (h : HConfig) (now : Time)
    (env : Env) (s : Sys W R) : prjApply A' h now (env.nm v.inst) (s.nm v) =
      let r := prjApply A h now env s
      (r.1.nm v, r.2) := by
  unfold prjApply
  rw [show (env.nm v.inst).id = env.id from rfl, show (env.nm v.inst).msg = env.msg from rfl,
    show (env.nm v.inst).createdAt = env.createdAt from rfl]
  have e1 : ((((s.nm v).notify (.prjCompactBegun h)).emit (.call (.prjCompact h now))).emit
      (.call (.prjHandle h env.id [] [1] env.msg))) =
      (((s.notify (.prjCompactBegun h)).emit (.call (.prjCompact h now))).emit
        (.call (.prjHandle h env.id [] [1] env.msg))).nm v := by
    rw [← nm_emit, ← nm_emit, ← nm_notify]; rfl
  have e2 : (s.nm v).emit (.call (.prjHandle h env.id [] [1] env.msg)) =
      (s.emit (.call (.prjHandle h env.id [] [1] env.msg))).nm v := by
    rw [← nm_emit]; rfl
  rw [e1, e2, al.compact]
  split
  · rw [show (s.nm v).w = v.world s.w from rfl, al.schedule,
      prjPar_nm h env (A.uc.schedule s.w) (al.prjHandle h env.id [] [1] env.msg env.createdAt)
        (al.prjCompact h now)]
    rcases prjPar h env (A.uc.schedule s.w) _ _ _ with ⟨s1, p | ⟨r, ce⟩⟩
    · rfl
    · simp only
      rw [nm_told s1 (.prjCompactCompleted h ce) (by rfl)]
  · have := prjRun_nm h (some env) (al.prjHandle h env.id [] [1] env.msg env.createdAt)
      (s.emit (.call (.prjHandle h env.id [] [1] env.msg)))
    simp only [Option.map_some] at this
    rw [this]
    rcases prjRun h (some env) _ _ with ⟨s1, p | r⟩ <;> rfl

theorem prjFinish_nm {A : App W R} {A' : App W' R'} (al : A.Relabels A' v) (h : HConfig) (env : Env)
    (r : Except Err Bool) (ce : Option Err) (s : Sys W R) :
    prjFinish A' h (env.nm v.inst) r ce (s.nm v) =
      let x := prjFinish A h env r ce s
      (x.1.nm v, x.2.nm v.inst) := by
  unfold prjFinish
  rcases r with e | _ | _
  · rfl
  · rfl
  · have := nm_user s (.prjClose h env.id) (al.prjClose h env.id)
    simp only [Call.nm] at this
    simp only
    rw [show (env.nm v.inst).id = env.id from rfl, this]
    rcases s.user (.prjClose h env.id) (A.uc.prjClose h env.id) with ⟨s1, p | _ | e⟩ <;> rfl

theorem prjHandle_nm {A : App W R} {A' : App W' R'} (al : A.Relabels A' v) (h : HConfig) (now : Time)
    (env : Env) (s : Sys W R) : prjHandle A' h now (env.nm v.inst) (s.nm v) =
      let r := prjHandle A h now env s
      (r.1.nm v, r.2.nm v.inst) := by
  unfold prjHandle
  rw [show (env.nm v.inst).msg = env.msg from rfl]
  split
  · rfl
  split
  · rfl
  have := nm_user s (.prjVersion h env.id) (al.prjVersion h env.id)
  simp only [Call.nm] at this
  rw [show (env.nm v.inst).id = env.id from rfl, this]
  rcases s.user (.prjVersion h env.id) (A.uc.prjVersion h env.id) with ⟨s1, p | e | b⟩
  · rfl
  · rfl
  · cases b with
    | cons _ _ => rfl
    | nil =>
      simp only [id]
      rw [prjApply_nm al]
      rcases prjApply A h now env s1 with ⟨s2, p | ⟨r, ce⟩⟩
      · rfl
      · exact prjFinish_nm al h env r ce s2

theorem prjTick_nm {A : App W R} {A' : App W' R'} (al : A.Relabels A' v) (h : HConfig) (now : Time)
    (s : Sys W R) : prjTick A' h now (s.nm v) =
      let r := prjTick A h now s
      (r.1.nm v, r.2) := by
  unfold prjTick
  rw [show (s.nm v).lastCompact = s.lastCompact from rfl]
  split
  · have e : ((({ s.nm v with lastCompact := upd s.lastCompact h.name now } : Sys W' R').notify
        (.prjCompactBegun h)).emit (.call (.prjCompact h now))) =
        (((({ s with lastCompact := upd s.lastCompact h.name now } : Sys W R).notify
          (.prjCompactBegun h)).emit (.call (.prjCompact h now)))).nm v := by
      rw [← nm_emit, ← nm_notify]; rfl
    simp only
    have := prjRun_nm h none (al.prjCompact h now)
      ((({ s with lastCompact := upd s.lastCompact h.name now } : Sys W R).notify
          (.prjCompactBegun h)).emit (.call (.prjCompact h now)))
    simp only [Option.map_none] at this
    rw [e, this]
    rcases prjRun h none _ _ with ⟨s1, p | r⟩
    · rfl
    · simp only
      rw [nm_told s1 (.prjCompactCompleted h r) (by rfl)]
  · rfl

/-! ### The engine -/

theorem newOpOpts_nm {A : App W R} {A' : App W' R'} (al : A.Relabels A' v) (s : Sys W R)
    (os : List OpOption) : newOpOpts A' (s.nm v) os = newOpOpts A s os := by
  have h1 : ∀ (oo : OpOpts) (o : OpOption), oo.apply A' o = oo.apply A o := by
    intro oo o
    cases o <;> simp only [OpOpts.apply, al.cfgs]
  have h2 : ∀ (os : List OpOption) (oo : OpOpts), oo.applyAll A' os = oo.applyAll A os := by
    intro os
    induction os with
    | nil => intro oo; rfl
    | cons o os ih =>
      intro oo
      unfold OpOpts.applyAll
      rw [h1]
      rcases oo.apply A o with p | oo1
      · rfl
      · exact ih oo1
  unfold newOpOpts
  rw [h2, show (s.nm v).w = v.world s.w from rfl, al.wallClock]

theorem cycle_nm {A : App W R} {A' : App W' R'} (al : A.Relabels A' v) (oo : OpOpts) :
    oo.cycle A' = oo.cycle A := by
  unfold OpOpts.cycle
  rw [al.cfgs]

theorem targets_nm {A : App W R} {A' : App W' R'} (al : A.Relabels A' v) (env : Env) :
    A'.targets (env.nm v.inst) = A.targets env := by
  unfold App.targets App.route App.find
  rw [al.cfgs, show (env.nm v.inst).msg = env.msg from rfl,
    show (env.nm v.inst).origin = env.origin.map fun o => { o with instanceID := v.inst o.instanceID } from rfl]
  cases env.origin <;> rfl

theorem handleOne_nm {A : App W R} {A' : App W' R'} (al : A.Relabels A' v) (oo : OpOpts) (env : Env)
    (h : HConfig) (s : Sys W R) : handleOne A' oo (env.nm v.inst) h (s.nm v) =
      let r := handleOne A oo env h s
      (r.1.nm v, r.2.nm v.inst) := by
  have hc : ∀ s : Sys W R, ctlHandle A' h oo.now (env.nm v.inst) (s.nm v) =
      ((ctlHandle A h oo.now env s).1.nm v, (ctlHandle A h oo.now env s).2.nm v.inst) := by
    intro s
    unfold ctlHandle
    cases h.htype with
    | aggregate => exact aggHandle_nm al h oo.now env s
    | process => exact procHandle_nm al h oo.now env s
    | integration => exact intHandle_nm al h oo.now env s
    | projection => exact prjHandle_nm al h oo.now env s
  unfold handleOne
  rcases skipHandler oo h with _ | r
  · simp only
    rw [nm_told s (.handlingBegun h env) (by rfl), hc]
    rcases ctlHandle A h oo.now env (s.notify (.handlingBegun h env)) with ⟨s1, p | ⟨envs, e⟩⟩
    · rfl
    · simp only [HRes.nm]
      rw [nm_told s1 (.handlingCompleted h env e) (by rfl)]
  · simp only
    rw [nm_told s (.handlingSkipped h env r) (by rfl)]; rfl

theorem handleAll_nm {A : App W R} {A' : App W' R'} (al : A.Relabels A' v) (oo : OpOpts) (env : Env)
    (hs : List HConfig) : ∀ (q : List Env) (de : List EngErr) (s : Sys W R),
    handleAll A' oo (env.nm v.inst) hs (q.map (Env.nm v.inst)) de (s.nm v) =
      let r := handleAll A oo env hs q de s
      (r.1.nm v, r.2.map fun x => (x.1.map (Env.nm v.inst), x.2)) := by
  induction hs with
  | nil => intro q de s; rfl
  | cons h hs ih =>
    intro q de s
    unfold handleAll
    rw [handleOne_nm al]
    rcases handleOne A oo env h s with ⟨s1, p | ⟨envs, e⟩⟩
    · rfl
    · simp only [HRes.nm]
      rw [← List.map_append, ih]

theorem dispatchLoop_nm {A : App W R} {A' : App W' R'} (al : A.Relabels A' v) (oo : OpOpts)
    (n : Nat) : ∀ (q : List Env) (errs : List EngErr) (s : Sys W R),
    dispatchLoop A' oo n (q.map (Env.nm v.inst)) errs (s.nm v) =
      let r := dispatchLoop A oo n q errs s
      (r.1.nm v, r.2) := by
  induction n with
  | zero => intro q errs s; cases q <;> (simp only [List.map_nil, List.map_cons]; unfold dispatchLoop; rfl)
  | succ n ih =>
    intro q errs s
    cases q with
    | nil => simp only [List.map_nil]; unfold dispatchLoop; rfl
    | cons env q =>
      simp only [List.map_cons]
      unfold dispatchLoop
      rw [targets_nm al]
      rcases A.targets env with p | hs
      · rfl
      · simp only
        rw [nm_told s (.dispatchBegun env) (by rfl), handleAll_nm al]
        rcases handleAll A oo env hs q [] (s.notify (.dispatchBegun env)) with ⟨s1, p | ⟨q1, de⟩⟩
        · rfl
        · simp only [Except.map]
          rw [nm_told s1 (.dispatchCompleted env de) (by rfl),
            show ((s1.notify (.dispatchCompleted env de)).nm v).w =
              v.world (s1.notify (.dispatchCompleted env de)).w from rfl, al.ctxErr]
          rcases A.uc.ctxErr (s1.notify (.dispatchCompleted env de)).w with _ | c
          · exact ih _ _ _
          · rfl

theorem ctlTick_nm {A : App W R} {A' : App W' R'} (al : A.Relabels A' v) (h : HConfig) (now : Time)
    (s : Sys W R) : ctlTick A' h now (s.nm v) =
      let r := ctlTick A h now s
      (r.1.nm v, r.2.nm v.inst) := by
  unfold ctlTick
  cases h.htype with
  | process => simp only; rw [procTick_nm]; rfl
  | projection =>
    simp only
    rw [prjTick_nm al]
    rcases prjTick A h now s with ⟨s1, p | e⟩ <;> rfl
  | aggregate => rfl
  | integration => rfl

theorem tickAll_nm {A : App W R} {A' : App W' R'} (al : A.Relabels A' v) (oo : OpOpts)
    (hs : List HConfig) : ∀ (q : List Env) (errs : List EngErr) (s : Sys W R),
    tickAll A' oo hs (q.map (Env.nm v.inst)) errs (s.nm v) =
      let r := tickAll A oo hs q errs s
      (r.1.nm v, r.2.map fun x => (x.1.map (Env.nm v.inst), x.2)) := by
  induction hs with
  | nil => intro q errs s; rfl
  | cons h hs ih =>
    intro q errs s
    unfold tickAll
    rcases skipHandler oo h with _ | r
    · simp only
      rw [nm_told s (.tickBegun h) (by rfl), ctlTick_nm al]
      rcases ctlTick A h oo.now (s.notify (.tickBegun h)) with ⟨s1, p | ⟨envs, e⟩⟩
      · rfl
      · simp only [HRes.nm]
        rw [nm_told s1 (.tickCompleted h e) (by rfl), show ((s1.notify (.tickCompleted h e)).nm v).w =
          v.world (s1.notify (.tickCompleted h e)).w from rfl, al.ctxErr, ← List.map_append]
        rcases A.uc.ctxErr (s1.notify (.tickCompleted h e)).w with _ | c
        · exact ih _ _ _
        · rfl
    · simp only
      rw [nm_told s (.tickSkipped h r) (by rfl), ih]

theorem runResetters_nm : ∀ (fs : List (W → W × Option PanicVal)) (fs' : List (W' → W' × Option PanicVal)),
    AltFns v.world fs fs' → ∀ (i : Nat) (s : Sys W R), runResetters i fs' (s.nm v) =
      let r := runResetters i fs s
      (r.1.nm v, r.2)
  | [], [], _, i, s => rfl
  | x :: xs, x' :: xs', ha, i, s => by
    unfold runResetters
    have := nm_user s (.resetter i) ha.1
    simp only [Call.nm] at this
    rw [this]
    rcases s.user (.resetter i) x with ⟨s1, _ | p⟩
    · exact runResetters_nm xs xs' ha.2 _ _
    · rfl

theorem exec_nm {A : App W R} {A' : App W' R'} (al : A.Relabels A' v) (op : Op) (s : Sys W R) :
    op.exec A' (s.nm v) =
      let r := op.exec A s
      (r.1.nm v, r.2) := by
  cases op with
  | reset =>
    show engReset A' (s.nm v) = ((engReset A s).1.nm v, (engReset A s).2)
    unfold engReset
    rw [← runResetters_nm _ _ al.resetters]
    congr 1
    simp [Sys.nm, Sys.emit, Obs.nm]
  | dispatch n m os =>
    show engDispatch A' n m os (s.nm v) =
      ((engDispatch A n m os s).1.nm v, (engDispatch A n m os s).2)
    unfold engDispatch
    simp only
    rw [nm_next, newOpOpts_nm al, show (s.nm v).nextID = s.nextID from rfl]
    generalize ({ s with nextID := s.nextID + 1 } : Sys W R) = s1
    rcases newOpOpts A s1 os with p | oo
    · rfl
    · simp only
      split
      · rfl
      cases m.invalid with
      | some e => rfl
      | none =>
        simp only
        rw [show A'.route m = A.route m by unfold App.route; rw [al.cfgs], cycle_nm al]
        split
        · rfl
        · generalize hen : Env.root (s.nextID + 1) m oo.now = en
          have hn : en.nm v.inst = en := by subst hen; rfl
          rw [nm_told s1 (.dispatchCycleBegun en (oo.cycle A)) (by simp only [Fact.nm, hn])]
          generalize s1.notify _ = s2
          rw [show (s2.nm v).w = v.world s2.w from rfl, al.lockErr]
          rcases A.uc.lockErr s2.w with _ | e
          · simp only
            have hd := dispatchLoop_nm al oo n [en] [] s2
            simp only [List.map_cons, List.map_nil, hn] at hd
            rw [hd]
            rcases dispatchLoop A oo n _ [] s2 with ⟨s3, errs | p | _⟩
            · simp only
              rw [nm_told s3 (.dispatchCycleCompleted en (oo.cycle A).maps errs) (by simp only [Fact.nm, hn])]
            · rfl
            · rfl
          · simp only
            rw [nm_told s2 (.dispatchCycleCompleted en (oo.cycle A).maps [.lock e]) (by simp only [Fact.nm, hn])]
  | tick n order os =>
    show engTick A' n order os (s.nm v) =
      ((engTick A n order os s).1.nm v, (engTick A n order os s).2)
    unfold engTick
    rw [newOpOpts_nm al]
    rcases newOpOpts A s os with p | oo
    · rfl
    · simp only
      rw [cycle_nm al, nm_told s (.tickCycleBegun (oo.cycle A)) (by rfl)]
      generalize s.notify _ = s2
      rw [show (s2.nm v).w = v.world s2.w from rfl, al.lockErr]
      rcases A.uc.lockErr s2.w with _ | e
      · simp only [engTickLocked]
        have ht := tickAll_nm al oo order [] [] s2
        simp only [List.map_nil] at ht
        rw [ht]
        rcases tickAll A oo order [] [] s2 with ⟨s3, p | ⟨q, errs, _ | c⟩⟩
        · rfl
        · simp only [Except.map]
          rw [dispatchLoop_nm al]
          rcases dispatchLoop A oo n q [] s3 with ⟨s4, derrs | p | _⟩
          · simp only
            rw [nm_told s4 (.tickCycleCompleted (oo.cycle A).maps (errs ++ derrs)) (by rfl)]
          · rfl
          · rfl
        · simp only [Except.map]
          rw [nm_told s3 (.tickCycleCompleted (oo.cycle A).maps [.ctx c]) (by rfl)]
      · simp only
        rw [nm_told s2 (.tickCycleCompleted (oo.cycle A).maps [.lock e]) (by rfl)]

end

end Verif
