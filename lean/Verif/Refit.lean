import Verif.Engine

/-!
# Other representations of the user's data

What the engine does when handlers keep their data (roots, and everything else that they know) in
another way.  Specification, and proof machinery: the engine hands data around, but does not look
at it.
-/

namespace Verif

variable {W R W' R' : Type}

/-! ## Specification -/

/-- Put another root in the place of the one that user code was called with. -/
def Call.alt (f : R → R') : Call R → Call R'
  | .aggRoute h m => .aggRoute h m
  | .aggNew h => .aggNew h
  | .aggApply h r m => .aggApply h (f r) m
  | .aggHandle h id r m => .aggHandle h id (f r) m
  | .procRoute h m => .procRoute h m
  | .procNew h => .procNew h
  | .procHandle h id r m t => .procHandle h id (f r) m t
  | .intHandle h m => .intHandle h m
  | .prjVersion h res => .prjVersion h res
  | .prjHandle h res cur next m => .prjHandle h res cur next m
  | .prjClose h res => .prjClose h res
  | .prjCompact h now => .prjCompact h now
  | .resetter i => .resetter i

/-- Put other roots in the place of those in an observation.  Facts contain no roots. -/
def Obs.alt (f : R → R') : Obs R → Obs R'
  | .fact x => .fact x
  | .call c => .call (c.alt f)
  | .reset => .reset

/-- Put other roots in the place of those in the state of an engine, and another world in the place
of the world. -/
def Sys.alt (f : R → R') (g : W → W') (s : Sys W R) : Sys W' R' where
  w := g s.w
  nextID := s.nextID
  agg := s.agg
  proc := fun h => ⟨fun id => ((s.proc h).inst id).map f, (s.proc h).timeouts⟩
  lastCompact := s.lastCompact
  trace := s.trace.map (Obs.alt f)

/-- An operation of an aggregate, with another root. -/
def AggOp.alt (f : R → R') : AggOp R → AggOp R'
  | .record m => .record m
  | .destroy => .destroy
  | .setRoot r => .setRoot (f r)
  | .log t => .log t

/-- An operation of a process, with another root. -/
def ProcOp.alt (f : R → R') : ProcOp R → ProcOp R'
  | .execute m => .execute m
  | .schedule m t => .schedule m t
  | .end_ => .end_
  | .setRoot r => .setRoot (f r)
  | .log t => .log t

/-- `p'` does with the data represented in the other way what `p` does. -/
inductive Prog.Alt {O O' α : Type} (g : W → W') (φ : O → O') : Prog W O α → Prog W' O' α → Prop where
  | ret (a : α) : Prog.Alt g φ (.ret a) (.ret a)
  | panic (v : PanicVal) : Prog.Alt g φ (.panic v) (.panic v)
  | op (o : O) {k k'} (h : ∀ p, Prog.Alt g φ (k p) (k' p)) : Prog.Alt g φ (.op o k) (.op (φ o) k')
  | get {k k'} (h : ∀ w, Prog.Alt g φ (k w) (k' (g w))) : Prog.Alt g φ (.get k) (.get k')
  | set (w : W) {k k'} (h : Prog.Alt g φ k k') : Prog.Alt g φ (.set w k) (.set (g w) k')

/-- A function of the user does with the data represented in the other way what it does. -/
def AltFn {α α' : Type} (g : W → W') (φ : α → α') (x : W → W × α) (x' : W' → W' × α') : Prop :=
  ∀ w, x' (g w) = (g (x w).1, φ (x w).2)

/-- The same for lists of functions. -/
def AltFns {α : Type} (g : W → W') : List (W → W × α) → List (W' → W' × α) → Prop
  | [], [] => True
  | x :: xs, x' :: xs' => AltFn g id x x' ∧ AltFns g xs xs'
  | _, _ => False

/-- `A'` is the application `A`, with handlers that keep `f r` where those of `A` keep the root `r`,
and that live in a world `g w` where those of `A` live in `w`. -/
structure App.Refits (A : App W R) (A' : App W' R') (f : R → R') (g : W → W') : Prop where
  cfgs : A'.cfgs = A.cfgs
  compact : A'.compactDuringHandling = A.compactDuringHandling
  sort : A'.sort = A.sort
  aggRoute : ∀ h m, AltFn g id (A.uc.aggRoute h m) (A'.uc.aggRoute h m)
  aggNew : ∀ h, AltFn g (Except.map (Option.map f)) (A.uc.aggNew h) (A'.uc.aggNew h)
  aggApply : ∀ h r m, AltFn g (fun x => (f x.1, x.2)) (A.uc.aggApply h r m) (A'.uc.aggApply h (f r) m)
  aggHandle : ∀ h id r m,
    Prog.Alt g (AggOp.alt f) (A.uc.aggHandle h id r m) (A'.uc.aggHandle h id (f r) m)
  procRoute : ∀ h m, AltFn g id (A.uc.procRoute h m) (A'.uc.procRoute h m)
  procNew : ∀ h, AltFn g (Except.map (Option.map f)) (A.uc.procNew h) (A'.uc.procNew h)
  procHandle : ∀ h id r m t,
    Prog.Alt g (ProcOp.alt f) (A.uc.procHandle h id r m t) (A'.uc.procHandle h id (f r) m t)
  intHandle : ∀ h m, Prog.Alt g id (A.uc.intHandle h m) (A'.uc.intHandle h m)
  prjVersion : ∀ h res, AltFn g id (A.uc.prjVersion h res) (A'.uc.prjVersion h res)
  prjHandle : ∀ h res cur next m t,
    Prog.Alt g id (A.uc.prjHandle h res cur next m t) (A'.uc.prjHandle h res cur next m t)
  prjClose : ∀ h res, AltFn g id (A.uc.prjClose h res) (A'.uc.prjClose h res)
  prjCompact : ∀ h now, Prog.Alt g id (A.uc.prjCompact h now) (A'.uc.prjCompact h now)
  schedule : ∀ w, A'.uc.schedule (g w) = A.uc.schedule w
  resetters : AltFns g A.uc.resetters A'.uc.resetters
  ctxErr : ∀ w, A'.uc.ctxErr (g w) = A.uc.ctxErr w
  lockErr : ∀ w, A'.uc.lockErr (g w) = A.uc.lockErr w
  wallClock : ∀ w, A'.uc.wallClock (g w) = A.uc.wallClock w

/-! ## Lemmas -/

/-- The scope of an aggregate, with another root. -/
def AggScope.alt (f : R → R') (sc : AggScope R) : AggScope R' where
  root := sc.root.map f
  exists_ := sc.exists_
  destroyed := sc.destroyed
  events := sc.events
  given := sc.given

/-- The scope of a process, with another root. -/
def ProcScope.alt (f : R → R') (sc : ProcScope R) : ProcScope R' where
  root := f sc.root
  ended := sc.ended
  commands := sc.commands
  ready := sc.ready
  pending := sc.pending

section
variable {f : R → R'} {g : W → W'}

theorem alt_emit (s : Sys W R) (o : Obs R) : (s.alt f g).emit (o.alt f) = (s.emit o).alt f g := by
  simp [Sys.alt, Sys.emit]

theorem alt_call (s : Sys W R) (c : Call R) :
    (s.alt f g).emit (.call (c.alt f)) = (s.emit (.call c)).alt f g := alt_emit s (.call c)

theorem alt_notify (s : Sys W R) (x : Fact) : (s.alt f g).notify x = (s.notify x).alt f g :=
  alt_emit s (.fact x)

theorem alt_user {α α' : Type} (s : Sys W R) (c : Call R) {φ : α → α'} {x : W → W × α}
    {x' : W' → W' × α'} (h : AltFn g φ x x') :
    (s.alt f g).user (c.alt f) x' = ((s.user c x).1.alt f g, φ (s.user c x).2) := by
  have := h s.w
  simp [Sys.user, Sys.alt, Sys.emit, Obs.alt, this]

theorem setProc_alt (s : Sys W R) (h : HConfig) (i : String → Option R) (l : List Env) :
    (s.alt f g).setProc h ⟨fun id => (i id).map f, l⟩ = (s.setProc h ⟨i, l⟩).alt f g := by
  simp only [Sys.setProc, Sys.alt, Sys.mk.injEq, true_and, and_true]
  funext x
  simp only [upd]
  split <;> rfl

/-! ### Aggregates -/

theorem aggDestroy_alt {A : App W R} {A' : App W' R'} (al : A.Refits A' f g) (h : HConfig)
    (id : String) (env : Env) (s : Sys W R) (sc : AggScope R) :
    aggDestroy A' h id env (s.alt f g) (sc.alt f) =
      let r := aggDestroy A h id env s sc
      (r.1.alt f g, r.2.1.alt f, r.2.2) := by
  unfold aggDestroy
  rw [show (sc.alt f).exists_ = sc.exists_ from rfl]
  split
  · rfl
  · have := alt_user s (.aggNew h) (f := f) (al.aggNew h)
    simp only [Call.alt] at this
    rw [this]
    rcases s.user (.aggNew h) (A.uc.aggNew h) with ⟨s1, v | r⟩
    · rfl
    · simp only [Except.map]
      rw [alt_notify]; rfl

theorem aggApplyScope_alt {A : App W R} {A' : App W' R'} (al : A.Refits A' f g) (h : HConfig)
    (m : Message) (s : Sys W R) (sc : AggScope R) :
    aggApplyScope A' h m (s.alt f g) (sc.alt f) =
      let r := aggApplyScope A h m s sc
      (r.1.alt f g, r.2.1.alt f, r.2.2) := by
  unfold aggApplyScope
  rw [show (sc.alt f).root = sc.root.map f from rfl]
  rcases sc.root with _ | r
  · rfl
  · have := alt_user s (.aggApply h r m) (f := f) (al.aggApply h r m)
    simp only [Call.alt] at this
    simp only [Option.map_some]
    rw [this]
    rcases s.user (.aggApply h r m) (A.uc.aggApply h r m) with ⟨s1, r', _ | v⟩ <;> rfl

theorem aggRevive_alt (h : HConfig) (id : String) (env : Env) (s : Sys W R) (sc : AggScope R) :
    aggRevive h id env (s.alt f g) (sc.alt f) =
      let r := aggRevive h id env s sc
      (r.1.alt f g, r.2.alt f) := by
  unfold aggRevive
  rw [show (sc.alt f).exists_ = sc.exists_ from rfl, show (sc.alt f).destroyed = sc.destroyed from rfl]
  split
  · rfl
  · split <;> (rw [alt_notify]; rfl)

theorem aggEmit_alt (h : HConfig) (id : String) (now : Time) (env : Env) (m : Message) (s : Sys W R)
    (sc : AggScope R) :
    aggEmit h id now env m (s.alt f g) (sc.alt f) =
      let r := aggEmit h id now env m s sc
      (r.1.alt f g, r.2.alt f) := by
  unfold aggEmit
  simp only
  rw [← alt_notify]; rfl

theorem aggOp_alt {A : App W R} {A' : App W' R'} (al : A.Refits A' f g) (h : HConfig) (id : String)
    (now : Time) (env : Env) (o : AggOp R) (s : Sys W R) (sc : AggScope R) :
    aggOp A' h id now env (o.alt f) (s.alt f g) (sc.alt f) =
      let r := aggOp A h id now env o s sc
      (r.1.alt f g, r.2.1.alt f, r.2.2) := by
  cases o with
  | record m =>
    simp only [AggOp.alt, aggOp]
    unfold aggRecord
    split
    · rfl
    · cases m.invalid with
      | some e => rfl
      | none =>
        simp only
        rw [aggRevive_alt]
        rcases aggRevive h id env s sc with ⟨s1, sc1⟩
        simp only
        rw [aggApplyScope_alt al]
        rcases aggApplyScope A h m s1 sc1 with ⟨s2, sc2, _ | v⟩
        · simp only
          rw [aggEmit_alt]
        · rfl
  | destroy => exact aggDestroy_alt al h id env s sc
  | setRoot r =>
    simp only [AggOp.alt, aggOp]
    rw [show (sc.alt f).given = sc.given from rfl]
    split <;> rfl
  | log t =>
    simp only [AggOp.alt, aggOp]
    rw [alt_notify]

theorem aggRun_alt {A : App W R} {A' : App W' R'} (al : A.Refits A' f g) (h : HConfig) (id : String)
    (now : Time) (env : Env) {p : Prog W (AggOp R) Unit} {p' : Prog W' (AggOp R') Unit}
    (sim : Prog.Alt g (AggOp.alt f) p p') : ∀ (s : Sys W R) (sc : AggScope R),
    aggRun A' h id now env p' (s.alt f g) (sc.alt f) =
      let r := aggRun A h id now env p s sc
      (r.1.alt f g, r.2.1.alt f, r.2.2) := by
  induction sim with
  | ret a => intro s sc; rfl
  | panic v => intro s sc; rfl
  | get h ih => intro s sc; exact ih s.w s sc
  | set w h ih => intro s sc; exact ih { s with w := w } sc
  | op o h ih =>
    intro s sc
    unfold aggRun
    rw [aggOp_alt al]
    simp only
    rw [ih]

theorem aggReplay_alt {A : App W R} {A' : App W' R'} (al : A.Refits A' f g) (h : HConfig)
    (es : List Env) : ∀ (r : R) (s : Sys W R), aggReplay A' h es (f r) (s.alt f g) =
      let x := aggReplay A h es r s
      (x.1.alt f g, x.2.map f) := by
  induction es with
  | nil => intro r s; rfl
  | cons e es ih =>
    intro r s
    unfold aggReplay
    have := alt_user s (.aggApply h r e.msg) (f := f) (al.aggApply h r e.msg)
    simp only [Call.alt] at this
    rw [this]
    rcases s.user (.aggApply h r e.msg) (A.uc.aggApply h r e.msg) with ⟨s1, r', _ | v⟩
    · exact ih r' s1
    · rfl

theorem aggCommit_alt (h : HConfig) (id : String) (s : Sys W R) (sc : AggScope R) :
    aggCommit h id (s.alt f g) (sc.alt f) = (aggCommit h id s sc).alt f g := by
  unfold aggCommit
  rw [show (sc.alt f).exists_ = sc.exists_ from rfl]
  split <;> rfl

theorem aggInvoke_alt {A : App W R} {A' : App W' R'} (al : A.Refits A' f g) (h : HConfig)
    (id : String) (now : Time) (env : Env) (r : R) (ex : Bool) (s : Sys W R) :
    aggInvoke A' h id now env (f r) ex (s.alt f g) =
      let x := aggInvoke A h id now env r ex s
      (x.1.alt f g, x.2) := by
  unfold aggInvoke
  have e := alt_call s (.aggHandle h id r env.msg) (f := f) (g := g)
  simp only [Call.alt] at e
  rw [e, show (⟨some (f r), ex, false, [], true⟩ : AggScope R') =
    (⟨some r, ex, false, [], true⟩ : AggScope R).alt f from rfl,
    aggRun_alt al h id now env (al.aggHandle h id r env.msg)]
  rcases aggRun A h id now env (A.uc.aggHandle h id r env.msg) _ _ with ⟨s1, sc1, _ | v⟩
  · simp only
    rw [aggCommit_alt]; rfl
  · rfl

theorem aggHandle_alt {A : App W R} {A' : App W' R'} (al : A.Refits A' f g) (h : HConfig)
    (now : Time) (env : Env) (s : Sys W R) :
    aggHandle A' h now env (s.alt f g) =
      let x := aggHandle A h now env s
      (x.1.alt f g, x.2) := by
  unfold aggHandle
  split
  · rfl
  split
  · rfl
  have := alt_user s (.aggRoute h env.msg) (f := f) (al.aggRoute h env.msg)
  simp only [Call.alt] at this
  rw [this]
  rcases s.user (.aggRoute h env.msg) (A.uc.aggRoute h env.msg) with ⟨s1, v | i⟩
  · rfl
  · simp only [id]
    split
    · rfl
    · unfold aggWithID
      have := alt_user s1 (.aggNew h) (f := f) (al.aggNew h)
      simp only [Call.alt] at this
      rw [this]
      rcases s1.user (.aggNew h) (A.uc.aggNew h) with ⟨s2, v | _ | r⟩
      · rfl
      · rfl
      · simp only [Except.map, Option.map_some]
        rw [show (s2.alt f g).agg = s2.agg from rfl]
        rcases s2.agg h.name i with _ | hist
        · simp only
          rw [alt_notify, aggInvoke_alt al]
        · simp only
          rw [aggReplay_alt al]
          rcases aggReplay A h hist r s2 with ⟨s3, v | r'⟩
          · rfl
          · simp only [Except.map]
            rw [alt_notify, aggInvoke_alt al]

/-! ### Processes -/

theorem procRevive_alt (h : HConfig) (id : String) (env : Env) (s : Sys W R) (sc : ProcScope R) :
    procRevive h id env (s.alt f g) (sc.alt f) =
      let r := procRevive h id env s sc
      (r.1.alt f g, r.2.alt f) := by
  unfold procRevive
  rw [show (sc.alt f).ended = sc.ended from rfl]
  split
  · rw [alt_notify]; rfl
  · rfl

theorem procOp_alt (h : HConfig) (id : String) (now : Time) (env : Env) (o : ProcOp R) (s : Sys W R)
    (sc : ProcScope R) :
    procOp h id now env (o.alt f) (s.alt f g) (sc.alt f) =
      let r := procOp h id now env o s sc
      (r.1.alt f g, r.2.1.alt f, r.2.2) := by
  cases o with
  | end_ =>
    simp only [ProcOp.alt, procOp]
    rw [show (sc.alt f).ended = sc.ended from rfl]
    split
    · rfl
    · rw [alt_notify]; rfl
  | execute m =>
    simp only [ProcOp.alt, procOp]
    split
    · rfl
    · cases m.invalid with
      | some e => rfl
      | none =>
        simp only
        rw [procRevive_alt]
        rcases procRevive h id env s sc with ⟨s1, sc1⟩
        simp only [procEmitCommand]
        rw [← alt_notify]; rfl
  | schedule m t =>
    simp only [ProcOp.alt, procOp]
    split
    · rfl
    · cases m.invalid with
      | some e => rfl
      | none =>
        simp only
        rw [procRevive_alt]
        rcases procRevive h id env s sc with ⟨s1, sc1⟩
        simp only [procEmitTimeout]
        rw [← alt_notify]
        split <;> rfl
  | setRoot r => rfl
  | log t =>
    simp only [ProcOp.alt, procOp]
    rw [alt_notify]

theorem procRun_alt (h : HConfig) (id : String) (now : Time) (env : Env)
    {p : Prog W (ProcOp R) (Option Err)} {p' : Prog W' (ProcOp R') (Option Err)}
    (sim : Prog.Alt g (ProcOp.alt f) p p') : ∀ (s : Sys W R) (sc : ProcScope R),
    procRun h id now env p' (s.alt f g) (sc.alt f) =
      let r := procRun h id now env p s sc
      (r.1.alt f g, r.2.1.alt f, r.2.2) := by
  induction sim with
  | ret a => intro s sc; rfl
  | panic v => intro s sc; rfl
  | get h ih => intro s sc; exact ih s.w s sc
  | set w h ih => intro s sc; exact ih { s with w := w } sc
  | op o h ih =>
    intro s sc
    unfold procRun
    rw [procOp_alt]
    simp only
    rw [ih]

theorem upd_alt (i : String → Option R) (k : String) (r : Option R) :
    upd (fun id => (i id).map f) k (r.map f) = fun id => (upd i k r id).map f := by
  funext x
  simp only [upd]
  split <;> rfl

theorem procUpdate_alt {A : App W R} {A' : App W' R'} (al : A.Refits A' f g) (h : HConfig)
    (id : String) (s : Sys W R) (sc : ProcScope R) :
    procUpdate A' h id (s.alt f g) (sc.alt f) = (procUpdate A h id s sc).alt f g := by
  unfold procUpdate
  rw [← setProc_alt, ← upd_alt, al.sort]
  rfl

theorem procDelete_alt (h : HConfig) (id : String) (s : Sys W R) :
    procDelete h id (s.alt f g) = (procDelete h id s).alt f g := by
  unfold procDelete
  rw [← setProc_alt, ← upd_alt]
  rfl

theorem procAlias_alt (h : HConfig) (id : String) (ex : Bool) (s : Sys W R) (r : R) :
    procAlias h id ex (s.alt f g) (f r) = (procAlias h id ex s r).alt f g := by
  unfold procAlias
  split
  · rw [← setProc_alt, ← upd_alt]; rfl
  · rfl

theorem procInvoke_alt {A : App W R} {A' : App W' R'} (al : A.Refits A' f g) (h : HConfig)
    (id : String) (now : Time) (env : Env) (r : R) (ex : Bool) (s : Sys W R) :
    procInvoke A' h id now env (f r) ex (s.alt f g) =
      let x := procInvoke A h id now env r ex s
      (x.1.alt f g, x.2) := by
  unfold procInvoke
  have e := alt_call s (.procHandle h id r env.msg (procSeenTime env)) (f := f) (g := g)
  simp only [Call.alt] at e
  rw [e, show (⟨f r, false, [], [], []⟩ : ProcScope R') =
    (⟨r, false, [], [], []⟩ : ProcScope R).alt f from rfl,
    procRun_alt h id now env (al.procHandle h id r env.msg (procSeenTime env))]
  rcases procRun h id now env (A.uc.procHandle h id r env.msg (procSeenTime env)) _ _ with
    ⟨s1, sc1, v | _ | e⟩
  · simp only
    rw [show (sc1.alt f).root = f sc1.root from rfl, procAlias_alt]
  · simp only
    rw [show (sc1.alt f).ended = sc1.ended from rfl]
    split
    · split
      · rw [procDelete_alt]; rfl
      · rfl
    · rw [procUpdate_alt al]; rfl
  · simp only
    rw [show (sc1.alt f).root = f sc1.root from rfl, procAlias_alt]

theorem procWithID_alt {A : App W R} {A' : App W' R'} (al : A.Refits A' f g) (h : HConfig)
    (id : String) (now : Time) (env : Env) (s : Sys W R) :
    procWithID A' h id now env (s.alt f g) =
      let x := procWithID A h id now env s
      (x.1.alt f g, x.2) := by
  unfold procWithID
  rw [show ((s.alt f g).proc h.name).inst id = ((s.proc h.name).inst id).map f from rfl]
  rcases (s.proc h.name).inst id with _ | r
  · simp only [Option.map_none]
    have := alt_user (s.notify (.procNotFound h id env)) (.procNew h) (f := f) (al.procNew h)
    simp only [Call.alt] at this
    rw [alt_notify, this]
    rcases (s.notify (.procNotFound h id env)).user (.procNew h) (A.uc.procNew h) with ⟨s2, v | _ | r⟩
    · rfl
    · simp only [Except.map, Option.map_none]
      rw [alt_notify]
    · simp only [Except.map, Option.map_some]
      rw [alt_notify, procInvoke_alt al]
  · simp only [Option.map_some]
    rw [alt_notify, procInvoke_alt al]

theorem procHandle_alt {A : App W R} {A' : App W' R'} (al : A.Refits A' f g) (h : HConfig)
    (now : Time) (env : Env) (s : Sys W R) :
    procHandle A' h now env (s.alt f g) =
      let x := procHandle A h now env s
      (x.1.alt f g, x.2) := by
  unfold procHandle
  split
  · rfl
  cases env.msg.type.kind with
  | command => rfl
  | event =>
    simp only
    have := alt_user s (.procRoute h env.msg) (f := f) (al.procRoute h env.msg)
    simp only [Call.alt] at this
    rw [this]
    rcases s.user (.procRoute h env.msg) (A.uc.procRoute h env.msg) with ⟨s1, v | e | _ | i⟩
    · rfl
    · rfl
    · simp only [id]
      rw [alt_notify]
    · simp only [id]
      split
      · rfl
      · rw [procWithID_alt al]
  | timeout =>
    simp only
    rcases env.origin with _ | o
    · rfl
    · simp only
      rw [show ((s.alt f g).proc h.name).inst o.instanceID =
        ((s.proc h.name).inst o.instanceID).map f from rfl]
      rcases (s.proc h.name).inst o.instanceID with _ | r
      · simp only [Option.map_none]
        rw [alt_notify]
      · simp only [Option.map_some]
        rw [procWithID_alt al]

theorem procTick_alt (h : HConfig) (now : Time) (s : Sys W R) :
    procTick h now (s.alt f g) =
      let r := procTick h now s
      (r.1.alt f g, r.2) := by
  unfold procTick
  simp only
  rw [← setProc_alt]
  rfl

/-! ### Integrations -/

theorem intRun_alt (h : HConfig) (now : Time) (env : Env) {p : Prog W IntOp (Option Err)}
    {p' : Prog W' IntOp (Option Err)} (sim : Prog.Alt g id p p') :
    ∀ (s : Sys W R) (evs : List Env), intRun h now env p' (s.alt f g) evs =
      let r := intRun h now env p s evs
      (r.1.alt f g, r.2) := by
  induction sim with
  | ret a => intro s sc; rfl
  | panic v => intro s sc; rfl
  | get h ih => intro s sc; exact ih s.w s sc
  | set w h ih => intro s sc; exact ih { s with w := w } sc
  | @op o k k' _ ih =>
    intro s evs
    have ho : intOp h now env o (s.alt f g) evs =
        ((intOp h now env o s evs).1.alt f g, (intOp h now env o s evs).2) := by
      cases o with
      | record m =>
        simp only [intOp]
        split
        · rfl
        · cases m.invalid with
          | some e => rfl
          | none =>
            simp only [intEmit]
            rw [← alt_notify]; rfl
      | log t => simp only [intOp]; rw [alt_notify]
    unfold intRun
    simp only [id]
    rw [ho]
    rcases intOp h now env o s evs with ⟨s1, evs1, q⟩
    simp only
    rw [ih]

theorem intHandle_alt {A : App W R} {A' : App W' R'} (al : A.Refits A' f g) (h : HConfig)
    (now : Time) (env : Env) (s : Sys W R) :
    intHandle A' h now env (s.alt f g) =
      let x := intHandle A h now env s
      (x.1.alt f g, x.2) := by
  unfold intHandle
  split
  · rfl
  split
  · rfl
  have e := alt_call s (.intHandle h env.msg) (f := f) (g := g)
  simp only [Call.alt] at e
  rw [e, intRun_alt h now env (al.intHandle h env.msg)]
  rcases intRun h now env (A.uc.intHandle h env.msg) _ _ with ⟨s1, evs, v | r⟩ <;> rfl

/-! ### Projections -/

theorem prjRun_alt {α : Type} (h : HConfig) (env : Option Env) {p : Prog W PrjOp α}
    {p' : Prog W' PrjOp α} (sim : Prog.Alt g id p p') : ∀ (s : Sys W R),
    prjRun h env p' (s.alt f g) =
      let r := prjRun h env p s
      (r.1.alt f g, r.2) := by
  induction sim with
  | ret a => intro s; rfl
  | panic v => intro s; rfl
  | get h ih => intro s; exact ih s.w s
  | set w h ih => intro s; exact ih { s with w := w }
  | op o h ih =>
    intro s
    cases o with
    | log t =>
      simp only [id]
      unfold prjRun
      rw [alt_notify]
      exact ih none _

theorem prjStep_alt {α : Type} (h : HConfig) (env : Option Env) {p : Prog W PrjOp α}
    {p' : Prog W' PrjOp α} (sim : Prog.Alt g id p p') (s : Sys W R) :
    Prog.Alt g id (prjStep h env p s).1 (prjStep h env p' (s.alt f g)).1 ∧
    (prjStep h env p' (s.alt f g)).2 = (prjStep h env p s).2.alt f g := by
  cases sim with
  | ret a => exact ⟨.ret a, rfl⟩
  | panic v => exact ⟨.panic v, rfl⟩
  | get h => exact ⟨h s.w, rfl⟩
  | set w h => exact ⟨h, rfl⟩
  | op o h =>
    cases o with
    | log t => exact ⟨h none, alt_notify s (.prjLog _ env t)⟩

theorem prjPar_alt (h : HConfig) (env : Env) : ∀ (bs : List Bool)
    {hp : Prog W PrjOp (Except Err Bool)} {hp' : Prog W' PrjOp (Except Err Bool)}
    {cp : Prog W PrjOp (Option Err)} {cp' : Prog W' PrjOp (Option Err)}
    (_ : Prog.Alt g id hp hp') (_ : Prog.Alt g id cp cp') (s : Sys W R),
    prjPar h env bs hp' cp' (s.alt f g) =
      let r := prjPar h env bs hp cp s
      (r.1.alt f g, r.2) := by
  intro bs
  induction bs with
  | nil =>
    intro hp hp' cp cp' sh sc s
    unfold prjPar
    rw [prjRun_alt h (some env) sh s]
    rcases prjRun h (some env) hp s with ⟨s1, v | r⟩
    · rfl
    · simp only
      rw [prjRun_alt h none sc s1]
      rcases prjRun h none cp s1 with ⟨s2, v | r⟩ <;> rfl
  | cons b bs ih =>
    intro hp hp' cp cp' sh sc s
    have hstep := prjStep_alt (f := f) h (some env) sh s
    have cstep := prjStep_alt (f := f) h none sc s
    have sh' := sh
    have sc' := sc
    have e1 := ih sh' cstep.1 (prjStep h none cp s).2
    have e2 := ih hstep.1 sc' (prjStep h (some env) hp s).2
    rw [← cstep.2] at e1
    rw [← hstep.2] at e2
    cases sc with
    | panic v => unfold prjPar; rfl
    | _ =>
      cases sh with
      | panic v => unfold prjPar; rfl
      | _ =>
        unfold prjPar
        cases b with
        | true => exact e1
        | false => exact e2

theorem prjApply_alt {A : App W R} {A' : App W' R'} (al : A.Refits A' f g) (h : HConfig) (now : Time)
    (env : Env) (s : Sys W R) : prjApply A' h now env (s.alt f g) =
      let r := prjApply A h now env s
      (r.1.alt f g, r.2) := by
  unfold prjApply
  have e1 : ((((s.alt f g).notify (.prjCompactBegun h)).emit (.call (.prjCompact h now))).emit
      (.call (.prjHandle h env.id [] [1] env.msg))) =
      (((s.notify (.prjCompactBegun h)).emit (.call (.prjCompact h now))).emit
        (.call (.prjHandle h env.id [] [1] env.msg))).alt f g := by
    rw [← alt_emit, ← alt_emit, ← alt_notify]; rfl
  have e2 : (s.alt f g).emit (.call (.prjHandle h env.id [] [1] env.msg)) =
      (s.emit (.call (.prjHandle h env.id [] [1] env.msg))).alt f g := by
    rw [← alt_emit]; rfl
  rw [e1, e2, al.compact]
  split
  · rw [show (s.alt f g).w = g s.w from rfl, al.schedule,
      prjPar_alt h env (A.uc.schedule s.w) (al.prjHandle h env.id [] [1] env.msg env.createdAt)
        (al.prjCompact h now)]
    rcases prjPar h env (A.uc.schedule s.w) _ _ _ with ⟨s1, v | ⟨r, ce⟩⟩
    · rfl
    · simp only
      rw [alt_notify]
  · rw [prjRun_alt h (some env) (al.prjHandle h env.id [] [1] env.msg env.createdAt)]
    rcases prjRun h (some env) _ _ with ⟨s1, v | r⟩ <;> rfl

theorem prjFinish_alt {A : App W R} {A' : App W' R'} (al : A.Refits A' f g) (h : HConfig) (env : Env)
    (r : Except Err Bool) (ce : Option Err) (s : Sys W R) :
    prjFinish A' h env r ce (s.alt f g) =
      let x := prjFinish A h env r ce s
      (x.1.alt f g, x.2) := by
  unfold prjFinish
  rcases r with e | _ | _
  · rfl
  · rfl
  · have := alt_user s (.prjClose h env.id) (f := f) (al.prjClose h env.id)
    simp only [Call.alt] at this
    simp only
    rw [this]
    rcases s.user (.prjClose h env.id) (A.uc.prjClose h env.id) with ⟨s1, v | _ | e⟩ <;> rfl

theorem prjHandle_alt {A : App W R} {A' : App W' R'} (al : A.Refits A' f g) (h : HConfig) (now : Time)
    (env : Env) (s : Sys W R) : prjHandle A' h now env (s.alt f g) =
      let r := prjHandle A h now env s
      (r.1.alt f g, r.2) := by
  unfold prjHandle
  split
  · rfl
  split
  · rfl
  have := alt_user s (.prjVersion h env.id) (f := f) (al.prjVersion h env.id)
  simp only [Call.alt] at this
  rw [this]
  rcases s.user (.prjVersion h env.id) (A.uc.prjVersion h env.id) with ⟨s1, v | e | b⟩
  · rfl
  · rfl
  · cases b with
    | cons _ _ => rfl
    | nil =>
      simp only [id]
      rw [prjApply_alt al]
      rcases prjApply A h now env s1 with ⟨s2, v | ⟨r, ce⟩⟩
      · rfl
      · exact prjFinish_alt al h env r ce s2

theorem prjTick_alt {A : App W R} {A' : App W' R'} (al : A.Refits A' f g) (h : HConfig) (now : Time)
    (s : Sys W R) : prjTick A' h now (s.alt f g) =
      let r := prjTick A h now s
      (r.1.alt f g, r.2) := by
  unfold prjTick
  rw [show (s.alt f g).lastCompact = s.lastCompact from rfl]
  split
  · have e : ((({ s.alt f g with lastCompact := upd s.lastCompact h.name now } : Sys W' R').notify
        (.prjCompactBegun h)).emit (.call (.prjCompact h now))) =
        (((({ s with lastCompact := upd s.lastCompact h.name now } : Sys W R).notify
          (.prjCompactBegun h)).emit (.call (.prjCompact h now)))).alt f g := by
      rw [← alt_emit, ← alt_notify]; rfl
    simp only
    rw [e, prjRun_alt h none (al.prjCompact h now)]
    rcases prjRun h none _ _ with ⟨s1, v | r⟩
    · rfl
    · simp only
      rw [alt_notify]
  · rfl

/-! ### The engine -/

theorem newOpOpts_alt {A : App W R} {A' : App W' R'} (al : A.Refits A' f g) (s : Sys W R)
    (os : List OpOption) : newOpOpts A' (s.alt f g) os = newOpOpts A s os := by
  have h1 : ∀ (oo : OpOpts) (o : OpOption), oo.apply A' o = oo.apply A o := by
    intro oo o
    cases o <;> simp only [OpOpts.apply, al.cfgs]
  have h2 : ∀ (os : List OpOption) (oo : OpOpts), oo.applyAll A' os = oo.applyAll A os := by
    intro os
    induction os with
    | nil => intro oo; rfl
    | cons o os ih =>
      intro oo
      unfold OpOpts.applyAll
      rw [h1]
      rcases oo.apply A o with v | oo1
      · rfl
      · exact ih oo1
  unfold newOpOpts
  rw [h2, show (s.alt f g).w = g s.w from rfl, al.wallClock]

theorem cycle_alt {A : App W R} {A' : App W' R'} (al : A.Refits A' f g) (oo : OpOpts) :
    oo.cycle A' = oo.cycle A := by
  unfold OpOpts.cycle
  rw [al.cfgs]

theorem targets_alt {A : App W R} {A' : App W' R'} (al : A.Refits A' f g) (env : Env) :
    A'.targets env = A.targets env := by
  unfold App.targets App.route App.find
  rw [al.cfgs]

theorem handleOne_alt {A : App W R} {A' : App W' R'} (al : A.Refits A' f g) (oo : OpOpts) (env : Env)
    (h : HConfig) (s : Sys W R) : handleOne A' oo env h (s.alt f g) =
      let r := handleOne A oo env h s
      (r.1.alt f g, r.2) := by
  have hc : ∀ s : Sys W R, ctlHandle A' h oo.now env (s.alt f g) =
      ((ctlHandle A h oo.now env s).1.alt f g, (ctlHandle A h oo.now env s).2) := by
    intro s
    unfold ctlHandle
    cases h.htype with
    | aggregate => exact aggHandle_alt al h oo.now env s
    | process => exact procHandle_alt al h oo.now env s
    | integration => exact intHandle_alt al h oo.now env s
    | projection => exact prjHandle_alt al h oo.now env s
  unfold handleOne
  rcases skipHandler oo h with _ | r
  · simp only
    rw [alt_notify, hc]
    rcases ctlHandle A h oo.now env (s.notify (.handlingBegun h env)) with ⟨s1, v | ⟨envs, e⟩⟩
    · rfl
    · simp only
      rw [alt_notify]
  · simp only
    rw [alt_notify]

theorem handleAll_alt {A : App W R} {A' : App W' R'} (al : A.Refits A' f g) (oo : OpOpts) (env : Env)
    (hs : List HConfig) : ∀ (q : List Env) (de : List EngErr) (s : Sys W R),
    handleAll A' oo env hs q de (s.alt f g) =
      let r := handleAll A oo env hs q de s
      (r.1.alt f g, r.2) := by
  induction hs with
  | nil => intro q de s; rfl
  | cons h hs ih =>
    intro q de s
    unfold handleAll
    rw [handleOne_alt al]
    rcases handleOne A oo env h s with ⟨s1, v | ⟨envs, e⟩⟩
    · rfl
    · exact ih _ _ s1

theorem dispatchLoop_alt {A : App W R} {A' : App W' R'} (al : A.Refits A' f g) (oo : OpOpts)
    (n : Nat) : ∀ (q : List Env) (errs : List EngErr) (s : Sys W R),
    dispatchLoop A' oo n q errs (s.alt f g) =
      let r := dispatchLoop A oo n q errs s
      (r.1.alt f g, r.2) := by
  induction n with
  | zero => intro q errs s; cases q <;> (unfold dispatchLoop; rfl)
  | succ n ih =>
    intro q errs s
    cases q with
    | nil => unfold dispatchLoop; rfl
    | cons env q =>
      unfold dispatchLoop
      rw [targets_alt al]
      rcases A.targets env with v | hs
      · rfl
      · simp only
        rw [alt_notify, handleAll_alt al]
        rcases handleAll A oo env hs q [] (s.notify (.dispatchBegun env)) with ⟨s1, v | ⟨q1, de⟩⟩
        · rfl
        · simp only
          rw [alt_notify, show ((s1.notify (.dispatchCompleted env de)).alt f g).w =
            g (s1.notify (.dispatchCompleted env de)).w from rfl, al.ctxErr]
          rcases A.uc.ctxErr (s1.notify (.dispatchCompleted env de)).w with _ | c
          · exact ih _ _ _
          · rfl

theorem ctlTick_alt {A : App W R} {A' : App W' R'} (al : A.Refits A' f g) (h : HConfig) (now : Time)
    (s : Sys W R) : ctlTick A' h now (s.alt f g) =
      let r := ctlTick A h now s
      (r.1.alt f g, r.2) := by
  unfold ctlTick
  cases h.htype with
  | process => simp only; rw [procTick_alt]
  | projection =>
    simp only
    rw [prjTick_alt al]
    rcases prjTick A h now s with ⟨s1, v | e⟩ <;> rfl
  | aggregate => rfl
  | integration => rfl

theorem tickAll_alt {A : App W R} {A' : App W' R'} (al : A.Refits A' f g) (oo : OpOpts)
    (hs : List HConfig) : ∀ (q : List Env) (errs : List EngErr) (s : Sys W R),
    tickAll A' oo hs q errs (s.alt f g) =
      let r := tickAll A oo hs q errs s
      (r.1.alt f g, r.2) := by
  induction hs with
  | nil => intro q errs s; rfl
  | cons h hs ih =>
    intro q errs s
    unfold tickAll
    rcases skipHandler oo h with _ | r
    · simp only
      rw [alt_notify, ctlTick_alt al]
      rcases ctlTick A h oo.now (s.notify (.tickBegun h)) with ⟨s1, v | ⟨envs, e⟩⟩
      · rfl
      · simp only
        rw [alt_notify, show ((s1.notify (.tickCompleted h e)).alt f g).w =
          g (s1.notify (.tickCompleted h e)).w from rfl, al.ctxErr]
        rcases A.uc.ctxErr (s1.notify (.tickCompleted h e)).w with _ | c
        · exact ih _ _ _
        · rfl
    · simp only
      rw [alt_notify, ih]

theorem runResetters_alt : ∀ (fs : List (W → W × Option PanicVal)) (fs' : List (W' → W' × Option PanicVal)),
    AltFns g fs fs' → ∀ (i : Nat) (s : Sys W R), runResetters i fs' (s.alt f g) =
      let r := runResetters i fs s
      (r.1.alt f g, r.2)
  | [], [], _, i, s => rfl
  | x :: xs, x' :: xs', ha, i, s => by
    unfold runResetters
    have := alt_user s (.resetter i) (f := f) ha.1
    simp only [Call.alt] at this
    rw [this]
    rcases s.user (.resetter i) x with ⟨s1, _ | v⟩
    · exact runResetters_alt xs xs' ha.2 _ _
    · rfl

theorem exec_alt {A : App W R} {A' : App W' R'} (al : A.Refits A' f g) (op : Op) (s : Sys W R) :
    op.exec A' (s.alt f g) =
      let r := op.exec A s
      (r.1.alt f g, r.2) := by
  cases op with
  | reset =>
    show engReset A' (s.alt f g) = ((engReset A s).1.alt f g, (engReset A s).2)
    unfold engReset
    rw [← runResetters_alt _ _ al.resetters]
    congr 1
    simp [Sys.alt, Sys.emit, Obs.alt]
  | dispatch n m os =>
    show engDispatch A' n m os (s.alt f g) =
      ((engDispatch A n m os s).1.alt f g, (engDispatch A n m os s).2)
    unfold engDispatch
    simp only
    rw [show ({ s.alt f g with nextID := (s.alt f g).nextID + 1 } : Sys W' R') =
      ({ s with nextID := s.nextID + 1 } : Sys W R).alt f g from rfl, newOpOpts_alt al]
    generalize ({ s with nextID := s.nextID + 1 } : Sys W R) = s1
    rcases newOpOpts A s1 os with v | oo
    · rfl
    · simp only
      split
      · rfl
      cases m.invalid with
      | some e => rfl
      | none =>
        simp only
        rw [show A'.route m = A.route m by unfold App.route; rw [al.cfgs], cycle_alt al,
          show (s.alt f g).nextID = s.nextID from rfl]
        split
        · rfl
        · rw [alt_notify]
          generalize s1.notify _ = s2
          rw [show (s2.alt f g).w = g s2.w from rfl, al.lockErr]
          rcases A.uc.lockErr s2.w with _ | e
          · simp only
            rw [dispatchLoop_alt al]
            rcases dispatchLoop A oo n _ [] s2 with ⟨s3, errs | v | _⟩
            · simp only; rw [alt_notify]
            · rfl
            · rfl
          · simp only; rw [alt_notify]
  | tick n order os =>
    show engTick A' n order os (s.alt f g) =
      ((engTick A n order os s).1.alt f g, (engTick A n order os s).2)
    unfold engTick
    rw [newOpOpts_alt al]
    rcases newOpOpts A s os with v | oo
    · rfl
    · simp only
      rw [cycle_alt al, alt_notify]
      generalize s.notify _ = s2
      rw [show (s2.alt f g).w = g s2.w from rfl, al.lockErr]
      rcases A.uc.lockErr s2.w with _ | e
      · simp only [engTickLocked]
        rw [tickAll_alt al]
        rcases tickAll A oo order [] [] s2 with ⟨s3, v | ⟨q, errs, _ | c⟩⟩
        · rfl
        · simp only
          rw [dispatchLoop_alt al]
          rcases dispatchLoop A oo n q [] s3 with ⟨s4, derrs | v | _⟩
          · simp only; rw [alt_notify]
          · rfl
          · rfl
        · simp only; rw [alt_notify]
      · simp only; rw [alt_notify]

end

end Verif
