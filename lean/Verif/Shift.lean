import Verif.Engine

/-!
# The engine does not look at its past

The trace is a record for specifications: nothing the engine does depends on it.
Proof machinery for C18.
-/

namespace Verif

variable {W R : Type}

/-- The same state with an earlier past `p` put before the trace. -/
def Sys.on (s : Sys W R) (p : List (Obs R)) : Sys W R := { s with trace := p ++ s.trace }

/-- The same for the first component of a result. -/
def lft {α : Type} (p : List (Obs R)) (x : Sys W R × α) : Sys W R × α := (x.1.on p, x.2)

section
variable (p : List (Obs R))

theorem on_emit (s : Sys W R) (o : Obs R) : (s.on p).emit o = (s.emit o).on p := by
  simp [Sys.on, Sys.emit]

theorem on_notify (s : Sys W R) (f : Fact) : (s.on p).notify f = (s.notify f).on p := on_emit p s _

theorem on_user {α : Type} (s : Sys W R) (c : Call R) (f : W → W × α) :
    (s.on p).user c f = lft p (s.user c f) := by
  simp [Sys.user, lft, Sys.on, Sys.emit]

theorem on_setProc (s : Sys W R) (h : HConfig) (q : ProcState R) :
    (s.on p).setProc h q = (s.setProc h q).on p := rfl

/-! ## Aggregates -/

theorem aggDestroy_on (A : App W R) (h : HConfig) (id : String) (env : Env) (s : Sys W R)
    (sc : AggScope R) : aggDestroy A h id env (s.on p) sc = lft p (aggDestroy A h id env s sc) := by
  unfold aggDestroy
  split
  · rfl
  · rw [on_user]
    rcases s.user (.aggNew h) (A.uc.aggNew h) with ⟨s1, v | r⟩
    · rfl
    · simp only [lft, on_notify]

theorem aggApplyScope_on (A : App W R) (h : HConfig) (m : Message) (s : Sys W R)
    (sc : AggScope R) : aggApplyScope A h m (s.on p) sc = lft p (aggApplyScope A h m s sc) := by
  unfold aggApplyScope
  split
  · rfl
  · rename_i r _
    rw [on_user]
    rcases s.user (.aggApply h r m) (A.uc.aggApply h r m) with ⟨s1, r', _ | v⟩ <;> rfl

theorem aggRevive_on (h : HConfig) (id : String) (env : Env) (s : Sys W R) (sc : AggScope R) :
    aggRevive h id env (s.on p) sc = lft p (aggRevive h id env s sc) := by
  unfold aggRevive
  split
  · rfl
  · split <;> simp only [lft, on_notify]

theorem aggEmit_on (h : HConfig) (id : String) (now : Time) (env : Env) (m : Message)
    (s : Sys W R) (sc : AggScope R) :
    aggEmit h id now env m (s.on p) sc = lft p (aggEmit h id now env m s sc) := by
  simp [aggEmit, lft, Sys.on, Sys.notify, Sys.emit]

theorem aggRecord_on (A : App W R) (h : HConfig) (id : String) (now : Time) (env : Env)
    (m : Message) (s : Sys W R) (sc : AggScope R) :
    aggRecord A h id now env m (s.on p) sc = lft p (aggRecord A h id now env m s sc) := by
  unfold aggRecord
  split
  · rfl
  split
  · rfl
  rw [aggRevive_on]
  rcases aggRevive h id env s sc with ⟨s1, sc1⟩
  simp only [lft]
  rw [aggApplyScope_on]
  rcases aggApplyScope A h m s1 sc1 with ⟨s2, sc2, _ | v⟩
  · simp only [lft]; rw [aggEmit_on]; rfl
  · rfl

theorem aggOp_on (A : App W R) (h : HConfig) (id : String) (now : Time) (env : Env) (o : AggOp R)
    (s : Sys W R) (sc : AggScope R) :
    aggOp A h id now env o (s.on p) sc = lft p (aggOp A h id now env o s sc) := by
  cases o with
  | record m => exact aggRecord_on p A h id now env m s sc
  | destroy => exact aggDestroy_on p A h id env s sc
  | setRoot r => rfl
  | log t => simp only [aggOp, lft, on_notify]

theorem aggRun_on (A : App W R) (h : HConfig) (id : String) (now : Time) (env : Env)
    (g : Prog W (AggOp R) Unit) : ∀ (s : Sys W R) (sc : AggScope R),
    aggRun A h id now env g (s.on p) sc = lft p (aggRun A h id now env g s sc) := by
  induction g with
  | ret a => intro s sc; rfl
  | panic v => intro s sc; rfl
  | get k ih => intro s sc; exact ih s.w s sc
  | set w k ih => intro s sc; exact ih { s with w := w } sc
  | op o k ih =>
    intro s sc
    unfold aggRun
    rw [aggOp_on]
    rcases aggOp A h id now env o s sc with ⟨s1, sc1, v⟩
    exact ih v s1 sc1

theorem aggReplay_on (A : App W R) (h : HConfig) (es : List Env) : ∀ (r : R) (s : Sys W R),
    aggReplay A h es r (s.on p) = lft p (aggReplay A h es r s) := by
  induction es with
  | nil => intro r s; rfl
  | cons e es ih =>
    intro r s
    unfold aggReplay
    rw [on_user]
    rcases s.user (.aggApply h r e.msg) (A.uc.aggApply h r e.msg) with ⟨s1, r', _ | v⟩
    · exact ih r' s1
    · rfl

theorem aggCommit_on (h : HConfig) (id : String) (s : Sys W R) (sc : AggScope R) :
    aggCommit h id (s.on p) sc = (aggCommit h id s sc).on p := by
  unfold aggCommit; split <;> rfl

theorem aggInvoke_on (A : App W R) (h : HConfig) (id : String) (now : Time) (env : Env) (r : R)
    (ex : Bool) (s : Sys W R) :
    aggInvoke A h id now env r ex (s.on p) = lft p (aggInvoke A h id now env r ex s) := by
  unfold aggInvoke
  rw [on_emit, aggRun_on]
  rcases aggRun A h id now env (A.uc.aggHandle h id r env.msg)
    (s.emit (.call (.aggHandle h id r env.msg))) ⟨some r, ex, false, [], true⟩ with ⟨s1, sc, _ | v⟩
  · simp only [lft, aggCommit_on]
  · rfl

theorem aggWithID_on (A : App W R) (h : HConfig) (id : String) (now : Time) (env : Env)
    (s : Sys W R) : aggWithID A h id now env (s.on p) = lft p (aggWithID A h id now env s) := by
  unfold aggWithID
  rw [on_user]
  rcases s.user (.aggNew h) (A.uc.aggNew h) with ⟨s1, v | _ | r⟩
  · rfl
  · rfl
  · simp only [lft]
    change (match s1.agg h.name id with | some hist => _ | none => _) = _
    cases s1.agg h.name id with
    | none => simp only [on_notify, aggInvoke_on]; rfl
    | some hist =>
      simp only [aggReplay_on]
      rcases aggReplay A h hist r s1 with ⟨s2, v | r'⟩
      · rfl
      · simp only [lft, on_notify]; rw [aggInvoke_on]; rfl

theorem aggHandle_on (A : App W R) (h : HConfig) (now : Time) (env : Env) (s : Sys W R) :
    aggHandle A h now env (s.on p) = lft p (aggHandle A h now env s) := by
  unfold aggHandle
  split
  · rfl
  split
  · rfl
  rw [on_user]
  rcases s.user (.aggRoute h env.msg) (A.uc.aggRoute h env.msg) with ⟨s1, v | id⟩
  · rfl
  · simp only [lft]
    split
    · rfl
    · exact aggWithID_on p A h id now env s1

/-! ## Processes -/

theorem procRevive_on (h : HConfig) (id : String) (env : Env) (s : Sys W R) (sc : ProcScope R) :
    procRevive h id env (s.on p) sc = lft p (procRevive h id env s sc) := by
  unfold procRevive
  split
  · simp only [lft, on_notify]
  · rfl

theorem procEmitCommand_on (h : HConfig) (id : String) (now : Time) (env : Env) (m : Message)
    (s : Sys W R) (sc : ProcScope R) :
    procEmitCommand h id now env m (s.on p) sc = lft p (procEmitCommand h id now env m s sc) := by
  simp [procEmitCommand, lft, Sys.on, Sys.notify, Sys.emit]

theorem procEmitTimeout_on (h : HConfig) (id : String) (now : Time) (env : Env) (m : Message)
    (t : Time) (s : Sys W R) (sc : ProcScope R) :
    procEmitTimeout h id now env m t (s.on p) sc = lft p (procEmitTimeout h id now env m t s sc) := by
  simp [procEmitTimeout, lft, Sys.on, Sys.notify, Sys.emit]

theorem procOp_on (h : HConfig) (id : String) (now : Time) (env : Env) (o : ProcOp R)
    (s : Sys W R) (sc : ProcScope R) :
    procOp h id now env o (s.on p) sc = lft p (procOp h id now env o s sc) := by
  cases o with
  | execute m =>
    simp only [procOp]
    split
    · rfl
    split
    · rfl
    rw [procRevive_on]
    rcases procRevive h id env s sc with ⟨s1, sc1⟩
    simp only [lft]; rw [procEmitCommand_on]; rfl
  | schedule m t =>
    simp only [procOp]
    split
    · rfl
    split
    · rfl
    rw [procRevive_on]
    rcases procRevive h id env s sc with ⟨s1, sc1⟩
    simp only [lft]; rw [procEmitTimeout_on]; rfl
  | end_ =>
    simp only [procOp]
    split
    · rfl
    · simp only [lft, on_notify]
  | setRoot r => rfl
  | log t => simp only [procOp, lft, on_notify]

theorem procRun_on (h : HConfig) (id : String) (now : Time) (env : Env)
    (g : Prog W (ProcOp R) (Option Err)) : ∀ (s : Sys W R) (sc : ProcScope R),
    procRun h id now env g (s.on p) sc = lft p (procRun h id now env g s sc) := by
  induction g with
  | ret a => intro s sc; rfl
  | panic v => intro s sc; rfl
  | get k ih => intro s sc; exact ih s.w s sc
  | set w k ih => intro s sc; exact ih { s with w := w } sc
  | op o k ih =>
    intro s sc
    unfold procRun
    rw [procOp_on]
    rcases procOp h id now env o s sc with ⟨s1, sc1, v⟩
    exact ih v s1 sc1

theorem procUpdate_on (A : App W R) (h : HConfig) (id : String) (s : Sys W R) (sc : ProcScope R) :
    procUpdate A h id (s.on p) sc = (procUpdate A h id s sc).on p := rfl

theorem procDelete_on (h : HConfig) (id : String) (s : Sys W R) :
    procDelete h id (s.on p) = (procDelete h id s).on p := rfl

theorem procAlias_on (h : HConfig) (id : String) (ex : Bool) (s : Sys W R) (r : R) :
    procAlias h id ex (s.on p) r = (procAlias h id ex s r).on p := by
  unfold procAlias; split <;> rfl

theorem procInvoke_on (A : App W R) (h : HConfig) (id : String) (now : Time) (env : Env) (r : R)
    (ex : Bool) (s : Sys W R) :
    procInvoke A h id now env r ex (s.on p) = lft p (procInvoke A h id now env r ex s) := by
  unfold procInvoke
  rw [on_emit, procRun_on]
  rcases procRun h id now env (A.uc.procHandle h id r env.msg (procSeenTime env))
    (s.emit (.call (.procHandle h id r env.msg (procSeenTime env)))) ⟨r, false, [], [], []⟩ with
    ⟨s1, sc, v | _ | e⟩
  · simp only [lft, procAlias_on]
  · simp only [lft]
    split
    · simp only [procDelete_on]
      split <;> rfl
    · rfl
  · simp only [lft, procAlias_on]

theorem procWithID_on (A : App W R) (h : HConfig) (id : String) (now : Time) (env : Env)
    (s : Sys W R) : procWithID A h id now env (s.on p) = lft p (procWithID A h id now env s) := by
  unfold procWithID
  change (match (s.proc h.name).inst id with | some r => _ | none => _) = _
  cases (s.proc h.name).inst id with
  | some r => simp only [on_notify, procInvoke_on]
  | none =>
    simp only [on_notify, on_user]
    rcases (s.notify (.procNotFound h id env)).user (.procNew h) (A.uc.procNew h) with
      ⟨s1, v | _ | r⟩
    · rfl
    · simp only [lft, on_notify]
    · simp only [lft, on_notify, procInvoke_on]

theorem procHandle_on (A : App W R) (h : HConfig) (now : Time) (env : Env) (s : Sys W R) :
    procHandle A h now env (s.on p) = lft p (procHandle A h now env s) := by
  unfold procHandle
  split
  · rfl
  cases env.msg.type.kind with
  | command => rfl
  | event =>
    simp only [on_user]
    rcases s.user (.procRoute h env.msg) (A.uc.procRoute h env.msg) with ⟨s1, v | e | _ | id⟩
    · rfl
    · rfl
    · simp only [lft, on_notify]
    · simp only [lft]
      split
      · rfl
      · exact procWithID_on p A h id now env s1
  | timeout =>
    cases env.origin with
    | none => rfl
    | some o =>
      simp only
      change (match (s.proc h.name).inst o.instanceID with | some r => _ | none => _) = _
      cases (s.proc h.name).inst o.instanceID with
      | some r => exact procWithID_on p A h o.instanceID now env s
      | none => simp only [lft, on_notify]

/-! ## Integrations -/

theorem intOp_on (h : HConfig) (now : Time) (env : Env) (o : IntOp) (s : Sys W R)
    (evs : List Env) : intOp h now env o (s.on p) evs = lft p (intOp h now env o s evs) := by
  cases o with
  | record m =>
    simp only [intOp]
    split
    · rfl
    split
    · rfl
    simp [intEmit, lft, Sys.on, Sys.notify, Sys.emit]
  | log t => simp only [intOp, lft, on_notify]

theorem intRun_on (h : HConfig) (now : Time) (env : Env) (g : Prog W IntOp (Option Err)) :
    ∀ (s : Sys W R) (evs : List Env),
    intRun h now env g (s.on p) evs = lft p (intRun h now env g s evs) := by
  induction g with
  | ret a => intro s sc; rfl
  | panic v => intro s sc; rfl
  | get k ih => intro s sc; exact ih s.w s sc
  | set w k ih => intro s sc; exact ih { s with w := w } sc
  | op o k ih =>
    intro s sc
    unfold intRun
    rw [intOp_on]
    rcases intOp h now env o s sc with ⟨s1, sc1, v⟩
    exact ih v s1 sc1

theorem intHandle_on (A : App W R) (h : HConfig) (now : Time) (env : Env) (s : Sys W R) :
    intHandle A h now env (s.on p) = lft p (intHandle A h now env s) := by
  unfold intHandle
  split
  · rfl
  split
  · rfl
  rw [on_emit, intRun_on]
  rcases intRun h now env (A.uc.intHandle h env.msg) (s.emit (.call (.intHandle h env.msg))) [] with
    ⟨s1, evs, v | e⟩ <;> rfl

/-! ## Projections -/

theorem prjStep_on {α : Type} (h : HConfig) (env : Option Env) (g : Prog W PrjOp α) (s : Sys W R) :
    prjStep h env g (s.on p) = ((prjStep h env g s).1, (prjStep h env g s).2.on p) := by
  cases g with
  | op o k => cases o; simp only [prjStep, on_notify]
  | _ => rfl

theorem prjRun_on {α : Type} (h : HConfig) (env : Option Env) (g : Prog W PrjOp α) :
    ∀ (s : Sys W R), prjRun h env g (s.on p) = lft p (prjRun h env g s) := by
  induction g with
  | ret a => intro s; rfl
  | panic v => intro s; rfl
  | get k ih => intro s; exact ih s.w s
  | set w k ih => intro s; exact ih { s with w := w }
  | op o k ih =>
    intro s
    cases o with
    | log t => simp only [prjRun, on_notify]; exact ih none _

theorem prjPar_on (h : HConfig) (env : Env) (bs : List Bool) :
    ∀ (hp : Prog W PrjOp (Except Err Bool)) (cp : Prog W PrjOp (Option Err)) (s : Sys W R),
    prjPar h env bs hp cp (s.on p) = lft p (prjPar h env bs hp cp s) := by
  induction bs with
  | nil =>
    intro hp cp s
    unfold prjPar
    rw [prjRun_on]
    rcases prjRun h (some env) hp s with ⟨s1, v | r⟩
    · rfl
    · simp only [lft]
      rw [prjRun_on]
      rcases prjRun h none cp s1 with ⟨s2, v | r⟩ <;> rfl
  | cons b bs ih =>
    intro hp cp s
    unfold prjPar
    split
    · rfl
    · rfl
    · split
      · rw [prjStep_on]
        rcases prjStep h none cp s with ⟨cp', s1⟩
        exact ih hp cp' s1
      · rw [prjStep_on]
        rcases prjStep h (some env) hp s with ⟨hp', s1⟩
        exact ih hp' cp s1

theorem prjApply_on (A : App W R) (h : HConfig) (now : Time) (env : Env) (s : Sys W R) :
    prjApply A h now env (s.on p) = lft p (prjApply A h now env s) := by
  unfold prjApply
  split
  · simp only [on_notify, on_emit, prjPar_on]
    rw [show (s.on p).w = s.w from rfl]
    rcases prjPar h env (A.uc.schedule s.w)
        (A.uc.prjHandle h env.id [] [1] env.msg env.createdAt) (A.uc.prjCompact h now)
        (((s.notify (.prjCompactBegun h)).emit (.call (.prjCompact h now))).emit
          (.call (.prjHandle h env.id [] [1] env.msg))) with ⟨s1, v | ⟨r, ce⟩⟩
    · rfl
    · simp only [lft, on_notify]
  · rw [on_emit, prjRun_on]
    rcases prjRun h (some env) (A.uc.prjHandle h env.id [] [1] env.msg env.createdAt)
        (s.emit (.call (.prjHandle h env.id [] [1] env.msg))) with ⟨s1, v | r⟩ <;> rfl

theorem prjFinish_on (A : App W R) (h : HConfig) (env : Env) (r : Except Err Bool) (ce : Option Err)
    (s : Sys W R) : prjFinish A h env r ce (s.on p) = lft p (prjFinish A h env r ce s) := by
  unfold prjFinish
  rcases r with e | _ | _
  · rfl
  · rfl
  · simp only [on_user]
    rcases s.user (.prjClose h env.id) (A.uc.prjClose h env.id) with ⟨s1, v | _ | e⟩ <;> rfl

theorem prjHandle_on (A : App W R) (h : HConfig) (now : Time) (env : Env) (s : Sys W R) :
    prjHandle A h now env (s.on p) = lft p (prjHandle A h now env s) := by
  unfold prjHandle
  split
  · rfl
  split
  · rfl
  rw [on_user]
  rcases s.user (.prjVersion h env.id) (A.uc.prjVersion h env.id) with ⟨s1, v | e | _ | _⟩
  · rfl
  · rfl
  · simp only [lft]
    rw [prjApply_on]
    rcases prjApply A h now env s1 with ⟨s2, v | ⟨r, ce⟩⟩
    · rfl
    · exact prjFinish_on p A h env r ce s2
  · rfl

theorem prjTick_on (A : App W R) (h : HConfig) (now : Time) (s : Sys W R) :
    prjTick A h now (s.on p) = lft p (prjTick A h now s) := by
  unfold prjTick
  change (if timeSub now (s.lastCompact h.name) ≥ compactInterval then _ else _) = _
  split
  · simp only
    rw [show ({ s.on p with lastCompact := upd (s.on p).lastCompact h.name now } : Sys W R) =
      ({ s with lastCompact := upd s.lastCompact h.name now } : Sys W R).on p from rfl]
    rw [on_notify, on_emit, prjRun_on]
    rcases prjRun h none (A.uc.prjCompact h now)
      ((({ s with lastCompact := upd s.lastCompact h.name now } : Sys W R).notify
        (.prjCompactBegun h)).emit (.call (.prjCompact h now))) with ⟨s1, v | e⟩
    · rfl
    · simp only [lft, on_notify]
  · rfl

/-! ## Engine -/

theorem ctlHandle_on (A : App W R) (h : HConfig) (now : Time) (env : Env) (s : Sys W R) :
    ctlHandle A h now env (s.on p) = lft p (ctlHandle A h now env s) := by
  unfold ctlHandle
  cases h.htype with
  | aggregate => exact aggHandle_on p A h now env s
  | process => exact procHandle_on p A h now env s
  | integration => exact intHandle_on p A h now env s
  | projection => exact prjHandle_on p A h now env s

theorem handleOne_on (A : App W R) (oo : OpOpts) (env : Env) (h : HConfig) (s : Sys W R) :
    handleOne A oo env h (s.on p) = lft p (handleOne A oo env h s) := by
  unfold handleOne
  split
  · simp only [lft, on_notify]
  · rw [on_notify, ctlHandle_on]
    rcases ctlHandle A h oo.now env (s.notify (.handlingBegun h env)) with ⟨s1, v | ⟨envs, e⟩⟩
    · rfl
    · simp only [lft, on_notify]

theorem handleAll_on (A : App W R) (oo : OpOpts) (env : Env) (hs : List HConfig) :
    ∀ (q : List Env) (de : List EngErr) (s : Sys W R),
    handleAll A oo env hs q de (s.on p) = lft p (handleAll A oo env hs q de s) := by
  induction hs with
  | nil => intro q de s; rfl
  | cons h hs ih =>
    intro q de s
    unfold handleAll
    rw [handleOne_on]
    rcases handleOne A oo env h s with ⟨s1, v | ⟨envs, e⟩⟩
    · rfl
    · exact ih _ _ s1

theorem dispatchLoop_on (A : App W R) (oo : OpOpts) (n : Nat) :
    ∀ (q : List Env) (errs : List EngErr) (s : Sys W R),
    dispatchLoop A oo n q errs (s.on p) = lft p (dispatchLoop A oo n q errs s) := by
  induction n with
  | zero => intro q errs s; cases q <;> rfl
  | succ n ih =>
    intro q errs s
    cases q with
    | nil => rfl
    | cons env q =>
      unfold dispatchLoop
      split
      · rfl
      · rename_i hs _
        rw [on_notify, handleAll_on]
        rcases handleAll A oo env hs q [] (s.notify (.dispatchBegun env)) with ⟨s1, v | ⟨q', de⟩⟩
        · rfl
        · simp only [lft, on_notify]
          change (match A.uc.ctxErr (s1.notify (.dispatchCompleted env de)).w with
            | some e => _ | none => _) = _
          cases A.uc.ctxErr (s1.notify (.dispatchCompleted env de)).w with
          | some e => rfl
          | none => exact ih _ _ _

theorem procTick_on (h : HConfig) (now : Time) (s : Sys W R) :
    procTick h now (s.on p) = lft p (procTick h now s) := rfl

theorem ctlTick_on (A : App W R) (h : HConfig) (now : Time) (s : Sys W R) :
    ctlTick A h now (s.on p) = lft p (ctlTick A h now s) := by
  unfold ctlTick
  cases h.htype with
  | aggregate => rfl
  | process => rfl
  | integration => rfl
  | projection =>
    simp only
    rw [prjTick_on]
    rcases prjTick A h now s with ⟨s1, v | e⟩ <;> rfl

theorem tickAll_on (A : App W R) (oo : OpOpts) (hs : List HConfig) :
    ∀ (q : List Env) (errs : List EngErr) (s : Sys W R),
    tickAll A oo hs q errs (s.on p) = lft p (tickAll A oo hs q errs s) := by
  induction hs with
  | nil => intro q errs s; rfl
  | cons h hs ih =>
    intro q errs s
    unfold tickAll
    split
    · rw [on_notify]; exact ih _ _ _
    · rw [on_notify, ctlTick_on]
      rcases ctlTick A h oo.now (s.notify (.tickBegun h)) with ⟨s1, v | ⟨envs, e⟩⟩
      · rfl
      · simp only [lft, on_notify]
        change (match A.uc.ctxErr (s1.notify (.tickCompleted h e)).w with
            | some e => _ | none => _) = _
        cases A.uc.ctxErr (s1.notify (.tickCompleted h e)).w with
        | some e => rfl
        | none => exact ih _ _ _

theorem engTickLocked_on (A : App W R) (oo : OpOpts) (fuel : Nat) (order : List HConfig)
    (s : Sys W R) : engTickLocked A oo fuel order (s.on p) = lft p (engTickLocked A oo fuel order s) := by
  unfold engTickLocked
  rw [tickAll_on]
  rcases tickAll A oo order [] [] s with ⟨s1, v | ⟨q, errs, _ | c⟩⟩
  · rfl
  · simp only [lft]
    rw [dispatchLoop_on]
    rcases dispatchLoop A oo fuel q [] s1 with ⟨s2, o⟩
    cases o <;> rfl
  · rfl

theorem engTick_on (A : App W R) (fuel : Nat) (order : List HConfig) (os : List OpOption)
    (s : Sys W R) : engTick A fuel order os (s.on p) = lft p (engTick A fuel order os s) := by
  unfold engTick
  change (match newOpOpts A s os with | .error v => _ | .ok oo => _) = _
  cases newOpOpts A s os with
  | error v => rfl
  | ok oo =>
    simp only [on_notify]
    change (match A.uc.lockErr (s.notify (.tickCycleBegun (oo.cycle A))).w with
      | some e => _ | none => _) = _
    cases A.uc.lockErr (s.notify (.tickCycleBegun (oo.cycle A))).w with
    | some e => simp only [lft]
    | none =>
      simp only
      rw [engTickLocked_on]
      rcases engTickLocked A oo fuel order (s.notify (.tickCycleBegun (oo.cycle A))) with ⟨s2, o⟩
      cases o with
      | done e => simp only [lft, on_notify]
      | _ => rfl

theorem engDispatch_on (A : App W R) (fuel : Nat) (m : Message) (os : List OpOption)
    (s : Sys W R) : engDispatch A fuel m os (s.on p) = lft p (engDispatch A fuel m os s) := by
  unfold engDispatch
  simp only
  change (match newOpOpts A { s with nextID := s.nextID + 1 } os with
    | .error v => _ | .ok oo => _) = _
  cases newOpOpts A { s with nextID := s.nextID + 1 } os with
  | error v => rfl
  | ok oo =>
    simp only
    split
    · rfl
    split
    · rfl
    split
    · rfl
    change (match A.uc.lockErr s.w with | some e => _ | none => _) =
      lft p (match A.uc.lockErr s.w with | some e => _ | none => _)
    have hn : ({ s.on p with nextID := (s.on p).nextID + 1 } : Sys W R) =
      ({ s with nextID := s.nextID + 1 } : Sys W R).on p := rfl
    cases A.uc.lockErr s.w with
    | some e => simp only [hn, on_notify, lft]; rfl
    | none =>
      simp only [hn, on_notify]
      change (match dispatchLoop A oo fuel [Env.root (s.nextID + 1) m oo.now] []
        ((({ s with nextID := s.nextID + 1 } : Sys W R).notify (.dispatchCycleBegun
          (Env.root (s.nextID + 1) m oo.now) (oo.cycle A))).on p) with
        | (s, .done errs) => _ | (s, o) => _) = _
      rw [dispatchLoop_on]
      rcases dispatchLoop A oo fuel [Env.root (s.nextID + 1) m oo.now] []
        (({ s with nextID := s.nextID + 1 } : Sys W R).notify (.dispatchCycleBegun
          (Env.root (s.nextID + 1) m oo.now) (oo.cycle A))) with ⟨s2, o⟩
      cases o with
      | done e => simp only [lft]; rw [← on_notify]; rfl
      | _ => rfl

theorem runResetters_on (fs : List (W → W × Option PanicVal)) : ∀ (i : Nat) (s : Sys W R),
    runResetters i fs (s.on p) = lft p (runResetters i fs s) := by
  induction fs with
  | nil => intro i s; rfl
  | cons f fs ih =>
    intro i s
    unfold runResetters
    rw [on_user]
    rcases s.user (.resetter i) f with ⟨s1, _ | v⟩
    · exact ih _ s1
    · rfl

theorem engReset_on (A : App W R) (s : Sys W R) : engReset A (s.on p) = lft p (engReset A s) := by
  unfold engReset
  have : ({ (s.on p).emit .reset with
      nextID := 0, agg := fun _ _ => none, proc := fun _ => ⟨fun _ => none, []⟩ } : Sys W R) =
    ({ s.emit .reset with
      nextID := 0, agg := fun _ _ => none, proc := fun _ => ⟨fun _ => none, []⟩ } : Sys W R).on p := by
    simp [Sys.on, Sys.emit]
  rw [this, runResetters_on]

/-- No operation depends on the past. -/
theorem exec_on (A : App W R) (op : Op) (s : Sys W R) :
    op.exec A (s.on p) = lft p (op.exec A s) := by
  cases op with
  | dispatch n m os => exact engDispatch_on p A n m os s
  | tick n order os => exact engTick_on p A n order os s
  | reset => exact engReset_on p A s

end

end Verif
