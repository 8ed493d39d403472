import Verif.EngineConc

/-!
# Renaming message IDs

What the engine does when every message ID is replaced by another one.  Specification of the
renaming, and proof machinery: nothing the engine does between two message IDs depends on
them.
-/

namespace Verif

variable {W R : Type}

/-! ## Specification -/

/-- Rename the message IDs of an envelope. -/
def Env.ren (σ : Nat → Nat) (e : Env) : Env :=
  { e with id := σ e.id, causation := σ e.causation, correlation := σ e.correlation }

/-- Rename the message IDs in a fact. -/
def Fact.ren (σ : Nat → Nat) : Fact → Fact
  | .dispatchCycleBegun env c => .dispatchCycleBegun (env.ren σ) c
  | .dispatchCycleCompleted env m err => .dispatchCycleCompleted (env.ren σ) m err
  | .dispatchBegun env => .dispatchBegun (env.ren σ)
  | .dispatchCompleted env err => .dispatchCompleted (env.ren σ) err
  | .handlingBegun h env => .handlingBegun h (env.ren σ)
  | .handlingCompleted h env err => .handlingCompleted h (env.ren σ) err
  | .handlingSkipped h env r => .handlingSkipped h (env.ren σ) r
  | .tickCycleBegun c => .tickCycleBegun c
  | .tickCycleCompleted m err => .tickCycleCompleted m err
  | .tickBegun h => .tickBegun h
  | .tickCompleted h err => .tickCompleted h err
  | .tickSkipped h r => .tickSkipped h r
  | .aggLoaded h id env => .aggLoaded h id (env.ren σ)
  | .aggNotFound h id env => .aggNotFound h id (env.ren σ)
  | .aggCreated h id env => .aggCreated h id (env.ren σ)
  | .aggDestroyed h id env => .aggDestroyed h id (env.ren σ)
  | .aggReverted h id env => .aggReverted h id (env.ren σ)
  | .aggEvent h id env ev => .aggEvent h id (env.ren σ) (ev.ren σ)
  | .aggLog h id env s => .aggLog h id (env.ren σ) s
  | .procLoaded h id env => .procLoaded h id (env.ren σ)
  | .procEventIgnored h env => .procEventIgnored h (env.ren σ)
  | .procTimeoutIgnored h id env => .procTimeoutIgnored h id (env.ren σ)
  | .procNotFound h id env => .procNotFound h id (env.ren σ)
  | .procBegun h id env => .procBegun h id (env.ren σ)
  | .procEnded h id env => .procEnded h id (env.ren σ)
  | .procReverted h id env => .procReverted h id (env.ren σ)
  | .procCommand h id env cmd => .procCommand h id (env.ren σ) (cmd.ren σ)
  | .procTimeout h id env tmo => .procTimeout h id (env.ren σ) (tmo.ren σ)
  | .procLog h id env s => .procLog h id (env.ren σ) s
  | .intEvent h env ev => .intEvent h (env.ren σ) (ev.ren σ)
  | .intLog h env s => .intLog h (env.ren σ) s
  | .prjCompactBegun h => .prjCompactBegun h
  | .prjCompactCompleted h err => .prjCompactCompleted h err
  | .prjLog h env s => .prjLog h (env.map (Env.ren σ)) s

/-- Rename the message IDs in a call of user code: projections are given them as resources. -/
def Call.ren (σ : Nat → Nat) : Call R → Call R
  | .prjVersion h res => .prjVersion h (σ res)
  | .prjHandle h res cur next m => .prjHandle h (σ res) cur next m
  | .prjClose h res => .prjClose h (σ res)
  | c => c

/-- Rename the message IDs in an observation. -/
def Obs.ren (σ : Nat → Nat) : Obs R → Obs R
  | .fact f => .fact (f.ren σ)
  | .call c => .call (c.ren σ)
  | .reset => .reset

/-- Rename the message IDs in the state of the engine.  `ρ` renames those that projections have
stored in the world; `n` is put in the place of the last ID handed out. -/
def Sys.ren (σ : Nat → Nat) (ρ : W → W) (n : Nat) (s : Sys W R) : Sys W R where
  w := ρ s.w
  nextID := n
  agg := fun h id => (s.agg h id).map (List.map (Env.ren σ))
  proc := fun h => ⟨(s.proc h).inst, (s.proc h).timeouts.map (Env.ren σ)⟩
  lastCompact := s.lastCompact
  trace := s.trace.map (Obs.ren σ)

/-- `p'` does in the renamed world what `p` does. -/
inductive Prog.Sim {O α : Type} (ρ : W → W) : Prog W O α → Prog W O α → Prop where
  | ret (a : α) : Prog.Sim ρ (.ret a) (.ret a)
  | panic (v : PanicVal) : Prog.Sim ρ (.panic v) (.panic v)
  | op (o : O) {k k'} (h : ∀ p, Prog.Sim ρ (k p) (k' p)) : Prog.Sim ρ (.op o k) (.op o k')
  | get {k k'} (h : ∀ w, Prog.Sim ρ (k w) (k' (ρ w))) : Prog.Sim ρ (.get k) (.get k')
  | set (w : W) {k k'} (h : Prog.Sim ρ k k') : Prog.Sim ρ (.set w k) (.set (ρ w) k')

/-- A function of the user does in the renamed world what it does in the world. -/
def SimFn {α : Type} (ρ : W → W) (f f' : W → W × α) : Prop :=
  ∀ w, f' (ρ w) = (ρ (f w).1, (f w).2)

/-- The user's code does not look into message IDs.  Only projections get to know them, as
resources; they may store them in the world, where `ρ` renames them, and compare them.  Sorting
timeouts by time does not look into them either. -/
structure App.Anon (A : App W R) (σ : Nat → Nat) (ρ : W → W) : Prop where
  aggRoute : ∀ h m, SimFn ρ (A.uc.aggRoute h m) (A.uc.aggRoute h m)
  aggNew : ∀ h, SimFn ρ (A.uc.aggNew h) (A.uc.aggNew h)
  aggApply : ∀ h r m, SimFn ρ (A.uc.aggApply h r m) (A.uc.aggApply h r m)
  aggHandle : ∀ h id r m, Prog.Sim ρ (A.uc.aggHandle h id r m) (A.uc.aggHandle h id r m)
  procRoute : ∀ h m, SimFn ρ (A.uc.procRoute h m) (A.uc.procRoute h m)
  procNew : ∀ h, SimFn ρ (A.uc.procNew h) (A.uc.procNew h)
  procHandle : ∀ h id r m t, Prog.Sim ρ (A.uc.procHandle h id r m t) (A.uc.procHandle h id r m t)
  intHandle : ∀ h m, Prog.Sim ρ (A.uc.intHandle h m) (A.uc.intHandle h m)
  prjVersion : ∀ h res, SimFn ρ (A.uc.prjVersion h res) (A.uc.prjVersion h (σ res))
  prjHandle : ∀ h res cur next m t,
    Prog.Sim ρ (A.uc.prjHandle h res cur next m t) (A.uc.prjHandle h (σ res) cur next m t)
  prjClose : ∀ h res, SimFn ρ (A.uc.prjClose h res) (A.uc.prjClose h (σ res))
  prjCompact : ∀ h now, Prog.Sim ρ (A.uc.prjCompact h now) (A.uc.prjCompact h now)
  schedule : ∀ w, A.uc.schedule (ρ w) = A.uc.schedule w
  resetters : ∀ f ∈ A.uc.resetters, SimFn ρ f f
  ctxErr : ∀ w, A.uc.ctxErr (ρ w) = A.uc.ctxErr w
  sort : ∀ l, A.sort.sort (l.map (Env.ren σ)) = (A.sort.sort l).map (Env.ren σ)

/-- Rename the message IDs in the scope of an aggregate. -/
def AggScope.ren (σ : Nat → Nat) (sc : AggScope R) : AggScope R :=
  { sc with events := sc.events.map (Env.ren σ) }

/-- Rename the message IDs in the scope of a process. -/
def ProcScope.ren (σ : Nat → Nat) (sc : ProcScope R) : ProcScope R :=
  { sc with
    commands := sc.commands.map (Env.ren σ)
    ready := sc.ready.map (Env.ren σ)
    pending := sc.pending.map (Env.ren σ) }

/-- Rename the message IDs in the result of `Handle`. -/
def HRes.ren (σ : Nat → Nat) : HRes → HRes
  | .error v => .error v
  | .ok (envs, e) => .ok (envs.map (Env.ren σ), e)

/-! ## The parts of the engine that take no message IDs -/

section
variable {σ : Nat → Nat} {ρ : W → W} (n : Nat)

theorem ren_emit (s : Sys W R) (o : Obs R) :
    (s.ren σ ρ n).emit (o.ren σ) = (s.emit o).ren σ ρ n := by
  simp [Sys.ren, Sys.emit]

theorem ren_notify (s : Sys W R) (f : Fact) :
    (s.ren σ ρ n).notify (f.ren σ) = (s.notify f).ren σ ρ n := ren_emit n s (.fact f)

theorem ren_user {α : Type} (s : Sys W R) {c : Call R} {f f' : W → W × α} (h : SimFn ρ f f') :
    (s.ren σ ρ n).user (c.ren σ) f' = ((s.user c f).1.ren σ ρ n, (s.user c f).2) := by
  have := h s.w
  simp [Sys.user, Sys.ren, Sys.emit, Obs.ren, this]

theorem ren_world (s : Sys W R) (w : W) :
    { s.ren σ ρ n with w := ρ w } = ({ s with w := w } : Sys W R).ren σ ρ n := rfl

theorem ren_agg (s : Sys W R) (h id : String) :
    (s.ren σ ρ n).agg h id = (s.agg h id).map (List.map (Env.ren σ)) := rfl

theorem ren_inst (s : Sys W R) (h : String) : ((s.ren σ ρ n).proc h).inst = (s.proc h).inst := rfl

theorem aggDestroy_ren {A : App W R} (an : A.Anon σ ρ) (h : HConfig) (id : String) (env : Env)
    (s : Sys W R) (sc : AggScope R) :
    aggDestroy A h id (env.ren σ) (s.ren σ ρ n) (sc.ren σ) =
      let r := aggDestroy A h id env s sc
      (r.1.ren σ ρ n, r.2.1.ren σ, r.2.2) := by
  unfold aggDestroy
  have hx : (sc.ren σ).exists_ = sc.exists_ := rfl
  rw [hx]
  split
  · rfl
  · have := ren_user (σ := σ) n s (c := .aggNew h) (an.aggNew h)
    simp only [Call.ren] at this
    rw [this]
    rcases s.user (.aggNew h) (A.uc.aggNew h) with ⟨s1, v | r⟩
    · rfl
    · simp only
      rw [show Fact.aggDestroyed h id (env.ren σ) = (Fact.aggDestroyed h id env).ren σ from rfl,
        ren_notify]
      rfl

theorem aggApplyScope_ren {A : App W R} (an : A.Anon σ ρ) (h : HConfig) (m : Message)
    (s : Sys W R) (sc : AggScope R) :
    aggApplyScope A h m (s.ren σ ρ n) (sc.ren σ) =
      let r := aggApplyScope A h m s sc
      (r.1.ren σ ρ n, r.2.1.ren σ, r.2.2) := by
  unfold aggApplyScope
  have hx : (sc.ren σ).root = sc.root := rfl
  rw [hx]
  rcases sc.root with _ | r
  · rfl
  · have := ren_user (σ := σ) n s (c := .aggApply h r m) (an.aggApply h r m)
    simp only [Call.ren] at this
    simp only
    rw [this]
    rcases s.user (.aggApply h r m) (A.uc.aggApply h r m) with ⟨s1, r', _ | v⟩ <;> rfl

theorem aggRevive_ren (h : HConfig) (id : String) (env : Env) (s : Sys W R) (sc : AggScope R) :
    aggRevive h id (env.ren σ) (s.ren σ ρ n) (sc.ren σ) =
      let r := aggRevive h id env s sc
      (r.1.ren σ ρ n, r.2.ren σ) := by
  unfold aggRevive
  have hx : (sc.ren σ).exists_ = sc.exists_ := rfl
  have hy : (sc.ren σ).destroyed = sc.destroyed := rfl
  rw [hx, hy]
  split
  · rfl
  · split
    · rw [show Fact.aggReverted h id (env.ren σ) = (Fact.aggReverted h id env).ren σ from rfl,
        ren_notify]; rfl
    · rw [show Fact.aggCreated h id (env.ren σ) = (Fact.aggCreated h id env).ren σ from rfl,
        ren_notify]; rfl

theorem child_ren (env : Env) (k : Nat) (m : Message) (t : Time) (o : Origin) :
    (env.ren σ).child (σ k) m t o = (env.child k m t o).ren σ := rfl

theorem childTimeout_ren (env : Env) (k : Nat) (m : Message) (t t' : Time) (o : Origin) :
    (env.ren σ).childTimeout (σ k) m t t' o = (env.childTimeout k m t t' o).ren σ := rfl

theorem aggReplay_ren {A : App W R} (an : A.Anon σ ρ) (h : HConfig) (es : List Env) :
    ∀ (r : R) (s : Sys W R), aggReplay A h (es.map (Env.ren σ)) r (s.ren σ ρ n) =
      let x := aggReplay A h es r s
      (x.1.ren σ ρ n, x.2) := by
  induction es with
  | nil => intro r s; rfl
  | cons e es ih =>
    intro r s
    unfold aggReplay
    simp only [List.map_cons]
    have := ren_user (σ := σ) n s (c := .aggApply h r e.msg) (an.aggApply h r e.msg)
    simp only [Call.ren] at this
    rw [show (e.ren σ).msg = e.msg from rfl, this]
    rcases s.user (.aggApply h r e.msg) (A.uc.aggApply h r e.msg) with ⟨s1, r', _ | v⟩
    · exact ih r' s1
    · rfl

theorem aggCommit_ren (h : HConfig) (id : String) (s : Sys W R) (sc : AggScope R) :
    aggCommit h id (s.ren σ ρ n) (sc.ren σ) = (aggCommit h id s sc).ren σ ρ n := by
  unfold aggCommit
  have hx : (sc.ren σ).exists_ = sc.exists_ := rfl
  rw [hx]
  split
  · simp only [Sys.ren, Sys.mk.injEq, true_and, and_true]
    funext x y
    simp only [upd]
    split
    · simp only [upd]
      split
      · cases s.agg h.name id <;> simp [AggScope.ren]
      · rfl
    · rfl
  · simp only [Sys.ren, Sys.mk.injEq, true_and, and_true]
    funext x y
    simp only [upd]
    split
    · simp only [upd]
      split <;> rfl
    · rfl

/-! ## Processes -/

theorem setProc_ren (s : Sys W R) (h : HConfig) (i : String → Option R) (l : List Env) :
    (s.ren σ ρ n).setProc h ⟨i, l.map (Env.ren σ)⟩ = (s.setProc h ⟨i, l⟩).ren σ ρ n := by
  simp only [Sys.setProc, Sys.ren, Sys.mk.injEq, true_and, and_true]
  funext x
  simp only [upd]
  split <;> rfl

theorem procRevive_ren (h : HConfig) (id : String) (env : Env) (s : Sys W R) (sc : ProcScope R) :
    procRevive h id (env.ren σ) (s.ren σ ρ n) (sc.ren σ) =
      let r := procRevive h id env s sc
      (r.1.ren σ ρ n, r.2.ren σ) := by
  unfold procRevive
  have hx : (sc.ren σ).ended = sc.ended := rfl
  rw [hx]
  split
  · rw [show Fact.procReverted h id (env.ren σ) = (Fact.procReverted h id env).ren σ from rfl,
      ren_notify]; rfl
  · rfl

theorem procUpdate_ren {A : App W R} (an : A.Anon σ ρ) (h : HConfig) (id : String) (s : Sys W R)
    (sc : ProcScope R) :
    procUpdate A h id (s.ren σ ρ n) (sc.ren σ) = (procUpdate A h id s sc).ren σ ρ n := by
  unfold procUpdate
  rw [← setProc_ren, ← an.sort, List.map_append]
  rfl

theorem ofInstance_ren (e : Env) (id : String) : (e.ren σ).ofInstance id = e.ofInstance id := rfl

theorem procDelete_ren (h : HConfig) (id : String) (s : Sys W R) :
    procDelete h id (s.ren σ ρ n) = (procDelete h id s).ren σ ρ n := by
  unfold procDelete
  rw [← setProc_ren]
  simp only [Sys.ren, List.filter_map]
  rfl

theorem procAlias_ren (h : HConfig) (id : String) (ex : Bool) (s : Sys W R) (r : R) :
    procAlias h id ex (s.ren σ ρ n) r = (procAlias h id ex s r).ren σ ρ n := by
  unfold procAlias
  split
  · rw [← setProc_ren]; rfl
  · rfl

theorem procTick_ren (h : HConfig) (now : Time) (s : Sys W R) :
    procTick h now (s.ren σ ρ n) =
      let r := procTick h now s
      (r.1.ren σ ρ n, r.2.map (Env.ren σ)) := by
  have h1 : ∀ l : List Env, (l.map (Env.ren σ)).dropWhile (fun e => decide (e.scheduledFor ≤ now)) =
      (l.dropWhile (fun e => decide (e.scheduledFor ≤ now))).map (Env.ren σ) := by
    intro l; rw [List.dropWhile_map]; rfl
  have h2 : ∀ l : List Env, (l.map (Env.ren σ)).takeWhile (fun e => decide (e.scheduledFor ≤ now)) =
      (l.takeWhile (fun e => decide (e.scheduledFor ≤ now))).map (Env.ren σ) := by
    intro l; rw [List.takeWhile_map]; rfl
  unfold procTick
  simp only
  rw [← setProc_ren, ← h1, ← h2]
  rfl

/-! ## Projections -/

theorem prjRun_ren {α : Type} (h : HConfig) (env : Option Env) {p p' : Prog W PrjOp α}
    (sim : Prog.Sim ρ p p') : ∀ (s : Sys W R),
    prjRun h (env.map (Env.ren σ)) p' (s.ren σ ρ n) =
      let r := prjRun h env p s
      (r.1.ren σ ρ n, r.2) := by
  induction sim with
  | ret a => intro s; rfl
  | panic v => intro s; rfl
  | get h ih => intro s; exact ih s.w s
  | set w h ih => intro s; exact ih { s with w := w }
  | op o h ih =>
    intro s
    cases o with
    | log t =>
      unfold prjRun
      rw [show Fact.prjLog _ (env.map (Env.ren σ)) t = (Fact.prjLog _ env t).ren σ from rfl,
        ren_notify]
      exact ih none _

theorem prjStep_ren {α : Type} (h : HConfig) (env : Option Env) {p p' : Prog W PrjOp α}
    (sim : Prog.Sim ρ p p') (s : Sys W R) :
    Prog.Sim ρ (prjStep h env p s).1 (prjStep h (env.map (Env.ren σ)) p' (s.ren σ ρ n)).1 ∧
    (prjStep h (env.map (Env.ren σ)) p' (s.ren σ ρ n)).2 = (prjStep h env p s).2.ren σ ρ n := by
  cases sim with
  | ret a => exact ⟨.ret a, rfl⟩
  | panic v => exact ⟨.panic v, rfl⟩
  | get h => exact ⟨h s.w, rfl⟩
  | set w h => exact ⟨h, rfl⟩
  | op o h =>
    cases o with
    | log t => exact ⟨h none, ren_notify n s (.prjLog _ env t)⟩

theorem prjPar_ren (h : HConfig) (env : Env) : ∀ (bs : List Bool)
    {hp hp' : Prog W PrjOp (Except Err Bool)} {cp cp' : Prog W PrjOp (Option Err)}
    (_ : Prog.Sim ρ hp hp') (_ : Prog.Sim ρ cp cp') (s : Sys W R),
    prjPar h (env.ren σ) bs hp' cp' (s.ren σ ρ n) =
      let r := prjPar h env bs hp cp s
      (r.1.ren σ ρ n, r.2) := by
  intro bs
  induction bs with
  | nil =>
    intro hp hp' cp cp' sh sc s
    unfold prjPar
    have h1 := prjRun_ren (σ := σ) n h (some env) sh s
    simp only [Option.map_some] at h1
    rw [h1]
    rcases prjRun h (some env) hp s with ⟨s1, v | r⟩
    · rfl
    · simp only
      have h2 := prjRun_ren (σ := σ) n h none sc s1
      simp only [Option.map_none] at h2
      rw [h2]
      rcases prjRun h none cp s1 with ⟨s2, v | r⟩ <;> rfl
  | cons b bs ih =>
    intro hp hp' cp cp' sh sc s
    have hstep := prjStep_ren (σ := σ) n h (some env) sh s
    have cstep := prjStep_ren (σ := σ) n h none sc s
    simp only [Option.map_some, Option.map_none] at hstep cstep
    have sh' := sh
    have sc' := sc
    have e1 := ih sh' cstep.1 (prjStep h none cp s).2
    have e2 := ih hstep.1 sc' (prjStep h (some env) hp s).2
    rw [← cstep.2] at e1
    rw [← hstep.2] at e2
    cases sc with
    | panic v => unfold prjPar; rfl
    | _ =>
      cases sh with
      | panic v => unfold prjPar; rfl
      | _ =>
        unfold prjPar
        cases b with
        | true => exact e1
        | false => exact e2

theorem prjApply_ren {A : App W R} (an : A.Anon σ ρ) (h : HConfig) (now : Time) (env : Env)
    (s : Sys W R) : prjApply A h now (env.ren σ) (s.ren σ ρ n) =
      let r := prjApply A h now env s
      (r.1.ren σ ρ n, r.2) := by
  unfold prjApply
  have e1 : ((((s.ren σ ρ n).notify (.prjCompactBegun h)).emit (.call (.prjCompact h now))).emit
      (.call (.prjHandle h (env.ren σ).id [] [1] (env.ren σ).msg))) =
      (((s.notify (.prjCompactBegun h)).emit (.call (.prjCompact h now))).emit
        (.call (.prjHandle h env.id [] [1] env.msg))).ren σ ρ n := by
    rw [← ren_emit, ← ren_emit, ← ren_notify]; rfl
  have e2 : (s.ren σ ρ n).emit (.call (.prjHandle h (env.ren σ).id [] [1] (env.ren σ).msg)) =
      (s.emit (.call (.prjHandle h env.id [] [1] env.msg))).ren σ ρ n := by
    rw [← ren_emit]; rfl
  rw [e1, e2]
  split
  · rw [show (s.ren σ ρ n).w = ρ s.w from rfl, an.schedule]
    have := prjPar_ren (σ := σ) n h env (A.uc.schedule s.w)
      (an.prjHandle h env.id [] [1] env.msg env.createdAt) (an.prjCompact h now)
      (((s.notify (.prjCompactBegun h)).emit (.call (.prjCompact h now))).emit
        (.call (.prjHandle h env.id [] [1] env.msg)))
    rw [show A.uc.prjHandle h (env.ren σ).id [] [1] (env.ren σ).msg (env.ren σ).createdAt =
      A.uc.prjHandle h (σ env.id) [] [1] env.msg env.createdAt from rfl, this]
    rcases prjPar h env (A.uc.schedule s.w) _ _ _ with ⟨s1, v | ⟨r, ce⟩⟩
    · rfl
    · simp only
      rw [show Fact.prjCompactCompleted h ce = (Fact.prjCompactCompleted h ce).ren σ from rfl,
        ren_notify]; rfl
  · have := prjRun_ren (σ := σ) n h (some env) (an.prjHandle h env.id [] [1] env.msg env.createdAt)
      (s.emit (.call (.prjHandle h env.id [] [1] env.msg)))
    simp only [Option.map_some] at this
    rw [show A.uc.prjHandle h (env.ren σ).id [] [1] (env.ren σ).msg (env.ren σ).createdAt =
      A.uc.prjHandle h (σ env.id) [] [1] env.msg env.createdAt from rfl, this]
    rcases prjRun h (some env) _ _ with ⟨s1, v | r⟩ <;> rfl

theorem prjFinish_ren {A : App W R} (an : A.Anon σ ρ) (h : HConfig) (env : Env)
    (r : Except Err Bool) (ce : Option Err) (s : Sys W R) :
    prjFinish A h (env.ren σ) r ce (s.ren σ ρ n) =
      let x := prjFinish A h env r ce s
      (x.1.ren σ ρ n, HRes.ren σ x.2) := by
  unfold prjFinish
  rcases r with e | _ | _
  · rfl
  · rfl
  · have := ren_user (σ := σ) n s (c := .prjClose h env.id) (an.prjClose h env.id)
    simp only [Call.ren] at this
    simp only
    rw [show (env.ren σ).id = σ env.id from rfl, this]
    rcases s.user (.prjClose h env.id) (A.uc.prjClose h env.id) with ⟨s1, v | _ | e⟩ <;> rfl

theorem prjHandle_ren {A : App W R} (an : A.Anon σ ρ) (h : HConfig) (now : Time) (env : Env)
    (s : Sys W R) : prjHandle A h now (env.ren σ) (s.ren σ ρ n) =
      let r := prjHandle A h now env s
      (r.1.ren σ ρ n, HRes.ren σ r.2) := by
  unfold prjHandle
  rw [show (env.ren σ).msg = env.msg from rfl]
  split
  · rfl
  split
  · rfl
  have := ren_user (σ := σ) n s (c := .prjVersion h env.id) (an.prjVersion h env.id)
  simp only [Call.ren] at this
  rw [show (env.ren σ).id = σ env.id from rfl, this]
  rcases s.user (.prjVersion h env.id) (A.uc.prjVersion h env.id) with ⟨s1, v | e | b⟩
  · rfl
  · rfl
  · cases b with
    | cons _ _ => rfl
    | nil =>
      simp only
      rw [prjApply_ren n an]
      rcases prjApply A h now env s1 with ⟨s2, v | ⟨r, ce⟩⟩
      · rfl
      · exact prjFinish_ren n an h env r ce s2

theorem prjTick_ren {A : App W R} (an : A.Anon σ ρ) (h : HConfig) (now : Time) (s : Sys W R) :
    prjTick A h now (s.ren σ ρ n) =
      let r := prjTick A h now s
      (r.1.ren σ ρ n, r.2) := by
  unfold prjTick
  rw [show (s.ren σ ρ n).lastCompact = s.lastCompact from rfl]
  split
  · have e : ((({ s.ren σ ρ n with lastCompact := upd s.lastCompact h.name now } : Sys W R).notify
        (.prjCompactBegun h)).emit (.call (.prjCompact h now))) =
        (((({ s with lastCompact := upd s.lastCompact h.name now } : Sys W R).notify
          (.prjCompactBegun h)).emit (.call (.prjCompact h now)))).ren σ ρ n := by
      rw [← ren_emit, ← ren_notify]; rfl
    simp only
    rw [e]
    have := prjRun_ren (σ := σ) n h none (an.prjCompact h now)
      ((({ s with lastCompact := upd s.lastCompact h.name now } : Sys W R).notify
          (.prjCompactBegun h)).emit (.call (.prjCompact h now)))
    simp only [Option.map_none] at this
    rw [this]
    rcases prjRun h none _ _ with ⟨s1, v | r⟩
    · rfl
    · simp only
      rw [show Fact.prjCompactCompleted h r = (Fact.prjCompactCompleted h r).ren σ from rfl,
        ren_notify]; rfl
  · rfl

/-! ## Ticks and resets -/

theorem ctlTick_ren {A : App W R} (an : A.Anon σ ρ) (h : HConfig) (now : Time) (s : Sys W R) :
    ctlTick A h now (s.ren σ ρ n) =
      let r := ctlTick A h now s
      (r.1.ren σ ρ n, HRes.ren σ r.2) := by
  unfold ctlTick
  cases h.htype with
  | process => simp only; rw [procTick_ren]; rfl
  | projection =>
    simp only
    rw [prjTick_ren n an]
    rcases prjTick A h now s with ⟨s1, v | e⟩ <;> rfl
  | aggregate => rfl
  | integration => rfl

theorem tickAll_ren {A : App W R} (an : A.Anon σ ρ) (oo : OpOpts) (hs : List HConfig) :
    ∀ (q : List Env) (errs : List EngErr) (s : Sys W R),
    tickAll A oo hs (q.map (Env.ren σ)) errs (s.ren σ ρ n) =
      let r := tickAll A oo hs q errs s
      (r.1.ren σ ρ n, match r.2 with
        | .error v => .error v
        | .ok (q, es, c) => .ok (q.map (Env.ren σ), es, c)) := by
  induction hs with
  | nil => intro q errs s; rfl
  | cons h hs ih =>
    intro q errs s
    unfold tickAll
    rcases skipHandler oo h with _ | r
    · simp only
      rw [show Fact.tickBegun h = (Fact.tickBegun h).ren σ from rfl, ren_notify, ctlTick_ren n an]
      simp only [Fact.ren]
      rcases ctlTick A h oo.now (s.notify (.tickBegun h)) with ⟨s1, v | ⟨envs, e⟩⟩
      · rfl
      · simp only [HRes.ren]
        rw [show Fact.tickCompleted h e = (Fact.tickCompleted h e).ren σ from rfl, ren_notify,
          show ((s1.notify (.tickCompleted h e)).ren σ ρ n).w = ρ (s1.notify (.tickCompleted h e)).w
            from rfl, an.ctxErr]
        simp only [Fact.ren]
        rcases A.uc.ctxErr (s1.notify (.tickCompleted h e)).w with _ | c
        · simp only
          rw [← List.map_append, ih]
        · simp only [List.map_append]
    · simp only
      rw [show Fact.tickSkipped h r = (Fact.tickSkipped h r).ren σ from rfl, ren_notify, ih]
      rfl

theorem runResetters_ren (fs : List (W → W × Option PanicVal)) (hf : ∀ f ∈ fs, SimFn ρ f f) :
    ∀ (i : Nat) (s : Sys W R), runResetters i fs (s.ren σ ρ n) =
      let r := runResetters i fs s
      (r.1.ren σ ρ n, r.2) := by
  induction fs with
  | nil => intro i s; rfl
  | cons f fs ih =>
    intro i s
    unfold runResetters
    have := ren_user (σ := σ) n s (c := .resetter i) (hf f (by simp))
    simp only [Call.ren] at this
    rw [this]
    rcases s.user (.resetter i) f with ⟨s1, _ | v⟩
    · exact ih (fun f hm => hf f (by simp [hm])) _ _
    · rfl

theorem engReset_ren {A : App W R} (an : A.Anon σ ρ) (s : Sys W R) :
    engReset A (s.ren σ ρ 0) =
      let r := engReset A s
      (r.1.ren σ ρ 0, r.2) := by
  unfold engReset
  rw [← runResetters_ren 0 A.uc.resetters an.resetters]
  congr 1
  simp [Sys.ren, Sys.emit, Obs.ren]

end

end Verif
