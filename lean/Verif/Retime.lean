import Verif.Rename
import Verif.Inv
import Verif.OpView
import Verif.Options

/-!
# Moving everything in time

What the engine does when everything takes place some time later or earlier.  Specification of the
move, and proof machinery: the engine only compares times, and takes differences of times.
-/

namespace Verif

variable {W R : Type}

/-! ## Specification -/

/-- The same message, some time later.  `ScheduledFor` is a time for timeouts only
(`/repo/envelope/envelope.go` 29-31). -/
def Env.later (d : Int) (e : Env) : Env :=
  { e with
    createdAt := e.createdAt + d
    scheduledFor := if e.msg.type.kind = .timeout then e.scheduledFor + d else e.scheduledFor }

/-- The fact that announces an operation, some time later. -/
def CycleInfo.later (d : Int) (c : CycleInfo) : CycleInfo := { c with now := c.now + d }

/-- The same fact, some time later. -/
def Fact.later (d : Int) : Fact → Fact
  | .dispatchCycleBegun env c => .dispatchCycleBegun (env.later d) (c.later d)
  | .dispatchCycleCompleted env m err => .dispatchCycleCompleted (env.later d) m err
  | .dispatchBegun env => .dispatchBegun (env.later d)
  | .dispatchCompleted env err => .dispatchCompleted (env.later d) err
  | .handlingBegun h env => .handlingBegun h (env.later d)
  | .handlingCompleted h env err => .handlingCompleted h (env.later d) err
  | .handlingSkipped h env r => .handlingSkipped h (env.later d) r
  | .tickCycleBegun c => .tickCycleBegun (c.later d)
  | .tickCycleCompleted m err => .tickCycleCompleted m err
  | .tickBegun h => .tickBegun h
  | .tickCompleted h err => .tickCompleted h err
  | .tickSkipped h r => .tickSkipped h r
  | .aggLoaded h id env => .aggLoaded h id (env.later d)
  | .aggNotFound h id env => .aggNotFound h id (env.later d)
  | .aggCreated h id env => .aggCreated h id (env.later d)
  | .aggDestroyed h id env => .aggDestroyed h id (env.later d)
  | .aggReverted h id env => .aggReverted h id (env.later d)
  | .aggEvent h id env ev => .aggEvent h id (env.later d) (ev.later d)
  | .aggLog h id env s => .aggLog h id (env.later d) s
  | .procLoaded h id env => .procLoaded h id (env.later d)
  | .procEventIgnored h env => .procEventIgnored h (env.later d)
  | .procTimeoutIgnored h id env => .procTimeoutIgnored h id (env.later d)
  | .procNotFound h id env => .procNotFound h id (env.later d)
  | .procBegun h id env => .procBegun h id (env.later d)
  | .procEnded h id env => .procEnded h id (env.later d)
  | .procReverted h id env => .procReverted h id (env.later d)
  | .procCommand h id env cmd => .procCommand h id (env.later d) (cmd.later d)
  | .procTimeout h id env tmo => .procTimeout h id (env.later d) (tmo.later d)
  | .procLog h id env s => .procLog h id (env.later d) s
  | .intEvent h env ev => .intEvent h (env.later d) (ev.later d)
  | .intLog h env s => .intLog h (env.later d) s
  | .prjCompactBegun h => .prjCompactBegun h
  | .prjCompactCompleted h err => .prjCompactCompleted h err
  | .prjLog h env s => .prjLog h (env.map (Env.later d)) s

/-- The same call of user code, some time later: those that are told a time. -/
def Call.later (d : Int) : Call R → Call R
  | .procHandle h id r m t => .procHandle h id r m (t + d)
  | .prjCompact h now => .prjCompact h (now + d)
  | c => c

/-- The same observation, some time later. -/
def Obs.later (d : Int) : Obs R → Obs R
  | .fact f => .fact (f.later d)
  | .call c => .call (c.later d)
  | .reset => .reset

/-- A compaction clock, some time later.  Zero means that there was no compaction yet
(`/repo/engine/internal/projection/controller.go` 28, 43). -/
def compactLater (d : Int) (c : Time) : Time := if c = 0 then 0 else c + d

/-- The same state, some time later; `ρ` is what the move does to the world. -/
def Sys.later (d : Int) (ρ : W → W) (s : Sys W R) : Sys W R where
  w := ρ s.w
  nextID := s.nextID
  agg := fun h id => (s.agg h id).map (List.map (Env.later d))
  proc := fun h => ⟨(s.proc h).inst, (s.proc h).timeouts.map (Env.later d)⟩
  lastCompact := fun n => compactLater d (s.lastCompact n)
  trace := s.trace.map (Obs.later d)

/-- The same request of a process, some time later. -/
def ProcOp.later (d : Int) : ProcOp R → ProcOp R
  | .schedule m t => .schedule m (t + d)
  | o => o

/-- `p'` does some time later what `p` does: in particular, it schedules timeouts for later. -/
inductive Prog.Late {α : Type} (d : Int) (ρ : W → W) :
    Prog W (ProcOp R) α → Prog W (ProcOp R) α → Prop where
  | ret (a : α) : Prog.Late d ρ (.ret a) (.ret a)
  | panic (v : PanicVal) : Prog.Late d ρ (.panic v) (.panic v)
  | op (o : ProcOp R) {k k'} (h : ∀ p, Prog.Late d ρ (k p) (k' p)) :
      Prog.Late d ρ (.op o k) (.op (o.later d) k')
  | get {k k'} (h : ∀ w, Prog.Late d ρ (k w) (k' (ρ w))) : Prog.Late d ρ (.get k) (.get k')
  | set (w : W) {k k'} (h : Prog.Late d ρ k k') : Prog.Late d ρ (.set w k) (.set (ρ w) k')

/-- The user's code does not depend on what time it is: handlers may look at the times they are
told, schedule timeouts relative to them, and keep times in the world, where `ρ` moves them; but
messages, roots, routing, errors and what is logged are the same at any time.  Sorting timeouts by
time does not depend on what time it is either. -/
structure App.AnyTime (A : App W R) (d : Int) (ρ : W → W) : Prop where
  aggRoute : ∀ h m, SimFn ρ (A.uc.aggRoute h m) (A.uc.aggRoute h m)
  aggNew : ∀ h, SimFn ρ (A.uc.aggNew h) (A.uc.aggNew h)
  aggApply : ∀ h r m, SimFn ρ (A.uc.aggApply h r m) (A.uc.aggApply h r m)
  aggHandle : ∀ h id r m, Prog.Sim ρ (A.uc.aggHandle h id r m) (A.uc.aggHandle h id r m)
  procRoute : ∀ h m, SimFn ρ (A.uc.procRoute h m) (A.uc.procRoute h m)
  procNew : ∀ h, SimFn ρ (A.uc.procNew h) (A.uc.procNew h)
  procHandle : ∀ h id r m t,
    Prog.Late d ρ (A.uc.procHandle h id r m t) (A.uc.procHandle h id r m (t + d))
  intHandle : ∀ h m, Prog.Sim ρ (A.uc.intHandle h m) (A.uc.intHandle h m)
  prjVersion : ∀ h res, SimFn ρ (A.uc.prjVersion h res) (A.uc.prjVersion h res)
  prjHandle : ∀ h res cur next m t,
    Prog.Sim ρ (A.uc.prjHandle h res cur next m t) (A.uc.prjHandle h res cur next m (t + d))
  prjClose : ∀ h res, SimFn ρ (A.uc.prjClose h res) (A.uc.prjClose h res)
  prjCompact : ∀ h now, Prog.Sim ρ (A.uc.prjCompact h now) (A.uc.prjCompact h (now + d))
  schedule : ∀ w, A.uc.schedule (ρ w) = A.uc.schedule w
  resetters : ∀ f ∈ A.uc.resetters, SimFn ρ f f
  ctxErr : ∀ w, A.uc.ctxErr (ρ w) = A.uc.ctxErr w
  lockErr : ∀ w, A.uc.lockErr (ρ w) = A.uc.lockErr w
  sort : ∀ l : List Env, (∀ e ∈ l, e.msg.type.kind = .timeout) →
    A.sort.sort (l.map (Env.later d)) = (A.sort.sort l).map (Env.later d)

/-- The same scope of an aggregate, some time later. -/
def AggScope.later (d : Int) (sc : AggScope R) : AggScope R :=
  { sc with events := sc.events.map (Env.later d) }

/-- The same scope of a process, some time later. -/
def ProcScope.later (d : Int) (sc : ProcScope R) : ProcScope R :=
  { sc with
    commands := sc.commands.map (Env.later d)
    ready := sc.ready.map (Env.later d)
    pending := sc.pending.map (Env.later d) }

/-- The same result of `Handle`, some time later. -/
def HRes.later (d : Int) : HRes → HRes
  | .error v => .error v
  | .ok (envs, e) => .ok (envs.map (Env.later d), e)

/-- The same option, some time later. -/
def OpOption.later (d : Int) : OpOption → OpOption
  | .currentTime t => .currentTime (t + d)
  | o => o

/-- The same operation, some time later. -/
def Op.later (d : Int) : Op → Op
  | .dispatch n m os => .dispatch n m (os.map (OpOption.later d))
  | .tick n order os => .tick n order (os.map (OpOption.later d))
  | .reset => .reset

/-- An operation that takes place, before and after the move, at least an hour after Go's zero time:
any compaction that was never done is due (`/repo/engine/internal/projection/controller.go` 20,
43). -/
def Modern (d : Int) (t : Time) : Prop := compactInterval ≤ t ∧ compactInterval ≤ t + d

/-! ## The parts of the engine -/

section
variable {d : Int} {ρ : W → W}

theorem later_emit (s : Sys W R) (o : Obs R) :
    (s.later d ρ).emit (o.later d) = (s.emit o).later d ρ := by
  simp [Sys.later, Sys.emit]

theorem later_notify (s : Sys W R) (f : Fact) :
    (s.later d ρ).notify (f.later d) = (s.notify f).later d ρ := later_emit s (.fact f)

theorem later_user {α : Type} (s : Sys W R) {c : Call R} {f f' : W → W × α} (h : SimFn ρ f f') :
    (s.later d ρ).user (c.later d) f' = ((s.user c f).1.later d ρ, (s.user c f).2) := by
  have := h s.w
  simp [Sys.user, Sys.later, Sys.emit, Obs.later, this]

theorem later_world (s : Sys W R) (w : W) :
    { s.later d ρ with w := ρ w } = ({ s with w := w } : Sys W R).later d ρ := rfl

theorem later_nextID (s : Sys W R) :
    { s.later d ρ with nextID := (s.later d ρ).nextID + 1 } =
      ({ s with nextID := s.nextID + 1 } : Sys W R).later d ρ := rfl

theorem child_later (env : Env) (k : Nat) (m : Message) (t : Time) (o : Origin)
    (hm : m.type.kind ≠ .timeout) :
    (env.later d).child k m (t + d) o = (env.child k m t o).later d := by
  simp [Env.later, Env.child, hm]

theorem childTimeout_later (env : Env) (k : Nat) (m : Message) (t t' : Time) (o : Origin)
    (hm : m.type.kind = .timeout) :
    (env.later d).childTimeout k m (t + d) (t' + d) o = (env.childTimeout k m t t' o).later d := by
  simp [Env.later, Env.childTimeout, hm]

theorem root_later (k : Nat) (m : Message) (t : Time) (hm : m.type.kind ≠ .timeout) :
    Env.root k m (t + d) = (Env.root k m t).later d := by
  simp [Env.later, Env.root, hm]

theorem produces_kind {h : HConfig} {k : Kind} {m : Message} (hp : ¬ h.produces? k m = false) :
    m.type.kind = k := by
  unfold HConfig.produces? at hp
  simp only [Bool.not_eq_false, Bool.and_eq_true, decide_eq_true_eq] at hp
  exact hp.1

/-! ### Aggregates -/

theorem aggDestroy_later {A : App W R} (an : A.AnyTime d ρ) (h : HConfig) (id : String) (env : Env)
    (s : Sys W R) (sc : AggScope R) :
    aggDestroy A h id (env.later d) (s.later d ρ) (sc.later d) =
      let r := aggDestroy A h id env s sc
      (r.1.later d ρ, r.2.1.later d, r.2.2) := by
  unfold aggDestroy
  have hx : (sc.later d).exists_ = sc.exists_ := rfl
  rw [hx]
  split
  · rfl
  · have := later_user (d := d) s (c := .aggNew h) (an.aggNew h)
    simp only [Call.later] at this
    rw [this]
    rcases s.user (.aggNew h) (A.uc.aggNew h) with ⟨s1, v | r⟩
    · rfl
    · simp only
      rw [show Fact.aggDestroyed h id (env.later d) = (Fact.aggDestroyed h id env).later d from rfl,
        later_notify]
      rfl

theorem aggApplyScope_later {A : App W R} (an : A.AnyTime d ρ) (h : HConfig) (m : Message)
    (s : Sys W R) (sc : AggScope R) :
    aggApplyScope A h m (s.later d ρ) (sc.later d) =
      let r := aggApplyScope A h m s sc
      (r.1.later d ρ, r.2.1.later d, r.2.2) := by
  unfold aggApplyScope
  have hx : (sc.later d).root = sc.root := rfl
  rw [hx]
  rcases sc.root with _ | r
  · rfl
  · have := later_user (d := d) s (c := .aggApply h r m) (an.aggApply h r m)
    simp only [Call.later] at this
    simp only
    rw [this]
    rcases s.user (.aggApply h r m) (A.uc.aggApply h r m) with ⟨s1, r', _ | v⟩ <;> rfl

theorem aggRevive_later (h : HConfig) (id : String) (env : Env) (s : Sys W R) (sc : AggScope R) :
    aggRevive h id (env.later d) (s.later d ρ) (sc.later d) =
      let r := aggRevive h id env s sc
      (r.1.later d ρ, r.2.later d) := by
  unfold aggRevive
  have hx : (sc.later d).exists_ = sc.exists_ := rfl
  have hy : (sc.later d).destroyed = sc.destroyed := rfl
  rw [hx, hy]
  split
  · rfl
  · split
    · rw [show Fact.aggReverted h id (env.later d) = (Fact.aggReverted h id env).later d from rfl,
        later_notify]; rfl
    · rw [show Fact.aggCreated h id (env.later d) = (Fact.aggCreated h id env).later d from rfl,
        later_notify]; rfl

theorem aggEmit_later (h : HConfig) (id : String) (now : Time) (env : Env) (m : Message)
    (hm : m.type.kind ≠ .timeout) (s : Sys W R) (sc : AggScope R) :
    aggEmit h id (now + d) (env.later d) m (s.later d ρ) (sc.later d) =
      let r := aggEmit h id now env m s sc
      (r.1.later d ρ, r.2.later d) := by
  unfold aggEmit
  simp only
  rw [show (s.later d ρ).nextID = s.nextID from rfl, child_later _ _ _ _ _ hm]
  refine Prod.ext ?_ ?_
  · exact later_notify (d := d) (ρ := ρ) ({ s with nextID := s.nextID + 1 } : Sys W R)
      (.aggEvent h id env (env.child (s.nextID + 1) m now ⟨h, .aggregate, id⟩))
  · simp [AggScope.later]

theorem aggRecord_later {A : App W R} (an : A.AnyTime d ρ) (h : HConfig) (id : String) (now : Time)
    (env : Env) (m : Message) (s : Sys W R) (sc : AggScope R) :
    aggRecord A h id (now + d) (env.later d) m (s.later d ρ) (sc.later d) =
      let r := aggRecord A h id now env m s sc
      (r.1.later d ρ, r.2.1.later d, r.2.2) := by
  unfold aggRecord
  split
  · rfl
  · rename_i hp
    have hk : m.type.kind ≠ .timeout := by rw [produces_kind hp]; decide
    split
    · rfl
    · rw [aggRevive_later]
      rcases aggRevive h id env s sc with ⟨s1, sc1⟩
      simp only
      rw [aggApplyScope_later an]
      rcases aggApplyScope A h m s1 sc1 with ⟨s2, sc2, _ | v⟩
      · simp only
        rw [aggEmit_later _ _ _ _ _ hk]
      · rfl

theorem aggOp_later {A : App W R} (an : A.AnyTime d ρ) (h : HConfig) (id : String) (now : Time)
    (env : Env) (o : AggOp R) (s : Sys W R) (sc : AggScope R) :
    aggOp A h id (now + d) (env.later d) o (s.later d ρ) (sc.later d) =
      let r := aggOp A h id now env o s sc
      (r.1.later d ρ, r.2.1.later d, r.2.2) := by
  cases o with
  | record m => exact aggRecord_later an h id now env m s sc
  | destroy => exact aggDestroy_later an h id env s sc
  | setRoot r =>
    unfold aggOp
    simp only
    rw [show (sc.later d).given = sc.given from rfl]
    split <;> rfl
  | log t =>
    unfold aggOp
    simp only
    rw [show Fact.aggLog h id (env.later d) t = (Fact.aggLog h id env t).later d from rfl,
      later_notify]

theorem aggRun_later {A : App W R} (an : A.AnyTime d ρ) (h : HConfig) (id : String) (now : Time)
    (env : Env) {p p' : Prog W (AggOp R) Unit} (sim : Prog.Sim ρ p p') :
    ∀ (s : Sys W R) (sc : AggScope R),
    aggRun A h id (now + d) (env.later d) p' (s.later d ρ) (sc.later d) =
      let r := aggRun A h id now env p s sc
      (r.1.later d ρ, r.2.1.later d, r.2.2) := by
  induction sim with
  | ret a => intro s sc; rfl
  | panic v => intro s sc; rfl
  | get h ih => intro s sc; exact ih s.w s sc
  | set w h ih => intro s sc; exact ih { s with w := w } sc
  | op o h ih =>
    intro s sc
    unfold aggRun
    rw [aggOp_later an]
    exact ih _ _ _

theorem aggReplay_later {A : App W R} (an : A.AnyTime d ρ) (h : HConfig) (es : List Env) :
    ∀ (r : R) (s : Sys W R), aggReplay A h (es.map (Env.later d)) r (s.later d ρ) =
      let x := aggReplay A h es r s
      (x.1.later d ρ, x.2) := by
  induction es with
  | nil => intro r s; rfl
  | cons e es ih =>
    intro r s
    unfold aggReplay
    simp only [List.map_cons]
    have := later_user (d := d) s (c := .aggApply h r e.msg) (an.aggApply h r e.msg)
    simp only [Call.later] at this
    rw [show (e.later d).msg = e.msg from rfl, this]
    rcases s.user (.aggApply h r e.msg) (A.uc.aggApply h r e.msg) with ⟨s1, r', _ | v⟩
    · exact ih r' s1
    · rfl

theorem aggCommit_later (h : HConfig) (id : String) (s : Sys W R) (sc : AggScope R) :
    aggCommit h id (s.later d ρ) (sc.later d) = (aggCommit h id s sc).later d ρ := by
  unfold aggCommit
  have hx : (sc.later d).exists_ = sc.exists_ := rfl
  rw [hx]
  split
  · simp only [Sys.later, Sys.mk.injEq, true_and, and_true]
    funext x y
    simp only [upd]
    split
    · simp only [upd]
      split
      · cases s.agg h.name id <;> simp [AggScope.later]
      · rfl
    · rfl
  · simp only [Sys.later, Sys.mk.injEq, true_and, and_true]
    funext x y
    simp only [upd]
    split
    · simp only [upd]
      split <;> rfl
    · rfl

theorem aggInvoke_later {A : App W R} (an : A.AnyTime d ρ) (h : HConfig) (id : String) (now : Time)
    (env : Env) (r : R) (ex : Bool) (s : Sys W R) :
    aggInvoke A h id (now + d) (env.later d) r ex (s.later d ρ) =
      let x := aggInvoke A h id now env r ex s
      (x.1.later d ρ, HRes.later d x.2) := by
  unfold aggInvoke
  have e := later_emit (d := d) (ρ := ρ) s (.call (.aggHandle h id r env.msg))
  have e2 := aggRun_later an h id now env (an.aggHandle h id r env.msg)
    (s.emit (.call (.aggHandle h id r env.msg))) ⟨some r, ex, false, [], true⟩
  rw [← e] at e2
  rw [show (env.later d).msg = env.msg from rfl]
  rw [show ((s.later d ρ).emit (.call (.aggHandle h id r env.msg))) =
    (s.later d ρ).emit (Obs.later d (.call (.aggHandle h id r env.msg))) from rfl]
  rw [show (⟨some r, ex, false, [], true⟩ : AggScope R) =
    AggScope.later d ⟨some r, ex, false, [], true⟩ from rfl, e2]
  rw [show AggScope.later d (⟨some r, ex, false, [], true⟩ : AggScope R) =
    ⟨some r, ex, false, [], true⟩ from rfl]
  rcases aggRun A h id now env (A.uc.aggHandle h id r env.msg)
    (s.emit (.call (.aggHandle h id r env.msg))) ⟨some r, ex, false, [], true⟩ with ⟨s1, sc, _ | v⟩
  · simp only
    rw [aggCommit_later]
    rfl
  · rfl

theorem aggWithID_later {A : App W R} (an : A.AnyTime d ρ) (h : HConfig) (id : String) (now : Time)
    (env : Env) (s : Sys W R) :
    aggWithID A h id (now + d) (env.later d) (s.later d ρ) =
      let x := aggWithID A h id now env s
      (x.1.later d ρ, HRes.later d x.2) := by
  unfold aggWithID
  have := later_user (d := d) s (c := .aggNew h) (an.aggNew h)
  simp only [Call.later] at this
  rw [this]
  rcases s.user (.aggNew h) (A.uc.aggNew h) with ⟨s1, v | _ | r⟩
  · rfl
  · rfl
  · simp only
    rw [show (s1.later d ρ).agg h.name id = (s1.agg h.name id).map (List.map (Env.later d)) from rfl]
    cases s1.agg h.name id with
    | none =>
      simp only [Option.map_none]
      rw [show Fact.aggNotFound h id (env.later d) = (Fact.aggNotFound h id env).later d from rfl,
        later_notify, aggInvoke_later an]
    | some hist =>
      simp only [Option.map_some]
      rw [aggReplay_later an]
      rcases aggReplay A h hist r s1 with ⟨s2, v | r2⟩
      · rfl
      · simp only
        rw [show Fact.aggLoaded h id (env.later d) = (Fact.aggLoaded h id env).later d from rfl,
          later_notify, aggInvoke_later an]

theorem aggHandle_later {A : App W R} (an : A.AnyTime d ρ) (h : HConfig) (now : Time)
    (env : Env) (s : Sys W R) :
    aggHandle A h (now + d) (env.later d) (s.later d ρ) =
      let x := aggHandle A h now env s
      (x.1.later d ρ, HRes.later d x.2) := by
  unfold aggHandle
  rw [show (env.later d).msg = env.msg from rfl]
  split
  · rfl
  · split
    · rfl
    · have := later_user (d := d) s (c := .aggRoute h env.msg) (an.aggRoute h env.msg)
      simp only [Call.later] at this
      rw [this]
      rcases s.user (.aggRoute h env.msg) (A.uc.aggRoute h env.msg) with ⟨s1, v | id⟩
      · rfl
      · simp only
        split
        · rfl
        · exact aggWithID_later an h id now env s1

/-! ### Integrations -/

theorem intOp_later (h : HConfig) (now : Time) (env : Env) (o : IntOp) (s : Sys W R)
    (evs : List Env) :
    intOp h (now + d) (env.later d) o (s.later d ρ) (evs.map (Env.later d)) =
      let r := intOp h now env o s evs
      (r.1.later d ρ, r.2.1.map (Env.later d), r.2.2) := by
  cases o with
  | record m =>
    unfold intOp
    simp only
    split
    · rfl
    · rename_i hp
      have hk : m.type.kind ≠ .timeout := by rw [produces_kind hp]; decide
      split
      · rfl
      · unfold intEmit
        simp only
        rw [show (s.later d ρ).nextID = s.nextID from rfl, child_later _ _ _ _ _ hk]
        refine Prod.ext ?_ (Prod.ext ?_ rfl)
        · exact later_notify (d := d) (ρ := ρ) ({ s with nextID := s.nextID + 1 } : Sys W R)
            (.intEvent h env (env.child (s.nextID + 1) m now ⟨h, .integration, ""⟩))
        · simp
  | log t =>
    unfold intOp
    simp only
    rw [show Fact.intLog h (env.later d) t = (Fact.intLog h env t).later d from rfl, later_notify]

theorem intRun_later (h : HConfig) (now : Time) (env : Env) {p p' : Prog W IntOp (Option Err)}
    (sim : Prog.Sim ρ p p') : ∀ (s : Sys W R) (evs : List Env),
    intRun h (now + d) (env.later d) p' (s.later d ρ) (evs.map (Env.later d)) =
      let r := intRun h now env p s evs
      (r.1.later d ρ, r.2.1.map (Env.later d), r.2.2) := by
  induction sim with
  | ret a => intro s sc; rfl
  | panic v => intro s sc; rfl
  | get h ih => intro s sc; exact ih s.w s sc
  | set w h ih => intro s sc; exact ih { s with w := w } sc
  | op o h ih =>
    intro s sc
    unfold intRun
    rw [intOp_later]
    exact ih _ _ _

theorem intHandle_later {A : App W R} (an : A.AnyTime d ρ) (h : HConfig) (now : Time)
    (env : Env) (s : Sys W R) :
    intHandle A h (now + d) (env.later d) (s.later d ρ) =
      let x := intHandle A h now env s
      (x.1.later d ρ, HRes.later d x.2) := by
  unfold intHandle
  rw [show (env.later d).msg = env.msg from rfl]
  split
  · rfl
  · split
    · rfl
    · have e := later_emit (d := d) (ρ := ρ) s (.call (.intHandle h env.msg))
      have e2 := intRun_later (d := d) h now env (an.intHandle h env.msg)
        (s.emit (.call (.intHandle h env.msg))) []
      rw [← e] at e2
      simp only [List.map_nil, Obs.later, Call.later] at e2
      rw [e2]
      rcases intRun h now env (A.uc.intHandle h env.msg) (s.emit (.call (.intHandle h env.msg))) []
        with ⟨s1, evs, v | e⟩ <;> rfl

/-! ### Processes -/

theorem setProc_later (s : Sys W R) (h : HConfig) (i : String → Option R) (l : List Env) :
    (s.later d ρ).setProc h ⟨i, l.map (Env.later d)⟩ = (s.setProc h ⟨i, l⟩).later d ρ := by
  simp only [Sys.setProc, Sys.later, Sys.mk.injEq, true_and, and_true]
  funext x
  simp only [upd]
  split <;> rfl

theorem procRevive_later (h : HConfig) (id : String) (env : Env) (s : Sys W R) (sc : ProcScope R) :
    procRevive h id (env.later d) (s.later d ρ) (sc.later d) =
      let r := procRevive h id env s sc
      (r.1.later d ρ, r.2.later d) := by
  unfold procRevive
  have hx : (sc.later d).ended = sc.ended := rfl
  rw [hx]
  split
  · rw [show Fact.procReverted h id (env.later d) = (Fact.procReverted h id env).later d from rfl,
      later_notify]; rfl
  · rfl

theorem procEmitCommand_later (h : HConfig) (id : String) (now : Time) (env : Env) (m : Message)
    (hm : m.type.kind ≠ .timeout) (s : Sys W R) (sc : ProcScope R) :
    procEmitCommand h id (now + d) (env.later d) m (s.later d ρ) (sc.later d) =
      let r := procEmitCommand h id now env m s sc
      (r.1.later d ρ, r.2.later d) := by
  unfold procEmitCommand
  simp only
  rw [show (s.later d ρ).nextID = s.nextID from rfl, child_later _ _ _ _ _ hm]
  refine Prod.ext ?_ ?_
  · exact later_notify (d := d) (ρ := ρ) ({ s with nextID := s.nextID + 1 } : Sys W R)
      (.procCommand h id env (env.child (s.nextID + 1) m now ⟨h, .process, id⟩))
  · simp [ProcScope.later]

theorem procEmitTimeout_later (h : HConfig) (id : String) (now : Time) (env : Env) (m : Message)
    (hm : m.type.kind = .timeout) (t : Time) (s : Sys W R) (sc : ProcScope R) :
    procEmitTimeout h id (now + d) (env.later d) m (t + d) (s.later d ρ) (sc.later d) =
      let r := procEmitTimeout h id now env m t s sc
      (r.1.later d ρ, r.2.later d) := by
  unfold procEmitTimeout
  simp only
  rw [show (s.later d ρ).nextID = s.nextID from rfl, childTimeout_later _ _ _ _ _ _ hm]
  refine Prod.ext ?_ ?_
  · exact later_notify (d := d) (ρ := ρ) ({ s with nextID := s.nextID + 1 } : Sys W R)
      (.procTimeout h id env (env.childTimeout (s.nextID + 1) m now t ⟨h, .process, id⟩))
  · by_cases hlt : now < t
    · have : now + d < t + d := by omega
      simp [ProcScope.later, hlt]
    · have : ¬ now + d < t + d := by omega
      simp [ProcScope.later, hlt]

theorem procMethod_later (env : Env) : procMethod (env.later d) = procMethod env := rfl

theorem procOp_later (h : HConfig) (id : String) (now : Time) (env : Env) (o : ProcOp R)
    (s : Sys W R) (sc : ProcScope R) :
    procOp h id (now + d) (env.later d) (o.later d) (s.later d ρ) (sc.later d) =
      let r := procOp h id now env o s sc
      (r.1.later d ρ, r.2.1.later d, r.2.2) := by
  cases o with
  | end_ =>
    simp only [ProcOp.later, procOp]
    rw [show (sc.later d).ended = sc.ended from rfl]
    split
    · rfl
    · rw [show Fact.procEnded h id (env.later d) = (Fact.procEnded h id env).later d from rfl,
        later_notify]; rfl
  | execute m =>
    simp only [ProcOp.later, procOp]
    split
    · rfl
    · rename_i hp
      have hk : m.type.kind ≠ .timeout := by rw [produces_kind hp]; decide
      split
      · rfl
      · rw [procRevive_later]
        rcases procRevive h id env s sc with ⟨s1, sc1⟩
        simp only
        rw [procEmitCommand_later _ _ _ _ _ hk]
  | schedule m t =>
    simp only [ProcOp.later, procOp]
    split
    · rfl
    · rename_i hp
      have hk : m.type.kind = .timeout := produces_kind hp
      split
      · rfl
      · rw [procRevive_later]
        rcases procRevive h id env s sc with ⟨s1, sc1⟩
        simp only
        rw [procEmitTimeout_later _ _ _ _ _ hk]
  | setRoot r => rfl
  | log t =>
    simp only [ProcOp.later, procOp]
    rw [show Fact.procLog h id (env.later d) t = (Fact.procLog h id env t).later d from rfl,
      later_notify]

theorem procRun_later (h : HConfig) (id : String) (now : Time) (env : Env)
    {p p' : Prog W (ProcOp R) (Option Err)} (sim : Prog.Late d ρ p p') :
    ∀ (s : Sys W R) (sc : ProcScope R),
    procRun h id (now + d) (env.later d) p' (s.later d ρ) (sc.later d) =
      let r := procRun h id now env p s sc
      (r.1.later d ρ, r.2.1.later d, r.2.2) := by
  induction sim with
  | ret a => intro s sc; rfl
  | panic v => intro s sc; rfl
  | get h ih => intro s sc; exact ih s.w s sc
  | set w h ih => intro s sc; exact ih { s with w := w } sc
  | op o h ih =>
    intro s sc
    unfold procRun
    rw [procOp_later]
    exact ih _ _ _

/-- Only timeouts are pending. -/
def OnlyTimeouts (l : List Env) : Prop := ∀ e ∈ l, e.msg.type.kind = .timeout

/-- Running a process handler files timeouts only, and leaves the controller alone. -/
theorem procRun_files (h : HConfig) (id : String) (now : Time) (env : Env)
    (p : Prog W (ProcOp R) (Option Err)) : ∀ (s : Sys W R) (sc : ProcScope R),
    OnlyTimeouts sc.pending →
    (procRun h id now env p s sc).1.proc = s.proc ∧
      OnlyTimeouts (procRun h id now env p s sc).2.1.pending := by
  have one : ∀ (o : ProcOp R) (s : Sys W R) (sc : ProcScope R), OnlyTimeouts sc.pending →
      (procOp h id now env o s sc).1.proc = s.proc ∧
        OnlyTimeouts (procOp h id now env o s sc).2.1.pending := by
    intro o s sc hp
    have rev : (procRevive h id env s sc).1.proc = s.proc ∧
        OnlyTimeouts (procRevive h id env s sc).2.pending := by
      unfold procRevive
      split <;> exact ⟨rfl, hp⟩
    cases o with
    | end_ => simp only [procOp]; split <;> exact ⟨rfl, hp⟩
    | execute m =>
      simp only [procOp]
      split
      · exact ⟨rfl, hp⟩
      · split
        · exact ⟨rfl, hp⟩
        · exact rev
    | schedule m t =>
      simp only [procOp]
      split
      · exact ⟨rfl, hp⟩
      · rename_i hk
        have hk := produces_kind hk
        split
        · exact ⟨rfl, hp⟩
        · refine ⟨rev.1, ?_⟩
          simp only [procEmitTimeout]
          split
          · intro e he
            rcases List.mem_append.1 he with he | he
            · exact rev.2 e he
            · rw [List.mem_singleton.1 he]; exact hk
          · exact rev.2
    | setRoot r => exact ⟨rfl, hp⟩
    | log t => exact ⟨rfl, hp⟩
  induction p with
  | ret a => intro s sc hp; exact ⟨rfl, hp⟩
  | panic v => intro s sc hp; exact ⟨rfl, hp⟩
  | get k ih => intro s sc hp; exact ih s.w s sc hp
  | set w k ih => intro s sc hp; exact ih { s with w := w } sc hp
  | op o k ih =>
    intro s sc hp
    unfold procRun
    have h1 := one o s sc hp
    have h2 := ih (procOp h id now env o s sc).2.2 (procOp h id now env o s sc).1
      (procOp h id now env o s sc).2.1 h1.2
    exact ⟨h2.1.trans h1.1, h2.2⟩

/-- Only timeouts are pending, anywhere. -/
def Sys.Timed (s : Sys W R) : Prop := ∀ n, OnlyTimeouts (s.proc n).timeouts

theorem Sys.Timed.of_eq {s s' : Sys W R} (h : s.Timed) (e : s'.proc = s.proc) : s'.Timed := by
  intro n; rw [e]; exact h n

theorem Sys.Timed.setProc {s : Sys W R} (hs : s.Timed) (h : HConfig) (i : String → Option R)
    {l : List Env} (hl : OnlyTimeouts l) : (s.setProc h ⟨i, l⟩).Timed := by
  intro n
  unfold Sys.setProc
  simp only
  by_cases hn : n = h.name
  · subst hn; unfold upd; rw [if_pos rfl]; exact hl
  · unfold upd; rw [if_neg hn]; exact hs n

theorem procUpdate_later {A : App W R} (an : A.AnyTime d ρ) (h : HConfig) (id : String) (s : Sys W R)
    (hs : s.Timed) (sc : ProcScope R) (hp : OnlyTimeouts sc.pending) :
    procUpdate A h id (s.later d ρ) (sc.later d) = (procUpdate A h id s sc).later d ρ ∧
      (procUpdate A h id s sc).Timed := by
  have hl : OnlyTimeouts ((s.proc h.name).timeouts ++ sc.pending) := by
    intro e he
    rcases List.mem_append.1 he with he | he
    · exact hs h.name e he
    · exact hp e he
  unfold procUpdate
  refine ⟨?_, hs.setProc h _ fun e he => hl e ((A.sort.perm _).mem_iff.1 he)⟩
  rw [← setProc_later, ← an.sort _ hl, List.map_append]
  rfl

theorem procDelete_later (h : HConfig) (id : String) (s : Sys W R) (hs : s.Timed) :
    procDelete h id (s.later d ρ) = (procDelete h id s).later d ρ ∧ (procDelete h id s).Timed := by
  unfold procDelete
  refine ⟨?_, hs.setProc h _ fun e he => hs h.name e (List.mem_filter.1 he).1⟩
  rw [← setProc_later]
  simp only [Sys.later, List.filter_map]
  rfl

theorem procAlias_later (h : HConfig) (id : String) (ex : Bool) (s : Sys W R) (hs : s.Timed) (r : R) :
    procAlias h id ex (s.later d ρ) r = (procAlias h id ex s r).later d ρ ∧
      (procAlias h id ex s r).Timed := by
  unfold procAlias
  split
  · refine ⟨?_, hs.setProc h _ (hs h.name)⟩
    rw [← setProc_later]; rfl
  · exact ⟨rfl, hs⟩

theorem procSeenTime_later (env : Env) : procSeenTime (env.later d) = procSeenTime env + d := by
  unfold procSeenTime Env.later
  simp only
  cases hk : env.msg.type.kind <;> simp

theorem procInvoke_later {A : App W R} (an : A.AnyTime d ρ) (h : HConfig) (id : String) (now : Time)
    (env : Env) (r : R) (ex : Bool) (s : Sys W R) (hs : s.Timed) :
    procInvoke A h id (now + d) (env.later d) r ex (s.later d ρ) =
      (let x := procInvoke A h id now env r ex s
       (x.1.later d ρ, HRes.later d x.2)) ∧ (procInvoke A h id now env r ex s).1.Timed := by
  unfold procInvoke
  have e := later_emit (d := d) (ρ := ρ) s (.call (.procHandle h id r env.msg (procSeenTime env)))
  have e2 := procRun_later h id now env (an.procHandle h id r env.msg (procSeenTime env))
    (s.emit (.call (.procHandle h id r env.msg (procSeenTime env)))) ⟨r, false, [], [], []⟩
  have e3 := procRun_files h id now env (A.uc.procHandle h id r env.msg (procSeenTime env))
    (s.emit (.call (.procHandle h id r env.msg (procSeenTime env)))) ⟨r, false, [], [], []⟩ nofun
  rw [← e] at e2
  rw [procSeenTime_later, show (env.later d).msg = env.msg from rfl]
  rw [show ((s.later d ρ).emit (.call (.procHandle h id r env.msg (procSeenTime env + d)))) =
    (s.later d ρ).emit (Obs.later d (.call (.procHandle h id r env.msg (procSeenTime env)))) from rfl]
  rw [show (⟨r, false, [], [], []⟩ : ProcScope R) = ProcScope.later d ⟨r, false, [], [], []⟩ from rfl,
    e2]
  rw [show ProcScope.later d (⟨r, false, [], [], []⟩ : ProcScope R) = ⟨r, false, [], [], []⟩ from rfl]
  generalize procRun h id now env (A.uc.procHandle h id r env.msg (procSeenTime env))
    (s.emit (.call (.procHandle h id r env.msg (procSeenTime env)))) ⟨r, false, [], [], []⟩ = z at e3 ⊢
  obtain ⟨s1, sc, res⟩ := z
  have hs1 : s1.Timed := hs.of_eq e3.1
  have ha := procAlias_later (d := d) (ρ := ρ) h id ex s1 hs1 sc.root
  rcases res with v | _ | er
  · exact ⟨by simp only; rw [show (sc.later d).root = sc.root from rfl, ha.1]; rfl, ha.2⟩
  · simp only
    rw [show (sc.later d).ended = sc.ended from rfl]
    split
    · have hd := procDelete_later (d := d) (ρ := ρ) h id s1 hs1
      cases ex with
      | true => exact ⟨by simp only [if_true]; rw [hd.1]; rfl, hd.2⟩
      | false => exact ⟨rfl, hs1⟩
    · have hu := procUpdate_later an h id s1 hs1 sc e3.2
      refine ⟨?_, hu.2⟩
      rw [hu.1]
      simp only [HRes.later, List.map_append]
      rfl
  · exact ⟨by simp only; rw [show (sc.later d).root = sc.root from rfl, ha.1]; rfl, ha.2⟩

theorem procWithID_later {A : App W R} (an : A.AnyTime d ρ) (h : HConfig) (id : String) (now : Time)
    (env : Env) (s : Sys W R) (hs : s.Timed) :
    procWithID A h id (now + d) (env.later d) (s.later d ρ) =
      (let x := procWithID A h id now env s
       (x.1.later d ρ, HRes.later d x.2)) ∧ (procWithID A h id now env s).1.Timed := by
  unfold procWithID
  rw [show ((s.later d ρ).proc h.name).inst id = (s.proc h.name).inst id from rfl]
  cases (s.proc h.name).inst id with
  | some r =>
    simp only
    rw [show Fact.procLoaded h id (env.later d) = (Fact.procLoaded h id env).later d from rfl,
      later_notify]
    exact procInvoke_later an h id now env r true _ (hs.of_eq rfl)
  | none =>
    simp only
    rw [show Fact.procNotFound h id (env.later d) = (Fact.procNotFound h id env).later d from rfl,
      later_notify]
    have := later_user (d := d) (s.notify (.procNotFound h id env)) (c := .procNew h) (an.procNew h)
    simp only [Call.later] at this
    rw [this]
    have ht : ((s.notify (.procNotFound h id env)).user (.procNew h) (A.uc.procNew h)).1.Timed :=
      hs.of_eq rfl
    generalize (s.notify (.procNotFound h id env)).user (.procNew h) (A.uc.procNew h) = z at ht ⊢
    obtain ⟨s1, v | _ | r⟩ := z
    · exact ⟨rfl, ht⟩
    · simp only
      rw [show Fact.procBegun h id (env.later d) = (Fact.procBegun h id env).later d from rfl,
        later_notify]
      exact ⟨rfl, Sys.Timed.of_eq ht rfl⟩
    · simp only
      rw [show Fact.procBegun h id (env.later d) = (Fact.procBegun h id env).later d from rfl,
        later_notify]
      exact procInvoke_later an h id now env r false _ (Sys.Timed.of_eq ht rfl)

theorem procHandle_later {A : App W R} (an : A.AnyTime d ρ) (h : HConfig) (now : Time)
    (env : Env) (s : Sys W R) (hs : s.Timed) :
    procHandle A h (now + d) (env.later d) (s.later d ρ) =
      (let x := procHandle A h now env s
       (x.1.later d ρ, HRes.later d x.2)) ∧ (procHandle A h now env s).1.Timed := by
  unfold procHandle
  rw [show (env.later d).msg = env.msg from rfl]
  split
  · exact ⟨rfl, hs⟩
  · cases env.msg.type.kind with
    | command => exact ⟨rfl, hs⟩
    | event =>
      simp only
      have := later_user (d := d) s (c := .procRoute h env.msg) (an.procRoute h env.msg)
      simp only [Call.later] at this
      rw [this]
      have ht : (s.user (.procRoute h env.msg) (A.uc.procRoute h env.msg)).1.Timed := hs.of_eq rfl
      generalize s.user (.procRoute h env.msg) (A.uc.procRoute h env.msg) = z at ht ⊢
      obtain ⟨s1, v | e | _ | id⟩ := z
      · exact ⟨rfl, ht⟩
      · exact ⟨rfl, ht⟩
      · simp only
        rw [show Fact.procEventIgnored h (env.later d) = (Fact.procEventIgnored h env).later d
          from rfl, later_notify]
        exact ⟨rfl, Sys.Timed.of_eq ht rfl⟩
      · simp only
        split
        · exact ⟨rfl, ht⟩
        · exact procWithID_later an h id now env s1 ht
    | timeout =>
      simp only
      rw [show (env.later d).origin = env.origin from rfl]
      cases env.origin with
      | none => exact ⟨rfl, hs⟩
      | some o =>
        simp only
        rw [show ((s.later d ρ).proc h.name).inst o.instanceID = (s.proc h.name).inst o.instanceID
          from rfl]
        cases (s.proc h.name).inst o.instanceID with
        | some r => exact procWithID_later an h o.instanceID now env s hs
        | none =>
          simp only
          rw [show Fact.procTimeoutIgnored h o.instanceID (env.later d) =
            (Fact.procTimeoutIgnored h o.instanceID env).later d from rfl, later_notify]
          exact ⟨rfl, hs.of_eq rfl⟩

theorem procTick_later (h : HConfig) (now : Time) (s : Sys W R) (hs : s.Timed) :
    procTick h (now + d) (s.later d ρ) =
      (let r := procTick h now s
       (r.1.later d ρ, r.2.map (Env.later d))) ∧ (procTick h now s).1.Timed := by
  have key : ∀ l : List Env, OnlyTimeouts l →
      (l.map (Env.later d)).dropWhile (fun e => decide (e.scheduledFor ≤ now + d)) =
        (l.dropWhile (fun e => decide (e.scheduledFor ≤ now))).map (Env.later d) ∧
      (l.map (Env.later d)).takeWhile (fun e => decide (e.scheduledFor ≤ now + d)) =
        (l.takeWhile (fun e => decide (e.scheduledFor ≤ now))).map (Env.later d) := by
    intro l
    induction l with
    | nil => intro _; exact ⟨rfl, rfl⟩
    | cons e l ih =>
      intro hl
      have ih := ih (fun x hx => hl x (List.mem_cons_of_mem _ hx))
      have hk := hl e (by simp)
      have hd : decide ((e.later d).scheduledFor ≤ now + d) = decide (e.scheduledFor ≤ now) := by
        unfold Env.later
        simp only [hk, if_true]
        apply decide_eq_decide.2
        omega
      simp only [List.map_cons, List.dropWhile_cons, List.takeWhile_cons, hd]
      split
      · exact ⟨ih.1, by rw [ih.2]; rfl⟩
      · exact ⟨rfl, rfl⟩
  have hk := key _ (hs h.name)
  unfold procTick
  simp only
  refine ⟨?_, hs.setProc h _ fun e he => hs h.name e (List.dropWhile_sublist _ |>.mem he)⟩
  rw [← setProc_later, ← hk.1, ← hk.2]
  rfl

/-! ### Projections -/

theorem prjRun_later {α : Type} (h : HConfig) (env : Option Env) {p p' : Prog W PrjOp α}
    (sim : Prog.Sim ρ p p') : ∀ (s : Sys W R),
    prjRun h (env.map (Env.later d)) p' (s.later d ρ) =
      let r := prjRun h env p s
      (r.1.later d ρ, r.2) := by
  induction sim with
  | ret a => intro s; rfl
  | panic v => intro s; rfl
  | get h ih => intro s; exact ih s.w s
  | set w h ih => intro s; exact ih { s with w := w }
  | op o h ih =>
    intro s
    cases o with
    | log t =>
      unfold prjRun
      rw [show Fact.prjLog _ (env.map (Env.later d)) t = (Fact.prjLog _ env t).later d from rfl,
        later_notify]
      exact ih none _

theorem prjStep_later {α : Type} (h : HConfig) (env : Option Env) {p p' : Prog W PrjOp α}
    (sim : Prog.Sim ρ p p') (s : Sys W R) :
    Prog.Sim ρ (prjStep h env p s).1 (prjStep h (env.map (Env.later d)) p' (s.later d ρ)).1 ∧
    (prjStep h (env.map (Env.later d)) p' (s.later d ρ)).2 = (prjStep h env p s).2.later d ρ := by
  cases sim with
  | ret a => exact ⟨.ret a, rfl⟩
  | panic v => exact ⟨.panic v, rfl⟩
  | get h => exact ⟨h s.w, rfl⟩
  | set w h => exact ⟨h, rfl⟩
  | op o h =>
    cases o with
    | log t => exact ⟨h none, later_notify s (.prjLog _ env t)⟩

theorem prjPar_later (h : HConfig) (env : Env) : ∀ (bs : List Bool)
    {hp hp' : Prog W PrjOp (Except Err Bool)} {cp cp' : Prog W PrjOp (Option Err)}
    (_ : Prog.Sim ρ hp hp') (_ : Prog.Sim ρ cp cp') (s : Sys W R),
    prjPar h (env.later d) bs hp' cp' (s.later d ρ) =
      let r := prjPar h env bs hp cp s
      (r.1.later d ρ, r.2) := by
  intro bs
  induction bs with
  | nil =>
    intro hp hp' cp cp' sh sc s
    unfold prjPar
    have h1 := prjRun_later (d := d) h (some env) sh s
    simp only [Option.map_some] at h1
    rw [h1]
    rcases prjRun h (some env) hp s with ⟨s1, v | r⟩
    · rfl
    · simp only
      have h2 := prjRun_later (d := d) h none sc s1
      simp only [Option.map_none] at h2
      rw [h2]
      rcases prjRun h none cp s1 with ⟨s2, v | r⟩ <;> rfl
  | cons b bs ih =>
    intro hp hp' cp cp' sh sc s
    have hstep := prjStep_later (d := d) h (some env) sh s
    have cstep := prjStep_later (d := d) h none sc s
    simp only [Option.map_some, Option.map_none] at hstep cstep
    have sh' := sh
    have sc' := sc
    have e1 := ih sh' cstep.1 (prjStep h none cp s).2
    have e2 := ih hstep.1 sc' (prjStep h (some env) hp s).2
    rw [← cstep.2] at e1
    rw [← hstep.2] at e2
    cases sc with
    | panic v => unfold prjPar; rfl
    | _ =>
      cases sh with
      | panic v => unfold prjPar; rfl
      | _ =>
        unfold prjPar
        cases b with
        | true => exact e1
        | false => exact e2

theorem prjApply_later {A : App W R} (an : A.AnyTime d ρ) (h : HConfig) (now : Time) (env : Env)
    (s : Sys W R) :
    prjApply A h (now + d) (env.later d) (s.later d ρ) =
      let r := prjApply A h now env s
      (r.1.later d ρ, r.2) := by
  unfold prjApply
  have e1 : ((((s.later d ρ).notify (.prjCompactBegun h)).emit (.call (.prjCompact h (now + d)))).emit
      (.call (.prjHandle h (env.later d).id [] [1] (env.later d).msg))) =
      (((s.notify (.prjCompactBegun h)).emit (.call (.prjCompact h now))).emit
        (.call (.prjHandle h env.id [] [1] env.msg))).later d ρ := by
    rw [← later_emit, ← later_emit, ← later_notify]; rfl
  have e2 : (s.later d ρ).emit (.call (.prjHandle h (env.later d).id [] [1] (env.later d).msg)) =
      (s.emit (.call (.prjHandle h env.id [] [1] env.msg))).later d ρ := by
    rw [← later_emit]; rfl
  rw [e1, e2]
  split
  · rw [show (s.later d ρ).w = ρ s.w from rfl, an.schedule]
    have := prjPar_later (d := d) h env (A.uc.schedule s.w)
      (an.prjHandle h env.id [] [1] env.msg env.createdAt) (an.prjCompact h now)
      (((s.notify (.prjCompactBegun h)).emit (.call (.prjCompact h now))).emit
        (.call (.prjHandle h env.id [] [1] env.msg)))
    rw [show A.uc.prjHandle h (env.later d).id [] [1] (env.later d).msg (env.later d).createdAt =
      A.uc.prjHandle h env.id [] [1] env.msg (env.createdAt + d) from rfl, this]
    rcases prjPar h env (A.uc.schedule s.w) _ _ _ with ⟨s1, v | ⟨r, ce⟩⟩
    · rfl
    · simp only
      rw [show Fact.prjCompactCompleted h ce = (Fact.prjCompactCompleted h ce).later d from rfl,
        later_notify]; rfl
  · have := prjRun_later (d := d) h (some env) (an.prjHandle h env.id [] [1] env.msg env.createdAt)
      (s.emit (.call (.prjHandle h env.id [] [1] env.msg)))
    simp only [Option.map_some] at this
    rw [show A.uc.prjHandle h (env.later d).id [] [1] (env.later d).msg (env.later d).createdAt =
      A.uc.prjHandle h env.id [] [1] env.msg (env.createdAt + d) from rfl, this]
    rcases prjRun h (some env) _ _ with ⟨s1, v | r⟩ <;> rfl

theorem prjFinish_later {A : App W R} (an : A.AnyTime d ρ) (h : HConfig) (env : Env)
    (r : Except Err Bool) (ce : Option Err) (s : Sys W R) :
    prjFinish A h (env.later d) r ce (s.later d ρ) =
      let x := prjFinish A h env r ce s
      (x.1.later d ρ, HRes.later d x.2) := by
  unfold prjFinish
  rcases r with e | _ | _
  · rfl
  · rfl
  · have := later_user (d := d) s (c := .prjClose h env.id) (an.prjClose h env.id)
    simp only [Call.later] at this
    simp only
    rw [show (env.later d).id = env.id from rfl, this]
    rcases s.user (.prjClose h env.id) (A.uc.prjClose h env.id) with ⟨s1, v | _ | e⟩ <;> rfl

theorem prjHandle_later {A : App W R} (an : A.AnyTime d ρ) (h : HConfig) (now : Time) (env : Env)
    (s : Sys W R) : prjHandle A h (now + d) (env.later d) (s.later d ρ) =
      let r := prjHandle A h now env s
      (r.1.later d ρ, HRes.later d r.2) := by
  unfold prjHandle
  rw [show (env.later d).msg = env.msg from rfl]
  split
  · rfl
  split
  · rfl
  have := later_user (d := d) s (c := .prjVersion h env.id) (an.prjVersion h env.id)
  simp only [Call.later] at this
  rw [show (env.later d).id = env.id from rfl, this]
  rcases s.user (.prjVersion h env.id) (A.uc.prjVersion h env.id) with ⟨s1, v | e | b⟩
  · rfl
  · rfl
  · cases b with
    | cons _ _ => rfl
    | nil =>
      simp only
      rw [prjApply_later an h now env]
      rcases prjApply A h now env s1 with ⟨s2, v | ⟨r, ce⟩⟩
      · rfl
      · exact prjFinish_later an h env r ce s2

/-- A compaction is due after the move iff it was due before. -/
theorem due_later {now c : Time} (hm : Modern d now) :
    timeSub (now + d) (compactLater d c) ≥ compactInterval ↔ timeSub now c ≥ compactInterval := by
  unfold Modern at hm
  unfold compactLater
  split
  · rename_i hc
    subst hc
    unfold timeSub compactInterval maxDuration minDuration at *
    constructor <;> intro _ <;> split <;> (try split) <;> omega
  · have : (now + d) - (c + d) = now - c := by omega
    unfold timeSub
    rw [this]

theorem prjTick_later {A : App W R} (an : A.AnyTime d ρ) (h : HConfig) (now : Time)
    (hm : Modern d now) (s : Sys W R) :
    prjTick A h (now + d) (s.later d ρ) =
      let r := prjTick A h now s
      (r.1.later d ρ, r.2) := by
  unfold prjTick
  by_cases hd : timeSub now (s.lastCompact h.name) ≥ compactInterval
  · have hd' : timeSub (now + d) ((s.later d ρ).lastCompact h.name) ≥ compactInterval :=
      (due_later hm).2 hd
    simp only [if_pos hd, if_pos hd']
    have hu : upd (s.later d ρ).lastCompact h.name (now + d) =
        fun n => compactLater d (upd s.lastCompact h.name now n) := by
      funext n
      unfold upd
      split
      · unfold compactLater
        rw [if_neg]
        have := hm.1
        unfold compactInterval at this
        omega
      · rfl
    have e : ((({ s.later d ρ with lastCompact := upd (s.later d ρ).lastCompact h.name (now + d) } :
        Sys W R).notify (.prjCompactBegun h)).emit (.call (.prjCompact h (now + d)))) =
        (((({ s with lastCompact := upd s.lastCompact h.name now } : Sys W R).notify
          (.prjCompactBegun h)).emit (.call (.prjCompact h now)))).later d ρ := by
      rw [← later_emit, ← later_notify, hu]; rfl
    rw [e]
    have := prjRun_later (d := d) h none (an.prjCompact h now)
      ((({ s with lastCompact := upd s.lastCompact h.name now } : Sys W R).notify
          (.prjCompactBegun h)).emit (.call (.prjCompact h now)))
    simp only [Option.map_none] at this
    rw [this]
    rcases prjRun h none _ _ with ⟨s1, v | r⟩
    · rfl
    · simp only
      rw [show Fact.prjCompactCompleted h r = (Fact.prjCompactCompleted h r).later d from rfl,
        later_notify]; rfl
  · have hd' : ¬ timeSub (now + d) ((s.later d ρ).lastCompact h.name) ≥ compactInterval :=
      fun x => hd ((due_later hm).1 x)
    simp only [if_neg hd, if_neg hd']

/-! ### The engine -/

/-- Controllers do the same, some time later; and only timeouts remain pending. -/
theorem ctlHandle_later {A : App W R} (an : A.AnyTime d ρ) (h : HConfig) (now : Time) (env : Env)
    (s : Sys W R) (hs : s.Timed) :
    ctlHandle A h (now + d) (env.later d) (s.later d ρ) =
      (let r := ctlHandle A h now env s
       (r.1.later d ρ, HRes.later d r.2)) ∧ (ctlHandle A h now env s).1.Timed := by
  have hsum : h.htype ≠ .process → (ctlHandle A h now env s).1.proc = s.proc := by
    obtain ⟨_, _, _, _, _, _, hp, _⟩ := ctlHandle_sum A h now env s
    exact hp
  by_cases hp : h.htype = .process
  · unfold ctlHandle
    rw [hp]
    exact procHandle_later an h now env s hs
  · refine ⟨?_, hs.of_eq (hsum hp)⟩
    unfold ctlHandle
    revert hp
    cases h.htype with
    | aggregate => intro _; exact aggHandle_later an h now env s
    | process => intro hp; exact absurd rfl hp
    | integration => intro _; exact intHandle_later an h now env s
    | projection => intro _; exact prjHandle_later an h now env s

/-- The same settings, some time later. -/
def OpOpts.later (d : Int) (oo : OpOpts) : OpOpts := { oo with now := oo.now + d }

theorem skipHandler_later (oo : OpOpts) (h : HConfig) :
    skipHandler (oo.later d) h = skipHandler oo h := rfl

theorem handleOne_later {A : App W R} (an : A.AnyTime d ρ) (oo : OpOpts) (env : Env) (h : HConfig)
    (s : Sys W R) (hs : s.Timed) :
    handleOne A (oo.later d) (env.later d) h (s.later d ρ) =
      (let r := handleOne A oo env h s
       (r.1.later d ρ, HRes.later d r.2)) ∧ (handleOne A oo env h s).1.Timed := by
  unfold handleOne
  rw [skipHandler_later]
  cases skipHandler oo h with
  | some r =>
    simp only
    rw [show Fact.handlingSkipped h (env.later d) r = (Fact.handlingSkipped h env r).later d from rfl,
      later_notify]
    exact ⟨rfl, hs.of_eq rfl⟩
  | none =>
    simp only
    rw [show Fact.handlingBegun h (env.later d) = (Fact.handlingBegun h env).later d from rfl,
      later_notify]
    have hc := ctlHandle_later an h oo.now env (s.notify (.handlingBegun h env)) (hs.of_eq rfl)
    rw [show (oo.later d).now = oo.now + d from rfl, hc.1]
    generalize ctlHandle A h oo.now env (s.notify (.handlingBegun h env)) = z at hc ⊢
    obtain ⟨s1, v | ⟨envs, e⟩⟩ := z
    · exact ⟨rfl, hc.2⟩
    · simp only [HRes.later]
      rw [show Fact.handlingCompleted h (env.later d) e = (Fact.handlingCompleted h env e).later d
        from rfl, later_notify]
      exact ⟨rfl, Sys.Timed.of_eq hc.2 rfl⟩

/-- The same queue, some time later. -/
def queueLater (d : Int) :
    Except PanicVal (List Env × List EngErr) → Except PanicVal (List Env × List EngErr)
  | .error v => .error v
  | .ok (q, de) => .ok (q.map (Env.later d), de)

theorem handleAll_later {A : App W R} (an : A.AnyTime d ρ) (oo : OpOpts) (env : Env)
    (hs : List HConfig) : ∀ (q : List Env) (de : List EngErr) (s : Sys W R), s.Timed →
    handleAll A (oo.later d) (env.later d) hs (q.map (Env.later d)) de (s.later d ρ) =
      (let r := handleAll A oo env hs q de s
       (r.1.later d ρ, queueLater d r.2)) ∧ (handleAll A oo env hs q de s).1.Timed := by
  induction hs with
  | nil => intro q de s ht; exact ⟨rfl, ht⟩
  | cons h hs ih =>
    intro q de s ht
    unfold handleAll
    have h1 := handleOne_later an oo env h s ht
    rw [h1.1]
    generalize handleOne A oo env h s = z at h1 ⊢
    obtain ⟨s1, v | ⟨envs, e⟩⟩ := z
    · exact ⟨rfl, h1.2⟩
    · simp only [HRes.later]
      rw [← List.map_append]
      exact ih _ _ s1 h1.2

theorem targets_later (A : App W R) (env : Env) : A.targets (env.later d) = A.targets env := rfl

theorem dispatchLoop_later {A : App W R} (an : A.AnyTime d ρ) (oo : OpOpts) (n : Nat) :
    ∀ (q : List Env) (errs : List EngErr) (s : Sys W R), s.Timed →
    dispatchLoop A (oo.later d) n (q.map (Env.later d)) errs (s.later d ρ) =
      (let r := dispatchLoop A oo n q errs s
       (r.1.later d ρ, r.2)) ∧ (dispatchLoop A oo n q errs s).1.Timed := by
  induction n with
  | zero =>
    intro q errs s ht
    cases q with
    | nil => exact ⟨rfl, ht⟩
    | cons e q => exact ⟨rfl, ht⟩
  | succ n ih =>
    intro q errs s ht
    cases q with
    | nil => exact ⟨rfl, ht⟩
    | cons env q =>
      simp only [List.map_cons, dispatchLoop]
      rw [targets_later]
      cases A.targets env with
      | error v => exact ⟨rfl, ht⟩
      | ok hs =>
        simp only
        rw [show Fact.dispatchBegun (env.later d) = (Fact.dispatchBegun env).later d from rfl,
          later_notify]
        have h1 := handleAll_later an oo env hs q [] (s.notify (.dispatchBegun env)) (ht.of_eq rfl)
        rw [h1.1]
        generalize handleAll A oo env hs q [] (s.notify (.dispatchBegun env)) = z at h1 ⊢
        obtain ⟨s1, v | ⟨q1, de⟩⟩ := z
        · exact ⟨rfl, h1.2⟩
        · simp only [queueLater]
          rw [show Fact.dispatchCompleted (env.later d) de = (Fact.dispatchCompleted env de).later d
            from rfl, later_notify]
          have ht1 : (s1.notify (.dispatchCompleted env de)).Timed := Sys.Timed.of_eq h1.2 rfl
          generalize s1.notify (.dispatchCompleted env de) = s2 at ht1 ⊢
          rw [show (s2.later d ρ).w = ρ s2.w from rfl, an.ctxErr]
          cases A.uc.ctxErr s2.w with
          | some e => exact ⟨rfl, ht1⟩
          | none => exact ih q1 _ s2 ht1

theorem ctlTick_later {A : App W R} (an : A.AnyTime d ρ) (h : HConfig) (now : Time)
    (hm : Modern d now) (s : Sys W R) (hs : s.Timed) :
    ctlTick A h (now + d) (s.later d ρ) =
      (let r := ctlTick A h now s
       (r.1.later d ρ, HRes.later d r.2)) ∧ (ctlTick A h now s).1.Timed := by
  have hproc : h.htype = .projection → (prjTick A h now s).1.proc = s.proc := by
    intro ht
    obtain ⟨seg, g⟩ := ctlTick_sum A h now s
    have := g.proc
    rw [ht, if_neg (by decide)] at this
    unfold ctlTick at this
    rw [ht] at this
    rw [← this]
    simp only
    rcases prjTick A h now s with ⟨s1, v | e⟩ <;> rfl
  unfold ctlTick
  cases ht : h.htype with
  | aggregate => exact ⟨rfl, hs⟩
  | integration => exact ⟨rfl, hs⟩
  | process =>
    have h1 := procTick_later (d := d) (ρ := ρ) h now s hs
    simp only
    rw [h1.1]
    generalize procTick h now s = z at h1 ⊢
    exact ⟨rfl, h1.2⟩
  | projection =>
    have h1 := prjTick_later an h now hm s
    have h2 : (prjTick A h now s).1.proc = s.proc := hproc ht
    simp only
    rw [h1]
    generalize prjTick A h now s = z at h2 ⊢
    obtain ⟨s1, v | e⟩ := z
    · exact ⟨rfl, hs.of_eq h2⟩
    · exact ⟨rfl, hs.of_eq h2⟩

/-- The same result of a round of ticks, some time later. -/
def roundLater (d : Int) :
    Except PanicVal (List Env × List EngErr × Option Err) →
    Except PanicVal (List Env × List EngErr × Option Err)
  | .error v => .error v
  | .ok (q, errs, c) => .ok (q.map (Env.later d), errs, c)

theorem tickAll_later {A : App W R} (an : A.AnyTime d ρ) (oo : OpOpts) (hm : Modern d oo.now)
    (hs : List HConfig) : ∀ (q : List Env) (errs : List EngErr) (s : Sys W R), s.Timed →
    tickAll A (oo.later d) hs (q.map (Env.later d)) errs (s.later d ρ) =
      (let r := tickAll A oo hs q errs s
       (r.1.later d ρ, roundLater d r.2)) ∧ (tickAll A oo hs q errs s).1.Timed := by
  induction hs with
  | nil => intro q errs s ht; exact ⟨rfl, ht⟩
  | cons h hs ih =>
    intro q errs s ht
    unfold tickAll
    rw [skipHandler_later]
    cases skipHandler oo h with
    | some r =>
      simp only
      rw [show Fact.tickSkipped h r = (Fact.tickSkipped h r).later d from rfl, later_notify]
      exact ih q errs _ (ht.of_eq rfl)
    | none =>
      simp only
      rw [show Fact.tickBegun h = (Fact.tickBegun h).later d from rfl, later_notify]
      rw [show (Fact.tickBegun h).later d = Fact.tickBegun h from rfl]
      have h1 := ctlTick_later an h oo.now hm (s.notify (.tickBegun h)) (ht.of_eq rfl)
      rw [show (oo.later d).now = oo.now + d from rfl, h1.1]
      generalize ctlTick A h oo.now (s.notify (.tickBegun h)) = z at h1 ⊢
      obtain ⟨s1, v | ⟨envs, e⟩⟩ := z
      · exact ⟨rfl, h1.2⟩
      · simp only [HRes.later]
        rw [show Fact.tickCompleted h e = (Fact.tickCompleted h e).later d from rfl, later_notify]
        rw [show (Fact.tickCompleted h e).later d = Fact.tickCompleted h e from rfl]
        have ht1 : (s1.notify (.tickCompleted h e)).Timed := Sys.Timed.of_eq h1.2 rfl
        generalize s1.notify (.tickCompleted h e) = s2 at ht1 ⊢
        rw [show (s2.later d ρ).w = ρ s2.w from rfl, an.ctxErr, ← List.map_append]
        cases A.uc.ctxErr s2.w with
        | some e => exact ⟨rfl, ht1⟩
        | none => exact ih _ _ s2 ht1

theorem engTickLocked_later {A : App W R} (an : A.AnyTime d ρ) (oo : OpOpts) (hm : Modern d oo.now)
    (n : Nat) (order : List HConfig) (s : Sys W R) (hs : s.Timed) :
    engTickLocked A (oo.later d) n order (s.later d ρ) =
      (let r := engTickLocked A oo n order s
       (r.1.later d ρ, r.2)) ∧ (engTickLocked A oo n order s).1.Timed := by
  unfold engTickLocked
  have h1 := tickAll_later an oo hm order [] [] s hs
  simp only [List.map_nil] at h1
  rw [h1.1]
  generalize tickAll A oo order [] [] s = z at h1 ⊢
  obtain ⟨s1, v | ⟨q, errs, c | c⟩⟩ := z
  · exact ⟨rfl, h1.2⟩
  · simp only [roundLater]
    have h2 := dispatchLoop_later an oo n q [] s1 h1.2
    rw [h2.1]
    generalize dispatchLoop A oo n q [] s1 = y at h2 ⊢
    obtain ⟨s2, o⟩ := y
    cases o <;> exact ⟨rfl, h2.2⟩
  · exact ⟨rfl, h1.2⟩

/-- The operation is told the time, or the computer's clock is moved as well. -/
def Op.Told (A : App W R) (d : Int) (ρ : W → W) (s : Sys W R) (op : Op) : Prop :=
  (∃ t, OpOption.currentTime t ∈ op.opts) ∨ A.uc.wallClock (ρ s.w) = A.uc.wallClock s.w + d

/-- The same settings, some time later, if there are any. -/
def settingsLater (d : Int) : Except PanicVal OpOpts → Except PanicVal OpOpts
  | .error v => .error v
  | .ok oo => .ok (oo.later d)

theorem applyAll_later (A : App W R) (os : List OpOption) : ∀ (oo oo' : OpOpts),
    (oo'.types = oo.types ∧ oo'.names = oo.names ∧ oo'.observers = oo.observers) →
    ((∃ t, OpOption.currentTime t ∈ os) ∨ oo'.now = oo.now + d) →
    oo'.applyAll A (os.map (OpOption.later d)) = settingsLater d (oo.applyAll A os) := by
  induction os with
  | nil =>
    intro oo oo' he hn'
    have hn : oo'.now = oo.now + d := by
      rcases hn' with ⟨t, ht⟩ | hn
      · cases ht
      · exact hn
    obtain ⟨a, b, c, e⟩ := oo
    obtain ⟨a', b', c', e'⟩ := oo'
    obtain ⟨h1, h2, h3⟩ := he
    clear hn'
    simp only at h1 h2 h3 hn
    subst h1 h2 h3 hn
    rfl
  | cons o os ih =>
    intro oo oo' he hn
    obtain ⟨h1, h2, h3⟩ := he
    cases o with
    | enableType t b =>
      simp only [List.map_cons, OpOption.later, OpOpts.applyAll, OpOpts.apply]
      refine ih _ _ ⟨by simp only; rw [h1], h2, h3⟩ ?_
      rcases hn with ⟨t, ht⟩ | hn
      · exact .inl ⟨t, by simpa using ht⟩
      · exact .inr hn
    | enableHandler m b =>
      simp only [List.map_cons, OpOption.later, OpOpts.applyAll, OpOpts.apply]
      by_cases hm : m ∈ A.cfgs.map HConfig.name
      · simp only [if_pos hm]
        refine ih _ _ ⟨h1, by simp only; rw [h2], h3⟩ ?_
        rcases hn with ⟨t, ht⟩ | hn
        · exact .inl ⟨t, by simpa using ht⟩
        · exact .inr hn
      · simp only [if_neg hm]; rfl
    | currentTime t =>
      simp only [List.map_cons, OpOption.later, OpOpts.applyAll, OpOpts.apply]
      exact ih _ _ ⟨h1, h2, h3⟩ (.inr rfl)
    | observer k =>
      simp only [List.map_cons, OpOption.later, OpOpts.applyAll, OpOpts.apply]
      refine ih _ _ ⟨h1, h2, by simp only; rw [h3]⟩ ?_
      rcases hn with ⟨t, ht⟩ | hn
      · exact .inl ⟨t, by simpa using ht⟩
      · exact .inr hn

theorem newOpOpts_later {A : App W R} (s : Sys W R) (os : List OpOption)
    (ht : (∃ t, OpOption.currentTime t ∈ os) ∨ A.uc.wallClock (ρ s.w) = A.uc.wallClock s.w + d) :
    newOpOpts A (s.later d ρ) (os.map (OpOption.later d)) = settingsLater d (newOpOpts A s os) :=
  applyAll_later A os _ _ ⟨rfl, rfl, rfl⟩ ht

theorem engTick_later {A : App W R} (an : A.AnyTime d ρ) (n : Nat) (order : List HConfig)
    (os : List OpOption) (s : Sys W R) (hs : s.Timed)
    (ht : (Op.tick n order os).Told A d ρ s) (hm : Modern d ((Op.tick n order os).time A s)) :
    engTick A n order (os.map (OpOption.later d)) (s.later d ρ) =
      (let r := engTick A n order os s
       (r.1.later d ρ, r.2)) ∧ (engTick A n order os s).1.Timed := by
  unfold engTick
  rw [newOpOpts_later s os ht]
  cases ho : newOpOpts A s os with
  | error v => exact ⟨rfl, hs⟩
  | ok oo =>
    have hnow : oo.now = (Op.tick n order os).time A s := newOpOpts_now ho
    simp only [settingsLater]
    rw [show Fact.tickCycleBegun ((oo.later d).cycle A) =
      (Fact.tickCycleBegun (oo.cycle A)).later d from rfl, later_notify,
      show ((oo.later d).cycle A).maps = (oo.cycle A).maps from rfl]
    have hs1 : (s.notify (.tickCycleBegun (oo.cycle A))).Timed := hs.of_eq rfl
    generalize s.notify (.tickCycleBegun (oo.cycle A)) = s1 at hs1 ⊢
    rw [show (s1.later d ρ).w = ρ s1.w from rfl, an.lockErr]
    cases A.uc.lockErr s1.w with
    | some e =>
      simp only
      exact ⟨Prod.ext (later_notify s1 (.tickCycleCompleted _ _)) rfl, Sys.Timed.of_eq hs1 rfl⟩
    | none =>
      simp only
      have h1 := engTickLocked_later an oo (hnow ▸ hm) n order s1 hs1
      rw [h1.1]
      generalize engTickLocked A oo n order s1 = z at h1 ⊢
      obtain ⟨s2, o⟩ := z
      cases o with
      | done errs =>
        exact ⟨Prod.ext (later_notify s2 (.tickCycleCompleted _ _)) rfl, Sys.Timed.of_eq h1.2 rfl⟩
      | panicked v => exact ⟨rfl, h1.2⟩
      | running => exact ⟨rfl, h1.2⟩

theorem engDispatch_later {A : App W R} (an : A.AnyTime d ρ) (n : Nat) (m : Message)
    (os : List OpOption) (s : Sys W R) (hs : s.Timed) (ht : (Op.dispatch n m os).Told A d ρ s) :
    engDispatch A n m (os.map (OpOption.later d)) (s.later d ρ) =
      (let r := engDispatch A n m os s
       (r.1.later d ρ, r.2)) ∧ (engDispatch A n m os s).1.Timed := by
  unfold engDispatch
  simp only
  have e0 : ({ s.later d ρ with nextID := (s.later d ρ).nextID + 1 } : Sys W R) =
    ({ s with nextID := s.nextID + 1 } : Sys W R).later d ρ := rfl
  rw [e0]
  have ht' : (∃ t, OpOption.currentTime t ∈ os) ∨
      A.uc.wallClock (ρ ({ s with nextID := s.nextID + 1 } : Sys W R).w) =
        A.uc.wallClock ({ s with nextID := s.nextID + 1 } : Sys W R).w + d := ht
  have hs0 : ({ s with nextID := s.nextID + 1 } : Sys W R).Timed := hs.of_eq rfl
  rw [show (s.later d ρ).nextID + 1 = ({ s with nextID := s.nextID + 1 } : Sys W R).nextID from rfl]
  rw [show s.nextID + 1 = ({ s with nextID := s.nextID + 1 } : Sys W R).nextID from rfl]
  generalize ({ s with nextID := s.nextID + 1 } : Sys W R) = s0 at ht' hs0 ⊢
  rw [newOpOpts_later s0 os ht']
  cases ho : newOpOpts A s0 os with
  | error v => exact ⟨rfl, hs0⟩
  | ok oo =>
    simp only [settingsLater]
    by_cases hk : m.type.kind = .timeout
    · rw [if_pos hk, if_pos hk]; exact ⟨rfl, hs0⟩
    · rw [if_neg hk, if_neg hk]
      cases m.invalid with
      | some e => exact ⟨rfl, hs0⟩
      | none =>
        simp only
        split
        · exact ⟨rfl, hs0⟩
        · rw [show (oo.later d).now = oo.now + d from rfl, root_later _ _ _ hk]
          generalize Env.root s0.nextID m oo.now = env
          rw [show Fact.dispatchCycleBegun (env.later d) ((oo.later d).cycle A) =
            (Fact.dispatchCycleBegun env (oo.cycle A)).later d from rfl, later_notify,
            show ((oo.later d).cycle A).maps = (oo.cycle A).maps from rfl]
          have hs1 : (s0.notify (.dispatchCycleBegun env (oo.cycle A))).Timed := hs0.of_eq rfl
          generalize s0.notify (.dispatchCycleBegun env (oo.cycle A)) = s1 at hs1 ⊢
          rw [show (s1.later d ρ).w = ρ s1.w from rfl, an.lockErr]
          cases A.uc.lockErr s1.w with
          | some e =>
            simp only
            exact ⟨Prod.ext (later_notify s1 (.dispatchCycleCompleted env _ _)) rfl,
              Sys.Timed.of_eq hs1 rfl⟩
          | none =>
            simp only
            have h1 := dispatchLoop_later an oo n [env] [] s1 hs1
            simp only [List.map_cons, List.map_nil] at h1
            rw [h1.1]
            generalize dispatchLoop A oo n [env] [] s1 = z at h1 ⊢
            obtain ⟨s2, o⟩ := z
            cases o with
            | done errs =>
              exact ⟨Prod.ext (later_notify s2 (.dispatchCycleCompleted env _ _)) rfl,
                Sys.Timed.of_eq h1.2 rfl⟩
            | panicked v => exact ⟨rfl, h1.2⟩
            | running => exact ⟨rfl, h1.2⟩

theorem runResetters_later (fs : List (W → W × Option PanicVal)) (hf : ∀ f ∈ fs, SimFn ρ f f) :
    ∀ (i : Nat) (s : Sys W R), s.Timed → runResetters i fs (s.later d ρ) =
      (let r := runResetters i fs s
       (r.1.later d ρ, r.2)) ∧ (runResetters i fs s).1.Timed := by
  induction fs with
  | nil => intro i s hs; exact ⟨rfl, hs⟩
  | cons f fs ih =>
    intro i s hs
    unfold runResetters
    have := later_user (d := d) s (c := .resetter i) (hf f (by simp))
    simp only [Call.later] at this
    rw [this]
    have ht : (s.user (.resetter i) f).1.Timed := hs.of_eq rfl
    generalize s.user (.resetter i) f = z at ht ⊢
    obtain ⟨s1, _ | v⟩ := z
    · exact ih (fun g hg => hf g (by simp [hg])) (i + 1) s1 ht
    · exact ⟨rfl, ht⟩

theorem engReset_later {A : App W R} (an : A.AnyTime d ρ) (s : Sys W R) :
    engReset A (s.later d ρ) =
      (let r := engReset A s
       (r.1.later d ρ, r.2)) ∧ (engReset A s).1.Timed := by
  unfold engReset
  have e : ({ (s.later d ρ).emit .reset with
      nextID := 0, agg := fun _ _ => none, proc := fun _ => ⟨fun _ => none, []⟩ } : Sys W R) =
      ({ s.emit .reset with
        nextID := 0, agg := fun _ _ => none, proc := fun _ => ⟨fun _ => none, []⟩ } :
        Sys W R).later d ρ := by
    rw [show (s.later d ρ).emit .reset = (s.emit .reset).later d ρ from later_emit s .reset]
    rfl
  rw [e]
  exact runResetters_later A.uc.resetters an.resetters 0 _ nofun

/-- One operation, some time later. -/
theorem op_later {A : App W R} (an : A.AnyTime d ρ) (op : Op) (s : Sys W R) (hs : s.Timed)
    (ht : op = .reset ∨ op.Told A d ρ s)
    (hm : ∀ n order os, op = .tick n order os → Modern d (op.time A s)) :
    (op.later d).exec A (s.later d ρ) =
      (let r := op.exec A s
       (r.1.later d ρ, r.2)) ∧ (op.exec A s).1.Timed := by
  cases op with
  | dispatch n m os => exact engDispatch_later an n m os s hs (by simpa using ht)
  | tick n order os => exact engTick_later an n order os s hs (by simpa using ht) (hm n order os rfl)
  | reset => exact engReset_later an s

theorem init_later (w : W) : (Sys.init w : Sys W R).later d ρ = Sys.init (ρ w) := rfl

theorem init_timed (w : W) : (Sys.init w : Sys W R).Timed := nofun

end

end Verif
