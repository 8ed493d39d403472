import Verif.Relabel

/-!
# Other contents of messages

What the engine does when messages have other contents.  Specification, and proof machinery: the
engine looks at the types of messages and at whether they are valid, but not at what is in them.
-/

namespace Verif

variable {W R W' R' : Type}

/-! ## Specification -/

/-- Other contents of messages, and the representation of roots and of the world that goes with
them.  Several contents may become the same. -/
structure Wording (W R W' R' : Type) where
  root : R → R'
  world : W → W'
  body : MType → String → String

/-- Put other contents in a message.  It keeps its type, and is as valid as before. -/
def Message.bd (β : MType → String → String) (m : Message) : Message := ⟨m.type, β m.type m.body, m.invalid⟩

/-- Put other contents in the message in an envelope. -/
def Env.bd (β : MType → String → String) (e : Env) : Env := { e with msg := e.msg.bd β }

/-- Put other contents in the message that a panic is about. -/
def PanicVal.bd (β : MType → String → String) : PanicVal → PanicVal
  | .enriched h i n m => .enriched h i n (m.bd β)
  | .behavior h i n m d => .behavior h i n (m.bd β) d
  | v => v

/-- Put other contents in messages of facts. -/
def Fact.bd (β : MType → String → String) : Fact → Fact
  | .dispatchCycleBegun env c => .dispatchCycleBegun (env.bd β) c
  | .dispatchCycleCompleted env m err => .dispatchCycleCompleted (env.bd β) m err
  | .dispatchBegun env => .dispatchBegun (env.bd β)
  | .dispatchCompleted env err => .dispatchCompleted (env.bd β) err
  | .handlingBegun h env => .handlingBegun h (env.bd β)
  | .handlingCompleted h env err => .handlingCompleted h (env.bd β) err
  | .handlingSkipped h env r => .handlingSkipped h (env.bd β) r
  | .tickCycleBegun c => .tickCycleBegun c
  | .tickCycleCompleted m err => .tickCycleCompleted m err
  | .tickBegun h => .tickBegun h
  | .tickCompleted h err => .tickCompleted h err
  | .tickSkipped h r => .tickSkipped h r
  | .aggLoaded h id env => .aggLoaded h id (env.bd β)
  | .aggNotFound h id env => .aggNotFound h id (env.bd β)
  | .aggCreated h id env => .aggCreated h id (env.bd β)
  | .aggDestroyed h id env => .aggDestroyed h id (env.bd β)
  | .aggReverted h id env => .aggReverted h id (env.bd β)
  | .aggEvent h id env ev => .aggEvent h id (env.bd β) (ev.bd β)
  | .aggLog h id env s => .aggLog h id (env.bd β) s
  | .procLoaded h id env => .procLoaded h id (env.bd β)
  | .procEventIgnored h env => .procEventIgnored h (env.bd β)
  | .procTimeoutIgnored h id env => .procTimeoutIgnored h id (env.bd β)
  | .procNotFound h id env => .procNotFound h id (env.bd β)
  | .procBegun h id env => .procBegun h id (env.bd β)
  | .procEnded h id env => .procEnded h id (env.bd β)
  | .procReverted h id env => .procReverted h id (env.bd β)
  | .procCommand h id env cmd => .procCommand h id (env.bd β) (cmd.bd β)
  | .procTimeout h id env tmo => .procTimeout h id (env.bd β) (tmo.bd β)
  | .procLog h id env s => .procLog h id (env.bd β) s
  | .intEvent h env ev => .intEvent h (env.bd β) (ev.bd β)
  | .intLog h env s => .intLog h (env.bd β) s
  | .prjCompactBegun h => .prjCompactBegun h
  | .prjCompactCompleted h err => .prjCompactCompleted h err
  | .prjLog h env s => .prjLog h (env.map (Env.bd β)) s

/-- Put other contents in the message that user code is called with. -/
def Call.bd (v : Wording W R W' R') : Call R → Call R'
  | .aggRoute h m => .aggRoute h (m.bd v.body)
  | .aggNew h => .aggNew h
  | .aggApply h r m => .aggApply h (v.root r) (m.bd v.body)
  | .aggHandle h id r m => .aggHandle h id (v.root r) (m.bd v.body)
  | .procRoute h m => .procRoute h (m.bd v.body)
  | .procNew h => .procNew h
  | .procHandle h id r m t => .procHandle h id (v.root r) (m.bd v.body) t
  | .intHandle h m => .intHandle h (m.bd v.body)
  | .prjVersion h res => .prjVersion h res
  | .prjHandle h res cur next m => .prjHandle h res cur next (m.bd v.body)
  | .prjClose h res => .prjClose h res
  | .prjCompact h now => .prjCompact h now
  | .resetter i => .resetter i

/-- Put other contents in messages of observations. -/
def Obs.bd (v : Wording W R W' R') : Obs R → Obs R'
  | .fact x => .fact (x.bd v.body)
  | .call c => .call (c.bd v)
  | .reset => .reset

/-- Put other contents in messages in the state of an engine. -/
def Sys.bd (v : Wording W R W' R') (s : Sys W R) : Sys W' R' where
  w := v.world s.w
  nextID := s.nextID
  agg := fun h id => (s.agg h id).map (List.map (Env.bd v.body))
  proc := fun h => ⟨fun id => ((s.proc h).inst id).map v.root, (s.proc h).timeouts.map (Env.bd v.body)⟩
  lastCompact := s.lastCompact
  trace := s.trace.map (Obs.bd v)

/-- An operation of an aggregate, with other contents. -/
def AggOp.bd (v : Wording W R W' R') : AggOp R → AggOp R'
  | .record m => .record (m.bd v.body)
  | .destroy => .destroy
  | .setRoot r => .setRoot (v.root r)
  | .log t => .log t

/-- An operation of a process, with other contents. -/
def ProcOp.bd (v : Wording W R W' R') : ProcOp R → ProcOp R'
  | .execute m => .execute (m.bd v.body)
  | .schedule m t => .schedule (m.bd v.body) t
  | .end_ => .end_
  | .setRoot r => .setRoot (v.root r)
  | .log t => .log t

/-- An operation of an integration handler, with other contents. -/
def IntOp.bd (β : MType → String → String) : IntOp → IntOp
  | .record m => .record (m.bd β)
  | .log t => .log t

/-- `p'` does with the other contents what `p` does. -/
inductive Prog.Bd {O O' α : Type} (β : MType → String → String) (g : W → W') (φ : O → O') :
    Prog W O α → Prog W' O' α → Prop where
  | ret (a : α) : Prog.Bd β g φ (.ret a) (.ret a)
  | panic (p : PanicVal) : Prog.Bd β g φ (.panic p) (.panic (p.bd β))
  | op (o : O) {k k'} (h : ∀ p, Prog.Bd β g φ (k p) (k' (p.map (PanicVal.bd β)))) :
      Prog.Bd β g φ (.op o k) (.op (φ o) k')
  | get {k k'} (h : ∀ w, Prog.Bd β g φ (k w) (k' (g w))) : Prog.Bd β g φ (.get k) (.get k')
  | set (w : W) {k k'} (h : Prog.Bd β g φ k k') : Prog.Bd β g φ (.set w k) (.set (g w) k')

/-- The result of a function of the user that may panic. -/
def resBd {α α' : Type} (β : MType → String → String) (φ : α → α') : Except PanicVal α → Except PanicVal α'
  | .error p => .error (p.bd β)
  | .ok a => .ok (φ a)

/-- Functions of the user without result: the second of each pair does in the other world what the
first does. -/
def BdFns (β : MType → String → String) (g : W → W') :
    List (W → W × Option PanicVal) → List (W' → W' × Option PanicVal) → Prop
  | [], [] => True
  | x :: xs, x' :: xs' => AltFn g (Option.map (PanicVal.bd β)) x x' ∧ BdFns β g xs xs'
  | _, _ => False

/-- `A'` is the application `A`, with other contents of messages: the handlers do with a message what
those of `A` do with the one that had the old contents. -/
structure App.Rewords (A : App W R) (A' : App W' R') (v : Wording W R W' R') : Prop where
  cfgs : A'.cfgs = A.cfgs
  compact : A'.compactDuringHandling = A.compactDuringHandling
  sort : ∀ l, A'.sort.sort (l.map (Env.bd v.body)) = (A.sort.sort l).map (Env.bd v.body)
  aggRoute : ∀ h m, AltFn v.world (resBd v.body id) (A.uc.aggRoute h m) (A'.uc.aggRoute h (m.bd v.body))
  aggNew : ∀ h, AltFn v.world (resBd v.body (Option.map v.root)) (A.uc.aggNew h) (A'.uc.aggNew h)
  aggApply : ∀ h r m, AltFn v.world (fun x => (v.root x.1, x.2.map (PanicVal.bd v.body)))
    (A.uc.aggApply h r m) (A'.uc.aggApply h (v.root r) (m.bd v.body))
  aggHandle : ∀ h id r m, Prog.Bd v.body v.world (AggOp.bd v) (A.uc.aggHandle h id r m)
    (A'.uc.aggHandle h id (v.root r) (m.bd v.body))
  procRoute : ∀ h m, AltFn v.world (resBd v.body id) (A.uc.procRoute h m)
    (A'.uc.procRoute h (m.bd v.body))
  procNew : ∀ h, AltFn v.world (resBd v.body (Option.map v.root)) (A.uc.procNew h) (A'.uc.procNew h)
  procHandle : ∀ h id r m t, Prog.Bd v.body v.world (ProcOp.bd v) (A.uc.procHandle h id r m t)
    (A'.uc.procHandle h id (v.root r) (m.bd v.body) t)
  intHandle : ∀ h m, Prog.Bd v.body v.world (IntOp.bd v.body) (A.uc.intHandle h m)
    (A'.uc.intHandle h (m.bd v.body))
  prjVersion : ∀ h res, AltFn v.world (resBd v.body id) (A.uc.prjVersion h res) (A'.uc.prjVersion h res)
  prjHandle : ∀ h res cur next m t, Prog.Bd v.body v.world id (A.uc.prjHandle h res cur next m t)
    (A'.uc.prjHandle h res cur next (m.bd v.body) t)
  prjClose : ∀ h res, AltFn v.world (resBd v.body id) (A.uc.prjClose h res) (A'.uc.prjClose h res)
  prjCompact : ∀ h now, Prog.Bd v.body v.world id (A.uc.prjCompact h now) (A'.uc.prjCompact h now)
  schedule : ∀ w, A'.uc.schedule (v.world w) = A.uc.schedule w
  resetters : BdFns v.body v.world A.uc.resetters A'.uc.resetters
  ctxErr : ∀ w, A'.uc.ctxErr (v.world w) = A.uc.ctxErr w
  lockErr : ∀ w, A'.uc.lockErr (v.world w) = A.uc.lockErr w
  wallClock : ∀ w, A'.uc.wallClock (v.world w) = A.uc.wallClock w

/-- An operation, with other contents of the message that is dispatched. -/
def Op.bd (β : MType → String → String) : Op → Op
  | .dispatch n m os => .dispatch n (m.bd β) os
  | .tick n order os => .tick n order os
  | .reset => .reset

/-- An outcome, with other contents of the message that a panic is about. -/
def Outcome.bd {α : Type} (β : MType → String → String) : Outcome α → Outcome α
  | .done a => .done a
  | .panicked p => .panicked (p.bd β)
  | .running => .running

/-! ## Lemmas -/

/-- Put other contents in the scope of an aggregate. -/
def AggScope.bd (v : Wording W R W' R') (sc : AggScope R) : AggScope R' where
  root := sc.root.map v.root
  exists_ := sc.exists_
  destroyed := sc.destroyed
  events := sc.events.map (Env.bd v.body)
  given := sc.given

/-- Put other contents in the scope of a process. -/
def ProcScope.bd (v : Wording W R W' R') (sc : ProcScope R) : ProcScope R' where
  root := v.root sc.root
  ended := sc.ended
  commands := sc.commands.map (Env.bd v.body)
  ready := sc.ready.map (Env.bd v.body)
  pending := sc.pending.map (Env.bd v.body)

/-- Put other contents in the result of `Handle`. -/
def HRes.bd (β : MType → String → String) : HRes → HRes
  | .error p => .error (p.bd β)
  | .ok (envs, e) => .ok (envs.map (Env.bd β), e)

section
variable {v : Wording W R W' R'}

theorem enrich_bd (β : MType → String → String) (h : HConfig) (i n : String) (m : Message) (p : PanicVal) :
    enrich h i n (m.bd β) (p.bd β) = (enrich h i n m p).bd β := by
  cases p <;> rfl

theorem produces_bd (β : MType → String → String) (h : HConfig) (k : Kind) (m : Message) :
    h.produces? k (m.bd β) = h.produces? k m := rfl

theorem invalid_bd (β : MType → String → String) (m : Message) : (m.bd β).invalid = m.invalid := rfl

theorem consumes_bd (β : MType → String → String) (h : HConfig) (m : Message) :
    h.consumes? (m.bd β) = h.consumes? m := rfl

theorem kind_bd (β : MType → String → String) (m : Message) : (m.bd β).type.kind = m.type.kind := rfl

theorem bd_emit (s : Sys W R) (o : Obs R) : (s.bd v).emit (o.bd v) = (s.emit o).bd v := by
  simp [Sys.bd, Sys.emit]

theorem bd_call (s : Sys W R) (c : Call R) :
    (s.bd v).emit (.call (c.bd v)) = (s.emit (.call c)).bd v := bd_emit s (.call c)

theorem bd_notify (s : Sys W R) (x : Fact) : (s.bd v).notify (x.bd v.body) = (s.notify x).bd v :=
  bd_emit s (.fact x)

theorem bd_told (s : Sys W R) (x : Fact) {x' : Fact} (h : x' = x.bd v.body) :
    (s.bd v).notify x' = (s.notify x).bd v := by subst h; exact bd_notify s x

theorem bd_user {α α' : Type} (s : Sys W R) (c : Call R) {φ : α → α'} {x : W → W × α}
    {x' : W' → W' × α'} (h : AltFn v.world φ x x') :
    (s.bd v).user (c.bd v) x' = ((s.user c x).1.bd v, φ (s.user c x).2) := by
  have := h s.w
  simp [Sys.user, Sys.bd, Sys.emit, Obs.bd, this]

theorem setProc_bd (s : Sys W R) (h : HConfig) (i : String → Option R) (l : List Env) :
    (s.bd v).setProc h ⟨fun id => (i id).map v.root, l.map (Env.bd v.body)⟩ =
      (s.setProc h ⟨i, l⟩).bd v := by
  simp only [Sys.setProc, Sys.bd, Sys.mk.injEq, true_and, and_true]
  funext x
  simp only [upd]
  split <;> rfl

/-! ### Aggregates -/

theorem aggDestroy_bd {A : App W R} {A' : App W' R'} (al : A.Rewords A' v) (h : HConfig)
    (id : String) (env : Env) (s : Sys W R) (sc : AggScope R) :
    aggDestroy A' h id (env.bd v.body) (s.bd v) (sc.bd v) =
      let r := aggDestroy A h id env s sc
      (r.1.bd v, r.2.1.bd v, r.2.2.map (PanicVal.bd v.body)) := by
  unfold aggDestroy
  rw [show (sc.bd v).exists_ = sc.exists_ from rfl]
  split
  · rfl
  · have := bd_user s (.aggNew h) (al.aggNew h)
    simp only [Call.bd] at this
    rw [this]
    rcases s.user (.aggNew h) (A.uc.aggNew h) with ⟨s1, p | r⟩
    · rfl
    · simp only [resBd]
      rw [bd_told s1 (.aggDestroyed h id env) (by rfl)]; rfl

theorem aggApplyScope_bd {A : App W R} {A' : App W' R'} (al : A.Rewords A' v) (h : HConfig)
    (m : Message) (s : Sys W R) (sc : AggScope R) :
    aggApplyScope A' h (m.bd v.body) (s.bd v) (sc.bd v) =
      let r := aggApplyScope A h m s sc
      (r.1.bd v, r.2.1.bd v, r.2.2.map (PanicVal.bd v.body)) := by
  unfold aggApplyScope
  rw [show (sc.bd v).root = sc.root.map v.root from rfl]
  rcases sc.root with _ | r
  · rfl
  · have := bd_user s (.aggApply h r m) (al.aggApply h r m)
    simp only [Call.bd] at this
    simp only [Option.map_some]
    rw [this]
    rcases s.user (.aggApply h r m) (A.uc.aggApply h r m) with ⟨s1, r', _ | p⟩
    · rfl
    · simp only [Option.map_some, enrich_bd]; rfl

theorem aggRevive_bd (h : HConfig) (id : String) (env : Env) (s : Sys W R) (sc : AggScope R) :
    aggRevive h id (env.bd v.body) (s.bd v) (sc.bd v) =
      let r := aggRevive h id env s sc
      (r.1.bd v, r.2.bd v) := by
  unfold aggRevive
  rw [show (sc.bd v).exists_ = sc.exists_ from rfl, show (sc.bd v).destroyed = sc.destroyed from rfl]
  split
  · rfl
  · split
    · rw [bd_told s (.aggReverted h id env) (by rfl)]; rfl
    · rw [bd_told s (.aggCreated h id env) (by rfl)]; rfl

theorem child_bd (env : Env) (k : Nat) (m : Message) (t : Time) (h : HConfig) (ht : HandlerType) (i : String) :
    (env.bd v.body).child k (m.bd v.body) t ⟨h, ht, i⟩ = (env.child k m t ⟨h, ht, i⟩).bd v.body := rfl

theorem childTimeout_bd (env : Env) (k : Nat) (m : Message) (t t' : Time) (h : HConfig) (ht : HandlerType)
    (i : String) : (env.bd v.body).childTimeout k (m.bd v.body) t t' ⟨h, ht, i⟩ =
      (env.childTimeout k m t t' ⟨h, ht, i⟩).bd v.body := rfl

theorem bd_next (s : Sys W R) : ({ s.bd v with nextID := (s.bd v).nextID + 1 } : Sys W' R') =
    ({ s with nextID := s.nextID + 1 } : Sys W R).bd v := rfl

theorem aggEmit_bd (h : HConfig) (id : String) (now : Time) (env : Env) (m : Message) (s : Sys W R)
    (sc : AggScope R) :
    aggEmit h id now (env.bd v.body) (m.bd v.body) (s.bd v) (sc.bd v) =
      let r := aggEmit h id now env m s sc
      (r.1.bd v, r.2.bd v) := by
  unfold aggEmit
  simp only
  rw [bd_next, child_bd,
    bd_told _ (.aggEvent h id env (env.child (s.nextID + 1) m now ⟨h, .aggregate, id⟩)) (by rfl)]
  simp [AggScope.bd, Sys.bd]

theorem aggOp_bd {A : App W R} {A' : App W' R'} (al : A.Rewords A' v) (h : HConfig) (id : String)
    (now : Time) (env : Env) (o : AggOp R) (s : Sys W R) (sc : AggScope R) :
    aggOp A' h id now (env.bd v.body) (o.bd v) (s.bd v) (sc.bd v) =
      let r := aggOp A h id now env o s sc
      (r.1.bd v, r.2.1.bd v, r.2.2.map (PanicVal.bd v.body)) := by
  cases o with
  | record m =>
    simp only [AggOp.bd, aggOp]
    unfold aggRecord
    rw [produces_bd, invalid_bd]
    split
    · rfl
    · cases m.invalid with
      | some e => rfl
      | none =>
        simp only
        rw [aggRevive_bd]
        rcases aggRevive h id env s sc with ⟨s1, sc1⟩
        simp only
        rw [aggApplyScope_bd al]
        rcases aggApplyScope A h m s1 sc1 with ⟨s2, sc2, _ | p⟩
        · simp only [Option.map_none]
          rw [aggEmit_bd]
        · rfl
  | destroy => exact aggDestroy_bd al h id env s sc
  | setRoot r =>
    simp only [AggOp.bd, aggOp]
    rw [show (sc.bd v).given = sc.given from rfl]
    split <;> rfl
  | log t =>
    simp only [AggOp.bd, aggOp]
    rw [bd_told s (.aggLog h id env t) (by rfl)]; rfl

theorem aggRun_bd {A : App W R} {A' : App W' R'} (al : A.Rewords A' v) (h : HConfig) (id : String)
    (now : Time) (env : Env) {p : Prog W (AggOp R) Unit} {p' : Prog W' (AggOp R') Unit}
    (sim : Prog.Bd v.body v.world (AggOp.bd v) p p') : ∀ (s : Sys W R) (sc : AggScope R),
    aggRun A' h id now (env.bd v.body) p' (s.bd v) (sc.bd v) =
      let r := aggRun A h id now env p s sc
      (r.1.bd v, r.2.1.bd v, r.2.2.map (PanicVal.bd v.body)) := by
  induction sim with
  | ret a => intro s sc; rfl
  | panic p => intro s sc; rfl
  | get h ih => intro s sc; exact ih s.w s sc
  | set w h ih => intro s sc; exact ih { s with w := w } sc
  | op o h ih =>
    intro s sc
    unfold aggRun
    rw [aggOp_bd al]
    simp only
    rw [ih]

theorem aggReplay_bd {A : App W R} {A' : App W' R'} (al : A.Rewords A' v) (h : HConfig)
    (es : List Env) : ∀ (r : R) (s : Sys W R),
    aggReplay A' h (es.map (Env.bd v.body)) (v.root r) (s.bd v) =
      let x := aggReplay A h es r s
      (x.1.bd v, resBd v.body v.root x.2) := by
  induction es with
  | nil => intro r s; rfl
  | cons e es ih =>
    intro r s
    unfold aggReplay
    simp only [List.map_cons]
    have := bd_user s (.aggApply h r e.msg) (al.aggApply h r e.msg)
    simp only [Call.bd] at this
    rw [show (e.bd v.body).msg = e.msg.bd v.body from rfl, this]
    rcases s.user (.aggApply h r e.msg) (A.uc.aggApply h r e.msg) with ⟨s1, r', _ | p⟩
    · exact ih r' s1
    · simp only [Option.map_some, enrich_bd]; rfl

theorem bd_agg (s : Sys W R) (h id : String) :
    (s.bd v).agg h id = (s.agg h id).map (List.map (Env.bd v.body)) := by
  simp only [Sys.bd]

theorem bd_inst (s : Sys W R) (h id : String) :
    ((s.bd v).proc h).inst id = ((s.proc h).inst id).map v.root := by
  simp only [Sys.bd]

theorem aggCommit_bd (h : HConfig) (id : String) (s : Sys W R) (sc : AggScope R) :
    aggCommit h id (s.bd v) (sc.bd v) = (aggCommit h id s sc).bd v := by
  unfold aggCommit
  rw [show (sc.bd v).exists_ = sc.exists_ from rfl, bd_agg]
  split
  · simp only [Sys.bd, Sys.mk.injEq, true_and, and_true]
    funext x y
    simp only [upd]
    split
    · simp only [upd]
      split
      · cases s.agg h.name id <;> simp [AggScope.bd]
      · rfl
    · rfl
  · simp only [Sys.bd, Sys.mk.injEq, true_and, and_true]
    funext x y
    simp only [upd]
    split
    · simp only [upd]
      split <;> rfl
    · rfl

theorem aggInvoke_bd {A : App W R} {A' : App W' R'} (al : A.Rewords A' v) (h : HConfig)
    (id : String) (now : Time) (env : Env) (r : R) (ex : Bool) (s : Sys W R) :
    aggInvoke A' h id now (env.bd v.body) (v.root r) ex (s.bd v) =
      let x := aggInvoke A h id now env r ex s
      (x.1.bd v, x.2.bd v.body) := by
  unfold aggInvoke
  have e := bd_call s (.aggHandle h id r env.msg) (v := v)
  simp only [Call.bd] at e
  rw [show (env.bd v.body).msg = env.msg.bd v.body from rfl, e,
    show (⟨some (v.root r), ex, false, [], true⟩ : AggScope R') =
      (⟨some r, ex, false, [], true⟩ : AggScope R).bd v from rfl,
    aggRun_bd al h id now env (al.aggHandle h id r env.msg)]
  rcases aggRun A h id now env (A.uc.aggHandle h id r env.msg) _ _ with ⟨s1, sc1, _ | p⟩
  · simp only [Option.map_none]
    rw [aggCommit_bd]; rfl
  · simp only [Option.map_some, enrich_bd]; rfl

theorem aggHandle_bd {A : App W R} {A' : App W' R'} (al : A.Rewords A' v) (h : HConfig)
    (now : Time) (env : Env) (s : Sys W R) :
    aggHandle A' h now (env.bd v.body) (s.bd v) =
      let x := aggHandle A h now env s
      (x.1.bd v, x.2.bd v.body) := by
  unfold aggHandle
  rw [show (env.bd v.body).msg = env.msg.bd v.body from rfl, consumes_bd, kind_bd]
  split
  · rfl
  split
  · rfl
  have := bd_user s (.aggRoute h env.msg) (al.aggRoute h env.msg)
  simp only [Call.bd] at this
  rw [this]
  rcases s.user (.aggRoute h env.msg) (A.uc.aggRoute h env.msg) with ⟨s1, p | i⟩
  · simp only [resBd, enrich_bd]; rfl
  · simp only [resBd, id]
    split
    · rfl
    · unfold aggWithID
      have := bd_user s1 (.aggNew h) (al.aggNew h)
      simp only [Call.bd] at this
      rw [this]
      rcases s1.user (.aggNew h) (A.uc.aggNew h) with ⟨s2, p | _ | r⟩
      · rfl
      · rfl
      · simp only [resBd, Option.map_some]
        rw [bd_agg]
        rcases s2.agg h.name i with _ | hist
        · simp only [Option.map_none]
          rw [bd_told s2 (.aggNotFound h i env) (by rfl), aggInvoke_bd al]
        · simp only [Option.map_some]
          rw [aggReplay_bd al]
          rcases aggReplay A h hist r s2 with ⟨s3, p | r'⟩
          · rfl
          · simp only [resBd]
            rw [bd_told s3 (.aggLoaded h i env) (by rfl), aggInvoke_bd al]

/-! ### Processes -/

theorem procRevive_bd (h : HConfig) (id : String) (env : Env) (s : Sys W R) (sc : ProcScope R) :
    procRevive h id (env.bd v.body) (s.bd v) (sc.bd v) =
      let r := procRevive h id env s sc
      (r.1.bd v, r.2.bd v) := by
  unfold procRevive
  rw [show (sc.bd v).ended = sc.ended from rfl]
  split
  · rw [bd_told s (.procReverted h id env) (by rfl)]; rfl
  · rfl

theorem procOp_bd (h : HConfig) (id : String) (now : Time) (env : Env) (o : ProcOp R) (s : Sys W R)
    (sc : ProcScope R) :
    procOp h id now (env.bd v.body) (o.bd v) (s.bd v) (sc.bd v) =
      let r := procOp h id now env o s sc
      (r.1.bd v, r.2.1.bd v, r.2.2.map (PanicVal.bd v.body)) := by
  cases o with
  | end_ =>
    simp only [ProcOp.bd, procOp]
    rw [show (sc.bd v).ended = sc.ended from rfl]
    split
    · rfl
    · rw [bd_told s (.procEnded h id env) (by rfl)]; rfl
  | execute m =>
    simp only [ProcOp.bd, procOp]
    rw [produces_bd, invalid_bd]
    split
    · rfl
    · cases m.invalid with
      | some e => rfl
      | none =>
        simp only
        rw [procRevive_bd]
        rcases procRevive h id env s sc with ⟨s1, sc1⟩
        simp only [procEmitCommand]
        rw [bd_next, child_bd,
          bd_told _ (.procCommand h id env (env.child (s1.nextID + 1) m now ⟨h, .process, id⟩)) (by rfl)]
        simp [ProcScope.bd, Sys.bd]
  | schedule m t =>
    simp only [ProcOp.bd, procOp]
    rw [produces_bd, invalid_bd]
    split
    · rfl
    · cases m.invalid with
      | some e => rfl
      | none =>
        simp only
        rw [procRevive_bd]
        rcases procRevive h id env s sc with ⟨s1, sc1⟩
        simp only [procEmitTimeout]
        rw [bd_next, childTimeout_bd,
          bd_told _ (.procTimeout h id env (env.childTimeout (s1.nextID + 1) m now t ⟨h, .process, id⟩)) (by rfl)]
        split <;> simp [ProcScope.bd, Sys.bd]
  | setRoot r => rfl
  | log t =>
    simp only [ProcOp.bd, procOp]
    rw [bd_told s (.procLog h id env t) (by rfl)]; rfl

theorem procRun_bd (h : HConfig) (id : String) (now : Time) (env : Env)
    {p : Prog W (ProcOp R) (Option Err)} {p' : Prog W' (ProcOp R') (Option Err)}
    (sim : Prog.Bd v.body v.world (ProcOp.bd v) p p') : ∀ (s : Sys W R) (sc : ProcScope R),
    procRun h id now (env.bd v.body) p' (s.bd v) (sc.bd v) =
      let r := procRun h id now env p s sc
      (r.1.bd v, r.2.1.bd v, resBd v.body (fun e => e) r.2.2) := by
  induction sim with
  | ret a => intro s sc; rfl
  | panic p => intro s sc; rfl
  | get h ih => intro s sc; exact ih s.w s sc
  | set w h ih => intro s sc; exact ih { s with w := w } sc
  | op o h ih =>
    intro s sc
    unfold procRun
    rw [procOp_bd]
    simp only
    rw [ih]

theorem upd_bd (i : String → Option R) (k : String) (r : Option R) :
    upd (fun id => (i id).map v.root) k (r.map v.root) =
      fun id => (upd i k r id).map v.root := by
  funext x
  simp only [upd]
  split <;> simp [*]

theorem procUpdate_bd {A : App W R} {A' : App W' R'} (al : A.Rewords A' v) (h : HConfig)
    (id : String) (s : Sys W R) (sc : ProcScope R) :
    procUpdate A' h id (s.bd v) (sc.bd v) = (procUpdate A h id s sc).bd v := by
  unfold procUpdate
  rw [← setProc_bd, ← upd_bd, ← al.sort, List.map_append]
  rfl

theorem ofInstance_bd (e : Env) (id : String) : (e.bd v.body).ofInstance id = e.ofInstance id := by
  rfl

theorem procDelete_bd (h : HConfig) (id : String) (s : Sys W R) :
    procDelete h id (s.bd v) = (procDelete h id s).bd v := by
  unfold procDelete
  have hf : (((s.bd v).proc h.name).timeouts.filter fun e => !e.ofInstance id) =
      ((s.proc h.name).timeouts.filter fun e => !e.ofInstance id).map (Env.bd v.body) := by
    simp only [Sys.bd, List.filter_map, Function.comp_def, ofInstance_bd]
  rw [← setProc_bd, ← upd_bd, hf]
  rfl

theorem procAlias_bd (h : HConfig) (id : String) (ex : Bool) (s : Sys W R) (r : R) :
    procAlias h id ex (s.bd v) (v.root r) = (procAlias h id ex s r).bd v := by
  unfold procAlias
  split
  · rw [← setProc_bd, ← upd_bd]; rfl
  · rfl

theorem procSeenTime_bd (env : Env) : procSeenTime (env.bd v.body) = procSeenTime env := rfl

theorem procInvoke_bd {A : App W R} {A' : App W' R'} (al : A.Rewords A' v) (h : HConfig)
    (id : String) (now : Time) (env : Env) (r : R) (ex : Bool) (s : Sys W R) :
    procInvoke A' h id now (env.bd v.body) (v.root r) ex (s.bd v) =
      let x := procInvoke A h id now env r ex s
      (x.1.bd v, x.2.bd v.body) := by
  unfold procInvoke
  have e := bd_call s (.procHandle h id r env.msg (procSeenTime env)) (v := v)
  simp only [Call.bd] at e
  rw [procSeenTime_bd, show (env.bd v.body).msg = env.msg.bd v.body from rfl, e,
    show (⟨v.root r, false, [], [], []⟩ : ProcScope R') =
      (⟨r, false, [], [], []⟩ : ProcScope R).bd v from rfl,
    procRun_bd h id now env (al.procHandle h id r env.msg (procSeenTime env))]
  rcases procRun h id now env (A.uc.procHandle h id r env.msg (procSeenTime env)) _ _ with
    ⟨s1, sc1, p | _ | e⟩
  · simp only [resBd]
    rw [show (sc1.bd v).root = v.root sc1.root from rfl, procAlias_bd,
      show procMethod (env.bd v.body) = procMethod env from rfl,
      enrich_bd]; rfl
  · simp only [resBd]
    rw [show (sc1.bd v).ended = sc1.ended from rfl]
    split
    · split
      · rw [procDelete_bd]; rfl
      · rfl
    · rw [procUpdate_bd al]
      simp [HRes.bd, ProcScope.bd]
  · simp only [resBd]
    rw [show (sc1.bd v).root = v.root sc1.root from rfl, procAlias_bd]; rfl

theorem procWithID_bd {A : App W R} {A' : App W' R'} (al : A.Rewords A' v) (h : HConfig)
    (id : String) (now : Time) (env : Env) (s : Sys W R) :
    procWithID A' h id now (env.bd v.body) (s.bd v) =
      let x := procWithID A h id now env s
      (x.1.bd v, x.2.bd v.body) := by
  unfold procWithID
  rw [bd_inst]
  rcases (s.proc h.name).inst id with _ | r
  · simp only [Option.map_none]
    have := bd_user (s.notify (.procNotFound h id env)) (.procNew h) (al.procNew h)
    simp only [Call.bd] at this
    rw [bd_told s (.procNotFound h id env) (by rfl), this]
    rcases (s.notify (.procNotFound h id env)).user (.procNew h) (A.uc.procNew h) with ⟨s2, p | _ | r⟩
    · rfl
    · simp only [resBd, Option.map_none]
      rw [bd_told s2 (.procBegun h id env) (by rfl)]; rfl
    · simp only [resBd, Option.map_some]
      rw [bd_told s2 (.procBegun h id env) (by rfl), procInvoke_bd al]
  · simp only [Option.map_some]
    rw [bd_told s (.procLoaded h id env) (by rfl), procInvoke_bd al]

theorem procHandle_bd {A : App W R} {A' : App W' R'} (al : A.Rewords A' v) (h : HConfig)
    (now : Time) (env : Env) (s : Sys W R) :
    procHandle A' h now (env.bd v.body) (s.bd v) =
      let x := procHandle A h now env s
      (x.1.bd v, x.2.bd v.body) := by
  unfold procHandle
  rw [show (env.bd v.body).msg = env.msg.bd v.body from rfl, consumes_bd, kind_bd]
  split
  · rfl
  cases env.msg.type.kind with
  | command => rfl
  | event =>
    simp only
    have := bd_user s (.procRoute h env.msg) (al.procRoute h env.msg)
    simp only [Call.bd] at this
    rw [this]
    rcases s.user (.procRoute h env.msg) (A.uc.procRoute h env.msg) with ⟨s1, p | e | _ | i⟩
    · simp only [resBd, enrich_bd]; rfl
    · rfl
    · simp only [resBd, id]
      rw [bd_told s1 (.procEventIgnored h env) (by rfl)]; rfl
    · simp only [resBd, id]
      split
      · rfl
      · rw [procWithID_bd al]
  | timeout =>
    simp only
    rw [show (env.bd v.body).origin = env.origin from rfl]
    rcases env.origin with _ | o
    · rfl
    · simp only
      rw [bd_inst]
      rcases (s.proc h.name).inst o.instanceID with _ | r
      · simp only [Option.map_none]
        rw [bd_told s (.procTimeoutIgnored h o.instanceID env) (by rfl)]; rfl
      · simp only [Option.map_some]
        rw [procWithID_bd al]

theorem procTick_bd (h : HConfig) (now : Time) (s : Sys W R) :
    procTick h now (s.bd v) =
      let r := procTick h now s
      (r.1.bd v, r.2.map (Env.bd v.body)) := by
  have h1 : ∀ l : List Env, (l.map (Env.bd v.body)).dropWhile (fun e => decide (e.scheduledFor ≤ now)) =
      (l.dropWhile (fun e => decide (e.scheduledFor ≤ now))).map (Env.bd v.body) := by
    intro l; rw [List.dropWhile_map]; rfl
  have h2 : ∀ l : List Env, (l.map (Env.bd v.body)).takeWhile (fun e => decide (e.scheduledFor ≤ now)) =
      (l.takeWhile (fun e => decide (e.scheduledFor ≤ now))).map (Env.bd v.body) := by
    intro l; rw [List.takeWhile_map]; rfl
  unfold procTick
  simp only
  rw [← setProc_bd, ← h1, ← h2]
  rfl

/-! ### Integrations -/

theorem intRun_bd (h : HConfig) (now : Time) (env : Env) {p : Prog W IntOp (Option Err)}
    {p' : Prog W' IntOp (Option Err)} (sim : Prog.Bd v.body v.world (IntOp.bd v.body) p p') :
    ∀ (s : Sys W R) (evs : List Env),
    intRun h now (env.bd v.body) p' (s.bd v) (evs.map (Env.bd v.body)) =
      let r := intRun h now env p s evs
      (r.1.bd v, r.2.1.map (Env.bd v.body), resBd v.body id r.2.2) := by
  induction sim with
  | ret a => intro s sc; rfl
  | panic p => intro s sc; rfl
  | get h ih => intro s sc; exact ih s.w s sc
  | set w h ih => intro s sc; exact ih { s with w := w } sc
  | @op o k k' _ ih =>
    intro s evs
    have ho : intOp h now (env.bd v.body) (o.bd v.body) (s.bd v) (evs.map (Env.bd v.body)) =
        ((intOp h now env o s evs).1.bd v, (intOp h now env o s evs).2.1.map (Env.bd v.body),
          (intOp h now env o s evs).2.2.map (PanicVal.bd v.body)) := by
      cases o with
      | record m =>
        simp only [IntOp.bd, intOp]
        rw [produces_bd, invalid_bd]
        split
        · rfl
        · cases m.invalid with
          | some e => rfl
          | none =>
            simp only [intEmit]
            rw [bd_next, child_bd,
              bd_told _ (.intEvent h env (env.child (s.nextID + 1) m now ⟨h, .integration, ""⟩)) (by rfl)]
            simp [Sys.bd]
      | log t => simp only [IntOp.bd, intOp]; rw [bd_told s (.intLog h env t) (by rfl)]; rfl
    unfold intRun
    rw [ho]
    rcases intOp h now env o s evs with ⟨s1, evs1, q⟩
    simp only
    rw [ih]

theorem intHandle_bd {A : App W R} {A' : App W' R'} (al : A.Rewords A' v) (h : HConfig)
    (now : Time) (env : Env) (s : Sys W R) :
    intHandle A' h now (env.bd v.body) (s.bd v) =
      let x := intHandle A h now env s
      (x.1.bd v, x.2.bd v.body) := by
  unfold intHandle
  rw [show (env.bd v.body).msg = env.msg.bd v.body from rfl, consumes_bd, kind_bd]
  split
  · rfl
  split
  · rfl
  have e := bd_call s (.intHandle h env.msg) (v := v)
  simp only [Call.bd] at e
  have e2 := intRun_bd h now env (al.intHandle h env.msg) (s.emit (.call (.intHandle h env.msg))) []
  simp only [List.map_nil] at e2
  rw [e, e2]
  rcases intRun h now env (A.uc.intHandle h env.msg) _ _ with ⟨s1, evs, p | r⟩
  · simp only [resBd, enrich_bd]; rfl
  · rfl

/-! ### Projections -/

theorem prjRun_bd {α : Type} (h : HConfig) (env : Option Env) {p : Prog W PrjOp α}
    {p' : Prog W' PrjOp α} (sim : Prog.Bd v.body v.world id p p') : ∀ (s : Sys W R),
    prjRun h (env.map (Env.bd v.body)) p' (s.bd v) =
      let r := prjRun h env p s
      (r.1.bd v, resBd v.body (fun a => a) r.2) := by
  induction sim with
  | ret a => intro s; rfl
  | panic p => intro s; rfl
  | get h ih => intro s; exact ih s.w s
  | set w h ih => intro s; exact ih { s with w := w }
  | op o _ ih =>
    intro s
    cases o with
    | log t =>
      simp only [id]
      unfold prjRun
      rw [bd_told s (.prjLog h env t) (by rfl)]
      exact ih none _

theorem prjStep_bd {α : Type} (h : HConfig) (env : Option Env) {p : Prog W PrjOp α}
    {p' : Prog W' PrjOp α} (sim : Prog.Bd v.body v.world id p p') (s : Sys W R) :
    Prog.Bd v.body v.world id (prjStep h env p s).1 (prjStep h (env.map (Env.bd v.body)) p' (s.bd v)).1 ∧
    (prjStep h (env.map (Env.bd v.body)) p' (s.bd v)).2 = (prjStep h env p s).2.bd v := by
  cases sim with
  | ret a => exact ⟨.ret a, rfl⟩
  | panic p => exact ⟨.panic p, rfl⟩
  | get h => exact ⟨h s.w, rfl⟩
  | set w h => exact ⟨h, rfl⟩
  | op o k =>
    cases o with
    | log t => exact ⟨k none, bd_notify s (.prjLog h env t)⟩

theorem prjPar_bd (h : HConfig) (env : Env) : ∀ (bs : List Bool)
    {hp : Prog W PrjOp (Except Err Bool)} {hp' : Prog W' PrjOp (Except Err Bool)}
    {cp : Prog W PrjOp (Option Err)} {cp' : Prog W' PrjOp (Option Err)}
    (_ : Prog.Bd v.body v.world id hp hp') (_ : Prog.Bd v.body v.world id cp cp') (s : Sys W R),
    prjPar h (env.bd v.body) bs hp' cp' (s.bd v) =
      let r := prjPar h env bs hp cp s
      (r.1.bd v, resBd v.body (fun a => a) r.2) := by
  intro bs
  induction bs with
  | nil =>
    intro hp hp' cp cp' sh sc s
    unfold prjPar
    have h1 := prjRun_bd h (some env) sh s
    simp only [Option.map_some] at h1
    rw [h1]
    rcases prjRun h (some env) hp s with ⟨s1, p | r⟩
    · simp only [resBd]
      rw [show (env.bd v.body).msg = env.msg.bd v.body from rfl, enrich_bd]
    · simp only [resBd]
      have h2 := prjRun_bd h none sc s1
      simp only [Option.map_none] at h2
      rw [h2]
      rcases prjRun h none cp s1 with ⟨s2, p | r⟩ <;> rfl
  | cons b bs ih =>
    intro hp hp' cp cp' sh sc s
    have hstep := prjStep_bd h (some env) sh s
    have cstep := prjStep_bd h none sc s
    simp only [Option.map_some, Option.map_none] at hstep cstep
    have sh' := sh
    have sc' := sc
    have e1 := ih sh' cstep.1 (prjStep h none cp s).2
    have e2 := ih hstep.1 sc' (prjStep h (some env) hp s).2
    rw [← cstep.2] at e1
    rw [← hstep.2] at e2
    cases sc with
    | panic p => unfold prjPar; rfl
    | _ =>
      cases sh with
      | panic p =>
        unfold prjPar
        simp only [resBd]
        rw [show (env.bd v.body).msg = env.msg.bd v.body from rfl, enrich_bd]
      | _ =>
        unfold prjPar
        cases b with
        | true => exact e1
        | false => exact e2

theorem prjApply_bd {A : App W R} {A' : App W' R'} (al : A.Rewords A' v) (h : HConfig) (now : Time)
    (env : Env) (s : Sys W R) : prjApply A' h now (env.bd v.body) (s.bd v) =
      let r := prjApply A h now env s
      (r.1.bd v, resBd v.body (fun a => a) r.2) := by
  unfold prjApply
  rw [show (env.bd v.body).id = env.id from rfl, show (env.bd v.body).msg = env.msg.bd v.body from rfl,
    show (env.bd v.body).createdAt = env.createdAt from rfl]
  have e1 : ((((s.bd v).notify (.prjCompactBegun h)).emit (.call (.prjCompact h now))).emit
      (.call (.prjHandle h env.id [] [1] (env.msg.bd v.body)))) =
      (((s.notify (.prjCompactBegun h)).emit (.call (.prjCompact h now))).emit
        (.call (.prjHandle h env.id [] [1] env.msg))).bd v := by
    rw [← bd_emit, ← bd_emit, ← bd_notify]; rfl
  have e2 : (s.bd v).emit (.call (.prjHandle h env.id [] [1] (env.msg.bd v.body))) =
      (s.emit (.call (.prjHandle h env.id [] [1] env.msg))).bd v := by
    rw [← bd_emit]; rfl
  rw [e1, e2, al.compact]
  split
  · rw [show (s.bd v).w = v.world s.w from rfl, al.schedule,
      prjPar_bd h env (A.uc.schedule s.w) (al.prjHandle h env.id [] [1] env.msg env.createdAt)
        (al.prjCompact h now)]
    rcases prjPar h env (A.uc.schedule s.w) _ _ _ with ⟨s1, p | ⟨r, ce⟩⟩
    · rfl
    · simp only [resBd]
      rw [bd_told s1 (.prjCompactCompleted h ce) (by rfl)]
  · have := prjRun_bd h (some env) (al.prjHandle h env.id [] [1] env.msg env.createdAt)
      (s.emit (.call (.prjHandle h env.id [] [1] env.msg)))
    simp only [Option.map_some] at this
    rw [this]
    rcases prjRun h (some env) _ _ with ⟨s1, p | r⟩
    · simp only [resBd, enrich_bd]
    · rfl

theorem prjFinish_bd {A : App W R} {A' : App W' R'} (al : A.Rewords A' v) (h : HConfig) (env : Env)
    (r : Except Err Bool) (ce : Option Err) (s : Sys W R) :
    prjFinish A' h (env.bd v.body) r ce (s.bd v) =
      let x := prjFinish A h env r ce s
      (x.1.bd v, x.2.bd v.body) := by
  unfold prjFinish
  rcases r with e | _ | _
  · rfl
  · rfl
  · have := bd_user s (.prjClose h env.id) (al.prjClose h env.id)
    simp only [Call.bd] at this
    simp only
    rw [show (env.bd v.body).id = env.id from rfl, this]
    rcases s.user (.prjClose h env.id) (A.uc.prjClose h env.id) with ⟨s1, p | _ | e⟩ <;> rfl

theorem prjHandle_bd {A : App W R} {A' : App W' R'} (al : A.Rewords A' v) (h : HConfig) (now : Time)
    (env : Env) (s : Sys W R) : prjHandle A' h now (env.bd v.body) (s.bd v) =
      let r := prjHandle A h now env s
      (r.1.bd v, r.2.bd v.body) := by
  unfold prjHandle
  rw [show (env.bd v.body).msg = env.msg.bd v.body from rfl, consumes_bd, kind_bd]
  split
  · rfl
  split
  · rfl
  have := bd_user s (.prjVersion h env.id) (al.prjVersion h env.id)
  simp only [Call.bd] at this
  rw [show (env.bd v.body).id = env.id from rfl, this]
  rcases s.user (.prjVersion h env.id) (A.uc.prjVersion h env.id) with ⟨s1, p | e | b⟩
  · rfl
  · rfl
  · cases b with
    | cons _ _ => rfl
    | nil =>
      simp only [resBd, id]
      rw [prjApply_bd al]
      rcases prjApply A h now env s1 with ⟨s2, p | ⟨r, ce⟩⟩
      · rfl
      · exact prjFinish_bd al h env r ce s2

theorem prjTick_bd {A : App W R} {A' : App W' R'} (al : A.Rewords A' v) (h : HConfig) (now : Time)
    (s : Sys W R) : prjTick A' h now (s.bd v) =
      let r := prjTick A h now s
      (r.1.bd v, resBd v.body (fun a => a) r.2) := by
  unfold prjTick
  rw [show (s.bd v).lastCompact = s.lastCompact from rfl]
  split
  · have e : ((({ s.bd v with lastCompact := upd s.lastCompact h.name now } : Sys W' R').notify
        (.prjCompactBegun h)).emit (.call (.prjCompact h now))) =
        (((({ s with lastCompact := upd s.lastCompact h.name now } : Sys W R).notify
          (.prjCompactBegun h)).emit (.call (.prjCompact h now)))).bd v := by
      rw [← bd_emit, ← bd_notify]; rfl
    simp only
    have := prjRun_bd h none (al.prjCompact h now)
      ((({ s with lastCompact := upd s.lastCompact h.name now } : Sys W R).notify
          (.prjCompactBegun h)).emit (.call (.prjCompact h now)))
    simp only [Option.map_none] at this
    rw [e, this]
    rcases prjRun h none _ _ with ⟨s1, p | r⟩
    · rfl
    · simp only [resBd]
      rw [bd_told s1 (.prjCompactCompleted h r) (by rfl)]
  · rfl

/-! ### The engine -/

theorem newOpOpts_bd {A : App W R} {A' : App W' R'} (al : A.Rewords A' v) (s : Sys W R)
    (os : List OpOption) : newOpOpts A' (s.bd v) os = resBd v.body (fun a => a) (newOpOpts A s os) := by
  have h1 : ∀ (oo : OpOpts) (o : OpOption), oo.apply A' o = resBd v.body (fun a => a) (oo.apply A o) := by
    intro oo o
    cases o <;> simp only [OpOpts.apply, al.cfgs, resBd]
    split <;> rfl
  have h2 : ∀ (os : List OpOption) (oo : OpOpts),
      oo.applyAll A' os = resBd v.body (fun a => a) (oo.applyAll A os) := by
    intro os
    induction os with
    | nil => intro oo; rfl
    | cons o os ih =>
      intro oo
      unfold OpOpts.applyAll
      rw [h1]
      rcases oo.apply A o with p | oo1
      · rfl
      · exact ih oo1
  unfold newOpOpts
  rw [h2, show (s.bd v).w = v.world s.w from rfl, al.wallClock]

theorem cycle_bd {A : App W R} {A' : App W' R'} (al : A.Rewords A' v) (oo : OpOpts) :
    oo.cycle A' = oo.cycle A := by
  unfold OpOpts.cycle
  rw [al.cfgs]

theorem targets_bd {A : App W R} {A' : App W' R'} (al : A.Rewords A' v) (env : Env) :
    A'.targets (env.bd v.body) = resBd v.body (fun a => a) (A.targets env) := by
  unfold App.targets App.route App.find
  rw [al.cfgs, show (env.bd v.body).msg = env.msg.bd v.body from rfl, kind_bd,
    show (env.bd v.body).origin = env.origin from rfl]
  cases env.msg.type.kind with
  | timeout =>
    simp only
    rcases env.origin with _ | o
    · rfl
    · simp only
      split <;> rfl
  | command => rfl
  | event => rfl

theorem handleOne_bd {A : App W R} {A' : App W' R'} (al : A.Rewords A' v) (oo : OpOpts) (env : Env)
    (h : HConfig) (s : Sys W R) : handleOne A' oo (env.bd v.body) h (s.bd v) =
      let r := handleOne A oo env h s
      (r.1.bd v, r.2.bd v.body) := by
  have hc : ∀ s : Sys W R, ctlHandle A' h oo.now (env.bd v.body) (s.bd v) =
      ((ctlHandle A h oo.now env s).1.bd v, (ctlHandle A h oo.now env s).2.bd v.body) := by
    intro s
    unfold ctlHandle
    cases h.htype with
    | aggregate => exact aggHandle_bd al h oo.now env s
    | process => exact procHandle_bd al h oo.now env s
    | integration => exact intHandle_bd al h oo.now env s
    | projection => exact prjHandle_bd al h oo.now env s
  unfold handleOne
  rcases skipHandler oo h with _ | r
  · simp only
    rw [bd_told s (.handlingBegun h env) (by rfl), hc]
    rcases ctlHandle A h oo.now env (s.notify (.handlingBegun h env)) with ⟨s1, p | ⟨envs, e⟩⟩
    · rfl
    · simp only [HRes.bd]
      rw [bd_told s1 (.handlingCompleted h env e) (by rfl)]
  · simp only
    rw [bd_told s (.handlingSkipped h env r) (by rfl)]; rfl

theorem handleAll_bd {A : App W R} {A' : App W' R'} (al : A.Rewords A' v) (oo : OpOpts) (env : Env)
    (hs : List HConfig) : ∀ (q : List Env) (de : List EngErr) (s : Sys W R),
    handleAll A' oo (env.bd v.body) hs (q.map (Env.bd v.body)) de (s.bd v) =
      let r := handleAll A oo env hs q de s
      (r.1.bd v, resBd v.body (fun x => (x.1.map (Env.bd v.body), x.2)) r.2) := by
  induction hs with
  | nil => intro q de s; rfl
  | cons h hs ih =>
    intro q de s
    unfold handleAll
    rw [handleOne_bd al]
    rcases handleOne A oo env h s with ⟨s1, p | ⟨envs, e⟩⟩
    · rfl
    · simp only [HRes.bd]
      rw [← List.map_append, ih]

theorem dispatchLoop_bd {A : App W R} {A' : App W' R'} (al : A.Rewords A' v) (oo : OpOpts)
    (n : Nat) : ∀ (q : List Env) (errs : List EngErr) (s : Sys W R),
    dispatchLoop A' oo n (q.map (Env.bd v.body)) errs (s.bd v) =
      let r := dispatchLoop A oo n q errs s
      (r.1.bd v, r.2.bd v.body) := by
  induction n with
  | zero => intro q errs s; cases q <;> (simp only [List.map_nil, List.map_cons]; unfold dispatchLoop; rfl)
  | succ n ih =>
    intro q errs s
    cases q with
    | nil => simp only [List.map_nil]; unfold dispatchLoop; rfl
    | cons env q =>
      simp only [List.map_cons]
      unfold dispatchLoop
      rw [targets_bd al]
      rcases A.targets env with p | hs
      · rfl
      · simp only [resBd]
        rw [bd_told s (.dispatchBegun env) (by rfl), handleAll_bd al]
        rcases handleAll A oo env hs q [] (s.notify (.dispatchBegun env)) with ⟨s1, p | ⟨q1, de⟩⟩
        · rfl
        · simp only [resBd]
          rw [bd_told s1 (.dispatchCompleted env de) (by rfl),
            show ((s1.notify (.dispatchCompleted env de)).bd v).w =
              v.world (s1.notify (.dispatchCompleted env de)).w from rfl, al.ctxErr]
          rcases A.uc.ctxErr (s1.notify (.dispatchCompleted env de)).w with _ | c
          · exact ih _ _ _
          · rfl

theorem ctlTick_bd {A : App W R} {A' : App W' R'} (al : A.Rewords A' v) (h : HConfig) (now : Time)
    (s : Sys W R) : ctlTick A' h now (s.bd v) =
      let r := ctlTick A h now s
      (r.1.bd v, r.2.bd v.body) := by
  unfold ctlTick
  cases h.htype with
  | process => simp only; rw [procTick_bd]; rfl
  | projection =>
    simp only
    rw [prjTick_bd al]
    rcases prjTick A h now s with ⟨s1, p | e⟩ <;> rfl
  | aggregate => rfl
  | integration => rfl

theorem tickAll_bd {A : App W R} {A' : App W' R'} (al : A.Rewords A' v) (oo : OpOpts)
    (hs : List HConfig) : ∀ (q : List Env) (errs : List EngErr) (s : Sys W R),
    tickAll A' oo hs (q.map (Env.bd v.body)) errs (s.bd v) =
      let r := tickAll A oo hs q errs s
      (r.1.bd v, resBd v.body (fun x => (x.1.map (Env.bd v.body), x.2)) r.2) := by
  induction hs with
  | nil => intro q errs s; rfl
  | cons h hs ih =>
    intro q errs s
    unfold tickAll
    rcases skipHandler oo h with _ | r
    · simp only
      rw [bd_told s (.tickBegun h) (by rfl), ctlTick_bd al]
      rcases ctlTick A h oo.now (s.notify (.tickBegun h)) with ⟨s1, p | ⟨envs, e⟩⟩
      · rfl
      · simp only [HRes.bd]
        rw [bd_told s1 (.tickCompleted h e) (by rfl), show ((s1.notify (.tickCompleted h e)).bd v).w =
          v.world (s1.notify (.tickCompleted h e)).w from rfl, al.ctxErr, ← List.map_append]
        rcases A.uc.ctxErr (s1.notify (.tickCompleted h e)).w with _ | c
        · exact ih _ _ _
        · rfl
    · simp only
      rw [bd_told s (.tickSkipped h r) (by rfl), ih]

theorem runResetters_bd : ∀ (fs : List (W → W × Option PanicVal)) (fs' : List (W' → W' × Option PanicVal)),
    BdFns v.body v.world fs fs' → ∀ (i : Nat) (s : Sys W R), runResetters i fs' (s.bd v) =
      let r := runResetters i fs s
      (r.1.bd v, r.2.bd v.body)
  | [], [], _, i, s => rfl
  | x :: xs, x' :: xs', ha, i, s => by
    unfold runResetters
    have := bd_user s (.resetter i) ha.1
    simp only [Call.bd] at this
    rw [this]
    rcases s.user (.resetter i) x with ⟨s1, _ | p⟩
    · exact runResetters_bd xs xs' ha.2 _ _
    · rfl

theorem exec_bd {A : App W R} {A' : App W' R'} (al : A.Rewords A' v) (op : Op) (s : Sys W R) :
    (op.bd v.body).exec A' (s.bd v) =
      let r := op.exec A s
      (r.1.bd v, r.2.bd v.body) := by
  cases op with
  | reset =>
    show engReset A' (s.bd v) = ((engReset A s).1.bd v, (engReset A s).2.bd v.body)
    unfold engReset
    rw [← runResetters_bd _ _ al.resetters]
    congr 1
    simp [Sys.bd, Sys.emit, Obs.bd]
  | dispatch n m os =>
    show engDispatch A' n (m.bd v.body) os (s.bd v) =
      ((engDispatch A n m os s).1.bd v, (engDispatch A n m os s).2.bd v.body)
    unfold engDispatch
    simp only
    rw [bd_next, newOpOpts_bd al, show (s.bd v).nextID = s.nextID from rfl]
    generalize ({ s with nextID := s.nextID + 1 } : Sys W R) = s1
    rcases newOpOpts A s1 os with p | oo
    · rfl
    · simp only [resBd]
      rw [kind_bd, invalid_bd]
      split
      · rfl
      cases m.invalid with
      | some e => rfl
      | none =>
        simp only
        rw [show A'.route (m.bd v.body) = A.route m by unfold App.route; rw [al.cfgs]; rfl, cycle_bd al]
        split
        · rfl
        · rw [show Env.root (s.nextID + 1) (m.bd v.body) oo.now =
            (Env.root (s.nextID + 1) m oo.now).bd v.body from rfl]
          generalize Env.root (s.nextID + 1) m oo.now = en
          rw [bd_told s1 (.dispatchCycleBegun en (oo.cycle A)) (by rfl)]
          generalize s1.notify _ = s2
          rw [show (s2.bd v).w = v.world s2.w from rfl, al.lockErr]
          rcases A.uc.lockErr s2.w with _ | e
          · simp only
            have hd := dispatchLoop_bd al oo n [en] [] s2
            simp only [List.map_cons, List.map_nil] at hd
            rw [hd]
            rcases dispatchLoop A oo n _ [] s2 with ⟨s3, errs | p | _⟩
            · simp only [Outcome.bd]
              rw [bd_told s3 (.dispatchCycleCompleted en (oo.cycle A).maps errs) (by rfl)]
            · rfl
            · rfl
          · simp only [Outcome.bd]
            rw [bd_told s2 (.dispatchCycleCompleted en (oo.cycle A).maps [.lock e]) (by rfl)]
  | tick n order os =>
    show engTick A' n order os (s.bd v) =
      ((engTick A n order os s).1.bd v, (engTick A n order os s).2.bd v.body)
    unfold engTick
    rw [newOpOpts_bd al]
    rcases newOpOpts A s os with p | oo
    · rfl
    · simp only [resBd]
      rw [cycle_bd al, bd_told s (.tickCycleBegun (oo.cycle A)) (by rfl)]
      generalize s.notify _ = s2
      rw [show (s2.bd v).w = v.world s2.w from rfl, al.lockErr]
      rcases A.uc.lockErr s2.w with _ | e
      · simp only [engTickLocked]
        have ht := tickAll_bd al oo order [] [] s2
        simp only [List.map_nil] at ht
        rw [ht]
        rcases tickAll A oo order [] [] s2 with ⟨s3, p | ⟨q, errs, _ | c⟩⟩
        · rfl
        · simp only [resBd]
          rw [dispatchLoop_bd al]
          rcases dispatchLoop A oo n q [] s3 with ⟨s4, derrs | p | _⟩
          · simp only [Outcome.bd]
            rw [bd_told s4 (.tickCycleCompleted (oo.cycle A).maps (errs ++ derrs)) (by rfl)]
          · rfl
          · rfl
        · simp only [resBd, Outcome.bd]
          rw [bd_told s3 (.tickCycleCompleted (oo.cycle A).maps [.ctx c]) (by rfl)]
      · simp only [Outcome.bd]
        rw [bd_told s2 (.tickCycleCompleted (oo.cycle A).maps [.lock e]) (by rfl)]

end

end Verif
