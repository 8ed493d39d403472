import Verif.Frame
import Verif.Demo

/-!
# Properties of panics: bad routing, nil roots, unexpected messages

C27, C43, C79.
-/

namespace Verif

variable {W R : Type}

/-! ## C27 -/

/-- `h` is offered a message of a kind its handler type is for, of a type it consumes. -/
structure Accepts (h : HConfig) (env : Env) (t : HandlerType) (k : Kind) : Prop where
  htype : h.htype = t
  kind : env.msg.type.kind = k
  consumes : env.msg.type ∈ h.consumes

/-- Nothing the engine holds has changed and no envelope ID was used; `calls` is all that
happened. -/
structure Aborted (s s' : Sys W R) (happened : List (Obs R)) : Prop where
  trace : s'.trace = s.trace ++ happened
  nextID : s'.nextID = s.nextID
  agg : s'.agg = s.agg
  proc : s'.proc = s.proc
  last : s'.lastCompact = s.lastCompact

/-- The handling panicked with a `panicx.UnexpectedBehavior` that names the handler, the
method and the message. -/
def Blames (res : HRes) (h : HConfig) (iface method : String) (m : Message) : Prop :=
  ∃ d, res = .error (.behavior h.name iface method m d)

theorem accepts_consumes {h : HConfig} {env : Env} {t : HandlerType} {k : Kind}
    (a : Accepts h env t k) : h.consumes? env.msg = true := by
  simp [HConfig.consumes?, a.consumes]

/-- **C27.** A command routed to an empty aggregate instance ID. -/
theorem C27_aggregate_empty_id (A : App W R) (h : HConfig) (now : Time) (env : Env) (s : Sys W R)
    (ha : Accepts h env .aggregate .command) (hr : (A.uc.aggRoute h env.msg s.w).2 = .ok "") :
    Blames (ctlHandle A h now env s).2 h "AggregateMessageHandler" "RouteCommandToInstance" env.msg ∧
    Aborted s (ctlHandle A h now env s).1 [.call (.aggRoute h env.msg)] := by
  unfold ctlHandle aggHandle
  simp only [ha.htype, accepts_consumes ha, ha.kind, Sys.user, hr, ne_eq, not_true_eq_false,
    if_false, if_true, Bool.true_eq_false]
  exact ⟨⟨_, rfl⟩, rfl, rfl, rfl, rfl, rfl⟩

/-- **C27.** `New()` of an aggregate returns a nil root. -/
theorem C27_aggregate_nil_root (A : App W R) (h : HConfig) (now : Time) (env : Env) (s : Sys W R)
    (ha : Accepts h env .aggregate .command) (id : String) (hid : id ≠ "")
    (hr : (A.uc.aggRoute h env.msg s.w).2 = .ok id)
    (hn : (A.uc.aggNew h (A.uc.aggRoute h env.msg s.w).1).2 = .ok none) :
    Blames (ctlHandle A h now env s).2 h "AggregateMessageHandler" "New" env.msg ∧
    Aborted s (ctlHandle A h now env s).1 [.call (.aggRoute h env.msg), .call (.aggNew h)] := by
  unfold ctlHandle aggHandle
  simp only [ha.htype, accepts_consumes ha, ha.kind, Sys.user, hr, ne_eq, not_true_eq_false,
    if_false, Bool.true_eq_false, hid, aggWithID, hn, Sys.emit]
  exact ⟨⟨_, rfl⟩, by simp, rfl, rfl, rfl, rfl⟩

/-- **C27.** An event routed to an empty process instance ID. -/
theorem C27_process_empty_id (A : App W R) (h : HConfig) (now : Time) (env : Env) (s : Sys W R)
    (ha : Accepts h env .process .event)
    (hr : (A.uc.procRoute h env.msg s.w).2 = .ok (.ok (some ""))) :
    Blames (ctlHandle A h now env s).2 h "ProcessMessageHandler" "RouteEventToInstance" env.msg ∧
    Aborted s (ctlHandle A h now env s).1 [.call (.procRoute h env.msg)] := by
  unfold ctlHandle procHandle
  simp only [ha.htype, accepts_consumes ha, ha.kind, Sys.user, hr, if_false, if_true,
    Bool.true_eq_false]
  exact ⟨⟨_, rfl⟩, rfl, rfl, rfl, rfl, rfl⟩

/-- **C27.** `New()` of a process returns a nil root. -/
theorem C27_process_nil_root (A : App W R) (h : HConfig) (now : Time) (env : Env) (s : Sys W R)
    (ha : Accepts h env .process .event) (id : String) (hid : id ≠ "")
    (hr : (A.uc.procRoute h env.msg s.w).2 = .ok (.ok (some id)))
    (hf : (s.proc h.name).inst id = none)
    (hn : (A.uc.procNew h (A.uc.procRoute h env.msg s.w).1).2 = .ok none) :
    Blames (ctlHandle A h now env s).2 h "ProcessMessageHandler" "New" env.msg ∧
    Aborted s (ctlHandle A h now env s).1 [.call (.procRoute h env.msg),
      .fact (.procNotFound h id env), .call (.procNew h), .fact (.procBegun h id env)] := by
  unfold ctlHandle procHandle
  simp only [ha.htype, accepts_consumes ha, ha.kind, Sys.user, hr, if_false,
    Bool.true_eq_false, hid, procWithID, Sys.emit, hf, Sys.notify, hn]
  exact ⟨⟨_, rfl⟩, by simp, rfl, rfl, rfl, rfl⟩

/-- All four situations occur. -/
example : ∃ (A : App Unit Unit) (h h' : HConfig) (env env' : Env),
    Accepts h env .aggregate .command ∧ (A.uc.aggRoute h env.msg ()).2 = .ok "" ∧
    Accepts h' env' .process .event ∧ (A.uc.procRoute h' env'.msg ()).2 = .ok (.ok (some "p")) ∧
    (A.uc.procNew h' (A.uc.procRoute h' env'.msg ()).1).2 = .ok none := by
  refine ⟨⟨[], ⟨fun _ _ _ => ((), .ok ""), fun _ _ => ((), .ok none), fun _ _ _ _ => ((), (), none),
    fun _ _ _ _ => .ret (), fun _ _ _ => ((), .ok (.ok (some "p"))), fun _ _ => ((), .ok none),
    fun _ _ _ _ _ => .ret none, fun _ _ => .ret none, fun _ _ _ => ((), .ok (.ok [1])),
    fun _ _ _ _ _ _ => .ret (.ok true), fun _ _ _ => ((), .ok none), fun _ _ => .ret none,
    fun _ => [], [], fun _ => none, fun _ => none, fun _ => 0⟩, false, Demo.sortImpl⟩,
    Demo.agg, Demo.proc, Env.root 1 (Demo.msgC "x") 0, Env.root 2 ⟨Demo.evtE, "x", none⟩ 0,
    ⟨rfl, rfl, by decide⟩, rfl, ⟨rfl, rfl, by decide⟩, rfl, rfl⟩

/-! ## C43 -/

/-- How a panic value raised by user code in a method that was given message `m` must reach
the caller of the engine. -/
def surfaced (h : HConfig) (iface method : String) (m : Message) (v : PanicVal) : PanicVal :=
  if v = .unexpectedMessage then .enriched h.name iface method m else v

/-- `Raises S p v`: the program can end in panic `v` when the operations it performs either
succeed or panic with a value in `S` (which the program may let through or recover). -/
inductive Raises {O α : Type} (S : PanicVal → Prop) : Prog W O α → PanicVal → Prop where
  | panic (v : PanicVal) : Raises S (.panic v) v
  | op {o : O} {k : Option PanicVal → Prog W O α} {v : PanicVal} (x : Option PanicVal)
      (hx : ∀ u, x = some u → S u) (h : Raises S (k x) v) : Raises S (.op o k) v
  | get {k : W → Prog W O α} {v : PanicVal} (w : W) (h : Raises S (k w) v) : Raises S (.get k) v
  | set {w : W} {k : Prog W O α} {v : PanicVal} (h : Raises S k v) : Raises S (.set w k) v

/-- Panics of the operations of an aggregate's scope. -/
inductive AggScopePanic (A : App W R) (h : HConfig) (env : Env) : PanicVal → Prop where
  /-- the root's `ApplyEvent` -/
  | apply (r : R) (m : Message) (w : W) (v : PanicVal)
      (hv : (A.uc.aggApply h r m w).2.2 = some v) :
      AggScopePanic A h env (surfaced h "AggregateRoot" "ApplyEvent" m v)
  /-- `New()`, called by `Destroy()` -/
  | new (w : W) (v : PanicVal) (hv : (A.uc.aggNew h w).2 = .error v) : AggScopePanic A h env v
  /-- misuse of the scope -/
  | misuse (d : String) : AggScopePanic A h env
      (.behavior h.name "AggregateMessageHandler" "HandleCommand" env.msg d)
  /-- recording an event although `Destroy()` got a nil root from `New()` -/
  | nilRoot (d : String) (w : W) (hw : (A.uc.aggNew h w).2 = .ok none) :
      AggScopePanic A h env (.internal d)

/-- The message may be handed to the handler: the handler declares that it consumes messages of this
type, their kind fits the handler's type, and a timeout knows where it comes from. -/
structure Suitable (h : HConfig) (env : Env) : Prop where
  consumed : env.msg.type ∈ h.consumes
  kind : match h.htype with
    | .aggregate | .integration => env.msg.type.kind = .command
    | .projection => env.msg.type.kind = .event
    | .process => env.msg.type.kind = .event ∨ env.msg.type.kind = .timeout
  origin : env.msg.type.kind = .timeout → env.origin ≠ none

/-- The panics that can escape from the handling of `env` by `h`. -/
inductive Panics (A : App W R) (h : HConfig) (env : Env) : PanicVal → Prop where
  /-- the controller's own complaint about a message that it should not have been given -/
  | internal (d : String) (hs : ¬ Suitable h env) : Panics A h env (.internal d)
  | behavior (iface method d : String) : Panics A h env (.behavior h.name iface method env.msg d)
  | aggRoute (w : W) (v : PanicVal) (ht : h.htype = .aggregate)
      (hv : (A.uc.aggRoute h env.msg w).2 = .error v) :
      Panics A h env (surfaced h "AggregateMessageHandler" "RouteCommandToInstance" env.msg v)
  | aggNew (w : W) (v : PanicVal) (ht : h.htype = .aggregate)
      (hv : (A.uc.aggNew h w).2 = .error v) : Panics A h env v
  | aggApply (r : R) (m : Message) (w : W) (v : PanicVal) (ht : h.htype = .aggregate)
      (hv : (A.uc.aggApply h r m w).2.2 = some v) :
      Panics A h env (surfaced h "AggregateRoot" "ApplyEvent" m v)
  | aggHandle (id : String) (r : R) (v : PanicVal) (ht : h.htype = .aggregate)
      (hv : Raises (AggScopePanic A h env) (A.uc.aggHandle h id r env.msg) v) :
      Panics A h env (surfaced h "AggregateMessageHandler" "HandleCommand" env.msg v)
  | procRoute (w : W) (v : PanicVal) (ht : h.htype = .process)
      (hv : (A.uc.procRoute h env.msg w).2 = .error v) :
      Panics A h env (surfaced h "ProcessMessageHandler" "RouteEventToInstance" env.msg v)
  | procNew (w : W) (v : PanicVal) (ht : h.htype = .process)
      (hv : (A.uc.procNew h w).2 = .error v) : Panics A h env v
  | procHandle (id : String) (r : R) (t : Time) (v : PanicVal) (ht : h.htype = .process)
      (hv : Raises (fun u => ∃ d, u = .behavior h.name "ProcessMessageHandler"
          (if env.msg.type.kind = .timeout then "HandleTimeout" else "HandleEvent") env.msg d)
        (A.uc.procHandle h id r env.msg t) v) :
      Panics A h env (surfaced h "ProcessMessageHandler"
        (if env.msg.type.kind = .timeout then "HandleTimeout" else "HandleEvent") env.msg v)
  | intHandle (v : PanicVal) (ht : h.htype = .integration)
      (hv : Raises (fun u => ∃ d, u = .behavior h.name "IntegrationMessageHandler" "HandleCommand"
          env.msg d) (A.uc.intHandle h env.msg) v) :
      Panics A h env (surfaced h "IntegrationMessageHandler" "HandleCommand" env.msg v)
  | prjVersion (w : W) (v : PanicVal) (ht : h.htype = .projection)
      (hv : (A.uc.prjVersion h env.id w).2 = .error v) : Panics A h env v
  | prjClose (w : W) (v : PanicVal) (ht : h.htype = .projection)
      (hv : (A.uc.prjClose h env.id w).2 = .error v) : Panics A h env v
  | prjHandle (v : PanicVal) (ht : h.htype = .projection)
      (hv : Raises (fun _ => False) (A.uc.prjHandle h env.id [] [1] env.msg env.createdAt) v) :
      Panics A h env (surfaced h "ProjectionMessageHandler" "HandleEvent" env.msg v)
  /-- `Compact()` panics on its own goroutine -/
  | crash (d : String) (now : Time) (v : PanicVal) (ht : h.htype = .projection)
      (hv : Raises (fun _ => False) (A.uc.prjCompact h now) v) : Panics A h env (.crash d)

theorem not_consumes {h : HConfig} {m : Message} (hb : h.consumes? m = false) :
    m.type ∉ h.consumes := by
  simpa [HConfig.consumes?] using hb

theorem enrich_surfaced (h : HConfig) (i m : String) (x : Message) (v : PanicVal) :
    enrich h i m x v = surfaced h i m x v := by
  cases v <;> rfl

theorem aggOp_panic (A : App W R) (h : HConfig) (id : String) (now : Time) (env : Env) (o : AggOp R)
    (s s' : Sys W R) (sc sc' : AggScope R) (v : PanicVal)
    (hn : sc.root = none → ∃ w, (A.uc.aggNew h w).2 = .ok none)
    (e : aggOp A h id now env o s sc = (s', sc', some v)) : AggScopePanic A h env v := by
  unfold aggOp at e
  cases o with
  | log t => cases e
  | setRoot r => cases e
  | destroy =>
    simp only at e
    unfold aggDestroy at e
    split at e
    · cases e
    · split at e
      · rename_i he; obtain ⟨rfl, hv⟩ := user_eq he
        cases e
        exact .new _ _ hv.symm
      · cases e
  | record m =>
    simp only at e
    unfold aggRecord at e
    split at e
    · cases e; exact .misuse _
    · split at e
      · cases e; exact .misuse _
      · split at e
        rename_i s1 sc1 hv1
        have hroot : sc1.root = sc.root := by
          unfold aggRevive at hv1
          split at hv1 <;> cases hv1 <;> rfl
        split at e
        · rename_i he
          unfold aggApplyScope at he
          split at he
          · rename_i hnone
            obtain ⟨w, hw⟩ := hn (hroot.symm.trans hnone)
            cases e; cases he; exact .nilRoot _ w hw
          · split at he
            · cases he
            · rename_i hu
              obtain ⟨_, hv⟩ := user_eq hu
              cases e; cases he
              rw [enrich_surfaced]
              exact .apply _ m _ _ (by rw [← hv])
        · cases e

/-- The root is nil only if `New()` returned nil. -/
theorem aggOp_root (A : App W R) (h : HConfig) (id : String) (now : Time) (env : Env) (o : AggOp R)
    (s : Sys W R) (sc : AggScope R) (hn : sc.root = none → ∃ w, (A.uc.aggNew h w).2 = .ok none) :
    (aggOp A h id now env o s sc).2.1.root = none → ∃ w, (A.uc.aggNew h w).2 = .ok none := by
  unfold aggOp
  cases o with
  | log t => exact hn
  | setRoot r =>
    simp only
    split
    · nofun
    · exact hn
  | destroy =>
    simp only
    unfold aggDestroy
    split
    · exact hn
    · split
      · exact hn
      · rename_i hu
        obtain ⟨_, hv⟩ := user_eq hu
        rintro hr
        subst hr
        exact ⟨_, hv.symm⟩
  | record m =>
    simp only
    unfold aggRecord
    split
    · exact hn
    · split
      · exact hn
      · split
        rename_i s1 sc1 hv1
        have hroot : sc1.root = sc.root := by
          unfold aggRevive at hv1
          split at hv1 <;> cases hv1 <;> rfl
        have key : ∀ s2 sc2 x, aggApplyScope A h m s1 sc1 = (s2, sc2, x) → sc2.root = none →
            ∃ w, (A.uc.aggNew h w).2 = .ok none := by
          intro s2 sc2 x he
          unfold aggApplyScope at he
          split at he
          · rename_i hnone; cases he; intro _; exact hn (hroot.symm.trans hnone)
          · split at he <;> cases he <;> nofun
        split
        · rename_i he; exact key _ _ _ he
        · rename_i he; intro hr; exact key _ _ _ he hr

theorem aggRun_raises (A : App W R) (h : HConfig) (id : String) (now : Time) (env : Env)
    (p : Prog W (AggOp R) Unit) (s s' : Sys W R) (sc sc' : AggScope R) (v : PanicVal)
    (hn : sc.root = none → ∃ w, (A.uc.aggNew h w).2 = .ok none)
    (e : aggRun A h id now env p s sc = (s', sc', some v)) : Raises (AggScopePanic A h env) p v := by
  induction p generalizing s sc with
  | ret => cases e
  | panic u => cases e; exact .panic _
  | get k ih => exact .get _ (ih _ _ _ hn e)
  | set w k ih => exact .set (ih _ _ hn e)
  | op o k ih =>
    unfold aggRun at e
    have hn1 := aggOp_root A h id now env o s sc hn
    rcases ho : aggOp A h id now env o s sc with ⟨s1, sc1, x⟩
    rw [ho] at e hn1
    refine .op x ?_ (ih x _ _ hn1 e)
    rintro u rfl
    exact aggOp_panic A h id now env o s s1 sc sc1 u hn ho

theorem aggReplay_panic (A : App W R) (h : HConfig) (env : Env) (ht : h.htype = .aggregate)
    (hist : List Env) (r : R) (s s' : Sys W R) (v : PanicVal)
    (e : aggReplay A h hist r s = (s', .error v)) : Panics A h env v := by
  induction hist generalizing r s with
  | nil => cases e
  | cons x xs ih =>
    unfold aggReplay at e
    split at e
    · rename_i hu; obtain ⟨_, hv⟩ := user_eq hu
      cases e
      rw [enrich_surfaced]
      exact .aggApply _ x.msg _ _ ht (by rw [← hv])
    · exact ih _ _ e

theorem aggInvoke_panic (A : App W R) (h : HConfig) (id : String) (now : Time) (env : Env)
    (ht : h.htype = .aggregate) (r : R) (ex : Bool) (s s' : Sys W R) (v : PanicVal)
    (e : aggInvoke A h id now env r ex s = (s', .error v)) : Panics A h env v := by
  unfold aggInvoke at e
  split at e
  · rename_i hr
    cases e
    rw [enrich_surfaced]
    exact .aggHandle id r _ ht (aggRun_raises A h id now env _ _ _ _ _ _ (fun h => (by cases h)) hr)
  · cases e

theorem aggHandle_panic (A : App W R) (h : HConfig) (now : Time) (env : Env)
    (ht : h.htype = .aggregate) (s s' : Sys W R) (v : PanicVal)
    (e : aggHandle A h now env s = (s', .error v)) : Panics A h env v := by
  unfold aggHandle at e
  split at e
  · rename_i hb
    cases e; exact .internal _ (fun k => not_consumes hb k.consumed)
  split at e
  · rename_i hb
    cases e
    refine .internal _ (fun k => hb ?_)
    have := k.kind
    rw [ht] at this; exact this
  split at e
  · rename_i hu; obtain ⟨_, hv⟩ := user_eq hu
    cases e
    rw [enrich_surfaced]
    exact .aggRoute _ _ ht hv.symm
  · split at e
    · cases e; exact .behavior _ _ _
    · unfold aggWithID at e
      split at e
      · rename_i hu; obtain ⟨_, hv⟩ := user_eq hu
        cases e
        exact .aggNew _ _ ht hv.symm
      · cases e; exact .behavior _ _ _
      · split at e
        · split at e
          · rename_i hr
            cases e
            exact aggReplay_panic A h env ht _ _ _ _ _ hr
          · exact aggInvoke_panic A h _ now env ht _ _ _ _ _ e
        · exact aggInvoke_panic A h _ now env ht _ _ _ _ _ e

theorem procMethod_eq (env : Env) : procMethod env =
    if env.msg.type.kind = .timeout then "HandleTimeout" else "HandleEvent" := by
  unfold procMethod
  cases env.msg.type.kind <;> rfl

theorem procRun_raises (h : HConfig) (id : String) (now : Time) (env : Env)
    (p : Prog W (ProcOp R) (Option Err)) (s s' : Sys W R) (sc sc' : ProcScope R) (v : PanicVal)
    (e : procRun h id now env p s sc = (s', sc', .error v)) :
    Raises (fun u => ∃ d, u = .behavior h.name "ProcessMessageHandler" (procMethod env) env.msg d)
      p v := by
  induction p generalizing s sc with
  | ret => cases e
  | panic u => cases e; exact .panic _
  | get k ih => exact .get _ (ih _ _ _ e)
  | set w k ih => exact .set (ih _ _ e)
  | op o k ih =>
    unfold procRun at e
    rcases ho : procOp h id now env o s sc with ⟨s1, sc1, x⟩
    rw [ho] at e
    refine .op x ?_ (ih x _ _ e)
    rintro u rfl
    unfold procOp at ho
    cases o with
    | end_ => simp only at ho; split at ho <;> cases ho
    | setRoot r => cases ho
    | log t => cases ho
    | execute m =>
      simp only at ho
      split at ho
      · cases ho; exact ⟨_, rfl⟩
      · split at ho
        · cases ho; exact ⟨_, rfl⟩
        · cases ho
    | schedule m t =>
      simp only at ho
      split at ho
      · cases ho; exact ⟨_, rfl⟩
      · split at ho
        · cases ho; exact ⟨_, rfl⟩
        · cases ho

theorem procInvoke_panic (A : App W R) (h : HConfig) (id : String) (now : Time) (env : Env)
    (ht : h.htype = .process) (r : R) (ex : Bool) (s s' : Sys W R) (v : PanicVal)
    (e : procInvoke A h id now env r ex s = (s', .error v)) : Panics A h env v := by
  unfold procInvoke at e
  split at e
  · rename_i hr
    cases e
    have := procRun_raises h id now env _ _ _ _ _ _ hr
    rw [enrich_surfaced, procMethod_eq]
    rw [procMethod_eq] at this
    exact .procHandle id r _ _ ht this
  · cases e
  · split at e <;> cases e

theorem procWithID_panic (A : App W R) (h : HConfig) (id : String) (now : Time) (env : Env)
    (ht : h.htype = .process) (s s' : Sys W R) (v : PanicVal)
    (e : procWithID A h id now env s = (s', .error v)) : Panics A h env v := by
  unfold procWithID at e
  split at e
  · exact procInvoke_panic A h _ now env ht _ _ _ _ _ e
  · split at e
    · rename_i hu; obtain ⟨_, hv⟩ := user_eq hu
      cases e
      exact .procNew _ _ ht hv.symm
    · cases e; exact .behavior _ _ _
    · exact procInvoke_panic A h _ now env ht _ _ _ _ _ e

theorem procHandle_panic (A : App W R) (h : HConfig) (now : Time) (env : Env)
    (ht : h.htype = .process) (s s' : Sys W R) (v : PanicVal)
    (e : procHandle A h now env s = (s', .error v)) : Panics A h env v := by
  unfold procHandle at e
  split at e
  · rename_i hb
    cases e; exact .internal _ (fun k => not_consumes hb k.consumed)
  split at e
  · rename_i hb
    cases e
    refine .internal _ (fun k => ?_)
    have := k.kind
    rw [ht] at this
    rcases this with this | this <;> (rw [hb] at this; cases this)
  · split at e
    · rename_i hu; obtain ⟨_, hv⟩ := user_eq hu
      cases e
      rw [enrich_surfaced]
      exact .procRoute _ _ ht hv.symm
    · cases e
    · cases e
    · split at e
      · cases e; exact .behavior _ _ _
      · exact procWithID_panic A h _ now env ht _ _ _ e
  · rename_i hb
    split at e
    · rename_i ho
      cases e; exact .internal _ (fun k => k.origin hb ho)
    · split at e
      · exact procWithID_panic A h _ now env ht _ _ _ e
      · cases e

theorem intRun_raises (h : HConfig) (now : Time) (env : Env)
    (p : Prog W IntOp (Option Err)) (s s' : Sys W R) (evs evs' : List Env) (v : PanicVal)
    (e : intRun h now env p s evs = (s', evs', .error v)) :
    Raises (fun u => ∃ d, u = .behavior h.name "IntegrationMessageHandler" "HandleCommand"
      env.msg d) p v := by
  induction p generalizing s evs with
  | ret => cases e
  | panic u => cases e; exact .panic _
  | get k ih => exact .get _ (ih _ _ _ e)
  | set w k ih => exact .set (ih _ _ e)
  | op o k ih =>
    unfold intRun at e
    rcases ho : intOp h now env o s evs with ⟨s1, sc1, x⟩
    rw [ho] at e
    refine .op x ?_ (ih x _ _ e)
    rintro u rfl
    unfold intOp at ho
    cases o with
    | log t => cases ho
    | record m =>
      simp only at ho
      split at ho
      · cases ho; exact ⟨_, rfl⟩
      · split at ho
        · cases ho; exact ⟨_, rfl⟩
        · cases ho

theorem intHandle_panic (A : App W R) (h : HConfig) (now : Time) (env : Env)
    (ht : h.htype = .integration) (s s' : Sys W R) (v : PanicVal)
    (e : intHandle A h now env s = (s', .error v)) : Panics A h env v := by
  unfold intHandle at e
  split at e
  · rename_i hb
    cases e; exact .internal _ (fun k => not_consumes hb k.consumed)
  split at e
  · rename_i hb
    cases e
    refine .internal _ (fun k => hb ?_)
    have := k.kind
    rw [ht] at this; exact this
  split at e
  · rename_i hr
    cases e
    rw [enrich_surfaced]
    exact .intHandle _ ht (intRun_raises h now env _ _ _ _ _ _ hr)
  · cases e

theorem prjRun_raises {α : Type} (h : HConfig) (env : Option Env) (p : Prog W PrjOp α)
    (s s' : Sys W R) (v : PanicVal) (e : prjRun h env p s = (s', .error v)) :
    Raises (fun _ => False) p v := by
  induction p generalizing s with
  | ret => cases e
  | panic u => cases e; exact .panic _
  | get k ih => exact .get _ (ih _ _ e)
  | set w k ih => exact .set (ih _ e)
  | op o k ih =>
    cases o
    exact .op none (fun u hu => by cases hu) (ih none _ e)

theorem prjStep_raises {α : Type} (h : HConfig) (env : Option Env) (p p' : Prog W PrjOp α)
    (s s' : Sys W R) (v : PanicVal) (e : prjStep h env p s = (p', s'))
    (hr : Raises (fun _ => False) p' v) : Raises (fun _ => False) p v := by
  cases p with
  | ret => cases e; exact hr
  | panic u => cases e; exact hr
  | get k => cases e; exact .get _ hr
  | set w k => cases e; exact .set hr
  | op o k =>
    cases o
    cases e
    exact .op none (fun u hu => by cases hu) hr

theorem prjPar_panic (A : App W R) (h : HConfig) (now : Time) (env : Env)
    (ht : h.htype = .projection) (bs : List Bool) (hp : Prog W PrjOp (Except Err Bool))
    (cp : Prog W PrjOp (Option Err)) (s s' : Sys W R) (v : PanicVal)
    (h1 : ∀ u, Raises (fun _ => False) hp u →
      Raises (fun _ => False) (A.uc.prjHandle h env.id [] [1] env.msg env.createdAt) u)
    (h2 : ∀ u, Raises (fun _ => False) cp u → Raises (fun _ => False) (A.uc.prjCompact h now) u)
    (e : prjPar h env bs hp cp s = (s', .error v)) : Panics A h env v := by
  induction bs generalizing hp cp s with
  | nil =>
    unfold prjPar at e
    split at e
    · rename_i hr
      cases e
      rw [enrich_surfaced]
      exact .prjHandle _ ht (h1 _ (prjRun_raises h _ _ _ _ _ hr))
    · split at e
      · rename_i hr
        cases e
        exact .crash _ now _ ht (h2 _ (prjRun_raises h _ _ _ _ _ hr))
      · cases e
  | cons b bs ih =>
    unfold prjPar at e
    split at e
    · cases e; exact .crash _ now _ ht (h2 _ (.panic _))
    · cases e
      rw [enrich_surfaced]
      exact .prjHandle _ ht (h1 _ (.panic _))
    · split at e
      · split at e
        rename_i hs
        exact ih _ _ _ h1 (fun u hu => h2 u (prjStep_raises h _ _ _ _ _ _ hs hu)) e
      · split at e
        rename_i hs
        exact ih _ _ _ (fun u hu => h1 u (prjStep_raises h _ _ _ _ _ _ hs hu)) h2 e

theorem prjHandle_panic (A : App W R) (h : HConfig) (now : Time) (env : Env)
    (ht : h.htype = .projection) (s s' : Sys W R) (v : PanicVal)
    (e : prjHandle A h now env s = (s', .error v)) : Panics A h env v := by
  unfold prjHandle at e
  split at e
  · rename_i hb
    cases e; exact .internal _ (fun k => not_consumes hb k.consumed)
  split at e
  · rename_i hb
    cases e
    refine .internal _ (fun k => hb ?_)
    have := k.kind
    rw [ht] at this; exact this
  split at e
  · rename_i hu; obtain ⟨_, hv⟩ := user_eq hu
    cases e
    exact .prjVersion _ _ ht hv.symm
  · cases e
  · cases e
  · split at e
    · rename_i ha
      cases e
      unfold prjApply at ha
      split at ha
      · split at ha
        · rename_i hp
          cases ha
          exact prjPar_panic A h now env ht _ _ _ _ _ _ (fun _ => id) (fun _ => id) hp
        · cases ha
      · split at ha
        · rename_i hr
          cases ha
          rw [enrich_surfaced]
          exact .prjHandle _ ht (prjRun_raises h _ _ _ _ _ hr)
        · cases ha
    · unfold prjFinish at e
      split at e
      · cases e
      · cases e
      · split at e
        · rename_i hu; obtain ⟨_, hv⟩ := user_eq hu
          cases e
          exact .prjClose _ _ ht hv.symm
        · cases e
        · cases e

/-- **C43.** Every panic that escapes from a handling is the engine's own complaint, or was
raised by the user's code; in the latter case `dogma.UnexpectedMessage` has become a value
that names the method (given a message) that raised it and the message it was given, and
every other value is unchanged.  (Methods that are not given a message are not wrapped.) -/
theorem C43_surfaced (A : App W R) (h : HConfig) (now : Time) (env : Env) (s s' : Sys W R)
    (v : PanicVal) (e : ctlHandle A h now env s = (s', .error v)) : Panics A h env v := by
  unfold ctlHandle at e
  cases ht : h.htype <;> rw [ht] at e
  · exact aggHandle_panic A h now env ht s s' v e
  · exact procHandle_panic A h now env ht s s' v e
  · exact intHandle_panic A h now env ht s s' v e
  · exact prjHandle_panic A h now env ht s s' v e

theorem surfaced_ne (h : HConfig) (i m : String) (x : Message) (v : PanicVal) :
    surfaced h i m x v ≠ .unexpectedMessage := by
  unfold surfaced
  split
  · nofun
  · assumption

/-- **C43.** When the methods that are not given a message do not raise it,
`dogma.UnexpectedMessage` never escapes as such. -/
theorem C43_never_raw (A : App W R) (h : HConfig) (now : Time) (env : Env) (s s' : Sys W R)
    (h1 : ∀ w, (A.uc.aggNew h w).2 ≠ .error .unexpectedMessage)
    (h2 : ∀ w, (A.uc.procNew h w).2 ≠ .error .unexpectedMessage)
    (h3 : ∀ w, (A.uc.prjVersion h env.id w).2 ≠ .error .unexpectedMessage)
    (h4 : ∀ w, (A.uc.prjClose h env.id w).2 ≠ .error .unexpectedMessage) :
    ctlHandle A h now env s ≠ (s', .error .unexpectedMessage) := by
  intro e
  have := C43_surfaced A h now env s s' _ e
  generalize hv : PanicVal.unexpectedMessage = v at this
  cases this with
  | internal => cases hv
  | behavior => cases hv
  | crash => cases hv
  | aggNew w v ht hw => subst hv; exact h1 w hw
  | procNew w v ht hw => subst hv; exact h2 w hw
  | prjVersion w v ht hw => subst hv; exact h3 w hw
  | prjClose w v ht hw => subst hv; exact h4 w hw
  | _ => exact surfaced_ne _ _ _ _ _ hv.symm

/-! ### Whole operations -/

/-- The panics that can escape from an operation. -/
inductive OpPanics (A : App W R) : PanicVal → Prop where
  /-- complaints about the arguments of the operation -/
  | misuse (d : String) : OpPanics A (.misuse d)
  /-- escaped from a handling -/
  | handling (h : HConfig) (env : Env) (v : PanicVal) (hm : h ∈ A.cfgs) (hs : Suitable h env)
      (hv : Panics A h env v) : OpPanics A v
  /-- raised by `Compact()` during a tick -/
  | compact (h : HConfig) (now : Time) (v : PanicVal) (hm : h ∈ A.cfgs)
      (hv : Raises (fun _ => False) (A.uc.prjCompact h now) v) : OpPanics A v

theorem handleAll_panic (A : App W R) (oo : OpOpts) (env : Env) (hs : List HConfig)
    (hm : ∀ h ∈ hs, h ∈ A.cfgs ∧ Suitable h env) (q : List Env) (de : List EngErr) (s s' : Sys W R)
    (v : PanicVal) (e : handleAll A oo env hs q de s = (s', .error v)) : OpPanics A v := by
  induction hs generalizing q de s with
  | nil => cases e
  | cons h hs ih =>
    unfold handleAll at e
    split at e
    · rename_i ho
      cases e
      unfold handleOne at ho
      split at ho
      · cases ho
      · split at ho
        · rename_i hc
          cases ho
          exact .handling h env _ (hm h (by simp)).1 (hm h (by simp)).2 (C43_surfaced A h _ env _ _ _ hc)
        · cases ho
    · exact ih (fun x hx => hm x (by simp [hx])) _ _ _ e

/-- If it is a timeout, it comes from a process of the application that declares it. -/
def TimeoutsOK (A : App W R) (e : Env) : Prop := e.msg.type.kind = .timeout → TimeoutOK A e

/-- What a handling hands to the engine is in order. -/
theorem ctlHandle_timeouts {A : App W R} {h : HConfig} (hm : h ∈ A.cfgs) {now : Time} {env : Env}
    {s s' : Sys W R} {envs : List Env} {x : Option Err}
    (e : ctlHandle A h now env s = (s', .ok (envs, x))) : ∀ c ∈ envs, TimeoutsOK A c := by
  obtain ⟨seg, _, h2, h3, _⟩ := ctlHandle_sum A h now env s
  rw [e] at h3
  have h3 := h3 envs x rfl
  intro c hc hk
  have hin : c ∈ createdIn seg := by
    rw [h3] at hc
    unfold emission at hc
    split at hc
    · exact mem_aggEventsIn_created hc
    · exact mem_intEventsIn_created hc
    · cases hc
    · split at hc
      · cases hc
      · rcases List.mem_append.1 hc with hc | hc
        · exact mem_commandsIn_created hc
        · split at hc
          · cases hc
          · exact mem_timeoutsIn_created (List.mem_filter.1 hc).1
  obtain ⟨o, ho, hoc⟩ := List.mem_filterMap.1 hin
  have hi := h2 o ho
  cases o with
  | reset => cases hoc
  | call c => cases hoc
  | fact f =>
    rcases hi with hi | ⟨ev, hp, hch, hk2⟩
    · cases f <;> first | exact hi.elim | cases hoc
    · have : ev = c := by
        cases f <;> cases hp <;> exact Option.some.inj hoc
      subst this
      cases f <;> cases hp
      · rw [hk2.2.1] at hk; cases hk
      · rw [hk2.2.1] at hk; cases hk
      · exact ⟨_, hk2.2.2, hm, hk2.1, hch.declared, hk⟩
      · rw [hk2.2.1] at hk; cases hk

theorem handleAll_timeouts {A : App W R} {oo : OpOpts} {env : Env} (hs : List HConfig)
    (hm : ∀ h ∈ hs, h ∈ A.cfgs) (q : List Env) (de : List EngErr) (s s' : Sys W R) {q' : List Env}
    {de' : List EngErr} (hq : ∀ c ∈ q, TimeoutsOK A c)
    (e : handleAll A oo env hs q de s = (s', .ok (q', de'))) : ∀ c ∈ q', TimeoutsOK A c := by
  induction hs generalizing q de s with
  | nil => cases e; exact hq
  | cons h hs ih =>
    unfold handleAll at e
    split at e
    · cases e
    · rename_i ho
      refine ih (fun x hx => hm x (by simp [hx])) _ _ _ ?_ e
      intro c hc
      rcases List.mem_append.1 hc with hc | hc
      · exact hq c hc
      · unfold handleOne at ho
        split at ho
        · cases ho; cases hc
        · split at ho
          · cases ho
          · rename_i hh
            cases ho
            exact ctlHandle_timeouts (hm h (by simp)) hh c hc

/-- Handlers are only given messages that suit them. -/
theorem targets_suit {A : App W R} (wf : A.WF) {env : Env} (ht : TimeoutsOK A env) :
    ∃ hs, A.targets env = .ok hs ∧ ∀ h ∈ hs, h ∈ A.cfgs ∧ Suitable h env := by
  rcases he : A.targets env with v | hs
  · exact absurd he (targets_ok ht)
  · refine ⟨hs, rfl, ?_⟩
    intro h hh
    obtain ⟨hm, hc, hk⟩ := targets_sound wf he ht hh
    have hw := (wf.handlers h hm).consumes _ hc
    refine ⟨hm, hc, ?_, fun hkt hn => ?_⟩
    · revert hw
      cases h.htype with
      | process => exact fun x => x.imp id And.left
      | _ => exact id
    · obtain ⟨o, ho, _⟩ := hk hkt
      rw [hn] at ho; cases ho

theorem loop_panic {A : App W R} (wf : A.WF) (oo : OpOpts) (n : Nat) (q : List Env)
    (errs : List EngErr) (s s' : Sys W R) (v : PanicVal) (hq : ∀ c ∈ q, TimeoutsOK A c)
    (e : dispatchLoop A oo n q errs s = (s', .panicked v)) : OpPanics A v := by
  induction n generalizing q errs s with
  | zero => cases q <;> cases e
  | succ n ih =>
    cases q with
    | nil => cases e
    | cons env q =>
      unfold dispatchLoop at e
      obtain ⟨hs, ht, hsu⟩ := targets_suit wf (hq env (by simp))
      rw [ht] at e
      simp only at e
      split at e
      · rename_i ha
        cases e
        exact handleAll_panic A oo env _ hsu _ _ _ _ _ ha
      · rename_i ha
        split at e
        · cases e
        · exact ih _ _ _ (handleAll_timeouts _ (fun h hh => (hsu h hh).1) _ _ _ _
            (fun c hc => hq c (by simp [hc])) ha) e

theorem ctlTick_panic (A : App W R) (h : HConfig) (hm : h ∈ A.cfgs) (now : Time) (s s' : Sys W R)
    (v : PanicVal) (e : ctlTick A h now s = (s', .error v)) : OpPanics A v := by
  unfold ctlTick at e
  split at e
  · cases e
  · split at e
    · rename_i hp
      cases e
      unfold prjTick at hp
      split at hp
      · simp only at hp
        split at hp
        · rename_i hr
          cases hp
          exact .compact h now _ hm (prjRun_raises h _ _ _ _ _ hr)
        · cases hp
      · cases hp
    · cases e
  · cases e

theorem tickAll_panic (A : App W R) (oo : OpOpts) (hs : List HConfig)
    (hm : ∀ h ∈ hs, h ∈ A.cfgs) (q : List Env) (errs : List EngErr) (s s' : Sys W R) (v : PanicVal)
    (e : tickAll A oo hs q errs s = (s', .error v)) : OpPanics A v := by
  induction hs generalizing q errs s with
  | nil => cases e
  | cons h hs ih =>
    unfold tickAll at e
    split at e
    · exact ih (fun x hx => hm x (by simp [hx])) _ _ _ e
    · split at e
      · rename_i hc
        cases e
        exact ctlTick_panic A h (hm h (by simp)) _ _ _ _ hc
      · simp only at e
        split at e
        · cases e
        · exact ih (fun x hx => hm x (by simp [hx])) _ _ _ e

theorem opts_panic (A : App W R) (s : Sys W R) (os : List OpOption) (v : PanicVal)
    (e : newOpOpts A s os = .error v) : OpPanics A v := by
  unfold newOpOpts at e
  generalize OpOpts.default (A.uc.wallClock s.w) = oo at e
  induction os generalizing oo with
  | nil => cases e
  | cons o os ih =>
    unfold OpOpts.applyAll at e
    split at e
    · rename_i ha
      cases e
      unfold OpOpts.apply at ha
      split at ha
      · cases ha
      · split at ha
        · cases ha
        · cases ha; exact .misuse _
      · cases ha
      · cases ha
    · exact ih _ e

/-- What a tick finds due is in order. -/
theorem tickAll_timeouts {A : App W R} {oo : OpOpts} (hs : List HConfig) (q : List Env)
    (errs : List EngErr) (s s' : Sys W R) {q' : List Env} {errs' : List EngErr} {c : Option Err}
    (hp : ∀ n e, e ∈ (s.proc n).timeouts → TimeoutOK A e) (hq : ∀ c ∈ q, TimeoutsOK A c)
    (e : tickAll A oo hs q errs s = (s', .ok (q', errs', c))) : ∀ c ∈ q', TimeoutsOK A c := by
  induction hs generalizing q errs s with
  | nil => cases e; exact hq
  | cons h hs ih =>
    unfold tickAll at e
    split at e
    · exact ih _ _ (s.notify _) hp hq e
    · obtain ⟨seg, g⟩ := ctlTick_sum A h oo.now (s.notify (.tickBegun h))
      split at e
      · cases e
      · rename_i s1 envs x hc
        rw [hc] at g
        have g1 := g.proc
        have g2 := g.ok _ _ rfl
        have hq1 : ∀ c ∈ q ++ envs, TimeoutsOK A c := by
          intro c hc _
          rcases List.mem_append.1 hc with hc | hc
          · exact hq c hc (by assumption)
          · rw [g2] at hc
            split at hc
            · exact hp _ _ ((List.takeWhile_sublist _).mem hc)
            · cases hc
        simp only at e
        split at e
        · cases e; exact hq1
        · refine ih _ _ _ ?_ hq1 e
          intro n t ht
          have ht : t ∈ (s1.proc n).timeouts := ht
          have g1 : s1.proc = _ := g1
          rw [g1] at ht
          split at ht
          · unfold upd at ht
            split at ht
            · exact hp _ _ ((List.dropWhile_sublist _).mem ht)
            · exact hp _ _ ht
          · exact hp _ _ ht

/-- **C43, whole operations.** A dispatch or tick panics only with a complaint about its arguments,
with a complaint about the behaviour of user code, or with a value raised by user code, turned into
one that names the method if it was `dogma.UnexpectedMessage` raised by a method that is given a
message.  The handler was given a message that suits it. -/
theorem C43_operation {A : App W R} (wf : A.WF) {s : Sys W R} (hs : Reach A s) (op : Op)
    (hop : op.ok A) (hr : op ≠ .reset) (s' : Sys W R) (v : PanicVal)
    (e : op.exec A s = (s', .panicked v)) : OpPanics A v := by
  cases op with
  | reset => exact absurd rfl hr
  | dispatch n m os =>
    change engDispatch A n m os s = _ at e
    unfold engDispatch at e
    simp only at e
    split at e
    · rename_i ho; cases e; exact opts_panic A _ os _ ho
    · split at e
      · cases e; exact .misuse _
      · rename_i hk
        split at e
        · cases e; exact .misuse _
        · split at e
          · cases e; exact .misuse _
          · split at e
            · cases e
            · split at e
              · cases e
              · rename_i hl
                cases e
                refine loop_panic wf _ _ _ _ _ _ _ ?_ hl
                intro c hc hkt
                rw [List.mem_singleton.1 hc] at hkt
                exact absurd hkt hk
  | tick n order os =>
    change engTick A n order os s = _ at e
    unfold engTick at e
    split at e
    · rename_i ho; cases e; exact opts_panic A _ os _ ho
    · simp only at e
      split at e
      · cases e
      · split at e
        · cases e
        · rename_i hl
          cases e
          unfold engTickLocked at hl
          split at hl
          · rename_i ht
            cases hl
            exact tickAll_panic A _ _ (fun h hh => (List.Perm.mem_iff hop).1 hh) _ _ _ _ _ ht
          · cases hl
          · rename_i ht
            split at hl
            · cases hl
            · rename_i hl2
              cases hl
              refine loop_panic wf _ _ _ _ _ _ _ ?_ hl2
              exact tickAll_timeouts _ _ _ (s.notify _) _ (fun n x hx => ((core_reach wf hs).pend n x hx).2.1)
                (fun _ h => absurd h List.not_mem_nil) ht

/-! ## C79 -/

/-- The values that can be raised by user code that never makes up an internal failure of the
engine. -/
structure Honest (A : App W R) : Prop where
  aggRoute : ∀ h m w d, (A.uc.aggRoute h m w).2 ≠ .error (.internal d)
  aggNew : ∀ h w d, (A.uc.aggNew h w).2 ≠ .error (.internal d)
  aggApply : ∀ h r m w d, (A.uc.aggApply h r m w).2.2 ≠ some (.internal d)
  aggHandle : ∀ h id r m (S : PanicVal → Prop) d, (∀ d, ¬ S (.internal d)) →
    ¬ Raises S (A.uc.aggHandle h id r m) (.internal d)
  procRoute : ∀ h m w d, (A.uc.procRoute h m w).2 ≠ .error (.internal d)
  procNew : ∀ h w d, (A.uc.procNew h w).2 ≠ .error (.internal d)
  procHandle : ∀ h id r m t (S : PanicVal → Prop) d, (∀ d, ¬ S (.internal d)) →
    ¬ Raises S (A.uc.procHandle h id r m t) (.internal d)
  intHandle : ∀ h m (S : PanicVal → Prop) d, (∀ d, ¬ S (.internal d)) →
    ¬ Raises S (A.uc.intHandle h m) (.internal d)
  prjVersion : ∀ h id w d, (A.uc.prjVersion h id w).2 ≠ .error (.internal d)
  prjHandle : ∀ h id cur next m t (S : PanicVal → Prop) d, (∀ d, ¬ S (.internal d)) →
    ¬ Raises S (A.uc.prjHandle h id cur next m t) (.internal d)
  prjClose : ∀ h id w d, (A.uc.prjClose h id w).2 ≠ .error (.internal d)
  prjCompact : ∀ h t (S : PanicVal → Prop) d, (∀ d, ¬ S (.internal d)) →
    ¬ Raises S (A.uc.prjCompact h t) (.internal d)

theorem surfaced_internal {h : HConfig} {i m d : String} {x : Message} {v : PanicVal}
    (e : surfaced h i m x v = .internal d) : v = .internal d := by
  unfold surfaced at e
  split at e
  · cases e
  · exact e

/-- **C79.** No dispatch or tick in a history of the engine runs into a failure of the engine itself
(a controller given a message that it does not handle, a missing controller, a timeout without
origin, a nil root), as long as `New()` of aggregates does not return nil (and user code does not
raise values made to look like such failures). -/
theorem C79_no_internal_partial {A : App W R} (wf : A.WF) (hon : Honest A)
    (hnil : ∀ h w, (A.uc.aggNew h w).2 ≠ .ok none) {s : Sys W R} (hs : Reach A s) (op : Op)
    (hop : op.ok A) (hr : op ≠ .reset) (d : String) : (op.exec A s).2 ≠ .panicked (.internal d) := by
  intro e
  rcases hx : op.exec A s with ⟨s', o⟩
  rw [hx] at e
  have e : o = .panicked (.internal d) := e
  subst e
  have hp := C43_operation wf hs op hop hr s' _ hx
  generalize hv : PanicVal.internal d = v at hp
  cases hp with
  | misuse => cases hv
  | compact h now v hm hr => subst hv; exact hon.prjCompact _ _ _ _ (fun _ h => h) hr
  | handling h env v hm hsu hp =>
    have hb : ∀ i m x d', ¬ ∃ d, PanicVal.internal d' = .behavior h.name i m x d := by
      rintro i m x d' ⟨d, hd⟩; cases hd
    cases hp with
    | internal d hs => exact hs hsu
    | behavior => cases hv
    | crash => cases hv
    | aggRoute w v ht hw => exact hon.aggRoute _ _ _ _ (by rw [surfaced_internal hv.symm] at hw; exact hw)
    | aggNew w v ht hw => subst hv; exact hon.aggNew _ _ _ hw
    | aggApply r m w v ht hw =>
      exact hon.aggApply _ _ _ _ _ (by rw [surfaced_internal hv.symm] at hw; exact hw)
    | aggHandle id r v ht hw =>
      rw [surfaced_internal hv.symm] at hw
      refine hon.aggHandle _ _ _ _ _ _ ?_ hw
      intro d' hd
      generalize hu : PanicVal.internal d' = u at hd
      cases hd with
      | apply r m w v hv => exact hon.aggApply _ _ _ _ _ (by rw [surfaced_internal hu.symm] at hv; exact hv)
      | new w v hv => subst hu; exact hon.aggNew _ _ _ hv
      | misuse d => cases hu
      | nilRoot d w hw => exact hnil _ _ hw
    | procRoute w v ht hw => exact hon.procRoute _ _ _ _ (by rw [surfaced_internal hv.symm] at hw; exact hw)
    | procNew w v ht hw => subst hv; exact hon.procNew _ _ _ hw
    | procHandle id r t v ht hw =>
      rw [surfaced_internal hv.symm] at hw
      exact hon.procHandle _ _ _ _ _ _ _ (fun d' => hb _ _ _ d') hw
    | intHandle v ht hw =>
      rw [surfaced_internal hv.symm] at hw
      exact hon.intHandle _ _ _ _ (fun d' => hb _ _ _ d') hw
    | prjVersion w v ht hw => subst hv; exact hon.prjVersion _ _ _ _ hw
    | prjClose w v ht hw => subst hv; exact hon.prjClose _ _ _ _ hw
    | prjHandle v ht hw =>
      rw [surfaced_internal hv.symm] at hw
      exact hon.prjHandle _ _ _ _ _ _ _ _ (fun _ h => h) hw

namespace Demo

/-- An application whose aggregate root does not know the event it is asked to apply. -/
def confused : App Nat (List String) :=
  { app with uc := { uc with aggApply := fun _ r _ w => (w, r, some .unexpectedMessage) } }

/-- An application whose `New()` raises `dogma.UnexpectedMessage`. -/
def confusedNew : App Nat (List String) :=
  { app with uc := { uc with aggNew := fun _ w => (w, .error .unexpectedMessage) } }

def outcomeOf (A : App Nat (List String)) : Outcome (List EngErr) :=
  ((Op.dispatch 20 (msgC "x") [.currentTime 1]).exec A (Sys.init 0)).2

/-- The innermost method is named: `ApplyEvent`, although the panic went through
`HandleCommand`.  A panic of `New()` is passed on as it is. -/
example :
    outcomeOf confused =
      .panicked (.enriched "agg" "AggregateRoot" "ApplyEvent" ⟨evtE, "x", none⟩) ∧
    outcomeOf confusedNew = .panicked .unexpectedMessage := by
  decide +kernel

/-- Programs that only perform operations let through what these raise. -/
theorem ops_raises {O α : Type} (S : PanicVal → Prop) (a : α) (l : List O) (v : PanicVal)
    (h : Raises S (ops a l) v) : S v := by
  induction l with
  | nil => cases h
  | cons o l ih =>
    cases h with
    | op x hx h =>
      cases x with
      | none => exact ih h
      | some u => cases h; exact hx _ rfl

theorem app_honest : Honest app where
  aggRoute := fun _ _ _ _ h => nomatch h
  aggNew := fun _ _ _ h => nomatch h
  aggApply := fun _ _ _ _ _ h => nomatch h
  aggHandle := fun _ _ _ _ S d hS h => hS d (ops_raises S _ _ _ h)
  procRoute := fun _ _ _ _ h => nomatch h
  procNew := fun _ _ _ h => nomatch h
  procHandle := fun _ _ _ m _ S d hS h => hS d (by
    change Raises S (match m.type.kind with
      | .timeout => _
      | _ => _) _ at h
    split at h <;> exact ops_raises S _ _ _ h)
  intHandle := fun _ _ S d hS h => hS d (ops_raises S _ _ _ h)
  prjVersion := fun _ _ _ _ h => nomatch h
  prjHandle := fun _ _ _ _ _ _ S d hS h => hS d (ops_raises S _ _ _ h)
  prjClose := fun _ _ _ _ h => nomatch h
  prjCompact := fun _ _ S d hS h => nomatch h

/-- The demo meets the hypotheses. -/
example : app.WF ∧ Honest app ∧ (∀ h w, (app.uc.aggNew h w).2 ≠ .ok none) ∧ Reach app final :=
  ⟨app_wf, app_honest, (fun _ _ h => (nomatch h)), final_reach⟩

/-- An application whose `New()` returns nil from the second time on, and whose aggregate records an
event, destroys the instance and records another event. -/
def forgetful : App Nat (List String) :=
  { app with uc := { uc with
      aggNew := fun _ w => (w + 1, .ok (if w = 0 then some [] else none))
      aggHandle := fun _ _ _ m => ops () [.record ⟨evtE, m.body, none⟩, .destroy,
        .record ⟨evtE, m.body, none⟩] } }

theorem forgetful_honest : Honest forgetful :=
  { app_honest with
    aggNew := fun _ _ _ h => nomatch h
    aggHandle := fun _ _ _ _ S d hS h => hS d (ops_raises S _ _ _ h) }

end Demo

/-- **C79 is false in general**: the root that `Destroy()` obtains from `New()` is not checked; if it
is nil, the next recorded event makes the engine dereference it. -/
theorem C79_fails : ∃ A : App Nat (List String), A.WF ∧ Honest A ∧ ∃ d,
    ((Op.dispatch 20 (Demo.msgC "x") []).exec A (Sys.init 0)).2 = .panicked (.internal d) :=
  ⟨Demo.forgetful, ⟨Demo.app_wf.names, Demo.app_wf.handlers⟩, Demo.forgetful_honest,
    "nil pointer dereference", by decide +kernel⟩

end Verif
