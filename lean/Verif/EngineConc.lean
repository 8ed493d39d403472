import Verif.Engine
import Verif.Concurrent

/-!
# The operations of the engine as programs that can be interrupted

`Verif.Concurrent` is about arbitrary programs that run while the engine's mutex is held.  Here
are the programs of `Dispatch`, `Tick` and `Reset` (`/repo/engine/engine.go` 67-303 with the
controllers and scopes): the same code as in `Verif.Engine`, in steps between which other
goroutines may take message IDs.  Message IDs come from outside, so the field `nextID` of the
protected state is not used; it stays 0.

Simplifications: an operation reads the clock when it is called, and its time is a part of the
call; `DispatchCycleBegun` and `TickCycleBegun` are notified just after the mutex has been acquired
(in Go just before; the order of the facts of one operation is the same); a call whose context is
done at `Lock` gives up, with no trace of it; a tick with an unknown handler name panics after
having acquired the mutex (in Go before); resetters run as one step.  An operation that used up
its step budget ends there.
-/

namespace Verif.Conc

variable {W R : Type}

/-- Do something with the protected state, and go on with the result (no counterpart in /repo). -/
def Crit.act {C α : Type} (f : C → C × α) (k : α → Crit C) : Crit C :=
  .touch (fun c => (f c).1) (fun c => k (f c).2)

/-- Do something without a result (no counterpart in /repo). -/
def Crit.doing {C : Type} (f : C → C) (k : Crit C) : Crit C := .touch f (fun _ => k)

/-! ## Aggregates -/

/-- Creating the event envelope with message ID `n`
(`/repo/engine/internal/aggregate/scope.go` 111-131). -/
def aggEmitC (h : HConfig) (id : String) (now : Time) (env : Env) (m : Message) (n : Nat)
    (s : Sys W R) (sc : AggScope R) : Sys W R × AggScope R :=
  let ev := env.child n m now ⟨h, .aggregate, id⟩
  (s.notify (.aggEvent h id env ev), { sc with events := sc.events ++ [ev] })

/-- `scope.RecordEvent` (`/repo/engine/internal/aggregate/scope.go` 52-131). -/
def aggRecordC (A : App W R) (h : HConfig) (id : String) (now : Time) (env : Env) (m : Message)
    (sc : AggScope R) (κ : AggScope R → Option PanicVal → Crit (Sys W R)) : Crit (Sys W R) :=
  if h.produces? .event m = false then
    κ sc (some (.behavior h.name "AggregateMessageHandler" "HandleCommand" env.msg
      (undeclaredText "recorded an event" m)))
  else
    match m.invalid with
    | some e =>
      κ sc (some (.behavior h.name "AggregateMessageHandler" "HandleCommand" env.msg
        (invalidText "recorded" "event" m e)))
    | none =>
      .act (fun s => aggRevive h id env s sc) fun sc =>
      .act (fun s => aggApplyScope A h m s sc) fun
        | (sc, some v) => κ sc (some v)
        | (sc, none) =>
          .id fun n => .act (fun s => aggEmitC h id now env m n s sc) fun sc => κ sc none

/-- One operation on the scope (`aggregate/scope.go` 35-142). -/
def aggOpC (A : App W R) (h : HConfig) (id : String) (now : Time) (env : Env) (o : AggOp R)
    (sc : AggScope R) (κ : AggScope R → Option PanicVal → Crit (Sys W R)) : Crit (Sys W R) :=
  match o with
  | .record m => aggRecordC A h id now env m sc κ
  | .destroy => .act (fun s => aggDestroy A h id env s sc) fun x => κ x.1 x.2
  | .setRoot r => κ (if sc.given then { sc with root := some r } else sc) none
  | .log t => .doing (·.notify (.aggLog h id env t)) (κ sc none)

/-- Running `HandleCommand` (`aggregate/controller.go` 135-148). -/
def aggRunC (A : App W R) (h : HConfig) (id : String) (now : Time) (env : Env) :
    Prog W (AggOp R) Unit → AggScope R → (AggScope R → Option PanicVal → Crit (Sys W R)) →
    Crit (Sys W R)
  | .ret _, sc, κ => κ sc none
  | .panic v, sc, κ => κ sc (some v)
  | .get k, sc, κ => .touch (fun s => s) fun s => aggRunC A h id now env (k s.w) sc κ
  | .set w k, sc, κ => .doing (fun s => { s with w := w }) (aggRunC A h id now env k sc κ)
  | .op o k, sc, κ => aggOpC A h id now env o sc fun sc p => aggRunC A h id now env (k p) sc κ

/-- `aggregate/controller.go` 124-160. -/
def aggInvokeC (A : App W R) (h : HConfig) (id : String) (now : Time) (env : Env)
    (r : R) (ex : Bool) (κ : HRes → Crit (Sys W R)) : Crit (Sys W R) :=
  .doing (·.emit (.call (.aggHandle h id r env.msg)))
    (aggRunC A h id now env (A.uc.aggHandle h id r env.msg) ⟨some r, ex, false, [], true⟩ fun
      | _, some v => κ (.error (enrich h "AggregateMessageHandler" "HandleCommand" env.msg v))
      | sc, none => .doing (aggCommit h id · sc) (κ (.ok (sc.events, none))))

/-- `aggregate/controller.go` 80-160. -/
def aggWithIDC (A : App W R) (h : HConfig) (id : String) (now : Time) (env : Env)
    (κ : HRes → Crit (Sys W R)) : Crit (Sys W R) :=
  .act (·.user (.aggNew h) (A.uc.aggNew h)) fun
    | .error v => κ (.error v)
    | .ok none => κ (.error (.behavior h.name "AggregateMessageHandler" "New" env.msg "returned a nil AggregateRoot"))
    | .ok (some r) =>
      .touch (fun s => s) fun s =>
        match (s.agg h.name id).isSome with
        | true =>
          .act (fun s => aggReplay A h ((s.agg h.name id).getD []) r s) fun
            | .error v => κ (.error v)
            | .ok r => .doing (·.notify (.aggLoaded h id env)) (aggInvokeC A h id now env r true κ)
        | false =>
          .doing (·.notify (.aggNotFound h id env)) (aggInvokeC A h id now env r false κ)

/-- `aggregate/controller.go` 42-160. -/
def aggHandleC (A : App W R) (h : HConfig) (now : Time) (env : Env)
    (κ : HRes → Crit (Sys W R)) : Crit (Sys W R) :=
  if h.consumes? env.msg = false then κ (.error (.internal "does not handle"))
  else if env.msg.type.kind ≠ .command then κ (.error (.internal "not a command"))
  else
    .act (·.user (.aggRoute h env.msg) (A.uc.aggRoute h env.msg)) fun
      | .error v => κ (.error (enrich h "AggregateMessageHandler" "RouteCommandToInstance" env.msg v))
      | .ok id =>
        if id = "" then
          κ (.error (.behavior h.name "AggregateMessageHandler" "RouteCommandToInstance" env.msg
            (emptyIDText "a command" env.msg)))
        else aggWithIDC A h id now env κ

/-! ## Processes -/

/-- Creating the command envelope with message ID `n`
(`/repo/engine/internal/process/scope.go` 91-111). -/
def procEmitCommandC (h : HConfig) (id : String) (now : Time) (env : Env) (m : Message) (n : Nat)
    (s : Sys W R) (sc : ProcScope R) : Sys W R × ProcScope R :=
  let c := env.child n m now ⟨h, .process, id⟩
  (s.notify (.procCommand h id env c), { sc with commands := sc.commands ++ [c] })

/-- Creating the timeout envelope with message ID `n` (`process/scope.go` 155-180). -/
def procEmitTimeoutC (h : HConfig) (id : String) (now : Time) (env : Env) (m : Message) (t : Time)
    (n : Nat) (s : Sys W R) (sc : ProcScope R) : Sys W R × ProcScope R :=
  let c := env.childTimeout n m now t ⟨h, .process, id⟩
  (s.notify (.procTimeout h id env c),
   if now < t then { sc with pending := sc.pending ++ [c] }
   else { sc with ready := sc.ready ++ [c] })

/-- One operation on the scope (`/repo/engine/internal/process/scope.go` 38-180). -/
def procOpC (h : HConfig) (id : String) (now : Time) (env : Env) (o : ProcOp R)
    (sc : ProcScope R) (κ : ProcScope R → Option PanicVal → Crit (Sys W R)) : Crit (Sys W R) :=
  match o with
  | .end_ =>
    if sc.ended then κ sc none
    else .doing (·.notify (.procEnded h id env)) (κ { sc with ended := true } none)
  | .execute m =>
    if h.produces? .command m = false then
      κ sc (some (.behavior h.name "ProcessMessageHandler" (procMethod env) env.msg 
        (undeclaredText "executed a command" m)))
    else match m.invalid with
    | some e =>
      κ sc (some (.behavior h.name "ProcessMessageHandler" (procMethod env) env.msg 
        (invalidText "executed" "command" m e)))
    | none =>
      .act (fun s => procRevive h id env s sc) fun sc =>
      .id fun n => .act (fun s => procEmitCommandC h id now env m n s sc) fun sc => κ sc none
  | .schedule m t =>
    if h.produces? .timeout m = false then
      κ sc (some (.behavior h.name "ProcessMessageHandler" (procMethod env) env.msg 
        (undeclaredText "scheduled a timeout" m)))
    else match m.invalid with
    | some e =>
      κ sc (some (.behavior h.name "ProcessMessageHandler" (procMethod env) env.msg 
        (invalidText "scheduled" "timeout" m e)))
    | none =>
      .act (fun s => procRevive h id env s sc) fun sc =>
      .id fun n => .act (fun s => procEmitTimeoutC h id now env m t n s sc) fun sc => κ sc none
  | .setRoot r => κ { sc with root := r } none
  | .log t => .doing (·.notify (.procLog h id env t)) (κ sc none)

/-- Running `HandleEvent`/`HandleTimeout` (`process/controller.go` 241-260). -/
def procRunC (h : HConfig) (id : String) (now : Time) (env : Env) :
    Prog W (ProcOp R) (Option Err) → ProcScope R →
    (ProcScope R → Except PanicVal (Option Err) → Crit (Sys W R)) → Crit (Sys W R)
  | .ret e, sc, κ => κ sc (.ok e)
  | .panic v, sc, κ => κ sc (.error v)
  | .get k, sc, κ => .touch (fun s => s) fun s => procRunC h id now env (k s.w) sc κ
  | .set w k, sc, κ => .doing (fun s => { s with w := w }) (procRunC h id now env k sc κ)
  | .op o k, sc, κ => procOpC h id now env o sc fun sc p => procRunC h id now env (k p) sc κ

/-- `process/controller.go` 116-147. -/
def procInvokeC (A : App W R) (h : HConfig) (id : String) (now : Time) (env : Env)
    (r : R) (existed : Bool) (κ : HRes → Crit (Sys W R)) : Crit (Sys W R) :=
  .doing (·.emit (.call (.procHandle h id r env.msg (procSeenTime env))))
    (procRunC h id now env (A.uc.procHandle h id r env.msg (procSeenTime env)) ⟨r, false, [], [], []⟩ fun
      | sc, .error v =>
        .doing (procAlias h id existed · sc.root)
          (κ (.error (enrich h "ProcessMessageHandler" (procMethod env) env.msg v)))
      | sc, .ok (some e) => .doing (procAlias h id existed · sc.root) (κ (.ok ([], some e)))
      | sc, .ok none =>
        if sc.ended then
          .doing (fun s => if existed then procDelete h id s else s) (κ (.ok (sc.commands, none)))
        else .doing (procUpdate A h id · sc) (κ (.ok (sc.commands ++ sc.ready, none))))

/-- `process/controller.go` 77-147. -/
def procWithIDC (A : App W R) (h : HConfig) (id : String) (now : Time) (env : Env)
    (κ : HRes → Crit (Sys W R)) : Crit (Sys W R) :=
  .touch (fun s => s) fun s =>
    match (s.proc h.name).inst id with
    | some r => .doing (·.notify (.procLoaded h id env)) (procInvokeC A h id now env r true κ)
    | none =>
      .doing (·.notify (.procNotFound h id env)) <|
      .act (·.user (.procNew h) (A.uc.procNew h)) fun
        | .error v => κ (.error v)
        | .ok none =>
          .doing (·.notify (.procBegun h id env))
            (κ (.error (.behavior h.name "ProcessMessageHandler" "New" env.msg "returned a nil ProcessRoot")))
        | .ok (some r) =>
          .doing (·.notify (.procBegun h id env)) (procInvokeC A h id now env r false κ)

/-- `process/controller.go` 61-147, 156-238. -/
def procHandleC (A : App W R) (h : HConfig) (now : Time) (env : Env)
    (κ : HRes → Crit (Sys W R)) : Crit (Sys W R) :=
  if h.consumes? env.msg = false then κ (.error (.internal "does not handle"))
  else
    match env.msg.type.kind with
    | .command => κ (.error (.internal "no callback for commands"))
    | .event =>
      .act (·.user (.procRoute h env.msg) (A.uc.procRoute h env.msg)) fun
        | .error v => κ (.error (enrich h "ProcessMessageHandler" "RouteEventToInstance" env.msg v))
        | .ok (.error e) => κ (.ok ([], some e))
        | .ok (.ok none) => .doing (·.notify (.procEventIgnored h env)) (κ (.ok ([], none)))
        | .ok (.ok (some id)) =>
          if id = "" then
            κ (.error (.behavior h.name "ProcessMessageHandler" "RouteEventToInstance" env.msg
              (emptyIDText "an event" env.msg)))
          else procWithIDC A h id now env κ
    | .timeout =>
      match env.origin with
      | none => κ (.error (.internal "nil pointer dereference"))
      | some o =>
        .touch (fun s => s) fun s =>
          match ((s.proc h.name).inst o.instanceID).isSome with
          | true => procWithIDC A h o.instanceID now env κ
          | false =>
            .doing (·.notify (.procTimeoutIgnored h o.instanceID env)) (κ (.ok ([], none)))

/-! ## Integrations -/

/-- Creating the event envelope with message ID `n`
(`/repo/engine/internal/integration/scope.go` 54-71). -/
def intEmitC (h : HConfig) (now : Time) (env : Env) (m : Message) (n : Nat)
    (s : Sys W R) (evs : List Env) : Sys W R × List Env :=
  let ev := env.child n m now ⟨h, .integration, ""⟩
  (s.notify (.intEvent h env ev), evs ++ [ev])

/-- One operation on the scope (`/repo/engine/internal/integration/scope.go` 27-81). -/
def intOpC (h : HConfig) (now : Time) (env : Env) (o : IntOp)
    (evs : List Env) (κ : List Env → Option PanicVal → Crit (Sys W R)) : Crit (Sys W R) :=
  match o with
  | .record m =>
    if h.produces? .event m = false then
      κ evs (some (.behavior h.name "IntegrationMessageHandler" "HandleCommand" env.msg 
        (undeclaredText "recorded an event" m)))
    else match m.invalid with
    | some e =>
      κ evs (some (.behavior h.name "IntegrationMessageHandler" "HandleCommand" env.msg 
        (invalidText "recorded" "event" m e)))
    | none => .id fun n => .act (fun s => intEmitC h now env m n s evs) fun evs => κ evs none
  | .log t => .doing (·.notify (.intLog h env t)) (κ evs none)

/-- Running `HandleCommand` (`integration/controller.go` 61-73). -/
def intRunC (h : HConfig) (now : Time) (env : Env) :
    Prog W IntOp (Option Err) → List Env →
    (List Env → Except PanicVal (Option Err) → Crit (Sys W R)) → Crit (Sys W R)
  | .ret e, evs, κ => κ evs (.ok e)
  | .panic v, evs, κ => κ evs (.error v)
  | .get k, evs, κ => .touch (fun s => s) fun s => intRunC h now env (k s.w) evs κ
  | .set w k, evs, κ => .doing (fun s => { s with w := w }) (intRunC h now env k evs κ)
  | .op o k, evs, κ => intOpC h now env o evs fun evs p => intRunC h now env (k p) evs κ

/-- `integration/controller.go` 39-76. -/
def intHandleC (A : App W R) (h : HConfig) (now : Time) (env : Env)
    (κ : HRes → Crit (Sys W R)) : Crit (Sys W R) :=
  if h.consumes? env.msg = false then κ (.error (.internal "does not handle"))
  else if env.msg.type.kind ≠ .command then κ (.error (.internal "not a command"))
  else
    .doing (·.emit (.call (.intHandle h env.msg)))
      (intRunC h now env (A.uc.intHandle h env.msg) [] fun
        | _, .error v => κ (.error (enrich h "IntegrationMessageHandler" "HandleCommand" env.msg v))
        | evs, .ok e => κ (.ok (evs, e)))

/-! ## Engine -/

/-- `controller.Handle` (`/repo/engine/controller.go` 31-45).  Projections take no message IDs. -/
def ctlHandleC (A : App W R) (h : HConfig) (now : Time) (env : Env)
    (κ : HRes → Crit (Sys W R)) : Crit (Sys W R) :=
  match h.htype with
  | .aggregate => aggHandleC A h now env κ
  | .process => procHandleC A h now env κ
  | .integration => intHandleC A h now env κ
  | .projection => .act (prjHandle A h now env) κ

/-- `Engine.handle` (`engine.go` 305-341). -/
def handleOneC (A : App W R) (oo : OpOpts) (env : Env) (h : HConfig)
    (κ : HRes → Crit (Sys W R)) : Crit (Sys W R) :=
  match skipHandler oo h with
  | some r => .doing (·.notify (.handlingSkipped h env r)) (κ (.ok ([], none)))
  | none =>
    .doing (·.notify (.handlingBegun h env)) (ctlHandleC A h oo.now env fun
      | .error v => κ (.error v)
      | .ok (envs, e) => .doing (·.notify (.handlingCompleted h env e)) (κ (.ok (envs, e))))

/-- The loop over controllers (`engine.go` 270-286). -/
def handleAllC (A : App W R) (oo : OpOpts) (env : Env) :
    List HConfig → List Env → List EngErr →
    (Except PanicVal (List Env × List EngErr) → Crit (Sys W R)) → Crit (Sys W R)
  | [], q, de, κ => κ (.ok (q, de))
  | h :: hs, q, de, κ =>
    handleOneC A oo env h fun
      | .error v => κ (.error v)
      | .ok (envs, e) => handleAllC A oo env hs (q ++ envs) (de ++ tagErr h e) κ

/-- `Engine.dispatch` (`engine.go` 240-303). -/
def dispatchLoopC (A : App W R) (oo : OpOpts) :
    Nat → List Env → List EngErr → (Outcome (List EngErr) → Crit (Sys W R)) → Crit (Sys W R)
  | _, [], errs, κ => κ (.done errs)
  | 0, _ :: _, _, κ => κ .running
  | n + 1, env :: q, errs, κ =>
    match A.targets env with
    | .error v => κ (.panicked v)
    | .ok hs =>
      .doing (·.notify (.dispatchBegun env)) (handleAllC A oo env hs q [] fun
        | .error v => κ (.panicked v)
        | .ok (q, de) =>
          .doing (·.notify (.dispatchCompleted env de)) <|
          .touch (fun s => s) fun s =>
            match A.uc.ctxErr s.w with
            | some e => κ (.done [.ctx e])
            | none => dispatchLoopC A oo n q (errs ++ de) κ)

/-- `Engine.tick` (`engine.go` 117-179).  The controllers' ticks take no message IDs. -/
def tickC (A : App W R) (oo : OpOpts) (fuel : Nat) (order : List HConfig)
    (κ : Outcome (List EngErr) → Crit (Sys W R)) : Crit (Sys W R) :=
  .act (tickAll A oo order [] []) fun
    | .error v => κ (.panicked v)
    | .ok (_, _, some c) => κ (.done [.ctx c])
    | .ok (q, errs, none) =>
      dispatchLoopC A oo fuel q [] fun
        | .done derrs => κ (.done (errs ++ derrs))
        | o => κ o

/-- The end of an operation (`engine.go` 104-113, 226-236). -/
def finishC (f : List EngErr → Fact) : Outcome (List EngErr) → Crit (Sys W R)
  | .done errs => .doing (·.notify (f errs)) .done
  | .panicked _ => .panic
  | .running => .done

/-- The options of an operation that is called at time `now` (`operationoption.go` 119-136). -/
def optsAt (A : App W R) (now : Time) (os : List OpOption) : Except PanicVal OpOpts :=
  (OpOpts.default now).applyAll A os

/-- The part of `Dispatch` after taking message ID `n` (`engine.go` 189-238); `none` is a panic
outside of the mutex. -/
def dispatchC (A : App W R) (now : Time) (fuel : Nat) (m : Message) (os : List OpOption)
    (n : Nat) : Option (Crit (Sys W R)) :=
  match optsAt A now os with
  | .error _ => none
  | .ok oo =>
    if m.type.kind = .timeout then none
    else
      match m.invalid with
      | some _ => none
      | none =>
        if A.route m = [] then none
        else
          let env := Env.root n m oo.now
          some (.doing (·.notify (.dispatchCycleBegun env (oo.cycle A)))
            (dispatchLoopC A oo fuel [env] [] (finishC (.dispatchCycleCompleted env (oo.cycle A).maps))))

/-- The critical section of `Tick` (`engine.go` 90-115). -/
def engTickC (A : App W R) (now : Time) (fuel : Nat) (order : List HConfig) (os : List OpOption) :
    Crit (Sys W R) :=
  match optsAt A now os with
  | .error _ => .panic
  | .ok oo =>
    .doing (·.notify (.tickCycleBegun (oo.cycle A)))
      (tickC A oo fuel order (finishC (.tickCycleCompleted (oo.cycle A).maps)))

/-- The critical section of `Reset` (`engine.go` 67-80). -/
def engResetC (A : App W R) : Crit (Sys W R) :=
  .resetIDs <| .act (engReset A) fun
    | .panicked _ => .panic
    | _ => .done

/-- A call of an operation of the engine at time `now` (`engine.go` 67, 86, 184). -/
def callOf (A : App W R) : Time × Op → Call (Sys W R)
  | (now, .dispatch fuel m os) => .withID (dispatchC A now fuel m os)
  | (now, .tick fuel order os) => .locked (engTickC A now fuel order os)
  | (_, .reset) => .locked (engResetC A)

end Verif.Conc
