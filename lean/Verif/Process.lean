import Verif.Sys

/-!
# Process controller

`/repo/engine/internal/process/controller.go`, `scope.go`.
-/

namespace Verif

variable {W R : Type}

/-- `process.scope` (`scope.go` 19-31): the mutable fields. -/
structure ProcScope (R : Type) where
  root : R
  ended : Bool
  commands : List Env
  ready : List Env
  pending : List Env

/-- `c.Config.Handler()` method name for messages of this kind
(`controller.go` 119-124). -/
def procMethod (env : Env) : String :=
  match env.msg.type.kind with
  | .timeout => "HandleTimeout"
  | _ => "HandleEvent"

/-- "Ending reverted" (`scope.go` 80-89 and 144-153). -/
def procRevive (h : HConfig) (id : String) (env : Env)
    (s : Sys W R) (sc : ProcScope R) : Sys W R × ProcScope R :=
  if sc.ended then (s.notify (.procReverted h id env), { sc with ended := false })
  else (s, sc)

/-- `scope.ExecuteCommand` after its checks (`scope.go` 80-111). -/
def procEmitCommand (h : HConfig) (id : String) (now : Time) (env : Env) (m : Message)
    (s : Sys W R) (sc : ProcScope R) : Sys W R × ProcScope R :=
  let c := env.child (s.nextID + 1) m now ⟨h, .process, id⟩
  ({ s with nextID := s.nextID + 1 }.notify (.procCommand h id env c),
   { sc with commands := sc.commands ++ [c] })

/-- `scope.ScheduleTimeout` after its checks (`scope.go` 155-180). -/
def procEmitTimeout (h : HConfig) (id : String) (now : Time) (env : Env) (m : Message) (t : Time)
    (s : Sys W R) (sc : ProcScope R) : Sys W R × ProcScope R :=
  let c := env.childTimeout (s.nextID + 1) m now t ⟨h, .process, id⟩
  ({ s with nextID := s.nextID + 1 }.notify (.procTimeout h id env c),
   if now < t then { sc with pending := sc.pending ++ [c] }
   else { sc with ready := sc.ready ++ [c] })

/-- One operation on the scope (`scope.go` 38-180). -/
def procOp (h : HConfig) (id : String) (now : Time) (env : Env) (o : ProcOp R)
    (s : Sys W R) (sc : ProcScope R) : Sys W R × ProcScope R × Option PanicVal :=
  match o with
  | .end_ =>
    if sc.ended then (s, sc, none)
    else (s.notify (.procEnded h id env), { sc with ended := true }, none)
  | .execute m =>
    if h.produces? .command m = false then
      (s, sc, some (.behavior h.name "ProcessMessageHandler" (procMethod env) env.msg
        (undeclaredText "executed a command" m)))
    else match m.invalid with
    | some e =>
      (s, sc, some (.behavior h.name "ProcessMessageHandler" (procMethod env) env.msg
        (invalidText "executed" "command" m e)))
    | none =>
      match procRevive h id env s sc with
      | (s, sc) => match procEmitCommand h id now env m s sc with
        | (s, sc) => (s, sc, none)
  | .schedule m t =>
    if h.produces? .timeout m = false then
      (s, sc, some (.behavior h.name "ProcessMessageHandler" (procMethod env) env.msg
        (undeclaredText "scheduled a timeout" m)))
    else match m.invalid with
    | some e =>
      (s, sc, some (.behavior h.name "ProcessMessageHandler" (procMethod env) env.msg
        (invalidText "scheduled" "timeout" m e)))
    | none =>
      match procRevive h id env s sc with
      | (s, sc) => match procEmitTimeout h id now env m t s sc with
        | (s, sc) => (s, sc, none)
  -- the handler mutates the root it was given
  | .setRoot r => (s, { sc with root := r }, none)
  -- `scope.Log` (`scope.go` 186-196)
  | .log t => (s.notify (.procLog h id env t), sc, none)

/-- Running `HandleEvent`/`HandleTimeout` against the scope
(`controller.go` 241-260). -/
def procRun (h : HConfig) (id : String) (now : Time) (env : Env) :
    Prog W (ProcOp R) (Option Err) → Sys W R → ProcScope R →
    Sys W R × ProcScope R × Except PanicVal (Option Err)
  | .ret e, s, sc => (s, sc, .ok e)
  | .panic v, s, sc => (s, sc, .error v)
  | .get k, s, sc => procRun h id now env (k s.w) s sc
  | .set w k, s, sc => procRun h id now env k { s with w := w } sc
  | .op o k, s, sc =>
    match procOp h id now env o s sc with
    | (s, sc, p) => procRun h id now env (k p) s sc

/-- Set the state of process controller `h` (assignments in `process/controller.go` 35-58,
263-295). -/
def Sys.setProc (s : Sys W R) (h : HConfig) (p : ProcState R) : Sys W R :=
  { s with proc := upd s.proc h.name p }

/-- `Controller.update` (`controller.go` 263-279). -/
def procUpdate (A : App W R) (h : HConfig) (id : String) (s : Sys W R) (sc : ProcScope R) :
    Sys W R :=
  s.setProc h ⟨upd (s.proc h.name).inst id (some sc.root),
    A.sort.sort ((s.proc h.name).timeouts ++ sc.pending)⟩

/-- Does the timeout belong to instance `id`? (`controller.go` 289) -/
def Env.ofInstance (e : Env) (id : String) : Bool :=
  match e.origin with
  | some o => decide (o.instanceID = id)
  | none => false

/-- `Controller.delete` (`controller.go` 282-295). -/
def procDelete (h : HConfig) (id : String) (s : Sys W R) : Sys W R :=
  s.setProc h ⟨upd (s.proc h.name).inst id none,
    (s.proc h.name).timeouts.filter (fun e => !e.ofInstance id)⟩

/-- The instances map holds a pointer to the root, so changes the handler makes
to the root of an existing instance stick, however the handler exits
(`controller.go` 78, 128, 252-254). -/
def procAlias (h : HConfig) (id : String) (existed : Bool) (s : Sys W R) (r : R) : Sys W R :=
  if existed then
    s.setProc h ⟨upd (s.proc h.name).inst id (some r), (s.proc h.name).timeouts⟩
  else s

/-- The time the handler can ask its scope for: `RecordedAt()` for events,
`ScheduledFor()` for timeouts (`scope.go` 113, 182). -/
def procSeenTime (env : Env) : Time :=
  match env.msg.type.kind with
  | .timeout => env.scheduledFor
  | _ => env.createdAt

/-- `Handle` once the root is known (`controller.go` 116-147). -/
def procInvoke (A : App W R) (h : HConfig) (id : String) (now : Time) (env : Env)
    (r : R) (existed : Bool) (s : Sys W R) : Sys W R × HRes :=
  match procRun h id now env (A.uc.procHandle h id r env.msg (procSeenTime env))
      (s.emit (.call (.procHandle h id r env.msg (procSeenTime env)))) ⟨r, false, [], [], []⟩ with
  | (s, sc, .error v) =>
    (procAlias h id existed s sc.root,
      .error (enrich h "ProcessMessageHandler" (procMethod env) env.msg v))
  | (s, sc, .ok (some e)) => (procAlias h id existed s sc.root, .ok ([], some e))
  | (s, sc, .ok none) =>
    if sc.ended then
      (if existed then procDelete h id s else s, .ok (sc.commands, none))
    else
      (procUpdate A h id s sc, .ok (sc.commands ++ sc.ready, none))

/-- `Handle` once the instance ID is known (`controller.go` 78-147). -/
def procWithID (A : App W R) (h : HConfig) (id : String) (now : Time) (env : Env)
    (s : Sys W R) : Sys W R × HRes :=
  match (s.proc h.name).inst id with
  | some r => procInvoke A h id now env r true (s.notify (.procLoaded h id env))
  | none =>
    match (s.notify (.procNotFound h id env)).user (.procNew h) (A.uc.procNew h) with
    | (s, .error v) => (s, .error v)
    | (s, .ok none) =>
      (s.notify (.procBegun h id env),
        .error (.behavior h.name "ProcessMessageHandler" "New" env.msg
          "returned a nil ProcessRoot"))
    | (s, .ok (some r)) =>
      procInvoke A h id now env r false (s.notify (.procBegun h id env))

/-- `Controller.route` and the check of its result (`controller.go` 73-76, 156-238). -/
def procHandle (A : App W R) (h : HConfig) (now : Time) (env : Env)
    (s : Sys W R) : Sys W R × HRes :=
  if h.consumes? env.msg = false then (s, .error (.internal "does not handle"))
  else
    match env.msg.type.kind with
    | .command => (s, .error (.internal "no callback for commands"))
    | .event =>
      match s.user (.procRoute h env.msg) (A.uc.procRoute h env.msg) with
      | (s, .error v) =>
        (s, .error (enrich h "ProcessMessageHandler" "RouteEventToInstance" env.msg v))
      | (s, .ok (.error e)) => (s, .ok ([], some e))
      | (s, .ok (.ok none)) => (s.notify (.procEventIgnored h env), .ok ([], none))
      | (s, .ok (.ok (some id))) =>
        if id = "" then
          (s, .error (.behavior h.name "ProcessMessageHandler" "RouteEventToInstance" env.msg
            (emptyIDText "an event" env.msg)))
        else procWithID A h id now env s
    | .timeout =>
      match env.origin with
      | none => (s, .error (.internal "nil pointer dereference"))
      | some o =>
        match (s.proc h.name).inst o.instanceID with
        | some _ => procWithID A h o.instanceID now env s
        | none => (s.notify (.procTimeoutIgnored h o.instanceID env), .ok ([], none))

/-- `Controller.Tick` (`controller.go` 35-58): the longest prefix of the pending
timeouts that are not after `now`. -/
def procTick (h : HConfig) (now : Time) (s : Sys W R) : Sys W R × List Env :=
  let p := s.proc h.name
  (s.setProc h ⟨p.inst, p.timeouts.dropWhile (fun e => decide (e.scheduledFor ≤ now))⟩,
   p.timeouts.takeWhile (fun e => decide (e.scheduledFor ≤ now)))

end Verif
