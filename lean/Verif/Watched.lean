import Verif.Engine

/-!
# An engine whose observers do things

In `Verif.Engine` facts are only recorded.  Here the code of the observers (`Observer.Notify`,
`fact/observer.go` 6-27) runs at every notification: it may change the world and it may panic.  The
functions are those of `Verif.Aggregate`, `Process`, `Integration`, `Projection` and `Engine` with
this in addition; a panic goes through the code as Go's panics do.  The code recovers from no panic
(other than to put its own value in the place of that of `dogma.UnexpectedMessage`), a handler may
recover from one that comes out of a method of its scope.

Simplifications: all observers of an operation are one; it decides by what has been observed so far.
When one observer of several panics, those after it are not told; the fact is in the trace all the
same.  `Root` of facts is left out.
-/

namespace Verif

variable {W R : Type}

/-- The code of the observers: given what was observed before, the fact, and the world, it leaves a
world and may panic (`fact/observer.go` 6-27). -/
abbrev Watch (W R : Type) := List (Obs R) → Fact → W → W × Option PanicVal

/-- `observer.Notify(f)` (`fact/observer.go` 13-27). -/
def Sys.tell (O : Watch W R) (f : Fact) (s : Sys W R) : Sys W R × Option PanicVal :=
  ({ s.notify f with w := (O s.trace f s.w).1 }, (O s.trace f s.w).2)

/-! ## Aggregates -/

/-- `scope.Destroy` (`aggregate/scope.go` 35-50). -/
def aggDestroyO (O : Watch W R) (A : App W R) (h : HConfig) (id : String) (env : Env)
    (s : Sys W R) (sc : AggScope R) : Sys W R × AggScope R × Option PanicVal :=
  if sc.exists_ = false then (s, sc, none)
  else
    match s.user (.aggNew h) (A.uc.aggNew h) with
    | (s, .error v) => (s, sc, some v)
    | (s, .ok r) =>
      match s.tell O (.aggDestroyed h id env) with
      | (s, p) => (s, { sc with root := r, exists_ := false, destroyed := true, given := false }, p)

/-- The "does not exist yet" branch of `RecordEvent` (`aggregate/scope.go` 79-98): the observers are
told before the fields are set. -/
def aggReviveO (O : Watch W R) (h : HConfig) (id : String) (env : Env)
    (s : Sys W R) (sc : AggScope R) : Sys W R × AggScope R × Option PanicVal :=
  if sc.exists_ then (s, sc, none)
  else
    match s.tell O (if sc.destroyed then .aggReverted h id env else .aggCreated h id env) with
    | (s, some v) => (s, sc, some v)
    | (s, none) => (s, { sc with exists_ := true, destroyed := false }, none)

/-- Creating the event envelope (`aggregate/scope.go` 111-131): the event is kept before the
observers are told. -/
def aggEmitO (O : Watch W R) (h : HConfig) (id : String) (now : Time) (env : Env) (m : Message)
    (s : Sys W R) (sc : AggScope R) : Sys W R × AggScope R × Option PanicVal :=
  let ev := env.child (s.nextID + 1) m now ⟨h, .aggregate, id⟩
  match ({ s with nextID := s.nextID + 1 } : Sys W R).tell O (.aggEvent h id env ev) with
  | (s, p) => (s, { sc with events := sc.events ++ [ev] }, p)

/-- `scope.RecordEvent` (`aggregate/scope.go` 52-131). -/
def aggRecordO (O : Watch W R) (A : App W R) (h : HConfig) (id : String) (now : Time) (env : Env)
    (m : Message) (s : Sys W R) (sc : AggScope R) : Sys W R × AggScope R × Option PanicVal :=
  if h.produces? .event m = false then
    (s, sc, some (.behavior h.name "AggregateMessageHandler" "HandleCommand" env.msg
      (undeclaredText "recorded an event" m)))
  else
    match m.invalid with
    | some e =>
      (s, sc, some (.behavior h.name "AggregateMessageHandler" "HandleCommand" env.msg
        (invalidText "recorded" "event" m e)))
    | none =>
      match aggReviveO O h id env s sc with
      | (s, sc, some v) => (s, sc, some v)
      | (s, sc, none) =>
        match aggApplyScope A h m s sc with
        | (s, sc, some v) => (s, sc, some v)
        | (s, sc, none) => aggEmitO O h id now env m s sc

/-- One operation on the scope (`aggregate/scope.go` 35-142). -/
def aggOpO (O : Watch W R) (A : App W R) (h : HConfig) (id : String) (now : Time) (env : Env)
    (o : AggOp R) (s : Sys W R) (sc : AggScope R) : Sys W R × AggScope R × Option PanicVal :=
  match o with
  | .record m => aggRecordO O A h id now env m s sc
  | .destroy => aggDestroyO O A h id env s sc
  | .setRoot r => (s, if sc.given then { sc with root := some r } else sc, none)
  | .log t =>
    match s.tell O (.aggLog h id env t) with
    | (s, p) => (s, sc, p)

/-- Running `HandleCommand` against the scope (`aggregate/controller.go` 135-148). -/
def aggRunO (O : Watch W R) (A : App W R) (h : HConfig) (id : String) (now : Time) (env : Env) :
    Prog W (AggOp R) Unit → Sys W R → AggScope R → Sys W R × AggScope R × Option PanicVal
  | .ret _, s, sc => (s, sc, none)
  | .panic v, s, sc => (s, sc, some v)
  | .get k, s, sc => aggRunO O A h id now env (k s.w) s sc
  | .set w k, s, sc => aggRunO O A h id now env k { s with w := w } sc
  | .op o k, s, sc =>
    match aggOpO O A h id now env o s sc with
    | (s, sc, p) => aggRunO O A h id now env (k p) s sc

/-- The last part of `Handle`, once the root is known (`aggregate/controller.go` 124-160). -/
def aggInvokeO (O : Watch W R) (A : App W R) (h : HConfig) (id : String) (now : Time) (env : Env)
    (r : R) (ex : Bool) (s : Sys W R) : Sys W R × HRes :=
  match aggRunO O A h id now env (A.uc.aggHandle h id r env.msg)
      (s.emit (.call (.aggHandle h id r env.msg))) ⟨some r, ex, false, [], true⟩ with
  | (s, _, some v) => (s, .error (enrich h "AggregateMessageHandler" "HandleCommand" env.msg v))
  | (s, sc, none) => (aggCommit h id s sc, .ok (sc.events, none))

/-- `Handle` once the instance ID is known (`aggregate/controller.go` 80-160). -/
def aggWithIDO (O : Watch W R) (A : App W R) (h : HConfig) (id : String) (now : Time) (env : Env)
    (s : Sys W R) : Sys W R × HRes :=
  match s.user (.aggNew h) (A.uc.aggNew h) with
  | (s, .error v) => (s, .error v)
  | (s, .ok none) =>
    (s, .error (.behavior h.name "AggregateMessageHandler" "New" env.msg "returned a nil AggregateRoot"))
  | (s, .ok (some r)) =>
    match s.agg h.name id with
    | some hist =>
      match aggReplay A h hist r s with
      | (s, .error v) => (s, .error v)
      | (s, .ok r) =>
        match s.tell O (.aggLoaded h id env) with
        | (s, some v) => (s, .error v)
        | (s, none) => aggInvokeO O A h id now env r true s
    | none =>
      match s.tell O (.aggNotFound h id env) with
      | (s, some v) => (s, .error v)
      | (s, none) => aggInvokeO O A h id now env r false s

/-- `Controller.Handle` (`aggregate/controller.go` 42-160). -/
def aggHandleO (O : Watch W R) (A : App W R) (h : HConfig) (now : Time) (env : Env)
    (s : Sys W R) : Sys W R × HRes :=
  if h.consumes? env.msg = false then (s, .error (.internal "does not handle"))
  else if env.msg.type.kind ≠ .command then (s, .error (.internal "not a command"))
  else
    match s.user (.aggRoute h env.msg) (A.uc.aggRoute h env.msg) with
    | (s, .error v) =>
      (s, .error (enrich h "AggregateMessageHandler" "RouteCommandToInstance" env.msg v))
    | (s, .ok id) =>
      if id = "" then
        (s, .error (.behavior h.name "AggregateMessageHandler" "RouteCommandToInstance" env.msg
          (emptyIDText "a command" env.msg)))
      else aggWithIDO O A h id now env s

/-! ## Processes -/

/-- "Ending reverted" (`process/scope.go` 80-89 and 144-153): the observers are told before the field
is set. -/
def procReviveO (O : Watch W R) (h : HConfig) (id : String) (env : Env)
    (s : Sys W R) (sc : ProcScope R) : Sys W R × ProcScope R × Option PanicVal :=
  if sc.ended then
    match s.tell O (.procReverted h id env) with
    | (s, some v) => (s, sc, some v)
    | (s, none) => (s, { sc with ended := false }, none)
  else (s, sc, none)

/-- `scope.ExecuteCommand` after its checks (`process/scope.go` 80-111). -/
def procEmitCommandO (O : Watch W R) (h : HConfig) (id : String) (now : Time) (env : Env) (m : Message)
    (s : Sys W R) (sc : ProcScope R) : Sys W R × ProcScope R × Option PanicVal :=
  let c := env.child (s.nextID + 1) m now ⟨h, .process, id⟩
  match ({ s with nextID := s.nextID + 1 } : Sys W R).tell O (.procCommand h id env c) with
  | (s, p) => (s, { sc with commands := sc.commands ++ [c] }, p)

/-- `scope.ScheduleTimeout` after its checks (`process/scope.go` 155-180). -/
def procEmitTimeoutO (O : Watch W R) (h : HConfig) (id : String) (now : Time) (env : Env) (m : Message)
    (t : Time) (s : Sys W R) (sc : ProcScope R) : Sys W R × ProcScope R × Option PanicVal :=
  let c := env.childTimeout (s.nextID + 1) m now t ⟨h, .process, id⟩
  match ({ s with nextID := s.nextID + 1 } : Sys W R).tell O (.procTimeout h id env c) with
  | (s, p) =>
    (s, if now < t then { sc with pending := sc.pending ++ [c] }
      else { sc with ready := sc.ready ++ [c] }, p)

/-- One operation on the scope (`process/scope.go` 38-180). -/
def procOpO (O : Watch W R) (h : HConfig) (id : String) (now : Time) (env : Env) (o : ProcOp R)
    (s : Sys W R) (sc : ProcScope R) : Sys W R × ProcScope R × Option PanicVal :=
  match o with
  | .end_ =>
    if sc.ended then (s, sc, none)
    else
      match s.tell O (.procEnded h id env) with
      | (s, p) => (s, { sc with ended := true }, p)
  | .execute m =>
    if h.produces? .command m = false then
      (s, sc, some (.behavior h.name "ProcessMessageHandler" (procMethod env) env.msg
        (undeclaredText "executed a command" m)))
    else match m.invalid with
    | some e =>
      (s, sc, some (.behavior h.name "ProcessMessageHandler" (procMethod env) env.msg
        (invalidText "executed" "command" m e)))
    | none =>
      match procReviveO O h id env s sc with
      | (s, sc, some v) => (s, sc, some v)
      | (s, sc, none) => procEmitCommandO O h id now env m s sc
  | .schedule m t =>
    if h.produces? .timeout m = false then
      (s, sc, some (.behavior h.name "ProcessMessageHandler" (procMethod env) env.msg
        (undeclaredText "scheduled a timeout" m)))
    else match m.invalid with
    | some e =>
      (s, sc, some (.behavior h.name "ProcessMessageHandler" (procMethod env) env.msg
        (invalidText "scheduled" "timeout" m e)))
    | none =>
      match procReviveO O h id env s sc with
      | (s, sc, some v) => (s, sc, some v)
      | (s, sc, none) => procEmitTimeoutO O h id now env m t s sc
  | .setRoot r => (s, { sc with root := r }, none)
  | .log t =>
    match s.tell O (.procLog h id env t) with
    | (s, p) => (s, sc, p)

/-- Running `HandleEvent`/`HandleTimeout` against the scope (`process/controller.go` 241-260). -/
def procRunO (O : Watch W R) (h : HConfig) (id : String) (now : Time) (env : Env) :
    Prog W (ProcOp R) (Option Err) → Sys W R → ProcScope R →
    Sys W R × ProcScope R × Except PanicVal (Option Err)
  | .ret e, s, sc => (s, sc, .ok e)
  | .panic v, s, sc => (s, sc, .error v)
  | .get k, s, sc => procRunO O h id now env (k s.w) s sc
  | .set w k, s, sc => procRunO O h id now env k { s with w := w } sc
  | .op o k, s, sc =>
    match procOpO O h id now env o s sc with
    | (s, sc, p) => procRunO O h id now env (k p) s sc

/-- `Handle` once the root is known (`process/controller.go` 116-147). -/
def procInvokeO (O : Watch W R) (A : App W R) (h : HConfig) (id : String) (now : Time) (env : Env)
    (r : R) (existed : Bool) (s : Sys W R) : Sys W R × HRes :=
  match procRunO O h id now env (A.uc.procHandle h id r env.msg (procSeenTime env))
      (s.emit (.call (.procHandle h id r env.msg (procSeenTime env)))) ⟨r, false, [], [], []⟩ with
  | (s, sc, .error v) =>
    (procAlias h id existed s sc.root,
      .error (enrich h "ProcessMessageHandler" (procMethod env) env.msg v))
  | (s, sc, .ok (some e)) => (procAlias h id existed s sc.root, .ok ([], some e))
  | (s, sc, .ok none) =>
    if sc.ended then
      (if existed then procDelete h id s else s, .ok (sc.commands, none))
    else
      (procUpdate A h id s sc, .ok (sc.commands ++ sc.ready, none))

/-- `Handle` once the instance ID is known (`process/controller.go` 78-147). -/
def procWithIDO (O : Watch W R) (A : App W R) (h : HConfig) (id : String) (now : Time) (env : Env)
    (s : Sys W R) : Sys W R × HRes :=
  match (s.proc h.name).inst id with
  | some r =>
    match s.tell O (.procLoaded h id env) with
    | (s, some v) => (s, .error v)
    | (s, none) => procInvokeO O A h id now env r true s
  | none =>
    match s.tell O (.procNotFound h id env) with
    | (s, some v) => (s, .error v)
    | (s, none) =>
      match s.user (.procNew h) (A.uc.procNew h) with
      | (s, .error v) => (s, .error v)
      | (s, .ok r) =>
        match s.tell O (.procBegun h id env), r with
        | (s, some v), _ => (s, .error v)
        | (s, none), none =>
          (s, .error (.behavior h.name "ProcessMessageHandler" "New" env.msg
            "returned a nil ProcessRoot"))
        | (s, none), some r => procInvokeO O A h id now env r false s

/-- `Controller.Handle` (`process/controller.go` 60-147, 156-238). -/
def procHandleO (O : Watch W R) (A : App W R) (h : HConfig) (now : Time) (env : Env)
    (s : Sys W R) : Sys W R × HRes :=
  if h.consumes? env.msg = false then (s, .error (.internal "does not handle"))
  else
    match env.msg.type.kind with
    | .command => (s, .error (.internal "no callback for commands"))
    | .event =>
      match s.user (.procRoute h env.msg) (A.uc.procRoute h env.msg) with
      | (s, .error v) =>
        (s, .error (enrich h "ProcessMessageHandler" "RouteEventToInstance" env.msg v))
      | (s, .ok (.error e)) => (s, .ok ([], some e))
      | (s, .ok (.ok none)) =>
        match s.tell O (.procEventIgnored h env) with
        | (s, some v) => (s, .error v)
        | (s, none) => (s, .ok ([], none))
      | (s, .ok (.ok (some id))) =>
        if id = "" then
          (s, .error (.behavior h.name "ProcessMessageHandler" "RouteEventToInstance" env.msg
            (emptyIDText "an event" env.msg)))
        else procWithIDO O A h id now env s
    | .timeout =>
      match env.origin with
      | none => (s, .error (.internal "nil pointer dereference"))
      | some o =>
        match (s.proc h.name).inst o.instanceID with
        | some _ => procWithIDO O A h o.instanceID now env s
        | none =>
          match s.tell O (.procTimeoutIgnored h o.instanceID env) with
          | (s, some v) => (s, .error v)
          | (s, none) => (s, .ok ([], none))

/-! ## Integrations -/

/-- One operation on the scope (`integration/scope.go` 27-81). -/
def intOpO (O : Watch W R) (h : HConfig) (now : Time) (env : Env) (o : IntOp)
    (s : Sys W R) (evs : List Env) : Sys W R × List Env × Option PanicVal :=
  match o with
  | .record m =>
    if h.produces? .event m = false then
      (s, evs, some (.behavior h.name "IntegrationMessageHandler" "HandleCommand" env.msg
        (undeclaredText "recorded an event" m)))
    else match m.invalid with
    | some e =>
      (s, evs, some (.behavior h.name "IntegrationMessageHandler" "HandleCommand" env.msg
        (invalidText "recorded" "event" m e)))
    | none =>
      let ev := env.child (s.nextID + 1) m now ⟨h, .integration, ""⟩
      match ({ s with nextID := s.nextID + 1 } : Sys W R).tell O (.intEvent h env ev) with
      | (s, p) => (s, evs ++ [ev], p)
  | .log t =>
    match s.tell O (.intLog h env t) with
    | (s, p) => (s, evs, p)

/-- Running `HandleCommand` against the scope (`integration/controller.go` 61-73). -/
def intRunO (O : Watch W R) (h : HConfig) (now : Time) (env : Env) :
    Prog W IntOp (Option Err) → Sys W R → List Env →
    Sys W R × List Env × Except PanicVal (Option Err)
  | .ret e, s, evs => (s, evs, .ok e)
  | .panic v, s, evs => (s, evs, .error v)
  | .get k, s, evs => intRunO O h now env (k s.w) s evs
  | .set w k, s, evs => intRunO O h now env k { s with w := w } evs
  | .op o k, s, evs =>
    match intOpO O h now env o s evs with
    | (s, evs, p) => intRunO O h now env (k p) s evs

/-- `Controller.Handle` (`integration/controller.go` 39-76). -/
def intHandleO (O : Watch W R) (A : App W R) (h : HConfig) (now : Time) (env : Env)
    (s : Sys W R) : Sys W R × HRes :=
  if h.consumes? env.msg = false then (s, .error (.internal "does not handle"))
  else if env.msg.type.kind ≠ .command then (s, .error (.internal "not a command"))
  else
    match intRunO O h now env (A.uc.intHandle h env.msg)
        (s.emit (.call (.intHandle h env.msg))) [] with
    | (s, _, .error v) =>
      (s, .error (enrich h "IntegrationMessageHandler" "HandleCommand" env.msg v))
    | (s, evs, .ok e) => (s, .ok (evs, e))

/-! ## Projections -/

/-- One step of a projection program (`projection/scope.go` 30-37). -/
def prjStepO {α : Type} (O : Watch W R) (h : HConfig) (env : Option Env) :
    Prog W PrjOp α → Sys W R → Prog W PrjOp α × Sys W R
  | .ret a, s => (.ret a, s)
  | .panic v, s => (.panic v, s)
  | .get k, s => (k s.w, s)
  | .set w k, s => (k, { s with w := w })
  | .op (.log t) k, s => (k (s.tell O (.prjLog h env t)).2, (s.tell O (.prjLog h env t)).1)

/-- Run a projection program to its end (`projection/controller.go` 38-181). -/
def prjRunO {α : Type} (O : Watch W R) (h : HConfig) (env : Option Env) :
    Prog W PrjOp α → Sys W R → Sys W R × Except PanicVal α
  | .ret a, s => (s, .ok a)
  | .panic v, s => (s, .error v)
  | .get k, s => prjRunO O h env (k s.w) s
  | .set w k, s => prjRunO O h env k { s with w := w }
  | .op (.log t) k, s =>
    prjRunO O h env (k (s.tell O (.prjLog h env t)).2) (s.tell O (.prjLog h env t)).1

/-- `HandleEvent` and `Compact` in parallel (`projection/controller.go` 104-156). -/
def prjParO (O : Watch W R) (h : HConfig) (env : Env) :
    List Bool → Prog W PrjOp (Except Err Bool) → Prog W PrjOp (Option Err) → Sys W R →
    Sys W R × Except PanicVal (Except Err Bool × Option Err)
  | [], hp, cp, s =>
    match prjRunO O h (some env) hp s with
    | (s, .error v) => (s, .error (enrich h "ProjectionMessageHandler" "HandleEvent" env.msg v))
    | (s, .ok r) =>
      match prjRunO O h none cp s with
      | (s, .error _) => (s, .error (.crash "compaction goroutine"))
      | (s, .ok ce) => (s, .ok (r, ce))
  | b :: bs, hp, cp, s =>
    match cp, hp with
    | .panic _, _ => (s, .error (.crash "compaction goroutine"))
    | _, .panic v => (s, .error (enrich h "ProjectionMessageHandler" "HandleEvent" env.msg v))
    | cp, hp =>
      if b then
        match prjStepO O h none cp s with
        | (cp, s) => prjParO O h env bs hp cp s
      else
        match prjStepO O h (some env) hp s with
        | (hp, s) => prjParO O h env bs hp cp s

/-- `HandleEvent`, with or without parallel compaction (`projection/controller.go` 99-163). -/
def prjApplyO (O : Watch W R) (A : App W R) (h : HConfig) (now : Time) (env : Env) (s : Sys W R) :
    Sys W R × Except PanicVal (Except Err Bool × Option Err) :=
  if A.compactDuringHandling then
    let sched := A.uc.schedule s.w
    match s.tell O (.prjCompactBegun h) with
    | (s, some v) => (s, .error v)
    | (s, none) =>
      match prjParO O h env sched
          (A.uc.prjHandle h env.id [] [1] env.msg env.createdAt) (A.uc.prjCompact h now)
          ((s.emit (.call (.prjCompact h now))).emit (.call (.prjHandle h env.id [] [1] env.msg))) with
      | (s, .error v) => (s, .error v)
      | (s, .ok (r, ce)) =>
        match s.tell O (.prjCompactCompleted h ce) with
        | (s, some v) => (s, .error v)
        | (s, none) => (s, .ok (r, ce))
  else
    match prjRunO O h (some env) (A.uc.prjHandle h env.id [] [1] env.msg env.createdAt)
        (s.emit (.call (.prjHandle h env.id [] [1] env.msg))) with
    | (s, .error v) => (s, .error (enrich h "ProjectionMessageHandler" "HandleEvent" env.msg v))
    | (s, .ok r) => (s, .ok (r, none))

/-- `Controller.Handle` (`projection/controller.go` 71-181). -/
def prjHandleO (O : Watch W R) (A : App W R) (h : HConfig) (now : Time) (env : Env)
    (s : Sys W R) : Sys W R × HRes :=
  if h.consumes? env.msg = false then (s, .error (.internal "does not handle"))
  else if env.msg.type.kind ≠ .event then (s, .error (.internal "not an event"))
  else
    match s.user (.prjVersion h env.id) (A.uc.prjVersion h env.id) with
    | (s, .error v) => (s, .error v)
    | (s, .ok (.error e)) => (s, .ok ([], some e))
    | (s, .ok (.ok (_ :: _))) => (s, .ok ([], none))
    | (s, .ok (.ok [])) =>
      match prjApplyO O A h now env s with
      | (s, .error v) => (s, .error v)
      | (s, .ok (r, ce)) => prjFinish A h env r ce s

/-- `Controller.Tick` (`projection/controller.go` 38-68). -/
def prjTickO (O : Watch W R) (A : App W R) (h : HConfig) (now : Time) (s : Sys W R) :
    Sys W R × Except PanicVal (Option Err) :=
  if timeSub now (s.lastCompact h.name) ≥ compactInterval then
    let s := { s with lastCompact := upd s.lastCompact h.name now }
    match s.tell O (.prjCompactBegun h) with
    | (s, some v) => (s, .error v)
    | (s, none) =>
      match prjRunO O h none (A.uc.prjCompact h now) (s.emit (.call (.prjCompact h now))) with
      | (s, .error v) => (s, .error v)
      | (s, .ok e) =>
        match s.tell O (.prjCompactCompleted h e) with
        | (s, some v) => (s, .error v)
        | (s, none) => (s, .ok e)
  else (s, .ok none)

/-! ## Engine -/

/-- `controller.Handle`, by handler type (`/repo/engine/controller.go` 31-45). -/
def ctlHandleO (O : Watch W R) (A : App W R) (h : HConfig) (now : Time) (env : Env) (s : Sys W R) :
    Sys W R × HRes :=
  match h.htype with
  | .aggregate => aggHandleO O A h now env s
  | .process => procHandleO O A h now env s
  | .integration => intHandleO O A h now env s
  | .projection => prjHandleO O A h now env s

/-- `Engine.handle` (`engine.go` 305-341). -/
def handleOneO (O : Watch W R) (A : App W R) (oo : OpOpts) (env : Env) (h : HConfig) (s : Sys W R) :
    Sys W R × HRes :=
  match skipHandler oo h with
  | some r =>
    match s.tell O (.handlingSkipped h env r) with
    | (s, some v) => (s, .error v)
    | (s, none) => (s, .ok ([], none))
  | none =>
    match s.tell O (.handlingBegun h env) with
    | (s, some v) => (s, .error v)
    | (s, none) =>
      match ctlHandleO O A h oo.now env s with
      | (s, .error v) => (s, .error v)
      | (s, .ok (envs, e)) =>
        match s.tell O (.handlingCompleted h env e) with
        | (s, some v) => (s, .error v)
        | (s, none) => (s, .ok (envs, e))

/-- The loop over controllers for one message (`engine.go` 270-286). -/
def handleAllO (O : Watch W R) (A : App W R) (oo : OpOpts) (env : Env) :
    List HConfig → List Env → List EngErr → Sys W R →
    Sys W R × Except PanicVal (List Env × List EngErr)
  | [], q, de, s => (s, .ok (q, de))
  | h :: hs, q, de, s =>
    match handleOneO O A oo env h s with
    | (s, .error v) => (s, .error v)
    | (s, .ok (envs, e)) => handleAllO O A oo env hs (q ++ envs) (de ++ tagErr h e) s

/-- `Engine.dispatch` (`engine.go` 240-303). -/
def dispatchLoopO (O : Watch W R) (A : App W R) (oo : OpOpts) :
    Nat → List Env → List EngErr → Sys W R → Sys W R × Outcome (List EngErr)
  | _, [], errs, s => (s, .done errs)
  | 0, _ :: _, _, s => (s, .running)
  | n + 1, env :: q, errs, s =>
    match A.targets env with
    | .error v => (s, .panicked v)
    | .ok hs =>
      match s.tell O (.dispatchBegun env) with
      | (s, some v) => (s, .panicked v)
      | (s, none) =>
        match handleAllO O A oo env hs q [] s with
        | (s, .error v) => (s, .panicked v)
        | (s, .ok (q, de)) =>
          match s.tell O (.dispatchCompleted env de) with
          | (s, some v) => (s, .panicked v)
          | (s, none) =>
            match A.uc.ctxErr s.w with
            | some e => (s, .done [.ctx e])
            | none => dispatchLoopO O A oo n q (errs ++ de) s

/-- `controller.Tick`, by handler type (`/repo/engine/controller.go` 21-29). -/
def ctlTickO (O : Watch W R) (A : App W R) (h : HConfig) (now : Time) (s : Sys W R) :
    Sys W R × HRes :=
  match h.htype with
  | .process =>
    match procTick h now s with
    | (s, envs) => (s, .ok (envs, none))
  | .projection =>
    match prjTickO O A h now s with
    | (s, .error v) => (s, .error v)
    | (s, .ok e) => (s, .ok ([], e))
  | _ => (s, .ok ([], none))

/-- The loop over controllers of a tick (`engine.go` 126-167). -/
def tickAllO (O : Watch W R) (A : App W R) (oo : OpOpts) :
    List HConfig → List Env → List EngErr → Sys W R →
    Sys W R × Except PanicVal (List Env × List EngErr × Option Err)
  | [], q, errs, s => (s, .ok (q, errs, none))
  | h :: hs, q, errs, s =>
    match skipHandler oo h with
    | some r =>
      match s.tell O (.tickSkipped h r) with
      | (s, some v) => (s, .error v)
      | (s, none) => tickAllO O A oo hs q errs s
    | none =>
      match s.tell O (.tickBegun h) with
      | (s, some v) => (s, .error v)
      | (s, none) =>
        match ctlTickO O A h oo.now s with
        | (s, .error v) => (s, .error v)
        | (s, .ok (envs, e)) =>
          match s.tell O (.tickCompleted h e) with
          | (s, some v) => (s, .error v)
          | (s, none) =>
            match A.uc.ctxErr s.w with
            | some c => (s, .ok (q ++ envs, errs ++ tagErr h e, some c))
            | none => tickAllO O A oo hs (q ++ envs) (errs ++ tagErr h e) s

/-- `Engine.tick` (`engine.go` 117-179). -/
def engTickLockedO (O : Watch W R) (A : App W R) (oo : OpOpts) (fuel : Nat) (order : List HConfig)
    (s : Sys W R) : Sys W R × Outcome (List EngErr) :=
  match tickAllO O A oo order [] [] s with
  | (s, .error v) => (s, .panicked v)
  | (s, .ok (_, _, some c)) => (s, .done [.ctx c])
  | (s, .ok (q, errs, none)) =>
    match dispatchLoopO O A oo fuel q [] s with
    | (s, .done derrs) => (s, .done (errs ++ derrs))
    | (s, o) => (s, o)

/-- The last notification of an operation (`engine.go` 106-112, 228-235). -/
def finishO (O : Watch W R) (f : Fact) (errs : List EngErr) (s : Sys W R) :
    Sys W R × Outcome (List EngErr) :=
  match s.tell O f with
  | (s, some v) => (s, .panicked v)
  | (s, none) => (s, .done errs)

/-- `Engine.Tick` (`engine.go` 86-115). -/
def engTickO (O : Watch W R) (A : App W R) (fuel : Nat) (order : List HConfig) (os : List OpOption)
    (s : Sys W R) : Sys W R × Outcome (List EngErr) :=
  match newOpOpts A s os with
  | .error v => (s, .panicked v)
  | .ok oo =>
    match s.tell O (.tickCycleBegun (oo.cycle A)) with
    | (s, some v) => (s, .panicked v)
    | (s, none) =>
      match A.uc.lockErr s.w with
      | some e => finishO O (.tickCycleCompleted (oo.cycle A).maps [.lock e]) [.lock e] s
      | none =>
        match engTickLockedO O A oo fuel order s with
        | (s, .done errs) => finishO O (.tickCycleCompleted (oo.cycle A).maps errs) errs s
        | (s, o) => (s, o)

/-- `Engine.Dispatch` (`engine.go` 184-238). -/
def engDispatchO (O : Watch W R) (A : App W R) (fuel : Nat) (m : Message) (os : List OpOption)
    (s : Sys W R) : Sys W R × Outcome (List EngErr) :=
  let s := { s with nextID := s.nextID + 1 }
  match newOpOpts A s os with
  | .error v => (s, .panicked v)
  | .ok oo =>
    if m.type.kind = .timeout then (s, .panicked (.misuse "timeout"))
    else
      match m.invalid with
      | some e => (s, .panicked (.misuse (cannotDispatchText m e)))
      | none =>
        if A.route m = [] then (s, .panicked (.misuse (notConsumedText m)))
        else
          let env := Env.root s.nextID m oo.now
          match s.tell O (.dispatchCycleBegun env (oo.cycle A)) with
          | (s, some v) => (s, .panicked v)
          | (s, none) =>
            match A.uc.lockErr s.w with
            | some e => finishO O (.dispatchCycleCompleted env (oo.cycle A).maps [.lock e]) [.lock e] s
            | none =>
              match dispatchLoopO O A oo fuel [env] [] s with
              | (s, .done errs) => finishO O (.dispatchCycleCompleted env (oo.cycle A).maps errs) errs s
              | (s, o) => (s, o)

/-- Perform one operation (`engine.go` 67-80, 86-115, 184-238).  `Reset()` tells the observers
nothing. -/
def Op.execO (O : Watch W R) (A : App W R) (s : Sys W R) : Op → Sys W R × Outcome (List EngErr)
  | .dispatch n m os => engDispatchO O A n m os s
  | .tick n order os => engTickO O A n order os s
  | .reset => engReset A s

/-! ## Specification -/

/-- On which facts the observers panic, given what was observed before. -/
abbrev PanicsOn (R : Type) := List (Obs R) → Fact → Option PanicVal

/-- Observers that do nothing but panic now and then. -/
def PanicsOn.watch (P : PanicsOn R) : Watch W R := fun tr f w => (w, P tr f)

/-- Does an observer panic on what is observed now? -/
def PanicsOn.at (P : PanicsOn R) (tr : List (Obs R)) : Obs R → Option PanicVal
  | .fact f => P tr f
  | _ => none

/-- The part of a run up to the first fact on which an observer panics, this fact included, and the
panic if there is one.  `tr` is what was observed before. -/
def upToPanic (P : PanicsOn R) : List (Obs R) → List (Obs R) → List (Obs R) × Option PanicVal
  | _, [] => ([], none)
  | tr, o :: l =>
    match P.at tr o with
    | some v => ([o], some v)
    | none => (o :: (upToPanic P (tr ++ [o]) l).1, (upToPanic P (tr ++ [o]) l).2)

/-- The program does not recover from panics of the methods of its scope. -/
inductive Prog.Strict {O α : Type} : Prog W O α → Prop where
  | ret (a : α) : Prog.Strict (.ret a)
  | panic (v : PanicVal) : Prog.Strict (.panic v)
  | get {k : W → Prog W O α} (h : ∀ w, (k w).Strict) : Prog.Strict (.get k)
  | set {w : W} {k : Prog W O α} (h : k.Strict) : Prog.Strict (.set w k)
  | op {o : O} {k : Option PanicVal → Prog W O α} (h : (k none).Strict)
      (hp : ∀ v, k (some v) = .panic v) : Prog.Strict (.op o k)

/-- The handlers do not recover from panics, observers do not panic with `dogma.UnexpectedMessage`,
there is no compaction in parallel with the handling of events. -/
structure Strict (A : App W R) (P : PanicsOn R) : Prop where
  value : ∀ tr f v, P tr f = some v → v ≠ .unexpectedMessage
  parallel : A.compactDuringHandling = false
  agg : ∀ h id r m, (A.uc.aggHandle h id r m).Strict
  proc : ∀ h id r m t, (A.uc.procHandle h id r m t).Strict
  int : ∀ h m, (A.uc.intHandle h m).Strict
  prj : ∀ h r c n m t, (A.uc.prjHandle h r c n m t).Strict
  compact : ∀ h now, (A.uc.prjCompact h now).Strict

/-- The states that histories of operations lead to, each operation having observers of its own
which do what they like (`engine.go` 32-238). -/
inductive ReachO (A : App W R) : Sys W R → Prop where
  | init (w : W) : ReachO A (Sys.init w)
  | world {s : Sys W R} (w : W) (hs : ReachO A s) : ReachO A { s with w := w }
  | step {s : Sys W R} (O : Watch W R) (op : Op) (hs : ReachO A s) : ReachO A (op.execO O A s).1

end Verif
