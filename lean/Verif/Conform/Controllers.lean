import Verif.Conform.Harness
import Verif.Engine

/-!
# Transcribed tests: controllers

`/repo/engine/internal/process/controller_test.go`, `scope_test.go`,
`/repo/engine/internal/aggregate/controller_test.go`, `scope_test.go`,
`/repo/engine/internal/integration/controller_test.go`, `scope_test.go`,
`/repo/engine/internal/projection/controller_test.go`, `scope_test.go`.

The tests call the methods of a controller directly.  Handlers are changed between calls; here the
user code is an argument of each call.  What tests say about the `Root` in facts is left out, as the
model's facts have no such field; they are compared with the root that the handler is given.
-/

namespace Verif.Conform.Ctl

open Verif Verif.Conform

abbrev S := Sys Nat (List String)
abbrev U := UserCode Nat (List String)

/-- The facts of a step from `s` to `s'`. -/
def factsOf (s s' : S) : List Fact :=
  (s'.trace.drop s.trace.length).filterMap fun | .fact f => some f | _ => none

/-- The calls of a step from `s` to `s'`. -/
def callsOf (s s' : S) : List (Call (List String)) :=
  (s'.trace.drop s.trace.length).filterMap fun | .call c => some c | _ => none

/-- The handler that performs the operations, then returns. -/
def doing {O : Type} : List O → α → Prog Nat O α
  | [], a => .ret a
  | o :: os, a => .do_ o (doing os a)

/-- What a call of `Handle()` gives: returned envelopes and error, or the panic. -/
def res : S × HRes → HRes := Prod.snd

def resetIDs (s : S) : S := { s with nextID := 0 }

def init : S := Sys.init 0

instance : DecidableEq HRes := fun a b =>
  match a, b with
  | .ok x, .ok y => if h : x = y then isTrue (h ▸ rfl) else isFalse fun e => by cases e; exact h rfl
  | .error x, .error y =>
    if h : x = y then isTrue (h ▸ rfl) else isFalse fun e => by cases e; exact h rfl
  | .ok _, .error _ => isFalse nofun
  | .error _, .ok _ => isFalse nofun

def command := Env.root 1000 (msg (cmd "TypeA") "A1") 5
def event := Env.root 1000 (msg (evt "TypeA") "A1") 5
def eventA (n : String) := msg (evt "TypeA") n
def commandA (n : String) := msg (cmd "TypeA") n
def timeoutA (n : String) := msg (tmo "TypeA") n
def now : Int := 1000000

/-! ## Process -/

namespace Process

def config : HConfig :=
  { name := "<name>", htype := .process, consumes := [evt "TypeA", tmo "TypeA"],
    produces := [cmd "TypeA", tmo "TypeA"] }

/-- `RouteEventToInstance` of the tests of the controller. -/
def base : U :=
  { stubs with
    procRoute := fun _ m w =>
      if m.type = evt "TypeA" then (w, .ok (.ok (some ("<instance-" ++ m.body ++ ">"))))
      else (w, .error .unexpectedMessage) }

def onEvent (u : U) (p : Prog Nat (ProcOp (List String)) (Option Err)) : U :=
  { u with
    procHandle := fun h id r m t =>
      if m.type.kind = .event then p else u.procHandle h id r m t }

def onTimeout (u : U) (p : Prog Nat (ProcOp (List String)) (Option Err)) : U :=
  { u with
    procHandle := fun h id r m t =>
      if m.type.kind = .timeout then p else u.procHandle h id r m t }

def handle (u : U) (t : Int) (e : Env) (s : S) : S × HRes := procHandle (mkApp [config] u) config t e s
def tick (t : Int) (s : S) : S × List Env := procTick config t s

def origin (id : String) : Origin := ⟨config, .process, id⟩
def timeout := event.childTimeout 2000 (timeoutA "A1") 6 (now + 10) (origin "<instance-A1>")

/-! ### `Tick()` -/

def t1 := now + 1000
def t2 := now + 2000
def t3 := now + 3000

def scheduling : U :=
  onEvent base (doing [.schedule (timeoutA "A3") t3, .schedule (timeoutA "A2") t2,
    .schedule (timeoutA "A1") t1] none)

def ticking : S := resetIDs (handle scheduling now event init).1

/-- "returns timeouts that are ready to be handled" -/
def ready (e : Env) (id : String) : List Env :=
  [e.childTimeout 3 (timeoutA "A1") now t1 (origin id),
   e.childTimeout 2 (timeoutA "A2") now t2 (origin id)]

#guard (tick t2 ticking).2 = ready event "<instance-A1>"

-- "does not return the same timeouts multiple times"
#guard (tick t2 (tick t2 ticking).1).2 = []

/-- "does not return timeouts for instances that have been ended" -/
def secondInstanceEvent := Env.root 3000 (eventA "A2") 7
def endedFirst : S :=
  (handle (onEvent base (doing [.end_] none)) now event
    (handle scheduling now secondInstanceEvent ticking).1).1

#guard (tick t2 endedFirst).2 = ready secondInstanceEvent "<instance-A2>"

/-! ### `Handle()`, of an event -/

-- "forwards the message to the handler"
#guard Call.procHandle config "<instance-A1>" [] (eventA "A1") 5 ∈
  callsOf init (handle base now event init).1

-- "propagates handler errors"
#guard res (handle (onEvent base (.ret (some "<error>"))) now event init) = .ok ([], some "<error>")

-- "returns both commands and timeouts"
#guard res (handle (onEvent base (doing [.execute (commandA "A1"), .schedule (timeoutA "A1") now] none))
    now event init) =
  .ok ([event.child 1 (commandA "A1") now (origin "<instance-A1>"),
    event.childTimeout 2 (timeoutA "A1") now now (origin "<instance-A1>")], none)

-- "returns timeouts scheduled in the past"
#guard (match res (handle (onEvent base (doing [.schedule (timeoutA "A1") (now - 1)] none)) now event
    init) with | .ok (es, none) => es.length == 1 | _ => false)

-- "does not return timeouts scheduled in the future"
#guard res (handle (onEvent base (doing [.schedule (timeoutA "A1") (now + 1)] none)) now event init) =
  .ok ([], none)

def ignoring : U := { base with procRoute := fun _ _ w => (w, .ok (.ok none)) }

-- "does not forward the message to the handler"; "records a fact"
#guard callsOf init (handle ignoring now event init).1 = [.procRoute config (eventA "A1")]
#guard res (handle ignoring now event init) = .ok ([], none)
#guard Fact.procEventIgnored config event ∈ factsOf init (handle ignoring now event init).1

/-! ### `Handle()`, of a timeout -/

def existing : S := resetIDs (handle base now event init).1

-- "forwards the message to the handler" (and `ScheduledFor()`, `scope_test.go`)
#guard res (handle base now timeout existing) = .ok ([], none)
#guard Call.procHandle config "<instance-A1>" [] (timeoutA "A1") timeout.scheduledFor ∈
  callsOf existing (handle base now timeout existing).1

-- "propagates handler errors"
#guard res (handle (onTimeout base (.ret (some "<error>"))) now timeout existing) =
  .ok ([], some "<error>")

-- "returns both commands and timeouts"
#guard res (handle (onTimeout base
      (doing [.execute (commandA "A1"), .schedule (timeoutA "A1") now] none)) now timeout existing) =
  .ok ([timeout.child 1 (commandA "A1") now (origin "<instance-A1>"),
    timeout.childTimeout 2 (timeoutA "A1") now now (origin "<instance-A1>")], none)

-- "returns timeouts scheduled in the past"
#guard (match res (handle (onTimeout base (doing [.schedule (timeoutA "A2") (now - 1)] none)) now
    timeout existing) with | .ok (es, none) => es.length == 1 | _ => false)

-- "does not return timeouts scheduled in the future"
#guard res (handle (onTimeout base (doing [.schedule (timeoutA "A2") (now + 1)] none)) now event
  existing) = .ok ([], none)
#guard res (handle (onTimeout base (doing [.schedule (timeoutA "A2") (now + 1)] none)) now timeout
  existing) = .ok ([], none)

def gone : S := resetIDs (handle (onEvent base (doing [.end_] none)) now event existing).1

-- "does not forward the message to the handler"; "records a fact"
#guard res (handle (onTimeout base (.panic (.user "unexpected call"))) now timeout gone) =
  .ok ([], none)
#guard Fact.procTimeoutIgnored config "<instance-A1>" timeout ∈
  factsOf gone (handle base now timeout gone).1

/-! ### `Handle()`, in general -/

-- "propagates routing errors"
#guard res (handle { base with procRoute := fun _ _ w => (w, .ok (.error "<error>")) } now event init) =
  .ok ([], some "<error>")

-- "panics when the handler routes to an empty instance ID"
#guard res (handle { base with procRoute := fun _ _ w => (w, .ok (.ok (some ""))) } now event init) =
  .error (.behavior "<name>" "ProcessMessageHandler" "RouteEventToInstance" (eventA "A1")
    "routed an event of type stubs.EventStub[TypeA] to an empty ID")

-- "records facts"
#guard factsOf init (handle base now event init).1 =
  [.procNotFound config "<instance-A1>" event, .procBegun config "<instance-A1>" event]

-- "panics if New() returns nil"
#guard res (handle { base with procNew := fun _ w => (w, .ok none) } now event init) =
  .error (.behavior "<name>" "ProcessMessageHandler" "New" (eventA "A1") "returned a nil ProcessRoot")

-- "records a fact" (the instance exists)
#guard Fact.procLoaded config "<instance-A1>" event ∈ factsOf existing (handle base now event existing).1

-- "does not call New()"
#guard res (handle { base with procNew := fun _ w => (w, .error (.user "unexpected call")) } now event
  existing) = .ok ([], none)

-- "provides more context to UnexpectedMessage panics from RouteEventToInstance()"
#guard res (handle { base with procRoute := fun _ _ w => (w, .error .unexpectedMessage) } now event
    init) =
  .error (.enriched "<name>" "ProcessMessageHandler" "RouteEventToInstance" (eventA "A1"))

-- "… from HandleEvent()"
#guard res (handle (onEvent base (.panic .unexpectedMessage)) now event init) =
  .error (.enriched "<name>" "ProcessMessageHandler" "HandleEvent" (eventA "A1"))

-- "… from HandleTimeout()"
#guard res (handle (onTimeout base (.panic .unexpectedMessage)) now timeout existing) =
  .error (.enriched "<name>" "ProcessMessageHandler" "HandleTimeout" (timeoutA "A1"))

/-- `Reset()` (`controller.go` 150-153), as part of `engReset`. -/
def reset (s : S) : S := (engReset (mkApp [config] base) s).1

-- "removes all instances"
#guard (factsOf (reset existing) (handle base now event (reset existing)).1).all
  fun | .procLoaded .. => false | _ => true
#guard res (handle base now event (reset existing)) = .ok ([], none)

/-! ### `scope_test.go` -/

def base' : U := { base with procRoute := fun _ _ w => (w, .ok (.ok (some "<instance>"))) }
def facts (l : List (ProcOp (List String))) : List Fact :=
  factsOf init (handle (onEvent base' (doing l none)) now event init).1
def panics (l : List (ProcOp (List String))) : HRes :=
  res (handle (onEvent base' (doing l none)) now event init)

-- `InstanceID()`
#guard Call.procHandle config "<instance>" [] (eventA "A1") 5 ∈
  callsOf init (handle base' now event init).1

-- `End()`: "records a fact"; "does nothing if the instance has already been ended"
#guard Fact.procEnded config "<instance>" event ∈ facts [.end_]
#guard (facts [.end_, .end_]).length = 3

-- `ExecuteCommand()`
#guard Fact.procCommand config "<instance>" event
  (event.child 1 (commandA "A1") now (origin "<instance>")) ∈ facts [.execute (commandA "A1")]
#guard panics [.execute (msg (cmd "TypeX") "X1")] =
  .error (.behavior "<name>" "ProcessMessageHandler" "HandleEvent" (eventA "A1")
    "executed a command of type stubs.CommandStub[TypeX], which is not produced by this handler")
#guard panics [.execute { commandA "" with invalid := some "<invalid>" }] =
  .error (.behavior "<name>" "ProcessMessageHandler" "HandleEvent" (eventA "A1")
    "executed an invalid stubs.CommandStub[TypeA] command: <invalid>")
#guard Fact.procReverted config "<instance>" event ∈ facts [.end_, .execute (commandA "A1")]

-- `ScheduleTimeout()`
#guard Fact.procTimeout config "<instance>" event
  (event.childTimeout 1 (timeoutA "A1") now (now + 10) (origin "<instance>")) ∈
    facts [.schedule (timeoutA "A1") (now + 10)]
#guard panics [.schedule (msg (tmo "TypeX") "X1") now] =
  .error (.behavior "<name>" "ProcessMessageHandler" "HandleEvent" (eventA "A1")
    "scheduled a timeout of type stubs.TimeoutStub[TypeX], which is not produced by this handler")
#guard panics [.schedule { timeoutA "" with invalid := some "<invalid>" } now] =
  .error (.behavior "<name>" "ProcessMessageHandler" "HandleEvent" (eventA "A1")
    "scheduled an invalid stubs.TimeoutStub[TypeA] timeout: <invalid>")
#guard Fact.procReverted config "<instance>" event ∈ facts [.end_, .schedule (timeoutA "A1") now]

-- `Log()`
#guard Fact.procLog config "<instance>" event "<text>" ∈ facts [.log "<text>"]

end Process

/-! ## Aggregate -/

namespace Aggregate

def config : HConfig :=
  { name := "<name>", htype := .aggregate, consumes := [cmd "TypeA"], produces := [evt "TypeA"] }

def base : U :=
  { stubs with
    aggRoute := fun _ m w =>
      if m.type = cmd "TypeA" then (w, .ok ("<instance-" ++ m.body ++ ">"))
      else (w, .error .unexpectedMessage) }

def onCommand (u : U) (p : Prog Nat (AggOp (List String)) Unit) : U := { u with aggHandle := fun _ _ _ _ => p }

def handle (u : U) (t : Int) (e : Env) (s : S) : S × HRes := aggHandle (mkApp [config] u) config t e s
def origin (id : String) : Origin := ⟨config, .aggregate, id⟩

-- `Tick()`: no envelopes, no facts, no error
#guard (match ctlTick (mkApp [config] base) config now init with
  | (s, .ok ([], none)) => factsOf init s == [] | _ => false)

-- "forwards the message to the handler"; "passes a new aggregate root"
#guard Call.aggHandle config "<instance-A1>" [] (commandA "A1") ∈
  callsOf init (handle base now command init).1
#guard res (handle base now command init) = .ok ([], none)

-- "returns the recorded events"
#guard res (handle (onCommand base (doing [.record (eventA "A1"), .record (eventA "A2")] ())) now command
    init) =
  .ok ([command.child 1 (eventA "A1") now (origin "<instance-A1>"),
    command.child 2 (eventA "A2") now (origin "<instance-A1>")], none)

-- "panics when the handler routes to an empty instance ID"
#guard res (handle { base with aggRoute := fun _ _ w => (w, .ok "") } now command init) =
  .error (.behavior "<name>" "AggregateMessageHandler" "RouteCommandToInstance" (commandA "A1")
    "routed a command of type stubs.CommandStub[TypeA] to an empty ID")

-- "records a fact" (the instance does not exist)
#guard Fact.aggNotFound config "<instance-A1>" command ∈ factsOf init (handle base now command init).1

-- "panics if New() returns nil"
#guard res (handle { base with aggNew := fun _ w => (w, .ok none) } now command init) =
  .error (.behavior "<name>" "AggregateMessageHandler" "New" (commandA "A1")
    "returned a nil AggregateRoot")

def existing : S := (handle (onCommand base (doing [.record (eventA "A1")] ())) now command init).1

-- "records a fact"; "passes an aggregate root with historical events applied"
#guard Fact.aggLoaded config "<instance-A1>" command ∈
  factsOf existing (handle base now command existing).1
#guard Call.aggHandle config "<instance-A1>" ["A1"] (commandA "A1") ∈
  callsOf existing (handle base now command existing).1

-- "provides more context to UnexpectedMessage panics from RouteCommandToInstance()"
#guard res (handle { base with aggRoute := fun _ _ w => (w, .error .unexpectedMessage) } now command
    init) =
  .error (.enriched "<name>" "AggregateMessageHandler" "RouteCommandToInstance" (commandA "A1"))

-- "… from HandleCommand()"
#guard res (handle (onCommand base (.panic .unexpectedMessage)) now command init) =
  .error (.enriched "<name>" "AggregateMessageHandler" "HandleCommand" (commandA "A1"))

def picky : U := { base with aggApply := fun _ r _ w => (w, r, some .unexpectedMessage) }

-- "… from ApplyEvent() when called with new events"
#guard res (handle (onCommand picky (doing [.record (eventA "A1")] ())) now command init) =
  .error (.enriched "<name>" "AggregateRoot" "ApplyEvent" (eventA "A1"))

-- "… from ApplyEvent() when called with historical events"
#guard res (handle picky now command existing) =
  .error (.enriched "<name>" "AggregateRoot" "ApplyEvent" (eventA "A1"))

/-- `Reset()` (`controller.go` 154-157), as part of `engReset`. -/
def reset (s : S) : S := (engReset (mkApp [config] base) s).1

-- "removes all instances"
#guard (factsOf (reset existing) (handle base now command (reset existing)).1).all
  fun | .aggLoaded .. => false | _ => true

/-! ### `scope_test.go` -/

def base' : U := { base with aggRoute := fun _ _ w => (w, .ok "<instance>") }
def facts (s : S) (l : List (AggOp (List String))) : List Fact :=
  factsOf s (handle (onCommand base' (doing l ())) now command s).1
def panics (s : S) (l : List (AggOp (List String))) : HRes := res (handle (onCommand base' (doing l ())) now command s)

-- `Destroy()`, the instance does not exist: "does not record a fact"
#guard (facts init [.destroy]).all fun | .aggDestroyed .. => false | _ => true

-- `RecordEvent()`: "records facts about instance creation and the event"
#guard Fact.aggCreated config "<instance>" command ∈ facts init [.record (eventA "A1")]
#guard Fact.aggEvent config "<instance>" command (command.child 1 (eventA "A1") now (origin "<instance>"))
  ∈ facts init [.record (eventA "A1")]

def existing' : S :=
  resetIDs (handle (onCommand base' (doing [.record (eventA "A1")] ())) now
    (Env.root 2000 (commandA "A2") 5) init).1

-- `Destroy()`: "records a fact"
#guard Fact.aggDestroyed config "<instance>" command ∈ facts existing' [.destroy]

-- `RecordEvent()`: "records a fact"; "does not record a fact about instance creation"
#guard Fact.aggEvent config "<instance>" command (command.child 1 (eventA "A1") now (origin "<instance>"))
  ∈ facts existing' [.record (eventA "A1")]
#guard (facts existing' [.record (eventA "A1")]).all
  fun | .aggDestroyed .. => false | .aggCreated .. => false | _ => true
-- the root, as the next command finds it
#guard Call.aggHandle config "<instance>" ["A1", "A1"] (commandA "A1") ∈
  let s := (handle (onCommand base' (doing [.record (eventA "A1")] ())) now command existing').1
  callsOf s (handle base' now command s).1

-- "records facts about reverting destruction and the event if called after Destroy()"
#guard Fact.aggReverted config "<instance>" command ∈
  facts existing' [.destroy, .record (eventA "A1")]
#guard Fact.aggEvent config "<instance>" command (command.child 1 (eventA "A1") now (origin "<instance>"))
  ∈ facts existing' [.destroy, .record (eventA "A1")]

-- "panics if the event type is not configured to be produced"
#guard panics existing' [.record (msg (evt "TypeX") "X1")] =
  .error (.behavior "<name>" "AggregateMessageHandler" "HandleCommand" (commandA "A1")
    "recorded an event of type stubs.EventStub[TypeX], which is not produced by this handler")

-- "panics if the event is invalid"
#guard panics existing' [.record { eventA "" with invalid := some "<invalid>" }] =
  .error (.behavior "<name>" "AggregateMessageHandler" "HandleCommand" (commandA "A1")
    "recorded an invalid stubs.EventStub[TypeA] event: <invalid>")

-- `InstanceID()`
#guard Call.aggHandle config "<instance>" [] (commandA "A1") ∈
  callsOf init (handle base' now command init).1

-- `Log()`
#guard Fact.aggLog config "<instance>" command "<text>" ∈ facts init [.log "<text>"]

end Aggregate

/-! ## Integration -/

namespace Integration

def config : HConfig :=
  { name := "<name>", htype := .integration, consumes := [cmd "TypeA"], produces := [evt "TypeA"] }

def run (p : Prog Nat IntOp (Option Err)) : S × HRes :=
  intHandle (mkApp [config] { stubs with intHandle := fun _ _ => p }) config now command init
def origin : Origin := ⟨config, .integration, ""⟩
def facts (l : List IntOp) : List Fact := factsOf init (run (doing l none)).1

-- `Tick()`: no envelopes, no facts, no error
#guard (match ctlTick (mkApp [config] stubs) config now init with
  | (s, .ok ([], none)) => factsOf init s == [] | _ => false)

-- "forwards the message to the handler"
#guard callsOf init (run (.ret none)).1 = [.intHandle config (commandA "A1")]

-- "returns the recorded events"
#guard res (run (doing [.record (eventA "A1"), .record (eventA "A2")] none)) =
  .ok ([command.child 1 (eventA "A1") now origin, command.child 2 (eventA "A2") now origin], none)

-- "propagates handler errors"
#guard res (run (.ret (some "<error>"))) = .ok ([], some "<error>")

-- "provides more context to UnexpectedMessage panics from HandleCommand()"
#guard res (run (.panic .unexpectedMessage)) =
  .error (.enriched "<name>" "IntegrationMessageHandler" "HandleCommand" (commandA "A1"))

-- `RecordEvent()`
#guard Fact.intEvent config command (command.child 1 (eventA "A1") now origin) ∈
  facts [.record (eventA "A1")]
#guard res (run (doing [.record (msg (evt "TypeX") "X1")] none)) =
  .error (.behavior "<name>" "IntegrationMessageHandler" "HandleCommand" (commandA "A1")
    "recorded an event of type stubs.EventStub[TypeX], which is not produced by this handler")
#guard res (run (doing [.record { eventA "" with invalid := some "<invalid>" }] none)) =
  .error (.behavior "<name>" "IntegrationMessageHandler" "HandleCommand" (commandA "A1")
    "recorded an invalid stubs.EventStub[TypeA] event: <invalid>")

-- `Log()`
#guard Fact.intLog config command "<text>" ∈ facts [.log "<text>"]

end Integration

/-! ## Projection -/

namespace Projection

def config : HConfig :=
  { name := "<name>", htype := .projection, consumes := [evt "TypeA"], produces := [] }

def app (u : U) (compact : Bool) : App Nat (List String) :=
  { mkApp [config] u with compactDuringHandling := compact }
def handle (u : U) (compact : Bool := false) : S × HRes := prjHandle (app u compact) config now event init
def compacting (p : Prog Nat PrjOp (Option Err)) : U := { stubs with prjCompact := fun _ _ => p }
def handling (p : Prog Nat PrjOp (Except Err Bool)) : U := { stubs with prjHandle := fun _ _ _ _ _ _ => p }
def tickErr (x : S × Except PanicVal (Option Err)) : Option (Option Err) :=
  match x.2 with | .ok e => some e | .error _ => none

-- `Tick()`: "does not return any envelopes"
#guard res (ctlTick (app stubs false) config now init) = .ok ([], none)

def failing : U := compacting (.ret (some "<error>"))
/-- The time of the first tick: not within an hour of Go's zero time. -/
def start : Int := 1000 * compactInterval

-- "performs projection compaction"
#guard tickErr (prjTick (app failing false) config start init) = some (some "<error>")
#guard factsOf init (prjTick (app failing false) config start init).1 =
  [.prjCompactBegun config, .prjCompactCompleted config (some "<error>")]

/-- "does not compact again until CompactDuration has elapsed" -/
def first : S := (prjTick (app failing false) config start init).1
def second : S := (prjTick (app failing false) config (start + compactInterval - 1) first).1

#guard tickErr (prjTick (app failing false) config (start + compactInterval - 1) first) = some none
#guard tickErr (prjTick (app failing false) config (start + compactInterval) second) =
  some (some "<error>")

-- "forwards the message to the handler"; "passes the correct OCC values"
#guard Call.prjHandle config 1000 [] [1] (eventA "A1") ∈ callsOf init (handle stubs).1
#guard Call.prjVersion config 1000 ∈ callsOf init (handle stubs).1
#guard res (handle stubs) = .ok ([], none)

-- "propagates handler errors"
#guard res (handle (handling (.ret (.error "<error>")))) = .ok ([], some "<error>")

-- "propagates errors when loading the resource version"
#guard res (handle { stubs with prjVersion := fun _ _ w => (w, .ok (.error "<error>")) }) =
  .ok ([], some "<error>")

-- "does not handle events that have already been applied"
#guard callsOf init (handle { stubs with prjVersion := fun _ _ w => (w, .ok (.ok [1])) }).1 =
  [.prjVersion config 1000]

-- "closes the resource if the event is applied"
#guard Call.prjClose config 1000 ∈ callsOf init (handle stubs).1

-- "does not close the resource if the event is not applied"
#guard Call.prjClose config 1000 ∉ callsOf init (handle (handling (.ret (.ok false)))).1

-- "provides more context to UnexpectedMessage panics from HandleEvent()"
#guard res (handle (handling (.panic .unexpectedMessage))) =
  .error (.enriched "<name>" "ProjectionMessageHandler" "HandleEvent" (eventA "A1"))
#guard res (handle (handling (.panic .unexpectedMessage)) true) =
  .error (.enriched "<name>" "ProjectionMessageHandler" "HandleEvent" (eventA "A1"))

-- compact-during-handling is disabled: "does not perform compaction"
#guard res (handle failing) = .ok ([], none)
#guard factsOf init (handle failing).1 = []

-- compact-during-handling is enabled: "performs projection compaction"
#guard res (handle failing true) = .ok ([], some "<error>")
#guard factsOf init (handle failing true).1 =
  [.prjCompactBegun config, .prjCompactCompleted config (some "<error>")]

/-! ### `scope_test.go` -/

-- `RecordedAt()`
#guard res (handle { stubs with
  prjHandle := fun _ _ _ _ _ t => if t = event.createdAt then .ret (.ok true) else .panic (.user "wrong") }) =
  .ok ([], none)

-- `Log()`
#guard Fact.prjLog config (some event) "<text>" ∈
  factsOf init (handle (handling (doing [.log "<text>"] (.ok true)))).1

-- `Now()`
#guard tickErr (prjTick (app { stubs with
  prjCompact := fun _ t => if t = start then .ret none else .ret (some "wrong") } false) config start init) =
  some none

end Projection

end Verif.Conform.Ctl
