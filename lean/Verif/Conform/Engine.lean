import Verif.Conform.Controllers

/-!
# Transcribed tests: the engine and the test runner

`/repo/engine/engine_test.go`, `/repo/engine/executor_test.go`, `/repo/executor_test.go`,
`/repo/test_test.go` (except for what is about texts with the name of the application, and about
annotations), `/repo/testoption_test.go`.  In these tests the world says whether the context has
been cancelled.
-/

namespace Verif.Conform.Eng

open Verif Verif.Conform Verif.Conform.Ctl

/-! ## `engine_test.go` -/

def aggregate : HConfig :=
  { name := "<aggregate>", htype := .aggregate, consumes := [cmd "TypeA"], produces := [evt "TypeA"] }
def process : HConfig :=
  { name := "<process>", htype := .process, consumes := [evt "TypeC", evt "TypeA"],
    produces := [cmd "TypeB"] }
def integration : HConfig :=
  { name := "<integration>", htype := .integration, consumes := [cmd "TypeB"],
    produces := [evt "TypeB"] }
def projection : HConfig :=
  { name := "<projection>", htype := .projection, consumes := [evt "TypeD", evt "TypeA"],
    produces := [] }
def disabled : HConfig :=
  { name := "<disabled-projection>", htype := .projection, disabled := true, consumes := [evt "TypeD"],
    produces := [] }

def cfgs := [aggregate, process, integration, projection, disabled]

/-- The context has been cancelled once the world is not 0. -/
def base : U := { stubs with ctxErr := fun w => if w = 0 then none else some "context canceled" }

def dispatch (u : U) (m : Message) (os : List OpOption := []) : S × Outcome (List EngErr) :=
  engDispatch (mkApp cfgs u) 50 m os init
def tick (u : U) (os : List OpOption := []) : S × Outcome (List EngErr) :=
  engTick (mkApp cfgs u) 50 cfgs (.currentTime Projection.start :: os) init

def factsSince (s s' : S) : List Fact := Ctl.factsOf s s'

def aggregateCommand := msg (cmd "TypeA")
def integrationCommand := msg (cmd "TypeB")

-- "allows dispatching commands"
#guard (dispatch base aggregateCommand).2 = .done []
#guard Call.aggHandle aggregate "<instance>" [] aggregateCommand ∈
  callsOf init (dispatch base aggregateCommand).1

-- "allows dispatching events"
#guard (dispatch base (msg (evt "TypeD"))).2 = .done []
#guard Call.prjHandle projection 1 [] [1] (msg (evt "TypeD")) ∈ callsOf init (dispatch base (msg (evt "TypeD"))).1

def unexpected : U := { base with aggHandle := fun _ _ _ _ => .panic (.user "unexpected call") }

-- "skips handlers that are disabled by type"
#guard (dispatch unexpected aggregateCommand [.currentTime now, .enableType .aggregate false]).2 = .done []
#guard Fact.handlingSkipped aggregate (Env.root 1 aggregateCommand now) .typeDisabled ∈
  factsSince init (dispatch unexpected aggregateCommand
    [.currentTime now, .enableType .aggregate false]).1

-- "skips handlers that are disabled by name"
#guard (dispatch unexpected aggregateCommand [.currentTime now, .enableHandler "<aggregate>" false]).2 =
  .done []
#guard Fact.handlingSkipped aggregate (Env.root 1 aggregateCommand now) .individuallyDisabled ∈
  factsSince init (dispatch unexpected aggregateCommand
    [.currentTime now, .enableHandler "<aggregate>" false]).1

-- "does not skip handlers that are enabled by name"
#guard Call.aggHandle aggregate "<instance>" [] aggregateCommand ∈
  callsOf init (dispatch base aggregateCommand
    [.enableHandler "<aggregate>" false, .enableHandler "<aggregate>" true]).1

-- "always returns context errors even if other errors occur"
#guard (dispatch { base with intHandle := fun _ _ => .set 1 (.ret (some "<error>")) }
  integrationCommand).2 = .done [.ctx "context canceled"]

-- "adds handler details to controller errors"
#guard (dispatch { base with intHandle := fun _ _ => .ret (some "<error>") } integrationCommand).2 =
  .done [.handler "<integration>" .integration "<error>"]

-- "panics if the message is invalid"
#guard (dispatch base { aggregateCommand with invalid := some "<invalid>" }).2 =
  .panicked (.misuse "cannot dispatch invalid stubs.CommandStub[TypeA] message: <invalid>")

-- "panics if the message type is unrecognized" (also `engine/executor_test.go`)
#guard (dispatch base (msg (cmd "TypeX") "X1")).2 =
  .panicked (.misuse "the stubs.CommandStub[TypeX] message type is not consumed by any handlers")

-- `Tick()`: "skips handlers that are disabled by type"
#guard Fact.tickSkipped aggregate .typeDisabled ∈
  factsSince init (tick base [.enableType .aggregate false]).1
#guard (tick base [.enableType .aggregate false]).2 = .done []

-- "skips handlers that are disabled by name"
#guard Fact.tickSkipped aggregate .individuallyDisabled ∈
  factsSince init (tick base [.enableHandler "<aggregate>" false]).1

-- "does not skip handlers that are enabled by name"
#guard Fact.tickBegun aggregate ∈
  factsSince init (tick base [.enableHandler "<aggregate>" false, .enableHandler "<aggregate>" true]).1

-- "skips handlers that are disabled by their configuration"
#guard Fact.tickSkipped disabled .disabledByConfiguration ∈ factsSince init (tick base).1

-- "… even if they are explicitly enabled by type"
#guard Fact.tickSkipped disabled .disabledByConfiguration ∈
  factsSince init (tick base [.enableType .projection true]).1

-- "does not skip handlers that are enabled by name, even if they are disabled by their configuration"
#guard Fact.tickBegun disabled ∈
  factsSince init (tick base [.enableHandler "<disabled-projection>" true]).1

-- "always returns context errors even if other errors occur"
#guard (tick { base with prjCompact := fun _ _ => .set 1 (.ret (some "<error>")) }).2 =
  .done [.ctx "context canceled"]

-- "adds handler details to controller errors" (only `<projection>` has a `CompactFunc`)
#guard (tick { base with
    prjCompact := fun h _ => .ret (if h.name = "<projection>" then some "<error>" else none) }).2 =
  .done [.handler "<projection>" .projection "<error>"]

/-! ## `executor_test.go` -/

def handler : HConfig :=
  { name := "<handler-name>", htype := .integration, consumes := [cmd "TypeA"],
    produces := [evt "TypeA"] }

def app : App Nat (List String) :=
  mkApp [handler] { stubs with intHandle := fun _ _ => doing [.record (eventA "A1")] none }

/-- `executeCommandAndReturnError`: the test fails if the command fails. -/
def executeCommandAndReturnError (m : Message) : IProg Nat :=
  if m = commandA "A1" then .next m fun
    | .ok none => .ret (some (.user "<error>"))
    | _ => .panic (.user "test failed")
  else .panic (.user "test failed")

def doNothing (_ : Message) : IProg Nat := .ret none

/-- A function that executes `CommandA1` and expects the error. -/
def executes (e : Option TErr) : CProg Nat :=
  .exec (commandA "A1") fun
    | .ok e' => if e = e' then .ret else .panic (.user "test failed")
    | .error v => .panic v

def enabled (t : TSt Nat (List String)) : TSt Nat (List String) := (t.enable app true ["<handler-name>"]).1

/-- `Expect(a, ToRecordEvent(EventA1))`. -/
def expectA1 (t : TSt Nat (List String)) (a : Action Nat) : Bool :=
  match a.run app (tenv app) [.observer 1] t with
  | (t, .done none) =>
    (judge (a.scope (scope app)) (.message (eventA "A1")) "" (toldIn 1 t.did)).any (·.passed)
  | _ => false

/-- Actions of `Prepare()`, none of which fails. -/
def prepares : List (Action Nat) → TSt Nat (List String) → Bool
  | [], _ => true
  | a :: as, t =>
    match t.prepare app (tenv app) a with
    | (t, .done none) => prepares as t
    | _ => false

-- "used as a TestOption": "intercepts calls to ExecuteCommand()"
#guard expectA1 (enabled (.begin 0 0 [] (some executeCommandAndReturnError)))
  (.call (executes (some (.user "<error>"))) none)

-- "used as a CallOption": "intercepts calls to ExecuteCommand()"
#guard expectA1 (enabled (.begin 0 0 [] none))
  (.call (executes (some (.user "<error>"))) (some executeCommandAndReturnError))

-- "uninstalls the interceptor upon completion of the Call() action"
#guard prepares [.call (executes (some (.user "<error>"))) (some executeCommandAndReturnError),
  .call (executes none) none] (.begin 0 0 [] none)

-- "re-installs the test-level interceptor upon completion of the Call() action"
#guard prepares [.call (executes none) (some doNothing),
  .call (executes (some (.user "<error>"))) none] (.begin 0 0 [] (some executeCommandAndReturnError))

/-! ## `test_test.go` -/

def proj (dis : Bool) : HConfig :=
  { name := "<projection>", htype := .projection, disabled := dis, consumes := [evt "TypeA"],
    produces := [] }

def projApp (dis : Bool) : App Nat (List String) := mkApp [proj dis] stubs

def callsAfter (A : App Nat (List String)) (t : TSt Nat (List String)) (a : Action Nat) :
    List (Call (List String)) :=
  callsOf t.sys (t.prepare A (tenv A) a).1.sys

def begun : TSt Nat (List String) := .begin 0 0 [] none
def like (p : String) (n : String) : Bool := p.toList.isPrefixOf n.toList

-- `EnableHandlers()`: "enables the handler" (which is not enabled to begin with)
#guard Call.prjHandle (proj false) 1 [] [1] (eventA "A1") ∈
  callsAfter (projApp false) (begun.enable (projApp false) true ["<projection>"]).1 (.dispatch (eventA "A1"))
#guard callsAfter (projApp false) begun (.dispatch (eventA "A1")) = []

-- "panics if the handler is not recognized"
#guard (begun.enable emptyApp true ["<projection>"]).2.isSome

-- "panics if the handler is disabled by its own configuration"
#guard (begun.enable (projApp true) true ["<projection>"]).2.isSome

-- `EnableHandlersLike()`: "enables handlers with matching names"
#guard Call.prjHandle (proj false) 1 [] [1] (eventA "A1") ∈
  callsAfter (projApp false)
    (begun.enableLike (projApp false) true [like "<proj"] (selected (projApp false) [like "<proj"])).1
    (.dispatch (eventA "A1"))

-- "panics if there are no matching handlers"
#guard (begun.enableLike emptyApp true [like "<proj"] (selected emptyApp [like "<proj"])).2.isSome

-- "does not enable handlers that are disabled by their own configuration"
#guard (begun.enableLike (projApp true) true [like "<proj"]
  (selected (projApp true) [like "<proj"])).2.isSome

def aggApp : App Nat (List String) := mkApp [aggregate] unexpected

-- `DisableHandlers()`: "disables the handler"
#guard callsAfter aggApp (begun.enable aggApp false ["<aggregate>"]).1 (.dispatch (commandA "A1")) = []
#guard (match (begun.enable aggApp false ["<aggregate>"]).1.prepare aggApp (tenv aggApp)
    (.dispatch (commandA "A1")) with | (_, .done none) => true | _ => false)

-- "panics if the handler is not recognized"
#guard (begun.enable emptyApp false ["<projection>"]).2.isSome

-- `DisableHandlersLike()`: "disables the handlers with matching names"
#guard callsAfter aggApp
  (begun.enableLike aggApp false [like "<agg"] (selected aggApp [like "<agg"])).1
  (.dispatch (commandA "A1")) = []

-- "panics if there are no matching handlers"
#guard (begun.enableLike emptyApp false [like "<proj"] (selected emptyApp [like "<proj"])).2.isSome

/-! ## `testoption_test.go` -/

-- `StartTimeAt()`: "sets the engine time as seen during a Prepare() call"
#guard (match
    ((TSt.begin 0 now [] none : TSt Nat (List String)).enable (projApp false) true ["<projection>"]).1.prepare
      (mkApp [proj false] { stubs with
        prjHandle := fun _ _ _ _ _ t => if t = now then .set 7 (.ret (.ok true)) else .ret (.ok true) })
      (tenv (projApp false)) (.dispatch (eventA "A1")) with
  | (t, .done none) => t.sys.w == 7 | _ => false)

-- `WithMessageComparator()`: "configures how messages are compared"
#guard (match (Action.dispatch (commandA "A1")).run app (tenv app) [.observer 1]
    (enabled (.begin 0 0 [] none)) with
  | (t, .done none) =>
    (judge ((Action.dispatch (commandA "A1") : Action Nat).scope
        { scope app with goEq := ⟨fun _ => none, fun _ _ => true, fun _ _ => true⟩ })
      (.message (eventA "A2")) "" (toldIn 1 t.did)).any (·.passed)
  | _ => false)
-- "this would fail without our custom comparator"
#guard (match (Action.dispatch (commandA "A1")).run app (tenv app) [.observer 1]
    (enabled (.begin 0 0 [] none)) with
  | (t, .done none) =>
    (judge ((Action.dispatch (commandA "A1") : Action Nat).scope (scope app)) (.message (eventA "A2")) ""
      (toldIn 1 t.did)).any (! ·.passed)
  | _ => false)

end Verif.Conform.Eng
