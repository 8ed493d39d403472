import Verif.TestLog
import Verif.Conform.Messages

/-!
# Transcribed tests of captions and errors in the log of a test

From `/repo/action.*_test.go` and `/repo/expectation.*_test.go`.
-/

namespace Verif.Conform

open Verif

/-- The lines with which a test calls `Log()` and `Fatal()`, but for the lines of facts. -/
def linesOf (t : TSt Nat (List String)) : List String :=
  t.did.filterMap fun
    | .log s => some s
    | .fatal e => some (e.text fun _ => "")
    | _ => none

/-- `Begin(t, app).Prepare(a)`. -/
def prepareLog (A : App Nat (List String)) (a : Action Nat) : List String :=
  linesOf ((TSt.begin 0 0 [] none : TSt Nat (List String)).prepare A (tenv A) a).1

/-- The line of the caption and the error of `Begin(t, app).Expect(noop, e)`
(`action_test.go` 10-22). -/
def noopLog (A : App Nat (List String)) (e : Expectation) : List String :=
  ("--- expect [no-op] " ++ e.caption ++ " ---") ::
    match (e.build (scope A)).2 with
    | .error x => [x.text]
    | .ok _ => []

/-- `func(T) error { return nil }`. -/
def accept (t : MType) : Bool → Expectation := .matching ⟨t, none⟩ (fun _ _ => .nil) "file.go:1"

/-! ## Actions -/

-- `action.dispatch.command_test.go` 26-51: an integration that handles `TypeA`
def dispatchApp : App Nat (List String) :=
  mkApp [{ name := "<integration>", htype := .integration, consumes := [cmd "TypeA"], produces := [] },
    { name := "<process>", htype := .process, consumes := [evt "TypeA"], produces := [cmd "TypeA"] }] stubs

-- `action.dispatch.command_test.go` 108-116
#guard prepareLog dispatchApp (.dispatch (msg (cmd "TypeA"))) =
  ["--- executing stubs.CommandStub[TypeA] command ---"]

-- `action.dispatch.command_test.go` 84-95
#guard (prepareLog dispatchApp (.dispatch (msg (cmd "TypeX")))).getLast? =
  some "cannot execute command, stubs.CommandStub[TypeX] is a not a recognized message type"

-- `action.dispatch.event_test.go` 115-123
#guard prepareLog dispatchApp (.dispatch (msg (evt "TypeA"))) =
  ["--- recording stubs.EventStub[TypeA] event ---"]

-- `action.dispatch.event_test.go` 91-102
#guard (prepareLog dispatchApp (.dispatch (msg (evt "TypeX")))).getLast? =
  some "cannot record event, stubs.EventStub[TypeX] is a not a recognized message type"

-- `action.advancetime_test.go` 128-136
#guard prepareLog dispatchApp (.advance "to 2100-01-02T03:04:05Z" fun _ w => (w, .ok 1000)) =
  ["--- advancing time to 2100-01-02T03:04:05Z ---"]

-- `action.advancetime_test.go` 159-167
#guard prepareLog dispatchApp (.advance "by 3s" fun t w => (w, .ok (t + 3000000000))) =
  ["--- advancing time by 3s ---"]

-- `action.advancetime_test.go` 69-87
#guard (prepareLog dispatchApp (.advance "to <then>" fun t w => (w, .ok (t - 1)))).getLast? =
  some "adjusting the clock to <then> would reverse time"

-- `action.call_test.go` 105-113
#guard prepareLog dispatchApp (.call .ret none) = ["--- calling user-defined function ---"]

/-! ## Expectations -/

-- `expectation.composite_test.go` 88-97
#guard noopLog emptyApp (allOf [pass, fail]) = ["--- expect [no-op] to meet 2 expectations ---"]

-- `expectation.composite_test.go` 99-107
#guard (noopLog emptyApp (allOf [pass, failBeforeAction])).getLast? = some "<always fail before action>"

-- `expectation.composite_test.go` 160-169
#guard noopLog emptyApp (anyOf [pass, fail]) =
  ["--- expect [no-op] to meet at least one of 2 expectations ---"]

-- `expectation.composite_test.go` 171-179
#guard (noopLog emptyApp (anyOf [pass, failBeforeAction])).getLast? = some "<always fail before action>"

-- `expectation.composite_test.go` 233-242
#guard noopLog emptyApp (noneOf [pass, fail]) =
  ["--- expect [no-op] not to meet any of 2 expectations ---"]

-- `expectation.composite_test.go` 244-253
#guard noopLog emptyApp (noneOf [pass]) = ["--- expect [no-op] not to [always pass] ---"]

-- `expectation.composite_test.go` 255-263
#guard (noopLog emptyApp (noneOf [pass, failBeforeAction])).getLast? = some "<always fail before action>"

-- `expectation.not_test.go` 85-94
#guard (noopLog eventApp (.not (.message (msg (evt "TypeA") "A2")))).head? =
  some "--- expect [no-op] not to record a specific 'stubs.EventStub[TypeA]' event ---"

-- `expectation.not_test.go` 96-104
#guard (noopLog emptyApp (.not failBeforeAction)).getLast? = some "<always fail before action>"

-- `expectation.repeat_test.go` 112-127
#guard noopLog emptyApp (.repeatedly "<description>" 1 fun _ => pass) =
  ["--- expect [no-op] to <description> ---"]

-- `expectation.satisfy_test.go` 246-258
#guard noopLog emptyApp (.satisfy "<description>" fun _ => .ret) =
  ["--- expect [no-op] to <description> ---"]

-- `expectation.message.command_test.go` 225-236, `expectation.messagetype.command_test.go` 210-221,
-- `expectation.messagematch.command_test.go` 333-348
#guard [Expectation.message (msg (cmd "TypeU")), .type (cmd "TypeU"), accept (cmd "TypeU") false].all
  fun e => (noopLog commandApp e).getLast? = some
    "a command of type stubs.CommandStub[TypeU] can never be executed, the application does not use this message type"

-- `expectation.message.command_test.go` 238-249, `expectation.messagetype.command_test.go` 223-234,
-- `expectation.messagematch.command_test.go` 350-365
#guard [Expectation.message (msg (cmd "TypeO")), .type (cmd "TypeO"), accept (cmd "TypeO") false].all
  fun e => (noopLog commandApp e).getLast? = some
    "no handlers execute commands of type stubs.CommandStub[TypeO], it is only ever consumed"

-- `expectation.messagematch.commandonly_test.go` 209-224, 226-241
#guard (noopLog commandOnlyApp (accept (cmd "TypeU") true)).getLast? = some
    "a command of type stubs.CommandStub[TypeU] can never be executed, the application does not use this message type"
#guard (noopLog commandOnlyApp (accept (cmd "TypeO") true)).getLast? = some
    "no handlers execute commands of type stubs.CommandStub[TypeO], it is only ever consumed"

-- `expectation.message.event_test.go` 248-259, `expectation.messagetype.event_test.go` 227-238,
-- `expectation.messagematch.event_test.go` 337-352
#guard [Expectation.message (msg (evt "TypeU")), .type (evt "TypeU"), accept (evt "TypeU") false].all
  fun e => (noopLog eventApp e).getLast? = some
    "an event of type stubs.EventStub[TypeU] can never be recorded, the application does not use this message type"

-- `expectation.message.event_test.go` 261-272, `expectation.messagetype.event_test.go` 240-251
#guard [Expectation.message (msg (evt "TypeO")), .type (evt "TypeO")].all
  fun e => (noopLog eventApp e).getLast? = some
    "no handlers record events of type stubs.EventStub[TypeO], it is only ever consumed"

-- `expectation.messagematch.event_test.go` 354-369
#guard (noopLog eventApp (accept (evt "TypeC") false)).getLast? = some
    "no handlers record events of type stubs.EventStub[TypeC], it is only ever consumed"

-- `expectation.messagematch.eventonly_test.go` 206-221, 223-238
#guard (noopLog eventOnlyApp (accept (evt "TypeU") true)).getLast? = some
    "an event of type stubs.EventStub[TypeU] can never be recorded, the application does not use this message type"
#guard (noopLog eventOnlyApp (accept (evt "TypeO") true)).getLast? = some
    "no handlers record events of type stubs.EventStub[TypeO], it is only ever consumed"

end Verif.Conform
