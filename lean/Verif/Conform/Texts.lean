import Verif.Build
import Verif.Where
import Verif.Conform.Messages

/-!
# Transcribed tests of the texts of locations and panics

From `/repo/location/location_test.go` 93-106, `/repo/engine/internal/panicx/*_test.go`, and the tests of
`/repo/action.*_test.go`, `/repo/expectation.*_test.go` and `/repo/executor_test.go` for panics.
-/

namespace Verif.Conform

open Verif

/-! ## `location_test.go` 93-106 -/

#guard Location.text ⟨"", "", 0⟩ = "<unknown>"
#guard Location.text ⟨"<function>", "", 0⟩ = "<function>(...)"
#guard Location.text ⟨"<function glob..>", "", 0⟩ = "<function glob..>(...)"
#guard Location.text ⟨"", "<file>", 123⟩ = "<file>:123"
#guard Location.text ⟨"<function>", "<file>", 123⟩ = "<file>:123 [<function>(...)]"
#guard Location.text ⟨"<function glob..>", "<file>", 123⟩ = "<file>:123"

/-! ## `panicx` -/

/-- The handler of `unexpectedbehavior_test.go` 13-22 and `unexpectedmessage_test.go` 14-23. -/
def textsHandler : HConfig :=
  { name := "<name>", htype := .projection, consumes := [evt "TypeA"], produces := [] }

-- `unexpectedbehavior_test.go` 25-37
#guard behaviorText textsHandler "*stubs.ProjectionMessageHandlerStub" "<method>" "<description>" =
  "the '<name>' projection message handler behaved unexpectedly in *stubs.ProjectionMessageHandlerStub.<method>(): <description>"

-- `unexpectedmessage_test.go` 26-48
#guard unexpectedText textsHandler "*stubs.ProjectionMessageHandlerStub" "<method>"
    ⟨evt "TypeX", "X1", none⟩ =
  "the '<name>' projection message handler did not expect *stubs.ProjectionMessageHandlerStub.<method>() to be called with a message of type stubs.EventStub[TypeX]"

/-! ## Functions that make actions and expectations -/

/-- `%#v` of the strings in these tests, and of the only duration. -/
def textsQuote : Quote := ⟨fun s => "\"" ++ s ++ "\"", fun _ => "-1s", fun _ => ""⟩

/-- What a call panics with. -/
def panicOf {α : Type} : Except Rejection α → Option Rejection
  | .error r => some r
  | .ok _ => none

def actionPanic (c : ActionCall Nat) : Option Rejection := panicOf c.make
def expPanic (c : ExpCall) : Option Rejection := panicOf (c.make textsQuote)

-- `action.advancetime_test.go` 89-93, 169-173
#guard actionPanic (.advanceTime none) = some (.text "AdvanceTime(<nil>): adjustment must not be nil")
#guard panicOf ((AdjCall.byDuration (-1000000000)).make (W := Nat) textsQuote) =
  some (.text "ByDuration(-1s): duration must not be negative")
-- `action.call_test.go` 115-119
#guard actionPanic (.call none []) = some (.text "Call(<nil>): function must not be nil")
-- `action.dispatch.command_test.go` 118-122
#guard actionPanic (.executeCommand none) = some (.text "ExecuteCommand(<nil>): message must not be nil")
-- `action.dispatch.event_test.go` 125-129
#guard actionPanic (.recordEvent none) = some (.text "RecordEvent(<nil>): message must not be nil")
-- `executor_test.go` 72-76
#guard panicOf (interceptCommandExecutor (W := Nat) none) =
  some (.text "InterceptCommandExecutor(<nil>): function must not be nil")
-- `expectation.composite_test.go` 109-113, 181-185, 265-269
#guard expPanic (.composite .allOf []) = some (.text "AllOf(): at least one child expectation must be provided")
#guard expPanic (.composite .anyOf []) = some (.text "AnyOf(): at least one child expectation must be provided")
#guard expPanic (.composite .noneOf []) = some (.text "NoneOf(): at least one child expectation must be provided")
-- `expectation.message.command_test.go` 251-263
#guard expPanic (.toExecuteCommand none) = some (.text "ToExecuteCommand(<nil>): message must not be nil")
#guard expPanic (.toExecuteCommand (some ⟨cmd "TypeA", "A1", some "<invalid>"⟩)) =
  some (.text "ToExecuteCommand(stubs.CommandStub[TypeA]): <invalid>")
-- `expectation.message.event_test.go` 274-278
#guard expPanic (.toRecordEvent none) = some (.text "ToRecordEvent(<nil>): message must not be nil")
-- `expectation.messagematch.*_test.go`
#guard expPanic (.matching false false ⟨cmd "TypeA", none⟩ none "") =
  some (.text "ToExecuteCommandMatching(<nil>): function must not be nil")
#guard expPanic (.matching true false ⟨cmd "TypeA", none⟩ none "") =
  some (.text "ToOnlyExecuteCommandsMatching(<nil>): function must not be nil")
#guard expPanic (.matching false true ⟨evt "TypeA", none⟩ none "") =
  some (.text "ToRecordEventMatching(<nil>): function must not be nil")
#guard expPanic (.matching true true ⟨evt "TypeA", none⟩ none "") =
  some (.text "ToOnlyRecordEventsMatching(<nil>): function must not be nil")
-- `expectation.repeat_test.go` 129-151
#guard expPanic (.toRepeatedly "" 1 (some fun _ => .nil)) =
  some (.text "ToRepeatedly(\"\", 1, <func>): description must not be empty")
#guard expPanic (.toRepeatedly "<description>" 0 (some fun _ => .nil)) =
  some (.text "ToRepeatedly(\"<description>\", 0, <func>): n must be 1 or greater")
#guard expPanic (.toRepeatedly "<description>" (-1) (some fun _ => .nil)) =
  some (.text "ToRepeatedly(\"<description>\", -1, <func>): n must be 1 or greater")
#guard expPanic (.toRepeatedly "<description>" 1 none) =
  some (.text "ToRepeatedly(\"<description>\", 1, <nil>): function must not be nil")
-- `expectation.satisfy_test.go` 260-270
#guard expPanic (.toSatisfy "" (some fun _ => .ret)) =
  some (.text "ToSatisfy(\"\", <func>): description must not be empty")
#guard expPanic (.toSatisfy "<description>" none) =
  some (.text "ToSatisfy(\"<description>\", <nil>): function must not be nil")

end Verif.Conform
