import Verif.Protocol

/-!
# Making actions, expectations and tests

The functions of the API that make actions (`/repo/action.dispatch.go` 15-48, `action.advancetime.go`
25-66, `action.call.go` 27-44), expectations (`expectation.message.go` 17-49,
`expectation.messagetype.go` 12-52, `expectation.messagematch.go` 28-116,
`expectation.composite.go` 10-100, `expectation.not.go` 10-15, `expectation.repeat.go` 18-40,
`expectation.satisfy.go` 21-37), options of tests (`testoption.go`, `compare.go` 30-34, `executor.go`
110-119) and tests (`test.go` 35-82).

A nil argument is `none` (a nil expectation is `Expectation.nil`).  Locations are left out.  How `fmt`
quotes strings and `time` writes times and durations are parameters (`Quote`).
-/

namespace Verif

variable {W R : Type}

/-- Texts made by libraries: `%#v` of a string, `time.Duration.String`, `time.Time.Format`
(`expectation.repeat.go` 24, `action.advancetime.go` 62, 116-119). -/
structure Quote where
  str : String → String
  duration : Int → String
  time : Time → String

/-- How a constructor panics: with a text, or by a nil pointer dereference
(`action.dispatch.go` 17, `expectation.not.go` 12). -/
inductive Rejection where
  | text (s : String)
  | nilDeref
  deriving DecidableEq, Repr

/-- `TimeAdjustment` (`action.advancetime.go` 37-50). -/
structure Adjustment (W : Type) where
  desc : String
  step : Time → W → W × Except PanicVal Time

/-- Calls of functions that make a `TimeAdjustment` (`action.advancetime.go` 54-66). -/
inductive AdjCall where
  | toTime (t : Time)
  | byDuration (d : Int)

/-- `ToTime` and `ByDuration` (`action.advancetime.go` 54-66), with the methods of their results
(113-138). -/
def AdjCall.make (q : Quote) : AdjCall → Except Rejection (Adjustment W)
  | .toTime t => .ok ⟨"to " ++ q.time t, fun _ w => (w, .ok t)⟩
  | .byDuration d =>
    if d < 0 then .error (.text ("ByDuration(" ++ q.duration d ++ "): duration must not be negative"))
    else .ok ⟨"by " ++ q.duration d, fun t w => (w, .ok (t + d))⟩

/-- Calls of functions that make an `Action` (`action.dispatch.go` 15, 33, `action.advancetime.go` 25,
`action.call.go` 27).  The options of `Call()` are what `InterceptCommandExecutor()` returned. -/
inductive ActionCall (W : Type) where
  | executeCommand (m : Option Message)
  | recordEvent (m : Option Message)
  | advanceTime (adj : Option (Adjustment W))
  | call (fn : Option (CProg W)) (options : List (Message → IProg W))

/-- `ExecuteCommand` (`action.dispatch.go` 15-30), `RecordEvent` (33-48), `AdvanceTime`
(`action.advancetime.go` 25-34), `Call` (`action.call.go` 27-44; the options in order,
`executor.go` 132-134). -/
def ActionCall.make : ActionCall W → Except Rejection (Action W)
  | .executeCommand none => .error (.text "ExecuteCommand(<nil>): message must not be nil")
  | .executeCommand (some m) =>
    match m.invalid with
    | some e => .error (.text ("ToRecordEvent(" ++ m.type.name ++ "): " ++ e))
    | none => .ok (.dispatch m)
  | .recordEvent none => .error (.text "RecordEvent(<nil>): message must not be nil")
  | .recordEvent (some m) =>
    match m.invalid with
    | some e => .error (.text ("RecordEvent(" ++ m.type.name ++ "): " ++ e))
    | none => .ok (.dispatch m)
  | .advanceTime none => .error (.text "AdvanceTime(<nil>): adjustment must not be nil")
  | .advanceTime (some a) => .ok (.advance a.desc a.step)
  | .call none _ => .error (.text "Call(<nil>): function must not be nil")
  | .call (some fn) os => .ok (.call fn (os.foldl (fun _ f => some f) none))

/-- Calls of functions that make an `Expectation` (`expectation.*.go`). -/
inductive ExpCall where
  | toExecuteCommand (m : Option Message)
  | toRecordEvent (m : Option Message)
  | toExecuteCommandType (t : MType)
  | toRecordEventType (t : MType)
  | toExecuteCommandOfType (m : Option Message)
  | toRecordEventOfType (m : Option Message)
  /-- the four functions `To[Only]ExecuteCommand[s]Matching`, `To[Only]RecordEvent[s]Matching` -/
  | matching (only event : Bool) (T : MatchType) (fn : Option (List Message → Message → MatchRes))
      (loc : String)
  | composite (k : CompKind) (children : List Expectation)
  | not (e : Expectation)
  | toRepeatedly (desc : String) (n : Int) (f : Option (Nat → Expectation))
  | toSatisfy (desc : String) (fn : Option (List Fact → SProg))

/-- The names in `expectation.messagematch.go` 28, 54, 79, 105. -/
def matchingName (only event : Bool) : String :=
  match only, event with
  | false, false => "ToExecuteCommandMatching"
  | true, false => "ToOnlyExecuteCommandsMatching"
  | false, true => "ToRecordEventMatching"
  | true, true => "ToOnlyRecordEventsMatching"

/-- The names in `expectation.composite.go` 10, 39, 68. -/
def CompKind.funcName : CompKind → String
  | .allOf => "AllOf"
  | .anyOf => "AnyOf"
  | .noneOf => "NoneOf"

/-- `ToExecuteCommand` (`expectation.message.go` 17-31), `ToRecordEvent` (35-49),
`ToExecuteCommandType` (`expectation.messagetype.go` 12-16), `ToRecordEventType` (34-38),
`ToExecuteCommandOfType` (22-30), `ToRecordEventOfType` (44-52), the functions of
`expectation.messagematch.go` 28-116, `AllOf`, `AnyOf`, `NoneOf` (`expectation.composite.go` 10-100),
`Not` (`expectation.not.go` 10-15), `ToRepeatedly` (`expectation.repeat.go` 18-40), `ToSatisfy`
(`expectation.satisfy.go` 21-37). -/
def ExpCall.make (q : Quote) : ExpCall → Except Rejection Expectation
  | .toExecuteCommand none => .error (.text "ToExecuteCommand(<nil>): message must not be nil")
  | .toExecuteCommand (some m) =>
    match m.invalid with
    | some e => .error (.text ("ToExecuteCommand(" ++ m.type.name ++ "): " ++ e))
    | none => .ok (.message m)
  | .toRecordEvent none => .error (.text "ToRecordEvent(<nil>): message must not be nil")
  | .toRecordEvent (some m) =>
    match m.invalid with
    | some e => .error (.text ("ToRecordEvent(" ++ m.type.name ++ "): " ++ e))
    | none => .ok (.message m)
  | .toExecuteCommandType t => .ok (.type t)
  | .toRecordEventType t => .ok (.type t)
  | .toExecuteCommandOfType none =>
    .error (.text "ToExecuteCommandOfType(<nil>): message must not be nil")
  | .toExecuteCommandOfType (some m) => .ok (.type m.type)
  | .toRecordEventOfType none => .error (.text "ToRecordEventOfType(<nil>): message must not be nil")
  | .toRecordEventOfType (some m) => .ok (.type m.type)
  | .matching only event _ none _ =>
    .error (.text (matchingName only event ++ "(<nil>): function must not be nil"))
  | .matching only _ T (some fn) loc => .ok (.matching T fn loc only)
  | .composite k [] =>
    .error (.text (k.funcName ++ "(): at least one child expectation must be provided"))
  | .composite k [e] =>
    -- the caption of `NoneOf` with one child is made of the child's
    if k = .noneOf then if e.isNil then .error .nilDeref else .ok (.composite k [e]) else .ok e
  | .composite k children => .ok (.composite k children)
  | .not e => if e.isNil then .error .nilDeref else .ok (.not e)
  | .toRepeatedly desc n none =>
    .error (.text ("ToRepeatedly(" ++ q.str desc ++ ", " ++ toString n ++ ", <nil>): function must not be nil"))
  | .toRepeatedly desc n (some f) =>
    if n < 1 then
      .error (.text ("ToRepeatedly(" ++ q.str desc ++ ", " ++ toString n ++
        ", <func>): n must be 1 or greater"))
    else if desc = "" then
      .error (.text ("ToRepeatedly(" ++ q.str desc ++ ", " ++ toString n ++
        ", <func>): description must not be empty"))
    else .ok (.repeatedly desc n.toNat f)
  | .toSatisfy desc none =>
    .error (.text ("ToSatisfy(" ++ q.str desc ++ ", <nil>): function must not be nil"))
  | .toSatisfy desc (some fn) =>
    if desc = "" then
      .error (.text ("ToSatisfy(" ++ q.str desc ++ ", <func>): description must not be empty"))
    else .ok (.satisfy desc fn)

/-- `InterceptCommandExecutor` (`executor.go` 110-119). -/
def interceptCommandExecutor (fn : Option (Message → IProg W)) :
    Except Rejection (Message → IProg W) :=
  match fn with
  | none => .error (.text "InterceptCommandExecutor(<nil>): function must not be nil")
  | some f => .ok f

/-- `TestOption` (`testoption.go` 10-42, `compare.go` 30-34, `executor.go` 128-130). -/
inductive TestOption (W : Type) where
  | startTimeAt (t : Time)
  | withUnsafeOperationOptions (os : List OpOption)
  | withMessageComparator (c : Option (Message → Message → Bool))
  | interceptCommandExecutor (fn : Message → IProg W)

/-- `applyTestOption` (`testoption.go` 24-42, `compare.go` 30-34, `executor.go` 128-130). -/
def TestOption.apply : TestOption W → TSt W R × PredOpts → TSt W R × PredOpts
  | .startTimeAt c, (t, po) => ({ t with clock := c }, po)
  | .withUnsafeOperationOptions os, (t, po) => ({ t with opts := t.opts ++ os }, po)
  | .withMessageComparator c, (t, po) => (t, { po with comparator := c })
  | .interceptCommandExecutor f, (t, po) => ({ t with icept := some f }, po)

/-- `BeginContext` (`test.go` 49-82); `now` is the system's time.  Observer 0 is the logger. -/
def beginTest (w : W) (now : Time) (options : List (TestOption W)) : TSt W R × PredOpts :=
  options.foldl (fun x o => o.apply x)
    ({ sys := Sys.init w, clock := now,
       opts := [.enableType .projection false, .enableType .integration false, .observer 0] },
     ⟨none, false⟩)

end Verif
