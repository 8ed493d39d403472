import Verif.Conform.Harness

/-!
# Transcribed tests of expectations about messages

The entries of the tables in `/repo/expectation.message*_test.go`: application, action,
expectation, verdict and the whole text of the report.  The text of a diff, which a
library makes, is taken from the test.  The place of a function is where the Go runtime says it
begins (its first line, or the line of its first statement if that is all there is to it).
-/

namespace Verif.Conform

open Verif

/-! ## The applications -/

/-- `expectation.message.command_test.go` 38-101, `expectation.messagetype.command_test.go` 39-107,
`expectation.messagematch.command_test.go` 40-110. -/
def commandApp : App Nat (List String) :=
  mkApp
    [{ name := "<process>", htype := .process,
       consumes := [evt "TypeX", evt "TypeC", evt "TypeT"],
       produces := [cmd "TypeC", cmd "TypeX", tmo "TypeT"] },
     { name := "<integration>", htype := .integration, consumes := [cmd "TypeO"], produces := [] }]
    { stubs with
      procHandle := fun _ _ _ m _ =>
        if m.type = evt "TypeC" then
          if m.body = "<multiple>" then
            Demo.ops none [.execute (msg (cmd "TypeC") m.body), .execute (msg (cmd "TypeC") m.body)]
          else Demo.ops none [.execute (msg (cmd "TypeC") m.body)]
        else if m.type = evt "TypeT" then
          Demo.ops none [.schedule (msg (tmo "TypeT") m.body) 3600000000000]
        else .ret none }

/-- `expectation.messagematch.commandonly_test.go` 34-76. -/
def commandOnlyApp : App Nat (List String) :=
  mkApp
    [{ name := "<process>", htype := .process, consumes := [evt "TypeC"],
       produces := [cmd "TypeC", cmd "TypeX"] },
     { name := "<integration>", htype := .integration, consumes := [cmd "TypeO"], produces := [] }]
    { stubs with
      procHandle := fun _ _ _ _ _ => Demo.ops none
        [.execute (msg (cmd "TypeC") "C1"), .execute (msg (cmd "TypeC") "C2"),
         .execute (msg (cmd "TypeC") "C3")] }

/-- `expectation.message.commandcall_test.go` 34-92, `expectation.messagetype.commandcall_test.go`
34-92. -/
def commandCallApp : App Nat (List String) :=
  mkApp
    [{ name := "<integration>", htype := .integration, consumes := [cmd "TypeX", cmd "dogma.Event"],
       produces := [] },
     { name := "<process>", htype := .process, consumes := [evt "TypeP"],
       produces := [cmd "TypeP"] }]
    { stubs with
      procHandle := fun _ _ _ m _ => Demo.ops none [.execute (msg (cmd "TypeP") m.body)] }

/-- `expectation.message.event_test.go` 35-98, `expectation.messagetype.event_test.go` 35-98,
`expectation.messagematch.event_test.go` 36-106 (where the process does not handle `TypeO`). -/
def eventApp : App Nat (List String) :=
  mkApp
    [{ name := "<aggregate>", htype := .aggregate, consumes := [cmd "TypeX", cmd "TypeE"],
       produces := [evt "TypeE", evt "TypeX"] },
     { name := "<process>", htype := .process, consumes := [evt "TypeC", evt "TypeO"],
       produces := [cmd "TypeX"] }]
    { stubs with
      aggHandle := fun _ _ _ m =>
        if m.type = cmd "TypeE" then
          if m.body = "<multiple>" then
            Demo.ops () [.record (msg (evt "TypeE") m.body), .record (msg (evt "TypeE") m.body)]
          else Demo.ops () [.record (msg (evt "TypeE") m.body)]
        else .ret ()
      procHandle := fun _ _ _ m _ =>
        if m.type = evt "TypeC" then Demo.ops none [.execute (msg (cmd "TypeX"))] else .ret none }

/-- `expectation.messagematch.eventonly_test.go` 34-70. -/
def eventOnlyApp : App Nat (List String) :=
  mkApp
    [{ name := "<aggregate>", htype := .aggregate, consumes := [cmd "TypeE"],
       produces := [evt "TypeE", evt "TypeX"] },
     { name := "<projection>", htype := .projection, consumes := [evt "TypeO"], produces := [] }]
    { stubs with
      aggHandle := fun _ _ _ _ => Demo.ops ()
        [.record (msg (evt "TypeE") "E1"), .record (msg (evt "TypeE") "E2"),
         .record (msg (evt "TypeE") "E3")] }

/-- `expectation.message.eventcall_test.go` 33-70, `expectation.messagetype.eventcall_test.go`
33-70. -/
def eventCallApp : App Nat (List String) :=
  mkApp
    [{ name := "<aggregate>", htype := .aggregate, consumes := [cmd "TypeX", cmd "TypeE"],
       produces := [evt "TypeE", evt "TypeX"] }]
    { stubs with
      aggHandle := fun _ _ _ m =>
        if m.type = cmd "TypeE" then Demo.ops () [.record (msg (evt "TypeE") m.body)]
        else .ret () }

/-! ## `expectation.message.command_test.go` -/

-- command executed as expected (116-124)
#guard expect commandApp [] (.dispatch (msg (evt "TypeC"))) (.message (msg (cmd "TypeC"))) =
  expectPass
    ["✓ execute a specific 'stubs.CommandStub[TypeC]' command"]

-- no matching command executed (125-139)
#guard expect commandApp [] (.dispatch (msg (evt "TypeC"))) (.message (msg (cmd "TypeX"))) =
  expectFail
    ["✗ execute a specific 'stubs.CommandStub[TypeX]' command",
     "",
     "  | EXPLANATION",
     "  |     none of the engaged handlers executed a matching command",
     "  | ",
     "  | SUGGESTIONS",
     "  |     • verify the logic within the '<process>' process message handler"]

-- no messages produced at all (140-154)
#guard expect commandApp [] (.dispatch (msg (evt "TypeX"))) (.message (msg (cmd "TypeC"))) =
  expectFail
    ["✗ execute a specific 'stubs.CommandStub[TypeC]' command",
     "",
     "  | EXPLANATION",
     "  |     no messages were produced at all",
     "  | ",
     "  | SUGGESTIONS",
     "  |     • verify the logic within the '<process>' process message handler"]

-- no commands produced at all (155-169)
#guard expect commandApp [] (.dispatch (msg (evt "TypeT"))) (.message (msg (cmd "TypeC"))) =
  expectFail
    ["✗ execute a specific 'stubs.CommandStub[TypeC]' command",
     "",
     "  | EXPLANATION",
     "  |     no commands were executed at all",
     "  | ",
     "  | SUGGESTIONS",
     "  |     • verify the logic within the '<process>' process message handler"]

-- no matching command executed and all relevant handler types disabled (170-187)
#guard expect commandApp [.enableType .process false] (.dispatch (msg (evt "TypeC"))) (.message (msg (cmd "TypeC"))) =
  expectFail
    ["✗ execute a specific 'stubs.CommandStub[TypeC]' command",
     "",
     "  | EXPLANATION",
     "  |     no relevant handler types were enabled",
     "  | ",
     "  | SUGGESTIONS",
     "  |     • enable process handlers using the EnableHandlerType() option"]

-- similar command executed with a different value (188-208)
#guard expect commandApp [] (.dispatch (msg (evt "TypeC") "<content>")) (.message (msg (cmd "TypeC") "<different>")) "stubs.CommandStub[github.com/dogmatiq/enginekit/enginetest/stubs.TypeC]{\n    Content:         \"<[-differ-]{+cont+}ent>\"\n    ValidationError: \"\"\n}\n" =
  expectFail
    ["✗ execute a specific 'stubs.CommandStub[TypeC]' command",
     "",
     "  | EXPLANATION",
     "  |     a similar command was executed by the '<process>' process message handler",
     "  | ",
     "  | SUGGESTIONS",
     "  |     • check the content of the message",
     "  | ",
     "  | MESSAGE DIFF",
     "  |     stubs.CommandStub[github.com/dogmatiq/enginekit/enginetest/stubs.TypeC]{",
     "  |         Content:         \"<[-differ-]{+cont+}ent>\"",
     "  |         ValidationError: \"\"",
     "  |     }"]

-- does not include an explanation when negated and a sibling expectation passes (209-222)
#guard expect commandApp [] (.dispatch (msg (evt "TypeC"))) (noneOf [(.message (msg (cmd "TypeC"))), (.message (msg (cmd "TypeX")))]) =
  expectFail
    ["✗ none of (1 of the expectations passed unexpectedly)",
     "    ✓ execute a specific 'stubs.CommandStub[TypeC]' command",
     "    ✗ execute a specific 'stubs.CommandStub[TypeX]' command"]

/-! ## `expectation.messagetype.command_test.go` -/

-- command type executed as expected (122-130)
#guard expect commandApp [] (.dispatch (msg (evt "TypeC"))) (.type (cmd "TypeC")) =
  expectPass
    ["✓ execute any 'stubs.CommandStub[TypeC]' command"]

-- no matching command types executed (131-145)
#guard expect commandApp [] (.dispatch (msg (evt "TypeC"))) (.type (cmd "TypeX")) =
  expectFail
    ["✗ execute any 'stubs.CommandStub[TypeX]' command",
     "",
     "  | EXPLANATION",
     "  |     none of the engaged handlers executed a matching command",
     "  | ",
     "  | SUGGESTIONS",
     "  |     • verify the logic within the '<process>' process message handler"]

-- no messages produced at all (146-160)
#guard expect commandApp [] (.dispatch (msg (evt "TypeX"))) (.type (cmd "TypeC")) =
  expectFail
    ["✗ execute any 'stubs.CommandStub[TypeC]' command",
     "",
     "  | EXPLANATION",
     "  |     no messages were produced at all",
     "  | ",
     "  | SUGGESTIONS",
     "  |     • verify the logic within the '<process>' process message handler"]

-- no commands produced at all (161-175)
#guard expect commandApp [] (.dispatch (msg (evt "TypeT"))) (.type (cmd "TypeC")) =
  expectFail
    ["✗ execute any 'stubs.CommandStub[TypeC]' command",
     "",
     "  | EXPLANATION",
     "  |     no commands were executed at all",
     "  | ",
     "  | SUGGESTIONS",
     "  |     • verify the logic within the '<process>' process message handler"]

-- no matching command type executed and all relevant handler types disabled (176-193)
#guard expect commandApp [.enableType .process false] (.dispatch (msg (evt "TypeC"))) (.type (cmd "TypeC")) =
  expectFail
    ["✗ execute any 'stubs.CommandStub[TypeC]' command",
     "",
     "  | EXPLANATION",
     "  |     no relevant handler types were enabled",
     "  | ",
     "  | SUGGESTIONS",
     "  |     • enable process handlers using the EnableHandlerType() option"]

-- does not include an explanation when negated and a sibling expectation passes (194-207)
#guard expect commandApp [] (.dispatch (msg (evt "TypeC"))) (noneOf [(.type (cmd "TypeC")), (.type (cmd "TypeX"))]) =
  expectFail
    ["✗ none of (1 of the expectations passed unexpectedly)",
     "    ✓ execute any 'stubs.CommandStub[TypeC]' command",
     "    ✗ execute any 'stubs.CommandStub[TypeX]' command"]

/-! ## `expectation.messagematch.command_test.go` -/

-- matching command executed as expected (128-144)
#guard expect commandApp [] (.dispatch (msg (evt "TypeC"))) (.matching anyCommand (fun _ m => if m = (msg (cmd "TypeC")) then .nil else .err "<error>") "expectation.messagematch.command_test.go:132" false) =
  expectPass
    ["✓ execute a command that matches the predicate near expectation.messagematch.command_test.go:132"]

-- matching command executed as expected, using predicate with a more specific type (145-161)
#guard expect commandApp [] (.dispatch (msg (evt "TypeC"))) (.matching ⟨(cmd "TypeC"), none⟩ (fun _ m => if m = (msg (cmd "TypeC")) then .nil else .err "<error>") "expectation.messagematch.command_test.go:149" false) =
  expectPass
    ["✓ execute a command that matches the predicate near expectation.messagematch.command_test.go:149"]

-- no matching command executed (162-184)
#guard expect commandApp [] (.dispatch (msg (evt "TypeC"))) (.matching anyCommand (fun _ _ => .err "<error>") "expectation.messagematch.command_test.go:166" false) =
  expectFail
    ["✗ execute a command that matches the predicate near expectation.messagematch.command_test.go:166",
     "",
     "  | EXPLANATION",
     "  |     none of the engaged handlers executed a matching command",
     "  | ",
     "  | FAILED MATCHES",
     "  |     • stubs.CommandStub[TypeC]: <error>",
     "  | ",
     "  | SUGGESTIONS",
     "  |     • verify the logic within the predicate function",
     "  |     • verify the logic within the '<process>' process message handler"]

-- no matching command executed, using predicate with a more specific type (185-203)
#guard expect commandApp [] (.dispatch (msg (evt "TypeC"))) (.matching ⟨(cmd "TypeX"), none⟩ (fun _ _ => .err "unexpected call") "expectation.messagematch.command_test.go:189" false) =
  expectFail
    ["✗ execute a command that matches the predicate near expectation.messagematch.command_test.go:189",
     "",
     "  | EXPLANATION",
     "  |     none of the engaged handlers executed a matching command",
     "  | ",
     "  | SUGGESTIONS",
     "  |     • verify the logic within the predicate function, it ignored 1 command",
     "  |     • verify the logic within the '<process>' process message handler"]

-- no messages produced at all (204-222)
#guard expect commandApp [] (.dispatch (msg (evt "TypeX"))) (.matching anyCommand (fun _ _ => .err "unexpected call") "expectation.messagematch.command_test.go:208" false) =
  expectFail
    ["✗ execute a command that matches the predicate near expectation.messagematch.command_test.go:208",
     "",
     "  | EXPLANATION",
     "  |     no messages were produced at all",
     "  | ",
     "  | SUGGESTIONS",
     "  |     • verify the logic within the '<process>' process message handler"]

-- no commands produced at all (223-241)
#guard expect commandApp [] (.dispatch (msg (evt "TypeT"))) (.matching anyCommand (fun _ _ => .err "unexpected call") "expectation.messagematch.command_test.go:227" false) =
  expectFail
    ["✗ execute a command that matches the predicate near expectation.messagematch.command_test.go:227",
     "",
     "  | EXPLANATION",
     "  |     no commands were executed at all",
     "  | ",
     "  | SUGGESTIONS",
     "  |     • verify the logic within the '<process>' process message handler"]

-- no matching command executed and all relevant handler types disabled (242-263)
#guard expect commandApp [.enableType .process false] (.dispatch (msg (evt "TypeC"))) (.matching anyCommand (fun _ _ => .err "<error>") "expectation.messagematch.command_test.go:246" false) =
  expectFail
    ["✗ execute a command that matches the predicate near expectation.messagematch.command_test.go:246",
     "",
     "  | EXPLANATION",
     "  |     no relevant handler types were enabled",
     "  | ",
     "  | SUGGESTIONS",
     "  |     • enable process handlers using the EnableHandlerType() option"]

-- no matching command executed and commands were ignored (264-283)
#guard expect commandApp [] (.dispatch (msg (evt "TypeC"))) (.matching anyCommand (fun _ _ => .ignore) "expectation.messagematch.command_test.go:268" false) =
  expectFail
    ["✗ execute a command that matches the predicate near expectation.messagematch.command_test.go:268",
     "",
     "  | EXPLANATION",
     "  |     none of the engaged handlers executed a matching command",
     "  | ",
     "  | SUGGESTIONS",
     "  |     • verify the logic within the predicate function, it ignored 1 command",
     "  |     • verify the logic within the '<process>' process message handler"]

-- no matching command executed and error messages were repeated (284-308)
#guard expect commandApp [] (.dispatch (msg (evt "TypeC") "<multiple>")) (.matching anyCommand (fun _ _ => .err "<error>") "expectation.messagematch.command_test.go:290" false) =
  expectFail
    ["✗ execute a command that matches the predicate near expectation.messagematch.command_test.go:290",
     "",
     "  | EXPLANATION",
     "  |     none of the engaged handlers executed a matching command",
     "  | ",
     "  | FAILED MATCHES",
     "  |     • stubs.CommandStub[TypeC]: <error> (repeated 2 times)",
     "  | ",
     "  | SUGGESTIONS",
     "  |     • verify the logic within the predicate function",
     "  |     • verify the logic within the '<process>' process message handler"]

-- does not include an explanation when negated and a sibling expectation passes (309-330)
#guard expect commandApp [] (.dispatch (msg (evt "TypeC"))) (noneOf [(.matching anyCommand (fun _ _ => .nil) "expectation.messagematch.command_test.go:315" false), (.matching anyCommand (fun _ _ => .err "<error>") "expectation.messagematch.command_test.go:319" false)]) =
  expectFail
    ["✗ none of (1 of the expectations passed unexpectedly)",
     "    ✓ execute a command that matches the predicate near expectation.messagematch.command_test.go:315",
     "    ✗ execute a command that matches the predicate near expectation.messagematch.command_test.go:319"]

/-! ## `expectation.messagematch.commandonly_test.go` -/

-- all executed commands match (92-104)
#guard expect commandOnlyApp [] (.dispatch (msg (evt "TypeC"))) (.matching anyCommand (fun _ _ => .nil) "expectation.messagematch.commandonly_test.go:97" true) =
  expectPass
    ["✓ only execute commands that match the predicate near expectation.messagematch.commandonly_test.go:97"]

-- all executed commands match, using predicate with a more specific type (105-117)
#guard expect commandOnlyApp [] (.dispatch (msg (evt "TypeC"))) (.matching ⟨(cmd "TypeC"), none⟩ (fun _ _ => .nil) "expectation.messagematch.commandonly_test.go:110" true) =
  expectPass
    ["✓ only execute commands that match the predicate near expectation.messagematch.commandonly_test.go:110"]

-- no commands executed at all (118-130)
#guard expectNoop commandOnlyApp (.matching anyCommand (fun _ _ => .err "unexpected call") "expectation.messagematch.commandonly_test.go:122" true) =
  expectPass
    ["✓ only execute commands that match the predicate near expectation.messagematch.commandonly_test.go:122"]

-- none of the executed commands match (131-153)
#guard expect commandOnlyApp [] (.dispatch (msg (evt "TypeC"))) (.matching anyCommand (fun _ _ => .err "<error>") "expectation.messagematch.commandonly_test.go:135" true) =
  expectFail
    ["✗ only execute commands that match the predicate near expectation.messagematch.commandonly_test.go:135",
     "",
     "  | EXPLANATION",
     "  |     none of the 3 relevant commands matched the predicate",
     "  | ",
     "  | FAILED MATCHES",
     "  |     • stubs.CommandStub[TypeC]: <error> (repeated 3 times)",
     "  | ",
     "  | SUGGESTIONS",
     "  |     • verify the logic within the predicate function",
     "  |     • verify the logic within the '<process>' process message handler"]

-- some matching commands executed (154-183)
#guard expect commandOnlyApp [] (.dispatch (msg (evt "TypeC"))) (.matching anyCommand (fun _ m => if m = (msg (cmd "TypeC") "C1") then .err "<error>" else if m = (msg (cmd "TypeC") "C2") then .ignore else .nil) "expectation.messagematch.commandonly_test.go:158" true) =
  expectFail
    ["✗ only execute commands that match the predicate near expectation.messagematch.commandonly_test.go:158",
     "",
     "  | EXPLANATION",
     "  |     only 1 of 2 relevant commands matched the predicate",
     "  | ",
     "  | FAILED MATCHES",
     "  |     • stubs.CommandStub[TypeC]: <error>",
     "  | ",
     "  | SUGGESTIONS",
     "  |     • verify the logic within the predicate function, it ignored 1 command",
     "  |     • verify the logic within the '<process>' process message handler"]

-- no executed commands match, using predicate with a more specific type (184-206)
#guard expect commandOnlyApp [] (.dispatch (msg (evt "TypeC"))) (.matching ⟨(cmd "TypeX"), none⟩ (fun _ _ => .err "unexpected call") "expectation.messagematch.commandonly_test.go:188" true) =
  expectFail
    ["✗ only execute commands that match the predicate near expectation.messagematch.commandonly_test.go:188",
     "",
     "  | EXPLANATION",
     "  |     none of the 3 relevant commands matched the predicate",
     "  | ",
     "  | FAILED MATCHES",
     "  |     • stubs.CommandStub[TypeC]: predicate function expected stubs.CommandStub[TypeX] (repeated 3 times)",
     "  | ",
     "  | SUGGESTIONS",
     "  |     • verify the logic within the predicate function",
     "  |     • verify the logic within the '<process>' process message handler"]

/-! ## `expectation.message.commandcall_test.go` -/

-- command executed as expected (117-125)
#guard expect commandCallApp [] (.call (.exec (msg (cmd "TypeX")) fun _ => .ret) none) (.message (msg (cmd "TypeX"))) =
  expectPass
    ["✓ execute a specific 'stubs.CommandStub[TypeX]' command"]

-- no messages produced at all (126-140)
#guard expect commandCallApp [] (.call .ret none) (.message (msg (cmd "TypeX"))) =
  expectFail
    ["✗ execute a specific 'stubs.CommandStub[TypeX]' command",
     "",
     "  | EXPLANATION",
     "  |     no messages were produced at all",
     "  | ",
     "  | SUGGESTIONS",
     "  |     • verify the logic within the code that uses the dogma.CommandExecutor"]

-- no matching command executed and all relevant handler types disabled (141-161)
#guard expect commandCallApp [.enableType .process false] (.call (.exec (msg (cmd "dogma.Event") "EventStub[TypeP]{}") fun _ => .ret) none) (.message (msg (cmd "TypeP"))) =
  expectFail
    ["✗ execute a specific 'stubs.CommandStub[TypeP]' command",
     "",
     "  | EXPLANATION",
     "  |     nothing executed a matching command",
     "  | ",
     "  | SUGGESTIONS",
     "  |     • enable process handlers using the EnableHandlerType() option",
     "  |     • verify the logic within the code that uses the dogma.CommandExecutor"]

-- similar command executed with a different value (162-182)
#guard expect commandCallApp [] (.call (.exec (msg (cmd "TypeX") "<content>") fun _ => .ret) none) (.message (msg (cmd "TypeX") "<different>")) "stubs.CommandStub[github.com/dogmatiq/enginekit/enginetest/stubs.TypeX]{\n    Content:         \"<[-differ-]{+cont+}ent>\"\n    ValidationError: \"\"\n}\n" =
  expectFail
    ["✗ execute a specific 'stubs.CommandStub[TypeX]' command",
     "",
     "  | EXPLANATION",
     "  |     a similar command was executed via a dogma.CommandExecutor",
     "  | ",
     "  | SUGGESTIONS",
     "  |     • check the content of the message",
     "  | ",
     "  | MESSAGE DIFF",
     "  |     stubs.CommandStub[github.com/dogmatiq/enginekit/enginetest/stubs.TypeX]{",
     "  |         Content:         \"<[-differ-]{+cont+}ent>\"",
     "  |         ValidationError: \"\"",
     "  |     }"]

/-! ## `expectation.messagetype.commandcall_test.go` -/

-- command type executed as expected (117-125)
#guard expect commandCallApp [] (.call (.exec (msg (cmd "TypeX")) fun _ => .ret) none) (.type (cmd "TypeX")) =
  expectPass
    ["✓ execute any 'stubs.CommandStub[TypeX]' command"]

-- no messages produced at all (126-140)
#guard expect commandCallApp [] (.call .ret none) (.type (cmd "TypeX")) =
  expectFail
    ["✗ execute any 'stubs.CommandStub[TypeX]' command",
     "",
     "  | EXPLANATION",
     "  |     no messages were produced at all",
     "  | ",
     "  | SUGGESTIONS",
     "  |     • verify the logic within the code that uses the dogma.CommandExecutor"]

-- no matching command type executed and all relevant handler types disabled (141-161)
#guard expect commandCallApp [.enableType .process false] (.call (.exec (msg (cmd "dogma.Event") "EventStub[TypeP]{}") fun _ => .ret) none) (.type (cmd "TypeP")) =
  expectFail
    ["✗ execute any 'stubs.CommandStub[TypeP]' command",
     "",
     "  | EXPLANATION",
     "  |     nothing executed a matching command",
     "  | ",
     "  | SUGGESTIONS",
     "  |     • enable process handlers using the EnableHandlerType() option",
     "  |     • verify the logic within the code that uses the dogma.CommandExecutor"]

/-! ## `expectation.message.event_test.go` -/

-- event recorded as expected (114-122)
#guard expect eventApp [] (.dispatch (msg (cmd "TypeE"))) (.message (msg (evt "TypeE"))) =
  expectPass
    ["✓ record a specific 'stubs.EventStub[TypeE]' event"]

-- no matching event recorded (123-138)
#guard expect eventApp [] (.dispatch (msg (cmd "TypeE"))) (.message (msg (evt "TypeX"))) =
  expectFail
    ["✗ record a specific 'stubs.EventStub[TypeX]' event",
     "",
     "  | EXPLANATION",
     "  |     none of the engaged handlers recorded a matching event",
     "  | ",
     "  | SUGGESTIONS",
     "  |     • enable integration handlers using the EnableHandlerType() option",
     "  |     • verify the logic within the '<aggregate>' aggregate message handler"]

-- no matching event recorded and all relevant handler types disabled (139-158)
#guard expect eventApp [.enableType .aggregate false, .enableType .integration false] (.dispatch (msg (cmd "TypeE"))) (.message (msg (evt "TypeE"))) =
  expectFail
    ["✗ record a specific 'stubs.EventStub[TypeE]' event",
     "",
     "  | EXPLANATION",
     "  |     no relevant handler types were enabled",
     "  | ",
     "  | SUGGESTIONS",
     "  |     • enable aggregate handlers using the EnableHandlerType() option",
     "  |     • enable integration handlers using the EnableHandlerType() option"]

-- no matching event recorded and no relevant handler types engaged (159-178)
#guard expect eventApp [.enableType .aggregate false, .enableType .integration true] (.dispatch (msg (cmd "TypeE"))) (.message (msg (evt "TypeE"))) =
  expectFail
    ["✗ record a specific 'stubs.EventStub[TypeE]' event",
     "",
     "  | EXPLANATION",
     "  |     no relevant handlers (aggregate or integration) were engaged",
     "  | ",
     "  | SUGGESTIONS",
     "  |     • enable aggregate handlers using the EnableHandlerType() option",
     "  |     • check the application's routing configuration"]

-- no messages produced at all (179-194)
#guard expect eventApp [] (.dispatch (msg (cmd "TypeX"))) (.message (msg (evt "TypeE"))) =
  expectFail
    ["✗ record a specific 'stubs.EventStub[TypeE]' event",
     "",
     "  | EXPLANATION",
     "  |     no messages were produced at all",
     "  | ",
     "  | SUGGESTIONS",
     "  |     • enable integration handlers using the EnableHandlerType() option",
     "  |     • verify the logic within the '<aggregate>' aggregate message handler"]

-- no events recorded at all (195-210)
#guard expect eventApp [] (.dispatch (msg (evt "TypeC"))) (.message (msg (evt "TypeE"))) =
  expectFail
    ["✗ record a specific 'stubs.EventStub[TypeE]' event",
     "",
     "  | EXPLANATION",
     "  |     no events were recorded at all",
     "  | ",
     "  | SUGGESTIONS",
     "  |     • enable integration handlers using the EnableHandlerType() option",
     "  |     • verify the logic within the '<aggregate>' aggregate message handler"]

-- similar event recorded with a different value (211-231)
#guard expect eventApp [] (.dispatch (msg (cmd "TypeE") "<content>")) (.message (msg (evt "TypeE") "<different>")) "stubs.EventStub[github.com/dogmatiq/enginekit/enginetest/stubs.TypeE]{\n    Content:         \"<[-differ-]{+cont+}ent>\"\n    ValidationError: \"\"\n}\n" =
  expectFail
    ["✗ record a specific 'stubs.EventStub[TypeE]' event",
     "",
     "  | EXPLANATION",
     "  |     a similar event was recorded by the '<aggregate>' aggregate message handler",
     "  | ",
     "  | SUGGESTIONS",
     "  |     • check the content of the message",
     "  | ",
     "  | MESSAGE DIFF",
     "  |     stubs.EventStub[github.com/dogmatiq/enginekit/enginetest/stubs.TypeE]{",
     "  |         Content:         \"<[-differ-]{+cont+}ent>\"",
     "  |         ValidationError: \"\"",
     "  |     }"]

-- does not include an explanation when negated and a sibling expectation passes (232-245)
#guard expect eventApp [] (.dispatch (msg (cmd "TypeE"))) (noneOf [(.message (msg (evt "TypeE"))), (.message (msg (evt "TypeX")))]) =
  expectFail
    ["✗ none of (1 of the expectations passed unexpectedly)",
     "    ✓ record a specific 'stubs.EventStub[TypeE]' event",
     "    ✗ record a specific 'stubs.EventStub[TypeX]' event"]

/-! ## `expectation.messagetype.event_test.go` -/

-- event type recorded as expected (114-122)
#guard expect eventApp [] (.dispatch (msg (cmd "TypeE"))) (.type (evt "TypeE")) =
  expectPass
    ["✓ record any 'stubs.EventStub[TypeE]' event"]

-- no matching event type recorded (123-138)
#guard expect eventApp [] (.dispatch (msg (cmd "TypeE"))) (.type (evt "TypeX")) =
  expectFail
    ["✗ record any 'stubs.EventStub[TypeX]' event",
     "",
     "  | EXPLANATION",
     "  |     none of the engaged handlers recorded a matching event",
     "  | ",
     "  | SUGGESTIONS",
     "  |     • enable integration handlers using the EnableHandlerType() option",
     "  |     • verify the logic within the '<aggregate>' aggregate message handler"]

-- no matching event type recorded and all relevant handler types disabled (139-158)
#guard expect eventApp [.enableType .aggregate false, .enableType .integration false] (.dispatch (msg (cmd "TypeE"))) (.type (evt "TypeX")) =
  expectFail
    ["✗ record any 'stubs.EventStub[TypeX]' event",
     "",
     "  | EXPLANATION",
     "  |     no relevant handler types were enabled",
     "  | ",
     "  | SUGGESTIONS",
     "  |     • enable aggregate handlers using the EnableHandlerType() option",
     "  |     • enable integration handlers using the EnableHandlerType() option"]

-- no matching event type recorded and no relevant handler types engaged (159-178)
#guard expect eventApp [.enableType .aggregate false, .enableType .integration true] (.dispatch (msg (cmd "TypeE"))) (.type (evt "TypeX")) =
  expectFail
    ["✗ record any 'stubs.EventStub[TypeX]' event",
     "",
     "  | EXPLANATION",
     "  |     no relevant handlers (aggregate or integration) were engaged",
     "  | ",
     "  | SUGGESTIONS",
     "  |     • enable aggregate handlers using the EnableHandlerType() option",
     "  |     • check the application's routing configuration"]

-- no messages produced at all (179-194)
#guard expect eventApp [] (.dispatch (msg (cmd "TypeX"))) (.type (evt "TypeX")) =
  expectFail
    ["✗ record any 'stubs.EventStub[TypeX]' event",
     "",
     "  | EXPLANATION",
     "  |     no messages were produced at all",
     "  | ",
     "  | SUGGESTIONS",
     "  |     • enable integration handlers using the EnableHandlerType() option",
     "  |     • verify the logic within the '<aggregate>' aggregate message handler"]

-- no events recorded at all (195-210)
#guard expect eventApp [] (.dispatch (msg (evt "TypeC"))) (.type (evt "TypeE")) =
  expectFail
    ["✗ record any 'stubs.EventStub[TypeE]' event",
     "",
     "  | EXPLANATION",
     "  |     no events were recorded at all",
     "  | ",
     "  | SUGGESTIONS",
     "  |     • enable integration handlers using the EnableHandlerType() option",
     "  |     • verify the logic within the '<aggregate>' aggregate message handler"]

-- does not include an explanation when negated and a sibling expectation passes (211-224)
#guard expect eventApp [] (.dispatch (msg (cmd "TypeE"))) (noneOf [(.type (evt "TypeE")), (.type (evt "TypeX"))]) =
  expectFail
    ["✗ none of (1 of the expectations passed unexpectedly)",
     "    ✓ record any 'stubs.EventStub[TypeE]' event",
     "    ✗ record any 'stubs.EventStub[TypeX]' event"]

/-! ## `expectation.messagematch.event_test.go` -/

-- matching event recorded as expected (123-139)
#guard expect eventApp [] (.dispatch (msg (cmd "TypeE"))) (.matching anyEvent (fun _ m => if m = (msg (evt "TypeE")) then .nil else .err "<error>") "expectation.messagematch.event_test.go:127" false) =
  expectPass
    ["✓ record an event that matches the predicate near expectation.messagematch.event_test.go:127"]

-- matching event recorded as expected, using predicate with a more specific type (140-156)
#guard expect eventApp [] (.dispatch (msg (cmd "TypeE"))) (.matching ⟨(evt "TypeE"), none⟩ (fun _ m => if m = (msg (evt "TypeE")) then .nil else .err "<error>") "expectation.messagematch.event_test.go:144" false) =
  expectPass
    ["✓ record an event that matches the predicate near expectation.messagematch.event_test.go:144"]

-- no matching event recorded (157-180)
#guard expect eventApp [] (.dispatch (msg (cmd "TypeE"))) (.matching anyEvent (fun _ _ => .err "<error>") "expectation.messagematch.event_test.go:161" false) =
  expectFail
    ["✗ record an event that matches the predicate near expectation.messagematch.event_test.go:161",
     "",
     "  | EXPLANATION",
     "  |     none of the engaged handlers recorded a matching event",
     "  | ",
     "  | FAILED MATCHES",
     "  |     • stubs.EventStub[TypeE]: <error>",
     "  | ",
     "  | SUGGESTIONS",
     "  |     • verify the logic within the predicate function",
     "  |     • enable integration handlers using the EnableHandlerType() option",
     "  |     • verify the logic within the '<aggregate>' aggregate message handler"]

-- no matching event recorded, using predicate with a more specific type (181-201)
#guard expect eventApp [] (.dispatch (msg (cmd "TypeE"))) (.matching ⟨(evt "TypeX"), none⟩ (fun _ _ => .err "unexpected call") "expectation.messagematch.event_test.go:185" false) =
  expectFail
    ["✗ record an event that matches the predicate near expectation.messagematch.event_test.go:185",
     "",
     "  | EXPLANATION",
     "  |     none of the engaged handlers recorded a matching event",
     "  | ",
     "  | SUGGESTIONS",
     "  |     • verify the logic within the predicate function, it ignored 1 event",
     "  |     • enable integration handlers using the EnableHandlerType() option",
     "  |     • verify the logic within the '<aggregate>' aggregate message handler"]

-- no messages produced at all (202-221)
#guard expect eventApp [] (.dispatch (msg (cmd "TypeX"))) (.matching anyEvent (fun _ _ => .err "unexpected call") "expectation.messagematch.event_test.go:206" false) =
  expectFail
    ["✗ record an event that matches the predicate near expectation.messagematch.event_test.go:206",
     "",
     "  | EXPLANATION",
     "  |     no messages were produced at all",
     "  | ",
     "  | SUGGESTIONS",
     "  |     • enable integration handlers using the EnableHandlerType() option",
     "  |     • verify the logic within the '<aggregate>' aggregate message handler"]

-- no events recorded at all (222-241)
#guard expect eventApp [] (.dispatch (msg (evt "TypeC"))) (.matching anyEvent (fun _ _ => .err "unexpected call") "expectation.messagematch.event_test.go:226" false) =
  expectFail
    ["✗ record an event that matches the predicate near expectation.messagematch.event_test.go:226",
     "",
     "  | EXPLANATION",
     "  |     no events were recorded at all",
     "  | ",
     "  | SUGGESTIONS",
     "  |     • enable integration handlers using the EnableHandlerType() option",
     "  |     • verify the logic within the '<aggregate>' aggregate message handler"]

-- no matching event recorded and all relevant handler types disabled (242-265)
#guard expect eventApp [.enableType .aggregate false, .enableType .integration false] (.dispatch (msg (cmd "TypeE"))) (.matching anyEvent (fun _ _ => .err "unexpected call") "expectation.messagematch.event_test.go:246" false) =
  expectFail
    ["✗ record an event that matches the predicate near expectation.messagematch.event_test.go:246",
     "",
     "  | EXPLANATION",
     "  |     no relevant handler types were enabled",
     "  | ",
     "  | SUGGESTIONS",
     "  |     • enable aggregate handlers using the EnableHandlerType() option",
     "  |     • enable integration handlers using the EnableHandlerType() option"]

-- no matching event recorded and events were ignored (266-286)
#guard expect eventApp [] (.dispatch (msg (cmd "TypeE"))) (.matching anyEvent (fun _ _ => .ignore) "expectation.messagematch.event_test.go:270" false) =
  expectFail
    ["✗ record an event that matches the predicate near expectation.messagematch.event_test.go:270",
     "",
     "  | EXPLANATION",
     "  |     none of the engaged handlers recorded a matching event",
     "  | ",
     "  | SUGGESTIONS",
     "  |     • verify the logic within the predicate function, it ignored 1 event",
     "  |     • enable integration handlers using the EnableHandlerType() option",
     "  |     • verify the logic within the '<aggregate>' aggregate message handler"]

-- no matching event recorded and error messages were repeated (287-312)
#guard expect eventApp [] (.dispatch (msg (cmd "TypeE") "<multiple>")) (.matching anyEvent (fun _ _ => .err "<error>") "expectation.messagematch.event_test.go:293" false) =
  expectFail
    ["✗ record an event that matches the predicate near expectation.messagematch.event_test.go:293",
     "",
     "  | EXPLANATION",
     "  |     none of the engaged handlers recorded a matching event",
     "  | ",
     "  | FAILED MATCHES",
     "  |     • stubs.EventStub[TypeE]: <error> (repeated 2 times)",
     "  | ",
     "  | SUGGESTIONS",
     "  |     • verify the logic within the predicate function",
     "  |     • enable integration handlers using the EnableHandlerType() option",
     "  |     • verify the logic within the '<aggregate>' aggregate message handler"]

-- does not include an explanation when negated and a sibling expectation passes (313-334)
#guard expect eventApp [] (.dispatch (msg (cmd "TypeE"))) (noneOf [(.matching anyEvent (fun _ _ => .nil) "expectation.messagematch.event_test.go:319" false), (.matching anyEvent (fun _ _ => .err "<error>") "expectation.messagematch.event_test.go:323" false)]) =
  expectFail
    ["✗ none of (1 of the expectations passed unexpectedly)",
     "    ✓ record an event that matches the predicate near expectation.messagematch.event_test.go:319",
     "    ✗ record an event that matches the predicate near expectation.messagematch.event_test.go:323"]

/-! ## `expectation.messagematch.eventonly_test.go` -/

-- all recorded events match (86-98)
#guard expect eventOnlyApp [] (.dispatch (msg (cmd "TypeE"))) (.matching anyEvent (fun _ _ => .nil) "expectation.messagematch.eventonly_test.go:91" true) =
  expectPass
    ["✓ only record events that match the predicate near expectation.messagematch.eventonly_test.go:91"]

-- all recorded events match, using predicate with a more specific type (99-111)
#guard expect eventOnlyApp [] (.dispatch (msg (cmd "TypeE"))) (.matching ⟨(evt "TypeE"), none⟩ (fun _ _ => .nil) "expectation.messagematch.eventonly_test.go:104" true) =
  expectPass
    ["✓ only record events that match the predicate near expectation.messagematch.eventonly_test.go:104"]

-- no events recorded at all (112-124)
#guard expectNoop eventOnlyApp (.matching anyEvent (fun _ _ => .err "unexpected call") "expectation.messagematch.eventonly_test.go:116" true) =
  expectPass
    ["✓ only record events that match the predicate near expectation.messagematch.eventonly_test.go:116"]

-- none of the recorded events match (125-148)
#guard expect eventOnlyApp [] (.dispatch (msg (cmd "TypeE"))) (.matching anyEvent (fun _ _ => .err "<error>") "expectation.messagematch.eventonly_test.go:129" true) =
  expectFail
    ["✗ only record events that match the predicate near expectation.messagematch.eventonly_test.go:129",
     "",
     "  | EXPLANATION",
     "  |     none of the 3 relevant events matched the predicate",
     "  | ",
     "  | FAILED MATCHES",
     "  |     • stubs.EventStub[TypeE]: <error> (repeated 3 times)",
     "  | ",
     "  | SUGGESTIONS",
     "  |     • verify the logic within the predicate function",
     "  |     • enable integration handlers using the EnableHandlerType() option",
     "  |     • verify the logic within the '<aggregate>' aggregate message handler"]

-- some matching events recorded (149-179)
#guard expect eventOnlyApp [] (.dispatch (msg (cmd "TypeE"))) (.matching anyEvent (fun _ m => if m = (msg (evt "TypeE") "E1") then .err "<error>" else if m = (msg (evt "TypeE") "E2") then .ignore else .nil) "expectation.messagematch.eventonly_test.go:153" true) =
  expectFail
    ["✗ only record events that match the predicate near expectation.messagematch.eventonly_test.go:153",
     "",
     "  | EXPLANATION",
     "  |     only 1 of 2 relevant events matched the predicate",
     "  | ",
     "  | FAILED MATCHES",
     "  |     • stubs.EventStub[TypeE]: <error>",
     "  | ",
     "  | SUGGESTIONS",
     "  |     • verify the logic within the predicate function, it ignored 1 event",
     "  |     • enable integration handlers using the EnableHandlerType() option",
     "  |     • verify the logic within the '<aggregate>' aggregate message handler"]

-- no matching events recorded, using predicate with a more specific type (180-203)
#guard expect eventOnlyApp [] (.dispatch (msg (cmd "TypeE"))) (.matching ⟨(evt "TypeX"), none⟩ (fun _ _ => .err "unexpected call") "expectation.messagematch.eventonly_test.go:184" true) =
  expectFail
    ["✗ only record events that match the predicate near expectation.messagematch.eventonly_test.go:184",
     "",
     "  | EXPLANATION",
     "  |     none of the 3 relevant events matched the predicate",
     "  | ",
     "  | FAILED MATCHES",
     "  |     • stubs.EventStub[TypeE]: predicate function expected stubs.EventStub[TypeX] (repeated 3 times)",
     "  | ",
     "  | SUGGESTIONS",
     "  |     • verify the logic within the predicate function",
     "  |     • enable integration handlers using the EnableHandlerType() option",
     "  |     • verify the logic within the '<aggregate>' aggregate message handler"]

/-! ## `expectation.message.eventcall_test.go` -/

-- event recorded as expected (90-98)
#guard expect eventCallApp [] (.call (.exec (msg (cmd "TypeE")) fun _ => .ret) none) (.message (msg (evt "TypeE"))) =
  expectPass
    ["✓ record a specific 'stubs.EventStub[TypeE]' event"]

-- no matching event recorded (99-115)
#guard expect eventCallApp [] (.call (.exec (msg (cmd "TypeE")) fun _ => .ret) none) (.message (msg (evt "TypeX"))) =
  expectFail
    ["✗ record a specific 'stubs.EventStub[TypeX]' event",
     "",
     "  | EXPLANATION",
     "  |     nothing recorded a matching event",
     "  | ",
     "  | SUGGESTIONS",
     "  |     • enable integration handlers using the EnableHandlerType() option",
     "  |     • verify the logic within the '<aggregate>' aggregate message handler",
     "  |     • verify the logic within the code that uses the dogma.EventRecorder"]

-- no messages produced at all (116-130)
#guard expect eventCallApp [] (.call .ret none) (.message (msg (evt "TypeE"))) =
  expectFail
    ["✗ record a specific 'stubs.EventStub[TypeE]' event",
     "",
     "  | EXPLANATION",
     "  |     no messages were produced at all",
     "  | ",
     "  | SUGGESTIONS",
     "  |     • verify the logic within the code that uses the dogma.EventRecorder"]

-- no events recorded at all (131-147)
#guard expect eventCallApp [] (.call (.exec (msg (cmd "TypeX")) fun _ => .ret) none) (.message (msg (evt "TypeE"))) =
  expectFail
    ["✗ record a specific 'stubs.EventStub[TypeE]' event",
     "",
     "  | EXPLANATION",
     "  |     no events were recorded at all",
     "  | ",
     "  | SUGGESTIONS",
     "  |     • enable integration handlers using the EnableHandlerType() option",
     "  |     • verify the logic within the '<aggregate>' aggregate message handler",
     "  |     • verify the logic within the code that uses the dogma.EventRecorder"]

/-! ## `expectation.messagetype.eventcall_test.go` -/

-- event type recorded as expected (90-98)
#guard expect eventCallApp [] (.call (.exec (msg (cmd "TypeE")) fun _ => .ret) none) (.type (evt "TypeE")) =
  expectPass
    ["✓ record any 'stubs.EventStub[TypeE]' event"]

-- no matching event types recorded (99-115)
#guard expect eventCallApp [] (.call (.exec (msg (cmd "TypeE")) fun _ => .ret) none) (.type (evt "TypeX")) =
  expectFail
    ["✗ record any 'stubs.EventStub[TypeX]' event",
     "",
     "  | EXPLANATION",
     "  |     nothing recorded a matching event",
     "  | ",
     "  | SUGGESTIONS",
     "  |     • enable integration handlers using the EnableHandlerType() option",
     "  |     • verify the logic within the '<aggregate>' aggregate message handler",
     "  |     • verify the logic within the code that uses the dogma.EventRecorder"]

-- no messages produced at all (116-130)
#guard expect eventCallApp [] (.call .ret none) (.type (evt "TypeE")) =
  expectFail
    ["✗ record any 'stubs.EventStub[TypeE]' event",
     "",
     "  | EXPLANATION",
     "  |     no messages were produced at all",
     "  | ",
     "  | SUGGESTIONS",
     "  |     • verify the logic within the code that uses the dogma.EventRecorder"]

-- no events produced at all (131-147)
#guard expect eventCallApp [] (.call (.exec (msg (cmd "TypeX")) fun _ => .ret) none) (.type (evt "TypeE")) =
  expectFail
    ["✗ record any 'stubs.EventStub[TypeE]' event",
     "",
     "  | EXPLANATION",
     "  |     no events were recorded at all",
     "  | ",
     "  | SUGGESTIONS",
     "  |     • enable integration handlers using the EnableHandlerType() option",
     "  |     • verify the logic within the '<aggregate>' aggregate message handler",
     "  |     • verify the logic within the code that uses the dogma.EventRecorder"]

end Verif.Conform
