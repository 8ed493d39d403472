import Verif.Conform.Harness
import Verif.Logger

/-!
# Transcribed tests of the logger and of inflection

The entries of the tables in `/repo/fact/logger_test.go` and `/repo/internal/inflect/inflect_test.go`.
-/

namespace Verif.Conform

open Verif

/-! ## `fact/logger_test.go` -/

/-- What the libraries and the message stubs give (as the tests show). -/
def logFmt : LogFmt where
  time _ := "2006-01-02T15:04:05+07:00"
  type t := t.name ++ (match t.kind with | .command => "?" | .event => "!" | .timeout => "@")
  desc m :=
    (match m.type.kind with | .command => "command" | .event => "event" | .timeout => "timeout") ++
      "(stubs.TypeA:" ++ m.body ++ ", valid)"

def now : Time := 0
def command : Env := .root 10 (msg (cmd "TypeA") "A1") 0
def event : Env := .root 10 (msg (evt "TypeA") "A1") 0
def aggregate : HConfig :=
  { name := "<aggregate>", htype := .aggregate, consumes := [cmd "TypeA"], produces := [evt "TypeA"] }
def integration : HConfig :=
  { name := "<integration>", htype := .integration, consumes := [cmd "TypeA"],
    produces := [evt "TypeA"] }
def process : HConfig :=
  { name := "<process>", htype := .process, consumes := [evt "TypeA"], produces := [cmd "TypeA"] }
def projection : HConfig :=
  { name := "<projection>", htype := .projection, consumes := [evt "TypeA"], produces := [] }
def origin : Origin := ⟨process, .process, "<instance>"⟩
def info : CycleInfo :=
  ⟨now, [(.aggregate, true), (.process, true)], [("<enabled>", true), ("<disabled>", false)]⟩

-- DispatchCycleBegun (102-117)
#guard logFact logFmt (.dispatchCycleBegun command info) =
  some "= 10  ∵ 10  ⋲ 10  ▼ ⚙    dispatching ● 2006-01-02T15:04:05+07:00 ● enabled: +aggregates +processes -<disabled> +<enabled>".toList

-- DispatchCycleCompleted (success) (118-124)
#guard logFact logFmt (.dispatchCycleCompleted command ⟨[], []⟩ []) =
  none

-- DispatchCycleCompleted (failure) (125-132)
#guard logFact logFmt (.dispatchCycleCompleted command ⟨[], []⟩ [.handler "<aggregate>" .aggregate "<error>"]) =
  none

-- DispatchBegun (134-140)
#guard logFact logFmt (.dispatchBegun command) =
  some "= 10  ∵ 10  ⋲ 10  ▼ ⚙    stubs.CommandStub[TypeA]? ● command(stubs.TypeA:A1, valid)".toList

-- DispatchCompleted (success) (141-147)
#guard logFact logFmt (.dispatchCompleted command []) =
  none

-- DispatchCompleted (failure) (148-155)
#guard logFact logFmt (.dispatchCompleted command [.handler "<aggregate>" .aggregate "<error>"]) =
  none

-- HandlingBegun (157-161)
#guard logFact logFmt (.handlingBegun aggregate command) =
  none

-- HandlingCompleted (success) (162-166)
#guard logFact logFmt (.handlingCompleted aggregate command none) =
  none

-- HandlingCompleted (failure) (167-175)
#guard logFact logFmt (.handlingCompleted aggregate command (some "<error>")) =
  some "= 10  ∵ 10  ⋲ 10  ▽ ∴ ✖  <aggregate> ● <error>".toList

-- HandlingSkipped (handler type) (176-184)
#guard logFact logFmt (.handlingSkipped aggregate command .typeDisabled) =
  some "= 10  ∵ 10  ⋲ 10  ▼ ∴    <aggregate> ● handler skipped because aggregate handlers are disabled".toList

-- HandlingSkipped (individual handler) (185-193)
#guard logFact logFmt (.handlingSkipped aggregate command .individuallyDisabled) =
  some "= 10  ∵ 10  ⋲ 10  ▼ ∴    <aggregate> ● handler skipped because it is disabled during this tick of the test engine".toList

-- HandlingSkipped (individual handler via configuration) (194-202)
#guard logFact logFmt (.handlingSkipped aggregate command .disabledByConfiguration) =
  some "= 10  ∵ 10  ⋲ 10  ▼ ∴    <aggregate> ● handler skipped because it is disabled by its Configure() method".toList

-- TickCycleBegun (206-220)
#guard logFact logFmt (.tickCycleBegun info) =
  some "= --  ∵ --  ⋲ --    ⚙    ticking ● 2006-01-02T15:04:05+07:00 ● enabled: +aggregates +processes -<disabled> +<enabled>".toList

-- TickCycleCompleted (success) (221-225)
#guard logFact logFmt (.tickCycleCompleted ⟨[], []⟩ []) =
  none

-- TickCycleCompleted (failure) (226-232)
#guard logFact logFmt (.tickCycleCompleted ⟨[], []⟩ [.handler "<aggregate>" .aggregate "<error>"]) =
  none

-- TickBegun (234-238)
#guard logFact logFmt (.tickBegun aggregate) =
  none

-- TickCompleted (success) (239-243)
#guard logFact logFmt (.tickCompleted aggregate none) =
  none

-- TickCompleted (failure) (244-251)
#guard logFact logFmt (.tickCompleted aggregate (some "<error>")) =
  some "= --  ∵ --  ⋲ --    ∴ ✖  <aggregate> ● <error>".toList

-- AggregateInstanceLoaded (255-263)
#guard logFact logFmt (.aggLoaded aggregate "<instance>" command) =
  some "= 10  ∵ 10  ⋲ 10  ▼ ∴    <aggregate> <instance> ● loaded an existing instance".toList

-- AggregateInstanceNotFound (264-272)
#guard logFact logFmt (.aggNotFound aggregate "<instance>" command) =
  some "= 10  ∵ 10  ⋲ 10  ▼ ∴    <aggregate> <instance> ● instance does not yet exist".toList

-- AggregateInstanceCreated (273-281)
#guard logFact logFmt (.aggCreated aggregate "<instance>" command) =
  some "= 10  ∵ 10  ⋲ 10  ▼ ∴    <aggregate> <instance> ● instance created".toList

-- AggregateInstanceDestroyed (282-290)
#guard logFact logFmt (.aggDestroyed aggregate "<instance>" command) =
  some "= 10  ∵ 10  ⋲ 10  ▼ ∴    <aggregate> <instance> ● instance destroyed".toList

-- AggregateInstanceDestructionReverted (291-299)
#guard logFact logFmt (.aggReverted aggregate "<instance>" command) =
  some "= 10  ∵ 10  ⋲ 10  ▼ ∴    <aggregate> <instance> ● destruction of instance reverted".toList

-- EventRecordedByAggregate (300-314)
#guard logFact logFmt (.aggEvent aggregate "<instance>" command (command.child 20 (msg (evt "TypeA") "A1") 0 origin)) =
  some "= 20  ∵ 10  ⋲ 10  ▲ ∴    <aggregate> <instance> ● recorded an event ● stubs.EventStub[TypeA]! ● event(stubs.TypeA:A1, valid)".toList

-- MessageLoggedByAggregate (315-325)
#guard logFact logFmt (.aggLog aggregate "<instance>" command "<message>") =
  some "= 10  ∵ 10  ⋲ 10  ▼ ∴    <aggregate> <instance> ● <message>".toList

-- ProcessInstanceLoaded (329-337)
#guard logFact logFmt (.procLoaded process "<instance>" event) =
  some "= 10  ∵ 10  ⋲ 10  ▼ ≡    <process> <instance> ● loaded an existing instance".toList

-- ProcessEventIgnored (338-345)
#guard logFact logFmt (.procEventIgnored process event) =
  some "= 10  ∵ 10  ⋲ 10  ▼ ≡    <process> ● event ignored because it was not routed to any instance".toList

-- ProcessTimeoutIgnored (346-354)
#guard logFact logFmt (.procTimeoutIgnored process "<instance>" event) =
  some "= 10  ∵ 10  ⋲ 10  ▼ ≡    <process> <instance> ● timeout ignored because the target instance no longer exists".toList

-- ProcessInstanceNotFound (355-363)
#guard logFact logFmt (.procNotFound process "<instance>" event) =
  some "= 10  ∵ 10  ⋲ 10  ▼ ≡    <process> <instance> ● instance does not yet exist".toList

-- ProcessInstanceBegun (364-372)
#guard logFact logFmt (.procBegun process "<instance>" event) =
  some "= 10  ∵ 10  ⋲ 10  ▼ ≡    <process> <instance> ● instance begun".toList

-- ProcessInstanceEnded (373-381)
#guard logFact logFmt (.procEnded process "<instance>" event) =
  some "= 10  ∵ 10  ⋲ 10  ▼ ≡    <process> <instance> ● instance ended".toList

-- ProcessInstanceEndingReverted (382-390)
#guard logFact logFmt (.procReverted process "<instance>" event) =
  some "= 10  ∵ 10  ⋲ 10  ▼ ≡    <process> <instance> ● reverted ending process instance".toList

-- CommandExecutedByProcess (391-405)
#guard logFact logFmt (.procCommand process "<instance>" event (event.child 20 (msg (cmd "TypeA") "A1") 0 origin)) =
  some "= 20  ∵ 10  ⋲ 10  ▲ ≡    <process> <instance> ● executed a command ● stubs.CommandStub[TypeA]? ● command(stubs.TypeA:A1, valid)".toList

-- TimeoutScheduledByProcess (406-424)
#guard logFact logFmt (.procTimeout process "<instance>" event (event.childTimeout 20 (msg (tmo "TypeA") "A1") 0 now origin)) =
  some "= 20  ∵ 10  ⋲ 10  ▲ ≡    <process> <instance> ● scheduled a timeout for 2006-01-02T15:04:05+07:00 ● stubs.TimeoutStub[TypeA]@ ● timeout(stubs.TypeA:A1, valid)".toList

-- MessageLoggedByProcess (425-435)
#guard logFact logFmt (.procLog process "<instance>" event "<message>") =
  some "= 10  ∵ 10  ⋲ 10  ▼ ≡    <process> <instance> ● <message>".toList

-- EventRecordedByIntegration (439-452)
#guard logFact logFmt (.intEvent integration command (command.child 20 (msg (evt "TypeA") "A1") 0 origin)) =
  some "= 20  ∵ 10  ⋲ 10  ▲ ⨝    <integration> ● recorded an event ● stubs.EventStub[TypeA]! ● event(stubs.TypeA:A1, valid)".toList

-- MessageLoggedByIntegration (453-462)
#guard logFact logFmt (.intLog integration command "<message>") =
  some "= 10  ∵ 10  ⋲ 10  ▼ ⨝    <integration> ● <message>".toList

-- ProjectionCompactionBegun (466-470)
#guard logFact logFmt (.prjCompactBegun projection) =
  none

-- ProjectionCompactionCompleted (success) (472-478)
#guard logFact logFmt (.prjCompactCompleted projection none) =
  some "= --  ∵ --  ⋲ --    Σ    <projection> ● compacted".toList

-- ProjectionCompactionCompleted (failure) (480-487)
#guard logFact logFmt (.prjCompactCompleted projection (some "<error>")) =
  some "= --  ∵ --  ⋲ --    Σ ✖  <projection> ● compaction failed: <error>".toList

-- MessageLoggedByProjection (489-498)
#guard logFact logFmt (.prjLog projection (some command) "<message>") =
  some "= 10  ∵ 10  ⋲ 10  ▼ Σ    <projection> ● <message>".toList

-- MessageLoggedByProjection (compacting) (500-508)
#guard logFact logFmt (.prjLog projection none "<message>") =
  some "= --  ∵ --  ⋲ --    Σ    <projection> ● <message>".toList

/-! ## `internal/inflect/inflect_test.go` -/

#guard Inflect.sprint .command "a <message>" = "a command"
#guard Inflect.sprint .command "A <MESSAGE>" = "A COMMAND"
#guard Inflect.sprint .event "a <message>" = "an event"
#guard Inflect.sprint .event "A <MESSAGE>" = "AN EVENT"
#guard Inflect.sprint .timeout "a <message>" = "a timeout"
#guard Inflect.sprint .timeout "A <MESSAGE>" = "A TIMEOUT"
#guard Inflect.sprint .command "an <message>" = "a command"
#guard Inflect.sprint .command "AN <MESSAGE>" = "A COMMAND"
#guard Inflect.sprint .event "an <message>" = "an event"
#guard Inflect.sprint .event "AN <MESSAGE>" = "AN EVENT"
#guard Inflect.sprint .timeout "an <message>" = "a timeout"
#guard Inflect.sprint .timeout "AN <MESSAGE>" = "A TIMEOUT"
#guard Inflect.sprint .command "the <messages>" = "the commands"
#guard Inflect.sprint .command "THE <MESSAGES>" = "THE COMMANDS"
#guard Inflect.sprint .event "the <messages>" = "the events"
#guard Inflect.sprint .event "THE <MESSAGES>" = "THE EVENTS"
#guard Inflect.sprint .timeout "the <messages>" = "the timeouts"
#guard Inflect.sprint .timeout "THE <MESSAGES>" = "THE TIMEOUTS"
#guard Inflect.sprint .command "1 <messages>" = "1 command"
#guard Inflect.sprint .command "1 <MESSAGES>" = "1 COMMAND"
#guard Inflect.sprint .event "1 <messages>" = "1 event"
#guard Inflect.sprint .event "1 <MESSAGES>" = "1 EVENT"
#guard Inflect.sprint .timeout "1 <messages>" = "1 timeout"
#guard Inflect.sprint .timeout "1 <MESSAGES>" = "1 TIMEOUT"
#guard Inflect.sprint .command "21 <messages>" = "21 commands"
#guard Inflect.sprint .command "21 <MESSAGES>" = "21 COMMANDS"
#guard Inflect.sprint .event "21 <messages>" = "21 events"
#guard Inflect.sprint .event "21 <MESSAGES>" = "21 EVENTS"
#guard Inflect.sprint .timeout "21 <messages>" = "21 timeouts"
#guard Inflect.sprint .timeout "21 <MESSAGES>" = "21 TIMEOUTS"
#guard Inflect.sprint .command "only 1 <messages>" = "only 1 command"
#guard Inflect.sprint .command "ONLY 1 <MESSAGES>" = "ONLY 1 COMMAND"
#guard Inflect.sprint .event "only 1 <messages>" = "only 1 event"
#guard Inflect.sprint .event "ONLY 1 <MESSAGES>" = "ONLY 1 EVENT"
#guard Inflect.sprint .timeout "only 1 <messages>" = "only 1 timeout"
#guard Inflect.sprint .timeout "ONLY 1 <MESSAGES>" = "ONLY 1 TIMEOUT"
#guard Inflect.sprint .command "only 21 <messages>" = "only 21 commands"
#guard Inflect.sprint .command "ONLY 21 <MESSAGES>" = "ONLY 21 COMMANDS"
#guard Inflect.sprint .event "only 21 <messages>" = "only 21 events"
#guard Inflect.sprint .event "ONLY 21 <MESSAGES>" = "ONLY 21 EVENTS"
#guard Inflect.sprint .timeout "only 21 <messages>" = "only 21 timeouts"
#guard Inflect.sprint .timeout "ONLY 21 <MESSAGES>" = "ONLY 21 TIMEOUTS"
#guard Inflect.sprint .command "<produce> a specific <message>" = "execute a specific command"
#guard Inflect.sprint .command "<PRODUCE> A SPECIFIC <MESSAGE>" = "EXECUTE A SPECIFIC COMMAND"
#guard Inflect.sprint .event "<produce> a specific <message>" = "record a specific event"
#guard Inflect.sprint .event "<PRODUCE> A SPECIFIC <MESSAGE>" = "RECORD A SPECIFIC EVENT"
#guard Inflect.sprint .timeout "<produce> a specific <message>" = "schedule a specific timeout"
#guard Inflect.sprint .timeout "<PRODUCE> A SPECIFIC <MESSAGE>" = "SCHEDULE A SPECIFIC TIMEOUT"
#guard Inflect.sprint .command "the <message> was <produced>" = "the command was executed"
#guard Inflect.sprint .command "THE <MESSAGE> WAS <PRODUCED>" = "THE COMMAND WAS EXECUTED"
#guard Inflect.sprint .event "the <message> was <produced>" = "the event was recorded"
#guard Inflect.sprint .event "THE <MESSAGE> WAS <PRODUCED>" = "THE EVENT WAS RECORDED"
#guard Inflect.sprint .timeout "the <message> was <produced>" = "the timeout was scheduled"
#guard Inflect.sprint .timeout "THE <MESSAGE> WAS <PRODUCED>" = "THE TIMEOUT WAS SCHEDULED"
#guard Inflect.sprint .command "via a <dispatcher>" = "via a dogma.CommandExecutor"
#guard Inflect.sprint .command "VIA A <DISPATCHER>" = "VIA A DOGMA.COMMANDEXECUTOR"
#guard Inflect.sprint .event "via a <dispatcher>" = "via a dogma.EventRecorder"
#guard Inflect.sprint .event "VIA A <DISPATCHER>" = "VIA A DOGMA.EVENTRECORDER"

end Verif.Conform
