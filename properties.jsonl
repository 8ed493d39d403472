{"id": "C01", "title": "Message IDs are unique and increasing", "statement": "Within one engine, between two resets, every message that enters or is produced gets an ID that is strictly greater than every ID handed out before it, so no two messages share an ID - whether handlers succeed, fail, panic or the context is cancelled.", "quantifier": "every history of engine operations (dispatch, tick, reset), every application configuration and every behaviour of the user's handlers", "why_tests_cant": "Tests only look at a few IDs in short runs; collisions would need specific interleavings of failures and retries.", "anchors": ["envelope/id.go:MessageIDGenerator.Next", "engine/engine.go:Engine.Dispatch", "engine/internal/*/scope.go"]}
{"id": "C02", "title": "Causation links point at the message being handled", "statement": "Every message produced by a handler has a CausationID equal to the MessageID of the message that handler was handling at that time, and that message was produced or dispatched earlier (strictly smaller ID).", "quantifier": "every history of engine operations (dispatch, tick, reset), every application configuration and every behaviour of the user's handlers", "why_tests_cant": "Must hold for every produced message in every chain of any length.", "anchors": ["envelope/envelope.go:NewCommand,NewEvent,NewTimeout", "engine/internal/*/scope.go"]}
{"id": "C03", "title": "Correlation IDs identify the root message", "statement": "The CorrelationID of every message equals the MessageID of the root message from which it descends along causation links; in particular all messages dispatched during one Dispatch() call carry the ID of the message passed to that call.", "quantifier": "every history of engine operations (dispatch, tick, reset), every application configuration and every behaviour of the user's handlers", "why_tests_cant": "Chains have unbounded length.", "anchors": ["envelope/envelope.go", "engine/engine.go:dispatch"]}
{"id": "C04", "title": "Produced messages carry engine time and true origin", "statement": "Every produced message is created at the engine time of the running operation, and its origin names the handler, handler type and instance that produced it. Messages passed to Dispatch() have no origin.", "quantifier": "every history of engine operations (dispatch, tick, reset), every application configuration and every behaviour of the user's handlers", "why_tests_cant": "Quantifies over all handlers, times and instances.", "anchors": ["envelope/origin.go", "engine/internal/*/scope.go"]}
{"id": "C05", "title": "FIFO, complete dispatch", "statement": "When an operation finishes without panic and without context cancellation, the sequence of messages dispatched is exactly the operation's initial messages followed by the messages emitted by each handling in the order the handlings took place: nothing is lost, duplicated or reordered.", "quantifier": "every history of engine operations (dispatch, tick, reset), every application configuration and every behaviour of the user's handlers, for every run that terminates", "why_tests_cant": "Unbounded queue length and arbitrary fan-out.", "anchors": ["engine/engine.go:dispatch,Dispatch,tick"]}
{"id": "C06", "title": "At-most-once dispatch", "statement": "No message ID is ever dispatched twice between two resets, even across operations, failures, panics and cancellations.", "quantifier": "every history of engine operations (dispatch, tick, reset), every application configuration and every behaviour of the user's handlers", "why_tests_cant": "Needs an invariant over queue, pending timeouts and the past.", "anchors": ["engine/engine.go:dispatch,tick", "engine/internal/process/controller.go:Tick"]}
{"id": "C07", "title": "Exact routing", "statement": "A dispatched command or event is offered, in registration order, once to each handler that consumes its type and to no other handler; each offer is either a handling or a skip.", "quantifier": "every history of engine operations (dispatch, tick, reset), every application configuration and every behaviour of the user's handlers", "why_tests_cant": "All configurations and message types.", "anchors": ["engine/engine.go:dispatch,handle", "engine/configurer.go:registerController"]}
{"id": "C08", "title": "Timeouts return to their origin", "statement": "A dispatched timeout is offered only to the process handler that scheduled it, and handled (if at all) only by the instance that scheduled it.", "quantifier": "every history of engine operations (dispatch, tick, reset), every application configuration and every behaviour of the user's handlers", "why_tests_cant": "All histories.", "anchors": ["engine/engine.go:dispatch", "engine/internal/process/controller.go:routeTimeout"]}
{"id": "C09", "title": "Only declared, valid messages are produced", "statement": "Every event recorded, command executed or timeout scheduled through a scope has a type the producing handler declared and passed its own validation; any other attempt panics and changes nothing (no ID consumed, no fact, no message); the panic's description names the type of the message and, if the type was declared, ends with the validation error.", "quantifier": "every history of engine operations (dispatch, tick, reset), every application configuration and every behaviour of the user's handlers", "why_tests_cant": "All handler behaviours, including handlers that recover the panic.", "anchors": ["engine/internal/aggregate/scope.go:RecordEvent", "engine/internal/process/scope.go", "engine/internal/integration/scope.go"]}
{"id": "C10", "title": "Error isolation and aggregation", "statement": "A handler error does not stop other handlers or queued messages from being processed; when the operation is not cancelled and does not panic its result is exactly the list of all handler errors in order of occurrence, each tagged with the handler name and type (nil when there are none).", "quantifier": "every history of engine operations (dispatch, tick, reset), every application configuration and every behaviour of the user's handlers", "why_tests_cant": "Any subset of handlers may fail at any point.", "anchors": ["engine/engine.go:dispatch,tick"]}
{"id": "C11", "title": "Cancellation stops work and wins", "statement": "If the context is cancelled while a message is being handled, the remaining handlers of that message still run, no further message is dispatched, and Dispatch() returns exactly the context error.", "quantifier": "every history of engine operations (dispatch, tick, reset), every application configuration and every behaviour of the user's handlers, every cancellation point", "why_tests_cant": "Every crash/cancel point.", "anchors": ["engine/engine.go:dispatch,tick"]}
{"id": "C12", "title": "Facts are well bracketed", "statement": "In the fact stream of an operation that does not panic, cycle-begun/completed, dispatch-begun/completed, handling-begun/completed, tick-begun/completed are properly nested and matched with the same message and handler.", "quantifier": "every history of engine operations (dispatch, tick, reset), every application configuration and every behaviour of the user's handlers", "why_tests_cant": "All interleavings of facts from user code.", "anchors": ["engine/engine.go", "fact/dispatch.go", "fact/tick.go"]}
{"id": "C13", "title": "Rejected dispatches have no effect", "statement": "Dispatch() of a timeout, an invalid message, or a message no handler consumes panics without notifying any fact, calling any handler or changing any handler state; only an ID is consumed.", "quantifier": "all messages, engines states and configurations", "why_tests_cant": "All messages/states.", "anchors": ["engine/engine.go:Dispatch"]}
{"id": "C14", "title": "Enablement precedence", "statement": "A handler takes part in an operation iff: its by-name option says so if given (last one wins); otherwise it is not disabled in its configuration and its handler type is enabled (default true, last option wins). The skip reason reported matches the rule that applied. The facts that an operation begins and (if it returns) ends with say so for every handler, and the last one has the errors that are returned.", "quantifier": "all option lists and handler configurations", "why_tests_cant": "Option lists are unbounded.", "anchors": ["engine/engine.go:skipHandler", "engine/operationoption.go"]}
{"id": "C15", "title": "Disabled handlers are inert", "statement": "During an operation in which a handler is not enabled, none of its user code is called and none of its engine-held state changes.", "quantifier": "every history of engine operations (dispatch, tick, reset), every application configuration and every behaviour of the user's handlers", "why_tests_cant": "All histories.", "anchors": ["engine/engine.go:handle,tick,skipHandler"]}
{"id": "C16", "title": "A panicking handling commits nothing", "statement": "If user code panics while handling a message, the engine-held state of that handler (aggregate history, set of process instances, pending timeouts) is what it was before that handling, apart from in-place mutation of an existing process root, and the engine accepts further operations.", "quantifier": "every history of engine operations (dispatch, tick, reset), every application configuration and every behaviour of the user's handlers, every panic point", "why_tests_cant": "Every crash point in user code.", "anchors": ["engine/internal/aggregate/controller.go:Handle", "engine/internal/process/controller.go:Handle", "engine/engine.go:Dispatch"]}
{"id": "C17", "title": "Isolation between handlers and instances", "statement": "Handling a message changes engine-held state only of the handler that handled it, and only of the instance it was routed to.", "quantifier": "every history of engine operations (dispatch, tick, reset), every application configuration and every behaviour of the user's handlers", "why_tests_cant": "All pairs of instances and handlers.", "anchors": ["engine/internal/aggregate/controller.go", "engine/internal/process/controller.go"]}
{"id": "C18", "title": "Reset restores a fresh engine", "statement": "After Reset(), aggregate histories, process instances, pending timeouts and the ID sequence are as in a new engine and every resetter has run once in registration order, so later operations behave as on a new engine. (Full claim is FALSE of the code for the projection compaction clock.)", "quantifier": "all engine states and all later operations", "why_tests_cant": "Requires equivalence for all continuations.", "anchors": ["engine/engine.go:Reset", "engine/internal/projection/controller.go:Reset"]}
{"id": "C19", "title": "Operation options: defaults and last-wins", "statement": "The effective engine time, per-type and per-name enablement and observers of an operation are determined by the option list: the last setting of each wins, defaults apply otherwise, observers accumulate in order, and naming an unknown handler panics.", "quantifier": "all option lists", "why_tests_cant": "Unbounded lists.", "anchors": ["engine/operationoption.go"]}
{"id": "C20", "title": "All observers see the same facts in order", "statement": "Every observer registered for an operation receives exactly the same sequence of facts, once each, in the order they occurred.", "quantifier": "all observer lists and fact sequences", "why_tests_cant": "Unbounded.", "anchors": ["fact/observer.go:ObserverGroup.Notify", "fact/observer.go:Buffer"]}
{"id": "C21", "title": "Aggregate history is the log of completed handlings", "statement": "For every aggregate instance, the stored history is exactly the events recorded for it in completed handlings since the last completed handling that left it destroyed (or since reset).", "quantifier": "every history of engine operations (dispatch, tick, reset), every application configuration and every behaviour of the user's handlers", "why_tests_cant": "Refinement over all histories.", "anchors": ["engine/internal/aggregate/controller.go:Handle", "engine/internal/aggregate/scope.go"]}
{"id": "C22", "title": "Aggregate root is rebuilt by replay", "statement": "The root passed to HandleCommand() is a fresh root to which exactly the instance's historical events have been applied, in order. Changes that earlier commands made to their root other than by recording events are not part of it.", "quantifier": "every history of engine operations (dispatch, tick, reset), every application configuration and every behaviour of the user's handlers", "why_tests_cant": "All histories.", "anchors": ["engine/internal/aggregate/controller.go:Handle"]}
{"id": "C23", "title": "Loaded/not-found facts tell the truth", "statement": "An aggregate handling reports 'loaded' iff the last completed handling for that instance left it existing according to the facts that handling reported (created / destruction reverted / destroyed, or loaded); otherwise it reports 'not found'.", "quantifier": "every history of engine operations (dispatch, tick, reset), every application configuration and every behaviour of the user's handlers", "why_tests_cant": "All histories.", "anchors": ["engine/internal/aggregate/controller.go:Handle"]}
{"id": "C24", "title": "Destroyed aggregates start over", "statement": "If a command handling ends with the instance destroyed, its history is deleted, the events it recorded are still dispatched, and the next command for the same ID sees a new root and 'not found'.", "quantifier": "every history of engine operations (dispatch, tick, reset), every application configuration and every behaviour of the user's handlers", "why_tests_cant": "All histories.", "anchors": ["engine/internal/aggregate/scope.go:Destroy", "engine/internal/aggregate/controller.go:Handle"]}
{"id": "C25", "title": "Create/destroy/revert facts alternate correctly", "statement": "Within one command handling: 'created' is reported only if the instance did not exist at the start and at most once before a destroy; 'destroyed' only while it exists; 'destruction reverted' only after a destroy; and after the handling the instance exists iff these facts say so.", "quantifier": "all command handlings", "why_tests_cant": "All op sequences in a handler.", "anchors": ["engine/internal/aggregate/scope.go"]}
{"id": "C26", "title": "Replay agrees with the live root", "statement": "The root that the next command sees equals the root as it was when the previous command for that instance completed. (FALSE when a destroy was reverted in the same handling: the old history is kept although the live root was reset; and FALSE when the handler changed its root other than by recording events: the next command does not see that.)", "quantifier": "every history of engine operations (dispatch, tick, reset), every application configuration and every behaviour of the user's handlers", "why_tests_cant": "All op sequences.", "anchors": ["engine/internal/aggregate/scope.go:Destroy", "engine/internal/aggregate/controller.go:Handle"]}
{"id": "C27", "title": "Bad routing and nil roots are reported", "statement": "Routing to an empty instance ID or returning a nil root panics with an unexpected-behaviour value naming the handler and method, before any handler method that could record messages is called, and no state changes.", "quantifier": "all messages and states", "why_tests_cant": "All inputs.", "anchors": ["engine/internal/aggregate/controller.go:Handle", "engine/internal/process/controller.go:routeEvent,Handle"]}
{"id": "C28", "title": "Process instance lifecycle", "statement": "A process instance exists after a history iff some handling for it completed successfully without leaving it ended, and no later handling that completed successfully left it ended; the loaded/not-found/begun facts agree with this.", "quantifier": "every history of engine operations (dispatch, tick, reset), every application configuration and every behaviour of the user's handlers", "why_tests_cant": "Refinement over all histories.", "anchors": ["engine/internal/process/controller.go"]}
{"id": "C29", "title": "Pending timeouts are conserved", "statement": "The pending timeouts of a process handler are exactly those scheduled for the future in successfully completed, non-ended handlings, minus those released by a tick at or after their time and minus those of instances ended since; they are always kept in chronological order.", "quantifier": "every history of engine operations (dispatch, tick, reset), every application configuration and every behaviour of the user's handlers", "why_tests_cant": "Refinement over all histories, for every (unstable) sort order.", "anchors": ["engine/internal/process/controller.go:Tick,update,delete"]}
{"id": "C30", "title": "No timeout is early", "statement": "HandleTimeout() is only ever called in an operation whose engine time is at or after the time the timeout was scheduled for.", "quantifier": "every history of engine operations (dispatch, tick, reset), every application configuration and every behaviour of the user's handlers", "why_tests_cant": "All histories and clocks, even ones running backwards.", "anchors": ["engine/internal/process/controller.go:Tick", "engine/internal/process/scope.go:ScheduleTimeout"]}
{"id": "C31", "title": "No due timeout is left behind", "statement": "When Tick() (AdvanceTime) finishes without panic or cancellation, no enabled process handler has a pending timeout scheduled at or before the tick's time - including timeouts scheduled by the tick itself.", "quantifier": "every history of engine operations (dispatch, tick, reset), every application configuration and every behaviour of the user's handlers", "why_tests_cant": "All histories.", "anchors": ["engine/engine.go:tick", "engine/internal/process/controller.go"]}
{"id": "C32", "title": "Due timeouts are delivered in chronological order", "statement": "The timeouts released by one tick for one process handler are dispatched in order of scheduled time.", "quantifier": "every history of engine operations (dispatch, tick, reset), every application configuration and every behaviour of the user's handlers", "why_tests_cant": "All histories; unstable sort.", "anchors": ["engine/internal/process/controller.go:Tick,update"]}
{"id": "C33", "title": "Ending a process discards its timeouts", "statement": "When a handling leaves an instance ended, no pending timeout of that instance remains and timeouts scheduled in that same handling are neither kept nor dispatched, while its commands are dispatched.", "quantifier": "every history of engine operations (dispatch, tick, reset), every application configuration and every behaviour of the user's handlers", "why_tests_cant": "All histories.", "anchors": ["engine/internal/process/controller.go:Handle,delete"]}
{"id": "C34", "title": "Timeouts never reach a different incarnation", "statement": "A timeout scheduled by a process instance that has since ended is never handled. (FALSE when an already-released timeout is still queued, the instance ends and is begun again by a queued event.)", "quantifier": "every history of engine operations (dispatch, tick, reset), every application configuration and every behaviour of the user's handlers", "why_tests_cant": "Needs specific queue orders.", "anchors": ["engine/internal/process/controller.go:routeTimeout", "engine/engine.go:dispatch"]}
{"id": "C35", "title": "Ending can be reverted", "statement": "Executing a command or scheduling a timeout after End() in the same handling reports 'ending reverted' and the instance (and its old timeouts) survive, unless End() is called again; 'ended' and 'reverted' strictly alternate starting with 'ended'.", "quantifier": "all process handlings", "why_tests_cant": "All op sequences.", "anchors": ["engine/internal/process/scope.go"]}
{"id": "C36", "title": "A failing process handler leaves no trace", "statement": "If HandleEvent()/HandleTimeout() returns an error, no command or timeout it produced is dispatched or kept, no instance is created or ended.", "quantifier": "every history of engine operations (dispatch, tick, reset), every application configuration and every behaviour of the user's handlers", "why_tests_cant": "All op sequences.", "anchors": ["engine/internal/process/controller.go:Handle"]}
{"id": "C37", "title": "Immediate timeouts fire in the same operation", "statement": "A timeout scheduled for a time not after the engine time is dispatched in the same operation after the handling's commands (if the handling succeeds and does not leave the instance ended).", "quantifier": "every history of engine operations (dispatch, tick, reset), every application configuration and every behaviour of the user's handlers", "why_tests_cant": "All op sequences.", "anchors": ["engine/internal/process/scope.go:ScheduleTimeout", "engine/internal/process/controller.go:Handle"]}
{"id": "C38", "title": "Integration events survive the handler's error", "statement": "Events recorded by an integration handler are dispatched in order even when HandleCommand() returns an error.", "quantifier": "every history of engine operations (dispatch, tick, reset), every application configuration and every behaviour of the user's handlers", "why_tests_cant": "All op sequences.", "anchors": ["engine/internal/integration/controller.go:Handle"]}
{"id": "C39", "title": "Projection OCC protocol", "statement": "For each event offered, a projection sees ResourceVersion(id); if the version is non-empty nothing else happens; otherwise exactly one HandleEvent(id, nil, [1]) and, iff it reported success without error, exactly one CloseResource(id). Projections produce no messages.", "quantifier": "every history of engine operations (dispatch, tick, reset), every application configuration and every behaviour of the user's handlers", "why_tests_cant": "All handler replies.", "anchors": ["engine/internal/projection/controller.go:Handle"]}
{"id": "C40", "title": "Compaction interval", "statement": "Ticks compact a projection iff at least CompactInterval of engine time passed since its last compaction by a tick (a projection never compacted counts as compacted at Go's zero time); hence any two tick-compactions in one engine are at least CompactInterval apart. Compactions in parallel with handling do not count.", "quantifier": "all sequences of tick times, including non-monotone ones", "why_tests_cant": "Unbounded sequences.", "anchors": ["engine/internal/projection/controller.go:Tick"]}
{"id": "C41", "title": "Parallel compaction is bracketed in every schedule", "statement": "When compaction runs in parallel with handling, under every goroutine schedule 'compaction begun' precedes and 'compaction completed' follows every log message of both sides, no log message is lost, and each side's messages keep their order.", "quantifier": "all schedules", "why_tests_cant": "Schedules.", "anchors": ["engine/internal/projection/controller.go:Handle"]}
{"id": "C42", "title": "Projection error precedence", "statement": "The error of a projection handling is ResourceVersion's, else HandleEvent's, else CloseResource's, else Compact's.", "quantifier": "all handler replies", "why_tests_cant": "All reply combinations.", "anchors": ["engine/internal/projection/controller.go:Handle"]}
{"id": "C43", "title": "UnexpectedMessage panics are enriched exactly once", "statement": "A dogma.UnexpectedMessage panic raised in a user method that is given a message surfaces as a panicx.UnexpectedMessage naming the innermost interface method the engine called; a panic raised in any other user method (New, ResourceVersion, CloseResource, Compact), and every other panic value, surfaces unchanged.", "quantifier": "all panic values and nesting of enrichment", "why_tests_cant": "All values.", "anchors": ["engine/internal/panicx/unexpectedmessage.go", "engine/internal/aggregate"]}
{"id": "C44", "title": "ToExecuteCommand/ToRecordEvent verdict", "statement": "The expectation passes iff the action's facts include a produced message (or, for Call(), a message dispatched through the executor) of the same type that the configured comparator deems equal.", "quantifier": "all fact sequences, comparators and messages", "why_tests_cant": "All fact sequences.", "anchors": ["expectation.message.go", "expectation.messagecommon.go:tracker"]}
{"id": "C45", "title": "ToExecuteCommandType/ToRecordEventType verdict", "statement": "The expectation passes iff the facts include a produced (or executor-dispatched) message of exactly that type.", "quantifier": "all fact sequences", "why_tests_cant": "All fact sequences.", "anchors": ["expectation.messagetype.go"]}
{"id": "C46", "title": "...Matching verdict", "statement": "ToExecuteCommandMatching/ToRecordEventMatching pass iff some produced message of type T makes the predicate return nil.", "quantifier": "all fact sequences and predicates", "why_tests_cant": "All fact sequences.", "anchors": ["expectation.messagematch.go"]}
{"id": "C47", "title": "ToOnly...Matching verdict", "statement": "ToOnlyExecuteCommandsMatching/ToOnlyRecordEventsMatching pass iff every produced message of the kind is of type T and the predicate returned nil or IgnoreMessage for it (hence they pass vacuously).", "quantifier": "all fact sequences and predicates", "why_tests_cant": "All fact sequences.", "anchors": ["expectation.messagematch.go"]}
{"id": "C48", "title": "Composite verdicts", "statement": "AllOf passes iff all children pass, AnyOf iff at least one, NoneOf iff none, Not iff its child does not, for arbitrarily nested expectations; constructing with no children panics.", "quantifier": "all expectation trees and fact sequences", "why_tests_cant": "Unbounded trees.", "anchors": ["expectation.composite.go", "expectation.not.go"]}
{"id": "C49", "title": "Boolean laws of composites", "statement": "NoneOf(x) and Not(x) agree; Not(AnyOf xs) agrees with NoneOf xs and AllOf(Not xs); Not(AllOf xs) agrees with AnyOf(Not xs); Not(Not x) agrees with x.", "quantifier": "all expectation trees and fact sequences", "why_tests_cant": "Unbounded trees.", "anchors": ["expectation.composite.go", "expectation.not.go"]}
{"id": "C50", "title": "ToRepeatedly verdict", "statement": "ToRepeatedly(n, f) passes iff f(0..n-1) all pass, calls f once per index in order until the first failure to build, and reports the first failing iteration and the number of failures.", "quantifier": "all n, factories and facts", "why_tests_cant": "Unbounded n.", "anchors": ["expectation.repeat.go"]}
{"id": "C51", "title": "ToSatisfy verdict", "statement": "ToSatisfy passes iff the user function skipped, or never failed; it sees exactly all facts of the action in order; code after FailNow/Fatal/Skip does not run; other panics propagate. (The last clause is FALSE if a cleanup function itself panics or aborts.)", "quantifier": "all user functions and fact sequences", "why_tests_cant": "All programs over SatisfyT.", "anchors": ["expectation.satisfy.go"]}
{"id": "C52", "title": "ToSatisfy cleanups", "statement": "All functions registered with Cleanup() run once, in reverse order, also when the function aborts. (FALSE if a cleanup itself aborts, or registers further cleanups.)", "quantifier": "all user functions", "why_tests_cant": "All programs.", "anchors": ["expectation.satisfy.go:Done,close"]}
{"id": "C53", "title": "Reports agree with verdicts", "statement": "For every expectation tree, the report's Ok equals the predicate's Ok, every (sub-)report carries the tree's verdict, and sub-reports correspond one-to-one to children for composites.", "quantifier": "all trees, facts and contexts", "why_tests_cant": "Unbounded trees.", "anchors": ["expectation.*.go:Report", "report.go"]}
{"id": "C54", "title": "Impossible expectations are truly impossible", "statement": "If building a message expectation's predicate is refused because the application never uses/produces that type, then no action against any engine for that application could have made it pass. (FALSE for the ToOnly... expectations, which are refused although they would hold vacuously.)", "quantifier": "every history of engine operations (dispatch, tick, reset), every application configuration and every behaviour of the user's handlers", "why_tests_cant": "Links static guard to all runs.", "anchors": ["expectation.messagecommon.go:guardAgainstExpectationOnImpossibleType"]}
{"id": "C55", "title": "Match counts add up", "statement": "For match expectations, matched + ignored + total failures equals the number of messages of the relevant kind seen, so a failing 'only' expectation reports k of n with k < n.", "quantifier": "all fact sequences", "why_tests_cant": "All fact sequences.", "anchors": ["expectation.messagematch.go"]}
{"id": "C56", "title": "The virtual clock never runs backwards", "statement": "No sequence of actions moves the test's virtual clock backwards; only AdvanceTime moves it; an adjustment into the past returns an error, leaves the clock alone and does not tick.", "quantifier": "all action sequences and time adjustments", "why_tests_cant": "Unbounded sequences.", "anchors": ["action.advancetime.go", "test.go:doAction"]}
{"id": "C57", "title": "Expect protocol", "statement": "Expect() calls Predicate once, Done exactly once after the action (even if it fails or panics) and before Ok/Report, and fails the test iff the predicate could not be built, the action failed, or the verdict is false (unless there is a panic in the predicate's methods).", "quantifier": "all actions and expectations", "why_tests_cant": "All outcomes.", "anchors": ["test.go:Expect"]}
{"id": "C58", "title": "An expectation sees only its own action", "statement": "The predicate built for an Expect() observes exactly the facts of that action, none from earlier or later actions.", "quantifier": "all action sequences", "why_tests_cant": "Unbounded sequences.", "anchors": ["test.go:Expect,doAction"]}
{"id": "C59", "title": "Test handler defaults and EnableHandlers", "statement": "In a test, aggregates and processes run and integrations and projections do not, unless named in EnableHandlers/DisableHandlers (last wins); enabling a handler disabled by configuration or an unknown name panics.", "quantifier": "all sequences of calls", "why_tests_cant": "Unbounded sequences.", "anchors": ["test.go:BeginContext,enableHandlers"]}
{"id": "C60", "title": "EnableHandlersLike selects exactly the matches", "statement": "EnableHandlersLike/DisableHandlersLike affect exactly the not-configuration-disabled handlers whose name matches some pattern, independent of map iteration order, and panic iff some pattern matches none.", "quantifier": "all pattern lists, handler sets, iteration orders", "why_tests_cant": "Iteration orders.", "anchors": ["test.go:enableHandlersLike"]}
{"id": "C61", "title": "Executor is usable only during Call", "statement": "ExecuteCommand on the test's executor panics unless a Call action is in progress; after every Call - also a panicking one - it is unbound.", "quantifier": "all action sequences and user functions", "why_tests_cant": "All histories and panic points.", "anchors": ["executor.go", "action.call.go"]}
{"id": "C62", "title": "Call-level interceptors are scoped", "statement": "An interceptor given to Call() replaces the test-level one during that call only and the previous one is restored afterwards, also on panic.", "quantifier": "all action sequences", "why_tests_cant": "All histories and panic points.", "anchors": ["executor.go:Intercept", "action.call.go:Do"]}
{"id": "C63", "title": "Actions use the virtual clock", "statement": "Every engine operation performed by an action uses the virtual clock's current time as engine time; AdvanceTime's tick uses the advanced time (unless overridden by unsafe options, which AdvanceTime overrides again).", "quantifier": "all action sequences and option lists", "why_tests_cant": "Unbounded.", "anchors": ["test.go:doAction", "action.advancetime.go:Do"]}
{"id": "C64", "title": "Run ticks until the first error", "statement": "RunTimeScaled performs ticks at engine time epoch + f*elapsed (unless an option overrides the time), in order, stops at the first tick or sleep error and returns that error; with non-decreasing wall time and f >= 0 engine time never decreases.", "quantifier": "all clock sequences and error points", "why_tests_cant": "Unbounded loop.", "anchors": ["engine/run.go"]}
{"id": "C65", "title": "Concurrent operations serialise", "statement": "With any number of goroutines calling Dispatch/Tick/Reset on one engine, handler code and controller state are only touched while holding the engine lock, and the final controller state is that of some sequential order of the operations.", "quantifier": "all interleavings", "why_tests_cant": "Interleavings.", "anchors": ["engine/engine.go:Engine.m"]}
{"id": "C66", "title": "IDs stay unique under concurrency", "statement": "IDs handed out to concurrent operations never collide in any interleaving without Reset. (FALSE if a Reset can intervene between taking an ID and using it.)", "quantifier": "all interleavings", "why_tests_cant": "Interleavings.", "anchors": ["envelope/id.go"]}
{"id": "C67", "title": "Inflection does not depend on map order", "statement": "inflect.Sprint gives the same result for every iteration order of its substitution and correction tables.", "quantifier": "all strings, kinds and iteration orders", "why_tests_cant": "All strings.", "anchors": ["internal/inflect/inflect.go"]}
{"id": "C68", "title": "Log line layout", "statement": "Every logged fact produces one line whose ID columns show message, causation and correlation ID of the right envelope, and whose text segments are the non-empty ones joined by the separator.", "quantifier": "all facts", "why_tests_cant": "All facts.", "anchors": ["fact/logger.go", "fact/internal/logging"]}
{"id": "C69", "title": "Report rendering", "statement": "The rendered report has exactly one tick/cross line per report node, in pre-order, with the node's own verdict, and everything under a node is indented below it.", "quantifier": "all report trees", "why_tests_cant": "Unbounded trees.", "anchors": ["report.go:WriteTo"]}
{"id": "C70", "title": "Panic location search", "statement": "OfPanic reports the first non-runtime frame below runtime.gopanic. (FALSE for deep stacks: frame iteration stops after the first 8 program counters.)", "quantifier": "all call stacks", "why_tests_cant": "All stacks.", "anchors": ["location/location.go"]}
{"id": "C71", "title": "Buffered facts are snapshots", "statement": "Buffer.Facts() returns all facts notified so far in order; a slice it returned is not affected by later notifications or by writes to other returned slices, and writes to returned slices never reach the buffer.", "quantifier": "all notification/read sequences", "why_tests_cant": "Unbounded.", "anchors": ["fact/observer.go:Buffer"]}
{"id": "C72", "title": "Message comparison", "statement": "DefaultMessageComparator uses protobuf equality iff both values are protobuf messages and deep equality otherwise; it is reflexive and symmetric whenever those are.", "quantifier": "all values", "why_tests_cant": "All values.", "anchors": ["compare.go"]}
{"id": "C73", "title": "Message ID text is canonical", "statement": "Generated message IDs are canonical non-empty decimal strings, distinct for distinct counter values; the j-th and k-th ID agree iff j and k agree modulo 2^64.", "quantifier": "all counter values", "why_tests_cant": "2^64 values.", "anchors": ["envelope/id.go"]}
{"id": "C74", "title": "Loaded means an event was recorded", "statement": "An aggregate handling reports 'loaded' iff an earlier completed handling recorded an event for that instance with no later completed handling leaving it destroyed. (FALSE if ApplyEvent() panics while recording and HandleCommand() recovers: the instance is left existing without any recorded event.)", "quantifier": "every history of engine operations (dispatch, tick, reset), every application configuration and every behaviour of the user's handlers", "why_tests_cant": "All histories.", "anchors": ["engine/internal/aggregate/controller.go:Handle"]}
{"id": "C75", "title": "Only completed handlings contribute messages", "statement": "A message produced by a handler is dispatched only after the handling in which it was announced has completed, and only if that handling emitted it or left it pending: messages announced in a handling that panicked, or dropped by the handling's outcome, are never dispatched or kept.", "quantifier": "every history of engine operations (dispatch, tick, reset), every application configuration and every behaviour of the user's handlers", "why_tests_cant": "Needs all interleavings of panics, recoveries, errors and endings over unbounded histories; tests check a few fixed sequences.", "anchors": ["engine/engine.go:dispatch", "engine/internal/process/controller.go:Handle", "engine/internal/aggregate/controller.go:Handle"]}
{"id": "C76", "title": "Commands and events are dispatched in production order", "statement": "Between two resets, the commands and events that are dispatched are a subsequence of those announced (passed to Dispatch(), recorded or executed by a handler), in the order in which they were announced; hence their message IDs increase in order of dispatch. This holds across operations and however they end. (Timeouts are exempt: they wait for their time.)", "quantifier": "every history of engine operations (dispatch, tick, reset), every application configuration and every behaviour of the user's handlers", "why_tests_cant": "Needs every fan-out of messages over unbounded histories with errors, panics and cancellation.", "anchors": ["engine/engine.go:dispatch", "engine/engine.go:handle"]}
{"id": "C77", "title": "A test is a history of its engine", "statement": "The engine of a Test has been through exactly the operations that the test's actions performed, in that order, none of them a reset: the facts observed in these operations are all the facts since the beginning of the test, and the engine's state is one that the engine reaches by its own operations (so that all properties of engine histories hold in tests). The test changes the engine in no other way, whatever the actions, nested actions, interceptors and panics.", "quantifier": "every history of a test (all actions, nested actions, interceptors, enabling and disabling of handlers, panics)", "why_tests_cant": "All nestings of actions, executors and interceptors.", "anchors": ["test.go:doAction", "action.call.go:Do", "action.dispatch.go:Do", "action.advancetime.go:Do", "executor.go:ExecuteCommand"]}
{"id": "C78", "title": "No due timeout lingers in a test", "statement": "In a test in which AdvanceTime() is not nested in Call(), is never cancelled and never panics, and in which a process handler is enabled whenever AdvanceTime() is performed, every pending timeout of that handler is later than the virtual clock after every action: none is due and undelivered. In detail: after a completed AdvanceTime() no timeout of an enabled process is due, and no other action, however it ends, makes one due.", "quantifier": "every such test, every application and every behaviour of the user's handlers", "why_tests_cant": "All histories of a test, all schedules of timeouts.", "anchors": ["action.advancetime.go:Do", "test.go:doAction", "engine/internal/process/controller.go:Tick", "engine/internal/process/controller.go:Handle"]}
{"id": "C79", "title": "The engine never trips over itself", "statement": "No dispatch or tick in any history of the engine runs into a failure of the engine itself: no controller is given a message that it does not handle or whose kind does not fit it, no controller is missing, no timeout lacks its origin, no nil pointer is dereferenced. (FALSE when New() of an aggregate returns nil during Destroy(): the next recorded event dereferences the nil root.)", "quantifier": "every history of engine operations (dispatch, tick, reset), every application configuration and every behaviour of the user's handlers", "why_tests_cant": "All histories; the checks are unreachable only because of invariants of queue and pending timeouts.", "anchors": ["engine/engine.go:dispatch", "engine/internal/aggregate/scope.go:Destroy", "engine/internal/process/controller.go:route"]}
{"id": "C80", "title": "Operations end unless messages go round in circles", "statement": "If the message types can be ranked so that the commands and events that a handler may produce rank lower than everything that it consumes, then every dispatch and every tick ends, however many messages are produced on the way, unless handlers announce timeouts that are due at once without end. In particular every operation ends if no handler produces timeouts. Without such a ranking an operation may run forever.", "quantifier": "every reachable state, every operation, every application that can be ranked and every behaviour of its handlers", "why_tests_cant": "Termination: no run of bounded length shows that a longer one does not exist; the number of messages has no bound that depends on the configuration only.", "anchors": ["engine/engine.go:dispatch", "engine/engine.go:tick", "engine/internal/process/scope.go:ScheduleTimeout"]}
{"id": "C81", "title": "Every message is accounted for", "statement": "As long as every dispatch, tick and reset returns without being interrupted (by a panic, by a cancelled context or by failure to get the engine's lock), every message announced since the last reset has had exactly one of three fates: it was dispatched; or it is a timeout pending in a process handler; or it was discarded, because it was announced in a handling by a process that returned an error, or is a timeout announced in a handling that left the process instance ended, or is a pending timeout of an instance that a later handling left ended. No message is lost, and none has two fates; the latter holds in every history. A tick interrupted by a cancelled context does lose timeouts.", "quantifier": "every history of operations that return uninterrupted, every application configuration and every behaviour of the user's handlers; exclusiveness for every history", "why_tests_cant": "It is a conservation law over all messages and all histories: a test observes the fate of the messages it knows about, and a message that silently disappears leaves nothing to assert on.", "anchors": ["engine/engine.go:Dispatch", "engine/engine.go:Tick", "engine/engine.go:dispatch", "engine/internal/process/controller.go:Handle", "engine/internal/process/controller.go:Tick"]}
{"id": "C82", "title": "Explanations of unmet expectations are true", "statement": "When ToExecuteCommand(), ToRecordEvent(), ToExecuteCommandType() or ToRecordEventType() fails, the report's explanation describes what happened. If no message of the expected type was produced, exactly one of these is true and is the one given: no type of handlers that could produce the message was enabled; none of those handlers was given a message; no messages were produced at all; none of the expected kind; or there were messages of the kind but none matched. It suggests, exactly, to enable each disabled type of handlers that could have produced the message, to check the routing if none was engaged, and otherwise to look at each handler of these types that was given a message, once each, in the order they were engaged. If a message of the expected type was produced, the report shows how the last one differs from the expected one, and names the handler that really produced it, or says that it was given to the engine. A report on an expectation that passed, or that is not responsible for the failure of the tree, has no explanation and no suggestions.", "quantifier": "every sequence of facts of an action, every expected message and type, every comparator, every application; the claim on the named handler for every reachable history", "why_tests_cant": "The explanation depends on the whole history of the action: tests compare the text for a few chosen situations, and do not notice a misleading text in a situation nobody thought of.", "anchors": ["expectation.messagecommon.go:reportNoMatch", "expectation.messagecommon.go:tracker.Notify", "expectation.message.go:messagePredicate.Report", "expectation.messagetype.go:messageTypePredicate.Report"]}
{"id": "C83", "title": "Reports of failed matching expectations account for all failures and tell the truth about the predicate function", "statement": "When an expectation with a predicate function fails, its report lists every different failure (type of message and error) exactly once, in the order of first occurrence, with the number of its occurrences; gives the true explanation and suggestions as for other expectations on messages; and says that the predicate function ignored n messages only if it did so for n messages.", "quantifier": "every sequence of facts of an action, every predicate function (which may depend on earlier messages), every message type or interface", "why_tests_cant": "Counts and order over arbitrary many messages and answers of an arbitrary function; a miscount shows up only for particular interleavings of failures.", "anchors": ["expectation.messagematch.go:messageMatchPredicate.Report", "expectation.messagematch.go:messageMatchPredicate.messageProduced", "expectation.messagecommon.go:reportNoMatch"]}
{"id": "C84", "title": "A failure in ToSatisfy is attributed to the first failing or skipping call, at the innermost caller that is not a helper", "statement": "The report of ToSatisfy explains exactly the first call of a method that fails or skips. It names that method and the file (without directories) and line of the innermost function in the user's call stack that had not called Helper() before, or of the outermost one if all had. It says that the method was called directly iff that is the place of the call itself. Without such a call there is no explanation. Everything logged is shown in order. Inside of an inverted expectation a failure is not explained.", "quantifier": "every program over SatisfyT (including cleanup functions and recovered aborts), every call stack of every call, every sequence of facts", "why_tests_cant": "The search goes over arbitrary stacks and arbitrary sets of helpers; tests use stacks of two frames and one helper, and miss deep stacks and cleanup functions.", "anchors": ["expectation.satisfy.go:SatisfyT.explain", "expectation.satisfy.go:SatisfyT.findFrame", "expectation.satisfy.go:SatisfyT.Helper", "expectation.satisfy.go:satisfyPredicate.Report"]}
{"id": "C85", "title": "The log of a test tells everything that happened, once and in order, and the test is marked as failed iff something failed", "statement": "Each Prepare() logs the caption of its action before anything of the action, then the line of every fact of every engine operation of the action once and in order (also operations in functions given to Call(), in interceptors and in nested actions), and then calls Fatal() with the action's error iff there is one. Each Expect() logs the captions of action and expectation, then the same, and then ends with exactly one of: Fatal() with the error of the expectation or of the action; the report alone, if the verdict is positive; the report followed by FailNow(), if it is negative; nothing, if there was a panic. The report begins with a check mark in the first case and with a cross in the second. For actions that perform no others, Fatal() or FailNow() is called iff the call failed.", "quantifier": "all test options without a second use of the test's logger, all sequences of Prepare(), Expect(), EnableHandlers() and the like, all actions including nested ones, all applications and user code, both kinds of TestingT (whose Fatal() panics or returns), user-written expectations", "why_tests_cant": "Tests look for single lines in the log of single actions; a line logged twice, out of order or missing in nested operations goes unnoticed.", "anchors": ["test.go:Begin", "test.go:Prepare", "test.go:Expect", "test.go:doAction", "fact/logger.go:Notify", "report.go:WriteTo"]}
{"id": "C86", "title": "Goroutines may execute commands during Call(): each is treated by what the executor is bound to, and Call() waits for them", "statement": "Whatever goroutines call ExecuteCommand() on the test's executor and whatever others perform Call(), the executor is never bound, unbound or given another interceptor while a call of ExecuteCommand() is in progress, so each call is treated by one configuration from beginning to end and Call() does not return before the commands in progress are done. A call panics iff the executor is unbound at that time, and then does nothing else; it calls the interceptor iff there is one, and else goes to the engine, with the options of the Call() in progress. If interceptors use the executor they are given only, and handlers execute commands by their scopes only, no set of goroutines ever comes to wait for each other for good. (Without this they may: an interceptor that performs Call(), one that executes a command with the test's own executor while Call() wants to end, and a handler that executes a command with the test's executor.)", "quantifier": "all interleavings of the steps of any number of goroutines, each with an arbitrary program of calls of ExecuteCommand() and (nested) Call(), all interceptors and handlers, all results of the engine", "why_tests_cant": "A race detector sees the interleavings that happen to occur; a lock released too early or taken twice shows only under particular schedules.", "anchors": ["executor.go:ExecuteCommand", "executor.go:Bind", "executor.go:Unbind", "executor.go:Intercept", "action.call.go:Do", "engine/executor.go:ExecuteCommand", "engine/engine.go:Dispatch"]}
{"id": "C87", "title": "A handling deals with one instance: the one its message is addressed to", "statement": "Which instance of an aggregate or process handler a message is for is decided once, when its handling begins: for commands and events by one call of the handler's own routing method with that message (an empty answer is not accepted), for timeouts by the instance that scheduled them (the routing method is not asked). From then on every fact of the handling that names an instance (loaded, not found, created, begun, destroyed, ended, reverted, ignored timeout, log, recorded event, executed command, scheduled timeout) and every call of the handler's methods with an instance names exactly that instance; every fact from within the handling names its handler and its message; and the messages that are produced have that instance as their origin. Instance IDs are never empty.", "quantifier": "every history of engine operations (dispatch, tick, reset), every application configuration and every behaviour of the user's handlers", "why_tests_cant": "Tests check single facts of single handlings with a fixed instance ID. That no operation of a scope, in any order and after any history, names another instance, that the routing method is asked exactly once, and that a timeout never goes anywhere but to the instance which scheduled it is a statement about all histories, configurations and handlers, including routing methods that answer differently every time they are asked.", "anchors": ["engine/internal/aggregate/controller.go", "engine/internal/aggregate/scope.go", "engine/internal/process/controller.go", "engine/internal/process/scope.go", "engine/internal/integration/scope.go", "engine/internal/projection/scope.go", "fact/aggregate.go", "fact/process.go"]}
{"id": "C88", "title": "Scopes do what handlers ask of them", "statement": "While a handler's method runs, the facts reported are exactly those its requests to its scope call for, in the order of the requests and carrying what was asked: recording an event, executing a command, scheduling a timeout (for the time asked), destroying, ending and logging each report that, once; a request to produce a message that the handler did not declare or that is invalid reports nothing and panics, naming the handler, its method and the message being handled; every other request returns normally, unless New() or ApplyEvent(), which it calls, panics. The handling ends as the method does, with its error or its panic. A process handler is given the time the event was recorded at or the timeout was scheduled for, and its instance's root, which is afterwards kept as the method left it. User code's state is changed by the user's code alone.", "quantifier": "every history of engine operations (dispatch, tick, reset), every application configuration and every behaviour of the user's handlers, including handlers that recover from panics and carry on", "why_tests_cant": "All programs that talk to a scope, with all sequences of requests, answers and recoveries; and all schedules of compaction running beside a projection's handler.", "anchors": ["engine/internal/aggregate/scope.go", "engine/internal/process/scope.go", "engine/internal/process/controller.go", "engine/internal/integration/scope.go", "engine/internal/projection/scope.go"]}
{"id": "C89", "title": "Using an engine from several goroutines is using it from one", "statement": "Goroutines dispatch messages to one engine and tick it. Whenever none of them holds the engine's lock, everything the engine stores, everything it has reported, every call of a handler with its arguments, and the state of user code are those that a program with a single goroutine would have produced by performing the same operations in the order in which they acquired the lock, except that messages have other IDs (different ones stay different), provided that handlers do no more with message IDs than store and compare them. So no event of an aggregate gets lost and each command is handled with a root that reflects all the events of the instance recorded before; no two messages have the same ID; whatever holds of all histories of one goroutine and does not depend on the IDs holds. (With a concurrent Reset this is FALSE: a projection can take a message for another one.)", "quantifier": "all interleavings of any number of goroutines with any operations, every application configuration and every behaviour of the user's handlers that does not depend on message IDs", "why_tests_cant": "All interleavings, at the granularity of single accesses to state and to the ID counter, of unboundedly many operations.", "anchors": ["engine/engine.go:Engine.m", "engine/engine.go:Dispatch", "engine/engine.go:Tick", "engine/engine.go:Reset", "envelope/id.go"]}
{"id": "C90", "title": "Built-in actions have no privileges", "statement": "Whatever ExecuteCommand, RecordEvent, AdvanceTime and Call do in a test, with Prepare or with Expect, an action written by a user against the public ActionScope can do: for each of them, with all that functions given to Call do in turn, there is a program that uses nothing but the engine's methods, the virtual clock, and the executor of its scope (with the options of its scope), such that the test ends in the same state, with the same log, the same calls to the expectation and its predicate, and the same outcome.", "quantifier": "every application, every user code, every built-in action with arbitrarily nested Call functions, every expectation (built-in or not), every state of the test", "why_tests_cant": "Quantifies over all programs that a function given to Call may perform, and all states of test and engine.", "anchors": ["action.go:Action", "action.go:ActionScope", "action.dispatch.go", "action.advancetime.go", "action.call.go", "test.go:doAction"]}
{"id": "C91", "title": "Expect() keeps its protocol whatever the action does", "statement": "For every implementation of Action and of Expectation, including actions that use the test, the engine and the executor as they like, perform further actions with Prepare or Expect, reset the engine, or panic anywhere: an Expect that comes to an end asks for the predicate at most once, calls Done() exactly once iff there is a predicate, however the action ended, Ok() and Report() at most once, in the order notifications, Done, Ok, Report. It passes iff there is a predicate, Done() does not panic, the action returned no error, the verdict on the notifications is positive and Report() does not panic; it fails the test iff the predicate could not be made, or Done() does not panic and the action returned an error or the verdict is negative and Report() does not panic; it panics iff the captions, ConfigurePredicate, making the predicate, or Done(), or else the action does, or, after an action that succeeded, Ok() or Report(), with the same value.", "quantifier": "every implementation of Action and Expectation, every application, every user code, every state of the test", "why_tests_cant": "Quantifies over all programs written against the public interfaces.", "anchors": ["test.go:Expect", "action.go:Action", "expectation.go:Expectation", "expectation.go:Predicate"]}
{"id": "C92", "title": "Predicates see exactly what actions of users do", "statement": "If an action written by a user hands the options of its scope on (possibly with more options, but no observers) whenever it uses the engine or binds the executor, and performs no further actions, the predicate of an Expect with it, in a test whose executor is not bound, is told of exactly the facts of the action's operations, once each and in order. And if all actions keep to that rule, then however they perform actions within actions, with Prepare and Expect, none of them tells the predicate of another Expect anything. (Without the rule, or with an executor that an earlier action left bound, both are FALSE, by concrete tests.)", "quantifier": "every implementation of Action that keeps to the rule, every expectation, every application, every user code, every state of the test", "why_tests_cant": "Quantifies over all programs written against ActionScope and arbitrary nesting.", "anchors": ["test.go:Expect", "test.go:doAction", "action.go:ActionScope", "executor.go:Bind", "engine/operationoption.go:WithObserver"]}
{"id": "C93", "title": "No action can bring the engine into a state of its own", "statement": "Whatever actions a test performs, written by users or not, with resets, nested actions, panics and interceptors: at every point between actions the engine has been through exactly the operations that the test asked of it, in order, and each made known exactly the facts that were passed on to its observers; all facts since the beginning of the test are those. So whatever holds of all histories of an engine holds in every test.", "quantifier": "all tests: sequences of Prepare, Expect, EnableHandlers, EnableHandlersLike with any implementations of Action and Expectation, every application and user code", "why_tests_cant": "Quantifies over all sequences of arbitrary actions.", "anchors": ["test.go:Prepare", "test.go:Expect", "test.go:doAction", "action.go:ActionScope", "engine/engine.go"]}
{"id": "C94", "title": "An action made of two actions is two actions", "statement": "Let an action perform Do() of one action and then, unless that failed, Do() of another with the same scope. Preparing it has the same effect, up to lines logged, as preparing the two one after the other: the same operations at the same engine times with the same facts, the same state and outcome. If the first one fails the whole fails alike. (The former is FALSE if the first changes the virtual clock, such as AdvanceTime: the second still runs at the old time; it is proved for first actions that leave the clock as it is.)", "quantifier": "any two implementations of Action, every application and user code, every state of the test", "why_tests_cant": "Quantifies over all pairs of programs written against ActionScope.", "anchors": ["action.go:ActionScope", "test.go:doAction", "test.go:Prepare"]}
{"id": "C95", "title": "Failures are final, however deeply nested", "statement": "With a TestingT whose Fatal and FailNow do not return (such as *testing.T), and actions that do not recover from panics of Prepare and Expect (they may put things back): however actions nest Prepare and Expect, once a failure has been reported to the TestingT nothing more is done - no engine operation, no command executed, no further line logged, no second failure - and no enclosing Prepare or Expect comes to a normal end. So an Expect passes only if everything nested in it passed, and an Expect fails only by reporting it. (If an action recovers, or FailNow returns, both are FALSE, by concrete tests.)", "quantifier": "every implementation of Action (that does not recover) and Expectation, every application, every user code, every state of the test", "why_tests_cant": "Quantifies over all programs written against the public interfaces, with arbitrary nesting.", "anchors": ["test.go:Prepare", "test.go:Expect", "interface.go:TestingT", "action.go:Action"]}
{"id": "C96", "title": "Unusable arguments are rejected where they are given, by name", "statement": "The functions of the API that make actions, adjustments of the clock and expectations panic, with a text that begins with their own name and opening parenthesis, if and only if an argument is unusable: a nil or invalid message, a nil function, adjustment or message type, an empty criteria or description, a negative duration, a list that is empty or holds nil. Otherwise they return something usable; an Expect with an expectation put together from usable arguments does not panic before its action has been performed. (FALSE in part, each shown by a concrete call: ExecuteCommand of an invalid command panics with the name ToRecordEvent; AllOf and AnyOf accept nil expectations and, given only nil, return nil; Not(nil) dereferences a nil pointer.)", "quantifier": "every call of ToTime, ByDuration, ExecuteCommand, RecordEvent, AdvanceTime, Call, ToExecuteCommand, ToRecordEvent, ToExecuteCommandType, ToRecordEventType, ToOnlyExecuteCommandsMatching and its relatives, AllOf, AnyOf, NoneOf, Not, ToRepeatedly, ToSatisfy; every tree of expectations; every test and action", "why_tests_cant": "Quantifies over all arguments and all trees of expectations; what comes of an expectation depends on the test it is later used in.", "anchors": ["action.dispatch.go:ExecuteCommand", "action.dispatch.go:RecordEvent", "action.advancetime.go:AdvanceTime", "action.call.go:Call", "expectation.message.go:ToExecuteCommand", "expectation.composite.go:AllOf", "expectation.not.go:Not", "expectation.repeat.go:ToRepeatedly", "expectation.satisfy.go:ToSatisfy"]}
{"id": "C97", "title": "Executing commands and recording events of unknown and of known types", "statement": "ExecuteCommand and RecordEvent, in any state of any test: if the application neither consumes nor produces messages of the given type the action changes nothing and fails with an error that names the type; if some handler consumes them, exactly one engine operation is performed, at the test's virtual time, and it begins with the dispatch of exactly that message. (If the application produces the type but no handler consumes it the action panics inside the engine instead of failing the test: stated and shown.)", "quantifier": "every application, every message, every state of a test whose options name handlers of the application only, every user code", "why_tests_cant": "Quantifies over all applications and histories.", "anchors": ["action.dispatch.go:Do", "engine/engine.go:Dispatch", "test.go:doAction"]}
{"id": "C98", "title": "Test options: defaults, and the last one wins", "statement": "Begin with any list of options makes a test with a new engine, whose virtual clock, message comparator and command-executor interceptor are those of the last option that sets them (by default the system's time, the default comparator and none), and which gives the engine the options of all WithUnsafeOperationOptions, in the order given, after its own. So in what the test does first the engine's time is that of the last WithCurrentTime among the user's options or else the virtual clock; a handler takes part as the last option about its name says; or else, unless disabled by its own configuration, as the last option about its type says, and by default if it is an aggregate or a process.", "quantifier": "every list of test options, every handler, every system time", "why_tests_cant": "Quantifies over all lists of options of all kinds, in all orders.", "anchors": ["test.go:BeginContext", "testoption.go:StartTimeAt", "testoption.go:WithUnsafeOperationOptions", "compare.go:WithMessageComparator", "executor.go:InterceptCommandExecutor"]}
{"id": "C99", "title": "Expectations and actions do what their arguments ask for", "statement": "Whatever function of the API an expectation was made by, if it comes to a verdict it passes if and only if what its arguments ask for happened: a message equal to the given one or of the given type was produced; some (only) messages match the given function; all, some, none of the given expectations hold (also if there is only one); the given one does not hold; each of the n expectations returned by the given factory holds; the given function was satisfied. AdvanceTime(ToTime(t)) and AdvanceTime(ByDuration(d)) move the clock to exactly t, or by exactly d, and make the engine tick there once, or change nothing and fail if that is in the past, which ByDuration never is. Of several interceptors given to one Call, the last counts.", "quantifier": "every call of these functions with any arguments, every list of facts, every application, every state of the test", "why_tests_cant": "Quantifies over all arguments (including arbitrary trees of expectations) and all observable behaviour.", "anchors": ["expectation.message.go:ToExecuteCommand", "expectation.messagetype.go:ToExecuteCommandType", "expectation.messagematch.go:ToOnlyExecuteCommandsMatching", "expectation.composite.go:AllOf", "expectation.not.go:Not", "expectation.repeat.go:ToRepeatedly", "expectation.satisfy.go:ToSatisfy", "action.advancetime.go:AdvanceTime", "action.call.go:Call"]}
{"id": "C100", "title": "Captions say what was asked for", "statement": "The caption of an expectation, which the log of the test shows, is an English sentence that says what the arguments of the call that made it ask for, with the words of the kind of message (execute a command, record an event) and with the name of the message type, the place of the function, the number of expectations or the description, unchanged, if names have no blanks or angle brackets. So is the caption of an action (executing T command, advancing time to t, by d). (FALSE of actions with message types whose name ends with a word of less than three letters: an event type pkg.a is announced as 'recording pkg.an event'.)", "quantifier": "every call of these functions with any arguments, every kind of message, every name without blanks and angle brackets", "why_tests_cant": "The texts pass through search and replace; quantifies over all names.", "anchors": ["expectation.message.go:Caption", "expectation.messagetype.go:Caption", "expectation.messagematch.go:Caption", "action.dispatch.go:Caption", "internal/inflect/inflect.go:Sprint"]}
{"id": "C101", "title": "The difference shown by a report determines both messages", "statement": "If ToExecuteCommand or ToRecordEvent fails though a message of the type was produced, its report has a section Message Diff from which both the expected message and the last message produced of that type, as they are printed, can be read: what is marked as added is missing from the one, what is marked as removed from the other. (If the printed messages themselves contain the marks {+ +} [- -] this is FALSE: different pairs of messages look the same.)", "quantifier": "every message, every list of facts, every result of the diff library that is a difference of the two texts, all texts without marks", "why_tests_cant": "Quantifies over all pairs of texts and all ways to split them into equal, added and removed parts.", "anchors": ["internal/report/diff.go:WriteDiff", "expectation.message.go:buildDiff"]}
{"id": "C102", "title": "The text of a location tells where it is", "statement": "From the text of a location (as in the caption of an expectation with a predicate, or in a panic) a reader can tell the name of the file, without its directories, and the line if the file is known, and the function if it is known, except for closures in a known file; a location of which nothing is known says so, and none of these cases can be mistaken for another. (FALSE of functions declared with a name like func1: they are taken for closures, and left out.)", "quantifier": "every location whose function has no blank in its name, every path including ones with blanks, colons and brackets", "why_tests_cant": "The tests have six fixed locations; quantifies over all names, paths and lines, including those with the characters that the text is made with.", "anchors": ["location/location.go:String", "location/location.go:FileLine", "location/location.go:isNamedFunc"]}
{"id": "C103", "title": "Panics and errors name the handler and the method at fault", "statement": "From the text of a panic about a handler's behaviour a reader can tell the handler's name and type, the implementation, the method and the description; from that of a handler that did not expect a message, the type of the message as well; neither can be mistaken for the other. From the error that an operation of the engine returns for a handler's error a reader can tell the handler's name and type and the original error.", "quantifier": "every handler whose name has no blank (the API accepts no other), every description, every implementation and method without parentheses, every error", "why_tests_cant": "Quantifies over all names and descriptions, including those with the words and quotes of the text.", "anchors": ["engine/internal/panicx/unexpectedbehavior.go:String", "engine/internal/panicx/unexpectedmessage.go:String", "engine/engine.go:tick"]}
{"id": "C104", "title": "A handling gives the handler its message once", "statement": "A handling that completes has called the handler's method exactly once, with the message that was handled, unless nothing else was done and there is one of these reasons: the process's router returned an error, which is the error of the handling; the router said that the event is to be ignored, which is reported; the process instance that scheduled the timeout does not exist any more, which is reported; the projection returned an error when asked for its version of the resource, which is the error of the handling; or the projection already has a version of it. No handling calls the handler's method twice, whether or not it completes, and no such method is called other than in a handling.", "quantifier": "every history of engine operations (dispatch, tick, reset), every application configuration and every behaviour of the user's handlers", "why_tests_cant": "The controllers' tests call one controller once with fixed stubs; quantifies over all handlers, all histories and all answers of routers and projections, including those that panic.", "anchors": ["engine/internal/aggregate/controller.go:Handle", "engine/internal/process/controller.go:Handle", "engine/internal/integration/controller.go:Handle", "engine/internal/projection/controller.go:Handle"]}
{"id": "C105", "title": "What goroutines have begun gets finished", "statement": "If finitely many goroutines call Dispatch(), Tick() and Reset() of one engine, and each of these calls would end if it were made alone, then there is no infinite run, whoever makes the next step; at any time they can go on until all calls have returned, without a context having to be cancelled; and a run that cannot go on has all calls returned. The same holds of finitely many goroutines that use the executor of one test, directly and by Call(), if interceptors use the executor they are given only and handlers execute commands by their scopes only; and when all of them are done the executor is not bound anymore and no lock is held.", "quantifier": "all interleavings of the steps of any finite number of goroutines, each with an arbitrary list of calls, and all behaviours of handlers and interceptors", "why_tests_cant": "Termination and the absence of deadlocks under every schedule: a test sees the schedules that happen to occur, for some time.", "anchors": ["engine/engine.go:Dispatch", "engine/engine.go:Tick", "engine/engine.go:Reset", "executor.go:ExecuteCommand", "executor.go:Bind", "executor.go:Unbind", "action.call.go:Do"]}
{"id": "C106", "title": "The roots that events are applied to", "statement": "While HandleCommand() runs, ApplyEvent() is called only because an event is recorded: on recording an event that the handler may record it is called once, with that event, on the root of the instance at that time; never for a refused event. The root of the instance is the one HandleCommand() was given, as changed by the events applied to it so far and by the handler directly. When an instance that exists is destroyed, a new root made by New() takes its place, and what the handler then does to the root it was given has no effect on it anymore; destroying what does not exist, or failing to because New() panics, leaves the root in place. If New() returned nil then recording an event panics and applies nothing.", "quantifier": "every state of the engine, every application configuration and every behaviour of the user's handlers, including handlers that recover from panics and carry on", "why_tests_cant": "All programs that talk to a scope and change their root, with all sequences of requests, answers and recoveries.", "anchors": ["engine/internal/aggregate/scope.go:RecordEvent", "engine/internal/aggregate/scope.go:Destroy", "engine/internal/aggregate/controller.go:Handle"]}
{"id": "C107", "title": "Many goroutines may use one SatisfyT", "statement": "If the function given to ToSatisfy() starts goroutines that use its SatisfyT, calls of its methods are answered as if they had been made one after the other by one goroutine, in some order; when all goroutines are done, the expectation is met iff some call skipped or none failed, and the report has the text of each logging call, in that order. When the function ends, in whatever way, the cleanup functions that any goroutine registered before are called, each once and the last one first, until one of them panics; functions registered later are not called. Done() ends as the function did, or as the cleanup function that panicked. There is no deadlock and no run without end: all goroutines get to their ends however they are scheduled, unless a panic ends the program (which FailNow() on another goroutine does), or formatting the arguments of a logging method itself uses the SatisfyT (which may make the method wait for itself).", "quantifier": "every function given to ToSatisfy(), starting any number of goroutines that make any (finitely many) calls, including functions that recover from panics, and every schedule", "why_tests_cant": "All interleavings of all accesses to fields of any number of goroutines.", "anchors": ["expectation.satisfy.go:SatisfyT", "expectation.satisfy.go:Cleanup", "expectation.satisfy.go:close", "expectation.satisfy.go:Done"]}
{"id": "C108", "title": "The report on a tree of expectations explains what is to blame and nothing else", "statement": "The report that Expect() logs mirrors the tree of expectations. AllOf(), AnyOf() and NoneOf() are followed by the reports on all of their children, in order, and say how many failed, that all did, or how many passed unexpectedly; Not() has the criterion of its child after the words \"do not\" and shows nothing of it; ToRepeatedly() shows its first failed iteration and how many failed. At any depth, an expectation on messages has suggestions (and an explanation, other than maybe for ToOnlyExecuteCommandsMatching() and ToOnlyRecordEventsMatching()) iff the whole test failed, the expectation itself is not met, and it is below an even number of NoneOf(); otherwise it has neither explanation nor sections, nor any sub-reports.", "quantifier": "every tree of expectations of any depth and width, every sequence of facts, every test", "why_tests_cant": "Trees are unbounded; the rule needs the parity of the negations on a path of any length.", "anchors": ["expectation.composite.go:Report", "expectation.not.go:Report", "expectation.repeat.go", "report.go:ReportGenerationContext", "test.go:Expect"]}
{"id": "C109", "title": "When the random order in which a tick visits the handlers matters", "statement": "AdvanceTime() (Engine.Tick()) visits the handlers in the random order of a Go map. If the Compact() methods of the projections have nothing to do with one another, this order matters only as far as it orders the process handlers that have timeouts to deliver: all orders that agree on those leave the engine with the same stored state and the world in the same state, dispatch the same messages with the same IDs in the same order, make the same calls after the visits, and differ only in that the observations of each visit (which are the same themselves) and the errors of compactions are in the order of the visits; the engine behaves in the same way ever after, and no expectation on messages has another verdict or report. In particular the order does not matter if at most one process handler has timeouts to deliver. If two of them have, it does: a timeout can be delivered before one of another process that was scheduled for an earlier time, and the same test can pass or fail by chance.", "quantifier": "every application, every state of an engine, all options that name known handlers, all orders of visits, all trees of expectations on messages", "why_tests_cant": "A test sees one order per run, chosen at random by the Go runtime; the claim compares all n! of them in every state.", "anchors": ["engine/engine.go:Tick", "engine/internal/process/controller.go:Tick", "engine/internal/projection/controller.go:Tick", "expectation.messagecommon.go:tracker"]}
{"id": "C110", "title": "A panicking observer stops the operation there, and changes nothing before", "statement": "An Observer whose Notify() panics has no influence on what happens before: as long as no observer panics on a fact of the operation, Dispatch() and Tick() do exactly what they do without observers; and up to and including the first fact on which an observer panics everything that is observed (facts and calls of the user's code) is the same. If the handlers do not recover from panics (and nothing is compacted in parallel, and the panic is not dogma.UnexpectedMessage), the operation ends right there and panics with the observer's value. If a handler does recover from a panic that comes out of its scope the operation goes on, and then facts can be wrong: the observers may have been told that an aggregate instance was created by a handling that completed although there is no such instance.", "quantifier": "every application, every state of an engine, every operation, all observers that do nothing but panic now and then (deciding by everything observed so far)", "why_tests_cant": "A panic is possible at every one of the notifications of every operation; the claim compares the run with and without it for all of them, including those that happen inside of handlers that may recover.", "anchors": ["fact/observer.go:ObserverGroup.Notify", "engine/engine.go:Dispatch", "engine/engine.go:handle", "engine/internal/aggregate/scope.go:RecordEvent", "engine/internal/process/scope.go:ExecuteCommand", "engine/internal/panicx/unexpectedmessage.go:EnrichUnexpectedMessage"]}
{"id": "C111", "title": "What observers cannot do", "statement": "Observers may do anything: panic at any notification, change what handlers find, cancel contexts, differently for every operation; handlers may recover from the panics that come out of their scope. Still: a handling that ends with a panic commits nothing (no history, pending timeout or instance changes; only the root of an existing process instance may have been changed by its handler); one by an aggregate that ends without panic changes the history of one instance only, which is either gone or has got exactly the events that are to be dispatched, and these are all those that the observers were told of, in order; one by a process that ends without panic and error returns the commands the observers were told of, in order, then the timeouts that are due, and adds the later ones to the pending ones, or the observers were told that the instance ended and it is gone with its timeouts; one by an integration returns the events the observers were told of; IDs are never used twice between resets; histories hold only events, and the timeouts that are pending are only timeouts, that the observers were told this instance, or an instance of this process, recorded or scheduled, each once and in order. But a panic of an observer that is told of the end of a handling makes the engine lose messages: the events are in the history and are never dispatched.", "quantifier": "every application, all histories of operations (Dispatch, Tick, Reset, in any order), arbitrary observers for each of them", "why_tests_cant": "The engine's own tests never use an observer that panics or that interferes; the claim is for all places where one could, in all histories.", "anchors": ["fact/observer.go:Observer", "engine/engine.go:handle", "engine/internal/aggregate/controller.go:Handle", "engine/internal/process/controller.go:Handle", "engine/internal/aggregate/scope.go:RecordEvent", "envelope/id.go:Next"]}
{"id": "C112", "title": "A predicate that panics stops Expect() there, but not Done()", "statement": "If the Notify() of a predicate panics, for example because a function given to ToExecuteCommandMatching() or ToRecordEventMatching() does, and no handler, interceptor or function given to Call() recovers from it, then the test does exactly what it does without the panic, up to and including the fact on which the predicate panics first; the engine does nothing after it; Done() is called, Ok() and Report() are not, nothing more is logged, and Expect() panics with the same value (or that of Done(), if it panics too). As long as it panics on none of the facts that it is told, nothing changes. Whatever recovers from the panic: Predicate() is called once, Done() exactly once after all notifications, Ok() and Report() at most once after it; Expect() passes only if Ok() returned true; the virtual clock does not go back; the interceptor and the options of the test are restored. But if the function given to Call() recovers from the panics of ExecuteCommand() the panic is lost, and an Expect() can pass that would fail without it.", "quantifier": "every application, all built-in actions with all functions given to them (including nested ones), every expectation, every state of a test, every way for Notify() to panic, deciding by all it was told", "why_tests_cant": "A panic is possible at each notification; the claim compares the whole run with and without it, for all of them.", "anchors": ["test.go:Expect", "expectation.go:Predicate", "expectation.messagematch.go:messageMatchPredicate.Notify", "action.call.go:Do", "fact/observer.go:ObserverGroup.Notify", "executor.go:ExecuteCommand"]}
{"id": "C113", "title": "When functions given to expectations are called, and what their panics do", "statement": "In a tree of expectations (AllOf, AnyOf, NoneOf, ToRepeatedly and so on, nested in any way), the function given to ToExecuteCommandMatching(), ToRecordEventMatching() or their kin is called with each message that counts and has its type, in order, until it accepts one (or with all of them, for the ToOnly… forms); the MessageComparator is called with each message that counts and has the expected type until it accepts one; the Notify() of a predicate of the user is called with each fact. For each fact the expectations of the tree are told in order, until one of these functions panics. As long as none panics, Expect() does what it does with functions that do not panic. If one does, and no handler, interceptor or function given to Call() recovers from it, then the engine does nothing after that fact; the expectations after the one that panicked have not been told the fact; Done() is called for all of them, in order and until one panics, so that functions given to ToSatisfy() are called with the facts told so far; then Expect() panics with the first panic of Done(), or else with that of the function.", "quantifier": "every tree of expectations, every application, all built-in actions, every state of a test, all functions of the user, panicking on any input, where what they do may depend on what they were called with before", "why_tests_cant": "Each of the functions may panic at any message, anywhere in a tree of any shape; what the others have seen then depends on the order.", "anchors": ["expectation.messagematch.go:messageMatchPredicate.Notify", "expectation.message.go:messagePredicate.Notify", "expectation.composite.go:compositePredicate.Notify", "expectation.composite.go:compositePredicate.Done", "expectation.repeat.go:repeatPredicate.Notify", "expectation.satisfy.go:satisfyPredicate.Done", "test.go:Expect"]}
{"id": "C114", "title": "Using a scope too late has no effect but facts and lost messages", "statement": "If a handler keeps the scope it is given and calls its methods after the handling is over (between operations of the engine, or in another goroutine at any time), then what the engine keeps is not changed: no instance is created, destroyed or ended, no aggregate's history grows, no timeout becomes pending, nothing is dispatched. At most one message is made per call; it names the handler, and the message of the handling as its cause; its ID is new. This message is lost: no message with its ID is ever dispatched, pending, or in the history of an aggregate. Message IDs stay unique and increasing. All that can be observed apart from the facts of the late calls is what can be observed in some history without late calls. When goroutines use scopes too late while others dispatch messages and tick the engine, then the engine is left as if only the latter had been done one after the other, except that message IDs are others.", "quantifier": "every history of engine operations with late uses of scopes of all kinds in any state in between; every interleaving of goroutines; every application and every behaviour of the user's handlers (for the last claim: handlers that make no use of message IDs, and no resets)", "why_tests_cant": "A scope can be used at any later time, in any number, between any operations, or in the middle of one by another goroutine.", "anchors": ["engine/internal/aggregate/scope.go:RecordEvent", "engine/internal/aggregate/scope.go:Destroy", "engine/internal/process/scope.go:ExecuteCommand", "engine/internal/process/scope.go:ScheduleTimeout", "engine/internal/process/scope.go:End", "engine/internal/integration/scope.go:RecordEvent", "engine/internal/aggregate/controller.go:Handle", "engine/internal/process/controller.go:Handle"]}
{"id": "C115", "title": "Slices that share memory do not overwrite each other", "statement": "The engine keeps messages in slices that may be parts of the same array: the queue of an operation, from which messages are taken at the front while others are appended; the pending timeouts of a process handler, of which Tick() gives away the first part and keeps the rest; the histories of aggregate instances; and what scopes collect. Whatever the engine does with them in any order, however much room append() makes, and also if scopes are used when the handling is over: each of them holds what it would hold if it were a list of its own, and the same messages are taken from the queue in the same order. The only exception: if a process instance goes on and has scheduled timeouts that are due, then commands executed with its scope after Handle() has returned, but before the engine has put what it returned into the queue (for example by an observer that is told HandlingCompleted), can take the place of these timeouts, the first ones first; nothing else is changed. Apart from that an engine with slices has the same operations, results, facts and state as one with lists: everything that is said here of the engine holds of the engine with slices.", "quantifier": "every sequence of the statements in question, and every history of Dispatch(), Tick() and Reset(); all policies by which append() makes room, all initial contents of memory, any number of handlers, instances and scopes", "why_tests_cant": "Whether slices share an array depends on their capacities, which depend on how many messages came before; a test sees one history and one allocator.", "anchors": ["engine/engine.go:tick", "engine/engine.go:dispatch", "engine/internal/process/controller.go:Tick", "engine/internal/process/controller.go:Handle", "engine/internal/process/controller.go:update", "engine/internal/process/controller.go:delete", "engine/internal/aggregate/controller.go:Handle", "engine/internal/process/scope.go:ExecuteCommand"]}
{"id": "C116", "title": "With a *testing.T, nobody gets past a failure", "statement": "Fatal() and FailNow() of Go's *testing.T leave the goroutine with runtime.Goexit(), which deferred functions cannot recover from. Hence, whatever actions, functions given to Call(), interceptors, expectations and predicates are made of, however they are nested, and whatever they do about panics: once Prepare() or Expect() at any depth has reported a failure, no enclosing Prepare() returns and no enclosing Expect() passes. The predicate of an enclosing Expect() is done exactly once, after its last notification, is not asked for its verdict, and nothing else is reported. Call() puts things back: the command executor is unbound, and the interceptor is the one of before. If deferred functions do nothing but put things back, nothing at all is done after the failure. And if no code takes runtime.Goexit() for a panic it could recover from, everything is as with a TestingT that panics.", "quantifier": "all applications, all actions and expectations, also of the user's own, and all states of the test", "why_tests_cant": "How actions, expectations and functions nest and what their deferred functions do is up to the user; the tests of the package use a fake TestingT that panics.", "anchors": ["test.go:Prepare", "test.go:Expect", "action.call.go:Do", "executor.go:ExecuteCommand", "executor.go:Intercept"]}
{"id": "C117", "title": "A handler that does not take part might as well not be there", "statement": "Take an application and a history of operations that all leave some of its handlers out (disabled by configuration, by handler type or by name), and in which each dispatched message that one of them consumes is consumed by another handler too. The same operations on the application without these handlers, without the options that name them, have the same outcomes, make the same calls into user code with the same arguments in the same order, and lead to the same instances, pending timeouts, compaction times and message IDs; the facts are the same but for those that say that one of these handlers was skipped and for its entries in the maps of enabled handlers. If a message is consumed by none but the handlers left out, the two differ: with them the dispatch returns, having called no user code and changed no state; without them it panics.", "quantifier": "all applications, all sets of handlers left out, all histories of operations, all user code", "why_tests_cant": "That nothing of a handler leaks into an operation that leaves it out cannot be seen from examples: it quantifies over all handlers, states and histories.", "anchors": ["engine/engine.go:skipHandler", "engine/engine.go:handle", "engine/engine.go:tick", "engine/engine.go:dispatch", "engine/operationoption.go:newOperationOptions"]}
{"id": "C118", "title": "A test does not notice handlers that it leaves out", "statement": "Take a test that leaves some handlers of its application out (by default: all integrations and projections), and a test with the same statements of the application without these handlers. If all messages that the test gives to the engine are used by the handlers that remain wherever the others use them, and the predicates of its expectations can be made for the handlers that remain, then each Prepare() and Expect() ends the same in both - it succeeds, fails or panics with the same value -, up to and including the first that does not succeed; every predicate is told the same facts but for mention of these handlers; and the clock, the executor, the engine and the record of operations, executed commands and failures are the same. An expectation has the same verdict, unless its predicate can not be made because none of the handlers that remain uses the type of message it names.", "quantifier": "all applications, all sets of handlers left out, all tests (with any actions, interceptors and expectations), all user code", "why_tests_cant": "A test of the library can compare two applications on one scenario; that a handler which is left out has no influence at all on any test of any application is about all of them.", "anchors": ["test.go:BeginContext", "test.go:Prepare", "test.go:Expect", "test.go:doAction", "action.dispatch.go:Do", "action.advancetime.go:Do", "action.call.go:Do", "executor.go:ExecuteCommand", "engine/engine.go:skipHandler", "expectation.messagecommon.go:guardAgainstExpectationOnImpossibleType"]}
{"id": "C119", "title": "Ticking twice is ticking once", "statement": "If Tick() of the engine returns without having been interrupted (no error of the context, not of the lock; errors of handlers are allowed) and without a panic, then from there on - after any dispatches, ticks and resets at the same engine time, however they end - another Tick() at that time or an earlier one, with the same handlers or fewer, in any order, calls no handler, creates no message, changes no state and returns no error: it only tells its observers that it began, visited each handler and ended. In a test: after AdvanceTime(), and any action that does not advance the time, an AdvanceTime() that does not move the clock changes nothing and succeeds. (This is so although a handler may fail, compactions may fail, and timeouts may be scheduled for the past in between.)", "quantifier": "every history of engine operations (dispatch, tick, reset), every application configuration and every behaviour of the user's handlers; all orders of map iteration, all interleaved operations at the same time", "why_tests_cant": "The tests of the library tick once per scenario, and look at single handlers; that nothing at all is left to do needs all handlers, all their timeouts and compactions, and all operations in between.", "anchors": ["engine/engine.go:Tick", "engine/engine.go:tick", "engine/internal/process/controller.go:Tick", "engine/internal/process/controller.go:Handle", "engine/internal/projection/controller.go:Tick", "action.advancetime.go:Do"]}
{"id": "C120", "title": "What the engine does, does not depend on what time it is", "statement": "Perform any sequence of Dispatch(), Tick() and Reset() on an engine, and the same sequence with every WithCurrentTime() moved by the same duration d (into the future or the past) on another engine. If the user's handlers do not depend on absolute times (they may look at the times they are told, schedule timeouts relative to them and keep them), every operation returns the same error or panics with the same value, the same handlers are called in the same order with the same messages, observers are told the same facts, and message IDs are the same; all times (of messages, scheduled timeouts, facts, and times told to handlers and compactions) are moved by d, and nothing else changes. The only absolute time the engine knows is Go's zero time, which stands for 'never compacted': ticks must take place at least an hour after it, before and after the move, otherwise the claim is false.", "quantifier": "every history of engine operations (dispatch, tick, reset), every application configuration and every behaviour of the user's handlers; all durations, all sequences of operations and changes of the world in between", "why_tests_cant": "The library's tests run at one fixed time or at the time of the computer; that no branch depends on absolute times needs all times and all histories.", "anchors": ["engine/engine.go:Dispatch", "engine/engine.go:Tick", "engine/internal/process/controller.go:Tick", "engine/internal/process/scope.go:ScheduleTimeout", "engine/internal/projection/controller.go:Tick", "engine/operationoption.go:WithCurrentTime", "envelope/envelope.go:NewTimeout"]}
{"id": "C121", "title": "What a test finds does not depend on what time it is", "statement": "Take a test, and the same test with its start time (StartTimeAt) and the times it sets (ToTime, and adjustments written by the user) moved by the same duration. If the user's code (handlers, functions given to Call(), command executor interceptors, and predicates in expectations) does not depend on absolute times, every Prepare() and Expect() ends the same: it passes, fails or panics with the same value; only the text of the error for a clock that would go backwards may mention another time. Predicates are told the same facts some time later, and decide the same; the calls of the engine, the executed commands and the failures are the same in the same order. ByDuration() needs no change. As for C120, the test must not take place in the first hour after Go's zero time.", "quantifier": "every history of engine operations (dispatch, tick, reset), every application configuration and every behaviour of the user's handlers; all durations, all tests, all expectations, all start times after the first hour of Go's calendar", "why_tests_cant": "Tests run at the time of the computer or at one fixed time, and thus at few of the possible times; that verdicts never depend on it needs all of them.", "anchors": ["test.go:Begin", "test.go:Prepare", "test.go:Expect", "testoption.go:StartTimeAt", "action.advancetime.go:AdvanceTime", "action.advancetime.go:ToTime", "action.advancetime.go:ByDuration", "action.call.go:Call"]}
{"id": "C122", "title": "What more facts, other orders and repetitions do to a verdict", "statement": "An expectation that messages are produced (ToExecuteCommand, ToRecordEvent, their ...Type and ...Matching variants, AllOf, AnyOf and ToRepeatedly of such, Not and NoneOf of the next kind), once met by the facts of an action, stays met whatever facts follow. An expectation that messages are not produced (ToOnly...Matching, AllOf, AnyOf and ToRepeatedly of such, Not and NoneOf of the first kind), once unmet, stays unmet. If the functions given to ...Matching do not remember what they have seen, the verdict depends only on which messages were produced: neither their order, nor how often each was produced, nor any other fact matters. The converses are false: an expectation of the second kind can be met and then no longer, and with functions that remember, the order matters.", "quantifier": "all expectations (trees of any depth), all lists of facts, all comparators and functions of the user; for ToSatisfy and expectations written by the user the claim is an assumption", "why_tests_cant": "Tests check an expectation against the facts of one action; monotonicity is about all continuations, and independence of the order about all permutations.", "anchors": ["expectation.message.go:Notify", "expectation.messagetype.go:Notify", "expectation.messagematch.go:Notify", "expectation.composite.go:Ok", "expectation.not.go:Ok", "expectation.repeat.go:Ok"]}
{"id": "C123", "title": "What the engine does, does not depend on how many message IDs it has handed out", "statement": "Take an engine, and the same engine had it handed out k more message IDs before. Any sequence of Dispatch() and Tick() returns the same errors, calls the same handlers with the same messages in the same order, notifies observers of the same facts and leaves the same state behind, with every message ID higher by k. So an engine that has no aggregate history, no process instance and no pending timeout left does what a new engine would do, however many messages have been through it. The verdicts of expectations do not depend on message IDs at all.", "quantifier": "all applications whose handlers do not look into message IDs (only projections are given them, as resources; they may store and compare them), all engine states, all k, all sequences of dispatches and ticks with all options; for ToSatisfy and expectations written by the user the claim about verdicts is an assumption", "why_tests_cant": "Tests begin with a new engine or reset it, so the IDs in them are small; nothing compares a used engine with a new one for all histories and numbers.", "anchors": ["engine/engine.go:Dispatch", "engine/engine.go:Tick", "engine/engine.go:dispatch", "envelope/id.go:MessageIDGenerator.Next", "engine/internal/projection/controller.go:Handle"]}
{"id": "C124", "title": "An observer knows what the engine remembers", "statement": "An observer that is notified of all facts, and knows when the engine is reset, can keep books (a small program, given with the proof) that tell at any time between two operations the history of every aggregate instance, which process instances exist, which timeouts are pending, and when each projection was last compacted by a tick. This holds also after operations that failed, were cancelled or panicked. So two engines with whatever handlers that have told the same agree in all of these. What an observer cannot know is which ID the next message will get: a dispatch that is rejected takes an ID without telling anyone.", "quantifier": "all applications and handlers, all histories of dispatches, ticks and resets, including ones that panic", "why_tests_cant": "Tests look at the facts of single operations; that they say enough to reconstruct the state is a statement about all histories, and nothing in the code compares facts with state.", "anchors": ["fact/observer.go:Observer", "fact/aggregate.go", "fact/process.go", "fact/dispatch.go", "fact/tick.go", "fact/projection.go", "engine/internal/aggregate/controller.go:Handle", "engine/internal/process/controller.go:Handle", "engine/internal/process/controller.go:Tick", "engine/internal/projection/controller.go:Tick"]}
{"id": "C125", "title": "Handlers may keep their data as they like: nobody notices", "statement": "Let the handlers of an application be rewritten so that they keep their data (aggregate roots, process roots, and everything outside the engine) in another form, one that can be computed from the old form, but route, record, execute, schedule, destroy, end, log, return and panic as before. Then, whatever is done with an engine, every operation ends the same, notifies the same facts in the same order (but for the roots that facts refer to) and calls the same methods of the handlers with the same arguments (roots being in the new form). The same holds for two applications if neither form can be computed from the other, as long as each determines something common from which the handlers' behaviour follows: their engines notify the same facts. Tests of the two applications do and say the same, whatever they expect.", "quantifier": "all pairs of applications related in this way, all histories of dispatches, ticks, resets and changes outside the engine, all tests", "why_tests_cant": "Quantifies over all handlers and all representations of their data; a test has one application.", "anchors": ["engine/internal/aggregate/controller.go:Handle", "engine/internal/aggregate/scope.go", "engine/internal/process/controller.go:Handle", "engine/internal/process/scope.go", "engine/internal/integration/controller.go:Handle", "engine/internal/projection/controller.go:Handle", "engine/engine.go:Dispatch", "engine/engine.go:Tick", "test.go:Prepare", "test.go:Expect"]}
{"id": "C126", "title": "Instances may be called what they like: only the names change", "statement": "Let the instances of aggregates and processes have other names, one for each and none for two, and let the handlers route messages to the instance with the other name and do for it what they did when it had its old name. Then, whatever is done with an engine, every operation ends the same, notifies the same facts in the same order and calls the same methods of the handlers in the same order, with the other names in place of the old ones. Tests of the two applications do and say the same (but for the names in facts), with all expectations other than those of the user that look at names: their verdicts and even their reports are the same.", "quantifier": "all applications, all one-to-one renamings of instances that keep the empty name, all histories of dispatches, ticks, resets and changes outside the engine, all tests whose user-written expectations do not look at names of instances", "why_tests_cant": "Quantifies over all handlers and all names; a bug that shows with special names only (a prefix of another name, names that differ in case, long names) is not seen by tests with a few names.", "anchors": ["engine/internal/aggregate/controller.go:Handle", "engine/internal/aggregate/scope.go:InstanceID", "engine/internal/process/controller.go:Handle", "engine/internal/process/controller.go:routeTimeout", "engine/internal/process/controller.go:delete", "engine/internal/process/scope.go:InstanceID", "envelope/origin.go:Origin", "engine/engine.go:Dispatch", "engine/engine.go:Tick", "test.go:Expect"]}
{"id": "C127", "title": "The engine does not look into messages: it goes by their types", "statement": "Let messages have other contents, but the same types, and be as valid as before; different contents may become the same. Let the handlers do with a message what they did when it had its old contents. Then, whatever is done with an engine, every operation ends the same, notifies the same facts in the same order and calls the same methods of the handlers in the same order, with the other contents in place of the old ones. In particular, if handlers do not look into messages, then histories that differ only in the contents of messages show the same but for these contents. Expectations about types of messages have the same verdicts and the same reports. So a whole test with such expectations (or others that do not look into messages), whose actions and interceptors do the same with the other contents, passes, fails or panics in the same statement, and says the same to the TestingT apart from lines that show messages.", "quantifier": "all applications, all changes of contents of messages (one-to-one or not), all histories of dispatches, ticks, resets and changes outside the engine, all combinations of expectations about types of messages, all sequences of Prepare() and Expect()", "why_tests_cant": "Quantifies over all handlers and all contents; an engine that treats two messages with the same contents as one, or messages with special contents (zero values) in another way, is not seen by tests with a few messages.", "anchors": ["engine/engine.go:Dispatch", "engine/engine.go:Tick", "engine/internal/aggregate/controller.go:Handle", "engine/internal/aggregate/scope.go:RecordEvent", "engine/internal/process/controller.go:Handle", "engine/internal/process/scope.go:ScheduleTimeout", "engine/internal/integration/controller.go:Handle", "engine/internal/projection/controller.go:Handle", "envelope/envelope.go:NewEvent", "expectation.messagetype.go:Notify", "test.go:Prepare", "test.go:Expect"]}
{"id": "C128", "title": "What a test finds depends only on what its engine remembers, not on message IDs handed out or other things before", "statement": "Take two points of tests at which the engines remember the same (histories of aggregates, process instances, pending timeouts, compaction times), but one of them has handed out more message IDs, and whatever else was before. Let neither the handlers nor functions given to expectations look into message IDs (projections may store and compare them). Then whatever statements follow, Prepare() and Expect() pass, fail or panic in the same places, call the methods of predicates with the same facts in the same order but for the IDs, run the same operations at the same times, and say the same to the TestingT. In particular a Prepare() that leaves nothing behind in the engine might as well be left out.", "quantifier": "all applications, all numbers of message IDs, all pairs of such points in tests, all sequences of Prepare() and Expect() with all actions and interceptors, all trees of expectations", "why_tests_cant": "Quantifies over all tests and all numbers of IDs; a predicate or engine that treats the first message, or IDs beyond some bound, in another way is seen only by the test that happens to hit it.", "anchors": ["test.go:Prepare", "test.go:Expect", "engine/engine.go:Dispatch", "engine/engine.go:Tick", "envelope/id.go:MessageIDGenerator.Next", "expectation.message.go:Notify", "expectation.messagetype.go:Notify", "expectation.messagematch.go:Notify", "expectation.satisfy.go:Done"]}
{"id": "C129", "title": "Asserting changes nothing", "statement": "Expect() does to the engine what Prepare() does with the same action, whatever the expectation is and whether it passes, fails or panics, as long as it provides a predicate: aggregate and process instances, pending timeouts, message IDs, the user's own state, the test's clock, its options and its interceptor are the same afterwards. If Expect() passes then Prepare() succeeds. Hence in any test an Expect() that passes can be replaced by Prepare(), and every statement after it passes, fails or panics as it did and its expectation is told the same facts; and a test that passes still does with all expectations taken out, and leaves everything in the same state. Observers given to an engine operation make no difference to what the operation does and returns.", "quantifier": "all applications, all tests in any state, all actions (with nested calls and interceptors), all implementations of Expectation and Predicate for a single statement and all trees of this module's expectations for sequences of statements", "why_tests_cant": "Quantifies over all actions, expectations and tests around them; an engine that treats an observed operation in another way makes assertions hold of runs that do not happen without them.", "anchors": ["test.go:Prepare", "test.go:Expect", "test.go:doAction", "action.dispatch.go:Do", "action.advancetime.go:Do", "action.call.go:Do", "engine/operationoption.go:WithObserver", "engine/engine.go:Dispatch", "engine/engine.go:Tick"]}
{"id": "C130", "title": "Executing a command in Call() is executing it", "statement": "Call() with a function that executes a command through the test's executor (and panics if that fails) does the same as the action ExecuteCommand() with that command, if its type is used by the application. This holds without interceptors, with an interceptor of the test that passes commands on, and with one given to Call() that does. Engine, user's state, clock and options end up the same, observers are told the same facts in the same order, Prepare() succeeds with one iff it does with the other, and so does Expect(), for expectations that do not distinguish whether the command itself counts as executed (the one difference that is intended; this module's expectations look at that only when they make their predicate). After Call() the interceptor is what it was before, and the executor is unusable again.", "quantifier": "all applications, commands, options, states of a test, ways of turning errors into panics, implementations of Expectation that do not distinguish", "why_tests_cant": "Quantifies over all applications, states and messages; the two ways share no code above the engine, so an option, the time or an observer dropped on one of them shows only when it matters.", "anchors": ["action.call.go:Do", "action.dispatch.go:Do", "executor.go:ExecuteCommand", "engine/executor.go:ExecuteCommand", "test.go:doAction", "test.go:Expect", "test.go:Prepare"]}
