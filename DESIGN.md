# Formal model of dogmatiq/testkit

This directory holds a Lean 4 model of the testkit engine, its expectations and its test runner,
with machine-checked proofs of the properties in `properties.jsonl`.  `MANIFEST.json` maps each
property to its theorems; `seeded/LOG.jsonl` records the wrong programs that the theorems were
tried against, and `seeded/refutations` the concrete runs that contradict a theorem of the edited model.

## Trusted base

* Lean 4.33.0's kernel.
* Axioms: `propext`, `Classical.choice`, `Quot.sound` and no others.  `AXIOMS.md` lists the axioms of
  every property theorem (made by `tools/axioms.sh`).  There are no axioms of our own, no
  placeholders, and no proof relies on compiled code.
* The faithfulness of the hand-written model to the Go text in `/repo`.  Every model definition cites
  the file and lines it transcribes.  The code was read, not run.
* The assumed behaviour of what is outside of the repository (below).

## Overview of the model

The engine is a set of total functions on one state record `Sys` (`Verif/Sys.lean`): the world of
the user code, the ID counter, the state of all controllers, and the *trace*.  The trace is the list
of everything observable so far: facts, calls of user code, scope operations and resets.  It is
written but never read (`Verif/Shift.lean` proves that), so it only serves to state properties.

`Reach A s` says that the state `s` comes about by some history of dispatches, ticks and resets of
the engine of application `A`, with arbitrary changes to the world in between.  Nearly all properties
of the engine are about every reachable state, or about every operation started in a reachable state.

The dispatch loop of the code need not end.  The model's loop has a budget (`fuel`); when it is used
up the outcome is `running`.  Theorems about finished operations hold for all budgets, and
`Verif/Fuel.lean` proves that a larger budget continues the same run, so `running` states are
states in the middle of an operation and not artefacts.  The same holds for `Run` (`Verif/Run.lean`).

### User code

A handler method is an arbitrary interactive program (`Prog`): a tree that may read and write the
world, perform scope operations, and return, fail or panic.  After each scope operation it learns
whether the operation panicked, so it can recover.  The world is an arbitrary type, so user code may
keep any state, and all theorems are for all programs.  Each single call of user
code is taken to return, fail or panic.  Methods that have no scope (routing, `New()`,
`ApplyEvent()`, `ResourceVersion()`, ...) are arbitrary functions on the world that return or panic.

The error of the context is a function of the world (`ctxErr`): a context can be cancelled at any
point where user code runs.  Likewise the wall clock, the outcome of acquiring the engine's lock, the
order of iteration over Go maps (an argument of ticks), the order that an unstable sort gives to
equal elements (`SortImpl`), and the schedule of the compaction goroutine are arbitrary.

Times are integers (nanoseconds).  Zero is Go's zero time.

### Modules

| Lean module | Go code |
|---|---|
| `Basic` | `envelope/*.go`, `fact/*.go` (the data), `engine/internal/panicx` |
| `Sys`, `User` | the engine's and the controllers' structs; interfaces of handlers and scopes |
| `Aggregate`, `Process`, `Integration`, `Projection` | `engine/internal/*/controller.go`, `scope.go` |
| `Engine` | `engine/engine.go`, `configurer.go`, `operationoption.go`, `controller.go` |
| `Run` | `engine/run.go` |
| `Concurrent` | the engine's lock and the ID counter, used by many goroutines |
| `EngineConc` | `engine/engine.go` with the controllers and scopes, as programs that can be interrupted |
| `ExecConc` | `executor.go`, `action.call.go` (`Do`) and the engine's lock, used by many goroutines |
| `Watched` | the same engine once more, with observers (`fact/observer.go`) that run code and may panic |
| `Notified` | `Expect()` with a predicate whose `Notify()` panics, on top of `Watched` (C112) |
| `NotifyPanic` | `Notify()` in `expectation.*.go` once more, with functions of the user that panic (C113) |
| `Ident` | `envelope/id.go` |
| `Observer` | `fact/observer.go` |
| `Compare` | `compare.go` |
| `Expect` | `expectation*.go`, the data part of `report.go` |
| `Satisfy` | `expectation.satisfy.go` (`SatisfyT`) |
| `SatConc` | the same, used by many goroutines |
| `Test` | `test.go`, `testoption.go`, `action.*.go`, `executor.go`, `engine/executor.go` |
| `Build` | the functions that make actions, adjustments, expectations, test options; `BeginContext` |
| `Protocol` | `test.go` (`Expect`) |
| `Late` | the scopes of all handlers, used when the handling is over (C114) |
| `Memory` | the slices of `engine.go`, `process/controller.go`, `aggregate/controller.go` and the scopes, as parts of arrays (C115) |
| `Sliced` | `Engine`, `Aggregate`, `Process`, `Integration` once more, with these slices instead of lists (C115) |
| `UserAction` | `action.go`, `test.go` (`Prepare`, `Expect`, `doAction`) with any implementations of `Action` and `Expectation` |
| `Goexit` | the same with `runtime.Goexit()`, i.e. with Go's `*testing.T` (C116) |
| `TestLog` | `test.go` (what the `TestingT` is told) |
| `Inflect` | `internal/inflect` |
| `Render` | `report.go` (rendering) |
| `Logger` | `fact/logger.go`, `fact/internal/logging` |
| `Location` | `location/location.go` (`OfCall`, `OfPanic`) |
| `Where` | `location/location.go` (`String`), `engine/internal/panicx` (`String`), the errors made in `engine/engine.go` |
| `Diff` | `internal/report/diff.go` |

Specifications: `Spec` (functions on traces), `Options` (meaning of option lists), `ExpectSpec`, `ExplainSpec`
(meaning of expectations), `OpView` (what happened during an operation), the first part of `Rename` (renaming
message IDs; what it means for user code not to look into them).

Proof machinery, which no statement needs: `Seg`, `Sum`, `Steps` (single handlings), `Core`, `Lift`,
`Inv` (the invariant of all histories), `Refine`, `AggRefine`, `AggLive`, `ProcRefine` (state of the
controllers as a function of the past), `OpLog`, `OpFlat`, `OpTick` (whole operations), `Frame`,
`Fuel`, `Flow`, `Shift`, `ExpectRefine`, `ExplainRefine`, `EngineBlind`, `EngineSolo`, `EngineKeeps`
(concurrent and sequential engine), `WatchedRefine`, `WatchedGrow` (engine with observers that do
things), `InflectText` (names in inflected texts).

`Conform/` holds tests of the model, not proofs: the tables of the repository's own tests transcribed
as `#guard`s, so that the model gives the verdicts and texts that the tests say the code gives
(`Messages`: all tables of `expectation.message*_test.go`; `Trees`: those of the composites,
`Not`, `ToRepeatedly` and `ToSatisfy`; `Log`: captions and errors; `Logger`: `fact/logger_test.go` and
`internal/inflect/inflect_test.go`; `Controllers`: `controller_test.go` and `scope_test.go` of the four
kinds of handlers; `Engine`: those of the engine, its executor, `Test` and its options; `Texts`: those of
locations, panics and of functions that reject their arguments).

`Demo` is a small application for concrete cases.  The property theorems are in `Verif/Props/`; after
each there is an `example` (or a theorem named in the manifest) showing a concrete case in which the
hypotheses hold.

## What is assumed about code outside of the repository

* `configkit`: handler names are unique; an aggregate or integration consumes commands and produces
  events, a projection consumes events, a process consumes events and produces commands, and consumes
  exactly the timeouts it produces (`App.WF`, an explicit hypothesis where it is needed).  Handlers are in
  the order in which `configkit` shows them to the engine (`App.cfgs`, "registration order"); nothing is
  assumed about which order that is.
* `cosyne.Mutex`: mutual exclusion; `Lock(ctx)` may give up.  `sync/atomic` operations are atomic.
* `multierr`: errors are appended to a list.
* `sort.Slice`: yields a sorted permutation.
* `runtime.Callers`, `runtime.CallersFrames`: one frame per program counter, innermost first.
* `proto.Equal`, `reflect.DeepEqual`: parameters of `Compare`.
* `iago/indent`: puts the prefix before every line.
* `dapper`, the diff library, `fmt` of arbitrary values, RFC 3339 formatting: their texts are parameters.

## What is left out, by module

* `Observer`: observers that panic or change what handlers see; `Watched` has those, for the engine used by
  one goroutine (all other modules take observers to record facts and to do nothing else).
* `Watched`: all observers of an operation are one; a fact on which one of them panics counts as told.
* `Late`: a scope that is used too late may be in any state.  Its facts go to the trace, marked as late, and not to the
  observers of the operation it belongs to.  Left out is an observer, or another goroutine, that executes a
  command with the scope of a process just when its handling has been completed: `append(s.commands, s.ready...)` (`process/controller.go` 146) may share its
  array with `s.commands`, so that `ExecuteCommand()` can then overwrite a timeout that is about to be dispatched
  (C115).
* `Memory`: programs are any sequences of the statements that have to do with slices.  All other modules but `Sliced` take slices for
  lists, which C115 justifies; `Observer` has the slices of `BufferedObserver` with their memory too.
* `Sliced`: what a scope collects is appended to its slices when the method has returned, first the commands, then the
  timeouts; nothing else is appended anywhere meanwhile.
* `Notified`: the predicate is registered at most once for an operation, after the other observers, which do
  not panic; actions are the built-in ones.
* `Projection`: after a panic escapes `HandleEvent` during parallel compaction the compaction goroutine
  stops (in Go it lingers on).  A panic of the compaction goroutine ends the program.
* `Integration`, `Aggregate`, `Process`: roots are values, so a `New()` that returns the same pointer twice
  is left out, and so is the `Root` of facts.  For scopes that are kept and used after the method has returned see `Late`.  A handler that changes its root itself says what the root is now (`setRoot`); what it reads from
  a root that events were applied to has to go by way of the user's state.  Panics of scopes and of
  `Dispatch()` have the code's texts; `EnableHandlers()` and the like panic with the handler's name only.
* `ExecConc`: what the engine does with a message is one arbitrary program per message; `sync.RWMutex`
  is taken to keep new readers out as soon as a writer waits.  `runtime.Goexit` is left out.
* `Concurrent`: observers, which are called outside of the lock too; handlers that call their own
  engine (they would wait forever); the 64 bit limit of IDs (see `Ident`).
* `EngineConc`: facts about the beginning of an operation are reported just after the lock has been acquired
  (in Go just before, where those of several operations mix); an operation reads the clock when it is
  called; the calls of resetters are one step, and so are those that a projection's handling and the first
  part of a tick consist of (nobody else can see the state in between, and they take no IDs).
* `Expect`: places in the code are strings; user functions other than those of
  `ToSatisfy` do not panic.  Expectations written by the user (`Expectation.custom`) are arbitrary
  functions of the observed facts; a claim on reports needs that theirs are honest.
* `Satisfy`: the mutex (one goroutine; see `SatConc`), `runtime.Goexit` (see `Goexit`).  Each call of a method carries the stack it is
  made from; only that of the user's code and of the package below it, whose last frame is `Done`.
* `SatConc`: code of the user ends, and goroutines do not wait for one another other than by `SatisfyT`'s
  lock; a read or write of a field is one step (`close()` and `Ok()` read without holding the lock, which
  Go's memory model does not give a meaning while others write); `sync.RWMutex` as for `ExecConc`; `fmt`
  recovers from all panics of the methods it calls; no `runtime.Goexit`.  The field `Facts` is left out.
* `Protocol`: `Notify()` does not panic (for predicates that do see `Notified` and `NotifyPanic`, for other observers
  `Watched`); no `runtime.Goexit()` (see `Goexit`).
* `UserAction`: as `Protocol`.  Actions are programs that use their scope, `Prepare()` and `Expect()`, and
  the world; they use no other engine, do not call `EnableHandlers()` and the like, start no goroutines,
  and `append()` to the options of their scope does not overwrite what others appended.
* `Goexit`: `runtime.Goexit()` is a panic with a value of its own (`goexit`) that nobody can recover from for good: a program
  that gets it runs what its deferred functions do, and afterwards the goroutine goes on exiting.  That a program runs nothing *but*
  its deferred functions then is up to the program (`AProg.Tidy`); C116_prepare and C116_expect do not need it.  A `Compact()` that
  runs in a goroutine of its own (`projection/controller.go` 124-157) and leaves that one with `runtime.Goexit()` is left out:
  `Handle()` would wait for its result forever.
* `Test`: an interceptor reaches the engine only by the executor it is given; `Bind`, `Unbind` and
  `Intercept` are called by actions only; annotations and locations; the executor's lock (see `ExecConc`).
  `Fatal()` either returns or panics (`TEnv.fatal`); that of `testing.T` leaves the goroutine with
  `runtime.Goexit()`, which is neither: see `Goexit`.  For `Expect()` inside of `Call()` and actions written by the user see `UserAction`.
* `Build`: locations, and panics of `location.OfCall`; nil options; `Begin()` with a nil context; the generic
  functions are given the type they are instantiated with.  Texts of `fmt` and `time` are parameters (`Quote`).
* `TestLog`: `Helper()`.
* `Logger`: formats of times, types and descriptions are parameters; handler log messages are texts.
* `Render`: byte counts and errors of the underlying writer.
* `Inflect`: upper-casing is that of ASCII letters.
* Not modelled at all: `internal/testingmock`, `internal/fixtures`, `internal/validation`, Go's memory model, generated protobuf code.

## How the properties are proved

* C01-C09, C12, C30: one invariant (`Core`, `Inv`) relating every observation to what came before.
* C05, C07, C10, C11, C31, C37, C76: structured logs of whole operations (`OpLog`), flattened.
* C13-C15, C19: options as "the last one wins".  C16, C17, C27, C43, C79: frames of single handlings.
* C18: two engines that differ only in their past behave the same (`Shift`).
* C06, C32-C34, C36, C75: every message is in one place (`Flow`).
* C21-C26, C28, C29, C33, C35, C74, C87: the controllers' state, and each observation, in terms of the
  past and of the handling in progress (`Refine`).
* C88: induction over the method's program, as a conversation with its scope (`Talk`).  C106: the same, with the root.  C104: the shapes of handlings.
* C38-C42: projections over all replies of user code and all schedules.
* C44-C50, C53-C55: predicates of the code against the meaning of expectations (`ExpectSpec`).
* C51, C52, C84: an interpreter for programs over `SatisfyT`, with call stacks.
* C107: an invariant of the lock and of the list of cleanup functions, over all interleavings of accesses to
  fields; a weight for what is left to do.  Without goroutines the steps are determined (`SatAlone`), and do
  what the model behind C51, C52 and C84 does.
* C108: induction over the path to an expectation in its tree (`Shows`), on top of C82 and C84.
* C109: a visit of a tick is computed in closed form (`tickAll_visits`); visits to different handlers
  commute (`tkUpd_comm`), so the state left is that of any permutation; message predicates take no
  notice of the facts of visits.  `C109_matters` is the witness that the order of two process handlers
  with due timeouts is observable.
* C110: a relation between runs with and without panics of observers (`Follow`), function by function.
  C111: what each function adds to the trace and to the stores (`Goes`), then an invariant (`Sound`).
  C112: the same for tests (`Follow1`), by induction over nested actions, on top of C110.
  C115: no two variables share an array (`Ok`), and the results of `Tick()` and `Handle()`, which do share one with a
  variable, are not overwritten before they are copied (`Held`).  The engine with slices is then the engine with lists by a simulation (`Sim`).
  C114: a late call that makes a message takes an ID, like a `Dispatch()` that is refused at once; so it is a step of a
  history (`later_as`), and a call in the concurrent engine (C89).
  C113: a tree is told a fact leaf by leaf (`tellLeaves`); each leaf by the invariants of C44, C46 and C47; then C112.
* C56-C63, C77, C78, C85: the test runner as a state machine; tests are histories of their engine.
* C90-C95: actions as programs over their scope; induction over (mutually) nested programs.
* C116: a failure sets the flag that the goroutine is exiting, which nothing resets (`TSt.Sticky`), by induction over programs; for
  programs that do not tell `goexit` from a panic, the model of `UserAction` and this one agree (`XRes.Same`).
* C117: the engine does not look at the trace (`Verif.Shift`) nor, in a handling, at the list of handlers; so the loops over an
  application with and without some handlers go side by side.  Timeouts of a handler that is left out stay where they are filed
  (invariant of C08).  `C117_unheard` shows why the message must have another consumer.
* C118: two tests side by side (`Twin`), by mutual induction over actions and the functions given to `Call()`; verdicts depend on the
  facts only through the messages that count (C44-C53), by induction over trees of expectations.
* C119: from C31 (no due timeouts are left) and the fact that compaction clocks never go back; `C119_kept` by induction over the operations
  at the same time, from the lemma of C78 that no operation leaves due timeouts behind.
* C120: every function of the engine commutes with moving all times (`Verif.Retime`); that only timeouts are pending is needed, since
  `ScheduledFor` of other messages is no time.  What is assumed of user code is `App.AnyTime` (a simulation of its programs) and that the
  sort of the timeouts only compares times.  `C120_early` shows why ticks must not take place in the first hour of Go's calendar.
* C121: two tests side by side, as for C118, by mutual induction over the relation between an action and the same action some time later;
  engine operations by C120's lemmas, verdicts by the lemma of C118 that they only depend on the messages that count.
* C122: by induction over trees of expectations, from the verdicts of the leaves (C44-C47) and of composites (C48, C50).
* C123: from the renaming of message IDs in the interruptible programs (`EngineBlind`, proof of C65): a program that does not reset the IDs
  does, run without interruption, the same with higher IDs; that the result of an operation is the same is read off by continuing the
  program with one that takes another ID exactly if the result differs.
* C124: the observer's books follow the scan of the trace that C21, C28 and C29 are about; the times of compactions by the `Lift` scheme, as in C40.
* C125: every function of the engine commutes with a change of the representation of roots and world (`Verif.Refit`); what is assumed of
  user code is `App.Refits`, a simulation of its programs.  Tests by mutual induction over the relation between two actions, as for C121.
  The model is polymorphic in both, so this is about the modelling as much as about the model: in the code, too, roots are interface values
  that are only compared with nil and handed on (`Root` of facts is left out, see `Aggregate`).  No edit of the model that keeps it
  polymorphic can break C125, so there are no mutants for it.
* C126: as C125, but with a one-to-one map of the names of instances (`Verif.Relabel`): the engine stores under them, compares them with
  each other and with the empty string, and does nothing else with them.  The maps have an inverse, because the state of the engine is a
  function of all names.  The sort used by the runtime is assumed not to look at names.  For tests, `Expecting.Nameless` says that an
  expectation does not look at names; `C126_nameless` proves it of all expectations of the module, given it of functions of users.
  The log lines that show facts contain names and are not part of the record of a test that is compared.
* C127: as C126, but with a map of the contents of messages, by type, that need not be one-to-one (`Verif.Reword`): the engine goes by
  types, kinds and validity only.  Panic values that carry a message are mapped too.  Texts (log lines, descriptions of messages) are
  outside: handlers of the other application log the same texts by assumption (`Prog.Bd`), and the lines of the log of tests are C68 and C85.
  For tests, `Expecting.Wordless` says that an expectation does not look at contents; `C127_wordless` proves it of those about types.
* C128: C123 lifted to tests, with the relations on actions of C125 and one on predicates that differ in IDs only.  Log lines that show IDs
  are not part of the record of a test that is compared.
* C129: options without observers give the same operation (induction over the loops of the engine); two runs of a test that differ in observers
  stay alike, by recursion on actions and functions given to `Call()`.  In the model expectations do not touch the application's state, which
  a user's own implementation could.
* C130: direct, with the relation of C129 for the different log lines.  Expectations on messages count the command itself in `Call()` only,
  so that C130 has a hypothesis on expectations; an example shows that it is needed.
* C96: by cases, with an induction over trees of expectations for what comes of them.  C97, C98: direct.
* C99: joins the constructors with C48.  C100: which texts inflection leaves alone.  C101: a reader for marked texts.
* C102, C103: readers for the texts, and the grammar of names that look like closures.
* C64: the tick loop over an arbitrary clock.  C65, C66, C86: all interleavings of small steps.
* C105: what goroutines still have to do is accessible (well-founded) for each of them, hence for finitely
  many together; with the absence of deadlocks (C65, C86) everything gets done.
* C89: the interruptible programs run alone do what the engine's functions do (`EngineSolo`), and commute
  with renaming (`Rename`, `EngineBlind`); then C65.
* C67: passes over maps commute.  C68-C70: texts and stack searches.  C71-C73: direct.
* C80: a measure on the queue, from a rank of message types.
* C81: `Flow` joined with the controllers' state; what may go missing is enumerated (`Discarded`).
* C82, C83: texts as data (`ExplainSpec`), with invariants of the tracker.

## Claims that are false of the code

For each there is a theorem with a concrete run that contradicts the claim, and a theorem ending in
`_partial` with the part that holds.

* C18: `projection.Controller.Reset` does not reset the compaction clock (`C18_fails`).
* C26: `Destroy()` followed by `RecordEvent()` in one command keeps the old history, so the next replay
  differs from the live root (`C26_reverted_false`).  So it does after a handler has changed its root other
  than by recording events (`C26_changed_false`).
* C34: a timeout that is already in the queue when its instance ends is delivered to a new instance of
  the same ID that was begun by an event in between (`C34_fails`).
* C51, C52: a cleanup function that panics or aborts prevents the remaining ones and replaces the
  panic; cleanups registered by cleanups never run (`C51_panic_fails`, `C52_fails`,
  `C52_nested_fails`).
* C54: `ToOnly...Matching()` passes without any message but is rejected as impossible
  (`C54_only_fails`).
* C58, C61, C63: a nested `Prepare()` or `Call()` inside of `Call()` takes the predicate's view,
  unbinds the executor, or leaves it at the old time (`C58_nested_fails`, `C61_nested_fails`,
  `C63_fails`).
* C94: an action made of `AdvanceTime()` and another one runs the other one at the old time
  (`C94_fails`).  (The comment on `ActionScope.VirtualClock` says so.)
* C65, C66: concurrent operations number messages differently from sequential ones
  (`C65_renaming_fails`); a `Reset()` between taking an ID and using it makes IDs collide (`C66_fails`).
  The part of C89 that says so: `C89_reset_fails`.
* C69: a criterion with line breaks can imitate the rest of a report (`C69_forged`).
* C70: `eachFrame` looks at the first eight program counters only (`C70_deep_fails`).
* C74: roots that misbehave make a history without recorded events look like one with some
  (`C74_recorded_false`).
* C83: messages of a type that the predicate function is not asked about count as ignored by it
  (`C83_ignored_not`).
* C84: `findFrame` looks at the first 50 frames only (`C84_deep_fails`); a cleanup function that calls
  `Helper()` is blamed on a line of testkit itself (`C84_cleanup_fails`).
* C96: `ExecuteCommand()` panics with a text that names `ToRecordEvent` if the command is invalid
  (`C96_actions_fails`); `AllOf()` and `AnyOf()` do not reject nil expectations, `Not(nil)` dereferences a nil
  pointer (`C96_expectations_fails`).
* C97: executing a command (recording an event) of a type that is produced but not consumed panics in the engine,
  though the test takes the trouble to reject types that are neither (`C97_fails`).
* C100: `RecordEvent()` of a type named `pkg.a` is announced as "recording pkg.an event" (`C100_actions_fails`).
* C101: the marks of differences are not escaped (`C101_fails`).
* C102: a function declared with a name like `func1` is taken for a closure (`C102_fails`).
* C79: `Destroy()` does not check `New()` for nil, unlike the controller (`C79_fails`).

## Other observations on the code

* `tracker.Notify` handles `DispatchCycleBegun` but not `TickCycleBegun`, although its comment speaks
  of both.
* Cancelling the context during a tick loses the timeouts that were already taken out of the pending
  list.  C29 is stated for released timeouts accordingly; `C81_interrupted` is a concrete case.
* The timeouts of different handlers delivered by one tick are not in chronological order.
* A `ToSatisfy` function that fails and then skips passes (C51).
* "No relevant handler types were enabled" is said even if a handler that is enabled by its name was
  engaged and produced messages.
* Inflection is applied to the names of handlers and types that occur in the texts of reports as well.
