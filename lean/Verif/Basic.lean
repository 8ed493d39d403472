/-!
# Basic vocabulary

Messages, handler configurations, envelopes, facts and panic values.

Sources: `/repo/envelope/envelope.go`, `/repo/envelope/origin.go`,
`/repo/fact/*.go`, `/repo/engine/internal/panicx/*.go`.
-/

namespace Verif

/-- `message.Kind` (enginekit): the three kinds of Dogma message (as used in
`/repo/engine/engine.go` 255 and `/repo/internal/inflect/inflect.go` 12-36). -/
inductive Kind where
  | command | event | timeout
  deriving DecidableEq, Repr

/-- `message.Type`: a Go type together with its kind (as used in `/repo/engine/engine.go` 253). -/
structure MType where
  kind : Kind
  name : String
  deriving DecidableEq, Repr

/-- A `dogma.Message`.  `body` stands for the contents; `invalid` is the error its `Validate()`
method returns, if any (as carried by `/repo/envelope/envelope.go` 24). -/
structure Message where
  type : MType
  body : String
  invalid : Option String := none
  deriving DecidableEq, Repr

/-- `configkit.HandlerType` (as used in `/repo/engine/operationoption.go` 71-77). -/
inductive HandlerType where
  | aggregate | process | integration | projection
  deriving DecidableEq, Repr

/-- The part of a `configkit.RichHandler` the engine looks at: identity name, handler type,
`IsDisabled()`, and `MessageTypes()` (consumed and produced) (as used in `/repo/engine/engine.go`
345-359 and `/repo/engine/configurer.go` 62-70). -/
structure HConfig where
  name : String
  htype : HandlerType
  disabled : Bool := false
  consumes : List MType
  produces : List MType
  deriving DecidableEq, Repr

/-- An opaque Go `error` (for instance `/repo/engine/engine.go` 330). -/
abbrev Err := String

/-- Engine time in nanoseconds since Go's zero `time.Time`. -/
notation "Time" => Int

/-- `envelope.Origin` (`/repo/envelope/origin.go` 6-19). -/
structure Origin where
  handler : HConfig
  htype : HandlerType
  instanceID : String
  deriving DecidableEq, Repr

/-- `envelope.Envelope` (`/repo/envelope/envelope.go` 10-36).  IDs are numbers
here; `Verif.Ident` relates them to the decimal strings of the code.
`scheduledFor` is 0 (Go's zero time) unless the message is a timeout. -/
structure Env where
  id : Nat
  causation : Nat
  correlation : Nat
  msg : Message
  createdAt : Time
  scheduledFor : Time := 0
  origin : Option Origin := none
  deriving DecidableEq, Repr

/-- `envelope.NewCommand` / `envelope.NewEvent` (`envelope.go` 41-78): an
envelope for a root message.  (The check for an empty ID can not fire for IDs
made by the generator; see `Verif.Ident`.) -/
def Env.root (id : Nat) (m : Message) (t : Time) : Env :=
  { id := id, causation := id, correlation := id, msg := m, createdAt := t }

/-- `(*Envelope).NewCommand` / `NewEvent` (`envelope.go` 84-118). -/
def Env.child (e : Env) (id : Nat) (m : Message) (t : Time) (o : Origin) : Env :=
  { id := id, causation := e.id, correlation := e.correlation, msg := m,
    createdAt := t, origin := some o }

/-- `(*Envelope).NewTimeout` (`envelope.go` 125-141). -/
def Env.childTimeout (e : Env) (id : Nat) (m : Message) (t sched : Time) (o : Origin) : Env :=
  { id := id, causation := e.id, correlation := e.correlation, msg := m,
    createdAt := t, scheduledFor := sched, origin := some o }

/-- Values that can travel in a Go panic (`/repo/engine/internal/panicx/unexpectedmessage.go`
14-33, `unexpectedbehavior.go` 15-37). -/
inductive PanicVal where
  /-- `dogma.UnexpectedMessage`, as raised by user code -/
  | unexpectedMessage
  /-- any other value raised by user code -/
  | user (s : String)
  /-- `panicx.UnexpectedMessage` -/
  | enriched (handler : String) (iface method : String) (m : Message)
  /-- `panicx.UnexpectedBehavior` -/
  | behavior (handler : String) (iface method : String) (m : Message) (desc : String)
  /-- panics raised by the engine itself about its caller's arguments -/
  | misuse (desc : String)
  /-- panics that would reveal a bug of the engine (nil dereference,
  "does not handle", missing callback) -/
  | internal (desc : String)
  /-- a panic on a goroutine nobody recovers: the process dies -/
  | crash (desc : String)
  deriving DecidableEq, Repr

/-- The description of a request to produce a message of a type the handler does not produce:
`verb` is what it did, as in "recorded an event" (`/repo/engine/internal/aggregate/scope.go` 62,
`process/scope.go` 63, 127, `integration/scope.go` 37). -/
def undeclaredText (verb : String) (m : Message) : String :=
  verb ++ " of type " ++ m.type.name ++ ", which is not produced by this handler"

/-- The description of a request to produce an invalid message
(`/repo/engine/internal/aggregate/scope.go` 74, `process/scope.go` 75, 139,
`integration/scope.go` 49). -/
def invalidText (verb noun : String) (m : Message) (err : Err) : String :=
  verb ++ " an invalid " ++ m.type.name ++ " " ++ noun ++ ": " ++ err

/-- The description of a message routed nowhere (`/repo/engine/internal/aggregate/controller.go` 75,
`process/controller.go` 206). -/
def emptyIDText (noun : String) (m : Message) : String :=
  "routed " ++ noun ++ " of type " ++ m.type.name ++ " to an empty ID"

/-- What `Dispatch` panics with if the message is invalid (`/repo/engine/engine.go` 206). -/
def cannotDispatchText (m : Message) (err : Err) : String :=
  "cannot dispatch invalid " ++ m.type.name ++ " message: " ++ err

/-- What `Dispatch` panics with if there is no handler for the message
(`/repo/engine/engine.go` 210). -/
def notConsumedText (m : Message) : String :=
  "the " ++ m.type.name ++ " message type is not consumed by any handlers"

/-- `panicx.EnrichUnexpectedMessage` (`unexpectedmessage.go` 50-79), as the
effect on the value in flight. -/
def enrich (h : HConfig) (iface method : String) (m : Message) : PanicVal → PanicVal
  | .unexpectedMessage => .enriched h.name iface method m
  | v => v

/-- `fact.HandlerSkipReason` (`/repo/fact/skip.go`) (lines 5-20). -/
inductive SkipReason where
  | typeDisabled | individuallyDisabled | disabledByConfiguration
  deriving DecidableEq, Repr

/-- Errors returned by engine operations.  `multierr` values are lists of these; the empty list is
`nil` (`/repo/engine/engine.go` 146-156, 166-168, 274-285, 297-299). -/
inductive EngErr where
  /-- `fmt.Errorf("%s %s: %w", name, type, err)` -/
  | handler (name : String) (t : HandlerType) (e : Err)
  /-- `ctx.Err()` -/
  | ctx (e : Err)
  /-- error from acquiring the engine lock -/
  | lock (e : Err)
  deriving DecidableEq, Repr

/-- The other fields of `DispatchCycleBegun` and `TickCycleBegun` (`/repo/fact/dispatch.go` 14-16,
`tick.go` 11-13): the engine time, and the entries of the maps `EnabledHandlerTypes` and
`EnabledHandlers` (the latter in the order of the application's handlers). -/
structure CycleInfo where
  now : Time
  types : List (HandlerType × Bool)
  names : List (String × Bool)
  deriving DecidableEq, Repr

/-- The maps `EnabledHandlerTypes` and `EnabledHandlers` alone, as in `DispatchCycleCompleted` and
`TickCycleCompleted` (`/repo/fact/dispatch.go` 20-25, `tick.go` 17-21). -/
structure EnabledMaps where
  types : List (HandlerType × Bool)
  names : List (String × Bool)
  deriving DecidableEq, Repr

/-- The maps of a fact about the begin of a cycle (`/repo/fact/dispatch.go` 15-16, `tick.go` 12-13). -/
def CycleInfo.maps (c : CycleInfo) : EnabledMaps := ⟨c.types, c.names⟩

/-- Reading the map: `EnabledHandlerTypes[t]` (`/repo/fact/dispatch.go` 15, `tick.go` 12). -/
def CycleInfo.enables (c : CycleInfo) (t : HandlerType) : Bool := (c.types.lookup t).getD false

/-- Facts (`/repo/fact/aggregate.go`, `dispatch.go`, `integration.go`, `process.go`,
`projection.go`, `tick.go`).  Roots (pointers) are left out (lines 11-73, 12-61, 10-23, 11-98, 10-30, 10-38 of these files). -/
inductive Fact where
  -- dispatch.go
  | dispatchCycleBegun (env : Env) (c : CycleInfo)
  | dispatchCycleCompleted (env : Env) (m : EnabledMaps) (err : List EngErr)
  | dispatchBegun (env : Env)
  | dispatchCompleted (env : Env) (err : List EngErr)
  | handlingBegun (h : HConfig) (env : Env)
  | handlingCompleted (h : HConfig) (env : Env) (err : Option Err)
  | handlingSkipped (h : HConfig) (env : Env) (r : SkipReason)
  -- tick.go
  | tickCycleBegun (c : CycleInfo)
  | tickCycleCompleted (m : EnabledMaps) (err : List EngErr)
  | tickBegun (h : HConfig)
  | tickCompleted (h : HConfig) (err : Option Err)
  | tickSkipped (h : HConfig) (r : SkipReason)
  -- aggregate.go
  | aggLoaded (h : HConfig) (id : String) (env : Env)
  | aggNotFound (h : HConfig) (id : String) (env : Env)
  | aggCreated (h : HConfig) (id : String) (env : Env)
  | aggDestroyed (h : HConfig) (id : String) (env : Env)
  | aggReverted (h : HConfig) (id : String) (env : Env)
  | aggEvent (h : HConfig) (id : String) (env ev : Env)
  | aggLog (h : HConfig) (id : String) (env : Env) (s : String)
  -- process.go
  | procLoaded (h : HConfig) (id : String) (env : Env)
  | procEventIgnored (h : HConfig) (env : Env)
  | procTimeoutIgnored (h : HConfig) (id : String) (env : Env)
  | procNotFound (h : HConfig) (id : String) (env : Env)
  | procBegun (h : HConfig) (id : String) (env : Env)
  | procEnded (h : HConfig) (id : String) (env : Env)
  | procReverted (h : HConfig) (id : String) (env : Env)
  | procCommand (h : HConfig) (id : String) (env cmd : Env)
  | procTimeout (h : HConfig) (id : String) (env tmo : Env)
  | procLog (h : HConfig) (id : String) (env : Env) (s : String)
  -- integration.go
  | intEvent (h : HConfig) (env ev : Env)
  | intLog (h : HConfig) (env : Env) (s : String)
  -- projection.go
  | prjCompactBegun (h : HConfig)
  | prjCompactCompleted (h : HConfig) (err : Option Err)
  | prjLog (h : HConfig) (env : Option Env) (s : String)
  deriving DecidableEq, Repr

/-- Calls into user code, with the arguments the user code sees (made in
`/repo/engine/internal/aggregate/controller.go` 42-160, `process/controller.go` 61-260,
`integration/controller.go` 39-76, `projection/controller.go` 38-181, `/repo/engine/engine.go`
77-79). -/
inductive Call (R : Type) where
  | aggRoute (h : HConfig) (m : Message)
  | aggNew (h : HConfig)
  | aggApply (h : HConfig) (r : R) (m : Message)
  | aggHandle (h : HConfig) (id : String) (r : R) (m : Message)
  | procRoute (h : HConfig) (m : Message)
  | procNew (h : HConfig)
  | procHandle (h : HConfig) (id : String) (r : R) (m : Message) (at_ : Time)
  | intHandle (h : HConfig) (m : Message)
  | prjVersion (h : HConfig) (res : Nat)
  | prjHandle (h : HConfig) (res : Nat) (cur next : List Nat) (m : Message)
  | prjClose (h : HConfig) (res : Nat)
  | prjCompact (h : HConfig) (now : Time)
  | resetter (i : Nat)
  deriving DecidableEq, Repr

/-- What happens over time: facts notified to observers, calls into user code, and (for
specifications) the points at which the engine was reset (`/repo/fact/observer.go` 6-9,
`/repo/engine/engine.go` 67-80). -/
inductive Obs (R : Type) where
  | fact (f : Fact)
  | call (c : Call R)
  | reset
  deriving DecidableEq, Repr

end Verif
