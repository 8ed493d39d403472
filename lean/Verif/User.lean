import Verif.Basic

/-!
# User code

The application's handlers as arbitrary interactive programs.  A handler method
is a tree: it may read and write the world `W`, perform scope operations, and
finally return.  After a scope operation it learns whether the operation
panicked; it may then recover and continue in any way, or re-panic.
-/

namespace Verif

/-- Operations on `dogma.AggregateCommandScope` (`/repo/engine/internal/aggregate/scope.go`
31-142).  `setRoot` is the handler mutating the root it was given itself, rather than by recording an
event (`aggregate/controller.go` 142-146). -/
inductive AggOp (R : Type) where
  | record (m : Message)
  | destroy
  | setRoot (r : R)
  | log (s : String)
  deriving DecidableEq, Repr

/-- Operations on the process scopes.  `setRoot` is the handler mutating the process root it was
given (`/repo/engine/internal/process/scope.go` 34-195). -/
inductive ProcOp (R : Type) where
  | execute (m : Message)
  | schedule (m : Message) (t : Time)
  | end_
  | setRoot (r : R)
  | log (s : String)
  deriving DecidableEq, Repr

/-- Operations on `dogma.IntegrationCommandScope` (`/repo/engine/internal/integration/scope.go`
27-80). -/
inductive IntOp where
  | record (m : Message)
  | log (s : String)
  deriving DecidableEq, Repr

/-- Operations on the projection scopes (`/repo/engine/internal/projection/scope.go` 20-39). -/
inductive PrjOp where
  | log (s : String)
  deriving DecidableEq, Repr

/-- An interactive program with operations `O` and result `α` (user code is not part of /repo;
where it is called from is listed at `UserCode`). -/
inductive Prog (W O α : Type) where
  /-- return normally -/
  | ret (a : α)
  /-- panic -/
  | panic (v : PanicVal)
  /-- perform a scope operation; the continuation learns whether it panicked -/
  | op (o : O) (k : Option PanicVal → Prog W O α)
  /-- read the world -/
  | get (k : W → Prog W O α)
  /-- change the world -/
  | set (w : W) (k : Prog W O α)

/-- Perform `o`; if it panics, let the panic escape (the usual Go handler, which does not recover)
(no counterpart in /repo). -/
def Prog.do_ {W O α : Type} (o : O) (k : Prog W O α) : Prog W O α :=
  .op o fun
    | none => k
    | some v => .panic v

/-- The user's handler implementations, for every handler (by configuration). `W` is everything
user code and its environment can depend on (the interfaces called in
`/repo/engine/internal/aggregate/controller.go` 42-160, `process/controller.go` 61-260,
`integration/controller.go` 39-76, `projection/controller.go` 38-181,
`/repo/engine/engineoption.go` 18-31). -/
structure UserCode (W R : Type) where
  /-- `AggregateMessageHandler.RouteCommandToInstance` -/
  aggRoute : HConfig → Message → W → W × Except PanicVal String
  /-- `AggregateMessageHandler.New`; `none` is a nil root -/
  aggNew : HConfig → W → W × Except PanicVal (Option R)
  /-- `AggregateRoot.ApplyEvent`: the root is mutated even if it panics -/
  aggApply : HConfig → R → Message → W → W × R × Option PanicVal
  /-- `AggregateMessageHandler.HandleCommand` -/
  aggHandle : HConfig → String → R → Message → Prog W (AggOp R) Unit
  /-- `ProcessMessageHandler.RouteEventToInstance` -/
  procRoute : HConfig → Message → W → W × Except PanicVal (Except Err (Option String))
  /-- `ProcessMessageHandler.New` -/
  procNew : HConfig → W → W × Except PanicVal (Option R)
  /-- `ProcessMessageHandler.HandleEvent` / `HandleTimeout`; the last argument is
  `RecordedAt()` / `ScheduledFor()` -/
  procHandle : HConfig → String → R → Message → Time → Prog W (ProcOp R) (Option Err)
  /-- `IntegrationMessageHandler.HandleCommand` -/
  intHandle : HConfig → Message → Prog W IntOp (Option Err)
  /-- `ProjectionMessageHandler.ResourceVersion`; versions are byte strings -/
  prjVersion : HConfig → Nat → W → W × Except PanicVal (Except Err (List Nat))
  /-- `ProjectionMessageHandler.HandleEvent`: resource, current and next version, event,
  `RecordedAt()` -/
  prjHandle : HConfig → Nat → List Nat → List Nat → Message → Time → Prog W PrjOp (Except Err Bool)
  /-- `ProjectionMessageHandler.CloseResource` -/
  prjClose : HConfig → Nat → W → W × Except PanicVal (Option Err)
  /-- `ProjectionMessageHandler.Compact` -/
  prjCompact : HConfig → Time → Prog W PrjOp (Option Err)
  /-- the goroutine schedule used when compaction runs in parallel with
  handling; `true` lets the compaction goroutine make a step -/
  schedule : W → List Bool
  /-- functions given to `engine.WithResetter` -/
  resetters : List (W → W × Option PanicVal)
  /-- `ctx.Err()` -/
  ctxErr : W → Option Err
  /-- the result of `e.m.Lock(ctx)` -/
  lockErr : W → Option Err
  /-- `time.Now()` -/
  wallClock : W → Time

end Verif
