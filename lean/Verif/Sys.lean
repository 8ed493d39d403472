import Verif.User

/-!
# Engine state

The state shared by the controllers of one engine (`/repo/engine/engine.go`
18-29 and the controller structs), plus the trace of what has been observed.
-/

namespace Verif

/-- State of a process controller (`process/controller.go` 21-27): live
instances and pending timeouts. -/
structure ProcState (R : Type) where
  inst : String → Option R
  timeouts : List Env

/-- A Go sort: any function returning a permutation sorted by `ScheduledFor`.
`sort.Slice` is not stable, so nothing is assumed about equal times
(`process/controller.go` 271-278). -/
structure SortImpl where
  sort : List Env → List Env
  perm : ∀ l, (sort l).Perm l
  sorted : ∀ l, (sort l).Pairwise (fun a b => a.scheduledFor ≤ b.scheduledFor)

/-- Everything fixed when the engine is built (`engine.go` 32-53,
`configurer.go`): handler configurations in registration order, the user's
code, the compaction option, and the sort used by the runtime. -/
structure App (W R : Type) where
  cfgs : List HConfig
  uc : UserCode W R
  compactDuringHandling : Bool
  sort : SortImpl

/-- The engine state.  Controller state is indexed by handler name. `trace` is the list of
observations so far, oldest first (`/repo/engine/engine.go` 18-29, `aggregate/controller.go`
19-25, `process/controller.go` 20-27, `projection/controller.go` 24-30). -/
structure Sys (W R : Type) where
  w : W
  /-- last ID handed out (`envelope/id.go`) -/
  nextID : Nat
  /-- `aggregate.Controller.history`; `none` means no map entry -/
  agg : String → String → Option (List Env)
  /-- `process.Controller.instances`, `timeouts` -/
  proc : String → ProcState R
  /-- `projection.Controller.lastCompact`; zero time is 0 -/
  lastCompact : String → Time
  trace : List (Obs R)

variable {W R : Type}

/-- A new engine (`engine.go` 32-53) whose user code is in world `w`. -/
def Sys.init (w : W) : Sys W R where
  w := w
  nextID := 0
  agg := fun _ _ => none
  proc := fun _ => ⟨fun _ => none, []⟩
  lastCompact := fun _ => 0
  trace := []

/-- Append an observation (specification only). -/
def Sys.emit (s : Sys W R) (o : Obs R) : Sys W R :=
  { s with trace := s.trace ++ [o] }

/-- `obs.Notify(f)` (`/repo/fact/observer.go` 15-19). -/
def Sys.notify (s : Sys W R) (f : Fact) : Sys W R := s.emit (.fact f)

/-- Run a piece of user code, recording the call (specification only). -/
def Sys.user {α : Type} (s : Sys W R) (c : Call R) (f : W → W × α) : Sys W R × α :=
  ({ s.emit (.call c) with w := (f s.w).1 }, (f s.w).2)

/-- Update a function at one point (assignment to a Go map, as in `process/controller.go`
263-269). -/
def upd {α : Type} (f : String → α) (k : String) (v : α) : String → α :=
  fun x => if x = k then v else f x

/-- `h.MessageTypes()[mt].IsProduced`, for a message whose kind is fixed by Go's static type of
the scope method (`aggregate/scope.go` 55, `process/scope.go` 56, 120, `integration/scope.go` 30).
-/
def HConfig.produces? (h : HConfig) (k : Kind) (m : Message) : Bool :=
  decide (m.type.kind = k) && decide (m.type ∈ h.produces)

/-- `h.MessageTypes()[mt].IsConsumed` (`aggregate/controller.go` 50, `process/controller.go` 69,
`integration/controller.go` 47, `projection/controller.go` 79). -/
def HConfig.consumes? (h : HConfig) (m : Message) : Bool :=
  decide (m.type ∈ h.consumes)

/-- Result of a controller's `Handle`/`Tick`: a panic, or envelopes and an error
(`/repo/engine/controller.go` 14-49). -/
abbrev HRes := Except PanicVal (List Env × Option Err)

end Verif
