import Verif.EngineConc
import Verif.OpView

/-!
# Scopes that are used too late

A handler can keep the scope it is given, and call its methods when the handling is over
(`/repo/engine/internal/aggregate/scope.go` 31-143, `process/scope.go` 34-196,
`integration/scope.go` 27-80, `projection/scope.go` 20-39).  Nothing in the code stops it: scopes have
no notion of being closed.

Simplifications: a scope may be in any state when it is used too late, not just in those in which
handlings leave scopes.  The facts go to the observers of the operation that the scope belongs to; here they go to the
trace like all others, marked as late.  Late uses are made between operations (`Later`), or by other goroutines at any
time (`callOrLate`), for which all that counts is the message ID that they take.  Not here: an observer, or
another goroutine, that executes a command with the scope of a process just when its handling has been completed, which
can overwrite a timeout that is about to be dispatched, as the slices of commands and of messages to dispatch may share
an array (`process/controller.go` 146; see `Memory`).
-/

namespace Verif

variable {W R : Type}

/-- A scope, with the handling it belongs to (`aggregate/scope.go` 17-28, `process/scope.go` 19-31,
`integration/scope.go` 17-24, `projection/scope.go` 12-18). -/
inductive Kept (R : Type) where
  | agg (h : HConfig) (id : String) (now : Time) (env : Env) (sc : AggScope R)
  | proc (h : HConfig) (id : String) (now : Time) (env : Env) (sc : ProcScope R)
  | int (h : HConfig) (now : Time) (env : Env) (evs : List Env)
  | prj (h : HConfig) (env : Option Env)

/-- The methods of scopes that do something (`aggregate/scope.go` 35, 52, 133, `process/scope.go` 38, 53, 117, 186,
`integration/scope.go` 27, 73, `projection/scope.go` 28). -/
inductive ScopeCall where
  | record (m : Message)
  | destroy
  | execute (m : Message)
  | schedule (m : Message) (t : Time)
  | end_
  | log (t : String)

/-- Call a method of a scope; scopes that have no such method do nothing (the same lines). -/
def Kept.use (A : App W R) : Kept R → ScopeCall → Sys W R → Sys W R × Kept R × Option PanicVal
  | .agg h id now env sc, .record m, s =>
    match aggOp A h id now env (.record m) s sc with
    | (s, sc, p) => (s, .agg h id now env sc, p)
  | .agg h id now env sc, .destroy, s =>
    match aggOp A h id now env .destroy s sc with
    | (s, sc, p) => (s, .agg h id now env sc, p)
  | .agg h id now env sc, .log t, s =>
    match aggOp A h id now env (.log t) s sc with
    | (s, sc, p) => (s, .agg h id now env sc, p)
  | .proc h id now env sc, .execute m, s =>
    match procOp h id now env (.execute m) s sc with
    | (s, sc, p) => (s, .proc h id now env sc, p)
  | .proc h id now env sc, .schedule m t, s =>
    match procOp h id now env (.schedule m t) s sc with
    | (s, sc, p) => (s, .proc h id now env sc, p)
  | .proc h id now env sc, .end_, s =>
    match procOp h id now env .end_ s sc with
    | (s, sc, p) => (s, .proc h id now env sc, p)
  | .proc h id now env sc, .log t, s =>
    match procOp h id now env (.log t) s sc with
    | (s, sc, p) => (s, .proc h id now env sc, p)
  | .int h now env evs, .record m, s =>
    match intOp h now env (.record m) s evs with
    | (s, evs, p) => (s, .int h now env evs, p)
  | .int h now env evs, .log t, s =>
    match intOp h now env (.log t) s evs with
    | (s, evs, p) => (s, .int h now env evs, p)
  | .prj h env, .log t, s => (s.notify (.prjLog h env t), .prj h env, none)
  | k, _, s => (s, k, none)

/-- The handler, the message being handled and the time of the handling that a scope belongs to (no counterpart in /repo
for the sum; the fields in the lines above). -/
def Kept.of : Kept R → HConfig × Option Env × Time
  | .agg h _ now env _ => (h, some env, now)
  | .proc h _ now env _ => (h, some env, now)
  | .int h now env _ => (h, some env, now)
  | .prj h env => (h, env, 0)

/-- Histories of operations with late uses of scopes in between, and what is observed: `true` marks
what late uses do (`engine.go` 32-238 and the scopes). -/
inductive Later (A : App W R) : Sys W R → List (Bool × Obs R) → Prop where
  | init (w : W) : Later A (Sys.init w) []
  | world {s T} (w : W) (hs : Later A s T) : Later A { s with w := w } T
  | step {s T} (op : Op) (hs : Later A s T) (hop : op.ok A) :
    Later A (op.exec A s).1 (T ++ (during s (op.exec A s).1).map (fun o => (false, o)))
  | late {s T} (k : Kept R) (c : ScopeCall) (hs : Later A s T) :
    Later A (k.use A c s).1 (T ++ (during s (k.use A c s).1).map (fun o => (true, o)))

/-! ## By other goroutines, at any time -/

namespace Conc

/-- A call of an operation of the engine, or a late use of a scope that takes a message ID
(`envelope/id.go` 14-19; the engine takes no notice of what else the scope does). -/
def callOrLate (A : App W R) : Option (Time × Op) → Call (Sys W R)
  | some x => callOf A x
  | none => .withID (fun _ => none)

end Conc

end Verif
