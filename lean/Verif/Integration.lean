import Verif.Sys

/-!
# Integration controller

`/repo/engine/internal/integration/controller.go`, `scope.go`.
-/

namespace Verif

variable {W R : Type}

/-- Creating the event envelope (`scope.go` 54-71). -/
def intEmit (h : HConfig) (now : Time) (env : Env) (m : Message)
    (s : Sys W R) (evs : List Env) : Sys W R × List Env :=
  let ev := env.child (s.nextID + 1) m now ⟨h, .integration, ""⟩
  ({ s with nextID := s.nextID + 1 }.notify (.intEvent h env ev), evs ++ [ev])

/-- One operation on the scope (`scope.go` 27-81). -/
def intOp (h : HConfig) (now : Time) (env : Env) (o : IntOp)
    (s : Sys W R) (evs : List Env) : Sys W R × List Env × Option PanicVal :=
  match o with
  | .record m =>
    if h.produces? .event m = false then
      (s, evs, some (.behavior h.name "IntegrationMessageHandler" "HandleCommand" env.msg
        (undeclaredText "recorded an event" m)))
    else match m.invalid with
    | some e =>
      (s, evs, some (.behavior h.name "IntegrationMessageHandler" "HandleCommand" env.msg
        (invalidText "recorded" "event" m e)))
    | none => match intEmit h now env m s evs with
      | (s, evs) => (s, evs, none)
  | .log t => (s.notify (.intLog h env t), evs, none)

/-- Running `HandleCommand` against the scope (`controller.go` 61-73). -/
def intRun (h : HConfig) (now : Time) (env : Env) :
    Prog W IntOp (Option Err) → Sys W R → List Env →
    Sys W R × List Env × Except PanicVal (Option Err)
  | .ret e, s, evs => (s, evs, .ok e)
  | .panic v, s, evs => (s, evs, .error v)
  | .get k, s, evs => intRun h now env (k s.w) s evs
  | .set w k, s, evs => intRun h now env k { s with w := w } evs
  | .op o k, s, evs =>
    match intOp h now env o s evs with
    | (s, evs, p) => intRun h now env (k p) s evs

/-- `Controller.Handle` (`controller.go` 39-76). -/
def intHandle (A : App W R) (h : HConfig) (now : Time) (env : Env)
    (s : Sys W R) : Sys W R × HRes :=
  if h.consumes? env.msg = false then (s, .error (.internal "does not handle"))
  else if env.msg.type.kind ≠ .command then (s, .error (.internal "not a command"))
  else
    match intRun h now env (A.uc.intHandle h env.msg)
        (s.emit (.call (.intHandle h env.msg))) [] with
    | (s, _, .error v) =>
      (s, .error (enrich h "IntegrationMessageHandler" "HandleCommand" env.msg v))
    | (s, evs, .ok e) => (s, .ok (evs, e))

end Verif
