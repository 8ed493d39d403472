import Verif.Sys

/-!
# Aggregate controller

`/repo/engine/internal/aggregate/controller.go`, `scope.go`.
-/

namespace Verif

variable {W R : Type}

/-- `aggregate.scope` (`scope.go` 17-28): the mutable fields.  `root = none` is a
nil root (possible after `Destroy()` when `New()` returns nil). -/
structure AggScope (R : Type) where
  root : Option R
  exists_ : Bool
  destroyed : Bool
  events : List Env
  /-- the root is the one that `HandleCommand` was given (`controller.go` 129, 143), not one that `Destroy()`
  put in its place (`scope.go` 40); no field of the code, which compares no roots -/
  given : Bool

/-- `scope.Destroy` (`scope.go` 35-50). -/
def aggDestroy (A : App W R) (h : HConfig) (id : String) (env : Env)
    (s : Sys W R) (sc : AggScope R) : Sys W R × AggScope R × Option PanicVal :=
  if sc.exists_ = false then (s, sc, none)
  else
    match s.user (.aggNew h) (A.uc.aggNew h) with
    | (s, .error v) => (s, sc, some v)
    | (s, .ok r) =>
      (s.notify (.aggDestroyed h id env),
        { sc with root := r, exists_ := false, destroyed := true, given := false }, none)

/-- The call to `ApplyEvent` on the scope's root (`scope.go` 100-109). -/
def aggApplyScope (A : App W R) (h : HConfig) (m : Message)
    (s : Sys W R) (sc : AggScope R) : Sys W R × AggScope R × Option PanicVal :=
  match sc.root with
  | none => (s, sc, some (.internal "nil pointer dereference"))
  | some r =>
    match s.user (.aggApply h r m) (A.uc.aggApply h r m) with
    | (s, r', none) => (s, { sc with root := some r' }, none)
    | (s, r', some v) =>
      (s, { sc with root := some r' }, some (enrich h "AggregateRoot" "ApplyEvent" m v))

/-- The "does not exist yet" branch of `RecordEvent` (`scope.go` 79-98). -/
def aggRevive (h : HConfig) (id : String) (env : Env)
    (s : Sys W R) (sc : AggScope R) : Sys W R × AggScope R :=
  if sc.exists_ then (s, sc)
  else
    (if sc.destroyed then s.notify (.aggReverted h id env)
      else s.notify (.aggCreated h id env),
     { sc with exists_ := true, destroyed := false })

/-- Creating the event envelope (`scope.go` 111-131). -/
def aggEmit (h : HConfig) (id : String) (now : Time) (env : Env) (m : Message)
    (s : Sys W R) (sc : AggScope R) : Sys W R × AggScope R :=
  let ev := env.child (s.nextID + 1) m now ⟨h, .aggregate, id⟩
  ({ s with nextID := s.nextID + 1 }.notify (.aggEvent h id env ev),
   { sc with events := sc.events ++ [ev] })

/-- `scope.RecordEvent` (`scope.go` 52-131). -/
def aggRecord (A : App W R) (h : HConfig) (id : String) (now : Time) (env : Env) (m : Message)
    (s : Sys W R) (sc : AggScope R) : Sys W R × AggScope R × Option PanicVal :=
  if h.produces? .event m = false then
    (s, sc, some (.behavior h.name "AggregateMessageHandler" "HandleCommand" env.msg
      (undeclaredText "recorded an event" m)))
  else
    match m.invalid with
    | some e =>
      (s, sc, some (.behavior h.name "AggregateMessageHandler" "HandleCommand" env.msg
        (invalidText "recorded" "event" m e)))
    | none =>
      match aggRevive h id env s sc with
      | (s, sc) =>
        match aggApplyScope A h m s sc with
        | (s, sc, some v) => (s, sc, some v)
        | (s, sc, none) =>
          match aggEmit h id now env m s sc with
          | (s, sc) => (s, sc, none)

/-- One operation on the scope (`aggregate/scope.go` 35-142). -/
def aggOp (A : App W R) (h : HConfig) (id : String) (now : Time) (env : Env) (o : AggOp R)
    (s : Sys W R) (sc : AggScope R) : Sys W R × AggScope R × Option PanicVal :=
  match o with
  | .record m => aggRecord A h id now env m s sc
  | .destroy => aggDestroy A h id env s sc
  -- the handler mutates the root it was given, which is that of the scope until `Destroy()` replaces it
  | .setRoot r => (s, if sc.given then { sc with root := some r } else sc, none)
  -- `scope.Log` (`scope.go` 133-143)
  | .log t => (s.notify (.aggLog h id env t), sc, none)

/-- Running `HandleCommand` against the scope (`controller.go` 135-148). -/
def aggRun (A : App W R) (h : HConfig) (id : String) (now : Time) (env : Env) :
    Prog W (AggOp R) Unit → Sys W R → AggScope R → Sys W R × AggScope R × Option PanicVal
  | .ret _, s, sc => (s, sc, none)
  | .panic v, s, sc => (s, sc, some v)
  | .get k, s, sc => aggRun A h id now env (k s.w) s sc
  | .set w k, s, sc => aggRun A h id now env k { s with w := w } sc
  | .op o k, s, sc =>
    match aggOp A h id now env o s sc with
    | (s, sc, p) => aggRun A h id now env (k p) s sc

/-- Replaying the history onto a new root (`controller.go` 94-108). -/
def aggReplay (A : App W R) (h : HConfig) : List Env → R → Sys W R → Sys W R × Except PanicVal R
  | [], r, s => (s, .ok r)
  | e :: es, r, s =>
    match s.user (.aggApply h r e.msg) (A.uc.aggApply h r e.msg) with
    | (s, _, some v) => (s, .error (enrich h "AggregateRoot" "ApplyEvent" e.msg v))
    | (s, r', none) => aggReplay A h es r' s

/-- Storing the outcome of the command (`controller.go` 150-157). -/
def aggCommit (h : HConfig) (id : String) (s : Sys W R) (sc : AggScope R) : Sys W R :=
  if sc.exists_ then
    { s with agg := upd s.agg h.name (upd (s.agg h.name) id
        (some ((s.agg h.name id).getD [] ++ sc.events))) }
  else
    { s with agg := upd s.agg h.name (upd (s.agg h.name) id none) }

/-- The last part of `Handle`, once the root is known (`controller.go` 124-160). -/
def aggInvoke (A : App W R) (h : HConfig) (id : String) (now : Time) (env : Env)
    (r : R) (ex : Bool) (s : Sys W R) : Sys W R × HRes :=
  match aggRun A h id now env (A.uc.aggHandle h id r env.msg)
      (s.emit (.call (.aggHandle h id r env.msg))) ⟨some r, ex, false, [], true⟩ with
  | (s, _, some v) => (s, .error (enrich h "AggregateMessageHandler" "HandleCommand" env.msg v))
  | (s, sc, none) => (aggCommit h id s sc, .ok (sc.events, none))

/-- `Handle` once the instance ID is known (`controller.go` 80-160). -/
def aggWithID (A : App W R) (h : HConfig) (id : String) (now : Time) (env : Env)
    (s : Sys W R) : Sys W R × HRes :=
  match s.user (.aggNew h) (A.uc.aggNew h) with
  | (s, .error v) => (s, .error v)
  | (s, .ok none) =>
    (s, .error (.behavior h.name "AggregateMessageHandler" "New" env.msg "returned a nil AggregateRoot"))
  | (s, .ok (some r)) =>
    match s.agg h.name id with
    | some hist =>
      match aggReplay A h hist r s with
      | (s, .error v) => (s, .error v)
      | (s, .ok r) => aggInvoke A h id now env r true (s.notify (.aggLoaded h id env))
    | none => aggInvoke A h id now env r false (s.notify (.aggNotFound h id env))

/-- `Controller.Handle` (`controller.go` 42-160). -/
def aggHandle (A : App W R) (h : HConfig) (now : Time) (env : Env)
    (s : Sys W R) : Sys W R × HRes :=
  if h.consumes? env.msg = false then (s, .error (.internal "does not handle"))
  else if env.msg.type.kind ≠ .command then (s, .error (.internal "not a command"))
  else
    match s.user (.aggRoute h env.msg) (A.uc.aggRoute h env.msg) with
    | (s, .error v) =>
      (s, .error (enrich h "AggregateMessageHandler" "RouteCommandToInstance" env.msg v))
    | (s, .ok id) =>
      if id = "" then
        (s, .error (.behavior h.name "AggregateMessageHandler" "RouteCommandToInstance" env.msg
          (emptyIDText "a command" env.msg)))
      else aggWithID A h id now env s

end Verif
