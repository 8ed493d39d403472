import Verif.Engine
import Verif.OpView
import Verif.Inflect

/-!
# Tests, actions and the command executor

`/repo/test.go`, `action.advancetime.go`, `action.call.go`, `action.dispatch.go`, `executor.go`,
`testoption.go`, `engine/executor.go`.

Simplifications: an interceptor reaches the engine only through the executor it is given (if it
used the test's own executor, or performed actions, it would recurse or wait for a lock that is
held); `Bind`, `Unbind` and `Intercept` are called by actions only; the executor's lock,
locations and annotations are left out.  A function given to `Call()` may perform further actions
with `Prepare()`.  `Fatal()` of the `TestingT` may return or panic; for `runtime.Goexit()` see
`Verif.Goexit`.
-/

namespace Verif

variable {W R : Type}

/-- Errors of actions and of the executor (`action.dispatch.go` 73-89, `action.advancetime.go`
89-110, `executor.go` 28-52). -/
inductive TErr where
  | engine (e : List EngErr)
  /-- `action.dispatch.go` 80-86 -/
  | unrecognised (t : MType)
  /-- `action.advancetime.go` 92-97, with the description of the adjustment -/
  | reversed (desc : String)
  | user (e : Err)
  /-- the error of `Expectation.Predicate()` (`test.go` 112-116) -/
  | expectation (msg : String)
  deriving DecidableEq, Repr

/-- What a call of user code's or the executor's methods looks like to a caller that recovers
(`executor.go` 98-103). -/
abbrev TRes := Except PanicVal (Option TErr)

/-- A `CommandExecutorInterceptor` that has been given its message (`executor.go` 98-102). -/
inductive IProg (W : Type) where
  | ret (e : Option TErr)
  | panic (v : PanicVal)
  | get (k : W → IProg W)
  | set (w : W) (k : IProg W)
  /-- `e.ExecuteCommand(ctx, m)` on the executor the interceptor was given -/
  | next (m : Message) (k : TRes → IProg W)

mutual
/-- `Action`: the built-in implementations (`action.go` 16-33). -/
inductive Action (W : Type) where
  /-- `dispatchAction` (`action.dispatch.go` 52-55) -/
  | dispatch (m : Message)
  /-- `advanceTimeAction` (`action.advancetime.go` 70-73), with `TimeAdjustment.Description` and
  `TimeAdjustment.Step` -/
  | advance (desc : String) (step : Time → W → W × Except PanicVal Time)
  /-- `callAction` (`action.call.go` 51-55) -/
  | call (fn : CProg W) (onExecute : Option (Message → IProg W))
/-- The function given to `Call()` (`action.call.go` 27, 80). -/
inductive CProg (W : Type) where
  | ret
  | panic (v : PanicVal)
  | get (k : W → CProg W)
  | set (w : W) (k : CProg W)
  /-- `ExecuteCommand()` on the test's executor -/
  | exec (m : Message) (k : TRes → CProg W)
  /-- `Prepare()` -/
  | act (a : Action W) (k : TRes → CProg W)
end

/-- What a test does, as seen from outside: engine operations, with the virtual clock and the
facts of the operation; uses of the executor, with whether it was bound; and calls of `Log()`,
`Fatal()` and `FailNow()` of the `TestingT` other than those of the fact logger (`test.go` 84-177,
303-320, `engine/executor.go` 22-28, `interface.go` 7-14). -/
inductive TObs where
  | engine (clock : Time) (op : Op) (facts : List Fact)
  | exec (m : Message) (bound : Bool)
  | log (s : String)
  | fatal (e : TErr)
  | failNow
  deriving Repr

/-- `Test` (`test.go` 22-32) with its `CommandExecutor` (`executor.go` 16-20): `bound` holds the
options while an engine is set. -/
structure TSt (W R : Type) where
  sys : Sys W R
  clock : Time
  opts : List OpOption
  bound : Option (List OpOption) := none
  icept : Option (Message → IProg W) := none
  did : List TObs := []

/-- The surroundings: budget of an operation and iteration order of its ticks (of `engine.go`
86-238); the panic that comes out of the `Fatal()` of the `TestingT`, if any (`interface.go` 7-14,
`internal/testingmock/mock.go` 33-51). -/
structure TEnv (W : Type) where
  fuel : Nat
  order : W → List HConfig
  fatal : Option PanicVal := none

/-- The facts among observations (`fact/observer.go` 6-9). -/
def factsOf (t : List (Obs R)) : List Fact :=
  t.filterMap fun | .fact f => some f | _ => none

/-- An engine operation (`action.dispatch.go` 84-88, `action.advancetime.go` 106-109,
`engine/executor.go` 22-28). -/
def TSt.engine (A : App W R) (t : TSt W R) (op : Op) : TSt W R × Outcome (Option TErr) :=
  match op.exec A t.sys with
  | (s, o) =>
    ({ t with sys := s, did := t.did ++ [.engine t.clock op (factsOf (during t.sys s))] },
      match o with
      | .done [] => .done none
      | .done es => .done (some (.engine es))
      | .panicked v => .panicked v
      | .running => .running)

/-- Running an interceptor; `os` are the options of the executor it was given (a copy,
`executor.go` 41; `engine/executor.go` 22-28). -/
def IProg.run (A : App W R) (E : TEnv W) (os : List OpOption) :
    IProg W → TSt W R → TSt W R × Outcome (Option TErr)
  | .ret e, t => (t, .done e)
  | .panic v, t => (t, .panicked v)
  | .get k, t => (k t.sys.w).run A E os t
  | .set w k, t => k.run A E os { t with sys := { t.sys with w := w } }
  | .next m k, t =>
    match t.engine A (.dispatch E.fuel m os) with
    | (t, .done e) => (k (.ok e)).run A E os t
    | (t, .panicked v) => (k (.error v)).run A E os t
    | (t, .running) => (t, .running)

/-- `CommandExecutor.ExecuteCommand` (`executor.go` 28-45). -/
def TSt.execute (A : App W R) (E : TEnv W) (t : TSt W R) (m : Message) :
    TSt W R × Outcome (Option TErr) :=
  let t := { t with did := t.did ++ [TObs.exec m t.bound.isSome] }
  match t.bound with
  | none => (t, .panicked (.misuse "ExecuteCommand(): cannot be called outside of a test"))
  | some os =>
    match t.icept with
    | some f => (f m).run A E os t
    | none => t.engine A (.dispatch E.fuel m os)

/-- The options of an action (`test.go` 304-308). -/
def TSt.actOpts (t : TSt W R) (extra : List OpOption) : List OpOption :=
  .currentTime t.clock :: t.opts ++ extra

/-- Is the message type used by the application? (`action.dispatch.go` 80) -/
def App.uses (A : App W R) (mt : MType) : Bool :=
  A.cfgs.any (fun h => decide (mt ∈ h.consumes) || decide (mt ∈ h.produces))

/-- The deferred calls of `callAction.Do` (`action.call.go` 72, 76): restore the interceptor, then
unbind. -/
def TSt.leave (t : TSt W R) (prev : Option (Message → IProg W)) (had : Bool) : TSt W R :=
  { t with icept := if had then prev else t.icept, bound := none }

/-- `Action.Caption` (`action.dispatch.go` 57-64, `action.advancetime.go` 75-80, `action.call.go`
57-59). -/
def Action.caption : Action W → String
  | .dispatch m => Inflect.sprint m.type.kind ("<producing> " ++ m.type.name ++ " <message>")
  | .advance desc _ => "advancing time " ++ desc
  | .call .. => "calling user-defined function"

/-- A call of a method of the `TestingT` (`test.go` 84-177). -/
def TSt.say (t : TSt W R) (o : TObs) : TSt W R := { t with did := t.did ++ [o] }

/-- The line that begins an action of `Prepare()` (`test.go` 90). -/
def Action.prepareLine (a : Action W) : String := "--- " ++ a.caption ++ " ---"

/-- The beginning of `Prepare()` (`test.go` 90). -/
def TSt.announce (t : TSt W R) (a : Action W) : TSt W R := t.say (.log a.prepareLine)

/-- The end of `Prepare()` (`test.go` 91-93): an error goes to `Fatal()`. -/
def TSt.check (E : TEnv W) : TSt W R × Outcome (Option TErr) → TSt W R × Outcome (Option TErr)
  | (t, .done (some e)) =>
    (t.say (.fatal e), match E.fatal with
      | none => .done (some e)
      | some v => .panicked v)
  | r => r

mutual
/-- `Test.doAction` (`test.go` 303-320) with `Action.Do` (`action.dispatch.go` 73-89,
`action.advancetime.go` 89-110, `action.call.go` 69-83). -/
def Action.run (A : App W R) (E : TEnv W) :
    Action W → List OpOption → TSt W R → TSt W R × Outcome (Option TErr)
  | .dispatch m, extra, t =>
    if A.uses m.type then t.engine A (.dispatch E.fuel m (t.actOpts extra))
    else (t, .done (some (.unrecognised m.type)))
  | .advance desc step, extra, t =>
    match step t.clock t.sys.w with
    | (w, .error v) => ({ t with sys := { t.sys with w := w } }, .panicked v)
    | (w, .ok now) =>
      let os := t.actOpts extra
      let t := { t with sys := { t.sys with w := w } }
      if now < t.clock then (t, .done (some (.reversed desc)))
      else
        ({ t with clock := now } : TSt W R).engine A
          (.tick E.fuel (E.order w) (os ++ [.currentTime now]))
  | .call fn ic, extra, t =>
    let prev := t.icept
    match fn.run A E { t with bound := some (t.actOpts extra), icept := ic.or t.icept } with
    | (t, .running) => (t, .running)
    | (t, .panicked v) => (t.leave prev ic.isSome, .panicked v)
    | (t, .done _) => (t.leave prev ic.isSome, .done none)
/-- Running the function given to `Call()` (`action.call.go` 80). -/
def CProg.run (A : App W R) (E : TEnv W) : CProg W → TSt W R → TSt W R × Outcome (Option TErr)
  | .ret, t => (t, .done none)
  | .panic v, t => (t, .panicked v)
  | .get k, t => (k t.sys.w).run A E t
  | .set w k, t => k.run A E { t with sys := { t.sys with w := w } }
  | .exec m k, t =>
    match t.execute A E m with
    | (t, .done e) => (k (.ok e)).run A E t
    | (t, .panicked v) => (k (.error v)).run A E t
    | (t, .running) => (t, .running)
  | .act a k, t =>
    match TSt.check E (a.run A E [] (t.announce a)) with
    | (t, .done e) => (k (.ok e)).run A E t
    | (t, .panicked v) => (k (.error v)).run A E t
    | (t, .running) => (t, .running)
end

/-- `Prepare()` with one action (`test.go` 86-97).  (With more it is the same as one after the other,
if `Fatal()` returns; otherwise the rest is left out.) -/
def TSt.prepare (A : App W R) (E : TEnv W) (a : Action W) (t : TSt W R) :
    TSt W R × Outcome (Option TErr) := TSt.check E (a.run A E [] (t.announce a))

/-- `BeginContext` (`test.go` 49-82): `os` are the options added by `WithUnsafeOperationOptions`,
`ic` the interceptor installed by `InterceptCommandExecutor`.  Observer 0 is the logger. -/
def TSt.begin (w : W) (start : Time) (os : List OpOption) (ic : Option (Message → IProg W)) :
    TSt W R :=
  { sys := Sys.init w, clock := start, icept := ic,
    opts := [.enableType .projection false, .enableType .integration false, .observer 0] ++ os }

/-- `enableHandlers` (`test.go` 237-267).  A panic leaves the options of the names before it. -/
def TSt.enable (A : App W R) (b : Bool) : List String → TSt W R → TSt W R × Option PanicVal
  | [], t => (t, none)
  | n :: ns, t =>
    match A.find n with
    | none => (t, some (.misuse "the application does not have a handler with that name"))
    | some h =>
      if b && h.disabled then (t, some (.misuse "cannot enable the handler"))
      else TSt.enable A b ns { t with opts := t.opts ++ [.enableHandler n b] }

/-- `enableHandlersLike` (`test.go` 269-300).  A pattern is a predicate on names (one that is not
a regular expression panics in `regexp.MustCompile` and is left out); `order` is the
iteration order of the map of selected names. -/
def TSt.enableLike (A : App W R) (b : Bool) (pats : List (String → Bool)) (order : List String)
    (t : TSt W R) : TSt W R × Option PanicVal :=
  if pats.all (fun p => A.cfgs.any (fun h => !h.disabled && p h.name)) then
    ({ t with opts := t.opts ++ order.map (fun n => .enableHandler n b) }, none)
  else (t, some (.misuse "no handlers match"))

/-- The names selected by `enableHandlersLike` (`test.go` 270-281). -/
def selected (A : App W R) (pats : List (String → Bool)) : List String :=
  (A.cfgs.filter (fun h => !h.disabled && pats.any (fun p => p h.name))).map HConfig.name

end Verif
