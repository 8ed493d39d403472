import Verif.UserAction

/-!
# Leaving the goroutine with `runtime.Goexit()`

`FailNow()` of `*testing.T`, and hence `Fatal()`, neither return nor panic: they call
`runtime.Goexit()`, which runs the deferred functions of the goroutine and ends it.  A deferred
function can not recover from it.  If a deferred function panics meanwhile, and another one recovers
from that panic, the goroutine goes on exiting (documentation of `runtime.Goexit`; Go 1.14 and later).

Here a panic with the value `goexit` stands for it.  What a program does when a call has "panicked"
with this value is what its deferred functions do.  Unlike for a panic, it does not matter whether they
end without a panic: the goroutine is exiting.  The third component of the results below says whether it
is.  All functions that do not know of `goexit` are those of `Verif.Test`, `Verif.Protocol` and
`Verif.UserAction`.

Engine and handlers: for them `runtime.Goexit()` is a panic that no code of theirs recovers from
(`/repo/engine/internal/panicx/unexpectedmessage.go` 57-79 does nothing if `recover()` returns nil), so a
handler that calls `FailNow()` of the `*testing.T` is one that panics with `goexit`.  Left out: a
`Compact()` that runs in a goroutine of its own and leaves that one.
-/

namespace Verif

variable {W R : Type}

/-- Stands for `runtime.Goexit()` (`test.go` 92, 114, 126, 173 with a `*testing.T`). -/
def goexit : PanicVal := .user "runtime.Goexit()"

/-- Does the call leave the goroutine? (documentation of `runtime.Goexit`) -/
def Outcome.leaves {α : Type} : Outcome α → Bool
  | .panicked v => decide (v = goexit)
  | _ => false

/-- The same for the end of an `Expect()` (`test.go` 100-177). -/
def EEnd.leaves : EEnd → Bool
  | .panicked v => decide (v = goexit)
  | _ => false

/-- The result of a program, and whether the goroutine is exiting (documentation of
`runtime.Goexit`). -/
abbrev XRes (W R : Type) := (TSt W R × Outcome (Option TErr)) × Bool

/-- The result of the deferred functions, if the goroutine is exiting: it does not return
(documentation of `runtime.Goexit`). -/
def XRes.settle (ex : Bool) (r : XRes W R) : XRes W R :=
  if ex then
    ((r.1.1, match r.1.2 with
      | .done _ => .panicked goexit
      | o => o), true)
  else r

/-- An interceptor (`/repo/executor.go` 98-102; `engine/executor.go` 22-28). -/
def IProg.runX (A : App W R) (E : TEnv W) (os : List OpOption) : IProg W → TSt W R → XRes W R
  | .ret e, t => ((t, .done e), false)
  | .panic v, t => ((t, .panicked v), decide (v = goexit))
  | .get k, t => (k t.sys.w).runX A E os t
  | .set w k, t => k.runX A E os { t with sys := { t.sys with w := w } }
  | .next m k, t =>
    match t.engine A (.dispatch E.fuel m os) with
    | (t, .done e) => (k (.ok e)).runX A E os t
    | (t, .panicked v) => ((k (.error v)).runX A E os t).settle (decide (v = goexit))
    | (t, .running) => ((t, .running), false)

/-- `CommandExecutor.ExecuteCommand` (`/repo/executor.go` 28-45). -/
def TSt.executeX (A : App W R) (E : TEnv W) (t : TSt W R) (m : Message) : XRes W R :=
  let t := { t with did := t.did ++ [TObs.exec m t.bound.isSome] }
  match t.bound with
  | none => ((t, .panicked (.misuse "ExecuteCommand(): cannot be called outside of a test")), false)
  | some os =>
    match t.icept with
    | some f => (f m).runX A E os t
    | none =>
      (t.engine A (.dispatch E.fuel m os), (t.engine A (.dispatch E.fuel m os)).2.leaves)

/-- `Prepare()` with one action (`test.go` 86-97): if it fails, `Fatal()` is called. -/
def TSt.preparingX (E : TEnv W) (cap : Except PanicVal String) (act : TSt W R → XRes W R) (t : TSt W R) :
    XRes W R :=
  match cap with
  | .error v => ((t, .panicked v), decide (v = goexit))
  | .ok c =>
    let r := act (t.say (.log ("--- " ++ c ++ " ---")))
    (TSt.check E r.1, r.2 || (TSt.check E r.1).2.leaves)

/-- The state in which the action of an `Expect()` begins, if it gets that far (`test.go` 103-124). -/
def TSt.performs (S : PScope) (x : Expected) (cap : Except PanicVal String)
    (conf : PredOpts → Except PanicVal PredOpts) (t : TSt W R) : Option (TSt W R) :=
  match conf S.opts with
  | .error _ => none
  | .ok po =>
    match cap, x.caption with
    | .ok c, .ok c' =>
      match x.build { S with opts := po } with
      | .ok _ => some (t.say (.log ("--- expect " ++ c ++ " " ++ c' ++ " ---")))
      | _ => none
    | _, _ => none

/-- `Test.Expect` (`test.go` 100-177), and whether the goroutine is exiting: because the action, or
one of the methods of the expectation or predicate, called `runtime.Goexit()`.  (`Done()` is deferred,
so it is called in any case.) -/
def TSt.expectingX (S : PScope) (x : Expected) (o : Nat) (cap : Except PanicVal String)
    (conf : PredOpts → Except PanicVal PredOpts) (act : List OpOption → TSt W R → XRes W R)
    (t : TSt W R) : (TSt W R × List ECall × EEnd) × Bool :=
  let r := t.expecting S x o cap conf (fun os t => (act os t).1)
  (r, ((t.performs S x cap conf).any fun t => (act [.observer o] t).2) || r.2.2.leaves)

/-- How the end of an `Expect()` looks to the deferred functions of the caller, or to the caller itself if
it returned (`test.go` 113-176). -/
def EEnd.backX (E : TEnv W) (e : EEnd) (ex : Bool) : Option (Except PanicVal Unit × Bool) :=
  match e.back E with
  | none => none
  | some (.ok u) => some (.ok u, ex)
  | some (.error v) => some (.error v, ex || decide (v = goexit))

mutual
/-- `Test.doAction` (`test.go` 303-320). -/
def UAction.runX (A : App W R) (E : UEnv W) : UAction W → List OpOption → TSt W R → XRes W R
  | .mk _ _ act, extra, t => (act (t.actOpts extra)).runX A E t
/-- What the program of an action does (`action.go` 31-54, `/repo/executor.go` 28-88). -/
def AProg.runX (A : App W R) (E : UEnv W) : AProg W → TSt W R → XRes W R
  | .ret e, t => ((t, .done e), false)
  | .panic v, t => ((t, .panicked v), decide (v = goexit))
  | .get k, t => (k t.sys.w).runX A E t
  | .set w k, t => k.runX A E { t with sys := { t.sys with w := w } }
  | .clock k, t => (k t.clock).runX A E t
  | .setClock c k, t => k.runX A E { t with clock := c }
  | .op c k, t =>
    match t.engine A (c.op E.toTEnv t.sys.w) with
    | (t, .done e) => (k (.ok e)).runX A E t
    | (t, .panicked v) => ((k (.error v)).runX A E t).settle (decide (v = goexit))
    | (t, .running) => ((t, .running), false)
  | .bind os k, t => k.runX A E { t with bound := some os }
  | .unbind k, t => k.runX A E { t with bound := none }
  | .intercept f k, t => (k t.icept).runX A E { t with icept := f }
  | .exec m k, t =>
    match t.executeX A E.toTEnv m with
    | ((t, .done e), ex) => ((k (.ok e)).runX A E t).settle ex
    | ((t, .panicked v), ex) => ((k (.error v)).runX A E t).settle ex
    | ((t, .running), ex) => ((t, .running), ex)
  | .prepare a k, t =>
    match t.preparingX E.toTEnv a.caption (a.runX A E []) with
    | ((t, .done e), ex) => ((k (.ok e)).runX A E t).settle ex
    | ((t, .panicked v), ex) => ((k (.error v)).runX A E t).settle ex
    | ((t, .running), ex) => ((t, .running), ex)
  | .expect x o a k, t =>
    match t.expectingX E.scope x o a.caption a.configure (fun os => a.runX A E os) with
    | ((t, _, e), ex) =>
      match e.backX E.toTEnv ex with
      | some (r, ex) => ((k r).runX A E t).settle ex
      | none => ((t, .running), ex)
end

/-- `Prepare()` (`test.go` 86-97). -/
def TSt.prepareX (A : App W R) (E : UEnv W) (a : UAction W) (t : TSt W R) : XRes W R :=
  t.preparingX E.toTEnv a.caption (a.runX A E [])

/-- `Expect()` (`test.go` 100-177): the calls of the expectation and its predicate, the end, and whether the
goroutine is exiting. -/
def TSt.expectX (A : App W R) (E : UEnv W) (x : Expected) (o : Nat) (a : UAction W) (t : TSt W R) :
    (TSt W R × List ECall × EEnd) × Bool :=
  t.expectingX E.scope x o a.caption a.configure (fun os => a.runX A E os)

/-- `Call()` of a function that may use the test in any way (`action.call.go` 57-83): the deferred
functions restore the interceptor and unbind the executor. -/
def UAction.calling (fn : AProg W) (ic : Option (Message → IProg W)) : UAction W :=
  .mk (.ok "calling user-defined function") (fun o => .ok { o with matchDispatch := true }) fun os =>
    .bind os <|
      match ic with
      | none => fn.andThen fun r => .unbind (.afterCall r)
      | some f =>
        .intercept (some f) fun prev =>
          fn.andThen fun r => .intercept prev fun _ => .unbind (.afterCall r)

end Verif
