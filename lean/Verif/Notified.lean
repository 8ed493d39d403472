import Verif.UserAction
import Verif.Watched

/-!
# `Expect()` with a predicate whose `Notify()` panics

`/repo/test.go` 100-177 and the built-in actions, as in `Verif.Test` and `Verif.UserAction`, but the
predicate's `Notify()` may panic.  It does so, for example, if a function given to
`ToExecuteCommandMatching()` or `ToRecordEventMatching()` panics (`expectation.messagematch.go`).  The
panic goes through the engine (`Verif.Watched`), the executor, interceptors and functions given to
`Call()`; the latter two, and handlers, may recover from it.

Simplifications: those of `Verif.Watched`, and the predicate is registered as an observer at most once
for an operation, after the others.
-/

namespace Verif

variable {W R : Type}

/-- A predicate as an observer: `k` is its identity, the `Expect()` began when the record had `n`
entries, `N` says whether `Notify()` panics on a fact, given the facts it was given before
(`expectation.go` 21-30). -/
structure Hearer where
  k : Nat
  n : Nat
  N : List Fact → Fact → Option PanicVal

/-- Is `k` among the observers of the operation? (`engine/operationoption.go` 27-35) -/
def Op.heardBy (k : Nat) (op : Op) : Bool := decide (k ∈ op.opts.filterMap OpOption.observerOf)

/-- What `k` is told about an entry of the record (`fact/observer.go` 15-19). -/
def TObs.heard (k : Nat) : TObs → List Fact
  | .engine _ op facts => if op.heardBy k then facts else []
  | _ => []

/-- What the predicate was told before (`fact/observer.go` 15-19). -/
def Hearer.before (M : Hearer) (t : TSt W R) : List Fact :=
  (t.did.drop M.n).flatMap (TObs.heard M.k)

/-- When the observers of an operation that begins in `t` panic (`fact/observer.go` 13-27). -/
def Hearer.during (M : Hearer) (t : TSt W R) (op : Op) : PanicsOn R := fun tr f =>
  if op.heardBy M.k then M.N (M.before t ++ factsOf (tr.drop t.sys.trace.length)) f else none

/-- An engine operation (`action.dispatch.go` 84-88, `action.advancetime.go` 106-109,
`engine/executor.go` 22-28). -/
def TSt.engineN (M : Hearer) (A : App W R) (t : TSt W R) (op : Op) :
    TSt W R × Outcome (Option TErr) :=
  match op.execO (M.during t op).watch A t.sys with
  | (s, o) =>
    ({ t with sys := s, did := t.did ++ [.engine t.clock op (factsOf (Verif.during t.sys s))] },
      match o with
      | .done [] => .done none
      | .done es => .done (some (.engine es))
      | .panicked v => .panicked v
      | .running => .running)

/-- Running an interceptor (`executor.go` 41; `engine/executor.go` 22-28). -/
def IProg.runN (M : Hearer) (A : App W R) (E : TEnv W) (os : List OpOption) :
    IProg W → TSt W R → TSt W R × Outcome (Option TErr)
  | .ret e, t => (t, .done e)
  | .panic v, t => (t, .panicked v)
  | .get k, t => (k t.sys.w).runN M A E os t
  | .set w k, t => k.runN M A E os { t with sys := { t.sys with w := w } }
  | .next m k, t =>
    match t.engineN M A (.dispatch E.fuel m os) with
    | (t, .done e) => (k (.ok e)).runN M A E os t
    | (t, .panicked v) => (k (.error v)).runN M A E os t
    | (t, .running) => (t, .running)

/-- `CommandExecutor.ExecuteCommand` (`executor.go` 28-45). -/
def TSt.executeN (M : Hearer) (A : App W R) (E : TEnv W) (t : TSt W R) (m : Message) :
    TSt W R × Outcome (Option TErr) :=
  let t := { t with did := t.did ++ [TObs.exec m t.bound.isSome] }
  match t.bound with
  | none => (t, .panicked (.misuse "ExecuteCommand(): cannot be called outside of a test"))
  | some os =>
    match t.icept with
    | some f => (f m).runN M A E os t
    | none => t.engineN M A (.dispatch E.fuel m os)

mutual
/-- `Test.doAction` (`test.go` 303-320) with `Action.Do` (`action.dispatch.go` 73-89,
`action.advancetime.go` 89-110, `action.call.go` 69-83). -/
def Action.runN (M : Hearer) (A : App W R) (E : TEnv W) :
    Action W → List OpOption → TSt W R → TSt W R × Outcome (Option TErr)
  | .dispatch m, extra, t =>
    if A.uses m.type then t.engineN M A (.dispatch E.fuel m (t.actOpts extra))
    else (t, .done (some (.unrecognised m.type)))
  | .advance desc step, extra, t =>
    match step t.clock t.sys.w with
    | (w, .error v) => ({ t with sys := { t.sys with w := w } }, .panicked v)
    | (w, .ok now) =>
      let os := t.actOpts extra
      let t := { t with sys := { t.sys with w := w } }
      if now < t.clock then (t, .done (some (.reversed desc)))
      else
        ({ t with clock := now } : TSt W R).engineN M A
          (.tick E.fuel (E.order w) (os ++ [.currentTime now]))
  | .call fn ic, extra, t =>
    let prev := t.icept
    match fn.runN M A E { t with bound := some (t.actOpts extra), icept := ic.or t.icept } with
    | (t, .running) => (t, .running)
    | (t, .panicked v) => (t.leave prev ic.isSome, .panicked v)
    | (t, .done _) => (t.leave prev ic.isSome, .done none)
/-- Running the function given to `Call()` (`action.call.go` 80). -/
def CProg.runN (M : Hearer) (A : App W R) (E : TEnv W) :
    CProg W → TSt W R → TSt W R × Outcome (Option TErr)
  | .ret, t => (t, .done none)
  | .panic v, t => (t, .panicked v)
  | .get k, t => (k t.sys.w).runN M A E t
  | .set w k, t => k.runN M A E { t with sys := { t.sys with w := w } }
  | .exec m k, t =>
    match t.executeN M A E m with
    | (t, .done e) => (k (.ok e)).runN M A E t
    | (t, .panicked v) => (k (.error v)).runN M A E t
    | (t, .running) => (t, .running)
  | .act a k, t =>
    match TSt.check E (a.runN M A E [] (t.announce a)) with
    | (t, .done e) => (k (.ok e)).runN M A E t
    | (t, .panicked v) => (k (.error v)).runN M A E t
    | (t, .running) => (t, .running)
end

/-- `Test.Expect` (`test.go` 100-177) of an expectation whose predicate is the observer `k`, with
panics `N` of its `Notify()`. -/
def TSt.expectN (A : App W R) (E : TEnv W) (S : PScope) (x : Expected) (k : Nat)
    (N : List Fact → Fact → Option PanicVal) (a : Action W) (t : TSt W R) :
    TSt W R × List ECall × EEnd :=
  t.expecting S x k (.ok a.caption) (fun o => .ok (a.configure o))
    (fun os t => a.runN ⟨k, t.did.length, N⟩ A E os t)

/-! ## Specification -/

/-- `Test.Expect` as if `Notify()` never panicked. -/
def TSt.expectQ (A : App W R) (E : TEnv W) (S : PScope) (x : Expected) (k : Nat) (a : Action W)
    (t : TSt W R) : TSt W R × List ECall × EEnd :=
  t.expecting S x k (.ok a.caption) (fun o => .ok (a.configure o)) (fun os t => a.run A E os t)

/-- The interceptor does not recover from panics. -/
inductive IProg.Strict : IProg W → Prop where
  | ret (e : Option TErr) : IProg.Strict (.ret e)
  | panic (v : PanicVal) : IProg.Strict (.panic v)
  | get {k : W → IProg W} (h : ∀ w, (k w).Strict) : IProg.Strict (.get k)
  | set {w : W} {k : IProg W} (h : k.Strict) : IProg.Strict (.set w k)
  | next {m : Message} {k : TRes → IProg W} (h : ∀ e, (k (.ok e)).Strict)
      (hp : ∀ v, k (.error v) = .panic v) : IProg.Strict (.next m k)

/-- The function given to `Call()` does not recover from panics of `ExecuteCommand()`. -/
inductive CProg.Strict : CProg W → Prop where
  | ret : CProg.Strict .ret
  | panic (v : PanicVal) : CProg.Strict (.panic v)
  | get {k : W → CProg W} (h : ∀ w, (k w).Strict) : CProg.Strict (.get k)
  | set {w : W} {k : CProg W} (h : k.Strict) : CProg.Strict (.set w k)
  | exec {m : Message} {k : TRes → CProg W} (h : ∀ e, (k (.ok e)).Strict)
      (hp : ∀ v, k (.error v) = .panic v) : CProg.Strict (.exec m k)
  | act {a : Action W} {k : TRes → CProg W} (h : ∀ r, (k r).Strict) : CProg.Strict (.act a k)

/-- Interceptors do not recover from panics. -/
def IcStrict (ic : Option (Message → IProg W)) : Prop := ∀ f, ic = some f → ∀ m, (f m).Strict

/-- Neither the function given to `Call()` nor its interceptor recovers from panics. -/
def Action.Strict : Action W → Prop
  | .call fn ic => fn.Strict ∧ IcStrict ic
  | _ => True

/-- Handlers do not recover from panics, and `Notify()` does not panic with `dogma.UnexpectedMessage`. -/
structure Lets (A : App W R) (N : List Fact → Fact → Option PanicVal) : Prop where
  code : Strict A (fun _ _ => none)
  value : ∀ pre f v, N pre f = some v → v ≠ .unexpectedMessage

/-- The predicate is not among the observers. -/
def Unheard (k : Nat) (os : List OpOption) : Prop := k ∉ os.filterMap OpOption.observerOf

/-- The record of the action of an `Expect()` without panics of `Notify()`; `c` is the caption of the
expectation. -/
def TSt.quietly (A : App W R) (E : TEnv W) (k : Nat) (a : Action W) (c : String) (t : TSt W R) :
    List TObs :=
  (a.run A E [.observer k] (t.say (.log (a.expectLine c)))).1.did.drop
    (t.did ++ [TObs.log (a.expectLine c)]).length

end Verif
