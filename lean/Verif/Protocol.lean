import Verif.Test
import Verif.Options
import Verif.ExpectSpec
import Verif.Render

/-!
# `Test.Expect()`

`/repo/test.go` 100-177: how an expectation, its predicate, the action and the `TestingT` are
brought together.  Simplifications: the `Notify()` of a predicate does not panic (observers that do
are the subject of `Verif.Watched`); no method leaves the goroutine with `runtime.Goexit()` (see
`Verif.Goexit`).
-/

namespace Verif

variable {W R P : Type}

/-- What comes of `Expectation.Predicate()` (`expectation.go` 16-19). -/
inductive Made (P : Type) where
  | ok (p : P)
  | err (msg : String)
  | panic (v : PanicVal)

/-- An implementation of `Expectation` and `Predicate` (`expectation.go` 8-45), also by users.
All methods but `Notify()` may panic.  `report` is given `TreeOk`. -/
structure Expecting (P : Type) where
  caption : Except PanicVal String
  build : PScope → Made P
  notify : PScope → Fact → P → P
  done : P → P × Option PanicVal
  ok : P → Except PanicVal Bool
  report : Bool → P → Except PanicVal Report

/-- Calls made by the test to an expectation or its predicate (`expectation.go` 16-45). -/
inductive ECall where
  | build
  | notify (f : Fact)
  | done
  | ok
  | report
  deriving Repr

/-- How `Expect()` ends.  `failed`: it called `Fatal()` or `FailNow()` (`test.go` 133-176). -/
inductive EEnd where
  | passed
  | failed
  | panicked (v : PanicVal)
  | running
  deriving DecidableEq, Repr

/-- What observer `k` is told about one entry of the record: each fact once for each time it is
registered for the operation (`engine/operationoption.go` 27-35; `fact/observer.go` 15-19). -/
def TObs.told (k : Nat) : TObs → List Fact
  | .engine _ op facts =>
    facts.flatMap fun f => ((op.opts.filterMap OpOption.observerOf).filter (fun o => o = k)).map
      fun _ => f
  | _ => []

/-- What observer `k` is told about a stretch of the record (`fact/observer.go` 15-19). -/
def toldIn (k : Nat) (l : List TObs) : List Fact := l.flatMap (TObs.told k)

/-- `Action.ConfigurePredicate` (`action.call.go` 65-67, `action.dispatch.go` 70-71,
`action.advancetime.go` 86-87). -/
def Action.configure (a : Action W) (o : PredOpts) : PredOpts :=
  match a with
  | .call .. => { o with matchDispatch := true }
  | .dispatch .. => o
  | .advance .. => o

/-- The scope given to `Expectation.Predicate` (`test.go` 103-108). -/
def Action.scope (a : Action W) (S : PScope) : PScope := { S with opts := a.configure S.opts }

/-- The text of a report in the log (`test.go` 167-171). -/
def reportText (r : Report) : String := "--- TEST REPORT ---\n\n" ++ String.ofList r.render

/-- The line that begins an `Expect()` (`test.go` 110). -/
def Action.expectLine (a : Action W) (caption : String) : String :=
  "--- expect " ++ a.caption ++ " " ++ caption ++ " ---"

/-- The last part of `Test.Expect`, after an action that succeeded (`test.go` 158-176): the verdict is
asked for, then the report, which is logged; the test fails if the verdict is negative. -/
def TSt.conclude (ok : Except PanicVal Bool) (report : Bool → Except PanicVal Report) (t : TSt W R) :
    TSt W R × List ECall × EEnd :=
  match ok with
  | .error v => (t, [.ok], .panicked v)
  | .ok b =>
    match report b with
    | .error v => (t, [.ok, .report], .panicked v)
    | .ok r =>
      let t := t.say (.log (reportText r))
      if b then (t, [.ok, .report], .passed) else (t.say .failNow, [.ok, .report], .failed)

/-- `Test.Expect` (`test.go` 100-177).  `S` holds the application and the predicate options of the
test; `k` is the identity of the predicate as an observer. -/
def TSt.expect (A : App W R) (E : TEnv W) (S : PScope) (X : Expecting P) (k : Nat) (a : Action W)
    (t : TSt W R) : TSt W R × List ECall × EEnd :=
  match X.caption with
  | .error v => (t, [], .panicked v)
  | .ok c =>
    let t := t.say (.log (a.expectLine c))
    match X.build (a.scope S) with
    | .panic v => (t, [.build], .panicked v)
    | .err msg => (t.say (.fatal (.expectation msg)), [.build], .failed)
    | .ok p =>
      match a.run A E [.observer k] t with
      | (t', o) =>
        let fs := toldIn k (t'.did.drop t.did.length)
        let seen := .build :: fs.map .notify
        match o with
        | .running => (t', seen, .running)
        | .panicked v =>
          match X.done (fs.foldl (fun p f => X.notify (a.scope S) f p) p) with
          | (_, some v') => (t', seen ++ [.done], .panicked v')
          | (_, none) => (t', seen ++ [.done], .panicked v)
        | .done e =>
          match X.done (fs.foldl (fun p f => X.notify (a.scope S) f p) p) with
          | (_, some v') => (t', seen ++ [.done], .panicked v')
          | (p, none) =>
            match e with
            | some e => (t'.say (.fatal e), seen ++ [.done], .failed)
            | none =>
              match t'.conclude (X.ok p) (fun b => X.report b p) with
              | (t', calls, e) => (t', seen ++ .done :: calls, e)

/-- The implementations of `Expectation` (`expectation.go` 9-45).  `c` holds the texts made by
libraries for reports (`test.go` 129-165). -/
def Expectation.impl (c : RCtx) (e : Expectation) : Expecting Pred where
  caption := if e.isNil then .error (.user "nil expectation") else .ok e.caption
  build s :=
    match (e.build s).2 with
    | .ok p => .ok p
    | .error .panicked => .panic (.user "nil expectation")
    | .error x => .err x.text
  notify := Pred.notify
  done p :=
    match p.done with
    | (p, v) => (p, v.map .user)
  ok p := .ok p.ok
  report ok p := .ok (p.report { c with treeOk := ok, inverted := false })

end Verif
