import Verif.Protocol
import Verif.Render
import Verif.Demo

/-!
# Transcribed tests: harness

The modules in `Verif/Conform` transcribe tests of the repository: an application, what is done to
it, and what the test expects.  The model is evaluated by the kernel and has to give what the
test expects of the code.  They are tests of the model, not proofs of properties.
-/

namespace Verif.Conform

open Verif

/-- `CommandStub[T]{Content: c}` and so on (`enginekit/enginetest/stubs`). -/
def cmd (t : String) : MType := ⟨.command, "stubs.CommandStub[" ++ t ++ "]"⟩
def evt (t : String) : MType := ⟨.event, "stubs.EventStub[" ++ t ++ "]"⟩
def tmo (t : String) : MType := ⟨.timeout, "stubs.TimeoutStub[" ++ t ++ "]"⟩

def msg (t : MType) (c : String := "") : Message := ⟨t, c, none⟩

/-- `func(m dogma.Command) error`: the type parameter is an interface. -/
def anyCommand : MatchType := ⟨⟨.command, "dogma.Command"⟩, some fun t => decide (t.kind = .command)⟩
def anyEvent : MatchType := ⟨⟨.event, "dogma.Event"⟩, some fun t => decide (t.kind = .event)⟩

def allOf (l : List Expectation) : Expectation := (mkComposite .allOf l).getD .nil
def anyOf (l : List Expectation) : Expectation := (mkComposite .anyOf l).getD .nil
def noneOf (l : List Expectation) : Expectation := (mkComposite .noneOf l).getD .nil

/-- Values are compared as such. -/
def goEq : GoEq Message Message := ⟨fun _ => none, fun a b => decide (a = b), fun a b => decide (a = b)⟩

/-- Handlers that do what handler stubs do if no function is given. -/
def stubs : UserCode Nat (List String) where
  aggRoute _ _ w := (w, .ok "<instance>")
  aggNew _ w := (w, .ok (some []))
  aggApply _ r m w := (w, r ++ [m.body], none)
  aggHandle _ _ _ _ := .ret ()
  procRoute _ _ w := (w, .ok (.ok (some "<instance>")))
  procNew _ w := (w, .ok (some []))
  procHandle _ _ _ _ _ := .ret none
  intHandle _ _ := .ret none
  prjVersion _ _ w := (w, .ok (.ok []))
  prjHandle _ _ _ _ _ _ := .ret (.ok true)
  prjClose _ _ w := (w, .ok none)
  prjCompact _ _ := .ret none
  schedule _ := []
  resetters := []
  ctxErr _ := none
  lockErr _ := none
  wallClock _ := 0

def mkApp (cfgs : List HConfig) (uc : UserCode Nat (List String)) : App Nat (List String) where
  cfgs := cfgs
  uc := uc
  compactDuringHandling := true
  sort := Demo.sortImpl

def tenv (A : App Nat (List String)) : TEnv Nat := { fuel := 50, order := fun _ => A.cfgs }

def scope (A : App Nat (List String)) : PScope := ⟨A.cfgs, ⟨none, false⟩, goEq⟩

/-- What is logged after the header `--- TEST REPORT ---` (`test.go` 121-172) and whether the test
passes. -/
structure Verdict where
  passed : Bool
  report : List Char
  deriving DecidableEq, Repr

/-- `expectReport` (`report_test.go` 13-34): the lines of a report. -/
def lines (l : List String) : List Char := l.flatMap (fun s => s.toList ++ ['\n'])

def expectPass (l : List String) : Option Verdict := some ⟨true, lines l⟩
def expectFail (l : List String) : Option Verdict := some ⟨false, lines l⟩

/-- The end of `Test.Expect` (`test.go` 120-176), for a predicate and the facts of the action;
`diff` is the text the diff library makes. -/
def judge (S : PScope) (e : Expectation) (diff : String) (fs : List Fact) : Option Verdict :=
  match (e.build S).2 with
  | .error _ => none
  | .ok p =>
    match (p.observe S fs).done with
    | (_, some _) => none
    | (p, none) =>
      some ⟨p.ok, (p.report ⟨p.ok, false, fun m => m.body, fun _ _ => diff⟩).render⟩

/-- `Begin(t, app, options...).Expect(a, e)`. -/
def expect (A : App Nat (List String)) (os : List OpOption) (a : Action Nat) (e : Expectation)
    (diff : String := "") : Option Verdict :=
  let t : TSt Nat (List String) := .begin 0 0 os none
  match a.run A (tenv A) [.observer 1] t with
  | (t, .done none) => judge (a.scope (scope A)) e diff (toldIn 1 t.did)
  | _ => none

/-- `Expect(noop, e)`: an action that does nothing (`action_test.go` 10-22). -/
def expectNoop (A : App Nat (List String)) (e : Expectation) : Option Verdict :=
  judge (scope A) e "" []

/-- `staticExpectation` (`expectation_test.go` 10-56). -/
def static (ok : Bool) (err : Option String) : Expectation :=
  .custom (if ok then "to [always pass]" else "to [always fail]") fun _ =>
    match err with
    | some e => .error e
    | none => .ok
      { ok := fun _ => ok,
        report := fun ctx _ =>
          { treeOk := ctx.treeOk, ok := ok,
            criteria := if ok then "<always pass>" else "<always fail>" } }
def pass : Expectation := static true none
def fail : Expectation := static false none
def failBeforeAction : Expectation := static false (some "<always fail before action>")

/-- An application without handlers. -/
def emptyApp : App Nat (List String) := mkApp [] stubs

end Verif.Conform
