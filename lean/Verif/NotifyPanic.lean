import Verif.Notified
import Verif.ExpectSpec

/-!
# Functions given to expectations that panic

`Notify()` of the predicates of the library (`/repo/expectation.*.go`) once more, with functions of the
user that may panic: those given to `ToExecuteCommandMatching()` and its kin, the `MessageComparator`,
and `Notify()` of predicates written by the user.  `Verif.Expect` has the same without panics.
-/

namespace Verif

variable {W R : Type}

/-- The panics of the user's functions.
* `fn`: the function given to `To…Matching()`, after it was called with messages without panicking,
  when called with another (`expectation.messagematch.go` 203);
* `cmp`: the `MessageComparator` of the test (`expectation.message.go` 113-114), which is given the
  produced and the expected message;
* `custom`: `Notify()` of a predicate written by the user, after it was told facts
  (`expectation.go` 23-24). -/
structure Crash where
  fn : (List Message → Message → MatchRes) → List Message → Message → Option PanicVal
  cmp : Message → Message → Option PanicVal
  custom : CustomPred → List Fact → Fact → Option PanicVal

/-- `(*messagePredicate).Notify` (`expectation.message.go` 94-115). -/
def MsgPred.notifyP (C : Crash) (s : PScope) (p : MsgPred) (f : Fact) : MsgPred × Option PanicVal :=
  if p.ok then (p, none)
  else
    match p.tracker.notify f with
    | (t, none) => ({ p with tracker := t }, none)
    | (t, some env) =>
      if env.msg.type ≠ p.expected.type then ({ p with tracker := t }, none)
      else
        let p' := { p with tracker := t, bestMatch := some env }
        match p.comparator with
        | none => ({ p' with ok := equal s.goEq env.msg p.expected }, none)
        | some eq =>
          match C.cmp env.msg p.expected with
          | some v => (p', some v)
          | none => ({ p' with ok := eq env.msg p.expected }, none)

/-- `messageProduced` (`expectation.messagematch.go` 193-243). -/
def MatchPred.messageProducedP (C : Crash) (p : MatchPred) (env : Env) : MatchPred × Option PanicVal :=
  if env.msg.type.kind ≠ p.T.type.kind then (p, none)
  else if p.T.asserts env.msg.type then
    match C.fn p.fn p.seen env.msg with
    | some v => ({ p with seen := p.seen ++ [env.msg] }, some v)
    | none => (p.messageProduced env, none)
  else (p.messageProduced env, none)

/-- `(*messageMatchPredicate).Notify` (`expectation.messagematch.go` 181-189). -/
def MatchPred.notifyP (C : Crash) (p : MatchPred) (f : Fact) : MatchPred × Option PanicVal :=
  if p.ok then (p, none)
  else
    match p.tracker.notify f with
    | (t, none) => ({ p with tracker := t }, none)
    | (t, some env) => { p with tracker := t }.messageProducedP C env

mutual

/-- `Predicate.Notify` (`expectation.message.go` 94, `messagetype.go` 93, `messagematch.go` 181,
`composite.go` 148, `not.go` 43, `repeat.go` 82, `satisfy.go` 70). -/
def Pred.notifyP (C : Crash) (s : PScope) (f : Fact) : Pred → Pred × Option PanicVal
  | .message p =>
    match p.notifyP C s f with
    | (p, v) => (.message p, v)
  | .type p => (.type (p.notify s f), none)
  | .matching p =>
    match p.notifyP C f with
    | (p, v) => (.matching p, v)
  | .composite k n ps =>
    match Pred.notifyAllP C s f ps with
    | (ps, v) => (.composite k n ps, v)
  | .not p =>
    match p.notifyP C s f with
    | (p, v) => (.not p, v)
  | .repeatedly c ps =>
    match Pred.notifyAllP C s f ps with
    | (ps, v) => (.repeatedly c ps, v)
  | .satisfy p => (.satisfy { p with facts := p.facts ++ [f] }, none)
  | .custom p fs => (.custom p (fs ++ [f]), C.custom p fs f)

/-- `for _, c := range p.children { c.Notify(f) }` (`expectation.composite.go` 148-152,
`repeat.go` 82-86). -/
def Pred.notifyAllP (C : Crash) (s : PScope) (f : Fact) : List Pred → List Pred × Option PanicVal
  | [] => ([], none)
  | p :: ps =>
    match p.notifyP C s f with
    | (p, some v) => (p :: ps, some v)
    | (p, none) =>
      match Pred.notifyAllP C s f ps with
      | (ps, v) => (p :: ps, v)

end

/-- A predicate after several notifications, some of which may have panicked
(`fact/observer.go` 15-19). -/
def Pred.afterP (C : Crash) (s : PScope) (p : Pred) (fs : List Fact) : Pred :=
  fs.foldl (fun p f => (p.notifyP C s f).1) p

/-- An expectation of the library as an `Expectation` (`expectation.go` 9-45). -/
def Expectation.implP (C : Crash) (c : RCtx) (e : Expectation) : Expected where
  caption := (e.impl c).caption
  build s :=
    match (e.impl c).build s with
    | .panic v => .panic v
    | .err m => .err m
    | .ok p =>
      .ok ⟨fun fs => ((e.impl c).done (p.afterP C s fs)).2,
        fun fs => (e.impl c).ok ((e.impl c).done (p.afterP C s fs)).1,
        fun b fs => (e.impl c).report b ((e.impl c).done (p.afterP C s fs)).1⟩

/-- When `Notify()` of its predicate panics (`expectation.go` 23-24). -/
def Expectation.panics (C : Crash) (s : PScope) (e : Expectation) (pre : List Fact) (f : Fact) :
    Option PanicVal :=
  match (e.build s).2 with
  | .ok p => ((p.afterP C s pre).notifyP C s f).2
  | .error _ => none

/-- `Test.Expect` (`test.go` 100-177) of an expectation of the library, with functions that panic. -/
def TSt.expectC (A : App W R) (E : TEnv W) (S : PScope) (C : Crash) (c : RCtx) (e : Expectation)
    (k : Nat) (a : Action W) (t : TSt W R) : TSt W R × List ECall × EEnd :=
  t.expectN A E S (e.implP C c) k (e.panics C (a.scope S)) a

/-! ## Specification -/

mutual

/-- The expectations in a tree of expectations that are not made of others, in order. -/
def Expectation.leaves : Expectation → List Expectation
  | .composite _ es => Expectation.leavesAll es
  | .not e => e.leaves
  | .repeatedly _ n f => (List.range n).flatMap fun i => (f i).leaves
  | e => [e]

/-- Those of several trees. -/
def Expectation.leavesAll : List Expectation → List Expectation
  | [] => []
  | e :: es => e.leaves ++ Expectation.leavesAll es

end

/-- The panic that an expectation of a single thing causes when it is told a fact after others: it calls
* the comparator, with each message that counts and is of the expected type, until one is the expected;
* the function given to `To…Matching()`, with each message that counts and is of its type, until one
  matches, or with all of them if all have to match;
* `Notify()` of a predicate of the user, with each fact. -/
def Expectation.callPanics (C : Crash) (s : PScope) (fs : List Fact) (f : Fact) :
    Expectation → Option PanicVal
  | .message m =>
    match s.opts.comparator, f.counts s.opts.matchDispatch with
    | some eq, some env =>
      if env.msg.type = m.type ∧
          (∀ x ∈ countedIn s.opts.matchDispatch fs, x.type = m.type → eq x m = false) then
        C.cmp env.msg m
      else none
    | _, _ => none
  | .matching T fn _ ex =>
    match f.counts s.opts.matchDispatch with
    | some env =>
      if env.msg.type.kind = T.type.kind ∧ T.asserts env.msg.type = true ∧
          (ex = false → MatchRes.nil ∉ answers T fn ex (countedIn s.opts.matchDispatch fs)) then
        C.fn fn (asked T (countedIn s.opts.matchDispatch fs)) env.msg
      else none
    | none => none
  | .custom _ mk =>
    match mk s with
    | .ok p => C.custom p fs f
    | .error _ => none
  | _ => none

/-- The panic of `Done()` of the predicate of an expectation of a single thing that was told facts: of
the function given to `ToSatisfy()`, or of the user's own `Done()`. -/
def Expectation.donePanics (s : PScope) (fs : List Fact) : Expectation → Option String
  | .satisfy _ fn => (satDone (fn fs) {}).2
  | .custom _ mk =>
    match mk s with
    | .ok p => p.crash fs
    | .error _ => none
  | _ => none

end Verif
