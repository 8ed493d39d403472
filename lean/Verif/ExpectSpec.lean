import Verif.Expect

/-!
# What expectations mean

Specification of the verdict of an expectation from the facts of the action, without predicates:
`Holds`.  And the verdict that the predicates of the code reach: `Expectation.verdict`.
-/

namespace Verif

/-- The message that counts as produced by a fact: a message produced by a handler, or (if
`md`) the message given to the engine. -/
def Fact.counts (md : Bool) (f : Fact) : Option Env :=
  if md then f.created else f.produced.map (fun x => x.2.2)

/-- The messages that count as produced, in order. -/
def countedIn (md : Bool) (fs : List Fact) : List Message :=
  (fs.filterMap (Fact.counts md)).map Env.msg

/-- The configured comparison of messages. -/
def PScope.same (s : PScope) (a b : Message) : Bool :=
  match s.opts.comparator with
  | some eq => eq a b
  | none => equal s.goEq a b

/-- The messages of the kind an expectation is about. -/
def ofKind (k : Kind) (ms : List Message) : List Message :=
  ms.filter (fun m => decide (m.type.kind = k))

/-- The messages the user's function is asked about: those of kind and type `T`. -/
def asked (T : MatchType) (ms : List Message) : List Message :=
  (ofKind T.type.kind ms).filter (fun m => T.asserts m.type)

/-- The answers to the messages of the expected kind: those of the user's function, which may
depend on the messages it was asked about before, and for messages of another type an error
(if all messages have to match) or `IgnoreMessage`. -/
def answersFrom (T : MatchType) (fn : List Message → Message → MatchRes) (ex : Bool) :
    List Message → List Message → List MatchRes
  | _, [] => []
  | seen, m :: ms =>
    if T.asserts m.type then fn seen m :: answersFrom T fn ex (seen ++ [m]) ms
    else
      (if ex then .err ("predicate function expected " ++ T.type.name) else .ignore) ::
        answersFrom T fn ex seen ms

/-- The answers to the messages that count, if those are `ms`. -/
def answers (T : MatchType) (fn : List Message → Message → MatchRes) (ex : Bool)
    (ms : List Message) : List MatchRes :=
  answersFrom T fn ex [] (ofKind T.type.kind ms)

mutual

/-- The meaning of an expectation, given the facts of the action. -/
def Holds (s : PScope) (fs : List Fact) : Expectation → Prop
  | .message m =>
    ∃ x ∈ countedIn s.opts.matchDispatch fs, x.type = m.type ∧ s.same x m = true
  | .type t => ∃ x ∈ countedIn s.opts.matchDispatch fs, x.type = t
  | .matching T fn _ false =>
    ∃ pre x post, asked T (countedIn s.opts.matchDispatch fs) = pre ++ x :: post ∧
      fn pre x = .nil
  | .matching T fn _ true =>
    (∀ x ∈ ofKind T.type.kind (countedIn s.opts.matchDispatch fs), T.asserts x.type = true) ∧
    ∀ pre x post, asked T (countedIn s.opts.matchDispatch fs) = pre ++ x :: post →
      fn pre x = .nil ∨ fn pre x = .ignore
  | .composite .allOf es => HoldAll s fs es
  | .composite .anyOf es => HoldSome s fs es
  | .composite .noneOf es => ¬ HoldSome s fs es
  | .not e => ¬ Holds s fs e
  | .repeatedly _ n f => ∀ i, i < n → Holds s fs (f i)
  | .satisfy _ fn => (satDone (fn fs) {}).1.ok = true
  | .custom _ mk => ∃ p, mk s = .ok p ∧ p.ok fs = true
  | .nil => False

/-- All of the expectations hold. -/
def HoldAll (s : PScope) (fs : List Fact) : List Expectation → Prop
  | [] => True
  | e :: es => Holds s fs e ∧ HoldAll s fs es

/-- Some of the expectations hold. -/
def HoldSome (s : PScope) (fs : List Fact) : List Expectation → Prop
  | [] => False
  | e :: es => Holds s fs e ∨ HoldSome s fs es

end

mutual

/-- All reports in a tree of reports, in pre-order. -/
def Report.nodes : Report → List Report
  | ⟨a, b, c, d, e, f, subs⟩ => ⟨a, b, c, d, e, f, subs⟩ :: Report.nodesAll subs

def Report.nodesAll : List Report → List Report
  | [] => []
  | r :: rs => r.nodes ++ Report.nodesAll rs

end

/-- A predicate written by the user whose reports show its verdict and that of the whole tree. -/
def CustomPred.Honest (p : CustomPred) : Prop :=
  ∀ ctx fs, (p.report ctx fs).ok = p.ok fs ∧ ∀ r ∈ (p.report ctx fs).nodes, r.treeOk = ctx.treeOk

mutual

/-- The predicates of all expectations written by the user in this tree report honestly. -/
def Expectation.Honest (s : PScope) : Expectation → Prop
  | .message _ | .type _ | .matching .. | .satisfy .. | .nil => True
  | .composite _ es => Expectation.AllHonest s es
  | .not e => e.Honest s
  | .repeatedly _ _ f => ∀ i, (f i).Honest s
  | .custom _ mk => ∀ p, mk s = .ok p → p.Honest

/-- The same, for all of the expectations. -/
def Expectation.AllHonest (s : PScope) : List Expectation → Prop
  | [] => True
  | e :: es => e.Honest s ∧ Expectation.AllHonest s es

end

/-- What becomes of an expectation: its predicate can not be made, or panics when told that
the action is done, or passes or not. -/
inductive Verdict where
  | refused (e : BuildErr)
  | crashed (v : String)
  | decided (ok : Bool)
  deriving DecidableEq, Repr

/-- The verdict of a predicate. -/
def Pred.verdict (s : PScope) (fs : List Fact) (p : Pred) : Verdict :=
  match (p.observe s fs).done with
  | (_, some v) => .crashed v
  | (p, none) => .decided p.ok

/-- The verdict, given the result of making the predicate. -/
def judgeBuilt (s : PScope) (fs : List Fact) : Except BuildErr Pred → Verdict
  | .error e => .refused e
  | .ok p => p.verdict s fs

/-- The verdict of an expectation: make the predicate, notify it of the facts of the action,
call `Done()`, ask `Ok()`. -/
def Expectation.verdict (s : PScope) (fs : List Fact) (e : Expectation) : Verdict :=
  judgeBuilt s fs (e.build s).2

/-- Why a verdict was not reached because the predicate could not be made. -/
def Verdict.refusal : Verdict → Option BuildErr
  | .refused e => some e
  | _ => none

/-- The panic instead of a verdict. -/
def Verdict.crash : Verdict → Option String
  | .crashed v => some v
  | _ => none

def Verdict.passed : Verdict → Bool
  | .decided ok => ok
  | _ => false

/-- The verdict on several expectations together: the first refusal, or else the first panic, or
else a function of the single verdicts. -/
def together (f : List Bool → Bool) (vs : List Verdict) : Verdict :=
  match vs.findSome? Verdict.refusal with
  | some e => .refused e
  | none =>
    match vs.findSome? Verdict.crash with
    | some v => .crashed v
    | none => .decided (f (vs.map Verdict.passed))

/-- The opposite verdict. -/
def Verdict.opposite : Verdict → Verdict
  | .decided ok => .decided !ok
  | v => v

/-- The verdict of an iteration: a refusal is tagged with the number of the iteration. -/
def Verdict.iteration (i : Nat) : Verdict → Verdict
  | .refused .panicked => .refused .panicked
  | .refused e => .refused (.iteration i e)
  | v => v

end Verif
