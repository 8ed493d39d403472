import Verif.Spec
import Verif.Compare
import Verif.Inflect
import Verif.Satisfy

/-!
# Expectations and predicates

`/repo/expectation*.go` and the data part of `/repo/report.go`.

Left out: file names and line numbers (a place in the code is a string); what is
in the texts rendered by the dapper and diff libraries (parameters).  User functions given to
expectations do not panic, except those of `ToSatisfy` (a panic in one of the others would come
out of an observer).
-/

namespace Verif

/-- `PredicateOptions` (`expectation.go` 58-70). -/
structure PredOpts where
  comparator : Option (Message → Message → Bool)
  matchDispatch : Bool

/-- `PredicateScope` (`expectation.go` 48-55): the application's handlers and the options; and
what the libraries offer: comparing values. -/
structure PScope where
  cfgs : List HConfig
  opts : PredOpts
  goEq : GoEq Message Message

/-! ## Reports -/

/-- `Report` (`report.go` 54-77).  A section is a title and its text. -/
structure Report where
  treeOk : Bool
  ok : Bool
  criteria : String
  outcome : String := ""
  explanation : String := ""
  sections : List (String × String) := []
  subReports : List Report := []

/-- `(*Report).Section` (`report.go` 80-94): makes sure there is such a section. -/
def Report.section (r : Report) (title : String) : Report :=
  if r.sections.any (fun s => s.1 = title) then r
  else { r with sections := r.sections ++ [(title, "")] }

/-- `r.Section(title).Content.WriteString(s)` (`report.go` 80-92, 187-194). -/
def Report.write (r : Report) (title s : String) : Report :=
  { r.section title with
    sections := (r.section title).sections.map
      fun x => if x.1 = title then (x.1, x.2 ++ s) else x }

/-- `(*ReportSection).AppendListItem` (`report.go` 192-194). -/
def Report.item (r : Report) (title s : String) : Report := r.write title ("• " ++ s ++ "\n")

/-- `(*Report).Append` (`report.go` 97-99). -/
def Report.append (r sr : Report) : Report := { r with subReports := r.subReports ++ [sr] }

/-- `ReportGenerationContext` (`report.go` 37-47), with the renderings made by libraries. -/
structure RCtx where
  treeOk : Bool
  inverted : Bool
  render : Message → String
  diff : String → String → String

/-- `report.go` 14-28. -/
def suggestionsSection : String := "Suggestions"
/-- `report.go` 14-28. -/
def logSection : String := "Log Messages"
/-- `report.go` 14-28. -/
def failedMatchesSection : String := "Failed Matches"

/-! ## Tracker -/

/-- `configkit.HandlerTypes` (used in `expectation.messagecommon.go` 23). -/
def handlerTypes : List HandlerType := [.aggregate, .process, .integration, .projection]

/-- `HandlerType.IsProducerOf` (configkit) (used in `expectation.messagecommon.go` 26, 173). -/
def HandlerType.isProducerOf : HandlerType → Kind → Bool
  | .aggregate, .event => true
  | .process, .command => true
  | .process, .timeout => true
  | .integration, .event => true
  | _, _ => false

/-- `HandlerType.String` (configkit) (used in `expectation.messagecommon.go` 27). -/
def HandlerType.str : HandlerType → String
  | .aggregate => "aggregate"
  | .process => "process"
  | .integration => "integration"
  | .projection => "projection"

/-- `tracker` (`expectation.messagecommon.go` 112-136). -/
structure Tracker where
  kind : Kind
  opts : PredOpts
  cycleBegun : Bool := false
  total : Nat := 0
  produced : Nat := 0
  engagedOrder : List String := []
  engagedType : List (String × HandlerType) := []
  enabled : HandlerType → Bool := fun _ => false

/-- `updateEngaged` (`expectation.messagecommon.go` 172-183). -/
def Tracker.updateEngaged (t : Tracker) (n : String) (ht : HandlerType) : Tracker :=
  if ht.isProducerOf t.kind then
    if t.engagedType.any (fun x => x.1 = n) then t
    else { t with engagedOrder := t.engagedOrder ++ [n], engagedType := t.engagedType ++ [(n, ht)] }
  else t

/-- `messageProduced` (`expectation.messagecommon.go` 185-191). -/
def Tracker.messageProduced (t : Tracker) (env : Env) : Tracker :=
  { t with
    total := t.total + 1
    produced := if env.msg.type.kind = t.kind then t.produced + 1 else t.produced }

/-- `(*tracker).Notify` (`expectation.messagecommon.go` 141-170). -/
def Tracker.notify (t : Tracker) (f : Fact) : Tracker × Option Env :=
  match f with
  | .dispatchCycleBegun env c =>
    let t := { t with cycleBegun := true, enabled := c.enables }
    if t.opts.matchDispatch then (t.messageProduced env, some env) else (t, none)
  | .handlingBegun h _ => (t.updateEngaged h.name h.htype, none)
  | .aggEvent _ _ _ ev => (t.messageProduced ev, some ev)
  | .intEvent _ _ ev => (t.messageProduced ev, some ev)
  | .procCommand _ _ _ c => (t.messageProduced c, some c)
  | .procTimeout _ _ _ tm => (t.messageProduced tm, some tm)
  | _ => (t, none)

/-- The loop over handler types in `reportNoMatch` (`expectation.messagecommon.go` 23-37):
the report, the relevant handler types and `allDisabled`. -/
def noMatchLoop (t : Tracker) : List HandlerType → Report × List String × Bool →
    Report × List String × Bool
  | [], a => a
  | ht :: hts, (rep, relevant, allDisabled) =>
    noMatchLoop t hts <|
      if ht.isProducerOf t.kind then
        if t.enabled ht then (rep, relevant ++ [ht.str], false)
        else (rep.item suggestionsSection
                ("enable " ++ ht.str ++ " handlers using the EnableHandlerType() option"),
              relevant ++ [ht.str], allDisabled)
      else (rep, relevant, allDisabled)

/-- The end of `reportNoMatch` (`expectation.messagecommon.go` 56-72). -/
def noMatchTail (rep : Report) (t : Tracker) : Report :=
  let rep := { rep with
    explanation :=
      if t.total = 0 then "no messages were produced at all"
      else if t.produced = 0 then Inflect.sprint t.kind "no <messages> were <produced> at all"
      else if t.opts.matchDispatch then
        Inflect.sprint t.kind "nothing <produced> a matching <message>"
      else Inflect.sprint t.kind "none of the engaged handlers <produced> a matching <message>" }
  let rep := t.engagedOrder.foldl (fun rep n =>
    rep.item suggestionsSection ("verify the logic within the '" ++ n ++ "' " ++
      (((t.engagedType.lookup n).map HandlerType.str).getD "") ++ " message handler")) rep
  if t.opts.matchDispatch then
    rep.item suggestionsSection
      (Inflect.sprint t.kind "verify the logic within the code that uses the <dispatcher>")
  else rep

/-- `reportNoMatch` (`expectation.messagecommon.go` 16-73). -/
def reportNoMatch (rep : Report) (t : Tracker) : Report :=
  let rep := rep.section suggestionsSection
  if t.cycleBegun then
    match noMatchLoop t handlerTypes (rep, [], true) with
    | (rep, relevant, allDisabled) =>
      if t.opts.matchDispatch then noMatchTail rep t
      else if allDisabled then { rep with explanation := "no relevant handler types were enabled" }
      else if t.engagedOrder = [] then
        { rep with
          explanation := "no relevant handlers (" ++ String.intercalate " or " relevant ++
            ") were engaged" }.item suggestionsSection
          "check the application's routing configuration"
      else noMatchTail rep t
  else noMatchTail rep t

/-- Why a predicate could not be made: `Predicate()` returned an error or panicked
(`expectation.go` 16-19). -/
inductive BuildErr where
  | unused (t : MType)
  | onlyConsumed (t : MType)
  | iteration (i : Nat) (e : BuildErr)
  | nilExpectation
  /-- the error of an expectation written by the user -/
  | custom (msg : String)
  /-- nil dereference -/
  | panicked
  deriving DecidableEq, Repr

/-- The texts of these errors (`expectation.messagecommon.go` 86-104, `expectation.repeat.go`
58-65). -/
def BuildErr.text : BuildErr → String
  | .unused t => Inflect.sprint t.kind ("a <message> of type " ++ t.name ++
      " can never be <produced>, the application does not use this message type")
  | .onlyConsumed t => Inflect.sprint t.kind ("no handlers <produce> <messages> of type " ++ t.name ++
      ", it is only ever consumed")
  | .iteration i e => "on iteration " ++ toString i ++ ": " ++ e.text
  | .nilExpectation => "factory returned a nil expectation"
  | .custom msg => msg
  | .panicked => ""

/-- `guardAgainstExpectationOnImpossibleType` (`expectation.messagecommon.go` 77-108).
`App.MessageTypes()` joins the message types of the handlers. -/
def guardImpossible (s : PScope) (t : MType) : Except BuildErr Unit :=
  if s.cfgs.any (fun h => decide (t ∈ h.consumes) || decide (t ∈ h.produces)) then
    if s.opts.matchDispatch then .ok ()
    else if s.cfgs.any (fun h => decide (t ∈ h.produces)) then .ok ()
    else .error (.onlyConsumed t)
  else .error (.unused t)

/-! ## Leaves -/

/-- `messagePredicate` (`expectation.message.go` 85-91). -/
structure MsgPred where
  comparator : Option (Message → Message → Bool)
  expected : Message
  ok : Bool := false
  bestMatch : Option Env := none
  tracker : Tracker

/-- `(*messagePredicate).Notify` (`expectation.message.go` 94-115). -/
def MsgPred.notify (s : PScope) (p : MsgPred) (f : Fact) : MsgPred :=
  if p.ok then p
  else
    match p.tracker.notify f with
    | (t, none) => { p with tracker := t }
    | (t, some env) =>
      if env.msg.type ≠ p.expected.type then { p with tracker := t }
      else
        { p with
          tracker := t
          bestMatch := some env
          ok := match p.comparator with
            | none => equal s.goEq env.msg p.expected
            | some eq => eq env.msg p.expected }

/-- `(*messagePredicate).Report` (`expectation.message.go` 124-175). -/
def MsgPred.report (ctx : RCtx) (p : MsgPred) : Report :=
  let mt := p.expected.type
  let rep : Report :=
    { treeOk := ctx.treeOk, ok := p.ok,
      criteria := Inflect.sprint mt.kind ("<produce> a specific '" ++ mt.name ++ "' <message>") }
  if p.ok || ctx.treeOk || ctx.inverted then rep
  else
    match p.bestMatch with
    | none => reportNoMatch rep p.tracker
    | some env =>
      let rep := { rep.section suggestionsSection with
        explanation :=
          match env.origin with
          | none => Inflect.sprint mt.kind "a similar <message> was <produced> via a <dispatcher>"
          | some o => Inflect.sprint mt.kind
              ("a similar <message> was <produced> by the '" ++ o.handler.name ++ "' " ++
                o.htype.str ++ " message handler") }
      (rep.item suggestionsSection "check the content of the message").write "Message Diff"
        (ctx.diff (ctx.render p.expected) (ctx.render env.msg))

/-- `messageTypePredicate` (`expectation.messagetype.go` 87-91). -/
structure TypePred where
  expected : MType
  ok : Bool := false
  tracker : Tracker

/-- `(*messageTypePredicate).Notify` (`expectation.messagetype.go` 93-101). -/
def TypePred.notify (_ : PScope) (p : TypePred) (f : Fact) : TypePred :=
  if p.ok then p
  else
    match p.tracker.notify f with
    | (t, none) => { p with tracker := t }
    | (t, some env) => { p with tracker := t, ok := decide (env.msg.type = p.expected) }

/-- `(*messageTypePredicate).Report` (`expectation.messagetype.go` 110-127). -/
def TypePred.report (ctx : RCtx) (p : TypePred) : Report :=
  let rep : Report :=
    { treeOk := ctx.treeOk, ok := p.ok,
      criteria := Inflect.sprint p.expected.kind
        ("<produce> any '" ++ p.expected.name ++ "' <message>") }
  if p.ok || ctx.treeOk || ctx.inverted then rep else reportNoMatch rep p.tracker

/-- A type parameter `T` of the matching expectations: a concrete message type, or an interface
(with the message types that implement it) (`expectation.messagematch.go` 28, 129). -/
structure MatchType where
  type : MType
  iface : Option (MType → Bool) := none

/-- `_, ok := m.(T)` (`expectation.messagematch.go` 193-243). -/
def MatchType.asserts (T : MatchType) (t : MType) : Bool :=
  match T.iface with
  | none => decide (t = T.type)
  | some f => f t

/-- What a user's match function returns: nil, `IgnoreMessage`, another error
(`expectation.messagematch.go` 28-32, 121). -/
inductive MatchRes where
  | nil
  | ignore
  | err (s : String)
  deriving DecidableEq, Repr

/-- `failedMatch` (`expectation.messagematch.go` 330-334). -/
structure FailedMatch where
  type : MType
  error : String
  count : Nat
  deriving DecidableEq, Repr

/-- `messageMatchPredicate` (`expectation.messagematch.go` 170-178).  The user's function may
depend on the messages it was called with before, which `seen` holds. -/
structure MatchPred where
  T : MatchType
  fn : List Message → Message → MatchRes
  loc : String
  exhaustive : Bool
  failures : List FailedMatch := []
  matched : Nat := 0
  ignored : Nat := 0
  ok : Bool := false
  tracker : Tracker
  seen : List Message := []

/-- The loop that looks for an equal failure, and the `append` if there is none
(`expectation.messagematch.go` 228-242). -/
def addFailure (t : MType) (e : String) : List FailedMatch → List FailedMatch
  | [] => [⟨t, e, 1⟩]
  | f :: fs =>
    if f.type = t ∧ f.error = e then { f with count := f.count + 1 } :: fs
    else f :: addFailure t e fs

/-- `messageProduced` (`expectation.messagematch.go` 193-243). -/
def MatchPred.messageProduced (p : MatchPred) (env : Env) : MatchPred :=
  if env.msg.type.kind ≠ p.T.type.kind then p
  else
    let (p, err) :=
      if p.T.asserts env.msg.type then
        ({ p with seen := p.seen ++ [env.msg] }, p.fn p.seen env.msg)
      else if p.exhaustive then
        (p, MatchRes.err ("predicate function expected " ++ p.T.type.name))
      else (p, MatchRes.ignore)
    match err with
    | .nil =>
      if p.exhaustive then { p with matched := p.matched + 1 }
      else { p with matched := p.matched + 1, ok := true, failures := [] }
    | .ignore => { p with ignored := p.ignored + 1 }
    | .err e => { p with failures := addFailure env.msg.type e p.failures }

/-- `(*messageMatchPredicate).Notify` (`expectation.messagematch.go` 181-189). -/
def MatchPred.notify (_ : PScope) (p : MatchPred) (f : Fact) : MatchPred :=
  if p.ok then p
  else
    match p.tracker.notify f with
    | (t, none) => { p with tracker := t }
    | (t, some env) => { p with tracker := t }.messageProduced env

/-- `(*messageMatchPredicate).Done` (`expectation.messagematch.go` 249-253). -/
def MatchPred.done (p : MatchPred) : MatchPred :=
  if p.exhaustive && p.failures.isEmpty then { p with ok := true } else p

/-- The list of failures in a report (`expectation.messagematch.go` 283-298). -/
def FailedMatch.text (f : FailedMatch) : String :=
  if f.count > 1 then
    f.type.name ++ ": " ++ f.error ++ " (repeated " ++ toString f.count ++ " times)"
  else f.type.name ++ ": " ++ f.error

/-- `(*messageMatchPredicate).Report` (`expectation.messagematch.go` 255-328). -/
def MatchPred.report (ctx : RCtx) (p : MatchPred) : Report :=
  let k := p.T.type.kind
  let rep : Report :=
    { treeOk := ctx.treeOk, ok := p.ok,
      criteria :=
        if p.exhaustive then
          Inflect.sprint k ("only <produce> <messages> that match the predicate near " ++ p.loc)
        else Inflect.sprint k ("<produce> a <message> that matches the predicate near " ++ p.loc) }
  if p.ok || ctx.treeOk || ctx.inverted then rep
  else
    let rep :=
      if p.failures.isEmpty then rep
      else p.failures.foldl (fun rep f => rep.item failedMatchesSection f.text)
        (rep.section failedMatchesSection)
    let rep := rep.section suggestionsSection
    let rep :=
      if p.ignored > 0 then
        rep.item suggestionsSection
          ("verify the logic within the predicate function, it ignored " ++
            Inflect.sprint k (toString p.ignored ++ " <messages>"))
      else if p.failures.isEmpty then rep
      else rep.item suggestionsSection "verify the logic within the predicate function"
    let rep := reportNoMatch rep p.tracker
    if p.exhaustive then
      let n : Int := (p.tracker.produced : Int) - p.ignored
      let matched :=
        if p.matched = 0 then "none of the " ++ toString n
        else "only " ++ toString p.matched ++ " of " ++ toString n
      { rep with
        explanation := Inflect.sprint k (matched ++ " relevant <messages> matched the predicate") }
    else rep

/-- `satisfyPredicate` (`expectation.satisfy.go` 64-68).  The user's function sees the facts. -/
structure SatPred where
  criteria : String
  fn : List Fact → SProg
  facts : List Fact := []
  t : SatT := {}

/-- `(*satisfyPredicate).Report` (`expectation.satisfy.go` 96-125). -/
def SatPred.report (ctx : RCtx) (p : SatPred) : Report :=
  let rep : Report :=
    { treeOk := ctx.treeOk, ok := p.t.ok, criteria := p.criteria,
      outcome :=
        if p.t.skipped then "the expectation was skipped"
        else if p.t.failed then "the expectation failed" else "" }
  if !rep.ok && ctx.inverted then rep
  else
    let rep := { rep with explanation := p.t.explanation.getD "" }
    if p.t.messages.isEmpty then rep
    else p.t.messages.foldl (fun rep m => rep.write logSection (m ++ "\n"))
      (rep.section logSection)

/-! ## Trees -/

/-- Which of `AllOf`, `AnyOf`, `NoneOf` (`expectation.composite.go` 10-105). -/
inductive CompKind where
  | allOf | anyOf | noneOf
  deriving DecidableEq, Repr

/-- `compositeExpectation.criteria` (`expectation.composite.go` 10-105). -/
def CompKind.criteria : CompKind → String
  | .allOf => "all of"
  | .anyOf => "any of"
  | .noneOf => "none of"

/-- `compositeExpectation.isInverted` (`expectation.composite.go` 10-105). -/
def CompKind.inverted : CompKind → Bool
  | .noneOf => true
  | _ => false

/-- `compositeExpectation.pred` (`expectation.composite.go` 25-34, 54-63, 84-97), for `n`
children of which `passed` passed. -/
def CompKind.pred (n passed : Nat) : CompKind → String × Bool
  | .allOf =>
    if passed = n then ("", true)
    else (toString (n - passed) ++ " of the expectations failed", false)
  | .anyOf =>
    if passed > 0 then ("", true)
    else ("all " ++ toString n ++ " of the expectations failed", false)
  | .noneOf =>
    if passed = 0 then ("", true)
    else if n = 1 then ("the expectation passed unexpectedly", false)
    else (toString passed ++ " of the expectations passed unexpectedly", false)

/-- A predicate written by the user (`expectation.go` 23-45): the panic that comes out of `Done()`
if any, `Ok()` and `Report()` after that, given the facts it was notified of.  (It is not asked
anything before `Done()`.) -/
structure CustomPred where
  crash : List Fact → Option String := fun _ => none
  ok : List Fact → Bool
  report : RCtx → List Fact → Report

/-- Expectations: the implementations of the `Expectation` interface; `nil` is a nil interface
(`expectation.go` 9-20, `expectation.*.go`). -/
inductive Expectation where
  /-- `ToExecuteCommand`, `ToRecordEvent` -/
  | message (m : Message)
  /-- `ToExecuteCommandType`, `ToRecordEventType` -/
  | type (t : MType)
  /-- `ToExecuteCommandMatching`, `ToOnlyExecuteCommandsMatching`, `ToRecordEventMatching`,
  `ToOnlyRecordEventsMatching` -/
  | matching (T : MatchType) (fn : List Message → Message → MatchRes) (loc : String)
      (exhaustive : Bool)
  /-- `compositeExpectation` -/
  | composite (k : CompKind) (children : List Expectation)
  /-- `Not` (`expectation.not.go` 10-15) -/
  | not (e : Expectation)
  /-- `ToRepeatedly` -/
  | repeatedly (desc : String) (count : Nat) (factory : Nat → Expectation)
  /-- `ToSatisfy` -/
  | satisfy (desc : String) (fn : List Fact → SProg)
  /-- written by the user -/
  | custom (caption : String) (mk : PScope → Except String CustomPred)
  | nil

/-- `compositeExpectation.caption` (`expectation.composite.go` 22, 51, 75-78) of several children. -/
def CompKind.caption (n : Nat) : CompKind → String
  | .allOf => "to meet " ++ toString n ++ " expectations"
  | .anyOf => "to meet at least one of " ++ toString n ++ " expectations"
  | .noneOf => "not to meet any of " ++ toString n ++ " expectations"

/-- `Expectation.Caption` (`expectation.message.go` 59-65, `messagetype.go` 63-69,
`messagematch.go` 134-148, `composite.go` 22, 51, 75-78, `not.go` 12, `repeat.go` 48-50,
`satisfy.go` 48-50). -/
def Expectation.caption : Expectation → String
  | .message m => Inflect.sprint m.type.kind ("to <produce> a specific '" ++ m.type.name ++ "' <message>")
  | .type t => Inflect.sprint t.kind ("to <produce> a <message> of type " ++ t.name)
  | .matching T _ loc ex =>
    Inflect.sprint T.type.kind
      (if ex then "to only <produce> <messages> that match the predicate near " ++ loc
       else "to <produce> a <message> that matches the predicate near " ++ loc)
  | .composite .noneOf [e] => "not " ++ e.caption
  | .composite k es => k.caption es.length
  | .not e => "not " ++ e.caption
  | .repeatedly desc _ _ => "to " ++ desc
  | .satisfy desc _ => "to " ++ desc
  | .custom c _ => c
  | .nil => ""

/-- `AllOf`, `AnyOf`, `NoneOf` (`expectation.composite.go` 10-100); `none` is a panic.  (The code
of `NoneOf` with one nil child panics here already, the model when the predicate is made.) -/
def mkComposite (k : CompKind) (children : List Expectation) : Option Expectation :=
  match children with
  | [] => none
  | [e] => if k = .noneOf then some (.composite k [e]) else some e
  | children => some (.composite k children)

/-- `ToRepeatedly` (`expectation.repeat.go` 18-40) with a non-nil factory; `none` is a panic. -/
def mkRepeatedly (desc : String) (n : Int) (f : Nat → Expectation) : Option Expectation :=
  if n < 1 then none else if desc = "" then none else some (.repeatedly desc n.toNat f)

/-- Predicates: the implementations of the `Predicate` interface (`expectation.go` 23-45,
`expectation.*.go`). -/
inductive Pred where
  | message (p : MsgPred)
  | type (p : TypePred)
  | matching (p : MatchPred)
  | composite (k : CompKind) (n : Nat) (children : List Pred)
  | not (p : Pred)
  | repeatedly (criteria : String) (children : List Pred)
  | satisfy (p : SatPred)
  | custom (p : CustomPred) (facts : List Fact)

/-- The loop of `repeatExpectation.Predicate` (`expectation.repeat.go` 55-68), for `n` more
iterations from `i`.  `build i` is the construction of the predicate of `factory(i)`.  The
first component of the result lists the calls of factories (by description and number). -/
def repeatLoop (desc : String) (build : Nat → List (String × Nat) × Except BuildErr Pred) :
    Nat → Nat → List (String × Nat) × Except BuildErr (List Pred)
  | 0, _ => ([], .ok [])
  | n + 1, i =>
    match build i with
    | (l, .error e) => ((desc, i) :: l, .error (if e = .panicked then e else .iteration i e))
    | (l, .ok p) =>
      match repeatLoop desc build n (i + 1) with
      | (l', .error e) => ((desc, i) :: l ++ l', .error e)
      | (l', .ok ps) => ((desc, i) :: l ++ l', .ok (p :: ps))

/-- Is this a nil interface? (`test.go` 100-177, `expectation.composite.go` 10-105). -/
def Expectation.isNil : Expectation → Bool
  | .nil => true
  | _ => false

mutual

/-- `Expectation.Predicate` (`expectation.message.go` 67-82, `expectation.messagetype.go` 71-83,
`expectation.messagematch.go` 150-166, `expectation.composite.go` 120-138,
`expectation.not.go` 27-36, `expectation.repeat.go` 52-74, `expectation.satisfy.go` 52-61). -/
def Expectation.build (s : PScope) : Expectation → List (String × Nat) × Except BuildErr Pred
  | .message m =>
    ([], match guardImpossible s m.type with
      | .error e => .error e
      | .ok () => .ok (.message
          { comparator := s.opts.comparator, expected := m,
            tracker := { kind := m.type.kind, opts := s.opts } }))
  | .type t =>
    ([], match guardImpossible s t with
      | .error e => .error e
      | .ok () => .ok (.type { expected := t, tracker := { kind := t.kind, opts := s.opts } }))
  | .matching T fn loc ex =>
    let p : Pred := .matching
      { T := T, fn := fn, loc := loc, exhaustive := ex,
        tracker := { kind := T.type.kind, opts := s.opts } }
    ([], match T.iface with
      | some _ => .ok p
      | none =>
        match guardImpossible s T.type with
        | .error e => .error e
        | .ok () => .ok p)
  | .composite k children =>
    match Expectation.buildAll s children with
    | (l, .error e) => (l, .error e)
    | (l, .ok ps) => (l, .ok (.composite k children.length ps))
  | .not e =>
    match e.build s with
    | (l, .error e) => (l, .error e)
    | (l, .ok p) => (l, .ok (.not p))
  | .repeatedly desc n f =>
    match repeatLoop desc
        (fun i => if (f i).isNil then ([], .error .nilExpectation) else (f i).build s) n 0 with
    | (l, .error e) => (l, .error e)
    | (l, .ok ps) => (l, .ok (.repeatedly desc ps))
  | .satisfy desc fn => ([], .ok (.satisfy { criteria := desc, fn := fn }))
  | .custom _ mk =>
    ([], match mk s with
      | .error e => .error (.custom e)
      | .ok p => .ok (.custom p []))
  | .nil => ([], .error .panicked)

/-- The loop of `compositeExpectation.Predicate` (`expectation.composite.go` 123-130). -/
def Expectation.buildAll (s : PScope) :
    List Expectation → List (String × Nat) × Except BuildErr (List Pred)
  | [] => ([], .ok [])
  | e :: es =>
    match e.build s with
    | (l, .error e) => (l, .error e)
    | (l, .ok p) =>
      match Expectation.buildAll s es with
      | (l', .error e) => (l ++ l', .error e)
      | (l', .ok ps) => (l ++ l', .ok (p :: ps))

end

mutual

/-- `Predicate.Notify` (`expectation.message.go` 94, `messagetype.go` 93, `messagematch.go` 181,
`composite.go` 148, `not.go` 43, `repeat.go` 82, `satisfy.go` 70). -/
def Pred.notify (s : PScope) (f : Fact) : Pred → Pred
  | .message p => .message (p.notify s f)
  | .type p => .type (p.notify s f)
  | .matching p => .matching (p.notify s f)
  | .composite k n ps => .composite k n (Pred.notifyAll s f ps)
  | .not p => .not (p.notify s f)
  | .repeatedly c ps => .repeatedly c (Pred.notifyAll s f ps)
  | .satisfy p => .satisfy { p with facts := p.facts ++ [f] }
  | .custom p fs => .custom p (fs ++ [f])

/-- `for _, c := range p.children { c.Notify(f) }` (`expectation.composite.go` 148-152,
`repeat.go` 82-86). -/
def Pred.notifyAll (s : PScope) (f : Fact) : List Pred → List Pred
  | [] => []
  | p :: ps => p.notify s f :: Pred.notifyAll s f ps

end

mutual

/-- `Predicate.Ok` (`expectation.message.go` 117, `messagetype.go` 103, `messagematch.go` 245,
`composite.go` 154, `not.go` 47, `repeat.go` 88, `satisfy.go` 74). -/
def Pred.ok : Pred → Bool
  | .message p => p.ok
  | .type p => p.ok
  | .matching p => p.ok
  | .composite k n ps => (k.pred n (Pred.countOk ps)).2
  | .not p => !p.ok
  | .repeatedly _ ps => Pred.allOk ps
  | .satisfy p => p.t.ok
  | .custom p fs => p.ok fs

/-- The loop of `(*compositePredicate).ok` (`expectation.composite.go` 186-196). -/
def Pred.countOk : List Pred → Nat
  | [] => 0
  | p :: ps => (if p.ok then 1 else 0) + Pred.countOk ps

/-- `(*repeatPredicate).Ok` (`expectation.repeat.go` 88-96). -/
def Pred.allOk : List Pred → Bool
  | [] => true
  | p :: ps => if p.ok then Pred.allOk ps else false

end

mutual

/-- `Predicate.Done`; the second component is the panic that comes out of it
(`expectation.message.go` 121, `messagetype.go` 107, `messagematch.go` 249, `composite.go` 159,
`not.go` 51, `repeat.go` 98, `satisfy.go` 78). -/
def Pred.done : Pred → Pred × Option String
  | .message p => (.message p, none)
  | .type p => (.type p, none)
  | .matching p => (.matching p.done, none)
  | .composite k n ps =>
    match Pred.doneAll ps with
    | (ps, v) => (.composite k n ps, v)
  | .not p =>
    match p.done with
    | (p, v) => (.not p, v)
  | .repeatedly c ps =>
    match Pred.doneAll ps with
    | (ps, v) => (.repeatedly c ps, v)
  | .satisfy p =>
    match satDone (p.fn p.facts) p.t with
    | (t, v) => (.satisfy { p with t := t }, v)
  | .custom p fs => (.custom p fs, p.crash fs)

/-- `for _, c := range p.children { c.Done() }` (`expectation.composite.go` 159-163, `repeat.go`
98-102). -/
def Pred.doneAll : List Pred → List Pred × Option String
  | [] => ([], none)
  | p :: ps =>
    match p.done with
    | (p, some v) => (p :: ps, some v)
    | (p, none) =>
      match Pred.doneAll ps with
      | (ps, v) => (p :: ps, v)

end

/-- The loop of `(*repeatPredicate).Report` (`expectation.repeat.go` 116-134) over the verdicts
and reports of the children: the number of failures, the index and the report of the first. -/
def repeatScan : Nat → List (Bool × Report) → Nat × Nat × List Report → Nat × Nat × List Report
  | _, [], a => a
  | i, (ok, r) :: cs, (count, shown, reps) =>
    repeatScan (i + 1) cs <|
      if ok then (count, shown, reps)
      else if count = 0 then (count + 1, i, reps ++ [r])
      else (count + 1, shown, reps)

mutual

/-- `Predicate.Report` (`expectation.message.go` 124, `messagetype.go` 110, `messagematch.go` 255,
`composite.go` 165, `not.go` 55, `repeat.go` 104, `satisfy.go` 96). -/
def Pred.report (ctx : RCtx) : Pred → Report
  | .message p => p.report ctx
  | .type p => p.report ctx
  | .matching p => p.report ctx
  | .composite k n ps =>
    let ctx := { ctx with inverted := ctx.inverted != k.inverted }
    { treeOk := ctx.treeOk, ok := (k.pred n (Pred.countOk ps)).2, criteria := k.criteria,
      outcome := (k.pred n (Pred.countOk ps)).1, subReports := (Pred.reportAll ctx ps).map Prod.snd }
  | .not p =>
    { treeOk := ctx.treeOk, ok := !p.ok,
      criteria := "do not " ++ (p.report { ctx with inverted := !ctx.inverted }).criteria }
  | .repeatedly c ps =>
    match repeatScan 0 (Pred.reportAll ctx ps) (0, 0, []) with
    | (count, shown, reps) =>
      if count = 0 then { treeOk := ctx.treeOk, ok := true, criteria := c, subReports := reps }
      else
        { treeOk := ctx.treeOk, ok := false, criteria := c,
          outcome := toString count ++ " of " ++ toString ps.length ++
            " iteration(s) failed, iteration #" ++ toString shown ++ " shown",
          subReports := reps }
  | .satisfy p => p.report ctx
  | .custom p fs => p.report ctx fs

/-- The verdicts and reports of the children (`expectation.composite.go` 165-184, `repeat.go`
104-147). -/
def Pred.reportAll (ctx : RCtx) : List Pred → List (Bool × Report)
  | [] => []
  | p :: ps => (p.ok, p.report ctx) :: Pred.reportAll ctx ps

end

/-- Notify a predicate of facts one after the other (`expectation.go` 23-45). -/
def Pred.observe (s : PScope) (p : Pred) (fs : List Fact) : Pred :=
  fs.foldl (fun p f => p.notify s f) p

end Verif
