import Verif.ExpectSpec

/-!
# What explanations mean

The report of a failed expectation about messages explains the failure and makes suggestions.
Here is what these texts are and what they mean, in terms of the facts of the action.
-/

namespace Verif

/-! ## Words -/

/-- "an event", ... -/
def Kind.noun : Kind → String
  | .command => "command"
  | .event => "event"
  | .timeout => "timeout"

def Kind.nouns : Kind → String
  | .command => "commands"
  | .event => "events"
  | .timeout => "timeouts"

/-- "execute", "record", ... -/
def Kind.verb : Kind → String
  | .command => "execute"
  | .event => "record"
  | .timeout => "schedule"

/-- "was recorded", ... -/
def Kind.done : Kind → String
  | .command => "executed"
  | .event => "recorded"
  | .timeout => "scheduled"

/-- What application code outside of handlers uses to produce messages of the kind.  (There is
nothing for timeouts.) -/
def Kind.tool : Kind → String
  | .command => "dogma.CommandExecutor"
  | .event => "dogma.EventRecorder"
  | .timeout => "<dispatcher>"

/-! ## The situation -/

/-- The types of handlers that produce messages of a kind. -/
def producersOf : Kind → List HandlerType
  | .command => [.process]
  | .event => [.aggregate, .integration]
  | .timeout => [.process]

/-- The announcement of the last dispatch in the action. -/
def lastCycle (fs : List Fact) : Option CycleInfo :=
  (fs.filterMap (fun
    | .dispatchCycleBegun _ c => some c
    | _ => none)).getLast?

/-- The handlers that were given a message. -/
def busyIn (fs : List Fact) : List HConfig :=
  fs.filterMap fun
    | .handlingBegun h _ => some h
    | _ => none

/-- Only the first of the entries with the same name. -/
def firstByName : List (String × HandlerType) → List (String × HandlerType)
  | [] => []
  | x :: xs => x :: (firstByName xs).filter (fun y => decide (y.1 ≠ x.1))

/-- The handlers that were given a message and could have produced one of the kind, in the order
of their first engagement. -/
def engagedIn (k : Kind) (fs : List Fact) : List (String × HandlerType) :=
  firstByName (((busyIn fs).filter (fun h => decide (h.htype ∈ producersOf k))).map
    (fun h => (h.name, h.htype)))

/-- The messages of a type that count as produced. -/
def alikeIn (md : Bool) (t : MType) (fs : List Fact) : List Env :=
  (fs.filterMap (Fact.counts md)).filter (fun e => decide (e.msg.type = t))

/-! ## Explanations -/

/-- What a report gives as the reason for the failure. -/
inductive Why where
  | allDisabled
  | notEngaged
  | noMessages
  | noneOfKind
  | nothingMatched
  | handlersNoMatch
  | similarBy (name : String) (t : HandlerType)
  | similarOutside
  deriving DecidableEq, Repr

/-- The explanation as it is in the report.  The name of a handler passes through the inflection of
the text, see `plain_name`. -/
def Why.text (k : Kind) : Why → String
  | .allDisabled => "no relevant handler types were enabled"
  | .notEngaged => "no relevant handlers (" ++
      String.intercalate " or " ((producersOf k).map HandlerType.str) ++ ") were engaged"
  | .noMessages => "no messages were produced at all"
  | .noneOfKind => "no " ++ k.nouns ++ " were " ++ k.done ++ " at all"
  | .nothingMatched => "nothing " ++ k.done ++ " a matching " ++ k.noun
  | .handlersNoMatch => "none of the engaged handlers " ++ k.done ++ " a matching " ++ k.noun
  | .similarBy n t => "a similar " ++ k.noun ++ " was " ++ k.done ++ " by the '" ++
      Inflect.sprint k n ++ "' " ++ t.str ++ " message handler"
  | .similarOutside => "a similar " ++ k.noun ++ " was " ++ k.done ++ " via a " ++ k.tool

/-- The dispatch was announced with these handler types enabled: is there one that could produce
messages of the kind? -/
def CycleInfo.helps (c : CycleInfo) (k : Kind) : Bool :=
  (producersOf k).any (fun t => decide (c.types.lookup t = some true))

/-- What the explanation says, when no message of the expected type (if there is one) was
produced.  `md` says whether messages given to the engine count (in `Call()`). -/
def Why.TrueOf (md : Bool) (k : Kind) (fs : List Fact) : Why → Prop
  | .allDisabled => md = false ∧ ∃ c, lastCycle fs = some c ∧ c.helps k = false
  | .notEngaged => md = false ∧ (∃ c, lastCycle fs = some c ∧ c.helps k = true) ∧
      ∀ h ∈ busyIn fs, h.htype ∉ producersOf k
  | .noMessages => countedIn md fs = [] ∧ (md = true ∨ lastCycle fs = none ∨
      ((∃ c, lastCycle fs = some c ∧ c.helps k = true) ∧ ∃ h ∈ busyIn fs, h.htype ∈ producersOf k))
  | .noneOfKind => countedIn md fs ≠ [] ∧ ofKind k (countedIn md fs) = [] ∧
      (md = true ∨ lastCycle fs = none ∨
      ((∃ c, lastCycle fs = some c ∧ c.helps k = true) ∧ ∃ h ∈ busyIn fs, h.htype ∈ producersOf k))
  | .nothingMatched => md = true ∧ ofKind k (countedIn md fs) ≠ []
  | .handlersNoMatch => md = false ∧ ofKind k (countedIn md fs) ≠ [] ∧
      (lastCycle fs = none ∨
      ((∃ c, lastCycle fs = some c ∧ c.helps k = true) ∧ ∃ h ∈ busyIn fs, h.htype ∈ producersOf k))
  | _ => False

/-! ## Suggestions -/

/-- The suggestions a report makes. -/
inductive Hint where
  | enable (t : HandlerType)
  | routing
  | logic (name : String) (t : HandlerType)
  | caller
  | content
  | matcher
  | ignoring (n : Nat)
  deriving DecidableEq, Repr

/-- The suggestion as it is in the report. -/
def Hint.text (k : Kind) : Hint → String
  | .enable t => "enable " ++ t.str ++ " handlers using the EnableHandlerType() option"
  | .routing => "check the application's routing configuration"
  | .logic n t => "verify the logic within the '" ++ n ++ "' " ++ t.str ++ " message handler"
  | .caller => "verify the logic within the code that uses the " ++ k.tool
  | .content => "check the content of the message"
  | .matcher => "verify the logic within the predicate function"
  | .ignoring n => "verify the logic within the predicate function, it ignored " ++
      Inflect.sprint k (toString n ++ " <messages>")

/-- Items of a list in a report. -/
def bullets (l : List String) : String := String.join (l.map (fun x => "• " ++ x ++ "\n"))

/-- Handler types that could have produced a message of the kind, but are not enabled. -/
def disabledHints (k : Kind) (fs : List Fact) : List Hint :=
  match lastCycle fs with
  | some c => ((producersOf k).filter (fun t => decide (c.types.lookup t ≠ some true))).map .enable
  | none => []

/-- The suggestions that go with an explanation. -/
def hintsFor (md : Bool) (k : Kind) (fs : List Fact) : Why → List Hint
  | .allDisabled => disabledHints k fs
  | .notEngaged => disabledHints k fs ++ [.routing]
  | .similarBy _ _ | .similarOutside => [.content]
  | _ => disabledHints k fs ++ (engagedIn k fs).map (fun x => .logic x.1 x.2) ++
      (if md then [.caller] else [])

/-- The section with the suggestions. -/
def suggestions (k : Kind) (hs : List Hint) : String × String :=
  ("Suggestions", bullets (hs.map (Hint.text k)))

/-! ## Matching -/

/-- The failures: type of the message and error, in order. -/
def failedIn (T : MatchType) (fn : List Message → Message → MatchRes) (ex : Bool)
    (ms : List Message) : List (MType × String) :=
  ((ofKind T.type.kind ms).zip (answers T fn ex ms)).filterMap fun x =>
    match x.2 with
    | .err e => some (x.1.type, e)
    | _ => none

/-- What the list of failures says about those with the same type and error. -/
def failureText (t : MType) (e : String) (n : Nat) : String :=
  t.name ++ ": " ++ e ++ (if n > 1 then " (repeated " ++ toString n ++ " times)" else "")

/-- The section with the failures: different failures, in the order in which they occurred first,
each with the number of its occurrences. -/
def failures (l : List (MType × String)) : List (String × String) :=
  if l = [] then []
  else [("Failed Matches", bullets (l.eraseDups.map fun x => failureText x.1 x.2 (l.count x)))]

/-- The suggestions about the predicate function. -/
def matcherHints (l : List (MType × String)) (ignored : Nat) : List Hint :=
  if ignored > 0 then [.ignoring ignored] else if l = [] then [] else [.matcher]

/-- The answers the user's function gave. -/
def given (T : MatchType) (fn : List Message → Message → MatchRes) (ms : List Message) :
    List MatchRes :=
  answersFrom T fn false [] (asked T ms)

/-- The messages of the kind that are of another type. -/
def unasked (T : MatchType) (ms : List Message) : List Message :=
  (ofKind T.type.kind ms).filter (fun m => !T.asserts m.type)

end Verif
