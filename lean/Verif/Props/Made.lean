import Verif.Props.Build
import Verif.InflectText
import Verif.Options

/-!
# What is made of the arguments (C99, C100)
-/

namespace Verif

variable {W R : Type}

/-! ## C99 -/

/-- What a call of one of the functions that make expectations asks for, in terms of its arguments. -/
def ExpCall.Means (s : PScope) (fs : List Fact) : ExpCall → Prop
  | .toExecuteCommand m | .toRecordEvent m =>
    ∃ y, m = some y ∧ ∃ x ∈ countedIn s.opts.matchDispatch fs, x.type = y.type ∧ s.same x y = true
  | .toExecuteCommandType t | .toRecordEventType t => ∃ x ∈ countedIn s.opts.matchDispatch fs, x.type = t
  | .toExecuteCommandOfType m | .toRecordEventOfType m =>
    ∃ y, m = some y ∧ ∃ x ∈ countedIn s.opts.matchDispatch fs, x.type = y.type
  | .matching false _ T fn _ => ∃ f, fn = some f ∧
    ∃ pre x post, asked T (countedIn s.opts.matchDispatch fs) = pre ++ x :: post ∧ f pre x = .nil
  | .matching true _ T fn _ => ∃ f, fn = some f ∧
    (∀ x ∈ ofKind T.type.kind (countedIn s.opts.matchDispatch fs), T.asserts x.type = true) ∧
    ∀ pre x post, asked T (countedIn s.opts.matchDispatch fs) = pre ++ x :: post →
      f pre x = .nil ∨ f pre x = .ignore
  | .composite .allOf es => ∀ e ∈ es, Holds s fs e
  | .composite .anyOf es => ∃ e ∈ es, Holds s fs e
  | .composite .noneOf es => ∀ e ∈ es, ¬ Holds s fs e
  | .not e => ¬ Holds s fs e
  | .toRepeatedly _ n f => ∃ g, f = some g ∧ ∀ i : Nat, (i : Int) < n → Holds s fs (g i)
  | .toSatisfy _ fn => ∃ f, fn = some f ∧ (satDone (f fs) {}).1.ok = true

theorem holdAll_iff (s : PScope) (fs : List Fact) : ∀ es : List Expectation,
    HoldAll s fs es ↔ ∀ e ∈ es, Holds s fs e
  | [] => by simp [HoldAll]
  | e :: es => by simp [HoldAll, holdAll_iff s fs es]

theorem holdSome_iff (s : PScope) (fs : List Fact) : ∀ es : List Expectation,
    HoldSome s fs es ↔ ∃ e ∈ es, Holds s fs e
  | [] => by simp [HoldSome]
  | e :: es => by simp [HoldSome, holdSome_iff s fs es]

theorem ExpCall.make_holds (q : Quote) (s : PScope) (fs : List Fact) (c : ExpCall) (e : Expectation)
    (h : c.make q = .ok e) : Holds s fs e ↔ c.Means s fs := by
  cases c with
  | toExecuteCommand m =>
    cases m with
    | none => cases h
    | some m =>
      simp only [ExpCall.make] at h
      split at h <;> cases h
      simp [Holds, ExpCall.Means]
  | toRecordEvent m =>
    cases m with
    | none => cases h
    | some m =>
      simp only [ExpCall.make] at h
      split at h <;> cases h
      simp [Holds, ExpCall.Means]
  | toExecuteCommandType t => cases h; simp [Holds, ExpCall.Means]
  | toRecordEventType t => cases h; simp [Holds, ExpCall.Means]
  | toExecuteCommandOfType m => cases m <;> cases h; simp [Holds, ExpCall.Means]
  | toRecordEventOfType m => cases m <;> cases h; simp [Holds, ExpCall.Means]
  | matching only event T fn loc =>
    cases fn with
    | none => cases h
    | some fn => cases h; cases only <;> simp [Holds, ExpCall.Means]
  | composite k es =>
    match es, h with
    | [], h => cases h
    | [x], h =>
      cases k
      · cases h; simp [ExpCall.Means]
      · cases h; simp [ExpCall.Means]
      · simp only [ExpCall.make, ↓reduceIte] at h
        split at h <;> cases h
        simp [Holds, ExpCall.Means, HoldSome]
    | x :: y :: es, h =>
      cases h
      cases k
      · simp only [Holds, ExpCall.Means, holdAll_iff]
      · simp only [Holds, ExpCall.Means, holdSome_iff]
      · simp only [Holds, ExpCall.Means, holdSome_iff]
        exact ⟨fun h e he hh => h ⟨e, he, hh⟩, fun h ⟨e, he, hh⟩ => h e he hh⟩
  | not x =>
    simp only [ExpCall.make] at h
    split at h <;> cases h
    simp [Holds, ExpCall.Means]
  | toRepeatedly d n f =>
    cases f with
    | none => cases h
    | some f =>
      simp only [ExpCall.make] at h
      split at h
      · cases h
      · split at h <;> cases h
        simp only [Holds, ExpCall.Means, Option.some.injEq, exists_eq_left']
        exact ⟨fun hh i hi => hh i (by omega), fun hh i hi => hh i (by omega)⟩
  | toSatisfy d fn =>
    cases fn with
    | none => cases h
    | some fn =>
      simp only [ExpCall.make] at h
      split at h <;> cases h
      simp [Holds, ExpCall.Means]

/-- **C99.**  If an expectation comes to a verdict, it passes if and only if what was asked for by the call
that made it happened. -/
theorem C99_expectations (q : Quote) (s : PScope) (fs : List Fact) (c : ExpCall) (e : Expectation)
    (h : c.make q = .ok e) (b : Bool) (hv : e.verdict s fs = .decided b) : b = true ↔ c.Means s fs :=
  (C48_tree s fs e b hv).trans (ExpCall.make_holds q s fs c e h)

/-- The time asked for. -/
def AdjCall.target (now : Time) : AdjCall → Time
  | .toTime t => t
  | .byDuration d => now + d

/-- **C99.**  `AdvanceTime()` with what `ToTime()` or `ByDuration()` returns: the clock moves to the time asked for
and the engine ticks there, once; unless that time is in the past (it never is with `ByDuration()`), then nothing
happens and the action returns an error that quotes the adjustment. -/
theorem C99_clock (A : App W R) (E : TEnv W) (q : Quote) (c : AdjCall) (adj : Adjustment W) (a : Action W)
    (hc : c.make q = .ok adj) (ha : (ActionCall.advanceTime (some adj)).make = .ok a) (extra : List OpOption)
    (t : TSt W R) :
    (c.target t.clock < t.clock → a.run A E extra t = (t, .done (some (.reversed adj.desc)))) ∧
    (t.clock ≤ c.target t.clock → (a.run A E extra t).1.clock = c.target t.clock ∧
      ∃ f o os fs, (a.run A E extra t).1.did = t.did ++ [.engine (c.target t.clock) (.tick f o os) fs] ∧
        ∀ wall, engineTime os wall = c.target t.clock) ∧
    (∀ d, c = .byDuration d → t.clock ≤ c.target t.clock) := by
  cases ha
  have hstep : ∀ w, adj.step t.clock w = (w, .ok (c.target t.clock)) := by
    intro w
    cases c with
    | toTime x => cases hc; rfl
    | byDuration d =>
      simp only [AdjCall.make] at hc
      split at hc <;> cases hc
      rfl
  refine ⟨fun h => ?_, fun h => ?_, ?_⟩
  · simp only [Action.run, hstep, h, ↓reduceIte]
  · have h' : ¬ c.target t.clock < t.clock := by omega
    simp only [Action.run, hstep, h', ↓reduceIte]
    refine ⟨rfl, E.fuel, E.order t.sys.w, _, _, rfl, fun wall => ?_⟩
    unfold engineTime
    rw [lastSome_append]; rfl
  · rintro d rfl
    simp only [AdjCall.make] at hc
    split at hc
    · cases hc
    · simp only [AdjCall.target]; omega

/-- **C99.**  Of several interceptors given to `Call()` the last one counts. -/
theorem C99_call (fn : Option (CProg W)) (os : List (Message → IProg W)) (o : Message → IProg W) :
    (ActionCall.call fn (os ++ [o])).make = (ActionCall.call fn [o]).make ∧
    ∀ A : App W R, ∀ E f a extra t, fn = some f → (ActionCall.call fn (os ++ [o])).make = .ok a →
      a.run A E extra t = (Action.call f (some o)).run A E extra t := by
  have h : (ActionCall.call fn (os ++ [o])).make = (ActionCall.call fn [o]).make := by
    cases fn <;> simp [ActionCall.make]
  refine ⟨h, fun A E f a extra t hf ha => ?_⟩
  subst hf; rw [h] at ha; cases ha; rfl

set_option maxRecDepth 100000 in
/-- In the demo: an expectation that passes and one that fails, both made of expectations; the clock moves by
three seconds, or not back to the past. -/
example :
    (∃ e, (ExpCall.composite .noneOf [.type Demo.evtE, .type Demo.evtF]).make Demo.quote = .ok e ∧
      e.verdict (Demo.scope false) Demo.runFacts = .decided false) ∧
    (∃ e, (ExpCall.toRepeatedly "do it" 3 (some fun _ => .type Demo.evtF)).make Demo.quote = .ok e ∧
      e.verdict (Demo.scope false) Demo.runFacts = .decided true) ∧
    (AdjCall.byDuration 3).target 5 = 8 ∧ (AdjCall.toTime 3).target 5 < 5 := by
  refine ⟨⟨_, rfl, ?_⟩, ⟨_, rfl, ?_⟩, ?_, ?_⟩ <;> decide +kernel

/-! ## C100 -/

/-- "a command", "an event", ... -/
def Kind.one : Kind → String
  | .command => "a command"
  | .event => "an event"
  | .timeout => "a timeout"

/-- "executing", "recording", ... -/
def Kind.doing : Kind → String
  | .command => "executing"
  | .event => "recording"
  | .timeout => "scheduling"

/-- What the caption of an expectation should say, in terms of the arguments it is made of.  (A message that
is not there has no caption.) -/
def ExpCall.says : ExpCall → String
  | .toExecuteCommand m | .toRecordEvent m =>
    match m with
    | some m => "to " ++ m.type.kind.verb ++ " a specific '" ++ m.type.name ++ "' " ++ m.type.kind.noun
    | none => ""
  | .toExecuteCommandType t | .toRecordEventType t =>
    "to " ++ t.kind.verb ++ " " ++ t.kind.one ++ " of type " ++ t.name
  | .toExecuteCommandOfType m | .toRecordEventOfType m =>
    match m with
    | some m => "to " ++ m.type.kind.verb ++ " " ++ m.type.kind.one ++ " of type " ++ m.type.name
    | none => ""
  | .matching false _ T _ loc =>
    "to " ++ T.type.kind.verb ++ " " ++ T.type.kind.one ++ " that matches the predicate near " ++ loc
  | .matching true _ T _ loc =>
    "to only " ++ T.type.kind.verb ++ " " ++ T.type.kind.nouns ++ " that match the predicate near " ++ loc
  | .composite .noneOf [e] => "not " ++ e.caption
  | .composite _ [e] => e.caption
  | .composite .allOf es => "to meet " ++ toString es.length ++ " expectations"
  | .composite .anyOf es => "to meet at least one of " ++ toString es.length ++ " expectations"
  | .composite .noneOf es => "not to meet any of " ++ toString es.length ++ " expectations"
  | .not e => "not " ++ e.caption
  | .toRepeatedly desc _ _ => "to " ++ desc
  | .toSatisfy desc _ => "to " ++ desc

/-- The names that the caption quotes. -/
def ExpCall.quoted : ExpCall → List String
  | .toExecuteCommand m | .toRecordEvent m | .toExecuteCommandOfType m | .toRecordEventOfType m =>
    m.toList.map (·.type.name)
  | .toExecuteCommandType t | .toRecordEventType t => [t.name]
  | .matching _ _ _ _ loc => [loc]
  | _ => []

section
open Inflect

set_option maxRecDepth 100000 in
theorem caption_message (k : Kind) (n : String) (h : Plain n) :
    sprint k ("to <produce> a specific '" ++ n ++ "' <message>") =
      "to " ++ k.verb ++ " a specific '" ++ n ++ "' " ++ k.noun := by
  rw [show "to <produce> a specific '" = "to <produce> a specific " ++ "'" from by decide +kernel,
    show "' <message>" = "'" ++ " <message>" from by decide +kernel,
    show " a specific '" = " a specific " ++ "'" from by decide +kernel,
    show "' " = "'" ++ " " from by decide +kernel]
  have a : sprint k "to <produce> a specific " = "to " ++ k.verb ++ " a specific " := by
    cases k <;> decide +kernel
  have b : sprint k " <message>" = " " ++ k.noun := by cases k <;> decide +kernel
  have e := sprint_quote k "to <produce> a specific " (n ++ "'" ++ " <message>")
  rw [sprint_quote k n, plain_name k n h.1 h.2, a, b] at e
  simp only [String.append_assoc] at e ⊢
  exact e

set_option maxRecDepth 100000 in
theorem caption_type (k : Kind) (n : String) (h : Plain n) :
    sprint k ("to <produce> a <message> of type " ++ n) = "to " ++ k.verb ++ " " ++ k.one ++ " of type " ++ n := by
  have e := sprint_last k "to <produce> a <message> of type" n h (by cases k <;> decide +kernel)
  have a : sprint k "to <produce> a <message> of type" ++ " " = "to " ++ k.verb ++ " " ++ k.one ++ " of type " := by
    cases k <;> decide +kernel
  rw [← a]
  exact e

set_option maxRecDepth 100000 in
theorem caption_matching (k : Kind) (n : String) (h : Plain n) :
    sprint k ("to <produce> a <message> that matches the predicate near " ++ n) =
      "to " ++ k.verb ++ " " ++ k.one ++ " that matches the predicate near " ++ n := by
  have e := sprint_last k "to <produce> a <message> that matches the predicate near" n h
    (by cases k <;> decide +kernel)
  have a : sprint k "to <produce> a <message> that matches the predicate near" ++ " " =
      "to " ++ k.verb ++ " " ++ k.one ++ " that matches the predicate near " := by
    cases k <;> decide +kernel
  rw [← a]
  exact e

set_option maxRecDepth 100000 in
theorem caption_only (k : Kind) (n : String) (h : Plain n) :
    sprint k ("to only <produce> <messages> that match the predicate near " ++ n) =
      "to only " ++ k.verb ++ " " ++ k.nouns ++ " that match the predicate near " ++ n := by
  have e := sprint_last k "to only <produce> <messages> that match the predicate near" n h
    (by cases k <;> decide +kernel)
  have a : sprint k "to only <produce> <messages> that match the predicate near" ++ " " =
      "to only " ++ k.verb ++ " " ++ k.nouns ++ " that match the predicate near " := by
    cases k <;> decide +kernel
  rw [← a]
  exact e

set_option maxRecDepth 100000 in
theorem caption_dispatch (k : Kind) (n : String) (h : Plain n) (hw : Wordy n) :
    sprint k ("<producing> " ++ n ++ " <message>") = k.doing ++ " " ++ n ++ " " ++ k.noun := by
  have e := sprint_inside k "<producing>" n "<message>" k.noun h hw (by cases k <;> decide +kernel)
    (by cases k <;> decide +kernel) (by cases k <;> decide +kernel)
  have a : sprint k "<producing>" = k.doing := by cases k <;> decide +kernel
  rw [a] at e
  rw [← e]
  simp only [String.append_assoc]
  rfl

end

/-- **C100.**  The caption of an expectation says what was asked for, if the names it quotes are without blanks
and angle brackets. -/
theorem C100_expectations (q : Quote) (c : ExpCall) (e : Expectation) (h : c.make q = .ok e)
    (hn : ∀ n ∈ c.quoted, Inflect.Plain n) : e.caption = c.says := by
  cases c with
  | toExecuteCommand m =>
    cases m with
    | none => cases h
    | some m =>
      simp only [ExpCall.make] at h
      split at h <;> cases h
      exact caption_message _ _ (hn _ (by simp [ExpCall.quoted]))
  | toRecordEvent m =>
    cases m with
    | none => cases h
    | some m =>
      simp only [ExpCall.make] at h
      split at h <;> cases h
      exact caption_message _ _ (hn _ (by simp [ExpCall.quoted]))
  | toExecuteCommandType t => cases h; exact caption_type _ _ (hn _ (by simp [ExpCall.quoted]))
  | toRecordEventType t => cases h; exact caption_type _ _ (hn _ (by simp [ExpCall.quoted]))
  | toExecuteCommandOfType m =>
    cases m <;> cases h; exact caption_type _ _ (hn _ (by simp [ExpCall.quoted]))
  | toRecordEventOfType m =>
    cases m <;> cases h; exact caption_type _ _ (hn _ (by simp [ExpCall.quoted]))
  | matching only event T fn loc =>
    cases fn with
    | none => cases h
    | some fn =>
      cases h
      cases only
      · exact caption_matching _ _ (hn _ (by simp [ExpCall.quoted]))
      · exact caption_only _ _ (hn _ (by simp [ExpCall.quoted]))
  | composite k es =>
    match es, h with
    | [], h => cases h
    | [x], h =>
      cases k
      · cases h; rfl
      · cases h; rfl
      · simp only [ExpCall.make, ↓reduceIte] at h
        split at h <;> cases h
        rfl
    | x :: y :: es, h => cases h; cases k <;> rfl
  | not x =>
    simp only [ExpCall.make] at h
    split at h <;> cases h
    rfl
  | toRepeatedly d n f =>
    cases f with
    | none => cases h
    | some f =>
      simp only [ExpCall.make] at h
      split at h
      · cases h
      · split at h <;> cases h
        rfl
  | toSatisfy d fn =>
    cases fn with
    | none => cases h
    | some fn =>
      simp only [ExpCall.make] at h
      split at h <;> cases h
      rfl

/-- **C100.**  The caption of an action says what it does.  Names of types are without blanks and angle brackets,
and (see `C100_actions_fails`) their last word has at least three letters. -/
theorem C100_actions_partial (q : Quote) :
    (∀ (c : ActionCall W) m a, c.Sends m → c.make = .ok a → Inflect.Plain m.type.name → Inflect.Wordy m.type.name →
      a.caption = m.type.kind.doing ++ " " ++ m.type.name ++ " " ++ m.type.kind.noun) ∧
    (∀ (c : AdjCall) (adj : Adjustment W) a, c.make q = .ok adj → (ActionCall.advanceTime (some adj)).make = .ok a →
      a.caption = match c with
        | .toTime t => "advancing time to " ++ q.time t
        | .byDuration d => "advancing time by " ++ q.duration d) ∧
    (∀ fn os (a : Action W), (ActionCall.call fn os).make = .ok a → a.caption = "calling user-defined function") := by
  refine ⟨fun c m a hs ha h1 h2 => ?_, fun c adj a hc ha => ?_, fun fn os a ha => ?_⟩
  · obtain ⟨rfl, -, -⟩ := ActionCall.sends_make hs ha
    exact caption_dispatch _ _ h1 h2
  · cases ha
    cases c with
    | toTime t => cases hc; simp only [Action.caption, ← String.append_assoc]; rfl
    | byDuration d =>
      simp only [AdjCall.make] at hc
      split at hc <;> cases hc
      simp only [Action.caption, ← String.append_assoc]; rfl
  · cases fn <;> cases ha
    rfl

set_option maxRecDepth 100000 in
/-- Names of types in Go, a place in the code, and a name that is not plain. -/
example : Inflect.Plain "*bank.Transfer" ∧ Inflect.Wordy "*bank.Transfer" ∧ Inflect.Plain "transfer_test.go:12" ∧
    ¬ Inflect.Plain "a <message>" ∧
    (Expectation.type ⟨.event, "*bank.TransferStarted"⟩).caption = "to record an event of type *bank.TransferStarted" := by
  refine ⟨by decide +kernel, ⟨"*bank.Trans".toList, 'f', 'e', 'r', by decide +kernel, by decide, by decide, by decide⟩,
    by decide +kernel, by decide +kernel, ?_⟩
  simp only [Expectation.caption]
  decide +kernel

/-- **C100 is false** of a type called `pkg.a`: its name is taken for an article. -/
theorem C100_actions_fails :
    (Action.dispatch ⟨⟨.event, "pkg.a"⟩, "", none⟩ : Action W).caption = "recording pkg.an event" := by
  show Inflect.sprint _ _ = _
  decide +kernel

end Verif
