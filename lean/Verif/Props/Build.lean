import Verif.Build
import Verif.Props.Dispatch
import Verif.Props.Expect
import Verif.Shift
import Verif.Demo

/-!
# Making actions, expectations and tests (C96-C98)
-/

namespace Verif

variable {W R : Type}

/-! ## Specification -/

/-- The name of the function. -/
def AdjCall.name : AdjCall → String
  | .toTime _ => "ToTime"
  | .byDuration _ => "ByDuration"

def ActionCall.name : ActionCall W → String
  | .executeCommand _ => "ExecuteCommand"
  | .recordEvent _ => "RecordEvent"
  | .advanceTime _ => "AdvanceTime"
  | .call .. => "Call"

def ExpCall.name : ExpCall → String
  | .toExecuteCommand _ => "ToExecuteCommand"
  | .toRecordEvent _ => "ToRecordEvent"
  | .toExecuteCommandType _ => "ToExecuteCommandType"
  | .toRecordEventType _ => "ToRecordEventType"
  | .toExecuteCommandOfType _ => "ToExecuteCommandOfType"
  | .toRecordEventOfType _ => "ToRecordEventOfType"
  | .matching false false .. => "ToExecuteCommandMatching"
  | .matching true false .. => "ToOnlyExecuteCommandsMatching"
  | .matching false true .. => "ToRecordEventMatching"
  | .matching true true .. => "ToOnlyRecordEventsMatching"
  | .composite .allOf _ => "AllOf"
  | .composite .anyOf _ => "AnyOf"
  | .composite .noneOf _ => "NoneOf"
  | .not _ => "Not"
  | .toRepeatedly .. => "ToRepeatedly"
  | .toSatisfy .. => "ToSatisfy"

/-- A message that is there, and valid. -/
def Good (m : Option Message) : Prop := ∃ x, m = some x ∧ x.invalid = none

/-- Something can be made of these arguments. -/
def AdjCall.Usable : AdjCall → Prop
  | .toTime _ => True
  | .byDuration d => 0 ≤ d

def ActionCall.Usable : ActionCall W → Prop
  | .executeCommand m => Good m
  | .recordEvent m => Good m
  | .advanceTime a => a.isSome
  | .call fn _ => fn.isSome

def ExpCall.Usable : ExpCall → Prop
  | .toExecuteCommand m => Good m
  | .toRecordEvent m => Good m
  | .toExecuteCommandType _ => True
  | .toRecordEventType _ => True
  | .toExecuteCommandOfType m => m.isSome
  | .toRecordEventOfType m => m.isSome
  | .matching _ _ _ fn _ => fn.isSome
  | .composite _ es => es ≠ [] ∧ ∀ e ∈ es, e.isNil = false
  | .not e => e.isNil = false
  | .toRepeatedly desc n f => f.isSome ∧ 1 ≤ n ∧ desc ≠ ""
  | .toSatisfy desc fn => fn.isSome ∧ desc ≠ ""

/-- The panic says which function it comes from. -/
def Rejection.Names (n : String) : Rejection → Prop
  | .text s => ∃ rest, s = n ++ "(" ++ rest
  | .nilDeref => False

/-- The whole of the claim, for one function: it panics iff it cannot make anything of its arguments, and
says who is speaking. -/
def Careful {α : Type} (name : String) (usable : Prop) (made : Except Rejection α) : Prop :=
  (usable → ∃ a, made = .ok a) ∧ (¬ usable → ∃ r, made = .error r ∧ r.Names name)

/-- A nil expectation among those given. -/
def ExpCall.GivenNil : ExpCall → Prop
  | .composite _ es => ∃ e ∈ es, e.isNil = true
  | .not e => e.isNil = true
  | _ => False

/-- The expectations given (those that a factory returns, if it returns any). -/
def ExpCall.Given : ExpCall → Expectation → Prop
  | .composite _ es, x => x ∈ es
  | .not e, x => x = e
  | .toRepeatedly _ _ (some f), x => x.isNil = false ∧ ∃ i, x = f i
  | _, _ => False

/-- Expectations that the functions of the API make of usable arguments and of such expectations, and
those written by users. -/
inductive Constructed (q : Quote) : Expectation → Prop where
  | custom (c : String) (mk : PScope → Except String CustomPred) : Constructed q (.custom c mk)
  | made (c : ExpCall) (e : Expectation) (usable : c.Usable)
      (given : ∀ x, c.Given x → Constructed q x) (make : c.make q = .ok e) : Constructed q e

/-! ## C96 -/

/-- **C96 (adjustments).** -/
theorem C96_adjustments (q : Quote) (c : AdjCall) :
    Careful c.name c.Usable (c.make q : Except Rejection (Adjustment W)) := by
  cases c with
  | toTime t => exact ⟨fun _ => ⟨_, rfl⟩, fun h => absurd trivial h⟩
  | byDuration d =>
    refine ⟨fun h => ?_, fun h => ?_⟩
    · exact ⟨_, if_neg (by simpa [AdjCall.Usable] using h)⟩
    · refine ⟨_, if_pos (by simp only [AdjCall.Usable] at h; omega), ?_⟩
      exact ⟨q.duration d ++ "): duration must not be negative", by simp only [AdjCall.name, String.append_assoc]; rfl⟩

theorem good_some {m : Message} : Good (some m) ↔ m.invalid = none := by
  simp [Good]

theorem not_good_none : ¬ Good none := by simp [Good]

/-- **C96 (actions, partly).**  The exception: `ExecuteCommand()` given an invalid message. -/
theorem C96_actions_partial (c : ActionCall W)
    (hc : ∀ m, c = .executeCommand (some m) → m.invalid = none) : Careful c.name c.Usable c.make := by
  cases c with
  | executeCommand m =>
    cases m with
    | none => exact ⟨fun h => absurd h not_good_none, fun _ => ⟨_, rfl, "<nil>): message must not be nil", rfl⟩⟩
    | some m =>
      have hm := hc m rfl
      refine ⟨fun _ => ⟨.dispatch m, by simp only [ActionCall.make, hm]⟩, fun h => ?_⟩
      exact absurd (good_some.2 hm) h
  | recordEvent m =>
    cases m with
    | none => exact ⟨fun h => absurd h not_good_none, fun _ => ⟨_, rfl, "<nil>): message must not be nil", rfl⟩⟩
    | some m =>
      refine ⟨fun h => ?_, fun h => ?_⟩
      · have hm := good_some.1 h
        exact ⟨.dispatch m, by simp only [ActionCall.make, hm]⟩
      · cases hm : m.invalid with
        | none => exact absurd (good_some.2 hm) h
        | some e =>
          refine ⟨.text ("RecordEvent(" ++ m.type.name ++ "): " ++ e), by simp only [ActionCall.make, hm],
            m.type.name ++ "): " ++ e, ?_⟩
          simp only [ActionCall.name, String.append_assoc]; rfl
  | advanceTime a =>
    cases a with
    | none => exact ⟨nofun, fun _ => ⟨_, rfl, "<nil>): adjustment must not be nil", rfl⟩⟩
    | some a => exact ⟨fun _ => ⟨_, rfl⟩, fun h => absurd rfl h⟩
  | call fn os =>
    cases fn with
    | none => exact ⟨nofun, fun _ => ⟨_, rfl, "<nil>): function must not be nil", rfl⟩⟩
    | some fn => exact ⟨fun _ => ⟨_, rfl⟩, fun h => absurd rfl h⟩

/-- **C96 is false of actions**: `ExecuteCommand()` panics with the name of another function. -/
theorem C96_actions_fails : ∃ c : ActionCall W, ¬ Careful c.name c.Usable c.make := by
  refine ⟨.executeCommand (some ⟨⟨.command, "C"⟩, "", some "bad"⟩), fun h => ?_⟩
  obtain ⟨r, h1, h2⟩ := h.2 (by simp [ActionCall.Usable, Good])
  cases h1
  obtain ⟨rest, h3⟩ := h2
  have h4 := congrArg (fun s => String.toList s |>.head?) h3
  simp only [ActionCall.name, String.toList_append] at h4
  revert h4
  simp

/-- The text that `ExecuteCommand()` panics with if the command is invalid. -/
theorem C96_misnamed (m : Message) (e : Err) (h : m.invalid = some e) :
    (ActionCall.executeCommand (some m) : ActionCall W).make =
      .error (.text ("ToRecordEvent(" ++ m.type.name ++ "): " ++ e)) := by
  simp only [ActionCall.make, h]

/-- **C96 (expectations, partly).**  The exception: a nil expectation among those given. -/
theorem C96_expectations_partial (q : Quote) (c : ExpCall) (hc : ¬ c.GivenNil) :
    Careful c.name c.Usable (c.make q) ∧ ∀ e, c.make q = .ok e → e.isNil = false := by
  cases c with
  | toExecuteCommand m =>
    cases m with
    | none =>
      exact ⟨⟨fun h => absurd h not_good_none, fun _ => ⟨_, rfl, "<nil>): message must not be nil", rfl⟩⟩, nofun⟩
    | some m =>
      cases hm : m.invalid with
      | none =>
        simp only [ExpCall.make, hm]
        exact ⟨⟨fun _ => ⟨_, rfl⟩, fun h => absurd (good_some.2 hm) h⟩, fun e he => by cases he; rfl⟩
      | some e =>
        simp only [ExpCall.make, hm]
        refine ⟨⟨fun h => ?_, fun h => ⟨_, rfl, m.type.name ++ "): " ++ e, ?_⟩⟩, nofun⟩
        · rw [good_some.1 h] at hm; cases hm
        · simp only [ExpCall.name, String.append_assoc]; rfl
  | toRecordEvent m =>
    cases m with
    | none =>
      exact ⟨⟨fun h => absurd h not_good_none, fun _ => ⟨_, rfl, "<nil>): message must not be nil", rfl⟩⟩, nofun⟩
    | some m =>
      cases hm : m.invalid with
      | none =>
        simp only [ExpCall.make, hm]
        exact ⟨⟨fun _ => ⟨_, rfl⟩, fun h => absurd (good_some.2 hm) h⟩, fun e he => by cases he; rfl⟩
      | some e =>
        simp only [ExpCall.make, hm]
        refine ⟨⟨fun h => ?_, fun h => ⟨_, rfl, m.type.name ++ "): " ++ e, ?_⟩⟩, nofun⟩
        · rw [good_some.1 h] at hm; cases hm
        · simp only [ExpCall.name, String.append_assoc]; rfl
  | toExecuteCommandType t => exact ⟨⟨fun _ => ⟨_, rfl⟩, fun h => absurd trivial h⟩, fun e he => by cases he; rfl⟩
  | toRecordEventType t => exact ⟨⟨fun _ => ⟨_, rfl⟩, fun h => absurd trivial h⟩, fun e he => by cases he; rfl⟩
  | toExecuteCommandOfType m =>
    cases m with
    | none => exact ⟨⟨nofun, fun _ => ⟨_, rfl, "<nil>): message must not be nil", rfl⟩⟩, nofun⟩
    | some m => exact ⟨⟨fun _ => ⟨_, rfl⟩, fun h => absurd rfl h⟩, fun e he => by cases he; rfl⟩
  | toRecordEventOfType m =>
    cases m with
    | none => exact ⟨⟨nofun, fun _ => ⟨_, rfl, "<nil>): message must not be nil", rfl⟩⟩, nofun⟩
    | some m => exact ⟨⟨fun _ => ⟨_, rfl⟩, fun h => absurd rfl h⟩, fun e he => by cases he; rfl⟩
  | matching only event T fn loc =>
    cases fn with
    | none =>
      refine ⟨⟨nofun, fun _ => ⟨_, rfl, "<nil>): function must not be nil", ?_⟩⟩, nofun⟩
      cases only <;> cases event <;> rfl
    | some fn => exact ⟨⟨fun _ => ⟨_, rfl⟩, fun h => absurd rfl h⟩, fun e he => by cases he; rfl⟩
  | composite k es =>
    have hn : ∀ e ∈ es, e.isNil = false := by
      intro e he
      cases h : e.isNil with
      | false => rfl
      | true => exact absurd ⟨e, he, h⟩ hc
    match es, hn with
    | [], _ =>
      refine ⟨⟨fun h => absurd rfl h.1, fun _ => ⟨_, rfl, "): at least one child expectation must be provided", ?_⟩⟩, nofun⟩
      cases k <;> rfl
    | [e], hn =>
      have h1 := hn e (by simp)
      simp only [ExpCall.make, h1, Bool.false_eq_true, ↓reduceIte]
      refine ⟨⟨fun _ => ?_, fun h => absurd ⟨by simp, hn⟩ h⟩, fun x hx => ?_⟩
      · split <;> exact ⟨_, rfl⟩
      · revert hx
        split
        · intro hx; cases hx; rfl
        · intro hx; cases hx; exact h1
    | e :: e' :: es, hn =>
      exact ⟨⟨fun _ => ⟨_, rfl⟩, fun h => absurd ⟨by simp, hn⟩ h⟩, fun x hx => by cases hx; rfl⟩
  | not e =>
    have h1 : e.isNil = false := by
      cases h : e.isNil with
      | false => rfl
      | true => exact absurd h hc
    simp only [ExpCall.make, h1, Bool.false_eq_true, ↓reduceIte]
    exact ⟨⟨fun _ => ⟨_, rfl⟩, fun h => absurd h1 h⟩, fun x hx => by cases hx; rfl⟩
  | toRepeatedly desc n f =>
    cases f with
    | none =>
      refine ⟨⟨fun h => (by cases h.1), fun _ => ⟨_, rfl, q.str desc ++ (", " ++ (toString n ++
        ", <nil>): function must not be nil")), ?_⟩⟩, nofun⟩
      simp only [ExpCall.name, String.append_assoc]; rfl
    | some f =>
      by_cases h1 : n < 1
      · simp only [ExpCall.make, if_pos h1]
        refine ⟨⟨fun h => by have := h.2.1; omega, fun _ => ⟨_, rfl, q.str desc ++ (", " ++ (toString n ++
          ", <func>): n must be 1 or greater")), ?_⟩⟩, nofun⟩
        simp only [ExpCall.name, String.append_assoc]; rfl
      · by_cases h2 : desc = ""
        · simp only [ExpCall.make, if_neg h1, if_pos h2]
          refine ⟨⟨fun h => absurd h2 h.2.2, fun _ => ⟨_, rfl, q.str desc ++ (", " ++ (toString n ++
            ", <func>): description must not be empty")), ?_⟩⟩, nofun⟩
          simp only [ExpCall.name, String.append_assoc]; rfl
        · simp only [ExpCall.make, if_neg h1, if_neg h2]
          exact ⟨⟨fun _ => ⟨_, rfl⟩, fun h => absurd ⟨rfl, by omega, h2⟩ h⟩, fun e he => by cases he; rfl⟩
  | toSatisfy desc fn =>
    cases fn with
    | none =>
      refine ⟨⟨fun h => (by cases h.1), fun _ => ⟨_, rfl, q.str desc ++ ", <nil>): function must not be nil", ?_⟩⟩, nofun⟩
      simp only [ExpCall.name, String.append_assoc]; rfl
    | some f =>
      by_cases h2 : desc = ""
      · simp only [ExpCall.make, if_pos h2]
        refine ⟨⟨fun h => absurd h2 h.2, fun _ => ⟨_, rfl, q.str desc ++
          ", <func>): description must not be empty", ?_⟩⟩, nofun⟩
        simp only [ExpCall.name, String.append_assoc]; rfl
      · simp only [ExpCall.make, if_neg h2]
        exact ⟨⟨fun _ => ⟨_, rfl⟩, fun h => absurd ⟨rfl, h2⟩ h⟩, fun e he => by cases he; rfl⟩

/-- **C96 is false of expectations**: `AllOf()` and `AnyOf()` do not look at their children (given nil they
return nil), `Not()` dereferences a nil pointer. -/
theorem C96_expectations_fails (q : Quote) :
    (∀ k, k ≠ .noneOf → (ExpCall.composite k [.nil]).make q = .ok .nil ∧
      ¬ Careful (ExpCall.composite k [.nil]).name (ExpCall.composite k [.nil]).Usable
        ((ExpCall.composite k [.nil]).make q)) ∧
    ¬ Careful (ExpCall.not .nil).name (ExpCall.not .nil).Usable ((ExpCall.not .nil).make q) := by
  refine ⟨fun k hk => ?_, fun h => ?_⟩
  · have h1 : (ExpCall.composite k [.nil]).make q = .ok .nil := by
      simp only [ExpCall.make, if_neg hk]
    refine ⟨h1, fun h => ?_⟩
    obtain ⟨r, h2, -⟩ := h.2 (fun h => by simpa [Expectation.isNil] using h.2 .nil (by simp))
    rw [h1] at h2; cases h2
  · obtain ⟨r, h2, h3⟩ := h.2 nofun
    cases h2
    exact h3

/-- What the repetition makes of builds that do not panic. -/
theorem repeatLoop_calm (desc : String) (b : Nat → List (String × Nat) × Except BuildErr Pred)
    (h : ∀ i, (b i).2 ≠ .error .panicked) :
    ∀ n i, (repeatLoop desc b n i).2 ≠ .error .panicked := by
  intro n
  induction n with
  | zero => intro i; simp [repeatLoop]
  | succ n ih =>
    intro i
    have hb := h i
    simp only [repeatLoop]
    revert hb
    rcases b i with ⟨l, e | p⟩
    · intro hb
      simp only [ne_eq, Except.error.injEq] at hb ⊢
      rw [if_neg hb]; nofun
    · intro _
      have := ih (i + 1)
      revert this
      rcases repeatLoop desc b n (i + 1) with ⟨l', e | ps⟩
      · exact fun h => h
      · intro _; nofun

theorem buildAll_calm (s : PScope) : ∀ (es : List Expectation),
    (∀ e ∈ es, (e.build s).2 ≠ .error .panicked) → (Expectation.buildAll s es).2 ≠ .error .panicked
  | [], _ => by simp [Expectation.buildAll]
  | e :: es, h => by
    have h1 := h e (by simp)
    have h2 := buildAll_calm s es (fun x hx => h x (by simp [hx]))
    simp only [Expectation.buildAll]
    revert h1
    rcases e.build s with ⟨l, x | p⟩
    · exact fun h => by simpa using h
    · intro _
      revert h2
      rcases Expectation.buildAll s es with ⟨l', x | ps⟩
      · exact fun h => by simpa using h
      · intro _; nofun

theorem guard_calm (s : PScope) (t : MType) : guardImpossible s t ≠ .error .panicked := by
  unfold guardImpossible
  repeat' split
  all_goals nofun

theorem composite_calm {s : PScope} {k : CompKind} {es : List Expectation}
    (h : ∀ e ∈ es, (e.build s).2 ≠ .error .panicked) :
    ((Expectation.composite k es).build s).2 ≠ .error .panicked := by
  have := buildAll_calm s es h
  simp only [Expectation.build]
  revert this
  rcases Expectation.buildAll s es with ⟨l, x | ps⟩
  · exact fun h => by simpa using h
  · intro _; nofun

theorem message_calm (s : PScope) (m : Message) : ((Expectation.message m).build s).2 ≠ .error .panicked := by
  have := guard_calm s m.type
  simp only [Expectation.build]
  revert this
  rcases guardImpossible s m.type with x | u
  · exact fun h => by simpa using h
  · intro _; nofun

theorem type_calm (s : PScope) (t : MType) : ((Expectation.type t).build s).2 ≠ .error .panicked := by
  have := guard_calm s t
  simp only [Expectation.build]
  revert this
  rcases guardImpossible s t with x | u
  · exact fun h => by simpa using h
  · intro _; nofun

theorem Constructed.calm {q : Quote} {e : Expectation} (h : Constructed q e) (s : PScope) :
    e.isNil = false ∧ (e.build s).2 ≠ .error .panicked := by
  induction h with
  | custom c mk =>
    refine ⟨rfl, ?_⟩
    simp only [Expectation.build]
    rcases mk s with x | p <;> nofun
  | made c e usable given make ih =>
    have hnil : ¬ c.GivenNil := by
      cases c <;> try exact id
      · rintro ⟨x, hx, hn⟩
        rw [usable.2 x hx] at hn; cases hn
      · intro hn
        have : _ = false := usable
        rw [show _ = true from hn] at this; cases this
    refine ⟨(C96_expectations_partial q c hnil).2 e make, ?_⟩
    cases c with
    | toExecuteCommand m =>
      obtain ⟨x, rfl, hx⟩ := usable
      simp only [ExpCall.make, hx] at make
      cases make; exact message_calm s x
    | toRecordEvent m =>
      obtain ⟨x, rfl, hx⟩ := usable
      simp only [ExpCall.make, hx] at make
      cases make; exact message_calm s x
    | toExecuteCommandType t => cases make; exact type_calm s t
    | toRecordEventType t => cases make; exact type_calm s t
    | toExecuteCommandOfType m =>
      cases m with
      | none => cases make
      | some m => cases make; exact type_calm s m.type
    | toRecordEventOfType m =>
      cases m with
      | none => cases make
      | some m => cases make; exact type_calm s m.type
    | matching only event T fn loc =>
      cases fn with
      | none => cases make
      | some fn =>
        cases make
        have := guard_calm s T.type
        simp only [Expectation.build]
        split
        · nofun
        · revert this
          rcases guardImpossible s T.type with x | u
          · exact fun h => by simpa using h
          · intro _; nofun
    | composite k es =>
      have hb : ∀ x ∈ es, (x.build s).2 ≠ .error .panicked := fun x hx => (ih x hx).2
      match es, make, usable, hb with
      | [], make, _, _ => cases make
      | [x], make, us, hb =>
        have h1 : x.isNil = false := us.2 x (by simp)
        simp only [ExpCall.make, h1, Bool.false_eq_true, ↓reduceIte] at make
        split at make
        · cases make; exact composite_calm hb
        · cases make; exact hb _ (by simp)
      | x :: y :: es, make, _, hb => cases make; exact composite_calm hb
    | not x =>
      have h1 : x.isNil = false := usable
      simp only [ExpCall.make, h1, Bool.false_eq_true, ↓reduceIte] at make
      cases make
      have hb := (ih x rfl).2
      simp only [Expectation.build]
      revert hb
      rcases x.build s with ⟨l, y | p⟩
      · exact fun h => by simpa using h
      · intro _; nofun
    | toRepeatedly desc n f =>
      cases f with
      | none => cases make
      | some f =>
        have h1 := usable.2.1
        simp only [ExpCall.make, if_neg (show ¬ n < 1 by omega), if_neg usable.2.2] at make
        cases make
        have hb : ∀ i, (if (f i).isNil then ([], .error .nilExpectation) else (f i).build s :
            List (String × Nat) × Except BuildErr Pred).2 ≠ .error .panicked := by
          intro i
          cases hi : (f i).isNil with
          | true => simp
          | false => simpa using (ih (f i) ⟨hi, i, rfl⟩).2
        have := repeatLoop_calm desc _ hb n.toNat 0
        simp only [Expectation.build]
        revert this
        rcases repeatLoop desc _ n.toNat 0 with ⟨l, y | ps⟩
        · exact fun h => by simpa using h
        · intro _; nofun
    | toSatisfy desc fn =>
      cases fn with
      | none => cases make
      | some fn =>
        simp only [ExpCall.make, if_neg usable.2] at make
        cases make
        simp only [Expectation.build]; nofun

/-- **C96 (use).**  An `Expect()` with an expectation made of usable arguments does not panic before it has
performed the action: what the functions let pass is good for a predicate, or for an error. -/
theorem C96_use (q : Quote) {e : Expectation} (he : Constructed q e) (c : RCtx) (A : App W R) (E : TEnv W)
    (S : PScope) (k : Nat) (a : Action W) (t t' : TSt W R) (calls : List ECall) (v : PanicVal)
    (h : t.expect A E S (e.impl c) k a = (t', calls, .panicked v)) : ECall.done ∈ calls := by
  obtain ⟨h1, h2⟩ := he.calm (a.scope S)
  unfold TSt.expect at h
  simp only [Expectation.impl, h1, Bool.false_eq_true, ↓reduceIte] at h
  revert h h2
  rcases (e.build (a.scope S)).2 with x | p
  · intro h2
    cases x <;> first | exact absurd rfl h2 | (intro h; cases h)
  · intro _
    simp only
    rcases a.run A E [.observer k] (t.say (.log (a.expectLine e.caption))) with ⟨t1, o⟩
    cases o with
    | running => intro h; cases h
    | panicked v =>
      simp only
      split
      · intro h; cases h; simp
      · intro h; cases h; simp
    | done r =>
      simp only
      split
      · intro h; cases h; simp
      · cases r with
        | some r => intro h; cases h
        | none =>
          simp only [TSt.conclude]
          split
          intro h; cases h; simp

/-! ### Concrete cases -/

namespace Demo

def quote : Quote := ⟨fun s => "\"" ++ s ++ "\"", fun d => toString d ++ "ns", fun t => toString t⟩

/-- `Not(AllOf(ToExecuteCommand(...), ToRepeatedly(...)))` -/
def builtTree : ExpCall := .not (.composite .allOf
  [.message (msgC "x"), .repeatedly "do it" 2 fun _ => .type evtE])

theorem builtTree_made : Constructed quote (.not (.composite .allOf
    [.message (msgC "x"), .repeatedly "do it" 2 fun _ => .type evtE])) := by
  refine .made builtTree _ rfl (fun x hx => ?_) rfl
  cases hx
  refine .made (.composite .allOf [.message (msgC "x"), .repeatedly "do it" 2 fun _ => .type evtE]) _
    ⟨by simp, by simp [Expectation.isNil]⟩ (fun x hx => ?_) rfl
  simp only [ExpCall.Given, List.mem_cons, List.not_mem_nil, or_false] at hx
  rcases hx with rfl | rfl
  · exact .made (.toExecuteCommand (some (msgC "x"))) _ ⟨_, rfl, rfl⟩ (fun _ h => absurd h id) rfl
  · refine .made (.toRepeatedly "do it" 2 (some fun _ => .type evtE)) _ ⟨rfl, by decide, by decide⟩ ?_ rfl
    rintro x ⟨-, i, rfl⟩
    exact .made (.toRecordEventType evtE) _ trivial (fun _ h => absurd h id) rfl

end Demo

/-- Usable and unusable arguments. -/
example : (ActionCall.recordEvent (some ⟨⟨.event, "E"⟩, "", some "bad"⟩) : ActionCall Nat).Usable = False ∧
    (ActionCall.recordEvent (some ⟨⟨.event, "E"⟩, "", some "bad"⟩) : ActionCall Nat).make =
      .error (.text "RecordEvent(E): bad") ∧
    (ExpCall.toRepeatedly "x" 0 (some fun _ => .nil)).make Demo.quote =
      .error (.text "ToRepeatedly(\"x\", 0, <func>): n must be 1 or greater") ∧
    Constructed Demo.quote (.not (.composite .allOf
      [.message (Demo.msgC "x"), .repeatedly "do it" 2 fun _ => .type Demo.evtE])) := by
  refine ⟨?_, ?_, ?_, Demo.builtTree_made⟩
  · simp [ActionCall.Usable, Good]
  · rfl
  · rfl

/-! ## C97 -/

/-- The message given to a function that makes an action of a message. -/
def ActionCall.Sends : ActionCall W → Message → Prop
  | .executeCommand (some m), x => x = m ∧ m.type.kind = .command
  | .recordEvent (some m), x => x = m ∧ m.type.kind = .event
  | _, _ => False

/-- Some handler of the application consumes, or produces, messages of this type. -/
def App.Consumes (A : App W R) (t : MType) : Prop := ∃ h ∈ A.cfgs, t ∈ h.consumes
def App.Produces (A : App W R) (t : MType) : Prop := ∃ h ∈ A.cfgs, t ∈ h.produces

theorem ActionCall.sends_make {c : ActionCall W} {m : Message} {a : Action W} (hc : c.Sends m)
    (ha : c.make = .ok a) : a = .dispatch m ∧ m.invalid = none ∧ m.type.kind ≠ .timeout := by
  cases c with
  | executeCommand x =>
    cases x with
    | none => exact absurd hc id
    | some x =>
      obtain ⟨rfl, hk⟩ := hc
      simp only [ActionCall.make] at ha
      split at ha
      · cases ha
      · rename_i h; cases ha; exact ⟨rfl, h, by rw [hk]; nofun⟩
  | recordEvent x =>
    cases x with
    | none => exact absurd hc id
    | some x =>
      obtain ⟨rfl, hk⟩ := hc
      simp only [ActionCall.make] at ha
      split at ha
      · cases ha
      · rename_i h; cases ha; exact ⟨rfl, h, by rw [hk]; nofun⟩
  | advanceTime _ => exact absurd hc id
  | call _ _ => exact absurd hc id

theorem App.uses_iff (A : App W R) (t : MType) : A.uses t = true ↔ A.Consumes t ∨ A.Produces t := by
  simp only [App.uses, List.any_eq_true, Bool.or_eq_true, decide_eq_true_eq, App.Consumes, App.Produces]
  constructor
  · rintro ⟨h, hm, h1 | h1⟩
    · exact .inl ⟨h, hm, h1⟩
    · exact .inr ⟨h, hm, h1⟩
  · rintro (⟨h, hm, h1⟩ | ⟨h, hm, h1⟩)
    · exact ⟨h, hm, .inl h1⟩
    · exact ⟨h, hm, .inr h1⟩

theorem App.route_iff (A : App W R) (m : Message) : A.route m ≠ [] ↔ A.Consumes m.type := by
  rw [ne_eq, App.route, List.filter_eq_nil_iff]
  simp only [HConfig.consumes?, decide_eq_true_eq, App.Consumes]
  constructor
  · intro h
    apply Classical.byContradiction
    intro hn
    exact h (fun x hx hm => hn ⟨x, hx, hm⟩)
  · rintro ⟨h, hm, ht⟩ hn
    exact hn h hm ht

theorem dispatchLoop_extends (A : App W R) (oo : OpOpts) (n : Nat) (q : List Env) (errs : List EngErr)
    (s : Sys W R) : ∃ seg, (dispatchLoop A oo n q errs s).1.trace = s.trace ++ seg := by
  have : s = ({ s with trace := [] } : Sys W R).on s.trace := by simp [Sys.on]
  rw [this, dispatchLoop_on]
  exact ⟨_, by simp [lft, Sys.on]; rfl⟩

/-- An accepted `Dispatch()` begins by saying so. -/
theorem dispatch_begins {A : App W R} {s : Sys W R} {m : Message} {os : List OpOption} {oo : OpOpts}
    (h1 : newOpOpts A s os = .ok oo) (h2 : m.type.kind ≠ .timeout) (h3 : m.invalid = none)
    (h4 : A.route m ≠ []) (n : Nat) :
    ∃ seg, (engDispatch A n m os s).1.trace = s.trace ++
      .fact (.dispatchCycleBegun (Env.root (s.nextID + 1) m oo.now) (oo.cycle A)) :: seg := by
  rw [dispatch_accept h1 h2 h3 h4]
  simp only
  split
  · rename_i e _
    exact ⟨[.fact (.dispatchCycleCompleted (Env.root (s.nextID + 1) m oo.now) (oo.cycle A).maps [.lock e])], by simp⟩
  · obtain ⟨seg, hs⟩ := dispatchLoop_extends A oo n [Env.root (s.nextID + 1) m oo.now] []
      (({ s with nextID := s.nextID + 1 } : Sys W R).notify
        (.dispatchCycleBegun (Env.root (s.nextID + 1) m oo.now) (oo.cycle A)))
    revert hs
    rcases dispatchLoop A oo n [Env.root (s.nextID + 1) m oo.now] [] _ with ⟨s1, o⟩
    intro hs
    cases o with
    | done errs => 
      refine ⟨seg ++ [.fact (.dispatchCycleCompleted (Env.root (s.nextID + 1) m oo.now) (oo.cycle A).maps errs)], ?_⟩
      simp only [Sys.notify_trace] at hs
      simp [hs]
    | panicked v => exact ⟨seg, by simpa using hs⟩
    | running => exact ⟨seg, by simpa using hs⟩

/-- **C97 (partly).**  An action made by `ExecuteCommand()` or `RecordEvent()`, in any state of a test whose
options name handlers of the application only: if the application does not use messages of its type, the
action does nothing and returns an error that says so; if a handler consumes them, the message is dispatched:
one engine operation, the first fact of which is that the message's dispatch has begun.  (What is left is
`C97_fails`.) -/
theorem C97_partial (A : App W R) (E : TEnv W) {c : ActionCall W} {m : Message} {a : Action W}
    (hc : c.Sends m) (ha : c.make = .ok a) (extra : List OpOption) (t : TSt W R)
    (hos : namesKnown A.cfgs (t.actOpts extra)) :
    (¬ A.Consumes m.type → ¬ A.Produces m.type →
      a.run A E extra t = (t, .done (some (.unrecognised m.type)))) ∧
    (A.Consumes m.type → ∃ op env cy fs, env.msg = m ∧
      (a.run A E extra t).1.did = t.did ++ [.engine t.clock op (.dispatchCycleBegun env cy :: fs)]) := by
  obtain ⟨rfl, hv, hk⟩ := ActionCall.sends_make hc ha
  refine ⟨fun h1 h2 => ?_, fun h1 => ?_⟩
  · have : A.uses m.type = false := by
      cases h : A.uses m.type with
      | false => rfl
      | true => exact absurd ((App.uses_iff A _).1 h) (fun h => h.elim h1 h2)
    simp only [Action.run, this, Bool.false_eq_true, ↓reduceIte]
  · have hu : A.uses m.type = true := (App.uses_iff A _).2 (.inl h1)
    obtain ⟨oo, ho⟩ := newOpOpts_names.2 hos
    obtain ⟨seg, hs⟩ := dispatch_begins ho hk hv ((App.route_iff A m).2 h1) E.fuel
    refine ⟨.dispatch E.fuel m (t.actOpts extra), Env.root (t.sys.nextID + 1) m oo.now, oo.cycle A,
      factsOf seg, rfl, ?_⟩
    simp only [Action.run, hu, ↓reduceIte, TSt.engine, Op.exec]
    rw [during, hs]
    simp [factsOf]

/-- **C97 is false** of types that the application produces but does not consume: such an action panics in
the engine, though the message is good and the test knows that nothing will come of it. -/
theorem C97_fails (A : App W R) (E : TEnv W) {c : ActionCall W} {m : Message} {a : Action W}
    (hc : c.Sends m) (ha : c.make = .ok a) (extra : List OpOption) (t : TSt W R)
    (hos : namesKnown A.cfgs (t.actOpts extra)) (hp : A.Produces m.type) (hn : ¬ A.Consumes m.type) :
    (a.run A E extra t).2 = .panicked (.misuse (notConsumedText m)) := by
  obtain ⟨rfl, hv, hk⟩ := ActionCall.sends_make hc ha
  have hu : A.uses m.type = true := (App.uses_iff A _).2 (.inr hp)
  obtain ⟨oo, ho⟩ := newOpOpts_names.2 hos
  have hr : A.route m = [] := Classical.byContradiction fun h => hn ((App.route_iff A m).1 h)
  have ho' : newOpOpts A ({ t.sys with nextID := t.sys.nextID + 1 } : Sys W R) (t.actOpts extra) = .ok oo := ho
  simp only [Action.run, hu, ↓reduceIte, TSt.engine, Op.exec, engDispatch, ho', if_neg hk, hv, if_pos hr]

/-- In the demo: an event that no handler produces or consumes, a command that is consumed; and, in an
application without the projection, an event that is produced only. -/
example :
    (ActionCall.recordEvent (some ⟨Demo.evtE, "x", none⟩) : ActionCall Nat).Sends ⟨Demo.evtE, "x", none⟩ ∧
    Demo.app.Consumes Demo.evtE ∧ ¬ Demo.app.Consumes ⟨.event, "G"⟩ ∧ ¬ Demo.app.Produces ⟨.event, "G"⟩ ∧
    ({ Demo.app with cfgs := [Demo.int] } : App Nat (List String)).Produces Demo.evtF ∧
    ¬ ({ Demo.app with cfgs := [Demo.int] } : App Nat (List String)).Consumes Demo.evtF := by
  simp only [App.Consumes, App.Produces]
  exact ⟨⟨rfl, rfl⟩, by decide, by decide, by decide, by decide, by decide⟩

/-! ## C98 -/

def TestOption.startOf : TestOption W → Option Time
  | .startTimeAt t => some t
  | _ => none

def TestOption.extraOf : TestOption W → List OpOption
  | .withUnsafeOperationOptions os => os
  | _ => []

def TestOption.comparatorOf : TestOption W → Option (Option (Message → Message → Bool))
  | .withMessageComparator c => some c
  | _ => none

def TestOption.interceptorOf : TestOption W → Option (Message → IProg W)
  | .interceptCommandExecutor f => some f
  | _ => none

/-- **C98.**  A new test has a new engine; its clock, its comparator and its interceptor are those of the last
option that sets them (the system's time, the default comparator and no interceptor if there is none), and it
gives the engine the options of all `WithUnsafeOperationOptions()`, in order, after its own. -/
theorem C98_options (w : W) (now : Time) (options : List (TestOption W)) :
    let r : TSt W R × PredOpts := beginTest w now options
    r.1.sys = Sys.init w ∧ r.1.did = [] ∧ r.1.bound.isNone ∧
    r.1.clock = (lastSome TestOption.startOf options).getD now ∧
    r.1.opts = [.enableType .projection false, .enableType .integration false, .observer 0] ++
      options.flatMap TestOption.extraOf ∧
    r.1.icept = lastSome TestOption.interceptorOf options ∧
    r.2.comparator = (lastSome TestOption.comparatorOf options).getD none ∧
    r.2.matchDispatch = false := by
  have key : ∀ (options : List (TestOption W)) (x : TSt W R × PredOpts),
      let r := options.foldl (fun x o => o.apply x) x
      r.1.sys = x.1.sys ∧ r.1.did = x.1.did ∧ r.1.bound = x.1.bound ∧
      r.1.clock = (lastSome TestOption.startOf options).getD x.1.clock ∧
      r.1.opts = x.1.opts ++ options.flatMap TestOption.extraOf ∧
      r.1.icept = (lastSome TestOption.interceptorOf options).or x.1.icept ∧
      r.2.comparator = (lastSome TestOption.comparatorOf options).getD x.2.comparator ∧
      r.2.matchDispatch = x.2.matchDispatch := by
    intro options
    induction options with
    | nil => intro x; simp [lastSome]
    | cons o os ih =>
      intro x
      obtain ⟨h1, h2, h3, h4, h5, h6, h7, h8⟩ := ih (o.apply x)
      simp only [List.foldl_cons, lastSome_cons, List.flatMap_cons]
      rw [h1, h2, h3, h4, h5, h6, h7, h8]
      cases o <;>
        simp only [TestOption.apply, TestOption.startOf, TestOption.extraOf, TestOption.interceptorOf,
          TestOption.comparatorOf, Option.or_none, List.append_assoc, List.nil_append, true_and, and_true] <;>
        first
          | (cases lastSome TestOption.startOf os <;> rfl)
          | (cases lastSome TestOption.comparatorOf os <;> rfl)
          | (cases lastSome TestOption.interceptorOf os <;> rfl)
          | rfl
  have := key options
    ({ sys := Sys.init w, clock := now,
       opts := [.enableType .projection false, .enableType .integration false, .observer 0] }, ⟨none, false⟩)
  simpa [beginTest] using this

/-- A list of options of actions ends with these. -/
theorem lastSome_append {α β : Type} (f : α → Option β) (l l' : List α) :
    lastSome f (l ++ l') = (lastSome f l').or (lastSome f l) := by
  unfold lastSome
  rw [List.reverse_append, List.findSome?_append]

/-- **C98.**  What the options mean for what a new test does first, under the eyes of a predicate or not: the
engine's time is that of the last `WithCurrentTime()` among the options of the user, or else the virtual clock;
a handler takes part if it is enabled by its name; or, if no option is about its name, unless it is disabled by
its own configuration, if its type is enabled, which aggregates and processes are by default. -/
theorem C98_first (w : W) (now wall : Time) (options : List (TestOption W)) (ks : List Nat) :
    let t : TSt W R := (beginTest w now options).1
    let user := options.flatMap TestOption.extraOf
    engineTime (t.actOpts (ks.map .observer)) wall = (lastSome OpOption.timeSetting user).getD t.clock ∧
    ∀ h : HConfig, takesPart (t.actOpts (ks.map .observer)) h =
      match lastSome (OpOption.nameSetting h.name) user with
      | some b => b
      | none => !h.disabled &&
        (lastSome (OpOption.typeSetting h.htype) user).getD (h.htype = .aggregate ∨ h.htype = .process) := by
  intro t user
  have ho : t.opts = [.enableType .projection false, .enableType .integration false, .observer 0] ++ user :=
    (C98_options (R := R) w now options).2.2.2.2.1
  have hk : ∀ {β : Type} (f : OpOption → Option β), (∀ k, f (.observer k) = none) →
      lastSome f (ks.map .observer) = none := by
    intro β f hf
    unfold lastSome
    rw [List.findSome?_eq_none_iff]
    intro o h
    obtain ⟨k, -, rfl⟩ := List.mem_map.1 (List.mem_reverse.1 h)
    exact hf k
  have hall : ∀ {β : Type} (f : OpOption → Option β), (∀ k, f (.observer k) = none) →
      lastSome f (t.actOpts (ks.map .observer)) =
        (lastSome f user).or (lastSome f [.currentTime t.clock, .enableType .projection false,
          .enableType .integration false, .observer 0]) := by
    intro β f hf
    unfold TSt.actOpts
    rw [ho, ← List.cons_append, lastSome_append, hk f hf, Option.none_or, lastSome_append]
  refine ⟨?_, fun h => ?_⟩
  · unfold engineTime
    rw [hall _ (fun _ => rfl)]
    cases lastSome OpOption.timeSetting user <;> rfl
  · unfold takesPart
    rw [hall _ (fun _ => rfl), hall _ (fun _ => rfl)]
    cases lastSome (OpOption.nameSetting h.name) user with
    | some b => rfl
    | none =>
      cases lastSome (OpOption.typeSetting h.htype) user with
      | some b => rfl
      | none => cases h.htype <;> rfl

/-- Two settings of the clock, an interceptor, and options of the engine in two places. -/
example :
    let os : List (TestOption Nat) := [.startTimeAt 3, .withUnsafeOperationOptions [.enableType .integration true],
      .interceptCommandExecutor (fun _ => .ret none), .startTimeAt 5,
      .withUnsafeOperationOptions [.enableHandler "agg" false]]
    let t : TSt Nat (List String) := (beginTest 0 0 os).1
    t.clock = 5 ∧ t.opts.length = 5 ∧ t.icept.isSome ∧ takesPart (t.actOpts []) Demo.int = true ∧
    takesPart (t.actOpts []) Demo.agg = false ∧ takesPart (t.actOpts []) Demo.prj = false := by
  decide +kernel

end Verif
