import Verif.Compare

/-!
# Comparison of messages (C72)
-/

namespace Verif

variable {V P : Type}

/-- **C72.**  The default comparison is protobuf equality if both values are protobuf messages and
deep equality otherwise. -/
theorem C72_choice (g : GoEq V P) (a b : V) :
    (∀ pa pb, g.asProto a = some pa → g.asProto b = some pb → equal g a b = g.protoEqual pa pb) ∧
    (g.asProto a = none ∨ g.asProto b = none → equal g a b = g.deepEqual a b) := by
  unfold equal
  constructor
  · intro pa pb ha hb; rw [ha, hb]
  · rintro (h | h)
    · rw [h]
    · cases g.asProto a <;> simp [h]

/-- **C72.**  It is reflexive and symmetric if those are. -/
theorem C72_refl_symm (g : GoEq V P) :
    ((∀ p, g.protoEqual p p = true) → (∀ v, g.deepEqual v v = true) →
      ∀ a, equal g a a = true) ∧
    ((∀ p q, g.protoEqual p q = g.protoEqual q p) → (∀ v w, g.deepEqual v w = g.deepEqual w v) →
      ∀ a b, equal g a b = equal g b a) := by
  refine ⟨fun hp hd a => ?_, fun hp hd a b => ?_⟩
  · unfold equal
    cases h : g.asProto a with
    | none => exact hd a
    | some p => exact hp p
  · unfold equal
    cases ha : g.asProto a with
    | none => cases hb : g.asProto b <;> exact hd a b
    | some p =>
      cases hb : g.asProto b with
      | none => exact hd a b
      | some q => exact hp p q

namespace Demo

/-- Values: numbers are protobuf messages (equal modulo 10), strings are not. -/
def modTen : GoEq (Nat ⊕ String) Nat where
  asProto := fun | .inl n => some n | .inr _ => none
  protoEqual := fun a b => a % 10 == b % 10
  deepEqual := fun a b => decide (a = b)

example : equal modTen (.inl 3) (.inl 13) = true ∧ equal modTen (.inl 3) (.inl 4) = false ∧
    equal modTen (.inl 3) (.inr "3") = false ∧ equal modTen (.inr "a") (.inr "a") = true := by
  decide
example : (∀ p, modTen.protoEqual p p = true) ∧ (∀ v, modTen.deepEqual v v = true) ∧
    (∀ p q, modTen.protoEqual p q = modTen.protoEqual q p) ∧
    (∀ v w, modTen.deepEqual v w = modTen.deepEqual w v) := by
  refine ⟨by simp [modTen], by simp [modTen], fun p q => ?_, fun v w => ?_⟩
  · simp only [modTen]; exact BEq.comm
  · simp only [modTen]; exact decide_eq_decide.2 eq_comm

end Demo

end Verif
