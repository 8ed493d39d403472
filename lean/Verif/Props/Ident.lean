import Verif.Ident

/-!
# Properties of message IDs

C73.
-/

namespace Verif

/-! ## Specification -/

/-- The number written in decimal by a list of characters. -/
def numberOf (cs : List Char) : Nat := cs.foldl (fun n c => 10 * n + (c.toNat - 48)) 0

/-- A canonical decimal: digits only, at least one, no superfluous leading zero. -/
def Canonical (cs : List Char) : Prop :=
  cs ≠ [] ∧ (∀ c ∈ cs, '0' ≤ c ∧ c ≤ '9') ∧ (cs.head? = some '0' → cs = ['0'])

/-! ## Lemmas -/

theorem digitChar_toNat {d : Nat} (h : d < 10) : (digitChar d).toNat = 48 + d := by
  unfold digitChar
  have : (48 + d).isValidChar := .inl (by omega)
  simp [Char.ofNat, this, Char.toNat, Char.ofNatAux]
  omega

theorem decimalDigits_lt (n : Nat) : ∀ d ∈ decimalDigits n, d < 10 := by
  induction n using Nat.strongRecOn with
  | ind n ih =>
    unfold decimalDigits
    split
    · intro d hd; rw [List.mem_singleton.1 hd]; assumption
    · intro d hd
      rcases List.mem_append.1 hd with hd | hd
      · exact ih (n / 10) (by omega) d hd
      · rw [List.mem_singleton.1 hd]; omega

theorem numberOf_digits (n : Nat) : numberOf ((decimalDigits n).map digitChar) = n := by
  induction n using Nat.strongRecOn with
  | ind n ih =>
    unfold decimalDigits
    split
    · rename_i h
      simp [numberOf, digitChar_toNat h]
    · have := ih (n / 10) (by omega)
      unfold numberOf at this ⊢
      rw [List.map_append, List.foldl_append, this]
      simp only [List.map_cons, List.map_nil, List.foldl_cons, List.foldl_nil]
      rw [digitChar_toNat (by omega)]
      omega

theorem decimalDigits_head (n : Nat) (hn : 0 < n) :
    ∃ d ds, decimalDigits n = d :: ds ∧ 0 < d := by
  induction n using Nat.strongRecOn with
  | ind n ih =>
    unfold decimalDigits
    split
    · exact ⟨n, [], rfl, hn⟩
    · obtain ⟨d, ds, h1, h2⟩ := ih (n / 10) (by omega) (by omega)
      exact ⟨d, ds ++ [n % 10], by rw [h1]; rfl, h2⟩

theorem char_le_iff (a b : Char) : a ≤ b ↔ a.toNat ≤ b.toNat := by
  rw [Char.le_def, UInt32.le_iff_toNat_le]
  rfl

theorem take_getElem (n k : Nat) (g : IDGen) (h : k < n) :
    (g.take n)[k]? = some (formatUint (g.messageID + 1 + UInt64.ofNat k)) := by
  induction n generalizing k g with
  | zero => omega
  | succ n ih =>
    unfold IDGen.take
    cases k with
    | zero => simp [IDGen.next]
    | succ k =>
      rw [List.getElem?_cons_succ, ih k g.next.1 (by omega)]
      simp only [IDGen.next]
      congr 2
      rw [UInt64.ofNat_add, UInt64.add_assoc (g.messageID + 1)]
      congr 1
      exact UInt64.add_comm _ _

/-! ## C73 -/

/-- **C73 (1).**  Every ID is a canonical decimal number. -/
theorem C73_canonical (g : IDGen) (n : Nat) : ∀ id ∈ g.take n, Canonical id.toList := by
  intro id hid
  obtain ⟨k, hk, e⟩ := List.getElem_of_mem hid
  have hk' : k < n := by
    have : ∀ (n : Nat) (g : IDGen), (g.take n).length = n := by
      intro n; induction n with
      | zero => intro g; rfl
      | succ n ih => intro g; simp [IDGen.take, ih]
    rw [this] at hk; exact hk
  have := take_getElem n k g hk'
  rw [List.getElem?_eq_getElem hk, e, Option.some.injEq] at this
  rw [this]
  generalize g.messageID + 1 + UInt64.ofNat k = x
  unfold formatUint
  rw [String.toList_ofList]
  refine ⟨?_, ?_, ?_⟩
  · unfold decimalDigits; split <;> simp
  · intro c hc
    obtain ⟨d, hd, rfl⟩ := List.mem_map.1 hc
    have hlt := decimalDigits_lt _ d hd
    have := digitChar_toNat hlt
    constructor
    · rw [char_le_iff, this]; show 48 ≤ _; omega
    · rw [char_le_iff, this]; show _ ≤ 57; omega
  · intro hh
    by_cases hz : 0 < x.toNat
    · obtain ⟨d, ds, h1, h2⟩ := decimalDigits_head _ hz
      rw [h1] at hh
      simp only [List.map_cons, List.head?_cons, Option.some.injEq] at hh
      have hlt := decimalDigits_lt x.toNat d (by rw [h1]; simp)
      have := digitChar_toNat hlt
      rw [hh] at this
      have h0 : ('0' : Char).toNat = 48 := rfl
      omega
    · have : x.toNat = 0 := by omega
      rw [this]
      unfold decimalDigits
      rfl

/-- **C73 (2).**  Distinct counter values have distinct IDs; an ID determines the counter. -/
theorem C73_distinct (a b : UInt64) : formatUint a = formatUint b ↔ a = b := by
  refine ⟨fun h => ?_, fun h => by rw [h]⟩
  have := congrArg (fun s => numberOf s.toList) h
  simp only [formatUint, String.toList_ofList, numberOf_digits] at this
  exact UInt64.toNat_inj.1 this

/-- **C73 (3).**  The IDs of the `j`-th and the `k`-th message (counting from any state of the
generator) are the same only if `j` and `k` differ by a multiple of 2^64. -/
theorem C73_repeats (g : IDGen) (n j k : Nat) (hj : j < n) (hk : k < n) :
    (g.take n)[j]? = (g.take n)[k]? ↔ j % 2 ^ 64 = k % 2 ^ 64 := by
  rw [take_getElem n j g hj, take_getElem n k g hk, Option.some.injEq, C73_distinct]
  rw [UInt64.add_right_inj]
  constructor
  · intro h
    have := congrArg UInt64.toNat h
    simpa using this
  · intro h
    apply UInt64.toNat_inj.1
    simpa using h

/-- **C73 (4).**  After a reset the IDs are 1, 2, 3, …: as long as fewer than 2^64 messages are
made, the `k`-th is the number `k`, as in `Verif.Engine`. -/
theorem C73_numbers (g : IDGen) (n k : Nat) (hk : k < n) (hn : n < 2 ^ 64) :
    ∃ id, (g.reset.take n)[k]? = some id ∧ numberOf id.toList = k + 1 := by
  refine ⟨_, take_getElem n k _ hk, ?_⟩
  simp only [formatUint, String.toList_ofList, numberOf_digits, IDGen.reset]
  rw [UInt64.toNat_add]
  simp
  omega

example : (IDGen.mk 0).take 12 = ["1", "2", "3", "4", "5", "6", "7", "8", "9", "10", "11", "12"] := by
  decide +kernel

/-- At the end of the range the generator wraps around; `"0"` is an ID. -/
example : (IDGen.mk (0 - 2)).take 3 = ["18446744073709551615", "0", "1"] := by decide +kernel

end Verif
