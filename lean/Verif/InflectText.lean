import Verif.ExplainRefine
import Verif.Props.Inflect

/-!
# Inflection of texts that contain names

Inflected texts contain names of types and places in the code.  Names without blanks and angle brackets are
not changed, and do not change what is around them (with one exception, see `Wordy`).
-/

namespace Verif.Inflect

/-- No blanks, no angle brackets. -/
def Plain (n : String) : Prop := '<' ∉ n.toList ∧ ' ' ∉ n.toList

instance (n : String) : Decidable (Plain n) := by unfold Plain; infer_instance

/-- The last word of the text has at least three characters. -/
def Wordy (n : String) : Prop :=
  ∃ a x y z, n.toList = a ++ [x, y, z] ∧ isWord x = true ∧ isWord y = true ∧ isWord z = true

theorem foldl_splitAt {α : Type} {q : Char} {f : List Char → α → List Char} {l : List α}
    (h : ∀ e ∈ l, ∀ a b, f (a ++ q :: b) e = f a e ++ q :: f b e) (a b : List Char) :
    l.foldl f (a ++ q :: b) = l.foldl f a ++ q :: l.foldl f b := by
  induction l generalizing a b with
  | nil => rfl
  | cons e l ih =>
    simp only [List.foldl_cons]
    rw [h e (by simp), ih (fun e' he' => h e' (by simp [he']))]

/-- Substitution works on the parts between blanks. -/
theorem substitute_blank (k : Kind) (a b : List Char) :
    (substitutions k).foldl substitute (a ++ ' ' :: b) =
      (substitutions k).foldl substitute a ++ ' ' :: (substitutions k).foldl substitute b := by
  refine foldl_splitAt (fun e he a b => ?_) a b
  have h1 : ∀ e ∈ substitutions k,
      ' ' ∉ e.1.toList ∧ ' ' ∉ upper e.1.toList ∧ e.1.toList ≠ [] := by
    cases k <;> decide
  obtain ⟨h1, h2, h3⟩ := h1 e he
  unfold substitute replace
  rw [replaceGo_split h1 h3 b a 0 (Nat.zero_le _),
    replaceGo_split h2 (by simpa [upper] using h3) _ _ 0 (Nat.zero_le _)]

theorem substitute_plain (k : Kind) (n : List Char) (h : '<' ∉ n) :
    (substitutions k).foldl substitute n = n := by
  have f1 : ∀ (l : List (String × String)),
      (∀ e ∈ l, '<' ∈ e.1.toList ∧ '<' ∈ upper e.1.toList) → l.foldl substitute n = n := by
    intro l
    induction l with
    | nil => intro _; rfl
    | cons e l ih =>
      intro hl
      obtain ⟨a, b⟩ := hl e (by simp)
      simp only [List.foldl_cons]
      have : substitute n e = n := by
        unfold substitute replace
        rw [replaceGo_absent a _ h, replaceGo_absent b _ h]
      rw [this]
      exact ih (fun e' he' => hl e' (by simp [he']))
  exact f1 _ (by cases k <;> decide)

/-- Correction does not reach across a blank if no occurrence of the key does. -/
theorem replaceWordGo_blank {k v : List Char} (hk : k ≠ []) (hk0 : k.head? ≠ some ' ') (b : List Char) :
    ∀ (a : List Char) (p : Option Char) (n : Nat), n ≤ a.length →
      (∀ u x, a = u ++ x → x.length < k.length → k.isPrefixOf (x ++ ' ' :: b) = true →
        noWord (u.getLast?.or p) = false) →
      replaceWordGo k v p n (a ++ ' ' :: b) =
        replaceWordGo k v p n a ++ ' ' :: replaceWordGo k v none 0 b
  | [], p, n, h, _ => by
    have : n = 0 := by simpa using h
    subst this
    have hp : k.isPrefixOf (' ' :: b) = false := by
      cases k with
      | nil => exact absurd rfl hk
      | cons c k =>
        simp only [List.head?_cons, ne_eq, Option.some.injEq] at hk0
        simp [List.isPrefixOf, hk0]
    have : noWord (some ' ') = noWord none := by decide
    simp [replaceWordGo, hp, replaceWordGo_prev this]
  | c :: a, p, n + 1, h, H => by
    simp only [List.cons_append, replaceWordGo]
    refine replaceWordGo_blank hk hk0 b a _ n (by simpa using h) (fun u x e hl hp => ?_)
    have := H (c :: u) x (by simp [e]) hl hp
    rw [List.getLast?_cons] at this
    cases hu : u.getLast? <;> simp_all
  | c :: a, p, 0, _, H => by
    have H' : ∀ u x, a = u ++ x → x.length < k.length → k.isPrefixOf (x ++ ' ' :: b) = true →
        noWord (u.getLast?.or (some c)) = false := by
      intro u x e hl hp
      have := H (c :: u) x (by simp [e]) hl hp
      rw [List.getLast?_cons] at this
      cases hu : u.getLast? <;> simp_all
    by_cases hl : k.length ≤ (c :: a).length
    · have hp : k.isPrefixOf (c :: a ++ ' ' :: b) = k.isPrefixOf (c :: a) := by
        rw [Bool.eq_iff_iff, List.isPrefixOf_iff_prefix, List.isPrefixOf_iff_prefix]
        exact ⟨fun h => List.prefix_of_prefix_length_le h (List.prefix_append _ _) hl,
          fun h => h.trans (List.prefix_append _ _)⟩
      have hd := head_drop_split (b := b) (q := ' ') hl (by decide)
      rw [List.cons_append] at hp hd ⊢
      simp only [replaceWordGo, hp, hd]
      split
      · rw [List.append_assoc, replaceWordGo_blank hk hk0 b a _ _ (by simp at hl; omega) H']
      · rw [replaceWordGo_blank hk hk0 b a _ 0 (Nat.zero_le _) H']; rfl
    · have hp' : k.isPrefixOf (c :: a) = false := by
        cases h : k.isPrefixOf (c :: a) with
        | false => rfl
        | true => exact absurd (isPrefixOf_length h) hl
      have hn : (k.isPrefixOf (c :: (a ++ ' ' :: b)) && noWord p) = false := by
        cases h : k.isPrefixOf (c :: (a ++ ' ' :: b)) with
        | false => rfl
        | true =>
          have := H [] (c :: a) rfl (by omega) (by simpa using h)
          simpa using this
      rw [List.cons_append]
      simp only [replaceWordGo, hp', hn, Bool.false_and]
      rw [if_neg (by decide), if_neg (by decide),
        replaceWordGo_blank hk hk0 b a _ 0 (Nat.zero_le _) H']
      rfl

/-- The rules of correction, in both spellings. -/
def correctionRules : List (List Char × List Char) := rules corrections

theorem foldl_corrections (s : List Char) :
    corrections.foldl correct s = correctionRules.foldl (fun s r => replaceWord r.1 r.2 s) s :=
  foldl_correct corrections s

/-- The part of a key before its blank. -/
def firstWord (k : List Char) : List Char := k.takeWhile (· ≠ ' ')

/-- Keys have exactly one blank, after one or two characters. -/
def GoodKey (k : List Char) : Prop :=
  k ≠ [] ∧ k.head? ≠ some ' ' ∧ k.count ' ' = 1 ∧ (firstWord k).length ≤ 2

instance (k : List Char) : Decidable (GoodKey k) := by unfold GoodKey; infer_instance

theorem correction_keys : ∀ r ∈ correctionRules, GoodKey r.1 := by
  decide

/-- A key that reaches across a blank. -/
theorem firstWord_blank {x b k : List Char} (hk : k.count ' ' = 1) (h : k <+: x ++ ' ' :: b)
    (hl : x.length < k.length) : firstWord k = x ∧ ' ' ∉ x := by
  have h1 : x ++ [' '] <+: k :=
    List.prefix_of_prefix_length_le (l₃ := x ++ ' ' :: b) ⟨b, by simp⟩ h (by simp only [List.length_append, List.length_singleton]; omega)
  obtain ⟨t, rfl⟩ := h1
  have hx : ' ' ∉ x := by
    intro hx
    have := List.count_pos_iff.2 hx
    simp only [List.count_append, List.count_singleton_self] at hk
    omega
  refine ⟨?_, hx⟩
  rw [firstWord, List.append_assoc, List.takeWhile_append_of_pos]
  · simp
  · intro c hc
    simp only [ne_eq, decide_not, Bool.not_eq_eq_eq_not, Bool.not_true, decide_eq_false_iff_not]
    intro e; exact hx (e ▸ hc)

/-- In no round does the text end like a key does before its blank. -/
def calm : List (List Char × List Char) → List Char → Bool
  | [], _ => true
  | r :: rs, a => !(firstWord r.1).isSuffixOf a && calm rs (replaceWord r.1 r.2 a)

/-- The rules do not change this, after a blank. -/
def Fixed (rs : List (List Char × List Char)) (t : List Char) : Prop :=
  ∀ r ∈ rs, replaceWordGo r.1 r.2 none 0 t = t

theorem correct_calm (t : List Char) : ∀ (rs : List (List Char × List Char)) (a : List Char),
    (∀ r ∈ rs, GoodKey r.1) → Fixed rs t → calm rs a = true →
    rs.foldl (fun s r => replaceWord r.1 r.2 s) (a ++ ' ' :: t) =
      rs.foldl (fun s r => replaceWord r.1 r.2 s) a ++ ' ' :: t
  | [], a, _, _, _ => rfl
  | r :: rs, a, hk, ht, ha => by
    simp only [calm, Bool.and_eq_true, Bool.not_eq_eq_eq_not, Bool.not_true] at ha
    obtain ⟨k1, k2, k3, k4⟩ := hk r (by simp)
    simp only [List.foldl_cons]
    have e : replaceWord r.1 r.2 (a ++ ' ' :: t) = replaceWord r.1 r.2 a ++ ' ' :: t := by
      unfold replaceWord
      rw [replaceWordGo_blank k1 k2 t a none 0 (Nat.zero_le _), ht r (by simp)]
      intro u x hx hl hp
      obtain ⟨h1, -⟩ := firstWord_blank k3 (List.isPrefixOf_iff_prefix.1 hp) hl
      have : (firstWord r.1).isSuffixOf a = true := by
        rw [List.isSuffixOf_iff_suffix, h1, hx]; exact List.suffix_append _ _
      rw [this] at ha; exact absurd ha.1 (by decide)
    rw [e]
    exact correct_calm t rs _ (fun r' h => hk r' (by simp [h])) (fun r' h => ht r' (by simp [h])) ha.2

theorem fixed_plain (n : String) (h : ' ' ∉ n.toList) : Fixed correctionRules n.toList := by
  intro r hr
  obtain ⟨-, -, h3, -⟩ := correction_keys r hr
  exact replaceWordGo_absent (List.count_pos_iff.1 (by omega)) _ _ h

theorem fixed_wordy (n m : String) (h : ' ' ∉ n.toList) (hm : ' ' ∉ m.toList) (hw : Wordy n) :
    Fixed correctionRules (n.toList ++ ' ' :: m.toList) := by
  intro r hr
  obtain ⟨h1, h2, h3, h4⟩ := correction_keys r hr
  have hb : ' ' ∈ r.1 := List.count_pos_iff.1 (by omega)
  rw [replaceWordGo_blank h1 h2 _ _ none 0 (Nat.zero_le _), replaceWordGo_absent hb _ _ h,
    replaceWordGo_absent hb _ _ hm]
  intro u x hx hl hp
  obtain ⟨e, -⟩ := firstWord_blank h3 (List.isPrefixOf_iff_prefix.1 hp) hl
  rw [e] at h4
  obtain ⟨a, c1, c2, c3, hn, w1, w2, w3⟩ := hw
  rw [hn] at hx
  match x, h4 with
  | [], _ =>
    simp only [List.append_nil] at hx
    subst hx; simp [noWord, w3]
  | [y], _ =>
    have : u = a ++ [c1, c2] := by
      have : a ++ [c1, c2] ++ [c3] = u ++ [y] := by simpa using hx
      exact (List.append_inj' this rfl).1.symm
    subst this; simp [noWord, w2]
  | [y, z], _ =>
    have : u = a ++ [c1] := by
      have : a ++ [c1] ++ [c2, c3] = u ++ [y, z] := by simpa using hx
      exact (List.append_inj' this rfl).1.symm
    subst this; simp [noWord, w1]

/-- A text that ends with a name, after a blank. -/
theorem sprint_last (k : Kind) (a n : String) (hn : Plain n)
    (ha : calm correctionRules ((substitutions k).foldl substitute a.toList) = true) :
    sprint k (a ++ " " ++ n) = sprint k a ++ " " ++ n := by
  unfold sprint sprintWith
  have e0 : (a ++ " " ++ n).toList = a.toList ++ ' ' :: n.toList := by simp [String.toList_append]
  rw [e0, substitute_blank, substitute_plain k _ hn.1, foldl_corrections, foldl_corrections,
    correct_calm _ _ _ correction_keys (fixed_plain n hn.2) ha, String.ofList_append,
    ← List.singleton_append, String.ofList_append]
  simp [String.append_assoc]

/-- A text with a name and a last word after it. -/
theorem sprint_inside (k : Kind) (a n b b' : String) (hn : Plain n) (hw : Wordy n)
    (hb : (substitutions k).foldl substitute b.toList = b'.toList) (hb' : ' ' ∉ b'.toList)
    (ha : calm correctionRules ((substitutions k).foldl substitute a.toList) = true) :
    sprint k (a ++ " " ++ n ++ " " ++ b) = sprint k a ++ " " ++ n ++ " " ++ b' := by
  unfold sprint sprintWith
  have e0 : (a ++ " " ++ n ++ " " ++ b).toList = a.toList ++ ' ' :: (n.toList ++ ' ' :: b.toList) := by
    simp [String.toList_append]
  rw [e0, substitute_blank, substitute_blank, substitute_plain k _ hn.1, hb, foldl_corrections, foldl_corrections,
    correct_calm _ _ _ correction_keys (fixed_wordy n b' hn.2 hb' hw) ha, String.ofList_append,
    ← List.singleton_append, String.ofList_append, String.ofList_append,
    ← List.singleton_append (l := b'.toList), String.ofList_append]
  simp [String.append_assoc]

end Verif.Inflect
