import Verif.Inflect

/-!
# Inflection (C67)

The loops of `Sprint` range over maps.  Each is shown to do the same as one pass over the text that
replaces all words at once, for which the order of the table is obviously irrelevant.
-/

namespace Verif.Inflect

/-! ## Specification: replacing all at once -/

/-- One of the two is a prefix of the other. -/
def comparable (a b : List Char) : Bool := a.isPrefixOf b || b.isPrefixOf a

/-- The rule whose key begins the text. -/
def matching (rs : List (List Char × List Char)) (s : List Char) : Option (List Char × List Char) :=
  rs.find? (fun r => r.1.isPrefixOf s)

/-- Replace all occurrences of all keys in one pass; `skip` characters of an occurrence are still to
be dropped. -/
def simGo (rs : List (List Char × List Char)) : Nat → List Char → List Char
  | _, [] => []
  | n + 1, _ :: cs => simGo rs n cs
  | 0, c :: cs =>
    match matching rs (c :: cs) with
    | some r => r.2 ++ simGo rs (r.1.length - 1) cs
    | none => c :: simGo rs 0 cs

def sim (rs : List (List Char × List Char)) (s : List Char) : List Char := simGo rs 0 s

/-- The proper non-empty suffixes. -/
def properSuffixes : List Char → List (List Char)
  | [] => []
  | _ :: cs => (go cs)
where
  go : List Char → List (List Char)
    | [] => []
    | c :: cs => (c :: cs) :: go cs

/-- The non-empty suffixes. -/
def suffixes (s : List Char) : List (List Char) := properSuffixes.go s

/-- Replacing by `r` neither makes nor breaks an occurrence of the key of `q`. -/
def independent (r q : List Char × List Char) : Bool :=
  !comparable r.1 q.1 &&
  (properSuffixes q.1).all (fun y => !comparable y r.1 && !comparable y r.2) &&
  (suffixes r.2).all (fun y => !comparable y q.1)

/-! ## Plain replacement -/

theorem replaceGo_skip (k v : List Char) (a s : List Char) :
    replaceGo k v a.length (a ++ s) = replaceGo k v 0 s := by
  induction a with
  | nil => rfl
  | cons c a ih => exact ih

theorem replace_match (k v s : List Char) (hk : k ≠ []) :
    replace k v (k ++ s) = v ++ replace k v s := by
  cases k with
  | nil => exact absurd rfl hk
  | cons c k =>
    unfold replace
    rw [List.cons_append]
    conv => lhs; unfold replaceGo
    rw [if_pos (by simp)]
    simp only [List.length_cons, Nat.add_sub_cancel]
    rw [replaceGo_skip]

theorem replace_none (k v : List Char) (c : Char) (cs : List Char)
    (h : k.isPrefixOf (c :: cs) = false) : replace k v (c :: cs) = c :: replace k v cs := by
  unfold replace
  conv => lhs; unfold replaceGo
  rw [if_neg (by simp [h])]

theorem simGo_skip (rs : List (List Char × List Char)) (a s : List Char) :
    simGo rs a.length (a ++ s) = simGo rs 0 s := by
  induction a with
  | nil => rfl
  | cons c a ih => exact ih

theorem sim_match {rs : List (List Char × List Char)} {r : List Char × List Char} {s : List Char}
    (hk : r.1 ≠ []) (h : matching rs (r.1 ++ s) = some r) :
    sim rs (r.1 ++ s) = r.2 ++ sim rs s := by
  obtain ⟨k, v⟩ := r
  cases k with
  | nil => exact absurd rfl hk
  | cons c k =>
    simp only at h ⊢
    unfold sim
    rw [List.cons_append] at h ⊢
    conv => lhs; unfold simGo
    rw [h]
    simp only [List.length_cons, Nat.add_sub_cancel]
    rw [simGo_skip]

theorem sim_none {rs : List (List Char × List Char)} {c : Char} {cs : List Char}
    (h : matching rs (c :: cs) = none) : sim rs (c :: cs) = c :: sim rs cs := by
  unfold sim
  conv => lhs; unfold simGo
  rw [h]

theorem comparable_prefixes {a b s : List Char} (ha : a <+: s) (hb : b <+: s) :
    comparable a b = true := by
  unfold comparable
  rcases Nat.le_total a.length b.length with h | h
  · simp [List.prefix_of_prefix_length_le ha hb h]
  · simp [List.prefix_of_prefix_length_le hb ha h]

theorem mem_suffixes {a y : List Char} (hy : y ≠ []) : ∀ {p : List Char}, a = p ++ y → y ∈ suffixes a := by
  intro p
  induction p generalizing a with
  | nil =>
    intro h
    cases y with
    | nil => exact absurd rfl hy
    | cons c y => subst h; simp [suffixes, properSuffixes.go]
  | cons c p ih =>
    intro h
    subst h
    have := ih rfl
    unfold suffixes at this ⊢
    simp [properSuffixes.go, this]

theorem mem_properSuffixes {a y p : List Char} (hy : y ≠ []) (hp : p ≠ []) (h : a = p ++ y) :
    y ∈ properSuffixes a := by
  cases p with
  | nil => exact absurd rfl hp
  | cons c p => subst h; exact mem_suffixes (a := p ++ y) hy rfl

/-- No occurrence of a key begins inside `a`, whatever follows. -/
theorem sim_through {rs : List (List Char × List Char)} (a : List Char)
    (h : ∀ y ∈ suffixes a, ∀ r ∈ rs, comparable y r.1 = false) (s : List Char) :
    sim rs (a ++ s) = a ++ sim rs s := by
  induction a with
  | nil => rfl
  | cons c a ih =>
    rw [List.cons_append, sim_none, ih]
    · rfl
    · intro y hy; exact h y (by unfold suffixes at hy ⊢; simp [properSuffixes.go, hy])
    · unfold matching
      rw [List.find?_eq_none]
      intro r hr hp
      have hc := comparable_prefixes (a := c :: a) (s := c :: (a ++ s)) (by simp)
        (List.isPrefixOf_iff_prefix.1 hp)
      rw [h (c :: a) (by simp [suffixes, properSuffixes.go]) r hr] at hc
      cases hc

theorem replace_through {k v : List Char} (a : List Char)
    (h : ∀ y ∈ suffixes a, comparable y k = false) (s : List Char) :
    replace k v (a ++ s) = a ++ replace k v s := by
  induction a with
  | nil => rfl
  | cons c a ih =>
    rw [List.cons_append, replace_none, ih]
    · rfl
    · intro y hy; exact h y (by unfold suffixes at hy ⊢; simp [properSuffixes.go, hy])
    · cases hp : k.isPrefixOf (c :: (a ++ s)) with
      | false => rfl
      | true =>
        have hc := comparable_prefixes (a := c :: a) (s := c :: (a ++ s)) (by simp)
          (List.isPrefixOf_iff_prefix.1 hp)
        rw [h (c :: a) (by simp [suffixes, properSuffixes.go])] at hc
        cases hc

/-- Replacing does not complete an occurrence of another key. -/
theorem prefix_of_replace {k v : List Char} (hk : k ≠ []) : ∀ (y t : List Char),
    (∀ z ∈ suffixes y, comparable z v = false) → y <+: replace k v t → y <+: t := by
  intro y
  induction y with
  | nil => intro t _ _; exact List.nil_prefix
  | cons d y ih =>
    intro t hz h
    cases t with
    | nil => exact h
    | cons c t =>
      cases hp : k.isPrefixOf (c :: t) with
      | true =>
        obtain ⟨s, hs⟩ := List.isPrefixOf_iff_prefix.1 hp
        rw [← hs, replace_match _ _ _ hk] at h
        have hc := comparable_prefixes h (List.prefix_append v _)
        rw [hz (d :: y) (by simp [suffixes, properSuffixes.go])] at hc
        cases hc
      | false =>
        rw [replace_none _ _ _ _ hp] at h
        rw [List.cons_prefix_cons] at h ⊢
        refine ⟨h.1, ih t ?_ h.2⟩
        intro z hz'
        exact hz z (by unfold suffixes at hz' ⊢; simp [properSuffixes.go, hz'])

theorem independent_keys {r q : List Char × List Char} (h : independent r q = true) :
    comparable r.1 q.1 = false := by
  simp only [independent, Bool.and_eq_true, Bool.not_eq_true'] at h; exact h.1.1

theorem independent_value {r q : List Char × List Char} (h : independent r q = true)
    {y : List Char} (hy : y ∈ suffixes r.2) : comparable y q.1 = false := by
  simp only [independent, Bool.and_eq_true, Bool.not_eq_true', List.all_eq_true] at h
  exact h.2 y hy

theorem independent_suffix {r q : List Char × List Char} (h : independent r q = true)
    {y : List Char} (hy : y ∈ properSuffixes q.1) :
    comparable y r.1 = false ∧ comparable y r.2 = false := by
  simp only [independent, Bool.and_eq_true, Bool.not_eq_true', List.all_eq_true] at h
  exact h.1.2 y hy

theorem comparable_comm (a b : List Char) : comparable a b = comparable b a := Bool.or_comm ..

/-- No key is a prefix of another one. -/
def PrefixFree (rs : List (List Char × List Char)) : Prop :=
  rs.Pairwise (fun a b => comparable a.1 b.1 = false)

theorem matching_unique {rs : List (List Char × List Char)} (hf : PrefixFree rs)
    {q : List Char × List Char} (hq : q ∈ rs) {s : List Char} (hp : q.1 <+: s) :
    matching rs s = some q := by
  obtain ⟨as, bs, rfl⟩ := List.append_of_mem hq
  unfold matching
  rw [List.find?_eq_some_iff_append]
  refine ⟨by simpa using hp, as, bs, rfl, ?_⟩
  intro x hx
  cases hx' : x.1.isPrefixOf s with
  | false => rfl
  | true =>
    have h1 := comparable_prefixes (List.isPrefixOf_iff_prefix.1 hx') hp
    unfold PrefixFree at hf
    rw [List.pairwise_append] at hf
    rw [hf.2.2 x hx q (by simp)] at h1
    cases h1

theorem sim_replace {r : List Char × List Char} {rs : List (List Char × List Char)} (hk : r.1 ≠ [])
    (hks : ∀ q ∈ rs, q.1 ≠ []) (hf : PrefixFree rs) (hi : ∀ q ∈ rs, independent r q = true) :
    ∀ (n : Nat) (s : List Char), s.length ≤ n → sim rs (replace r.1 r.2 s) = sim (r :: rs) s := by
  intro n
  induction n with
  | zero => intro s hs; cases s with
    | nil => rfl
    | cons c s => simp at hs
  | succ n ih =>
    intro s hs
    cases s with
    | nil => rfl
    | cons c cs =>
      cases hp : r.1.isPrefixOf (c :: cs) with
      | true =>
        obtain ⟨s, hs'⟩ := List.isPrefixOf_iff_prefix.1 hp
        have hm : matching (r :: rs) (r.1 ++ s) = some r := by
          unfold matching; rw [List.find?_cons, hs', hp]
        rw [← hs', replace_match _ _ _ hk, sim_match hk hm,
          sim_through r.2 (fun y hy q hq => independent_value (hi q hq) hy), ih]
        have := congrArg List.length hs'
        have h1 : 0 < r.1.length := List.length_pos_iff.2 hk
        simp only [List.length_append, List.length_cons] at this hs
        omega
      | false =>
        cases hm : matching rs (c :: cs) with
        | some q =>
          have hq : q ∈ rs := List.mem_of_find?_eq_some hm
          have hqp : q.1.isPrefixOf (c :: cs) = true := by
            unfold matching at hm; simpa using List.find?_some hm
          obtain ⟨s, hs'⟩ := List.isPrefixOf_iff_prefix.1 hqp
          have hm' : matching (r :: rs) (q.1 ++ s) = some q := by
            unfold matching at hm ⊢; rw [List.find?_cons, hs', hp]; exact hm
          have hthrough : replace r.1 r.2 (q.1 ++ s) = q.1 ++ replace r.1 r.2 s := by
            apply replace_through
            intro y hy
            by_cases hyq : y = q.1
            · subst hyq; rw [comparable_comm]; exact independent_keys (hi q hq)
            · refine (independent_suffix (hi q hq) ?_).1
              obtain ⟨q1, q2⟩ := q
              cases q1 with
              | nil => exact absurd rfl (hks _ hq)
              | cons d q1 =>
                unfold suffixes at hy
                simp only [properSuffixes.go, List.mem_cons] at hy
                rcases hy with rfl | hy
                · exact absurd rfl hyq
                · exact hy
          have hm2 : matching rs (q.1 ++ replace r.1 r.2 s) = some q :=
            matching_unique hf hq (List.prefix_append _ _)
          rw [← hs', hthrough, sim_match (hks q hq) hm2, sim_match (hks q hq) hm', ih]
          have := congrArg List.length hs'
          have h1 : 0 < q.1.length := List.length_pos_iff.2 (hks q hq)
          simp only [List.length_append, List.length_cons] at this hs
          omega
        | none =>
          have hm' : matching (r :: rs) (c :: cs) = none := by
            unfold matching at hm ⊢; rw [List.find?_cons, hp]; exact hm
          rw [replace_none _ _ _ _ hp, sim_none hm', sim_none, ih]
          · simpa using hs
          · unfold matching at hm ⊢
            rw [List.find?_eq_none] at hm ⊢
            intro q hq hqp
            apply hm q hq
            obtain ⟨q1, q2⟩ := q
            cases q1 with
            | nil => exact absurd rfl (hks _ hq)
            | cons d q1 =>
              rw [List.isPrefixOf_iff_prefix, List.cons_prefix_cons] at hqp ⊢
              refine ⟨hqp.1, prefix_of_replace hk q1 cs ?_ hqp.2⟩
              intro z hz
              exact (independent_suffix (hi _ hq) hz).2

/-- The rules of a table can be applied in any order. -/
def Independent (rs : List (List Char × List Char)) : Prop :=
  rs.Pairwise (fun a b => independent a b = true ∧ independent b a = true) ∧ ∀ r ∈ rs, r.1 ≠ []

theorem Independent.free {rs : List (List Char × List Char)} (h : Independent rs) : PrefixFree rs :=
  h.1.imp (fun h => independent_keys h.1)

theorem foldl_replace (rs : List (List Char × List Char)) : Independent rs → ∀ s : List Char,
    rs.foldl (fun s r => replace r.1 r.2 s) s = sim rs s := by
  induction rs with
  | nil =>
    intro _ s
    show s = sim [] s
    induction s with
    | nil => rfl
    | cons c s ih => rw [sim_none rfl, ← ih]
  | cons r rs ih =>
    intro h s
    have h1 := List.pairwise_cons.1 h.1
    have h' : Independent rs := ⟨h1.2, fun q hq => h.2 q (by simp [hq])⟩
    rw [List.foldl_cons, ih h']
    exact sim_replace (h.2 r (by simp)) h'.2 h'.free (fun q hq => (h1.1 q hq).1) _ s (Nat.le_refl _)

theorem Independent.perm {rs rs' : List (List Char × List Char)} (h : Independent rs)
    (hp : rs.Perm rs') : Independent rs' :=
  ⟨(hp.pairwise_iff (fun h => ⟨h.2, h.1⟩)).1 h.1, fun r hr => h.2 r (hp.mem_iff.2 hr)⟩

theorem matching_perm {rs rs' : List (List Char × List Char)} (h : Independent rs)
    (hp : rs.Perm rs') (s : List Char) : matching rs s = matching rs' s := by
  cases hm : matching rs s with
  | some q =>
    have hq : q ∈ rs := List.mem_of_find?_eq_some hm
    have hqp : q.1.isPrefixOf s = true := by
      unfold matching at hm; simpa using List.find?_some hm
    exact (matching_unique (h.perm hp).free (hp.mem_iff.1 hq) (List.isPrefixOf_iff_prefix.1 hqp)).symm
  | none =>
    unfold matching at hm ⊢
    rw [List.find?_eq_none] at hm
    symm
    rw [List.find?_eq_none]
    exact fun q hq => hm q (hp.mem_iff.2 hq)

theorem sim_perm {rs rs' : List (List Char × List Char)} (h : Independent rs) (hp : rs.Perm rs') :
    ∀ (n : Nat) (s : List Char), simGo rs n s = simGo rs' n s := by
  intro n s
  induction s generalizing n with
  | nil => cases n <;> rfl
  | cons c cs ih =>
    cases n with
    | succ n => exact ih n
    | zero =>
      unfold simGo
      rw [← matching_perm h hp]
      cases matching rs (c :: cs) with
      | none => exact congrArg _ (ih 0)
      | some r => exact congrArg _ (ih _)

/-- Both spellings of the entries of a table. -/
def rules (es : List (String × String)) : List (List Char × List Char) :=
  es.flatMap fun e => [(e.1.toList, e.2.toList), (upper e.1.toList, upper e.2.toList)]

theorem foldl_substitute (es : List (String × String)) : ∀ s : List Char,
    es.foldl substitute s = (rules es).foldl (fun s r => replace r.1 r.2 s) s := by
  induction es with
  | nil => intro s; rfl
  | cons e es ih => intro s; exact ih _

theorem rules_perm {es es' : List (String × String)} (hp : es.Perm es') :
    (rules es).Perm (rules es') := hp.flatMap_right _

instance (rs : List (List Char × List Char)) : Decidable (Independent rs) := by
  unfold Independent; infer_instance

set_option maxRecDepth 100000 in
theorem substitutions_independent (k : Kind) : Independent (rules (substitutions k)) := by
  cases k <;> decide +kernel

/-! ## Replacement at word boundaries -/

/-- The key occurs at the beginning of the text, as a word. -/
def occurs (k : List Char) (prev : Option Char) (s : List Char) : Bool :=
  k.isPrefixOf s && noWord prev && noWord (s.drop k.length).head?

/-- The rule whose key occurs at the beginning of the text. -/
def matchingW (rs : List (List Char × List Char)) (prev : Option Char) (s : List Char) :
    Option (List Char × List Char) := rs.find? (fun r => occurs r.1 prev s)

/-- Replace all occurrences of all keys as words in one pass. -/
def simWGo (rs : List (List Char × List Char)) : Option Char → Nat → List Char → List Char
  | _, _, [] => []
  | _, n + 1, c :: cs => simWGo rs (some c) n cs
  | prev, 0, c :: cs =>
    match matchingW rs prev (c :: cs) with
    | some r => r.2 ++ simWGo rs (some c) (r.1.length - 1) cs
    | none => c :: simWGo rs (some c) 0 cs

/-- What comes before, as far as word boundaries are concerned. -/
def before (w : Bool) : Option Char := if w then some 'x' else none

theorem noWord_before (w : Bool) : noWord (before w) = !w := by cases w <;> rfl

/-- The text ends within a word; `w` if it is empty. -/
def endsWord (w : Bool) (a : List Char) : Bool := a.foldl (fun _ c => isWord c) w

def simW (rs : List (List Char × List Char)) (w : Bool) (s : List Char) : List Char :=
  simWGo rs (before w) 0 s

def replW (k v : List Char) (w : Bool) (s : List Char) : List Char := replaceWordGo k v (before w) 0 s

theorem occurs_prev (k : List Char) {p p' : Option Char} (h : noWord p = noWord p') (s : List Char) :
    occurs k p s = occurs k p' s := by unfold occurs; rw [h]

theorem simWGo_prev (rs : List (List Char × List Char)) {p p' : Option Char}
    (h : noWord p = noWord p') (s : List Char) : simWGo rs p 0 s = simWGo rs p' 0 s := by
  cases s with
  | nil => rfl
  | cons c cs =>
    unfold simWGo
    have : matchingW rs p (c :: cs) = matchingW rs p' (c :: cs) := by
      unfold matchingW; congr 1; funext r; exact occurs_prev r.1 h _
    rw [this]

theorem replGo_prev (k v : List Char) {p p' : Option Char}
    (h : noWord p = noWord p') (s : List Char) :
    replaceWordGo k v p 0 s = replaceWordGo k v p' 0 s := by
  cases s with
  | nil => rfl
  | cons c cs => unfold replaceWordGo; rw [h]

theorem noWord_some (c : Char) : noWord (some c) = noWord (before (isWord c)) := by
  rw [noWord_before]; rfl

theorem simWGo_skip (rs : List (List Char × List Char)) (a s : List Char) : ∀ w,
    simWGo rs (before w) a.length (a ++ s) = simW rs (endsWord w a) s := by
  induction a with
  | nil => intro w; rfl
  | cons c a ih =>
    intro w
    show simWGo rs (some c) a.length (a ++ s) = simW rs (endsWord (isWord c) a) s
    rw [← ih]
    cases a with
    | nil => exact simWGo_prev rs (noWord_some c) s
    | cons d a => rfl

theorem replGo_skip (k v : List Char) (a s : List Char) : ∀ w,
    replaceWordGo k v (before w) a.length (a ++ s) = replW k v (endsWord w a) s := by
  induction a with
  | nil => intro w; rfl
  | cons c a ih =>
    intro w
    show replaceWordGo k v (some c) a.length (a ++ s) = replW k v (endsWord (isWord c) a) s
    rw [← ih]
    cases a with
    | nil => exact replGo_prev k v (noWord_some c) s
    | cons d a => rfl

theorem simWGo_skip1 (rs : List (List Char × List Char)) (c : Char) (a s : List Char) :
    simWGo rs (some c) a.length (a ++ s) = simW rs (endsWord (isWord c) a) s := by
  rw [← simWGo_skip]
  cases a with
  | nil => exact simWGo_prev rs (noWord_some c) s
  | cons d a => rfl

theorem replGo_skip1 (k v : List Char) (c : Char) (a s : List Char) :
    replaceWordGo k v (some c) a.length (a ++ s) = replW k v (endsWord (isWord c) a) s := by
  rw [← replGo_skip]
  cases a with
  | nil => exact replGo_prev k v (noWord_some c) s
  | cons d a => rfl

theorem replW_match {k v s : List Char} {w : Bool} (hk : k ≠ [])
    (h : occurs k (before w) (k ++ s) = true) :
    replW k v w (k ++ s) = v ++ replW k v (endsWord w k) s := by
  cases k with
  | nil => exact absurd rfl hk
  | cons c k =>
    unfold replW
    rw [List.cons_append] at h ⊢
    unfold occurs at h
    conv => lhs; unfold replaceWordGo
    rw [if_pos h]
    simp only [List.length_cons, Nat.add_sub_cancel]
    rw [replGo_skip1]
    rfl

theorem replW_none {k v : List Char} {w : Bool} {c : Char} {cs : List Char}
    (h : occurs k (before w) (c :: cs) = false) :
    replW k v w (c :: cs) = c :: replW k v (isWord c) cs := by
  unfold replW
  conv => lhs; unfold replaceWordGo
  rw [if_neg (by unfold occurs at h; simp only [h]; simp), replGo_prev k v (noWord_some c) cs]

theorem simW_match {rs : List (List Char × List Char)} {r : List Char × List Char} {s : List Char}
    {w : Bool} (hk : r.1 ≠ []) (h : matchingW rs (before w) (r.1 ++ s) = some r) :
    simW rs w (r.1 ++ s) = r.2 ++ simW rs (endsWord w r.1) s := by
  obtain ⟨k, v⟩ := r
  cases k with
  | nil => exact absurd rfl hk
  | cons c k =>
    simp only at h ⊢
    unfold simW
    rw [List.cons_append] at h ⊢
    conv => lhs; unfold simWGo
    rw [h]
    simp only [List.length_cons, Nat.add_sub_cancel]
    rw [simWGo_skip1]
    rfl

theorem simW_none {rs : List (List Char × List Char)} {w : Bool} {c : Char} {cs : List Char}
    (h : matchingW rs (before w) (c :: cs) = none) :
    simW rs w (c :: cs) = c :: simW rs (isWord c) cs := by
  unfold simW
  conv => lhs; unfold simWGo
  rw [h]
  exact congrArg _ (simWGo_prev rs (noWord_some c) cs)

theorem occurs_prefix {k : List Char} {p : Option Char} {s : List Char} (h : occurs k p s = true) :
    k <+: s := by
  unfold occurs at h
  simp only [Bool.and_eq_true, List.isPrefixOf_iff_prefix] at h
  exact h.1.1

theorem simW_through {rs : List (List Char × List Char)} (a : List Char)
    (h : ∀ y ∈ suffixes a, ∀ r ∈ rs, comparable y r.1 = false) (s : List Char) : ∀ w,
    simW rs w (a ++ s) = a ++ simW rs (endsWord w a) s := by
  induction a with
  | nil => intro w; rfl
  | cons c a ih =>
    intro w
    rw [List.cons_append, simW_none, ih]
    · rfl
    · intro y hy; exact h y (by unfold suffixes at hy ⊢; simp [properSuffixes.go, hy])
    · unfold matchingW
      rw [List.find?_eq_none]
      intro r hr hp
      have hc := comparable_prefixes (a := c :: a) (s := c :: (a ++ s)) (by simp) (occurs_prefix hp)
      rw [h (c :: a) (by simp [suffixes, properSuffixes.go]) r hr] at hc
      cases hc

theorem replW_through {k v : List Char} (a : List Char)
    (h : ∀ y ∈ suffixes a, comparable y k = false) (s : List Char) : ∀ w,
    replW k v w (a ++ s) = a ++ replW k v (endsWord w a) s := by
  induction a with
  | nil => intro w; rfl
  | cons c a ih =>
    intro w
    rw [List.cons_append, replW_none, ih]
    · rfl
    · intro y hy; exact h y (by unfold suffixes at hy ⊢; simp [properSuffixes.go, hy])
    · cases hp : occurs k (before w) (c :: (a ++ s)) with
      | false => rfl
      | true =>
        have hc := comparable_prefixes (a := c :: a) (s := c :: (a ++ s)) (by simp) (occurs_prefix hp)
        rw [h (c :: a) (by simp [suffixes, properSuffixes.go])] at hc
        cases hc

/-- Within a word nothing is replaced. -/
theorem replW_head (k v : List Char) (s : List Char) : (replW k v true s).head? = s.head? := by
  cases s with
  | nil => rfl
  | cons c cs =>
    rw [replW_none]
    · rfl
    · unfold occurs; simp [noWord_before]

theorem prefix_of_replW {k v : List Char} (hk : k ≠ []) : ∀ (y t : List Char) (w : Bool),
    (∀ z ∈ suffixes y, comparable z v = false) → endsWord w y = true → y <+: replW k v w t →
    noWord ((replW k v w t).drop y.length).head? = true →
    y <+: t ∧ noWord (t.drop y.length).head? = true := by
  intro y
  induction y with
  | nil =>
    intro t w _ hw _ hn
    have : w = true := hw
    subst this
    refine ⟨List.nil_prefix, ?_⟩
    simpa [replW_head] using hn
  | cons d y ih =>
    intro t w hz hw h hn
    cases t with
    | nil => exact absurd (List.prefix_nil.1 h) nofun
    | cons c t =>
      cases hp : occurs k (before w) (c :: t) with
      | true =>
        obtain ⟨s, hs⟩ := occurs_prefix hp
        rw [← hs] at hp
        rw [← hs, replW_match hk hp] at h
        have hc := comparable_prefixes h (List.prefix_append v _)
        rw [hz (d :: y) (by simp [suffixes, properSuffixes.go])] at hc
        cases hc
      | false =>
        rw [replW_none hp] at h hn
        rw [List.cons_prefix_cons] at h ⊢
        obtain ⟨rfl, h⟩ := h
        obtain ⟨i1, i2⟩ := ih t (isWord d)
          (fun z hz' => hz z (by unfold suffixes at hz' ⊢; simp [properSuffixes.go, hz'])) hw h
          (by simpa using hn)
        exact ⟨⟨rfl, i1⟩, by simpa using i2⟩

theorem endsWord_of_ne {a : List Char} (h : a ≠ []) (w w' : Bool) : endsWord w a = endsWord w' a := by
  cases a with
  | nil => exact absurd rfl h
  | cons c a => rfl

theorem matchingW_unique {rs : List (List Char × List Char)} (hf : PrefixFree rs)
    {q : List Char × List Char} (hq : q ∈ rs) {p : Option Char} {s : List Char}
    (hp : occurs q.1 p s = true) : matchingW rs p s = some q := by
  obtain ⟨as, bs, rfl⟩ := List.append_of_mem hq
  unfold matchingW
  rw [List.find?_eq_some_iff_append]
  refine ⟨hp, as, bs, rfl, ?_⟩
  intro x hx
  cases hx' : occurs x.1 p s with
  | false => rfl
  | true =>
    have h1 := comparable_prefixes (occurs_prefix hx') (occurs_prefix hp)
    unfold PrefixFree at hf
    rw [List.pairwise_append] at hf
    rw [hf.2.2 x hx q (by simp)] at h1
    cases h1

/-- A rule between words: key and replacement end with a word. -/
def wordy (r : List Char × List Char) : Bool := endsWord false r.1 && endsWord false r.2

theorem simW_replW {r : List Char × List Char} {rs : List (List Char × List Char)} (hr : wordy r = true)
    (hrs : ∀ q ∈ rs, wordy q = true) (hf : PrefixFree rs) (hi : ∀ q ∈ rs, independent r q = true) :
    ∀ (n : Nat) (s : List Char) (w : Bool), s.length ≤ n →
      simW rs w (replW r.1 r.2 w s) = simW (r :: rs) w s := by
  have ne1 : ∀ {a : List Char}, endsWord false a = true → a ≠ [] := by
    intro a h e; subst e; cases h
  have wd : ∀ {q : List Char × List Char}, wordy q = true → q.1 ≠ [] ∧ q.2 ≠ [] ∧
      (∀ w, endsWord w q.1 = true) ∧ (∀ w, endsWord w q.2 = true) := by
    intro q h
    unfold wordy at h
    rw [Bool.and_eq_true] at h
    exact ⟨ne1 h.1, ne1 h.2, fun w => by rw [endsWord_of_ne (ne1 h.1) w false, h.1],
      fun w => by rw [endsWord_of_ne (ne1 h.2) w false, h.2]⟩
  have hrw := wd hr
  intro n
  induction n with
  | zero => intro s w hs; cases s with
    | nil => rfl
    | cons c s => simp at hs
  | succ n ih =>
    intro s w hs
    cases s with
    | nil => rfl
    | cons c cs =>
      cases hp : occurs r.1 (before w) (c :: cs) with
      | true =>
        obtain ⟨s, hs'⟩ := occurs_prefix hp
        have hm : matchingW (r :: rs) (before w) (r.1 ++ s) = some r := by
          unfold matchingW; rw [List.find?_cons, hs', hp]
        rw [← hs'] at hp
        rw [← hs', replW_match hrw.1 hp, simW_match hrw.1 hm,
          simW_through r.2 (fun y hy q hq => independent_value (hi q hq) hy), hrw.2.2.1, hrw.2.2.2, ih]
        have := congrArg List.length hs'
        have h1 : 0 < r.1.length := List.length_pos_iff.2 hrw.1
        simp only [List.length_append, List.length_cons] at this hs
        omega
      | false =>
        cases hm : matchingW rs (before w) (c :: cs) with
        | some q =>
          have hq : q ∈ rs := List.mem_of_find?_eq_some hm
          have hqw := wd (hrs q hq)
          have hqp : occurs q.1 (before w) (c :: cs) = true := by
            unfold matchingW at hm; simpa using List.find?_some hm
          obtain ⟨s, hs'⟩ := occurs_prefix hqp
          have hm' : matchingW (r :: rs) (before w) (q.1 ++ s) = some q := by
            unfold matchingW at hm ⊢; rw [List.find?_cons, hs', hp]; exact hm
          have hthrough : replW r.1 r.2 w (q.1 ++ s) = q.1 ++ replW r.1 r.2 true s := by
            rw [← hqw.2.2.1 w]
            apply replW_through
            intro y hy
            by_cases hyq : y = q.1
            · subst hyq; rw [comparable_comm]; exact independent_keys (hi q hq)
            · refine (independent_suffix (hi q hq) ?_).1
              obtain ⟨q1, q2⟩ := q
              cases q1 with
              | nil => exact absurd rfl hqw.1
              | cons d q1 =>
                unfold suffixes at hy
                simp only [properSuffixes.go, List.mem_cons] at hy
                rcases hy with rfl | hy
                · exact absurd rfl hyq
                · exact hy
          have hm2 : matchingW rs (before w) (q.1 ++ replW r.1 r.2 true s) = some q := by
            apply matchingW_unique hf hq
            rw [← hs'] at hqp
            unfold occurs at hqp ⊢
            simp only [List.drop_left, replW_head] at hqp ⊢
            simp only [Bool.and_eq_true] at hqp ⊢
            exact ⟨⟨by simp, hqp.1.2⟩, hqp.2⟩
          rw [← hs', hthrough, simW_match hqw.1 hm2, simW_match hqw.1 hm', hqw.2.2.1, ih]
          have := congrArg List.length hs'
          have h1 : 0 < q.1.length := List.length_pos_iff.2 hqw.1
          simp only [List.length_append, List.length_cons] at this hs
          omega
        | none =>
          have hm' : matchingW (r :: rs) (before w) (c :: cs) = none := by
            unfold matchingW at hm ⊢; rw [List.find?_cons, hp]; exact hm
          rw [replW_none hp, simW_none hm', simW_none, ih]
          · simpa using hs
          · unfold matchingW at hm ⊢
            rw [List.find?_eq_none] at hm ⊢
            intro q hq hqp
            apply hm q hq
            have hqw := wd (hrs q hq)
            obtain ⟨q1, q2⟩ := q
            cases q1 with
            | nil => exact absurd rfl hqw.1
            | cons d q1 =>
              unfold occurs at hqp ⊢
              simp only [Bool.and_eq_true, List.isPrefixOf_iff_prefix, List.cons_prefix_cons,
                List.length_cons, List.drop_succ_cons] at hqp ⊢
              obtain ⟨⟨⟨rfl, h1⟩, h2⟩, h3⟩ := hqp
              obtain ⟨i1, i2⟩ := prefix_of_replW hrw.1 q1 cs (isWord d)
                (fun z hz => (independent_suffix (hi _ hq) hz).2) (hqw.2.2.1 w) h1 h3
              exact ⟨⟨⟨rfl, i1⟩, h2⟩, i2⟩

theorem foldl_replW (rs : List (List Char × List Char)) : Independent rs →
    (∀ r ∈ rs, wordy r = true) → ∀ s : List Char,
    rs.foldl (fun s r => replaceWord r.1 r.2 s) s = simW rs false s := by
  induction rs with
  | nil =>
    intro _ _ s
    show s = simW [] false s
    suffices h : ∀ w, s = simW [] w s from h false
    induction s with
    | nil => intro w; rfl
    | cons c s ih => intro w; rw [simW_none rfl, ← ih]
  | cons r rs ih =>
    intro h hw s
    have h1 := List.pairwise_cons.1 h.1
    have h' : Independent rs := ⟨h1.2, fun q hq => h.2 q (by simp [hq])⟩
    rw [List.foldl_cons, ih h' (fun q hq => hw q (by simp [hq]))]
    exact simW_replW (hw r (by simp)) (fun q hq => hw q (by simp [hq])) h'.free
      (fun q hq => (h1.1 q hq).1) _ s false (Nat.le_refl _)

theorem matchingW_perm {rs rs' : List (List Char × List Char)} (h : Independent rs)
    (hp : rs.Perm rs') (p : Option Char) (s : List Char) : matchingW rs p s = matchingW rs' p s := by
  cases hm : matchingW rs p s with
  | some q =>
    have hq : q ∈ rs := List.mem_of_find?_eq_some hm
    have hqp : occurs q.1 p s = true := by unfold matchingW at hm; simpa using List.find?_some hm
    exact (matchingW_unique (h.perm hp).free (hp.mem_iff.1 hq) hqp).symm
  | none =>
    unfold matchingW at hm ⊢
    rw [List.find?_eq_none] at hm
    symm
    rw [List.find?_eq_none]
    exact fun q hq => hm q (hp.mem_iff.2 hq)

theorem simW_perm {rs rs' : List (List Char × List Char)} (h : Independent rs) (hp : rs.Perm rs') :
    ∀ (p : Option Char) (n : Nat) (s : List Char), simWGo rs p n s = simWGo rs' p n s := by
  intro p n s
  induction s generalizing p n with
  | nil => cases n <;> rfl
  | cons c cs ih =>
    cases n with
    | succ n => exact ih _ n
    | zero =>
      unfold simWGo
      rw [← matchingW_perm h hp]
      cases matchingW rs p (c :: cs) with
      | none => exact congrArg _ (ih _ 0)
      | some r => exact congrArg _ (ih _ _)

theorem foldl_correct (es : List (String × String)) : ∀ s : List Char,
    es.foldl correct s = (rules es).foldl (fun s r => replaceWord r.1 r.2 s) s := by
  induction es with
  | nil => intro s; rfl
  | cons e es ih => intro s; exact ih _

set_option maxRecDepth 100000 in
theorem corrections_independent : Independent (rules corrections) := by decide +kernel

set_option maxRecDepth 100000 in
theorem corrections_wordy : ∀ r ∈ rules corrections, wordy r = true := by decide +kernel

/-! ## C67 -/

/-- **C67.** For every kind and text, and every order in which the two tables are iterated, `Sprint`
gives the same: the text with all placeholders replaced at once, and then all wrong articles and
plurals replaced at once. -/
theorem C67_order (k : Kind) (subs corrs : List (String × String))
    (hs : subs.Perm (substitutions k)) (hc : corrs.Perm corrections) (s : List Char) :
    sprintWith subs corrs s =
      simW (rules corrections) false (sim (rules (substitutions k)) s) := by
  unfold sprintWith
  rw [foldl_substitute, foldl_correct,
    foldl_replace _ ((substitutions_independent k).perm (rules_perm hs.symm)),
    foldl_replW _ (corrections_independent.perm (rules_perm hc.symm))
      (fun r hr => corrections_wordy r ((rules_perm hc).mem_iff.1 hr))]
  unfold simW sim
  rw [← sim_perm (substitutions_independent k) (rules_perm hs.symm),
    ← simW_perm corrections_independent (rules_perm hc.symm)]

example : sprint .event "1 <messages> <PRODUCED>, not a <message> nor a <message>ual one" =
    "1 event RECORDED, not an event nor a eventual one" := by decide +kernel

/-- The tables can not be changed at will: with an entry that makes what another one
replaces, the order would matter. -/
example : ¬ Independent (rules (("<event>", "<message>") :: substitutions .event)) := by
  decide +kernel

end Verif.Inflect
