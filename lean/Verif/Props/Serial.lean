import Verif.Props.Concurrent

/-!
# Concurrent operations and sequential ones (C65)

`C65_serial` runs the critical sections one after the other with the message IDs they took.  A
program that makes the same calls one after the other numbers messages differently.  Here:
up to the numbering, the state is that of the sequential program.
-/

namespace Verif.Conc

variable {C : Type}

/-! ## Specification -/

/-- Run a program, `m` being the last message ID taken before. -/
def solo : Crit C → C → Nat → C × Nat
  | .done, c, m => (c, m)
  | .panic, c, m => (c, m)
  | .touch f k, c, m => solo (k c) (f c) m
  | .id k, c, m => solo (k (m + 1)) c (m + 1)
  | .resetIDs k, c, _ => solo k c 0

/-- A call, while nobody else uses the engine. -/
def Call.solo : Call C → C × Nat → C × Nat
  | .locked b, x => Conc.solo b x.1 x.2
  | .withID k, x =>
    match k (x.2 + 1) with
    | some b => Conc.solo b x.1 (x.2 + 1)
    | none => (x.1, x.2 + 1)

/-- The state after calls that are made one after the other. -/
def sequential (c : C) (calls : List (Call C)) : C × Nat :=
  calls.foldl (fun x call => call.solo x) (c, 0)

/-- `act σ` renames the message IDs in the state.  `Renamed act σ b b'`: `b'` does to the renamed
state what `b` does to the state. -/
inductive Renamed (act : (Nat → Nat) → C → C) (σ : Nat → Nat) : Crit C → Crit C → Prop where
  | done : Renamed act σ .done .done
  | panic : Renamed act σ .panic .panic
  | touch {f f' k k'} (hf : ∀ c, f' (act σ c) = act σ (f c))
    (hk : ∀ c, Renamed act σ (k c) (k' (act σ c))) : Renamed act σ (.touch f k) (.touch f' k')
  | id {k k'} (hk : ∀ n, Renamed act σ (k n) (k' (σ n))) : Renamed act σ (.id k) (.id k')
  | resetIDs {k k'} (hk : Renamed act σ k k') : Renamed act σ (.resetIDs k) (.resetIDs k')

/-- Different IDs stay different. -/
def Inj (σ : Nat → Nat) : Prop := ∀ a b, σ a = σ b → a = b

/-- A call that does not look into message IDs: it can only pass them on and compare them. -/
def Call.Blind (act : (Nat → Nat) → C → C) : Call C → Prop
  | .locked b => ∀ σ, Inj σ → Renamed act σ b b
  | .withID k => ∀ σ, Inj σ → ∀ n,
      match k n, k (σ n) with
      | none, none => True
      | some b, some b' => Renamed act σ b b'
      | _, _ => False

/-- The calls that entered a critical section, in this order. -/
def entered (prog : Nat → List (Call C)) (ls : List (Label C)) : List (Call C) :=
  (sections ls).filterMap (fun x => (prog x.1)[x.2.1]?)

/-! ## Message IDs in the order of the sections -/

/-- The ID a call took when it began. -/
def rootOf (ls : List (Label C)) (t i : Nat) : List Nat :=
  ls.filterMap (fun l => match l with
    | .callID t' i' n => if t' = t ∧ i' = i then some n else none
    | _ => none)

/-- The IDs of the calls that entered a critical section, in this order. -/
def used (ls : List (Label C)) : List Nat :=
  (sections ls).flatMap (fun x => rootOf ls x.1 x.2.1 ++ x.2.2.2)

theorem rootOf_snoc (ls : List (Label C)) (l : Label C) (t i : Nat) :
    rootOf (ls ++ [l]) t i = rootOf ls t i ++ match l with
      | .callID t' i' n => if t' = t ∧ i' = i then [n] else []
      | _ => [] := by
  unfold rootOf
  rw [List.filterMap_append]
  congr 1
  cases l <;> simp
  rename_i t' i' n
  by_cases h : t' = t ∧ i' = i
  · simp [h]
  · simp [h]

theorem rootOf_mem {ls : List (Label C)} {t i n : Nat} :
    n ∈ rootOf ls t i ↔ .callID t i n ∈ ls := by
  unfold rootOf
  rw [List.mem_filterMap]
  constructor
  · rintro ⟨l, hl, he⟩
    cases l <;> simp at he
    obtain ⟨⟨rfl, rfl⟩, rfl⟩ := he
    exact hl
  · intro h
    exact ⟨_, h, by simp⟩

/-- How a call that is waiting for the mutex got its program. -/
def Rooted (prog : Nat → List (Call C)) (ls : List (Label C)) (t i : Nat) (b : Crit C) : Prop :=
  ((prog t)[i]? = some (.locked b) ∧ rootOf ls t i = []) ∨
    ∃ k n, (prog t)[i]? = some (.withID k) ∧ rootOf ls t i = [n] ∧ k n = some b

theorem no_root {c : C} {prog : Nat → List (Call C)} {ls : List (Label C)} {s : St C}
    (h : Steps (init c prog) ls s) (t i : Nat) (hi : (s.threads t).begun ≤ i) :
    rootOf ls t i = [] := by
  cases hr : rootOf ls t i with
  | nil => rfl
  | cons n ns =>
    have : n ∈ rootOf ls t i := by rw [hr]; simp
    have := (posInv h).label _ (rootOf_mem.1 this)
    simp only [Label.at_] at this
    omega

theorem rooted {c : C} {prog : Nat → List (Call C)} {ls : List (Label C)} {s : St C}
    (h : Steps (init c prog) ls s) : ∀ t b, (s.threads t).phase = .waiting b →
      Rooted prog ls t ((s.threads t).begun - 1) b := by
  induction h with
  | nil => intro t b hb; exact nomatch hb
  | @snoc ls s' l s'' hs0 hs ih =>
    have pos := posInv hs0
    intro u b hb
    -- goroutines that did not make the step
    have other : ∀ (t : Nat) (x : Thread C) (s1 : St C), s1.threads = s'.threads → u ≠ t →
        (∀ i n, l = .callID u i n → False) → ((s1.set t x).threads u).phase = .waiting b →
        Rooted prog (ls ++ [l]) u (((s1.set t x).threads u).begun - 1) b := by
      intro t x s1 e1 hne hl hb
      rw [set_threads, if_neg hne, e1] at hb ⊢
      have := ih u b hb
      have e : ∀ i, rootOf (ls ++ [l]) u i = rootOf ls u i := by
        intro i
        rw [rootOf_snoc]
        cases l <;> simp
        rename_i t' i' n
        intro ht _
        subst ht
        exact hl _ _ rfl
      unfold Rooted at this ⊢
      simp only [e]
      exact this
    have not_waiting : ∀ (t : Nat) (x : Thread C) (s1 : St C), (∀ b, x.phase ≠ .waiting b) →
        ((s1.set t x).threads u).phase = .waiting b → u ≠ t := by
      intro t x s1 hx hb e
      subst e
      rw [set_threads, if_pos rfl] at hb
      exact hx b hb
    cases hs with
    | call g =>
      rename_i t b0 rest n
      by_cases hu : u = t
      · subst hu
        rw [set_threads, if_pos rfl] at hb ⊢
        cases hb
        have htodo := pos.todo u
        rw [g] at htodo
        refine .inl ⟨(drop_cons htodo).1, ?_⟩
        rw [rootOf_snoc]
        simp only [Nat.add_sub_cancel, List.append_nil]
        exact no_root hs0 u n (by rw [g]; exact Nat.le_refl _)
      · exact other _ _ _ rfl hu (fun _ _ e => nomatch e) hb
    | callID g hk =>
      rename_i t k rest n b0
      by_cases hu : u = t
      · subst hu
        rw [set_threads, if_pos rfl] at hb ⊢
        cases hb
        have htodo := pos.todo u
        rw [g] at htodo
        refine .inr ⟨k, s'.ids + 1, (drop_cons htodo).1, ?_, hk⟩
        rw [rootOf_snoc]
        simp only [Nat.add_sub_cancel]
        rw [no_root hs0 u n (by rw [g]; exact Nat.le_refl _)]
        simp
      · exact other _ _ { s' with ids := s'.ids + 1 } rfl hu (fun _ _ e => by cases e; exact hu rfl) hb
    | callIDPanic g hk =>
      have hu := not_waiting _ _ { s' with ids := s'.ids + 1 } (by intro _ h; cases h) hb
      exact other _ _ { s' with ids := s'.ids + 1 } rfl hu (fun _ _ e => by cases e; exact hu rfl) hb
    | giveUp g =>
      exact other _ _ _ rfl (not_waiting _ _ s' (by intro _ h; cases h) hb) (fun _ _ e => nomatch e) hb
    | lock g hl =>
      rename_i t _ _ _
      exact other _ _ { s' with holder := some t } rfl
        (not_waiting _ _ { s' with holder := some t } (by intro _ h; cases h) hb) (fun _ _ e => nomatch e) hb
    | touch g =>
      rename_i t f _ _ _
      exact other _ _ { s' with ctl := f s'.ctl } rfl
        (not_waiting _ _ { s' with ctl := f s'.ctl } (by intro _ h; cases h) hb) (fun _ _ e => nomatch e) hb
    | id g =>
      exact other _ _ { s' with ids := s'.ids + 1 } rfl
        (not_waiting _ _ { s' with ids := s'.ids + 1 } (by intro _ h; cases h) hb) (fun _ _ e => nomatch e) hb
    | resetIDs g =>
      exact other _ _ { s' with ids := 0 } rfl
        (not_waiting _ _ { s' with ids := 0 } (by intro _ h; cases h) hb) (fun _ _ e => nomatch e) hb
    | unlock g hk =>
      exact other _ _ { s' with holder := none } rfl
        (not_waiting _ _ { s' with holder := none } (by intro _ h; cases h) hb) (fun _ _ e => nomatch e) hb

theorem last_induction {α : Type} {P : List α → Prop} (nil : P [])
    (snoc : ∀ l x, P l → P (l ++ [x])) (l : List α) : P l := by
  have : ∀ n (l : List α), l.length = n → P l := by
    intro n
    induction n with
    | zero => intro l h; rw [List.length_eq_zero_iff.1 h]; exact nil
    | succ n ih =>
      intro l h
      rcases List.eq_nil_or_concat l with rfl | ⟨l', x, rfl⟩
      · exact nil
      · rw [List.concat_eq_append]
        refine snoc l' x (ih l' ?_)
        simpa using h
  exact this _ l rfl

theorem sections_locked (ls : List (Label C)) : ∀ x ∈ sections ls,
    .lock x.1 x.2.1 x.2.2.1 ∈ ls ∧ ∀ n ∈ x.2.2.2, ∃ t i, .id t i n ∈ ls := by
  induction ls using last_induction with
  | nil => intro x h; exact nomatch h
  | snoc ls l ih =>
    have lift : ∀ x ∈ sections ls, .lock x.1 x.2.1 x.2.2.1 ∈ ls ++ [l] ∧
        ∀ n ∈ x.2.2.2, ∃ t i, .id t i n ∈ ls ++ [l] := by
      intro x hx
      obtain ⟨h1, h2⟩ := ih x hx
      refine ⟨by simp [h1], fun n hn => ?_⟩
      obtain ⟨t, i, h⟩ := h2 n hn
      exact ⟨t, i, by simp [h]⟩
    intro x hx
    rw [sections_snoc] at hx
    cases l with
    | lock t i b =>
      simp only at hx
      rcases List.mem_append.1 hx with hx | hx
      · exact lift x hx
      · rw [List.mem_singleton.1 hx]
        exact ⟨by simp, nofun⟩
    | id t i n =>
      simp only at hx
      cases hl : (sections ls).getLast? with
      | none => rw [hl] at hx; exact lift x hx
      | some y =>
        obtain ⟨t', i', b', ns⟩ := y
        rw [hl] at hx
        simp only at hx
        have hy : (t', i', b', ns) ∈ sections ls := List.mem_of_getLast? hl
        rcases List.mem_append.1 hx with hx | hx
        · exact lift x (List.dropLast_subset _ hx)
        · rw [List.mem_singleton.1 hx]
          obtain ⟨h1, h2⟩ := lift _ hy
          refine ⟨h1, fun m hm => ?_⟩
          rcases List.mem_append.1 hm with hm | hm
          · exact h2 m hm
          · exact ⟨t, i, by simp [List.mem_singleton.1 hm]⟩
    | _ => exact lift x hx

/-- Steps that took the same ID are the same. -/
theorem taken_inj {ls : List (Label C)} (nd : (ls.filterMap Label.taken).Nodup) :
    ∀ l ∈ ls, ∀ l' ∈ ls, ∀ n, l.taken = some n → l'.taken = some n → l = l' := by
  induction ls with
  | nil => intro l hl; exact nomatch hl
  | cons a ls ih =>
    intro l hl l' hl' n h h'
    have mem : ∀ x ∈ ls, x.taken = some n → n ∈ ls.filterMap Label.taken :=
      fun x hx hn => List.mem_filterMap.2 ⟨x, hx, hn⟩
    rw [List.filterMap_cons] at nd
    rcases List.mem_cons.1 hl with e | hl <;> rcases List.mem_cons.1 hl' with e' | hl'
    · rw [e, e']
    · rw [← e, h] at nd
      exact absurd (mem _ hl' h') (List.nodup_cons.1 nd).1
    · rw [← e', h'] at nd
      exact absurd (mem _ hl h) (List.nodup_cons.1 nd).1
    · refine ih ?_ l hl l' hl' n h h'
      cases ha : a.taken with
      | none => rw [ha] at nd; exact nd
      | some _ => rw [ha] at nd; exact (List.nodup_cons.1 nd).2

theorem used_mem {ls : List (Label C)} {n : Nat} (h : n ∈ used ls) :
    (∃ t i b, .lock t i b ∈ ls ∧ .callID t i n ∈ ls) ∨ ∃ t i, .id t i n ∈ ls := by
  unfold used at h
  obtain ⟨x, hx, hn⟩ := List.mem_flatMap.1 h
  obtain ⟨h1, h2⟩ := sections_locked ls x hx
  rcases List.mem_append.1 hn with hn | hn
  · exact .inl ⟨_, _, _, h1, rootOf_mem.1 hn⟩
  · exact .inr (h2 n hn)

theorem used_taken {ls : List (Label C)} {n : Nat} (h : n ∈ used ls) :
    n ∈ ls.filterMap Label.taken := by
  rcases used_mem h with ⟨t, i, b, _, h⟩ | ⟨t, i, h⟩
  · exact List.mem_filterMap.2 ⟨_, h, rfl⟩
  · exact List.mem_filterMap.2 ⟨_, h, rfl⟩

/-- What a step adds. -/
theorem used_snoc {c : C} {prog : Nat → List (Call C)} {ls : List (Label C)} {l : Label C}
    {s s' : St C} (h : Steps (init c prog) ls s) (hs : Step s l s') :
    used (ls ++ [l]) = used ls ++ match l with
      | .lock t i _ => rootOf ls t i
      | .id _ _ n => [n]
      | _ => [] := by
  have pos := posInv h
  have same : (∀ t i n, l ≠ .callID t i n) → ∀ t i, rootOf (ls ++ [l]) t i = rootOf ls t i := by
    intro hl t i
    rw [rootOf_snoc]
    cases l <;> simp
    exact absurd rfl (hl _ _ _)
  have quiet : sections (ls ++ [l]) = sections ls → (∀ t i n, l ≠ .callID t i n) →
      used (ls ++ [l]) = used ls ++ [] := by
    intro e hl
    unfold used
    simp only [e, same hl, List.append_nil]
  cases hs with
  | call | giveUp | touch | resetIDs | unlock =>
    exact quiet (by rw [sections_snoc]) (fun _ _ _ => nofun)
  | callID g | callIDPanic g =>
    simp only [List.append_nil]
    unfold used
    rw [sections_snoc]
    simp only
    rw [List.flatMap_def, List.flatMap_def]
    congr 1
    apply List.map_congr_left
    intro x hx
    have hlt := pos.label _ (sections_locked ls x hx).1
    rw [rootOf_snoc]
    simp only [Label.at_] at hlt ⊢
    rw [if_neg, List.append_nil]
    rintro ⟨e1, e2⟩
    rw [← e1, g] at hlt
    simp only at hlt
    omega
  | lock g =>
    rename_i t b todo n _
    unfold used
    simp only [same (fun _ _ _ => nofun)]
    rw [sections_snoc]
    simp
  | id g =>
    rename_i t k todo n
    unfold used
    simp only [same (fun _ _ _ => nofun)]
    have hin := (lockInv h).inside t
    have := serialInv h
    unfold SerialInv at this
    rw [hin.1 ⟨_, by rw [g]⟩] at this
    obtain ⟨b', ss, i, b, ns, p1, p2, p3⟩ := this
    rw [sections_snoc]
    simp only [p2, List.getLast?_concat, List.dropLast_concat]
    simp

theorem taken_nodup {c : C} {prog : Nat → List (Call C)} {ls : List (Label C)} {s : St C}
    (h : Steps (init c prog) ls s) (hr : ∀ t i, .resetIDs t i ∉ ls) :
    (ls.filterMap Label.taken).Nodup := by
  rw [C66_sequence h hr]
  exact List.nodup_range'

theorem used_nodup {c : C} {prog : Nat → List (Call C)} {ls : List (Label C)} {s : St C}
    (h : Steps (init c prog) ls s) (hr : ∀ t i, .resetIDs t i ∉ ls) : (used ls).Nodup := by
  induction h with
  | nil => exact List.nodup_nil
  | @snoc ls s' l s'' hs0 hs ih =>
    have nd := taken_nodup (Steps.snoc hs0 hs) hr
    have hr0 : ∀ t i, .resetIDs t i ∉ ls := fun t i hm => hr t i (by simp [hm])
    have ih := ih hr0
    have inj := taken_inj nd
    rw [used_snoc hs0 hs]
    cases hs with
    | lock g hl =>
      rename_i t b todo n
      have hroot := rooted hs0 t b (by rw [g])
      rw [g] at hroot
      simp only [Nat.add_sub_cancel] at hroot
      rcases hroot with ⟨_, e⟩ | ⟨k, m, _, e, _⟩
      · simp only [e, List.append_nil]; exact ih
      · simp only [e]
        refine List.nodup_append.2 ⟨ih, by simp, ?_⟩
        intro a ha b' hb' hab
        rw [List.mem_singleton] at hb'
        subst hb' hab
        have hm : .callID t n a ∈ ls := rootOf_mem.1 (by rw [e]; simp)
        rcases used_mem ha with ⟨t', i', b', h1, h2⟩ | ⟨t', i', h2⟩
        · have := inj _ (List.mem_append_left _ hm) _ (by simp [h2] : Label.callID t' i' a ∈ _) a rfl rfl
          cases this
          exact ((posInv hs0).locks t n b' h1).2 b (by rw [g]) (by rw [g])
        · have := inj _ (List.mem_append_left _ hm) _ (by simp [h2] : Label.id t' i' a ∈ _) a rfl rfl
          exact nomatch this
    | id g =>
      rename_i t k todo n
      refine List.nodup_append.2 ⟨ih, by simp, ?_⟩
      intro a ha b' hb' hab
      rw [List.mem_singleton] at hb'
      subst hb' hab
      have h1 := used_taken ha
      rw [List.filterMap_append] at nd
      exact (List.nodup_append.1 nd).2.2 _ h1 _ (by simp [Label.taken]) rfl
    | _ => simpa using ih

/-- A renaming that takes 1, 2, … to distinct given numbers. -/
theorem exists_renaming (l : List Nat) (nd : l.Nodup) :
    ∃ σ, Inj σ ∧ l = (List.range' 1 l.length).map σ := by
  have bound : ∃ M, ∀ x ∈ l, x < M := by
    clear nd
    induction l with
    | nil => exact ⟨0, nofun⟩
    | cons a l ih =>
      obtain ⟨M, hM⟩ := ih
      refine ⟨M + a + 1, fun x hx => ?_⟩
      rcases List.mem_cons.1 hx with rfl | hx
      · omega
      · have := hM x hx; omega
  obtain ⟨M, hM⟩ := bound
  refine ⟨fun k => if k = 0 then M else (l[k - 1]?).getD (k + M), ?_, ?_⟩
  · have val : ∀ k, (k ≠ 0 ∧ ∃ h : k - 1 < l.length, (if k = 0 then M else
        (l[k - 1]?).getD (k + M)) = l[k - 1]) ∨ (if k = 0 then M else
        (l[k - 1]?).getD (k + M)) = k + M := by
      intro k
      by_cases h0 : k = 0
      · right; simp [h0]
      · by_cases h1 : k - 1 < l.length
        · left; exact ⟨h0, h1, by simp [h0, h1]⟩
        · right; simp [h0, List.getElem?_eq_none (Nat.le_of_not_lt h1)]
    intro a b hab
    simp only at hab
    rcases val a with ⟨a0, ha, ea⟩ | ea <;> rcases val b with ⟨b0, hb, eb⟩ | eb
    · rw [ea, eb] at hab
      have := (List.getElem_inj nd).1 hab
      omega
    · rw [ea, eb] at hab
      have := hM _ (List.getElem_mem ha)
      omega
    · rw [ea, eb] at hab
      have := hM _ (List.getElem_mem hb)
      omega
    · rw [ea, eb] at hab
      omega
  · apply List.ext_getElem
    · simp
    · intro i h1 h2
      simp [List.getElem_range']
      rw [List.getElem?_eq_getElem h1]
      rfl

/-! ## Up to renaming -/

/-- The used IDs are the images of 1, 2, … -/
def Numbered (σ : Nat → Nat) (ls : List (Label C)) : Prop :=
  used ls = (List.range' 1 (used ls).length).map σ

theorem numbered_prefix {σ : Nat → Nat} {l m : List Nat}
    (h : l ++ m = (List.range' 1 (l ++ m).length).map σ) :
    l = (List.range' 1 l.length).map σ ∧
    ∀ n rest, m = n :: rest → n = σ (l.length + 1) := by
  rw [List.length_append, ← List.range'_append, List.map_append] at h
  have h' := List.append_inj h (by simp)
  refine ⟨h'.1, ?_⟩
  rintro n rest rfl
  have := congrArg List.head? h'.2
  simp [List.range'_succ] at this
  rw [this, Nat.add_comm]

/-- The state in terms of the sequential program. -/
def SeqInv (act : (Nat → Nat) → C → C) (σ : Nat → Nat) (c : C) (prog : Nat → List (Call C))
    (ls : List (Label C)) (s : St C) : Prop :=
  match s.holder with
  | none => ∃ c1, sequential c (entered prog ls) = (c1, (used ls).length) ∧ s.ctl = act σ c1
  | some t => ∃ b1' b1 c1, (s.threads t).phase = .inside b1' ∧ Renamed act σ b1 b1' ∧
      sequential c (entered prog ls) = solo b1 c1 (used ls).length ∧ s.ctl = act σ c1

theorem entered_same {prog : Nat → List (Call C)} {ls ls' : List (Label C)}
    (h : (sections ls').map (fun x => (x.1, x.2.1)) = (sections ls).map (fun x => (x.1, x.2.1))) :
    entered prog ls' = entered prog ls := by
  unfold entered
  have e : ∀ l : List (Nat × Nat × Crit C × List Nat), l.filterMap (fun x => (prog x.1)[x.2.1]?) =
      (l.map (fun x => (x.1, x.2.1))).filterMap (fun x => (prog x.1)[x.2]?) := by
    intro l
    rw [List.filterMap_map]
    rfl
  rw [e, e, h]

theorem seqInv {act : (Nat → Nat) → C → C} {σ : Nat → Nat} (hσ : Inj σ) {c : C}
    {prog : Nat → List (Call C)} (hact : act σ c = c)
    (hblind : ∀ t, ∀ call ∈ prog t, call.Blind act) {ls : List (Label C)} {s : St C}
    (h : Steps (init c prog) ls s) (hr : ∀ t i, .resetIDs t i ∉ ls) (hnum : Numbered σ ls) :
    SeqInv act σ c prog ls s := by
  induction h with
  | nil => exact ⟨c, rfl, hact.symm⟩
  | @snoc ls s' l s'' hs0 hs ih =>
    have hr0 : ∀ t i, .resetIDs t i ∉ ls := fun t i hm => hr t i (by simp [hm])
    have husd := used_snoc hs0 hs
    unfold Numbered at hnum
    rw [husd] at hnum
    obtain ⟨hnum0, hnext⟩ := numbered_prefix hnum
    have ih := ih hr0 hnum0
    have inv := lockInv hs0
    have keep : ∀ (t : Nat) (x : Thread C) (s1 : St C), (∀ b, (s'.threads t).phase ≠ .inside b) →
        s1.holder = s'.holder → s1.ctl = s'.ctl → s1.threads = s'.threads →
        sections (ls ++ [l]) = sections ls → used (ls ++ [l]) = used ls →
        SeqInv act σ c prog (ls ++ [l]) (s1.set t x) := by
      intro t x s1 hn e1 e2 e3 e4 e5
      unfold SeqInv at ih ⊢
      rw [show (s1.set t x).holder = s'.holder from e1, e5,
        entered_same (ls := ls) (ls' := ls ++ [l]) (by rw [e4])]
      cases hh : s'.holder with
      | none =>
        rw [hh] at ih
        obtain ⟨c1, p1, p2⟩ := ih
        exact ⟨c1, p1, by rw [← p2]; exact e2⟩
      | some u =>
        rw [hh] at ih
        obtain ⟨b1', b1, c1, p1, p2, p3, p4⟩ := ih
        have hne : u ≠ t := fun e => hn b1' (e ▸ p1)
        exact ⟨b1', b1, c1, by rw [set_threads, if_neg hne, e3]; exact p1, p2, p3,
          by rw [← p4]; exact e2⟩
    have mine : ∀ t, (∃ b, (s'.threads t).phase = .inside b) → s'.holder = some t :=
      fun t => (inv.inside t).1
    cases hs with
    | call g | callID g _ | callIDPanic g _ | giveUp g =>
      refine keep _ _ _ (fun b => by rw [g]; nofun) rfl rfl rfl (by rw [sections_snoc]) ?_
      rw [husd]
      simp
    | lock g hl =>
      rename_i t b todo n
      unfold SeqInv at ih ⊢
      rw [hl] at ih
      obtain ⟨c1, p1, p2⟩ := ih
      have hroot := rooted hs0 t b (by rw [g])
      rw [g] at hroot
      simp only [Nat.add_sub_cancel] at hroot
      rw [husd]
      have hent : ∀ call, (prog t)[n]? = some call →
          entered prog (ls ++ [.lock t n b]) = entered prog ls ++ [call] := by
        intro call hc
        unfold entered
        rw [sections_snoc]
        simp [hc]
      have hseq : ∀ call, (prog t)[n]? = some call →
          sequential c (entered prog (ls ++ [.lock t n b])) = call.solo (c1, (used ls).length) := by
        intro call hc
        rw [hent call hc]
        unfold sequential at p1 ⊢
        rw [List.foldl_append, p1]
        rfl
      rcases hroot with ⟨hc, e⟩ | ⟨k, m, hc, e, hk⟩
      · have hb := hblind t _ (List.mem_of_getElem? hc) σ hσ
        refine ⟨b, b, c1, by rw [set_threads, if_pos rfl], hb, ?_, p2⟩
        rw [hseq _ hc]
        simp [e, Call.solo]
      · have hm := hnext m [] e
        have hb := hblind t _ (List.mem_of_getElem? hc) σ hσ ((used ls).length + 1)
        rw [← hm, hk] at hb
        cases hk1 : k ((used ls).length + 1) with
        | none => rw [hk1] at hb; exact hb.elim
        | some b1 =>
          rw [hk1] at hb
          refine ⟨b, b1, c1, by rw [set_threads, if_pos rfl], hb, ?_, p2⟩
          rw [hseq _ hc]
          simp [e, Call.solo, hk1]
    | touch g =>
      rename_i t f k todo n
      have ht := mine t ⟨_, by rw [g]⟩
      unfold SeqInv at ih ⊢
      rw [ht] at ih
      obtain ⟨b1', b1, c1, p1, p2, p3, p4⟩ := ih
      rw [g] at p1
      cases p1
      show match s'.holder with | none => _ | some t => _
      rw [ht]
      cases p2 with
      | @touch f0 _ k0 _ hf hk =>
        refine ⟨k s'.ctl, k0 c1, f0 c1, by rw [set_threads, if_pos rfl], ?_, ?_, ?_⟩
        · rw [p4]; exact hk c1
        · rw [husd, entered_same (ls := ls) (ls' := ls ++ [_]) (by rw [sections_snoc])]
          simp only [List.append_nil]
          rw [p3]
          rfl
        · show f s'.ctl = _
          rw [p4, hf]
    | id g =>
      rename_i t k todo n
      have ht := mine t ⟨_, by rw [g]⟩
      unfold SeqInv at ih ⊢
      rw [ht] at ih
      obtain ⟨b1', b1, c1, p1, p2, p3, p4⟩ := ih
      rw [g] at p1
      cases p1
      show match s'.holder with | none => _ | some t => _
      rw [ht]
      have hm := hnext (s'.ids + 1) [] rfl
      cases p2 with
      | @id k0 _ hk =>
        refine ⟨k (s'.ids + 1), k0 ((used ls).length + 1), c1, by rw [set_threads, if_pos rfl],
          ?_, ?_, p4⟩
        · rw [hm]; exact hk _
        · rw [husd]
          have : entered prog (ls ++ [.id t n (s'.ids + 1)]) = entered prog ls := by
            apply entered_same
            rw [sections_snoc]
            simp only
            cases hl : (sections ls).getLast? with
            | none => rfl
            | some y =>
              obtain ⟨t', i', b', ns⟩ := y
              simp only
              obtain ⟨ss, hss⟩ := List.getLast?_eq_some_iff.1 hl
              rw [hss]
              simp
          rw [this, p3]
          simp [solo]
    | resetIDs g => exact absurd (List.mem_append_right _ (List.mem_singleton.2 rfl)) (hr _ _)
    | unlock g hb =>
      rename_i t b todo n
      have ht := mine t ⟨_, by rw [g]⟩
      unfold SeqInv at ih ⊢
      rw [ht] at ih
      obtain ⟨b1', b1, c1, p1, p2, p3, p4⟩ := ih
      rw [g] at p1
      cases p1
      refine ⟨c1, ?_, p4⟩
      rw [husd, entered_same (ls := ls) (ls' := ls ++ [_]) (by rw [sections_snoc])]
      simp only [List.append_nil]
      rw [p3]
      rcases hb with rfl | rfl
      · cases p2; rfl
      · cases p2; rfl

/-! ## Properties -/

/-- **C65** If the engine is not reset and calls do not look into message IDs then, whenever no
goroutine holds the mutex, the state is, up to a renaming of the message IDs, the one reached by
making the calls one after the other, in the order in which they acquired the mutex. -/
theorem C65_sequential_partial {act : (Nat → Nat) → C → C} {c : C} {prog : Nat → List (Call C)}
    (hact : ∀ σ, Inj σ → act σ c = c) (hblind : ∀ t, ∀ call ∈ prog t, call.Blind act)
    {ls : List (Label C)} {s : St C} (h : Steps (init c prog) ls s)
    (hn : holding ls = none) (hr : ∀ t i, .resetIDs t i ∉ ls) :
    ∃ σ, Inj σ ∧ s.ctl = act σ (sequential c (entered prog ls)).1 := by
  obtain ⟨σ, hσ, hnum⟩ := exists_renaming (used ls) (used_nodup h hr)
  have := seqInv hσ (hact σ hσ) hblind h hr hnum
  unfold SeqInv at this
  rw [(lockInv h).holder, hn] at this
  obtain ⟨c1, p1, p2⟩ := this
  exact ⟨σ, hσ, by rw [p1]; exact p2⟩

/-! ## Instances -/

/-- The calls of the example do not look into message IDs. -/
example : (∀ σ, Inj σ → ([] : List Nat).map σ = []) ∧ Demo.dispatch.Blind (fun σ c => c.map σ) := by
  refine ⟨fun _ _ => rfl, ?_⟩
  intro σ _ n
  exact .touch (fun _ => rfl) (fun _ => .id (fun _ => .touch (fun _ => rfl) (fun _ => .done)))

/-- Two goroutines dispatch a message each: a renaming leads from the sequential state to theirs. -/
example : ∃ ls s, Steps Demo.two ls s ∧ s.ctl = [4, 1, 3, 2] ∧
    ∃ σ, Inj σ ∧ s.ctl = (sequential [] [Demo.dispatch, Demo.dispatch]).1.map σ := by
  refine ⟨_, _, runOf_steps (ts := [0, 1, 1, 1, 1, 1, 1, 0, 0, 0, 0, 0]) rfl, rfl, ?_⟩
  refine C65_sequential_partial (act := fun σ c => c.map σ) (c := []) (prog := fun t =>
    if t < 2 then [Demo.dispatch] else []) (fun _ _ => rfl) ?_
    (runOf_steps (ts := [0, 1, 1, 1, 1, 1, 1, 0, 0, 0, 0, 0]) rfl) rfl ?_
  · intro t call hc
    split at hc
    · rw [List.mem_singleton.1 hc]
      intro σ _ n
      exact .touch (fun _ => rfl) (fun _ => .id (fun _ => .touch (fun _ => rfl) (fun _ => .done)))
    · cases hc
  · intro t i
    simp

/-- **C65** The renaming is needed: two goroutines dispatch a message each, and the state that they
reach is not the one reached by making the calls one after the other. -/
theorem C65_renaming_fails : ∃ ls s, Steps Demo.two ls s ∧ holding ls = none ∧
    s.ctl = [4, 1, 3, 2] ∧ (sequential [] [Demo.dispatch, Demo.dispatch]).1 = [4, 3, 2, 1] :=
  ⟨_, _, runOf_steps (ts := [0, 1, 1, 1, 1, 1, 1, 0, 0, 0, 0, 0]) rfl, rfl, rfl, rfl⟩

end Verif.Conc
