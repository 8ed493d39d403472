import Verif.Concurrent

/-!
# Concurrent operations (C65, C66)
-/

namespace Verif.Conc

variable {C : Type}

/-! ## Specification -/

/-- Who holds the mutex after these steps. -/
def holding : List (Label C) → Option Nat :=
  List.foldl (fun h l => match l with
    | .lock t _ _ => some t
    | .unlock _ _ => none
    | _ => h) none

/-- The critical sections that were entered, in the order in which the mutex was acquired: the
goroutine, the number of the call, the program, and the message IDs it took. -/
def sections : List (Label C) → List (Nat × Nat × Crit C × List Nat) :=
  List.foldl (fun ss l => match l with
    | .lock t i b => ss ++ [(t, i, b, [])]
    | .id _ _ n =>
      match ss.getLast? with
      | some (t, i, b, ns) => ss.dropLast ++ [(t, i, b, ns ++ [n])]
      | none => ss
    | _ => ss) []

/-- Run a program without interruption, with these message IDs. -/
def alone : Crit C → List Nat → C → C
  | .done, _, c => c
  | .panic, _, c => c
  | .touch f k, ns, c => alone (k c) ns (f c)
  | .id k, n :: ns, c => alone (k n) ns c
  | .id _, [], c => c
  | .resetIDs k, ns, c => alone k ns c

/-- Run programs one after the other. -/
def serial (ss : List (Nat × Nat × Crit C × List Nat)) (c : C) : C :=
  ss.foldl (fun c x => alone x.2.2.1 x.2.2.2 c) c

/-- The message ID taken by a step. -/
def Label.taken : Label C → Option Nat
  | .callID _ _ n | .id _ _ n => some n
  | _ => none

/-- The goroutine and the call of a step that needs the mutex. -/
def Label.user : Label C → Option Nat
  | .touch t _ | .id t _ _ | .resetIDs t _ | .unlock t _ => some t
  | _ => none

/-! ## Invariants -/

theorem set_threads (s : St C) (t u : Nat) (x : Thread C) :
    (s.set t x).threads u = if u = t then x else s.threads u := rfl

/-- `holder` and the phases agree with the labels. -/
structure LockInv (ls : List (Label C)) (s : St C) : Prop where
  holder : s.holder = holding ls
  inside : ∀ t, (∃ b, (s.threads t).phase = .inside b) ↔ s.holder = some t

theorem holding_snoc (ls : List (Label C)) (l : Label C) :
    holding (ls ++ [l]) = match l with
      | .lock t _ _ => some t
      | .unlock _ _ => none
      | _ => holding ls := by
  unfold holding
  rw [List.foldl_append]
  cases l <;> rfl

theorem lockInv {c : C} {prog : Nat → List (Call C)} {ls : List (Label C)} {s : St C}
    (h : Steps (init c prog) ls s) : LockInv ls s := by
  induction h with
  | nil => exact ⟨rfl, fun t => ⟨fun ⟨b, hb⟩ => (nomatch hb), fun h => (nomatch h)⟩⟩
  | snoc _ hs ih =>
    obtain ⟨h1, h2⟩ := ih
    cases hs with
    | call h | callID h _ | callIDPanic h _ | giveUp h =>
      rename_i t _ _ _
      refine ⟨by rw [holding_snoc]; exact h1, fun u => ?_⟩
      have := h2 u
      simp only [set_threads]
      split
      · rename_i e; subst e
        rw [h] at this
        refine ⟨fun ⟨b, hb⟩ => (nomatch hb), fun hh => ?_⟩
        obtain ⟨b, hb⟩ := this.2 hh
        exact nomatch hb
      · exact this
    | lock h hl =>
      rename_i t _ _ _
      refine ⟨by rw [holding_snoc]; rfl, fun u => ?_⟩
      have := h2 u
      simp only [set_threads]
      split
      · rename_i e; subst e
        exact ⟨fun _ => rfl, fun _ => ⟨_, rfl⟩⟩
      · rename_i ne
        rw [hl] at this
        refine ⟨fun hb => (nomatch this.1 hb), fun hh => ?_⟩
        exact absurd (Option.some.inj hh).symm ne
    | touch h | id h | resetIDs h =>
      rename_i t _ _ _
      refine ⟨by rw [holding_snoc]; exact h1, fun u => ?_⟩
      have := h2 u
      simp only [set_threads]
      split
      · rename_i e; subst e
        rw [h] at this
        exact ⟨fun _ => this.1 ⟨_, rfl⟩, fun _ => ⟨_, rfl⟩⟩
      · exact this
    | unlock h hb =>
      rename_i t b _ _
      refine ⟨by rw [holding_snoc]; rfl, fun u => ?_⟩
      have := h2 u
      have ht := (h2 t).1 ⟨b, by rw [h]⟩
      simp only [set_threads]
      split
      · exact ⟨fun ⟨b, hb⟩ => (nomatch hb), fun h => (nomatch h)⟩
      · rename_i ne
        refine ⟨fun hb => ?_, fun h => (nomatch h)⟩
        rw [ht] at this
        exact absurd (Option.some.inj (this.1 hb)).symm ne

theorem steps_split {s : St C} {a : List (Label C)} {l : Label C} {b : List (Label C)} {s' : St C}
    (h : Steps s (a ++ l :: b) s') :
    ∃ s1 s2, Steps s a s1 ∧ Step s1 l s2 ∧ Steps s2 b s' := by
  generalize e : a ++ l :: b = x at h
  induction h generalizing b with
  | nil => simp at e
  | @snoc ls s1 l' s2 h1 h2 ih =>
    rcases List.eq_nil_or_concat b with rfl | ⟨b', y, rfl⟩
    · obtain ⟨rfl, e2⟩ := List.append_inj' e rfl
      cases e2
      exact ⟨_, _, h1, h2, .nil⟩
    · have e' : (a ++ l :: b') ++ [y] = ls ++ [l'] := by rw [← e]; simp
      obtain ⟨e1, e2⟩ := List.append_inj' e' rfl
      cases e2
      obtain ⟨t1, t2, g1, g2, g3⟩ := ih e1
      exact ⟨t1, t2, g1, g2, by simpa using Steps.snoc g3 h2⟩

/-! ## Mutual exclusion -/

/-- **C65** Steps that change the protected state, or that belong to a critical section in another
way, are made by the goroutine that holds the mutex, and the mutex is only acquired if no goroutine
holds it. -/
theorem C65_exclusive {c : C} {prog : Nat → List (Call C)} {a b : List (Label C)} {l : Label C}
    {s : St C} (h : Steps (init c prog) (a ++ l :: b) s) :
    (∀ t, l.user = some t → holding a = some t) ∧
    (∀ t i p, l = .lock t i p → holding a = none) := by
  obtain ⟨s1, s2, h1, h2, _⟩ := steps_split h
  have inv := lockInv h1
  refine ⟨?_, ?_⟩
  · intro t ht
    rw [← inv.holder]
    cases h2 with
    | call | callID | callIDPanic | giveUp | lock => exact nomatch ht
    | touch g | id g | resetIDs g | unlock g =>
      cases ht
      exact (inv.inside _).1 ⟨_, by rw [g]⟩
  · intro t i p e
    subst e
    rw [← inv.holder]
    cases h2 with
    | lock _ hl => exact hl

/-! ## Serialisation -/

theorem sections_snoc (ls : List (Label C)) (l : Label C) :
    sections (ls ++ [l]) = match l with
      | .lock t i b => sections ls ++ [(t, i, b, [])]
      | .id _ _ n =>
        match (sections ls).getLast? with
        | some (t, i, b, ns) => (sections ls).dropLast ++ [(t, i, b, ns ++ [n])]
        | none => sections ls
      | _ => sections ls := by
  unfold sections
  rw [List.foldl_append]
  cases l <;> rfl

theorem serial_snoc (ss : List (Nat × Nat × Crit C × List Nat)) (x : Nat × Nat × Crit C × List Nat)
    (c : C) : serial (ss ++ [x]) c = alone x.2.2.1 x.2.2.2 (serial ss c) := by
  simp [serial]

/-- What the state is in terms of the sections. -/
def SerialInv (c : C) (ls : List (Label C)) (s : St C) : Prop :=
  match s.holder with
  | none => s.ctl = serial (sections ls) c
  | some t => ∃ b' ss i b ns, (s.threads t).phase = .inside b' ∧
      sections ls = ss ++ [(t, i, b, ns)] ∧
      ∀ ns', alone b (ns ++ ns') (serial ss c) = alone b' ns' s.ctl

theorem serialInv {c : C} {prog : Nat → List (Call C)} {ls : List (Label C)} {s : St C}
    (h : Steps (init c prog) ls s) : SerialInv c ls s := by
  induction h with
  | nil => rfl
  | @snoc ls s' l s'' hs0 hs ih =>
    have inv := lockInv hs0
    have keep : ∀ (t : Nat) (x : Thread C) (s1 : St C), (∀ b, (s'.threads t).phase ≠ .inside b) →
        s1.holder = s'.holder → s1.ctl = s'.ctl → s1.threads = s'.threads →
        sections (ls ++ [l]) = sections ls → SerialInv c (ls ++ [l]) (s1.set t x) := by
      intro t x s1 hn e1 e2 e3 e4
      unfold SerialInv at ih ⊢
      rw [show (s1.set t x).holder = s'.holder from e1]
      cases hh : s'.holder with
      | none =>
        rw [hh] at ih
        simp only at ih ⊢
        rw [e4, ← ih]
        exact e2
      | some u =>
        rw [hh] at ih
        simp only at ih ⊢
        obtain ⟨b', ss, i, b, ns, p1, p2, p3⟩ := ih
        have hne : u ≠ t := fun e => hn b' (e ▸ p1)
        refine ⟨b', ss, i, b, ns, ?_, by rw [e4, p2], ?_⟩
        · rw [set_threads, if_neg hne, e3]; exact p1
        · intro ns'
          rw [p3 ns']
          show _ = alone b' ns' s1.ctl
          rw [e2]
    cases hs with
    | call h | callID h _ | callIDPanic h _ | giveUp h =>
      exact keep _ _ _ (fun b => by rw [h]; nofun) rfl rfl rfl (by rw [sections_snoc])
    | lock h hl =>
      rename_i t b todo n
      unfold SerialInv at ih ⊢
      rw [hl] at ih
      simp only at ih
      refine ⟨b, sections ls, n, b, [], by rw [set_threads, if_pos rfl], by rw [sections_snoc], ?_⟩
      intro ns'
      rw [← ih]
      rfl
    | touch h =>
      rename_i t f k todo n
      have ht := (inv.inside t).1 ⟨_, by rw [h]⟩
      unfold SerialInv at ih ⊢
      rw [ht] at ih
      simp only at ih
      obtain ⟨b', ss, i, b, ns, p1, p2, p3⟩ := ih
      rw [h] at p1
      cases p1
      show match s'.holder with | none => _ | some t => _
      rw [ht]
      refine ⟨k s'.ctl, ss, i, b, ns, by rw [set_threads, if_pos rfl],
        by rw [sections_snoc]; exact p2, ?_⟩
      intro ns'
      rw [p3 ns']
      rfl
    | id h =>
      rename_i t k todo n
      have ht := (inv.inside t).1 ⟨_, by rw [h]⟩
      unfold SerialInv at ih ⊢
      rw [ht] at ih
      simp only at ih
      obtain ⟨b', ss, i, b, ns, p1, p2, p3⟩ := ih
      rw [h] at p1
      cases p1
      show match s'.holder with | none => _ | some t => _
      rw [ht]
      refine ⟨k (s'.ids + 1), ss, i, b, ns ++ [s'.ids + 1], by rw [set_threads, if_pos rfl], ?_, ?_⟩
      · rw [sections_snoc]
        simp only [p2, List.getLast?_concat, List.dropLast_concat]
      · intro ns'
        have := p3 ((s'.ids + 1) :: ns')
        rw [List.append_assoc, List.singleton_append, this]
        rfl
    | resetIDs h =>
      rename_i t k todo n
      have ht := (inv.inside t).1 ⟨_, by rw [h]⟩
      unfold SerialInv at ih ⊢
      rw [ht] at ih
      simp only at ih
      obtain ⟨b', ss, i, b, ns, p1, p2, p3⟩ := ih
      rw [h] at p1
      cases p1
      show match s'.holder with | none => _ | some t => _
      rw [ht]
      refine ⟨k, ss, i, b, ns, by rw [set_threads, if_pos rfl],
        by rw [sections_snoc]; exact p2, ?_⟩
      intro ns'
      rw [p3 ns']
      rfl
    | unlock h hb =>
      rename_i t b0 todo n
      have ht := (inv.inside t).1 ⟨_, by rw [h]⟩
      unfold SerialInv at ih ⊢
      rw [ht] at ih
      simp only at ih
      obtain ⟨b', ss, i, b, ns, p1, p2, p3⟩ := ih
      rw [h] at p1
      cases p1
      show s'.ctl = serial (sections (ls ++ [_])) c
      rw [sections_snoc]
      simp only
      rw [p2, serial_snoc]
      simp only
      have := p3 []
      rw [List.append_nil] at this
      rw [this]
      rcases hb with rfl | rfl <;> rfl

/-- **C65** Whenever no goroutine holds the mutex, the protected state is the one reached by running
the critical sections one after the other, in the order in which the mutex was acquired, each of
them without interruption and with the message IDs it took. -/
theorem C65_serial {c : C} {prog : Nat → List (Call C)} {ls : List (Label C)} {s : St C}
    (h : Steps (init c prog) ls s) (hn : holding ls = none) : s.ctl = serial (sections ls) c := by
  have := serialInv h
  unfold SerialInv at this
  rw [(lockInv h).holder, hn] at this
  exact this

/-! ## The order of the critical sections -/

/-- Call `i` of goroutine `t` began with this step. -/
def Label.begins (t i : Nat) : Label C → Prop
  | .call t' i' | .callID t' i' _ => t' = t ∧ i' = i
  | _ => False

/-- Call `i` of goroutine `t` acquired the mutex with this step. -/
def Label.locks (t i : Nat) : Label C → Prop
  | .lock t' i' _ => t' = t ∧ i' = i
  | _ => False

/-- Call `i` of goroutine `t` ended with this step. -/
def Label.ends (t i : Nat) : Label C → Prop
  | .unlock t' i' | .giveUp t' i' => t' = t ∧ i' = i
  | _ => False

/-- The goroutine and the call of a step. -/
def Label.at_ : Label C → Nat × Nat
  | .call t i | .callID t i _ | .giveUp t i | .lock t i _ | .touch t i | .id t i _ | .resetIDs t i
  | .unlock t i => (t, i)

/-- The program of call `i` of goroutine `t` is `b`, given the steps. -/
def bodyOf (prog : Nat → List (Call C)) (ls : List (Label C)) (t i : Nat) (b : Crit C) : Prop :=
  (prog t)[i]? = some (.locked b) ∨
    ∃ k n, (prog t)[i]? = some (.withID k) ∧ .callID t i n ∈ ls ∧ k n = some b

/-- Which calls have been begun, have acquired the mutex, have ended. -/
structure PosInv (prog : Nat → List (Call C)) (ls : List (Label C)) (s : St C) : Prop where
  todo : ∀ t, (s.threads t).todo = (prog t).drop (s.threads t).begun
  pos : ∀ t, (s.threads t).phase ≠ .idle → 0 < (s.threads t).begun
  label : ∀ l ∈ ls, l.at_.2 < (s.threads l.at_.1).begun
  locks : ∀ t i b, .lock t i b ∈ ls → bodyOf prog ls t i b ∧
    ∀ b', (s.threads t).phase = .waiting b' → i + 1 ≠ (s.threads t).begun
  ends : ∀ t i, (∃ l ∈ ls, l.ends t i) → (s.threads t).phase ≠ .idle →
    i + 1 ≠ (s.threads t).begun
  body : ∀ t b, (s.threads t).phase = .waiting b →
    bodyOf prog ls t ((s.threads t).begun - 1) b

theorem bodyOf_mono {prog : Nat → List (Call C)} {ls : List (Label C)} {t i : Nat} {b : Crit C}
    (l : Label C) (h : bodyOf prog ls t i b) : bodyOf prog (ls ++ [l]) t i b := by
  rcases h with h | ⟨k, n, h1, h2, h3⟩
  · exact .inl h
  · exact .inr ⟨k, n, h1, by simp [h2], h3⟩

theorem drop_cons {α : Type} {l : List α} {n : Nat} {x : α} {xs : List α} (h : x :: xs = l.drop n) :
    l[n]? = some x ∧ xs = l.drop (n + 1) := by
  constructor
  · have := congrArg List.head? h
    simpa using this.symm
  · have := congrArg List.tail h
    simpa using this

theorem posInv {c : C} {prog : Nat → List (Call C)} {ls : List (Label C)} {s : St C}
    (h : Steps (init c prog) ls s) : PosInv prog ls s := by
  induction h with
  | nil =>
    refine ⟨fun t => rfl, fun t h => absurd rfl h, nofun, nofun, ?_, nofun⟩
    rintro t i ⟨l, hl, _⟩
    exact nomatch hl
  | @snoc ls s' l s'' hs0 hs ih =>
    -- a step of goroutine `t` (with call `n`), after which its state is `x`
    have step : ∀ (t n : Nat) (x : Thread C) (s1 : St C), s1.threads = s'.threads →
        l.at_ = (t, n) → x.begun = n + 1 → (s'.threads t).begun ≤ n + 1 →
        (x.todo = (prog t).drop (n + 1)) →
        (∀ b, l = .lock t n b → bodyOf prog ls t n b) →
        (∀ b, x.phase = .waiting b → (s'.threads t).begun = n ∧ bodyOf prog (ls ++ [l]) t n b ∧
          ∀ b', l ≠ .lock t n b') →
        (x.phase ≠ .idle → (∀ i, ¬ l.ends t i) ∧ ((s'.threads t).begun = n ∨
          ((s'.threads t).begun = n + 1 ∧ (s'.threads t).phase ≠ .idle))) →
        PosInv prog (ls ++ [l]) (s1.set t x) := by
      intro t n x s1 e1 hat hx hb htodo hlock hwait hin
      have same : ∀ u, u ≠ t → (s1.set t x).threads u = s'.threads u := by
        intro u hu; rw [set_threads, if_neg hu, e1]
      have self : (s1.set t x).threads t = x := by rw [set_threads, if_pos rfl]
      refine ⟨?_, ?_, ?_, ?_, ?_, ?_⟩
      · intro u
        by_cases hu : u = t
        · subst hu; rw [self, htodo, hx]
        · rw [same u hu]; exact ih.todo u
      · intro u
        by_cases hu : u = t
        · subst hu; rw [self, hx]; intro _; omega
        · rw [same u hu]; exact ih.pos u
      · intro l' hl'
        by_cases hu : l'.at_.1 = t
        · rw [hu, self, hx]
          rcases List.mem_append.1 hl' with hm | hm
          · have := ih.label l' hm
            rw [hu] at this
            omega
          · rw [List.mem_singleton.1 hm, hat]; simp
        · rw [same _ hu]
          rcases List.mem_append.1 hl' with hm | hm
          · exact ih.label l' hm
          · rw [List.mem_singleton.1 hm, hat] at hu; simp at hu
      · intro u i b hm
        rcases List.mem_append.1 hm with hm | hm
        · obtain ⟨g1, g2⟩ := ih.locks u i b hm
          refine ⟨bodyOf_mono l g1, ?_⟩
          by_cases hu : u = t
          · subst hu
            rw [self, hx]
            intro b' hb'
            have := ih.label _ hm
            simp only [Label.at_] at this
            have := (hwait b' hb').1
            omega
          · rw [same u hu]; exact g2
        · have e := List.mem_singleton.1 hm
          rw [← e] at hat
          simp only [Label.at_, Prod.mk.injEq] at hat
          obtain ⟨rfl, rfl⟩ := hat
          refine ⟨bodyOf_mono l (hlock b e.symm), ?_⟩
          rw [self, hx]
          intro b' hb'
          exact absurd e.symm ((hwait b' hb').2.2 b)
      · rintro u i ⟨l', hm, he⟩
        by_cases hu : u = t
        · subst hu
          rw [self, hx]
          intro hph
          obtain ⟨q1, q2⟩ := hin hph
          rcases List.mem_append.1 hm with hm | hm
          · rcases q2 with q2 | q2
            · have hl' := ih.label l' hm
              cases l' <;> simp only [Label.ends] at he
              all_goals
                obtain ⟨rfl, rfl⟩ := he
                simp only [Label.at_] at hl'
                omega
            · have := ih.ends u i ⟨l', hm, he⟩ q2.2
              omega
          · rw [List.mem_singleton.1 hm] at he
            exact absurd he (q1 i)
        · rw [same u hu]
          rcases List.mem_append.1 hm with hm | hm
          · exact ih.ends u i ⟨l', hm, he⟩
          · rw [List.mem_singleton.1 hm] at he
            cases l <;> simp only [Label.ends] at he
            all_goals
              obtain ⟨rfl, rfl⟩ := he
              simp only [Label.at_, Prod.mk.injEq] at hat
              exact absurd hat.1 hu
      · intro u b
        by_cases hu : u = t
        · subst hu
          rw [self, hx]
          intro hb'
          exact (hwait b hb').2.1
        · rw [same u hu]
          intro hb'
          exact bodyOf_mono l (ih.body u b hb')
    cases hs with
    | call h =>
      rename_i t b rest n
      have htodo := ih.todo t
      rw [h] at htodo
      obtain ⟨d1, d2⟩ := drop_cons htodo
      refine step t n _ _ rfl rfl rfl (by rw [h]; simp) d2 (fun b' e => nomatch e) ?_ ?_
      · intro b' hb'
        cases hb'
        exact ⟨by rw [h], .inl d1, fun _ => nofun⟩
      · intro _
        exact ⟨fun _ => id, .inl (by rw [h])⟩
    | callID h hb =>
      rename_i t k rest n b
      have htodo := ih.todo t
      rw [h] at htodo
      obtain ⟨d1, d2⟩ := drop_cons htodo
      refine step t n _ { s' with ids := s'.ids + 1 } rfl rfl rfl (by rw [h]; simp) d2
        (fun b' e => nomatch e) ?_ ?_
      · intro b' hb'
        cases hb'
        exact ⟨by rw [h], .inr ⟨k, _, d1, by simp, hb⟩, fun _ => nofun⟩
      · intro _
        exact ⟨fun _ => id, .inl (by rw [h])⟩
    | callIDPanic h hb =>
      rename_i t k rest n
      have htodo := ih.todo t
      rw [h] at htodo
      obtain ⟨d1, d2⟩ := drop_cons htodo
      refine step t n _ { s' with ids := s'.ids + 1 } rfl rfl rfl (by rw [h]; simp) d2
        (fun b' e => nomatch e) ?_ ?_
      · intro b' hb'
        exact nomatch hb'
      · intro hne
        exact absurd rfl hne
    | giveUp h =>
      rename_i t b todo n
      have htodo := ih.todo t
      rw [h] at htodo
      refine step t n _ _ rfl rfl rfl (by rw [h]; simp) htodo (fun b' e => nomatch e) ?_ ?_
      · intro b' hb'
        exact nomatch hb'
      · intro hne
        exact absurd rfl hne
    | lock h hl =>
      rename_i t b todo n
      have htodo := ih.todo t
      rw [h] at htodo
      refine step t n _ { s' with holder := some t } rfl rfl rfl (by rw [h]; simp) htodo ?_ ?_ ?_
      · intro b' e
        cases e
        have := ih.body t b (by rw [h])
        rw [h] at this
        exact this
      · intro b' hb'
        exact nomatch hb'
      · intro _
        exact ⟨fun _ => id, .inr ⟨by rw [h], by rw [h]; nofun⟩⟩
    | touch h =>
      rename_i t f k todo n
      have htodo := ih.todo t
      rw [h] at htodo
      refine step t n _ { s' with ctl := f s'.ctl } rfl rfl rfl (by rw [h]; simp) htodo
        (fun b' e => nomatch e) ?_ ?_
      · intro b' hb'
        exact nomatch hb'
      · intro _
        exact ⟨fun _ => id, .inr ⟨by rw [h], by rw [h]; nofun⟩⟩
    | id h =>
      rename_i t k todo n
      have htodo := ih.todo t
      rw [h] at htodo
      refine step t n _ { s' with ids := s'.ids + 1 } rfl rfl rfl (by rw [h]; simp) htodo
        (fun b' e => nomatch e) ?_ ?_
      · intro b' hb'
        exact nomatch hb'
      · intro _
        exact ⟨fun _ => id, .inr ⟨by rw [h], by rw [h]; nofun⟩⟩
    | resetIDs h =>
      rename_i t k todo n
      have htodo := ih.todo t
      rw [h] at htodo
      refine step t n _ { s' with ids := 0 } rfl rfl rfl (by rw [h]; simp) htodo
        (fun b' e => nomatch e) ?_ ?_
      · intro b' hb'
        exact nomatch hb'
      · intro _
        exact ⟨fun _ => id, .inr ⟨by rw [h], by rw [h]; nofun⟩⟩
    | unlock h hb =>
      rename_i t b todo n
      have htodo := ih.todo t
      rw [h] at htodo
      refine step t n _ { s' with holder := none } rfl rfl rfl (by rw [h]; simp) htodo
        (fun b' e => nomatch e) ?_ ?_
      · intro b' hb'
        exact nomatch hb'
      · intro hne
        exact absurd rfl hne

/-- **C65** The critical section of a call lies between the beginning and the end of the call, so
a call that ended before another one began comes before it in the order of `C65_serial`. -/
theorem C65_order {c : C} {prog : Nat → List (Call C)} {a b : List (Label C)} {l : Label C}
    {s : St C} (h : Steps (init c prog) (a ++ l :: b) s) (t i : Nat) :
    (l.begins t i → ∀ l' ∈ a, ¬ l'.locks t i) ∧ (l.ends t i → ∀ l' ∈ b, ¬ l'.locks t i) := by
  constructor
  · intro hb l' hl' hk
    obtain ⟨s1, s2, h1, h2, _⟩ := steps_split h
    have inv := posInv h1
    have hlt := inv.label l' hl'
    cases l' with
    | lock t' i' b' =>
      obtain ⟨rfl, rfl⟩ := hk
      simp only [Label.at_] at hlt
      cases h2 with
      | call g | callID g _ | callIDPanic g _ =>
        obtain ⟨rfl, rfl⟩ := hb
        rw [g] at hlt
        simp at hlt
      | _ => exact hb.elim
    | _ => exact hk.elim
  · intro he l' hl' hk
    obtain ⟨b1, b2, rfl⟩ := List.append_of_mem hl'
    rw [show a ++ l :: (b1 ++ l' :: b2) = (a ++ l :: b1) ++ l' :: b2 by simp] at h
    obtain ⟨s1, s2, h1, h2, _⟩ := steps_split h
    have inv := posInv h1
    cases h2 with
    | lock g _ =>
      obtain ⟨rfl, rfl⟩ := hk
      have := inv.ends _ _ ⟨l, by simp, he⟩ (by rw [g]; nofun)
      rw [g] at this
      exact this rfl
    | _ => exact hk.elim

/-- **C65** Each call enters at most one critical section, and the program of this section is the
one of the call. -/
theorem C65_calls {c : C} {prog : Nat → List (Call C)} {ls : List (Label C)} {s : St C}
    (h : Steps (init c prog) ls s) :
    (∀ t i b, .lock t i b ∈ ls → bodyOf prog ls t i b) ∧
    (∀ x y z l l' t i, ls = x ++ l :: y ++ l' :: z → l.locks t i → ¬ l'.locks t i) := by
  refine ⟨fun t i b hm => ((posInv h).locks t i b hm).1, ?_⟩
  intro x y z l l' t i e hl hl'
  subst e
  obtain ⟨s1, s2, h1, h2, _⟩ := steps_split h
  have inv := posInv h1
  cases h2 with
  | lock g _ =>
    obtain ⟨rfl, rfl⟩ := hl'
    cases l with
    | lock t' i' b' =>
      obtain ⟨rfl, rfl⟩ := hl
      exact (inv.locks t' i' b' (by simp)).2 _ (by rw [g]) (by rw [g])
    | _ => exact hl.elim
  | _ => exact hl'.elim

/-- **C65** No deadlock: as long as some goroutine has something left to do, some goroutine can make
a step other than giving up to wait. -/
theorem C65_progress {c : C} {prog : Nat → List (Call C)} {ls : List (Label C)} {s : St C}
    (h : Steps (init c prog) ls s) (t : Nat)
    (ht : (s.threads t).phase ≠ .idle ∨ (s.threads t).todo ≠ []) :
    ∃ l s', Step s l s' ∧ ∀ u i, l ≠ .giveUp u i := by
  have inv := lockInv h
  have pos := posInv h
  cases hh : s.holder with
  | some u =>
    obtain ⟨b, hb⟩ := (inv.inside u).2 hh
    have hp := pos.pos u (by rw [hb]; nofun)
    generalize hth : s.threads u = th at hb hp
    obtain ⟨ph, td, n⟩ := th
    cases hb
    obtain ⟨n, rfl⟩ : ∃ m, n = m + 1 := ⟨n - 1, by simp only at hp; omega⟩
    cases b with
    | done => exact ⟨_, _, .unlock hth (.inl rfl), nofun⟩
    | panic => exact ⟨_, _, .unlock hth (.inr rfl), nofun⟩
    | touch f k => exact ⟨_, _, .touch hth, nofun⟩
    | id k => exact ⟨_, _, .id hth, nofun⟩
    | resetIDs k => exact ⟨_, _, .resetIDs hth, nofun⟩
  | none =>
    have hp := pos.pos t
    have hi := inv.inside t
    generalize hth : s.threads t = th at ht hp hi
    obtain ⟨ph, td, n⟩ := th
    cases ph with
    | idle =>
      cases td with
      | nil => simp at ht
      | cons x rest =>
        cases x with
        | locked b => exact ⟨_, _, .call hth, nofun⟩
        | withID k =>
          cases hk : k (s.ids + 1) with
          | none => exact ⟨_, _, .callIDPanic hth hk, nofun⟩
          | some b => exact ⟨_, _, .callID hth hk, nofun⟩
    | waiting b =>
      have := hp nofun
      obtain ⟨n, rfl⟩ : ∃ m, n = m + 1 := ⟨n - 1, by simp only at this; omega⟩
      exact ⟨_, _, .lock hth hh, nofun⟩
    | inside b =>
      rw [hh] at hi
      exact nomatch hi.1 ⟨_, rfl⟩

/-! ## Message IDs -/

theorem step_ids {s s' : St C} {l : Label C} (h : Step s l s') :
    (∀ n, l.taken = some n → n = s.ids + 1 ∧ s'.ids = n) ∧
    (l.taken = none → (∀ t i, l ≠ .resetIDs t i) → s'.ids = s.ids) := by
  cases h with
  | callID | callIDPanic | id =>
    exact ⟨fun n hn => by cases hn; exact ⟨rfl, rfl⟩, fun hn => (nomatch hn)⟩
  | resetIDs => exact ⟨fun n hn => (nomatch hn), fun _ hr => absurd rfl (hr _ _)⟩
  | _ => exact ⟨fun n hn => (nomatch hn), fun _ _ => rfl⟩

theorem steps_ids {s s' : St C} {ls : List (Label C)} (h : Steps s ls s')
    (hr : ∀ t i, .resetIDs t i ∉ ls) : s'.ids = s.ids + (ls.filterMap Label.taken).length ∧
      ls.filterMap Label.taken = List.range' (s.ids + 1) (ls.filterMap Label.taken).length := by
  induction h with
  | nil => simp
  | @snoc ls s1 l s2 h1 h2 ih =>
    obtain ⟨i1, i2⟩ := ih (fun t i hm => hr t i (by simp [hm]))
    obtain ⟨g1, g2⟩ := step_ids h2
    rw [List.filterMap_append]
    cases ht : l.taken with
    | none =>
      have : [l].filterMap Label.taken = [] := by simp [ht]
      rw [this, List.append_nil]
      rw [g2 ht (fun t i e => hr t i (by simp [e]))]
      exact ⟨i1, i2⟩
    | some n =>
      have : [l].filterMap Label.taken = [n] := by simp [ht]
      rw [this]
      obtain ⟨e1, e2⟩ := g1 n ht
      refine ⟨by rw [e2, e1, i1]; simp; omega, ?_⟩
      rw [List.length_append, List.length_singleton, List.range'_concat, ← i2, e1, i1]
      simp
      omega

/-- **C66** As long as the engine is not reset, the message IDs taken by all calls, inside or
outside of the mutex, are 1, 2, 3, …, whatever the interleaving. -/
theorem C66_sequence {c : C} {prog : Nat → List (Call C)} {ls : List (Label C)} {s : St C}
    (h : Steps (init c prog) ls s) (hr : ∀ t i, .resetIDs t i ∉ ls) :
    ls.filterMap Label.taken = List.range' 1 (ls.filterMap Label.taken).length :=
  (steps_ids h hr).2

/-- **C66** If the same message ID is taken twice, then the engine was reset in between. -/
theorem C66_reset_partial {c : C} {prog : Nat → List (Call C)} {x y z : List (Label C)}
    {l l' : Label C} {n : Nat} {s : St C} (h : Steps (init c prog) (x ++ l :: y ++ l' :: z) s)
    (hl : l.taken = some n) (hl' : l'.taken = some n) : ∃ t i, .resetIDs t i ∈ y := by
  rcases Classical.em (∃ t i, Label.resetIDs t i ∈ y) with hr | hr
  · exact hr
  · exfalso
    rw [List.append_assoc, List.cons_append] at h
    obtain ⟨s1, s2, h1, h2, h3⟩ := steps_split h
    obtain ⟨s3, s4, h4, h5, _⟩ := steps_split h3
    have e1 := ((step_ids h2).1 n hl).2
    have e2 := ((step_ids h5).1 n hl').1
    have e3 := (steps_ids h4 (fun t i hm => hr ⟨t, i, hm⟩)).1
    omega

/-! ## Instances -/

/-- Goroutine `t` makes a step, if it can. -/
def stepOf (s : St C) (t : Nat) : Option (Label C × St C) :=
  match s.threads t with
  | ⟨.idle, [], _⟩ => none
  | ⟨.idle, .locked b :: rest, n⟩ => some (.call t n, s.set t ⟨.waiting b, rest, n + 1⟩)
  | ⟨.idle, .withID k :: rest, n⟩ =>
    match k (s.ids + 1) with
    | some b => some (.callID t n (s.ids + 1),
        { s with ids := s.ids + 1 }.set t ⟨.waiting b, rest, n + 1⟩)
    | none => some (.callID t n (s.ids + 1),
        { s with ids := s.ids + 1 }.set t ⟨.idle, rest, n + 1⟩)
  | ⟨.waiting b, todo, n + 1⟩ =>
    match s.holder with
    | none => some (.lock t n b, { s with holder := some t }.set t ⟨.inside b, todo, n + 1⟩)
    | some _ => none
  | ⟨.inside (.touch f k), todo, n + 1⟩ =>
    some (.touch t n, { s with ctl := f s.ctl }.set t ⟨.inside (k s.ctl), todo, n + 1⟩)
  | ⟨.inside (.id k), todo, n + 1⟩ =>
    some (.id t n (s.ids + 1),
      { s with ids := s.ids + 1 }.set t ⟨.inside (k (s.ids + 1)), todo, n + 1⟩)
  | ⟨.inside (.resetIDs k), todo, n + 1⟩ =>
    some (.resetIDs t n, { s with ids := 0 }.set t ⟨.inside k, todo, n + 1⟩)
  | ⟨.inside .done, todo, n + 1⟩ | ⟨.inside .panic, todo, n + 1⟩ =>
    some (.unlock t n, { s with holder := none }.set t ⟨.idle, todo, n + 1⟩)
  | ⟨_, _, 0⟩ => none

theorem stepOf_step {s s' : St C} {t : Nat} {l : Label C} (h : stepOf s t = some (l, s')) :
    Step s l s' := by
  unfold stepOf at h
  split at h
  · exact nomatch h
  · rename_i g; cases h; exact .call g
  · rename_i g
    split at h
    · rename_i hk; cases h; exact .callID g hk
    · rename_i hk; cases h; exact .callIDPanic g hk
  · rename_i g
    split at h
    · rename_i hk; cases h; exact .lock g hk
    · exact nomatch h
  · rename_i g; cases h; exact .touch g
  · rename_i g; cases h; exact .id g
  · rename_i g; cases h; exact .resetIDs g
  · rename_i g; cases h; exact .unlock g (.inl rfl)
  · rename_i g; cases h; exact .unlock g (.inr rfl)
  · exact nomatch h

/-- The goroutines make steps in this order. -/
def runOf (s : St C) : List Nat → Option (List (Label C) × St C)
  | [] => some ([], s)
  | t :: ts =>
    match stepOf s t with
    | none => none
    | some (l, s') => (runOf s' ts).map (fun x => (l :: x.1, x.2))

theorem steps_cons {s s' s'' : St C} {l : Label C} {ls : List (Label C)} (h : Step s l s')
    (g : Steps s' ls s'') : Steps s (l :: ls) s'' := by
  induction g with
  | nil => exact .snoc (ls := []) .nil h
  | snoc _ h2 ih => exact .snoc (ls := l :: _) ih h2

theorem runOf_steps {ts : List Nat} {s s' : St C} {ls : List (Label C)}
    (h : runOf s ts = some (ls, s')) : Steps s ls s' := by
  induction ts generalizing s ls with
  | nil => cases h; exact .nil
  | cons t ts ih =>
    unfold runOf at h
    split at h
    · exact nomatch h
    · rename_i l s1 hs
      cases hr : runOf s1 ts with
      | none => rw [hr] at h; exact nomatch h
      | some x =>
        rw [hr] at h
        cases h
        exact steps_cons (stepOf_step hs) (ih hr)

namespace Demo

/-- The state is the list of the IDs of the messages that were handled since the last reset, latest
first.  Dispatching a message handles it, and a message that is caused by it. -/
def dispatch : Call (List Nat) :=
  .withID (fun n => some (.touch (n :: ·) (fun _ => .id (fun m => .touch (m :: ·) (fun _ => .done)))))

/-- A reset. -/
def reset : Call (List Nat) := .locked (.resetIDs (.touch (fun _ => []) (fun _ => .done)))

/-- Two goroutines, each of which dispatches a message. -/
def two : St (List Nat) := init [] (fun t => if t < 2 then [dispatch] else [])

/-- The same with a goroutine that resets the engine. -/
def three : St (List Nat) :=
  init [] (fun t => if t < 2 then [dispatch] else if t = 2 then [reset] else [])

end Demo

/-- Goroutine 1 enters its critical section although goroutine 0 took its ID earlier. -/
example : ∃ ls s, Steps Demo.two ls s ∧ holding ls = none ∧ (∀ t i, .resetIDs t i ∉ ls) ∧
    s.ctl = [4, 1, 3, 2] ∧ ls.filterMap Label.taken = [1, 2, 3, 4] ∧
    (sections ls).map (fun x => (x.1, x.2.2.2)) = [(1, [3]), (0, [4])] := by
  refine ⟨_, _, runOf_steps (ts := [0, 1, 1, 1, 1, 1, 1, 0, 0, 0, 0, 0]) rfl, rfl, ?_, rfl, rfl, rfl⟩
  intro t i
  simp

/-- **C66** With a reset the claim is false: goroutine 0 takes ID 1, the engine is reset, goroutine
1 takes ID 1, then both dispatch their messages.  So two messages that are handled after the
reset have the same ID. -/
theorem C66_fails : ∃ ls s, Steps Demo.three ls s ∧ holding ls = none ∧ s.ctl = [3, 1, 2, 1] := by
  exact ⟨_, _, runOf_steps (ts := [0, 2, 2, 2, 2, 2, 1, 0, 0, 0, 0, 0, 1, 1, 1, 1, 1]) rfl, rfl, rfl⟩

end Verif.Conc
