import Verif.ExplainSpec
import Verif.ExpectRefine
import Verif.Props.Inflect

/-!
# Explanations of predicates

Helper lemmas: texts of reports, what a tracker knows, sections of reports.
-/

namespace Verif

/-! ## Texts -/

theorem noMatch_texts (k : Kind) :
    Inflect.sprint k "no <messages> were <produced> at all" = Why.text k .noneOfKind ∧
    Inflect.sprint k "nothing <produced> a matching <message>" = Why.text k .nothingMatched ∧
    Inflect.sprint k "none of the engaged handlers <produced> a matching <message>" =
      Why.text k .handlersNoMatch ∧
    Inflect.sprint k "verify the logic within the code that uses the <dispatcher>" =
      Hint.text k .caller ∧
    Inflect.sprint k "a similar <message> was <produced> via a <dispatcher>" =
      Why.text k .similarOutside := by
  cases k <;> decide +kernel

namespace Inflect

theorem isPrefixOf_split {k a b : List Char} {q : Char} (hq : q ∉ k) :
    k.isPrefixOf (a ++ q :: b) = k.isPrefixOf a := by
  induction k generalizing a with
  | nil => cases a <;> rfl
  | cons c k ih =>
    simp only [List.mem_cons, not_or] at hq
    cases a with
    | nil => simp [List.isPrefixOf, Ne.symm hq.1]
    | cons x a => simp [List.isPrefixOf, ih hq.2]

theorem isPrefixOf_length {k a : List Char} (h : k.isPrefixOf a = true) : k.length ≤ a.length :=
  (List.isPrefixOf_iff_prefix.1 h).length_le

theorem replaceGo_split {k v : List Char} {q : Char} (hq : q ∉ k) (hk : k ≠ []) (b : List Char) :
    ∀ (a : List Char) (n : Nat), n ≤ a.length →
      replaceGo k v n (a ++ q :: b) = replaceGo k v n a ++ q :: replaceGo k v 0 b
  | [], n, h => by
    have : n = 0 := by simpa using h
    subst this
    have hp : k.isPrefixOf (q :: b) = false := by
      have := isPrefixOf_split (a := []) (b := b) hq
      rw [List.nil_append] at this
      rw [this]
      cases k with
      | nil => exact absurd rfl hk
      | cons c k => rfl
    simp [replaceGo, hp]
  | c :: a, n + 1, h => by
    simp only [List.cons_append, replaceGo]
    exact replaceGo_split hq hk b a n (by simpa using h)
  | c :: a, 0, _ => by
    have hp := isPrefixOf_split (k := k) (a := c :: a) (b := b) hq
    rw [List.cons_append] at hp ⊢
    simp only [replaceGo, hp]
    split
    · rename_i h1
      have := isPrefixOf_length h1
      rw [List.append_assoc, replaceGo_split hq hk b a _ (by simp at this; omega)]
    · rw [replaceGo_split hq hk b a 0 (Nat.zero_le _)]; rfl

theorem replaceWordGo_prev {k v : List Char} {p p' : Option Char} (h : noWord p = noWord p')
    (n : Nat) (s : List Char) : replaceWordGo k v p n s = replaceWordGo k v p' n s := by
  cases s with
  | nil => simp [replaceWordGo]
  | cons c s => cases n <;> simp [replaceWordGo, h]

theorem head_drop_split {k a b : List Char} {q : Char} (hl : k.length ≤ a.length)
    (hw : isWord q = false) :
    noWord ((a ++ q :: b).drop k.length).head? = noWord (a.drop k.length).head? := by
  rw [List.drop_append_of_le_length hl]
  cases a.drop k.length with
  | nil => simp [noWord, hw]
  | cons x l => rfl

theorem replaceWordGo_split {k v : List Char} {q : Char} (hq : q ∉ k) (hk : k ≠ [])
    (hw : isWord q = false) (b : List Char) :
    ∀ (a : List Char) (p : Option Char) (n : Nat), n ≤ a.length →
      replaceWordGo k v p n (a ++ q :: b) =
        replaceWordGo k v p n a ++ q :: replaceWordGo k v none 0 b
  | [], p, n, h => by
    have : n = 0 := by simpa using h
    subst this
    have hp : k.isPrefixOf (q :: b) = false := by
      have := isPrefixOf_split (a := []) (b := b) hq
      rw [List.nil_append] at this
      rw [this]
      cases k with
      | nil => exact absurd rfl hk
      | cons c k => rfl
    have : noWord (some q) = noWord none := by simp [noWord, hw]
    simp [replaceWordGo, hp, replaceWordGo_prev this]
  | c :: a, p, n + 1, h => by
    simp only [List.cons_append, replaceWordGo]
    exact replaceWordGo_split hq hk hw b a _ n (by simpa using h)
  | c :: a, p, 0, _ => by
    have hp := isPrefixOf_split (k := k) (a := c :: a) (b := b) hq
    by_cases h0 : k.isPrefixOf (c :: a) = true
    · have hd := head_drop_split (b := b) (isPrefixOf_length h0) hw
      have hl := isPrefixOf_length h0
      rw [List.cons_append] at hp hd ⊢
      simp only [replaceWordGo, hp, hd]
      split
      · rw [List.append_assoc, replaceWordGo_split hq hk hw b a _ _ (by simp at hl; omega)]
      · rw [replaceWordGo_split hq hk hw b a _ 0 (Nat.zero_le _)]; rfl
    · rw [List.cons_append] at hp ⊢
      simp only [Bool.not_eq_true] at h0
      simp only [replaceWordGo, hp, h0, Bool.false_and]
      rw [if_neg (by decide), if_neg (by decide),
        replaceWordGo_split hq hk hw b a _ 0 (Nat.zero_le _)]
      rfl

theorem substitute_split (e : String × String) (a b : List Char)
    (h : '\'' ∉ e.1.toList ∧ '\'' ∉ upper e.1.toList ∧ e.1.toList ≠ []) :
    substitute (a ++ '\'' :: b) e = substitute a e ++ '\'' :: substitute b e := by
  unfold substitute replace
  rw [replaceGo_split h.1 h.2.2 b a 0 (Nat.zero_le _),
    replaceGo_split h.2.1 (by simpa [upper] using h.2.2) _ _ 0 (Nat.zero_le _)]

theorem correct_split (e : String × String) (a b : List Char)
    (h : '\'' ∉ e.1.toList ∧ '\'' ∉ upper e.1.toList ∧ e.1.toList ≠ []) :
    correct (a ++ '\'' :: b) e = correct a e ++ '\'' :: correct b e := by
  unfold correct replaceWord
  have hw : isWord '\'' = false := by decide
  rw [replaceWordGo_split h.1 h.2.2 hw b a _ 0 (Nat.zero_le _),
    replaceWordGo_split h.2.1 (by simpa [upper] using h.2.2) hw _ _ _ 0 (Nat.zero_le _)]

theorem foldl_split {f : List Char → String × String → List Char} {l : List (String × String)}
    (h : ∀ e ∈ l, ∀ a b, f (a ++ '\'' :: b) e = f a e ++ '\'' :: f b e) (a b : List Char) :
    l.foldl f (a ++ '\'' :: b) = l.foldl f a ++ '\'' :: l.foldl f b := by
  induction l generalizing a b with
  | nil => rfl
  | cons e l ih =>
    simp only [List.foldl_cons]
    rw [h e (by simp), ih (fun e' he' => h e' (by simp [he']))]

/-- The parts of a text between quotes are inflected on their own. -/
theorem sprint_quote (k : Kind) (a b : String) :
    sprint k (a ++ "'" ++ b) = sprint k a ++ "'" ++ sprint k b := by
  unfold sprint sprintWith
  have h1 : ∀ e ∈ substitutions k,
      '\'' ∉ e.1.toList ∧ '\'' ∉ upper e.1.toList ∧ e.1.toList ≠ [] := by
    cases k <;> decide
  have h2 : ∀ e ∈ corrections,
      '\'' ∉ e.1.toList ∧ '\'' ∉ upper e.1.toList ∧ e.1.toList ≠ [] := by decide
  have e0 : (a ++ "'" ++ b).toList = a.toList ++ '\'' :: b.toList := by
    simp [String.toList_append]
  rw [e0, foldl_split (fun e he a b => substitute_split e a b (h1 e he)),
    foldl_split (fun e he a b => correct_split e a b (h2 e he)), String.ofList_append]
  rw [← List.singleton_append, String.ofList_append]
  simp [String.append_assoc]

theorem isPrefixOf_absent {k s : List Char} {x : Char} (hx : x ∈ k) (hs : x ∉ s) :
    k.isPrefixOf s = false := by
  cases h : k.isPrefixOf s with
  | false => rfl
  | true => exact absurd ((List.isPrefixOf_iff_prefix.1 h).mem hx) hs

theorem replaceGo_absent {k v : List Char} {x : Char} (hx : x ∈ k) :
    ∀ s : List Char, x ∉ s → replaceGo k v 0 s = s
  | [], _ => by simp [replaceGo]
  | c :: s, hs => by
    simp only [replaceGo, isPrefixOf_absent hx hs]
    rw [if_neg (by decide), replaceGo_absent hx s (fun h => hs (by simp [h]))]

theorem replaceWordGo_absent {k v : List Char} {x : Char} (hx : x ∈ k) :
    ∀ (s : List Char) (p : Option Char), x ∉ s → replaceWordGo k v p 0 s = s
  | [], _, _ => by simp [replaceWordGo]
  | c :: s, p, hs => by
    simp only [replaceWordGo, isPrefixOf_absent hx hs, Bool.false_and]
    rw [if_neg (by decide), replaceWordGo_absent hx s _ (fun h => hs (by simp [h]))]

/-- A name without blanks and angle brackets is not touched by inflection. -/
theorem plain_name (k : Kind) (n : String) (h1 : '<' ∉ n.toList) (h2 : ' ' ∉ n.toList) :
    sprint k n = n := by
  unfold sprint sprintWith
  have f1 : ∀ (l : List (String × String)),
      (∀ e ∈ l, '<' ∈ e.1.toList ∧ '<' ∈ upper e.1.toList) → l.foldl substitute n.toList = n.toList := by
    intro l
    induction l with
    | nil => intro _; rfl
    | cons e l ih =>
      intro h
      obtain ⟨a, b⟩ := h e (by simp)
      simp only [List.foldl_cons]
      have : substitute n.toList e = n.toList := by
        unfold substitute replace
        rw [replaceGo_absent a _ h1, replaceGo_absent b _ h1]
      rw [this]
      exact ih (fun e' he' => h e' (by simp [he']))
  have f2 : ∀ (l : List (String × String)),
      (∀ e ∈ l, ' ' ∈ e.1.toList ∧ ' ' ∈ upper e.1.toList) → l.foldl correct n.toList = n.toList := by
    intro l
    induction l with
    | nil => intro _; rfl
    | cons e l ih =>
      intro h
      obtain ⟨a, b⟩ := h e (by simp)
      simp only [List.foldl_cons]
      have : correct n.toList e = n.toList := by
        unfold correct replaceWord
        rw [replaceWordGo_absent a _ _ h2, replaceWordGo_absent b _ _ h2]
      rw [this]
      exact ih (fun e' he' => h e' (by simp [he']))
  rw [f1 _ (by cases k <;> decide), f2 _ (by decide)]
  simp

end Inflect

theorem role_aggregate (k : Kind) :
    Inflect.sprint k " aggregate message handler" = " aggregate message handler" := by
  cases k <;> decide +kernel

theorem role_process (k : Kind) :
    Inflect.sprint k " process message handler" = " process message handler" := by
  cases k <;> decide +kernel

theorem role_integration (k : Kind) :
    Inflect.sprint k " integration message handler" = " integration message handler" := by
  cases k <;> decide +kernel

theorem role_projection (k : Kind) :
    Inflect.sprint k " projection message handler" = " projection message handler" := by
  cases k <;> decide +kernel

theorem role_text (k : Kind) (t : HandlerType) :
    Inflect.sprint k (" " ++ t.str ++ " message handler") = " " ++ t.str ++ " message handler" := by
  cases t
  · have e : " " ++ HandlerType.aggregate.str ++ " message handler" =
      " aggregate message handler" := by decide +kernel
    rw [e]; exact role_aggregate k
  · have e : " " ++ HandlerType.process.str ++ " message handler" =
      " process message handler" := by decide +kernel
    rw [e]; exact role_process k
  · have e : " " ++ HandlerType.integration.str ++ " message handler" =
      " integration message handler" := by decide +kernel
    rw [e]; exact role_integration k
  · have e : " " ++ HandlerType.projection.str ++ " message handler" =
      " projection message handler" := by decide +kernel
    rw [e]; exact role_projection k

theorem quoted_text {k : Kind} {a n c a' c' : String} (ha : Inflect.sprint k a = a')
    (hc : Inflect.sprint k c = c') :
    Inflect.sprint k (a ++ "'" ++ (n ++ "'" ++ c)) =
      a' ++ "'" ++ (Inflect.sprint k n ++ "'" ++ c') := by
  rw [Inflect.sprint_quote, Inflect.sprint_quote, ha, hc]

theorem similar_parts (n : String) (t : HandlerType) :
    "a similar <message> was <produced> by the '" ++ n ++ "' " ++ t.str ++ " message handler" =
      "a similar <message> was <produced> by the " ++ "'" ++ (n ++ "'" ++
        (" " ++ t.str ++ " message handler")) := by
  have e1 : "a similar <message> was <produced> by the '" =
    "a similar <message> was <produced> by the " ++ "'" := by decide +kernel
  have e2 : "' " = "'" ++ " " := by decide +kernel
  rw [e1, e2]; simp only [String.append_assoc]

theorem similar_start : ∀ k, Inflect.sprint k "a similar <message> was <produced> by the " =
    "a similar " ++ k.noun ++ " was " ++ k.done ++ " by the " := by
  intro k; cases k <;> decide +kernel

theorem similar_end (a b c d e : String) :
    "a similar " ++ a ++ " was " ++ b ++ " by the " ++ "'" ++ (c ++ "'" ++ (" " ++ d ++ e)) =
      "a similar " ++ a ++ " was " ++ b ++ " by the '" ++ c ++ "' " ++ d ++ e := by
  have e1 : " by the '" = " by the " ++ "'" := by decide +kernel
  have e2 : "' " = "'" ++ " " := by decide +kernel
  rw [e1, e2]; simp only [String.append_assoc]

/-- The explanation with the name of a handler. -/
theorem similar_text (k : Kind) (n : String) (t : HandlerType) :
    Inflect.sprint k ("a similar <message> was <produced> by the '" ++ n ++ "' " ++ t.str ++
      " message handler") = Why.text k (.similarBy n t) :=
  (congrArg (Inflect.sprint k) (similar_parts n t)).trans
    ((quoted_text (similar_start k) (role_text k t)).trans (similar_end _ _ _ _ _))

/-- What a report says an expectation wants. -/
theorem criteria_text (k : Kind) (n : String) :
    Inflect.sprint k ("<produce> a specific '" ++ n ++ "' <message>") =
      k.verb ++
      " a specific '" ++ Inflect.sprint k n ++ "' " ++ k.noun ∧
    Inflect.sprint k ("<produce> any '" ++ n ++ "' <message>") =
      k.verb ++
      " any '" ++ Inflect.sprint k n ++ "' " ++ k.noun := by
  have e2 : "' <message>" = "'" ++ " <message>" := by decide +kernel
  have e3 : "<produce> a specific '" = "<produce> a specific " ++ "'" := by decide +kernel
  have e4 : "<produce> any '" = "<produce> any " ++ "'" := by decide +kernel
  have e5 : "' " = "'" ++ " " := by decide +kernel
  have e6 : " a specific '" = " a specific " ++ "'" := by decide +kernel
  have e7 : " any '" = " any " ++ "'" := by decide +kernel
  constructor
  · have e : "<produce> a specific '" ++ n ++ "' <message>" =
        "<produce> a specific " ++ "'" ++ (n ++ "'" ++ " <message>") := by
      rw [e2, e3]; simp only [String.append_assoc]
    have h1 : Inflect.sprint k "<produce> a specific " =
        k.verb ++
        " a specific " := by cases k <;> decide +kernel
    have h2 : Inflect.sprint k " <message>" = " " ++ k.noun := by cases k <;> decide +kernel
    rw [e, quoted_text h1 h2, e5, e6]; simp only [String.append_assoc]
  · have e : "<produce> any '" ++ n ++ "' <message>" =
        "<produce> any " ++ "'" ++ (n ++ "'" ++ " <message>") := by
      rw [e2, e4]; simp only [String.append_assoc]
    have h1 : Inflect.sprint k "<produce> any " =
        k.verb ++
        " any " := by cases k <;> decide +kernel
    have h2 : Inflect.sprint k " <message>" = " " ++ k.noun := by cases k <;> decide +kernel
    rw [e, quoted_text h1 h2, e5, e7]; simp only [String.append_assoc]

/-! ## The tracker -/

theorem firstByName_snoc (l : List (String × HandlerType)) (x : String × HandlerType) :
    firstByName (l ++ [x]) =
      if (firstByName l).any (fun y => decide (y.1 = x.1)) then firstByName l
      else firstByName l ++ [x] := by
  induction l with
  | nil => rfl
  | cons a l ih =>
    simp only [List.cons_append, firstByName, ih, List.any_cons]
    by_cases ha : a.1 = x.1
    · simp only [ha, decide_true, Bool.true_or, if_true]
      split
      · rfl
      · simp
    · simp only [ha, decide_false, Bool.false_or]
      have hany : ((firstByName l).filter (fun y => decide (y.1 ≠ a.1))).any
          (fun y => decide (y.1 = x.1)) = (firstByName l).any (fun y => decide (y.1 = x.1)) := by
        rw [List.any_filter]
        congr 1
        funext y
        by_cases hy : y.1 = x.1
        · have : x.1 ≠ a.1 := fun h => ha h.symm
          simp [hy, this]
        · simp [hy]
      rw [hany]
      split
      · rfl
      · have : x.1 ≠ a.1 := fun h => ha h.symm
        simp [List.filter_append, this]

theorem firstByName_lookup (l : List (String × HandlerType)) :
    ∀ x ∈ firstByName l, (firstByName l).lookup x.1 = some x.2 := by
  suffices h : ∀ (l : List (String × HandlerType)), (l.map Prod.fst).Nodup →
      ∀ x ∈ l, l.lookup x.1 = some x.2 by
    refine h _ ?_
    induction l with
    | nil => simp [firstByName]
    | cons a l ih =>
      simp only [firstByName, List.map_cons, List.nodup_cons]
      refine ⟨by simp, ?_⟩
      exact ih.sublist ((List.filter_sublist).map _)
  intro l
  induction l with
  | nil => simp
  | cons a l ih =>
    intro hn x hx
    simp only [List.map_cons, List.nodup_cons] at hn
    rcases List.mem_cons.1 hx with rfl | hx
    · rw [List.lookup_cons, beq_self_eq_true]
    · have hne : x.1 ≠ a.1 := fun h => hn.1 (h ▸ List.mem_map_of_mem hx)
      have : (x.1 == a.1) = false := by simpa using hne
      rw [List.lookup_cons, this]
      exact ih hn.2 x hx

/-- What the tracker of a predicate knows after the facts `fs`. -/
structure TrackInv (s : PScope) (k : Kind) (fs : List Fact) (t : Tracker) : Prop where
  kind : t.kind = k
  opts : t.opts = s.opts
  begun : t.cycleBegun = (lastCycle fs).isSome
  enabled : ∀ c, lastCycle fs = some c → t.enabled = c.enables
  total : t.total = (countedIn s.opts.matchDispatch fs).length
  produced : t.produced = (ofKind k (countedIn s.opts.matchDispatch fs)).length
  types : t.engagedType = engagedIn k fs
  order : t.engagedOrder = (engagedIn k fs).map Prod.fst

theorem TrackInv.fresh (s : PScope) (k : Kind) : TrackInv s k [] { kind := k, opts := s.opts } := by
  constructor <;> first | rfl | simp [lastCycle]

theorem isProducerOf_eq (t : HandlerType) (k : Kind) :
    t.isProducerOf k = decide (t ∈ producersOf k) := by
  cases t <;> cases k <;> decide

theorem lastCycle_snoc (fs : List Fact) (f : Fact) : lastCycle (fs ++ [f]) =
    match f with
    | .dispatchCycleBegun _ c => some c
    | _ => lastCycle fs := by
  unfold lastCycle
  cases f <;> simp [List.filterMap_append]

theorem engagedIn_snoc (k : Kind) (fs : List Fact) (f : Fact) : engagedIn k (fs ++ [f]) =
    match f with
    | .handlingBegun h _ =>
      if h.htype ∈ producersOf k then
        if (engagedIn k fs).any (fun y => decide (y.1 = h.name)) then engagedIn k fs
        else engagedIn k fs ++ [(h.name, h.htype)]
      else engagedIn k fs
    | _ => engagedIn k fs := by
  unfold engagedIn busyIn
  cases f
  case handlingBegun h e =>
    simp only [List.filterMap_append, List.filter_append, List.map_append]
    by_cases hp : h.htype ∈ producersOf k
    · simp [hp, firstByName_snoc]
    · simp [hp]
  all_goals simp [List.filterMap_append]

theorem TrackInv.step {s : PScope} {k : Kind} {fs : List Fact} {t : Tracker}
    (h : TrackInv s k fs t) (f : Fact) : TrackInv s k (fs ++ [f]) (t.notify f).1 := by
  obtain ⟨h1, h2, h3, h4, h5, h6, h7, h8⟩ := h
  constructor
  · rw [(Tracker.notify_opts t f).2, h1]
  · rw [(Tracker.notify_opts t f).1, h2]
  · rw [lastCycle_snoc]
    cases f <;> simp only [Tracker.notify, Tracker.messageProduced, Tracker.updateEngaged] <;>
      (try split) <;> (try split) <;> first | exact h3 | simp
  · intro c hc
    rw [lastCycle_snoc] at hc
    cases f <;> simp only [Tracker.notify, Tracker.messageProduced, Tracker.updateEngaged] <;>
      (try simp only [Option.some.injEq] at hc) <;>
      (try split) <;> (try split) <;> first | exact h4 c hc | (subst hc; rfl)
  · rw [countedIn_snoc, List.length_append, ← h5, ← h2]
    cases f <;> simp only [Tracker.notify, Tracker.messageProduced, Tracker.updateEngaged,
      Fact.counts, Fact.created, Fact.produced] <;>
      (try split) <;> (try split) <;> simp_all
  · rw [Tracker.notify_produced, countedIn_snoc, h6, h2, h1]
    cases f.counts s.opts.matchDispatch with
    | none => simp
    | some env =>
      simp only [Option.map_some, Option.toList_some, ofKind_snoc, List.length_append]
      split <;> simp
  · rw [engagedIn_snoc, ← h7]
    cases f <;> simp only [Tracker.notify, Tracker.messageProduced, Tracker.updateEngaged] <;>
      first
        | rfl
        | (rw [isProducerOf_eq, h1]; simp only [decide_eq_true_eq]; split <;> (try split) <;> rfl)
        | (split <;> rfl)
  · rw [engagedIn_snoc]
    cases f <;> simp only [Tracker.notify, Tracker.messageProduced, Tracker.updateEngaged] <;>
      first
        | exact h8
        | (rw [isProducerOf_eq, h1, h7]; simp only [decide_eq_true_eq]
           split <;> (try split) <;> simp [h8])
        | (split <;> exact h8)

end Verif
