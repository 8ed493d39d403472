import Verif.ExpectSpec

/-!
# Predicates against the meaning of expectations

Helper lemmas about single predicates and trees of them.
-/

namespace Verif

/-- An invariant of a fold, related to what was folded so far. -/
theorem foldl_inv {α β : Type} {step : β → α → β} (I : List α → β → Prop) {b : β} (h0 : I [] b)
    (hs : ∀ l b a, I l b → I (l ++ [a]) (step b a)) (l : List α) : I l (l.foldl step b) := by
  suffices h : ∀ (l pre : List α) (b : β), I pre b → I (pre ++ l) (l.foldl step b) by
    simpa using h l [] b h0
  intro l
  induction l with
  | nil => intro pre b h; simpa using h
  | cons a l ih =>
    intro pre b h
    simpa using ih (pre ++ [a]) (step b a) (hs pre b a h)

/-! ## The tracker -/

theorem Tracker.notify_env (t : Tracker) (f : Fact) :
    (t.notify f).2 = f.counts t.opts.matchDispatch := by
  unfold Tracker.notify Fact.counts
  cases f <;> cases h : t.opts.matchDispatch <;>
    simp [Fact.created, Fact.produced, h]

theorem Tracker.notify_opts (t : Tracker) (f : Fact) :
    (t.notify f).1.opts = t.opts ∧ (t.notify f).1.kind = t.kind := by
  unfold Tracker.notify
  cases f <;> simp only [Tracker.messageProduced, Tracker.updateEngaged] <;>
    first
      | exact ⟨rfl, rfl⟩
      | exact ⟨trivial, trivial⟩
      | (split <;> first | exact ⟨rfl, rfl⟩ | (split <;> exact ⟨rfl, rfl⟩))

theorem Tracker.notify_produced (t : Tracker) (f : Fact) :
    (t.notify f).1.produced = t.produced +
      (match f.counts t.opts.matchDispatch with
       | some env => if env.msg.type.kind = t.kind then 1 else 0
       | none => 0) := by
  unfold Tracker.notify Fact.counts
  cases f <;> cases h : t.opts.matchDispatch <;>
    simp [Fact.created, Fact.produced, h, Tracker.messageProduced, Tracker.updateEngaged] <;>
    (try split) <;> (try split) <;> first | rfl | simp_all

/-! ## Leaves -/

theorem MsgPred.notify_fields (s : PScope) (p : MsgPred) (f : Fact) :
    (p.notify s f).expected = p.expected ∧ (p.notify s f).comparator = p.comparator ∧
    (p.notify s f).tracker.opts = p.tracker.opts := by
  unfold MsgPred.notify
  split
  · exact ⟨rfl, rfl, rfl⟩
  · have h := (Tracker.notify_opts p.tracker f).1
    split
    · rename_i t hn; rw [hn] at h; exact ⟨rfl, rfl, h⟩
    · rename_i t env hn
      rw [hn] at h
      split <;> exact ⟨rfl, rfl, h⟩

theorem MsgPred.notify_ok (s : PScope) (p : MsgPred) (f : Fact) (hc : p.comparator = s.opts.comparator) :
    (p.notify s f).ok = (p.ok || match f.counts p.tracker.opts.matchDispatch with
      | some env => decide (env.msg.type = p.expected.type) && s.same env.msg p.expected
      | none => false) := by
  unfold MsgPred.notify
  split
  · rename_i h; simp [h]
  · rename_i hk
    have he := Tracker.notify_env p.tracker f
    rcases hn : p.tracker.notify f with ⟨t, oenv⟩
    rw [hn] at he
    simp only at he
    rw [← he]
    cases oenv with
    | none => simp
    | some env =>
      simp only
      by_cases ht : env.msg.type = p.expected.type
      · rw [if_neg (fun h => h ht)]
        simp only [ht, decide_true, Bool.true_and, PScope.same, hc]
        simp only [hk, Bool.false_or]
        cases s.opts.comparator <;> rfl
      · rw [if_pos ht]
        simp [ht]

theorem countedIn_snoc (md : Bool) (fs : List Fact) (f : Fact) :
    countedIn md (fs ++ [f]) = countedIn md fs ++ ((f.counts md).map Env.msg).toList := by
  unfold countedIn
  cases h : f.counts md <;> simp [List.filterMap_append, h]

theorem MsgPred.observe (s : PScope) (m : Message) (fs : List Fact) :
    (fs.foldl (fun p f => p.notify s f)
      ({ comparator := s.opts.comparator, expected := m,
         tracker := { kind := m.type.kind, opts := s.opts } } : MsgPred)).ok = true ↔
    ∃ x ∈ countedIn s.opts.matchDispatch fs, x.type = m.type ∧ s.same x m = true := by
  refine (foldl_inv (I := fun fs (p : MsgPred) =>
    p.comparator = s.opts.comparator ∧ p.expected = m ∧ p.tracker.opts = s.opts ∧
    (p.ok = true ↔ ∃ x ∈ countedIn s.opts.matchDispatch fs, x.type = m.type ∧ s.same x m = true))
    ?_ ?_ fs).2.2.2
  · refine ⟨rfl, rfl, rfl, ?_⟩
    simp [countedIn]
  · rintro fs p f ⟨hc, he, ho, hok⟩
    obtain ⟨h1, h2, h3⟩ := MsgPred.notify_fields s p f
    refine ⟨h2.trans hc, h1.trans he, h3.trans ho, ?_⟩
    rw [MsgPred.notify_ok s p f hc, ho, he, countedIn_snoc]
    cases f.counts s.opts.matchDispatch with
    | none => simpa using hok
    | some env =>
      simp only [Option.map_some, Option.toList_some, List.mem_append, List.mem_singleton,
        Bool.or_eq_true, hok, Bool.and_eq_true, decide_eq_true_eq]
      constructor
      · rintro (⟨x, hx, hh⟩ | h)
        · exact ⟨x, .inl hx, hh⟩
        · exact ⟨_, .inr rfl, h⟩
      · rintro ⟨x, hx | rfl, hh⟩
        · exact .inl ⟨x, hx, hh⟩
        · exact .inr hh

theorem TypePred.notify_fields (s : PScope) (p : TypePred) (f : Fact) :
    (p.notify s f).expected = p.expected ∧ (p.notify s f).tracker.opts = p.tracker.opts := by
  unfold TypePred.notify
  split
  · exact ⟨rfl, rfl⟩
  · have h := (Tracker.notify_opts p.tracker f).1
    split <;> (rename_i hn; rw [hn] at h; exact ⟨rfl, h⟩)

theorem TypePred.notify_ok (s : PScope) (p : TypePred) (f : Fact) :
    (p.notify s f).ok = (p.ok || match f.counts p.tracker.opts.matchDispatch with
      | some env => decide (env.msg.type = p.expected)
      | none => false) := by
  unfold TypePred.notify
  split
  · rename_i h; simp [h]
  · rename_i hk
    have he := Tracker.notify_env p.tracker f
    rcases hn : p.tracker.notify f with ⟨t, oenv⟩
    rw [hn] at he
    simp only at he
    rw [← he]
    cases oenv <;> simp [hk]

theorem TypePred.observe (s : PScope) (t : MType) (fs : List Fact) :
    (fs.foldl (fun p f => p.notify s f)
      ({ expected := t, tracker := { kind := t.kind, opts := s.opts } } : TypePred)).ok = true ↔
    ∃ x ∈ countedIn s.opts.matchDispatch fs, x.type = t := by
  refine (foldl_inv (I := fun fs (p : TypePred) =>
    p.expected = t ∧ p.tracker.opts = s.opts ∧
    (p.ok = true ↔ ∃ x ∈ countedIn s.opts.matchDispatch fs, x.type = t)) ?_ ?_ fs).2.2
  · exact ⟨rfl, rfl, by simp [countedIn]⟩
  · rintro fs p f ⟨he, ho, hok⟩
    obtain ⟨h1, h3⟩ := TypePred.notify_fields s p f
    refine ⟨h1.trans he, h3.trans ho, ?_⟩
    rw [TypePred.notify_ok s p f, ho, he, countedIn_snoc]
    cases f.counts s.opts.matchDispatch with
    | none => simpa using hok
    | some env =>
      simp only [Option.map_some, Option.toList_some, List.mem_append, List.mem_singleton,
        Bool.or_eq_true, hok, decide_eq_true_eq]
      constructor
      · rintro (⟨x, hx, hh⟩ | h)
        · exact ⟨x, .inl hx, hh⟩
        · exact ⟨_, .inr rfl, h⟩
      · rintro ⟨x, hx | rfl, hh⟩
        · exact .inl ⟨x, hx, hh⟩
        · exact .inr hh

/-! ## Matching -/

/-- The number of failed matches. -/
def failureCount (l : List FailedMatch) : Nat := (l.map FailedMatch.count).sum

theorem addFailure_count (t : MType) (e : String) (l : List FailedMatch) :
    failureCount (addFailure t e l) = failureCount l + 1 := by
  induction l with
  | nil => rfl
  | cons f l ih =>
    unfold addFailure
    split
    · simp only [failureCount, List.map_cons, List.sum_cons]; omega
    · simp only [failureCount, List.map_cons, List.sum_cons] at ih ⊢; omega

theorem addFailure_ne (t : MType) (e : String) (l : List FailedMatch) : addFailure t e l ≠ [] := by
  cases l with
  | nil => simp [addFailure]
  | cons f l => unfold addFailure; split <;> simp

/-- What is left over from one message: `none` if it is ignored, else did it match? -/
def MatchPred.answer (p : MatchPred) (m : Message) : MatchRes :=
  if p.T.asserts m.type then p.fn p.seen m
  else if p.exhaustive then .err ("predicate function expected " ++ p.T.type.name)
  else .ignore

/-- The invariant of a matching predicate that has been told the facts `fs`. -/
structure MatchInv (s : PScope) (T : MatchType) (fn : List Message → Message → MatchRes)
    (loc : String) (ex : Bool) (fs : List Fact) (p : MatchPred) : Prop where
  hT : p.T = T
  hfn : p.fn = fn
  hloc : p.loc = loc
  hex : p.exhaustive = ex
  hopts : p.tracker.opts = s.opts
  hkind : p.tracker.kind = T.type.kind
  /-- all failures are counted at least once -/
  hpos : ∀ f ∈ p.failures, 0 < f.count
  hseen : p.ok = false → p.seen = asked T (countedIn s.opts.matchDispatch fs)
  hexok : ex = true → p.ok = false
  hprod : p.ok = false →
    p.tracker.produced = (ofKind T.type.kind (countedIn s.opts.matchDispatch fs)).length
  hsum : p.ok = false → p.matched + p.ignored + failureCount p.failures =
    (ofKind T.type.kind (countedIn s.opts.matchDispatch fs)).length
  hmat : p.ok = false →
    p.matched = (answers T fn ex (countedIn s.opts.matchDispatch fs)).count .nil
  hign : p.ok = false →
    p.ignored = (answers T fn ex (countedIn s.opts.matchDispatch fs)).count .ignore
  /-- at least one match (not exhaustive) -/
  hok : ex = false → (p.ok = true ↔
    ∃ pre x post, asked T (countedIn s.opts.matchDispatch fs) = pre ++ x :: post ∧ fn pre x = .nil)
  /-- no failures (exhaustive) -/
  hfail : ex = true → (p.failures = [] ↔
    (∀ x ∈ ofKind T.type.kind (countedIn s.opts.matchDispatch fs), T.asserts x.type = true) ∧
    ∀ pre x post, asked T (countedIn s.opts.matchDispatch fs) = pre ++ x :: post →
      fn pre x = .nil ∨ fn pre x = .ignore)

/-- Splitting a list at an element, for one that has been extended. -/
theorem split_snoc_cases {α : Type} {l pre post : List α} {a x : α} (h : l ++ [a] = pre ++ x :: post) :
    (∃ post', l = pre ++ x :: post' ∧ post = post' ++ [a]) ∨ (pre = l ∧ x = a ∧ post = []) := by
  rcases List.eq_nil_or_concat post with rfl | ⟨post', b, rfl⟩
  · right
    obtain ⟨h1, h2⟩ := List.append_inj' h (by simp)
    simp at h2
    exact ⟨h1.symm, h2.symm, rfl⟩
  · left
    refine ⟨post', ?_, ?_⟩
    · have h' : l ++ [a] = (pre ++ x :: post') ++ [b] := by simpa using h
      exact (List.append_inj' h' rfl).1
    · have h' : l ++ [a] = (pre ++ x :: post') ++ [b] := by simpa using h
      have := (List.append_inj' h' rfl).2
      simp at this
      simp [this]

theorem asked_snoc_in {T : MatchType} {ms : List Message} {m : Message}
    (hk : m.type.kind = T.type.kind) (ha : T.asserts m.type = true) :
    asked T (ms ++ [m]) = asked T ms ++ [m] := by
  simp [asked, ofKind, List.filter_append, hk, ha]

theorem asked_snoc_out {T : MatchType} {ms : List Message} {m : Message}
    (h : m.type.kind ≠ T.type.kind ∨ T.asserts m.type = false) :
    asked T (ms ++ [m]) = asked T ms := by
  rcases h with h | h
  · simp [asked, ofKind, List.filter_append, h]
  · by_cases hk : m.type.kind = T.type.kind <;>
      simp [asked, ofKind, List.filter_append, h, hk]

theorem answersFrom_snoc (T : MatchType) (fn : List Message → Message → MatchRes) (ex : Bool)
    (seen ms : List Message) (m : Message) :
    answersFrom T fn ex seen (ms ++ [m]) = answersFrom T fn ex seen ms ++
      [if T.asserts m.type then fn (seen ++ ms.filter (fun m => T.asserts m.type)) m
       else if ex then .err ("predicate function expected " ++ T.type.name) else .ignore] := by
  induction ms generalizing seen with
  | nil => cases h : T.asserts m.type <;> simp [answersFrom, h]
  | cons a ms ih =>
    cases h : T.asserts a.type
    · simp [answersFrom, h, ih seen]
    · simp [answersFrom, h, ih (seen ++ [a])]

theorem ofKind_snoc {k : Kind} {ms : List Message} {m : Message} :
    ofKind k (ms ++ [m]) = ofKind k ms ++ (if m.type.kind = k then [m] else []) := by
  by_cases hk : m.type.kind = k <;> simp [ofKind, List.filter_append, hk]

/-- `messageProduced` in terms of the answer. -/
theorem MatchPred.messageProduced_eq (p : MatchPred) (env : Env)
    (hk : env.msg.type.kind = p.T.type.kind) :
    p.messageProduced env =
      (let q : MatchPred := if p.T.asserts env.msg.type then { p with seen := p.seen ++ [env.msg] } else p
       match p.answer env.msg with
       | .nil =>
         if p.exhaustive then { q with matched := p.matched + 1 }
         else { q with matched := p.matched + 1, ok := true, failures := [] }
       | .ignore => { q with ignored := p.ignored + 1 }
       | .err e => { q with failures := addFailure env.msg.type e p.failures }) := by
  unfold MatchPred.messageProduced MatchPred.answer
  rw [if_neg (fun h => h hk)]
  cases ha : p.T.asserts env.msg.type <;> cases hx : p.exhaustive <;> simp <;>
    cases p.fn p.seen env.msg <;> simp

theorem addFailure_pos {t : MType} {e : String} {l : List FailedMatch}
    (h : ∀ f ∈ l, 0 < f.count) : ∀ f ∈ addFailure t e l, 0 < f.count := by
  induction l with
  | nil => intro f hf; simp [addFailure] at hf; simp [hf]
  | cons a l ih =>
    intro f hf
    unfold addFailure at hf
    split at hf
    · rcases List.mem_cons.1 hf with rfl | hf
      · simp
      · exact h f (by simp [hf])
    · rcases List.mem_cons.1 hf with rfl | hf
      · exact h _ (by simp)
      · exact ih (fun f hf => h f (by simp [hf])) f hf

/-- A message of another kind (or none at all) changes nothing but the tracker. -/
theorem MatchInv.skip {s : PScope} {T fn loc ex fs} {p : MatchPred} {f : Fact}
    (h : MatchInv s T fn loc ex fs p) {t : Tracker}
    (ht : t = (p.tracker.notify f).1)
    (hf : ∀ env, f.counts s.opts.matchDispatch = some env → env.msg.type.kind ≠ T.type.kind) :
    MatchInv s T fn loc ex (fs ++ [f]) { p with tracker := t } := by
  have ho := Tracker.notify_opts p.tracker f
  have hp := Tracker.notify_produced p.tracker f
  have ea : asked T (countedIn s.opts.matchDispatch (fs ++ [f])) =
      asked T (countedIn s.opts.matchDispatch fs) := by
    rw [countedIn_snoc]
    cases hc : f.counts s.opts.matchDispatch with
    | none => simp
    | some env => simpa using asked_snoc_out (.inl (hf env hc))
  have ek : ofKind T.type.kind (countedIn s.opts.matchDispatch (fs ++ [f])) =
      ofKind T.type.kind (countedIn s.opts.matchDispatch fs) := by
    rw [countedIn_snoc]
    cases hc : f.counts s.opts.matchDispatch with
    | none => simp
    | some env => simp [ofKind_snoc, hf env hc]
  have ean : answers T fn ex (countedIn s.opts.matchDispatch (fs ++ [f])) =
      answers T fn ex (countedIn s.opts.matchDispatch fs) := by
    unfold answers; rw [ek]
  have hp' : t.produced = p.tracker.produced := by
    rw [ht, hp, h.hopts, h.hkind]
    cases hc : f.counts s.opts.matchDispatch with
    | none => simp
    | some env => simp [hf env hc]
  constructor
  · exact h.hT
  · exact h.hfn
  · exact h.hloc
  · exact h.hex
  · simp only [ht, ho.1, h.hopts]
  · simp only [ht, ho.2, h.hkind]
  · exact h.hpos
  · rw [ea]; exact h.hseen
  · exact h.hexok
  · rw [ek]; intro hh; exact hp'.trans (h.hprod hh)
  · rw [ek]; exact h.hsum
  · rw [ean]; exact h.hmat
  · rw [ean]; exact h.hign
  · rw [ea]; exact h.hok
  · rw [ea, ek]; exact h.hfail

theorem MatchInv.step {s : PScope} {T fn loc ex fs} {p : MatchPred} (f : Fact)
    (h : MatchInv s T fn loc ex fs p) : MatchInv s T fn loc ex (fs ++ [f]) (p.notify s f) := by
  unfold MatchPred.notify
  split
  · rename_i hk
    have hx : ex = false := by
      cases ex with
      | false => rfl
      | true => exact absurd (h.hexok rfl) (by simp [hk])
    refine ⟨h.hT, h.hfn, h.hloc, h.hex, h.hopts, h.hkind, h.hpos, ?_, h.hexok, ?_, ?_, ?_, ?_, ?_, ?_⟩
    · intro hh; rw [hk] at hh; cases hh
    · intro hh; rw [hk] at hh; cases hh
    · intro hh; rw [hk] at hh; cases hh
    · intro hh; rw [hk] at hh; cases hh
    · intro hh; rw [hk] at hh; cases hh
    · intro _
      refine ⟨fun _ => ?_, fun _ => hk⟩
      obtain ⟨pre, x, post, ha, hn⟩ := (h.hok hx).1 hk
      rw [countedIn_snoc]
      cases f.counts s.opts.matchDispatch with
      | none => exact ⟨pre, x, post, by simpa using ha, hn⟩
      | some env =>
        simp only [Option.map_some, Option.toList_some]
        by_cases hin : env.msg.type.kind = T.type.kind ∧ T.asserts env.msg.type = true
        · rw [asked_snoc_in hin.1 hin.2, ha]
          exact ⟨pre, x, post ++ [env.msg], by simp, hn⟩
        · rw [asked_snoc_out ?_]
          · exact ⟨pre, x, post, ha, hn⟩
          · by_cases hkk : env.msg.type.kind = T.type.kind
            · exact .inr (by simpa [hkk] using hin)
            · exact .inl hkk
    · intro hh; rw [hx] at hh; cases hh
  · rename_i hk
    have hk : p.ok = false := by simpa using hk
    have he := Tracker.notify_env p.tracker f
    have ho := Tracker.notify_opts p.tracker f
    have hp := Tracker.notify_produced p.tracker f
    rcases hn : p.tracker.notify f with ⟨t, oenv⟩
    rw [hn] at he ho hp
    simp only at he ho hp
    rw [h.hopts] at he
    cases oenv with
    | none =>
      simp only
      refine h.skip (by rw [hn]) ?_
      intro env henv
      rw [← he] at henv; cases henv
    | some env =>
      simp only
      by_cases hkind : env.msg.type.kind = T.type.kind
      · have hkind' : env.msg.type.kind = ({ p with tracker := t } : MatchPred).T.type.kind := by
          simp only [h.hT, hkind]
        rw [MatchPred.messageProduced_eq _ _ hkind']
        have ecnt : countedIn s.opts.matchDispatch (fs ++ [f]) =
            countedIn s.opts.matchDispatch fs ++ [env.msg] := by
          rw [countedIn_snoc, ← he]; rfl
        have eprod : t.produced = p.tracker.produced + 1 := by
          rw [hp, h.hopts, ← he, h.hkind]; simp [hkind]
        have hans : ({ p with tracker := t } : MatchPred).answer env.msg = p.answer env.msg := rfl
        have hseen := h.hseen hk
        have hprod := h.hprod hk
        have hsum := h.hsum hk
        rw [hans]
        -- the counters and lists after this message
        have key : ∀ q : MatchPred, q.T = T → q.fn = fn → q.loc = loc → q.exhaustive = ex →
            q.tracker = t →
            q.seen = asked T (countedIn s.opts.matchDispatch fs ++ [env.msg]) →
            (∀ f ∈ q.failures, 0 < f.count) →
            (ex = true → q.ok = false) →
            (q.ok = false → q.matched + q.ignored + failureCount q.failures =
              p.matched + p.ignored + failureCount p.failures + 1) →
            (q.ok = false → q.matched = p.matched + [p.answer env.msg].count .nil ∧
              q.ignored = p.ignored + [p.answer env.msg].count .ignore) →
            (ex = false → (q.ok = true ↔ p.answer env.msg = .nil)) →
            (ex = true → (q.failures = [] ↔ p.failures = [] ∧
              (p.answer env.msg = .nil ∨ p.answer env.msg = .ignore))) →
            MatchInv s T fn loc ex (fs ++ [f]) q := by
          intro q q1 q2 q3 q4 q5 q6 q7 q8 q9 q12 q10 q11
          have hT := h.hT
          have hfn := h.hfn
          have ean : answers T fn ex (countedIn s.opts.matchDispatch fs ++ [env.msg]) =
              answers T fn ex (countedIn s.opts.matchDispatch fs) ++ [p.answer env.msg] := by
            unfold answers
            rw [ofKind_snoc, if_pos hkind, answersFrom_snoc]
            unfold MatchPred.answer
            rw [hseen, hT, hfn, h.hex]
            rfl
          refine ⟨q1, q2, q3, q4, by rw [q5, ho.1, h.hopts], by rw [q5, ho.2, h.hkind], q7, ?_, q8,
            ?_, ?_, ?_, ?_, ?_, ?_⟩
          · intro _; rw [ecnt]; exact q6
          · intro _; rw [ecnt, q5, eprod, hprod, ofKind_snoc]; simp [hkind]
          · intro hh; rw [q9 hh, ecnt, hsum, ofKind_snoc]; simp [hkind]
          · intro hh; rw [(q12 hh).1, ecnt, ean, List.count_append, h.hmat hk]
          · intro hh; rw [(q12 hh).2, ecnt, ean, List.count_append, h.hign hk]
          · intro hx
            rw [q10 hx, ecnt]
            have hnone : ¬ ∃ pre x post, asked T (countedIn s.opts.matchDispatch fs) =
                pre ++ x :: post ∧ fn pre x = .nil := by
              intro hc; rw [(h.hok hx).2 hc] at hk; cases hk
            cases ha : T.asserts env.msg.type with
            | false =>
              rw [asked_snoc_out (.inr ha)]
              refine ⟨fun hh => ?_, fun hc => absurd hc hnone⟩
              unfold MatchPred.answer at hh
              rw [hT, ha, h.hex, hx] at hh
              simp at hh
            | true =>
              rw [asked_snoc_in hkind ha]
              unfold MatchPred.answer
              rw [hT, ha, if_pos rfl, hseen, hfn]
              constructor
              · intro hh; exact ⟨_, _, [], rfl, hh⟩
              · rintro ⟨pre, x, post, hsplit, hh⟩
                rcases split_snoc_cases hsplit with ⟨post', h1, _⟩ | ⟨rfl, rfl, _⟩
                · exact absurd ⟨pre, x, post', h1, hh⟩ hnone
                · exact hh
          · intro hx
            rw [q11 hx, h.hfail hx, ecnt]
            have hko : ofKind T.type.kind (countedIn s.opts.matchDispatch fs ++ [env.msg]) =
                ofKind T.type.kind (countedIn s.opts.matchDispatch fs) ++ [env.msg] := by
              rw [ofKind_snoc]; simp [hkind]
            rw [hko]
            cases ha : T.asserts env.msg.type with
            | false =>
              constructor
              · rintro ⟨_, hh⟩
                unfold MatchPred.answer at hh
                rw [hT, ha, h.hex, hx] at hh
                simp at hh
              · rintro ⟨hh, _⟩
                have := hh env.msg (by simp)
                rw [ha] at this; cases this
            | true =>
              rw [asked_snoc_in hkind ha]
              unfold MatchPred.answer
              rw [hT, ha, if_pos rfl, hseen, hfn]
              constructor
              · rintro ⟨⟨h1, h2⟩, h3⟩
                refine ⟨?_, ?_⟩
                · intro x hx
                  rcases List.mem_append.1 hx with hx | hx
                  · exact h1 x hx
                  · simp at hx; rw [hx]; exact ha
                · intro pre x post hsplit
                  rcases split_snoc_cases hsplit with ⟨post', h4, _⟩ | ⟨rfl, rfl, _⟩
                  · exact h2 _ _ _ h4
                  · exact h3
              · rintro ⟨h1, h2⟩
                refine ⟨⟨fun x hx => h1 x (by simp [hx]), ?_⟩, h2 _ _ [] rfl⟩
                intro pre x post hsplit
                exact h2 pre x (post ++ [env.msg]) (by simp [hsplit])
        have hq : (if ({ p with tracker := t } : MatchPred).T.asserts env.msg.type then
              { p with tracker := t, seen := p.seen ++ [env.msg] } else
              ({ p with tracker := t } : MatchPred)).seen =
            asked T (countedIn s.opts.matchDispatch fs ++ [env.msg]) := by
          simp only [h.hT]
          cases ha : T.asserts env.msg.type with
          | true => rw [asked_snoc_in hkind ha, if_pos rfl, hseen]
          | false => rw [asked_snoc_out (.inr ha)]; simpa using hseen
        have hif : ∀ (b : Bool), (if b then { p with tracker := t, seen := p.seen ++ [env.msg] } else
              ({ p with tracker := t } : MatchPred)) =
            { p with tracker := t, seen := if b then p.seen ++ [env.msg] else p.seen } := by
          intro b; cases b <;> rfl
        simp only [hif] at hq ⊢
        cases hA : p.answer env.msg with
        | nil =>
          simp only
          cases hx : ex with
          | true =>
            rw [hx] at key
            rw [if_pos (by rw [h.hex, hx])]
            refine key _ h.hT h.hfn h.hloc (by rw [← hx]; exact h.hex) rfl hq h.hpos (fun _ => hk)
              (fun _ => ?_) (fun _ => ?_) (fun hc => by cases hc) (fun _ => ?_)
            · simp only; omega
            · simp [hA]
            · simp [hA]
          | false =>
            rw [hx] at key
            rw [if_neg (by rw [h.hex, hx]; simp)]
            refine key _ h.hT h.hfn h.hloc (by rw [← hx]; exact h.hex) rfl hq (by simp)
              (fun hc => by cases hc) (fun hc => by cases hc) (fun hc => by cases hc) (fun _ => ?_)
              (fun hc => by cases hc)
            simp [hA]
        | ignore =>
          refine key _ h.hT h.hfn h.hloc h.hex rfl hq h.hpos (fun _ => hk)
              (fun _ => ?_) (fun _ => ?_) (fun _ => ?_) (fun _ => ?_)
          · simp only; omega
          · simp [hA]
          · simp [hA, hk]
          · simp [hA]
        | err e =>
          refine key _ h.hT h.hfn h.hloc h.hex rfl hq (addFailure_pos h.hpos) (fun _ => hk)
              (fun _ => ?_) (fun _ => ?_) (fun _ => ?_) (fun _ => ?_)
          · simp only [addFailure_count]; omega
          · simp [hA]
          · simp [hA, hk]
          · simp [hA, addFailure_ne]
      · have hmp : ({ p with tracker := t } : MatchPred).messageProduced env =
            { p with tracker := t } := by
          unfold MatchPred.messageProduced
          rw [if_pos (by simpa [h.hT] using hkind)]
        rw [hmp]
        refine h.skip (by rw [hn]) ?_
        intro env' henv'
        rw [← he] at henv'
        cases henv'
        exact hkind

theorem MatchPred.observe_inv (s : PScope) (T : MatchType) (fn : List Message → Message → MatchRes)
    (loc : String) (ex : Bool) (fs : List Fact) :
    MatchInv s T fn loc ex fs (fs.foldl (fun p f => p.notify s f)
      ({ T := T, fn := fn, loc := loc, exhaustive := ex,
         tracker := { kind := T.type.kind, opts := s.opts } } : MatchPred)) := by
  refine foldl_inv (I := MatchInv s T fn loc ex) ?_ (fun l b a h => h.step a) fs
  constructor <;> simp [countedIn, asked, ofKind, failureCount, answers, answersFrom]

/-! ## Trees -/

theorem notifyAll_eq (s : PScope) (f : Fact) (ps : List Pred) :
    Pred.notifyAll s f ps = ps.map (Pred.notify s f) := by
  induction ps with
  | nil => simp [Pred.notifyAll]
  | cons p ps ih => simp [Pred.notifyAll, ih]

theorem observe_message (s : PScope) (p : MsgPred) (fs : List Fact) :
    (Pred.message p).observe s fs = .message (fs.foldl (fun p f => p.notify s f) p) := by
  unfold Pred.observe
  induction fs generalizing p with
  | nil => rfl
  | cons f fs ih => simp only [List.foldl_cons, Pred.notify, ih]

theorem observe_type (s : PScope) (p : TypePred) (fs : List Fact) :
    (Pred.type p).observe s fs = .type (fs.foldl (fun p f => p.notify s f) p) := by
  unfold Pred.observe
  induction fs generalizing p with
  | nil => rfl
  | cons f fs ih => simp only [List.foldl_cons, Pred.notify, ih]

theorem observe_matching (s : PScope) (p : MatchPred) (fs : List Fact) :
    (Pred.matching p).observe s fs = .matching (fs.foldl (fun p f => p.notify s f) p) := by
  unfold Pred.observe
  induction fs generalizing p with
  | nil => rfl
  | cons f fs ih => simp only [List.foldl_cons, Pred.notify, ih]

theorem observe_satisfy (s : PScope) (p : SatPred) (fs : List Fact) :
    (Pred.satisfy p).observe s fs = .satisfy { p with facts := p.facts ++ fs } := by
  unfold Pred.observe
  induction fs generalizing p with
  | nil => simp
  | cons f fs ih => simp only [List.foldl_cons, Pred.notify, ih, List.append_assoc,
      List.cons_append, List.nil_append]

theorem observe_custom (s : PScope) (p : CustomPred) (l fs : List Fact) :
    (Pred.custom p l).observe s fs = .custom p (l ++ fs) := by
  unfold Pred.observe
  induction fs generalizing l with
  | nil => simp
  | cons f fs ih => simp only [List.foldl_cons, Pred.notify, ih, List.append_assoc,
      List.cons_append, List.nil_append]

theorem observe_not (s : PScope) (p : Pred) (fs : List Fact) :
    (Pred.not p).observe s fs = .not (p.observe s fs) := by
  unfold Pred.observe
  induction fs generalizing p with
  | nil => rfl
  | cons f fs ih => simp only [List.foldl_cons, Pred.notify, ih]

theorem observe_composite (s : PScope) (k : CompKind) (n : Nat) (ps : List Pred) (fs : List Fact) :
    (Pred.composite k n ps).observe s fs = .composite k n (ps.map (fun p => p.observe s fs)) := by
  unfold Pred.observe
  induction fs generalizing ps with
  | nil => simp
  | cons f fs ih =>
    simp only [List.foldl_cons, Pred.notify, ih, notifyAll_eq, List.map_map, Function.comp_def]

theorem observe_repeatedly (s : PScope) (c : String) (ps : List Pred) (fs : List Fact) :
    (Pred.repeatedly c ps).observe s fs = .repeatedly c (ps.map (fun p => p.observe s fs)) := by
  unfold Pred.observe
  induction fs generalizing ps with
  | nil => simp
  | cons f fs ih =>
    simp only [List.foldl_cons, Pred.notify, ih, notifyAll_eq, List.map_map, Function.comp_def]

theorem countOk_eq (ps : List Pred) : Pred.countOk ps = ((ps.map Pred.ok).filter id).length := by
  induction ps with
  | nil => rfl
  | cons p ps ih =>
    simp only [Pred.countOk, ih, List.map_cons]
    cases p.ok
    · simp
    · simp; omega

theorem allOk_eq (ps : List Pred) : Pred.allOk ps = (ps.map Pred.ok).all id := by
  induction ps with
  | nil => rfl
  | cons p ps ih =>
    simp only [Pred.allOk, ih, List.map_cons]
    cases p.ok <;> simp

/-- `Done()` of the children stops at the first panic. -/
theorem doneAll_crash (ps : List Pred) :
    (Pred.doneAll ps).2 = ps.findSome? (fun p => p.done.2) := by
  induction ps with
  | nil => rfl
  | cons p ps ih =>
    unfold Pred.doneAll
    rcases h : p.done with ⟨q, v⟩
    cases v with
    | some v => simp [h]
    | none =>
      simp only [List.findSome?_cons, h]
      rw [← ih]

theorem doneAll_ok (ps : List Pred) (h : (Pred.doneAll ps).2 = none) :
    (Pred.doneAll ps).1 = ps.map (fun p => p.done.1) := by
  induction ps with
  | nil => rfl
  | cons p ps ih =>
    unfold Pred.doneAll at h ⊢
    rcases hp : p.done with ⟨q, v⟩
    rw [hp] at h
    cases v with
    | some v => simp at h
    | none =>
      simp only at h
      simp [hp, ih h]

theorem Pred.verdict_crash (s : PScope) (fs : List Fact) (p : Pred) :
    (p.verdict s fs).crash = (p.observe s fs).done.2 := by
  unfold Pred.verdict
  rcases (p.observe s fs).done with ⟨q, v⟩
  cases v <;> rfl

theorem Pred.verdict_passed (s : PScope) (fs : List Fact) (p : Pred)
    (h : (p.observe s fs).done.2 = none) :
    (p.verdict s fs).passed = (p.observe s fs).done.1.ok := by
  unfold Pred.verdict
  rcases hd : (p.observe s fs).done with ⟨q, v⟩
  rw [hd] at h
  simp only at h
  subst h
  rfl

theorem Pred.verdict_refusal (s : PScope) (fs : List Fact) (p : Pred) :
    (p.verdict s fs).refusal = none := by
  unfold Pred.verdict
  split <;> rfl

/-- The predicates of several expectations, one by one. -/
theorem buildAll_refused (s : PScope) (fs : List Fact) (es : List Expectation) :
    match (Expectation.buildAll s es).2 with
    | .error e => (es.map (Expectation.verdict s fs)).findSome? Verdict.refusal = some e
    | .ok ps => es.map (Expectation.verdict s fs) = ps.map (Pred.verdict s fs) := by
  induction es with
  | nil => simp [Expectation.buildAll]
  | cons e es ih =>
    unfold Expectation.buildAll
    rcases hb : e.build s with ⟨l, r⟩
    have hv : e.verdict s fs = judgeBuilt s fs r := by
      unfold Expectation.verdict; rw [hb]
    cases r with
    | error x =>
      simp only [List.map_cons, hv, judgeBuilt, List.findSome?_cons, Verdict.refusal]
    | ok p =>
      simp only [judgeBuilt] at hv ⊢
      rcases hA : Expectation.buildAll s es with ⟨l', r'⟩
      rw [hA] at ih
      cases r' with
      | error x =>
        simp only at ih ⊢
        simp [hv, Pred.verdict_refusal, ih]
      | ok ps =>
        simp only at ih ⊢
        simp [hv, ih]

theorem findSome_none_refusal (s : PScope) (fs : List Fact) (ps : List Pred) :
    (ps.map (Pred.verdict s fs)).findSome? Verdict.refusal = none := by
  simp [List.findSome?_eq_none_iff, Pred.verdict_refusal]

theorem findSome_crash (s : PScope) (fs : List Fact) (ps : List Pred) :
    (ps.map (Pred.verdict s fs)).findSome? Verdict.crash =
      (Pred.doneAll (ps.map (fun p => p.observe s fs))).2 := by
  rw [doneAll_crash, List.findSome?_map, List.findSome?_map]
  congr 1
  funext p
  exact Pred.verdict_crash s fs p

theorem passed_map (s : PScope) (fs : List Fact) (ps : List Pred)
    (h : (Pred.doneAll (ps.map (fun p => p.observe s fs))).2 = none) :
    (ps.map (Pred.verdict s fs)).map Verdict.passed =
      (Pred.doneAll (ps.map (fun p => p.observe s fs))).1.map Pred.ok := by
  rw [doneAll_ok _ h]
  rw [doneAll_crash, List.findSome?_map] at h
  rw [List.findSome?_eq_none_iff] at h
  simp only [List.map_map]
  apply List.map_congr_left
  intro p hp
  exact Pred.verdict_passed s fs p (h p hp)

/-- The verdicts of a list of predicates that have been made. -/
theorem together_preds (s : PScope) (fs : List Fact) (ps : List Pred) (f : List Bool → Bool) :
    together f (ps.map (Pred.verdict s fs)) =
      match Pred.doneAll (ps.map (fun p => p.observe s fs)) with
      | (_, some v) => .crashed v
      | (qs, none) => .decided (f (qs.map Pred.ok)) := by
  unfold together
  rw [findSome_none_refusal, findSome_crash]
  rcases hd : Pred.doneAll (ps.map (fun p => p.observe s fs)) with ⟨qs, v⟩
  have hp := passed_map s fs ps
  rw [hd] at hp
  cases v with
  | some v => simp only [hd]
  | none => simp only [hd, hp rfl]

/-- How the composites judge the verdicts of their children. -/
def CompKind.judge : CompKind → List Bool → Bool
  | .allOf, bs => bs.all id
  | .anyOf, bs => bs.any id
  | .noneOf, bs => !bs.any id

theorem filter_id_length (bs : List Bool) :
    ((bs.filter id).length = bs.length ↔ bs.all id = true) ∧
    (0 < (bs.filter id).length ↔ bs.any id = true) := by
  constructor
  · rw [List.length_filter_eq_length_iff]; simp
  · rw [List.length_pos_iff_exists_mem]; simp

theorem CompKind.pred_judge (k : CompKind) (bs : List Bool) :
    (k.pred bs.length (bs.filter id).length).2 = k.judge bs := by
  obtain ⟨h1, h2⟩ := filter_id_length bs
  cases k with
  | allOf =>
    unfold CompKind.pred CompKind.judge
    simp only
    by_cases h : (bs.filter id).length = bs.length
    · rw [if_pos h, h1.1 h]
    · rw [if_neg h]
      have : bs.all id ≠ true := fun hh => h (h1.2 hh)
      simp [Bool.eq_false_iff.2 this]
  | anyOf =>
    unfold CompKind.pred CompKind.judge
    simp only
    by_cases h : 0 < (bs.filter id).length
    · rw [if_pos h, h2.1 h]
    · rw [if_neg h]
      have : bs.any id ≠ true := fun hh => h (h2.2 hh)
      simp [Bool.eq_false_iff.2 this]
  | noneOf =>
    unfold CompKind.pred CompKind.judge
    simp only
    by_cases h : 0 < (bs.filter id).length
    · rw [if_neg (by omega), h2.1 h]
      split <;> rfl
    · rw [if_pos (by omega)]
      have : bs.any id ≠ true := fun hh => h (h2.2 hh)
      simp [Bool.eq_false_iff.2 this]

theorem buildAll_length (s : PScope) (es : List Expectation) (ps : List Pred)
    (h : (Expectation.buildAll s es).2 = .ok ps) : ps.length = es.length := by
  induction es generalizing ps with
  | nil => simp [Expectation.buildAll] at h; simp [← h]
  | cons e es ih =>
    unfold Expectation.buildAll at h
    rcases hb : e.build s with ⟨l, r⟩
    rw [hb] at h
    cases r with
    | error x => cases h
    | ok p =>
      simp only at h
      rcases hA : Expectation.buildAll s es with ⟨l', r'⟩
      rw [hA] at h ih
      cases r' with
      | error x => cases h
      | ok ps' =>
        simp only [Except.ok.injEq] at h
        subst h
        simp [ih ps' rfl]

theorem doneAll_length (ps : List Pred) : (Pred.doneAll ps).1.length = ps.length := by
  induction ps with
  | nil => rfl
  | cons p ps ih =>
    unfold Pred.doneAll
    rcases p.done with ⟨q, v⟩
    cases v <;> simp [ih]

/-- The verdict of a composite. -/
theorem verdict_composite (s : PScope) (fs : List Fact) (k : CompKind) (es : List Expectation) :
    (Expectation.composite k es).verdict s fs =
      together k.judge (es.map (Expectation.verdict s fs)) := by
  have hb := buildAll_refused s fs es
  have hl := buildAll_length s es
  rw [show (Expectation.composite k es).verdict s fs =
    judgeBuilt s fs ((Expectation.composite k es).build s).2 from rfl]
  unfold Expectation.build
  rcases hA : Expectation.buildAll s es with ⟨l, r⟩
  rw [hA] at hb hl
  cases r with
  | error e =>
    simp only at hb ⊢
    unfold together judgeBuilt
    rw [hb]
  | ok ps =>
    simp only at hb ⊢
    rw [hb, together_preds]
    unfold judgeBuilt Pred.verdict
    simp only
    rw [observe_composite]
    unfold Pred.done
    have hlen := doneAll_length (ps.map fun p => p.observe s fs)
    rcases hd : Pred.doneAll (ps.map fun p => p.observe s fs) with ⟨qs, v⟩
    rw [hd] at hlen
    cases v with
    | some v => simp only [hd]
    | none =>
      simp only [hd, Pred.ok]
      have hn : es.length = (qs.map Pred.ok).length := by
        simp only [List.length_map] at hlen ⊢
        rw [hlen]; exact (hl ps rfl).symm
      rw [countOk_eq, hn, CompKind.pred_judge]

/-- The verdict of a negation. -/
theorem verdict_not (s : PScope) (fs : List Fact) (e : Expectation) :
    (Expectation.not e).verdict s fs = (e.verdict s fs).opposite := by
  unfold Expectation.verdict
  rw [Expectation.build.eq_5]
  rcases e.build s with ⟨l, r⟩
  cases r with
  | error e => rfl
  | ok p =>
    simp only [judgeBuilt]
    unfold Pred.verdict
    rw [observe_not, Pred.done.eq_5]
    rcases (p.observe s fs).done with ⟨q, v⟩
    cases v
    · simp only [Pred.ok, Verdict.opposite]
    · rfl

/-- The verdict of an iteration of `ToRepeatedly`. -/
def iterVerdict (s : PScope) (fs : List Fact) (f : Nat → Expectation) (i : Nat) : Verdict :=
  if (f i).isNil then .refused (.iteration i .nilExpectation)
  else ((f i).verdict s fs).iteration i

theorem repeatLoop_verdicts (s : PScope) (fs : List Fact) (desc : String) (f : Nat → Expectation)
    (n i : Nat) :
    match (repeatLoop desc
      (fun i => if (f i).isNil then ([], .error .nilExpectation) else (f i).build s) n i).2 with
    | .error e =>
      ((List.range' i n).map (iterVerdict s fs f)).findSome? Verdict.refusal = some e
    | .ok ps => (List.range' i n).map (iterVerdict s fs f) = ps.map (Pred.verdict s fs) := by
  induction n generalizing i with
  | zero => simp [repeatLoop]
  | succ n ih =>
    unfold repeatLoop
    have ih := ih (i + 1)
    by_cases hn : (f i).isNil = true
    · simp only [hn, if_true, List.range'_succ, List.map_cons, iterVerdict]
      simp [List.findSome?_cons, Verdict.refusal]
    · simp only [hn, List.range'_succ, List.map_cons]
      have hv : iterVerdict s fs f i = ((f i).verdict s fs).iteration i := by
        unfold iterVerdict; simp [hn]
      rw [hv]
      unfold Expectation.verdict
      rcases hb : (f i).build s with ⟨l, r⟩
      cases r with
      | error x =>
        simp only [Bool.false_eq_true, if_false, judgeBuilt]
        unfold Verdict.iteration
        cases x <;> simp [List.findSome?_cons, Verdict.refusal]
      | ok p =>
        simp only [Bool.false_eq_true, if_false, judgeBuilt]
        have hp : (p.verdict s fs).iteration i = p.verdict s fs := by
          have := Pred.verdict_refusal s fs p
          cases h : p.verdict s fs <;> simp_all [Verdict.iteration, Verdict.refusal]
        rw [hp]
        rcases hA : repeatLoop desc (fun i => if (f i).isNil then ([], .error .nilExpectation)
          else (f i).build s) n (i + 1) with ⟨l', r'⟩
        rw [hA] at ih
        cases r' with
        | error x =>
          simp only at ih ⊢
          simp [Pred.verdict_refusal, ih]
        | ok ps =>
          simp only at ih ⊢
          simp [ih]

theorem verdict_repeatedly (s : PScope) (fs : List Fact) (desc : String) (n : Nat)
    (f : Nat → Expectation) :
    (Expectation.repeatedly desc n f).verdict s fs =
      together (fun bs => bs.all id) ((List.range n).map (iterVerdict s fs f)) := by
  have hb := repeatLoop_verdicts s fs desc f n 0
  rw [show (Expectation.repeatedly desc n f).verdict s fs =
    judgeBuilt s fs ((Expectation.repeatedly desc n f).build s).2 from rfl]
  unfold Expectation.build
  rw [List.range_eq_range']
  rcases hA : repeatLoop desc (fun i => if (f i).isNil then ([], .error .nilExpectation)
    else (f i).build s) n 0 with ⟨l, r⟩
  rw [hA] at hb
  cases r with
  | error e =>
    simp only at hb ⊢
    unfold together
    rw [hb]
    rfl
  | ok ps =>
    simp only at hb ⊢
    rw [hb, together_preds]
    unfold judgeBuilt Pred.verdict
    simp only
    rw [observe_repeatedly]
    unfold Pred.done
    rcases hd : Pred.doneAll (ps.map fun p => p.observe s fs) with ⟨qs, v⟩
    cases v with
    | some v => simp only [hd]
    | none => simp only [hd, Pred.ok, allOk_eq]

end Verif
