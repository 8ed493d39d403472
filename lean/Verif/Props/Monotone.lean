import Verif.Props.AbsentTest

/-!
# C122: what more facts, other orders and repetitions do to a verdict

Expectations that messages are produced, once met, stay met whatever happens next.  Expectations that
messages are not produced, once unmet, stay unmet.  The order and the number of occurrences of messages
do not matter unless functions of the user remember.
-/

namespace Verif

/-! ## Specification -/

/-- What may become of a verdict: if it is this decision, it stays so; a predicate that can not be
made or that panics stays so too. -/
inductive Verdict.Keeps (b : Bool) : Verdict → Verdict → Prop where
  | decided {c c' : Bool} (h : c = b → c' = b) : Verdict.Keeps b (.decided c) (.decided c')
  | refused (e : BuildErr) : Verdict.Keeps b (.refused e) (.refused e)
  | crashed (v : String) : Verdict.Keeps b (.crashed v) (.crashed v)

mutual
/-- Expectations of which it can be seen that once they are met (`b`) or unmet (not `b`) they stay so.
It is met, for expectations that some message is produced, and unmet, for those that only certain
messages are produced; `Not` and `NoneOf` exchange the two.  For the parts that are written by the
user it is assumed. -/
def Expectation.OneWay (s : PScope) (fs fs' : List Fact) (b : Bool) : Expectation → Prop
  | .message _ | .type _ => b = true
  | .matching _ _ _ only => b = !only
  | .composite .noneOf es => Expectation.AllOneWay s fs fs' (!b) es
  | .composite _ es => Expectation.AllOneWay s fs fs' b es
  | .not e => e.OneWay s fs fs' (!b)
  | .repeatedly _ _ f => ∀ i, (f i).OneWay s fs fs' b
  | .satisfy d fn => Verdict.Keeps b ((Expectation.satisfy d fn).verdict s fs) ((Expectation.satisfy d fn).verdict s fs')
  | .custom d mk => Verdict.Keeps b ((Expectation.custom d mk).verdict s fs) ((Expectation.custom d mk).verdict s fs')
  | .nil => True
/-- The same for all of the expectations. -/
def Expectation.AllOneWay (s : PScope) (fs fs' : List Fact) (b : Bool) : List Expectation → Prop
  | [] => True
  | e :: es => e.OneWay s fs fs' b ∧ Expectation.AllOneWay s fs fs' b es
end

mutual
/-- The functions given to `...Matching` expectations do not remember the messages they have seen, and
the other parts that are written by the user come to the same result for both lists of facts. -/
def Expectation.Forgetful (s : PScope) (fs fs' : List Fact) : Expectation → Prop
  | .message _ | .type _ | .nil => True
  | .matching _ fn _ _ => ∀ seen seen' m, fn seen m = fn seen' m
  | .composite _ es => Expectation.AllForgetful s fs fs' es
  | .not e => e.Forgetful s fs fs'
  | .repeatedly _ _ f => ∀ i, (f i).Forgetful s fs fs'
  | .satisfy d fn => (Expectation.satisfy d fn).verdict s fs' = (Expectation.satisfy d fn).verdict s fs
  | .custom d mk => (Expectation.custom d mk).verdict s fs' = (Expectation.custom d mk).verdict s fs
/-- The same for all of the expectations. -/
def Expectation.AllForgetful (s : PScope) (fs fs' : List Fact) : List Expectation → Prop
  | [] => True
  | e :: es => e.Forgetful s fs fs' ∧ Expectation.AllForgetful s fs fs' es
end

/-! ## Proofs -/

theorem verdict_refused {e : Expectation} {s : PScope} {fs : List Fact} {r : BuildErr}
    (h : e.verdict s fs = .refused r) (fs' : List Fact) : e.verdict s fs' = .refused r := by
  unfold Expectation.verdict at h ⊢
  generalize (e.build s).2 = r' at h ⊢
  cases r' with
  | error x => exact h
  | ok p =>
    exfalso
    unfold judgeBuilt at h
    simp only at h
    unfold Pred.verdict at h
    split at h <;> cases h

theorem keeps_says {b : Bool} {v v' : Verdict} {P P' : Prop} (h : v.says P) (h' : v'.says P')
    (hP : if b = true then P → P' else P' → P) : Verdict.Keeps b v v' := by
  rcases h with ⟨hp, rfl⟩ | ⟨hp, rfl⟩ <;> rcases h' with ⟨hp', rfl⟩ | ⟨hp', rfl⟩ <;>
    refine .decided ?_ <;> cases b <;> simp_all

/-- The same for verdicts in order. -/
inductive AllKeep (b : Bool) : List Verdict → List Verdict → Prop where
  | nil : AllKeep b [] []
  | cons {v v' : Verdict} {vs vs' : List Verdict} (h : Verdict.Keeps b v v') (hs : AllKeep b vs vs') :
      AllKeep b (v :: vs) (v' :: vs')

/-- The same for decisions. -/
inductive BoolKeep (b : Bool) : List Bool → List Bool → Prop where
  | nil : BoolKeep b [] []
  | cons {c c' : Bool} {cs cs' : List Bool} (h : c = b → c' = b) (hs : BoolKeep b cs cs') :
      BoolKeep b (c :: cs) (c' :: cs')

theorem together_keeps {b b' : Bool} {f : List Bool → Bool}
    (hf : ∀ cs cs', BoolKeep b cs cs' → f cs = b' → f cs' = b') {vs vs' : List Verdict}
    (h : AllKeep b vs vs') : Verdict.Keeps b' (together f vs) (together f vs') := by
  have h1 : vs'.findSome? Verdict.refusal = vs.findSome? Verdict.refusal := by
    induction h with
    | nil => rfl
    | cons hv _ ih => cases hv <;> simp [List.findSome?_cons, Verdict.refusal, ih]
  have h2 : vs'.findSome? Verdict.crash = vs.findSome? Verdict.crash := by
    clear h1
    induction h with
    | nil => rfl
    | cons hv _ ih => cases hv <;> simp [List.findSome?_cons, Verdict.crash, ih]
  unfold together
  rw [h1, h2]
  cases hr : vs.findSome? Verdict.refusal with
  | some e => exact .refused e
  | none =>
    cases hc : vs.findSome? Verdict.crash with
    | some v => exact .crashed v
    | none =>
      refine .decided (hf _ _ ?_)
      clear h1 h2
      rw [List.findSome?_eq_none_iff] at hr hc
      induction h with
      | nil => exact .nil
      | cons hv _ ih =>
        refine .cons ?_ (ih (fun v h => hr v (by simp [h])) (fun v h => hc v (by simp [h])))
        cases hv with
        | decided h => exact h
        | refused e => exact fun h => h
        | crashed e => exact fun h => h

theorem all_keeps {b : Bool} {cs cs' : List Bool} (h : BoolKeep b cs cs') : cs.all id = b → cs'.all id = b := by
  induction h with
  | nil => exact id
  | @cons c c' cs cs' hc _ ih =>
    simp only [List.all_cons, id]
    cases b <;> cases c <;> cases c' <;> simp_all

theorem any_keeps {b : Bool} {cs cs' : List Bool} (h : BoolKeep b cs cs') : cs.any id = b → cs'.any id = b := by
  induction h with
  | nil => exact id
  | @cons c c' cs cs' hc _ ih =>
    simp only [List.any_cons, id]
    cases b <;> cases c <;> cases c' <;> simp_all

theorem Verdict.Keeps.opposite {b : Bool} {v v' : Verdict} (h : Verdict.Keeps (!b) v v') :
    Verdict.Keeps b v.opposite v'.opposite := by
  cases h with
  | decided h => exact .decided (by revert h; rename_i c c'; cases b <;> cases c <;> cases c' <;> decide)
  | refused e => exact .refused e
  | crashed e => exact .crashed e

theorem Verdict.Keeps.iteration {b : Bool} {v v' : Verdict} (h : Verdict.Keeps b v v') (i : Nat) :
    Verdict.Keeps b (v.iteration i) (v'.iteration i) := by
  cases h with
  | decided h => exact .decided h
  | refused e => cases e <;> exact .refused _
  | crashed e => exact .crashed e

theorem countedIn_append (md : Bool) (fs more : List Fact) :
    countedIn md (fs ++ more) = countedIn md fs ++ countedIn md more := by
  unfold countedIn
  rw [List.filterMap_append, List.map_append]

theorem asked_append (T : MatchType) (a b : List Message) : asked T (a ++ b) = asked T a ++ asked T b := by
  unfold asked ofKind
  rw [List.filter_append, List.filter_append]

theorem leaf_keeps {e : Expectation} {s : PScope} {fs fs' : List Fact} {b : Bool} {G P P' : Prop}
    (h : (G → (e.verdict s fs).says P) ∧ (¬G → ∃ r, e.verdict s fs = .refused r))
    (h' : G → (e.verdict s fs').says P') (hP : if b = true then P → P' else P' → P) :
    Verdict.Keeps b (e.verdict s fs) (e.verdict s fs') := by
  by_cases g : G
  · exact keeps_says (h.1 g) (h' g) hP
  · obtain ⟨r, hr⟩ := h.2 g
    rw [hr, verdict_refused hr fs']
    exact .refused r

section
variable {s : PScope} {fs more : List Fact}

mutual
theorem verdict_keeps : (e : Expectation) → (b : Bool) → e.OneWay s fs (fs ++ more) b →
    Verdict.Keeps b (e.verdict s fs) (e.verdict s (fs ++ more))
  | .message m, b, hb => by
    unfold Expectation.OneWay at hb
    subst hb
    refine leaf_keeps (C44_message s fs m) (C44_message s (fs ++ more) m).1 ?_
    simp only [if_true, countedIn_append, List.mem_append]
    rintro ⟨x, hx, h⟩
    exact ⟨x, .inl hx, h⟩
  | .type t, b, hb => by
    unfold Expectation.OneWay at hb
    subst hb
    refine leaf_keeps (C45_type s fs t) (C45_type s (fs ++ more) t).1 ?_
    simp only [if_true, countedIn_append, List.mem_append]
    rintro ⟨x, hx, h⟩
    exact ⟨x, .inl hx, h⟩
  | .matching T fn loc false, b, hb => by
    unfold Expectation.OneWay at hb
    subst hb
    have h := C46_matching s fs T fn loc
    refine leaf_keeps
      ⟨h.1, fun hx => h.2 (Classical.not_not.1 fun hi => hx (.inl hi)) fun hp => hx (.inr hp)⟩
      (C46_matching s (fs ++ more) T fn loc).1 ?_
    simp only [Bool.not_false, if_true, countedIn_append, asked_append]
    rintro ⟨pre, x, post, he, hx⟩
    exact ⟨pre, x, post ++ asked T (countedIn s.opts.matchDispatch more), by rw [he]; simp, hx⟩
  | .matching T fn loc true, b, hb => by
    unfold Expectation.OneWay at hb
    subst hb
    have h := C47_only_matching s fs T fn loc
    refine leaf_keeps
      ⟨h.1, fun hx => h.2 (Classical.not_not.1 fun hi => hx (.inl hi)) fun hp => hx (.inr hp)⟩
      (C47_only_matching s (fs ++ more) T fn loc).1 ?_
    simp only [Bool.not_true, Bool.false_eq_true, if_false, countedIn_append, asked_append]
    rintro ⟨h1, h2⟩
    refine ⟨fun x hx => h1 x ?_, fun pre x post he => ?_⟩
    · unfold ofKind at hx ⊢
      rw [List.filter_append]
      exact List.mem_append_left _ hx
    · exact h2 pre x (post ++ asked T (countedIn s.opts.matchDispatch more)) (by rw [he]; simp)
  | .composite .allOf es, b, hb => by
    unfold Expectation.OneWay at hb
    rw [verdict_composite, verdict_composite]
    exact together_keeps (fun _ _ h => all_keeps h) (verdicts_keep es b hb)
  | .composite .anyOf es, b, hb => by
    unfold Expectation.OneWay at hb
    rw [verdict_composite, verdict_composite]
    exact together_keeps (fun _ _ h => any_keeps h) (verdicts_keep es b hb)
  | .composite .noneOf es, b, hb => by
    unfold Expectation.OneWay at hb
    rw [verdict_composite, verdict_composite]
    refine together_keeps (fun cs cs' h hc => ?_) (verdicts_keep es (!b) hb)
    have := any_keeps h
    simp only [CompKind.judge] at hc ⊢
    revert this hc
    cases b <;> cases cs.any id <;> cases cs'.any id <;> decide
  | .not e, b, hb => by
    unfold Expectation.OneWay at hb
    rw [verdict_not, verdict_not]
    exact (verdict_keeps e (!b) hb).opposite
  | .repeatedly d n f, b, hb => by
    unfold Expectation.OneWay at hb
    rw [verdict_repeatedly, verdict_repeatedly]
    refine together_keeps (fun _ _ h => all_keeps h) ?_
    have key : ∀ i, Verdict.Keeps b (iterVerdict s fs f i) (iterVerdict s (fs ++ more) f i) := by
      intro i
      unfold iterVerdict
      split
      · exact .refused _
      · exact (verdict_keeps (f i) b (hb i)).iteration i
    induction List.range n with
    | nil => exact .nil
    | cons i l ih => exact .cons (key i) ih
  | .satisfy d fn, b, hb => by unfold Expectation.OneWay at hb; exact hb
  | .custom d mk, b, hb => by unfold Expectation.OneWay at hb; exact hb
  | .nil, b, _ => by
    have h : ∀ fs, Expectation.nil.verdict s fs = Expectation.nil.verdict s [] := fun _ => rfl
    rw [h fs, h (fs ++ more)]
    cases hx : Expectation.nil.verdict s [] with
    | decided c => exact .decided id
    | refused e => exact .refused e
    | crashed v => exact .crashed v
theorem verdicts_keep : (es : List Expectation) → (b : Bool) → Expectation.AllOneWay s fs (fs ++ more) b es →
    AllKeep b (es.map (Expectation.verdict s fs)) (es.map (Expectation.verdict s (fs ++ more)))
  | [], _, _ => .nil
  | e :: es, b, hb => by
    unfold Expectation.AllOneWay at hb
    exact .cons (verdict_keeps e b hb.1) (verdicts_keep es b hb.2)
end

/-- **C122.** An expectation that messages are produced, once met, stays met, whatever happens next. -/
theorem C122_met (e : Expectation) (he : e.OneWay s fs (fs ++ more) true) (h : e.verdict s fs = .decided true) :
    e.verdict s (fs ++ more) = .decided true := by
  have hk := verdict_keeps e true he
  rw [h] at hk
  generalize e.verdict s (fs ++ more) = v at hk
  cases hk with
  | decided hk => rw [hk rfl]

/-- **C122.** An expectation that messages are not produced, once unmet, stays unmet, whatever happens
next. -/
theorem C122_unmet (e : Expectation) (he : e.OneWay s fs (fs ++ more) false) (h : e.verdict s fs = .decided false) :
    e.verdict s (fs ++ more) = .decided false := by
  have hk := verdict_keeps e false he
  rw [h] at hk
  generalize e.verdict s (fs ++ more) = v at hk
  cases hk with
  | decided hk => rw [hk rfl]

end

section
variable {s : PScope} {fs fs' : List Fact}

theorem says_swap {e : Expectation} {G P P' : Prop}
    (h : (G → (e.verdict s fs).says P) ∧ (¬G → ∃ r, e.verdict s fs = .refused r))
    (h' : G → (e.verdict s fs').says P') (hP : P ↔ P') : e.verdict s fs' = e.verdict s fs := by
  by_cases g : G
  · exact Verdict.says_same (h.1 g) (h' g) hP
  · obtain ⟨r, hr⟩ := h.2 g
    rw [hr, verdict_refused hr fs']

theorem mem_asked {T : MatchType} {a b : List Message} (h : ∀ m, m ∈ a ↔ m ∈ b) (x : Message) :
    x ∈ asked T a ↔ x ∈ asked T b := by
  unfold asked ofKind
  simp only [List.mem_filter, h]

mutual
theorem verdict_set (hm : ∀ m, m ∈ countedIn s.opts.matchDispatch fs ↔ m ∈ countedIn s.opts.matchDispatch fs') :
    (e : Expectation) → e.Forgetful s fs fs' → e.verdict s fs' = e.verdict s fs
  | .message m, _ => says_swap (C44_message s fs m) (C44_message s fs' m).1 (by simp only [hm])
  | .type t, _ => says_swap (C45_type s fs t) (C45_type s fs' t).1 (by simp only [hm])
  | .matching T fn loc false, hf => by
    unfold Expectation.Forgetful at hf
    have h := C46_matching s fs T fn loc
    refine says_swap
      ⟨h.1, fun hx => h.2 (Classical.not_not.1 fun hi => hx (.inl hi)) fun hp => hx (.inr hp)⟩
      (C46_matching s fs' T fn loc).1 ?_
    have key : ∀ {a b : List Message}, (∀ m, m ∈ a ↔ m ∈ b) →
        (∃ pre x post, asked T a = pre ++ x :: post ∧ fn pre x = .nil) →
        ∃ pre x post, asked T b = pre ++ x :: post ∧ fn pre x = .nil := by
      rintro a b hab ⟨pre, x, post, he, hx⟩
      have h1 : x ∈ asked T b := (mem_asked hab x).1 (by rw [he]; simp)
      obtain ⟨p, q, h2⟩ := List.append_of_mem h1
      exact ⟨p, x, q, h2, (hf p pre x).trans hx⟩
    exact ⟨key hm, key fun m => (hm m).symm⟩
  | .matching T fn loc true, hf => by
    unfold Expectation.Forgetful at hf
    have h := C47_only_matching s fs T fn loc
    refine says_swap
      ⟨h.1, fun hx => h.2 (Classical.not_not.1 fun hi => hx (.inl hi)) fun hp => hx (.inr hp)⟩
      (C47_only_matching s fs' T fn loc).1 ?_
    have key : ∀ {a b : List Message}, (∀ m, m ∈ a ↔ m ∈ b) →
        ((∀ x ∈ ofKind T.type.kind a, T.asserts x.type = true) ∧
          ∀ pre x post, asked T a = pre ++ x :: post → fn pre x = .nil ∨ fn pre x = .ignore) →
        ((∀ x ∈ ofKind T.type.kind b, T.asserts x.type = true) ∧
          ∀ pre x post, asked T b = pre ++ x :: post → fn pre x = .nil ∨ fn pre x = .ignore) := by
      rintro a b hab ⟨h1, h2⟩
      refine ⟨fun x hx => h1 x ?_, fun pre x post he => ?_⟩
      · unfold ofKind at hx ⊢
        simp only [List.mem_filter, hab] at hx ⊢
        exact hx
      · have h3 : x ∈ asked T a := (mem_asked hab x).2 (by rw [he]; simp)
        obtain ⟨p, q, h4⟩ := List.append_of_mem h3
        rw [hf pre p x]
        exact h2 p x q h4
    exact ⟨key hm, key fun m => (hm m).symm⟩
  | .composite k es, hf => by
    unfold Expectation.Forgetful at hf
    rw [verdict_composite, verdict_composite, verdicts_set hm es hf]
  | .not e, hf => by
    unfold Expectation.Forgetful at hf
    rw [verdict_not, verdict_not, verdict_set hm e hf]
  | .repeatedly d n f, hf => by
    unfold Expectation.Forgetful at hf
    rw [verdict_repeatedly, verdict_repeatedly]
    have key : iterVerdict s fs' f = iterVerdict s fs f := by
      funext i
      unfold iterVerdict
      rw [verdict_set hm (f i) (hf i)]
    rw [key]
  | .satisfy d fn, hf => by unfold Expectation.Forgetful at hf; exact hf
  | .custom d mk, hf => by unfold Expectation.Forgetful at hf; exact hf
  | .nil, _ => rfl
theorem verdicts_set (hm : ∀ m, m ∈ countedIn s.opts.matchDispatch fs ↔ m ∈ countedIn s.opts.matchDispatch fs') :
    (es : List Expectation) → Expectation.AllForgetful s fs fs' es →
    es.map (Expectation.verdict s fs') = es.map (Expectation.verdict s fs)
  | [], _ => rfl
  | e :: es, hf => by
    unfold Expectation.AllForgetful at hf
    rw [List.map_cons, List.map_cons, verdict_set hm e hf.1, verdicts_set hm es hf.2]
end

/-- **C122.** Neither the order in which messages were produced nor how often one was produced matters,
nor anything else that happened: the verdict is the same if the same messages occur, provided that
functions given to `...Matching` do not remember. -/
theorem C122_set (e : Expectation) (he : e.Forgetful s fs fs')
    (hm : ∀ m, m ∈ countedIn s.opts.matchDispatch fs ↔ m ∈ countedIn s.opts.matchDispatch fs') :
    e.verdict s fs' = e.verdict s fs := verdict_set hm e he

/-- **C122.** In particular, facts may come in another order. -/
theorem C122_order (e : Expectation) (he : e.Forgetful s fs fs') (hp : fs.Perm fs') :
    e.verdict s fs' = e.verdict s fs :=
  C122_set e he fun _ => ((hp.filterMap (Fact.counts s.opts.matchDispatch)).map Env.msg).mem_iff

end

/-! ## Concrete cases -/

namespace Demo

/-- An aggregate records an event of type `E`. -/
def recorded (b : String) : Fact := .aggEvent agg "a" (Env.root 1 (msgC "x") 5) (Env.root 2 ⟨evtE, b, none⟩ 5)

/-- An expectation with both kinds of parts: an event of type `E` is recorded, and it is not the case
that all such events have a certain content. -/
def wanted : Expectation :=
  .composite .allOf [.type evtE, .not (.matching ⟨evtE, none⟩
    (fun _ m => if m.body = "1" then .nil else .err "no") "here" true)]

theorem wanted_oneWay (fs fs' : List Fact) : wanted.OneWay (scope false) fs fs' true :=
  ⟨rfl, rfl, trivial⟩

example : wanted.verdict (scope false) [recorded "2"] = .decided true := by decide +kernel

/-- The theorem, whatever happens next. -/
example (more : List Fact) : wanted.verdict (scope false) ([recorded "2"] ++ more) = .decided true :=
  C122_met wanted (wanted_oneWay _ _) (by decide +kernel)

/-- The opposite expectation stays unmet. -/
example (more : List Fact) : (Expectation.not wanted).verdict (scope false) ([recorded "2"] ++ more) = .decided false :=
  C122_unmet (.not wanted) (wanted_oneWay _ _) (by decide +kernel)

/-- Facts that repeat, in another order. -/
example : wanted.verdict (scope false) [recorded "1", recorded "2", recorded "1"] =
    wanted.verdict (scope false) [recorded "2", recorded "1"] :=
  C122_set wanted ⟨trivial, fun _ _ _ => rfl, trivial⟩ (by
    intro m
    have h1 : countedIn (scope false).opts.matchDispatch [recorded "2", recorded "1"] =
      [⟨evtE, "2", none⟩, ⟨evtE, "1", none⟩] := rfl
    have h2 : countedIn (scope false).opts.matchDispatch [recorded "1", recorded "2", recorded "1"] =
      [⟨evtE, "1", none⟩, ⟨evtE, "2", none⟩, ⟨evtE, "1", none⟩] := rfl
    rw [h1, h2]
    simp only [List.mem_cons, List.not_mem_nil, or_false]
    grind)

/-- A function that accepts the first message it sees only if it is this one. -/
def firstIs (b : String) : Expectation :=
  .matching ⟨evtE, none⟩
    (fun seen m => if seen = [] ∧ m.body = b then .nil else .err "no") "here" false

end Demo

/-- Expectations that only certain messages are produced can be met and then no longer; and if a function
remembers, the order matters. -/
theorem C122_limits :
    (∃ (s : PScope) (e : Expectation) (fs more : List Fact), e.verdict s fs = .decided true ∧
      e.verdict s (fs ++ more) = .decided false) ∧
    (∃ (s : PScope) (e : Expectation) (fs fs' : List Fact), fs.Perm fs' ∧ e.verdict s fs = .decided true ∧
      e.verdict s fs' = .decided false) :=
  ⟨⟨Demo.scope false, .not (.type Demo.evtE), [], [Demo.recorded "1"], by decide +kernel, by decide +kernel⟩,
   ⟨Demo.scope false, Demo.firstIs "1", [Demo.recorded "1", Demo.recorded "2"],
    [Demo.recorded "2", Demo.recorded "1"], .swap .., by decide +kernel, by decide +kernel⟩⟩

end Verif
