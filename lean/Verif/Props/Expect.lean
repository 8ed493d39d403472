import Verif.ExpectRefine
import Verif.Demo

/-!
# Verdicts of expectations (C44-C50)
-/

namespace Verif

/-- The application uses messages of type `t` in a way that could satisfy an expectation about
them: some handler produces it or (if messages given to the engine count) consumes it. -/
def Possible (s : PScope) (t : MType) : Prop :=
  (∃ h ∈ s.cfgs, t ∈ h.produces) ∨
    (s.opts.matchDispatch = true ∧ ∃ h ∈ s.cfgs, t ∈ h.consumes)

theorem guard_ok {s : PScope} {t : MType} (h : Possible s t) : guardImpossible s t = .ok () := by
  unfold guardImpossible
  have hu : s.cfgs.any (fun h => decide (t ∈ h.consumes) || decide (t ∈ h.produces)) = true := by
    rw [List.any_eq_true]
    rcases h with ⟨h, hh, ht⟩ | ⟨_, h, hh, ht⟩ <;> exact ⟨h, hh, by simp [ht]⟩
  rw [if_pos hu]
  by_cases hm : s.opts.matchDispatch = true
  · rw [if_pos hm]
  · rw [if_neg hm]
    rcases h with ⟨h, hh, ht⟩ | ⟨hc, _⟩
    · rw [if_pos]
      rw [List.any_eq_true]
      exact ⟨h, hh, by simp [ht]⟩
    · exact absurd hc hm

theorem guard_err {s : PScope} {t : MType} (h : ¬ Possible s t) :
    ∃ e, guardImpossible s t = .error e := by
  unfold guardImpossible
  by_cases hu : s.cfgs.any (fun h => decide (t ∈ h.consumes) || decide (t ∈ h.produces)) = true
  · rw [if_pos hu]
    by_cases hm : s.opts.matchDispatch = true
    · exfalso
      apply h
      rw [List.any_eq_true] at hu
      obtain ⟨x, hx, ht⟩ := hu
      simp only [Bool.or_eq_true, decide_eq_true_eq] at ht
      rcases ht with ht | ht
      · exact .inr ⟨hm, x, hx, ht⟩
      · exact .inl ⟨x, hx, ht⟩
    · rw [if_neg hm, if_neg]
      · exact ⟨_, rfl⟩
      · intro hp
        apply h
        rw [List.any_eq_true] at hp
        obtain ⟨x, hx, ht⟩ := hp
        exact .inl ⟨x, hx, by simpa using ht⟩
  · rw [if_neg hu]; exact ⟨_, rfl⟩

/-- A verdict that says whether `P`. -/
def Verdict.says (v : Verdict) (P : Prop) : Prop :=
  (P ∧ v = .decided true) ∨ (¬P ∧ v = .decided false)

theorem Verdict.says_of {v : Verdict} {b : Bool} {P : Prop} (hv : v = .decided b)
    (hb : b = true ↔ P) : v.says P := by
  cases b with
  | true => exact .inl ⟨hb.1 rfl, hv⟩
  | false => exact .inr ⟨fun h => (by simpa using hb.2 h), hv⟩

/-- **C44.**  `ToExecuteCommand(m)`/`ToRecordEvent(m)` pass iff a message that counts (produced
by a handler, or for actions that say so given to the engine) has the type of `m` and is equal
to `m` according to the comparator of the test; and if the application can not use the type
accordingly, no predicate is made. -/
theorem C44_message (s : PScope) (fs : List Fact) (m : Message) :
    (Possible s m.type → ((Expectation.message m).verdict s fs).says
      (∃ x ∈ countedIn s.opts.matchDispatch fs, x.type = m.type ∧ s.same x m = true)) ∧
    (¬ Possible s m.type → ∃ e, (Expectation.message m).verdict s fs = .refused e) := by
  constructor
  · intro h
    refine Verdict.says_of (b := _) ?_ (MsgPred.observe s m fs)
    unfold Expectation.verdict Expectation.build
    simp only [guard_ok h, judgeBuilt, Pred.verdict, observe_message, Pred.done, Pred.ok]
  · intro h
    obtain ⟨e, he⟩ := guard_err h
    exact ⟨e, by unfold Expectation.verdict Expectation.build; simp only [he, judgeBuilt]⟩

/-- **C45.**  `ToExecuteCommandType[T]()`/`ToRecordEventType[T]()` pass iff a message that counts
has that type. -/
theorem C45_type (s : PScope) (fs : List Fact) (t : MType) :
    (Possible s t → ((Expectation.type t).verdict s fs).says
      (∃ x ∈ countedIn s.opts.matchDispatch fs, x.type = t)) ∧
    (¬ Possible s t → ∃ e, (Expectation.type t).verdict s fs = .refused e) := by
  constructor
  · intro h
    refine Verdict.says_of (b := _) ?_ (TypePred.observe s t fs)
    unfold Expectation.verdict Expectation.build
    simp only [guard_ok h, judgeBuilt, Pred.verdict, observe_type, Pred.done, Pred.ok]
  · intro h
    obtain ⟨e, he⟩ := guard_err h
    exact ⟨e, by unfold Expectation.verdict Expectation.build; simp only [he, judgeBuilt]⟩

/-- The verdict of a matching expectation, when its predicate can be made. -/
theorem matching_verdict (s : PScope) (fs : List Fact) (T : MatchType)
    (fn : List Message → Message → MatchRes) (loc : String) (ex : Bool)
    (h : T.iface ≠ none ∨ Possible s T.type) :
    ∃ p, MatchInv s T fn loc ex fs p ∧
      (Expectation.matching T fn loc ex).verdict s fs = .decided p.done.ok := by
  refine ⟨_, MatchPred.observe_inv s T fn loc ex fs, ?_⟩
  unfold Expectation.verdict Expectation.build
  cases hi : T.iface with
  | some f => simp only [judgeBuilt, Pred.verdict, observe_matching, Pred.done, Pred.ok]
  | none =>
    have hp : Possible s T.type := by
      rcases h with h | h
      · exact absurd hi h
      · exact h
    simp only [guard_ok hp, judgeBuilt, Pred.verdict, observe_matching, Pred.done, Pred.ok]

theorem matching_refused (s : PScope) (fs : List Fact) (T : MatchType)
    (fn : List Message → Message → MatchRes) (loc : String) (ex : Bool)
    (hi : T.iface = none) (h : ¬ Possible s T.type) :
    ∃ e, (Expectation.matching T fn loc ex).verdict s fs = .refused e := by
  obtain ⟨e, he⟩ := guard_err h
  refine ⟨e, ?_⟩
  unfold Expectation.verdict Expectation.build
  simp only [hi, he, judgeBuilt]

/-- **C46.**  `ToExecuteCommandMatching[T](f)`/`ToRecordEventMatching[T](f)` pass iff `f` returns
nil for one of the messages that count and are of type `T`, when called with them in order.  `f`
may depend on the calls made before. -/
theorem C46_matching (s : PScope) (fs : List Fact) (T : MatchType)
    (fn : List Message → Message → MatchRes) (loc : String) :
    (T.iface ≠ none ∨ Possible s T.type →
      ((Expectation.matching T fn loc false).verdict s fs).says
        (∃ pre x post, asked T (countedIn s.opts.matchDispatch fs) = pre ++ x :: post ∧
          fn pre x = .nil)) ∧
    (T.iface = none → ¬ Possible s T.type →
      ∃ e, (Expectation.matching T fn loc false).verdict s fs = .refused e) := by
  refine ⟨fun h => ?_, matching_refused s fs T fn loc false⟩
  obtain ⟨p, hp, hv⟩ := matching_verdict s fs T fn loc false h
  refine Verdict.says_of hv ?_
  rw [← hp.hok rfl]
  unfold MatchPred.done
  rw [hp.hex]
  simp

/-- **C46**, for a function that depends on the message only. -/
theorem C46_pure (s : PScope) (fs : List Fact) (T : MatchType) (f : Message → MatchRes)
    (loc : String) (h : T.iface ≠ none ∨ Possible s T.type) :
    ((Expectation.matching T (fun _ => f) loc false).verdict s fs).says
      (∃ x ∈ countedIn s.opts.matchDispatch fs,
        x.type.kind = T.type.kind ∧ T.asserts x.type = true ∧ f x = .nil) := by
  have h' := (C46_matching s fs T (fun _ => f) loc).1 h
  have : (∃ pre x post, asked T (countedIn s.opts.matchDispatch fs) = pre ++ x :: post ∧
      f x = .nil) ↔ (∃ x ∈ countedIn s.opts.matchDispatch fs,
        x.type.kind = T.type.kind ∧ T.asserts x.type = true ∧ f x = .nil) := by
    constructor
    · rintro ⟨pre, x, post, hs, hx⟩
      have hm : x ∈ asked T (countedIn s.opts.matchDispatch fs) := by rw [hs]; simp
      simp only [asked, ofKind, List.mem_filter, decide_eq_true_eq] at hm
      exact ⟨x, hm.1.1, hm.1.2, hm.2, hx⟩
    · rintro ⟨x, hm, hk, ha, hx⟩
      have hm : x ∈ asked T (countedIn s.opts.matchDispatch fs) := by
        simp only [asked, ofKind, List.mem_filter, decide_eq_true_eq]
        exact ⟨⟨hm, hk⟩, ha⟩
      obtain ⟨pre, post, hs⟩ := List.append_of_mem hm
      exact ⟨pre, x, post, hs, hx⟩
  unfold Verdict.says at h' ⊢
  rwa [this] at h'

/-- **C47.**  `ToOnlyExecuteCommandsMatching[T](f)`/`ToOnlyRecordEventsMatching[T](f)` pass iff
all messages of the kind that count are of type `T`, and `f` returns nil or `IgnoreMessage`
for each when called with them in order. -/
theorem C47_only_matching (s : PScope) (fs : List Fact) (T : MatchType)
    (fn : List Message → Message → MatchRes) (loc : String) :
    (T.iface ≠ none ∨ Possible s T.type →
      ((Expectation.matching T fn loc true).verdict s fs).says
        ((∀ x ∈ ofKind T.type.kind (countedIn s.opts.matchDispatch fs),
            T.asserts x.type = true) ∧
          ∀ pre x post, asked T (countedIn s.opts.matchDispatch fs) = pre ++ x :: post →
            fn pre x = .nil ∨ fn pre x = .ignore)) ∧
    (T.iface = none → ¬ Possible s T.type →
      ∃ e, (Expectation.matching T fn loc true).verdict s fs = .refused e) := by
  refine ⟨fun h => ?_, matching_refused s fs T fn loc true⟩
  obtain ⟨p, hp, hv⟩ := matching_verdict s fs T fn loc true h
  refine Verdict.says_of hv ?_
  rw [← hp.hfail rfl]
  unfold MatchPred.done
  rw [hp.hex, Bool.true_and]
  cases hf : p.failures with
  | nil => simp
  | cons a l => simp [hp.hexok rfl]

/-- **C47**, for a function that depends on the message only. -/
theorem C47_pure (s : PScope) (fs : List Fact) (T : MatchType) (f : Message → MatchRes)
    (loc : String) (h : T.iface ≠ none ∨ Possible s T.type) :
    ((Expectation.matching T (fun _ => f) loc true).verdict s fs).says
      (∀ x ∈ countedIn s.opts.matchDispatch fs, x.type.kind = T.type.kind →
        T.asserts x.type = true ∧ (f x = .nil ∨ f x = .ignore)) := by
  have h' := (C47_only_matching s fs T (fun _ => f) loc).1 h
  have : ((∀ x ∈ ofKind T.type.kind (countedIn s.opts.matchDispatch fs),
            T.asserts x.type = true) ∧
          ∀ pre x post, asked T (countedIn s.opts.matchDispatch fs) = pre ++ x :: post →
            f x = .nil ∨ f x = .ignore) ↔
      (∀ x ∈ countedIn s.opts.matchDispatch fs, x.type.kind = T.type.kind →
        T.asserts x.type = true ∧ (f x = .nil ∨ f x = .ignore)) := by
    constructor
    · rintro ⟨h1, h2⟩ x hx hk
      have hk' : x ∈ ofKind T.type.kind (countedIn s.opts.matchDispatch fs) := by
        simp [ofKind, hx, hk]
      refine ⟨h1 x hk', ?_⟩
      have hm : x ∈ asked T (countedIn s.opts.matchDispatch fs) := by
        simp only [asked, List.mem_filter]; exact ⟨hk', h1 x hk'⟩
      obtain ⟨pre, post, hs⟩ := List.append_of_mem hm
      exact h2 pre x post hs
    · intro h
      refine ⟨?_, ?_⟩
      · intro x hx
        simp only [ofKind, List.mem_filter, decide_eq_true_eq] at hx
        exact (h x hx.1 hx.2).1
      · intro pre x post hs
        have hm : x ∈ asked T (countedIn s.opts.matchDispatch fs) := by rw [hs]; simp
        simp only [asked, ofKind, List.mem_filter, decide_eq_true_eq] at hm
        exact (h x hm.1.1 hm.1.2).2
  unfold Verdict.says at h' ⊢
  rwa [this] at h'

/-! ## Composites -/

theorem says_decided {v : Verdict} {P : Prop} (h : v.says P) {b : Bool} (hb : v = .decided b) :
    b = true ↔ P := by
  rcases h with ⟨hp, hv⟩ | ⟨hp, hv⟩
  · rw [hb] at hv; simp at hv; simp [hv, hp]
  · rw [hb] at hv; simp at hv; simp [hv, hp]

theorem together_decided {f : List Bool → Bool} {vs : List Verdict} {b : Bool}
    (h : together f vs = .decided b) :
    b = f (vs.map Verdict.passed) ∧ ∀ v ∈ vs, ∃ c, v = .decided c := by
  unfold together at h
  cases hr : vs.findSome? Verdict.refusal with
  | some e => rw [hr] at h; cases h
  | none =>
    rw [hr] at h
    cases hc : vs.findSome? Verdict.crash with
    | some e => rw [hc] at h; cases h
    | none =>
      rw [hc] at h
      simp only [Verdict.decided.injEq] at h
      refine ⟨h.symm, fun v hv => ?_⟩
      rw [List.findSome?_eq_none_iff] at hr hc
      have h1 := hr v hv
      have h2 := hc v hv
      cases v with
      | refused e => cases h1
      | crashed e => cases h2
      | decided c => exact ⟨c, rfl⟩

theorem together_of_decided (f : List Bool → Bool) (bs : List Bool) :
    together f (bs.map .decided) = .decided (f bs) := by
  unfold together
  have h1 : (bs.map Verdict.decided).findSome? Verdict.refusal = none := by
    rw [List.findSome?_eq_none_iff]; intro v hv
    obtain ⟨b, _, rfl⟩ := List.mem_map.1 hv; rfl
  have h2 : (bs.map Verdict.decided).findSome? Verdict.crash = none := by
    rw [List.findSome?_eq_none_iff]; intro v hv
    obtain ⟨b, _, rfl⟩ := List.mem_map.1 hv; rfl
  have h3 : (bs.map Verdict.decided).map Verdict.passed = bs := by
    simp [List.map_map, Function.comp_def, Verdict.passed]
  rw [h1, h2, h3]

/-- What `AllOf`, `AnyOf` and `NoneOf` make of the verdicts of the children. -/
def CompKind.meaning : CompKind → List Verdict → Prop
  | .allOf, vs => ∀ v ∈ vs, v = .decided true
  | .anyOf, vs => ∃ v ∈ vs, v = .decided true
  | .noneOf, vs => ∀ v ∈ vs, v ≠ .decided true

/-- The verdict of what `AllOf(es...)`, `AnyOf(es...)`, `NoneOf(es...)` return. -/
theorem mkComposite_verdict {s : PScope} {fs : List Fact} {k : CompKind} {es : List Expectation}
    {e : Expectation} (h : mkComposite k es = some e) :
    e.verdict s fs = together k.judge (es.map (Expectation.verdict s fs)) := by
  unfold mkComposite at h
  match es, h with
  | [x], h =>
    by_cases hk : k = .noneOf
    · simp only [if_pos hk] at h
      cases h
      exact verdict_composite s fs k [x]
    · simp only [if_neg hk] at h
      cases h
      simp only [List.map_cons, List.map_nil]
      cases hv : e.verdict s fs with
      | refused r => simp [together, List.findSome?_cons, Verdict.refusal]
      | crashed c => simp [together, List.findSome?_cons, Verdict.refusal, Verdict.crash]
      | decided b =>
        have := together_of_decided k.judge [b]
        simp only [List.map_cons, List.map_nil] at this
        rw [this]
        cases k with
        | allOf => simp [CompKind.judge]
        | anyOf => simp [CompKind.judge]
        | noneOf => exact absurd rfl hk
  | x :: y :: es, h =>
    cases h
    exact verdict_composite s fs k _

/-- **C48.**  `AllOf()`, `AnyOf()`, `NoneOf()` without children panic; with children there is a
refusal or a panic if one of the children has one (the first one counts), and otherwise they
pass iff all, at least one, none of the children do.  `Not()` passes iff its child does not.
(Children may be composites again.) -/
theorem C48_composite (s : PScope) (fs : List Fact) :
    (∀ k, mkComposite k [] = none) ∧
    (∀ k es, es ≠ [] → ∃ e, mkComposite k es = some e ∧
      (∀ x, (es.map (Expectation.verdict s fs)).findSome? Verdict.refusal = some x →
        e.verdict s fs = .refused x) ∧
      (∀ x, (es.map (Expectation.verdict s fs)).findSome? Verdict.refusal = none →
        (es.map (Expectation.verdict s fs)).findSome? Verdict.crash = some x →
        e.verdict s fs = .crashed x) ∧
      ((∀ c ∈ es, ∃ b, c.verdict s fs = .decided b) →
        (e.verdict s fs).says (k.meaning (es.map (Expectation.verdict s fs))))) ∧
    (∀ e, (Expectation.not e).verdict s fs =
      match e.verdict s fs with
      | .decided b => .decided !b
      | v => v) := by
  refine ⟨fun _ => rfl, ?_, fun e => by rw [verdict_not]; unfold Verdict.opposite; rfl⟩
  intro k es hes
  obtain ⟨e, he⟩ : ∃ e, mkComposite k es = some e := by
    unfold mkComposite
    match es, hes with
    | [x], _ =>
      by_cases hk : k = .noneOf
      · exact ⟨_, if_pos hk⟩
      · exact ⟨_, if_neg hk⟩
    | x :: y :: es, _ => exact ⟨_, rfl⟩
  refine ⟨e, he, ?_, ?_, ?_⟩
  · intro x hx; rw [mkComposite_verdict he]; unfold together; rw [hx]
  · intro x h0 hx; rw [mkComposite_verdict he]; unfold together; rw [h0, hx]
  · intro hd
    obtain ⟨bs, hbs⟩ : ∃ bs : List Bool, es.map (Expectation.verdict s fs) = bs.map .decided := by
      refine ⟨es.map (fun e => (e.verdict s fs).passed), ?_⟩
      rw [List.map_map]
      apply List.map_congr_left
      intro c hc
      obtain ⟨b, hb⟩ := hd c hc
      simp [hb, Verdict.passed]
    rw [mkComposite_verdict he, hbs, together_of_decided]
    refine Verdict.says_of rfl ?_
    cases k with
    | allOf =>
      simp only [CompKind.judge, CompKind.meaning, List.all_eq_true, List.mem_map, id]
      constructor
      · rintro h v ⟨b, hb, rfl⟩
        rw [h b hb]
      · intro h b hb
        simpa using h _ ⟨b, hb, rfl⟩
    | anyOf => simp [CompKind.judge, CompKind.meaning]
    | noneOf =>
      simp only [CompKind.judge, CompKind.meaning, Bool.not_eq_true', List.mem_map]
      rw [Bool.eq_false_iff]
      simp only [ne_eq, List.any_eq_true, id]
      constructor
      · rintro h v ⟨b, hb, rfl⟩ hv
        cases hv
        exact h ⟨true, hb, rfl⟩
      · rintro h ⟨b, hb, rfl⟩
        exact h _ ⟨_, hb, rfl⟩ rfl

mutual

/-- **C48**, for trees of any shape: the verdict reached by the predicates is the meaning of the
expectation. -/
theorem C48_tree (s : PScope) (fs : List Fact) :
    ∀ (e : Expectation) (b : Bool), e.verdict s fs = .decided b → (b = true ↔ Holds s fs e)
  | .message m, b, h => by
    by_cases hp : Possible s m.type
    · unfold Holds; exact says_decided ((C44_message s fs m).1 hp) h
    · obtain ⟨e, he⟩ := (C44_message s fs m).2 hp; rw [he] at h; cases h
  | .type t, b, h => by
    by_cases hp : Possible s t
    · unfold Holds; exact says_decided ((C45_type s fs t).1 hp) h
    · obtain ⟨e, he⟩ := (C45_type s fs t).2 hp; rw [he] at h; cases h
  | .matching T fn loc false, b, h => by
    by_cases hp : T.iface ≠ none ∨ Possible s T.type
    · unfold Holds; exact says_decided ((C46_matching s fs T fn loc).1 hp) h
    · rw [not_or] at hp
      obtain ⟨e, he⟩ := (C46_matching s fs T fn loc).2 (Classical.not_not.1 hp.1) hp.2
      rw [he] at h; cases h
  | .matching T fn loc true, b, h => by
    by_cases hp : T.iface ≠ none ∨ Possible s T.type
    · unfold Holds; exact says_decided ((C47_only_matching s fs T fn loc).1 hp) h
    · rw [not_or] at hp
      obtain ⟨e, he⟩ := (C47_only_matching s fs T fn loc).2 (Classical.not_not.1 hp.1) hp.2
      rw [he] at h; cases h
  | .composite k es, b, h => by
    rw [verdict_composite] at h
    obtain ⟨hb, hd⟩ := together_decided h
    have hd' : ∀ c ∈ es, ∃ b, c.verdict s fs = .decided b := fun c hc =>
      hd _ (List.mem_map_of_mem hc)
    obtain ⟨h1, h2⟩ := C48_list s fs es hd'
    rw [hb]
    cases k with
    | allOf => unfold Holds; simpa [CompKind.judge, Function.comp_def] using h1
    | anyOf => unfold Holds; simpa [CompKind.judge, Function.comp_def] using h2
    | noneOf =>
      unfold Holds
      rw [← h2]
      simp [CompKind.judge, Function.comp_def]
  | .not e, b, h => by
    rw [verdict_not] at h
    cases hv : e.verdict s fs with
    | refused r => rw [hv] at h; cases h
    | crashed r => rw [hv] at h; cases h
    | decided c =>
      rw [hv] at h
      simp only [Verdict.opposite, Verdict.decided.injEq] at h
      unfold Holds
      rw [← C48_tree s fs e c hv, ← h]
      cases c <;> simp
  | .repeatedly d n f, b, h => by
    rw [verdict_repeatedly] at h
    obtain ⟨hb, hd⟩ := together_decided h
    have hi : ∀ i, i < n → ∃ c, iterVerdict s fs f i = .decided c ∧ (f i).verdict s fs = .decided c := by
      intro i hi
      obtain ⟨c, hc⟩ := hd _ (List.mem_map_of_mem (List.mem_range.2 hi))
      refine ⟨c, hc, ?_⟩
      unfold iterVerdict at hc
      split at hc
      · cases hc
      · cases hv : (f i).verdict s fs with
        | refused r =>
          rw [hv] at hc; unfold Verdict.iteration at hc
          cases r <;> simp at hc
        | crashed r => rw [hv] at hc; simp [Verdict.iteration] at hc
        | decided c' => rw [hv] at hc; simpa [Verdict.iteration] using hc
    unfold Holds
    rw [hb]
    simp only [List.map_map, List.all_map, List.all_eq_true, List.mem_range, Function.comp_def, id]
    constructor
    · intro hh i hin
      obtain ⟨c, h1, h2⟩ := hi i hin
      have := hh i hin
      rw [h1] at this
      exact (C48_tree s fs (f i) c h2).1 this
    · intro hh i hin
      obtain ⟨c, h1, h2⟩ := hi i hin
      rw [h1]
      exact (C48_tree s fs (f i) c h2).2 (hh i hin)
  | .satisfy d fn, b, h => by
    unfold Expectation.verdict Expectation.build judgeBuilt at h
    simp only [Pred.verdict, observe_satisfy, Pred.done, List.nil_append] at h
    unfold Holds
    rcases hd : satDone (fn fs) {} with ⟨t, v⟩
    rw [hd] at h
    cases v with
    | some v => cases h
    | none =>
      simp only [Pred.ok, Verdict.decided.injEq] at h
      rw [h]
  | .custom _ mk, b, h => by
    unfold Expectation.verdict Expectation.build judgeBuilt at h
    unfold Holds
    cases hm : mk s with
    | error e => rw [hm] at h; cases h
    | ok p =>
      rw [hm] at h
      simp only [Pred.verdict, observe_custom, Pred.done, List.nil_append] at h
      cases hc : p.crash fs with
      | some v => rw [hc] at h; cases h
      | none =>
        rw [hc] at h
        simp only [Pred.ok, Verdict.decided.injEq] at h
        simp [h]
  | .nil, b, h => by
    unfold Expectation.verdict Expectation.build judgeBuilt at h
    cases h

theorem C48_list (s : PScope) (fs : List Fact) :
    ∀ (es : List Expectation), (∀ c ∈ es, ∃ b, c.verdict s fs = .decided b) →
      ((∀ c ∈ es, (c.verdict s fs).passed = true) ↔ HoldAll s fs es) ∧
      ((∃ c ∈ es, (c.verdict s fs).passed = true) ↔ HoldSome s fs es)
  | [], _ => by simp [HoldAll, HoldSome]
  | e :: es, h => by
    obtain ⟨h1, h2⟩ := C48_list s fs es (fun c hc => h c (by simp [hc]))
    obtain ⟨b, hb⟩ := h e (by simp)
    have h0 := C48_tree s fs e b hb
    unfold HoldAll HoldSome
    rw [← h1, ← h2, ← h0]
    simp [hb, Verdict.passed]

end

/-! ## Laws -/

theorem opposite_opposite (v : Verdict) : v.opposite.opposite = v := by
  cases v <;> simp [Verdict.opposite]

theorem opposite_together (f : List Bool → Bool) (vs : List Verdict) :
    (together f vs).opposite = together (fun bs => !f bs) vs := by
  unfold together
  split
  · rfl
  · split <;> rfl

theorem together_opposites (f : List Bool → Bool) (vs : List Verdict) :
    together f (vs.map Verdict.opposite) = together (fun bs => f (bs.map (!·))) vs := by
  have h1 : ∀ v : Verdict, v.opposite.refusal = v.refusal := by intro v; cases v <;> rfl
  have h2 : ∀ v : Verdict, v.opposite.crash = v.crash := by intro v; cases v <;> rfl
  unfold together
  simp only [List.findSome?_map, Function.comp_def, h1, h2]
  cases hr : vs.findSome? (fun x => x.refusal) with
  | some e => rfl
  | none =>
    cases hc : vs.findSome? (fun x => x.crash) with
    | some e => rfl
    | none =>
      simp only [List.map_map]
      congr 2
      apply List.map_congr_left
      intro v hv
      rw [List.findSome?_eq_none_iff] at hr hc
      have a := hr v hv
      have b := hc v hv
      cases v with
      | refused e => cases a
      | crashed e => cases b
      | decided c => rfl

/-- **C49.**  The laws of Boolean algebra: the two sides have the same verdict, and are refused
or panic in the same cases in the same way. -/
theorem C49_laws (s : PScope) (fs : List Fact) :
    (∀ x none_, mkComposite .noneOf [x] = some none_ →
      none_.verdict s fs = (Expectation.not x).verdict s fs) ∧
    (∀ xs any none_ all, mkComposite .anyOf xs = some any → mkComposite .noneOf xs = some none_ →
      mkComposite .allOf (xs.map .not) = some all →
      (Expectation.not any).verdict s fs = none_.verdict s fs ∧
      none_.verdict s fs = all.verdict s fs) ∧
    (∀ xs all any, mkComposite .allOf xs = some all →
      mkComposite .anyOf (xs.map .not) = some any →
      (Expectation.not all).verdict s fs = any.verdict s fs) ∧
    (∀ x, (Expectation.not (.not x)).verdict s fs = x.verdict s fs) := by
  have hn : ∀ xs : List Expectation, (xs.map Expectation.not).map (Expectation.verdict s fs) =
      (xs.map (Expectation.verdict s fs)).map Verdict.opposite := by
    intro xs
    simp only [List.map_map]
    exact List.map_congr_left (fun x _ => verdict_not s fs x)
  refine ⟨?_, ?_, ?_, ?_⟩
  · intro x e he
    rw [mkComposite_verdict he, verdict_not]
    simp only [List.map_cons, List.map_nil]
    cases x.verdict s fs with
    | refused r => simp [together, List.findSome?_cons, Verdict.refusal, Verdict.opposite]
    | crashed c => simp [together, List.findSome?_cons, Verdict.refusal, Verdict.crash, Verdict.opposite]
    | decided b =>
      have := together_of_decided CompKind.noneOf.judge [b]
      simp only [List.map_cons, List.map_nil] at this
      rw [this]
      simp [CompKind.judge, Verdict.opposite]
  · intro xs any none_ all h1 h2 h3
    rw [verdict_not, mkComposite_verdict h1, mkComposite_verdict h2, mkComposite_verdict h3, hn,
      opposite_together, together_opposites]
    refine ⟨rfl, ?_⟩
    congr 1
    funext bs
    simp [CompKind.judge, Function.comp_def, List.all_eq_not_any_not]
    rfl
  · intro xs all any h1 h2
    rw [verdict_not, mkComposite_verdict h1, mkComposite_verdict h2, hn, opposite_together,
      together_opposites]
    congr 1
    funext bs
    simp [CompKind.judge, Function.comp_def, List.any_eq_not_all_not]
    rfl
  · intro x
    rw [verdict_not, verdict_not, opposite_opposite]

/-! ## Repetition -/

/-- Has the predicate of this expectation been made? -/
def Expectation.buildable (s : PScope) (e : Expectation) : Bool :=
  match (e.build s).2 with
  | .ok _ => true
  | .error _ => false

/-- The loop that makes the predicates of the iterations. -/
theorem repeatLoop_calls (s : PScope) (d : String) (f : Nat → Expectation) (n i : Nat) :
    ∃ k, k ≤ n ∧
      (repeatLoop d (fun i => if (f i).isNil then ([], .error .nilExpectation)
        else (f i).build s) n i).1 =
        (List.range' i k).flatMap (fun j => (d, j) :: ((f j).build s).1) ∧
      (∀ j, i ≤ j → j + 1 < i + k → (f j).buildable s = true) ∧
      ((∃ ps, (repeatLoop d (fun i => if (f i).isNil then ([], .error .nilExpectation)
          else (f i).build s) n i).2 = .ok ps ∧ k = n ∧ ps.length = n ∧
          ∀ j, j < n → ∃ p, ps[j]? = some p ∧ ((f (i + j)).build s).2 = .ok p) ∨
        (∃ e, (repeatLoop d (fun i => if (f i).isNil then ([], .error .nilExpectation)
          else (f i).build s) n i).2 = .error e) ∧ 0 < k ∧
          (f (i + k - 1)).buildable s = false) := by
  induction n generalizing i with
  | zero =>
    exact ⟨0, Nat.le_refl _, by simp [repeatLoop], fun j _ h => by omega,
      .inl ⟨[], by simp [repeatLoop]⟩⟩
  | succ n ih =>
    unfold repeatLoop
    cases hn : (f i).isNil with
    | true =>
      have hf : f i = .nil := by
        cases hf : f i <;> simp [hf, Expectation.isNil] at hn; rfl
      refine ⟨1, by omega, ?_, fun j _ h => by omega, .inr ⟨?_, by omega, ?_⟩⟩
      · simp [hf, Expectation.build]
      · simp
      · simp [hf, Expectation.buildable, Expectation.build]
    | false =>
      simp only [Bool.false_eq_true, if_false]
      rcases hb : (f i).build s with ⟨l, r⟩
      cases r with
      | error x =>
        simp only
        refine ⟨1, by omega, ?_, fun j _ h => by omega, .inr ⟨⟨_, rfl⟩, by omega, ?_⟩⟩
        · simp [hb]
        · simp [Expectation.buildable, hb]
      | ok p =>
        simp only
        obtain ⟨k, hk, hl, hok, hres⟩ := ih (i + 1)
        rcases hA : repeatLoop d (fun i => if (f i).isNil then ([], .error .nilExpectation)
          else (f i).build s) n (i + 1) with ⟨l', r'⟩
        rw [hA] at hl hres
        simp only at hl
        have hi : (f i).buildable s = true := by simp [Expectation.buildable, hb]
        refine ⟨k + 1, by omega, ?_, ?_, ?_⟩
        · cases r' <;> simp [hl, List.range'_succ, hb]
        · intro j h1 h2
          by_cases h : j = i
          · rw [h]; exact hi
          · exact hok j (by omega) (by omega)
        · rcases hres with ⟨ps, h1, h2, h3, h4⟩ | ⟨⟨e, he⟩, h2, h3⟩
          · left
            simp only at h1
            subst h1
            refine ⟨p :: ps, rfl, by omega, by simp [h3], ?_⟩
            intro j hj
            cases j with
            | zero => exact ⟨p, rfl, by simp [hb]⟩
            | succ j =>
              obtain ⟨q, h5, h6⟩ := h4 j (by omega)
              exact ⟨q, by simpa using h5, by rw [← h6]; congr 3; omega⟩
          · right
            simp only at he
            subst he
            refine ⟨⟨e, rfl⟩, by omega, ?_⟩
            rw [← h3]; congr 2; omega

/-- The failures found by the loop of the report. -/
theorem repeatScan_eq (cs : List (Bool × Report)) (i : Nat) (count shown : Nat)
    (reps : List Report) (hc : count = 0 → reps = []) :
    ∃ shown', repeatScan i cs (count, shown, reps) =
      (count + (cs.map Prod.fst).count false, shown',
        if count = 0 then (cs.find? (fun c => !c.1)).toList.map Prod.snd else reps) ∧
      (0 < count → shown' = shown) ∧
      (count = 0 → ∀ c, cs.find? (fun c => !c.1) = some c →
        ∃ j, shown' = i + j ∧ cs[j]? = some c ∧
          ∀ k : Nat, k < j → (cs[k]?.map Prod.fst) = some true) := by
  induction cs generalizing i count shown reps with
  | nil =>
    refine ⟨shown, ?_, fun _ => rfl, fun _ c h => by cases h⟩
    by_cases h : count = 0
    · simp [repeatScan, h, hc h]
    · simp [repeatScan, h]
  | cons c cs ih =>
    obtain ⟨ok, r⟩ := c
    unfold repeatScan
    cases ok with
    | true =>
      simp only [if_true]
      obtain ⟨sh, h1, h2, h3⟩ := ih (i + 1) count shown reps hc
      refine ⟨sh, ?_, h2, ?_⟩
      · rw [h1]; simp
      · intro h0 c hcf
        simp only [List.find?_cons, Bool.not_true] at hcf
        obtain ⟨j, h4, h5, h6⟩ := h3 h0 c hcf
        refine ⟨j + 1, by omega, by simpa using h5, ?_⟩
        intro k hk
        cases k with
        | zero => rfl
        | succ k => simpa using h6 k (by omega)
    | false =>
      by_cases h0 : count = 0
      · subst h0
        simp only [hc rfl, if_true, Bool.false_eq_true, if_false, Nat.zero_add, List.nil_append]
        obtain ⟨sh, h1, h2, h3⟩ := ih (i + 1) 1 i [r] (by omega)
        refine ⟨sh, ?_, fun h => absurd h (by omega), ?_⟩
        · rw [h1]; simp; omega
        · intro _ c hcf
          simp only [List.find?_cons, Bool.not_false, Option.some.injEq] at hcf
          exact ⟨0, h2 (by omega), by simp [hcf], fun k hk => by omega⟩
      · simp only [if_neg h0, Bool.false_eq_true, if_false]
        obtain ⟨sh, h1, h2, h3⟩ := ih (i + 1) (count + 1) shown reps (by omega)
        refine ⟨sh, ?_, fun _ => h2 (by omega), fun h => absurd h h0⟩
        rw [h1]
        simp [h0]; omega

theorem reportAll_eq (ctx : RCtx) (ps : List Pred) :
    Pred.reportAll ctx ps = ps.map (fun p => (p.ok, p.report ctx)) := by
  induction ps with
  | nil => rfl
  | cons p ps ih => simp [Pred.reportAll, ih]

/-- **C50.**  `ToRepeatedly()` panics for less than one iteration or without a description;
otherwise it passes iff the expectations of all iterations do. -/
theorem C50_verdict (s : PScope) (fs : List Fact) (d : String) (n : Int) (f : Nat → Expectation) :
    (n < 1 ∨ d = "" → mkRepeatedly d n f = none) ∧
    (1 ≤ n → d ≠ "" → ∃ e, mkRepeatedly d n f = some e ∧
      ((∀ i, i < n.toNat → ∃ b, (f i).verdict s fs = .decided b) →
        (e.verdict s fs).says (∀ i, i < n.toNat → (f i).verdict s fs = .decided true)) ∧
      ((∃ i, i < n.toNat ∧ ∃ x, (f i).verdict s fs = .refused x) →
        ∃ x, e.verdict s fs = .refused x)) := by
  constructor
  · rintro (h | h)
    · simp [mkRepeatedly, h]
    · simp [mkRepeatedly, h]
  · intro h1 h2
    refine ⟨.repeatedly d n.toNat f, ?_, ?_, ?_⟩
    · unfold mkRepeatedly
      rw [if_neg (by omega), if_neg h2]
    · intro hd
      rw [verdict_repeatedly]
      have hi : ∀ i, i < n.toNat → iterVerdict s fs f i = (f i).verdict s fs := by
        intro i hi
        obtain ⟨b, hb⟩ := hd i hi
        unfold iterVerdict
        rw [if_neg, hb]
        · rfl
        · intro hn
          have hf : f i = .nil := by
            cases hf : f i <;> simp [hf, Expectation.isNil] at hn; rfl
          rw [hf] at hb
          unfold Expectation.verdict Expectation.build judgeBuilt at hb
          cases hb
      have hbs : (List.range n.toNat).map (iterVerdict s fs f) =
          ((List.range n.toNat).map (fun i => ((f i).verdict s fs).passed)).map .decided := by
        rw [List.map_map]
        apply List.map_congr_left
        intro i hin
        obtain ⟨b, hb⟩ := hd i (List.mem_range.1 hin)
        rw [hi i (List.mem_range.1 hin)]
        simp [hb, Verdict.passed]
      rw [hbs, together_of_decided]
      refine Verdict.says_of rfl ?_
      simp only [List.all_map, List.all_eq_true, List.mem_range, Function.comp_def, id]
      constructor
      · intro h i hin
        obtain ⟨b, hb⟩ := hd i hin
        have := h i hin
        rw [hb] at this ⊢
        simpa [Verdict.passed] using this
      · intro h i hin
        rw [h i hin]; rfl
    · rintro ⟨i, hin, x, hx⟩
      rw [verdict_repeatedly]
      have hr : ∃ y, (iterVerdict s fs f i).refusal = some y := by
        unfold iterVerdict
        split
        · exact ⟨_, rfl⟩
        · rw [hx]; unfold Verdict.iteration; cases x <;> exact ⟨_, rfl⟩
      cases hf : ((List.range n.toNat).map (iterVerdict s fs f)).findSome? Verdict.refusal with
      | some y => exact ⟨y, by unfold together; rw [hf]⟩
      | none =>
        rw [List.findSome?_eq_none_iff] at hf
        obtain ⟨y, hy⟩ := hr
        have := hf _ (List.mem_map_of_mem (List.mem_range.2 hin))
        rw [hy] at this; cases this

/-- **C50.**  Making the predicate calls the factory with 0, 1, ... once each, until the
predicate of an iteration can not be made (or all have been).  (The log has the factory calls
of nested repetitions in between.) -/
theorem C50_factory_calls (s : PScope) (d : String) (n : Nat) (f : Nat → Expectation) :
    ∃ k, k ≤ n ∧
      ((Expectation.repeatedly d n f).build s).1 =
        (List.range k).flatMap (fun j => (d, j) :: ((f j).build s).1) ∧
      (∀ j, j + 1 < k → (f j).buildable s = true) ∧
      ((Expectation.repeatedly d n f).buildable s = true → k = n) ∧
      ((Expectation.repeatedly d n f).buildable s = false →
        0 < k ∧ (f (k - 1)).buildable s = false) := by
  obtain ⟨k, hk, hl, hok, hres⟩ := repeatLoop_calls s d f n 0
  have hb : (Expectation.repeatedly d n f).build s =
      match repeatLoop d (fun i => if (f i).isNil then ([], .error .nilExpectation)
        else (f i).build s) n 0 with
      | (l, .error e) => (l, .error e)
      | (l, .ok ps) => (l, .ok (.repeatedly d ps)) := by
    rw [Expectation.build.eq_6]
    rfl
  rcases hA : repeatLoop d (fun i => if (f i).isNil then ([], .error .nilExpectation)
    else (f i).build s) n 0 with ⟨l, r⟩
  rw [hA] at hl hres hb
  simp only at hl
  rw [← List.range_eq_range'] at hl
  refine ⟨k, hk, ?_, fun j hj => hok j (by omega) (by omega), ?_, ?_⟩
  · rw [hb, ← hl]; cases r <;> rfl
  · intro hok'
    rcases hres with ⟨ps, h1, h2, -⟩ | ⟨⟨e, he⟩, h2, h3⟩
    · exact h2
    · simp only at he
      subst he
      simp [Expectation.buildable, hb] at hok'
  · intro hne
    rcases hres with ⟨ps, h1, h2, -⟩ | ⟨⟨e, he⟩, h2, h3⟩
    · simp only at h1
      subst h1
      simp [Expectation.buildable, hb] at hne
    · exact ⟨h2, by simpa using h3⟩

/-- **C50.**  The report of a repetition that fails tells how many iterations failed and which
was the first, and has the report of that one only. -/
theorem C50_report (s : PScope) (fs : List Fact) (ctx : RCtx) (d : String) (n : Nat)
    (f : Nat → Expectation) (p q : Pred)
    (hp : ((Expectation.repeatedly d n f).build s).2 = .ok p)
    (hq : (p.observe s fs).done = (q, none)) :
    ((∀ i, i < n → (f i).verdict s fs = .decided true) →
      q.report ctx = { treeOk := ctx.treeOk, ok := true, criteria := d }) ∧
    (∀ i, i < n → (f i).verdict s fs = .decided false →
      (∀ j, j < i → (f j).verdict s fs = .decided true) →
      ∃ pi qi, ((f i).build s).2 = .ok pi ∧ (pi.observe s fs).done = (qi, none) ∧
        q.report ctx =
          { treeOk := ctx.treeOk, ok := false, criteria := d,
            outcome := toString (((List.range n).map
                (fun j => (f j).verdict s fs)).count (.decided false)) ++ " of " ++ toString n ++
              " iteration(s) failed, iteration #" ++ toString i ++ " shown",
            subReports := [qi.report ctx] }) := by
  obtain ⟨k, hk, -, -, hres⟩ := repeatLoop_calls s d f n 0
  have hb : (Expectation.repeatedly d n f).build s =
      match repeatLoop d (fun i => if (f i).isNil then ([], .error .nilExpectation)
        else (f i).build s) n 0 with
      | (l, .error e) => (l, .error e)
      | (l, .ok ps) => (l, .ok (.repeatedly d ps)) := by
    rw [Expectation.build.eq_6]
    rfl
  rcases hA : repeatLoop d (fun i => if (f i).isNil then ([], .error .nilExpectation)
    else (f i).build s) n 0 with ⟨l, r⟩
  rw [hA] at hres hb
  obtain ⟨ps, h1, hlen, hps⟩ : ∃ ps, r = .ok ps ∧ ps.length = n ∧
      ∀ j, j < n → ∃ p, ps[j]? = some p ∧ ((f (0 + j)).build s).2 = .ok p := by
    rcases hres with ⟨ps, h1, -, hlen, hps⟩ | ⟨⟨e, he⟩, -⟩
    · exact ⟨ps, h1, hlen, hps⟩
    · simp only at he
      subst he
      rw [hb] at hp; cases hp
  subst h1
  rw [hb] at hp
  simp only [Except.ok.injEq] at hp
  subst hp
  rw [observe_repeatedly] at hq
  rw [Pred.done.eq_6] at hq
  rcases hD : Pred.doneAll (ps.map (fun p => p.observe s fs)) with ⟨qs, v⟩
  rw [hD] at hq
  simp only [Prod.mk.injEq] at hq
  obtain ⟨rfl, rfl⟩ := hq
  have hcrash := doneAll_crash (ps.map (fun p => p.observe s fs))
  rw [hD] at hcrash
  have hqs := doneAll_ok (ps.map (fun p => p.observe s fs)) (by rw [hD])
  rw [hD] at hqs
  simp only [List.map_map] at hqs
  have hnone : ∀ p ∈ ps, (p.observe s fs).done.2 = none := by
    intro p hp
    have := List.findSome?_eq_none_iff.1 hcrash.symm (p.observe s fs) (List.mem_map_of_mem hp)
    exact this
  -- the children
  have hchild : ∀ j, j < n → ∃ pj qj, ps[j]? = some pj ∧ qs[j]? = some qj ∧
      ((f j).build s).2 = .ok pj ∧ (pj.observe s fs).done = (qj, none) ∧
      (f j).verdict s fs = .decided qj.ok := by
    intro j hj
    obtain ⟨pj, h1, h2⟩ := hps j hj
    rw [Nat.zero_add] at h2
    have hd := hnone pj (List.mem_of_getElem? h1)
    refine ⟨pj, (pj.observe s fs).done.1, h1, ?_, h2, ?_, ?_⟩
    · rw [hqs]; simp [h1]
    · rw [← hd]
    · unfold Expectation.verdict judgeBuilt
      rw [h2]
      simp only [Pred.verdict]
      rcases hx : (pj.observe s fs).done with ⟨a, b⟩
      rw [hx] at hd
      simp only at hd
      subst hd
      rfl
  have hqlen : qs.length = n := by rw [hqs]; simp [hlen]
  have hverd : (List.range n).map (fun j => (f j).verdict s fs) = (qs.map Pred.ok).map .decided := by
    apply List.ext_getElem?
    intro j
    by_cases hj : j < n
    · obtain ⟨pj, qj, -, h2, -, -, h5⟩ := hchild j hj
      simp [hj, h2, h5]
    · simp [hj, hqlen]
  have hcount : ((List.range n).map (fun j => (f j).verdict s fs)).count (.decided false) =
      (qs.map Pred.ok).count false := by
    rw [hverd]
    generalize qs.map Pred.ok = bs
    induction bs with
    | nil => rfl
    | cons a l ih => cases a <;> simp [ih]
  rw [Pred.report.eq_6, reportAll_eq]
  obtain ⟨sh, h1, -, h3⟩ := repeatScan_eq (qs.map (fun p => (p.ok, p.report ctx))) 0 0 0 [] (by simp)
  rw [h1]
  have hmap : (qs.map (fun p => (p.ok, p.report ctx))).map Prod.fst = qs.map Pred.ok := by
    simp [Function.comp_def]
  simp only [hmap, Nat.zero_add, if_true]
  constructor
  · intro hall
    have hz : ∀ q ∈ qs, q.ok = true := by
      intro q hq
      obtain ⟨j, hj, hjq⟩ := List.mem_iff_getElem.1 hq
      obtain ⟨pj, qj, -, h2, -, -, h5⟩ := hchild j (by omega)
      rw [hall j (by omega)] at h5
      have : qs[j]? = some q := by rw [List.getElem?_eq_getElem hj, hjq]
      rw [h2] at this
      simp only [Option.some.injEq] at this
      subst this
      simpa using h5.symm
    have hc : (qs.map Pred.ok).count false = 0 := by
      rw [List.count_eq_zero]
      intro hm
      obtain ⟨q, hq, h⟩ := List.mem_map.1 hm
      rw [hz q hq] at h; cases h
    have hfind : (qs.map (fun p => (p.ok, p.report ctx))).find? (fun c => !c.1) = none := by
      rw [List.find?_eq_none]
      intro c hc
      obtain ⟨q, hq, rfl⟩ := List.mem_map.1 hc
      simp [hz q hq]
    simp [hc, hfind]
  · intro i hi hfail hbefore
    obtain ⟨pi, qi, h4, h5, h6, h7, h8⟩ := hchild i hi
    have hqf : qi.ok = false := by rw [hfail] at h8; simpa using h8.symm
    refine ⟨pi, qi, h6, h7, ?_⟩
    have hc : (qs.map Pred.ok).count false ≠ 0 := by
      intro h
      rw [List.count_eq_zero] at h
      exact h (List.mem_map.2 ⟨qi, List.mem_of_getElem? h5, hqf⟩)
    have hfind : (qs.map (fun p => (p.ok, p.report ctx))).find? (fun c => !c.1) =
        some (qi.ok, qi.report ctx) := by
      rw [List.find?_eq_some_iff_getElem]
      refine ⟨by simp [hqf], i, by simp [hqlen, hi], ?_, ?_⟩
      · have hil : i < qs.length := by omega
        have : qs[i]'hil = qi := by
          rw [List.getElem?_eq_getElem hil] at h5; simpa using h5
        simp [this]
      · intro j hj
        obtain ⟨pj, qj, -, h2', -, -, h5'⟩ := hchild j (by omega)
        rw [hbefore j hj] at h5'
        have hjl : j < qs.length := by omega
        have : qs[j]'hjl = qj := by
          rw [List.getElem?_eq_getElem hjl] at h2'; simpa using h2'
        have hqj : qj.ok = true := by simpa using h5'.symm
        simp [this, hqj]
    obtain ⟨j, hj, hjc, hjb⟩ := h3 rfl _ hfind
    have hji : j = i := by
      rcases Nat.lt_trichotomy j i with h | h | h
      · exfalso
        obtain ⟨pj, qj, -, h2', -, -, h5'⟩ := hchild j (by omega)
        rw [hbefore j h] at h5'
        have hqj : qj.ok = true := by simpa using h5'.symm
        simp [h2', hqf] at hjc
        rw [hqj] at hjc
        exact absurd hjc.1 (by simp)
      · exact h
      · exfalso
        have := hjb i h
        simp [h5, hqf] at this
    simp only [Nat.zero_add] at hj
    rw [hj, hji, if_neg hc, hcount, hfind, hqlen]
    rfl

/-! ## Reports -/

theorem reportNoMatch_frame (rep : Report) (t : Tracker) :
    (reportNoMatch rep t).ok = rep.ok ∧ (reportNoMatch rep t).treeOk = rep.treeOk ∧
    (reportNoMatch rep t).subReports = rep.subReports ∧
    (reportNoMatch rep t).criteria = rep.criteria := by
  have hi : ∀ (r : Report) a b, (r.item a b).ok = r.ok ∧ (r.item a b).treeOk = r.treeOk ∧
      (r.item a b).subReports = r.subReports ∧ (r.item a b).criteria = r.criteria := by
    intro r a b
    unfold Report.item Report.write Report.section
    split <;> exact ⟨rfl, rfl, rfl, rfl⟩
  have hs : ∀ (r : Report) a, (r.section a).ok = r.ok ∧ (r.section a).treeOk = r.treeOk ∧
      (r.section a).subReports = r.subReports ∧ (r.section a).criteria = r.criteria := by
    intro r a
    unfold Report.section
    split <;> exact ⟨rfl, rfl, rfl, rfl⟩
  have hfold : ∀ (l : List String) (g : String → String) (r : Report),
      (l.foldl (fun rep n => rep.item suggestionsSection (g n)) r).ok = r.ok ∧
      (l.foldl (fun rep n => rep.item suggestionsSection (g n)) r).treeOk = r.treeOk ∧
      (l.foldl (fun rep n => rep.item suggestionsSection (g n)) r).subReports = r.subReports ∧
      (l.foldl (fun rep n => rep.item suggestionsSection (g n)) r).criteria = r.criteria := by
    intro l g
    induction l with
    | nil => intro r; exact ⟨rfl, rfl, rfl, rfl⟩
    | cons a l ih =>
      intro r
      simp only [List.foldl_cons]
      obtain ⟨h1, h2, h3, h4⟩ := ih (r.item suggestionsSection (g a))
      obtain ⟨i1, i2, i3, i4⟩ := hi r suggestionsSection (g a)
      exact ⟨h1.trans i1, h2.trans i2, h3.trans i3, h4.trans i4⟩
  have htail : ∀ r : Report, (noMatchTail r t).ok = r.ok ∧ (noMatchTail r t).treeOk = r.treeOk ∧
      (noMatchTail r t).subReports = r.subReports ∧ (noMatchTail r t).criteria = r.criteria := by
    intro r
    unfold noMatchTail
    simp only
    split
    · obtain ⟨h1, h2, h3, h4⟩ := hi (t.engagedOrder.foldl (fun rep n =>
        rep.item suggestionsSection ("verify the logic within the '" ++ n ++ "' " ++
        (((t.engagedType.lookup n).map HandlerType.str).getD "") ++ " message handler"))
        { r with explanation := _ }) suggestionsSection
          (Inflect.sprint t.kind "verify the logic within the code that uses the <dispatcher>")
      obtain ⟨i1, i2, i3, i4⟩ := hfold t.engagedOrder (fun n => "verify the logic within the '" ++ n ++ "' " ++
        (((t.engagedType.lookup n).map HandlerType.str).getD "") ++ " message handler")
        { r with explanation := _ }
      exact ⟨h1.trans i1, h2.trans i2, h3.trans i3, h4.trans i4⟩
    · exact hfold t.engagedOrder (fun n => "verify the logic within the '" ++ n ++ "' " ++
        (((t.engagedType.lookup n).map HandlerType.str).getD "") ++ " message handler")
        { r with explanation := _ }
  have hloop : ∀ (hts : List HandlerType) (a : Report × List String × Bool),
      (noMatchLoop t hts a).1.ok = a.1.ok ∧ (noMatchLoop t hts a).1.treeOk = a.1.treeOk ∧
      (noMatchLoop t hts a).1.subReports = a.1.subReports ∧
      (noMatchLoop t hts a).1.criteria = a.1.criteria := by
    intro hts
    induction hts with
    | nil => intro a; exact ⟨rfl, rfl, rfl, rfl⟩
    | cons ht hts ih =>
      rintro ⟨r, rel, ad⟩
      unfold noMatchLoop
      obtain ⟨h1, h2, h3, h4⟩ := ih (if ht.isProducerOf t.kind then
        if t.enabled ht then (r, rel ++ [ht.str], false)
        else (r.item suggestionsSection
                ("enable " ++ ht.str ++ " handlers using the EnableHandlerType() option"),
              rel ++ [ht.str], ad)
        else (r, rel, ad))
      rw [h1, h2, h3, h4]
      split
      · split
        · exact ⟨rfl, rfl, rfl, rfl⟩
        · exact hi _ _ _
      · exact ⟨rfl, rfl, rfl, rfl⟩
  unfold reportNoMatch
  simp only
  obtain ⟨s1, s2, s3, s4⟩ := hs rep suggestionsSection
  split
  · obtain ⟨h1, h2, h3, h4⟩ := hloop handlerTypes (rep.section suggestionsSection, [], true)
    rcases hl : noMatchLoop t handlerTypes (rep.section suggestionsSection, [], true) with ⟨r, rel, ad⟩
    rw [hl] at h1 h2 h3 h4
    simp only at h1 h2 h3 h4 ⊢
    obtain ⟨t1, t2, t3, t4⟩ := htail r
    split
    · exact ⟨t1.trans (h1.trans s1), t2.trans (h2.trans s2), t3.trans (h3.trans s3),
        t4.trans (h4.trans s4)⟩
    · split
      · exact ⟨h1.trans s1, h2.trans s2, h3.trans s3, h4.trans s4⟩
      · split
        · obtain ⟨i1, i2, i3, i4⟩ := hi { r with
            explanation := "no relevant handlers (" ++ String.intercalate " or " rel ++
              ") were engaged" } suggestionsSection "check the application's routing configuration"
          exact ⟨i1.trans (h1.trans s1), i2.trans (h2.trans s2), i3.trans (h3.trans s3),
            i4.trans (h4.trans s4)⟩
        · exact ⟨t1.trans (h1.trans s1), t2.trans (h2.trans s2), t3.trans (h3.trans s3),
            t4.trans (h4.trans s4)⟩
  · obtain ⟨t1, t2, t3, t4⟩ := htail (rep.section suggestionsSection)
    exact ⟨t1.trans s1, t2.trans s2, t3.trans s3, t4.trans s4⟩

theorem Report.nodes_eq (r : Report) : r.nodes = r :: Report.nodesAll r.subReports := by
  cases r; rfl

theorem Report.mem_nodesAll {r : Report} {rs : List Report} (h : r ∈ Report.nodesAll rs) :
    ∃ x ∈ rs, r ∈ x.nodes := by
  induction rs with
  | nil => cases h
  | cons a rs ih =>
    unfold Report.nodesAll at h
    rcases List.mem_append.1 h with h | h
    · exact ⟨a, by simp, h⟩
    · obtain ⟨x, hx, hr⟩ := ih h
      exact ⟨x, by simp [hx], hr⟩

theorem Report.leaf_nodes {rep r : Report} (h : rep.subReports = []) (hr : r ∈ rep.nodes) :
    r = rep := by
  rw [Report.nodes_eq, h] at hr
  simpa [Report.nodesAll] using hr

theorem item_frame (r : Report) (a b : String) : (r.item a b).ok = r.ok ∧
    (r.item a b).treeOk = r.treeOk ∧ (r.item a b).subReports = r.subReports := by
  unfold Report.item Report.write Report.section
  split <;> exact ⟨rfl, rfl, rfl⟩

theorem write_frame (r : Report) (a b : String) : (r.write a b).ok = r.ok ∧
    (r.write a b).treeOk = r.treeOk ∧ (r.write a b).subReports = r.subReports := by
  unfold Report.write Report.section
  split <;> exact ⟨rfl, rfl, rfl⟩

theorem section_frame (r : Report) (a : String) : (r.section a).ok = r.ok ∧
    (r.section a).treeOk = r.treeOk ∧ (r.section a).subReports = r.subReports := by
  unfold Report.section
  split <;> exact ⟨rfl, rfl, rfl⟩

theorem foldl_frame {α : Type} (g : Report → α → Report)
    (hg : ∀ r a, (g r a).ok = r.ok ∧ (g r a).treeOk = r.treeOk ∧
      (g r a).subReports = r.subReports) (l : List α) (r : Report) :
    (l.foldl g r).ok = r.ok ∧ (l.foldl g r).treeOk = r.treeOk ∧
      (l.foldl g r).subReports = r.subReports := by
  induction l generalizing r with
  | nil => exact ⟨rfl, rfl, rfl⟩
  | cons a l ih =>
    obtain ⟨h1, h2, h3⟩ := ih (g r a)
    obtain ⟨i1, i2, i3⟩ := hg r a
    exact ⟨h1.trans i1, h2.trans i2, h3.trans i3⟩

theorem MsgPred.report_frame (ctx : RCtx) (p : MsgPred) : (p.report ctx).ok = p.ok ∧
    (p.report ctx).treeOk = ctx.treeOk ∧ (p.report ctx).subReports = [] := by
  unfold MsgPred.report
  simp only
  split
  · exact ⟨rfl, rfl, rfl⟩
  · split
    · obtain ⟨h1, h2, h3, -⟩ := reportNoMatch_frame
        { treeOk := ctx.treeOk, ok := p.ok,
          criteria := Inflect.sprint p.expected.type.kind
            ("<produce> a specific '" ++ p.expected.type.name ++ "' <message>") } p.tracker
      exact ⟨h1, h2, h3⟩
    · refine ⟨(write_frame _ _ _).1.trans ((item_frame _ _ _).1.trans ?_),
        (write_frame _ _ _).2.1.trans ((item_frame _ _ _).2.1.trans ?_),
        (write_frame _ _ _).2.2.trans ((item_frame _ _ _).2.2.trans ?_)⟩
      · exact (section_frame _ _).1
      · exact (section_frame _ _).2.1
      · exact (section_frame _ _).2.2

theorem TypePred.report_frame (ctx : RCtx) (p : TypePred) : (p.report ctx).ok = p.ok ∧
    (p.report ctx).treeOk = ctx.treeOk ∧ (p.report ctx).subReports = [] := by
  unfold TypePred.report
  simp only
  split
  · exact ⟨rfl, rfl, rfl⟩
  · obtain ⟨h1, h2, h3, -⟩ := reportNoMatch_frame
        { treeOk := ctx.treeOk, ok := p.ok,
          criteria := Inflect.sprint p.expected.kind
            ("<produce> any '" ++ p.expected.name ++ "' <message>") } p.tracker
    exact ⟨h1, h2, h3⟩

theorem MatchPred.report_frame (ctx : RCtx) (p : MatchPred) : (p.report ctx).ok = p.ok ∧
    (p.report ctx).treeOk = ctx.treeOk ∧ (p.report ctx).subReports = [] := by
  unfold MatchPred.report
  simp only
  generalize hr0 : Report.mk ctx.treeOk p.ok _ _ _ _ _ = r0
  have h0 : r0.ok = p.ok ∧ r0.treeOk = ctx.treeOk ∧ r0.subReports = [] := by
    subst hr0; exact ⟨rfl, rfl, rfl⟩
  split
  · exact h0
  · generalize hr1 : (if p.failures.isEmpty = true then r0 else _) = r1
    have h1 : r1.ok = r0.ok ∧ r1.treeOk = r0.treeOk ∧ r1.subReports = r0.subReports := by
      subst hr1
      split
      · exact ⟨rfl, rfl, rfl⟩
      · obtain ⟨a, b, c⟩ := foldl_frame (fun rep (f : FailedMatch) => rep.item failedMatchesSection f.text)
          (fun r a => item_frame _ _ _) p.failures (r0.section failedMatchesSection)
        obtain ⟨x, y, z⟩ := section_frame r0 failedMatchesSection
        exact ⟨a.trans x, b.trans y, c.trans z⟩
    generalize hr2 : (if p.ignored > 0 then _ else _) = r2
    have h2 : r2.ok = r1.ok ∧ r2.treeOk = r1.treeOk ∧ r2.subReports = r1.subReports := by
      subst hr2
      obtain ⟨x, y, z⟩ := section_frame r1 suggestionsSection
      split
      · obtain ⟨a, b, c⟩ := item_frame (r1.section suggestionsSection) suggestionsSection
          ("verify the logic within the predicate function, it ignored " ++
            Inflect.sprint p.T.type.kind (toString p.ignored ++ " <messages>"))
        exact ⟨a.trans x, b.trans y, c.trans z⟩
      · split
        · exact ⟨x, y, z⟩
        · obtain ⟨a, b, c⟩ := item_frame (r1.section suggestionsSection) suggestionsSection
            "verify the logic within the predicate function"
          exact ⟨a.trans x, b.trans y, c.trans z⟩
    obtain ⟨a, b, c, -⟩ := reportNoMatch_frame r2 p.tracker
    have h3 := And.intro (a.trans (h2.1.trans (h1.1.trans h0.1)))
      (And.intro (b.trans (h2.2.1.trans (h1.2.1.trans h0.2.1)))
        (c.trans (h2.2.2.trans (h1.2.2.trans h0.2.2))))
    split
    · exact h3
    · exact h3

theorem SatPred.report_frame (ctx : RCtx) (p : SatPred) : (p.report ctx).ok = p.t.ok ∧
    (p.report ctx).treeOk = ctx.treeOk ∧ (p.report ctx).subReports = [] := by
  unfold SatPred.report
  simp only
  split
  · exact ⟨rfl, rfl, rfl⟩
  · split
    · exact ⟨rfl, rfl, rfl⟩
    · refine ⟨(foldl_frame _ (fun r a => write_frame _ _ _) _ _).1.trans ?_,
        (foldl_frame _ (fun r a => write_frame _ _ _) _ _).2.1.trans ?_,
        (foldl_frame _ (fun r a => write_frame _ _ _) _ _).2.2.trans ?_⟩
      · exact (section_frame _ _).1
      · exact (section_frame _ _).2.1
      · exact (section_frame _ _).2.2

mutual

/-- The predicates written by the user in this tree report honestly. -/
def Pred.Honest : Pred → Prop
  | .message _ | .type _ | .matching _ | .satisfy _ => True
  | .composite _ _ ps => Pred.AllHonest ps
  | .not p => p.Honest
  | .repeatedly _ ps => Pred.AllHonest ps
  | .custom p _ => p.Honest

def Pred.AllHonest : List Pred → Prop
  | [] => True
  | p :: ps => p.Honest ∧ Pred.AllHonest ps

end

theorem Pred.allHonest_mem {ps : List Pred} : Pred.AllHonest ps ↔ ∀ p ∈ ps, p.Honest := by
  induction ps with
  | nil => simp [Pred.AllHonest]
  | cons p ps ih => simp [Pred.AllHonest, ih]

mutual

theorem Pred.Honest.notify (s : PScope) (f : Fact) : ∀ p : Pred, p.Honest → (p.notify s f).Honest
  | .message _, _ => by simp [Pred.notify, Pred.Honest]
  | .type _, _ => by simp [Pred.notify, Pred.Honest]
  | .matching _, _ => by simp [Pred.notify, Pred.Honest]
  | .satisfy _, _ => by simp [Pred.notify, Pred.Honest]
  | .custom _ _, h => by unfold Pred.notify Pred.Honest; unfold Pred.Honest at h; exact h
  | .not p, h => by
    unfold Pred.notify Pred.Honest; unfold Pred.Honest at h
    exact Pred.Honest.notify s f p h
  | .composite _ _ ps, h => by
    unfold Pred.notify Pred.Honest; unfold Pred.Honest at h
    exact Pred.AllHonest.notify s f ps h
  | .repeatedly _ ps, h => by
    unfold Pred.notify Pred.Honest; unfold Pred.Honest at h
    exact Pred.AllHonest.notify s f ps h

theorem Pred.AllHonest.notify (s : PScope) (f : Fact) : ∀ ps : List Pred, Pred.AllHonest ps →
    Pred.AllHonest (Pred.notifyAll s f ps)
  | [], _ => by simp [Pred.notifyAll, Pred.AllHonest]
  | p :: ps, h => by
    unfold Pred.notifyAll Pred.AllHonest; unfold Pred.AllHonest at h
    exact ⟨Pred.Honest.notify s f p h.1, Pred.AllHonest.notify s f ps h.2⟩

end

theorem Pred.Honest.observe (s : PScope) (fs : List Fact) : ∀ p : Pred, p.Honest →
    (p.observe s fs).Honest := by
  unfold Pred.observe
  induction fs with
  | nil => intro p h; exact h
  | cons f fs ih => intro p h; exact ih _ (h.notify s f)

mutual

theorem Pred.Honest.done : ∀ p : Pred, p.Honest → p.done.1.Honest
  | .message _, _ => by simp [Pred.done, Pred.Honest]
  | .type _, _ => by simp [Pred.done, Pred.Honest]
  | .matching _, _ => by simp [Pred.done, Pred.Honest]
  | .satisfy _, _ => by simp [Pred.done, Pred.Honest]
  | .custom _ _, h => by unfold Pred.done Pred.Honest; unfold Pred.Honest at h; exact h
  | .not p, h => by
    unfold Pred.done Pred.Honest; unfold Pred.Honest at h
    exact Pred.Honest.done p h
  | .composite _ _ ps, h => by
    unfold Pred.done Pred.Honest; unfold Pred.Honest at h
    exact Pred.AllHonest.done ps h
  | .repeatedly _ ps, h => by
    unfold Pred.done Pred.Honest; unfold Pred.Honest at h
    exact Pred.AllHonest.done ps h

theorem Pred.AllHonest.done : ∀ ps : List Pred, Pred.AllHonest ps →
    Pred.AllHonest (Pred.doneAll ps).1
  | [], _ => by simp [Pred.doneAll, Pred.AllHonest]
  | p :: ps, h => by
    unfold Pred.AllHonest at h
    have h1 := Pred.Honest.done p h.1
    have h2 := Pred.AllHonest.done ps h.2
    unfold Pred.doneAll
    rcases hd : p.done with ⟨q, v⟩
    rw [hd] at h1
    cases v with
    | some v => unfold Pred.AllHonest; exact ⟨h1, h.2⟩
    | none => unfold Pred.AllHonest; exact ⟨h1, h2⟩

end

theorem repeatLoop_honest (desc : String) (b : Nat → List (String × Nat) × Except BuildErr Pred)
    (hb : ∀ i p, (b i).2 = .ok p → p.Honest) (n : Nat) : ∀ (i : Nat) (ps : List Pred),
    (repeatLoop desc b n i).2 = .ok ps → Pred.AllHonest ps := by
  induction n with
  | zero => intro i ps h; simp [repeatLoop] at h; subst h; simp [Pred.AllHonest]
  | succ n ih =>
    intro i ps h
    unfold repeatLoop at h
    rcases h1 : b i with ⟨l, r⟩
    rw [h1] at h
    cases r with
    | error e => cases h
    | ok p =>
      simp only at h
      rcases h2 : repeatLoop desc b n (i + 1) with ⟨l', r'⟩
      rw [h2] at h
      cases r' with
      | error e => cases h
      | ok qs =>
        simp only [Except.ok.injEq] at h
        subst h
        unfold Pred.AllHonest
        exact ⟨hb i p (by rw [h1]), ih (i + 1) qs (by rw [h2])⟩

mutual

theorem Expectation.Honest.build (s : PScope) : ∀ (e : Expectation) (p : Pred), e.Honest s →
    (e.build s).2 = .ok p → p.Honest
  | .message m, p, _, h => by
    unfold Expectation.build at h
    simp only at h
    split at h
    · cases h
    · simp only [Except.ok.injEq] at h; subst h; simp [Pred.Honest]
  | .type m, p, _, h => by
    unfold Expectation.build at h
    simp only at h
    split at h
    · cases h
    · simp only [Except.ok.injEq] at h; subst h; simp [Pred.Honest]
  | .matching T fn loc ex, p, _, h => by
    unfold Expectation.build at h
    simp only at h
    split at h
    · simp only [Except.ok.injEq] at h; subst h; simp [Pred.Honest]
    · split at h
      · cases h
      · simp only [Except.ok.injEq] at h; subst h; simp [Pred.Honest]
  | .composite k es, p, he, h => by
    unfold Expectation.Honest at he
    unfold Expectation.build at h
    rcases h1 : Expectation.buildAll s es with ⟨l, r⟩
    rw [h1] at h
    cases r with
    | error e => cases h
    | ok ps =>
      simp only [Except.ok.injEq] at h
      subst h
      unfold Pred.Honest
      exact Expectation.AllHonest.build s es ps he (by rw [h1])
  | .not e, p, he, h => by
    unfold Expectation.Honest at he
    unfold Expectation.build at h
    rcases h1 : e.build s with ⟨l, r⟩
    rw [h1] at h
    cases r with
    | error e => cases h
    | ok q =>
      simp only [Except.ok.injEq] at h
      subst h
      unfold Pred.Honest
      exact Expectation.Honest.build s e q he (by rw [h1])
  | .repeatedly d n f, p, he, h => by
    unfold Expectation.Honest at he
    unfold Expectation.build at h
    rcases h1 : repeatLoop d
        (fun i => if (f i).isNil then ([], .error .nilExpectation) else (f i).build s) n 0 with ⟨l, r⟩
    rw [h1] at h
    cases r with
    | error e => cases h
    | ok ps =>
      simp only [Except.ok.injEq] at h
      subst h
      unfold Pred.Honest
      refine repeatLoop_honest d _ ?_ n 0 ps (by rw [h1])
      intro i p hp
      split at hp
      · cases hp
      · exact Expectation.Honest.build s (f i) p (he i) hp
  | .satisfy d fn, p, _, h => by
    unfold Expectation.build at h
    simp only [Except.ok.injEq] at h; subst h; simp [Pred.Honest]
  | .custom _ mk, p, he, h => by
    unfold Expectation.Honest at he
    unfold Expectation.build at h
    simp only at h
    split at h
    · cases h
    · rename_i q hq
      simp only [Except.ok.injEq] at h; subst h
      unfold Pred.Honest
      exact he q hq
  | .nil, p, _, h => by
    unfold Expectation.build at h
    cases h

theorem Expectation.AllHonest.build (s : PScope) : ∀ (es : List Expectation) (ps : List Pred),
    Expectation.AllHonest s es → (Expectation.buildAll s es).2 = .ok ps → Pred.AllHonest ps
  | [], ps, _, h => by
    simp [Expectation.buildAll] at h; subst h; simp [Pred.AllHonest]
  | e :: es, ps, he, h => by
    unfold Expectation.AllHonest at he
    unfold Expectation.buildAll at h
    rcases h1 : e.build s with ⟨l, r⟩
    rw [h1] at h
    cases r with
    | error e => cases h
    | ok q =>
      simp only at h
      rcases h2 : Expectation.buildAll s es with ⟨l', r'⟩
      rw [h2] at h
      cases r' with
      | error e => cases h
      | ok qs =>
        simp only [Except.ok.injEq] at h
        subst h
        unfold Pred.AllHonest
        exact ⟨Expectation.Honest.build s e q he.1 (by rw [h1]),
          Expectation.AllHonest.build s es qs he.2 (by rw [h2])⟩

end

/-- The predicate that is reported on is honest if the expectation is. -/
theorem Expectation.Honest.reported {s : PScope} {fs : List Fact} {e : Expectation} {p q : Pred}
    {v : Option String} (he : e.Honest s) (hp : (e.build s).2 = .ok p)
    (hq : (p.observe s fs).done = (q, v)) : q.Honest := by
  have := Pred.Honest.done _ (Pred.Honest.observe s fs p (Expectation.Honest.build s e p he hp))
  rw [hq] at this
  exact this

mutual

theorem report_ok : ∀ (p : Pred) (_ : p.Honest) (ctx : RCtx),
    (p.report ctx).ok = p.ok ∧ ∀ r ∈ (p.report ctx).nodes, r.treeOk = ctx.treeOk
  | .message p, _, ctx => by
    obtain ⟨h1, h2, h3⟩ := p.report_frame ctx
    exact ⟨h1, fun r hr => by rw [Report.leaf_nodes h3 hr]; exact h2⟩
  | .type p, _, ctx => by
    obtain ⟨h1, h2, h3⟩ := p.report_frame ctx
    exact ⟨h1, fun r hr => by rw [Report.leaf_nodes h3 hr]; exact h2⟩
  | .matching p, _, ctx => by
    obtain ⟨h1, h2, h3⟩ := p.report_frame ctx
    exact ⟨h1, fun r hr => by rw [Report.leaf_nodes h3 hr]; exact h2⟩
  | .satisfy p, _, ctx => by
    obtain ⟨h1, h2, h3⟩ := p.report_frame ctx
    exact ⟨h1, fun r hr => by rw [Report.leaf_nodes h3 hr]; exact h2⟩
  | .custom p fs, hh, ctx => by
    unfold Pred.Honest at hh
    exact hh ctx fs
  | .composite k n ps, hh, ctx => by
    unfold Pred.Honest at hh
    unfold Pred.report
    refine ⟨by simp [Pred.ok], fun r hr => ?_⟩
    rw [Report.nodes_eq] at hr
    rcases List.mem_cons.1 hr with rfl | hr
    · rfl
    · obtain ⟨x, hx, hr⟩ := Report.mem_nodesAll hr
      simp only [reportAll_eq] at hx
      simp only [List.map_map, List.mem_map, Function.comp_def] at hx
      obtain ⟨p, hp, rfl⟩ := hx
      exact ((report_ok_all ps hh p hp
        { ctx with inverted := ctx.inverted != k.inverted }).2 r hr :)
  | .not p, _, ctx => by
    unfold Pred.report
    refine ⟨by simp [Pred.ok], fun r hr => ?_⟩
    rw [Report.leaf_nodes rfl hr]
  | .repeatedly c ps, hh, ctx => by
    unfold Pred.Honest at hh
    unfold Pred.report
    rw [reportAll_eq]
    obtain ⟨sh, h1, -⟩ := repeatScan_eq (ps.map (fun p => (p.ok, p.report ctx))) 0 0 0 [] (by simp)
    have hmap : (ps.map (fun p => (p.ok, p.report ctx))).map Prod.fst = ps.map Pred.ok := by
      simp [Function.comp_def]
    rw [hmap] at h1
    rw [h1]
    simp only [Nat.zero_add, if_true]
    have hall : (ps.map Pred.ok).count false = 0 ↔ Pred.allOk ps = true := by
      rw [allOk_eq, List.count_eq_zero]
      simp only [List.all_eq_true, id]
      constructor
      · intro h b hb
        cases b with
        | true => rfl
        | false => exact absurd hb h
      · intro h hb
        exact absurd (h false hb) (by simp)
    have hsub : ∀ x ∈ (List.find? (fun c => !c.1)
        (ps.map (fun p => (p.ok, p.report ctx)))).toList.map Prod.snd, ∃ p ∈ ps, x = p.report ctx := by
      intro x hx
      obtain ⟨y, hy, rfl⟩ := List.mem_map.1 hx
      rw [Option.mem_toList] at hy
      obtain ⟨p, hp, rfl⟩ := List.mem_map.1 (List.mem_of_find?_eq_some hy)
      exact ⟨p, hp, rfl⟩
    split
    · rename_i hc
      refine ⟨by simp [Pred.ok, hall.1 hc], fun r hr => ?_⟩
      rw [Report.nodes_eq] at hr
      rcases List.mem_cons.1 hr with rfl | hr
      · rfl
      · obtain ⟨x, hx, hr⟩ := Report.mem_nodesAll hr
        obtain ⟨p, hp, rfl⟩ := hsub x hx
        exact (report_ok_all ps hh p hp _).2 r hr
    · rename_i hc
      refine ⟨?_, fun r hr => ?_⟩
      · have : Pred.allOk ps = false := by
          cases h : Pred.allOk ps with
          | false => rfl
          | true => exact absurd (hall.2 h) hc
        simp [Pred.ok, this]
      · rw [Report.nodes_eq] at hr
        rcases List.mem_cons.1 hr with rfl | hr
        · rfl
        · obtain ⟨x, hx, hr⟩ := Report.mem_nodesAll hr
          obtain ⟨p, hp, rfl⟩ := hsub x hx
          exact (report_ok_all ps hh p hp _).2 r hr

theorem report_ok_all : ∀ (ps : List Pred) (_ : Pred.AllHonest ps) (p : Pred), p ∈ ps → ∀ (ctx : RCtx),
    (p.report ctx).ok = p.ok ∧ ∀ r ∈ (p.report ctx).nodes, r.treeOk = ctx.treeOk
  | q :: qs, hh, p, hp, ctx => by
    unfold Pred.AllHonest at hh
    rcases List.mem_cons.1 hp with h | h
    · rw [h]; exact report_ok q hh.1 ctx
    · exact report_ok_all qs hh.2 p h ctx

end

theorem report_ok_leaf {p : Pred} {ctx : RCtx}
    (h : (∃ x, p = .message x) ∨ (∃ x, p = .type x) ∨ ∃ x, p = .matching x) :
    (p.report ctx).ok = p.ok := by
  have hp : p.Honest := by
    rcases h with ⟨x, rfl⟩ | ⟨x, rfl⟩ | ⟨x, rfl⟩ <;> simp [Pred.Honest]
  exact (report_ok p hp ctx).1

/-- **C53.**  The report of an expectation shows the verdict, and the reports of all nested
expectations shown carry the verdict of the whole tree. -/
theorem C53_report (s : PScope) (fs : List Fact) (ctx : RCtx) (e : Expectation) (p q : Pred)
    (he : e.Honest s) (hp : (e.build s).2 = .ok p) (hq : (p.observe s fs).done = (q, none)) :
    e.verdict s fs = .decided (q.report ctx).ok ∧
    ∀ r ∈ (q.report ctx).nodes, r.treeOk = ctx.treeOk := by
  refine ⟨?_, (report_ok q (he.reported hp hq) ctx).2⟩
  unfold Expectation.verdict judgeBuilt
  rw [hp]
  simp only [Pred.verdict, hq, (report_ok q (he.reported hp hq) ctx).1]

/-- **C53.**  The reports of the children of `AllOf`, `AnyOf` and `NoneOf` are in the report of
the composite, in order, with the verdicts of the children. -/
theorem C53_children (s : PScope) (fs : List Fact) (ctx : RCtx) (k : CompKind)
    (es : List Expectation) (p q : Pred) (he : (Expectation.composite k es).Honest s)
    (hp : ((Expectation.composite k es).build s).2 = .ok p)
    (hq : (p.observe s fs).done = (q, none)) :
    (q.report ctx).subReports.map (fun r => Verdict.decided r.ok) =
      es.map (Expectation.verdict s fs) := by
  have hb := buildAll_refused s fs es
  rw [Expectation.build.eq_4] at hp
  rcases hA : Expectation.buildAll s es with ⟨l, r⟩
  rw [hA] at hp hb
  cases r with
  | error x => cases hp
  | ok ps =>
    simp only [Except.ok.injEq] at hp hb
    subst hp
    rw [observe_composite, Pred.done.eq_4] at hq
    rcases hD : Pred.doneAll (ps.map (fun p => p.observe s fs)) with ⟨qs, v⟩
    rw [hD] at hq
    simp only [Prod.mk.injEq] at hq
    obtain ⟨rfl, rfl⟩ := hq
    have hcrash := doneAll_crash (ps.map (fun p => p.observe s fs))
    have hqs := doneAll_ok (ps.map (fun p => p.observe s fs)) (by rw [hD])
    rw [hD] at hcrash hqs
    simp only [List.map_map] at hqs
    rw [hb, Pred.report.eq_4, reportAll_eq]
    simp only [List.map_map, hqs]
    apply List.map_congr_left
    intro p hp
    have hn := List.findSome?_eq_none_iff.1 hcrash.symm (p.observe s fs) (List.mem_map_of_mem hp)
    have hh : (p.observe s fs).done.1.Honest := by
      unfold Expectation.Honest at he
      exact Pred.Honest.done _ (Pred.Honest.observe s fs p
        (Pred.allHonest_mem.1 (Expectation.AllHonest.build s es ps he (by rw [hA])) p hp))
    simp only [Function.comp_def, (report_ok _ hh _).1]
    unfold Pred.verdict
    rcases hx : (p.observe s fs).done with ⟨a, b⟩
    rw [hx] at hn
    simp only at hn
    subst hn
    rfl

/-! ## Counting matches -/

/-- The number of messages of the kind that counted, and were matched, ignored or failed to
match. -/
structure MatchCounts where
  total : Nat
  matched : Nat
  ignored : Nat
  failed : Nat
  deriving DecidableEq, Repr

/-- The counts by the answers given. -/
def matchCounts (T : MatchType) (fn : List Message → Message → MatchRes) (ex : Bool)
    (ms : List Message) : MatchCounts where
  total := (ofKind T.type.kind ms).length
  matched := (answers T fn ex ms).count .nil
  ignored := (answers T fn ex ms).count .ignore
  failed := (answers T fn ex ms).countP (fun r => r ≠ .nil && r ≠ .ignore)

theorem answers_length (T : MatchType) (fn : List Message → Message → MatchRes) (ex : Bool)
    (ms : List Message) : (answers T fn ex ms).length = (ofKind T.type.kind ms).length := by
  unfold answers
  generalize ofKind T.type.kind ms = ms
  generalize ([] : List Message) = seen
  induction ms generalizing seen with
  | nil => rfl
  | cons a ms ih =>
    unfold answersFrom
    split <;> simp [ih]

/-- The predicate of a matching expectation before any facts. -/
def MatchPred.fresh (s : PScope) (T : MatchType) (fn : List Message → Message → MatchRes)
    (loc : String) (ex : Bool) : MatchPred where
  T := T
  fn := fn
  loc := loc
  exhaustive := ex
  tracker := { kind := T.type.kind, opts := s.opts }

/-- **C55.**  A predicate of a matching expectation that has not passed (yet) has counted every
message of the kind exactly once: as matched, as ignored or as (one of the occurrences of) a
failure, according to the answer it got. -/
theorem C55_counts (s : PScope) (fs : List Fact) (T : MatchType)
    (fn : List Message → Message → MatchRes) (loc : String) (ex : Bool) (p : MatchPred)
    (hp : Pred.matching p = (Pred.matching (MatchPred.fresh s T fn loc ex)).observe s fs)
    (hok : p.ok = false) :
    let c := matchCounts T fn ex (countedIn s.opts.matchDispatch fs)
    p.tracker.produced = c.total ∧ p.matched = c.matched ∧ p.ignored = c.ignored ∧
    failureCount p.failures = c.failed ∧ c.matched + c.ignored + c.failed = c.total := by
  have hi := MatchPred.observe_inv s T fn loc ex fs
  change MatchInv s T fn loc ex fs (fs.foldl _ (MatchPred.fresh s T fn loc ex)) at hi
  rw [observe_matching] at hp
  simp only [Pred.matching.injEq] at hp
  rw [← hp] at hi
  have hcnt : ∀ l : List MatchRes, l.count .nil + l.count .ignore +
      l.countP (fun r => r ≠ .nil && r ≠ .ignore) = l.length := by
    intro l
    induction l with
    | nil => rfl
    | cons a l ih =>
      cases a <;> simp at ih ⊢ <;> omega
  have hs := hcnt (answers T fn ex (countedIn s.opts.matchDispatch fs))
  rw [answers_length] at hs
  have h1 := hi.hsum hok
  have h2 := hi.hmat hok
  have h3 := hi.hign hok
  refine ⟨hi.hprod hok, h2, h3, ?_, hs⟩
  show failureCount p.failures = List.countP _ _
  omega

/-- **C55.**  The report of a failing `ToOnly...Matching()` says "none of the n", or "only k of
n", relevant messages matched; k is the number of messages accepted, n that of all messages of
the kind that were not ignored, and k < n. -/
theorem C55_only_report (s : PScope) (fs : List Fact) (ctx : RCtx) (T : MatchType)
    (fn : List Message → Message → MatchRes) (loc : String) (p q : Pred)
    (hctx : ctx.treeOk = false ∧ ctx.inverted = false)
    (hp : ((Expectation.matching T fn loc true).build s).2 = .ok p)
    (hq : (p.observe s fs).done = (q, none))
    (hfail : (Expectation.matching T fn loc true).verdict s fs = .decided false) :
    let c := matchCounts T fn true (countedIn s.opts.matchDispatch fs)
    c.matched < c.total - c.ignored ∧
    (q.report ctx).explanation = Inflect.sprint T.type.kind
      ((if c.matched = 0 then "none of the " ++ toString (c.total - c.ignored)
        else "only " ++ toString c.matched ++ " of " ++ toString (c.total - c.ignored)) ++
        " relevant <messages> matched the predicate") := by
  have hp' : p = .matching (MatchPred.fresh s T fn loc true) := by
    unfold Expectation.build at hp
    cases hi : T.iface with
    | some f => simp only [hi, Except.ok.injEq] at hp; exact hp.symm
    | none =>
      simp only [hi] at hp
      cases hg : guardImpossible s T.type with
      | error e => rw [hg] at hp; cases hp
      | ok u => rw [hg] at hp; simp only [Except.ok.injEq] at hp; exact hp.symm
  subst hp'
  obtain ⟨m, hm⟩ : ∃ m, (Pred.matching (MatchPred.fresh s T fn loc true)).observe s fs = .matching m := by
    rw [observe_matching]; exact ⟨_, rfl⟩
  have hi := MatchPred.observe_inv s T fn loc true fs
  change MatchInv s T fn loc true fs (fs.foldl _ (MatchPred.fresh s T fn loc true)) at hi
  have hm' := hm
  rw [observe_matching] at hm'
  simp only [Pred.matching.injEq] at hm'
  rw [hm'] at hi
  have hmok : m.ok = false := hi.hexok rfl
  obtain ⟨c1, c2, c3, c4, c5⟩ := C55_counts s fs T fn loc true m hm.symm hmok
  rw [hm] at hq
  simp only [Pred.done, Prod.mk.injEq, and_true] at hq
  subst hq
  have hv := (C53_report s fs ctx (.matching T fn loc true) _ _ trivial hp (by rw [hm]; rfl)).1
  have hdok : m.done.ok = false := by
    rw [hfail, report_ok_leaf (.inr (.inr ⟨_, rfl⟩))] at hv
    simpa [Pred.ok] using hv.symm
  have hdm : m.done = m ∧ m.failures ≠ [] := by
    unfold MatchPred.done at hdok ⊢
    rw [hi.hex]
    cases hf : m.failures with
    | nil => rw [hi.hex, hf] at hdok; simp at hdok
    | cons a l => simp
  have hpos : 0 < failureCount m.failures := by
    cases hf : m.failures with
    | nil => exact absurd hf hdm.2
    | cons a l =>
      have := hi.hpos a (by simp [hf])
      simp only [failureCount, List.map_cons, List.sum_cons]
      omega
  generalize matchCounts T fn true (countedIn s.opts.matchDispatch fs) = c at c1 c2 c3 c4 c5 ⊢
  simp only
  refine ⟨by show c.matched < c.total - c.ignored; omega, ?_⟩
  have hge : c.ignored ≤ c.total := by omega
  have hint : (m.tracker.produced : Int) - m.ignored = ((c.total - c.ignored : Nat) : Int) := by
    omega
  rw [hdm.1]
  show (m.report ctx).explanation = _
  unfold MatchPred.report
  simp only [hmok, hctx.1, hctx.2, Bool.or_self, Bool.false_eq_true, if_false, hi.hex, if_true,
    hi.hT, hint]
  rw [c2]
  rfl

/-! ## Cases -/

namespace Demo

/-- The facts of the run. -/
def runFacts : List Fact := final.trace.filterMap fun
  | .fact f => some f
  | _ => none

def goEq : GoEq Message Message where
  asProto := fun _ => none
  protoEqual := fun _ _ => false
  deepEqual := fun a b => decide (a = b)

def scope (md : Bool) : PScope where
  cfgs := app.cfgs
  opts := { comparator := none, matchDispatch := md }
  goEq := goEq

def anyOfType (t : MType) : Expectation := .type t

/-- A predicate function that accepts messages of type `E`. -/
def matchE (m : Message) : MatchRes := if m.type = evtE then .nil else .err "not an E"

def matchAlternate (seen : List Message) (_ : Message) : MatchRes :=
  if seen.length % 2 = 0 then .nil else .err "odd"

/-- An interface implemented by both types of events. -/
def someEvent : MatchType := { type := ⟨.event, "Event"⟩, iface := some fun t => decide (t.kind = .event) }

def ctx : RCtx where
  treeOk := false
  inverted := false
  render := fun m => m.body
  diff := fun a b => a ++ b

/-- The text of a report's explanation. -/
def explanationOf (s : PScope) (fs : List Fact) (c : RCtx) (e : Expectation) : Option (Bool × String) :=
  match (e.build s).2 with
  | .error _ => none
  | .ok p => some (((p.observe s fs).done.1.report c).ok, ((p.observe s fs).done.1.report c).explanation)

def reportOutcome (s : PScope) (fs : List Fact) (c : RCtx) (e : Expectation) : Option (String × Nat) :=
  match (e.build s).2 with
  | .error _ => none
  | .ok p => some (((p.observe s fs).done.1.report c).outcome,
      ((p.observe s fs).done.1.report c).subReports.length)

-- C44: the type can be used; a message passes, another one does not; a type of command that is
-- only consumed is refused unless messages given to the engine count.
example : Possible (scope false) evtE := .inl ⟨agg, by simp [scope, app], by simp [agg]⟩
example : ¬ Possible (scope false) cmdC := by
  simp [Possible, scope, app, agg, proc, int, prj, cmdC, cmdD, evtE, evtF, tmoT]
set_option maxRecDepth 100000 in
example : (Expectation.message (msgC "x")).verdict (scope true) runFacts = .decided true ∧
    (Expectation.message (msgC "z")).verdict (scope true) runFacts = .decided false ∧
    (Expectation.message (msgC "x")).verdict (scope false) runFacts = .refused (.onlyConsumed cmdC) := by
  decide +kernel

-- C45
set_option maxRecDepth 100000 in
example : (anyOfType evtF).verdict (scope false) runFacts = .decided true ∧
    (anyOfType evtF).verdict (scope false) (runFacts.take 3) = .decided false := by
  decide +kernel

-- C46, C47: functions with and without memory, types and interfaces.
set_option maxRecDepth 100000 in
example :
    (Expectation.matching { type := evtE } (fun _ => matchE) "f" false).verdict (scope false) runFacts =
      .decided true ∧
    (Expectation.matching someEvent (fun _ => matchE) "f" true).verdict (scope false) runFacts =
      .decided false ∧
    (Expectation.matching someEvent matchAlternate "f" true).verdict (scope false) runFacts =
      .decided false ∧
    (Expectation.matching { type := evtF } (fun _ _ => .ignore) "f" false).verdict (scope false) runFacts =
      .decided false := by
  decide +kernel

-- C48, C49: nested composites.
def nested : Expectation :=
  .composite .allOf [.type evtE, .not (.composite .noneOf [.type evtF, .type cmdD])]

set_option maxRecDepth 100000 in
example : nested.verdict (scope false) runFacts = .decided true ∧
    nested.verdict (scope false) [] = .decided false := by
  decide +kernel

/-- An expectation written by the user: at least `n` facts are observed. -/
def atLeast (n : Nat) : Expectation := .custom "to happen" fun s =>
  if n = 0 then .error "n must be positive" else .ok
    { ok := fun fs => decide (n ≤ fs.length),
      report := fun c fs => { treeOk := c.treeOk, ok := decide (n ≤ fs.length),
                              criteria := if s.opts.matchDispatch then "a" else "b" } }

theorem atLeast_honest (n : Nat) (s : PScope) : (atLeast n).Honest s := by
  intro p hp c fs
  dsimp only [atLeast] at hp
  split at hp
  · cases hp
  · cases hp
    simp [Report.nodes, Report.nodesAll]

-- C48, C49, C53: the same with expectations written by the user.
set_option maxRecDepth 100000 in
example : (Expectation.composite .allOf [nested, atLeast 4]).verdict (scope false) runFacts = .decided true ∧
    (Expectation.composite .allOf [nested, atLeast 4000]).verdict (scope false) runFacts = .decided false ∧
    (Expectation.not (atLeast 0)).verdict (scope false) runFacts =
      .refused (.custom "n must be positive") := by
  decide +kernel

example (fs : List Fact) (p q : Pred)
    (hp : ((Expectation.composite .allOf [.type evtE, atLeast 4]).build (scope false)).2 = .ok p)
    (hq : (p.observe (scope false) fs).done = (q, none)) :
    (Expectation.composite .allOf [.type evtE, atLeast 4]).verdict (scope false) fs =
      .decided (q.report ctx).ok :=
  have he : (Expectation.composite .allOf [.type evtE, atLeast 4]).Honest (scope false) := by
    simp [Expectation.Honest, Expectation.AllHonest, atLeast_honest]
  (C53_report _ _ _ _ _ _ he hp hq).1

-- C50: two of three iterations fail; the first of them is shown.
def thrice (i : Nat) : Expectation := if i = 0 then .type evtE else .not (.type evtE)

set_option maxRecDepth 100000 in
example : reportOutcome (scope false) runFacts ctx (.repeatedly "do it" 3 thrice) =
    some ("2 of 3 iteration(s) failed, iteration #1 shown", 1) := by
  decide +kernel

set_option maxRecDepth 100000 in
example : ((Expectation.repeatedly "do it" 3 (fun i => if i = 1 then .nil else .type evtE)).build
    (scope false)).1 = [("do it", 0), ("do it", 1)] := by
  decide +kernel

-- C53, C55: the report of a failing expectation.
set_option maxRecDepth 100000 in
example : explanationOf (scope false) runFacts ctx
      (.matching someEvent (fun _ => matchE) "f" true) =
    some (false, "only 2 of 5 relevant events matched the predicate") := by
  decide +kernel

end Demo

end Verif
