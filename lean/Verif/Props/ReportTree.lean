import Verif.Props.Explain
import Verif.Props.TestLog

/-!
# Reports on trees of expectations

C108.  The report of an expectation by itself is what making its predicate, notifying it of the facts
of the action, `Done()` and `Report()` give (`Expectation.reported`).  The report of a tree is put
together from those of its parts, each by itself, except that they know the verdict of the whole
tree and whether they are below an odd number of negations.
-/

namespace Verif

variable {W R P : Type}

/-- The report of an expectation after an action with the facts `fs`, unless it is refused or
panics.  `treeOk`: the verdict of the whole tree, `neg`: is it negated. -/
def Expectation.reported (s : PScope) (fs : List Fact) (ctx : RCtx) (treeOk neg : Bool)
    (e : Expectation) : Option Report :=
  match (e.build s).2 with
  | .error _ => none
  | .ok p =>
    match (p.observe s fs).done with
    | (_, some _) => none
    | (q, none) => some (q.report { ctx with treeOk := treeOk, inverted := neg })

theorem reported_iff {s : PScope} {fs : List Fact} {ctx : RCtx} {t neg : Bool} {e : Expectation}
    {r : Report} : e.reported s fs ctx t neg = some r ↔
      ∃ p q, (e.build s).2 = .ok p ∧ (p.observe s fs).done = (q, none) ∧
        r = q.report { ctx with treeOk := t, inverted := neg } := by
  unfold Expectation.reported
  rcases (e.build s).2 with x | p
  · constructor
    · nofun
    · rintro ⟨_, _, h, -⟩; cases h
  · dsimp only
    rcases h : (p.observe s fs).done with ⟨q, _ | v⟩
    · dsimp only
      constructor
      · intro he; cases he; exact ⟨p, q, rfl, h, rfl⟩
      · rintro ⟨p', q', h1, h2, rfl⟩
        cases h1
        rw [h] at h2; cases h2; rfl
    · dsimp only
      constructor
      · nofun
      · rintro ⟨p', q', h1, h2, -⟩
        cases h1
        rw [h] at h2; cases h2

/-- What is written next to the criterion of `AllOf()`, `AnyOf()` and `NoneOf()`, for `n` children of
which `passed` passed. -/
def compTally (k : CompKind) (n passed : Nat) : String :=
  match k with
  | .allOf => if n = passed then "" else s!"{n - passed} of the expectations failed"
  | .anyOf => if passed = 0 then s!"all {n} of the expectations failed" else ""
  | .noneOf =>
    if passed = 0 then ""
    else if n = 1 then "the expectation passed unexpectedly"
    else s!"{passed} of the expectations passed unexpectedly"

/-- The words for the criterion. -/
def CompKind.words : CompKind → String
  | .allOf => "all of"
  | .anyOf => "any of"
  | .noneOf => "none of"

/-- Does it pass? -/
def CompKind.passes (k : CompKind) (n passed : Nat) : Bool :=
  match k with
  | .allOf => passed == n
  | .anyOf => passed != 0
  | .noneOf => passed == 0

/-- How many of the expectations passed. -/
def passedOf (s : PScope) (fs : List Fact) (es : List Expectation) : Nat :=
  es.countP fun e => decide (e.verdict s fs = .decided true)

theorem pred_tally (k : CompKind) (n m : Nat) : k.pred n m = (compTally k n m, k.passes n m) := by
  cases k
  · unfold CompKind.pred compTally CompKind.passes
    dsimp only
    by_cases h : m = n
    · subst h; simp
    · have : ¬ n = m := fun h' => h h'.symm
      simp [h, this, toString]
  · unfold CompKind.pred compTally CompKind.passes
    dsimp only
    by_cases h : m = 0
    · subst h; simp [toString]
    · have : 0 < m := by omega
      simp [h, this]
  · unfold CompKind.pred compTally CompKind.passes
    dsimp only
    by_cases h : m = 0
    · subst h; simp
    · by_cases h1 : n = 1 <;> simp [h, h1, toString]

/-- The predicates of the children, one for each. -/
theorem buildAll_parts (s : PScope) : ∀ (es : List Expectation) (ps : List Pred),
    (Expectation.buildAll s es).2 = .ok ps → es.map (fun e => (e.build s).2) = ps.map .ok
  | [], ps, h => by unfold Expectation.buildAll at h; cases h; rfl
  | e :: es, ps, h => by
    unfold Expectation.buildAll at h
    rcases h1 : e.build s with ⟨l, x | p⟩
    · rw [h1] at h; cases h
    · rw [h1] at h
      rcases h2 : Expectation.buildAll s es with ⟨l', x | ps'⟩
      · rw [h2] at h; cases h
      · rw [h2] at h; cases h
        have := buildAll_parts s es ps' (by rw [h2])
        simp [h1, this]

/-- **C108.**  The report of `AllOf()`, `AnyOf()`, `NoneOf()`: it has the reports of the children by
themselves, in order, with the negation of `NoneOf()`; it tells how many of them went against it; and
has no explanation or sections itself. -/
theorem C108_composite (s : PScope) (fs : List Fact) (ctx : RCtx) (t neg : Bool) (k : CompKind)
    (es : List Expectation) (r : Report)
    (h : (Expectation.composite k es).reported s fs ctx t neg = some r) :
    es.map (Expectation.reported s fs ctx t (neg != (k == .noneOf))) = r.subReports.map some ∧
    r = { treeOk := t, ok := k.passes es.length (passedOf s fs es), criteria := k.words,
          outcome := compTally k es.length (passedOf s fs es), subReports := r.subReports } := by
  obtain ⟨p, q, hp, hq, hr⟩ := reported_iff.1 h
  have hb := buildAll_refused s fs es
  have hparts := buildAll_parts s es
  rw [Expectation.build.eq_4] at hp
  rcases hA : Expectation.buildAll s es with ⟨l, x⟩
  rw [hA] at hp hb hparts
  cases x with
  | error x => cases hp
  | ok ps =>
    simp only [Except.ok.injEq] at hp hb
    replace hparts := hparts ps rfl
    subst hp
    rw [observe_composite, Pred.done.eq_4] at hq
    rcases hD : Pred.doneAll (ps.map (fun p => p.observe s fs)) with ⟨qs, v⟩
    rw [hD] at hq
    simp only [Prod.mk.injEq] at hq
    obtain ⟨rfl, rfl⟩ := hq
    have hcrash := doneAll_crash (ps.map (fun p => p.observe s fs))
    have hqs := doneAll_ok (ps.map (fun p => p.observe s fs)) (by rw [hD])
    rw [hD] at hcrash hqs
    simp only [List.map_map] at hqs
    have hnone : ∀ p ∈ ps, (p.observe s fs).done.2 = none := fun p hp =>
      List.findSome?_eq_none_iff.1 hcrash.symm (p.observe s fs) (List.mem_map_of_mem hp)
    have hinv : (k == CompKind.noneOf) = k.inverted := by cases k <;> rfl
    have hcrit : k.words = k.criteria := by cases k <;> rfl
    have hsub : r.subReports = ps.map fun p => (p.observe s fs).done.1.report
        { ctx with treeOk := t, inverted := neg != k.inverted } := by
      rw [hr, Pred.report.eq_4, reportAll_eq, hqs]
      simp [Function.comp_def]
    have hcount : Pred.countOk qs = passedOf s fs es := by
      rw [countOk_eq, hqs, passedOf, List.map_map]
      have h1 : es.countP (fun e => decide (e.verdict s fs = .decided true)) =
          (es.map (Expectation.verdict s fs)).countP (fun v => decide (v = .decided true)) := by
        rw [List.countP_map]; rfl
      rw [h1, hb, List.countP_map, ← List.countP_eq_length_filter, List.countP_map]
      apply List.countP_congr
      intro p hp
      have := hnone p hp
      unfold Pred.verdict
      rcases hx : (p.observe s fs).done with ⟨a, b⟩
      rw [hx] at this
      simp only at this
      subst this
      simp [hx]
    constructor
    · rw [hsub, hinv]
      have hgen : ∀ (es : List Expectation) (ps : List Pred),
          es.map (fun e => (e.build s).2) = ps.map .ok → (∀ p ∈ ps, (p.observe s fs).done.2 = none) →
          es.map (Expectation.reported s fs ctx t (neg != k.inverted)) =
            (ps.map fun p => (p.observe s fs).done.1.report
              { ctx with treeOk := t, inverted := neg != k.inverted }).map some := by
        intro es
        induction es with
        | nil => intro ps h _; cases ps with
          | nil => rfl
          | cons _ _ => cases h
        | cons e es ih =>
          intro ps h hn
          cases ps with
          | nil => cases h
          | cons p ps =>
            simp only [List.map_cons, List.cons.injEq] at h ⊢
            refine ⟨?_, ih ps h.2 (fun p hp => hn p (List.mem_cons_of_mem _ hp))⟩
            have := hn p List.mem_cons_self
            refine reported_iff.2 ⟨p, (p.observe s fs).done.1, h.1, ?_, rfl⟩
            rw [← this]
      exact hgen es ps hparts hnone
    · rw [hcrit, ← hcount]
      have h1 := (congrArg Prod.fst (pred_tally k es.length (Pred.countOk qs))).symm
      have h2 := (congrArg Prod.snd (pred_tally k es.length (Pred.countOk qs))).symm
      simp only at h1 h2
      rw [h1, h2, hr]
      conv => lhs; rw [Pred.report.eq_4]
      conv => rhs; rw [Pred.report.eq_4]

/-- **C108.**  The report of `Not()` has the criterion of its child, preceded by "do not", and nothing
else. -/
theorem C108_not (s : PScope) (fs : List Fact) (ctx : RCtx) (t neg : Bool) (e : Expectation)
    (r : Report) (h : (Expectation.not e).reported s fs ctx t neg = some r) :
    ∃ c, e.reported s fs ctx t (!neg) = some c ∧
      r = { treeOk := t, ok := decide (e.verdict s fs = .decided false),
            criteria := "do not " ++ c.criteria } := by
  obtain ⟨p, q, hp, hq, hr⟩ := reported_iff.1 h
  rw [Expectation.build.eq_5] at hp
  rcases hA : e.build s with ⟨l, x | p'⟩
  · rw [hA] at hp; cases hp
  · rw [hA] at hp
    simp only [Except.ok.injEq] at hp
    subst hp
    rw [observe_not, Pred.done.eq_5] at hq
    rcases hD : (p'.observe s fs).done with ⟨q', v⟩
    rw [hD] at hq
    simp only [Prod.mk.injEq] at hq
    obtain ⟨rfl, rfl⟩ := hq
    refine ⟨_, reported_iff.2 ⟨p', q', by rw [hA], hD, rfl⟩, ?_⟩
    have hv : e.verdict s fs = .decided q'.ok := by
      unfold Expectation.verdict judgeBuilt Pred.verdict
      simp only [hA, hD]
    rw [hr, hv, Pred.report.eq_5]
    cases hok : q'.ok <;> simp

/-- **C108.**  The report of `ToRepeatedly()`: the number of the iterations that failed, and the
report of the first of them by itself. -/
theorem C108_repeatedly (s : PScope) (fs : List Fact) (ctx : RCtx) (t neg : Bool) (d : String)
    (n : Nat) (f : Nat → Expectation) (r : Report)
    (h : (Expectation.repeatedly d n f).reported s fs ctx t neg = some r) :
    ((∀ i, i < n → (f i).verdict s fs = .decided true) ∧
      r = { treeOk := t, ok := true, criteria := d }) ∨
    ∃ i, i < n ∧ (f i).verdict s fs = .decided false ∧
      (∀ j, j < i → (f j).verdict s fs = .decided true) ∧
      ∃ c, (f i).reported s fs ctx t neg = some c ∧
        r = { treeOk := t, ok := false, criteria := d,
              outcome := s!"{(List.range n).countP fun j => decide ((f j).verdict s fs = .decided false)} of {n} iteration(s) failed, iteration #{i} shown",
              subReports := [c] } := by
  obtain ⟨p, q, hp, hq, hr⟩ := reported_iff.1 h
  have hv : ∃ b, (Expectation.repeatedly d n f).verdict s fs = .decided b := by
    unfold Expectation.verdict judgeBuilt Pred.verdict
    simp only [hp, hq]
    exact ⟨_, rfl⟩
  obtain ⟨b, hv⟩ := hv
  rw [verdict_repeatedly] at hv
  have hd : ∀ i, i < n → ∃ c, (f i).verdict s fs = .decided c := by
    intro i hi
    obtain ⟨c, hc⟩ := (together_decided hv).2 _ (List.mem_map_of_mem (List.mem_range.2 hi))
    unfold iterVerdict at hc
    split at hc
    · cases hc
    · unfold Verdict.iteration at hc
      split at hc
      · cases hc
      · cases hc
      · exact ⟨c, hc⟩
  obtain ⟨h1, h2⟩ := C50_report s fs { ctx with treeOk := t, inverted := neg } d n f p q hp hq
  by_cases hall : ∀ i, i < n → (f i).verdict s fs = .decided true
  · exact .inl ⟨hall, by rw [hr, h1 hall]⟩
  · right
    have hfirst : ∀ m, m ≤ n → (∀ i, i < m → (f i).verdict s fs = .decided true) ∨
        ∃ i, i < m ∧ (f i).verdict s fs = .decided false ∧
          ∀ j, j < i → (f j).verdict s fs = .decided true := by
      intro m
      induction m with
      | zero => exact fun _ => .inl (fun i hi => absurd hi (by omega))
      | succ m ih =>
        intro hm
        rcases ih (by omega) with ha | ⟨i, hi, h3⟩
        · obtain ⟨c, hc⟩ := hd m (by omega)
          cases c with
          | true =>
            left
            intro i hi
            by_cases him : i = m
            · rw [him, hc]
            · exact ha i (by omega)
          | false => exact .inr ⟨m, by omega, hc, ha⟩
        · exact .inr ⟨i, by omega, h3⟩
    rcases hfirst n (Nat.le_refl n) with ha | ⟨i, hi, hf, hb⟩
    · exact absurd ha hall
    · refine ⟨i, hi, hf, hb, ?_⟩
      obtain ⟨pi, qi, h3, h4, h5⟩ := h2 i hi hf hb
      refine ⟨_, reported_iff.2 ⟨pi, qi, h3, h4, rfl⟩, ?_⟩
      rw [hr, h5]
      have hc : ((List.range n).map (fun j => (f j).verdict s fs)).count (.decided false) =
          (List.range n).countP fun j => decide ((f j).verdict s fs = .decided false) := by
        rw [List.count, List.countP_map]
        apply List.countP_congr
        intro j _
        simp
      rw [hc]
      simp [toString]

/-- **C108.**  An expectation is reported iff there is a verdict on it. -/
theorem C108_some (s : PScope) (fs : List Fact) (ctx : RCtx) (t neg : Bool) (e : Expectation) :
    (∃ r, e.reported s fs ctx t neg = some r) ↔ ∃ b, e.verdict s fs = .decided b := by
  unfold Expectation.reported Expectation.verdict judgeBuilt Pred.verdict
  rcases (e.build s).2 with x | p
  · exact ⟨nofun, nofun⟩
  · dsimp only
    rcases (p.observe s fs).done with ⟨q, _ | v⟩
    · exact ⟨fun _ => ⟨_, rfl⟩, fun _ => ⟨_, rfl⟩⟩
    · exact ⟨nofun, nofun⟩

/-! ## Positions in a tree -/

/-- The report at a position: from the outside in, which sub-report to look at. -/
def Report.at? (r : Report) : List Nat → Option Report
  | [] => some r
  | i :: path =>
    match r.subReports[i]? with
    | none => none
    | some c => c.at? path

/-- `Shows s fs neg e path neg' e'`: in the report on `e`, the report at `path` is about `e'`.
Children of a composite are at their own index, below one more negation if they are children of
`NoneOf()`.  The only thing below `ToRepeatedly()` is its first iteration that failed; below `Not()`
there is nothing. -/
inductive Shows (s : PScope) (fs : List Fact) : Bool → Expectation → List Nat → Bool → Expectation → Prop
  | here (neg e) : Shows s fs neg e [] neg e
  | child {neg k es i e path neg' e'} (hi : es[i]? = some e)
      (h : Shows s fs (if k = .noneOf then !neg else neg) e path neg' e') :
      Shows s fs neg (.composite k es) (i :: path) neg' e'
  | iteration {neg d n f i path neg' e'} (hi : i < n) (hf : (f i).verdict s fs = .decided false)
      (hb : ∀ j, j < i → (f j).verdict s fs = .decided true)
      (h : Shows s fs neg (f i) path neg' e') :
      Shows s fs neg (.repeatedly d n f) (0 :: path) neg' e'

theorem neg_flip (k : CompKind) (neg : Bool) :
    (neg != (k == CompKind.noneOf)) = if k = .noneOf then !neg else neg := by
  cases k <;> cases neg <;> rfl

/-- **C108.**  Wherever an expectation is shown in the report of a tree, it is reported as it would
be by itself. -/
theorem C108_position {s : PScope} {fs : List Fact} {neg neg' : Bool} {e e' : Expectation}
    {path : List Nat} (h : Shows s fs neg e path neg' e') (ctx : RCtx) (t : Bool) (r : Report)
    (hr : e.reported s fs ctx t neg = some r) :
    ∃ r', r.at? path = some r' ∧ e'.reported s fs ctx t neg' = some r' := by
  induction h generalizing r with
  | here neg e => exact ⟨r, rfl, hr⟩
  | @child neg k es i e path neg' e' hi h ih =>
    have hc := (C108_composite s fs ctx t neg k es r hr).1
    rw [neg_flip] at hc
    have hx : (r.subReports.map some)[i]? = some (e.reported s fs ctx t (if k = .noneOf then !neg else neg)) := by
      rw [← hc, List.getElem?_map, hi]; rfl
    rw [List.getElem?_map] at hx
    rcases hg : r.subReports[i]? with _ | c
    · rw [hg] at hx; cases hx
    · rw [hg] at hx
      simp only [Option.map_some, Option.some.injEq] at hx
      obtain ⟨r', h1, h2⟩ := ih c hx.symm
      exact ⟨r', by unfold Report.at?; rw [hg]; exact h1, h2⟩
  | @iteration neg d n f i path neg' e' hi hf hb h ih =>
    rcases C108_repeatedly s fs ctx t neg d n f r hr with ⟨h1, -⟩ | ⟨j, hj, hjf, hjb, c, hc, rfl⟩
    · rw [h1 i hi] at hf; cases hf
    · have : j = i := by
        rcases Nat.lt_trichotomy i j with hlt | heq | hlt
        · rw [hjb i hlt] at hf; cases hf
        · exact heq.symm
        · rw [hb j hlt] at hjf; cases hjf
      subst this
      obtain ⟨r', h1, h2⟩ := ih c hc
      exact ⟨r', h1, h2⟩

/-- **C108.**  And there is nothing else in the report of a tree: each report in it is at the
position of an expectation, or below that of one which is not made of others.  (Only those written by
the user have anything below.) -/
theorem C108_nothing_else (s : PScope) (fs : List Fact) (ctx : RCtx) (t : Bool) :
    ∀ (path : List Nat) (neg : Bool) (e : Expectation) (r x : Report),
      e.reported s fs ctx t neg = some r → r.at? path = some x →
      ∃ front back neg' e', path = front ++ back ∧ Shows s fs neg e front neg' e' ∧
        (back = [] ∨ (∃ c mk, e' = .custom c mk)) := by
  intro path
  induction path with
  | nil => intro neg e r x _ _; exact ⟨[], [], neg, e, rfl, .here _ _, .inl rfl⟩
  | cons i path ih =>
    intro neg e r x hr hx
    unfold Report.at? at hx
    rcases hg : r.subReports[i]? with _ | c
    · rw [hg] at hx; cases hx
    rw [hg] at hx
    dsimp only at hx
    have leaf : r.subReports = [] → False := fun h0 => by rw [h0] at hg; cases hg
    cases e with
    | composite k es =>
      have hc := (C108_composite s fs ctx t neg k es r hr).1
      rw [neg_flip] at hc
      have he : (es.map (Expectation.reported s fs ctx t (if k = .noneOf then !neg else neg)))[i]? =
          some (some c) := by
        rw [hc, List.getElem?_map, hg]; rfl
      rw [List.getElem?_map] at he
      rcases hi : es[i]? with _ | e'
      · rw [hi] at he; cases he
      · rw [hi] at he
        simp only [Option.map_some, Option.some.injEq] at he
        obtain ⟨front, back, neg', e'', h1, h2, h3⟩ := ih _ e' c x he hx
        exact ⟨i :: front, back, neg', e'', by rw [h1]; rfl, .child hi h2, h3⟩
    | repeatedly d n f =>
      rcases C108_repeatedly s fs ctx t neg d n f r hr with ⟨-, rfl⟩ | ⟨j, hj, hjf, hjb, c', hc, rfl⟩
      · exact absurd rfl leaf
      · cases i with
        | succ i => cases hg
        | zero =>
          cases hg
          obtain ⟨front, back, neg', e'', h1, h2, h3⟩ := ih _ _ _ x hc hx
          exact ⟨0 :: front, back, neg', e'', by rw [h1]; rfl, .iteration hj hjf hjb h2, h3⟩
    | custom c mk => exact ⟨[], i :: path, neg, _, rfl, .here _ _, .inr ⟨_, _, rfl⟩⟩
    | not e =>
      obtain ⟨c', -, rfl⟩ := C108_not s fs ctx t neg e r hr
      exact absurd rfl leaf
    | message m =>
      obtain ⟨p, q, hp, hq, rfl⟩ := reported_iff.1 hr
      have hp' := message_built hp
      subst hp'
      rw [observe_message, Pred.done.eq_1] at hq
      cases hq
      exact absurd (MsgPred.report_frame _ _).2.2 leaf
    | type m =>
      obtain ⟨p, q, hp, hq, rfl⟩ := reported_iff.1 hr
      have hp' := type_built hp
      subst hp'
      rw [observe_type, Pred.done.eq_2] at hq
      cases hq
      exact absurd (TypePred.report_frame _ _).2.2 leaf
    | matching T fn loc ex =>
      obtain ⟨p, q, hp, hq, rfl⟩ := reported_iff.1 hr
      have hp' := matching_built hp
      subst hp'
      rw [observe_matching, Pred.done.eq_3] at hq
      cases hq
      exact absurd (MatchPred.report_frame _ _).2.2 leaf
    | satisfy d fn =>
      obtain ⟨p, q, hp, hq, rfl⟩ := reported_iff.1 hr
      unfold Expectation.build at hp
      cases hp
      rw [observe_satisfy, Pred.done.eq_7] at hq
      simp only [Prod.mk.injEq] at hq
      obtain ⟨rfl, -⟩ := hq
      exact absurd (SatPred.report_frame _ _).2.2 leaf
    | nil => obtain ⟨p, q, hp, -⟩ := reported_iff.1 hr; cases hp

/-! ## Who explains itself -/

/-- An expectation on the messages that an action gives rise to. -/
def Expectation.onMessages : Expectation → Bool
  | .message _ | .type _ | .matching .. => true
  | _ => false

/-- `ToOnlyExecuteCommandsMatching()` and `ToOnlyRecordEventsMatching()`. -/
def Expectation.exhaustive : Expectation → Bool
  | .matching _ _ _ ex => ex
  | _ => false

theorem append_ne_empty {a b : String} (h : a ≠ "") : a ++ b ≠ "" := by
  intro h'
  apply h
  have := congrArg String.length h'
  rw [String.length_append] at this
  have h0 : a.length = 0 := by simpa using (by simpa using this : a.length = 0 ∧ _).1
  exact String.length_eq_zero_iff.1 h0

theorem why_text (k : Kind) (w : Why) : w.text k ≠ "" := by
  cases w <;> unfold Why.text <;> dsimp only <;> (repeat rw [String.append_assoc]) <;>
    first
      | exact append_ne_empty (by decide)
      | decide

/-- **C108.**  In the report of a tree, an expectation on messages explains why it is not met (and
gives suggestions) iff the whole tree has failed, it is not met, and it is not below an odd number of
`NoneOf()`.  Otherwise its report consists of its criterion. -/
theorem C108_explains {s : PScope} {fs : List Fact} {neg neg' : Bool} {e e' : Expectation}
    {path : List Nat} (h : Shows s fs neg e path neg' e') (hm : e'.onMessages = true) (ctx : RCtx)
    (t : Bool) (r : Report) (hr : e.reported s fs ctx t neg = some r) :
    ∃ r', r.at? path = some r' ∧
      if t = false ∧ neg' = false ∧ e'.verdict s fs = .decided false then
        (e'.exhaustive = false → r'.explanation ≠ "") ∧
        ∃ text, ("Suggestions", text) ∈ r'.sections
      else r'.explanation = "" ∧ r'.sections = [] := by
  obtain ⟨r', h1, h2⟩ := C108_position h ctx t r hr
  refine ⟨r', h1, ?_⟩
  obtain ⟨p, q, hp, hq, rfl⟩ := reported_iff.1 h2
  have hdec := (C108_some s fs ctx t neg' e').1 ⟨_, h2⟩
  split
  · rename_i hc
    obtain ⟨rfl, rfl, hv⟩ := hc
    cases e' with
    | message m =>
      have hx := C82_message s fs { ctx with treeOk := false, inverted := false } m p q ⟨rfl, rfl⟩ hp hq hv
      rcases hl : (alikeIn s.opts.matchDispatch m.type fs).getLast? with _ | env
      · obtain ⟨w, -, hw⟩ := hx.1 (List.getLast?_eq_none_iff.1 hl)
        rw [hw]
        exact ⟨fun _ => why_text _ _, _, List.mem_singleton.2 rfl⟩
      · rw [(hx.2 env hl).2]
        exact ⟨fun _ => why_text _ _, _, List.mem_cons_self⟩
    | type m =>
      obtain ⟨-, w, -, hw⟩ := C82_type s fs { ctx with treeOk := false, inverted := false } m p q ⟨rfl, rfl⟩ hp hq hv
      rw [hw]
      exact ⟨fun _ => why_text _ _, _, List.mem_singleton.2 rfl⟩
    | matching T fn loc ex =>
      cases ex with
      | false =>
        obtain ⟨w, -, hw⟩ := C83_some_partial s fs { ctx with treeOk := false, inverted := false } T fn loc p q ⟨rfl, rfl⟩ hp hq hv
        rw [hw]
        exact ⟨fun _ => why_text _ _, _, List.mem_append_right _ (List.mem_singleton.2 rfl)⟩
      | true =>
        obtain ⟨-, w, -, hw⟩ := C83_only s fs { ctx with treeOk := false, inverted := false } T fn loc p q ⟨rfl, rfl⟩ hp hq hv
        rw [hw]
        exact ⟨nofun, _, List.mem_append_right _ (List.mem_singleton.2 rfl)⟩
    | composite => cases hm
    | repeatedly => cases hm
    | not => cases hm
    | satisfy => cases hm
    | custom => cases hm
    | nil => cases hm
  · rename_i hc
    have hs : t = true ∨ neg' = true ∨ e'.verdict s fs = .decided true := by
      obtain ⟨b, hb⟩ := hdec
      cases t
      · cases neg'
        · cases b
          · exact absurd ⟨rfl, rfl, hb⟩ hc
          · exact .inr (.inr hb)
        · exact .inr (.inl rfl)
      · exact .inl rfl
    cases e' with
    | message m => exact C82_silent s fs { ctx with treeOk := t, inverted := neg' } _ p q (.inl ⟨m, rfl⟩) hp hq hs
    | type m => exact C82_silent s fs { ctx with treeOk := t, inverted := neg' } _ p q (.inr ⟨m, rfl⟩) hp hq hs
    | matching T fn loc ex => exact C83_silent s fs { ctx with treeOk := t, inverted := neg' } T fn loc ex p q hp hq hs
    | composite => cases hm
    | repeatedly => cases hm
    | not => cases hm
    | satisfy => cases hm
    | custom => cases hm
    | nil => cases hm

/-! ## What the test logs -/

/-- **C108.**  If `Expect()` comes to a verdict, the report it logs is that of the expectation by
itself, not negated, with its own verdict as that of the whole tree. -/
theorem C108_logged {A : App W R} {E : TEnv W} (φ : LogFmt) {t : TSt W R} (h : Course A E t)
    (S : PScope) (x : Expectation) (ctx : RCtx) (k : Nat) (hk : k ≠ 0) (a : Action W)
    {t' : TSt W R} {calls : List ECall} {e : EEnd}
    (hx : t.expect A E S (x.impl ctx) k a = (t', calls, e)) (he : e ≠ .running) :
    (e = .passed → ∃ before r, x.reported (a.scope S) (notified calls) ctx true false = some r ∧
      t'.output φ = before ++ [.log (reportText r)]) ∧
    (e = .failed → (∃ before err, t'.output φ = before ++ [.fatal err]) ∨
      ∃ before r, x.reported (a.scope S) (notified calls) ctx false false = some r ∧
        t'.output φ = before ++ [.log (reportText r), .failNow]) := by
  have key : ∀ p p', (x.impl ctx).build (a.scope S) = .ok p →
      (x.impl ctx).finish (a.scope S) (notified calls) p = (p', none) → ∀ ok,
      x.reported (a.scope S) (notified calls) ctx ok false =
        some (p'.report { ctx with treeOk := ok, inverted := false }) := by
    intro p p' hb hf ok
    have hp : (x.build (a.scope S)).2 = .ok p := by
      simp only [Expectation.impl] at hb
      split at hb
      · cases hb; assumption
      · cases hb
      · cases hb
    have hq : (p.observe (a.scope S) (notified calls)).done = (p', none) := by
      have hfin : (x.impl ctx).finish (a.scope S) (notified calls) p =
        ((p.observe (a.scope S) (notified calls)).done.1,
          (p.observe (a.scope S) (notified calls)).done.2.map .user) := rfl
      rw [hfin] at hf
      rcases hd : (p.observe (a.scope S) (notified calls)).done with ⟨q, _ | v⟩
      · rw [hd] at hf; cases hf; rfl
      · rw [hd] at hf; simp at hf
    exact reported_iff.2 ⟨p, p', hp, hq, rfl⟩
  rcases C85_expect φ h S (x.impl ctx) k hk a hx he with ⟨v, -, rfl, -⟩ |
    ⟨c, told, last, -, ho, -, -, hl⟩
  · exact ⟨nofun, nofun⟩
  · cases e with
    | running => exact absurd rfl he
    | panicked v => exact ⟨nofun, nofun⟩
    | passed =>
      refine ⟨fun _ => ?_, nofun⟩
      obtain ⟨p, p', hb, hf, -, r, hrep, rfl⟩ := hl
      cases hrep
      exact ⟨_, _, key p p' hb hf true, ho⟩
    | failed =>
      refine ⟨nofun, fun _ => ?_⟩
      rcases hl with ⟨msg, -, rfl⟩ | ⟨r, -, rfl⟩ | ⟨p, p', hb, hf, -, r, hrep, rfl⟩
      · exact .inl ⟨_, _, ho⟩
      · exact .inl ⟨_, _, ho⟩
      · cases hrep
        exact .inr ⟨_, _, key p p' hb hf false, ho⟩

/-! ## An instance -/

namespace Demo

/-- An event that is not recorded. -/
def absent : Expectation := .message { type := evtE, body := "no such event" }

/-- The unmet expectation is at the top, in `NoneOf()`, and in `NoneOf()` in `NoneOf()`. -/
def deepTree : Expectation :=
  .composite .allOf [absent,
    .composite .noneOf [absent, .type evtE, .composite .noneOf [absent, .type evtF]],
    .not (.type evtE), .repeatedly "do it" 3 thrice]

/-- What is shown at a position: among others, whether there is an explanation. -/
structure Glance where
  ok : Bool
  criteria : String
  outcome : String
  explained : Bool
  sections : Nat
  subReports : Nat
  deriving DecidableEq, Repr

def glance (path : List Nat) (e : Expectation) : Option Glance :=
  ((e.reported (scope false) runFacts ctx false false).bind (·.at? path)).map fun r =>
    ⟨r.ok, r.criteria, r.outcome, r.explanation != "", r.sections.length, r.subReports.length⟩

/-- The hypotheses of `C108_position` and `C108_explains` hold of the three unmet expectations. -/
example : Shows (scope false) runFacts false deepTree [0] false absent :=
  .child (k := .allOf) rfl (.here _ _)

example : Shows (scope false) runFacts false deepTree [1, 0] true absent :=
  .child (k := .allOf) rfl (.child (k := .noneOf) rfl (.here _ _))

example : Shows (scope false) runFacts false deepTree [1, 2, 0] false absent :=
  .child (k := .allOf) rfl (.child (k := .noneOf) rfl (.child (k := .noneOf) rfl (.here _ _)))

end Demo

set_option maxRecDepth 100000 in
/-- An unmet expectation is explained below no negation, or below two. -/
example :
    Demo.glance [] Demo.deepTree = some ⟨false, "all of", "4 of the expectations failed", false, 0, 4⟩ ∧
    Demo.glance [0] Demo.deepTree =
      some ⟨false, "record a specific 'E' event", "", true, 2, 0⟩ ∧
    Demo.glance [1, 0] Demo.deepTree = some ⟨false, "record a specific 'E' event", "", false, 0, 0⟩ ∧
    Demo.glance [1, 2, 0] Demo.deepTree = some ⟨false, "record a specific 'E' event", "", true, 2, 0⟩ := by
  decide +kernel

set_option maxRecDepth 100000 in
/-- The words of composites, `Not()` and `ToRepeatedly()`. -/
example :
    Demo.glance [1] Demo.deepTree = some ⟨false, "none of", "1 of the expectations passed unexpectedly", false, 0, 3⟩ ∧
    Demo.glance [2] Demo.deepTree = some ⟨false, "do not record any 'E' event", "", false, 0, 0⟩ ∧
    Demo.glance [2, 0] Demo.deepTree = none ∧
    Demo.glance [3] Demo.deepTree =
      some ⟨false, "do it", "2 of 3 iteration(s) failed, iteration #1 shown", false, 0, 1⟩ ∧
    Demo.glance [3, 0] Demo.deepTree = some ⟨false, "do not record any 'E' event", "", false, 0, 0⟩ ∧
    Demo.glance [3, 1] Demo.deepTree = none := by
  decide +kernel

set_option maxRecDepth 100000 in
/-- `C108_repeatedly` and the third constructor of `Shows` are about such cases. -/
example : Shows (Demo.scope false) Demo.runFacts false Demo.deepTree [3, 0] false (.not (.type Demo.evtE)) :=
  .child (k := .allOf) rfl (.iteration (f := Demo.thrice) (i := 1) (by decide) (by decide +kernel)
    (fun j hj => by
      have : j = 0 := by omega
      subst this
      decide +kernel) (.here _ _))

end Verif
