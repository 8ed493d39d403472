import Verif.NotifyPanic
import Verif.ExpectRefine
import Verif.Props.Notified

/-!
# C113: functions given to expectations that panic
-/

namespace Verif

variable {W R : Type}

/-! ## Leaves of predicates -/

mutual

/-- The predicates in a tree that are not made of others, in order. -/
def Pred.leaves : Pred → List Pred
  | .composite _ _ ps => Pred.leavesAll ps
  | .not p => p.leaves
  | .repeatedly _ ps => Pred.leavesAll ps
  | p => [p]

/-- Those of several trees. -/
def Pred.leavesAll : List Pred → List Pred
  | [] => []
  | p :: ps => p.leaves ++ Pred.leavesAll ps

end

theorem leavesAll_flatMap (ps : List Pred) : Pred.leavesAll ps = ps.flatMap Pred.leaves := by
  induction ps with
  | nil => rfl
  | cons p ps ih => simp [Pred.leavesAll, ih]

theorem Expectation.leavesAll_flatMap (es : List Expectation) :
    Expectation.leavesAll es = es.flatMap Expectation.leaves := by
  induction es with
  | nil => rfl
  | cons e es ih => simp [Expectation.leavesAll, ih]

/-- Leaves are told a fact one after the other, until one panics. -/
def tellLeaves (C : Crash) (s : PScope) (f : Fact) : List Pred → List Pred
  | [] => []
  | x :: l =>
    match (x.notifyP C s f).2 with
    | some _ => (x.notifyP C s f).1 :: l
    | none => (x.notifyP C s f).1 :: tellLeaves C s f l

theorem tellLeaves_append (C : Crash) (s : PScope) (f : Fact) (a b : List Pred) :
    tellLeaves C s f (a ++ b) =
      match a.findSome? (fun x => (x.notifyP C s f).2) with
      | some _ => tellLeaves C s f a ++ b
      | none => tellLeaves C s f a ++ tellLeaves C s f b := by
  induction a with
  | nil => rfl
  | cons x a ih =>
    rw [List.cons_append, tellLeaves, tellLeaves, List.findSome?_cons]
    cases (x.notifyP C s f).2 with
    | some v => rfl
    | none =>
      dsimp only
      rw [ih]
      cases a.findSome? (fun x => (x.notifyP C s f).2) <;> rfl

theorem findSome_append' {α β : Type} (g : α → Option β) (a b : List α) :
    (a ++ b).findSome? g = match a.findSome? g with | some v => some v | none => b.findSome? g := by
  rw [List.findSome?_append]
  cases a.findSome? g <;> rfl

mutual

theorem Pred.notifyP_leaves (C : Crash) (s : PScope) (f : Fact) (p : Pred) :
    (p.notifyP C s f).2 = p.leaves.findSome? (fun x => (x.notifyP C s f).2) ∧
    (p.notifyP C s f).1.leaves = tellLeaves C s f p.leaves := by
  cases p with
  | composite k n ps =>
    have h := Pred.notifyAllP_leaves C s f ps
    simp only [Pred.notifyP, Pred.leaves]
    exact h
  | not p =>
    have h := Pred.notifyP_leaves C s f p
    simp only [Pred.notifyP, Pred.leaves]
    exact h
  | repeatedly c ps =>
    have h := Pred.notifyAllP_leaves C s f ps
    simp only [Pred.notifyP, Pred.leaves]
    exact h
  | message p =>
    simp only [Pred.leaves, List.findSome?_cons, List.findSome?_nil, tellLeaves]
    cases h : (Pred.notifyP C s f (.message p)).2 <;> simp [Pred.notifyP, Pred.leaves]
  | type p =>
    simp only [Pred.leaves, List.findSome?_cons, List.findSome?_nil, tellLeaves]
    cases h : (Pred.notifyP C s f (.type p)).2 <;> simp [Pred.notifyP, Pred.leaves]
  | matching p =>
    simp only [Pred.leaves, List.findSome?_cons, List.findSome?_nil, tellLeaves]
    cases h : (Pred.notifyP C s f (.matching p)).2 <;> simp [Pred.notifyP, Pred.leaves]
  | satisfy p =>
    simp only [Pred.leaves, List.findSome?_cons, List.findSome?_nil, tellLeaves]
    cases h : (Pred.notifyP C s f (.satisfy p)).2 <;> simp [Pred.notifyP, Pred.leaves]
  | custom p l =>
    simp only [Pred.leaves, List.findSome?_cons, List.findSome?_nil, tellLeaves]
    cases h : (Pred.notifyP C s f (.custom p l)).2 <;> simp [Pred.notifyP, Pred.leaves]

theorem Pred.notifyAllP_leaves (C : Crash) (s : PScope) (f : Fact) (ps : List Pred) :
    (Pred.notifyAllP C s f ps).2 = (Pred.leavesAll ps).findSome? (fun x => (x.notifyP C s f).2) ∧
    Pred.leavesAll (Pred.notifyAllP C s f ps).1 = tellLeaves C s f (Pred.leavesAll ps) := by
  cases ps with
  | nil => exact ⟨rfl, rfl⟩
  | cons p ps =>
    obtain ⟨h1, h2⟩ := Pred.notifyP_leaves C s f p
    obtain ⟨g1, g2⟩ := Pred.notifyAllP_leaves C s f ps
    rw [Pred.notifyAllP, Pred.leavesAll, findSome_append', tellLeaves_append, ← h1, ← h2]
    rcases hq : p.notifyP C s f with ⟨q, _ | v⟩
    · dsimp only
      rw [← g1, ← g2]
      exact ⟨rfl, rfl⟩
    · exact ⟨rfl, rfl⟩

end

/-- A leaf that does not panic is told as usual. -/
theorem MsgPred.notifyP_none (C : Crash) (s : PScope) (f : Fact) (p : MsgPred)
    (h : (p.notifyP C s f).2 = none) : (p.notifyP C s f).1 = p.notify s f := by
  revert h
  unfold MsgPred.notifyP MsgPred.notify
  cases p.ok
  · rcases p.tracker.notify f with ⟨t, _ | env⟩
    · exact fun _ => rfl
    · by_cases hx : env.msg.type = p.expected.type
      · simp only [hx, ne_eq, not_true_eq_false, if_false, Bool.false_eq_true]
        cases p.comparator with
        | none => exact fun _ => rfl
        | some eq =>
          cases C.cmp env.msg p.expected with
          | none => exact fun _ => rfl
          | some v => exact fun h => nomatch h
      · simp [hx]
  · exact fun _ => rfl

theorem MatchPred.notifyP_none (C : Crash) (s : PScope) (f : Fact) (p : MatchPred)
    (h : (p.notifyP C f).2 = none) : (p.notifyP C f).1 = p.notify s f := by
  revert h
  unfold MatchPred.notifyP MatchPred.notify
  cases p.ok
  · rcases p.tracker.notify f with ⟨t, _ | env⟩
    · exact fun _ => rfl
    · simp only [Bool.false_eq_true, if_false]
      unfold MatchPred.messageProducedP
      dsimp only
      by_cases hk : env.msg.type.kind = p.T.type.kind
      · rw [if_neg (fun hn => hn hk)]
        cases p.T.asserts env.msg.type with
        | false => simp
        | true =>
          simp only [if_true]
          cases C.fn p.fn p.seen env.msg with
          | none => exact fun _ => rfl
          | some v => exact fun h => nomatch h
      · rw [if_pos hk]
        unfold MatchPred.messageProduced
        dsimp only
        rw [if_pos hk]
        exact fun _ => rfl
  · exact fun _ => rfl

mutual

/-- If no function of the user panics, a tree is told as usual. -/
theorem Pred.notifyP_none (C : Crash) (s : PScope) (f : Fact) (p : Pred)
    (h : (p.notifyP C s f).2 = none) : (p.notifyP C s f).1 = p.notify s f := by
  cases p with
  | message p => exact congrArg Pred.message (p.notifyP_none C s f h)
  | type p => rfl
  | matching p => exact congrArg Pred.matching (p.notifyP_none C s f h)
  | composite k n ps => exact congrArg (Pred.composite k n) (Pred.notifyAllP_none C s f ps h)
  | not p => exact congrArg Pred.not (Pred.notifyP_none C s f p h)
  | repeatedly c ps => exact congrArg (Pred.repeatedly c) (Pred.notifyAllP_none C s f ps h)
  | satisfy p => rfl
  | custom p l => rfl

theorem Pred.notifyAllP_none (C : Crash) (s : PScope) (f : Fact) (ps : List Pred)
    (h : (Pred.notifyAllP C s f ps).2 = none) :
    (Pred.notifyAllP C s f ps).1 = Pred.notifyAll s f ps := by
  cases ps with
  | nil => rfl
  | cons p ps =>
    have h1 := Pred.notifyP_none C s f p
    have h2 := Pred.notifyAllP_none C s f ps
    rw [Pred.notifyAllP] at h ⊢
    rw [Pred.notifyAll]
    rcases hq : p.notifyP C s f with ⟨q, _ | v⟩
    · rw [hq] at h h1
      dsimp only at h ⊢
      rw [← h1 rfl, ← h2 h]
    · rw [hq] at h
      cases h

end

mutual

theorem Pred.notify_leaves (s : PScope) (f : Fact) (p : Pred) :
    (p.notify s f).leaves = p.leaves.map (Pred.notify s f) := by
  cases p with
  | composite k n ps => exact Pred.notifyAll_leaves s f ps
  | not p => exact Pred.notify_leaves s f p
  | repeatedly c ps => exact Pred.notifyAll_leaves s f ps
  | _ => rfl

theorem Pred.notifyAll_leaves (s : PScope) (f : Fact) (ps : List Pred) :
    Pred.leavesAll (Pred.notifyAll s f ps) = (Pred.leavesAll ps).map (Pred.notify s f) := by
  cases ps with
  | nil => rfl
  | cons p ps =>
    rw [Pred.notifyAll, Pred.leavesAll, Pred.leavesAll, List.map_append, Pred.notify_leaves s f p,
      Pred.notifyAll_leaves s f ps]

end

theorem Pred.observe_leaves (s : PScope) (fs : List Fact) : ∀ p : Pred,
    (p.observe s fs).leaves = p.leaves.map (fun x => x.observe s fs) := by
  unfold Pred.observe
  induction fs with
  | nil => intro p; simp
  | cons f fs ih =>
    intro p
    rw [List.foldl_cons, ih, Pred.notify_leaves, List.map_map]
    rfl

mutual

theorem Pred.done_leaves (p : Pred) : p.done.2 = p.leaves.findSome? (fun x => x.done.2) := by
  cases p with
  | composite k n ps => simp only [Pred.done, Pred.leaves]; exact Pred.doneAll_leaves ps
  | not p => simp only [Pred.done, Pred.leaves]; exact Pred.done_leaves p
  | repeatedly c ps => simp only [Pred.done, Pred.leaves]; exact Pred.doneAll_leaves ps
  | message p => rfl
  | type p => rfl
  | matching p => rfl
  | satisfy p =>
    rw [Pred.leaves, List.findSome?_cons]
    cases (Pred.satisfy p).done.2 <;> rfl
    all_goals simp
  | custom p l =>
    rw [Pred.leaves, List.findSome?_cons]
    cases (Pred.custom p l).done.2 <;> rfl
    all_goals simp

theorem Pred.doneAll_leaves (ps : List Pred) :
    (Pred.doneAll ps).2 = (Pred.leavesAll ps).findSome? (fun x => x.done.2) := by
  cases ps with
  | nil => rfl
  | cons p ps =>
    have h1 := Pred.done_leaves p
    have h2 := Pred.doneAll_leaves ps
    rw [Pred.doneAll, Pred.leavesAll, findSome_append', ← h1, ← h2]
    rcases p.done with ⟨q, _ | v⟩ <;> rfl

end

/-! ## Leaves of expectations -/

/-- Not made of other expectations. -/
def Expectation.isLeaf : Expectation → Bool
  | .composite .. | .not .. | .repeatedly .. => false
  | _ => true

/-- The predicate of an expectation. -/
def Expectation.pred (s : PScope) (e : Expectation) : Option Pred := (e.build s).2.toOption

theorem repeatLoop_leaves (s : PScope) (desc : String) (f : Nat → Expectation)
    (ih : ∀ i p, (f i).pred s = some p → (f i).leaves.map (Expectation.pred s) = p.leaves.map some) :
    ∀ n i ps, (repeatLoop desc (fun i => if (f i).isNil then ([], .error .nilExpectation)
        else (f i).build s) n i).2 = .ok ps →
      ((List.range' i n).flatMap fun i => (f i).leaves).map (Expectation.pred s) =
        (Pred.leavesAll ps).map some := by
  intro n
  induction n with
  | zero => intro i ps h; cases h; rfl
  | succ n ihn =>
    intro i ps h
    rw [repeatLoop] at h
    cases hn : (f i).isNil with
    | true => rw [hn] at h; simp at h
    | false =>
      rw [hn] at h
      simp only [Bool.false_eq_true, if_false] at h
      rcases hb : (f i).build s with ⟨l, x | p⟩
      · rw [hb] at h; cases h
      · rw [hb] at h
        dsimp only at h
        have h1 := ih i p (by unfold Expectation.pred; rw [hb]; rfl)
        have h2 := ihn (i + 1)
        generalize repeatLoop desc (fun i => if (f i).isNil then ([], .error .nilExpectation)
          else (f i).build s) n (i + 1) = z at h h2
        rcases z with ⟨l', x | qs⟩
        · cases h
        · cases h
          rw [List.range'_succ, List.flatMap_cons, List.map_append, h1, h2 qs rfl, Pred.leavesAll,
            List.map_append]

mutual

theorem Expectation.pred_leaves (s : PScope) (e : Expectation) (p : Pred) (h : e.pred s = some p) :
    e.leaves.map (Expectation.pred s) = p.leaves.map some := by
  cases e with
  | composite k es =>
    have hA := Expectation.pred_leavesAll s es
    unfold Expectation.pred at h
    rw [Expectation.build] at h
    rcases hb : Expectation.buildAll s es with ⟨l, x | ps⟩
    · rw [hb] at h; cases h
    · rw [hb] at h; cases h; exact hA ps (by rw [hb])
  | not e =>
    have hE := Expectation.pred_leaves s e
    unfold Expectation.pred at h
    rw [Expectation.build] at h
    rcases hb : e.build s with ⟨l, x | q⟩
    · rw [hb] at h; cases h
    · rw [hb] at h; cases h
      exact hE q (by unfold Expectation.pred; rw [hb]; rfl)
  | repeatedly desc n f =>
    have hE := fun i => Expectation.pred_leaves s (f i)
    unfold Expectation.pred at h
    rw [Expectation.build] at h
    have hR := repeatLoop_leaves s desc f hE n 0
    generalize repeatLoop desc (fun i => if (f i).isNil then ([], .error .nilExpectation)
      else (f i).build s) n 0 = z at h hR
    rcases z with ⟨l, x | ps⟩
    · cases h
    · cases h
      rw [Expectation.leaves, List.range_eq_range']
      exact hR ps rfl
  | message m =>
    have hl : p.leaves = [p] := by
      simp only [Expectation.pred, Expectation.build] at h
      split at h <;> cases h; rfl
    rw [Expectation.leaves, hl, List.map_singleton, h, List.map_singleton]
    all_goals simp
  | type t =>
    have hl : p.leaves = [p] := by
      simp only [Expectation.pred, Expectation.build] at h
      split at h <;> cases h; rfl
    rw [Expectation.leaves, hl, List.map_singleton, h, List.map_singleton]
    all_goals simp
  | matching T fn loc ex =>
    have hl : p.leaves = [p] := by
      simp only [Expectation.pred, Expectation.build] at h
      split at h
      · cases h; rfl
      · split at h <;> cases h; rfl
    rw [Expectation.leaves, hl, List.map_singleton, h, List.map_singleton]
    all_goals simp
  | satisfy d fn =>
    have hl : p.leaves = [p] := by
      simp only [Expectation.pred, Expectation.build] at h
      cases h; rfl
    rw [Expectation.leaves, hl, List.map_singleton, h, List.map_singleton]
    all_goals simp
  | custom c mk =>
    have hl : p.leaves = [p] := by
      simp only [Expectation.pred, Expectation.build] at h
      split at h <;> cases h; rfl
    rw [Expectation.leaves, hl, List.map_singleton, h, List.map_singleton]
    all_goals simp
  | nil => cases h

theorem Expectation.pred_leavesAll (s : PScope) (es : List Expectation) (ps : List Pred)
    (h : (Expectation.buildAll s es).2 = .ok ps) :
    (Expectation.leavesAll es).map (Expectation.pred s) = (Pred.leavesAll ps).map some := by
  cases es with
  | nil => cases h; rfl
  | cons e es =>
    have h1 := Expectation.pred_leaves s e
    have h2 := Expectation.pred_leavesAll s es
    rw [Expectation.buildAll] at h
    rcases hb : e.build s with ⟨l, x | q⟩
    · rw [hb] at h; cases h
    · rw [hb] at h
      dsimp only at h
      rcases hz : Expectation.buildAll s es with ⟨l', x | qs⟩
      · rw [hz] at h; cases h
      · rw [hz] at h
        cases h
        rw [Expectation.leavesAll, Pred.leavesAll, List.map_append, List.map_append,
          h1 q (by unfold Expectation.pred; rw [hb]; rfl), h2 qs (by rw [hz])]

end

mutual

theorem Expectation.leaves_leaf (e : Expectation) : ∀ x ∈ e.leaves, x.isLeaf = true := by
  cases e with
  | composite k es => exact Expectation.leavesAll_leaf es
  | not e => exact Expectation.leaves_leaf e
  | repeatedly desc n f =>
    have h := fun i => Expectation.leaves_leaf (f i)
    intro x hx
    rw [Expectation.leaves, List.mem_flatMap] at hx
    obtain ⟨i, -, hi⟩ := hx
    exact h i x hi
  | _ => intro x hx; simp only [Expectation.leaves, List.mem_singleton] at hx; subst hx; rfl

theorem Expectation.leavesAll_leaf (es : List Expectation) :
    ∀ x ∈ Expectation.leavesAll es, x.isLeaf = true := by
  cases es with
  | nil => intro x hx; cases hx
  | cons e es =>
    have h1 := Expectation.leaves_leaf e
    have h2 := Expectation.leavesAll_leaf es
    intro x hx
    rw [Expectation.leavesAll, List.mem_append] at hx
    exact hx.elim (h1 x) (h2 x)

end

/-! ## What a leaf calls -/

theorem nil_mem_answersFrom (T : MatchType) (fn : List Message → Message → MatchRes)
    (ms : List Message) : ∀ seen, MatchRes.nil ∈ answersFrom T fn false seen ms ↔
      ∃ pre x post, ms.filter (fun m => T.asserts m.type) = pre ++ x :: post ∧
        fn (seen ++ pre) x = .nil := by
  induction ms with
  | nil => intro seen; simp [answersFrom]
  | cons m ms ih =>
    intro seen
    rw [answersFrom]
    cases ha : T.asserts m.type with
    | false => simp [ha, ih]
    | true =>
      rw [if_pos rfl, List.mem_cons, ih, List.filter_cons_of_pos (by simpa using ha)]
      constructor
      · rintro (h | ⟨pre, x, post, h, g⟩)
        · exact ⟨[], m, _, rfl, by rw [List.append_nil]; exact h.symm⟩
        · exact ⟨m :: pre, x, post, by rw [h]; rfl, by simpa [List.append_assoc] using g⟩
      · rintro ⟨pre, x, post, h, g⟩
        cases pre with
        | nil =>
          cases (List.cons.inj h).1
          exact .inl (by rw [List.append_nil] at g; exact g.symm)
        | cons y pre =>
          cases (List.cons.inj h).1
          exact .inr ⟨pre, x, post, (List.cons.inj h).2, by simpa [List.append_assoc] using g⟩

theorem MsgPred.observe_fields (s : PScope) (p : MsgPred) (fs : List Fact) :
    (fs.foldl (fun p f => p.notify s f) p).expected = p.expected ∧
    (fs.foldl (fun p f => p.notify s f) p).comparator = p.comparator ∧
    (fs.foldl (fun p f => p.notify s f) p).tracker.opts = p.tracker.opts := by
  induction fs generalizing p with
  | nil => exact ⟨rfl, rfl, rfl⟩
  | cons f fs ih =>
    obtain ⟨h1, h2, h3⟩ := MsgPred.notify_fields s p f
    obtain ⟨g1, g2, g3⟩ := ih (p.notify s f)
    exact ⟨g1.trans h1, g2.trans h2, g3.trans h3⟩

theorem MsgPred.calls (C : Crash) (s : PScope) (fs : List Fact) (f : Fact) (m : Message) (p : MsgPred)
    (h1 : p.expected = m) (h2 : p.comparator = s.opts.comparator) (h3 : p.tracker.opts = s.opts)
    (h4 : p.ok = true ↔ ∃ x ∈ countedIn s.opts.matchDispatch fs, x.type = m.type ∧ s.same x m = true) :
    (p.notifyP C s f).2 = (Expectation.message m).callPanics C s fs f := by
  have ht := Tracker.notify_env p.tracker f
  rw [h3] at ht
  unfold MsgPred.notifyP Expectation.callPanics
  rw [← ht]
  subst h1
  rw [← h2]
  unfold PScope.same at h4
  rw [← h2] at h4
  cases hok : p.ok with
  | true =>
    rw [if_pos rfl]
    dsimp only
    cases hc : p.comparator with
    | none => rfl
    | some eq =>
      cases (p.tracker.notify f).2 with
      | none => rfl
      | some env =>
        dsimp only
        rw [if_neg]
        rintro ⟨-, hn⟩
        obtain ⟨x, hx, g1, g2⟩ := h4.1 hok
        rw [hc] at g2
        dsimp only at g2
        rw [hn x hx g1] at g2
        cases g2
  | false =>
    rw [if_neg (by simp)]
    rcases p.tracker.notify f with ⟨t, _ | env⟩
    · dsimp only
      cases p.comparator <;> rfl
    · dsimp only
      cases hc : p.comparator with
      | none =>
        dsimp only
        split <;> rfl
      | some eq =>
        dsimp only
        by_cases hx : env.msg.type = p.expected.type
        · rw [if_neg (fun h => h hx), if_pos]
          · cases C.cmp env.msg p.expected <;> rfl
          · refine ⟨hx, fun x hm g => ?_⟩
            cases g2 : eq x p.expected with
            | false => rfl
            | true =>
              rw [hok] at h4
              exact absurd (h4.2 ⟨x, hm, g, by rw [hc]; exact g2⟩) (fun h => nomatch h)
        · rw [if_pos hx, if_neg (fun h => hx h.1)]

theorem MatchPred.calls (C : Crash) (s : PScope) (fs : List Fact) (f : Fact) (T : MatchType)
    (fn : List Message → Message → MatchRes) (loc : String) (ex : Bool) (p : MatchPred)
    (h : MatchInv s T fn loc ex fs p) :
    (p.notifyP C f).2 = (Expectation.matching T fn loc ex).callPanics C s fs f := by
  have ht := Tracker.notify_env p.tracker f
  rw [h.hopts] at ht
  unfold MatchPred.notifyP Expectation.callPanics
  rw [← ht]
  cases hok : p.ok with
  | true =>
    rw [if_pos rfl]
    dsimp only
    cases (p.tracker.notify f).2 with
    | none => rfl
    | some env =>
      dsimp only
      rw [if_neg]
      rintro ⟨-, -, hn⟩
      have hex : ex = false := by
        cases ex with
        | false => rfl
        | true => rw [h.hexok rfl] at hok; cases hok
      subst hex
      obtain ⟨pre, x, post, g1, g2⟩ := (h.hok rfl).1 hok
      exact hn rfl ((nil_mem_answersFrom T fn _ []).2 ⟨pre, x, post, g1, g2⟩)
  | false =>
    rw [if_neg (by simp)]
    have hs := h.hseen hok
    rcases p.tracker.notify f with ⟨t, _ | env⟩
    · rfl
    · dsimp only
      unfold MatchPred.messageProducedP
      dsimp only
      rw [h.hT, h.hfn, hs]
      by_cases hk : env.msg.type.kind = T.type.kind
      · rw [if_neg (fun g => g hk)]
        cases ha : T.asserts env.msg.type with
        | false =>
          rw [if_neg (by simp), if_neg (by simp)]
        | true =>
          rw [if_pos rfl, if_pos]
          · cases C.fn fn (asked T (countedIn s.opts.matchDispatch fs)) env.msg <;> rfl
          · refine ⟨hk, rfl, ?_⟩
            rintro rfl hm
            obtain ⟨pre, x, post, g1, g2⟩ := (nil_mem_answersFrom T fn _ []).1 hm
            have := (h.hok rfl).2 ⟨pre, x, post, g1, g2⟩
            rw [hok] at this
            cases this
      · rw [if_pos hk, if_neg (fun g => hk g.1)]

/-- The predicates of leaves, after facts. -/
theorem Expectation.leaf_pred (s : PScope) (fs : List Fact) (e : Expectation)
    (q : Pred) (he : e.isLeaf = true) (hq : e.pred s = some q) :
    (∃ m p, e = .message m ∧ q.observe s fs = .message p ∧ p.expected = m ∧
      p.comparator = s.opts.comparator ∧ p.tracker.opts = s.opts ∧
      (p.ok = true ↔ ∃ x ∈ countedIn s.opts.matchDispatch fs, x.type = m.type ∧ s.same x m = true)) ∨
    (∃ t p, e = .type t ∧ q.observe s fs = .type p) ∨
    (∃ T fn loc ex p, e = .matching T fn loc ex ∧ q.observe s fs = .matching p ∧
      MatchInv s T fn loc ex fs p) ∨
    (∃ d fn, e = .satisfy d fn ∧ q.observe s fs = .satisfy { criteria := d, fn := fn, facts := fs }) ∨
    (∃ c mk p, e = .custom c mk ∧ mk s = .ok p ∧ q.observe s fs = .custom p fs) := by
  cases e with
  | composite k es => cases he
  | not e => cases he
  | repeatedly d n g => cases he
  | nil => cases hq
  | type t =>
    simp only [Expectation.pred, Expectation.build] at hq
    split at hq <;> cases hq
    exact .inr (.inl ⟨t, _, rfl, observe_type ..⟩)
  | satisfy d fn =>
    simp only [Expectation.pred, Expectation.build] at hq
    cases hq
    exact .inr (.inr (.inr (.inl ⟨d, fn, rfl, by rw [observe_satisfy]; rfl⟩)))
  | custom c mk =>
    simp only [Expectation.pred, Expectation.build] at hq
    cases hm : mk s with
    | error x => rw [hm] at hq; cases hq
    | ok p =>
      rw [hm] at hq
      cases hq
      exact .inr (.inr (.inr (.inr ⟨c, mk, p, rfl, hm, by rw [observe_custom, List.nil_append]⟩)))
  | message m =>
    simp only [Expectation.pred, Expectation.build] at hq
    split at hq <;> cases hq
    obtain ⟨h1, h2, h3⟩ := MsgPred.observe_fields s
      (.mk s.opts.comparator m false none { kind := m.type.kind, opts := s.opts }) fs
    exact .inl ⟨m, _, rfl, observe_message .., h1, h2, h3, MsgPred.observe s m fs⟩
  | matching T fn loc ex =>
    have : q = .matching (.mk T fn loc ex [] 0 0 false { kind := T.type.kind, opts := s.opts } []) := by
      simp only [Expectation.pred, Expectation.build] at hq
      split at hq
      · cases hq; rfl
      · split at hq <;> cases hq; rfl
    subst this
    exact .inr (.inr (.inl ⟨T, fn, loc, ex, _, rfl, observe_matching ..,
      MatchPred.observe_inv s T fn loc ex fs⟩))

/-- A leaf calls what its expectation says. -/
theorem Expectation.leaf_calls (C : Crash) (s : PScope) (fs : List Fact) (f : Fact) (e : Expectation)
    (q : Pred) (he : e.isLeaf = true) (hq : e.pred s = some q) :
    ((q.observe s fs).notifyP C s f).2 = e.callPanics C s fs f := by
  rcases e.leaf_pred s fs q he hq with ⟨m, p, rfl, hp, h1, h2, h3, h4⟩ | ⟨t, p, rfl, hp⟩ |
    ⟨T, fn, loc, ex, p, rfl, hp, h⟩ | ⟨d, fn, rfl, hp⟩ | ⟨c, mk, p, rfl, hm, hp⟩ <;> rw [hp]
  · exact p.calls C s fs f m h1 h2 h3 h4
  · rfl
  · exact p.calls C s fs f T fn loc ex h
  · rfl
  · rw [Expectation.callPanics, hm]
    rfl

/-- `Done()` of a leaf. -/
theorem Expectation.leaf_done (s : PScope) (fs : List Fact) (e : Expectation) (q : Pred)
    (he : e.isLeaf = true) (hq : e.pred s = some q) :
    (q.observe s fs).done.2 = e.donePanics s fs := by
  rcases e.leaf_pred s fs q he hq with ⟨m, p, rfl, hp, h1, h2, h3, h4⟩ | ⟨t, p, rfl, hp⟩ |
    ⟨T, fn, loc, ex, p, rfl, hp, h⟩ | ⟨d, fn, rfl, hp⟩ | ⟨c, mk, p, rfl, hm, hp⟩ <;> rw [hp]
  · rfl
  · rfl
  · rfl
  · rfl
  · rw [Expectation.donePanics, hm]
    rfl

/-- `Done()` of a leaf that was told another fact, and may have panicked. -/
theorem Expectation.leaf_doneP (C : Crash) (s : PScope) (fs : List Fact) (f : Fact) (e : Expectation)
    (q : Pred) (he : e.isLeaf = true) (hq : e.pred s = some q) :
    ((q.observe s fs).notifyP C s f).1.done.2 = e.donePanics s (fs ++ [f]) := by
  rcases e.leaf_pred s fs q he hq with ⟨m, p, rfl, hp, h1, h2, h3, h4⟩ | ⟨t, p, rfl, hp⟩ |
    ⟨T, fn, loc, ex, p, rfl, hp, h⟩ | ⟨d, fn, rfl, hp⟩ | ⟨c, mk, p, rfl, hm, hp⟩ <;> rw [hp]
  · rfl
  · rfl
  · rfl
  · rfl
  · rw [Expectation.donePanics, hm]
    rfl

/-! ## Trees -/

theorem findSome_leaves {s : PScope} {β : Type} (g : Expectation → Option β) (h : Pred → Option β)
    (es : List Expectation) : ∀ ps : List Pred, es.map (Expectation.pred s) = ps.map some →
    (∀ e ∈ es, ∀ q, e.pred s = some q → h q = g e) → ps.findSome? h = es.findSome? g := by
  induction es with
  | nil => intro ps hp _; cases ps with | nil => rfl | cons p ps => cases hp
  | cons e es ih =>
    intro ps hp hh
    cases ps with
    | nil => cases hp
    | cons p ps =>
      obtain ⟨h1, h2⟩ := List.cons.inj hp
      rw [List.findSome?_cons, List.findSome?_cons, hh e (by simp) p h1,
        ih ps h2 (fun x hx => hh x (List.mem_cons_of_mem _ hx))]

/-- **C113.** When the predicate of a tree of expectations is told a fact after others on which no
function of the user panicked, then `Notify()` panics if, and as, the first of the functions called by
the expectations in the tree does. -/
theorem C113_calls (C : Crash) (s : PScope) (e : Expectation) {p : Pred} (hp : (e.build s).2 = .ok p)
    (fs : List Fact) (f : Fact)
    (hb : ∀ b g r, fs = b ++ g :: r → ∀ x ∈ e.leaves, x.callPanics C s b g = none) :
    p.afterP C s fs = p.observe s fs ∧
    e.panics C s fs f = e.leaves.findSome? (Expectation.callPanics C s fs f) := by
  have hpred : e.pred s = some p := by unfold Expectation.pred; rw [hp]; rfl
  have hl := e.pred_leaves s p hpred
  have hleaf := e.leaves_leaf
  have key : ∀ b g, ((p.observe s b).notifyP C s g).2 =
      e.leaves.findSome? (Expectation.callPanics C s b g) := by
    intro b g
    rw [((p.observe s b).notifyP_leaves C s g).1, Pred.observe_leaves, List.findSome?_map]
    exact findSome_leaves _ _ _ _ hl fun x hx q hq => x.leaf_calls C s b g q (hleaf x hx) hq
  have h0 : ∀ r b, fs = b ++ r → p.afterP C s b = p.observe s b → p.afterP C s fs = p.observe s fs := by
    intro r
    induction r with
    | nil => intro b e1 h; rw [e1, List.append_nil]; exact h
    | cons g r ih =>
      intro b e1 h
      refine ih (b ++ [g]) (by rw [e1]; simp) ?_
      unfold Pred.afterP Pred.observe at *
      rw [List.foldl_append, List.foldl_append, h]
      refine Pred.notifyP_none C s g _ ?_
      exact (key b g).trans (List.findSome?_eq_none_iff.2 (hb b g r e1))
  have h1 := h0 fs [] rfl rfl
  refine ⟨h1, ?_⟩
  unfold Expectation.panics
  rw [hp]
  dsimp only
  rw [h1, key]

/-- `Expect()` of a tree of expectations depends on its predicate only at the facts it was told. -/
theorem TSt.judge_congr (j j' : Judge) (k : Nat) (t : TSt W R) (r : TSt W R × Outcome (Option TErr))
    (h : ∀ fs, toldIn k (r.1.did.drop t.did.length) = fs →
      j.done fs = j'.done fs ∧ j.ok fs = j'.ok fs ∧ ∀ b, j.report b fs = j'.report b fs) :
    t.judge j k r = t.judge j' k r := by
  obtain ⟨h1, h2, h3⟩ := h _ rfl
  unfold TSt.judge
  dsimp only
  rw [h1, h2, show (fun b => j.report b (toldIn k (r.1.did.drop t.did.length))) =
    fun b => j'.report b (toldIn k (r.1.did.drop t.did.length)) from funext h3]

theorem Expectation.impl_build (c : RCtx) (e : Expectation) (s : PScope) (p : Pred) :
    (e.impl c).build s = .ok p ↔ (e.build s).2 = .ok p := by
  unfold Expectation.impl
  dsimp only
  rcases (e.build s).2 with x | q
  · cases x <;> simp
  · simp

/-- **C113.** If no function of the user panics on what it is called with, then `Expect()` does what it
does without panics. -/
theorem C113_same (A : App W R) (E : TEnv W) (S : PScope) (C : Crash) (c : RCtx) (e : Expectation)
    (k : Nat) (a : Action W) (t : TSt W R) (hk : Unheard k t.opts)
    (h : ∀ fs f rest, toldIn k (t.quietly A E k a e.caption) = fs ++ f :: rest →
      ∀ x ∈ e.leaves, x.callPanics C (a.scope S) fs f = none) :
    t.expectC A E S C c e k a = t.expect A E S (e.impl c) k a := by
  have hcap : ∀ cap, (e.implP C c).caption = .ok cap → cap = e.caption := by
    intro cap hc
    simp only [Expectation.implP, Expectation.impl] at hc
    split at hc <;> cases hc
    rfl
  have hpre : ∀ fs f rest, toldIn k (t.quietly A E k a e.caption) = fs ++ f :: rest →
      ∀ b g r, fs = b ++ g :: r → ∀ x ∈ e.leaves, x.callPanics C (a.scope S) b g = none := by
    intro fs f rest e1 b g r e2
    exact h b g (r ++ f :: rest) (by rw [e1, e2]; simp)
  have e1 : t.expectC A E S C c e k a = t.expectQ A E S (e.implP C c) k a := by
    refine C112_same A E S (e.implP C c) k _ a t hk ?_
    intro cap hc fs f rest hf
    have := hcap cap hc
    subst this
    cases hp : (e.build (a.scope S)).2 with
    | error x => unfold Expectation.panics; rw [hp]
    | ok p =>
      rw [(C113_calls C (a.scope S) e hp fs f (hpre fs f rest hf)).2]
      exact List.findSome?_eq_none_iff.2 (h fs f rest hf)
  rw [e1, ← C90_expect A { toTEnv := E, scope := S } (e.impl c) k a t, ← TSt.expectQ_user]
  unfold TSt.expectQ TSt.expecting
  dsimp only
  rw [show (e.implP C c).caption = (e.impl c).asUser.caption from rfl]
  cases hc : (e.impl c).asUser.caption with
  | error v => rfl
  | ok cap =>
    have := hcap cap hc
    subst this
    dsimp only
    rw [show ({ S with opts := a.configure S.opts } : PScope) = a.scope S from rfl]
    rw [show "--- expect " ++ a.caption ++ " " ++ e.caption ++ " ---" = a.expectLine e.caption from rfl]
    unfold Expectation.implP Expecting.asUser
    dsimp only
    cases hb : (e.impl c).build (a.scope S) with
    | panic v => rfl
    | err m => rfl
    | ok p =>
      dsimp only
      have hp := (e.impl_build c (a.scope S) p).1 hb
      apply TSt.judge_congr
      intro fs hfs
      have hfs' : toldIn k (t.quietly A E k a e.caption) = fs := hfs
      have key : p.afterP C (a.scope S) fs = p.observe (a.scope S) fs := by
        rcases List.eq_nil_or_concat fs with rfl | ⟨fs', f, rfl⟩
        · rfl
        · obtain ⟨g1, g2⟩ := C113_calls C (a.scope S) e hp fs' f (hpre fs' f [] (by simpa using hfs'))
          rw [List.findSome?_eq_none_iff.2 (h fs' f [] (by simpa using hfs'))] at g2
          unfold Expectation.panics at g2
          rw [hp] at g2
          dsimp only at g2
          have g3 := Pred.notifyP_none C (a.scope S) f _ g2
          unfold Pred.afterP Pred.observe at *
          rw [List.concat_eq_append, List.foldl_append, List.foldl_append]
          dsimp only [List.foldl_cons, List.foldl_nil]
          rw [g3, g1]
      have key' : p.afterP C (a.scope S) fs =
        fs.foldl (fun p f => (e.impl c).notify (a.scope S) f p) p := key
      dsimp only
      rw [key']
      exact ⟨rfl, rfl, fun _ => rfl⟩

/-- **C113.** The predicate when `Done()` is called after a panic: the expectations after the one whose
function panicked have not been told the last fact. -/
theorem C113_done (C : Crash) (s : PScope) (e : Expectation) {p : Pred} (hp : (e.build s).2 = .ok p)
    (fs : List Fact) (f : Fact)
    (hb : ∀ b g r, fs = b ++ g :: r → ∀ x ∈ e.leaves, x.callPanics C s b g = none)
    {pre post : List Expectation} {x : Expectation} {v : PanicVal} (hl : e.leaves = pre ++ x :: post)
    (hx : x.callPanics C s fs f = some v) (hpre : ∀ y ∈ pre, y.callPanics C s fs f = none) :
    (p.afterP C s (fs ++ [f])).done.2 =
      ((pre ++ [x]).findSome? (Expectation.donePanics s (fs ++ [f]))).or
        (post.findSome? (Expectation.donePanics s fs)) := by
  have hpred : e.pred s = some p := by unfold Expectation.pred; rw [hp]; rfl
  have hpl := e.pred_leaves s p hpred
  have hleaf := e.leaves_leaf
  obtain ⟨h1, -⟩ := C113_calls C s e hp fs f hb
  have h2 : p.afterP C s (fs ++ [f]) = ((p.observe s fs).notifyP C s f).1 := by
    rw [← h1]
    unfold Pred.afterP
    rw [List.foldl_append]
    rfl
  rw [h2, Pred.done_leaves, ((p.observe s fs).notifyP_leaves C s f).2, Pred.observe_leaves]
  rw [hl, List.map_append, List.map_cons] at hpl
  obtain ⟨qa, qb, e1, e2, e3⟩ := List.map_eq_append_iff.1 hpl.symm
  obtain ⟨q, qc, e4, e5, e6⟩ := List.map_eq_cons_iff.1 e3
  subst e4
  rw [e1, List.map_append, List.map_cons, tellLeaves_append]
  rw [hl] at hleaf
  have hn : (qa.map (fun x => x.observe s fs)).findSome? (fun x => (x.notifyP C s f).2) = none := by
    rw [List.findSome?_map]
    exact (findSome_leaves (Expectation.callPanics C s fs f) _ pre qa e2.symm
      (fun y hy q hq => y.leaf_calls C s fs f q (hleaf y (by simp [hy])) hq)).trans
      (List.findSome?_eq_none_iff.2 hpre)
  have ht : tellLeaves C s f (qa.map (fun x => x.observe s fs)) =
      qa.map (fun x => ((x.observe s fs).notifyP C s f).1) := by
    clear e2 hpl e1
    induction qa with
    | nil => rfl
    | cons q qa ih =>
      rw [List.map_cons, List.findSome?_cons] at hn
      rw [List.map_cons, tellLeaves]
      cases hq : ((q.observe s fs).notifyP C s f).2 with
      | some v => rw [hq] at hn; cases hn
      | none =>
        rw [hq] at hn
        dsimp only at hn ⊢
        rw [ih hn]
        rfl
  rw [hn]
  dsimp only
  rw [ht, tellLeaves, x.leaf_calls C s fs f q (hleaf x (by simp)) e5.symm, hx]
  dsimp only
  rw [show ∀ (l : List Pred) (y : Pred) (m : List Pred), l ++ y :: m = (l ++ [y]) ++ m by simp,
    List.findSome?_append]
  congr 1
  · rw [show (qa.map (fun x => ((x.observe s fs).notifyP C s f).1) ++
        [((q.observe s fs).notifyP C s f).1]) =
      (qa ++ [q]).map (fun x => ((x.observe s fs).notifyP C s f).1) by simp, List.findSome?_map]
    refine findSome_leaves (s := s) _ _ _ _ (by simp [e2, e5]) ?_
    intro y hy q hq
    exact y.leaf_doneP C s fs f q (hleaf y (by
      rcases List.mem_append.1 hy with hy | hy
      · simp [hy]
      · simp [List.mem_singleton.1 hy])) hq
  · rw [List.findSome?_map]
    refine findSome_leaves (s := s) _ _ _ _ e6.symm ?_
    intro y hy q hq
    exact y.leaf_done s fs q (hleaf y (by simp [hy])) hq

/-- No function of the user panics with `dogma.UnexpectedMessage`. -/
structure Crash.Plain (C : Crash) : Prop where
  fn : ∀ g l m v, C.fn g l m = some v → v ≠ .unexpectedMessage
  cmp : ∀ m n v, C.cmp m n = some v → v ≠ .unexpectedMessage
  custom : ∀ p l f v, C.custom p l f = some v → v ≠ .unexpectedMessage

mutual

theorem Pred.notifyP_plain {C : Crash} (hC : C.Plain) (s : PScope) (f : Fact) (p : Pred) (v : PanicVal)
    (h : (p.notifyP C s f).2 = some v) : v ≠ .unexpectedMessage := by
  cases p with
  | message p =>
    have h : (p.notifyP C s f).2 = some v := h
    unfold MsgPred.notifyP at h
    split at h
    · cases h
    · split at h
      · cases h
      · split at h
        · cases h
        · dsimp only at h
          split at h
          · cases h
          · split at h
            · rename_i hv
              cases h
              exact hC.cmp _ _ _ hv
            · cases h
  | type p => cases h
  | matching p =>
    have h : (p.notifyP C f).2 = some v := h
    unfold MatchPred.notifyP at h
    split at h
    · cases h
    · split at h
      · cases h
      · unfold MatchPred.messageProducedP at h
        split at h
        · cases h
        · split at h
          · split at h
            · rename_i hv
              cases h
              exact hC.fn _ _ _ _ hv
            · cases h
          · cases h
  | composite k n ps => exact Pred.notifyAllP_plain hC s f ps v h
  | not p => exact Pred.notifyP_plain hC s f p v h
  | repeatedly c ps => exact Pred.notifyAllP_plain hC s f ps v h
  | satisfy p => cases h
  | custom p l => exact hC.custom _ _ _ _ h

theorem Pred.notifyAllP_plain {C : Crash} (hC : C.Plain) (s : PScope) (f : Fact) (ps : List Pred)
    (v : PanicVal) (h : (Pred.notifyAllP C s f ps).2 = some v) : v ≠ .unexpectedMessage := by
  cases ps with
  | nil => cases h
  | cons p ps =>
    have h1 := Pred.notifyP_plain hC s f p v
    have h2 := Pred.notifyAllP_plain hC s f ps v
    rw [Pred.notifyAllP] at h
    rcases hq : p.notifyP C s f with ⟨q, _ | w⟩
    · rw [hq] at h
      exact h2 h
    · rw [hq] at h h1
      exact h1 h

end

/-- **C113.** If a function of the user panics, and nothing recovers from that, then `Expect()` panics
with the same value, after what it would have done without the panic up to the fact at hand; unless
`Done()` panics, which is called then. -/
theorem C113_stop (A : App W R) (E : TEnv W) (S : PScope) (C : Crash) (c : RCtx) (e : Expectation)
    (k : Nat) (a : Action W) (t : TSt W R) (hk : Unheard k t.opts) (hA : Strict A (fun _ _ => none))
    (hC : C.Plain) (ha : a.Strict) (hi : IcStrict t.icept) {p : Pred} (hp : (e.build (a.scope S)).2 = .ok p)
    {fs : List Fact} {f : Fact} {rest : List Fact}
    (hf : toldIn k (t.quietly A E k a e.caption) = fs ++ f :: rest)
    (hb : ∀ b g r, fs = b ++ g :: r → ∀ x ∈ e.leaves, x.callPanics C (a.scope S) b g = none)
    {pre post : List Expectation} {x : Expectation} {v : PanicVal} (hl : e.leaves = pre ++ x :: post)
    (hx : x.callPanics C (a.scope S) fs f = some v)
    (hpre : ∀ y ∈ pre, y.callPanics C (a.scope S) fs f = none)
    {t' : TSt W R} {calls : List ECall} {r : EEnd} (h : t.expectC A E S C c e k a = (t', calls, r)) :
    calls = .build :: (fs ++ [f]).map .notify ++ [.done] ∧
    r = .panicked ((((pre ++ [x]).findSome? (Expectation.donePanics (a.scope S) (fs ++ [f]))).or
      (post.findSome? (Expectation.donePanics (a.scope S) fs))).elim v .user) ∧
    ∃ l1 ct op gs more l2, t.quietly A E k a e.caption = l1 ++ .engine ct op (gs ++ f :: more) :: l2 ∧
      toldIn k l1 ++ gs = fs ∧
      t'.did = t.did ++ [.log (a.expectLine e.caption)] ++ l1 ++ [.engine ct op (gs ++ [f])] ∧
      t'.clock = ct ∧ ∃ tr more, t'.sys.trace = tr ++ [.fact f] ∧
        (a.run A E [.observer k] (t.say (.log (a.expectLine e.caption)))).1.sys.trace =
          tr ++ .fact f :: more := by
  have hcap : (e.implP C c).caption = .ok e.caption := by
    unfold Expectation.implP Expectation.impl
    dsimp only
    cases e <;> first | (cases hp; done) | rfl
  have hj : (e.implP C c).build (a.scope S) = .ok ⟨
      fun fs => ((e.impl c).done (p.afterP C (a.scope S) fs)).2,
      fun fs => (e.impl c).ok ((e.impl c).done (p.afterP C (a.scope S) fs)).1,
      fun b fs => (e.impl c).report b ((e.impl c).done (p.afterP C (a.scope S) fs)).1⟩ := by
    unfold Expectation.implP
    dsimp only
    rw [(e.impl_build c (a.scope S) p).2 hp]
  have hN : ∀ b g, (∀ b' g' r, b = b' ++ g' :: r → ∀ x ∈ e.leaves,
      x.callPanics C (a.scope S) b' g' = none) →
      e.panics C (a.scope S) b g = e.leaves.findSome? (Expectation.callPanics C (a.scope S) b g) :=
    fun b g hh => (C113_calls C (a.scope S) e hp b g hh).2
  have hlets : Lets A (e.panics C (a.scope S)) := by
    refine ⟨hA, fun b g w hw => ?_⟩
    unfold Expectation.panics at hw
    rw [hp] at hw
    exact Pred.notifyP_plain hC _ _ _ _ hw
  obtain ⟨h1, h2, l1, ct, op, gs, more, l2, h3, h4, h5, h6⟩ := C112_stop A E S (e.implP C c) k
    (e.panics C (a.scope S)) a t hk hlets ha hi hcap hj hf (v := v) (by
      rw [hN fs f hb, hl, findSome_append', List.findSome?_eq_none_iff.2 hpre]
      dsimp only
      rw [List.findSome?_cons, hx]) (by
      intro b g r e1
      rw [hN b g (fun b' g' r' e2 => hb b' g' (r' ++ g :: r) (by rw [e1, e2]; simp))]
      exact List.findSome?_eq_none_iff.2 (hb b g r e1)) h
  refine ⟨h1, ?_, l1, ct, op, gs, more, l2, h3, h4, h5, h6⟩
  rw [h2, ← C113_done C (a.scope S) e hp fs f hb hl hx hpre]
  congr 1
  dsimp only
  unfold Expectation.impl
  dsimp only
  rcases (p.afterP C (a.scope S) (fs ++ [f])).done with ⟨q, _ | w⟩ <;> rfl

/-! ## Examples -/

/-- A function given to `ToRecordEventMatching()` that panics when it is called. -/
def Demo.boomC : Crash := ⟨fun _ _ _ => some (.user "boom"), fun _ _ => none, fun _ _ _ => none⟩

/-- A comparator that panics when it is called with a produced message that says "x". -/
def Demo.boomCmp : Crash := ⟨fun _ _ _ => none, fun m _ => if m.body = "x" then some (.user "cmp") else none,
  fun _ _ _ => none⟩

theorem Demo.boomC_plain : Demo.boomC.Plain where
  fn _ _ _ v h := by cases h; exact fun h => nomatch h
  cmp _ _ v h := nomatch h
  custom _ _ _ v h := nomatch h

/-- `ToRecordEventMatching()`. -/
def Demo.anyE : Expectation := .matching ⟨Demo.evtE, none⟩ (fun _ _ => .nil) "here" false

/-- `ToSatisfy()` with a function that panics, saying how many facts it was told. -/
def Demo.countFacts : Expectation := .satisfy "count" (fun fs => .panic (.user (toString fs.length)))

/-- `Expect()` of an expectation, while the demo application handles a command. -/
def Demo.expectingC (C : Crash) (e : Expectation) : List Nat × EEnd :=
  let s := { Demo.scope false with opts := ⟨some fun a b => a.body == b.body, false⟩ }
  let r := Demo.t0.expectC Demo.app Demo.tenv s C Demo.ctx e 7 (.dispatch (Demo.msgC "x"))
  ((r.2.1.map ECall.stage).filter (fun n => n ≠ 1), r.2.2)

set_option maxRecDepth 100000 in
/-- The hypotheses of `C113_stop`, with an expectation before and another after the one whose function
panics on the sixth of 31 facts. -/
example :
    let e : Expectation := .composite .allOf [.satisfy "nothing" fun _ => .ret, .not Demo.anyE, Demo.countFacts]
    let told := toldIn 7 (Demo.t0.quietly Demo.app Demo.tenv 7 (.dispatch (Demo.msgC "x")) e.caption)
    let s := (Action.dispatch (Demo.msgC "x") : Action Nat).scope (Demo.scope false)
    Unheard 7 Demo.t0.opts ∧ Demo.boomC.Plain ∧ e.leaves.length = 3 ∧
    (match (e.build s).2 with | .ok _ => true | .error _ => false) = true ∧
    told.length = 31 ∧
    ((List.range 31).map fun i => (told[i]?.bind fun f =>
      Demo.anyE.callPanics Demo.boomC s (told.take i) f).isSome).findIdx? id = some 5 := by
  refine ⟨by unfold Unheard; decide +kernel, Demo.boomC_plain, by decide +kernel, by decide +kernel,
    by decide +kernel, by decide +kernel⟩

set_option maxRecDepth 100000 in
/-- Functions given to `ToSatisfy()` are called although the test is about to panic, and their panic
comes out instead: with the last fact if they come before the function that panicked, else without. -/
example :
    Demo.expectingC Demo.boomC Demo.anyE = ([0, 2], .panicked (.user "boom")) ∧
    Demo.expectingC Demo.boomC (.composite .allOf [Demo.anyE, Demo.countFacts]) =
      ([0, 2], .panicked (.user "5")) ∧
    Demo.expectingC Demo.boomC (.composite .allOf [Demo.countFacts, Demo.anyE]) =
      ([0, 2], .panicked (.user "6")) ∧
    Demo.expectingC Demo.boomCmp (.composite .allOf [Demo.anyE, Demo.countFacts]) =
      ([0, 2], .panicked (.user "31")) ∧
    Demo.expectingC Demo.boomCmp Demo.anyE = ([0, 2, 3, 4], .passed) ∧
    Demo.expectingC Demo.boomCmp (.not (.message ⟨Demo.evtE, "y", none⟩)) =
      ([0, 2], .panicked (.user "cmp")) ∧
    Demo.expectingC Demo.boomC (.not (.message ⟨Demo.evtE, "y", none⟩)) = ([0, 2, 3, 4], .passed) := by
  decide +kernel

end Verif
