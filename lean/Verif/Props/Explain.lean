import Verif.ExplainRefine
import Verif.Props.Expect
import Verif.Props.Identity

/-!
# Explanations of unmet expectations (C82, C83)

The meaning of the texts is in `ExplainSpec.lean`.
-/

namespace Verif

/-! ## Sections -/

/-- A report with its list of suggestions last. -/
def Report.hinted (rep : Report) (pre : List (String × String)) (l : List String) : Report :=
  { rep with sections := pre ++ [(suggestionsSection, bullets l)] }

theorem bullets_snoc (l : List String) (x : String) :
    bullets (l ++ [x]) = bullets l ++ ("• " ++ x ++ "\n") := by
  simp [bullets, String.join_append]

theorem hinted_section (rep : Report) (pre : List (String × String)) (l : List String) :
    (rep.hinted pre l).section suggestionsSection = rep.hinted pre l := by
  simp [Report.section, Report.hinted]

theorem map_other {pre : List (String × String)} {title x : String} (h : ∀ y ∈ pre, y.1 ≠ title) :
    pre.map (fun y => if y.1 = title then (y.1, y.2 ++ x) else y) = pre := by
  conv => rhs; rw [← List.map_id pre]
  refine List.map_congr_left fun y hy => ?_
  simp [h y hy]

theorem hinted_item {pre : List (String × String)} (h : ∀ y ∈ pre, y.1 ≠ suggestionsSection)
    (rep : Report) (l : List String) (x : String) :
    (rep.hinted pre l).item suggestionsSection x = rep.hinted pre (l ++ [x]) := by
  unfold Report.item Report.write
  rw [hinted_section]
  simp only [Report.hinted, List.map_append, map_other h, List.map_cons, List.map_nil, if_true,
    bullets_snoc]

theorem hinted_items {pre : List (String × String)} (h : ∀ y ∈ pre, y.1 ≠ suggestionsSection)
    {α : Type} (g : α → String) (rep : Report) (xs : List α) (l : List String) :
    xs.foldl (fun rep x => rep.item suggestionsSection (g x)) (rep.hinted pre l) =
      rep.hinted pre (l ++ xs.map g) := by
  induction xs generalizing l with
  | nil => simp
  | cons a xs ih => simp only [List.foldl_cons, hinted_item h, ih, List.map_cons,
      List.append_assoc, List.cons_append, List.nil_append]

theorem section_hinted {rep : Report} (h : ∀ y ∈ rep.sections, y.1 ≠ suggestionsSection) :
    rep.section suggestionsSection = rep.hinted rep.sections [] := by
  have : rep.sections.any (fun s => decide (s.1 = suggestionsSection)) = false := by
    simpa [List.any_eq_false] using h
  simp [Report.section, Report.hinted, this, bullets]

/-! ## Without a match -/

theorem text_enable (k : Kind) (t : HandlerType) : Hint.text k (.enable t) =
    "enable " ++ t.str ++ " handlers using the EnableHandlerType() option" := rfl

theorem text_logic (k : Kind) (n : String) (t : HandlerType) : Hint.text k (.logic n t) =
    "verify the logic within the '" ++ n ++ "' " ++ t.str ++ " message handler" := rfl

theorem noMatchLoop_eq {t : Tracker} {pre : List (String × String)}
    (h : ∀ y ∈ pre, y.1 ≠ suggestionsSection) (rep : Report) (l : List String) :
    noMatchLoop t handlerTypes (rep.hinted pre l, [], true) =
      (rep.hinted pre (l ++ ((producersOf t.kind).filter (fun x => !t.enabled x)).map
          (fun x => Hint.text t.kind (.enable x))),
        (producersOf t.kind).map HandlerType.str,
        !(producersOf t.kind).any t.enabled) := by
  cases hk : t.kind <;>
    simp only [handlerTypes, noMatchLoop, HandlerType.isProducerOf, hk, producersOf,
      Bool.false_eq_true, if_false, if_true, List.filter_cons, List.filter_nil, List.map_cons,
      List.map_nil, List.any_cons, List.any_nil, Bool.or_false] <;>
    (repeat' split) <;> simp_all only [hinted_item h, text_enable, Bool.not_eq_true,
      Bool.not_true, Bool.not_false, Bool.or_true, Bool.or_false, List.append_nil, List.nil_append,
      List.map_cons, List.map_nil, List.append_assoc, List.cons_append, Bool.false_eq_true,
      Bool.or_self, not_false_eq_true, not_true_eq_false]

/-- The case in which an explanation of the last part of `reportNoMatch` is true. -/
theorem tail_why {s : PScope} {k : Kind} {fs : List Fact} {t : Tracker} (ht : TrackInv s k fs t)
    {pre : List (String × String)} (h : ∀ y ∈ pre, y.1 ≠ suggestionsSection) (rep : Report)
    (l : List String)
    (hc : s.opts.matchDispatch = true ∨ lastCycle fs = none ∨
      ((∃ c, lastCycle fs = some c ∧ c.helps k = true) ∧
        ∃ h ∈ busyIn fs, h.htype ∈ producersOf k)) :
    ∃ w : Why, w.TrueOf s.opts.matchDispatch k fs ∧
      hintsFor s.opts.matchDispatch k fs w = disabledHints k fs ++
        (engagedIn k fs).map (fun (x : String × HandlerType) => Hint.logic x.1 x.2) ++
        (if s.opts.matchDispatch then [.caller] else []) ∧
      noMatchTail (rep.hinted pre l) t = { rep with explanation := w.text k }.hinted pre
        (l ++ ((engagedIn k fs).map (fun (x : String × HandlerType) => Hint.logic x.1 x.2) ++
          (if s.opts.matchDispatch then [Hint.caller] else [])).map (Hint.text k)) := by
  obtain ⟨x1, x2, x3, x4, x5⟩ := noMatch_texts k
  have key : ∀ e : String,
      (if t.opts.matchDispatch then
        ((t.engagedOrder.foldl (fun (rep : Report) n =>
          rep.item suggestionsSection ("verify the logic within the '" ++ n ++ "' " ++
            (((t.engagedType.lookup n).map HandlerType.str).getD "") ++ " message handler"))
          ({ rep with explanation := e }.hinted pre l)).item suggestionsSection
        (Inflect.sprint t.kind "verify the logic within the code that uses the <dispatcher>"))
      else t.engagedOrder.foldl (fun (rep : Report) n =>
          rep.item suggestionsSection ("verify the logic within the '" ++ n ++ "' " ++
            (((t.engagedType.lookup n).map HandlerType.str).getD "") ++ " message handler"))
          ({ rep with explanation := e }.hinted pre l)) =
      { rep with explanation := e }.hinted pre
        (l ++ ((engagedIn k fs).map (fun (x : String × HandlerType) => Hint.logic x.1 x.2) ++
          (if s.opts.matchDispatch then [Hint.caller] else [])).map (Hint.text k)) := by
    intro e
    rw [hinted_items h, ht.opts, ht.kind, ht.order, ht.types, x4]
    have hm : ((engagedIn k fs).map Prod.fst).map (fun n => "verify the logic within the '" ++ n ++
        "' " ++ ((((engagedIn k fs).lookup n).map HandlerType.str).getD "") ++
        " message handler") =
        ((engagedIn k fs).map (fun (x : String × HandlerType) => Hint.logic x.1 x.2)).map (Hint.text k) := by
      rw [List.map_map, List.map_map]
      refine List.map_congr_left fun x hx => ?_
      have := firstByName_lookup _ x hx
      rw [← engagedIn] at this
      rw [Function.comp_apply, Function.comp_apply, text_logic, this]
      rfl
    rw [hm]
    cases s.opts.matchDispatch <;> simp [hinted_item h]
  by_cases h0 : countedIn s.opts.matchDispatch fs = []
  · refine ⟨.noMessages, ⟨h0, hc⟩, rfl, ?_⟩
    have e0 : t.total = 0 := by rw [ht.total, h0]; rfl
    have := key (Why.text k .noMessages)
    rw [← this]
    simp only [noMatchTail, e0, if_true]
    rfl
  · have e0 : t.total ≠ 0 := by rw [ht.total]; simpa using h0
    by_cases h1 : ofKind k (countedIn s.opts.matchDispatch fs) = []
    · refine ⟨.noneOfKind, ⟨h0, h1, hc⟩, rfl, ?_⟩
      have e1 : t.produced = 0 := by rw [ht.produced, h1]; rfl
      have := key (Why.text k .noneOfKind)
      rw [← this, ← x1, ← ht.kind]
      simp only [noMatchTail, e0, e1, if_true, if_false]
      rfl
    · have e1 : t.produced ≠ 0 := by rw [ht.produced]; simpa using h1
      cases hmd : s.opts.matchDispatch with
      | true =>
        rw [hmd] at key h1
        refine ⟨.nothingMatched, ⟨rfl, h1⟩, rfl, ?_⟩
        have := key (Why.text k .nothingMatched)
        rw [← this, ← x2, ← ht.kind]
        simp only [noMatchTail, e0, e1, if_false, ht.opts, hmd, if_true]
        rfl
      | false =>
        rw [hmd] at key h1 hc
        refine ⟨.handlersNoMatch, ⟨rfl, h1, ?_⟩, rfl, ?_⟩
        · rcases hc with hc | hc
          · cases hc
          · exact hc
        have := key (Why.text k .handlersNoMatch)
        rw [← this, ← x3, ← ht.kind]
        simp only [noMatchTail, e0, e1, if_false, ht.opts, hmd, Bool.false_eq_true]
        rfl

theorem noMatch_why {s : PScope} {k : Kind} {fs : List Fact} {t : Tracker} (ht : TrackInv s k fs t)
    {pre : List (String × String)} (h : ∀ y ∈ pre, y.1 ≠ suggestionsSection) (rep : Report)
    (l : List String) :
    ∃ w : Why, w.TrueOf s.opts.matchDispatch k fs ∧
      reportNoMatch (rep.hinted pre l) t = { rep with explanation := w.text k }.hinted pre
        (l ++ (hintsFor s.opts.matchDispatch k fs w).map (Hint.text k)) := by
  unfold reportNoMatch
  simp only [hinted_section]
  cases hl : lastCycle fs with
  | none =>
    have hb : t.cycleBegun = false := by rw [ht.begun, hl]; rfl
    obtain ⟨w, h1, h2, h3⟩ := tail_why ht h rep l (.inr (.inl hl))
    refine ⟨w, h1, ?_⟩
    simp only [hb, Bool.false_eq_true, if_false]
    rw [h2, h3]
    simp [disabledHints, hl]
  | some c =>
    have hb : t.cycleBegun = true := by rw [ht.begun, hl]; rfl
    have hen := ht.enabled c hl
    have henb : ∀ x, t.enabled x = decide (c.types.lookup x = some true) := by
      intro x
      rw [hen, CycleInfo.enables]
      cases hx : c.types.lookup x with
      | none => simp
      | some b => cases b <;> simp
    have hdis : ((producersOf k).filter (fun x => !t.enabled x)).map (fun x => Hint.enable x) =
        disabledHints k fs := by
      simp only [disabledHints, hl]
      congr 1
      refine List.filter_congr fun x _ => ?_
      rw [henb]
      by_cases hx : c.types.lookup x = some true <;> simp [hx]
    have hdis' : ((producersOf k).filter (fun x => !t.enabled x)).map
        (fun x => Hint.text k (.enable x)) = (disabledHints k fs).map (Hint.text k) := by
      rw [← hdis, List.map_map]; rfl
    have hany : (producersOf k).any t.enabled = c.helps k := by
      unfold CycleInfo.helps
      congr 1
      funext x
      exact henb x
    simp only [hb, if_true, noMatchLoop_eq h, ht.kind, hdis', hany, ht.opts]
    cases hmd : s.opts.matchDispatch with
    | true =>
      obtain ⟨w, h1, h2, h3⟩ := tail_why ht h rep
        (l ++ (disabledHints k fs).map (Hint.text k)) (.inl hmd)
      rw [hmd] at h1 h2 h3
      refine ⟨w, h1, ?_⟩
      simp only [if_true]
      rw [h3, h2]
      simp [List.append_assoc]
    | false =>
      simp only [Bool.false_eq_true, if_false]
      cases hh : c.helps k with
      | false =>
        exact ⟨.allDisabled, ⟨rfl, c, hl, hh⟩, by simp; rfl⟩
      | true =>
        simp only [Bool.not_true, Bool.false_eq_true, if_false]
        by_cases he : t.engagedOrder = []
        · refine ⟨.notEngaged, ⟨rfl, ⟨c, hl, hh⟩, ?_⟩, ?_⟩
          · intro x hx hp
            rw [ht.order] at he
            have he' : engagedIn k fs = [] := by simpa using he
            unfold engagedIn at he'
            have hne : ((busyIn fs).filter (fun h => decide (h.htype ∈ producersOf k))).map
                (fun h => (h.name, h.htype)) = [] := by
              revert he'
              cases ((busyIn fs).filter (fun h => decide (h.htype ∈ producersOf k))).map
                (fun h => (h.name, h.htype)) with
              | nil => intro _; rfl
              | cons a b => intro h; simp [firstByName] at h
            have : x ∈ (busyIn fs).filter (fun h => decide (h.htype ∈ producersOf k)) := by
              simp [hx, hp]
            rw [List.map_eq_nil_iff] at hne
            rw [hne] at this
            cases this
          · rw [if_pos he]
            have := hinted_item h { rep with explanation := Why.text k .notEngaged }
              (l ++ (disabledHints k fs).map (Hint.text k))
              "check the application's routing configuration"
            have e : (l ++ (disabledHints k fs).map (Hint.text k)) ++
                ["check the application's routing configuration"] =
                l ++ (hintsFor false k fs .notEngaged).map (Hint.text k) := by
              rw [hintsFor, List.map_append, List.append_assoc]
              rfl
            rw [e] at this
            exact this
        · rw [if_neg he]
          have hbusy : ∃ h ∈ busyIn fs, h.htype ∈ producersOf k := by
            rw [ht.order] at he
            have hne : ((busyIn fs).filter (fun h => decide (h.htype ∈ producersOf k))) ≠ [] := by
              intro h0
              apply he
              unfold engagedIn
              rw [h0]
              rfl
            obtain ⟨x, hx⟩ := List.exists_mem_of_ne_nil _ hne
            rw [List.mem_filter] at hx
            exact ⟨x, hx.1, by simpa using hx.2⟩
          obtain ⟨w, h1, h2, h3⟩ := tail_why ht h rep
            (l ++ (disabledHints k fs).map (Hint.text k)) (.inr (.inr ⟨⟨c, hl, hh⟩, hbusy⟩))
          rw [hmd] at h1 h2 h3
          refine ⟨w, h1, ?_⟩
          rw [h3, h2]
          simp [List.append_assoc]

/-! ## Predicates -/

theorem alikeIn_snoc (md : Bool) (t : MType) (fs : List Fact) (f : Fact) :
    alikeIn md t (fs ++ [f]) = alikeIn md t fs ++
      (match f.counts md with
       | some env => if env.msg.type = t then [env] else []
       | none => []) := by
  unfold alikeIn
  cases h : f.counts md with
  | none => simp [List.filterMap_append, h]
  | some env => by_cases ht : env.msg.type = t <;> simp [List.filterMap_append, h, ht]

theorem MsgPred.track (s : PScope) (m : Message) (fs : List Fact) (p : MsgPred)
    (hp : p = fs.foldl (fun p f => p.notify s f)
      { comparator := s.opts.comparator, expected := m,
        tracker := { kind := m.type.kind, opts := s.opts } }) :
    p.expected = m ∧ (p.ok = false → TrackInv s m.type.kind fs p.tracker ∧
      p.bestMatch = (alikeIn s.opts.matchDispatch m.type fs).getLast?) := by
  subst hp
  refine foldl_inv (I := fun fs (p : MsgPred) => p.expected = m ∧
    (p.ok = false → TrackInv s m.type.kind fs p.tracker ∧
      p.bestMatch = (alikeIn s.opts.matchDispatch m.type fs).getLast?)) ?_ ?_ fs
  · exact ⟨rfl, fun _ => ⟨TrackInv.fresh s _, rfl⟩⟩
  · rintro fs p f ⟨he, hi⟩
    refine ⟨(MsgPred.notify_fields s p f).1.trans he, ?_⟩
    unfold MsgPred.notify
    split
    · rename_i hok; intro h; rw [hok] at h; cases h
    · rename_i hok
      obtain ⟨ht, hb⟩ := hi (by simpa using hok)
      have ht' := ht.step f
      have hn := Tracker.notify_env p.tracker f
      rw [ht.opts] at hn
      rw [alikeIn_snoc, ← hn]
      rcases hnf : p.tracker.notify f with ⟨t, o⟩
      rw [hnf] at ht'
      cases o with
      | none => intro _; simp only [List.append_nil]; exact ⟨ht', hb⟩
      | some env =>
        simp only
        rw [he]
        by_cases hty : env.msg.type = m.type
        · rw [if_neg (fun h => h hty), if_pos hty]
          intro _
          exact ⟨ht', by simp⟩
        · rw [if_pos hty, if_neg hty, List.append_nil]
          intro _
          exact ⟨ht', hb⟩

theorem TypePred.track (s : PScope) (t : MType) (fs : List Fact) (p : TypePred)
    (hp : p = fs.foldl (fun p f => p.notify s f)
      { expected := t, tracker := { kind := t.kind, opts := s.opts } }) :
    p.expected = t ∧ (p.ok = false → TrackInv s t.kind fs p.tracker) := by
  subst hp
  refine foldl_inv (I := fun fs (p : TypePred) => p.expected = t ∧
    (p.ok = false → TrackInv s t.kind fs p.tracker)) ?_ ?_ fs
  · exact ⟨rfl, fun _ => TrackInv.fresh s _⟩
  · rintro fs p f ⟨he, hi⟩
    refine ⟨(TypePred.notify_fields s p f).1.trans he, ?_⟩
    unfold TypePred.notify
    split
    · rename_i hok; intro h; rw [hok] at h; cases h
    · rename_i hok
      have ht' := (hi (by simpa using hok)).step f
      rcases hnf : p.tracker.notify f with ⟨t, o⟩
      rw [hnf] at ht'
      cases o <;> exact fun _ => ht'

/-! ## The property -/

/-- What an expectation wants, in words. -/
def wanted (k : Kind) (which name : String) : String :=
  k.verb ++ which ++ Inflect.sprint k name ++ "' " ++ k.noun

/-- How a similar message came about. -/
def similarity (env : Env) : Why :=
  match env.origin with
  | none => .similarOutside
  | some o => .similarBy o.handler.name o.htype

/-- **C82.**  An explanation that is true in a situation is the only one. -/
theorem C82_unique (md : Bool) (k : Kind) (fs : List Fact) (w w' : Why) (h : w.TrueOf md k fs)
    (h' : w'.TrueOf md k fs) : w = w' := by
  have hQ : countedIn md fs = [] → ofKind k (countedIn md fs) = [] := by
    intro h; rw [h]; rfl
  cases w <;> cases w' <;> simp only [Why.TrueOf] at h h' <;> grind

theorem criteria_wanted (k : Kind) (n : String) :
    Inflect.sprint k ("<produce> a specific '" ++ n ++ "' <message>") = wanted k " a specific '" n ∧
    Inflect.sprint k ("<produce> any '" ++ n ++ "' <message>") = wanted k " any '" n :=
  criteria_text k n

/-- A report without explanations. -/
def blankReport (c : String) : Report := { treeOk := false, ok := false, criteria := c }

theorem blank_noMatch {s : PScope} {k : Kind} {fs : List Fact} {t : Tracker}
    (ht : TrackInv s k fs t) (c : String) :
    ∃ w : Why, w.TrueOf s.opts.matchDispatch k fs ∧
      reportNoMatch (blankReport c) t =
        { treeOk := false, ok := false, criteria := c, explanation := w.text k,
          sections := [suggestions k (hintsFor s.opts.matchDispatch k fs w)] } := by
  obtain ⟨w, h1, h2⟩ := noMatch_why ht (pre := []) (by simp) (blankReport c) []
  refine ⟨w, h1, ?_⟩
  have hs : (blankReport c).section suggestionsSection = (blankReport c).hinted [] [] :=
    section_hinted (by simp [blankReport])
  have he : reportNoMatch (blankReport c) t = reportNoMatch ((blankReport c).hinted [] []) t := by
    unfold reportNoMatch
    rw [hs, hinted_section]
  rw [he, h2]
  rfl

theorem blank_similar (k : Kind) (c e d : String) :
    (({ (blankReport c).section suggestionsSection with explanation := e } : Report).item
        suggestionsSection "check the content of the message").write "Message Diff" d =
      { treeOk := false, ok := false, criteria := c, explanation := e,
        sections := [suggestions k [.content], ("Message Diff", d)] } := by
  rw [section_hinted (by simp [blankReport])]
  rw [show ∀ (r : Report) pre l e, ({ r.hinted pre l with explanation := e } : Report) =
    Report.hinted { r with explanation := e } pre l from fun _ _ _ _ => rfl]
  rw [hinted_item (by simp [blankReport])]
  have hsd : suggestionsSection ≠ "Message Diff" := by decide
  simp only [Report.write, Report.section, Report.hinted, blankReport, List.nil_append,
    List.any_cons, List.any_nil, hsd, decide_false, Bool.or_false, Bool.false_eq_true, if_false,
    List.cons_append, List.map_cons, List.map_nil, if_true, String.empty_append]
  rfl

theorem message_built {s : PScope} {m : Message} {p : Pred}
    (hp : ((Expectation.message m).build s).2 = .ok p) :
    p = .message { comparator := s.opts.comparator, expected := m,
                   tracker := { kind := m.type.kind, opts := s.opts } } := by
  unfold Expectation.build at hp
  cases hg : guardImpossible s m.type with
  | error e => rw [hg] at hp; cases hp
  | ok u => rw [hg] at hp; simp only [Except.ok.injEq] at hp; exact hp.symm

theorem type_built {s : PScope} {t : MType} {p : Pred}
    (hp : ((Expectation.type t).build s).2 = .ok p) :
    p = .type { expected := t, tracker := { kind := t.kind, opts := s.opts } } := by
  unfold Expectation.build at hp
  cases hg : guardImpossible s t with
  | error e => rw [hg] at hp; cases hp
  | ok u => rw [hg] at hp; simp only [Except.ok.injEq] at hp; exact hp.symm

/-- **C82.**  The report of a failing `ToExecuteCommand()` or `ToRecordEvent()` (in a tree that
failed, not below an odd number of negations).  If no message of the type was produced, it gives
the explanation that is true, with the suggestions for that; else it says how the last of those
messages was produced, which is not the same as the expected one, and shows the difference. -/
theorem C82_message (s : PScope) (fs : List Fact) (ctx : RCtx) (m : Message) (p q : Pred)
    (hctx : ctx.treeOk = false ∧ ctx.inverted = false)
    (hp : ((Expectation.message m).build s).2 = .ok p)
    (hq : (p.observe s fs).done = (q, none))
    (hfail : (Expectation.message m).verdict s fs = .decided false) :
    (alikeIn s.opts.matchDispatch m.type fs = [] →
      ∃ w : Why, w.TrueOf s.opts.matchDispatch m.type.kind fs ∧
        q.report ctx =
          { treeOk := false, ok := false,
            criteria := wanted m.type.kind " a specific '" m.type.name,
            explanation := w.text m.type.kind,
            sections := [suggestions m.type.kind
              (hintsFor s.opts.matchDispatch m.type.kind fs w)] }) ∧
    ∀ env, (alikeIn s.opts.matchDispatch m.type fs).getLast? = some env →
      s.same env.msg m = false ∧
      q.report ctx =
        { treeOk := false, ok := false,
          criteria := wanted m.type.kind " a specific '" m.type.name,
          explanation := (similarity env).text m.type.kind,
          sections := [suggestions m.type.kind [.content],
            ("Message Diff", ctx.diff (ctx.render m) (ctx.render env.msg))] } := by
  have hp' := message_built hp
  subst hp'
  have hv := C53_report s fs ctx (.message m) _ _ trivial hp hq
  rw [observe_message] at hq
  obtain ⟨x, hx⟩ : ∃ x, x = fs.foldl (fun p f => p.notify s f)
      ({ comparator := s.opts.comparator, expected := m,
         tracker := { kind := m.type.kind, opts := s.opts } } : MsgPred) := ⟨_, rfl⟩
  rw [← hx] at hq
  have hq' : q = .message x := by
    simp only [Pred.done, Prod.mk.injEq, and_true] at hq; exact hq.symm
  subst hq'
  have hok : x.ok = false := by
    have := hv.1
    rw [hfail, report_ok_leaf (.inl ⟨_, rfl⟩)] at this
    simpa [Pred.ok] using this.symm
  obtain ⟨he, hi⟩ := MsgPred.track s m fs x hx
  obtain ⟨ht, hb⟩ := hi hok
  have hnot : ¬ ∃ x ∈ countedIn s.opts.matchDispatch fs, x.type = m.type ∧ s.same x m = true := by
    rw [← MsgPred.observe, ← hx, hok]; simp
  show _ ∧ ∀ env, _ → _ ∧ x.report ctx = _
  constructor
  · intro h0
    rw [h0] at hb
    obtain ⟨w, h1, h2⟩ := blank_noMatch ht (wanted m.type.kind " a specific '" m.type.name)
    refine ⟨w, h1, ?_⟩
    show x.report ctx = _
    unfold MsgPred.report
    simp only [hok, hctx.1, hctx.2, Bool.or_self, Bool.false_eq_true, if_false, hb,
      List.getLast?_nil, he, (criteria_wanted _ _).1]
    exact h2
  · intro env henv
    have hmem : env ∈ alikeIn s.opts.matchDispatch m.type fs := List.mem_of_getLast? henv
    have hty : env.msg.type = m.type := by
      unfold alikeIn at hmem; rw [List.mem_filter] at hmem; simpa using hmem.2
    have hcn : env.msg ∈ countedIn s.opts.matchDispatch fs := by
      unfold alikeIn at hmem; rw [List.mem_filter] at hmem
      exact List.mem_map_of_mem hmem.1
    refine ⟨?_, ?_⟩
    · cases hs : s.same env.msg m with
      | false => rfl
      | true => exact absurd ⟨env.msg, hcn, hty, hs⟩ hnot
    · rw [henv] at hb
      unfold MsgPred.report
      simp only [hok, hctx.1, hctx.2, Bool.or_self, Bool.false_eq_true, if_false, hb, he,
        (criteria_wanted _ _).1]
      unfold similarity
      cases ho : env.origin with
      | none =>
        simp only
        rw [← (noMatch_texts m.type.kind).2.2.2.2]
        exact blank_similar _ _ _ _
      | some o =>
        simp only
        rw [← similar_text]
        exact blank_similar _ _ _ _

/-- **C82.**  The report of a failing `ToExecuteCommandType()` or `ToRecordEventType()`. -/
theorem C82_type (s : PScope) (fs : List Fact) (ctx : RCtx) (t : MType) (p q : Pred)
    (hctx : ctx.treeOk = false ∧ ctx.inverted = false)
    (hp : ((Expectation.type t).build s).2 = .ok p)
    (hq : (p.observe s fs).done = (q, none))
    (hfail : (Expectation.type t).verdict s fs = .decided false) :
    alikeIn s.opts.matchDispatch t fs = [] ∧
    ∃ w : Why, w.TrueOf s.opts.matchDispatch t.kind fs ∧
      q.report ctx =
        { treeOk := false, ok := false, criteria := wanted t.kind " any '" t.name,
          explanation := w.text t.kind,
          sections := [suggestions t.kind (hintsFor s.opts.matchDispatch t.kind fs w)] } := by
  have hp' := type_built hp
  subst hp'
  have hv := C53_report s fs ctx (.type t) _ _ trivial hp hq
  rw [observe_type] at hq
  obtain ⟨x, hx⟩ : ∃ x, x = fs.foldl (fun p f => p.notify s f)
      ({ expected := t, tracker := { kind := t.kind, opts := s.opts } } : TypePred) := ⟨_, rfl⟩
  rw [← hx] at hq
  have hq' : q = .type x := by
    simp only [Pred.done, Prod.mk.injEq, and_true] at hq; exact hq.symm
  subst hq'
  have hok : x.ok = false := by
    have := hv.1
    rw [hfail, report_ok_leaf (.inr (.inl ⟨_, rfl⟩))] at this
    simpa [Pred.ok] using this.symm
  obtain ⟨he, hi⟩ := TypePred.track s t fs x hx
  have ht := hi hok
  have hnot : ¬ ∃ x ∈ countedIn s.opts.matchDispatch fs, x.type = t := by
    rw [← TypePred.observe, ← hx, hok]; simp
  refine ⟨?_, ?_⟩
  · unfold alikeIn
    rw [List.filter_eq_nil_iff]
    intro e hm he
    exact hnot ⟨e.msg, List.mem_map_of_mem hm, by simpa using he⟩
  · obtain ⟨w, h1, h2⟩ := blank_noMatch ht (wanted t.kind " any '" t.name)
    refine ⟨w, h1, ?_⟩
    show x.report ctx = _
    unfold TypePred.report
    simp only [hok, hctx.1, hctx.2, Bool.or_self, Bool.false_eq_true, if_false, he,
      (criteria_wanted _ _).2]
    exact h2

/-- **C82.**  Otherwise such a report has neither explanations nor suggestions. -/
theorem C82_silent (s : PScope) (fs : List Fact) (ctx : RCtx) (e : Expectation) (p q : Pred)
    (he : (∃ m, e = .message m) ∨ ∃ t, e = .type t) (hp : (e.build s).2 = .ok p)
    (hq : (p.observe s fs).done = (q, none))
    (h : ctx.treeOk = true ∨ ctx.inverted = true ∨ e.verdict s fs = .decided true) :
    (q.report ctx).explanation = "" ∧ (q.report ctx).sections = [] := by
  have hv := C53_report s fs ctx e _ _ (by rcases he with ⟨m, rfl⟩ | ⟨t, rfl⟩ <;> trivial) hp hq
  rcases he with ⟨m, rfl⟩ | ⟨t, rfl⟩
  · have hp' := message_built hp
    subst hp'
    rw [observe_message] at hq
    obtain ⟨x, hx⟩ : ∃ x, x = fs.foldl (fun p f => p.notify s f)
      ({ comparator := s.opts.comparator, expected := m,
         tracker := { kind := m.type.kind, opts := s.opts } } : MsgPred) := ⟨_, rfl⟩
    rw [← hx] at hq
    have hq' : q = .message x := by
      simp only [Pred.done, Prod.mk.injEq, and_true] at hq; exact hq.symm
    subst hq'
    have hc : (x.ok || ctx.treeOk || ctx.inverted) = true := by
      rcases h with h | h | h
      · simp [h]
      · simp [h]
      · have := hv.1
        rw [h, report_ok_leaf (.inl ⟨_, rfl⟩)] at this
        simp [Pred.ok] at this
        simp [this]
    show (x.report ctx).explanation = "" ∧ (x.report ctx).sections = []
    unfold MsgPred.report
    simp only [hc, if_true]
    exact ⟨trivial, trivial⟩
  · have hp' := type_built hp
    subst hp'
    rw [observe_type] at hq
    obtain ⟨x, hx⟩ : ∃ x, x = fs.foldl (fun p f => p.notify s f)
      ({ expected := t, tracker := { kind := t.kind, opts := s.opts } } : TypePred) := ⟨_, rfl⟩
    rw [← hx] at hq
    have hq' : q = .type x := by
      simp only [Pred.done, Prod.mk.injEq, and_true] at hq; exact hq.symm
    subst hq'
    have hc : (x.ok || ctx.treeOk || ctx.inverted) = true := by
      rcases h with h | h | h
      · simp [h]
      · simp [h]
      · have := hv.1
        rw [h, report_ok_leaf (.inr (.inl ⟨_, rfl⟩))] at this
        simp [Pred.ok] at this
        simp [this]
    show (x.report ctx).explanation = "" ∧ (x.report ctx).sections = []
    unfold TypePred.report
    simp only [hc, if_true]
    exact ⟨trivial, trivial⟩

/-- **C82.**  The handler a report names in "a similar ... was ... by" is the one that produced
the message, and if it says "via", then the message was given to the engine. -/
theorem C82_named {A : App W R} (wf : A.WF) {s : Sys W R} (hs : Reach A s) (md : Bool) (t : MType)
    (fs : List Fact) (hfs : ∀ f ∈ fs, Obs.fact f ∈ s.trace) (env : Env)
    (he : env ∈ alikeIn md t fs) :
    match similarity env with
    | .similarBy n ht => ∃ f ∈ fs, ∃ h c, f.produced = some (h, c, env) ∧ h ∈ A.cfgs ∧
        n = h.name ∧ ht = h.htype
    | .similarOutside => ∃ c, .dispatchCycleBegun env c ∈ fs
    | _ => False := by
  unfold alikeIn at he
  rw [List.mem_filter, List.mem_filterMap] at he
  obtain ⟨⟨f, hf, hc⟩, -⟩ := he
  obtain ⟨pre, post, htr⟩ := List.append_of_mem (hfs f hf)
  have h4 := C04_time_and_origin wf hs pre _ post htr
  have hcases : (∃ h c, f.produced = some (h, c, env)) ∨ ∃ c, f = .dispatchCycleBegun env c := by
    cases f <;> cases md <;> simp_all [Fact.counts, Fact.created, Fact.produced]
  rcases hcases with ⟨h, c, hpr⟩ | ⟨c, rfl⟩
  · obtain ⟨-, hh, -, id, -, ho⟩ := h4.1 f h c env rfl hpr
    simp only [similarity, ho]
    exact ⟨f, hf, h, c, hpr, hh, rfl, rfl⟩
  · have ho := (h4.2 env c rfl).1
    simp only [similarity, ho]
    exact ⟨c, hf⟩

/-! ## Matching -/

theorem eraseDups_snoc {α : Type} [BEq α] [LawfulBEq α] [DecidableEq α] (l : List α) (x : α) :
    (l ++ [x]).eraseDups = if x ∈ l then l.eraseDups else l.eraseDups ++ [x] := by
  rw [List.eraseDups_append]
  by_cases h : x ∈ l
  · simp [List.removeAll, h]
  · simp [List.removeAll, h, List.eraseDups_cons]

theorem nodup_dups {α : Type} [BEq α] [LawfulBEq α] [DecidableEq α] (l : List α) :
    l.eraseDups.Nodup := by
  induction l using List.reverseRecOn' with
  | nil => simp
  | append_singleton l x ih =>
    rw [eraseDups_snoc]
    split
    · exact ih
    · rename_i h
      rw [List.nodup_append]
      refine ⟨ih, by simp, ?_⟩
      intro a ha b hb hab
      simp only [List.mem_singleton] at hb
      subst hb
      subst hab
      exact h (List.mem_eraseDups.1 ha)

/-- The failures as the predicate keeps them. -/
def tally (l : List (MType × String)) : List FailedMatch :=
  l.eraseDups.map fun x => ⟨x.1, x.2, l.count x⟩

theorem addFailure_map (x : MType × String) (g : MType × String → Nat) (D : List (MType × String))
    (hn : D.Nodup) :
    addFailure x.1 x.2 (D.map fun y => ⟨y.1, y.2, g y⟩) =
      if x ∈ D then D.map fun y => ⟨y.1, y.2, if y = x then g y + 1 else g y⟩
      else (D.map fun y => ⟨y.1, y.2, g y⟩) ++ [⟨x.1, x.2, 1⟩] := by
  induction D with
  | nil => rfl
  | cons a D ih =>
    simp only [List.nodup_cons] at hn
    simp only [List.map_cons, addFailure]
    by_cases ha : a = x
    · subst ha
      simp only [and_self, if_true, List.mem_cons, true_or, List.cons.injEq, true_and]
      refine List.map_congr_left fun y hy => ?_
      have : y ≠ a := fun h => hn.1 (h ▸ hy)
      simp [this]
    · have hne : ¬ (a.1 = x.1 ∧ a.2 = x.2) := fun h => ha (Prod.ext h.1 h.2)
      have hx : ¬ x = a := fun h => ha h.symm
      rw [if_neg hne, ih hn.2]
      simp only [List.mem_cons, hx, false_or, ha, if_false]
      split <;> simp

theorem tally_snoc (l : List (MType × String)) (x : MType × String) :
    tally (l ++ [x]) = addFailure x.1 x.2 (tally l) := by
  unfold tally
  rw [addFailure_map x _ _ (nodup_dups l), eraseDups_snoc]
  simp only [List.mem_eraseDups]
  split
  · refine List.map_congr_left fun y hy => ?_
    rw [List.count_append]
    by_cases hyx : y = x
    · subst hyx; simp
    · have : x ≠ y := fun h => hyx h.symm
      simp [hyx, this]
  · rename_i h
    rw [List.map_append]
    congr 1
    · refine List.map_congr_left fun y hy => ?_
      have : x ≠ y := fun hxy => h (hxy ▸ List.mem_eraseDups.1 hy)
      simp [List.count_append, this]
    · simp [List.count_append, List.count_eq_zero_of_not_mem h]

theorem failedIn_snoc (T : MatchType) (fn : List Message → Message → MatchRes) (ex : Bool)
    (ms : List Message) (m : Message) :
    failedIn T fn ex (ms ++ [m]) = failedIn T fn ex ms ++
      (if m.type.kind = T.type.kind then
        match (if T.asserts m.type then fn (asked T ms) m
          else if ex then .err ("predicate function expected " ++ T.type.name) else .ignore) with
        | .err e => [(m.type, e)]
        | _ => []
      else []) := by
  unfold failedIn
  by_cases hk : m.type.kind = T.type.kind
  · have hl : (ofKind T.type.kind ms).length = (answers T fn ex ms).length :=
      (answers_length T fn ex ms).symm
    have ha : answers T fn ex (ms ++ [m]) = answers T fn ex ms ++
        [if T.asserts m.type then fn (asked T ms) m
          else if ex then .err ("predicate function expected " ++ T.type.name) else .ignore] := by
      unfold answers
      rw [ofKind_snoc, if_pos hk, answersFrom_snoc]
      rfl
    rw [ha, ofKind_snoc, if_pos hk, List.zip_append hl, List.filterMap_append, if_pos hk]
    congr 1
    generalize (if T.asserts m.type then fn (asked T ms) m
      else if ex then .err ("predicate function expected " ++ T.type.name) else .ignore) = r
    cases r <;> rfl
  · have ha : answers T fn ex (ms ++ [m]) = answers T fn ex ms := by
      unfold answers
      rw [ofKind_snoc, if_neg hk, List.append_nil]
    rw [ha, ofKind_snoc, if_neg hk, if_neg hk, List.append_nil, List.append_nil]

theorem MatchPred.track (s : PScope) (T : MatchType) (fn : List Message → Message → MatchRes)
    (loc : String) (ex : Bool) (fs : List Fact) :
    MatchInv s T fn loc ex fs
      (fs.foldl (fun p f => p.notify s f) (MatchPred.fresh s T fn loc ex)) ∧
    ((fs.foldl (fun p f => p.notify s f) (MatchPred.fresh s T fn loc ex)).ok = false →
      TrackInv s T.type.kind fs
        (fs.foldl (fun p f => p.notify s f) (MatchPred.fresh s T fn loc ex)).tracker ∧
      (fs.foldl (fun p f => p.notify s f) (MatchPred.fresh s T fn loc ex)).failures =
        tally (failedIn T fn ex (countedIn s.opts.matchDispatch fs))) := by
  refine foldl_inv (I := fun fs (p : MatchPred) => MatchInv s T fn loc ex fs p ∧
    (p.ok = false → TrackInv s T.type.kind fs p.tracker ∧
      p.failures = tally (failedIn T fn ex (countedIn s.opts.matchDispatch fs)))) ?_ ?_ fs
  · exact ⟨MatchPred.observe_inv s T fn loc ex [], fun _ => ⟨TrackInv.fresh s _, rfl⟩⟩
  · rintro fs p f ⟨hm, hi⟩
    refine ⟨hm.step f, ?_⟩
    unfold MatchPred.notify
    split
    · rename_i hok; intro h; rw [hok] at h; cases h
    · rename_i hok
      have hok : p.ok = false := by simpa using hok
      obtain ⟨ht, hf⟩ := hi hok
      have ht' := ht.step f
      have hn := Tracker.notify_env p.tracker f
      rw [ht.opts] at hn
      rw [countedIn_snoc, ← hn]
      rcases hnf : p.tracker.notify f with ⟨t, o⟩
      rw [hnf] at ht'
      cases o with
      | none =>
        intro _
        simp only [Option.map_none, Option.toList_none, List.append_nil]
        exact ⟨ht', hf⟩
      | some env =>
        simp only [Option.map_some, Option.toList_some, failedIn_snoc]
        by_cases hk : env.msg.type.kind = T.type.kind
        · have hk' : env.msg.type.kind = ({ p with tracker := t } : MatchPred).T.type.kind := by
            simp only [hm.hT, hk]
          rw [MatchPred.messageProduced_eq _ _ hk', if_pos hk]
          have hans : ({ p with tracker := t } : MatchPred).answer env.msg =
              (if T.asserts env.msg.type then
                fn (asked T (countedIn s.opts.matchDispatch fs)) env.msg
              else if ex then .err ("predicate function expected " ++ T.type.name)
              else .ignore) := by
            simp only [MatchPred.answer, hm.hT, hm.hfn, hm.hex, hm.hseen hok]
          rw [hans]
          generalize (if T.asserts env.msg.type then
            fn (asked T (countedIn s.opts.matchDispatch fs)) env.msg
            else if ex then .err ("predicate function expected " ++ T.type.name)
            else .ignore) = r
          cases r with
          | nil =>
            simp only [List.append_nil]
            cases hx : p.exhaustive
            · simp
            · simp only [if_true]
              intro _
              split <;> exact ⟨ht', hf⟩
          | ignore =>
            simp only [List.append_nil]
            intro _
            split <;> exact ⟨ht', hf⟩
          | err e =>
            simp only [tally_snoc]
            intro _
            rw [← hf]
            split <;> exact ⟨ht', rfl⟩
        · have hk' : env.msg.type.kind ≠ ({ p with tracker := t } : MatchPred).T.type.kind := by
            simp only [hm.hT]; exact hk
          unfold MatchPred.messageProduced
          rw [if_pos hk', if_neg hk, List.append_nil]
          exact fun _ => ⟨ht', hf⟩

theorem failed_text (f : FailedMatch) : f.text = failureText f.type f.error f.count := by
  unfold FailedMatch.text failureText
  split <;> simp [String.append_assoc]

theorem failed_items (c : String) (xs : List FailedMatch) (l : List String) :
    xs.foldl (fun rep f => rep.item failedMatchesSection f.text)
      { blankReport c with sections := [(failedMatchesSection, bullets l)] } =
    { blankReport c with sections := [(failedMatchesSection, bullets (l ++ xs.map FailedMatch.text))] } := by
  induction xs generalizing l with
  | nil => simp
  | cons a xs ih =>
    have := ih (l ++ [a.text])
    rw [bullets_snoc] at this
    simp only [List.foldl_cons, Report.item, Report.write, Report.section, List.any_cons,
      List.any_nil, decide_true, Bool.or_false, if_true, List.map_cons, List.map_nil]
    simp only [Report.item, List.append_assoc, List.cons_append, List.nil_append] at this
    exact this

theorem failed_section (c : String) (L : List (MType × String)) :
    (if (tally L).isEmpty then blankReport c
      else (tally L).foldl (fun rep f => rep.item failedMatchesSection f.text)
        ((blankReport c).section failedMatchesSection)) =
    { blankReport c with sections := failures L } := by
  by_cases hL : L = []
  · subst hL; rfl
  · have hne : (tally L).isEmpty = false := by
      obtain ⟨x, hx⟩ := List.exists_mem_of_ne_nil _ hL
      have : x ∈ L.eraseDups := List.mem_eraseDups.2 hx
      cases h : L.eraseDups with
      | nil => rw [h] at this; cases this
      | cons a b => simp [tally, h]
    rw [hne]
    simp only [Bool.false_eq_true, if_false]
    have hsec : (blankReport c).section failedMatchesSection =
        { blankReport c with sections := [(failedMatchesSection, bullets [])] } := by
      simp [Report.section, blankReport, bullets]
    rw [hsec, failed_items]
    simp only [failures, hL, if_false, List.nil_append]
    congr 4
    rw [tally, List.map_map]
    refine List.map_congr_left fun x _ => ?_
    rw [Function.comp_apply, failed_text]

theorem matching_built {s : PScope} {T : MatchType} {fn : List Message → Message → MatchRes}
    {loc : String} {ex : Bool} {p : Pred}
    (hp : ((Expectation.matching T fn loc ex).build s).2 = .ok p) :
    p = .matching (MatchPred.fresh s T fn loc ex) := by
  unfold Expectation.build at hp
  cases hi : T.iface with
  | some f => simp only [hi, Except.ok.injEq] at hp; exact hp.symm
  | none =>
    simp only [hi] at hp
    cases hg : guardImpossible s T.type with
    | error e => rw [hg] at hp; cases hp
    | ok u => rw [hg] at hp; simp only [Except.ok.injEq] at hp; exact hp.symm

/-- The report of a matching predicate that failed, but for the explanation. -/
theorem match_report (s : PScope) (fs : List Fact) (ctx : RCtx) (T : MatchType)
    (fn : List Message → Message → MatchRes) (loc : String) (ex : Bool) (p q : Pred)
    (hctx : ctx.treeOk = false ∧ ctx.inverted = false)
    (hp : ((Expectation.matching T fn loc ex).build s).2 = .ok p)
    (hq : (p.observe s fs).done = (q, none))
    (hfail : (Expectation.matching T fn loc ex).verdict s fs = .decided false) :
    ∃ w : Why, w.TrueOf s.opts.matchDispatch T.type.kind fs ∧
      (ex = false → (q.report ctx).explanation = w.text T.type.kind) ∧
      q.report ctx =
        { treeOk := false, ok := false,
          criteria :=
            if ex then
              Inflect.sprint T.type.kind
                ("only <produce> <messages> that match the predicate near " ++ loc)
            else
              Inflect.sprint T.type.kind
                ("<produce> a <message> that matches the predicate near " ++ loc)
          explanation := (q.report ctx).explanation,
          sections := failures (failedIn T fn ex (countedIn s.opts.matchDispatch fs)) ++
            [suggestions T.type.kind
              (matcherHints (failedIn T fn ex (countedIn s.opts.matchDispatch fs))
                ((answers T fn ex (countedIn s.opts.matchDispatch fs)).count .ignore) ++
              hintsFor s.opts.matchDispatch T.type.kind fs w)] } := by
  have hp' := matching_built hp
  subst hp'
  have hv := C53_report s fs ctx (.matching T fn loc ex) _ _ trivial hp hq
  rw [observe_matching] at hq
  obtain ⟨hm, hi⟩ := MatchPred.track s T fn loc ex fs
  obtain ⟨x, hx⟩ : ∃ x, x = fs.foldl (fun p f => p.notify s f) (MatchPred.fresh s T fn loc ex) :=
    ⟨_, rfl⟩
  rw [← hx] at hq hm hi
  have hq' : q = .matching x.done := by
    simp only [Pred.done, Prod.mk.injEq, and_true] at hq; exact hq.symm
  subst hq'
  have hdok : x.done.ok = false := by
    have := hv.1
    rw [hfail, report_ok_leaf (.inr (.inr ⟨_, rfl⟩))] at this
    simpa [Pred.ok] using this.symm
  have hd : x.done = x := by
    unfold MatchPred.done at hdok ⊢
    split
    · rename_i h; rw [if_pos h] at hdok; cases hdok
    · rfl
  rw [hd] at hdok ⊢
  obtain ⟨ht, hf⟩ := hi hdok
  have hig := hm.hign hdok
  generalize failedIn T fn ex (countedIn s.opts.matchDispatch fs) = L at hf ⊢
  obtain ⟨c, hc⟩ : ∃ c, c = (if ex then
      Inflect.sprint T.type.kind
        ("only <produce> <messages> that match the predicate near " ++ loc)
    else
      Inflect.sprint T.type.kind
        ("<produce> a <message> that matches the predicate near " ++ loc)) := ⟨_, rfl⟩
  have hpre : ∀ y ∈ failures L, y.1 ≠ suggestionsSection := by
    intro y hy
    unfold failures at hy
    split at hy
    · cases hy
    · simp only [List.mem_singleton] at hy
      subst hy
      show "Failed Matches" ≠ suggestionsSection
      decide
  have h1 := failed_section c L
  have h2 : Report.section { blankReport c with sections := failures L } suggestionsSection =
      (blankReport c).hinted (failures L) [] := section_hinted (by exact hpre)
  have h3 : (if x.ignored > 0 then
      ((blankReport c).hinted (failures L) []).item suggestionsSection
        ("verify the logic within the predicate function, it ignored " ++
          Inflect.sprint T.type.kind (toString x.ignored ++ " <messages>"))
      else if (tally L).isEmpty then (blankReport c).hinted (failures L) []
      else ((blankReport c).hinted (failures L) []).item suggestionsSection
        "verify the logic within the predicate function") =
      (blankReport c).hinted (failures L)
        ((matcherHints L ((answers T fn ex (countedIn s.opts.matchDispatch fs)).count .ignore)).map
          (Hint.text T.type.kind)) := by
    rw [← hig]
    unfold matcherHints
    by_cases h0 : x.ignored > 0
    · rw [if_pos h0, if_pos h0, hinted_item hpre]
      rfl
    · rw [if_neg h0, if_neg h0]
      by_cases hL : L = []
      · subst hL; rfl
      · have hne : (tally L).isEmpty = false := by
          obtain ⟨x, hx⟩ := List.exists_mem_of_ne_nil _ hL
          have : x ∈ L.eraseDups := List.mem_eraseDups.2 hx
          cases h : L.eraseDups with
          | nil => rw [h] at this; cases this
          | cons a b => simp [tally, h]
        rw [hne, if_neg hL, hinted_item hpre]
        rfl
  obtain ⟨w, hw, h4⟩ := noMatch_why ht hpre (blankReport c)
    ((matcherHints L ((answers T fn ex (countedIn s.opts.matchDispatch fs)).count .ignore)).map
      (Hint.text T.type.kind))
  refine ⟨w, hw, ?_⟩
  have hrep : x.report ctx = (
      let rep := reportNoMatch
        (if x.ignored > 0 then
          (Report.section (if (tally L).isEmpty then blankReport c
            else (tally L).foldl (fun rep f => rep.item failedMatchesSection f.text)
              ((blankReport c).section failedMatchesSection)) suggestionsSection).item
            suggestionsSection
            ("verify the logic within the predicate function, it ignored " ++
              Inflect.sprint T.type.kind (toString x.ignored ++ " <messages>"))
        else if (tally L).isEmpty then
          Report.section (if (tally L).isEmpty then blankReport c
            else (tally L).foldl (fun rep f => rep.item failedMatchesSection f.text)
              ((blankReport c).section failedMatchesSection)) suggestionsSection
        else
          (Report.section (if (tally L).isEmpty then blankReport c
            else (tally L).foldl (fun rep f => rep.item failedMatchesSection f.text)
              ((blankReport c).section failedMatchesSection)) suggestionsSection).item
            suggestionsSection "verify the logic within the predicate function") x.tracker
      if ex then
        { rep with explanation := (x.report ctx).explanation }
      else rep) := by
    subst hc
    cases ex <;>
      simp only [MatchPred.report, hdok, hctx.1, hctx.2, Bool.or_self, Bool.false_eq_true, if_false,
        hm.hT, hm.hex, hm.hloc, hf, if_true] <;> rfl
  simp only [h1, h2, h3, h4] at hrep
  cases ex with
  | false =>
    simp only [Bool.false_eq_true, if_false] at hrep hc ⊢
    have hR : (Pred.matching x).report ctx = x.report ctx := rfl
    rw [hR, hrep, ← hc]
    refine ⟨fun _ => rfl, ?_⟩
    simp only [Report.hinted, blankReport, suggestions, List.map_append, suggestionsSection]
  | true =>
    simp only [if_true] at hrep hc ⊢
    have hR : (Pred.matching x).report ctx = x.report ctx := rfl
    rw [hR, ← hc]
    refine ⟨fun h => (nomatch h), ?_⟩
    simp only [Report.hinted, blankReport, suggestions, List.map_append, suggestionsSection] at hrep ⊢
    exact hrep

theorem ignored_count (T : MatchType) (fn : List Message → Message → MatchRes) (ex : Bool)
    (ms : List Message) :
    (answers T fn ex ms).count .ignore =
      (given T fn ms).count .ignore + (if ex then 0 else (unasked T ms).length) := by
  unfold answers given unasked asked
  generalize ofKind T.type.kind ms = l
  generalize ([] : List Message) = seen
  induction l generalizing seen with
  | nil => cases ex <;> rfl
  | cons a l ih =>
    cases h : T.asserts a.type
    · have := ih seen
      cases ex
      · simp [answersFrom, h] at this ⊢; omega
      · simp [answersFrom, h] at this ⊢; omega
    · have := ih (seen ++ [a])
      cases ex
      · simp [answersFrom, h, List.count_cons] at this ⊢; omega
      · simp [answersFrom, h, List.count_cons] at this ⊢; omega

/-- **C83.**  The report of a failing `ToExecuteCommandMatching()` or `ToRecordEventMatching()`:
the explanation that is true, the different failures with the number of their occurrences, and
the suggestions. -/
theorem C83_some_partial (s : PScope) (fs : List Fact) (ctx : RCtx) (T : MatchType)
    (fn : List Message → Message → MatchRes) (loc : String) (p q : Pred)
    (hctx : ctx.treeOk = false ∧ ctx.inverted = false)
    (hp : ((Expectation.matching T fn loc false).build s).2 = .ok p)
    (hq : (p.observe s fs).done = (q, none))
    (hfail : (Expectation.matching T fn loc false).verdict s fs = .decided false) :
    ∃ w : Why, w.TrueOf s.opts.matchDispatch T.type.kind fs ∧
      q.report ctx =
        { treeOk := false, ok := false,
          criteria := Inflect.sprint T.type.kind
            ("<produce> a <message> that matches the predicate near " ++ loc)
          explanation := w.text T.type.kind,
          sections := failures (failedIn T fn false (countedIn s.opts.matchDispatch fs)) ++
            [suggestions T.type.kind
              (matcherHints (failedIn T fn false (countedIn s.opts.matchDispatch fs))
                ((given T fn (countedIn s.opts.matchDispatch fs)).count .ignore +
                  (unasked T (countedIn s.opts.matchDispatch fs)).length) ++
              hintsFor s.opts.matchDispatch T.type.kind fs w)] } := by
  obtain ⟨w, h1, h2, h3⟩ := match_report s fs ctx T fn loc false p q hctx hp hq hfail
  refine ⟨w, h1, ?_⟩
  rw [h2 rfl, ignored_count] at h3
  exact h3

/-- **C83.**  The report of a failing `ToOnlyExecuteCommandsMatching()` or
`ToOnlyRecordEventsMatching()`: there are failures, and it lists the different ones.  (What it
gives as explanation is in C55.) -/
theorem C83_only (s : PScope) (fs : List Fact) (ctx : RCtx) (T : MatchType)
    (fn : List Message → Message → MatchRes) (loc : String) (p q : Pred)
    (hctx : ctx.treeOk = false ∧ ctx.inverted = false)
    (hp : ((Expectation.matching T fn loc true).build s).2 = .ok p)
    (hq : (p.observe s fs).done = (q, none))
    (hfail : (Expectation.matching T fn loc true).verdict s fs = .decided false) :
    failedIn T fn true (countedIn s.opts.matchDispatch fs) ≠ [] ∧
    ∃ w : Why, w.TrueOf s.opts.matchDispatch T.type.kind fs ∧
      q.report ctx =
        { treeOk := false, ok := false,
          criteria := Inflect.sprint T.type.kind
            ("only <produce> <messages> that match the predicate near " ++ loc)
          explanation := (q.report ctx).explanation,
          sections := failures (failedIn T fn true (countedIn s.opts.matchDispatch fs)) ++
            [suggestions T.type.kind
              (matcherHints (failedIn T fn true (countedIn s.opts.matchDispatch fs))
                ((given T fn (countedIn s.opts.matchDispatch fs)).count .ignore) ++
              hintsFor s.opts.matchDispatch T.type.kind fs w)] } := by
  obtain ⟨w, h1, -, h3⟩ := match_report s fs ctx T fn loc true p q hctx hp hq hfail
  rw [ignored_count] at h3
  refine ⟨?_, w, h1, h3⟩
  have hv := C53_report s fs ctx (.matching T fn loc true) _ _ trivial hp hq
  have hp' := matching_built hp
  subst hp'
  rw [observe_matching] at hq
  obtain ⟨hm, hi⟩ := MatchPred.track s T fn loc true fs
  obtain ⟨x, hx⟩ : ∃ x, x = fs.foldl (fun p f => p.notify s f) (MatchPred.fresh s T fn loc true) :=
    ⟨_, rfl⟩
  rw [← hx] at hq hm hi
  have hq' : q = .matching x.done := by
    simp only [Pred.done, Prod.mk.injEq, and_true] at hq; exact hq.symm
  subst hq'
  have hdok : x.done.ok = false := by
    have := hv.1
    rw [hfail, report_ok_leaf (.inr (.inr ⟨_, rfl⟩))] at this
    simpa [Pred.ok] using this.symm
  intro h0
  have hf := (hi (hm.hexok rfl)).2
  rw [h0] at hf
  unfold MatchPred.done at hdok
  rw [hm.hex, hf] at hdok
  cases hdok

/-- **C83.**  Otherwise such a report has neither explanations nor suggestions. -/
theorem C83_silent (s : PScope) (fs : List Fact) (ctx : RCtx) (T : MatchType)
    (fn : List Message → Message → MatchRes) (loc : String) (ex : Bool) (p q : Pred)
    (hp : ((Expectation.matching T fn loc ex).build s).2 = .ok p)
    (hq : (p.observe s fs).done = (q, none))
    (h : ctx.treeOk = true ∨ ctx.inverted = true ∨
      (Expectation.matching T fn loc ex).verdict s fs = .decided true) :
    (q.report ctx).explanation = "" ∧ (q.report ctx).sections = [] := by
  have hv := C53_report s fs ctx (.matching T fn loc ex) _ _ trivial hp hq
  have hp' := matching_built hp
  subst hp'
  rw [observe_matching] at hq
  obtain ⟨x, hx⟩ : ∃ x, x = fs.foldl (fun p f => p.notify s f) (MatchPred.fresh s T fn loc ex) :=
    ⟨_, rfl⟩
  rw [← hx] at hq
  have hq' : q = .matching x.done := by
    simp only [Pred.done, Prod.mk.injEq, and_true] at hq; exact hq.symm
  subst hq'
  have hc : (x.done.ok || ctx.treeOk || ctx.inverted) = true := by
    rcases h with h | h | h
    · simp [h]
    · simp [h]
    · have := hv.1
      rw [h, report_ok_leaf (.inr (.inr ⟨_, rfl⟩))] at this
      simp [Pred.ok] at this
      simp [this]
  show (x.done.report ctx).explanation = "" ∧ (x.done.report ctx).sections = []
  unfold MatchPred.report
  simp only [hc, if_true]
  exact ⟨trivial, trivial⟩

/-! ## Cases -/

namespace Demo

/-- The sections of a report. -/
def sectionsOf (s : PScope) (fs : List Fact) (c : RCtx) (e : Expectation) :
    Option (List (String × String)) :=
  match (e.build s).2 with
  | .error _ => none
  | .ok p => some ((p.observe s fs).done.1.report c).sections

-- C82: a message of the type with another content; from a handler and from outside.
set_option maxRecDepth 100000 in
example : explanationOf (scope false) runFacts ctx (.message { type := evtE, body := "nonsense" }) =
      some (false, "a similar event was recorded by the 'agg' aggregate message handler") ∧
    sectionsOf (scope false) runFacts ctx (.message { type := evtE, body := "nonsense" }) =
      some [("Suggestions", "• check the content of the message\n"), ("Message Diff", "nonsensey")] ∧
    explanationOf (scope true) runFacts ctx (.message { type := cmdC, body := "nonsense" }) =
      some (false, "a similar command was executed via a dogma.CommandExecutor") := by
  decide +kernel

-- C82: no handler that records events got a message; one did, but recorded another one.
set_option maxRecDepth 100000 in
example : explanationOf (scope false) (runFacts.take 2) ctx (.type evtF) =
      some (false, "no relevant handlers (aggregate or integration) were engaged") ∧
    sectionsOf (scope false) (runFacts.take 2) ctx (.type evtF) =
      some [("Suggestions", "• check the application's routing configuration\n")] ∧
    explanationOf (scope false) (runFacts.take 12) ctx (.type evtF) =
      some (false, "none of the engaged handlers recorded a matching event") ∧
    sectionsOf (scope false) (runFacts.take 12) ctx (.type evtF) =
      some [("Suggestions", "• verify the logic within the 'agg' aggregate message handler\n")] := by
  decide +kernel

-- C83: the different failures.
set_option maxRecDepth 100000 in
example : sectionsOf (scope false) runFacts ctx
      (.matching { type := evtF } (fun _ _ => .err "bad") "f" true) =
    some [("Failed Matches",
        "• E: predicate function expected F (repeated 2 times)\n• F: bad (repeated 3 times)\n"),
      ("Suggestions", "• verify the logic within the predicate function\n" ++
        "• verify the logic within the 'agg' aggregate message handler\n" ++
        "• verify the logic within the 'int' integration message handler\n")] := by
  decide +kernel

/-- A predicate function that ignores nothing. -/
def refuse (_ : List Message) (_ : Message) : MatchRes := .err "bad"

set_option maxRecDepth 100000 in
theorem refuse_sections :
    ((Pred.matching (runFacts.foldl (fun p f => p.notify (scope false) f)
      (MatchPred.fresh (scope false) { type := evtF } refuse "f" false)).done).report ctx).sections =
    [("Failed Matches", "• F: bad (repeated 3 times)\n")] ++
      [suggestions ({ type := evtF } : MatchType).type.kind
        [.ignoring (1 + 1), .logic "agg" .aggregate, .logic "int" .integration]] := by
  decide +kernel

set_option maxRecDepth 100000 in
theorem refuse_verdict : (Expectation.matching { type := evtF } refuse "f" false).verdict
    (scope false) runFacts = .decided false := by
  decide +kernel

end Demo

/-- **C83, not.**  A report says that the predicate function ignored messages although it never
ignores any: it was not asked about them. -/
theorem C83_ignored_not : ¬ ∀ (s : PScope) (fs : List Fact) (ctx : RCtx) (T : MatchType)
    (fn : List Message → Message → MatchRes) (loc : String) (p q : Pred),
    ctx.treeOk = false ∧ ctx.inverted = false →
    ((Expectation.matching T fn loc false).build s).2 = .ok p →
    (p.observe s fs).done = (q, none) →
    (Expectation.matching T fn loc false).verdict s fs = .decided false →
    (∀ seen m, fn seen m ≠ .ignore) →
    ∀ n pre hints, (q.report ctx).sections ≠
      pre ++ [suggestions T.type.kind (.ignoring (n + 1) :: hints)] := by
  intro h
  have hs := Demo.refuse_sections
  have hv := Demo.refuse_verdict
  have hb : ((Expectation.matching { type := Demo.evtF } Demo.refuse "f" false).build
      (Demo.scope false)).2 =
    .ok (.matching (MatchPred.fresh (Demo.scope false) { type := Demo.evtF } Demo.refuse "f" false)) :=
    rfl
  have hn : ∀ seen m, Demo.refuse seen m ≠ .ignore := by intro seen m hh; cases hh
  have hc : Demo.ctx.treeOk = false ∧ Demo.ctx.inverted = false := ⟨rfl, rfl⟩
  generalize Demo.runFacts = fs at hs hv
  generalize Demo.scope false = sc at hs hv hb
  generalize Demo.refuse = fn at hs hv hb hn
  generalize Demo.ctx = ctx at hs hc
  generalize ({ type := Demo.evtF } : MatchType) = T at hs hv hb
  refine h sc fs ctx T fn "f" _ _ hc hb ?_ hv hn 1 _ _ hs
  rw [observe_matching]
  rfl

end Verif
