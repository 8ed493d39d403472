import Verif.Render

/-!
# Rendered reports can be read back (C69)
-/

namespace Verif

/-! ## Specification -/

/-- The lines of a text. -/
def linesOf : List Char → List (List Char)
  | [] => [[]]
  | c :: cs =>
    if c = '\n' then [] :: linesOf cs
    else
      match linesOf cs with
      | [] => [[c]]
      | l :: ls => (c :: l) :: ls

/-- What a line of a report is about: a node, with its depth, verdict and text; text under a node;
or a blank line under a node. -/
inductive Item where
  | node (depth : Nat) (ok : Bool) (text : List Char)
  | under (depth : Nat) (text : List Char)
  | blank (depth : Nat)
  | other (text : List Char)
  deriving DecidableEq, Repr

/-- Read a line, `d` being the depth read so far: four spaces are one level. -/
def readLine (d : Nat) : List Char → Item
  | [] => .blank d
  | ' ' :: ' ' :: ' ' :: ' ' :: l => readLine (d + 1) l
  | ' ' :: ' ' :: '|' :: ' ' :: l => .under d l
  | '✓' :: ' ' :: l => .node d true l
  | '✗' :: ' ' :: l => .node d false l
  | l => .other l

/-- Read a report: all lines, each of which ends with a line break. -/
def readReport (s : List Char) : List Item := ((linesOf s).dropLast).map (readLine 0)

/-- A paragraph: a heading and a text below it.  (A line break at the end of the text makes an
empty line.) -/
def paragraph (heading text : List Char) : List (List Char) :=
  heading :: (linesOf text).dropLast.map ("    ".toList ++ ·) ++
    [match (linesOf text).getLast? with
      | none => []
      | some [] => []
      | some l => "    ".toList ++ l]

/-- Paragraphs, with blank lines between them. -/
def paragraphs : List (List (List Char)) → List (List Char)
  | [] => []
  | [p] => p
  | p :: ps => p ++ [] :: paragraphs ps

/-- The paragraphs of a report: the explanation, if there is one, and the sections that are
not empty. -/
def Report.paras (explanation : String) (sections : List (String × String)) :
    List (List (List Char)) :=
  (if explanation = "" then [] else [paragraph "EXPLANATION".toList explanation.toList]) ++
  (sections.filter (fun s => s.2 ≠ "")).map
    (fun s => paragraph (Inflect.upper s.1.toList) (trimSpace s.2.toList))

/-- The text of a node. -/
def Report.headline (criteria outcome : String) : List Char :=
  if outcome = "" then criteria.toList else (criteria ++ " (" ++ outcome ++ ")").toList

mutual
/-- What one should read in a report at depth `d`. -/
def Report.outline (d : Nat) : Report → List Item
  | ⟨_, ok, criteria, outcome, explanation, sections, subReports⟩ =>
    .node d ok (Report.headline criteria outcome) ::
      (match Report.paras explanation sections with
        | [] => []
        | ps => .blank d :: (paragraphs ps).map (.under d)) ++
      Report.outlineAll (d + 1) subReports
def Report.outlineAll (d : Nat) : List Report → List Item
  | [] => []
  | r :: rs => r.outline d ++ Report.outlineAll d rs
end

mutual
/-- Criteria, outcomes and titles are single lines. -/
def Report.oneLiners : Report → Prop
  | ⟨_, _, criteria, outcome, _, sections, subReports⟩ =>
    '\n' ∉ criteria.toList ∧ '\n' ∉ outcome.toList ∧ (∀ s ∈ sections, '\n' ∉ s.1.toList) ∧
      Report.allOneLiners subReports
def Report.allOneLiners : List Report → Prop
  | [] => True
  | r :: rs => r.oneLiners ∧ Report.allOneLiners rs
end

/-! ## Texts made of lines -/

/-- The text with these lines. -/
def unlines (ls : List (List Char)) : List Char := ls.flatMap (· ++ ['\n'])

/-- Lines without line breaks. -/
def Clean (ls : List (List Char)) : Prop := ∀ l ∈ ls, '\n' ∉ l

theorem unlines_append (a b : List (List Char)) : unlines (a ++ b) = unlines a ++ unlines b := by
  simp [unlines]

theorem unlines_cons (a : List Char) (b : List (List Char)) :
    unlines (a :: b) = a ++ '\n' :: unlines b := by simp [unlines]

theorem linesOf_ne (s : List Char) : linesOf s ≠ [] := by
  cases s with
  | nil => nofun
  | cons c s =>
    unfold linesOf
    split
    · nofun
    · split <;> nofun

theorem linesOf_break (l s : List Char) (h : '\n' ∉ l) :
    linesOf (l ++ '\n' :: s) = l :: linesOf s := by
  induction l with
  | nil => simp [linesOf]
  | cons c l ih =>
    have hc : c ≠ '\n' := fun e => h (by simp [e])
    rw [List.cons_append]
    conv => lhs; unfold linesOf
    rw [if_neg hc, ih (fun hm => h (by simp [hm]))]

theorem linesOf_unlines (ls : List (List Char)) (h : Clean ls) :
    linesOf (unlines ls) = ls ++ [[]] := by
  induction ls with
  | nil => rfl
  | cons l ls ih =>
    rw [unlines_cons, linesOf_break _ _ (h l (by simp)), ih (fun x hx => h x (by simp [hx]))]
    rfl

theorem unlines_linesOf (s : List Char) : unlines (linesOf s) = s ++ ['\n'] := by
  induction s with
  | nil => rfl
  | cons c s ih =>
    unfold linesOf
    split
    · rename_i hc; rw [unlines_cons, ih, hc]; rfl
    · split
      · rename_i he; exact absurd he (linesOf_ne s)
      · rename_i l ls he
        rw [he] at ih
        rw [unlines_cons] at ih ⊢
        rw [List.cons_append, ih]; rfl

theorem linesOf_clean (s : List Char) : Clean (linesOf s) := by
  induction s with
  | nil => intro l hl; simp [linesOf] at hl; simp [hl]
  | cons c s ih =>
    unfold linesOf
    split
    · intro l hl
      rcases List.mem_cons.1 hl with rfl | hl
      · simp
      · exact ih l hl
    · rename_i hc
      split
      · rename_i he; exact absurd he (linesOf_ne s)
      · rename_i l ls he
        rw [he] at ih
        intro x hx
        rcases List.mem_cons.1 hx with rfl | hx
        · intro hm
          rcases List.mem_cons.1 hm with e | hm
          · exact hc e.symm
          · exact ih l (by simp) hm
        · exact ih x (by simp [hx])

theorem indentGo_mid (pre l s : List Char) (h : '\n' ∉ l) :
    indentGo pre false (l ++ '\n' :: s) = l ++ '\n' :: indentGo pre true s := by
  induction l with
  | nil => simp [indentGo]
  | cons c l ih =>
    have hc : (c == '\n') = false := by
      simp only [beq_eq_false_iff_ne]; exact fun e => h (by simp [e])
    rw [List.cons_append]
    conv => lhs; unfold indentGo
    rw [hc, ih (fun hm => h (by simp [hm]))]
    simp

theorem indentText_line (pre l s : List Char) (h : '\n' ∉ l) :
    indentText pre (l ++ '\n' :: s) = pre ++ l ++ '\n' :: indentText pre s := by
  unfold indentText
  cases l with
  | nil => simp [indentGo]
  | cons c l =>
    have hc : (c == '\n') = false := by
      simp only [beq_eq_false_iff_ne]; exact fun e => h (by simp [e])
    rw [List.cons_append]
    conv => lhs; unfold indentGo
    rw [hc, indentGo_mid _ _ _ (fun hm => h (by simp [hm]))]
    simp

theorem indentText_unlines (pre : List Char) (ls : List (List Char)) (h : Clean ls) :
    indentText pre (unlines ls) = unlines (ls.map (pre ++ ·)) := by
  induction ls with
  | nil => rfl
  | cons l ls ih =>
    rw [unlines_cons, indentText_line _ _ _ (h l (by simp)), ih (fun x hx => h x (by simp [hx])),
      List.map_cons, unlines_cons]

theorem indentGo_last (pre l : List Char) (h : '\n' ∉ l) : indentGo pre false l = l := by
  induction l with
  | nil => rfl
  | cons c l ih =>
    have hc : (c == '\n') = false := by
      simp only [beq_eq_false_iff_ne]; exact fun e => h (by simp [e])
    unfold indentGo
    rw [hc, ih (fun hm => h (by simp [hm]))]
    simp

/-- What becomes of a last line that does not end with a line break. -/
def lastLine (pre : List Char) : List Char → List Char
  | [] => []
  | l => pre ++ l

theorem indentText_last (pre l : List Char) (h : '\n' ∉ l) :
    indentText pre l = lastLine pre l := by
  unfold indentText
  cases l with
  | nil => rfl
  | cons c l =>
    have hc : (c == '\n') = false := by
      simp only [beq_eq_false_iff_ne]; exact fun e => h (by simp [e])
    unfold indentGo
    rw [hc, indentGo_last _ _ (fun hm => h (by simp [hm]))]
    simp [lastLine]

/-- Indenting a text that need not end with a line break. -/
theorem indentText_lines (pre : List Char) : ∀ (ls : List (List Char)) (l : List Char), Clean ls →
    '\n' ∉ l → indentText pre (unlines ls ++ l) =
      unlines (ls.map (pre ++ ·)) ++ lastLine pre l := by
  intro ls
  induction ls with
  | nil => intro l _ h; exact indentText_last pre l h
  | cons x ls ih =>
    intro l hc h
    rw [unlines_cons, List.append_assoc, List.cons_append,
      indentText_line _ _ _ (hc x (by simp)), ih l (fun y hy => hc y (by simp [hy])) h,
      List.map_cons, unlines_cons]
    simp

theorem text_split (s : List Char) : ∃ ls l, linesOf s = ls ++ [l] ∧ s = unlines ls ++ l := by
  obtain ⟨ls, l, h⟩ : ∃ ls l, linesOf s = ls ++ [l] :=
    ⟨_, _, (List.dropLast_concat_getLast (linesOf_ne s)).symm⟩
  refine ⟨ls, l, h, ?_⟩
  have := unlines_linesOf s
  rw [h, unlines_append] at this
  simp only [unlines_cons] at this
  have e : unlines ls ++ (l ++ '\n' :: unlines []) = (unlines ls ++ l) ++ ['\n'] := by
    simp [unlines]
  rw [e] at this
  exact (List.append_cancel_right this).symm

theorem paragraph_text (heading text : List Char) (hh : '\n' ∉ heading) :
    heading ++ '\n' :: indentText sectionContentIndent text ++ ['\n'] =
      unlines (paragraph heading text) ∧ Clean (paragraph heading text) := by
  obtain ⟨ls, l, h1, h2⟩ := text_split text
  have hc := linesOf_clean text
  rw [h1] at hc
  have hls : Clean ls := fun x hx => hc x (by simp [hx])
  have hl : '\n' ∉ l := hc l (by simp)
  have hsp : '\n' ∉ sectionContentIndent := by decide
  unfold paragraph
  rw [h1, List.dropLast_concat, List.getLast?_concat]
  constructor
  · rw [List.cons_append, unlines_cons, unlines_append]
    conv => lhs; rw [h2]
    rw [indentText_lines _ _ _ hls hl]
    cases l <;> simp [unlines, sectionContentIndent, lastLine]
  · intro x hx
    simp only [List.cons_append, List.mem_cons, List.mem_append, List.mem_map,
      List.not_mem_nil, or_false] at hx
    rcases hx with rfl | ⟨y, hy, rfl⟩ | rfl
    · exact hh
    · intro hm
      rcases List.mem_append.1 hm with hm | hm
      · exact hsp hm
      · exact hls y hy hm
    · cases l with
      | nil => simp
      | cons c l =>
        intro hm
        rcases List.mem_append.1 hm with hm | hm
        · exact hsp hm
        · exact hl hm

theorem upper_clean (s : List Char) (h : '\n' ∉ s) : '\n' ∉ Inflect.upper s := by
  unfold Inflect.upper
  intro hm
  obtain ⟨c, hc, he⟩ := List.mem_map.1 hm
  have : c = '\n' := by
    unfold Char.toUpper at he
    split at he
    · rename_i hr
      exfalso
      have hv := congrArg (fun c : Char => c.val.toNat) he
      simp only at hv
      have h1 := hr.1
      have h2 := hr.2
      simp only [UInt32.le_iff_toNat_le, UInt32.toNat_add] at h1 h2 hv
      have e1 : ('a'.val).toNat = 97 := rfl
      have e2 : ('z'.val).toNat = 122 := rfl
      have e3 : ('\n'.val).toNat = 10 := rfl
      have e4 : ('A'.val - 'a'.val).toNat = 4294967264 := rfl
      omega
    · exact he
  exact h (this ▸ hc)

theorem Clean.append {a b : List (List Char)} (h : Clean a) (g : Clean b) : Clean (a ++ b) := by
  intro l hl
  rcases List.mem_append.1 hl with hl | hl
  · exact h l hl
  · exact g l hl

theorem sections_text : ∀ (ss : List (String × String)), (∀ s ∈ ss, '\n' ∉ s.1.toList) →
    renderSections ss = unlines (paragraphs (ss.map
      (fun s => paragraph (Inflect.upper s.1.toList) (trimSpace s.2.toList)))) ∧
    Clean (paragraphs (ss.map
      (fun s => paragraph (Inflect.upper s.1.toList) (trimSpace s.2.toList)))) := by
  intro ss
  induction ss with
  | nil => intro _; exact ⟨rfl, nofun⟩
  | cons s ss ih =>
    intro h
    obtain ⟨p1, p2⟩ := paragraph_text (Inflect.upper s.1.toList) (trimSpace s.2.toList)
      (upper_clean _ (h s (by simp)))
    obtain ⟨i1, i2⟩ := ih (fun x hx => h x (by simp [hx]))
    unfold renderSections
    cases ss with
    | nil =>
      simp only [List.map_cons, List.map_nil, paragraphs]
      refine ⟨?_, p2⟩
      rw [← p1]
      simp [renderSections]
    | cons s' ss =>
      simp only [List.map_cons, paragraphs] at i1 i2 ⊢
      refine ⟨?_, p2.append (fun l hl => ?_)⟩
      · rw [unlines_append, unlines_cons, ← i1, ← p1]
        simp
      · rcases List.mem_cons.1 hl with rfl | hl
        · simp
        · exact i2 l hl


/-! ## Lines of a report -/

/-- The lines of explanation and sections. -/
def bodyLines (ps : List (List (List Char))) : List (List Char) :=
  match ps with
  | [] => []
  | ps => [] :: (paragraphs ps).map (sectionsIndent ++ ·)

mutual
/-- The lines of a report. -/
def Report.lines : Report → List (List Char)
  | ⟨_, ok, criteria, outcome, explanation, sections, subReports⟩ =>
    ((if ok then "✓ " else "✗ ").toList ++ Report.headline criteria outcome) ::
      bodyLines (Report.paras explanation sections) ++
      (Report.linesAll subReports).map (subReportsIndent ++ ·)
def Report.linesAll : List Report → List (List Char)
  | [] => []
  | r :: rs => r.lines ++ Report.linesAll rs
end

theorem head_text (ok : Bool) (criteria outcome : String) :
    renderHead ok criteria outcome =
      unlines [(if ok then "✓ " else "✗ ").toList ++ Report.headline criteria outcome] := by
  unfold renderHead Report.headline
  by_cases h : outcome = ""
  · simp [h, unlines]
  · simp [h, unlines]

theorem Clean.map {ls : List (List Char)} {pre : List Char} (h : Clean ls) (hp : '\n' ∉ pre) :
    Clean (ls.map (pre ++ ·)) := by
  intro l hl
  obtain ⟨x, hx, rfl⟩ := List.mem_map.1 hl
  intro hm
  rcases List.mem_append.1 hm with hm | hm
  · exact hp hm
  · exact h x hx hm

theorem body_text (explanation : String) (sections : List (String × String))
    (h : ∀ s ∈ sections, '\n' ∉ s.1.toList) :
    renderBody explanation sections = unlines (bodyLines (Report.paras explanation sections)) ∧
      Clean (bodyLines (Report.paras explanation sections)) := by
  obtain ⟨s1, s2⟩ := sections_text (sections.filter (fun s => s.2 ≠ ""))
    (fun s hs => h s (List.mem_filter.1 hs).1)
  obtain ⟨e1, e2⟩ := paragraph_text "EXPLANATION".toList explanation.toList (by decide)
  have hsi : '\n' ∉ sectionsIndent := by decide
  unfold renderBody Report.paras
  simp only
  generalize sections.filter (fun s => s.2 ≠ "") = ss at s1 s2
  by_cases he : explanation = ""
  · simp only [he, ne_eq, not_true_eq_false, or_false, ↓reduceIte, List.nil_append]
    cases ss with
    | nil => exact ⟨rfl, nofun⟩
    | cons s ss =>
      rw [if_pos (by nofun), s1]
      refine ⟨?_, ?_⟩
      · rw [indentText_unlines _ _ s2]
        rfl
      · intro l hl
        rcases List.mem_cons.1 hl with rfl | hl
        · simp
        · exact s2.map hsi l hl
  · simp only [he, ne_eq, not_false_eq_true, or_true, ↓reduceIte]
    have key : ("EXPLANATION\n".toList ++ indentText sectionContentIndent explanation.toList ++
        '\n' :: (if ¬ ss = [] then ['\n'] else [])) ++ renderSections ss =
        unlines (paragraphs ([paragraph "EXPLANATION".toList explanation.toList] ++
          ss.map (fun s => paragraph (Inflect.upper s.1.toList) (trimSpace s.2.toList)))) ∧
        Clean (paragraphs ([paragraph "EXPLANATION".toList explanation.toList] ++
          ss.map (fun s => paragraph (Inflect.upper s.1.toList) (trimSpace s.2.toList)))) := by
      cases ss with
      | nil =>
        refine ⟨?_, e2⟩
        simp only [List.map_nil, List.append_nil, paragraphs]
        rw [← e1]
        simp [renderSections]
      | cons s ss =>
        simp only [List.map_cons, List.singleton_append, paragraphs] at s1 s2 ⊢
        refine ⟨?_, e2.append (fun l hl => ?_)⟩
        · rw [s1, unlines_append, unlines_cons, ← e1]
          simp
        · rcases List.mem_cons.1 hl with rfl | hl
          · simp
          · exact s2 l hl
    refine ⟨?_, ?_⟩
    · rw [key.1, indentText_unlines _ _ key.2]
      rfl
    · intro l hl
      rcases List.mem_cons.1 hl with rfl | hl
      · simp
      · exact key.2.map hsi l hl

theorem headline_clean (criteria outcome : String) (h : '\n' ∉ criteria.toList)
    (g : '\n' ∉ outcome.toList) : '\n' ∉ Report.headline criteria outcome := by
  unfold Report.headline
  split
  · exact h
  · simp [h, g]

mutual
theorem render_lines : ∀ (r : Report), r.oneLiners → r.render = unlines r.lines ∧ Clean r.lines
  | ⟨_, ok, criteria, outcome, explanation, sections, subReports⟩, h => by
    unfold Report.oneLiners at h
    obtain ⟨hc, ho, hs, hr⟩ := h
    obtain ⟨b1, b2⟩ := body_text explanation sections hs
    obtain ⟨r1, r2⟩ := renderAll_lines subReports hr
    have hsp : '\n' ∉ subReportsIndent := by decide
    unfold Report.render Report.lines
    refine ⟨?_, ?_⟩
    · rw [head_text, b1, r1, indentText_unlines _ _ r2, ← unlines_append, ← unlines_append]
      rfl
    · refine Clean.append (fun l hl => ?_) (r2.map hsp)
      rcases List.mem_cons.1 hl with rfl | hl
      · have := headline_clean criteria outcome hc ho
        cases ok <;> simp [this]
      · exact b2 l hl
theorem renderAll_lines : ∀ (rs : List Report), Report.allOneLiners rs →
    Report.renderAll rs = unlines (Report.linesAll rs) ∧ Clean (Report.linesAll rs)
  | [], _ => ⟨rfl, nofun⟩
  | r :: rs, h => by
    unfold Report.allOneLiners at h
    obtain ⟨a1, a2⟩ := render_lines r h.1
    obtain ⟨b1, b2⟩ := renderAll_lines rs h.2
    unfold Report.renderAll Report.linesAll
    exact ⟨by rw [a1, b1, unlines_append], a2.append b2⟩
end

theorem readLine_indent (d : Nat) (l : List Char) :
    readLine d (subReportsIndent ++ l) = readLine (d + 1) l := by
  show readLine d (' ' :: ' ' :: ' ' :: ' ' :: l) = _
  conv => lhs; unfold readLine
  rfl

theorem readLine_under (d : Nat) (l : List Char) :
    readLine d (sectionsIndent ++ l) = .under d l := by
  show readLine d (' ' :: ' ' :: '|' :: ' ' :: l) = _
  unfold readLine
  rfl

theorem readLine_node (d : Nat) (ok : Bool) (l : List Char) :
    readLine d ((if ok then "✓ " else "✗ ").toList ++ l) = .node d ok l := by
  cases ok
  · show readLine d ('✗' :: ' ' :: l) = _
    unfold readLine
    rfl
  · show readLine d ('✓' :: ' ' :: l) = _
    unfold readLine
    rfl

mutual
theorem lines_outline : ∀ (r : Report) (d : Nat), r.lines.map (readLine d) = r.outline d
  | ⟨_, ok, criteria, outcome, explanation, sections, subReports⟩, d => by
    have hr := linesAll_outline subReports (d + 1)
    unfold Report.lines Report.outline
    rw [List.cons_append, List.map_cons, List.map_append, readLine_node, List.cons_append,
      List.map_map, ← hr]
    have gs : readLine d ∘ (subReportsIndent ++ ·) = readLine (d + 1) :=
      funext (fun x => readLine_indent d x)
    rw [gs]
    congr 2
    · unfold bodyLines
      split
      · rfl
      · rename_i ps he
        cases hp : Report.paras explanation sections with
        | nil => exact absurd hp he
        | cons p ps =>
          rw [List.map_cons, List.map_map]
          have e : readLine d [] = .blank d := by unfold readLine; rfl
          rw [e]
          have g : readLine d ∘ (sectionsIndent ++ ·) = Item.under d :=
            funext (fun x => readLine_under d x)
          rw [g]
theorem linesAll_outline : ∀ (rs : List Report) (d : Nat),
    (Report.linesAll rs).map (readLine d) = Report.outlineAll d rs
  | [], _ => rfl
  | r :: rs, d => by
    unfold Report.linesAll Report.outlineAll
    rw [List.map_append, lines_outline r d, linesAll_outline rs d]
end

/-! ## Properties -/

/-- **C69** Reading the rendered report back gives the outline of the report: the nodes in
pre-order, each with its depth, verdict, criteria and outcome, followed by its explanation and
its sections, followed by its sub-reports one level deeper. -/
theorem C69_readable_partial (r : Report) (h : r.oneLiners) :
    readReport r.render = r.outline 0 := by
  obtain ⟨h1, h2⟩ := render_lines r h
  unfold readReport
  rw [h1, linesOf_unlines _ h2, List.dropLast_concat, lines_outline]

mutual
/-- The nodes of a report, in pre-order. -/
def Report.marks (d : Nat) : Report → List (Nat × Bool × List Char)
  | ⟨_, ok, criteria, outcome, _, _, subReports⟩ =>
    (d, ok, Report.headline criteria outcome) :: Report.marksAll (d + 1) subReports
def Report.marksAll (d : Nat) : List Report → List (Nat × Bool × List Char)
  | [] => []
  | r :: rs => r.marks d ++ Report.marksAll d rs
end

/-- The node an item is about. -/
def Item.node? : Item → Option (Nat × Bool × List Char)
  | .node d ok t => some (d, ok, t)
  | _ => none

mutual
theorem outline_nodes : ∀ (r : Report) (d : Nat), (r.outline d).filterMap Item.node? = r.marks d
  | ⟨_, ok, criteria, outcome, explanation, sections, subReports⟩, d => by
    have hr := outlineAll_nodes subReports (d + 1)
    unfold Report.outline Report.marks
    rw [List.cons_append, List.filterMap_cons]
    simp only [Item.node?, List.filterMap_append, hr]
    congr 1
    have : ∀ ls : List (List Char), (ls.map (Item.under d)).filterMap Item.node? = [] := by
      intro ls
      induction ls with
      | nil => rfl
      | cons l ls ih => simp [Item.node?]
    split
    · rfl
    · rw [List.filterMap_cons]
      simp only [Item.node?, this, List.nil_append]
theorem outlineAll_nodes : ∀ (rs : List Report) (d : Nat),
    (Report.outlineAll d rs).filterMap Item.node? = Report.marksAll d rs
  | [], _ => rfl
  | r :: rs, d => by
    unfold Report.outlineAll Report.marksAll
    rw [List.filterMap_append, outline_nodes r d, outlineAll_nodes rs d]
end

/-- **C69** The ticks and crosses one can read in a report are those of its nodes: one for each
node, in pre-order, at the node's depth and with the node's own verdict.  Explanations and
sections, whatever they contain, add none. -/
theorem C69_ticks_partial (r : Report) (h : r.oneLiners) :
    (readReport r.render).filterMap Item.node? = r.marks 0 := by
  rw [C69_readable_partial r h, outline_nodes]

/-! ## Instances -/

namespace Demo

/-- A report with two levels, an explanation with two lines that look like verdicts, and a
section. -/
def tree : Report :=
  ⟨false, false, "all of", "1 of 2 failed", "", [],
    [⟨true, true, "produce <A>", "", "", [("Empty", "")], []⟩,
     ⟨false, false, "produce <B>", "nothing", "✓ forged\n✗ forged",
       [("Suggestions", "• check\n\n• again\n")], []⟩]⟩

/-- A criteria with a line break. -/
def forged : Report := ⟨true, false, "produce <A>\n✓ produce <B>", "", "", [], []⟩

end Demo

example : Demo.tree.oneLiners := by
  simp only [Demo.tree, Report.oneLiners, Report.allOneLiners]
  decide

set_option maxRecDepth 100000 in
example : String.ofList Demo.tree.render =
    "✗ all of (1 of 2 failed)\n    ✓ produce <A>\n    ✗ produce <B> (nothing)\n    \n" ++
    "      | EXPLANATION\n      |     ✓ forged\n      |     ✗ forged\n      | \n" ++
    "      | SUGGESTIONS\n      |     • check\n      |     \n      |     • again\n" := by
  decide +kernel

set_option maxRecDepth 100000 in
example : Demo.tree.marks 0 =
    [(0, false, "all of (1 of 2 failed)".toList), (1, true, "produce <A>".toList),
     (1, false, "produce <B> (nothing)".toList)] := by
  decide +kernel

/-- The characters with the property `White_Space` of Unicode. -/
def WhiteSpace (c : Char) : Prop :=
  (0x9 ≤ c.toNat ∧ c.toNat ≤ 0xd) ∨ c = ' ' ∨ c.toNat = 0x85 ∨ c.toNat = 0xa0 ∨ c.toNat = 0x1680 ∨
  (0x2000 ≤ c.toNat ∧ c.toNat ≤ 0x200a) ∨ c.toNat = 0x2028 ∨ c.toNat = 0x2029 ∨ c.toNat = 0x202f ∨
  c.toNat = 0x205f ∨ c.toNat = 0x3000

theorem isSpace_iff (c : Char) : isSpace c = true ↔ WhiteSpace c := by
  have hs : c = ' ' ↔ c.toNat = 32 := ⟨fun h => h ▸ rfl, fun h => Char.ext (UInt32.toNat_inj.1 h)⟩
  unfold isSpace WhiteSpace
  rw [hs]
  simp only [Bool.or_eq_true, Bool.and_eq_true, decide_eq_true_eq, List.mem_cons, List.not_mem_nil, or_false,
    ← UInt32.toNat_inj, UInt32.le_iff_toNat_le]
  show _ ↔ _
  simp only [Char.toNat, UInt32.toNat_ofNat]
  omega

theorem dropWhile_split (p : Char → Bool) (s : List Char) :
    ∃ a, s = a ++ s.dropWhile p ∧ (∀ c ∈ a, p c = true) ∧ ∀ c ∈ (s.dropWhile p).head?, p c = false := by
  induction s with
  | nil => exact ⟨[], rfl, by simp, by simp⟩
  | cons c s ih =>
    by_cases h : p c = true
    · obtain ⟨a, h1, h2, h3⟩ := ih
      rw [List.dropWhile_cons_of_pos h]
      refine ⟨c :: a, by rw [List.cons_append, ← h1], ?_, h3⟩
      intro x hx
      rcases List.mem_cons.1 hx with rfl | hx
      · exact h
      · exact h2 x hx
    · rw [List.dropWhile_cons_of_neg h]
      exact ⟨[], rfl, by simp, by simpa using h⟩

/-- **C69** What a report shows of the content of a section lacks nothing but white space at both ends, and
all of that. -/
theorem C69_trimmed (s : List Char) : ∃ a b, s = a ++ trimSpace s ++ b ∧ (∀ c ∈ a ++ b, WhiteSpace c) ∧
    (∀ c ∈ (trimSpace s).head?, ¬ WhiteSpace c) ∧ ∀ c ∈ (trimSpace s).getLast?, ¬ WhiteSpace c := by
  simp only [← isSpace_iff]
  obtain ⟨a, h1, h2, h3⟩ := dropWhile_split isSpace s
  obtain ⟨b, h4, h5, h6⟩ := dropWhile_split isSpace (s.dropWhile isSpace).reverse
  have h7 : s.dropWhile isSpace = trimSpace s ++ b.reverse := by
    have := congrArg List.reverse h4
    rw [List.reverse_reverse, List.reverse_append] at this
    exact this
  refine ⟨a, b.reverse, by rw [List.append_assoc, ← h7, ← h1], ?_, ?_, ?_⟩
  · intro c hc
    rcases List.mem_append.1 hc with hc | hc
    · exact h2 c hc
    · exact h5 c (List.mem_reverse.1 hc)
  · intro c hc
    have : c ∈ (s.dropWhile isSpace).head? := by
      rw [h7, List.head?_append, hc]
      rfl
    rw [h3 c this]
    decide
  · intro c hc
    have : c ∈ ((s.dropWhile isSpace).reverse.dropWhile isSpace).head? := by
      unfold trimSpace at hc
      rwa [List.getLast?_reverse] at hc
    rw [h6 c this]
    decide

example : trimSpace "\n  • one\n  • two \u00a0\n".toList = "• one\n  • two".toList := by decide +kernel

set_option maxRecDepth 100000 in
/-- **C69** The hypothesis is needed: a criteria with a line break can show a tick that belongs
to no node. -/
theorem C69_forged : (readReport Demo.forged.render).filterMap Item.node? =
    [(0, false, "produce <A>".toList), (0, true, "produce <B>".toList)] ∧
    Demo.forged.marks 0 = [(0, false, "produce <A>\n✓ produce <B>".toList)] := by
  decide +kernel

end Verif
