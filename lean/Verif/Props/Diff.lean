import Verif.Diff
import Verif.Props.Explain

/-!
# Differences between messages (C101)
-/

namespace Verif

/-! ## Specification -/

/-- The text before. -/
def oldText (d : List (DiffType × String)) : String :=
  String.join ((d.filter (fun x => decide (x.1 ≠ .insert))).map (·.2))

/-- The text after. -/
def newText (d : List (DiffType × String)) : String :=
  String.join ((d.filter (fun x => decide (x.1 ≠ .delete))).map (·.2))

/-- The four marks. -/
def marks : List (List Char) := ["{+".toList, "+}".toList, "[-".toList, "-]".toList]

/-- The text has none of the marks in it. -/
def Unmarked (s : String) : Prop := ∀ m ∈ marks, ¬ m <:+: s.toList

/-- Where a reader is. -/
inductive Reading where
  | plain
  | added
  | removed
  deriving DecidableEq, Repr

/-- Reading a text with marks: the text without what is marked as added, and that without what is marked as
removed. -/
def readMarked : Reading → List Char → List Char × List Char
  | .plain, '{' :: '+' :: s => readMarked .added s
  | .plain, '[' :: '-' :: s => readMarked .removed s
  | .added, '+' :: '}' :: s => readMarked .plain s
  | .removed, '-' :: ']' :: s => readMarked .plain s
  | _, [] => ([], [])
  | .plain, c :: s => (c :: (readMarked .plain s).1, c :: (readMarked .plain s).2)
  | .added, c :: s => ((readMarked .added s).1, c :: (readMarked .added s).2)
  | .removed, c :: s => (c :: (readMarked .removed s).1, (readMarked .removed s).2)

/-! ## Proof -/

theorem readMarked_added (s : List Char) : ∀ t : List Char, ¬ "+}".toList <:+: t →
    readMarked .added (t ++ '+' :: '}' :: s) = ((readMarked .plain s).1, t ++ (readMarked .plain s).2)
  | [], _ => by simp [readMarked]
  | c :: t, h => by
    have ih := readMarked_added s t (fun h' => h (h'.trans (List.suffix_cons c t).isInfix))
    have hn : ∀ s', t ++ '+' :: '}' :: s = '}' :: s' → c ≠ '+' := by
      rintro s' e rfl
      cases t with
      | nil => simp at e
      | cons d t =>
        simp only [List.cons_append, List.cons.injEq] at e
        refine h ⟨[], t, ?_⟩
        simp [e.1]
    rw [List.cons_append, readMarked.eq_def]
    split <;> simp_all

theorem readMarked_removed (s : List Char) : ∀ t : List Char, ¬ "-]".toList <:+: t →
    readMarked .removed (t ++ '-' :: ']' :: s) = (t ++ (readMarked .plain s).1, (readMarked .plain s).2)
  | [], _ => by simp [readMarked]
  | c :: t, h => by
    have ih := readMarked_removed s t (fun h' => h (h'.trans (List.suffix_cons c t).isInfix))
    have hn : ∀ s', t ++ '-' :: ']' :: s = ']' :: s' → c ≠ '-' := by
      rintro s' e rfl
      cases t with
      | nil => simp at e
      | cons d t =>
        simp only [List.cons_append, List.cons.injEq] at e
        refine h ⟨[], t, ?_⟩
        simp [e.1]
    rw [List.cons_append, readMarked.eq_def]
    split <;> simp_all

theorem readMarked_plain (s : List Char) (hs : ∀ c ∈ s.head?, c ≠ '+' ∧ c ≠ '-') : ∀ t : List Char,
    ¬ "{+".toList <:+: t → ¬ "[-".toList <:+: t →
    readMarked .plain (t ++ s) = (t ++ (readMarked .plain s).1, t ++ (readMarked .plain s).2)
  | [], _, _ => by simp
  | c :: t, h, h' => by
    have ih := readMarked_plain s hs t (fun x => h (x.trans (List.suffix_cons c t).isInfix))
      (fun x => h' (x.trans (List.suffix_cons c t).isInfix))
    have h1 : ∀ s', t ++ s = '+' :: s' → c ≠ '{' := by
      rintro s' e rfl
      cases t with
      | nil => rw [List.nil_append] at e; exact (hs '+' (by simp [e])).1 rfl
      | cons d t =>
        simp only [List.cons_append, List.cons.injEq] at e
        exact h ⟨[], t, by simp [e.1]⟩
    have h2 : ∀ s', t ++ s = '-' :: s' → c ≠ '[' := by
      rintro s' e rfl
      cases t with
      | nil => rw [List.nil_append] at e; exact (hs '-' (by simp [e])).2 rfl
      | cons d t =>
        simp only [List.cons_append, List.cons.injEq] at e
        exact h' ⟨[], t, by simp [e.1]⟩
    rw [List.cons_append, readMarked.eq_def]
    split <;> simp_all

/-- The same on lists of characters. -/
def oldChars (d : List (DiffType × String)) : List Char :=
  (d.filter (fun x => decide (x.1 ≠ .insert))).flatMap (·.2.toList)

def newChars (d : List (DiffType × String)) : List Char :=
  (d.filter (fun x => decide (x.1 ≠ .delete))).flatMap (·.2.toList)

def diffChars (d : List (DiffType × String)) : List Char := d.flatMap (fun x => (x.1.write x.2).toList)

theorem readMarked_diff : ∀ (d : List (DiffType × String)) (t : List Char),
    (∀ m ∈ marks, ¬ m <:+: t ++ oldChars d) → (∀ m ∈ marks, ¬ m <:+: t ++ newChars d) →
    readMarked .plain (t ++ diffChars d) = (t ++ oldChars d, t ++ newChars d)
  | [], t, h, _ => by
    simp only [oldChars, newChars, diffChars, List.flatMap_nil, List.filter_nil, List.append_nil] at h ⊢
    have := readMarked_plain [] (by simp) t (h _ (by simp [marks])) (h _ (by simp [marks]))
    simpa [readMarked] using this
  | (.equal, x) :: d, t, h, h' => by
    have e1 : oldChars ((.equal, x) :: d) = x.toList ++ oldChars d := by simp [oldChars]
    have e2 : newChars ((.equal, x) :: d) = x.toList ++ newChars d := by simp [newChars]
    have e3 : diffChars ((.equal, x) :: d) = x.toList ++ diffChars d := by simp [diffChars, DiffType.write]
    rw [e1] at h; rw [e2] at h'
    rw [e1, e2, e3]
    simp only [← List.append_assoc] at h h' ⊢
    exact readMarked_diff d _ h h'
  | (.insert, x) :: d, t, h, h' => by
    have e1 : oldChars ((.insert, x) :: d) = oldChars d := by simp [oldChars]
    have e2 : newChars ((.insert, x) :: d) = x.toList ++ newChars d := by simp [newChars]
    have e3 : diffChars ((.insert, x) :: d) = '{' :: '+' :: (x.toList ++ '+' :: '}' :: diffChars d) := by
      simp [diffChars, DiffType.write, String.toList_append]
    rw [e1] at h; rw [e2] at h'
    have ih := readMarked_diff d []
      (fun m hm hi => h m hm (hi.trans (List.suffix_append t _).isInfix))
      (fun m hm hi => h' m hm (hi.trans ((List.suffix_append x.toList _).trans (List.suffix_append t _)).isInfix))
    have ht : ∀ m ∈ marks, ¬ m <:+: t := fun m hm hi => h m hm (hi.trans (List.prefix_append t _).isInfix)
    have hx : ∀ m ∈ marks, ¬ m <:+: x.toList := fun m hm hi =>
      h' m hm (hi.trans ((List.prefix_append x.toList _).isInfix.trans (List.suffix_append t _).isInfix))
    rw [e1, e2, e3, readMarked_plain _ (by simp) t (ht _ (by simp [marks])) (ht _ (by simp [marks]))]
    simp only [readMarked]
    rw [readMarked_added _ _ (hx _ (by simp [marks]))]
    simp only [List.nil_append] at ih
    rw [ih]
  | (.delete, x) :: d, t, h, h' => by
    have e1 : oldChars ((.delete, x) :: d) = x.toList ++ oldChars d := by simp [oldChars]
    have e2 : newChars ((.delete, x) :: d) = newChars d := by simp [newChars]
    have e3 : diffChars ((.delete, x) :: d) = '[' :: '-' :: (x.toList ++ '-' :: ']' :: diffChars d) := by
      simp [diffChars, DiffType.write, String.toList_append]
    rw [e1] at h; rw [e2] at h'
    have ih := readMarked_diff d []
      (fun m hm hi => h m hm (hi.trans ((List.suffix_append x.toList _).trans (List.suffix_append t _)).isInfix))
      (fun m hm hi => h' m hm (hi.trans (List.suffix_append t _).isInfix))
    have ht : ∀ m ∈ marks, ¬ m <:+: t := fun m hm hi => h' m hm (hi.trans (List.prefix_append t _).isInfix)
    have hx : ∀ m ∈ marks, ¬ m <:+: x.toList := fun m hm hi =>
      h m hm (hi.trans ((List.prefix_append x.toList _).isInfix.trans (List.suffix_append t _).isInfix))
    rw [e1, e2, e3, readMarked_plain _ (by simp) t (ht _ (by simp [marks])) (ht _ (by simp [marks]))]
    simp only [readMarked]
    rw [readMarked_removed _ _ (hx _ (by simp [marks]))]
    simp only [List.nil_append] at ih
    rw [ih]

theorem oldText_chars (d : List (DiffType × String)) : (oldText d).toList = oldChars d := by
  simp [oldText, oldChars, List.flatMap_map]

theorem newText_chars (d : List (DiffType × String)) : (newText d).toList = newChars d := by
  simp [newText, newChars, List.flatMap_map]

theorem writeDiff_chars (d : List (DiffType × String)) : (writeDiff d).toList = diffChars d := by
  have : ∀ (d : List (DiffType × String)) (w : String),
      (d.foldl (fun w x => w ++ x.1.write x.2) w).toList = w.toList ++ diffChars d := by
    intro d
    induction d with
    | nil => simp [diffChars]
    | cons x d ih => intro w; simp [ih, diffChars, String.toList_append]
  simpa [writeDiff] using this d ""

/-- **C101.**  From the rendering of a difference one can read the text before and the text after, if none of the
marks occurs in these texts themselves. -/
theorem C101_read_partial (d : List (DiffType × String)) (ho : Unmarked (oldText d)) (hn : Unmarked (newText d)) :
    readMarked .plain (writeDiff d).toList = ((oldText d).toList, (newText d).toList) := by
  unfold Unmarked at ho hn
  rw [oldText_chars] at ho ⊢
  rw [newText_chars] at hn ⊢
  rw [writeDiff_chars]
  exact readMarked_diff d [] ho hn

/-- **C101.**  So the report of a failing `ToExecuteCommand()` or `ToRecordEvent()`, if a message of the type was
produced, shows the expected message and the last one produced, if the diff library does its job (`hd`: what is
equal or deleted makes up the first text, what is equal or inserted the second). -/
theorem C101_report_partial (s : PScope) (fs : List Fact) (ctx : RCtx) (m : Message) (p q : Pred)
    (lib : String → String → List (DiffType × String))
    (hlib : ∀ a b, ctx.diff a b = writeDiff (lib a b))
    (hd : ∀ a b, oldText (lib a b) = a ∧ newText (lib a b) = b)
    (hu : ∀ x, Unmarked (ctx.render x))
    (hctx : ctx.treeOk = false ∧ ctx.inverted = false)
    (hp : ((Expectation.message m).build s).2 = .ok p)
    (hq : (p.observe s fs).done = (q, none))
    (hfail : (Expectation.message m).verdict s fs = .decided false)
    (env : Env) (he : (alikeIn s.opts.matchDispatch m.type fs).getLast? = some env) :
    ∃ text, ("Message Diff", text) ∈ (q.report ctx).sections ∧
      readMarked .plain text.toList = ((ctx.render m).toList, (ctx.render env.msg).toList) := by
  obtain ⟨-, h⟩ := (C82_message s fs ctx m p q hctx hp hq hfail).2 env he
  refine ⟨ctx.diff (ctx.render m) (ctx.render env.msg), by rw [h]; simp, ?_⟩
  obtain ⟨h1, h2⟩ := hd (ctx.render m) (ctx.render env.msg)
  rw [hlib]
  have := C101_read_partial (lib (ctx.render m) (ctx.render env.msg)) (by rw [h1]; exact hu m)
    (by rw [h2]; exact hu env.msg)
  rw [this, h1, h2]

/-- **C101 is false** if the messages contain marks: two pairs of messages that differ look the same. -/
theorem C101_fails : ∃ d d' : List (DiffType × String),
    writeDiff d = writeDiff d' ∧ oldText d ≠ oldText d' ∧ newText d ≠ newText d' :=
  ⟨[(.equal, "{+a+}"), (.insert, "b")], [(.insert, "a"), (.equal, "{+b+}")],
    by decide +kernel, by decide +kernel, by decide +kernel⟩

instance (s : String) : Decidable (Unmarked s) := by unfold Unmarked; infer_instance

/-- The test in `internal/report/diff_test.go`. -/
example : Unmarked "foo bar baz" ∧ Unmarked "foo qux baz" ∧ ¬ Unmarked "[]int{+1}" ∧
    writeDiff [(.equal, "foo "), (.delete, "bar"), (.insert, "qux"), (.equal, " baz")] =
      "foo [-bar-]{+qux+} baz" ∧
    readMarked .plain "foo [-bar-]{+qux+} baz".toList = ("foo bar baz".toList, "foo qux baz".toList) := by
  decide +kernel

end Verif
