import Verif.Where
import Verif.Props.Ident
import Verif.Props.Blame

/-!
# What locations and panics say (C102, C103)
-/

namespace Verif

/-! ## Specification -/

/-- What is up to the first such character, and what is after it. -/
def beforeFirst (c : Char) (s : List Char) : List Char × List Char :=
  (s.takeWhile (fun x => decide (x ≠ c)), (s.dropWhile (fun x => decide (x ≠ c))).drop 1)

/-- What is up to the last such character, and what is after it. -/
def beforeLast (c : Char) (s : List Char) : List Char × List Char :=
  (((beforeFirst c s.reverse).2).reverse, ((beforeFirst c s.reverse).1).reverse)

/-- What a reader learns of a location. -/
inductive WhereTold where
  | nothing
  /-- the function -/
  | within (func : String)
  /-- the name of the file and the number of the line -/
  | at (file : String) (line : Nat)
  /-- both of them -/
  | both (file : String) (line : Nat) (func : String)
  deriving DecidableEq, Repr

/-- Reading a location: how the text ends tells what is in it. -/
def readLocation (text : String) : WhereTold :=
  let s := text.toList
  if s.getLast? = some '>' then .nothing
  else if s.getLast? = some ')' then .within (String.ofList (beforeLast '(' s).1)
  else if s.getLast? = some ']' then
    let w := beforeLast ' ' s
    let f := beforeLast ':' w.1
    .both (String.ofList f.1) (numberOf f.2) (String.ofList (beforeLast '(' (w.2.drop 1)).1)
  else
    let f := beforeLast ':' s
    .at (String.ofList f.1) (numberOf f.2)

/-- The path is that of a file of this name. -/
def FileOf (path name : String) : Prop :=
  name ≠ "" ∧ '/' ∉ name.toList ∧ (path = name ∨ ∃ dir, path = dir ++ "/" ++ name)

/-- A number, in digits. -/
def Digits (g : List Char) : Prop := g ≠ [] ∧ ∀ c ∈ g, '0' ≤ c ∧ c ≤ '9'

/-- The function looks like a closure: the compiler numbers the closures of a function (`F.func1`), the closures
in those (`F.func1.2`), and it used to say `glob.` for the function if there is none. -/
def LooksLikeClosure (func : String) : Prop :=
  "glob..".toList <:+: func.toList ∨
  ∃ outer gs, gs ≠ [] ∧ (∀ g ∈ gs, Digits g) ∧
    func.toList = outer ++ ".func".toList ++ List.intercalate ['.'] gs

/-- What the text of a location tells. -/
inductive Location.Tells : Location → WhereTold → Prop
  | nothing (line : Nat) : Location.Tells ⟨"", "", line⟩ .nothing
  | within {func : String} (line : Nat) : func ≠ "" → Location.Tells ⟨func, "", line⟩ (.within func)
  | at {func path name : String} (line : Nat) : FileOf path name → (func = "" ∨ LooksLikeClosure func) →
      Location.Tells ⟨func, path, line⟩ (.at name line)
  | both {func path name : String} (line : Nat) : FileOf path name → func ≠ "" → ¬ LooksLikeClosure func →
      Location.Tells ⟨func, path, line⟩ (.both name line func)

/-! ## Lemmas -/

theorem beforeFirst_append {c : Char} {a : List Char} (b : List Char) (h : c ∉ a) :
    beforeFirst c (a ++ c :: b) = (a, b) := by
  have h1 : ∀ x ∈ a, decide (x ≠ c) = true := fun x hx => decide_eq_true (fun e => h (e ▸ hx))
  unfold beforeFirst
  rw [List.takeWhile_append_of_pos h1, List.dropWhile_append_of_pos h1]
  simp

theorem beforeLast_append {c : Char} (a : List Char) {b : List Char} (h : c ∉ b) :
    beforeLast c (a ++ c :: b) = (a, b) := by
  unfold beforeLast
  have : (a ++ c :: b).reverse = b.reverse ++ c :: a.reverse := by simp
  rw [this, beforeFirst_append _ (by simpa using h)]
  simp

theorem anySuffix_iff (p : List Char → Bool) (s : List Char) :
    anySuffix p s = true ↔ ∃ a b, s = a ++ b ∧ p b = true := by
  induction s with
  | nil =>
    constructor
    · intro h; exact ⟨[], [], rfl, h⟩
    · rintro ⟨a, b, e, h⟩
      have : b = [] := by cases a <;> simp_all
      rw [this] at h; exact h
  | cons c s ih =>
    rw [anySuffix, Bool.or_eq_true, ih]
    constructor
    · rintro (h | ⟨a, b, e, h⟩)
      · exact ⟨[], c :: s, rfl, h⟩
      · exact ⟨c :: a, b, by rw [e]; rfl, h⟩
    · rintro ⟨a, b, e, h⟩
      cases a with
      | nil => left; rw [show b = c :: s from e.symm] at h; exact h
      | cons x a =>
        simp only [List.cons_append, List.cons.injEq] at e
        exact .inr ⟨a, b, e.2, h⟩

theorem isNumbering_digits {g : List Char} (hg : ∀ c ∈ g, '0' ≤ c ∧ c ≤ '9') (b : Bool) (s : List Char) :
    isNumbering b (g ++ s) = isNumbering (b || !g.isEmpty) s := by
  induction g generalizing b with
  | nil => simp
  | cons c g ih =>
    rw [List.cons_append, isNumbering, if_pos (hg c (by simp)), ih (fun c hc => hg c (by simp [hc]))]
    simp

theorem isNumbering_true (gs : List (List Char)) (hne : gs ≠ []) (hg : ∀ g ∈ gs, Digits g) :
    isNumbering false (List.intercalate ['.'] gs) = true := by
  induction gs with
  | nil => exact absurd rfl hne
  | cons g gs ih =>
    have hd := hg g (by simp)
    have he : g.isEmpty = false := by simpa using hd.1
    cases gs with
    | nil =>
      have := isNumbering_digits hd.2 false []
      simp only [List.append_nil] at this
      simp [List.intercalate, this, he, isNumbering]
    | cons g' gs =>
      have hi : List.intercalate ['.'] (g :: g' :: gs) = g ++ '.' :: List.intercalate ['.'] (g' :: gs) := by
        simp [List.intercalate]
      rw [hi, isNumbering_digits hd.2, he, isNumbering, if_neg (by decide)]
      have := ih (by simp) (fun g hg' => hg g (List.mem_cons_of_mem _ hg'))
      simp [this]

theorem isNumbering_groups (s : List Char) (b : Bool) (h : isNumbering b s = true) :
    ∃ g gs, (∀ c ∈ g, '0' ≤ c ∧ c ≤ '9') ∧ (b = false → g ≠ []) ∧ (∀ g ∈ gs, Digits g) ∧
      s = List.intercalate ['.'] (g :: gs) := by
  induction s generalizing b with
  | nil =>
    rw [isNumbering] at h
    exact ⟨[], [], by simp, by simp [h], by simp, rfl⟩
  | cons c s ih =>
    rw [isNumbering] at h
    split at h
    next hc =>
      obtain ⟨g, gs, h1, h2, h3, e⟩ := ih true h
      refine ⟨c :: g, gs, ?_, by simp, h3, ?_⟩
      · intro x hx
        rcases List.mem_cons.1 hx with rfl | hx
        · exact hc
        · exact h1 x hx
      · rw [e]; cases gs <;> simp [List.intercalate]
    next hc =>
      simp only [Bool.and_eq_true, beq_iff_eq] at h
      obtain ⟨⟨rfl, hb⟩, h⟩ := h
      obtain ⟨g, gs, h1, h2, h3, e⟩ := ih false h
      refine ⟨[], g :: gs, by simp, by simp [hb], ?_, ?_⟩
      · intro x hx
        rcases List.mem_cons.1 hx with rfl | hx
        · exact ⟨h2 rfl, h1⟩
        · exact h3 x hx
      · rw [e]; simp [List.intercalate]

theorem isClosureName_iff (s : List Char) : isClosureName s = true ↔
    ∃ outer gs, gs ≠ [] ∧ (∀ g ∈ gs, Digits g) ∧
      s = outer ++ ".func".toList ++ List.intercalate ['.'] gs := by
  unfold isClosureName
  rw [anySuffix_iff]
  constructor
  · rintro ⟨a, b, e, h⟩
    rw [Bool.and_eq_true, List.isPrefixOf_iff_prefix] at h
    obtain ⟨⟨t, ht⟩, h⟩ := h
    have hd : b.drop 5 = t := by rw [← ht]; rfl
    rw [hd] at h
    obtain ⟨g, gs, h1, h2, h3, e'⟩ := isNumbering_groups t false h
    refine ⟨a, g :: gs, by simp, ?_, ?_⟩
    · intro x hx
      rcases List.mem_cons.1 hx with rfl | hx
      · exact ⟨h2 rfl, h1⟩
      · exact h3 x hx
    · rw [e, ← ht, e', List.append_assoc]
  · rintro ⟨outer, gs, h1, h2, e⟩
    refine ⟨outer, ".func".toList ++ List.intercalate ['.'] gs, by rw [e, List.append_assoc], ?_⟩
    rw [Bool.and_eq_true, List.isPrefixOf_iff_prefix]
    refine ⟨List.prefix_append _ _, ?_⟩
    have : (".func".toList ++ List.intercalate ['.'] gs).drop 5 = List.intercalate ['.'] gs := rfl
    rw [this]
    exact isNumbering_true gs h1 h2

theorem isNamedFunc_iff (l : Location) :
    l.isNamedFunc = true ↔ l.func ≠ "" ∧ ¬ LooksLikeClosure l.func := by
  unfold Location.isNamedFunc LooksLikeClosure
  have hg : anySuffix (fun t => "glob..".toList.isPrefixOf t) l.func.toList = true ↔
      "glob..".toList <:+: l.func.toList := by
    rw [anySuffix_iff]
    constructor
    · rintro ⟨a, b, e, h⟩
      obtain ⟨t, ht⟩ := List.isPrefixOf_iff_prefix.1 h
      exact ⟨a, t, by rw [e, ← ht, List.append_assoc]⟩
    · rintro ⟨a, t, e⟩
      exact ⟨a, _ ++ t, by rw [← e, List.append_assoc], List.isPrefixOf_iff_prefix.2 (List.prefix_append _ _)⟩
  rw [← hg, ← isClosureName_iff]
  generalize anySuffix (fun t => "glob..".toList.isPrefixOf t) l.func.toList = a
  generalize isClosureName l.func.toList = b
  by_cases h : l.func = "" <;> cases a <;> cases b <;> simp [h]

theorem pathBase_of {path name : String} (h : FileOf path name) : pathBase path = name := by
  obtain ⟨h1, h2, rfl | ⟨dir, rfl⟩⟩ := h
  · have := pathBase_spec "" path h1 h2
    have hne : path.toList ≠ [] := fun e => h1 (String.ext (by simpa using e))
    have hd : path.toList.reverse.dropWhile (fun x => decide (x = '/')) = path.toList.reverse := by
      cases hr : path.toList.reverse with
      | nil => rfl
      | cons c r =>
        have : c ∈ path.toList := List.mem_reverse.1 (hr ▸ List.mem_cons_self)
        rw [List.dropWhile_cons_of_neg]
        intro e
        exact h2 ((of_decide_eq_true e) ▸ this)
    have ht : path.toList.reverse.takeWhile (fun x => decide (x ≠ '/')) = path.toList.reverse := by
      have := List.takeWhile_append_of_pos (p := fun x => decide (x ≠ '/')) (l₁ := path.toList.reverse) (l₂ := [])
        (fun c hc => decide_eq_true (fun e => h2 (e ▸ List.mem_reverse.1 hc)))
      simpa using this
    unfold pathBase
    split
    · exact absurd (by assumption) hne
    · rw [hd]
      split
      · simp_all
      · rw [ht]; simp
  · exact pathBase_spec dir name h1 h2

theorem digit_of {n : Nat} {c : Char} (h : c ∈ (decimalDigits n).map digitChar) : '0' ≤ c ∧ c ≤ '9' := by
  obtain ⟨d, hd, rfl⟩ := List.mem_map.1 h
  have := decimalDigits_lt n d hd
  rw [char_le_iff, char_le_iff, digitChar_toNat this]
  constructor
  · show 48 ≤ _; omega
  · show _ ≤ 57; omega

theorem decimalDigits_ne (n : Nat) : decimalDigits n ≠ [] := by
  rw [decimalDigits]; split <;> simp

theorem fileLine_of {func path name : String} (line : Nat) (h : FileOf path name) :
    (Location.mk func path line).fileLine =
      some (name ++ ":" ++ String.ofList ((decimalDigits line).map digitChar)) := by
  have hp : path ≠ "" := by
    rintro rfl
    obtain ⟨h1, h2, e | ⟨dir, e⟩⟩ := h
    · exact h1 e.symm
    · have := congrArg (fun s => s.toList.length) e
      simp at this
  unfold Location.fileLine
  rw [if_neg hp, pathBase_of h]

theorem fileLine_last (name : String) (n : Nat) : ∃ c,
    (name ++ ":" ++ String.ofList ((decimalDigits n).map digitChar)).toList.getLast? = some c ∧
      '0' ≤ c ∧ c ≤ '9' := by
  have hne : (decimalDigits n).map digitChar ≠ [] := by simpa using decimalDigits_ne n
  refine ⟨((decimalDigits n).map digitChar).getLast hne, ?_, digit_of (List.getLast_mem hne)⟩
  simp only [String.toList_append, String.toList_ofList]
  rw [List.getLast?_append, List.getLast?_eq_some_getLast hne]
  rfl

theorem fileLine_read (name : String) (n : Nat) :
    beforeLast ':' (name ++ ":" ++ String.ofList ((decimalDigits n).map digitChar)).toList =
      (name.toList, (decimalDigits n).map digitChar) := by
  have : (name ++ ":" ++ String.ofList ((decimalDigits n).map digitChar)).toList =
      name.toList ++ ':' :: (decimalDigits n).map digitChar := by simp
  rw [this]
  exact beforeLast_append _ (fun h => by have := digit_of h; revert this; decide)

/-! ## C102 -/

/-- C102 (partial: what looks like a closure may be a function that somebody declared): the text of a location
tells a reader the name of the file and the line if the file is known, and the function if it is known, but for a
function that looks like a closure in a file that is known. -/
theorem C102_read_partial (l : Location) (w : WhereTold) (hf : ' ' ∉ l.func.toList) (h : l.Tells w) :
    readLocation l.text = w := by
  cases h with
  | nothing line =>
    have ht : (Location.mk "" "" line).text = "<unknown>" := by
      simp [Location.text, Location.fileLine]
    rw [ht]
    decide +kernel
  | @within func line hne =>
    have ht : (Location.mk func "" line).text = func ++ "(...)" := by
      simp [Location.text, Location.fileLine, hne]
    rw [ht]
    unfold readLocation
    have hs : (func ++ "(...)").toList = func.toList ++ '(' :: "...)".toList := by simp
    have hl : (func.toList ++ '(' :: "...)".toList).getLast? = some ')' := by
      rw [List.getLast?_append]; rfl
    simp only [hs]
    rw [hl, if_neg (by decide), if_pos rfl, beforeLast_append _ (by decide)]
    simp
  | @«at» func path name line hp hc =>
    have hn : (Location.mk func path line).isNamedFunc = false := by
      rw [← Bool.not_eq_true, isNamedFunc_iff]
      rintro ⟨h1, h2⟩
      exact hc.elim h1 h2
    have ht : (Location.mk func path line).text =
        name ++ ":" ++ String.ofList ((decimalDigits line).map digitChar) := by
      unfold Location.text
      rw [fileLine_of line hp, hn]
      rfl
    rw [ht]
    obtain ⟨c, hl, hc0, hc9⟩ := fileLine_last name line
    unfold readLocation
    simp only
    rw [hl, fileLine_read, if_neg, if_neg, if_neg, numberOf_digits]
    · simp
    all_goals
      intro e
      cases e
      revert hc0 hc9
      decide
  | @both func path name line hp h1 h2 =>
    have hn : (Location.mk func path line).isNamedFunc = true := (isNamedFunc_iff _).2 ⟨h1, h2⟩
    have ht : (Location.mk func path line).text =
        name ++ ":" ++ String.ofList ((decimalDigits line).map digitChar) ++ " [" ++ func ++ "(...)]" := by
      unfold Location.text
      rw [fileLine_of line hp, hn]
      rfl
    rw [ht]
    generalize hfl : name ++ ":" ++ String.ofList ((decimalDigits line).map digitChar) = fl
    have hs : (fl ++ " [" ++ func ++ "(...)]").toList =
        fl.toList ++ ' ' :: ('[' :: func.toList ++ '(' :: "...)]".toList) := by simp
    have hl : (fl.toList ++ ' ' :: ('[' :: func.toList ++ '(' :: "...)]".toList)).getLast? = some ']' := by
      rw [List.getLast?_append, List.getLast?_cons, List.getLast?_append]; rfl
    unfold readLocation
    simp only [hs]
    rw [hl, if_neg (by decide), if_neg (by decide), if_pos rfl, beforeLast_append, ← hfl, fileLine_read,
      numberOf_digits]
    · have : List.drop 1 ('[' :: func.toList ++ '(' :: "...)]".toList) = func.toList ++ '(' :: "...)]".toList := rfl
      simp only
      rw [this, beforeLast_append _ (by decide)]
      simp
    · simp only [List.cons_append, List.mem_cons, List.mem_append, not_or]
      exact ⟨by decide, hf, by decide, by decide⟩

/-- A predicate that is declared as a function, one that is a closure in a test, and a function whose file is not
known. -/
example : readLocation (Location.text ⟨"shop/orders.(*Store).isLarge", "/src/shop/orders/store.go", 105⟩) =
      .both "store.go" 105 "shop/orders.(*Store).isLarge" ∧
    readLocation (Location.text ⟨"shop/orders_test.TestLarge.func12.3", "/src/my shop/store_test.go", 40⟩) =
      .at "store_test.go" 40 ∧
    readLocation (Location.text ⟨"shop/orders.Large", "", 7⟩) = .within "shop/orders.Large" := by
  refine ⟨C102_read_partial _ _ (by decide +kernel)
      (.both 105 ⟨by decide, by decide, .inr ⟨"/src/shop/orders", by decide +kernel⟩⟩ (by decide) ?_),
    C102_read_partial _ _ (by decide +kernel)
      (.at 40 ⟨by decide, by decide, .inr ⟨"/src/my shop", by decide +kernel⟩⟩ (.inr (.inr ?_))),
    C102_read_partial _ _ (by decide +kernel) (.within 7 (by decide))⟩
  · intro h
    have := (isNamedFunc_iff ⟨"shop/orders.(*Store).isLarge", "", 0⟩).1 (by decide +kernel)
    exact this.2 h
  · exact ⟨"shop/orders_test.TestLarge".toList, ["12".toList, "3".toList], by decide,
      by simp [Digits], by decide +kernel⟩

/-- The name is one that a function may be declared with: letters and digits, and no digit at the front. -/
def GoName (s : String) : Prop :=
  s.toList ≠ [] ∧ (∀ c ∈ s.toList, c.isAlphanum = true ∨ c = '_') ∧ ∀ c ∈ s.toList.head?, c.isDigit = false

/-- C102 is false of the code in one respect: a function that is declared with a name like `func1` is taken for a
closure, and the text does not tell it. -/
theorem C102_fails : ∃ pkg name path file line, GoName name ∧ FileOf path file ∧
    readLocation (Location.text ⟨pkg ++ "." ++ name, path, line⟩) = .at file line := by
  refine ⟨"shop/orders", "func1", "/src/shop/orders/store.go", "store.go", 12, ?_,
    ⟨by decide, by decide, .inr ⟨"/src/shop/orders", by decide +kernel⟩⟩, by decide +kernel⟩
  refine ⟨by decide, by decide +kernel, by decide +kernel⟩

/-! ## C103: specification -/

/-- What a reader learns of a panic. -/
inductive PanicTold where
  /-- a method of an implementation of a handler behaved unexpectedly -/
  | behaved (handler htype impl method desc : String)
  /-- a method of an implementation of a handler did not expect messages of this type -/
  | unexpecting (handler htype impl method mtype : String)
  deriving DecidableEq, Repr

/-- What is left of a text after these words. -/
def after (words : String) (s : List Char) : List Char := s.drop words.toList.length

/-- Reading what a panic says: the handler's name is in quotes and has a space after it, so has its type; the
implementation and its method are before the next parenthesis, with a dot between them. -/
def readPanic (text : String) : PanicTold :=
  let n := beforeFirst ' ' (after "the '" text.toList)
  let t := beforeFirst ' ' n.2
  let r := after "message handler " t.2
  if r.head? = some 'b' then
    let p := beforeFirst '(' (after "behaved unexpectedly in " r)
    .behaved (String.ofList n.1.dropLast) (String.ofList t.1) (String.ofList (beforeLast '.' p.1).1)
      (String.ofList (beforeLast '.' p.1).2) (String.ofList (after "): " p.2))
  else
    let p := beforeFirst '(' (after "did not expect " r)
    .unexpecting (String.ofList n.1.dropLast) (String.ofList t.1) (String.ofList (beforeLast '.' p.1).1)
      (String.ofList (beforeLast '.' p.1).2) (String.ofList (after ") to be called with a message of type " p.2))

/-- Reading the error that comes of a handler's error. -/
def readHandlerErr (text : String) : String × String × String :=
  let n := beforeFirst ' ' text.toList
  let t := beforeFirst ':' n.2
  (String.ofList n.1, String.ofList t.1, String.ofList (t.2.drop 1))

/-! ## C103: proof -/

theorem after_append (w : String) (s : List Char) : after w (w.toList ++ s) = s := by
  unfold after; rw [List.drop_left]

theorem htype_plain (t : HandlerType) : ' ' ∉ t.str.toList ∧ ':' ∉ t.str.toList := by
  cases t <;> decide +kernel

theorem read_name {name : String} (hn : ' ' ∉ name.toList) (r : List Char) :
    beforeFirst ' ' (after "the '" ("the '".toList ++ (name.toList ++ '\'' :: ' ' :: r))) =
      (name.toList ++ ['\''], r) := by
  rw [after_append]
  have : name.toList ++ '\'' :: ' ' :: r = (name.toList ++ ['\'']) ++ ' ' :: r := by simp
  rw [this, beforeFirst_append]
  simp only [List.mem_append, List.mem_singleton, not_or]
  exact ⟨hn, by decide⟩

theorem read_method {impl method : String} (hi : '(' ∉ impl.toList) (hm : '(' ∉ method.toList)
    (hd : '.' ∉ method.toList) (w : String) (r : List Char) :
    let p := beforeFirst '(' (after w (w.toList ++ (impl.toList ++ '.' :: (method.toList ++ '(' :: r))))
    beforeLast '.' p.1 = (impl.toList, method.toList) ∧ p.2 = r := by
  have : impl.toList ++ '.' :: (method.toList ++ '(' :: r) =
      (impl.toList ++ '.' :: method.toList) ++ '(' :: r := by simp
  rw [after_append, this, beforeFirst_append]
  · exact ⟨beforeLast_append _ hd, rfl⟩
  · simp only [List.mem_append, List.mem_cons, not_or]
    exact ⟨hi, by decide, hm⟩

/-! ## C103 -/

/-- C103, for panics about how a handler behaved: a reader of the text learns the handler's name and type, what
the implementation is, which method it is, and the description. -/
theorem C103_behaved (h : HConfig) (impl method desc : String) (hn : ' ' ∉ h.name.toList)
    (hi : '(' ∉ impl.toList) (hm : '(' ∉ method.toList) (hd : '.' ∉ method.toList) :
    readPanic (behaviorText h impl method desc) = .behaved h.name h.htype.str impl method desc := by
  have hs : (behaviorText h impl method desc).toList =
      "the '".toList ++ (h.name.toList ++ '\'' :: ' ' :: (h.htype.str.toList ++ ' ' ::
        ("message handler ".toList ++ ("behaved unexpectedly in ".toList ++ (impl.toList ++ '.' ::
          (method.toList ++ '(' :: ("): ".toList ++ desc.toList))))))) := by
    simp [behaviorText]
  obtain ⟨h1, h2⟩ := read_method hi hm hd "behaved unexpectedly in " ("): ".toList ++ desc.toList)
  unfold readPanic
  simp only
  rw [hs, read_name hn, beforeFirst_append _ (htype_plain _).1]
  simp only [after_append "message handler "]
  rw [if_pos (by rfl), h1, h2, after_append]
  simp

/-- C103, for panics of handlers that did not expect a message: a reader of the text learns the handler's name
and type, what the implementation is, which method it is, and the type of the message. -/
theorem C103_unexpected (h : HConfig) (impl method : String) (m : Message) (hn : ' ' ∉ h.name.toList)
    (hi : '(' ∉ impl.toList) (hm : '(' ∉ method.toList) (hd : '.' ∉ method.toList) :
    readPanic (unexpectedText h impl method m) = .unexpecting h.name h.htype.str impl method m.type.name := by
  have hs : (unexpectedText h impl method m).toList =
      "the '".toList ++ (h.name.toList ++ '\'' :: ' ' :: (h.htype.str.toList ++ ' ' ::
        ("message handler ".toList ++ ("did not expect ".toList ++ (impl.toList ++ '.' ::
          (method.toList ++ '(' :: (") to be called with a message of type ".toList ++ m.type.name.toList))))))) := by
    simp [unexpectedText]
  obtain ⟨h1, h2⟩ := read_method hi hm hd "did not expect "
    (") to be called with a message of type ".toList ++ m.type.name.toList)
  unfold readPanic
  simp only
  rw [hs, read_name hn, beforeFirst_append _ (htype_plain _).1]
  simp only [after_append "message handler "]
  rw [if_neg, h1, h2, after_append]
  · simp
  · exact fun e => absurd (Option.some.inj (show some 'd' = some 'b' from e)) (by decide)

/-- C103, for errors: a reader of the error that an operation returns learns the name and type of the handler
whose error it is, and that error. -/
theorem C103_error (name : String) (t : HandlerType) (e : Err) (hn : ' ' ∉ name.toList) :
    readHandlerErr (handlerErrText name t e) = (name, t.str, e) := by
  have hs : (handlerErrText name t e).toList = name.toList ++ ' ' :: (t.str.toList ++ ':' :: (' ' :: e.toList)) := by
    simp [handlerErrText]
  unfold readHandlerErr
  simp only
  rw [hs, beforeFirst_append _ hn, beforeFirst_append _ (htype_plain t).2]
  simp

/-- A panic of each kind, and an error. -/
example : readPanic (behaviorText ⟨"bank/account's", .aggregate, false, [], []⟩ "*bank.Handler" "RouteCommandToInstance"
      "routed a command of type bank.Open to an empty ID") =
      .behaved "bank/account's" "aggregate" "*bank.Handler" "RouteCommandToInstance"
        "routed a command of type bank.Open to an empty ID" ∧
    readPanic (unexpectedText ⟨"bank/ledger", .projection, false, [], []⟩ "*bank.Ledger" "HandleEvent"
      ⟨⟨.event, "bank.Opened"⟩, "", none⟩) =
      .unexpecting "bank/ledger" "projection" "*bank.Ledger" "HandleEvent" "bank.Opened" ∧
    readHandlerErr (handlerErrText "bank/ledger" .projection "disk full: /var") =
      ("bank/ledger", "projection", "disk full: /var") :=
  ⟨C103_behaved _ _ _ _ (by decide +kernel) (by decide +kernel) (by decide +kernel) (by decide +kernel),
    C103_unexpected _ _ _ _ (by decide +kernel) (by decide +kernel) (by decide +kernel) (by decide +kernel),
    C103_error _ _ _ (by decide +kernel)⟩

end Verif
