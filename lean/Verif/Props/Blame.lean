import Verif.Props.Satisfy

/-!
# The place that a failure of `ToSatisfy` is attributed to (C84)

Specification: `blamed` on the frames of the user's code.
-/

namespace Verif

/-- Methods that make the function fail or be skipped. -/
def SOp.causes (o : SOp) : Bool := o.fails || o.skips

/-- The names of the methods. -/
def SOp.method : SOp → String
  | .error _ false => "Error"
  | .error _ true => "Errorf"
  | .fail => "Fail"
  | .failNow => "FailNow"
  | .failed => "Failed"
  | .fatal _ false => "Fatal"
  | .fatal _ true => "Fatalf"
  | .parallel => "Parallel"
  | .helper => "Helper"
  | .log _ => "Log"
  | .name => "Name"
  | .skip _ false => "Skip"
  | .skip _ true => "Skipf"
  | .skipNow => "SkipNow"
  | .skipped => "Skipped"

/-- The functions that have called `Helper()`. -/
def helperFuncs (l : List SEvent) : List String := l.filterMap fun
  | .called .helper st => some st.top.func
  | _ => none

/-- The frame to blame among those of the user's code, innermost first: the first one of a function
that is not a helper; if all are helpers the outermost one. -/
def blamed (hs : List String) (us : List StackFrame) : Option StackFrame :=
  match us.find? (fun f => decide (f.func ∉ hs)) with
  | some f => some f
  | none => us.getLast?

/-- The stack of a call from the user's code `us`, which `Done()` has called. -/
structure CallStack.UserCode (st : CallStack) (us : List StackFrame) : Prop where
  split : ∃ d rest, st.frames = us ++ d :: rest ∧ d.func = doneFunc
  inside : ∀ u ∈ us, u.func ≠ doneFunc
  some_ : us ≠ []
  real : ∀ u ∈ us, u.pc ≠ 0

/-! ## Searching the stack -/

theorem findLoop_spec (hs : List String) (us : List StackFrame) : ∀ (a : StackFrame)
    (first prev d : StackFrame) (rest : List StackFrame), first.pc ≠ 0 → d.func = doneFunc →
    (∀ u ∈ us, u.func ≠ doneFunc) → (∀ u ∈ us, u.pc ≠ 0) → prev = a →
    findLoop hs first prev (us ++ d :: rest) =
      (match us.find? (fun f => decide (f.func ∉ hs)) with
        | some f => (f, decide (f = first))
        | none => ((us.getLast?).getD a, decide ((us.getLast?).getD a = first))) := by
  induction us with
  | nil =>
    intro a first prev d rest hf hd _ _ hp
    subst hp
    show findLoop hs first prev (d :: rest) = _
    unfold findLoop
    simp only [hd, if_true, hf, if_false]
    rfl
  | cons u us ih =>
    intro a first prev d rest hf hd hi hr hp
    have hu := hi u (by simp)
    have hne : (us ++ d :: rest).isEmpty = false := by cases us <;> rfl
    rw [List.cons_append]
    unfold findLoop
    simp only [hf, if_false, hu, hne, Bool.or_false]
    by_cases hc : u.func ∈ hs
    · have h1 : hs.contains u.func = true := by simpa using hc
      rw [h1]
      simp only [Bool.not_true, Bool.false_eq_true, if_false]
      rw [ih u first u d rest hf hd (fun v hv => hi v (by simp [hv])) (fun v hv => hr v (by simp [hv]))
        rfl]
      rw [List.find?_cons_of_neg (by simpa using hc)]
      have : (u :: us).getLast?.getD a = us.getLast?.getD u := by
        cases us with
        | nil => rfl
        | cons b bs => simp [List.getLast?_cons]
      rw [this]
    · have h1 : hs.contains u.func = false := by simpa using hc
      rw [h1]
      simp only [Bool.not_false, if_true]
      rw [List.find?_cons_of_pos (by simpa using hc)]

theorem findFrame_spec (hs : List String) (st : CallStack) (us : List StackFrame)
    (h : st.UserCode us) (hn : us.length < 50) :
    ∃ f, blamed hs us = some f ∧ findFrame hs st = (f, decide (us.head? = some f)) := by
  obtain ⟨⟨d, rest, hs1, hd⟩, hi, hne, hr⟩ := h
  obtain ⟨u, us, rfl⟩ : ∃ u l, us = u :: l := by
    cases us with
    | nil => exact absurd rfl hne
    | cons u l => exact ⟨u, l, rfl⟩
  have htake : st.frames.take 50 = (u :: us) ++ d :: rest.take (49 - (us.length + 1)) := by
    rw [hs1, List.take_append, List.take_of_length_le (by omega)]
    have : 50 - (u :: us).length = (49 - (us.length + 1)) + 1 := by
      simp only [List.length_cons] at hn ⊢; omega
    rw [this, List.take_succ_cons]
  have hu := hi u (by simp)
  have hur := hr u (by simp)
  unfold findFrame
  rw [htake]
  have hstep : findLoop hs zeroFrame zeroFrame ((u :: us) ++ d :: rest.take (49 - (us.length + 1))) =
      findLoop hs u zeroFrame ((u :: us) ++ d :: rest.take (49 - (us.length + 1))) := by
    rw [List.cons_append]
    unfold findLoop
    simp [zeroFrame, hur]
  rw [hstep, findLoop_spec hs (u :: us) zeroFrame u zeroFrame d _ hur hd hi hr rfl]
  unfold blamed
  cases hfi : (u :: us).find? (fun f => decide (f.func ∉ hs)) with
  | some f =>
    refine ⟨f, rfl, ?_⟩
    simp only [List.head?_cons, Option.some.injEq, Prod.mk.injEq, true_and, decide_eq_decide]
    exact eq_comm
  | none =>
    obtain ⟨f, hf⟩ : ∃ f, (u :: us).getLast? = some f := by
      cases hl : (u :: us).getLast? with
      | none => simp at hl
      | some f => exact ⟨f, rfl⟩
    refine ⟨f, hf, ?_⟩
    rw [hf]
    simp only [Option.getD_some, List.head?_cons, Option.some.injEq, Prod.mk.injEq, true_and,
      decide_eq_decide]
    exact eq_comm

/-! ## The explanation is that of the first call that fails or skips -/

/-- What the explanation is, by what was done. -/
def SatT.Explained (t : SatT) : Prop :=
  (∀ h, h ∈ t.helpers ↔ h ∈ helperFuncs t.did) ∧
  ((t.explanation = none ∧ ¬ calledSome SOp.causes t.did) ∨
    ∃ pre o st post hs, t.did = pre ++ .called o st :: post ∧ o.causes = true ∧
      ¬ calledSome SOp.causes pre ∧ (∀ h, h ∈ hs ↔ h ∈ helperFuncs pre) ∧
      t.explanation = some (explainText o.method (findFrame hs st).1 (findFrame hs st).2))

theorem helperFuncs_append (a b : List SEvent) :
    helperFuncs (a ++ b) = helperFuncs a ++ helperFuncs b := List.filterMap_append

theorem SatT.Explained.note {t : SatT} (h : t.Explained) {e : SEvent} (he : ∀ o st, e ≠ .called o st) :
    (t.note e).Explained := by
  have h1 : helperFuncs [e] = [] := by
    cases e with
    | called o st => exact absurd rfl (he o st)
    | _ => rfl
  have h2 : ¬ calledSome SOp.causes [e] := by
    rintro ⟨o, st, ho, -⟩
    simp at ho
    exact he o st ho.symm
  refine ⟨?_, ?_⟩
  · intro x
    show x ∈ t.helpers ↔ x ∈ helperFuncs (t.did ++ [e])
    rw [helperFuncs_append, h1, List.append_nil]
    exact h.1 x
  · rcases h.2 with ⟨ha, hb⟩ | ⟨pre, o, st, post, hs, hd, hc, hn, hh, hx⟩
    · left
      refine ⟨ha, ?_⟩
      show ¬ calledSome SOp.causes (t.did ++ [e])
      rw [calledSome_append]
      rintro (h | h)
      · exact hb h
      · exact h2 h
    · right
      refine ⟨pre, o, st, post ++ [e], hs, ?_, hc, hn, hh, hx⟩
      show t.did ++ [e] = _
      rw [hd]; simp

theorem SOp.exec_explains (t : SatT) (st : CallStack) (o : SOp) :
    (o.exec t st).1.did = t.did ∧
    (∀ h, h ∈ (o.exec t st).1.helpers ↔ h ∈ t.helpers ∨ (o = .helper ∧ h = st.top.func)) ∧
    (o.exec t st).1.explanation = (match t.explanation with
      | some x => some x
      | none => if o.causes then
          some (explainText o.method (findFrame t.helpers st).1 (findFrame t.helpers st).2) else none) := by
  cases o with
  | error s f =>
    refine ⟨(SOp.exec_did t st _).1, ?_, ?_⟩ <;>
      cases hx : t.explanation <;> cases f <;>
      simp [SOp.exec, SatT.log, SatT.fail, SatT.explain, hx, SOp.causes, SOp.fails, SOp.method]
  | fail =>
    refine ⟨(SOp.exec_did t st _).1, ?_, ?_⟩ <;>
      cases hx : t.explanation <;>
      simp [SOp.exec, SatT.fail, SatT.explain, hx, SOp.causes, SOp.fails, SOp.method]
  | failNow =>
    refine ⟨(SOp.exec_did t st _).1, ?_, ?_⟩ <;>
      cases hx : t.explanation <;>
      simp [SOp.exec, SatT.fail, SatT.explain, hx, SOp.causes, SOp.fails, SOp.method]
  | fatal s f =>
    refine ⟨(SOp.exec_did t st _).1, ?_, ?_⟩ <;>
      cases hx : t.explanation <;> cases f <;>
      simp [SOp.exec, SatT.log, SatT.fail, SatT.explain, hx, SOp.causes, SOp.fails, SOp.method]
  | skip s f =>
    refine ⟨(SOp.exec_did t st _).1, ?_, ?_⟩ <;>
      cases hx : t.explanation <;> cases f <;>
      simp [SOp.exec, SatT.log, SatT.skip, SatT.explain, hx, SOp.causes, SOp.fails, SOp.skips,
        SOp.method]
  | skipNow =>
    refine ⟨(SOp.exec_did t st _).1, ?_, ?_⟩ <;>
      cases hx : t.explanation <;>
      simp [SOp.exec, SatT.skip, SatT.explain, hx, SOp.causes, SOp.fails, SOp.skips, SOp.method]
  | helper =>
    refine ⟨rfl, ?_, ?_⟩
    · intro h; simp [SOp.exec, or_comm]
    · cases hx : t.explanation <;> simp [SOp.exec, hx, SOp.causes, SOp.fails, SOp.skips]
  | _ =>
    refine ⟨(SOp.exec_did t st _).1, ?_, ?_⟩ <;>
      cases hx : t.explanation <;>
      simp [SOp.exec, SatT.log, hx, SOp.causes, SOp.fails, SOp.skips]

theorem SProg.exec_explained (p : SProg) : ∀ t : SatT, t.Explained → (p.exec t).1.Explained := by
  induction p with
  | ret => intro t h; exact h
  | panic v => intro t h; exact h
  | op o st k ih =>
    intro t h
    unfold SProg.exec
    obtain ⟨h1, h2, h3⟩ := SOp.exec_explains (t.note (.called o st)) st o
    rcases hx : o.exec (t.note (.called o st)) st with ⟨t', r⟩
    rw [hx] at h1 h2 h3
    simp only at h1 h2 h3
    simp only
    apply ih
    have hd : t'.did = t.did ++ [.called o st] := h1
    have hh : ∀ x, x ∈ helperFuncs [.called o st] ↔ o = .helper ∧ x = st.top.func := by
      intro x
      cases o <;> simp [helperFuncs]
    refine ⟨?_, ?_⟩
    · intro x
      rw [h2 x, hd, helperFuncs_append, List.mem_append, hh x]
      exact or_congr (h.1 x) Iff.rfl
    · rcases h.2 with ⟨ha, hb⟩ | ⟨pre, o', st', post, hs, hd', hc, hn, hh', hx'⟩
      · have ha' : (t.note (.called o st)).explanation = none := ha
        rw [ha'] at h3
        simp only at h3
        cases hc : o.causes with
        | false =>
          left
          rw [hc] at h3
          refine ⟨h3, ?_⟩
          rw [hd, calledSome_append, calledSome_one]
          rintro (h | h)
          · exact hb h
          · rw [hc] at h; cases h
        | true =>
          right
          rw [hc] at h3
          exact ⟨t.did, o, st, [], t.helpers, hd, hc, hb, h.1, h3⟩
      · right
        have hx'' : (t.note (.called o st)).explanation = _ := hx'
        rw [hx''] at h3
        simp only at h3
        exact ⟨pre, o', st', post ++ [.called o st], hs, by rw [hd, hd']; simp, hc, hn, hh', h3⟩
  | cleanup fn k _ ih =>
    intro t h
    unfold SProg.exec
    apply ih
    exact h.note (by simp)

theorem SatT.close_explained (n : Nat) : ∀ t : SatT, t.Explained → (t.close n).1.Explained := by
  induction n with
  | zero => intro t h; exact h
  | succ n ih =>
    intro t h
    unfold SatT.close
    cases hc : t.cleanup[n]? with
    | none => exact h
    | some fn =>
      simp only
      have h1 := fn.exec_explained (t.note (.cleaning n)) (h.note (by simp))
      rcases hx : fn.exec (t.note (.cleaning n)) with ⟨t', v⟩
      rw [hx] at h1
      cases v with
      | some v => exact h1
      | none => exact ih t' h1

theorem satDone_explained (fn : SProg) : (satDone fn {}).1.Explained := by
  have h0 : (({} : SatT)).Explained := by
    refine ⟨by simp [helperFuncs], .inl ⟨rfl, by simp [calledSome]⟩⟩
  have h1 := fn.exec_explained {} h0
  unfold satDone
  rcases hx : fn.exec {} with ⟨t, r⟩
  rw [hx] at h1
  simp only
  have h2 := SatT.close_explained t.cleanup.length t h1
  rcases hy : t.close t.cleanup.length with ⟨t', v⟩
  rw [hy] at h2
  cases v <;> exact h2

theorem first_split {P : SOp → Bool} {pre pre' post post' : List SEvent} {o o' : SOp}
    {st st' : CallStack} (h : pre ++ .called o st :: post = pre' ++ .called o' st' :: post')
    (ho : P o = true) (ho' : P o' = true) (hp : ¬ calledSome P pre) (hp' : ¬ calledSome P pre') :
    pre = pre' ∧ o = o' ∧ st = st' := by
  induction pre generalizing pre' with
  | nil =>
    cases pre' with
    | nil => simp at h; exact ⟨rfl, h.1.1, h.1.2⟩
    | cons a l =>
      simp at h
      exact absurd ⟨o, st, by rw [← h.1]; simp, ho⟩ hp'
  | cons a pre ih =>
    cases pre' with
    | nil =>
      simp at h
      exact absurd ⟨o', st', by rw [h.1]; simp, ho'⟩ hp
    | cons b pre' =>
      simp only [List.cons_append, List.cons.injEq] at h
      obtain ⟨rfl, h⟩ := h
      obtain ⟨h1, h2⟩ := ih h (fun ⟨x, y, hx, hy⟩ => hp ⟨x, y, by simp [hx], hy⟩)
        (fun ⟨x, y, hx, hy⟩ => hp' ⟨x, y, by simp [hx], hy⟩)
      exact ⟨by rw [h1], h2⟩

/-! ## Names of files -/

theorem takeWhile_before {α : Type} {p : α → Bool} {x : α} (l r : List α) (hl : ∀ a ∈ l, p a = true)
    (hx : p x = false) : (l ++ x :: r).takeWhile p = l := by
  induction l with
  | nil => simp [hx]
  | cons a l ih => simp [hl a (by simp), ih (fun b hb => hl b (by simp [hb]))]

theorem pathBase_spec (dir base : String) (hb : base ≠ "") (hs : '/' ∉ base.toList) :
    pathBase (dir ++ "/" ++ base) = base := by
  have hbl : base.toList ≠ [] := by
    intro h
    exact hb (String.ext (by simpa using h))
  have h1 : (dir ++ "/" ++ base).toList = dir.toList ++ '/' :: base.toList := by
    simp
  have hne : (dir ++ "/" ++ base).toList ≠ [] := by rw [h1]; simp
  have hrev : (dir ++ "/" ++ base).toList.reverse = base.toList.reverse ++ '/' :: dir.toList.reverse := by
    rw [h1]; simp
  have hdrop : (dir ++ "/" ++ base).toList.reverse.dropWhile (fun c => decide (c = '/')) =
      base.toList.reverse ++ '/' :: dir.toList.reverse := by
    rw [hrev]
    cases hr : base.toList.reverse with
    | nil => simp at hr; exact absurd hr hb
    | cons c cs =>
      have : c ≠ '/' := by
        rintro rfl
        apply hs
        have : '/' ∈ base.toList.reverse := by rw [hr]; simp
        simpa using this
      rw [List.cons_append, List.dropWhile_cons_of_neg (by simpa using this)]
  unfold pathBase
  generalize hg : (dir ++ "/" ++ base).toList = l at *
  cases l with
  | nil => exact absurd rfl hne
  | cons c cs =>
    simp only
    rw [hdrop]
    cases hr : base.toList.reverse ++ '/' :: dir.toList.reverse with
    | nil => simp at hr
    | cons x xs =>
      simp only
      rw [← hr, takeWhile_before]
      · rw [List.reverse_reverse]; simp
      · intro a ha
        simp only [List.mem_reverse] at ha
        simp only [ne_eq, decide_eq_true_eq]
        rintro rfl
        exact hs ha
      · simp

/-! ## The claim -/

/-- The text about a call of a method that is blamed on a line of a file. -/
def blameText (method : String) (direct : Bool) (file : String) (line : Nat) : String :=
  method ++ (if direct then "() called at " else "() called indirectly by call at ") ++ file ++ ":" ++
    toString line

theorem blame_frame (fn : SProg) (pre post : List SEvent) (o : SOp) (st : CallStack)
    (h : (satDone fn {}).1.did = pre ++ .called o st :: post) (ho : o.causes = true)
    (hpre : ¬ calledSome SOp.causes pre) (us : List StackFrame) (hu : st.UserCode us)
    (hn : us.length < 50) :
    ∃ f, blamed (helperFuncs pre) us = some f ∧
      (satDone fn {}).1.explanation = some (explainText o.method f (decide (us.head? = some f))) := by
  rcases (satDone_explained fn).2 with ⟨-, hno⟩ | ⟨pre', o', st', post', hs, hd, hc, hn', hh, hx⟩
  · exact absurd ⟨o, st, by rw [h]; simp, ho⟩ hno
  · obtain ⟨rfl, rfl, rfl⟩ := first_split (hd ▸ h : _ = _) hc ho hn' hpre
    have hbl : blamed hs us = blamed (helperFuncs pre') us := by
      have : (fun f : StackFrame => decide (f.func ∉ hs)) =
          (fun f => decide (f.func ∉ helperFuncs pre')) := by
        funext f
        exact decide_eq_decide.2 (not_congr (hh _))
      unfold blamed
      rw [this]
    obtain ⟨f, hf, hff⟩ := findFrame_spec hs st' us hu hn
    exact ⟨f, hbl ▸ hf, by rw [hx, hff]⟩

/-- **C84.**  The first call of a method that fails or skips is the one that is explained; the
place is that of the innermost frame of the user's code whose function had not called
`Helper()` before, or the outermost frame if all had.  It is said to be called directly iff this is
the frame that called the method.

Part: for less than 50 frames of user code (see `C84_deep_fails`), and frames of cleanup functions
include one of the package (see `C84_cleanup_fails`). -/
theorem C84_blame_partial (fn : SProg) (pre post : List SEvent) (o : SOp) (st : CallStack)
    (h : (satDone fn {}).1.did = pre ++ .called o st :: post) (ho : o.causes = true)
    (hpre : ¬ calledSome SOp.causes pre) (us : List StackFrame) (hu : st.UserCode us)
    (hn : us.length < 50) :
    ∃ f, blamed (helperFuncs pre) us = some f ∧
      ∀ dir base, f.file = dir ++ "/" ++ base → base ≠ "" → '/' ∉ base.toList → f.line ≠ 0 →
        (satDone fn {}).1.explanation =
          some (blameText o.method (decide (us.head? = some f)) base f.line) := by
  obtain ⟨f, hf, hx⟩ := blame_frame fn pre post o st h ho hpre us hu hn
  refine ⟨f, hf, ?_⟩
  intro dir base hfile hb hsl hl
  rw [hx]
  have hfe : f.file ≠ "" := by
    rw [hfile]
    intro h
    have := congrArg String.toList h
    simp at this
  unfold explainText blameText
  simp only [hfe, hl, if_false]
  rw [hfile, pathBase_spec dir base hb hsl]
  split <;> rfl

/-- **C84.**  If the file or the line of that frame is not known, the text says so: `???` is shown for the
file, 1 for the line (in part, as before). -/
theorem C84_unknown_partial (fn : SProg) (pre post : List SEvent) (o : SOp) (st : CallStack)
    (h : (satDone fn {}).1.did = pre ++ .called o st :: post) (ho : o.causes = true)
    (hpre : ¬ calledSome SOp.causes pre) (us : List StackFrame) (hu : st.UserCode us)
    (hn : us.length < 50) :
    ∃ f, blamed (helperFuncs pre) us = some f ∧
      (f.file = "" → f.line = 0 → (satDone fn {}).1.explanation =
        some (blameText o.method (decide (us.head? = some f)) "???" 1)) ∧
      (f.file = "" → f.line ≠ 0 → (satDone fn {}).1.explanation =
        some (blameText o.method (decide (us.head? = some f)) "???" f.line)) ∧
      (∀ dir base, f.file = dir ++ "/" ++ base → base ≠ "" → '/' ∉ base.toList → f.line = 0 →
        (satDone fn {}).1.explanation =
          some (blameText o.method (decide (us.head? = some f)) base 1)) := by
  obtain ⟨f, hf, hx⟩ := blame_frame fn pre post o st h ho hpre us hu hn
  refine ⟨f, hf, fun h1 h2 => ?_, fun h1 h2 => ?_, fun dir base hfile hb hsl h2 => ?_⟩
  · rw [hx]
    unfold explainText blameText
    simp only [h1, h2, if_true]
    split <;> rfl
  · rw [hx]
    unfold explainText blameText
    simp only [h1, h2, if_true, if_false]
    split <;> rfl
  · rw [hx]
    have hfe : f.file ≠ "" := by
      rw [hfile]
      intro h
      have := congrArg String.toList h
      simp at this
    unfold explainText blameText
    simp only [hfe, h2, if_false, if_true]
    rw [hfile, pathBase_spec dir base hb hsl]
    split <;> rfl

/-- **C84.**  Without such a call nothing is explained. -/
theorem C84_silent (fn : SProg) :
    (satDone fn {}).1.explanation = none ↔ ¬ calledSome SOp.causes (satDone fn {}).1.did := by
  rcases (satDone_explained fn).2 with ⟨h, hno⟩ | ⟨pre, o, st, post, hs, hd, hc, hn', hh, hx⟩
  · exact ⟨fun _ => hno, fun _ => h⟩
  · constructor
    · intro h; rw [hx] at h; cases h
    · intro h
      exact absurd ⟨o, st, by rw [hd]; simp, hc⟩ h

/-- The texts logged, in order. -/
def logged (l : List SEvent) : List String := l.filterMap fun
  | .called (.error s _) _ => some s
  | .called (.fatal s _) _ => some s
  | .called (.log s) _ => some s
  | .called (.skip s _) _ => some s
  | _ => none

theorem SOp.exec_logged (t : SatT) (st : CallStack) (o : SOp) :
    (o.exec t st).1.messages = t.messages ++ logged [.called o st] := by
  cases o <;> cases hx : t.explanation <;>
    simp [SOp.exec, SatT.log, SatT.fail, SatT.skip, SatT.explain, hx, logged]

theorem SProg.exec_logged (p : SProg) : ∀ t : SatT, t.messages = logged t.did →
    (p.exec t).1.messages = logged (p.exec t).1.did := by
  induction p with
  | ret => intro t h; exact h
  | panic v => intro t h; exact h
  | op o st k ih =>
    intro t h
    unfold SProg.exec
    have h1 := SOp.exec_logged (t.note (.called o st)) st o
    have h2 := (SOp.exec_did (t.note (.called o st)) st o).1
    rcases hx : o.exec (t.note (.called o st)) st with ⟨t', r⟩
    rw [hx] at h1 h2
    simp only at h1 h2
    apply ih
    rw [h1, h2]
    show t.messages ++ _ = logged (t.did ++ [.called o st])
    rw [h]
    exact List.filterMap_append.symm
  | cleanup fn k _ ih =>
    intro t h
    unfold SProg.exec
    apply ih
    show t.messages = logged (t.did ++ [.registered t.cleanup.length])
    rw [h]
    unfold logged
    rw [List.filterMap_append]
    simp

theorem SatT.close_logged (n : Nat) : ∀ t : SatT, t.messages = logged t.did →
    (t.close n).1.messages = logged (t.close n).1.did := by
  induction n with
  | zero => intro t h; exact h
  | succ n ih =>
    intro t h
    unfold SatT.close
    cases hc : t.cleanup[n]? with
    | none => exact h
    | some fn =>
      simp only
      have h1 := fn.exec_logged (t.note (.cleaning n)) (by
        show t.messages = logged (t.did ++ [.cleaning n])
        rw [h]
        unfold logged
        rw [List.filterMap_append]
        simp)
      rcases hx : fn.exec (t.note (.cleaning n)) with ⟨t', v⟩
      rw [hx] at h1
      cases v with
      | some v => exact h1
      | none => exact ih t' h1

theorem satDone_logged (fn : SProg) : (satDone fn {}).1.messages = logged (satDone fn {}).1.did := by
  have h1 := fn.exec_logged {} rfl
  unfold satDone
  rcases hx : fn.exec {} with ⟨t, r⟩
  rw [hx] at h1
  simp only
  have h2 := SatT.close_logged t.cleanup.length t h1
  rcases hy : t.close t.cleanup.length with ⟨t', v⟩
  rw [hy] at h2
  cases v <;> exact h2

theorem write_log (ms : List String) : ∀ (r : Report) (c : String), r.sections = [(logSection, c)] →
    ms.foldl (fun rep m => rep.write logSection (m ++ "\n")) r =
      { r with sections := [(logSection, c ++ String.join (ms.map (· ++ "\n")))] } := by
  induction ms with
  | nil => intro r c h; cases r; simp at h; simp [h]
  | cons m ms ih =>
    intro r c h
    have h1 : r.write logSection (m ++ "\n") = { r with sections := [(logSection, c ++ (m ++ "\n"))] } := by
      unfold Report.write Report.section
      simp [h]
    rw [List.foldl_cons, h1, ih _ _ rfl]
    simp [String.append_assoc]

/-- **C84.**  The report of the expectation shows this explanation, and all that was logged, in
order; except that a failure inside of `NoneOf()` or `Not()` is not explained. -/
theorem C84_report (s : PScope) (fs : List Fact) (ctx : RCtx) (d : String) (fn : List Fact → SProg)
    (p q : Pred) (hp : ((Expectation.satisfy d fn).build s).2 = .ok p)
    (hq : (p.observe s fs).done = (q, none)) :
    let t := (satDone (fn fs) {}).1
    ∃ ok out, (ok = true ↔ calledSome SOp.skips t.did ∨ ¬ calledSome SOp.fails t.did) ∧
      (calledSome SOp.skips t.did → out = "the expectation was skipped") ∧
      (ok = false → out = "the expectation failed") ∧
      (¬ calledSome SOp.causes t.did → out = "") ∧
      (ok = true ∨ ctx.inverted = false →
        q.report ctx =
          { treeOk := ctx.treeOk, ok := ok, criteria := d, outcome := out,
            explanation := t.explanation.getD "",
            sections := if logged t.did = [] then []
              else [("Log Messages", String.join ((logged t.did).map (· ++ "\n")))] }) ∧
      (ok = false → ctx.inverted = true →
        q.report ctx = { treeOk := ctx.treeOk, ok := false, criteria := d, outcome := out }) := by
  intro t
  unfold Expectation.build at hp
  simp only [Except.ok.injEq] at hp
  subst hp
  rw [observe_satisfy] at hq
  have hf : t.Flags := satDone_flags (fn fs)
  have hl : t.messages = logged t.did := satDone_logged (fn fs)
  have ht : satDone (fn fs) {} = (t, (satDone (fn fs) {}).2) := rfl
  simp only [Pred.done, List.nil_append] at hq
  rw [ht] at hq
  obtain ⟨rfl, -⟩ := Prod.mk.inj hq
  clear hq ht
  generalize t = t at *
  have hcause : calledSome SOp.causes t.did ↔ t.failed = true ∨ t.skipped = true := by
    rw [hf.1, hf.2]
    constructor
    · rintro ⟨o, st, h, hc⟩
      rcases Bool.or_eq_true_iff.1 hc with hc | hc
      · exact .inl ⟨o, st, h, hc⟩
      · exact .inr ⟨o, st, h, hc⟩
    · rintro (⟨o, st, h, hc⟩ | ⟨o, st, h, hc⟩)
      · exact ⟨o, st, h, by simp [SOp.causes, hc]⟩
      · exact ⟨o, st, h, by simp [SOp.causes, hc]⟩
  refine ⟨t.ok, if t.skipped then "the expectation was skipped"
      else if t.failed then "the expectation failed" else "", ?_, ?_, ?_, ?_, ?_, ?_⟩
  · rw [← hf.1, ← hf.2]; simp [SatT.ok]
  · intro h; rw [if_pos (hf.2.2 h)]
  · intro h
    simp only [SatT.ok, Bool.or_eq_false_iff, Bool.not_eq_false'] at h
    simp [h.1, h.2]
  · intro h
    rw [hcause, not_or] at h
    simp [h.1, h.2]
  · intro h
    unfold Pred.report SatPred.report
    have h1 : (!t.ok && ctx.inverted) = false := by
      rcases h with h | h <;> simp [h]
    simp only [h1, Bool.false_eq_true, if_false]
    rw [hl]
    cases hm : logged t.did with
    | nil => simp
    | cons m ms =>
      simp only [List.isEmpty_cons, Bool.false_eq_true, if_false, reduceCtorEq]
      rw [write_log _ _ "" (by unfold Report.section; rfl)]
      unfold Report.section
      simp [logSection]
  · intro h h'
    unfold Pred.report SatPred.report
    simp [h, h']

/-! ## Instances and counterexamples -/

namespace Demo

/-- `(*satisfyPredicate).Done`. -/
def doneFrame : StackFrame := { func := doneFunc, file := "/testkit/expectation.satisfy.go", line := 93 }

/-- `(*SatisfyT).close`. -/
def closeFrame : StackFrame :=
  { func := "github.com/dogmatiq/testkit.(*SatisfyT).close", file := "/testkit/expectation.satisfy.go",
    line := 368 }

/-- A frame in the user's code. -/
def userFrame (f : String) (line : Nat) : StackFrame :=
  { func := f, file := "/src/account_test.go", line := line, pc := line }

/-- The function calls a helper at line 20, which calls `Helper()` and then `Fail()`. -/
def blameFn : SProg :=
  .op .helper ⟨userFrame "helper" 10, [userFrame "fn" 20, doneFrame]⟩ fun _ =>
    .do_ (.error "bad" true) (st := ⟨userFrame "helper" 11, [userFrame "fn" 20, doneFrame]⟩)
      (.do_ .fail .ret)

theorem blameFn_did : (satDone blameFn {}).1.did =
    [.called .helper ⟨userFrame "helper" 10, [userFrame "fn" 20, doneFrame]⟩] ++
    .called (.error "bad" true) ⟨userFrame "helper" 11, [userFrame "fn" 20, doneFrame]⟩ ::
    [.called .fail plainStack] := rfl

theorem blameFn_stack :
    (⟨userFrame "helper" 11, [userFrame "fn" 20, doneFrame]⟩ : CallStack).UserCode
      [userFrame "helper" 11, userFrame "fn" 20] :=
  ⟨⟨doneFrame, [], rfl, rfl⟩, by decide +kernel, by simp, by decide +kernel⟩

end Demo

/-- The hypotheses of `C84_blame_partial` hold of `Demo.blameFn`, and the blamed frame is that of the call
of the helper. -/
example : (satDone Demo.blameFn {}).1.explanation =
    some "Errorf() called indirectly by call at account_test.go:20" := by
  obtain ⟨f, h1, h2⟩ := C84_blame_partial Demo.blameFn _ _ _ _ Demo.blameFn_did rfl
    (by rintro ⟨o, st, h, hc⟩; simp at h; rw [h.1] at hc; cases hc) _ Demo.blameFn_stack (by decide)
  have : f = Demo.userFrame "fn" 20 := by
    have h : some f = some (Demo.userFrame "fn" 20) := by rw [← h1]; decide +kernel
    exact Option.some.inj h
  subst this
  exact h2 "/src" "account_test.go" rfl (by decide) (by decide +kernel) (by decide)

/-- **C84** fails for deep stacks: the place shown is in a helper although the function that calls
it is not one. -/
theorem C84_deep_fails : ∃ (fn : SProg) (pre : List SEvent) (st : CallStack) (us : List StackFrame),
    (satDone fn {}).1.did = pre ++ [.called .fail st] ∧ ¬ calledSome SOp.causes pre ∧
    st.UserCode us ∧ blamed (helperFuncs pre) us = some (Demo.userFrame "fn" 20) ∧
    (satDone fn {}).1.explanation = some "Fail() called indirectly by call at account_test.go:7" := by
  refine ⟨.op .helper ⟨Demo.userFrame "helper" 10, []⟩ fun _ =>
    .op .fail ⟨Demo.userFrame "helper" 11,
      List.replicate 49 (Demo.userFrame "helper" 7) ++ [Demo.userFrame "fn" 20, Demo.doneFrame]⟩
      fun _ => .ret,
    [.called .helper ⟨Demo.userFrame "helper" 10, []⟩], _,
    Demo.userFrame "helper" 11 :: (List.replicate 49 (Demo.userFrame "helper" 7) ++
      [Demo.userFrame "fn" 20]), rfl, ?_, ?_, ?_, ?_⟩
  · rintro ⟨o, st, h, hc⟩; simp at h; rw [h.1] at hc; cases hc
  · exact ⟨⟨Demo.doneFrame, [], rfl, rfl⟩, by decide +kernel, by simp, by decide +kernel⟩
  · decide +kernel
  · decide +kernel

/-- **C84** fails for cleanup functions that are helpers: the place shown is not in the user's code
but in the package. -/
theorem C84_cleanup_fails : ∃ (fn : SProg),
    (satDone fn {}).1.explanation =
      some "Fail() called indirectly by call at expectation.satisfy.go:368" ∧
    ∀ o st, .called o st ∈ (satDone fn {}).1.did →
      ∃ l, st.frames = [Demo.userFrame "cleanup" l, Demo.closeFrame, Demo.doneFrame] := by
  refine ⟨.cleanup (.do_ .helper (st := ⟨Demo.userFrame "cleanup" 10, [Demo.closeFrame, Demo.doneFrame]⟩)
    (.do_ .fail .ret (st := ⟨Demo.userFrame "cleanup" 11, [Demo.closeFrame, Demo.doneFrame]⟩))) .ret,
    by decide +kernel, ?_⟩
  intro o st h
  have h' : SEvent.called o st ∈ [.registered 0, .cleaning 0,
    .called .helper ⟨Demo.userFrame "cleanup" 10, [Demo.closeFrame, Demo.doneFrame]⟩,
    .called .fail ⟨Demo.userFrame "cleanup" 11, [Demo.closeFrame, Demo.doneFrame]⟩] := h
  simp at h'
  rcases h' with ⟨-, rfl⟩ | ⟨-, rfl⟩
  · exact ⟨10, rfl⟩
  · exact ⟨11, rfl⟩

/-- **C84** says nothing about a method of `SatisfyT` that is itself the function, as in
`ToSatisfy("...", (*SatisfyT).Fail)`: no place is known. -/
example : (satDone (.do_ .fail .ret (st := ⟨Demo.doneFrame, []⟩)) {}).1.explanation =
    some "Fail() called indirectly by call at ???:1" := by decide +kernel

/-- A report with an explanation and logged messages. -/
example (s : PScope) (ctx : RCtx) (h : ctx.inverted = false) :
    ∃ p q, ((Expectation.satisfy "balance" fun _ => Demo.blameFn).build s).2 = .ok p ∧
      (p.observe s []).done = (q, none) ∧
      (q.report ctx).explanation = "Errorf() called indirectly by call at account_test.go:20" ∧
      (q.report ctx).sections = [("Log Messages", "bad\n")] := by
  refine ⟨_, _, rfl, rfl, ?_⟩
  obtain ⟨ok, out, -, -, -, -, h1, -⟩ := C84_report s [] ctx "balance" (fun _ => Demo.blameFn) _ _ rfl rfl
  rw [h1 (.inr h)]
  have h2 : (satDone Demo.blameFn {}).1.explanation.getD "" =
      "Errorf() called indirectly by call at account_test.go:20" := by decide +kernel
  have h3 : logged (satDone Demo.blameFn {}).1.did = ["bad"] := by decide +kernel
  refine ⟨h2, ?_⟩
  simp only [h3]
  decide +kernel

end Verif
