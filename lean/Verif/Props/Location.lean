import Verif.Location

/-!
# Where a panic or a call came from (C70)
-/

namespace Verif

/-! ## Specification -/

/-- The frame that called `panic`, if any: the first frame outside of the runtime that is below a
call of `runtime.gopanic`. -/
def panicSite (stack : List StackFrame) : Option StackFrame :=
  (stack.dropWhile (fun f => f.func ≠ "runtime.gopanic")).find?
    (fun f => ¬ f.func.startsWith "runtime.")

/-! ## Lemmas -/

/-- The visitor of `ofPanic`. -/
def panicVisitor (s : Bool × Location) (fr : StackFrame) : (Bool × Location) × Bool :=
  if fr.func.startsWith "runtime." then
    if fr.func = "runtime.gopanic" then ((true, s.2), true) else (s, true)
  else if !s.1 then (s, true)
  else ((s.1, fr.location), false)

theorem visit_found (l : List StackFrame) (loc : Location) :
    (framesLoop panicVisitor (true, loc) l).2 =
      ((l.find? (fun f => ¬ f.func.startsWith "runtime.")).map StackFrame.location).getD loc := by
  induction l with
  | nil => rfl
  | cons f l ih =>
    unfold framesLoop
    by_cases h : f.func.startsWith "runtime." = true
    · have e : panicVisitor (true, loc) f = ((true, loc), true) := by
        unfold panicVisitor; rw [if_pos h]; simp
      rw [e]
      simp only
      rw [ih]
      have hp : decide (¬ f.func.startsWith "runtime." = true) = false := by
        rw [h]; rfl
      rw [List.find?_cons, hp]
    · have e : panicVisitor (true, loc) f = ((true, f.location), false) := by
        unfold panicVisitor; rw [if_neg h]; simp
      have hp : decide (¬ f.func.startsWith "runtime." = true) = true := decide_eq_true h
      rw [e, List.find?_cons, hp]
      rfl

theorem gopanic_runtime : "runtime.gopanic".startsWith "runtime." = true := by decide +kernel

theorem visit_start (l : List StackFrame) (loc : Location) :
    (framesLoop panicVisitor (false, loc) l).2 = ((panicSite l).map StackFrame.location).getD loc := by
  induction l with
  | nil => rfl
  | cons f l ih =>
    unfold framesLoop
    by_cases hg : f.func = "runtime.gopanic"
    · have e : panicVisitor (false, loc) f = ((true, loc), true) := by
        unfold panicVisitor; rw [hg, if_pos gopanic_runtime]; simp
      rw [e]
      simp only
      rw [visit_found]
      have hd : (f :: l).dropWhile (fun f => f.func ≠ "runtime.gopanic") = f :: l := by
        simp [hg]
      unfold panicSite
      rw [hd, List.find?_cons, hg, gopanic_runtime]
      simp
    · have e : panicVisitor (false, loc) f = ((false, loc), true) := by
        unfold panicVisitor
        simp only [if_neg hg]
        split <;> rfl
      rw [e]
      simp only
      rw [ih]
      have hd : panicSite (f :: l) = panicSite l := by
        unfold panicSite; simp [hg]
      rw [hd]

theorem find_prefix {α : Type} (p : α → Bool) (a b : List α) :
    ∀ x, a.find? p = some x → (a ++ b).find? p = some x := by
  intro x h
  rw [List.find?_append, h]; rfl

theorem panicSite_prefix (a b : List StackFrame) (x : StackFrame) (h : panicSite a = some x) :
    panicSite (a ++ b) = some x := by
  unfold panicSite at h ⊢
  rw [List.dropWhile_append]
  split
  · rename_i he
    rw [List.isEmpty_iff.1 he] at h
    exact nomatch h
  · exact find_prefix _ _ _ _ h

theorem ofPanic_eq (c e : StackFrame) (stack : List StackFrame) :
    ofPanic (c :: e :: stack) =
      ((panicSite (stack.take 8)).map StackFrame.location).getD ⟨"", "", 0⟩ :=
  visit_start (stack.take 8) ⟨"", "", 0⟩

/-! ## Properties -/

/-- **C70** `OfPanic` reports the frame that called `panic`, if this frame is among the first eight
ones (`OfPanic` itself is the first one); otherwise it reports nothing.  Missing: frames further
down, see `C70_deep_fails`. -/
theorem C70_site_partial (callers each : StackFrame) (stack : List StackFrame) (site : StackFrame)
    (hs : panicSite stack = some site) :
    ofPanic (callers :: each :: stack) =
      if panicSite (stack.take 8) = some site then site.location else ⟨"", "", 0⟩ := by
  rw [ofPanic_eq]
  cases h : panicSite (stack.take 8) with
  | none => simp
  | some x =>
    have := panicSite_prefix _ (stack.drop 8) x h
    rw [List.take_append_drop, hs] at this
    cases this
    simp

/-- **C70** Nothing is made up: if there was no panic, or no frame outside of the runtime below it,
`OfPanic` reports nothing. -/
theorem C70_none (callers each : StackFrame) (stack : List StackFrame) (hs : panicSite stack = none) :
    ofPanic (callers :: each :: stack) = ⟨"", "", 0⟩ := by
  rw [ofPanic_eq]
  cases h : panicSite (stack.take 8) with
  | none => rfl
  | some x =>
    have := panicSite_prefix _ (stack.drop 8) x h
    rw [List.take_append_drop, hs] at this
    exact nomatch this

/-- **C70** The only use the engine makes of it: `EnrichUnexpectedMessage` calls `OfPanic` in a
deferred function of its own, which the runtime runs on top of the code that called `panic`.  Then
the reported location is that of the code that called `panic`, however deep the stack is. -/
theorem C70_enrich (callers each own deferred : StackFrame) (site : StackFrame) (below : List StackFrame)
    (gopanic : StackFrame) (hg : gopanic.func = "runtime.gopanic")
    (ho : own.func = "github.com/dogmatiq/testkit/location.OfPanic")
    (hd : deferred.func =
      "github.com/dogmatiq/testkit/engine/internal/panicx.EnrichUnexpectedMessage.func1")
    (hs : site.func.startsWith "runtime." = false) :
    ofPanic (callers :: each :: own :: deferred :: gopanic :: site :: below) = site.location := by
  rw [ofPanic_eq]
  have h1 : own.func ≠ "runtime.gopanic" := by rw [ho]; decide
  have h2 : deferred.func ≠ "runtime.gopanic" := by rw [hd]; decide
  have hp : decide (¬ site.func.startsWith "runtime." = true) = true := by rw [hs]; rfl
  have hq : decide (¬ gopanic.func.startsWith "runtime." = true) = false := by
    rw [hg, gopanic_runtime]; rfl
  have e : panicSite ((own :: deferred :: gopanic :: site :: below).take 8) = some site := by
    have e1 : ((own :: deferred :: gopanic :: site :: below).take 8).dropWhile
        (fun f => f.func ≠ "runtime.gopanic") = gopanic :: site :: below.take 4 := by
      simp [h1, h2, hg]
    unfold panicSite
    rw [e1, List.find?_cons, hq]
    simp only
    rw [List.find?_cons, hp]
  rw [e]
  rfl

/-- **C70** `OfCall` reports the frame from which its caller was called. -/
theorem C70_call (callers each own caller site : StackFrame) (below : List StackFrame) :
    ofCall (callers :: each :: own :: caller :: site :: below) = site.location := rfl

/-! ## Instances -/

namespace Demo

/-- A frame of some function. -/
def fr (name : String) : StackFrame := { func := name, file := name ++ ".go", line := 1 }

/-- A stack with `k` calls between the deferred function and `OfPanic`. -/
def panicking (k : Nat) : List StackFrame :=
  [fr "runtime.Callers", fr "location.eachFrame", fr "location.OfPanic"] ++
  List.replicate k (fr "helper") ++
  [fr "deferred", fr "runtime.gopanic", fr "runtime.panicmem", fr "handler", fr "main"]

end Demo

example : panicSite ((Demo.panicking 2).drop 2) = some (Demo.fr "handler") := by decide +kernel

example : ofPanic (Demo.panicking 2) = (Demo.fr "handler").location := by decide +kernel

/-- **C70** For deeper stacks the claim is false: with six calls between the deferred function and
`OfPanic` the panic is not found. -/
theorem C70_deep_fails : panicSite ((Demo.panicking 6).drop 2) = some (Demo.fr "handler") ∧
    ofPanic (Demo.panicking 6) = ⟨"", "", 0⟩ := by
  decide +kernel

end Verif
