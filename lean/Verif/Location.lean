/-!
# Locations in code

`/repo/location/location.go` 123-217: `OfCall`, `OfPanic`, `eachFrame`.

A call stack is the list of frames as `runtime.Callers(0)` sees it, innermost first: the first frame
is `runtime.Callers` itself, the second one is `eachFrame`, the third one is `OfCall` or `OfPanic`.
Every frame of a stack has a program counter that is not zero.
-/

namespace Verif

/-- `runtime.Frame` (used in `location.go` 124-217).  `pc` is zero in the zero value only. -/
structure StackFrame where
  func : String
  file : String
  line : Nat
  pc : Nat := 1
  deriving DecidableEq, Repr

/-- `Location` (`location.go` 16-29). -/
structure Location where
  func : String
  file : String
  line : Nat
  deriving DecidableEq, Repr

/-- The location of a frame (`location.go` 130-134, 186-190). -/
def StackFrame.location (f : StackFrame) : Location := ⟨f.func, f.file, f.line⟩

/-- The inner loop of `eachFrame` (`location.go` 209-215): `Next` returns a frame whose program
counter is zero when there are no more frames. -/
def framesLoop {σ : Type} (fn : σ → StackFrame → σ × Bool) (s : σ) : List StackFrame → σ
  | [] => s
  | fr :: rest =>
    match fn s fr with
    | (s, true) => framesLoop fn s rest
    | (s, false) => s

/-- `eachFrame` (`location.go` 200-217).  The inner loop ends by returning, so the body of the outer
loop is entered once, with the first eight frames. -/
def eachFrame {σ : Type} (skip : Nat) (fn : σ → StackFrame → σ × Bool) (s : σ) (stack : List StackFrame) : σ :=
  framesLoop fn s ((stack.drop (skip + 2)).take 8)

/-- `OfCall` (`location.go` 124-140). -/
def ofCall (stack : List StackFrame) : Location :=
  eachFrame 2 (fun _ fr => (fr.location, false)) ⟨"", "", 0⟩ stack

/-- `OfPanic` (`location.go` 147-197): the state is `foundPanicCall` and `loc`. -/
def ofPanic (stack : List StackFrame) : Location :=
  (eachFrame 0
    (fun s fr =>
      if fr.func.startsWith "runtime." then
        if fr.func = "runtime.gopanic" then ((true, s.2), true) else (s, true)
      else if !s.1 then (s, true)
      else ((s.1, fr.location), false))
    (false, ⟨"", "", 0⟩) stack).2

end Verif
