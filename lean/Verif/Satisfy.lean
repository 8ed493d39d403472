import Verif.Basic
import Verif.Location

/-!
# `SatisfyT`

`/repo/expectation.satisfy.go` 64-94 (predicate) and 132-422 (`SatisfyT`).  The user's function
is an arbitrary program over the methods of `SatisfyT`; each call carries the call stack it is made
on.

Left out: the mutex (one goroutine; see `SatConc`) and `runtime.Goexit`.
-/

namespace Verif

/-- A value in flight in a panic: the package's `abortSentinel`, or anything else
(`expectation.satisfy.go` 157). -/
inductive SPanic where
  | abort
  | user (s : String)
  deriving DecidableEq, Repr

/-- The frames of the call stack from the caller of a method of `SatisfyT` outwards, as
`runtime.CallersFrames` gives them.  There is always at least one (`expectation.satisfy.go`
410-422). -/
structure CallStack where
  top : StackFrame
  below : List StackFrame
  deriving DecidableEq, Repr

/-- The frames, innermost first (`expectation.satisfy.go` 410-422). -/
def CallStack.frames (st : CallStack) : List StackFrame := st.top :: st.below

/-- Calls to methods of `SatisfyT` other than `Cleanup` (lines 161-310).  `Logf` differs from `Log`
only in how the text is made; `f` says that `Errorf`, `Fatalf` or `Skipf` is called instead of
`Error`, `Fatal` or `Skip`. -/
inductive SOp where
  | error (s : String) (f : Bool := false)
  | fail
  | failNow
  | failed
  | fatal (s : String) (f : Bool := false)
  | parallel
  | helper
  | log (s : String)
  | name
  | skip (s : String) (f : Bool := false)
  | skipNow
  | skipped
  deriving DecidableEq, Repr

/-- What the caller of a method learns (lines 161-310). -/
inductive SRes where
  | returned (b : Bool)
  | aborted
  deriving DecidableEq, Repr

/-- A user function: it may call methods of `SatisfyT`, register cleanup functions, panic, and
recover from the panics raised by methods (lines 21-41). -/
inductive SProg where
  | ret
  | panic (v : SPanic)
  | op (o : SOp) (st : CallStack) (k : SRes → SProg)
  | cleanup (fn : SProg) (k : SProg)

/-- A call directly by the function that `Done` calls (`expectation.satisfy.go` 93). -/
def plainStack : CallStack :=
  ⟨{ func := "main.fn", file := "/main.go", line := 1 },
    [{ func := "github.com/dogmatiq/testkit.(*satisfyPredicate).Done",
       file := "expectation.satisfy.go", line := 93 }]⟩

/-- Call a method and let its panic escape (the usual Go code, which does not recover) (no
counterpart in /repo). -/
def SProg.do_ (o : SOp) (k : SProg) (st : CallStack := plainStack) : SProg :=
  .op o st fun
    | .returned _ => k
    | .aborted => .panic .abort

/-- What was done, for specifications: methods called, cleanup functions registered (numbered in
order) and cleanup functions called (lines 161-375). -/
inductive SEvent where
  | called (o : SOp) (st : CallStack)
  | registered (i : Nat)
  | cleaning (i : Nat)
  deriving DecidableEq, Repr

/-- `SatisfyT` (`expectation.satisfy.go` 132-152).  `did` is for specifications. -/
structure SatT where
  skipped : Bool := false
  failed : Bool := false
  explanation : Option String := none
  messages : List String := []
  cleanup : List SProg := []
  helpers : List String := []
  did : List SEvent := []

/-- `log`, `logf` (314-323). -/
def SatT.log (t : SatT) (s : String) : SatT := { t with messages := t.messages ++ [s] }

/-- `t.caller`, which `Done` sets to its own name (91, `callerName(0)`). -/
def doneFunc : String := "github.com/dogmatiq/testkit.(*satisfyPredicate).Done"

/-- The zero value of `runtime.Frame` (380). -/
def zeroFrame : StackFrame := { func := "", file := "", line := 0, pc := 0 }

/-- The loop of `findFrame` (382-399).  When there are no frames left `Next` returns the zero value;
that is for an empty stack only, since the loop ends with the last frame (`more` is false). -/
def findLoop (helpers : List String) (first prev : StackFrame) : List StackFrame → StackFrame × Bool
  | [] => (zeroFrame, decide (zeroFrame = first))
  | frame :: rest =>
    let first := if first.pc = 0 then frame else first
    if frame.func = doneFunc then (prev, decide (prev = first))
    else if !helpers.contains frame.func || rest.isEmpty then (frame, decide (frame = first))
    else findLoop helpers first frame rest

/-- `findFrame` (378-400), with the first 50 frames of the stack. -/
def findFrame (helpers : List String) (st : CallStack) : StackFrame × Bool :=
  findLoop helpers zeroFrame zeroFrame (st.frames.take 50)

/-- `filepath.Base` of a path, on Unix (as used in 350). -/
def pathBase (p : String) : String :=
  match p.toList with
  | [] => "."
  | cs =>
    match cs.reverse.dropWhile (· = '/') with
    | [] => "/"
    | r => String.ofList (r.takeWhile (· ≠ '/')).reverse

/-- Lines 348-362: the text for a frame. -/
def explainText (fn : String) (frame : StackFrame) (direct : Bool) : String :=
  let file := if frame.file = "" then "???" else pathBase frame.file
  let line := if frame.line = 0 then 1 else frame.line
  if direct then fn ++ "() called at " ++ file ++ ":" ++ toString line
  else fn ++ "() called indirectly by call at " ++ file ++ ":" ++ toString line

/-- `explain` (341-363).  `none` stands for the empty explanation. -/
def SatT.explain (t : SatT) (fn : String) (st : CallStack) : SatT :=
  match t.explanation with
  | some _ => t
  | none =>
    match findFrame t.helpers st with
    | (frame, direct) => { t with explanation := some (explainText fn frame direct) }

/-- `fail` (335-338). -/
def SatT.fail (t : SatT) (fn : String) (st : CallStack) : SatT :=
  { t with failed := true }.explain fn st

/-- `skip` (327-331), up to the panic. -/
def SatT.skip (t : SatT) (fn : String) (st : CallStack) : SatT :=
  { t with skipped := true }.explain fn st

/-- The methods of `SatisfyT` (159-311).  `Helper` notes the name of its caller (`callerName(1)`,
403-408). -/
def SOp.exec (t : SatT) (st : CallStack) : SOp → SatT × SRes
  | .error s f => ((t.log s).fail (if f then "Errorf" else "Error") st, .returned false)
  | .fail => (t.fail "Fail" st, .returned false)
  | .failNow => (t.fail "FailNow" st, .aborted)
  | .failed => (t, .returned t.failed)
  | .fatal s f => ((t.log s).fail (if f then "Fatalf" else "Fatal") st, .aborted)
  | .parallel => (t, .returned false)
  | .helper => ({ t with helpers := st.top.func :: t.helpers }, .returned false)
  | .log s => (t.log s, .returned false)
  | .name => (t, .returned false)
  | .skip s f => ((t.log s).skip (if f then "Skipf" else "Skip") st, .aborted)
  | .skipNow => (t.skip "SkipNow" st, .aborted)
  | .skipped => (t, .returned t.skipped)

/-- Note what is being done (specification only). -/
def SatT.note (t : SatT) (e : SEvent) : SatT := { t with did := t.did ++ [e] }

/-- Running a user function; the result is the panic that escapes it.  `Cleanup` is 161-166. -/
def SProg.exec : SProg → SatT → SatT × Option SPanic
  | .ret, t => (t, none)
  | .panic v, t => (t, some v)
  | .op o st k, t =>
    match o.exec (t.note (.called o st)) st with
    | (t, r) => (k r).exec t
  | .cleanup fn k, t =>
    k.exec { t.note (.registered t.cleanup.length) with cleanup := t.cleanup ++ [fn] }

/-- The loop of `close` (366-370): `t.cleanup[i]()` for `i` from `n - 1` down to 0. -/
def SatT.close : Nat → SatT → SatT × Option SPanic
  | 0, t => (t, none)
  | i + 1, t =>
    match t.cleanup[i]? with
    | none => (t, some (.user "index out of range"))
    | some fn =>
      match fn.exec (t.note (.cleaning i)) with
      | (t, some v) => (t, some v)
      | (t, none) => SatT.close i t

/-- The deferred function of `Done` (79-88): which panic goes on. -/
def rethrow : Option SPanic → Option String
  | none => none
  | some .abort => none
  | some (.user s) => some s

/-- `Done` (78-94): runs the function, then (deferred) `close`, then (deferred) recovers.  A
panic in `close` replaces one in the function. -/
def satDone (fn : SProg) (t : SatT) : SatT × Option String :=
  match fn.exec t with
  | (t, r) =>
    match t.close t.cleanup.length with
    | (t, some v) => (t, rethrow (some v))
    | (t, none) => (t, rethrow r)

/-- `Ok` (74-76). -/
def SatT.ok (t : SatT) : Bool := t.skipped || !t.failed

end Verif
