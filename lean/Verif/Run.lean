import Verif.Engine

/-!
# The tick loop

`/repo/engine/run.go`.
-/

namespace Verif

variable {W R : Type}

/-- What the loop needs from outside: `linger.Sleep(ctx, d, DefaultTickInterval)`, the order in
which each tick visits the controllers, and `linger.Multiply(·, f)`, which multiplies a duration
by the given factor (`run.go` 17-76). -/
structure RunEnv (W : Type) where
  sleep : W → W × Option Err
  order : W → List HConfig
  multiply : Int → Int

/-- How a run ends: with the error of a tick, or of a sleep (`run.go` 23-40, 52-75). -/
inductive RunErr where
  | tick (e : List EngErr)
  | sleep (e : Err)
  deriving DecidableEq, Repr

/-- The loop of `RunTimeScaled` (`run.go` 69-81); `n` bounds the number of iterations.  The
last result lists the readings of the wall clock. -/
def runLoop (A : App W R) (E : RunEnv W) (fuel : Nat) (start epoch : Time) (os : List OpOption) :
    Nat → Sys W R → Sys W R × Outcome RunErr × List Time
  | 0, s => (s, .running, [])
  | n + 1, s =>
    let now := A.uc.wallClock s.w
    match engTick A fuel (E.order s.w)
        (.currentTime (epoch + E.multiply (now - start)) :: os) s with
    | (s, .panicked v) => (s, .panicked v, [now])
    | (s, .running) => (s, .running, [now])
    | (s, .done (e :: es)) => (s, .done (.tick (e :: es)), [now])
    | (s, .done []) =>
      match E.sleep s.w with
      | (w, some e) => ({ s with w := w }, .done (.sleep e), [now])
      | (w, none) =>
        match runLoop A E fuel start epoch os n { s with w := w } with
        | (s, o, reads) => (s, o, now :: reads)

/-- `RunTimeScaled` (`run.go` 48-82).  `epoch = 0` is Go's zero time. -/
def runTimeScaled (A : App W R) (E : RunEnv W) (fuel n : Nat) (epoch : Time) (os : List OpOption)
    (s : Sys W R) : Sys W R × Outcome RunErr × List Time :=
  let start := A.uc.wallClock s.w
  runLoop A E fuel start (if epoch = 0 then start else epoch) os n s

/-- `Run` (`run.go` 17-31): factor 1, current time. -/
def run (A : App W R) (E : RunEnv W) (fuel n : Nat) (os : List OpOption) (s : Sys W R) :
    Sys W R × Outcome RunErr × List Time :=
  runTimeScaled A { E with multiply := fun x => x } fuel n 0 os s

end Verif
