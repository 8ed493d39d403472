import Verif.Sys

/-!
# Projection controller

`/repo/engine/internal/projection/controller.go`, `scope.go`.

`ResourceVersion`, `HandleEvent` and `CloseResource` are given the message ID as
resource.  When compaction runs in parallel with `HandleEvent`, the two programs
are interleaved by an arbitrary schedule.  Simplifications: an escaping panic of
`HandleEvent` abandons the compaction goroutine at that point (in Go it would
linger in the background); a panic of the compaction goroutine kills the process.
-/

namespace Verif

variable {W R : Type}

/-- `CompactInterval`, one hour in nanoseconds (`controller.go` 20). -/
def compactInterval : Int := 3600000000000

/-- The largest and smallest `time.Duration` (used by `projection/controller.go` 43). -/
def maxDuration : Int := 9223372036854775807
def minDuration : Int := -9223372036854775808

/-- `time.Time.Sub`: the difference, saturating (used by `projection/controller.go` 43). -/
def timeSub (a b : Time) : Int :=
  if a - b > maxDuration then maxDuration
  else if a - b < minDuration then minDuration
  else a - b

/-- One step of a projection program; `env` is the event being handled, or
`none` when compacting.  The only scope operation is `Log` (`scope.go` 30-37). -/
def prjStep {α : Type} (h : HConfig) (env : Option Env) :
    Prog W PrjOp α → Sys W R → Prog W PrjOp α × Sys W R
  | .ret a, s => (.ret a, s)
  | .panic v, s => (.panic v, s)
  | .get k, s => (k s.w, s)
  | .set w k, s => (k, { s with w := w })
  | .op (.log t) k, s => (k none, s.notify (.prjLog h env t))

/-- Run a projection program to its end (`projection/controller.go` 38-181). -/
def prjRun {α : Type} (h : HConfig) (env : Option Env) :
    Prog W PrjOp α → Sys W R → Sys W R × Except PanicVal α
  | .ret a, s => (s, .ok a)
  | .panic v, s => (s, .error v)
  | .get k, s => prjRun h env (k s.w) s
  | .set w k, s => prjRun h env k { s with w := w }
  | .op (.log t) k, s => prjRun h env (k none) (s.notify (.prjLog h env t))

/-- `HandleEvent` and `Compact` in parallel (`controller.go` 104-156), under a
schedule.  When the schedule is used up the handler finishes, then the
compaction; so every interleaving is covered by some schedule. -/
def prjPar (h : HConfig) (env : Env) :
    List Bool → Prog W PrjOp (Except Err Bool) → Prog W PrjOp (Option Err) → Sys W R →
    Sys W R × Except PanicVal (Except Err Bool × Option Err)
  | [], hp, cp, s =>
    match prjRun h (some env) hp s with
    | (s, .error v) => (s, .error (enrich h "ProjectionMessageHandler" "HandleEvent" env.msg v))
    | (s, .ok r) =>
      match prjRun h none cp s with
      | (s, .error _) => (s, .error (.crash "compaction goroutine"))
      | (s, .ok ce) => (s, .ok (r, ce))
  | b :: bs, hp, cp, s =>
    match cp, hp with
    | .panic _, _ => (s, .error (.crash "compaction goroutine"))
    | _, .panic v => (s, .error (enrich h "ProjectionMessageHandler" "HandleEvent" env.msg v))
    | cp, hp =>
      if b then
        match prjStep h none cp s with
        | (cp, s) => prjPar h env bs hp cp s
      else
        match prjStep h (some env) hp s with
        | (hp, s) => prjPar h env bs hp cp s

/-- `HandleEvent`, with or without parallel compaction (`controller.go` 99-163). -/
def prjApply (A : App W R) (h : HConfig) (now : Time) (env : Env) (s : Sys W R) :
    Sys W R × Except PanicVal (Except Err Bool × Option Err) :=
  if A.compactDuringHandling then
    match prjPar h env (A.uc.schedule s.w)
        (A.uc.prjHandle h env.id [] [1] env.msg env.createdAt) (A.uc.prjCompact h now)
        (((s.notify (.prjCompactBegun h)).emit (.call (.prjCompact h now))).emit
          (.call (.prjHandle h env.id [] [1] env.msg))) with
    | (s, .error v) => (s, .error v)
    | (s, .ok (r, ce)) => (s.notify (.prjCompactCompleted h ce), .ok (r, ce))
  else
    match prjRun h (some env) (A.uc.prjHandle h env.id [] [1] env.msg env.createdAt)
        (s.emit (.call (.prjHandle h env.id [] [1] env.msg))) with
    | (s, .error v) => (s, .error (enrich h "ProjectionMessageHandler" "HandleEvent" env.msg v))
    | (s, .ok r) => (s, .ok (r, none))

/-- What follows `HandleEvent` (`controller.go` 165-180). -/
def prjFinish (A : App W R) (h : HConfig) (env : Env) (r : Except Err Bool) (ce : Option Err)
    (s : Sys W R) : Sys W R × HRes :=
  match r with
  | .error e => (s, .ok ([], some e))
  | .ok false => (s, .ok ([], ce))
  | .ok true =>
    match s.user (.prjClose h env.id) (A.uc.prjClose h env.id) with
    | (s, .error v) => (s, .error v)
    | (s, .ok (some e)) => (s, .ok ([], some e))
    | (s, .ok none) => (s, .ok ([], ce))

/-- `Controller.Handle` (`controller.go` 71-181). -/
def prjHandle (A : App W R) (h : HConfig) (now : Time) (env : Env)
    (s : Sys W R) : Sys W R × HRes :=
  if h.consumes? env.msg = false then (s, .error (.internal "does not handle"))
  else if env.msg.type.kind ≠ .event then (s, .error (.internal "not an event"))
  else
    match s.user (.prjVersion h env.id) (A.uc.prjVersion h env.id) with
    | (s, .error v) => (s, .error v)
    | (s, .ok (.error e)) => (s, .ok ([], some e))
    | (s, .ok (.ok (_ :: _))) => (s, .ok ([], none))
    | (s, .ok (.ok [])) =>
      match prjApply A h now env s with
      | (s, .error v) => (s, .error v)
      | (s, .ok (r, ce)) => prjFinish A h env r ce s

/-- `Controller.Tick` (`controller.go` 38-68). -/
def prjTick (A : App W R) (h : HConfig) (now : Time) (s : Sys W R) :
    Sys W R × Except PanicVal (Option Err) :=
  if timeSub now (s.lastCompact h.name) ≥ compactInterval then
    let s := { s with lastCompact := upd s.lastCompact h.name now }
    match prjRun h none (A.uc.prjCompact h now)
        ((s.notify (.prjCompactBegun h)).emit (.call (.prjCompact h now))) with
    | (s, .error v) => (s, .error v)
    | (s, .ok e) => (s.notify (.prjCompactCompleted h e), .ok e)
  else (s, .ok none)

end Verif
