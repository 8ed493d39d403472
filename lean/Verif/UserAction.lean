import Verif.Protocol

/-!
# Actions written by users

`Action` is an interface (`/repo/action.go` 16-54): a test performs whatever implements it.  Here
an implementation is a program that uses its `ActionScope`: the engine, the virtual clock and the
command executor of the test, with whatever options it likes; it may also use the test itself, i.e.
perform further actions with `Prepare()` and `Expect()`.  The built-in actions are such programs
(`Action.asUser`).

Simplifications: as in `Verif.Test`, except that all methods of an `Action` may panic, and that
`Bind`, `Unbind` and `Intercept` may be called by any action.  Actions use no engine but that of the
test.  The panic that comes out of `Fatal()` also comes out of `FailNow()`.  A predicate is given by its answers
after a list of notifications.
-/

namespace Verif

variable {W R P : Type}

/-- The operations of an engine that an action can ask for (`engine/engine.go` 67, 86, 184). -/
inductive EngCall where
  | dispatch (m : Message) (os : List OpOption)
  | tick (os : List OpOption)
  | reset
  deriving Repr

/-- A predicate, by what it answers after having been notified of facts, and then of the end
(`expectation.go` 25-45).  `done` is the panic of `Done()`, if any. -/
structure Judge where
  done : List Fact → Option PanicVal
  ok : List Fact → Except PanicVal Bool
  report : Bool → List Fact → Except PanicVal Report

/-- An expectation (`expectation.go` 8-23). -/
structure Expected where
  caption : Except PanicVal String
  build : PScope → Made Judge

mutual
/-- An implementation of `Action` (`action.go` 16-33). `act` is `Do()`, given the
`OperationOptions` of its scope. -/
inductive UAction (W : Type) where
  | mk (caption : Except PanicVal String) (configure : PredOpts → Except PanicVal PredOpts)
      (act : List OpOption → AProg W)
/-- What `Do()` does (`action.go` 31, 36-54). -/
inductive AProg (W : Type) where
  | ret (e : Option TErr)
  | panic (v : PanicVal)
  | get (k : W → AProg W)
  | set (w : W) (k : AProg W)
  /-- read `*s.VirtualClock` -/
  | clock (k : Time → AProg W)
  /-- write `*s.VirtualClock` -/
  | setClock (c : Time) (k : AProg W)
  /-- a method of `s.Engine` -/
  | op (c : EngCall) (k : TRes → AProg W)
  /-- `s.Executor.Bind(s.Engine, os)` -/
  | bind (os : List OpOption) (k : AProg W)
  /-- `s.Executor.Unbind()` -/
  | unbind (k : AProg W)
  /-- `s.Executor.Intercept(f)` -/
  | intercept (f : Option (Message → IProg W)) (k : Option (Message → IProg W) → AProg W)
  /-- `s.Executor.ExecuteCommand(ctx, m)` -/
  | exec (m : Message) (k : TRes → AProg W)
  /-- `Prepare()` of the test -/
  | prepare (a : UAction W) (k : TRes → AProg W)
  /-- `Expect()` of the test; `o` is the identity of the predicate as an observer -/
  | expect (x : Expected) (o : Nat) (a : UAction W) (k : Except PanicVal Unit → AProg W)
end

/-- `Action.Caption` (`action.go` 19). -/
def UAction.caption : UAction W → Except PanicVal String
  | .mk c _ _ => c

/-- `Action.ConfigurePredicate` (`action.go` 28). -/
def UAction.configure : UAction W → PredOpts → Except PanicVal PredOpts
  | .mk _ f _ => f

/-- `Action.Do` (`action.go` 31). -/
def UAction.act : UAction W → List OpOption → AProg W
  | .mk _ _ f => f

/-- The surroundings of a test, with its application and predicate options (`test.go` 103-106). -/
structure UEnv (W : Type) extends TEnv W where
  scope : PScope

/-- The operation, in the surroundings of the test (`engine/engine.go` 67-238). -/
def EngCall.op (E : TEnv W) (w : W) : EngCall → Op
  | .dispatch m os => .dispatch E.fuel m os
  | .tick os => .tick E.fuel (E.order w) os
  | .reset => .reset

/-- The end of an `Expect()` (`test.go` 121-176), when its action has ended as in `r`; `t` is the
state in which the action began, `j` the predicate. -/
def TSt.judge (j : Judge) (o : Nat) (t : TSt W R) (r : TSt W R × Outcome (Option TErr)) :
    TSt W R × List ECall × EEnd :=
  let fs := toldIn o (r.1.did.drop t.did.length)
  let seen := ECall.build :: fs.map ECall.notify
  match r.2 with
  | .running => (r.1, seen, .running)
  | .panicked v => (r.1, seen ++ [.done], .panicked ((j.done fs).getD v))
  | .done e =>
    match j.done fs with
    | some v => (r.1, seen ++ [.done], .panicked v)
    | none =>
      match e with
      | some e => (r.1.say (.fatal e), seen ++ [.done], .failed)
      | none =>
        match r.1.conclude (j.ok fs) (fun b => j.report b fs) with
        | (t, calls, e) => (t, seen ++ .done :: calls, e)

/-- `Test.Expect` (`test.go` 100-177) with an action of which `cap` and `conf` are the results of its
`Caption()` and `ConfigurePredicate()`, and `act` performs it with additional options. -/
def TSt.expecting (S : PScope) (x : Expected) (o : Nat) (cap : Except PanicVal String)
    (conf : PredOpts → Except PanicVal PredOpts)
    (act : List OpOption → TSt W R → TSt W R × Outcome (Option TErr)) (t : TSt W R) :
    TSt W R × List ECall × EEnd :=
  match conf S.opts with
  | .error v => (t, [], .panicked v)
  | .ok po =>
    match cap, x.caption with
    | .error v, _ => (t, [], .panicked v)
    | .ok _, .error v => (t, [], .panicked v)
    | .ok c, .ok c' =>
      let t := t.say (.log ("--- expect " ++ c ++ " " ++ c' ++ " ---"))
      match x.build { S with opts := po } with
      | .panic v => (t, [.build], .panicked v)
      | .err msg => (t.say (.fatal (.expectation msg)), [.build], .failed)
      | .ok j => t.judge j o (act [.observer o] t)

/-- How the end of an `Expect()` looks to the caller, if it may go on (`test.go` 113-176). -/
def EEnd.back (E : TEnv W) : EEnd → Option (Except PanicVal Unit)
  | .passed => some (.ok ())
  | .failed => some (match E.fatal with
    | none => .ok ()
    | some v => .error v)
  | .panicked v => some (.error v)
  | .running => none

/-- `Prepare()` with one action (`test.go` 86-97). -/
def TSt.preparing (E : TEnv W) (cap : Except PanicVal String)
    (act : TSt W R → TSt W R × Outcome (Option TErr)) (t : TSt W R) :
    TSt W R × Outcome (Option TErr) :=
  match cap with
  | .error v => (t, .panicked v)
  | .ok c => TSt.check E (act (t.say (.log ("--- " ++ c ++ " ---"))))

mutual
/-- `Test.doAction` (`test.go` 303-320). -/
def UAction.run (A : App W R) (E : UEnv W) : UAction W → List OpOption → TSt W R →
    TSt W R × Outcome (Option TErr)
  | .mk _ _ act, extra, t => (act (t.actOpts extra)).run A E t
/-- What the program of an action does (`action.go` 31-54, `/repo/executor.go` 28-88). -/
def AProg.run (A : App W R) (E : UEnv W) : AProg W → TSt W R → TSt W R × Outcome (Option TErr)
  | .ret e, t => (t, .done e)
  | .panic v, t => (t, .panicked v)
  | .get k, t => (k t.sys.w).run A E t
  | .set w k, t => k.run A E { t with sys := { t.sys with w := w } }
  | .clock k, t => (k t.clock).run A E t
  | .setClock c k, t => k.run A E { t with clock := c }
  | .op c k, t =>
    match t.engine A (c.op E.toTEnv t.sys.w) with
    | (t, .done e) => (k (.ok e)).run A E t
    | (t, .panicked v) => (k (.error v)).run A E t
    | (t, .running) => (t, .running)
  | .bind os k, t => k.run A E { t with bound := some os }
  | .unbind k, t => k.run A E { t with bound := none }
  | .intercept f k, t => (k t.icept).run A E { t with icept := f }
  | .exec m k, t =>
    match t.execute A E.toTEnv m with
    | (t, .done e) => (k (.ok e)).run A E t
    | (t, .panicked v) => (k (.error v)).run A E t
    | (t, .running) => (t, .running)
  | .prepare a k, t =>
    match t.preparing E.toTEnv a.caption (a.run A E []) with
    | (t, .done e) => (k (.ok e)).run A E t
    | (t, .panicked v) => (k (.error v)).run A E t
    | (t, .running) => (t, .running)
  | .expect x o a k, t =>
    match t.expecting E.scope x o a.caption a.configure (fun os => a.run A E os) with
    | (t, _, e) =>
      match e.back E.toTEnv with
      | some r => (k r).run A E t
      | none => (t, .running)
end

/-- `Prepare()` (`test.go` 86-97). -/
def TSt.prepareU (A : App W R) (E : UEnv W) (a : UAction W) (t : TSt W R) :
    TSt W R × Outcome (Option TErr) := t.preparing E.toTEnv a.caption (a.run A E [])

/-- `Expect()` (`test.go` 100-177). -/
def TSt.expectU (A : App W R) (E : UEnv W) (x : Expected) (o : Nat) (a : UAction W) (t : TSt W R) :
    TSt W R × List ECall × EEnd :=
  t.expecting E.scope x o a.caption a.configure (fun os => a.run A E os)

/-! ## Built-in actions -/

/-- Give back what was returned, or the panic (no counterpart in /repo). -/
def AProg.ofRes : TRes → AProg W
  | .ok e => .ret e
  | .error v => .panic v

/-- The first program and then, however it ended, the second one (a `defer`, or statements in
sequence; no counterpart in /repo). -/
def AProg.andThen (κ : TRes → AProg W) : AProg W → AProg W
  | .ret e => κ (.ok e)
  | .panic v => κ (.error v)
  | .get k => .get fun w => (k w).andThen κ
  | .set w k => .set w (k.andThen κ)
  | .clock k => .clock fun c => (k c).andThen κ
  | .setClock c k => .setClock c (k.andThen κ)
  | .op c k => .op c fun r => (k r).andThen κ
  | .bind os k => .bind os (k.andThen κ)
  | .unbind k => .unbind (k.andThen κ)
  | .intercept f k => .intercept f fun p => (k p).andThen κ
  | .exec m k => .exec m fun r => (k r).andThen κ
  | .prepare a k => .prepare a fun r => (k r).andThen κ
  | .expect x o a k => .expect x o a fun r => (k r).andThen κ

/-- After the function given to `Call()`: its panic, or no error (`action.call.go` 80-82). -/
def AProg.afterCall : TRes → AProg W
  | .ok _ => .ret none
  | .error v => .panic v

mutual
/-- The built-in actions (`action.dispatch.go` 57-89, `action.advancetime.go` 75-110,
`action.call.go` 57-83). -/
def Action.asUser (A : App W R) : Action W → UAction W
  | .dispatch m => .mk (.ok (Action.dispatch m : Action W).caption) .ok fun os =>
    if A.uses m.type then .op (.dispatch m os) .ofRes
    else .ret (some (.unrecognised m.type))
  | .advance desc step => .mk (.ok (Action.advance desc step).caption) .ok fun os =>
    .clock fun c => .get fun w =>
      match step c w with
      | (w, .error v) => .set w (.panic v)
      | (w, .ok now) =>
        .set w (if now < c then .ret (some (.reversed desc))
          else .setClock now (.op (.tick (os ++ [.currentTime now])) .ofRes))
  | .call fn ic => .mk (.ok "calling user-defined function")
    (fun o => .ok { o with matchDispatch := true }) fun os =>
    .bind os <|
      match ic with
      | none => (fn.asUser A).andThen fun r => .unbind (.afterCall r)
      | some f =>
        .intercept (some f) fun prev =>
          (fn.asUser A).andThen fun r => .intercept prev fun _ => .unbind (.afterCall r)
/-- Functions given to `Call()` (`action.call.go` 27, 80). -/
def CProg.asUser (A : App W R) : CProg W → AProg W
  | .ret => .ret none
  | .panic v => .panic v
  | .get k => .get fun w => (k w).asUser A
  | .set w k => .set w (k.asUser A)
  | .exec m k => .exec m fun r => (k r).asUser A
  | .act a k => .prepare (a.asUser A) fun r => (k r).asUser A
end

/-- An implementation of `Expectation` by its answers (`expectation.go` 8-45). -/
def Expecting.asUser (X : Expecting P) : Expected where
  caption := X.caption
  build s :=
    match X.build s with
    | .panic v => .panic v
    | .err m => .err m
    | .ok p =>
      let fin := fun fs : List Fact => X.done (fs.foldl (fun p f => X.notify s f p) p)
      .ok ⟨fun fs => (fin fs).2, fun fs => X.ok (fin fs).1, fun b fs => X.report b (fin fs).1⟩

end Verif
