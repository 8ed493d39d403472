import Verif.Memory

/-!
# The engine, with its messages in slices

`Verif.Engine` once more, with the queue, the pending timeouts, the histories and what scopes collect in slices
(`Verif.Memory`) instead of lists: `/repo/engine/engine.go` 67-341, `internal/aggregate/controller.go` 42-165,
`internal/process/controller.go` 35-295, `internal/integration/controller.go` 39-80.

Simplification: what a scope collects is appended to its slices when the method of the handler has returned, all
commands first, then the timeouts.  While the method runs nothing else is appended anywhere.
-/

namespace Verif.Sliced

open Verif.Memory (Use Done Stmt Mem Field)

variable {W R : Type}

/-- The engine, with memory.  Which instances exist, and everything else that is not a slice, is in `sys`; the lists in
`sys` are of no account.  `scopes` is the number of scopes made so far (the same structs as in `Verif.Sys`). -/
structure Sys' (W R : Type) where
  sys : Sys W R
  st : Memory.St Env
  scopes : Nat

/-- What the code sees when it reads its slices (`internal/aggregate/controller.go` 80, 95, `internal/process/controller.go`
43, 288). -/
def Sys'.load (x : Sys' W R) : Sys W R :=
  { x.sys with
    agg := fun n i => (x.sys.agg n i).map (fun _ => x.st.get (.history n i))
    proc := fun n => ⟨(x.sys.proc n).inst, x.st.get (.timeouts n)⟩ }

/-- What has been collected by the scope of a handling, and how the handling ends. -/
structure End where
  uses : List (Use Env)
  done : Done Env

/-- Nothing to dispatch. -/
def End.nothing : End := ⟨[], .nothing⟩

/-- Result of a handling: a panic, or what it leaves and the error it returns. -/
abbrev Res := Except PanicVal (End × Option Err)

/-- The events of a scope. -/
def eventsOf (k : Nat) (es : List Env) : List (Use Env) := es.map (fun e => ⟨k, .events, e⟩)

/-- As `aggInvoke`; the history is kept as a slice (`internal/aggregate/controller.go` 124-160). -/
def aggInvokeS (A : App W R) (h : HConfig) (id : String) (now : Time) (env : Env) (k : Nat)
    (r : R) (ex : Bool) (s : Sys W R) : Sys W R × Res :=
  match aggRun A h id now env (A.uc.aggHandle h id r env.msg)
      (s.emit (.call (.aggHandle h id r env.msg))) ⟨some r, ex, false, [], true⟩ with
  | (s, _, some v) => (s, .error (enrich h "AggregateMessageHandler" "HandleCommand" env.msg v))
  | (s, sc, none) =>
    if sc.exists_ then
      ({ s with agg := upd s.agg h.name (upd (s.agg h.name) id (some [])) },
        .ok (⟨eventsOf k sc.events, .aggKept h.name id k⟩, none))
    else
      ({ s with agg := upd s.agg h.name (upd (s.agg h.name) id none) },
        .ok (⟨eventsOf k sc.events, .aggGone h.name id k⟩, none))

/-- As `aggWithID` (`internal/aggregate/controller.go` 80-160). -/
def aggWithIDS (A : App W R) (h : HConfig) (id : String) (now : Time) (env : Env) (k : Nat)
    (s : Sys W R) : Sys W R × Res :=
  match s.user (.aggNew h) (A.uc.aggNew h) with
  | (s, .error v) => (s, .error v)
  | (s, .ok none) =>
    (s, .error (.behavior h.name "AggregateMessageHandler" "New" env.msg "returned a nil AggregateRoot"))
  | (s, .ok (some r)) =>
    match s.agg h.name id with
    | some hist =>
      match aggReplay A h hist r s with
      | (s, .error v) => (s, .error v)
      | (s, .ok r) => aggInvokeS A h id now env k r true (s.notify (.aggLoaded h id env))
    | none => aggInvokeS A h id now env k r false (s.notify (.aggNotFound h id env))

/-- As `aggHandle` (`internal/aggregate/controller.go` 42-160). -/
def aggHandleS (A : App W R) (h : HConfig) (now : Time) (env : Env) (k : Nat)
    (s : Sys W R) : Sys W R × Res :=
  if h.consumes? env.msg = false then (s, .error (.internal "does not handle"))
  else if env.msg.type.kind ≠ .command then (s, .error (.internal "not a command"))
  else
    match s.user (.aggRoute h env.msg) (A.uc.aggRoute h env.msg) with
    | (s, .error v) =>
      (s, .error (enrich h "AggregateMessageHandler" "RouteCommandToInstance" env.msg v))
    | (s, .ok id) =>
      if id = "" then
        (s, .error (.behavior h.name "AggregateMessageHandler" "RouteCommandToInstance" env.msg
          (emptyIDText "a command" env.msg)))
      else aggWithIDS A h id now env k s

/-- As `procInvoke`; the pending timeouts are kept as a slice (`internal/process/controller.go` 116-147). -/
def procInvokeS (A : App W R) (h : HConfig) (id : String) (now : Time) (env : Env) (k : Nat)
    (r : R) (existed : Bool) (s : Sys W R) : Sys W R × Res :=
  match procRun h id now env (A.uc.procHandle h id r env.msg (procSeenTime env))
      (s.emit (.call (.procHandle h id r env.msg (procSeenTime env)))) ⟨r, false, [], [], []⟩ with
  | (s, sc, .error v) =>
    (procAlias h id existed s sc.root,
      .error (enrich h "ProcessMessageHandler" (procMethod env) env.msg v))
  | (s, sc, .ok (some e)) => (procAlias h id existed s sc.root, .ok (.nothing, some e))
  | (s, sc, .ok none) =>
    let us : List (Use Env) := sc.commands.map (fun e => ⟨k, .commands, e⟩) ++ sc.ready.map (fun e => ⟨k, .ready, e⟩) ++
      sc.pending.map (fun e => ⟨k, .pending, e⟩)
    if sc.ended then
      if existed then
        (s.setProc h ⟨upd (s.proc h.name).inst id none, []⟩, .ok (⟨us, .deleted h.name k (fun e => !e.ofInstance id)⟩, none))
      else (s, .ok (⟨us, .ended h.name k⟩, none))
    else
      (s.setProc h ⟨upd (s.proc h.name).inst id (some sc.root), []⟩, .ok (⟨us, .process h.name k A.sort.sort⟩, none))

/-- As `procWithID` (`internal/process/controller.go` 78-147). -/
def procWithIDS (A : App W R) (h : HConfig) (id : String) (now : Time) (env : Env) (k : Nat)
    (s : Sys W R) : Sys W R × Res :=
  match (s.proc h.name).inst id with
  | some r => procInvokeS A h id now env k r true (s.notify (.procLoaded h id env))
  | none =>
    match (s.notify (.procNotFound h id env)).user (.procNew h) (A.uc.procNew h) with
    | (s, .error v) => (s, .error v)
    | (s, .ok none) =>
      (s.notify (.procBegun h id env),
        .error (.behavior h.name "ProcessMessageHandler" "New" env.msg
          "returned a nil ProcessRoot"))
    | (s, .ok (some r)) =>
      procInvokeS A h id now env k r false (s.notify (.procBegun h id env))

/-- As `procHandle` (`internal/process/controller.go` 61-238). -/
def procHandleS (A : App W R) (h : HConfig) (now : Time) (env : Env) (k : Nat)
    (s : Sys W R) : Sys W R × Res :=
  if h.consumes? env.msg = false then (s, .error (.internal "does not handle"))
  else
    match env.msg.type.kind with
    | .command => (s, .error (.internal "no callback for commands"))
    | .event =>
      match s.user (.procRoute h env.msg) (A.uc.procRoute h env.msg) with
      | (s, .error v) =>
        (s, .error (enrich h "ProcessMessageHandler" "RouteEventToInstance" env.msg v))
      | (s, .ok (.error e)) => (s, .ok (.nothing, some e))
      | (s, .ok (.ok none)) => (s.notify (.procEventIgnored h env), .ok (.nothing, none))
      | (s, .ok (.ok (some id))) =>
        if id = "" then
          (s, .error (.behavior h.name "ProcessMessageHandler" "RouteEventToInstance" env.msg
            (emptyIDText "an event" env.msg)))
        else procWithIDS A h id now env k s
    | .timeout =>
      match env.origin with
      | none => (s, .error (.internal "nil pointer dereference"))
      | some o =>
        match (s.proc h.name).inst o.instanceID with
        | some _ => procWithIDS A h o.instanceID now env k s
        | none => (s.notify (.procTimeoutIgnored h o.instanceID env), .ok (.nothing, none))

/-- As `intHandle` (`internal/integration/controller.go` 39-76). -/
def intHandleS (A : App W R) (h : HConfig) (now : Time) (env : Env) (k : Nat)
    (s : Sys W R) : Sys W R × Res :=
  if h.consumes? env.msg = false then (s, .error (.internal "does not handle"))
  else if env.msg.type.kind ≠ .command then (s, .error (.internal "not a command"))
  else
    match intRun h now env (A.uc.intHandle h env.msg)
        (s.emit (.call (.intHandle h env.msg))) [] with
    | (s, _, .error v) =>
      (s, .error (enrich h "IntegrationMessageHandler" "HandleCommand" env.msg v))
    | (s, evs, .ok e) => (s, .ok (⟨eventsOf k evs, .integration k⟩, e))

/-- As `ctlHandle`; projections return no messages (`/repo/engine/controller.go` 31-45,
`internal/projection/controller.go` 71-181). -/
def ctlHandleS (A : App W R) (h : HConfig) (now : Time) (env : Env) (k : Nat) (s : Sys W R) : Sys W R × Res :=
  match h.htype with
  | .aggregate => aggHandleS A h now env k s
  | .process => procHandleS A h now env k s
  | .integration => intHandleS A h now env k s
  | .projection =>
    match prjHandle A h now env s with
    | (s, .error v) => (s, .error v)
    | (s, .ok (_, e)) => (s, .ok (.nothing, e))

/-- As `handleOne`, and the append to the queue (`engine.go` 272-273, 305-341). -/
def handleOneS (grow : Nat → Nat → Nat) (A : App W R) (oo : OpOpts) (env : Env) (h : HConfig) (x : Sys' W R) :
    Sys' W R × Except PanicVal (Option Err) :=
  match skipHandler oo h with
  | some r =>
    (⟨x.sys.notify (.handlingSkipped h env r), (Stmt.handled .nothing []).exec grow x.st, x.scopes⟩, .ok none)
  | none =>
    match ctlHandleS A h oo.now env x.scopes (x.load.notify (.handlingBegun h env)) with
    | (s, .error v) => (⟨s, x.st, x.scopes⟩, .error v)
    | (s, .ok (d, e)) =>
      (⟨s.notify (.handlingCompleted h env e),
        (Stmt.handled d.done []).exec grow (d.uses.foldl (fun st u => u.exec grow st) x.st), x.scopes + 1⟩, .ok e)

/-- As `handleAll` (`engine.go` 270-286). -/
def handleAllS (grow : Nat → Nat → Nat) (A : App W R) (oo : OpOpts) (env : Env) :
    List HConfig → List EngErr → Sys' W R → Sys' W R × Except PanicVal (List EngErr)
  | [], de, x => (x, .ok de)
  | h :: hs, de, x =>
    match handleOneS grow A oo env h x with
    | (x, .error v) => (x, .error v)
    | (x, .ok e) => handleAllS grow A oo env hs (de ++ tagErr h e) x

/-- Add a fact to the trace. -/
def Sys'.notify (x : Sys' W R) (f : Fact) : Sys' W R := { x with sys := x.sys.notify f }

/-- As `dispatchLoop` (`engine.go` 240-303). -/
def dispatchLoopS (grow : Nat → Nat → Nat) (A : App W R) (oo : OpOpts) :
    Nat → List EngErr → Sys' W R → Sys' W R × Outcome (List EngErr)
  | n, errs, x =>
    if (x.st.at_ .queue).len = 0 then (x, .done errs)
    else
      match n with
      | 0 => (x, .running)
      | n + 1 =>
        let env := x.st.mem.cell (x.st.at_ .queue).arr (x.st.at_ .queue).off
        let x := { x with st := Stmt.next.exec grow x.st }
        match A.targets env with
        | .error v => (x, .panicked v)
        | .ok hs =>
          match handleAllS grow A oo env hs [] (x.notify (.dispatchBegun env)) with
          | (x, .error v) => (x, .panicked v)
          | (x, .ok de) =>
            let x := x.notify (.dispatchCompleted env de)
            match A.uc.ctxErr x.sys.w with
            | some e => (x, .done [.ctx e])
            | none => dispatchLoopS grow A oo n (errs ++ de) x

/-- As `ctlTick`, and the append to the queue (`engine.go` 144-145, `internal/process/controller.go` 35-58). -/
def ctlTickS (grow : Nat → Nat → Nat) (A : App W R) (h : HConfig) (now : Time) (x : Sys' W R) :
    Sys' W R × Except PanicVal (Option Err) :=
  match h.htype with
  | .process =>
    ({ x with st := (Stmt.tickProcess h.name (fun e => decide (e.scheduledFor ≤ now))).exec grow x.st }, .ok none)
  | .projection =>
    match prjTick A h now x.load with
    | (s, .error v) => ({ x with sys := s }, .error v)
    | (s, .ok e) => (⟨s, (Stmt.handled .nothing []).exec grow x.st, x.scopes⟩, .ok e)
  | _ => ({ x with st := (Stmt.handled .nothing []).exec grow x.st }, .ok none)

/-- As `tickAll` (`engine.go` 126-167). -/
def tickAllS (grow : Nat → Nat → Nat) (A : App W R) (oo : OpOpts) :
    List HConfig → List EngErr → Sys' W R → Sys' W R × Except PanicVal (List EngErr × Option Err)
  | [], errs, x => (x, .ok (errs, none))
  | h :: hs, errs, x =>
    match skipHandler oo h with
    | some r => tickAllS grow A oo hs errs (x.notify (.tickSkipped h r))
    | none =>
      match ctlTickS grow A h oo.now (x.notify (.tickBegun h)) with
      | (x, .error v) => (x, .error v)
      | (x, .ok e) =>
        let x := x.notify (.tickCompleted h e)
        match A.uc.ctxErr x.sys.w with
        | some c => (x, .ok (errs ++ tagErr h e, some c))
        | none => tickAllS grow A oo hs (errs ++ tagErr h e) x

/-- As `engTickLocked` (`engine.go` 117-179). -/
def engTickLockedS (grow : Nat → Nat → Nat) (A : App W R) (oo : OpOpts) (fuel : Nat) (order : List HConfig)
    (x : Sys' W R) : Sys' W R × Outcome (List EngErr) :=
  match tickAllS grow A oo order [] { x with st := Stmt.tick.exec grow x.st } with
  | (x, .error v) => (x, .panicked v)
  | (x, .ok (_, some c)) => (x, .done [.ctx c])
  | (x, .ok (errs, none)) =>
    match dispatchLoopS grow A oo fuel [] x with
    | (x, .done derrs) => (x, .done (errs ++ derrs))
    | (x, o) => (x, o)

/-- As `engTick` (`engine.go` 86-115). -/
def engTickS (grow : Nat → Nat → Nat) (A : App W R) (fuel : Nat) (order : List HConfig) (os : List OpOption)
    (x : Sys' W R) : Sys' W R × Outcome (List EngErr) :=
  match newOpOpts A x.sys os with
  | .error v => (x, .panicked v)
  | .ok oo =>
    let x := x.notify (.tickCycleBegun (oo.cycle A))
    match A.uc.lockErr x.sys.w with
    | some e => (x.notify (.tickCycleCompleted (oo.cycle A).maps [.lock e]), .done [.lock e])
    | none =>
      match engTickLockedS grow A oo fuel order x with
      | (x, .done errs) => (x.notify (.tickCycleCompleted (oo.cycle A).maps errs), .done errs)
      | (x, o) => (x, o)

/-- As `engDispatch` (`engine.go` 184-238). -/
def engDispatchS (grow : Nat → Nat → Nat) (A : App W R) (fuel : Nat) (m : Message) (os : List OpOption)
    (x : Sys' W R) : Sys' W R × Outcome (List EngErr) :=
  let x := { x with sys := { x.sys with nextID := x.sys.nextID + 1 } }
  match newOpOpts A x.sys os with
  | .error v => (x, .panicked v)
  | .ok oo =>
    if m.type.kind = .timeout then (x, .panicked (.misuse "timeout"))
    else
      match m.invalid with
      | some e => (x, .panicked (.misuse (cannotDispatchText m e)))
      | none =>
        if A.route m = [] then (x, .panicked (.misuse (notConsumedText m)))
        else
          let env := Env.root x.sys.nextID m oo.now
          let x := x.notify (.dispatchCycleBegun env (oo.cycle A))
          match A.uc.lockErr x.sys.w with
          | some e => (x.notify (.dispatchCycleCompleted env (oo.cycle A).maps [.lock e]), .done [.lock e])
          | none =>
            match dispatchLoopS grow A oo fuel [] { x with st := (Stmt.dispatch env).exec grow x.st } with
            | (x, .done errs) => (x.notify (.dispatchCycleCompleted env (oo.cycle A).maps errs), .done errs)
            | (x, o) => (x, o)

/-- `Reset()` of one controller (`internal/aggregate/controller.go` 163-165, `internal/process/controller.go` 150-153). -/
def resetOne (grow : Nat → Nat → Nat) (st : Memory.St Env) (h : HConfig) : Memory.St Env :=
  match h.htype with
  | .process => (Stmt.resetProcess h.name).exec grow st
  | .aggregate => (Stmt.resetAggregate h.name).exec grow st
  | _ => st

/-- As `engReset`: `Reset()` of all controllers, which is that of one after the other (`engine.go` 67-80). -/
def engResetS (grow : Nat → Nat → Nat) (A : App W R) (x : Sys' W R) : Sys' W R × Outcome (List EngErr) :=
  let st := A.cfgs.foldl (resetOne grow) x.st
  match runResetters 0 A.uc.resetters
    { x.sys.emit .reset with nextID := 0, agg := fun _ _ => none, proc := fun _ => ⟨fun _ => none, []⟩ } with
  | (s, o) => (⟨s, st, x.scopes⟩, o)

/-- As `Op.exec` (`engine.go` 67-80, 86-115, 184-238). -/
def execS (grow : Nat → Nat → Nat) (A : App W R) (x : Sys' W R) : Op → Sys' W R × Outcome (List EngErr)
  | .dispatch n m os => engDispatchS grow A n m os x
  | .tick n order os => engTickS grow A n order os x
  | .reset => engResetS grow A x

/-- As `Reach`: histories of operations, from any contents of memory (`engine.go` 32-238). -/
inductive ReachS (grow : Nat → Nat → Nat) (A : App W R) : Sys' W R → Prop where
  | init (w : W) (m : Mem Env) : ReachS grow A ⟨Sys.init w, Memory.St.init m, 0⟩
  | world {x : Sys' W R} (w : W) (hx : ReachS grow A x) : ReachS grow A { x with sys := { x.sys with w := w } }
  | step {x : Sys' W R} (op : Op) (hx : ReachS grow A x) (hop : op.ok A) : ReachS grow A (execS grow A x op).1

end Verif.Sliced
