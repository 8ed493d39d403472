import Verif.Aggregate
import Verif.Process
import Verif.Integration
import Verif.Projection

/-!
# Engine

`/repo/engine/engine.go`, `configurer.go`, `operationoption.go`.
-/

namespace Verif

variable {W R : Type}

/-- `engine.OperationOption` (`operationoption.go` 23-107).  Observers are known by
numbers; they do not influence the engine (what they are told is in `Verif.Observer`). -/
inductive OpOption where
  | enableType (t : HandlerType) (b : Bool)
  | enableHandler (name : String) (b : Bool)
  | currentTime (t : Time)
  | observer (k : Nat)
  deriving DecidableEq, Repr

/-- `operationOptions` (`operationoption.go` 111-116). -/
structure OpOpts where
  now : Time
  types : HandlerType → Bool
  names : String → Option Bool
  observers : List Nat

/-- The defaults (`operationoption.go` 120-130). -/
def OpOpts.default (now : Time) : OpOpts := ⟨now, fun _ => true, fun _ => none, []⟩

/-- What the facts say about an operation (`engine.go` 92-98, 106-112, 213-220, 228-235).  The map `EnabledHandlers`
has entries for handlers of the application only (`operationoption.go` 91-93). -/
def OpOpts.cycle (A : App W R) (oo : OpOpts) : CycleInfo :=
  { now := oo.now
    types := [HandlerType.aggregate, .process, .integration, .projection].map
      (fun t => (t, oo.types t))
    names := A.cfgs.filterMap (fun h => (oo.names h.name).map (fun b => (h.name, b))) }

/-- Applying one option (`operationoption.go` 71-107). -/
def OpOpts.apply (A : App W R) (oo : OpOpts) : OpOption → Except PanicVal OpOpts
  | .enableType t b => .ok { oo with types := fun x => if x = t then b else oo.types x }
  | .enableHandler n b =>
    if n ∈ A.cfgs.map HConfig.name then .ok { oo with names := upd oo.names n (some b) }
    else .error (.misuse "the application does not have a handler with that name")
  | .currentTime t => .ok { oo with now := t }
  | .observer k => .ok { oo with observers := oo.observers ++ [k] }

/-- Applying a list of options in order (`operationoption.go` 132-134). -/
def OpOpts.applyAll (A : App W R) : OpOpts → List OpOption → Except PanicVal OpOpts
  | oo, [] => .ok oo
  | oo, o :: os =>
    match oo.apply A o with
    | .error v => .error v
    | .ok oo => oo.applyAll A os

/-- `newOperationOptions` (`operationoption.go` 119-136). -/
def newOpOpts (A : App W R) (s : Sys W R) (os : List OpOption) : Except PanicVal OpOpts :=
  (OpOpts.default (A.uc.wallClock s.w)).applyAll A os

/-- `skipHandler` (`engine.go` 345-359); `none` means "do not skip". -/
def skipHandler (oo : OpOpts) (h : HConfig) : Option SkipReason :=
  match oo.names h.name with
  | some en => if en then none else some .individuallyDisabled
  | none =>
    if h.disabled then some .disabledByConfiguration
    else if oo.types h.htype then none else some .typeDisabled

/-- `controller.Handle`, by handler type (`/repo/engine/controller.go` 31-45, called in
`engine.go` 330). -/
def ctlHandle (A : App W R) (h : HConfig) (now : Time) (env : Env) (s : Sys W R) :
    Sys W R × HRes :=
  match h.htype with
  | .aggregate => aggHandle A h now env s
  | .process => procHandle A h now env s
  | .integration => intHandle A h now env s
  | .projection => prjHandle A h now env s

/-- `Engine.handle` (`engine.go` 305-341). -/
def handleOne (A : App W R) (oo : OpOpts) (env : Env) (h : HConfig) (s : Sys W R) :
    Sys W R × HRes :=
  match skipHandler oo h with
  | some r => (s.notify (.handlingSkipped h env r), .ok ([], none))
  | none =>
    match ctlHandle A h oo.now env (s.notify (.handlingBegun h env)) with
    | (s, .error v) => (s, .error v)
    | (s, .ok (envs, e)) => (s.notify (.handlingCompleted h env e), .ok (envs, e))

/-- `fmt.Errorf("%s %s: %w", ...)` appended by multierr (`engine.go` 147-157, 275-285). -/
def tagErr (h : HConfig) : Option Err → List EngErr
  | none => []
  | some e => [.handler h.name h.htype e]

/-- The loop over controllers for one message (`engine.go` 270-286).  `q` is the
queue, `de` the accumulated error. -/
def handleAll (A : App W R) (oo : OpOpts) (env : Env) :
    List HConfig → List Env → List EngErr → Sys W R →
    Sys W R × Except PanicVal (List Env × List EngErr)
  | [], q, de, s => (s, .ok (q, de))
  | h :: hs, q, de, s =>
    match handleOne A oo env h s with
    | (s, .error v) => (s, .error v)
    | (s, .ok (envs, e)) => handleAll A oo env hs (q ++ envs) (de ++ tagErr h e) s

/-- `e.routes[mt]` (`configurer.go` 62-70): consumers in registration order. -/
def App.route (A : App W R) (m : Message) : List HConfig :=
  A.cfgs.filter (fun h => h.consumes? m)

/-- `e.controllers[name]` (`engine.go` 258, `configurer.go` 62-70). -/
def App.find (A : App W R) (name : String) : Option HConfig :=
  A.cfgs.find? (fun h => h.name = name)

/-- The controllers a message is dispatched to (`engine.go` 253-262). -/
def App.targets (A : App W R) (env : Env) : Except PanicVal (List HConfig) :=
  match env.msg.type.kind with
  | .timeout =>
    match env.origin with
    | none => .error (.internal "nil pointer dereference")
    | some o =>
      match A.find o.handler.name with
      | none => .error (.internal "nil controller")
      | some h => .ok [h]
  | _ => .ok (A.route env.msg)

/-- Outcome of an engine operation (`engine.go` 86-115, 184-238). -/
inductive Outcome (α : Type) where
  | done (a : α)
  | panicked (v : PanicVal)
  /-- the step budget ran out: in Go the operation would still be running -/
  | running
  deriving DecidableEq, Repr

/-- `Engine.dispatch` (`engine.go` 240-303).  The first argument bounds the number
of messages dispatched. -/
def dispatchLoop (A : App W R) (oo : OpOpts) :
    Nat → List Env → List EngErr → Sys W R → Sys W R × Outcome (List EngErr)
  | _, [], errs, s => (s, .done errs)
  | 0, _ :: _, _, s => (s, .running)
  | n + 1, env :: q, errs, s =>
    match A.targets env with
    | .error v => (s, .panicked v)
    | .ok hs =>
      match handleAll A oo env hs q [] (s.notify (.dispatchBegun env)) with
      | (s, .error v) => (s, .panicked v)
      | (s, .ok (q, de)) =>
        let s := s.notify (.dispatchCompleted env de)
        match A.uc.ctxErr s.w with
        | some e => (s, .done [.ctx e])
        | none => dispatchLoop A oo n q (errs ++ de) s

/-- `controller.Tick`, by handler type (`/repo/engine/controller.go` 21-29, called in `engine.go`
144). -/
def ctlTick (A : App W R) (h : HConfig) (now : Time) (s : Sys W R) : Sys W R × HRes :=
  match h.htype with
  | .process =>
    match procTick h now s with
    | (s, envs) => (s, .ok (envs, none))
  | .projection =>
    match prjTick A h now s with
    | (s, .error v) => (s, .error v)
    | (s, .ok e) => (s, .ok ([], e))
  | _ => (s, .ok ([], none))

/-- The loop over controllers of a tick (`engine.go` 126-167).  The result's last
component is the context error that stopped the loop. -/
def tickAll (A : App W R) (oo : OpOpts) :
    List HConfig → List Env → List EngErr → Sys W R →
    Sys W R × Except PanicVal (List Env × List EngErr × Option Err)
  | [], q, errs, s => (s, .ok (q, errs, none))
  | h :: hs, q, errs, s =>
    match skipHandler oo h with
    | some r => tickAll A oo hs q errs (s.notify (.tickSkipped h r))
    | none =>
      match ctlTick A h oo.now (s.notify (.tickBegun h)) with
      | (s, .error v) => (s, .error v)
      | (s, .ok (envs, e)) =>
        let s := s.notify (.tickCompleted h e)
        match A.uc.ctxErr s.w with
        | some c => (s, .ok (q ++ envs, errs ++ tagErr h e, some c))
        | none => tickAll A oo hs (q ++ envs) (errs ++ tagErr h e) s

/-- `Engine.tick` (`engine.go` 117-179). `order` is the order in which the map of
controllers is iterated.  The errors of the tick and of the dispatch are
appended. -/
def engTickLocked (A : App W R) (oo : OpOpts) (fuel : Nat) (order : List HConfig) (s : Sys W R) :
    Sys W R × Outcome (List EngErr) :=
  match tickAll A oo order [] [] s with
  | (s, .error v) => (s, .panicked v)
  | (s, .ok (_, _, some c)) => (s, .done [.ctx c])
  | (s, .ok (q, errs, none)) =>
    match dispatchLoop A oo fuel q [] s with
    | (s, .done derrs) => (s, .done (errs ++ derrs))
    | (s, o) => (s, o)

/-- `Engine.Tick` (`engine.go` 86-115). -/
def engTick (A : App W R) (fuel : Nat) (order : List HConfig) (os : List OpOption) (s : Sys W R) :
    Sys W R × Outcome (List EngErr) :=
  match newOpOpts A s os with
  | .error v => (s, .panicked v)
  | .ok oo =>
    let s := s.notify (.tickCycleBegun (oo.cycle A))
    match A.uc.lockErr s.w with
    | some e => (s.notify (.tickCycleCompleted (oo.cycle A).maps [.lock e]), .done [.lock e])
    | none =>
      match engTickLocked A oo fuel order s with
      | (s, .done errs) => (s.notify (.tickCycleCompleted (oo.cycle A).maps errs), .done errs)
      | (s, o) => (s, o)

/-- `Engine.Dispatch` (`engine.go` 184-238). -/
def engDispatch (A : App W R) (fuel : Nat) (m : Message) (os : List OpOption) (s : Sys W R) :
    Sys W R × Outcome (List EngErr) :=
  let s := { s with nextID := s.nextID + 1 }
  match newOpOpts A s os with
  | .error v => (s, .panicked v)
  | .ok oo =>
    if m.type.kind = .timeout then (s, .panicked (.misuse "timeout"))
    else
      match m.invalid with
      | some e => (s, .panicked (.misuse (cannotDispatchText m e)))
      | none =>
        if A.route m = [] then (s, .panicked (.misuse (notConsumedText m)))
        else
          let env := Env.root s.nextID m oo.now
          let s := s.notify (.dispatchCycleBegun env (oo.cycle A))
          match A.uc.lockErr s.w with
          | some e => (s.notify (.dispatchCycleCompleted env (oo.cycle A).maps [.lock e]), .done [.lock e])
          | none =>
            match dispatchLoop A oo fuel [env] [] s with
            | (s, .done errs) => (s.notify (.dispatchCycleCompleted env (oo.cycle A).maps errs), .done errs)
            | (s, o) => (s, o)

/-- Running the resetters in order (`engine.go` 77-79). -/
def runResetters : Nat → List (W → W × Option PanicVal) → Sys W R → Sys W R × Outcome (List EngErr)
  | _, [], s => (s, .done [])
  | i, f :: fs, s =>
    match s.user (.resetter i) f with
    | (s, some v) => (s, .panicked v)
    | (s, none) => runResetters (i + 1) fs s

/-- `Engine.Reset` (`engine.go` 67-80).  The projection controller's `Reset` does
nothing (`projection/controller.go` 184), hence `lastCompact` is kept. -/
def engReset (A : App W R) (s : Sys W R) : Sys W R × Outcome (List EngErr) :=
  runResetters 0 A.uc.resetters
    { s.emit .reset with
      nextID := 0, agg := fun _ _ => none, proc := fun _ => ⟨fun _ => none, []⟩ }

/-- The operations of the engine's API.  `fuel` bounds the length of the operation; `order` is the
(arbitrary) map iteration order of a tick (`engine.go` 67, 86, 184). -/
inductive Op where
  | dispatch (fuel : Nat) (m : Message) (os : List OpOption)
  | tick (fuel : Nat) (order : List HConfig) (os : List OpOption)
  | reset
  deriving Repr

/-- Perform one operation (`engine.go` 67-80, 86-115, 184-238). -/
def Op.exec (A : App W R) (s : Sys W R) : Op → Sys W R × Outcome (List EngErr)
  | .dispatch n m os => engDispatch A n m os s
  | .tick n order os => engTick A n order os s
  | .reset => engReset A s

/-- A tick visits every controller exactly once (`engine.go` 126 ranges over a map). -/
def Op.ok (A : App W R) : Op → Prop
  | .tick _ order _ => order.Perm A.cfgs
  | _ => True

/-- What configkit guarantees about the handlers of an application: unique names, and only message
kinds that make sense for the handler type.  A process consumes exactly the timeouts it produces
(relied on in `configurer.go` 18-70). -/
structure HConfig.WF (h : HConfig) : Prop where
  consumes : ∀ t ∈ h.consumes,
    match h.htype with
    | .aggregate => t.kind = .command
    | .integration => t.kind = .command
    | .projection => t.kind = .event
    | .process => t.kind = .event ∨ (t.kind = .timeout ∧ t ∈ h.produces)
  produces : ∀ t ∈ h.produces,
    match h.htype with
    | .aggregate => t.kind = .event
    | .integration => t.kind = .event
    | .projection => False
    | .process => t.kind = .command ∨ (t.kind = .timeout ∧ t ∈ h.consumes)

/-- A well-formed application (relied on in `configurer.go` 18-70). -/
structure App.WF (A : App W R) : Prop where
  names : (A.cfgs.map HConfig.name).Nodup
  handlers : ∀ h ∈ A.cfgs, h.WF

/-- The states that can be reached by histories of operations.  Between two operations the world
(everything outside the engine) may change in any way.  An operation whose step budget ran out
leaves the state of an operation in progress; invariants of `Reach` hence also hold at every point
inside an operation where a message has just been dealt with (`engine.go` 32-238). -/
inductive Reach (A : App W R) : Sys W R → Prop where
  | init (w : W) : Reach A (Sys.init w)
  | world {s : Sys W R} (w : W) (hs : Reach A s) : Reach A { s with w := w }
  | step {s : Sys W R} (op : Op) (hs : Reach A s) (hop : op.ok A) : Reach A (op.exec A s).1

end Verif
