import Verif.Engine

/-!
# Slices that share memory

The engine keeps messages in Go slices: the queue of an operation (`/repo/engine/engine.go` 117-303), the
pending timeouts of each process handler and the histories of aggregate instances
(`internal/process/controller.go` 25, 40-57, 146, 263-295, `internal/aggregate/controller.go` 23, 150-160), and what
scopes collect (`internal/process/scope.go` 29-31, 102, 167-171, `internal/aggregate/scope.go` 28, 122,
`internal/integration/scope.go` 24, 64).  Elsewhere in this model they are lists.  Here they are slices: parts of
arrays that other slices may be parts of as well, to which `append` writes in place if there is room.

Simplifications: what makes the engine perform these statements in some order is left out; programs are any sequences
of them.  Elements are values (in Go pointers to envelopes, which nothing modifies).  Memory is not garbage collected.
-/

namespace Verif.Memory

variable {F : Type}

/-- A slice: a part of an array, with room to grow (the Go specification, "Slice types"). -/
structure Sl where
  arr : Nat
  off : Nat
  len : Nat
  cap : Nat
deriving DecidableEq

/-- The nil slice (the Go specification, "Slice types"). -/
def Sl.none : Sl := ⟨0, 0, 0, 0⟩

/-- All arrays, and the number of the next one (the Go specification, "Array types"). -/
structure Mem (F : Type) where
  cell : Nat → Nat → F
  next : Nat

/-- The elements of a slice (the Go specification, "Index expressions"). -/
def Mem.get (m : Mem F) (s : Sl) : List F := (List.range s.len).map (fun i => m.cell s.arr (s.off + i))

/-- Write elements to an array, from an index on (the Go specification, "Appending to and copying slices"). -/
def Mem.put (m : Mem F) (a i : Nat) (vs : List F) : Mem F :=
  { m with cell := fun b j => if b = a ∧ i ≤ j then (vs[j - i]?).getD (m.cell b j) else m.cell b j }

/-- `make([]T, 0, c)` (the Go specification, "Making slices, maps and channels"). -/
def Mem.make (m : Mem F) (c : Nat) : Mem F × Sl := ({ m with next := m.next + 1 }, ⟨m.next, 0, 0, c⟩)

/-- `append(s, vs...)`: in place if there is room, otherwise to a new array that has the room that
`grow` says, which may depend on the capacity so far and on the length (the Go specification, "Appending to and copying
slices"; how much room there is is up to the implementation). -/
def Mem.append (grow : Nat → Nat → Nat) (m : Mem F) (s : Sl) (vs : List F) : Mem F × Sl :=
  if s.len + vs.length ≤ s.cap then
    (m.put s.arr (s.off + s.len) vs, { s with len := s.len + vs.length })
  else
    (({ m with next := m.next + 1 } : Mem F).put m.next 0 (m.get s ++ vs),
      ⟨m.next, 0, s.len + vs.length, max (grow s.cap (s.len + vs.length)) (s.len + vs.length)⟩)

/-- `s[:i]` (the Go specification, "Simple slice expressions"). -/
def Sl.upTo (s : Sl) (i : Nat) : Sl := { s with len := i }

/-- `s[i:]` (the Go specification, "Simple slice expressions"). -/
def Sl.from (s : Sl) (i : Nat) : Sl := ⟨s.arr, s.off + i, s.len - i, s.cap - i⟩

/-- What a scope collects in (`internal/process/scope.go` 29-31, `internal/aggregate/scope.go` 28,
`internal/integration/scope.go` 24). -/
inductive Field where
  | commands
  | ready
  | pending
  | events
deriving DecidableEq

/-- Where slices are kept: the queue (`engine.go` 123, 243), the pending timeouts of a process handler
(`internal/process/controller.go` 25), the history of an instance of an aggregate
(`internal/aggregate/controller.go` 23), and the fields of each of the scopes made so far. -/
inductive Var where
  | queue
  | timeouts (h : String)
  | history (h id : String)
  | scope (k : Nat) (f : Field)
deriving DecidableEq

/-- A call of `RecordEvent()`, `ExecuteCommand()` or `ScheduleTimeout()` of a scope that gets as far as to collect the
message (the lines at the top). -/
structure Use (F : Type) where
  scope : Nat
  field : Field
  elem : F

/-- How a handling ends (`internal/aggregate/controller.go` 150-160, `internal/integration/controller.go` 75,
`internal/process/controller.go` 132-147; the last one is that of handlers that return nothing or fail). -/
inductive Done (F : Type) where
  | aggKept (h id : String) (k : Nat)
  | aggGone (h id : String) (k : Nat)
  | integration (k : Nat)
  | process (h : String) (k : Nat) (sort : List F → List F)
  | ended (h : String) (k : Nat)
  | deleted (h : String) (k : Nat) (keep : F → Bool)
  | nothing

/-- The statements that have to do with slices (the lines at the top). -/
inductive Stmt (F : Type) where
  | dispatch (e : F)
  | tick
  | tickProcess (h : String) (due : F → Bool)
  | next
  | use (u : Use F)
  | handled (d : Done F) (meanwhile : List (Use F))
  | resetProcess (h : String)
  | resetAggregate (h : String)

/-- Memory, the slices, and the messages taken from the queue so far. -/
structure St (F : Type) where
  mem : Mem F
  at_ : Var → Sl
  taken : List F

/-- Store a slice. -/
def St.set (s : St F) (v : Var) (x : Sl) : St F :=
  { s with at_ := fun u => if u = v then x else s.at_ u }

/-- `v = append(v, vs...)`. -/
def St.push (grow : Nat → Nat → Nat) (s : St F) (v : Var) (vs : List F) : St F :=
  match s.mem.append grow (s.at_ v) vs with
  | (m, x) => { s with mem := m }.set v x

/-- The elements of a slice that is stored. -/
def St.get (s : St F) (v : Var) : List F := s.mem.get (s.at_ v)

/-- A call of a scope (`internal/process/scope.go` 102, 168, 170, `internal/aggregate/scope.go` 122,
`internal/integration/scope.go` 64). -/
def Use.exec (grow : Nat → Nat → Nat) (u : Use F) (s : St F) : St F := s.push grow (.scope u.scope u.field) [u.elem]

/-- The end of a handling, and the slice that is returned.  For a process that goes on the timeouts are appended and
sorted in place, and what is returned is the result of appending to the commands
(`internal/process/controller.go` 143-146, 263-280); if the instance ends, those of other instances are copied
(282-295).  For aggregates see `internal/aggregate/controller.go` 150-160, for integrations
`internal/integration/controller.go` 75. -/
def Done.exec (grow : Nat → Nat → Nat) : Done F → St F → St F × Sl
  | .aggKept h id k, s =>
    let s := s.push grow (.history h id) (s.get (.scope k .events))
    (s, s.at_ (.scope k .events))
  | .aggGone h id k, s =>
    let s := s.set (.history h id) .none
    (s, s.at_ (.scope k .events))
  | .integration k, s => (s, s.at_ (.scope k .events))
  | .process h k sort, s =>
    let s := s.push grow (.timeouts h) (s.get (.scope k .pending))
    let t := s.at_ (.timeouts h)
    let s := { s with mem := s.mem.put t.arr t.off (sort (s.mem.get t)) }
    match s.mem.append grow (s.at_ (.scope k .commands)) (s.get (.scope k .ready)) with
    | (m, x) => ({ s with mem := m }, x)
  | .ended _ k, s => (s, s.at_ (.scope k .commands))
  | .deleted h k keep, s =>
    let old := s.get (.timeouts h)
    match s.mem.make old.length with
    | (m, x) =>
      let s := { s with mem := m }.set (.timeouts h) x
      let s := (old.filter keep).foldl (fun s e => s.push grow (.timeouts h) [e]) s
      (s, s.at_ (.scope k .commands))
  | .nothing, s => (s, .none)

/-- One statement.  `Dispatch()` begins with a queue of one message (`engine.go` 225, 243), `Tick()` with the nil slice
(123); a process handler that is ticked gives the first part of its slice away and keeps the rest
(`internal/process/controller.go` 40-57), which is appended to the queue (`engine.go` 144-145); the loop takes the first message
(248-249); what a handling returns is appended to the queue (272-273), while in between observers are
told that it has been completed (332-338), and they, or other goroutines, may use the scopes; the
last two are `Reset()` (`internal/process/controller.go` 150-153, `internal/aggregate/controller.go` 163-165). -/
def Stmt.exec (grow : Nat → Nat → Nat) : Stmt F → St F → St F
  | .dispatch e, s =>
    match s.mem.make 1 with
    | (m, x) => { s with mem := m }.set .queue x |>.push grow .queue [e]
  | .tick, s => s.set .queue .none
  | .tickProcess h due, s =>
    let t := s.at_ (.timeouts h)
    let i := ((s.mem.get t).takeWhile due).length
    let ready := t.upTo i
    let s := s.set (.timeouts h) (t.from i)
    s.push grow .queue (s.mem.get ready)
  | .next, s =>
    let q := s.at_ .queue
    if q.len = 0 then s
    else { s with taken := s.taken ++ [s.mem.cell q.arr q.off] }.set .queue (q.from 1)
  | .use u, s => u.exec grow s
  | .handled d us, s =>
    match d.exec grow s with
    | (s, envs) =>
      let s := us.foldl (fun s u => u.exec grow s) s
      s.push grow .queue (s.mem.get envs)
  | .resetProcess h, s => s.set (.timeouts h) .none
  | .resetAggregate h, s =>
    { s with at_ := fun u => match u with
        | .history h' _ => if h' = h then .none else s.at_ u
        | _ => s.at_ u }

/-- A program. -/
def exec (grow : Nat → Nat → Nat) (p : List (Stmt F)) (s : St F) : St F := p.foldl (fun s x => x.exec grow s) s

/-- Nothing is stored yet. -/
def St.init (m : Mem F) : St F := ⟨m, fun _ => .none, []⟩

end Verif.Memory
