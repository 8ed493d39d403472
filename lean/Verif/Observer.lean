import Verif.Engine

/-!
# Observers

`/repo/fact/observer.go`: `ObserverGroup` and `Buffer`.

Observers are told about facts by a call.  What they do with it is their own
business and does not influence the engine (simplification: an observer that
panics, or that changes what the handlers see, is not modelled).
-/

namespace Verif

variable {W R F : Type}

/-- `ObserverGroup.Notify` (`observer.go` 15-19): calls every observer of the group.  The
log records the calls: the place of the observer in the group, and the fact. -/
def groupNotify (f : F) : Nat → List Nat → List (Nat × Nat × F) → List (Nat × Nat × F)
  | _, [], log => log
  | i, o :: os, log => groupNotify f (i + 1) os (log ++ [(i, o, f)])

/-- One observation, as seen by the group of an operation's observers: the engine calls
`Notify` of the group whenever there is a fact (`operationoption.go` 32-34, 113). -/
def deliverStep (oo : OpOpts) (log : List (Nat × Nat × Fact)) : Obs R → List (Nat × Nat × Fact)
  | .fact f => groupNotify f 0 oo.observers log
  | _ => log

/-- The calls made to observers during an operation (`/repo/fact/observer.go` 12-19,
`/repo/engine/operationoption.go` 27-31). -/
def deliveries (oo : OpOpts) (t : List (Obs R)) : List (Nat × Nat × Fact) :=
  t.foldl (deliverStep oo) []

/-! ## `Buffer` on Go slices -/

/-- A Go slice: array, length, capacity (Go specification; for `observer.go` 24-27). -/
structure Slice where
  arr : Nat
  len : Nat
  cap : Nat
  deriving DecidableEq, Repr

/-- Memory: arrays by number, and the next free number (Go specification; for `observer.go`
24-27). -/
structure Heap (F : Type) where
  mem : Nat → Nat → F
  next : Nat

/-- The elements of a slice (for `observer.go` 42-43). -/
def Heap.read (h : Heap F) (s : Slice) : List F := (List.range s.len).map (h.mem s.arr)

/-- Store an element (for `observer.go` 34, 43). -/
def Heap.write (h : Heap F) (a i : Nat) (v : F) : Heap F :=
  { h with mem := fun b j => if b = a ∧ j = i then v else h.mem b j }

/-- A new array holding a copy of the elements of `s` (`observer.go` 42-43). -/
def Heap.copy (h : Heap F) (s : Slice) : Heap F × Nat :=
  ({ mem := fun b j => if b = h.next then h.mem s.arr j else h.mem b j, next := h.next + 1 }, h.next)

/-- `append(s, v)`: in place if there is room, else in a new array whose capacity is chosen by the
runtime (`grow`; at least one more is needed) (`observer.go` 34). -/
def goAppend (grow : Nat → Nat) (h : Heap F) (s : Slice) (v : F) : Heap F × Slice :=
  if s.len < s.cap then (h.write s.arr s.len v, { s with len := s.len + 1 })
  else
    match h.copy s with
    | (h, a) => (h.write a s.len v, ⟨a, s.len + 1, max (s.len + 1) (grow s.len)⟩)

/-- A `Buffer` and the slices it has handed out (`observer.go` 24-27). -/
structure BufState (F : Type) where
  heap : Heap F
  facts : Slice
  out : List Slice

/-- What can be done with a buffer: notify it, ask for its facts, and (for whoever got a slice of
facts) overwrite an element of that slice (`observer.go` 30-46). -/
inductive BufOp (F : Type) where
  | notify (f : F)
  | facts
  | scribble (k i : Nat) (v : F)

/-- `Buffer.Notify` (`observer.go` 30-35), `Buffer.Facts` (38-46), `x[i] = v`.  The mutex
makes each of the former atomic. -/
def BufOp.exec (grow : Nat → Nat) (b : BufState F) : BufOp F → BufState F
  | .notify f =>
    match goAppend grow b.heap b.facts f with
    | (h, s) => { b with heap := h, facts := s }
  | .facts =>
    match b.heap.copy b.facts with
    | (h, a) => { b with heap := h, out := b.out ++ [⟨a, b.facts.len, b.facts.len⟩] }
  | .scribble k i v =>
    match b.out[k]? with
    | none => b
    | some s => if i < s.len then { b with heap := b.heap.write s.arr i v } else b

/-- A new buffer: `facts` is the nil slice (array 0, no capacity). -/
def BufState.new (z : F) : BufState F := ⟨⟨fun _ _ => z, 1⟩, ⟨0, 0, 0⟩, []⟩

/-- A sequence of calls (`observer.go` 30-46). -/
def BufState.run (grow : Nat → Nat) (b : BufState F) (ops : List (BufOp F)) : BufState F :=
  ops.foldl (BufOp.exec grow) b

end Verif
