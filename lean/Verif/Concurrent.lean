/-!
# Concurrent operations

`/repo/engine/engine.go`: how `Dispatch` (184-238), `Tick` (86-115) and `Reset` (67-80) of one
engine use its mutex and its message ID generator when they are called by any number of
goroutines, and `/repo/envelope/id.go`.

What happens while the mutex is held is an arbitrary program (`Crit`) whose steps change the state
that the mutex protects, take message IDs or reset the generator.  `C` is the protected state:
the controllers (with the instances, the timeouts and the history they keep) and whatever
the handlers and resetters change.  Between any two steps of a goroutine others may make steps.

Taken for granted: `cosyne.Mutex` is a mutex, whose `Lock(ctx)` either acquires it or gives up when
the context is done; the operations of `sync/atomic` are atomic.  Left out: the observers, which are
called outside of the mutex too (`DispatchCycleBegun`, `TickCycleBegun`); handlers that
call the engine themselves, which would wait forever; that the ID generator is limited to 64 bits
(`Verif.Ident`).
-/

namespace Verif.Conc

/-- A program that runs while the mutex is held (`engine.go` 70-80, 99-115, 211-238). -/
inductive Crit (C : Type) where
  /-- return -/
  | done
  /-- a panic, which unwinds the stack up to the caller of the operation -/
  | panic
  /-- change the protected state; what comes next can depend on it -/
  | touch (f : C → C) (k : C → Crit C)
  /-- `messageIDs.Next()` (`id.go` 14-19) -/
  | id (k : Nat → Crit C)
  /-- `messageIDs.Reset()` (`id.go` 22-24) -/
  | resetIDs (k : Crit C)

/-- A call of an operation of the engine (`engine.go` 67, 86, 184). -/
inductive Call (C : Type) where
  /-- `Tick` (`engine.go` 86-115) and `Reset` (67-80): acquire the mutex, run, release it -/
  | locked (b : Crit C)
  /-- `Dispatch` (`engine.go` 184-238): take a message ID; then panic (if the message is invalid or
  not consumed by any handler), or acquire the mutex, run, release it -/
  | withID (k : Nat → Option (Crit C))

/-- Where a goroutine is (`engine.go` 67-80, 86-115, 184-238). -/
inductive Phase (C : Type) where
  /-- between two calls -/
  | idle
  /-- at `e.m.Lock(ctx)` -/
  | waiting (b : Crit C)
  /-- after `e.m.Lock(ctx)` and before the deferred `e.m.Unlock()` -/
  | inside (b : Crit C)

/-- A goroutine: where it is, which calls it has yet to make, how many it has begun (no
counterpart in /repo; callers of `engine.go` 67, 86, 184). -/
structure Thread (C : Type) where
  phase : Phase C
  todo : List (Call C)
  begun : Nat

/-- The engine and the goroutines that use it (`engine.go` 18-29 and its callers). -/
structure St (C : Type) where
  ctl : C
  ids : Nat
  holder : Option Nat
  threads : Nat → Thread C

/-- The same with another state of goroutine `t` (for `engine.go` 18-29). -/
def St.set {C : Type} (s : St C) (t : Nat) (x : Thread C) : St C :=
  { s with threads := fun u => if u = t then x else s.threads u }

/-- What a step does.  `i` counts the calls of goroutine `t` (`engine.go` 67-80, 86-115, 184-238).
-/
inductive Label (C : Type) where
  /-- call `i` begins (and takes no message ID) -/
  | call (t i : Nat)
  /-- call `i` begins and takes message ID `n` -/
  | callID (t i n : Nat)
  /-- call `i` ends without having acquired the mutex, as the context is done -/
  | giveUp (t i : Nat)
  /-- call `i` acquires the mutex -/
  | lock (t i : Nat) (b : Crit C)
  /-- call `i` changes the protected state -/
  | touch (t i : Nat)
  /-- call `i` takes message ID `n` while holding the mutex -/
  | id (t i n : Nat)
  /-- call `i` resets the message IDs -/
  | resetIDs (t i : Nat)
  /-- call `i` releases the mutex and ends -/
  | unlock (t i : Nat)

/-- One step of one goroutine (`engine.go` 67-80, 86-115, 184-238, `id.go` 14-24). -/
inductive Step {C : Type} : St C → Label C → St C → Prop where
  | call {s : St C} {t : Nat} {b rest n} (h : s.threads t = ⟨.idle, .locked b :: rest, n⟩) :
    Step s (.call t n) (s.set t ⟨.waiting b, rest, n + 1⟩)
  | callID {s : St C} {t : Nat} {k rest n b} (h : s.threads t = ⟨.idle, .withID k :: rest, n⟩)
    (hb : k (s.ids + 1) = some b) :
    Step s (.callID t n (s.ids + 1)) ({ s with ids := s.ids + 1 }.set t ⟨.waiting b, rest, n + 1⟩)
  | callIDPanic {s : St C} {t : Nat} {k rest n} (h : s.threads t = ⟨.idle, .withID k :: rest, n⟩)
    (hb : k (s.ids + 1) = none) :
    Step s (.callID t n (s.ids + 1)) ({ s with ids := s.ids + 1 }.set t ⟨.idle, rest, n + 1⟩)
  | giveUp {s : St C} {t : Nat} {b todo n} (h : s.threads t = ⟨.waiting b, todo, n + 1⟩) :
    Step s (.giveUp t n) (s.set t ⟨.idle, todo, n + 1⟩)
  | lock {s : St C} {t : Nat} {b todo n} (h : s.threads t = ⟨.waiting b, todo, n + 1⟩)
    (hl : s.holder = none) :
    Step s (.lock t n b) ({ s with holder := some t }.set t ⟨.inside b, todo, n + 1⟩)
  | touch {s : St C} {t : Nat} {f k todo n}
    (h : s.threads t = ⟨.inside (.touch f k), todo, n + 1⟩) :
    Step s (.touch t n) ({ s with ctl := f s.ctl }.set t ⟨.inside (k s.ctl), todo, n + 1⟩)
  | id {s : St C} {t : Nat} {k todo n} (h : s.threads t = ⟨.inside (.id k), todo, n + 1⟩) :
    Step s (.id t n (s.ids + 1))
      ({ s with ids := s.ids + 1 }.set t ⟨.inside (k (s.ids + 1)), todo, n + 1⟩)
  | resetIDs {s : St C} {t : Nat} {k todo n}
    (h : s.threads t = ⟨.inside (.resetIDs k), todo, n + 1⟩) :
    Step s (.resetIDs t n) ({ s with ids := 0 }.set t ⟨.inside k, todo, n + 1⟩)
  | unlock {s : St C} {t : Nat} {b todo n} (h : s.threads t = ⟨.inside b, todo, n + 1⟩)
    (hb : b = .done ∨ b = .panic) :
    Step s (.unlock t n) ({ s with holder := none }.set t ⟨.idle, todo, n + 1⟩)

/-- Any number of steps (for `engine.go` 67-238). -/
inductive Steps {C : Type} (s : St C) : List (Label C) → St C → Prop where
  | nil : Steps s [] s
  | snoc {ls s' l s''} : Steps s ls s' → Step s' l s'' → Steps s (ls ++ [l]) s''

/-- Before any call: goroutine `t` is going to make the calls `prog t` (`engine.go` 32-53). -/
def init {C : Type} (c : C) (prog : Nat → List (Call C)) : St C :=
  ⟨c, 0, none, fun t => ⟨.idle, prog t, 0⟩⟩

end Verif.Conc
