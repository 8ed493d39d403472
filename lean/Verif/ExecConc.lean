/-!
# Goroutines that use the command executor of a test

`/repo/executor.go` 16-88 and `action.call.go` 69-83: how goroutines that call `ExecuteCommand()` and
goroutines that perform `Call()` actions use the lock of the executor and the mutex of the engine.

Code is an arbitrary program over these methods.  Between any two steps of a goroutine others may
make steps.  Each access to a field of the executor is a step of its own, so that the model does not
take for granted what the lock is for.

Taken for granted: `sync.RWMutex` (a writer that waits keeps new readers out; who comes next
among several is left open), and that the mutex of the engine is a mutex.
-/

namespace Verif.Exec

/-- What the caller of a method learns, if it recovers from panics (`executor.go` 28-45). -/
inductive Res where
  | returned (e : Option String)
  | panicked (v : String)
  deriving DecidableEq, Repr

/-- Code that uses the executor.  Messages, sets of operation options and interceptors have numbers. -/
inductive Code where
  | ret (e : Option String)
  | panic (v : String)
  /-- `ExecuteCommand()` on the executor of the test (`executor.go` 28-45) -/
  | exec (m : Nat) (k : Res → Code)
  /-- `ExecuteCommand()` on the executor that an interceptor is given, which has the options `os`
  (`engine/executor.go` 22-28) -/
  | next (os m : Nat) (k : Res → Code)
  /-- the action `Call(body)`, with an interceptor or without, performed with the operation options
  `os` (`action.call.go` 69-83) -/
  | call (os : Nat) (ic : Option Nat) (body : Code) (k : Res → Code)

/-- The code of interceptors, given the message and the executor's options (`executor.go` 98-102), and
of the handling of a message by the engine (`engine/engine.go` 184-299). -/
structure Env where
  icept : Nat → Nat → Nat → Code
  handler : Nat → Code

/-- What a goroutine does with the write lock (`executor.go` 55-88), and what it goes on with. -/
inductive Write where
  /-- `Bind` (`action.call.go` 71) -/
  | bind (os : Nat) (ic : Option Nat) (body : Code) (k : Res → Code)
  /-- `Intercept` (`action.call.go` 75) -/
  | intercept (i : Nat) (body : Code) (k : Res → Code)
  /-- the deferred `Intercept` (`action.call.go` 76) -/
  | restore (prev : Option Nat) (r : Res) (k : Res → Code)
  /-- the deferred `Unbind` (`action.call.go` 72) -/
  | unbind (r : Res) (k : Res → Code)

/-- What is to be done when the code that runs returns or panics. -/
inductive Frame where
  /-- the deferred `RUnlock` of `ExecuteCommand` (`executor.go` 34) -/
  | exec (k : Res → Code)
  /-- the deferred `Unlock` of `Dispatch` (`engine/engine.go` 224) -/
  | engine (k : Res → Code)
  /-- the deferred calls of `callAction.Do` (`action.call.go` 72, 76): `prev` is the interceptor to
  be restored, if any was replaced -/
  | call (prev : Option (Option Nat)) (k : Res → Code)

/-- Where a goroutine is. -/
inductive Pos where
  | code (c : Code)
  /-- at `RLock` (`executor.go` 33) -/
  | rlock (m : Nat) (k : Res → Code)
  /-- after `RLock`, about to look at the fields (36) -/
  | check (m : Nat) (k : Res → Code)
  /-- about to release the read lock after the panic (37) -/
  | refused (k : Res → Code)
  /-- after the look at `next`, about to look at the interceptor (40) -/
  | select (os m : Nat) (k : Res → Code)
  /-- at `Lock` (56, 67, 81) -/
  | lock (w : Write)
  /-- in `Lock`, keeping new readers out -/
  | pending (w : Write)
  /-- after `Lock` -/
  | locked (w : Write)
  /-- after the fields have been changed, about to unlock (57, 68, 82): what follows, and the deferred
  calls to be noted -/
  | unlock (next : Code ⊕ Write) (push : Option (Option (Option Nat) × (Res → Code)))
  /-- at the mutex of the engine (`engine/engine.go` 222) -/
  | enter (os m : Nat) (k : Res → Code)

/-- A goroutine (no counterpart in /repo). -/
structure Thread where
  pos : Pos
  stack : List Frame

/-- The executor (`executor.go` 16-20), its lock, the mutex of the engine, and the goroutines. -/
structure St where
  bound : Option Nat
  icept : Option Nat
  /-- who holds the lock for reading -/
  readers : List Nat
  pending : Option Nat
  writer : Option Nat
  engine : Option Nat
  threads : Nat → Thread

/-- The same with another state of goroutine `t`. -/
def St.set (s : St) (t : Nat) (p : Pos) (st : List Frame) : St :=
  { s with threads := fun u => if u = t then ⟨p, st⟩ else s.threads u }

/-- What a step does. -/
inductive Label where
  /-- something of no interest -/
  | tau (t : Nat)
  /-- `ExecuteCommand` has acquired the lock -/
  | rlock (t m : Nat)
  /-- `ExecuteCommand` panics as the executor is not bound -/
  | refuse (t m : Nat)
  /-- `ExecuteCommand` calls the interceptor `i` -/
  | intercepted (t m i os : Nat)
  /-- `ExecuteCommand` goes to the engine with options `os` -/
  | direct (t m os : Nat)
  /-- the engine begins to handle message `m` with options `os` -/
  | dispatch (t m os : Nat)
  /-- the engine is done with it -/
  | dispatched (t : Nat)
  /-- the engine does not handle the message -/
  | giveUp (t : Nat)
  /-- `ExecuteCommand` ends -/
  | runlock (t : Nat)
  | bind (t os : Nat)
  | unbind (t : Nat)
  | setIcept (t : Nat) (i : Option Nat)
  deriving DecidableEq, Repr

/-- The result of code that is over. -/
def Code.result : Code → Option Res
  | .ret e => some (.returned e)
  | .panic v => some (.panicked v)
  | _ => none

/-- `callAction.Do` returns no error (`action.call.go` 82). -/
def Res.ofCall : Res → Res
  | .returned _ => .returned none
  | .panicked v => .panicked v

/-- One step of one goroutine. -/
inductive Step (E : Env) : St → Label → St → Prop where
  /-- `ExecuteCommand` is called (`executor.go` 28) -/
  | exec {s : St} {t m k st} (h : s.threads t = ⟨.code (.exec m k), st⟩) :
    Step E s (.tau t) (s.set t (.rlock m k) st)
  /-- 33 -/
  | rlock {s : St} {t m k st} (h : s.threads t = ⟨.rlock m k, st⟩) (hp : s.pending = none)
    (hw : s.writer = none) :
    Step E s (.rlock t m) ({ s with readers := t :: s.readers }.set t (.check m k) st)
  /-- 36-38 -/
  | refuse {s : St} {t m k st} (h : s.threads t = ⟨.check m k, st⟩) (hb : s.bound = none) :
    Step E s (.refuse t m) (s.set t (.refused k) st)
  /-- 34, after the panic -/
  | refused {s : St} {t k st} (h : s.threads t = ⟨.refused k, st⟩) :
    Step E s (.runlock t) ({ s with readers := s.readers.erase t }.set t
      (.code (k (.panicked "ExecuteCommand(): cannot be called outside of a test"))) st)
  /-- 36, 40 -/
  | check {s : St} {t m k st os} (h : s.threads t = ⟨.check m k, st⟩) (hb : s.bound = some os) :
    Step E s (.tau t) (s.set t (.select os m k) st)
  /-- 40-42 -/
  | intercepted {s : St} {t os m k st i} (h : s.threads t = ⟨.select os m k, st⟩)
    (hi : s.icept = some i) :
    Step E s (.intercepted t m i os) (s.set t (.code (E.icept i m os)) (.exec k :: st))
  /-- 44 -/
  | direct {s : St} {t os m k st} (h : s.threads t = ⟨.select os m k, st⟩) (hi : s.icept = none) :
    Step E s (.direct t m os) (s.set t (.enter os m fun
      | .returned e => .ret e
      | .panicked v => .panic v) (.exec k :: st))
  /-- `engine/executor.go` 27 -/
  | next {s : St} {t os m k st} (h : s.threads t = ⟨.code (.next os m k), st⟩) :
    Step E s (.tau t) (s.set t (.enter os m k) st)
  /-- `engine/engine.go` 222 -/
  | enter {s : St} {t os m k st} (h : s.threads t = ⟨.enter os m k, st⟩) (he : s.engine = none) :
    Step E s (.dispatch t m os)
      ({ s with engine := some t }.set t (.code (E.handler m)) (.engine k :: st))
  /-- the message is invalid or not routed, or the context is done (`engine/engine.go` 206, 210, 222) -/
  | giveUp {s : St} {t os m k st} (r : Res) (h : s.threads t = ⟨.enter os m k, st⟩) :
    Step E s (.giveUp t) (s.set t (.code (k r)) st)
  /-- `engine/engine.go` 224 -/
  | leave {s : St} {t c r k st} (h : s.threads t = ⟨.code c, .engine k :: st⟩)
    (hr : c.result = some r) :
    Step E s (.dispatched t) ({ s with engine := none }.set t (.code (k r)) st)
  /-- `executor.go` 34 -/
  | runlock {s : St} {t c r k st} (h : s.threads t = ⟨.code c, .exec k :: st⟩)
    (hr : c.result = some r) :
    Step E s (.runlock t) ({ s with readers := s.readers.erase t }.set t (.code (k r)) st)
  /-- `action.call.go` 71 -/
  | call {s : St} {t os ic body k st} (h : s.threads t = ⟨.code (.call os ic body k), st⟩) :
    Step E s (.tau t) (s.set t (.lock (.bind os ic body k)) st)
  /-- `action.call.go` 76, when the function is over -/
  | restore {s : St} {t c r p k st} (h : s.threads t = ⟨.code c, .call (some p) k :: st⟩)
    (hr : c.result = some r) :
    Step E s (.tau t) (s.set t (.lock (.restore p r.ofCall k)) st)
  /-- `action.call.go` 72, when the function is over -/
  | finish {s : St} {t c r k st} (h : s.threads t = ⟨.code c, .call none k :: st⟩)
    (hr : c.result = some r) :
    Step E s (.tau t) (s.set t (.lock (.unbind r.ofCall k)) st)
  /-- `executor.go` 56, 67, 81: other writers and new readers are kept out -/
  | announce {s : St} {t w st} (h : s.threads t = ⟨.lock w, st⟩) (hp : s.pending = none)
    (hw : s.writer = none) :
    Step E s (.tau t) ({ s with pending := some t }.set t (.pending w) st)
  /-- 56, 67, 81: no readers are left -/
  | acquire {s : St} {t w st} (h : s.threads t = ⟨.pending w, st⟩) (hr : s.readers = []) :
    Step E s (.tau t) ({ s with pending := none, writer := some t }.set t (.locked w) st)
  /-- 59-60 -/
  | bind {s : St} {t os ic body k st} (h : s.threads t = ⟨.locked (.bind os ic body k), st⟩) :
    Step E s (.bind t os) ({ s with bound := some os }.set t
      (match ic with
        | none => .unlock (.inl body) (some (none, k))
        | some i => .unlock (.inr (.intercept i body k)) none) st)
  /-- 84-85 -/
  | intercept {s : St} {t i body k st} (h : s.threads t = ⟨.locked (.intercept i body k), st⟩) :
    Step E s (.setIcept t (some i)) ({ s with icept := some i }.set t
      (.unlock (.inl body) (some (some s.icept, k))) st)
  /-- 84-85 -/
  | reset {s : St} {t p r k st} (h : s.threads t = ⟨.locked (.restore p r k), st⟩) :
    Step E s (.setIcept t p) ({ s with icept := p }.set t
      (.unlock (.inr (.unbind r k)) none) st)
  /-- 70-71 -/
  | unbind {s : St} {t r k st} (h : s.threads t = ⟨.locked (.unbind r k), st⟩) :
    Step E s (.unbind t) ({ s with bound := none }.set t (.unlock (.inl (k r)) none) st)
  /-- 57, 68, 82 -/
  | unlock {s : St} {t n f st} (h : s.threads t = ⟨.unlock n f, st⟩) :
    Step E s (.tau t) ({ s with writer := none }.set t
      (match n with
        | .inl c => .code c
        | .inr w => .lock w)
      (match f with
        | some (prev, k) => .call prev k :: st
        | none => st))

/-- Any number of steps. -/
inductive Steps (E : Env) (s : St) : List Label → St → Prop where
  | nil : Steps E s [] s
  | snoc {ls s' l s''} : Steps E s ls s' → Step E s' l s'' → Steps E s (ls ++ [l]) s''

/-- Before any step: goroutine `t` is going to run `prog t`; `ic` is the interceptor given to
`Begin()` (`executor.go` 128-130). -/
def init (ic : Option Nat) (prog : Nat → Code) : St :=
  { bound := none, icept := ic, readers := [], pending := none, writer := none, engine := none,
    threads := fun t => ⟨.code (prog t), []⟩ }

end Verif.Exec
