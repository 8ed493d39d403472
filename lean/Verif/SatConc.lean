import Verif.Satisfy

/-!
# `SatisfyT` used by many goroutines

`/repo/expectation.satisfy.go` 78-94 and 132-370: the function given to `ToSatisfy()` may start
goroutines, and they may all use its `SatisfyT`.

Each access to a field of `SatisfyT` is a step of its own, and between any two steps of a goroutine
others may make steps, so that the model does not take for granted what the lock is for.  `close()` and
`Ok()` access fields without holding the lock.

The arguments of `Log()` and the like are formatted while the lock is held (161-323).  Formatting may
run code of the user (`String()` methods), whose panics `fmt` catches.  What text it makes is given.

Taken for granted: `sync.RWMutex` (a writer that waits keeps new readers out; who comes next among
several is left open); reading and writing a field is atomic.
-/

namespace Verif.Par

/-- Code that uses `SatisfyT`: as `SProg`, and it may start goroutines.  A call of a method carries the
code that is run by formatting its arguments. -/
inductive Code where
  | ret
  | panic (v : SPanic)
  | op (o : SOp) (st : CallStack) (fmt : Code) (k : SRes → Code)
  | cleanup (fn : Code) (k : Code)
  | go (fn : Code) (k : Code)

/-- What a method does between `Lock` and `Unlock`, one access to a field at a time: `upd` is the access,
`next` what follows, given the fields before it. -/
inductive Body where
  | done (r : SRes)
  | step (upd : SatT → SatT) (next : SatT → Body)

/-- Reading fields. -/
def Body.load (next : SatT → Body) : Body := .step id next

/-- Writing fields. -/
def Body.store (upd : SatT → SatT) (next : Body) : Body := .step upd fun _ => next

/-- `log`, `logf` (314-323): `append` reads, then writes. -/
def logB (s : String) (next : Body) : Body :=
  .load fun t => .store (fun u => { u with messages := t.messages ++ [s] }) next

/-- `explain` (341-363). -/
def explainB (fn : String) (st : CallStack) (next : Body) : Body :=
  .load fun t =>
    match t.explanation with
    | some _ => next
    | none => .load fun t =>
      match findFrame t.helpers st with
      | (frame, direct) =>
        .store (fun u => { u with explanation := some (explainText fn frame direct) }) next

/-- `fail` (335-338). -/
def failB (fn : String) (st : CallStack) (next : Body) : Body :=
  .store (fun u => { u with failed := true }) (explainB fn st next)

/-- `skip` (327-331). -/
def skipB (fn : String) (st : CallStack) (next : Body) : Body :=
  .store (fun u => { u with skipped := true }) (explainB fn st next)

/-- `Helper` (240-249). -/
def helperB (f : String) (next : Body) : Body :=
  .load fun t => .store (fun u => { u with helpers := f :: t.helpers }) next

/-- How a method uses the lock. -/
inductive Mode where
  | none | read | write
  deriving DecidableEq, Repr

/-- `Parallel` (236-237) and `Name` (270-277) do not lock; `Failed` (204-209) and `Skipped` (306-311) lock
for reading. -/
def mode : SOp → Mode
  | .parallel | .name => .none
  | .failed | .skipped => .read
  | _ => .write

/-- Is there anything to be formatted (169-184, 212-229, 253-267, 280-286,
297-303)? -/
def formats : SOp → Bool
  | .error .. | .fatal .. | .log .. | .skip .. => true
  | _ => false

/-- The methods that lock for writing (169-303), while they hold the lock. -/
def body (st : CallStack) : SOp → Body
  | .error s f => logB s (failB (if f then "Errorf" else "Error") st (.done (.returned false)))
  | .fail => failB "Fail" st (.done (.returned false))
  | .failNow => failB "FailNow" st (.done .aborted)
  | .fatal s f => logB s (failB (if f then "Fatalf" else "Fatal") st (.done .aborted))
  | .helper => helperB st.top.func (.done (.returned false))
  | .log s => logB s (.done (.returned false))
  | .skip s f => logB s (skipB (if f then "Skipf" else "Skip") st (.done .aborted))
  | .skipNow => skipB "SkipNow" st (.done .aborted)
  | .failed | .parallel | .name | .skipped => .done (.returned false)

/-- What a goroutine wants the lock for. -/
inductive Write where
  | op (o : SOp) (st : CallStack) (fmt : Code) (k : SRes → Code)
  | cleanup (fn : Code) (k : Code)

/-- What is to be done when the code that runs returns or panics. -/
inductive Frame where
  /-- it was run by formatting, and the lock is held -/
  | fmt (o : SOp) (st : CallStack) (k : SRes → Code)
  /-- it is the function given to `ToSatisfy()` (93) -/
  | done
  /-- it is the cleanup function number `i` (368); the function ended with `r` -/
  | close (i : Nat) (r : Option SPanic)

/-- Where a goroutine is. -/
inductive Pos where
  | code (c : Code)
  /-- at `RLock` (205, 307) -/
  | rlock (o : SOp) (st : CallStack) (k : SRes → Code)
  /-- after `RLock` -/
  | reading (o : SOp) (st : CallStack) (k : SRes → Code)
  /-- about to `RUnlock`, and to answer `r` -/
  | runlock (r : SRes) (k : SRes → Code)
  /-- at `Lock` -/
  | lock (w : Write)
  /-- in `Lock`, keeping new readers out -/
  | pending (w : Write)
  /-- after `Lock` -/
  | locked (w : Write)
  | body (o : SOp) (st : CallStack) (b : Body) (k : SRes → Code)
  /-- in `Cleanup`, after the list `fns` has been read (165) -/
  | append (fns : List Code) (fn : Code) (k : Code)
  /-- about to unlock at the end of `Cleanup` (163) -/
  | unlock (c : Code)
  /-- in `close` (367), with `i` functions to go; the function ended with `r` -/
  | closing (i : Nat) (r : Option SPanic)
  /-- `Done` has returned, or panics with a value -/
  | over (r : Option String)

/-- A goroutine. -/
structure Thread where
  pos : Pos
  stack : List Frame

/-- The fields of `SatisfyT` (132-152) with its lock, and the goroutines. -/
structure St where
  /-- the fields but `cleanup` (whose place in `SatT` is not used) -/
  core : SatT
  cleanup : List Code
  /-- who holds the lock for reading -/
  readers : List Nat
  pending : Option Nat
  writer : Option Nat
  /-- goroutine 0 runs `Done` -/
  threads : Nat → Option Thread
  /-- the number of the next goroutine -/
  next : Nat
  /-- a panic has ended the program -/
  crashed : Bool

/-- The same with another state of goroutine `g`. -/
def St.set (s : St) (g : Nat) (p : Pos) (st : List Frame) : St :=
  { s with threads := fun u => if u = g then some ⟨p, st⟩ else s.threads u }

/-- What a step does. -/
inductive Label where
  | tau (g : Nat)
  /-- a method that was called has done its work, and answers -/
  | did (g : Nat) (o : SOp) (st : CallStack) (r : SRes)
  /-- a cleanup function has been registered -/
  | registered (g : Nat) (fn : Code)
  /-- the function given to `ToSatisfy()` has ended so -/
  | ended (r : Option SPanic)
  /-- a cleanup function is called -/
  | cleaning (fn : Code)
  /-- goroutine `g` has started `new` -/
  | started (g new : Nat)
  /-- a panic escapes from a goroutine -/
  | crash (g : Nat) (v : SPanic)
  /-- a cleanup function panics -/
  | uncleaned (v : SPanic)
  /-- all cleanup functions have returned, and `Done` ends -/
  | over (r : Option String)

/-- How code that is over ended. -/
def Code.result : Code → Option (Option SPanic)
  | .ret => some none
  | .panic v => some (some v)
  | _ => none

/-- One step of one goroutine. -/
inductive Step : St → Label → St → Prop where
  /-- `Parallel`, `Name` -/
  | plain {s : St} {g o st f k fs} (h : s.threads g = some ⟨.code (.op o st f k), fs⟩)
    (hm : mode o = .none) (hc : s.crashed = false) :
    Step s (.did g o st (.returned false)) (s.set g (.code (k (.returned false))) fs)
  | readOp {s : St} {g o st f k fs} (h : s.threads g = some ⟨.code (.op o st f k), fs⟩)
    (hm : mode o = .read) (hc : s.crashed = false) :
    Step s (.tau g) (s.set g (.rlock o st k) fs)
  /-- 205, 307 -/
  | rlock {s : St} {g o st k fs} (h : s.threads g = some ⟨.rlock o st k, fs⟩)
    (hp : s.pending = none) (hw : s.writer = none) (hc : s.crashed = false) :
    Step s (.tau g) ({ s with readers := g :: s.readers }.set g (.reading o st k) fs)
  /-- 208, 310 -/
  | read {s : St} {g o st k fs} (h : s.threads g = some ⟨.reading o st k, fs⟩)
    (hc : s.crashed = false) :
    Step s (.did g o st (o.exec s.core st).2) (s.set g (.runlock (o.exec s.core st).2 k) fs)
  /-- 206, 308 -/
  | runlock {s : St} {g r k fs} (h : s.threads g = some ⟨.runlock r k, fs⟩)
    (hc : s.crashed = false) :
    Step s (.tau g) ({ s with readers := s.readers.erase g }.set g (.code (k r)) fs)
  | writeOp {s : St} {g o st f k fs} (h : s.threads g = some ⟨.code (.op o st f k), fs⟩)
    (hm : mode o = .write) (hc : s.crashed = false) :
    Step s (.tau g) (s.set g (.lock (.op o st f k)) fs)
  /-- 161 -/
  | cleanupOp {s : St} {g fn k fs} (h : s.threads g = some ⟨.code (.cleanup fn k), fs⟩)
    (hc : s.crashed = false) :
    Step s (.tau g) (s.set g (.lock (.cleanup fn k)) fs)
  /-- `Lock`: other writers and new readers are kept out -/
  | announce {s : St} {g w fs} (h : s.threads g = some ⟨.lock w, fs⟩) (hp : s.pending = none)
    (hw : s.writer = none) (hc : s.crashed = false) :
    Step s (.tau g) ({ s with pending := some g }.set g (.pending w) fs)
  /-- `Lock`: no readers are left -/
  | acquire {s : St} {g w fs} (h : s.threads g = some ⟨.pending w, fs⟩) (hr : s.readers = [])
    (hc : s.crashed = false) :
    Step s (.tau g) ({ s with pending := none, writer := some g }.set g (.locked w) fs)
  /-- the code that formatting calls is run -/
  | format {s : St} {g o st f k fs} (h : s.threads g = some ⟨.locked (.op o st f k), fs⟩)
    (hf : formats o = true) (hc : s.crashed = false) :
    Step s (.tau g) (s.set g (.code f) (.fmt o st k :: fs))
  /-- formatting is over, also if that code panics -/
  | formatted {s : St} {g c r o st k fs} (h : s.threads g = some ⟨.code c, .fmt o st k :: fs⟩)
    (hr : c.result = some r) (hc : s.crashed = false) :
    Step s (.tau g) (s.set g (.body o st (body st o) k) fs)
  | begin {s : St} {g o st f k fs} (h : s.threads g = some ⟨.locked (.op o st f k), fs⟩)
    (hf : formats o = false) (hc : s.crashed = false) :
    Step s (.tau g) (s.set g (.body o st (body st o) k) fs)
  /-- an access to a field -/
  | access {s : St} {g o st upd next k fs}
    (h : s.threads g = some ⟨.body o st (.step upd next) k, fs⟩) (hc : s.crashed = false) :
    Step s (.tau g) ({ s with core := upd s.core }.set g (.body o st (next s.core) k) fs)
  /-- the deferred `Unlock`, also if the method panics -/
  | finish {s : St} {g o st r k fs} (h : s.threads g = some ⟨.body o st (.done r) k, fs⟩)
    (hc : s.crashed = false) :
    Step s (.did g o st r) ({ s with writer := none }.set g (.code (k r)) fs)
  /-- 165: the list is read -/
  | load {s : St} {g fn k fs} (h : s.threads g = some ⟨.locked (.cleanup fn k), fs⟩)
    (hc : s.crashed = false) :
    Step s (.tau g) (s.set g (.append s.cleanup fn k) fs)
  /-- 165: and written -/
  | append {s : St} {g l fn k fs} (h : s.threads g = some ⟨.append l fn k, fs⟩)
    (hc : s.crashed = false) :
    Step s (.registered g fn) ({ s with cleanup := l ++ [fn] }.set g (.unlock k) fs)
  /-- 163 -/
  | unlock {s : St} {g c fs} (h : s.threads g = some ⟨.unlock c, fs⟩) (hc : s.crashed = false) :
    Step s (.tau g) ({ s with writer := none }.set g (.code c) fs)
  /-- the `go` statement -/
  | go {s : St} {g fn k fs} (h : s.threads g = some ⟨.code (.go fn k), fs⟩)
    (hc : s.crashed = false) :
    Step s (.started g s.next)
      (({ s with next := s.next + 1 }.set s.next (.code fn) []).set g (.code k) fs)
  /-- a panic that no one recovers from -/
  | crash {s : St} {g v} (h : s.threads g = some ⟨.code (.panic v), []⟩) (hc : s.crashed = false) :
    Step s (.crash g v) { s with crashed := true }
  /-- 367: the function has ended -/
  | ended {s : St} {g c r} (h : s.threads g = some ⟨.code c, [.done]⟩) (hr : c.result = some r)
    (hc : s.crashed = false) :
    Step s (.ended r) (s.set g (.closing s.cleanup.length r) [])
  /-- 368 -/
  | clean {s : St} {g i r fn} (h : s.threads g = some ⟨.closing (i + 1) r, []⟩)
    (hf : s.cleanup[i]? = some fn) (hc : s.crashed = false) :
    Step s (.cleaning fn) (s.set g (.code fn) [.close i r])
  | cleaned {s : St} {g i r} (h : s.threads g = some ⟨.code .ret, [.close i r]⟩)
    (hc : s.crashed = false) :
    Step s (.tau g) (s.set g (.closing i r) [])
  /-- the cleanup function panics, which ends `close` (79-88) -/
  | unclean {s : St} {g i r v} (h : s.threads g = some ⟨.code (.panic v), [.close i r]⟩)
    (hc : s.crashed = false) :
    Step s (.uncleaned v) (s.set g (.over (rethrow (some v))) [])
  /-- 79-88 -/
  | over {s : St} {g r} (h : s.threads g = some ⟨.closing 0 r, []⟩) (hc : s.crashed = false) :
    Step s (.over (rethrow r)) (s.set g (.over (rethrow r)) [])

/-- Any number of steps. -/
inductive Steps (s : St) : List Label → St → Prop where
  | nil : Steps s [] s
  | snoc {ls s' l s''} : Steps s ls s' → Step s' l s'' → Steps s (ls ++ [l]) s''

/-- `Done` is called, with a function (78-93). -/
def init (fn : Code) : St :=
  { core := {}, cleanup := [], readers := [], pending := none, writer := none, next := 1,
    crashed := false, threads := fun g => if g = 0 then some ⟨.code fn, [.done]⟩ else none }

end Verif.Par
