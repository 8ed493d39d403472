import Verif.Inv

/-!
# A small application for concrete examples

One handler of each type.  The roots are the lists of bodies applied to them.
-/

namespace Verif.Demo

open Verif

def cmdC : MType := ⟨.command, "C"⟩
def cmdD : MType := ⟨.command, "D"⟩
def evtE : MType := ⟨.event, "E"⟩
def evtF : MType := ⟨.event, "F"⟩
def tmoT : MType := ⟨.timeout, "T"⟩

def agg : HConfig := { name := "agg", htype := .aggregate, consumes := [cmdC], produces := [evtE] }
def proc : HConfig :=
  { name := "proc", htype := .process, consumes := [evtE, tmoT], produces := [cmdD, tmoT] }
def int : HConfig :=
  { name := "int", htype := .integration, consumes := [cmdD], produces := [evtF] }
def prj : HConfig := { name := "prj", htype := .projection, consumes := [evtE, evtF], produces := [] }

/-- Insertion by scheduled time. -/
def insert (e : Env) : List Env → List Env
  | [] => [e]
  | x :: xs => if e.scheduledFor ≤ x.scheduledFor then e :: x :: xs else x :: insert e xs

def isort : List Env → List Env
  | [] => []
  | x :: xs => insert x (isort xs)

theorem insert_perm (e : Env) (l : List Env) : (insert e l).Perm (e :: l) := by
  induction l with
  | nil => exact .refl _
  | cons x xs ih =>
    unfold insert
    split
    · exact .refl _
    · exact (List.Perm.cons x ih).trans (List.Perm.swap e x xs)

theorem insert_sorted (e : Env) (l : List Env)
    (h : l.Pairwise (fun a b => a.scheduledFor ≤ b.scheduledFor)) :
    (insert e l).Pairwise (fun a b => a.scheduledFor ≤ b.scheduledFor) := by
  induction l with
  | nil => simp [insert]
  | cons x xs ih =>
    unfold insert
    rw [List.pairwise_cons] at h
    split
    · rename_i hle
      rw [List.pairwise_cons]
      refine ⟨?_, List.pairwise_cons.2 h⟩
      intro y hy
      rcases List.mem_cons.1 hy with rfl | hy
      · exact hle
      · exact Int.le_trans hle (h.1 y hy)
    · rename_i hle
      rw [List.pairwise_cons]
      refine ⟨?_, ih h.2⟩
      intro y hy
      rcases List.mem_cons.1 ((insert_perm e xs).mem_iff.1 hy) with rfl | hy
      · omega
      · exact h.1 y hy

/-- Insertion sort, as an instance of the sort used by the runtime. -/
def sortImpl : SortImpl where
  sort := isort
  perm l := by
    induction l with
    | nil => exact .refl _
    | cons x xs ih => exact (insert_perm x (isort xs)).trans (List.Perm.cons x ih)
  sorted l := by
    induction l with
    | nil => exact .nil
    | cons x xs ih => exact insert_sorted x _ ih

/-- Perform the operations one after the other, then return. -/
def ops {O α : Type} (a : α) : List O → Prog Nat O α
  | [] => .ret a
  | o :: os => Prog.do_ o (ops a os)

/-- The demo's handlers.  A command `C` records an event `E` with the same body; an event
`E` makes the process execute `D` and schedule `T` at time 10; a timeout `T` makes it
execute `D` again and end; `D` makes the integration record `F`.  World 1 is a cancelled
context. -/
def uc : UserCode Nat (List String) where
  aggRoute _ _ w := (w, .ok "a")
  aggNew _ w := (w, .ok (some []))
  aggApply _ r m w := (w, r ++ [m.body], none)
  aggHandle _ _ _ m := ops () [.record ⟨evtE, m.body, none⟩]
  procRoute _ _ w := (w, .ok (.ok (some "p")))
  procNew _ w := (w, .ok (some []))
  procHandle _ _ r m _ :=
    match m.type.kind with
    | .timeout => ops none [.setRoot (r ++ [m.body]), .execute ⟨cmdD, m.body, none⟩, .end_]
    | _ => ops none [.setRoot (r ++ [m.body]), .execute ⟨cmdD, m.body, none⟩,
        .schedule ⟨tmoT, m.body, none⟩ 10]
  intHandle _ m := ops none [.log m.body, .record ⟨evtF, m.body, none⟩]
  prjVersion _ _ w := (w, .ok (.ok []))
  prjHandle _ _ _ _ m _ := ops (.ok true) [.log m.body]
  prjClose _ _ w := (w, .ok none)
  prjCompact _ _ := .ret none
  schedule _ := []
  resetters := [fun w => (w, none)]
  ctxErr w := if w = 1 then some "context canceled" else none
  lockErr _ := none
  wallClock _ := 0

def app : App Nat (List String) where
  cfgs := [agg, proc, int, prj]
  uc := uc
  compactDuringHandling := false
  sort := sortImpl

theorem app_wf : app.WF where
  names := by decide
  handlers := by
    intro h hh
    simp only [app, List.mem_cons, List.not_mem_nil, or_false] at hh
    rcases hh with rfl | rfl | rfl | rfl <;>
      exact ⟨by simp [agg, proc, int, prj, cmdC, cmdD, evtE, evtF, tmoT],
        by simp [agg, proc, int, prj, cmdC, cmdD, evtE, evtF, tmoT]⟩

/-- Perform operations one after the other. -/
def runOps {W R : Type} (A : App W R) : List Op → Sys W R → Sys W R
  | [], s => s
  | op :: os, s => runOps A os (op.exec A s).1

theorem runOps_reach {W R : Type} {A : App W R} (l : List Op) (hl : ∀ op ∈ l, op.ok A)
    {s : Sys W R} (hs : Reach A s) : Reach A (runOps A l s) := by
  induction l generalizing s with
  | nil => exact hs
  | cons op l ih =>
    exact ih (fun o ho => hl o (by simp [ho])) (.step op hs (hl op (by simp)))

def msgC (body : String) : Message := ⟨cmdC, body, none⟩

/-- Dispatch a command at time 1, another at time 3, tick at time 10. -/
def history : List Op :=
  [.dispatch 20 (msgC "x") [.currentTime 1], .dispatch 20 (msgC "y") [.currentTime 3],
   .tick 20 [agg, proc, int, prj] [.currentTime 10]]

theorem history_ok : ∀ op ∈ history, op.ok app := by
  intro op ho
  simp only [history, List.mem_cons, List.not_mem_nil, or_false] at ho
  rcases ho with rfl | rfl | rfl
  · trivial
  · trivial
  · exact List.Perm.refl _

def final : Sys Nat (List String) := runOps app history (Sys.init 0)

theorem final_reach : Reach app final := runOps_reach history history_ok (.init 0)

set_option maxRecDepth 100000 in
example : ((createdIn final.trace).map Env.id) = [1,2,3,4,5,6,7,8,9,10,11,12] := by decide +kernel

end Verif.Demo
