import Verif.Observer
import Verif.Frame
import Verif.Options
import Verif.Props.Dispatch

/-!
# Properties of observers

C20, C71.
-/

namespace Verif

variable {W R F : Type}

/-! ## Specification -/

/-- The facts of (a part of) a trace. -/
def factsIn (t : List (Obs R)) : List Fact :=
  t.filterMap fun
    | .fact f => some f
    | _ => none

/-- The observers registered by a list of options, in order. -/
def registered (os : List OpOption) : List Nat :=
  os.filterMap fun
    | .observer k => some k
    | _ => none

/-- A buffer as one would like to think of it: all facts so far, and the values of the slices
handed out. -/
structure BufSpec (F : Type) where
  facts : List F
  out : List (List F)

/-- What each operation should do. -/
def BufOp.spec (b : BufSpec F) : BufOp F → BufSpec F
  | .notify f => { b with facts := b.facts ++ [f] }
  | .facts => { b with out := b.out ++ [b.facts] }
  | .scribble k i v => { b with out := b.out.modify k (fun l => l.set i v) }

def BufSpec.run (b : BufSpec F) (ops : List (BufOp F)) : BufSpec F := ops.foldl BufOp.spec b

/-! ## C20 -/

theorem groupNotify_eq (f : F) (os : List Nat) : ∀ (i : Nat) (log : List (Nat × Nat × F)),
    groupNotify f i os log = log ++ (os.zipIdx i).map (fun p => (p.2, p.1, f)) := by
  induction os with
  | nil => intro i log; simp [groupNotify]
  | cons o os ih => intro i log; simp [groupNotify, ih, List.zipIdx_cons]

theorem deliveries_eq (oo : OpOpts) (t : List (Obs R)) : deliveries oo t =
    (factsIn t).flatMap (fun f => oo.observers.zipIdx.map (fun p => (p.2, p.1, f))) := by
  unfold deliveries
  suffices h : ∀ log, t.foldl (deliverStep oo) log = log ++
      (factsIn t).flatMap (fun f => oo.observers.zipIdx.map (fun p => (p.2, p.1, f))) by
    simpa using h []
  induction t with
  | nil => intro log; simp [factsIn]
  | cons o t ih =>
    intro log
    rw [List.foldl_cons, ih]
    cases o with
    | fact f => simp [factsIn, deliverStep, groupNotify_eq]
    | call c => simp [factsIn, deliverStep]
    | reset => simp [factsIn, deliverStep]

theorem applyAll_observers {A : App W R} (os : List OpOption) : ∀ {oo oo' : OpOpts},
    oo.applyAll A os = .ok oo' → oo'.observers = oo.observers ++ registered os := by
  induction os with
  | nil => intro oo oo' h; cases h; simp [registered]
  | cons o os ih =>
    intro oo oo' h
    unfold OpOpts.applyAll at h
    split at h
    · cases h
    · rename_i oo1 h1
      rw [ih h]
      unfold OpOpts.apply at h1
      split at h1
      · cases h1; simp [registered]
      · split at h1
        · cases h1; simp [registered]
        · cases h1
      · cases h1; simp [registered]
      · cases h1; simp [registered]

theorem filter_zipIdx (os : List Nat) (f : F) (i k o : Nat) (h : os[k]? = some o) :
    ((os.zipIdx i).map (fun p => (p.2, p.1, f))).filter (fun d => d.1 = i + k) = [(i + k, o, f)] := by
  induction os generalizing i k with
  | nil => simp at h
  | cons x os ih =>
    rw [List.zipIdx_cons, List.map_cons]
    cases k with
    | zero =>
      simp only [List.getElem?_cons_zero, Option.some.injEq] at h
      subst h
      rw [List.filter_cons_of_pos (by simp)]
      simp only [Nat.add_zero, List.cons.injEq, true_and]
      rw [List.filter_eq_nil_iff]
      intro d hd
      obtain ⟨p, hp, rfl⟩ := List.mem_map.1 hd
      have := List.le_snd_of_mem_zipIdx hp
      simp only [decide_eq_true_eq]
      omega
    | succ k =>
      simp only [List.getElem?_cons_succ] at h
      rw [List.filter_cons_of_neg (by simp)]
      have := ih (i + 1) k h
      rw [show i + (k + 1) = i + 1 + k by omega]
      exact this

/-- **C20.**  The observers of an operation are those given as options, in order; each of them
(a second registration counts separately) is told all facts of the operation, once each, in
the order in which they occurred, and nothing else; and nobody is told of a fact before
everyone has been told of the earlier ones. -/
theorem C20_same_facts {A : App W R} {s : Sys W R} {os : List OpOption} {oo : OpOpts}
    (ho : newOpOpts A s os = .ok oo) (t : List (Obs R)) :
    (∀ k o, (registered os)[k]? = some o →
      (deliveries oo t).filter (fun d => d.1 = k) = (factsIn t).map (fun f => (k, o, f))) ∧
    (∀ d ∈ deliveries oo t, (registered os)[d.1]? = some d.2.1) ∧
    (deliveries oo t).map (fun d => d.2.2) =
      (factsIn t).flatMap (fun f => List.replicate (registered os).length f) := by
  have hr : oo.observers = registered os := by
    have := applyAll_observers os ho
    simpa [OpOpts.default] using this
  rw [deliveries_eq, hr]
  refine ⟨?_, ?_, ?_⟩
  · intro k o hk
    induction factsIn t with
    | nil => rfl
    | cons f fs ih =>
      rw [List.flatMap_cons, List.filter_append, ih, List.map_cons]
      have := filter_zipIdx (registered os) f 0 k o hk
      simp only [Nat.zero_add] at this
      rw [this]
      rfl
  · intro d hd
    simp only [List.mem_flatMap, List.mem_map] at hd
    obtain ⟨f, _, p, hp, rfl⟩ := hd
    have := List.mem_zipIdx hp
    simp only [Nat.zero_add, Nat.sub_zero] at this
    rw [this.2.2]
    simp [this.2.1]
  · induction factsIn t with
    | nil => rfl
    | cons f fs ih =>
      rw [List.flatMap_cons, List.map_append, ih, List.flatMap_cons]
      congr 1
      rw [List.map_map]
      change (registered os).zipIdx.map (fun _ => f) = _
      rw [List.map_const', List.length_zipIdx]

set_option maxRecDepth 100000 in
/-- Two registrations of observer 7 and one of observer 4: 33 facts, 99 calls. -/
example : ((deliveries ⟨10, fun _ => true, fun _ => none, [7, 4, 7]⟩
      (during Demo.before Demo.after)).length,
    (factsIn (during Demo.before Demo.after)).length) = (99, 33) := by decide +kernel

/-! ## C71 -/

/-- The buffer's memory is as one would like to think of it. -/
structure BufRel (b : BufState F) (a : BufSpec F) : Prop where
  facts : b.heap.read b.facts = a.facts
  out : b.out.map b.heap.read = a.out
  fresh : b.facts.arr < b.heap.next ∧ ∀ s ∈ b.out, s.arr < b.heap.next
  apart : ∀ s ∈ b.out, s.arr ≠ b.facts.arr
  nodup : (b.out.map Slice.arr).Nodup

theorem read_write_other (h : Heap F) (s : Slice) (a i : Nat) (v : F) (ha : s.arr ≠ a) :
    (h.write a i v).read s = h.read s := by
  simp [Heap.read, Heap.write, ha]

theorem read_write_set (h : Heap F) (s : Slice) (i : Nat) (v : F) :
    (h.write s.arr i v).read s = (h.read s).set i v := by
  apply List.ext_getElem?
  intro j
  simp only [Heap.read, Heap.write, List.getElem?_map, List.getElem?_set, List.length_map,
    List.length_range]
  by_cases hj : j < s.len
  · rw [List.getElem?_range hj]
    by_cases hij : i = j
    · subst hij; simp [hj]
    · simp only [hij, if_false, Option.map_some, true_and]
      rw [if_neg (fun h => hij h.symm)]
  · have : (List.range s.len)[j]? = none := by simp; omega
    rw [this]
    split
    · simp; omega
    · rfl

theorem read_snoc (h : Heap F) (s : Slice) (c : Nat) (v : F) :
    (h.write s.arr s.len v).read ⟨s.arr, s.len + 1, c⟩ = h.read s ++ [v] := by
  simp only [Heap.read, Heap.write, List.range_succ, List.map_append, List.map_cons, List.map_nil,
    and_self, if_true]
  congr 1
  apply List.map_congr_left
  intro j hj
  have := List.mem_range.1 hj
  rw [if_neg (by omega)]

theorem read_copy_old (h : Heap F) (s x : Slice) (hx : x.arr < h.next) :
    (h.copy s).1.read x = h.read x := by
  have : x.arr ≠ h.next := by omega
  simp [Heap.read, Heap.copy, this]

theorem read_copy_new (h : Heap F) (s : Slice) (c : Nat) :
    (h.copy s).1.read ⟨(h.copy s).2, s.len, c⟩ = h.read s := by
  simp [Heap.read, Heap.copy]

theorem BufRel.step (grow : Nat → Nat) {b : BufState F} {a : BufSpec F} (h : BufRel b a)
    (o : BufOp F) : BufRel (o.exec grow b) (o.spec a) := by
  cases o with
  | notify f =>
    simp only [BufOp.exec, BufOp.spec, goAppend]
    split
    · refine ⟨?_, ?_, h.fresh, h.apart, h.nodup⟩
      · rw [← h.facts]; exact read_snoc _ _ _ _
      · rw [← h.out]
        apply List.map_congr_left
        intro s hs
        exact read_write_other _ _ _ _ _ (h.apart s hs)
    · refine ⟨?_, ?_, ?_, ?_, h.nodup⟩
      · rw [← h.facts, ← read_copy_new b.heap b.facts b.facts.len]
        exact read_snoc (b.heap.copy b.facts).1
          ⟨(b.heap.copy b.facts).2, b.facts.len, b.facts.len⟩ _ _
      · rw [← h.out]
        apply List.map_congr_left
        intro s hs
        have := h.fresh.2 s hs
        simp only
        rw [read_write_other, read_copy_old _ _ _ this]
        simp only [Heap.copy]
        omega
      · simp only [Heap.copy, Heap.write]
        exact ⟨by omega, fun s hs => by have := h.fresh.2 s hs; omega⟩
      · intro s hs
        have := h.fresh.2 s hs
        simp only [Heap.copy]
        omega
  | facts =>
    simp only [BufOp.exec, BufOp.spec]
    refine ⟨?_, ?_, ?_, ?_, ?_⟩
    · simp only; rw [read_copy_old _ _ _ h.fresh.1]; exact h.facts
    · simp only [List.map_append, List.map_cons, List.map_nil]
      rw [read_copy_new, h.facts, ← h.out]
      congr 1
      apply List.map_congr_left
      intro s hs
      exact read_copy_old _ _ _ (h.fresh.2 s hs)
    · simp only [Heap.copy]
      refine ⟨by have := h.fresh.1; omega, ?_⟩
      intro s hs
      rcases List.mem_append.1 hs with hs | hs
      · have := h.fresh.2 s hs; omega
      · obtain rfl := List.mem_singleton.1 hs; simp
    · intro s hs
      rcases List.mem_append.1 hs with hs | hs
      · exact h.apart s hs
      · obtain rfl := List.mem_singleton.1 hs
        have := h.fresh.1
        simp only [Heap.copy]
        omega
    · simp only [List.map_append, List.map_cons, List.map_nil]
      rw [List.nodup_append]
      refine ⟨h.nodup, by simp, ?_⟩
      intro x hx y hy
      obtain ⟨s, hs, rfl⟩ := List.mem_map.1 hx
      have := h.fresh.2 s hs
      obtain rfl := List.mem_singleton.1 hy
      simp only [Heap.copy]
      omega
  | scribble k i v =>
    simp only [BufOp.exec, BufOp.spec]
    split
    · rename_i hk
      have : a.out[k]? = none := by rw [← h.out]; simp [hk]
      rw [show a.out.modify k (fun l => l.set i v) = a.out from ?_]
      · exact h
      · rw [List.modify_eq_self]
        simpa using this
    · rename_i s hk
      have hs := List.mem_of_getElem? hk
      have hread : ∀ j : Nat, (b.out.map ((b.heap.write s.arr i v).read))[j]? =
          ((b.out.map b.heap.read).modify k (fun l => l.set i v))[j]? := by
        intro j
        rw [List.getElem?_modify, List.getElem?_map, List.getElem?_map]
        by_cases hjk : k = j
        · subst hjk
          rw [hk]
          simp [read_write_set]
        · simp only [hjk, if_false]
          cases hj : b.out[j]? with
          | none => rfl
          | some x =>
            have hne : x.arr ≠ s.arr := by
              intro e
              have nd := h.nodup
              have h1 : (b.out.map Slice.arr)[j]? = some x.arr := by simp [hj]
              have h2 : (b.out.map Slice.arr)[k]? = some s.arr := by simp [hk]
              have hl : j < (b.out.map Slice.arr).length := (List.getElem?_eq_some_iff.1 h1).1
              have := (List.getElem?_inj hl nd).1 (h1.trans (by rw [e, h2]))
              exact hjk this.symm
            simp [read_write_other _ _ _ _ _ hne]
      split
      · refine ⟨?_, ?_, h.fresh, h.apart, h.nodup⟩
        · simp only
          rw [read_write_other _ _ _ _ _ (fun e => h.apart s hs e.symm)]
          exact h.facts
        · rw [← h.out]
          exact List.ext_getElem? hread
      · rename_i hi
        rw [show a.out.modify k (fun l => l.set i v) = a.out from ?_]
        · exact h
        · rw [← h.out]
          apply List.ext_getElem?
          intro j
          rw [List.getElem?_modify]
          by_cases hjk : k = j
          · subst hjk
            have : (b.heap.read s).length = s.len := by simp [Heap.read]
            simp only [if_true, List.getElem?_map, hk, Option.map_some, Option.map_eq_map]
            rw [List.set_eq_of_length_le (by omega)]
          · simp [hjk]

/-- **C71.**  Whatever is done with a buffer and with the slices it has handed out, and however
the runtime grows arrays: `Facts()` returns all facts notified so far in order; a slice handed
out is affected neither by later notifications nor by writes to other slices; and writes to
slices handed out never reach the buffer. -/
theorem C71_snapshots (z : F) (grow : Nat → Nat) (ops : List (BufOp F)) :
    let b := (BufState.new z).run grow ops
    let a := (BufSpec.mk [] []).run ops
    b.heap.read b.facts = a.facts ∧ b.out.map b.heap.read = a.out := by
  have : ∀ (b : BufState F) (a : BufSpec F), BufRel b a → BufRel (b.run grow ops) (a.run ops) := by
    induction ops with
    | nil => intro b a h; exact h
    | cons o ops ih => intro b a h; exact ih _ _ (h.step grow o)
  have h0 : BufRel (BufState.new z) (BufSpec.mk [] []) :=
    ⟨rfl, rfl, ⟨by simp [BufState.new], by simp [BufState.new]⟩, by simp [BufState.new],
      by simp [BufState.new]⟩
  exact ⟨(this _ _ h0).facts, (this _ _ h0).out⟩

namespace Demo

/-- Facts handed out, more facts in the spare capacity, an overwritten slice. -/
def buffered : BufState Nat := (BufState.new 0).run (fun n => 2 * n)
  [.notify 1, .notify 2, .notify 3, .facts, .notify 4, .scribble 0 1 9, .facts]

end Demo

example : Demo.buffered.out.map Demo.buffered.heap.read = [[1, 9, 3], [1, 2, 3, 4]] ∧
    Demo.buffered.heap.read Demo.buffered.facts = [1, 2, 3, 4] ∧ Demo.buffered.facts.cap = 4 := by
  decide

end Verif
