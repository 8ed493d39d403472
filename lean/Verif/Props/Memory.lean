import Verif.Memory

/-!
# C115: slices that share memory behave like lists
-/

namespace Verif.Memory

variable {F : Type}

/-! ## What is claimed -/

/-- The same with lists. -/
structure Lists (F : Type) where
  at_ : Var → List F
  taken : List F

def Lists.set (s : Lists F) (v : Var) (x : List F) : Lists F :=
  { s with at_ := fun u => if u = v then x else s.at_ u }

def Use.onLists (u : Use F) (s : Lists F) : Lists F :=
  s.set (.scope u.scope u.field) (s.at_ (.scope u.scope u.field) ++ [u.elem])

/-- What a handling leaves, and what it returns. -/
def Done.onLists : Done F → Lists F → Lists F × List F
  | .aggKept h id k, s =>
    (s.set (.history h id) (s.at_ (.history h id) ++ s.at_ (.scope k .events)), s.at_ (.scope k .events))
  | .aggGone h id k, s => (s.set (.history h id) [], s.at_ (.scope k .events))
  | .integration k, s => (s, s.at_ (.scope k .events))
  | .process h k sort, s =>
    (s.set (.timeouts h) (sort (s.at_ (.timeouts h) ++ s.at_ (.scope k .pending))),
      s.at_ (.scope k .commands) ++ s.at_ (.scope k .ready))
  | .ended _ k, s => (s, s.at_ (.scope k .commands))
  | .deleted h k keep, s => (s.set (.timeouts h) ((s.at_ (.timeouts h)).filter keep), s.at_ (.scope k .commands))
  | .nothing, s => (s, [])

def Stmt.onLists : Stmt F → Lists F → Lists F
  | .dispatch e, s => s.set .queue [e]
  | .tick, s => s.set .queue []
  | .tickProcess h due, s =>
    (s.set .queue (s.at_ .queue ++ (s.at_ (.timeouts h)).takeWhile due)).set (.timeouts h)
      ((s.at_ (.timeouts h)).dropWhile due)
  | .next, s =>
    match s.at_ .queue with
    | [] => s
    | e :: q => { s with taken := s.taken ++ [e] }.set .queue q
  | .use u, s => u.onLists s
  | .handled d us, s =>
    match d.onLists s with
    | (s, envs) =>
      let s := us.foldl (fun s u => u.onLists s) s
      s.set .queue (s.at_ .queue ++ envs)
  | .resetProcess h, s => s.set (.timeouts h) []
  | .resetAggregate h, s =>
    { s with at_ := fun u => match u with
        | .history h' _ => if h' = h then [] else s.at_ u
        | _ => s.at_ u }

def onLists (p : List (Stmt F)) (s : Lists F) : Lists F := p.foldl (fun s x => x.onLists s) s

/-- Sorting keeps the number of elements. -/
def Done.Sorts : Done F → Prop
  | .process _ _ sort => ∀ l, (sort l).length = l.length
  | _ => True

/-- Between the end of the handling of a process, that goes on and has made a timeout that is due,
and its commands and timeouts being put into the queue, nobody executes a command with the scope of this handling. -/
def Stmt.Careful (s : Lists F) : Stmt F → Prop
  | .handled (.process _ k _) us =>
    s.at_ (.scope k .ready) = [] ∨ ∀ u ∈ us, ¬ (u.scope = k ∧ u.field = .commands)
  | _ => True

def Stmt.Sorts : Stmt F → Prop
  | .handled d _ => d.Sorts
  | _ => True

/-- All statements of a program are careful. -/
def Careful : List (Stmt F) → Lists F → Prop
  | [], _ => True
  | x :: p, s => x.Careful s ∧ x.Sorts ∧ Careful p (x.onLists s)

/-! ## Memory -/

theorem get_length (m : Mem F) (s : Sl) : (m.get s).length = s.len := by simp [Mem.get]

theorem get_empty (m : Mem F) (s : Sl) (h : s.len = 0) : m.get s = [] := by simp [Mem.get, h]

theorem get_congr {m m' : Mem F} {s : Sl}
    (h : ∀ i, i < s.len → m'.cell s.arr (s.off + i) = m.cell s.arr (s.off + i)) : m'.get s = m.get s := by
  unfold Mem.get
  exact List.map_congr_left (fun i hi => h i (List.mem_range.1 hi))

theorem put_other (m : Mem F) (s : Sl) (a i : Nat) (vs : List F) (h : s.arr ≠ a) :
    (m.put a i vs).get s = m.get s :=
  get_congr (fun j _ => by simp [Mem.put, h])

theorem put_behind (m : Mem F) (s : Sl) (i : Nat) (vs : List F) (h : s.off + s.len ≤ i) :
    (m.put s.arr i vs).get s = m.get s :=
  get_congr (fun j hj => by
    have : ¬ i ≤ s.off + j := by omega
    simp [Mem.put, this])

theorem put_nil (m : Mem F) (a i : Nat) : m.put a i [] = m := by
  unfold Mem.put
  cases m
  simp

theorem put_get (m : Mem F) (s : Sl) (vs : List F) (h : vs.length = s.len) : (m.put s.arr s.off vs).get s = vs := by
  apply List.ext_getElem
  · rw [get_length, h]
  · intro i h1 h2
    simp [Mem.get, Mem.put, h2]

theorem put_append (m : Mem F) (s : Sl) (vs : List F) :
    (m.put s.arr (s.off + s.len) vs).get { s with len := s.len + vs.length } = m.get s ++ vs := by
  apply List.ext_getElem
  · simp [get_length]
  · intro i h1 h2
    rw [get_length] at h1
    by_cases hi : i < s.len
    · rw [List.getElem_append_left (by rw [get_length]; exact hi)]
      simp only [Mem.get, Mem.put, List.getElem_map, List.getElem_range]
      rw [if_neg (by omega)]
    · rw [List.getElem_append_right (by rw [get_length]; omega)]
      have h4 : s.off + i - (s.off + s.len) = i - s.len := by omega
      have h5 : i - s.len < vs.length := by dsimp only at h1; omega
      simp only [Mem.get, Mem.put, List.getElem_map, List.getElem_range, List.length_map, List.length_range]
      rw [if_pos ⟨trivial, by omega⟩, h4, List.getElem?_eq_getElem h5]
      rfl

/-! ## Slices are apart -/

structure Ok (s : St F) : Prop where
  fits : ∀ v, (s.at_ v).len ≤ (s.at_ v).cap
  old : ∀ v, (s.at_ v).cap = 0 ∨ (s.at_ v).arr < s.mem.next
  apart : ∀ u v, u ≠ v → (s.at_ u).cap = 0 ∨ (s.at_ v).cap = 0 ∨ (s.at_ u).arr ≠ (s.at_ v).arr

/-- The elements of `x` stay what they are if something is appended to one of the variables in `P`. -/
def Held (P : Var → Prop) (x : Sl) (s : St F) : Prop :=
  x.len = 0 ∨ (x.arr < s.mem.next ∧ ∀ v, P v →
    (s.at_ v).cap = 0 ∨ (s.at_ v).arr ≠ x.arr ∨ x.off + x.len ≤ (s.at_ v).off + (s.at_ v).len)

theorem set_at (s : St F) (v : Var) (x : Sl) : (s.set v x).at_ v = x := by simp [St.set]

theorem set_at_other (s : St F) (u v : Var) (x : Sl) (h : u ≠ v) : (s.set v x).at_ u = s.at_ u := by simp [St.set, h]

theorem set_ok {s : St F} (hs : Ok s) (v : Var) (x : Sl) (h1 : x.len ≤ x.cap)
    (h2 : x.cap = 0 ∨ (x.arr < s.mem.next ∧ ∀ u, u ≠ v → (s.at_ u).cap = 0 ∨ (s.at_ u).arr ≠ x.arr)) :
    Ok (s.set v x) := by
  refine ⟨?_, ?_, ?_⟩
  · intro u
    by_cases h : u = v
    · rw [h, set_at]; exact h1
    · rw [set_at_other _ _ _ _ h]; exact hs.fits u
  · intro u
    by_cases h : u = v
    · rw [h, set_at]; exact h2.imp id (·.1)
    · rw [set_at_other _ _ _ _ h]; exact hs.old u
  · intro u w huw
    by_cases hu : u = v
    · subst hu
      rw [set_at, set_at_other _ _ _ _ (Ne.symm huw)]
      rcases h2 with h | ⟨_, h⟩
      · exact .inl h
      · rcases h w (Ne.symm huw) with h | h
        · exact .inr (.inl h)
        · exact .inr (.inr (Ne.symm h))
    · rw [set_at_other _ _ _ _ hu]
      by_cases hw : w = v
      · subst hw
        rw [set_at]
        rcases h2 with h | ⟨_, h⟩
        · exact .inr (.inl h)
        · rcases h u hu with h | h
          · exact .inl h
          · exact .inr (.inr h)
      · rw [set_at_other _ _ _ _ hw]
        exact hs.apart u w huw

theorem next_le {s : St F} {m : Mem F} (hs : Ok s) (hm : s.mem.next ≤ m.next) : Ok { s with mem := m } :=
  ⟨hs.fits, fun v => (hs.old v).imp id (fun h => Nat.lt_of_lt_of_le h hm), hs.apart⟩

structure Pushed (s s' : St F) (v : Var) (vs : List F) : Prop where
  ok : Ok s'
  get : s'.get v = s.get v ++ vs
  other : ∀ u, u ≠ v → s'.get u = s.get u
  at_other : ∀ u, u ≠ v → s'.at_ u = s.at_ u
  next : s.mem.next ≤ s'.mem.next
  taken : s'.taken = s.taken
  held : ∀ P x, P v → Held P x s → s'.mem.get x = s.mem.get x ∧ Held P x s'

theorem push_pushed (grow : Nat → Nat → Nat) {s : St F} (hs : Ok s) (v : Var) (vs : List F) :
    Pushed s (s.push grow v vs) v vs := by
  unfold St.push Mem.append
  by_cases h : (s.at_ v).len + vs.length ≤ (s.at_ v).cap
  · simp only [if_pos h]
    have hn : (s.mem.put (s.at_ v).arr ((s.at_ v).off + (s.at_ v).len) vs).next = s.mem.next := rfl
    have oth : ∀ u, u ≠ v → (s.mem.put (s.at_ v).arr ((s.at_ v).off + (s.at_ v).len) vs).get (s.at_ u) =
        s.mem.get (s.at_ u) := by
      intro u hu
      rcases hs.apart u v hu with h0 | h0 | h0
      · rw [get_empty _ _ (by have := hs.fits u; omega), get_empty _ _ (by have := hs.fits u; omega)]
      · have : vs = [] := List.eq_nil_of_length_eq_zero (by omega)
        rw [this, put_nil]
      · exact put_other _ _ _ _ _ h0
    refine ⟨?_, ?_, ?_, ?_, Nat.le_refl _, rfl, ?_⟩
    · refine set_ok (next_le hs (Nat.le_of_eq hn.symm)) v _ h ?_
      rcases hs.old v with h0 | h0
      · exact .inl h0
      · by_cases hc : (s.at_ v).cap = 0
        · exact .inl hc
        · refine .inr ⟨h0, fun u hu => ?_⟩
          rcases hs.apart u v hu with h1 | h1 | h1
          · exact .inl h1
          · exact absurd h1 hc
          · exact .inr h1
    · unfold St.get
      rw [set_at]
      exact put_append _ _ _
    · intro u hu
      unfold St.get
      rw [set_at_other _ _ _ _ hu]
      exact oth u hu
    · exact fun u hu => set_at_other _ _ _ _ hu
    · intro P x hv hx
      rcases hx with hx | ⟨h1, h2⟩
      · exact ⟨by rw [get_empty _ _ hx, get_empty _ _ hx], .inl hx⟩
      refine ⟨?_, .inr ⟨h1, ?_⟩⟩
      · show (s.mem.put (s.at_ v).arr ((s.at_ v).off + (s.at_ v).len) vs).get x = s.mem.get x
        rcases h2 v hv with h3 | h3 | h3
        · have : vs = [] := List.eq_nil_of_length_eq_zero (by omega)
          rw [this, put_nil]
        · exact put_other _ _ _ _ _ (Ne.symm h3)
        · by_cases ha : x.arr = (s.at_ v).arr
          · rw [← ha]
            exact put_behind _ _ _ _ h3
          · exact put_other _ _ _ _ _ ha
      · intro u hu
        by_cases huv : u = v
        · subst huv
          rw [set_at]
          rcases h2 u hu with h3 | h3 | h3
          · exact .inl h3
          · exact .inr (.inl h3)
          · refine .inr (.inr ?_)
            dsimp only
            omega
        · rw [set_at_other _ _ _ _ huv]
          exact h2 u hu
  · simp only [if_neg h]
    have oth : ∀ x : Sl, (x.len = 0 ∨ x.arr < s.mem.next) →
        (({ s.mem with next := s.mem.next + 1 } : Mem F).put s.mem.next 0 (s.mem.get (s.at_ v) ++ vs)).get x =
        s.mem.get x := by
      intro x hx
      rcases hx with hx | hx
      · rw [get_empty _ _ hx, get_empty _ _ hx]
      · rw [put_other _ _ _ _ _ (Nat.ne_of_lt hx)]
        rfl
    refine ⟨?_, ?_, ?_, ?_, Nat.le_succ _, rfl, ?_⟩
    · refine set_ok (next_le hs (Nat.le_succ _)) v _ (Nat.le_max_right _ _) (.inr ⟨Nat.lt_succ_self _, ?_⟩)
      intro u hu
      rcases hs.old u with h1 | h1
      · exact .inl h1
      · exact .inr (Nat.ne_of_lt h1)
    · unfold St.get
      rw [set_at]
      have := put_get ({ s.mem with next := s.mem.next + 1 } : Mem F)
        ⟨s.mem.next, 0, (s.at_ v).len + vs.length,
          max (grow (s.at_ v).cap ((s.at_ v).len + vs.length)) ((s.at_ v).len + vs.length)⟩
        (s.mem.get (s.at_ v) ++ vs) (by simp [get_length])
      exact this
    · intro u hu
      unfold St.get
      rw [set_at_other _ _ _ _ hu]
      refine oth (s.at_ u) ?_
      have := hs.fits u
      rcases hs.old u with h1 | h1
      · exact .inl (by omega)
      · exact .inr h1
    · exact fun u hu => set_at_other _ _ _ _ hu
    · intro P x hv hx
      rcases hx with hx | ⟨h1, h2⟩
      · exact ⟨by rw [get_empty _ _ hx, get_empty _ _ hx], .inl hx⟩
      refine ⟨oth x (.inr h1), .inr ⟨Nat.lt_succ_of_lt h1, ?_⟩⟩
      intro u hu
      by_cases huv : u = v
      · subst huv
        rw [set_at]
        exact .inr (.inl (Nat.ne_of_gt h1))
      · rw [set_at_other _ _ _ _ huv]
        exact h2 u hu

/-! ## The statements -/

/-- The slices hold what the lists hold. -/
structure Agree (s : St F) (l : Lists F) : Prop where
  ok : Ok s
  get : ∀ v, s.get v = l.at_ v
  taken : s.taken = l.taken

theorem lset_at (s : Lists F) (v : Var) (x : List F) : (s.set v x).at_ v = x := by simp [Lists.set]

theorem lset_at_other (s : Lists F) (u v : Var) (x : List F) (h : u ≠ v) : (s.set v x).at_ u = s.at_ u := by
  simp [Lists.set, h]

theorem Pushed.agree {s s' : St F} {v : Var} {vs : List F} {l : Lists F} (h : Pushed s s' v vs) (ha : Agree s l) :
    Agree s' (l.set v (l.at_ v ++ vs)) := by
  refine ⟨h.ok, ?_, h.taken.trans ha.taken⟩
  intro u
  by_cases hu : u = v
  · subst hu
    rw [h.get, lset_at, ha.get]
  · rw [h.other u hu, lset_at_other _ _ _ _ hu, ha.get]

theorem set_agree {s : St F} {l : Lists F} (ha : Agree s l) (v : Var) (x : Sl) (xs : List F) (h1 : x.len ≤ x.cap)
    (h2 : x.cap = 0 ∨ (x.arr < s.mem.next ∧ ∀ u, u ≠ v → (s.at_ u).cap = 0 ∨ (s.at_ u).arr ≠ x.arr))
    (h3 : s.mem.get x = xs) : Agree (s.set v x) (l.set v xs) := by
  refine ⟨set_ok ha.ok v x h1 h2, ?_, ha.taken⟩
  intro u
  unfold St.get
  by_cases hu : u = v
  · subst hu
    rw [set_at, lset_at]
    exact h3
  · rw [set_at_other _ _ _ _ hu, lset_at_other _ _ _ _ hu]
    exact ha.get u

theorem set_none_agree {s : St F} {l : Lists F} (ha : Agree s l) (v : Var) : Agree (s.set v .none) (l.set v []) :=
  set_agree ha v _ _ (Nat.le_refl _) (.inl rfl) rfl

/-- A part of the slice that is kept in `v`. -/
theorem own_part {s : St F} (hs : Ok s) (v : Var) (i : Nat) :
    ((s.at_ v).from i).cap = 0 ∨ (((s.at_ v).from i).arr < s.mem.next ∧
      ∀ u, u ≠ v → (s.at_ u).cap = 0 ∨ (s.at_ u).arr ≠ ((s.at_ v).from i).arr) := by
  by_cases hc : (s.at_ v).cap = 0
  · left
    unfold Sl.from
    dsimp only
    omega
  right
  refine ⟨(hs.old v).resolve_left hc, ?_⟩
  intro u hu
  rcases hs.apart u v hu with h | h | h
  · exact .inl h
  · exact absurd h hc
  · exact .inr h

theorem get_upTo (m : Mem F) (s : Sl) (i : Nat) (h : i ≤ s.len) : m.get (s.upTo i) = (m.get s).take i := by
  apply List.ext_getElem
  · simp [get_length, Sl.upTo, h]
  · intro j h1 h2
    simp [Mem.get, Sl.upTo]

theorem get_from (m : Mem F) (s : Sl) (i : Nat) : m.get (s.from i) = (m.get s).drop i := by
  apply List.ext_getElem
  · simp [get_length, Sl.from]
  · intro j h1 h2
    simp [Mem.get, Sl.from, Nat.add_assoc]

theorem use_pushed (grow : Nat → Nat → Nat) (u : Use F) {s : St F} (hs : Ok s) :
    Pushed s (u.exec grow s) (.scope u.scope u.field) [u.elem] := push_pushed grow hs _ _

theorem uses_agree (grow : Nat → Nat → Nat) (P : Var → Prop) (x : Sl) (us : List (Use F))
    (hu : ∀ u ∈ us, P (.scope u.scope u.field)) :
    ∀ (s : St F) (l : Lists F), Agree s l → Held P x s →
      Agree (us.foldl (fun s u => u.exec grow s) s) (us.foldl (fun s u => u.onLists s) l) ∧
      (us.foldl (fun s u => u.exec grow s) s).mem.get x = s.mem.get x := by
  induction us with
  | nil => exact fun s l ha _ => ⟨ha, rfl⟩
  | cons u us ih =>
    intro s l ha hx
    have hp := use_pushed grow u ha.ok
    obtain ⟨h1, h2⟩ := hp.held P x (hu u (List.mem_cons_self ..)) hx
    obtain ⟨h3, h4⟩ := ih (fun w hw => hu w (List.mem_cons_of_mem _ hw)) _ _ (hp.agree ha) h2
    exact ⟨h3, h4.trans h1⟩

/-- What a variable holds is held by appending to any of them. -/
theorem held_var {s : St F} (hs : Ok s) (v : Var) : Held (fun _ => True) (s.at_ v) s := by
  by_cases hc : (s.at_ v).cap = 0
  · exact .inl (by have := hs.fits v; omega)
  refine .inr ⟨(hs.old v).resolve_left hc, ?_⟩
  intro u _
  by_cases hu : u = v
  · subst hu
    exact .inr (.inr (Nat.le_refl _))
  · rcases hs.apart u v hu with h | h | h
    · exact .inl h
    · exact absurd h hc
    · exact .inr (.inl h)

theorem agree_in_place {s : St F} {l : Lists F} (ha : Agree s l) (v : Var) (vs : List F)
    (h : vs.length = (s.at_ v).len) :
    Agree { s with mem := s.mem.put (s.at_ v).arr (s.at_ v).off vs } (l.set v vs) := by
  refine ⟨next_le ha.ok (Nat.le_refl _), ?_, ha.taken⟩
  intro u
  show (s.mem.put (s.at_ v).arr (s.at_ v).off vs).get (s.at_ u) = _
  by_cases hu : u = v
  · subst hu
    rw [lset_at]
    exact put_get _ _ _ h
  · rw [lset_at_other _ _ _ _ hu, ← ha.get u]
    show _ = s.mem.get (s.at_ u)
    rcases ha.ok.apart u v hu with h0 | h0 | h0
    · have := ha.ok.fits u
      rw [get_empty _ _ (by omega), get_empty _ _ (by omega)]
    · have := ha.ok.fits v
      have : vs = [] := List.eq_nil_of_length_eq_zero (by omega)
      rw [this, put_nil]
    · exact put_other _ _ _ _ _ h0

/-- `append(s.commands, s.ready...)`: the variables keep what they hold, and the result is held by appending to any variable
but the first, or to that too if nothing was appended. -/
theorem append_result (grow : Nat → Nat → Nat) {s : St F} {l : Lists F} (ha : Agree s l) (v : Var) (vs : List F) :
    ∀ m x, s.mem.append grow (s.at_ v) vs = (m, x) →
      Agree { s with mem := m } l ∧ m.get x = l.at_ v ++ vs ∧
      Held (fun u => u ≠ v ∨ vs = []) x { s with mem := m } := by
  intro m x he
  have hp := push_pushed grow ha.ok v vs
  unfold St.push at hp
  rw [he] at hp
  have hg : m.get x = l.at_ v ++ vs := by
    have := hp.get
    unfold St.get at this
    rw [set_at] at this
    rw [ha.get v |>.symm]
    exact this
  have hv : m.get (s.at_ v) = s.mem.get (s.at_ v) := (hp.held _ _ trivial (held_var ha.ok v)).1
  refine ⟨⟨next_le ha.ok hp.next, ?_, ha.taken⟩, hg, ?_⟩
  · intro u
    by_cases hu : u = v
    · subst hu
      exact hv.trans (ha.get u)
    · have := hp.other u hu
      unfold St.get at this
      rw [set_at_other _ _ _ _ hu] at this
      exact this.trans (ha.get u)
  · have hh := held_var hp.ok v
    rw [set_at] at hh
    rcases hh with hh | ⟨h1, h2⟩
    · exact .inl hh
    refine .inr ⟨h1, ?_⟩
    intro u hu
    by_cases huv : u = v
    · subst huv
      have hvs : vs = [] := hu.resolve_left (fun h => h rfl)
      subst hvs
      unfold Mem.append at he
      have := ha.ok.fits u
      rw [if_pos (by simpa using this)] at he
      cases he
      exact .inr (.inr (Nat.le_refl _))
    · have := h2 u trivial
      rw [set_at_other _ _ _ _ huv] at this
      exact this

theorem pushes_agree (grow : Nat → Nat → Nat) (v : Var) (vs : List F) : ∀ (s : St F) (l : Lists F), Agree s l →
    Agree (vs.foldl (fun s e => s.push grow v [e]) s) (l.set v (l.at_ v ++ vs)) := by
  induction vs with
  | nil =>
    intro s l ha
    rw [List.append_nil]
    refine ⟨ha.ok, ?_, ha.taken⟩
    intro u
    by_cases hu : u = v
    · subst hu; rw [lset_at]; exact ha.get u
    · rw [lset_at_other _ _ _ _ hu]; exact ha.get u
  | cons e vs ih =>
    intro s l ha
    have := ih _ _ ((push_pushed grow ha.ok v [e]).agree ha)
    rw [lset_at] at this
    have e2 : (l.set v (l.at_ v ++ [e])).set v (l.at_ v ++ [e] ++ vs) = l.set v (l.at_ v ++ e :: vs) := by
      unfold Lists.set
      dsimp only
      congr 1
      funext u
      by_cases hu : u = v <;> simp [hu]
    rw [e2] at this
    exact this

theorem make_agree {s : St F} {l : Lists F} (ha : Agree s l) (v : Var) (c : Nat) :
    Agree ({ s with mem := (s.mem.make c).1 }.set v (s.mem.make c).2) (l.set v []) := by
  have h0 : Agree { s with mem := (s.mem.make c).1 } l := ⟨next_le ha.ok (Nat.le_succ _), ha.get, ha.taken⟩
  refine set_agree h0 v _ _ (Nat.zero_le _) (.inr ⟨Nat.lt_succ_self _, ?_⟩) rfl
  intro u _
  exact (ha.ok.old u).imp id (fun h => Nat.ne_of_lt h)

theorem lset_set (l : Lists F) (v : Var) (a b : List F) : (l.set v a).set v b = l.set v b := by
  unfold Lists.set
  dsimp only
  congr 1
  funext u
  by_cases hu : u = v <;> simp [hu]

/-- The end of the handling of a process that goes on: first the timeouts, then the result. -/
theorem process_done (grow : Nat → Nat → Nat) (h : String) (k : Nat) (sort : List F → List F)
    (hs : ∀ l, (sort l).length = l.length) {s : St F} {l : Lists F} (ha : Agree s l) :
    ∃ (sB : St F) (m : Mem F) (x : Sl), (Done.process h k sort).exec grow s = ({ sB with mem := m }, x) ∧
      Agree sB (l.set (.timeouts h) (sort (l.at_ (.timeouts h) ++ l.at_ (.scope k .pending)))) ∧
      sB.mem.append grow (sB.at_ (.scope k .commands)) (l.at_ (.scope k .ready)) = (m, x) := by
  have h1 := (push_pushed grow ha.ok (.timeouts h) (l.at_ (.scope k .pending))).agree ha
  have h2 := agree_in_place h1 (.timeouts h)
    (sort ((s.push grow (.timeouts h) (l.at_ (.scope k .pending))).get (.timeouts h)))
    ((hs _).trans (get_length _ _))
  have e1 := h1.get (.timeouts h)
  rw [lset_at] at e1
  rw [e1, lset_set] at h2
  have e2 := h2.get (.scope k .ready)
  rw [lset_at_other l (.scope k .ready) (.timeouts h) _ (fun h => nomatch h)] at e2
  unfold St.get at e1
  refine ⟨_, _, _, ?_, h2, (Prod.eta _).symm⟩
  unfold Done.exec
  dsimp only
  rw [ha.get (.scope k .pending), e1, e2]

/-- The end of a handling. -/
theorem done_agree (grow : Nat → Nat → Nat) (d : Done F) (us : List (Use F)) {s : St F} {l : Lists F} (ha : Agree s l)
    (hs : d.Sorts) (hc : (Stmt.handled d us).Careful l) :
    ∃ P : Var → Prop, (∀ u ∈ us, P (.scope u.scope u.field)) ∧ Agree (d.exec grow s).1 (d.onLists l).1 ∧
      (d.exec grow s).1.mem.get (d.exec grow s).2 = (d.onLists l).2 ∧ Held P (d.exec grow s).2 (d.exec grow s).1 := by
  cases d with
  | aggKept h id k =>
    have hp := push_pushed grow ha.ok (.history h id) (s.get (.scope k .events))
    refine ⟨fun _ => True, fun _ _ => trivial, ?_, ?_, held_var hp.ok _⟩
    · have := hp.agree ha
      unfold Done.exec Done.onLists
      dsimp only
      rw [ha.get (.scope k .events)] at this ⊢
      exact this
    · exact (hp.other (.scope k .events) (fun h => nomatch h)).trans (ha.get _)
  | aggGone h id k =>
    have h0 := set_none_agree ha (.history h id)
    exact ⟨fun _ => True, fun _ _ => trivial, h0, ha.get _, held_var h0.ok _⟩
  | integration k => exact ⟨fun _ => True, fun _ _ => trivial, ha, ha.get _, held_var ha.ok _⟩
  | ended h k => exact ⟨fun _ => True, fun _ _ => trivial, ha, ha.get _, held_var ha.ok _⟩
  | nothing => exact ⟨fun _ => True, fun _ _ => trivial, ha, rfl, .inl rfl⟩
  | deleted h k keep =>
    have h0 := pushes_agree grow (.timeouts h) ((s.get (.timeouts h)).filter keep) _ _
      (make_agree ha (.timeouts h) (s.get (.timeouts h)).length)
    rw [lset_at, List.nil_append, lset_set] at h0
    rw [show (l.set (.timeouts h) ((s.get (.timeouts h)).filter keep)) =
      ((Done.deleted h k keep).onLists l).1 by rw [ha.get]; rfl] at h0
    refine ⟨fun _ => True, fun _ _ => trivial, ?_, ?_, held_var h0.ok _⟩
    · exact h0
    · exact (h0.get (.scope k .commands)).trans (lset_at_other _ _ _ _ (fun h => nomatch h))
  | process h k sort =>
    obtain ⟨sB, m, x, h1, h2, h3⟩ := process_done grow h k sort hs ha
    obtain ⟨h4, h5, h6⟩ := append_result grow h2 _ _ m x h3
    rw [h1]
    refine ⟨fun u => u ≠ .scope k .commands ∨ l.at_ (.scope k .ready) = [], ?_, h4, ?_, h6⟩
    · intro u hu
      rcases hc with hc | hc
      · exact .inr hc
      · refine .inl (fun he => hc u hu ?_)
        cases u
        cases he
        exact ⟨rfl, rfl⟩
    · rw [lset_at_other l (.scope k .commands) (.timeouts h) _ (fun h => nomatch h)] at h5
      exact h5

theorem drop_while (p : F → Bool) (l : List F) : l.drop (l.takeWhile p).length = l.dropWhile p := by
  induction l with
  | nil => rfl
  | cons a l ih =>
    rw [List.takeWhile_cons, List.dropWhile_cons]
    by_cases h : p a = true
    · rw [if_pos h, if_pos h, List.length_cons, List.drop_succ_cons, ih]
    · rw [if_neg h, if_neg h]
      rfl

theorem stmt_agree (grow : Nat → Nat → Nat) (x : Stmt F) {s : St F} {l : Lists F} (ha : Agree s l)
    (hs : x.Sorts) (hc : x.Careful l) : Agree (x.exec grow s) (x.onLists l) := by
  cases x with
  | dispatch e =>
    have h0 := make_agree ha .queue 1
    have := (push_pushed grow h0.ok .queue [e]).agree h0
    rw [lset_at, lset_set] at this
    exact this
  | tick => exact set_none_agree ha .queue
  | tickProcess h due =>
    have hle : ((s.mem.get (s.at_ (.timeouts h))).takeWhile due).length ≤ (s.at_ (.timeouts h)).len := by
      rw [← get_length s.mem]
      exact (List.takeWhile_sublist _).length_le
    have et : (s.mem.get (s.at_ (.timeouts h))) = l.at_ (.timeouts h) := ha.get _
    have e1 : s.mem.get ((s.at_ (.timeouts h)).upTo ((s.mem.get (s.at_ (.timeouts h))).takeWhile due).length) =
        (l.at_ (.timeouts h)).takeWhile due := by
      rw [get_upTo _ _ _ hle, et]
      exact (List.prefix_iff_eq_take.1 (List.takeWhile_prefix _)).symm
    have e2 : s.mem.get ((s.at_ (.timeouts h)).from ((s.mem.get (s.at_ (.timeouts h))).takeWhile due).length) =
        (l.at_ (.timeouts h)).dropWhile due := by
      rw [get_from, et]
      exact drop_while due _
    have h0 := set_agree ha (.timeouts h) _ _ (by
      have := ha.ok.fits (.timeouts h)
      unfold Sl.from
      dsimp only
      omega) (own_part ha.ok _ _) e2
    have h1 := (push_pushed grow h0.ok .queue ((l.at_ (.timeouts h)).takeWhile due)).agree h0
    unfold Stmt.exec
    dsimp only
    have e3 : (s.set (.timeouts h) ((s.at_ (.timeouts h)).from
        ((s.mem.get (s.at_ (.timeouts h))).takeWhile due).length)).mem = s.mem := rfl
    rw [e3, e1]
    have e4 : (l.set (.timeouts h) ((l.at_ (.timeouts h)).dropWhile due)).set .queue
        ((l.set (.timeouts h) ((l.at_ (.timeouts h)).dropWhile due)).at_ .queue ++
          (l.at_ (.timeouts h)).takeWhile due) = Stmt.onLists (.tickProcess h due) l := by
      unfold Stmt.onLists Lists.set
      dsimp only
      congr 1
      funext u
      by_cases hu : u = .queue
      · subst hu; simp
      · by_cases hu2 : u = .timeouts h <;> simp [hu, hu2]
    rw [← e4]
    exact h1
  | next =>
    unfold Stmt.exec Stmt.onLists
    dsimp only
    have hq := ha.get .queue
    by_cases h0 : (s.at_ .queue).len = 0
    · rw [if_pos h0]
      rw [St.get, get_empty _ _ h0] at hq
      rw [← hq]
      exact ha
    · rw [if_neg h0]
      have hc : s.mem.get (s.at_ .queue) = s.mem.cell (s.at_ .queue).arr (s.at_ .queue).off ::
          s.mem.get ((s.at_ .queue).from 1) := by
        rw [get_from]
        unfold Mem.get
        obtain ⟨n, hn⟩ := Nat.exists_eq_succ_of_ne_zero h0
        rw [hn, List.range_succ_eq_map]
        simp
      rw [← hq, St.get, hc]
      have h1 : Agree { s with taken := s.taken ++ [s.mem.cell (s.at_ .queue).arr (s.at_ .queue).off] }
          { l with taken := l.taken ++ [s.mem.cell (s.at_ .queue).arr (s.at_ .queue).off] } :=
        ⟨⟨ha.ok.fits, ha.ok.old, ha.ok.apart⟩, ha.get, by rw [ha.taken]⟩
      refine set_agree h1 .queue _ _ ?_ (own_part ha.ok _ _) rfl
      have := ha.ok.fits .queue
      unfold Sl.from
      dsimp only
      omega
  | use u => exact (use_pushed grow u ha.ok).agree ha
  | handled d us =>
    obtain ⟨P, h1, h2, h3, h4⟩ := done_agree grow d us ha hs hc
    obtain ⟨h5, h6⟩ := uses_agree grow P _ us h1 _ _ h2 h4
    have := (push_pushed grow h5.ok .queue (d.onLists l).2).agree h5
    unfold Stmt.exec Stmt.onLists
    dsimp only
    rw [h6, h3]
    exact this
  | resetProcess h => exact set_none_agree ha _
  | resetAggregate h =>
    refine ⟨⟨?_, ?_, ?_⟩, ?_, ha.taken⟩
    · intro v
      unfold Stmt.exec
      dsimp only
      cases v with
      | history h' id =>
        dsimp only
        by_cases hh : h' = h
        · rw [if_pos hh]; exact Nat.le_refl _
        · rw [if_neg hh]; exact ha.ok.fits _
      | _ => exact ha.ok.fits _
    · intro v
      unfold Stmt.exec
      dsimp only
      cases v with
      | history h' id =>
        dsimp only
        by_cases hh : h' = h
        · rw [if_pos hh]; exact .inl rfl
        · rw [if_neg hh]; exact ha.ok.old _
      | _ => exact ha.ok.old _
    · have key : ∀ v, ((Stmt.resetAggregate h).exec grow s).at_ v = .none ∨
          ((Stmt.resetAggregate h).exec grow s).at_ v = s.at_ v := by
        intro v
        unfold Stmt.exec
        dsimp only
        cases v with
        | history h' id =>
          dsimp only
          by_cases hh : h' = h
          · rw [if_pos hh]; exact .inl rfl
          · rw [if_neg hh]; exact .inr rfl
        | _ => exact .inr rfl
      intro u v huv
      rcases key u with h1 | h1
      · rw [h1]; exact .inl rfl
      · rcases key v with h2 | h2
        · rw [h2]; exact .inr (.inl rfl)
        · rw [h1, h2]; exact ha.ok.apart u v huv
    · intro v
      unfold Stmt.exec Stmt.onLists St.get
      dsimp only
      cases v with
      | history h' id =>
        dsimp only
        by_cases hh : h' = h
        · rw [if_pos hh, if_pos hh]; rfl
        · rw [if_neg hh, if_neg hh]; exact ha.get _
      | _ => exact ha.get _

theorem exec_agree (grow : Nat → Nat → Nat) (p : List (Stmt F)) : ∀ (s : St F) (l : Lists F), Agree s l →
    Careful p l → Agree (exec grow p s) (onLists p l) := by
  induction p with
  | nil => exact fun s l ha _ => ha
  | cons x p ih => exact fun s l ha hc => ih _ _ (stmt_agree grow x ha hc.2.1 hc.1) hc.2.2

/-! ## The property -/

/-- **C115.**  Whatever the engine does, and however `append` makes room: the queue, the pending timeouts, the histories and the
fields of scopes hold what they would hold if they were lists, and the same messages are taken from
the queue. -/
theorem C115_lists (grow : Nat → Nat → Nat) (m : Mem F) (p : List (Stmt F)) (hp : Careful p ⟨fun _ => [], []⟩) :
    (∀ v, (exec grow p (St.init m)).get v = (onLists p ⟨fun _ => [], []⟩).at_ v) ∧
    (exec grow p (St.init m)).taken = (onLists p ⟨fun _ => [], []⟩).taken := by
  have := exec_agree grow p (St.init m) ⟨fun _ => [], []⟩
    ⟨⟨fun _ => Nat.le_refl _, fun _ => .inl rfl, fun _ _ _ => .inl rfl⟩, fun _ => rfl, rfl⟩ hp
  exact ⟨this.get, this.taken⟩

/-! ### The exception -/

theorem put_one (m : Mem F) (x : Sl) (A B : List F) (b e : F) (h : m.get x = A ++ b :: B) :
    (m.put x.arr (x.off + A.length) [e]).get x = A ++ e :: B := by
  have hl : x.len = A.length + (B.length + 1) := by rw [← get_length m x, h]; simp
  apply List.ext_getElem
  · rw [get_length, hl]; simp
  · intro i h1 h2
    have h3 : (m.get x)[i]'(by rw [get_length] at h1 ⊢; exact h1) = (A ++ b :: B)[i]'(by simpa using h2) := by
      simp only [h]
    simp only [Mem.get, List.getElem_map, List.getElem_range] at h3
    simp only [Mem.get, Mem.put, List.getElem_map, List.getElem_range]
    by_cases hi : i < A.length
    · rw [if_neg (by omega), h3, List.getElem_append_left hi, List.getElem_append_left hi]
    · rw [List.getElem_append_right (by omega)] at h3 ⊢
      rw [if_pos ⟨trivial, by omega⟩]
      rcases Nat.eq_or_lt_of_le (Nat.le_of_not_lt hi) with hi | hi
      · subst hi
        simp
      · obtain ⟨n, rfl⟩ : ∃ n, i = A.length + (n + 1) := ⟨i - A.length - 1, by omega⟩
        have e1 : x.off + (A.length + (n + 1)) - (x.off + A.length) = n + 1 := by omega
        have e2 : A.length + (n + 1) - A.length = n + 1 := by omega
        rw [e1, h3]
        simp only [e2, List.getElem?_cons_succ, List.getElem?_nil, Option.getD_none, List.getElem_cons_succ]

theorem pushes_held (grow : Nat → Nat → Nat) (v : Var) (x : Sl) (l : List F) :
    ∀ s : St F, Ok s → Held (fun u => u = v) x s →
      (l.foldl (fun s e => s.push grow v [e]) s).mem.get x = s.mem.get x := by
  induction l with
  | nil => exact fun s _ _ => rfl
  | cons e l ih =>
    intro s hs hx
    have hp := push_pushed grow hs v [e]
    obtain ⟨a, b⟩ := hp.held (fun u => u = v) x rfl hx
    exact (ih _ hp.ok b).trans a

/-- Append to the slice in `v`, while `x` begins with the same elements of the same array and goes on with `B`. -/
theorem overwrite (grow : Nat → Nat → Nat) (v : Var) (x : Sl) (late : List F) :
    ∀ (s : St F) (A B : List F), Ok s → x.arr = (s.at_ v).arr → x.off = (s.at_ v).off → x.arr < s.mem.next →
      (s.at_ v).len = A.length → s.mem.get x = A ++ B →
      ∃ j, j ≤ late.length ∧ j ≤ B.length ∧
        (late.foldl (fun s e => s.push grow v [e]) s).mem.get x = A ++ (late.take j ++ B.drop j) := by
  induction late with
  | nil => exact fun s A B _ _ _ _ _ h => ⟨0, Nat.le_refl _, Nat.zero_le _, h⟩
  | cons e late ih =>
    intro s A B hs h1 h2 h3 h4 h5
    have hp := push_pushed grow hs v [e]
    cases B with
    | nil =>
      have hx : Held (fun u => u = v) x s := by
        refine .inr ⟨h3, fun u hu => ?_⟩
        subst hu
        refine .inr (.inr ?_)
        have : x.len = A.length := by rw [← get_length s.mem x, h5]; simp
        omega
      exact ⟨0, Nat.zero_le _, Nat.zero_le _, (pushes_held grow v x (e :: late) s hs hx).trans h5⟩
    | cons b B =>
      by_cases hr : (s.at_ v).len + [e].length ≤ (s.at_ v).cap
      · have e0 : s.push grow v [e] = { s with mem := s.mem.put (s.at_ v).arr ((s.at_ v).off + (s.at_ v).len) [e] }.set v
            { s.at_ v with len := (s.at_ v).len + [e].length } := by
          unfold St.push Mem.append
          rw [if_pos hr]
        have hg : (s.push grow v [e]).mem.get x = A ++ [e] ++ B := by
          rw [e0, ← h1, ← h2, h4, List.append_assoc]
          exact put_one s.mem x A B b e h5
        obtain ⟨j, j1, j2, j3⟩ := ih (s.push grow v [e]) (A ++ [e]) B hp.ok
          (by rw [e0, set_at]; exact h1) (by rw [e0, set_at]; exact h2) (Nat.lt_of_lt_of_le h3 hp.next)
          (by rw [e0, set_at]; simp [h4]) hg
        refine ⟨j + 1, Nat.succ_le_succ j1, Nat.succ_le_succ j2, ?_⟩
        rw [List.foldl_cons, j3]
        simp
      · have e0 : (s.push grow v [e]).at_ v = ⟨s.mem.next, 0, (s.at_ v).len + [e].length,
            max (grow (s.at_ v).cap ((s.at_ v).len + [e].length)) ((s.at_ v).len + [e].length)⟩ := by
          unfold St.push Mem.append
          rw [if_neg hr]
          exact set_at _ _ _
        have e1 : (s.push grow v [e]).mem = ({ s.mem with next := s.mem.next + 1 } : Mem F).put s.mem.next 0
            (s.mem.get (s.at_ v) ++ [e]) := by
          unfold St.push Mem.append
          rw [if_neg hr]
          rfl
        have hg : (s.push grow v [e]).mem.get x = s.mem.get x := by
          rw [e1, put_other _ _ _ _ _ (Nat.ne_of_lt h3)]
          rfl
        have hx : Held (fun u => u = v) x (s.push grow v [e]) := by
          refine .inr ⟨Nat.lt_of_lt_of_le h3 hp.next, fun u hu => ?_⟩
          subst hu
          rw [e0]
          exact .inr (.inl (Nat.ne_of_gt h3))
        exact ⟨0, Nat.zero_le _, Nat.zero_le _, ((pushes_held grow v x late _ hp.ok hx).trans hg).trans h5⟩

theorem late_uses (grow : Nat → Nat → Nat) (k : Nat) (late : List F) (s : St F) :
    (late.map (fun e => (⟨k, .commands, e⟩ : Use F))).foldl (fun s u => u.exec grow s) s =
      late.foldl (fun s e => s.push grow (.scope k .commands) [e]) s := by
  rw [List.foldl_map]
  rfl

theorem late_onLists (k : Nat) (late : List F) : ∀ l : Lists F,
    (late.map (fun e => (⟨k, .commands, e⟩ : Use F))).foldl (fun s u => u.onLists s) l =
      l.set (.scope k .commands) (l.at_ (.scope k .commands) ++ late) := by
  induction late with
  | nil =>
    intro l
    rw [List.append_nil]
    show l = _
    unfold Lists.set
    cases l
    dsimp only
    congr 1
    funext u
    by_cases hu : u = .scope k .commands <;> simp [hu]
  | cons e late ih =>
    intro l
    rw [List.map_cons, List.foldl_cons, ih]
    unfold Use.onLists
    dsimp only
    rw [lset_at, lset_set]
    simp

theorem process_result (grow : Nat → Nat → Nat) (h : String) (k : Nat) (sort : List F → List F)
    (hs : ∀ l, (sort l).length = l.length) (late : List F) {s : St F} {l : Lists F} (ha : Agree s l) :
    ∃ j, j ≤ late.length ∧ j ≤ (l.at_ (.scope k .ready)).length ∧
      Agree (Stmt.exec grow (.handled (.process h k sort) (late.map (fun e => ⟨k, .commands, e⟩))) s)
        ((Stmt.onLists (.handled (.process h k sort) (late.map (fun e => ⟨k, .commands, e⟩))) l).set .queue
          (l.at_ .queue ++ (l.at_ (.scope k .commands) ++
            (late.take j ++ (l.at_ (.scope k .ready)).drop j)))) := by
  obtain ⟨sB, m, x, h1, h2, h3⟩ := process_done grow h k sort hs ha
  obtain ⟨h4, h5, _⟩ := append_result grow h2 _ _ m x h3
  rw [lset_at_other l (.scope k .commands) (.timeouts h) _ (fun h => nomatch h)] at h5
  have hj : ∃ j, j ≤ late.length ∧ j ≤ (l.at_ (.scope k .ready)).length ∧
      (late.foldl (fun (s : St F) e => s.push grow (.scope k .commands) [e]) { sB with mem := m }).mem.get x =
        l.at_ (.scope k .commands) ++ (late.take j ++ (l.at_ (.scope k .ready)).drop j) := by
    have hc := h4.get (.scope k .commands)
    rw [lset_at_other l (.scope k .commands) (.timeouts h) _ (fun h => nomatch h)] at hc
    unfold Mem.append at h3
    by_cases hr : (sB.at_ (.scope k .commands)).len + (l.at_ (.scope k .ready)).length ≤
        (sB.at_ (.scope k .commands)).cap
    · rw [if_pos hr] at h3
      cases h3
      by_cases h0 : (sB.at_ (.scope k .commands)).cap = 0
      · refine ⟨0, Nat.zero_le _, Nat.zero_le _, ?_⟩
        rw [pushes_held grow _ _ late _ h4.ok (.inl (by dsimp only; omega)), h5]
        rfl
      · exact overwrite grow (.scope k .commands) { sB.at_ (.scope k .commands) with
            len := (sB.at_ (.scope k .commands)).len + (l.at_ (.scope k .ready)).length } late _ _ _ h4.ok rfl rfl ((h4.ok.old (.scope k .commands)).resolve_left h0)
          (by rw [← hc]; exact (get_length _ _).symm) h5
    · rw [if_neg hr] at h3
      have hx : Held (fun u => u = Var.scope k .commands) x { sB with mem := m } := by
        cases h3
        refine .inr ⟨Nat.lt_succ_self _, fun u hu => ?_⟩
        rcases h2.ok.old u with h | h
        · exact .inl h
        · exact .inr (.inl (Nat.ne_of_lt h))
      exact ⟨0, Nat.zero_le _, Nat.zero_le _, (pushes_held grow _ _ late _ h4.ok hx).trans h5⟩
  obtain ⟨j, j1, j2, j3⟩ := hj
  refine ⟨j, j1, j2, ?_⟩
  have h6 := pushes_agree grow (.scope k .commands) late _ _ h4
  have h7 := (push_pushed grow h6.ok .queue (l.at_ (.scope k .commands) ++
    (late.take j ++ (l.at_ (.scope k .ready)).drop j))).agree h6
  unfold Stmt.exec Stmt.onLists
  dsimp only
  rw [h1]
  dsimp only [Done.onLists]
  rw [late_uses, j3, late_onLists, lset_set]
  have e : ∀ (a b : List F), ((l.set (.timeouts h) a).set (.scope k .commands) b).at_ .queue = l.at_ .queue := by
    intro a b
    rw [lset_at_other _ .queue (.scope k .commands) _ (fun h => nomatch h),
      lset_at_other _ .queue (.timeouts h) _ (fun h => nomatch h)]
  rw [e] at h7
  exact h7

/-- **C115.**  The exception: a process goes on, and commands are executed with its scope between the end of its handling and
its commands and timeouts being put into the queue.  Then these late commands may take the place of timeouts that are
due, of the first ones in order.  Everything else is as it would be with lists. -/
theorem C115_window (grow : Nat → Nat → Nat) (m : Mem F) (p : List (Stmt F)) (hp : Careful p ⟨fun _ => [], []⟩)
    (h : String) (k : Nat) (sort : List F → List F) (hs : ∀ l, (sort l).length = l.length) (late : List F) :
    let last : Stmt F := .handled (.process h k sort) (late.map (fun e => ⟨k, .commands, e⟩))
    let before := onLists p ⟨fun _ => [], []⟩
    ∃ j, j ≤ late.length ∧ j ≤ (before.at_ (.scope k .ready)).length ∧
      (exec grow (p ++ [last]) (St.init m)).get .queue = before.at_ .queue ++ (before.at_ (.scope k .commands) ++
        (late.take j ++ (before.at_ (.scope k .ready)).drop j)) ∧
      (∀ v, v ≠ .queue →
        (exec grow (p ++ [last]) (St.init m)).get v = (onLists (p ++ [last]) ⟨fun _ => [], []⟩).at_ v) ∧
      (exec grow (p ++ [last]) (St.init m)).taken = (onLists (p ++ [last]) ⟨fun _ => [], []⟩).taken := by
  intro last before
  have ha := exec_agree grow p (St.init m) ⟨fun _ => [], []⟩
    ⟨⟨fun _ => Nat.le_refl _, fun _ => .inl rfl, fun _ _ _ => .inl rfl⟩, fun _ => rfl, rfl⟩ hp
  obtain ⟨j, j1, j2, hj⟩ := process_result grow h k sort hs late ha
  have e1 : exec grow (p ++ [last]) (St.init m) = last.exec grow (exec grow p (St.init m)) := by
    unfold exec
    rw [List.foldl_append]
    rfl
  have e2 : onLists (p ++ [last]) ⟨fun _ => [], []⟩ = last.onLists before := by
    unfold onLists
    rw [List.foldl_append]
    rfl
  rw [e1, e2]
  refine ⟨j, j1, j2, ?_, ?_, hj.taken⟩
  · have := hj.get .queue
    rw [lset_at] at this
    exact this
  · intro v hv
    have := hj.get v
    rw [lset_at_other _ _ _ _ hv] at this
    exact this

/-! ## Instances -/

namespace Demo

/-- Room for twice as many. -/
def grow (_ n : Nat) : Nat := 2 * n

def mem : Mem String := ⟨fun _ _ => "", 1⟩

/-- A command is dispatched and handled by an aggregate; a process handles the event, executes three commands, schedules one
timeout that is due and two that are pending; with the scope of the aggregate another event is recorded too late. -/
def prog : List (Stmt String) :=
  [.dispatch "c", .next, .use ⟨0, .events, "e"⟩, .handled (.aggKept "agg" "a" 0) [⟨0, .events, "late"⟩], .next,
   .use ⟨1, .commands, "1"⟩, .use ⟨1, .commands, "2"⟩, .use ⟨1, .commands, "3"⟩, .use ⟨1, .ready, "due"⟩,
   .use ⟨1, .pending, "t9"⟩, .use ⟨1, .pending, "t5"⟩]

/-- The process is told to go on, with a late event and a late timeout; then the queue is emptied, time passes and the
timeout `t5` becomes due, while more is scheduled. -/
def rest : List (Stmt String) :=
  [.handled (.process "proc" 1 (fun l => l.reverse)) [⟨0, .events, "later"⟩, ⟨1, .ready, "late"⟩],
   .next, .next, .next, .next, .tick, .tickProcess "proc" (fun t => t == "t5"), .use ⟨2, .pending, "t7"⟩,
   .handled (.process "proc" 2 (fun l => l.reverse)) []]

end Demo

/-- A program that meets the hypotheses, and what it leaves. -/
example : Careful (Demo.prog ++ Demo.rest) (⟨fun _ => [], []⟩ : Lists String) := by
  simp [Demo.prog, Demo.rest, Careful, Stmt.Careful, Stmt.Sorts, Done.Sorts]

set_option maxRecDepth 100000 in
example : (exec Demo.grow (Demo.prog ++ Demo.rest) (St.init Demo.mem)).taken = ["c", "e", "1", "2", "3", "due"] ∧
    (exec Demo.grow (Demo.prog ++ Demo.rest) (St.init Demo.mem)).get .queue = ["t5"] ∧
    (exec Demo.grow (Demo.prog ++ Demo.rest) (St.init Demo.mem)).get (.timeouts "proc") = ["t7", "t9"] ∧
    (exec Demo.grow (Demo.prog ++ Demo.rest) (St.init Demo.mem)).get (.history "agg" "a") = ["e"] := by
  decide +kernel

set_option maxRecDepth 100000 in
/-- **C115.**  The exception is one: a command that is executed by an observer, told that the handling has been
completed, takes the place of the timeout, which is never dispatched. -/
theorem C115_window_fails : ∃ (grow : Nat → Nat → Nat) (m : Mem String) (p : List (Stmt String)),
    Careful p ⟨fun _ => [], []⟩ ∧
    (exec grow (p ++ [.handled (.process "proc" 1 id) [⟨1, .commands, "late"⟩]]) (St.init m)).get .queue =
      ["1", "2", "3", "late"] ∧
    (onLists (p ++ [.handled (.process "proc" 1 id) [⟨1, .commands, "late"⟩]]) ⟨fun _ => [], []⟩).at_ .queue =
      ["1", "2", "3", "due"] := by
  refine ⟨Demo.grow, Demo.mem, Demo.prog, ?_, ?_, ?_⟩
  · simp [Demo.prog, Careful, Stmt.Careful, Stmt.Sorts, Done.Sorts]
  · decide +kernel
  · decide +kernel

end Verif.Memory
