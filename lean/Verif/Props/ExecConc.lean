import Verif.ExecConc

/-!
# C86: goroutines that execute commands

All interleavings of the steps of any number of goroutines.
-/

namespace Verif.Exec

/-! ## Specification -/

/-- The options that the executor is bound to after these steps, by the calls of `Bind` and `Unbind`. -/
def boundAfter (ls : List Label) : Option Nat :=
  ls.foldl (fun b l => match l with | .bind _ os => some os | .unbind _ => none | _ => b) none

/-- The interceptor after these steps, by the calls of `Intercept`. -/
def iceptAfter (ic : Option Nat) (ls : List Label) : Option Nat :=
  ls.foldl (fun b l => match l with | .setIcept _ i => i | _ => b) ic

/-- A call of `ExecuteCommand` by goroutine `t` begins. -/
def Label.begins (t : Nat) : Label → Bool
  | .rlock u _ => decide (u = t)
  | _ => false

/-- A call of `ExecuteCommand` by goroutine `t` ends. -/
def Label.ends (t : Nat) : Label → Bool
  | .runlock u => decide (u = t)
  | _ => false

/-- How many calls of `ExecuteCommand` by goroutine `t` are in progress. -/
def inProgress (t : Nat) (ls : List Label) : Int :=
  (ls.countP (Label.begins t) : Int) - ls.countP (Label.ends t)

/-- The step changes what the executor is bound to or its interceptor. -/
def Label.writes : Label → Bool
  | .bind .. => true
  | .unbind .. => true
  | .setIcept .. => true
  | _ => false

/-- The goroutine that makes the step. -/
def Label.actor : Label → Nat
  | .tau t | .rlock t _ | .refuse t _ | .intercepted t _ _ _ | .direct t _ _ | .dispatch t _ _
  | .dispatched t | .giveUp t | .runlock t | .bind t _ | .unbind t | .setIcept t _ => t

/-! ## The invariant -/

/-- The goroutine holds the lock for reading, so often by its position. -/
def Pos.reads : Pos → Nat
  | .check .. => 1
  | .refused .. => 1
  | .select .. => 1
  | _ => 0

def Frame.reads : Frame → Bool
  | .exec _ => true
  | _ => false

def Thread.reads (x : Thread) : Nat := x.pos.reads + x.stack.countP Frame.reads

def Pos.writes : Pos → Bool
  | .locked _ => true
  | .unlock .. => true
  | _ => false

def Pos.isPending : Pos → Bool
  | .pending _ => true
  | _ => false

structure Inv (ic : Option Nat) (ls : List Label) (s : St) : Prop where
  bound : s.bound = boundAfter ls
  icept : s.icept = iceptAfter ic ls
  total : ∀ t, ls.countP (Label.begins t) = ls.countP (Label.ends t) + s.readers.count t
  count : ∀ t, s.readers.count t = (s.threads t).reads
  writer : ∀ t, s.writer = some t ↔ (s.threads t).pos.writes = true
  pend : ∀ t, s.pending = some t ↔ (s.threads t).pos.isPending = true
  excl : s.writer ≠ none → s.readers = [] ∧ s.pending = none
  sel : ∀ t os m k st, s.threads t = ⟨.select os m k, st⟩ → s.bound = some os

theorem boundAfter_snoc (ls : List Label) (l : Label) : boundAfter (ls ++ [l]) =
    match l with | .bind _ os => some os | .unbind _ => none | _ => boundAfter ls := by
  simp only [boundAfter, List.foldl_append, List.foldl_cons, List.foldl_nil]

theorem iceptAfter_snoc (ic : Option Nat) (ls : List Label) (l : Label) : iceptAfter ic (ls ++ [l]) =
    match l with | .setIcept _ i => i | _ => iceptAfter ic ls := by
  simp only [iceptAfter, List.foldl_append, List.foldl_cons, List.foldl_nil]

theorem set_threads (s : St) (t u : Nat) (p : Pos) (st : List Frame) :
    (s.set t p st).threads u = if u = t then ⟨p, st⟩ else s.threads u := rfl

/-- A step that changes nothing but the position of the goroutine and the mutex of the engine. -/
theorem Inv.plain {ic : Option Nat} {ls : List Label} {s : St} (inv : Inv ic ls s) {t : Nat}
    {p p' : Pos} {st st' : List Frame} {l : Label} (e : Option Nat) (h : s.threads t = ⟨p, st⟩)
    (hr : (⟨p, st⟩ : Thread).reads = (⟨p', st'⟩ : Thread).reads)
    (hw : p.writes = false ∧ p'.writes = false) (hp : p.isPending = false ∧ p'.isPending = false)
    (hs : ∀ os m k, p' = .select os m k → s.bound = some os)
    (hl : l.writes = false ∧ ∀ u, l.begins u = false ∧ l.ends u = false) :
    Inv ic (ls ++ [l]) ({ s with engine := e }.set t p' st') := by
  have hx : ∀ u, ({ s with engine := e }.set t p' st').threads u =
      if u = t then ⟨p', st'⟩ else s.threads u := fun _ => rfl
  refine ⟨?_, ?_, ?_, ?_, ?_, ?_, inv.excl, ?_⟩
  · rw [boundAfter_snoc]
    cases l <;> first | exact inv.bound | cases hl.1
  · rw [iceptAfter_snoc]
    cases l <;> first | exact inv.icept | cases hl.1
  · intro u
    simp only [List.countP_append, List.countP_singleton, (hl.2 u).1, (hl.2 u).2]
    exact inv.total u
  · intro u
    rw [hx]
    split
    · rename_i hu; subst hu
      rw [← hr, ← h]; exact inv.count u
    · exact inv.count u
  · intro u
    rw [hx]
    split
    · rename_i hu; subst hu
      simp only [hw.2]
      refine (inv.writer u).trans ?_
      rw [h]; simp [hw.1]
    · exact inv.writer u
  · intro u
    rw [hx]
    split
    · rename_i hu; subst hu
      simp only [hp.2]
      refine (inv.pend u).trans ?_
      rw [h]; simp [hp.1]
    · exact inv.pend u
  · intro u os m k st0
    rw [hx]
    split
    · intro hh
      injection hh with h1 h2
      exact hs os m k h1
    · intro hh
      exact inv.sel u os m k st0 hh

theorem Inv.init (ic : Option Nat) (prog : Nat → Code) : Inv ic [] (init ic prog) := by
  refine ⟨rfl, rfl, fun _ => rfl, fun _ => rfl, ?_, ?_, ?_, ?_⟩
  · intro t; exact ⟨nofun, nofun⟩
  · intro t; exact ⟨nofun, nofun⟩
  · intro h; exact absurd rfl h
  · intro t os m k st h; injection h with h1 _; cases h1

/-- If a goroutine holds the lock for reading then no goroutine holds it for writing. -/
theorem Inv.no_writer {ic : Option Nat} {ls : List Label} {s : St} (inv : Inv ic ls s) {t : Nat}
    (h : 0 < (s.threads t).reads) : s.writer = none := by
  cases hw : s.writer with
  | none => rfl
  | some u =>
    have := (inv.excl (by rw [hw]; nofun)).1
    rw [← inv.count, this] at h
    exact absurd h (by simp)

theorem Inv.no_select {ic : Option Nat} {ls : List Label} {s : St} (inv : Inv ic ls s)
    (h : s.writer ≠ none) (t : Nat) : (s.threads t).reads = 0 := by
  rw [← inv.count, (inv.excl h).1]; rfl

/-- A step of the goroutine that holds the lock for writing. -/
theorem Inv.write {ic : Option Nat} {ls : List Label} {s : St} (inv : Inv ic ls s) {t : Nat}
    {p : Pos} {st : List Frame} (n : Code ⊕ Write) (f : Option (Option (Option Nat) × (Res → Code)))
    {l : Label} (b i : Option Nat) (h : s.threads t = ⟨p, st⟩) (hp : p.writes = true)
    (hb : b = boundAfter (ls ++ [l])) (hi : i = iceptAfter ic (ls ++ [l]))
    (hl : ∀ u, l.begins u = false ∧ l.ends u = false) :
    Inv ic (ls ++ [l]) ({ s with bound := b, icept := i }.set t (.unlock n f) st) := by
  have hx : ∀ u, ({ s with bound := b, icept := i }.set t (.unlock n f) st).threads u =
      if u = t then ⟨.unlock n f, st⟩ else s.threads u := fun _ => rfl
  have hw : s.writer = some t := (inv.writer t).2 (by rw [h]; exact hp)
  have hno := inv.no_select (by rw [hw]; nofun)
  have hst : st.countP Frame.reads = 0 := by
    have := hno t
    rw [h] at this
    unfold Thread.reads at this
    simp only at this
    omega
  refine ⟨hb, hi, ?_, ?_, ?_, ?_, inv.excl, ?_⟩
  · intro u
    simp only [List.countP_append, List.countP_singleton, (hl u).1, (hl u).2]
    exact inv.total u
  · intro u
    rw [hx]
    split
    · rename_i hu; subst hu
      show s.readers.count u = _
      rw [inv.count u, hno u]
      simp [Thread.reads, Pos.reads, hst]
    · exact inv.count u
  · intro u
    rw [hx]
    split
    · rename_i hu; subst hu
      exact ⟨fun _ => rfl, fun _ => hw⟩
    · exact inv.writer u
  · intro u
    rw [hx]
    split
    · rename_i hu; subst hu
      refine ⟨fun h' => ?_, nofun⟩
      have := (inv.excl (by rw [hw]; nofun)).2
      rw [show s.pending = some u from h'] at this
      cases this
    · exact inv.pend u
  · intro u os m k st0
    rw [hx]
    split
    · intro hh
      injection hh with h1 h2
      cases h1
    · intro hh
      have := hno u
      rw [hh] at this
      simp [Thread.reads, Pos.reads] at this

/-- A goroutine releases the lock for reading. -/
theorem Inv.unread {ic : Option Nat} {ls : List Label} {s : St} (inv : Inv ic ls s) {t : Nat}
    {p : Pos} {st st' : List Frame} {c : Code} (h : s.threads t = ⟨p, st⟩)
    (hr : (⟨p, st⟩ : Thread).reads = (⟨.code c, st'⟩ : Thread).reads + 1)
    (hp : p.writes = false ∧ p.isPending = false) :
    Inv ic (ls ++ [.runlock t]) ({ s with readers := s.readers.erase t }.set t (.code c) st') := by
  have hx : ∀ u, ({ s with readers := s.readers.erase t }.set t (.code c) st').threads u =
      if u = t then ⟨.code c, st'⟩ else s.threads u := fun _ => rfl
  have hc : s.readers.count t = (⟨.code c, st'⟩ : Thread).reads + 1 := by
    rw [inv.count t, h, hr]
  have hm : t ∈ s.readers := List.count_pos_iff.1 (by omega)
  refine ⟨by rw [boundAfter_snoc]; exact inv.bound, by rw [iceptAfter_snoc]; exact inv.icept, ?_, ?_,
    ?_, ?_, ?_, ?_⟩
  · intro u
    simp only [List.countP_append, List.countP_singleton, Label.begins, Label.ends]
    have := inv.total u
    show _ = _ + (s.readers.erase t).count u
    by_cases hu : t = u
    · subst hu
      rw [List.count_erase_self]
      simp
      omega
    · rw [List.count_erase_of_ne (Ne.symm hu)]
      simp [hu]
      omega
  · intro u
    rw [hx]
    show (s.readers.erase t).count u = _
    split
    · rename_i hu; subst hu
      rw [List.count_erase_self, hc]; omega
    · rename_i hu
      rw [List.count_erase_of_ne hu]; exact inv.count u
  · intro u
    rw [hx]
    split
    · rename_i hu; subst hu
      refine (inv.writer u).trans ?_
      rw [h]
      show p.writes = true ↔ false = true
      rw [hp.1]
    · exact inv.writer u
  · intro u
    rw [hx]
    split
    · rename_i hu; subst hu
      refine (inv.pend u).trans ?_
      rw [h]
      show p.isPending = true ↔ false = true
      rw [hp.2]
    · exact inv.pend u
  · intro hw
    have := (inv.excl hw).1
    rw [this] at hm
    cases hm
  · intro u os m k st0
    rw [hx]
    split
    · intro hh; injection hh with h1 _; cases h1
    · exact inv.sel u os m k st0

/-- A goroutine releases the lock for writing. -/
theorem Inv.release {ic : Option Nat} {ls : List Label} {s : St} (inv : Inv ic ls s) {t : Nat}
    {n : Code ⊕ Write} {f : Option (Option (Option Nat) × (Res → Code))} {st st' : List Frame} {q : Pos}
    (g : s.threads t = ⟨.unlock n f, st⟩)
    (hq' : q.reads = 0 ∧ q.writes = false ∧ q.isPending = false ∧ ∀ os m k, q ≠ .select os m k)
    (hs : st'.countP Frame.reads = st.countP Frame.reads) :
    Inv ic (ls ++ [.tau t]) ({ s with writer := none }.set t q st') := by
  have hw : s.writer = some t := (inv.writer t).2 (by rw [g]; rfl)
  have hno := inv.no_select (by rw [hw]; nofun) t
  have hpn := (inv.excl (by rw [hw]; nofun)).2
  rw [g] at hno
  have hf' : st'.countP Frame.reads = 0 := by
    simp only [Thread.reads, Pos.reads] at hno
    rw [hs]; omega
  have hx : ∀ u, ({ s with writer := none }.set t q st').threads u =
    if u = t then ⟨q, st'⟩ else s.threads u := fun _ => rfl
  refine ⟨by rw [boundAfter_snoc]; exact inv.bound, by rw [iceptAfter_snoc]; exact inv.icept, ?_, ?_,
    ?_, ?_, fun h => absurd rfl h, ?_⟩
  · intro u
    simp only [List.countP_append, List.countP_singleton, Label.begins, Label.ends]
    exact inv.total u
  · intro u
    rw [hx]
    show s.readers.count u = _
    split
    · rename_i hu; subst hu
      rw [inv.count u, g, hno]
      simp [Thread.reads, hq'.1, hf']
    · exact inv.count u
  · intro u
    rw [hx]
    show none = some u ↔ _
    split
    · simp [hq'.2.1]
    · rename_i hu
      refine ⟨nofun, fun h => ?_⟩
      have := (inv.writer u).2 h
      rw [hw] at this
      exact absurd (Option.some.inj this).symm hu
  · intro u
    rw [hx]
    show s.pending = some u ↔ _
    split
    · simp [hq'.2.2.1, hpn]
    · exact inv.pend u
  · intro u os m k st0
    rw [hx]
    split
    · intro hh; injection hh with h1 _; exact absurd h1 (hq'.2.2.2 os m k)
    · exact inv.sel u os m k st0

theorem Inv.step {E : Env} {ic : Option Nat} {ls : List Label} {s s' : St} {l : Label}
    (inv : Inv ic ls s) (h : Step E s l s') : Inv ic (ls ++ [l]) s' := by
  cases h with
  | exec g => exact inv.plain s.engine g rfl ⟨rfl, rfl⟩ ⟨rfl, rfl⟩ nofun ⟨rfl, fun _ => ⟨rfl, rfl⟩⟩
  | refuse g hb => exact inv.plain s.engine g rfl ⟨rfl, rfl⟩ ⟨rfl, rfl⟩ nofun ⟨rfl, fun _ => ⟨rfl, rfl⟩⟩
  | check g hb =>
    refine inv.plain s.engine g rfl ⟨rfl, rfl⟩ ⟨rfl, rfl⟩ ?_ ⟨rfl, fun _ => ⟨rfl, rfl⟩⟩
    intro os m k e
    cases e
    exact hb
  | intercepted g hi =>
    refine inv.plain s.engine g ?_ ⟨rfl, rfl⟩ ⟨rfl, rfl⟩ nofun ⟨rfl, fun _ => ⟨rfl, rfl⟩⟩
    simp [Thread.reads, Pos.reads, Frame.reads, List.countP_cons]; omega
  | direct g hi =>
    refine inv.plain s.engine g ?_ ⟨rfl, rfl⟩ ⟨rfl, rfl⟩ nofun ⟨rfl, fun _ => ⟨rfl, rfl⟩⟩
    simp [Thread.reads, Pos.reads, Frame.reads, List.countP_cons]; omega
  | next g => exact inv.plain s.engine g rfl ⟨rfl, rfl⟩ ⟨rfl, rfl⟩ nofun ⟨rfl, fun _ => ⟨rfl, rfl⟩⟩
  | enter g he =>
    refine inv.plain _ g ?_ ⟨rfl, rfl⟩ ⟨rfl, rfl⟩ nofun ⟨rfl, fun _ => ⟨rfl, rfl⟩⟩
    simp [Thread.reads, Pos.reads, Frame.reads]
  | giveUp r g => exact inv.plain s.engine g rfl ⟨rfl, rfl⟩ ⟨rfl, rfl⟩ nofun ⟨rfl, fun _ => ⟨rfl, rfl⟩⟩
  | leave g hr =>
    refine inv.plain _ g ?_ ⟨rfl, rfl⟩ ⟨rfl, rfl⟩ nofun ⟨rfl, fun _ => ⟨rfl, rfl⟩⟩
    simp [Thread.reads, Pos.reads, Frame.reads]
  | call g => exact inv.plain s.engine g rfl ⟨rfl, rfl⟩ ⟨rfl, rfl⟩ nofun ⟨rfl, fun _ => ⟨rfl, rfl⟩⟩
  | restore g hr =>
    refine inv.plain s.engine g ?_ ⟨rfl, rfl⟩ ⟨rfl, rfl⟩ nofun ⟨rfl, fun _ => ⟨rfl, rfl⟩⟩
    simp [Thread.reads, Pos.reads, Frame.reads]
  | finish g hr =>
    refine inv.plain s.engine g ?_ ⟨rfl, rfl⟩ ⟨rfl, rfl⟩ nofun ⟨rfl, fun _ => ⟨rfl, rfl⟩⟩
    simp [Thread.reads, Pos.reads, Frame.reads]
  | bind g =>
    rename_i ic' _ _ _
    cases ic' <;> exact inv.write _ _ _ s.icept g rfl (by rw [boundAfter_snoc])
      (by rw [iceptAfter_snoc]; exact inv.icept) (fun _ => ⟨rfl, rfl⟩)
  | intercept g =>
    exact inv.write _ _ s.bound _ g rfl (by rw [boundAfter_snoc]; exact inv.bound)
      (by rw [iceptAfter_snoc]) (fun _ => ⟨rfl, rfl⟩)
  | reset g =>
    exact inv.write _ _ s.bound _ g rfl (by rw [boundAfter_snoc]; exact inv.bound)
      (by rw [iceptAfter_snoc]) (fun _ => ⟨rfl, rfl⟩)
  | unbind g =>
    exact inv.write _ _ _ s.icept g rfl (by rw [boundAfter_snoc])
      (by rw [iceptAfter_snoc]; exact inv.icept) (fun _ => ⟨rfl, rfl⟩)
  | @rlock t m k st g hp hw =>
    refine ⟨by rw [boundAfter_snoc]; exact inv.bound, by rw [iceptAfter_snoc]; exact inv.icept, ?_, ?_,
      ?_, ?_, fun h => absurd hw h, ?_⟩
    · intro u
      simp only [List.countP_append, List.countP_singleton, Label.begins, Label.ends]
      have := inv.total u
      show _ = _ + (t :: s.readers).count u
      by_cases hu : t = u
      · subst hu
        simp
        omega
      · rw [List.count_cons_of_ne hu]
        simp [hu]
        omega
    · intro u
      rw [set_threads]
      show (t :: s.readers).count u = _
      have := inv.count u
      split
      · rename_i hu; subst hu
        rw [g] at this
        simp only [Thread.reads, Pos.reads] at this
        simp [Thread.reads, Pos.reads, this]; omega
      · rename_i hu
        rw [List.count_cons_of_ne (Ne.symm hu)]; exact this
    · intro u
      rw [set_threads]
      split
      · rename_i hu; subst hu
        refine ⟨fun h => ?_, nofun⟩
        rw [show s.writer = some u from h] at hw; cases hw
      · exact inv.writer u
    · intro u
      rw [set_threads]
      split
      · rename_i hu; subst hu
        refine ⟨fun h => ?_, nofun⟩
        rw [show s.pending = some u from h] at hp; cases hp
      · exact inv.pend u
    · intro u os m k st0
      rw [set_threads]
      split
      · intro hh; injection hh with h1 _; cases h1
      · exact inv.sel u os m k st0
  | @refused t k st g =>
    exact inv.unread g (by simp [Thread.reads, Pos.reads]; omega) ⟨rfl, rfl⟩
  | @runlock t c r k st g hr =>
    exact inv.unread g (by simp [Thread.reads, Pos.reads, Frame.reads, List.countP_cons]) ⟨rfl, rfl⟩
  | @announce t w st g hp hw =>
    have hx : ∀ u, ({ s with pending := some t }.set t (.pending w) st).threads u =
      if u = t then ⟨.pending w, st⟩ else s.threads u := fun _ => rfl
    refine ⟨by rw [boundAfter_snoc]; exact inv.bound, by rw [iceptAfter_snoc]; exact inv.icept, ?_, ?_,
      ?_, ?_, fun h => absurd hw h, ?_⟩
    · intro u
      simp only [List.countP_append, List.countP_singleton, Label.begins, Label.ends]
      exact inv.total u
    · intro u
      rw [hx]
      show s.readers.count u = _
      split
      · rename_i hu; subst hu
        rw [inv.count u, g]; rfl
      · exact inv.count u
    · intro u
      rw [hx]
      split
      · rename_i hu; subst hu
        refine ⟨fun h => ?_, nofun⟩
        rw [show s.writer = some u from h] at hw; cases hw
      · exact inv.writer u
    · intro u
      rw [hx]
      show some t = some u ↔ _
      split
      · rename_i hu; subst hu
        exact ⟨fun _ => rfl, fun _ => rfl⟩
      · rename_i hu
        refine ⟨fun h => absurd (Option.some.inj h).symm hu, fun h => ?_⟩
        have := (inv.pend u).2 h
        rw [hp] at this; cases this
    · intro u os m k st0
      rw [hx]
      split
      · intro hh; injection hh with h1 _; cases h1
      · exact inv.sel u os m k st0
  | @acquire t w st g hr =>
    have hx : ∀ u, ({ s with pending := none, writer := some t }.set t (.locked w) st).threads u =
      if u = t then ⟨.locked w, st⟩ else s.threads u := fun _ => rfl
    have hpt : s.pending = some t := (inv.pend t).2 (by rw [g]; rfl)
    have hnw : s.writer = none := by
      cases hw : s.writer with
      | none => rfl
      | some u =>
        have := (inv.excl (by rw [hw]; nofun)).2
        rw [hpt] at this; cases this
    refine ⟨by rw [boundAfter_snoc]; exact inv.bound, by rw [iceptAfter_snoc]; exact inv.icept, ?_, ?_,
      ?_, ?_, fun _ => ⟨hr, rfl⟩, ?_⟩
    · intro u
      simp only [List.countP_append, List.countP_singleton, Label.begins, Label.ends]
      exact inv.total u
    · intro u
      rw [hx]
      show s.readers.count u = _
      split
      · rename_i hu; subst hu
        rw [inv.count u, g]; rfl
      · exact inv.count u
    · intro u
      rw [hx]
      show some t = some u ↔ _
      split
      · rename_i hu; subst hu
        exact ⟨fun _ => rfl, fun _ => rfl⟩
      · rename_i hu
        refine ⟨fun h => absurd (Option.some.inj h).symm hu, fun h => ?_⟩
        have := (inv.writer u).2 h
        rw [hnw] at this; cases this
    · intro u
      rw [hx]
      show none = some u ↔ _
      split
      · exact ⟨nofun, nofun⟩
      · rename_i hu
        refine ⟨nofun, fun h => ?_⟩
        have := (inv.pend u).2 h
        rw [hpt] at this
        exact absurd (Option.some.inj this).symm hu
    · intro u os m k st0
      rw [hx]
      split
      · intro hh; injection hh with h1 _; cases h1
      · exact inv.sel u os m k st0
  | @unlock t n f st g =>
    rcases n with c | w <;> rcases f with _ | ⟨prev, k⟩ <;>
      exact inv.release g ⟨rfl, rfl, rfl, nofun⟩ rfl

theorem Inv.steps {E : Env} {ic : Option Nat} {prog : Nat → Code} {ls : List Label} {s : St}
    (h : Steps E (Exec.init ic prog) ls s) : Inv ic ls s := by
  generalize hi : Exec.init ic prog = s0 at h
  induction h with
  | nil => subst hi; exact .init ic prog
  | snoc _ hstep ih => exact ih.step hstep

theorem split_steps {E : Env} {s0 s : St} {a b : List Label} {l : Label}
    (h : Steps E s0 (a ++ l :: b) s) : ∃ s1 s2, Steps E s0 a s1 ∧ Step E s1 l s2 ∧ Steps E s2 b s := by
  generalize e : a ++ l :: b = x at h
  induction h generalizing b with
  | nil => simp at e
  | @snoc ls s1 l' s2 h1 h2 ih =>
    rcases List.eq_nil_or_concat b with rfl | ⟨b', y, rfl⟩
    · obtain ⟨rfl, e2⟩ := List.append_inj' e rfl
      cases e2
      exact ⟨_, _, h1, h2, .nil⟩
    · have e' : (a ++ l :: b') ++ [y] = ls ++ [l'] := by rw [← e]; simp
      obtain ⟨e1, e2⟩ := List.append_inj' e' rfl
      cases e2
      obtain ⟨t1, t2, g1, g2, g3⟩ := ih e1
      exact ⟨t1, t2, g1, g2, by simpa using Steps.snoc g3 h2⟩

/-! ## Theorems -/

/-- **C86.**  No call of `ExecuteCommand()` is in progress when the executor is bound, unbound or given
another interceptor.  In particular a `Call()` does not return before the commands executed by
other goroutines have been handled. -/
theorem C86_quiet {E : Env} {ic : Option Nat} {prog : Nat → Code} {a b : List Label} {l : Label} {s : St}
    (h : Steps E (init ic prog) (a ++ l :: b) s) (hl : l.writes = true) (t : Nat) :
    inProgress t a = 0 := by
  obtain ⟨s1, s2, h1, h2, -⟩ := split_steps h
  have inv := Inv.steps h1
  have hw : s1.writer ≠ none := by
    cases h2 with
    | bind g | intercept g | reset g | unbind g =>
      rw [(inv.writer _).2 (by rw [g]; rfl)]; nofun
    | _ => cases hl
  have := inv.total t
  rw [(inv.excl hw).1] at this
  simp only [List.count_nil] at this
  unfold inProgress
  omega

/-- **C86.**  So what the executor is bound to, and its interceptor, stay the same from the beginning of
a call of `ExecuteCommand()` to its end. -/
theorem C86_pinned {E : Env} {ic : Option Nat} {prog : Nat → Code} {a b c : List Label} {l : Label}
    {t m : Nat} {s : St} (h : Steps E (init ic prog) (a ++ .rlock t m :: b ++ l :: c) s)
    (hl : l.writes = true) : b.countP (Label.begins t) < b.countP (Label.ends t) := by
  have hz := C86_quiet h hl t
  have hx := split_steps (show Steps E (init ic prog) (a ++ .rlock t m :: (b ++ l :: c)) s by simpa using h)
  obtain ⟨s1, s2, h1, h2, -⟩ := hx
  have ht := (Inv.steps h1).total t
  simp only [inProgress, List.countP_append, List.countP_cons, Label.begins, Label.ends] at hz
  simp at hz
  omega

/-- **C86.**  A call of `ExecuteCommand()` panics, goes to the engine with the options of the `Call()` in
progress, or calls the interceptor with these options, according to what was last done to the
executor. -/
theorem C86_choice {E : Env} {ic : Option Nat} {prog : Nat → Code} {a b : List Label} {l : Label} {s : St}
    (h : Steps E (init ic prog) (a ++ l :: b) s) :
    match (l : Label) with
    | .refuse _ _ => boundAfter a = none
    | .direct _ _ os => boundAfter a = some os ∧ iceptAfter ic a = none
    | .intercepted _ _ i os => boundAfter a = some os ∧ iceptAfter ic a = some i
    | _ => True := by
  obtain ⟨s1, s2, h1, h2, -⟩ := split_steps h
  have inv := Inv.steps h1
  cases h2 with
  | refuse g hb => exact inv.bound ▸ hb
  | direct g hi => exact ⟨inv.bound ▸ inv.sel _ _ _ _ _ g, inv.icept ▸ hi⟩
  | intercepted g hi => exact ⟨inv.bound ▸ inv.sel _ _ _ _ _ g, inv.icept ▸ hi⟩
  | _ => trivial

theorem step_other {E : Env} {s s' : St} {l : Label} {t : Nat} (h : Step E s l s') (ht : l.actor ≠ t) :
    s'.threads t = s.threads t := by
  cases h <;> exact if_neg (Ne.symm ht)

theorem steps_other {E : Env} {s s' : St} {ls : List Label} {t : Nat} (h : Steps E s ls s')
    (ht : ∀ l ∈ ls, l.actor ≠ t) : s'.threads t = s.threads t := by
  induction h with
  | nil => rfl
  | snoc _ h2 ih =>
    rw [step_other h2 (ht _ (by simp)), ih fun l hl => ht l (by simp [hl])]

/-- **C86.**  A call that panics does nothing further: the next thing its goroutine does is to end the
call. -/
theorem C86_refused {E : Env} {ic : Option Nat} {prog : Nat → Code} {a b c : List Label} {l : Label}
    {t m : Nat} {s : St} (h : Steps E (init ic prog) (a ++ .refuse t m :: (b ++ l :: c)) s)
    (hb : ∀ x ∈ b, x.actor ≠ t) (hl : l.actor = t) : l = .runlock t := by
  obtain ⟨s1, s2, h1, h2, h3⟩ := split_steps h
  obtain ⟨s3, s4, h4, h5, -⟩ := split_steps h3
  have ht := steps_other h4 hb
  obtain ⟨k, st, e⟩ : ∃ k st, s2.threads t = ⟨.refused k, st⟩ := by
    cases h2 with
    | refuse g hb => exact ⟨_, _, if_pos rfl⟩
  rw [e] at ht
  cases h5 <;> cases hl <;>
    first
    | rfl
    | (rename_i g; cases ht.symm.trans g; done)
    | (rename_i g _; cases ht.symm.trans g; done)
    | (rename_i g _ _; cases ht.symm.trans g; done)

/-! ## Deadlocks -/

/-- Code that uses the engine's own executor only. -/
inductive Code.Plain : Code → Prop where
  | ret {e} : Plain (.ret e)
  | panic {v} : Plain (.panic v)
  | next {os m k} (h : ∀ r, Plain (k r)) : Plain (.next os m k)

/-- Interceptors use the executor they are given and nothing else; message handlers execute no
commands but by the scope. -/
structure Env.Tame (E : Env) : Prop where
  icept : ∀ i m os, (E.icept i m os).Plain
  handler : ∀ m, (E.handler m).result.isSome

/-- The goroutine has nothing left to do. -/
def Thread.over (x : Thread) : Prop := x.stack = [] ∧ ∃ c, x.pos = .code c ∧ c.result.isSome

def Frame.isCall : Frame → Prop
  | .call .. => True
  | _ => False

inductive Shape : Thread → Prop where
  | base {p st} (h : ∀ f ∈ st, f.isCall) : Shape ⟨p, st⟩
  | icept {c k st} (hc : c.Plain) (h : ∀ f ∈ st, f.isCall) : Shape ⟨.code c, .exec k :: st⟩
  | enter {os m k' k st} (hc : ∀ r, (k' r).Plain) (h : ∀ f ∈ st, f.isCall) :
    Shape ⟨.enter os m k', .exec k :: st⟩
  | engine {c k st} (hc : c.result.isSome) (h : ∀ f ∈ st, f.isCall) :
    Shape ⟨.code c, .engine k :: st⟩
  | both {c k' k st} (hc : c.result.isSome) (hk : ∀ r, (k' r).Plain) (h : ∀ f ∈ st, f.isCall) :
    Shape ⟨.code c, .engine k' :: .exec k :: st⟩

structure Live (s : St) : Prop where
  shape : ∀ t, Shape (s.threads t)
  engine : ∀ t, s.engine = some t → ∃ c k st, s.threads t = ⟨.code c, .engine k :: st⟩ ∧ c.result.isSome

theorem Live.init (ic : Option Nat) (prog : Nat → Code) : Live (Exec.init ic prog) :=
  ⟨fun _ => .base nofun, nofun⟩

/-- The holder of the engine's mutex can do nothing but release it. -/
theorem step_holder {E : Env} {s s' : St} {l : Label} {c : Code} {k : Res → Code} {st : List Frame}
    (h : Step E s l s') (e : s.threads l.actor = ⟨.code c, .engine k :: st⟩) (hc : c.result.isSome) :
    s'.engine = none := by
  cases h with
  | leave => rfl
  | exec g | next g | call g => cases e.symm.trans g; cases hc
  | rlock g | refuse g | refused g | check g | intercepted g | direct g | enter g | giveUp _ g | runlock g
  | restore g | finish g | announce g | acquire g | bind g | intercept g | reset g | unbind g
  | unlock g => cases e.symm.trans g

theorem Live.step_engine {E : Env} {s s' : St} {l : Label} (hE : E.Tame) (lv : Live s) (h : Step E s l s')
    (t : Nat) (he : s'.engine = some t) :
    ∃ c k st, s'.threads t = ⟨.code c, .engine k :: st⟩ ∧ c.result.isSome := by
  have hs : (∃ m os, l = .dispatch t m os) ∨ s.engine = some t := by
    cases h with
    | enter g hn => cases he; exact .inl ⟨_, _, rfl⟩
    | leave g hr => cases he
    | _ => exact .inr he
  rcases hs with ⟨m, os, rfl⟩ | hs
  · cases h with
    | enter g hn => exact ⟨_, _, _, if_pos rfl, hE.handler _⟩
  · obtain ⟨c, k, st, e, hc⟩ := lv.engine t hs
    by_cases ht : l.actor = t
    · subst ht
      rw [step_holder h e hc] at he
      cases he
    · rw [step_other h ht]
      exact ⟨c, k, st, e, hc⟩

theorem shape_set {s : St} {t : Nat} {p : Pos} {st : List Frame} (h : Shape ⟨p, st⟩) :
    Shape ((s.set t p st).threads t) := by
  rw [set_threads, if_pos rfl]; exact h

theorem Live.step {E : Env} {s s' : St} {l : Label} (hE : E.Tame) (lv : Live s) (h : Step E s l s') :
    Live s' := by
  refine ⟨fun t => ?_, lv.step_engine hE h⟩
  by_cases ht : l.actor = t
  · have sh := lv.shape t
    subst ht
    cases h with
    | exec g | call g =>
      refine shape_set ?_
      cases g ▸ sh with
      | base h => exact .base h
      | icept hc => cases hc
      | engine hc => cases hc
      | both hc => cases hc
    | rlock g | refuse g | refused g | check g | announce g | acquire g | bind g | intercept g | reset g
    | unbind g =>
      refine shape_set ?_
      cases g ▸ sh with
      | base h => exact .base h
    | intercepted g =>
      refine shape_set ?_
      cases g ▸ sh with
      | base h => exact .icept (hE.icept _ _ _) h
    | direct g =>
      refine shape_set ?_
      cases g ▸ sh with
      | base h => exact .enter (fun r => by cases r <;> constructor) h
    | next g =>
      refine shape_set ?_
      cases g ▸ sh with
      | base h => exact .base h
      | icept hc h =>
        cases hc with
        | next hk => exact .enter hk h
      | engine hc => cases hc
      | both hc => cases hc
    | enter g =>
      refine shape_set ?_
      cases g ▸ sh with
      | base h => exact .engine (hE.handler _) h
      | enter hk h => exact .both (hE.handler _) hk h
    | giveUp r g =>
      refine shape_set ?_
      cases g ▸ sh with
      | base h => exact .base h
      | enter hk h => exact .icept (hk r) h
    | leave g =>
      refine shape_set ?_
      cases g ▸ sh with
      | base h => exact (h _ (List.mem_cons_self ..)).elim
      | engine hc h => exact .base h
      | both hc hk h => exact .icept (hk _) h
    | runlock g =>
      refine shape_set ?_
      cases g ▸ sh with
      | base h => exact (h _ (List.mem_cons_self ..)).elim
      | icept hc h => exact .base h
    | restore g | finish g =>
      refine shape_set ?_
      cases g ▸ sh with
      | base h => exact .base fun f hf => h f (List.mem_cons_of_mem _ hf)
    | @unlock t n f st g =>
      refine shape_set ?_
      cases g ▸ sh with
      | base h =>
        refine .base fun x hx => ?_
        rcases f with _ | ⟨prev, k⟩
        · exact h x hx
        · rcases List.mem_cons.1 hx with rfl | hx
          · trivial
          · exact h x hx
  · rw [step_other h ht]; exact lv.shape t

theorem Live.steps {E : Env} {ic : Option Nat} {prog : Nat → Code} {ls : List Label} {s : St}
    (hE : E.Tame) (h : Steps E (Exec.init ic prog) ls s) : Live s := by
  induction h with
  | nil => exact .init ic prog
  | snoc _ hstep ih => exact ih.step hE hstep

/-- **C86.**  If interceptors use the executor they are given only, and handlers execute no commands but
by their scopes, then goroutines never come to wait for each other for good: as long as one is not
over one of them can make a step, and not just because the engine gives up. -/
theorem C86_progress {E : Env} {ic : Option Nat} {prog : Nat → Code} {ls : List Label} {s : St}
    (hE : E.Tame) (h : Steps E (init ic prog) ls s) {t : Nat} (ht : ¬ (s.threads t).over) :
    ∃ l s', Step E s l s' ∧ ∀ u, l ≠ .giveUp u := by
  have lv := Live.steps hE h
  have inv := Inv.steps h
  cases he : s.engine with
  | some u =>
    obtain ⟨c, k, st, e, hc⟩ := lv.engine u he
    obtain ⟨r, hr⟩ := Option.isSome_iff_exists.1 hc
    exact ⟨_, _, .leave e hr, nofun⟩
  | none =>
  cases hw : s.writer with
  | some u =>
    have hu := (inv.writer u).1 hw
    rcases hx : s.threads u with ⟨p, st⟩
    rw [hx] at hu
    cases p with
    | locked w =>
      cases w with
      | bind => exact ⟨_, _, .bind hx, nofun⟩
      | intercept => exact ⟨_, _, .intercept hx, nofun⟩
      | restore => exact ⟨_, _, .reset hx, nofun⟩
      | unbind => exact ⟨_, _, .unbind hx, nofun⟩
    | unlock => exact ⟨_, _, .unlock hx, nofun⟩
    | _ => cases hu
  | none =>
  -- whoever is at code, or in the engine, can go on
  have code : ∀ {u c st}, s.threads u = ⟨.code c, st⟩ → ¬ (s.threads u).over →
      ∃ l s', Step E s l s' ∧ ∀ u, l ≠ .giveUp u := by
    intro u c st hx ho
    cases hc : c.result with
    | some r =>
      cases st with
      | nil => rw [hx] at ho; exact absurd ⟨rfl, c, rfl, by rw [hc]; rfl⟩ ho
      | cons f st =>
        cases f with
        | exec k => exact ⟨_, _, .runlock hx hc, nofun⟩
        | engine k => exact ⟨_, _, .leave hx hc, nofun⟩
        | call p k =>
          cases p with
          | none => exact ⟨_, _, .finish hx hc, nofun⟩
          | some p => exact ⟨_, _, .restore hx hc, nofun⟩
    | none =>
      cases c with
      | ret => cases hc
      | panic => cases hc
      | exec => exact ⟨_, _, .exec hx, nofun⟩
      | next => exact ⟨_, _, .next hx, nofun⟩
      | call => exact ⟨_, _, .call hx, nofun⟩
  have held : ∀ {u : Nat}, 0 < (s.threads u).reads →
      ∃ l s', Step E s l s' ∧ ∀ u, l ≠ .giveUp u := by
    intro u hu
    rcases hx : s.threads u with ⟨p, st⟩
    have sh := lv.shape u
    rw [hx] at sh hu
    cases p with
    | check m k =>
      cases hb : s.bound with
      | none => exact ⟨_, _, .refuse hx hb, nofun⟩
      | some os => exact ⟨_, _, .check hx hb, nofun⟩
    | refused k => exact ⟨_, _, .refused hx, nofun⟩
    | select os m k =>
      cases hi : s.icept with
      | none => exact ⟨_, _, .direct hx hi, nofun⟩
      | some i => exact ⟨_, _, .intercepted hx hi, nofun⟩
    | code c =>
      refine code hx ?_
      rw [hx]
      rintro ⟨h0, -⟩
      cases h0
      exact absurd hu (by simp [Thread.reads, Pos.reads])
    | enter => exact ⟨_, _, .enter hx he, nofun⟩
    | unlock => exact ⟨_, _, .unlock hx, nofun⟩
    | _ =>
      cases sh with
      | base h =>
        refine absurd hu ?_
        have : st.countP Frame.reads = 0 := by
          rw [List.countP_eq_zero]
          intro f hf
          have := h f hf
          cases f with
          | call => nofun
          | _ => exact this.elim
        simp [Thread.reads, Pos.reads, this]
  by_cases hr : s.readers = []
  · cases hp : s.pending with
    | some u =>
      have hu := (inv.pend u).1 hp
      rcases hx : s.threads u with ⟨p, st⟩
      rw [hx] at hu
      cases p with
      | pending w => exact ⟨_, _, .acquire hx hr, nofun⟩
      | _ => cases hu
    | none =>
      rcases hx : s.threads t with ⟨p, st⟩
      cases p with
      | code c => exact code hx ht
      | rlock => exact ⟨_, _, .rlock hx hp hw, nofun⟩
      | check | refused | select => exact held (u := t) (by rw [hx]; simp [Thread.reads, Pos.reads]; omega)
      | lock => exact ⟨_, _, .announce hx hp hw, nofun⟩
      | pending => exact ⟨_, _, .acquire hx hr, nofun⟩
      | locked =>
        have := (inv.writer t).2 (by rw [hx]; rfl)
        rw [hw] at this; cases this
      | unlock => exact ⟨_, _, .unlock hx, nofun⟩
      | enter => exact ⟨_, _, .enter hx he, nofun⟩
  · obtain ⟨u, hu⟩ := List.exists_mem_of_ne_nil _ hr
    refine held (u := u) ?_
    rw [← inv.count]
    exact List.count_pos_iff.2 hu

/-! ## Concrete runs -/

/-- Results as code. -/
def Code.ofRes : Res → Code
  | .returned e => .ret e
  | .panicked v => .panic v

/-- Goroutine 0 performs `Call()` with options 7 and an interceptor, goroutine 1 runs other code. -/
def duo (body other : Code) : Nat → Code
  | 0 => .call 7 (some 5) body Code.ofRes
  | 1 => other
  | _ => .ret none

/-- The interceptor passes the message on, the handler does nothing. -/
def passOn : Env := ⟨fun _ m os => .next os m Code.ofRes, fun _ => .ret none⟩

theorem passOn_tame : passOn.Tame :=
  ⟨fun _ _ _ => .next fun r => by cases r <;> constructor, fun _ => rfl⟩

/-- Goroutine 0 binds the executor and sets the interceptor. -/
theorem duo_bound (E : Env) (body other : Code) : Steps E (init none (duo body other))
    [.tau 0, .tau 0, .tau 0, .bind 0 7, .tau 0, .tau 0, .tau 0, .setIcept 0 (some 5), .tau 0]
    { init none (duo body other) with
      bound := some 7, icept := some 5
      threads := fun u => if u = 0 then ⟨.code body, [.call (some none) Code.ofRes]⟩
        else ⟨.code (duo body other u), []⟩ } := by
  have h := ((((((((((Steps.nil (E := E) (s := init none (duo body other))).snoc (.call (t := 0) rfl)).snoc (.announce (t := 0) rfl rfl rfl)).snoc
    (.acquire (t := 0) rfl rfl)).snoc (.bind (t := 0) rfl)).snoc (.unlock (t := 0) rfl)).snoc
    (.announce (t := 0) rfl rfl rfl)).snoc (.acquire (t := 0) rfl rfl)).snoc
    (.intercept (t := 0) rfl)).snoc (.unlock (t := 0) rfl))
  refine cast ?_ h
  simp only [St.set, init]
  congr 2
  funext u
  split <;> rfl

/-- A goroutine that waits, or is over. -/
def Thread.stuck (s : St) : Thread → Prop
  | ⟨.code c, []⟩ => c.result.isSome
  | ⟨.rlock .., _⟩ => s.pending ≠ none ∨ s.writer ≠ none
  | ⟨.pending .., _⟩ => s.readers ≠ []
  | ⟨.enter .., _⟩ => s.engine ≠ none
  | _ => False

theorem stuck_step {E : Env} {s s' : St} {l : Label} (hs : ∀ t, (s.threads t).stuck s)
    (h : Step E s l s') : ∃ os m k st, s.threads l.actor = ⟨.enter os m k, st⟩ ∧ ∃ u, l = .giveUp u := by
  have hx := hs l.actor
  cases h with
  | giveUp r g => exact ⟨_, _, _, _, g, _, rfl⟩
  | @exec t m k st g | @next t os m k st g | @call t os ic body k st g =>
    simp only [Label.actor] at hx
    rw [g] at hx
    cases st with
    | nil => cases hx
    | cons => exact hx.elim
  | rlock g hp hw =>
    simp only [Label.actor] at hx
    rw [g] at hx
    exact (hx.elim (fun h => h hp) (fun h => h hw) : False).elim
  | enter g he =>
    simp only [Label.actor] at hx
    rw [g] at hx
    exact absurd he hx
  | acquire g hr =>
    simp only [Label.actor] at hx
    rw [g] at hx
    exact absurd hr hx
  | refuse g | refused g | check g | intercepted g | direct g | leave g | runlock g
  | restore g | finish g | announce g | bind g | intercept g | reset g | unbind g
  | unlock g =>
    simp only [Label.actor] at hx
    rw [g] at hx
    exact hx.elim

/-- **C86.**  The full claim fails of an interceptor that performs a `Call()`: it waits for itself. -/
theorem C86_deadlock_call : ∃ ls s,
    Steps ⟨fun _ _ _ => .call 8 none (.ret none) Code.ofRes, fun _ => .ret none⟩
      (init none (duo (.exec 3 Code.ofRes) (.ret none))) ls s ∧
    ¬ (s.threads 0).over ∧ ∀ l s', ¬ Step ⟨fun _ _ _ => .call 8 none (.ret none) Code.ofRes,
      fun _ => .ret none⟩ s l s' := by
  refine ⟨_, _, ((((((duo_bound _ _ _).snoc (.exec (t := 0) rfl)).snoc (.rlock (t := 0) rfl rfl rfl)).snoc
    (.check (t := 0) rfl rfl)).snoc (.intercepted (t := 0) rfl rfl)).snoc (.call (t := 0) rfl)).snoc
    (.announce (t := 0) rfl rfl rfl), fun h => (nomatch h.1), fun l s' h => ?_⟩
  have := fun hs => stuck_step hs h
  obtain ⟨os, m, k, st, e, -⟩ := this fun t => by
    match t with
    | 0 => exact nofun
    | 1 => exact rfl
    | _ + 2 => exact rfl
  match hl : l.actor with
  | 0 => rw [hl] at e; cases e
  | 1 => rw [hl] at e; cases e
  | _ + 2 => rw [hl] at e; cases e

/-- **C86.**  Nor of an interceptor that executes a command with the test's own executor: it waits for
the `Call()` that wants to end, and this one waits for the interceptor. -/
theorem C86_deadlock_exec : ∃ ls s,
    Steps ⟨fun _ _ _ => .exec 4 Code.ofRes, fun _ => .ret none⟩
      (init none (duo (.ret none) (.exec 3 Code.ofRes))) ls s ∧
    ¬ (s.threads 0).over ∧ ¬ (s.threads 1).over ∧
    ∀ l s', ¬ Step ⟨fun _ _ _ => .exec 4 Code.ofRes, fun _ => .ret none⟩ s l s' := by
  refine ⟨_, _, (((((((duo_bound _ _ _).snoc (.exec (t := 1) rfl)).snoc (.rlock (t := 1) rfl rfl rfl)).snoc
    (.check (t := 1) rfl rfl)).snoc (.intercepted (t := 1) rfl rfl)).snoc (.restore (t := 0) rfl rfl)).snoc
    (.announce (t := 0) rfl rfl rfl)).snoc (.exec (t := 1) rfl), fun ⟨_, _, h, _⟩ => (nomatch h),
    fun h => (nomatch h.1), fun l s' h => ?_⟩
  have := fun hs => stuck_step hs h
  obtain ⟨os, m, k, st, e, -⟩ := this fun t => by
    match t with
    | 0 => exact nofun
    | 1 => exact .inl nofun
    | _ + 2 => exact rfl
  match hl : l.actor with
  | 0 => rw [hl] at e; cases e
  | 1 => rw [hl] at e; cases e
  | _ + 2 => rw [hl] at e; cases e

/-- **C86.**  Nor of a handler that executes a command with the test's executor: it waits for the engine,
which waits for the handler, until the context is done. -/
theorem C86_deadlock_handler : ∃ ls s,
    Steps ⟨fun _ m os => .next os m Code.ofRes, fun m => .exec m Code.ofRes⟩
      (init none (duo (.exec 3 Code.ofRes) (.ret none))) ls s ∧
    ¬ (s.threads 0).over ∧
    ∀ l s', Step ⟨fun _ m os => .next os m Code.ofRes, fun m => .exec m Code.ofRes⟩ s l s' →
      ∃ u, l = .giveUp u := by
  refine ⟨_, _, (((((((((((duo_bound _ _ _).snoc (.exec (t := 0) rfl)).snoc (.rlock (t := 0) rfl rfl rfl)).snoc
    (.check (t := 0) rfl rfl)).snoc (.intercepted (t := 0) rfl rfl)).snoc (.next (t := 0) rfl)).snoc
    (.enter (t := 0) rfl rfl)).snoc (.exec (t := 0) rfl)).snoc (.rlock (t := 0) rfl rfl rfl)).snoc
    (.check (t := 0) rfl rfl)).snoc (.intercepted (t := 0) rfl rfl)).snoc (.next (t := 0) rfl),
    fun h => (nomatch h.1), fun l s' h => ?_⟩
  have := fun hs => stuck_step hs h
  obtain ⟨os, m, k, st, e, hu⟩ := this fun t => by
    match t with
    | 0 => exact nofun
    | 1 => exact rfl
    | _ + 2 => exact rfl
  exact hu

/-- Two goroutines: goroutine 1 is in the engine when the function given to `Call()` returns in
goroutine 0, which waits; the hypotheses of the theorems hold. -/
example : ∃ s, Steps passOn (init none (duo (.ret none) (.exec 3 Code.ofRes)))
    ([.tau 0, .tau 0, .tau 0, .bind 0 7, .tau 0, .tau 0, .tau 0, .setIcept 0 (some 5), .tau 0, .tau 1]
      ++ .rlock 1 3 :: [.tau 1, .intercepted 1 3 5 7, .tau 1, .tau 0, .dispatch 1 3 7, .tau 0, .dispatched 1,
        .runlock 1, .tau 0]
      ++ .setIcept 0 none :: [.tau 0, .tau 0, .tau 0, .unbind 0, .tau 0]) s ∧
    (s.threads 0).over ∧ (s.threads 1).over ∧ s.bound = none ∧ s.icept = none :=
  ⟨_, (((((((((((((((((duo_bound passOn (.ret none) (.exec 3 Code.ofRes)).snoc
    (.exec (t := 1) rfl)).snoc (.rlock (t := 1) rfl rfl rfl)).snoc
    (.check (t := 1) rfl rfl)).snoc (.intercepted (t := 1) rfl rfl)).snoc (.next (t := 1) rfl)).snoc
    (.restore (t := 0) rfl rfl)).snoc (.enter (t := 1) rfl rfl)).snoc (.announce (t := 0) rfl rfl rfl)).snoc
    (.leave (t := 1) rfl rfl)).snoc (.runlock (t := 1) rfl rfl)).snoc (.acquire (t := 0) rfl rfl)).snoc
    (.reset (t := 0) rfl)).snoc (.unlock (t := 0) rfl)).snoc (.announce (t := 0) rfl rfl rfl)).snoc
    (.acquire (t := 0) rfl rfl)).snoc (.unbind (t := 0) rfl)).snoc (.unlock (t := 0) rfl),
    ⟨rfl, _, rfl, rfl⟩, ⟨rfl, _, rfl, rfl⟩, rfl, rfl⟩

/-- A command executed after the function given to `Call()` has returned, or by a goroutine that comes
too early, is refused. -/
example : ∃ s, Steps passOn (init none (duo (.ret none) (.exec 3 Code.ofRes)))
    ([.tau 1, .rlock 1 3] ++ .refuse 1 3 :: ([.tau 0] ++ .runlock 1 :: [])) s ∧
    (s.threads 1).over :=
  ⟨_, ((((Steps.nil.snoc (.exec (t := 1) rfl)).snoc (.rlock (t := 1) rfl rfl rfl)).snoc
    (.refuse (t := 1) rfl rfl)).snoc (.call (t := 0) rfl)).snoc (.refused (t := 1) rfl), rfl, _, rfl, rfl⟩

end Verif.Exec
