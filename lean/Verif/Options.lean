import Verif.Engine

/-!
# Operation options, declaratively

What a list of options means: the last setting of each thing wins.  The lemmas relate this to
`newOpOpts` and `skipHandler`, which process the options one by one.
-/

namespace Verif

variable {W R : Type}

/-- The last `some` value among the images of a list. -/
def lastSome {α β : Type} (f : α → Option β) (l : List α) : Option β := l.reverse.findSome? f

def OpOption.nameSetting (n : String) : OpOption → Option Bool
  | .enableHandler n' b => if n' = n then some b else none
  | _ => none

def OpOption.typeSetting (t : HandlerType) : OpOption → Option Bool
  | .enableType t' b => if t' = t then some b else none
  | _ => none

def OpOption.timeSetting : OpOption → Option Time
  | .currentTime t => some t
  | _ => none

def OpOption.observerOf : OpOption → Option Nat
  | .observer k => some k
  | _ => none

/-- The engine time of an operation. -/
def engineTime (os : List OpOption) (wall : Time) : Time :=
  (lastSome OpOption.timeSetting os).getD wall

/-- Why handler `h` does not take part in an operation with these options, or `none` if it
does. -/
def whyNot (os : List OpOption) (h : HConfig) : Option SkipReason :=
  match lastSome (OpOption.nameSetting h.name) os with
  | some true => none
  | some false => some .individuallyDisabled
  | none =>
    if h.disabled then some .disabledByConfiguration
    else if (lastSome (OpOption.typeSetting h.htype) os).getD true then none
    else some .typeDisabled

/-- Does handler `h` take part in an operation with these options? -/
def takesPart (os : List OpOption) (h : HConfig) : Bool :=
  match lastSome (OpOption.nameSetting h.name) os with
  | some b => b
  | none => !h.disabled && (lastSome (OpOption.typeSetting h.htype) os).getD true

/-- The fact that announces an operation tells its time and, as maps, which handler types are
enabled and which handlers are enabled or disabled individually. -/
structure CycleInfo.Fits (c : CycleInfo) (os : List OpOption) (wall : Time) : Prop where
  now : c.now = engineTime os wall
  types : ∀ t, c.types.lookup t = some ((lastSome (OpOption.typeSetting t) os).getD true)
  names : ∀ n, c.names.lookup n = lastSome (OpOption.nameSetting n) os

/-- Every handler named by an option exists. -/
def namesKnown (cfgs : List HConfig) (os : List OpOption) : Prop :=
  ∀ n b, .enableHandler n b ∈ os → n ∈ cfgs.map HConfig.name

theorem lastSome_cons {α β : Type} (f : α → Option β) (a : α) (l : List α) :
    lastSome f (a :: l) = (lastSome f l).or (f a) := by
  unfold lastSome
  rw [List.reverse_cons, List.findSome?_append]
  cases h : f a <;> simp [h]

theorem takesPart_iff {os : List OpOption} {h : HConfig} :
    takesPart os h = true ↔ whyNot os h = none := by
  unfold takesPart whyNot
  split
  · rename_i b hb; rw [hb]; cases b <;> simp
  · rename_i hb; rw [hb]; cases h.disabled <;> simp

theorem applyAll_spec (A : App W R) (os : List OpOption) :
    ∀ (o1 oo : OpOpts), o1.applyAll A os = .ok oo →
      namesKnown A.cfgs os ∧ oo.now = (lastSome OpOption.timeSetting os).getD o1.now ∧
      (∀ t, oo.types t = (lastSome (OpOption.typeSetting t) os).getD (o1.types t)) ∧
      (∀ n, oo.names n = (lastSome (OpOption.nameSetting n) os).or (o1.names n)) ∧
      oo.observers = o1.observers ++ os.filterMap OpOption.observerOf := by
  induction os with
  | nil =>
    intro o1 oo h
    cases h
    exact ⟨nofun, rfl, fun _ => rfl, fun _ => rfl, by simp⟩
  | cons o os ih =>
    intro o1 oo h
    unfold OpOpts.applyAll at h
    split at h
    · cases h
    · rename_i o2 h2
      obtain ⟨a, b, c, d, e⟩ := ih _ _ h
      cases o with
      | enableType t v =>
        cases h2
        refine ⟨?_, ?_, ?_, ?_, ?_⟩
        · intro n b hm
          rcases List.mem_cons.1 hm with hm | hm
          · cases hm
          · exact a n b hm
        · rw [b, lastSome_cons]; cases lastSome OpOption.timeSetting os <;> rfl
        · intro x
          rw [c x, lastSome_cons]
          cases lastSome (OpOption.typeSetting x) os with
          | some y => rfl
          | none =>
            by_cases hx : x = t
            · simp [OpOption.typeSetting, hx]
            · simp [OpOption.typeSetting, hx, Ne.symm hx]
        · intro n; rw [d n, lastSome_cons]
          cases lastSome (OpOption.nameSetting n) os <;> rfl
        · rw [e]; rfl
      | enableHandler n' v =>
        simp only [OpOpts.apply] at h2
        split at h2
        · rename_i hn
          cases h2
          refine ⟨?_, ?_, ?_, ?_, ?_⟩
          · intro n b hm
            rcases List.mem_cons.1 hm with hm | hm
            · cases hm; exact hn
            · exact a n b hm
          · rw [b, lastSome_cons]; cases lastSome OpOption.timeSetting os <;> rfl
          · intro x; rw [c x, lastSome_cons]
            cases lastSome (OpOption.typeSetting x) os <;> rfl
          · intro n
            rw [d n, lastSome_cons]
            cases lastSome (OpOption.nameSetting n) os with
            | some y => rfl
            | none =>
              by_cases hx : n = n'
              · simp [OpOption.nameSetting, hx, upd]
              · simp [OpOption.nameSetting, upd, hx, Ne.symm hx]
          · rw [e]; rfl
        · cases h2
      | currentTime t =>
        cases h2
        refine ⟨?_, ?_, ?_, ?_, ?_⟩
        · intro n b hm
          rcases List.mem_cons.1 hm with hm | hm
          · cases hm
          · exact a n b hm
        · rw [b, lastSome_cons]; cases lastSome OpOption.timeSetting os <;> rfl
        · intro x; rw [c x, lastSome_cons]
          cases lastSome (OpOption.typeSetting x) os <;> rfl
        · intro n; rw [d n, lastSome_cons]
          cases lastSome (OpOption.nameSetting n) os <;> rfl
        · rw [e]; rfl
      | observer k =>
        cases h2
        refine ⟨?_, ?_, ?_, ?_, ?_⟩
        · intro n b hm
          rcases List.mem_cons.1 hm with hm | hm
          · cases hm
          · exact a n b hm
        · rw [b, lastSome_cons]; cases lastSome OpOption.timeSetting os <;> rfl
        · intro x; rw [c x, lastSome_cons]
          cases lastSome (OpOption.typeSetting x) os <;> rfl
        · intro n; rw [d n, lastSome_cons]
          cases lastSome (OpOption.nameSetting n) os <;> rfl
        · rw [e]; simp [OpOption.observerOf]

theorem applyAll_ok (A : App W R) (os : List OpOption) (h : namesKnown A.cfgs os) :
    ∀ o1 : OpOpts, ∃ oo, o1.applyAll A os = .ok oo := by
  induction os with
  | nil => intro o1; exact ⟨o1, rfl⟩
  | cons o os ih =>
    intro o1
    have hk := ih (fun n b hm => h n b (by simp [hm]))
    unfold OpOpts.applyAll
    cases o with
    | enableHandler n b =>
      have := h n b (by simp)
      simp only [OpOpts.apply, if_pos this]
      exact hk _
    | enableType t b => exact hk _
    | currentTime t => exact hk _
    | observer k => exact hk _

theorem newOpOpts_names {A : App W R} {s : Sys W R} {os : List OpOption} :
    (∃ oo, newOpOpts A s os = .ok oo) ↔ namesKnown A.cfgs os :=
  ⟨fun ⟨_, h⟩ => (applyAll_spec A os _ _ h).1, fun h => applyAll_ok A os h _⟩

theorem newOpOpts_now {A : App W R} {s : Sys W R} {os : List OpOption} {oo : OpOpts}
    (h : newOpOpts A s os = .ok oo) : oo.now = engineTime os (A.uc.wallClock s.w) :=
  (applyAll_spec A os _ _ h).2.1

theorem newOpOpts_skip {A : App W R} {s : Sys W R} {os : List OpOption} {oo : OpOpts}
    (h : newOpOpts A s os = .ok oo) (c : HConfig) : skipHandler oo c = whyNot os c := by
  obtain ⟨_, _, h1, h2, _⟩ := applyAll_spec A os _ _ h
  unfold skipHandler whyNot
  rw [h1, h2]
  cases lastSome (OpOption.nameSetting c.name) os with
  | none => rfl
  | some b => cases b <;> rfl

theorem lookup_settings (names : String → Option Bool) (n : String) : ∀ cs : List HConfig,
    (cs.filterMap (fun h => (names h.name).map (fun b => (h.name, b)))).lookup n =
      if n ∈ cs.map HConfig.name then names n else none
  | [] => rfl
  | h :: cs => by
    have ih := lookup_settings names n cs
    by_cases he : n = h.name
    · subst he
      cases hn : names h.name with
      | none => simp [hn, ih]
      | some b => simp [hn]
    · cases hn : names h.name with
      | none => simp [hn, ih, he]
      | some b => simp [hn, ih, he, List.lookup_cons, beq_eq_false_iff_ne.2 he]

theorem newOpOpts_cycle {A : App W R} {s : Sys W R} {os : List OpOption} {oo : OpOpts}
    (h : newOpOpts A s os = .ok oo) : (oo.cycle A).Fits os (A.uc.wallClock s.w) := by
  obtain ⟨hk, hnow, h1, h2, _⟩ := applyAll_spec A os _ _ h
  refine ⟨hnow, ?_, ?_⟩
  · intro t
    have := h1 t
    have e : (oo.cycle A).types.lookup t = some (oo.types t) := by cases t <;> rfl
    rw [e, this]
    rfl
  · intro n
    unfold OpOpts.cycle
    simp only
    rw [lookup_settings oo.names n A.cfgs]
    have hn : oo.names n = lastSome (OpOption.nameSetting n) os := by
      rw [h2 n]; simp [OpOpts.default]
    split
    · exact hn
    · rename_i hmem
      symm
      unfold lastSome
      rw [List.findSome?_eq_none_iff]
      intro o ho
      cases o with
      | enableHandler n' b =>
        by_cases e : n' = n
        · subst e; exact absurd (hk _ _ (List.mem_reverse.1 ho)) hmem
        · simp [OpOption.nameSetting, e]
      | _ => rfl

theorem newOpOpts_observers {A : App W R} {s : Sys W R} {os : List OpOption} {oo : OpOpts}
    (h : newOpOpts A s os = .ok oo) : oo.observers = os.filterMap OpOption.observerOf := by
  have := (applyAll_spec A os _ _ h).2.2.2.2
  simpa [OpOpts.default] using this

end Verif
