import Verif.Watched
import Verif.Frame

/-!
# An engine whose observers panic, and one whose observers do not

The runs of `Verif.Watched` are compared with those of `Verif.Engine`: they are the same up to the
first fact on which an observer panics.
-/

namespace Verif

variable {W R : Type}

theorem upToPanic_append (P : PanicsOn R) (a b : List (Obs R)) : ∀ tr,
    upToPanic P tr (a ++ b) =
      match (upToPanic P tr a).2 with
      | some v => ((upToPanic P tr a).1, some v)
      | none => (a ++ (upToPanic P (tr ++ a) b).1, (upToPanic P (tr ++ a) b).2) := by
  induction a with
  | nil => intro tr; simp [upToPanic]
  | cons o l ih =>
    intro tr
    rw [List.cons_append, upToPanic, upToPanic]
    cases P.at tr o with
    | some v => rfl
    | none =>
      dsimp only
      rw [ih]
      cases h : (upToPanic P (tr ++ [o]) l).2 with
      | some v => rfl
      | none => simp

/-- Two runs from `s`: `rO` with observers that panic, `r0` with observers that do not.  Either no
observer panics and they are the same; or both start with what is observed up to the first panic, and
if `S` holds the first one ends there, in a way that `bad` says. -/
def Follow {α : Type} (P : PanicsOn R) (S : Prop) (bad : PanicVal → α → Prop) (s : Sys W R)
    (rO r0 : Sys W R × α) : Prop :=
  ∃ seg, r0.1.trace = s.trace ++ seg ∧
    match (upToPanic P s.trace seg).2 with
    | none => rO = r0
    | some v => ∃ segO, rO.1.trace = s.trace ++ segO ∧ (upToPanic P s.trace seg).1 <+: segO ∧
        (S → segO = (upToPanic P s.trace seg).1 ∧ bad v rO.2)

section
variable {α β : Type} {P : PanicsOn R} {S : Prop} {bad : PanicVal → α → Prop}
  {bad' : PanicVal → β → Prop}

theorem Follow.extends {s : Sys W R} {rO r0 : Sys W R × α} (h : Follow P S bad s rO r0) :
    (∃ seg, rO.1.trace = s.trace ++ seg) ∧ ∃ seg, r0.1.trace = s.trace ++ seg := by
  obtain ⟨seg, h1, h2⟩ := h
  refine ⟨?_, seg, h1⟩
  split at h2
  · rw [h2]; exact ⟨seg, h1⟩
  · obtain ⟨segO, h3, -⟩ := h2; exact ⟨segO, h3⟩

/-- Doing nothing that is observed. -/
theorem Follow.pure (s s' : Sys W R) (x : α) (ht : s'.trace = s.trace) :
    Follow P S bad s (s', x) (s', x) :=
  ⟨[], by simp [ht], by simp [upToPanic]⟩

/-- One thing after the other. -/
theorem Follow.bind {s a1 b1 : Sys W R} {a2 b2 : α} {kO k0 : Sys W R → α → Sys W R × β}
    (h : Follow P S bad s (a1, a2) (b1, b2))
    (hk : ∀ t x, Follow P S bad' t (kO t x) (k0 t x))
    (hb : S → ∀ t v x, bad v x → (kO t x).1.trace = t.trace ∧ bad' v (kO t x).2) :
    Follow P S bad' s (kO a1 a2) (k0 b1 b2) := by
  obtain ⟨seg, h1, h2⟩ := h
  obtain ⟨seg', g1, g2⟩ := hk b1 b2
  refine ⟨seg ++ seg', by rw [g1, h1, List.append_assoc], ?_⟩
  rw [upToPanic_append]
  split at h2
  · rename_i hn
    rw [hn]
    dsimp only
    cases h2
    rw [h1] at g2
    cases hv : (upToPanic P (s.trace ++ seg) seg').2 with
    | none => rw [hv] at g2; exact g2
    | some v =>
      rw [hv] at g2
      obtain ⟨segO, e1, e2, e3⟩ := g2
      refine ⟨seg ++ segO, by rw [e1, List.append_assoc], ?_, ?_⟩
      · exact (List.prefix_append_right_inj seg).2 e2
      · intro hS; exact ⟨by rw [(e3 hS).1], (e3 hS).2⟩
  · rename_i v hv
    rw [hv]
    dsimp only
    obtain ⟨segO, e1, e2, e3⟩ := h2
    obtain ⟨⟨more, m1⟩, -⟩ := (hk a1 a2).extends
    refine ⟨segO ++ more, by rw [m1, e1, List.append_assoc], e2.trans (List.prefix_append ..), ?_⟩
    intro hS
    obtain ⟨b1, b2⟩ := hb hS a1 v a2 (e3 hS).2
    have : more = [] := by
      rw [m1] at b1
      simpa using b1
    exact ⟨by rw [this, List.append_nil, (e3 hS).1], b2⟩

/-- Observing something other than a fact, and changing the state. -/
theorem Follow.quiet {s t : Sys W R} {rO r0 : Sys W R × α} (l : List (Obs R))
    (hl : ∀ f, .fact f ∉ l) (ht : t.trace = s.trace ++ l)
    (h : Follow P S bad t rO r0) : Follow P S bad s rO r0 := by
  obtain ⟨seg, h1, h2⟩ := h
  have hq : ∀ (l : List (Obs R)), (∀ f, .fact f ∉ l) → ∀ tr, (upToPanic P tr l).2 = none := by
    intro l
    induction l with
    | nil => intro _ tr; rfl
    | cons o l ih =>
      intro h tr
      rw [upToPanic]
      cases o with
      | fact f => exact absurd (by simp) (h f)
      | call c => exact ih (fun f hf => h f (by simp [hf])) _
      | reset => exact ih (fun f hf => h f (by simp [hf])) _
  refine ⟨l ++ seg, by rw [h1, ht, List.append_assoc], ?_⟩
  rw [upToPanic_append, hq l hl]
  dsimp only
  rw [← ht]
  cases hv : (upToPanic P t.trace seg).2 with
  | none => rw [hv] at h2; exact h2
  | some v =>
    rw [hv] at h2
    obtain ⟨segO, e1, e2, e3⟩ := h2
    refine ⟨l ++ segO, by rw [e1, ht, List.append_assoc], (List.prefix_append_right_inj l).2 e2, ?_⟩
    intro hS
    exact ⟨by rw [(e3 hS).1], (e3 hS).2⟩

theorem Follow.weaken {S' : Prop} {s : Sys W R} {rO r0 : Sys W R × α} (h : Follow P S bad s rO r0)
    (hS : S' → S) : Follow P S' bad s rO r0 := by
  obtain ⟨seg, h1, h2⟩ := h
  refine ⟨seg, h1, ?_⟩
  split
  · rename_i hn; rw [hn] at h2; exact h2
  · rename_i v hv
    rw [hv] at h2
    obtain ⟨segO, e1, e2, e3⟩ := h2
    exact ⟨segO, e1, e2, fun h => e3 (hS h)⟩

/-- For taking runs apart. -/
@[elab_as_elim]
theorem Follow.elim {C : Sys W R × α → Sys W R × α → Prop} {s : Sys W R} {rO r0 : Sys W R × α}
    (h : Follow P S bad s rO r0)
    (k : ∀ a1 a2 b1 b2, Follow P S bad s (a1, a2) (b1, b2) → C (a1, a2) (b1, b2)) : C rO r0 :=
  k rO.1 rO.2 r0.1 r0.2 h

end

/-- For taking calls of the user's code apart. -/
@[elab_as_elim]
theorem user_elim {γ : Type} {s : Sys W R} {c : Call R} {f : W → W × γ} {C : Sys W R × γ → Prop}
    (k : ∀ t x, t.trace = s.trace ++ [.call c] → C (t, x)) : C (s.user c f) :=
  k (s.user c f).1 (s.user c f).2 (by simp [Sys.user, Sys.emit])

def badTell (v : PanicVal) (p : Option PanicVal) : Prop := p = some v ∧ v ≠ .unexpectedMessage
def badOp {γ : Type} (v : PanicVal) (x : γ × Option PanicVal) : Prop := badTell v x.2
def badRes {γ : Type} (v : PanicVal) (x : Except PanicVal γ) : Prop :=
  x = .error v ∧ v ≠ .unexpectedMessage
def badRun {γ δ : Type} (v : PanicVal) (x : γ × Except PanicVal δ) : Prop := badRes v x.2
def badOut (v : PanicVal) (x : Outcome (List EngErr)) : Prop := x = .panicked v

theorem enrich_other (h : HConfig) (i n : String) (m : Message) {v : PanicVal}
    (hv : v ≠ .unexpectedMessage) : enrich h i n m v = v := by
  cases v <;> first | rfl | exact absurd rfl hv

/-- A notification. -/
theorem tell_follow {A : App W R} {P : PanicsOn R} (s : Sys W R) (f : Fact) :
    Follow P (Strict A P) badTell s (s.tell P.watch f) (s.notify f, none) := by
  refine ⟨[.fact f], by simp [Sys.notify, Sys.emit], ?_⟩
  rw [upToPanic]
  cases h : P.at s.trace (.fact f) with
  | some v =>
    have h' : P s.trace f = some v := h
    refine ⟨[.fact f], by simp [Sys.tell, Sys.notify, Sys.emit], List.prefix_refl _, ?_⟩
    intro hS
    exact ⟨rfl, by simp [Sys.tell, PanicsOn.watch, h'], hS.value _ _ _ h'⟩
  | none =>
    have h' : P s.trace f = none := h
    simp [Sys.tell, PanicsOn.watch, h', Sys.notify, Sys.emit, upToPanic]

/-- The state and panic after a notification, and the state after one without panic. -/
structure TellsOf (P : PanicsOn R) (s : Sys W R) (f : Fact) (a1 : Sys W R) (a2 : Option PanicVal)
    (b : Sys W R) : Prop where
  left : (a1, a2) = s.tell P.watch f
  right : b = s.notify f

@[elab_as_elim]
theorem tell_elim {P : PanicsOn R} (s : Sys W R) (f : Fact)
    {C : Sys W R × Option PanicVal → Sys W R → Prop}
    (k : ∀ a1 a2 b, TellsOf P s f a1 a2 b → C (a1, a2) b) : C (s.tell P.watch f) (s.notify f) :=
  k _ _ _ ⟨rfl, rfl⟩

/-- A notification, and what comes then. -/
theorem Follow.tell {α : Type} {A : App W R} {P : PanicsOn R} {bad : PanicVal → α → Prop} {s : Sys W R}
    {f : Fact} {a1 b : Sys W R} {a2 : Option PanicVal} {kO : Sys W R → Option PanicVal → Sys W R × α}
    {k0 : Sys W R → Sys W R × α} (key : TellsOf P s f a1 a2 b)
    (hk : ∀ t, Follow P (Strict A P) bad t (kO t none) (k0 t))
    (hx : ∀ t v, (∃ seg, (kO t (some v)).1.trace = t.trace ++ seg) ∧
      (Strict A P → v ≠ .unexpectedMessage →
        (kO t (some v)).1.trace = t.trace ∧ bad v (kO t (some v)).2)) :
    Follow P (Strict A P) bad s (kO a1 a2) (k0 b) := by
  have h := tell_follow (A := A) (P := P) s f
  rw [← key.left, ← key.right] at h
  obtain ⟨seg, h1, h2⟩ := h
  obtain ⟨seg', g1, g2⟩ := hk b
  refine ⟨seg ++ seg', by rw [g1, h1, List.append_assoc], ?_⟩
  rw [upToPanic_append]
  cases hv : (upToPanic P s.trace seg).2 with
  | none =>
    rw [hv] at h2
    cases h2
    rw [h1] at g2
    dsimp only
    cases hv : (upToPanic P (s.trace ++ seg) seg').2 with
    | none => rw [hv] at g2; exact g2
    | some v =>
      rw [hv] at g2
      obtain ⟨segO, e1, e2, e3⟩ := g2
      refine ⟨seg ++ segO, by rw [e1, List.append_assoc], ?_, ?_⟩
      · exact (List.prefix_append_right_inj seg).2 e2
      · intro hS; exact ⟨by rw [(e3 hS).1], (e3 hS).2⟩
  | some v =>
    rw [hv] at h2
    dsimp only
    obtain ⟨segO, e1, e2, e3⟩ := h2
    have ha : a2 = some v := by
      have l := key.left
      unfold Sys.tell at l
      have hs : seg = [.fact f] := by
        rw [key.right] at h1
        simpa [Sys.notify, Sys.emit] using h1.symm
      rw [hs, upToPanic] at hv
      have := congrArg Prod.snd l
      dsimp only at this
      rw [this]
      cases hp : P.at s.trace (.fact f) with
      | none => rw [hp] at hv; simp [upToPanic] at hv
      | some v' =>
        rw [hp] at hv
        have hp' : P s.trace f = some v' := hp
        cases hv
        exact hp'
    rw [ha]
    obtain ⟨⟨more, m1⟩, m2⟩ := hx a1 v
    refine ⟨segO ++ more, by rw [m1, e1, List.append_assoc], e2.trans (List.prefix_append ..), ?_⟩
    intro hS
    obtain ⟨b1, b2⟩ := m2 hS (e3 hS).2.2
    have : more = [] := by
      rw [m1] at b1
      simpa using b1
    exact ⟨by rw [this, List.append_nil, (e3 hS).1], b2⟩

@[elab_as_elim]
theorem Follow.elim₂ {γ : Type} {P : PanicsOn R} {S : Prop} {s : Sys W R}
    {rO : Sys W R × γ × Option PanicVal} {r0 : Sys W R × γ}
    {C : Sys W R × γ × Option PanicVal → Sys W R × γ → Prop}
    (h : Follow P S badOp s rO (r0.1, r0.2, none))
    (k : ∀ a1 a2 b1 b2, Follow P S badOp s (a1, a2) (b1, b2, none) → C (a1, a2) (b1, b2)) : C rO r0 :=
  k rO.1 rO.2 r0.1 r0.2 h

/-- As `Follow.bind`, where the second run cannot panic. -/
theorem Follow.bind₂ {α γ : Type} {P : PanicsOn R} {S : Prop} {bad : PanicVal → α → Prop} {s : Sys W R}
    {a1 b1 : Sys W R} {a2 : γ × Option PanicVal} {b2 : γ}
    {kO : Sys W R → γ × Option PanicVal → Sys W R × α} {k0 : Sys W R → γ → Sys W R × α}
    (key : Follow P S badOp s (a1, a2) (b1, b2, none))
    (hk : ∀ t x, Follow P S bad t (kO t (x, none)) (k0 t x))
    (hx : ∀ t x v, (∃ seg, (kO t (x, some v)).1.trace = t.trace ++ seg) ∧
      (S → v ≠ .unexpectedMessage →
        (kO t (x, some v)).1.trace = t.trace ∧ bad v (kO t (x, some v)).2)) :
    Follow P S bad s (kO a1 a2) (k0 b1 b2) := by
  obtain ⟨seg, h1, h2⟩ := key
  obtain ⟨seg', g1, g2⟩ := hk b1 b2
  refine ⟨seg ++ seg', by rw [g1, h1, List.append_assoc], ?_⟩
  rw [upToPanic_append]
  cases hv : (upToPanic P s.trace seg).2 with
  | none =>
    rw [hv] at h2
    cases h2
    rw [h1] at g2
    dsimp only
    cases hv : (upToPanic P (s.trace ++ seg) seg').2 with
    | none => rw [hv] at g2; exact g2
    | some v =>
      rw [hv] at g2
      obtain ⟨segO, e1, e2, e3⟩ := g2
      refine ⟨seg ++ segO, by rw [e1, List.append_assoc], ?_, ?_⟩
      · exact (List.prefix_append_right_inj seg).2 e2
      · intro hS; exact ⟨by rw [(e3 hS).1], (e3 hS).2⟩
  | some v =>
    rw [hv] at h2
    dsimp only
    obtain ⟨segO, e1, e2, e3⟩ := h2
    obtain ⟨x, p⟩ := a2
    have hext : ∃ more, (kO a1 (x, p)).1.trace = a1.trace ++ more := by
      cases p with
      | none => exact (hk a1 x).extends.1
      | some v' => exact (hx a1 x v').1
    obtain ⟨more, m1⟩ := hext
    refine ⟨segO ++ more, by rw [m1, e1, List.append_assoc], e2.trans (List.prefix_append ..), ?_⟩
    intro hS
    obtain ⟨hp, hv'⟩ := (e3 hS).2
    dsimp only at hp
    cases hp
    obtain ⟨b1, b2⟩ := (hx a1 x v).2 hS hv'
    have : more = [] := by
      rw [m1] at b1
      simpa using b1
    exact ⟨by rw [this, List.append_nil, (e3 hS).1], b2⟩

/-- `follow₂ h`: as `follow h`, where the second run cannot panic. -/
macro "follow₂ " t:term : tactic =>
  `(tactic| (refine Follow.elim₂ $t ?_; intro a1 a2 b1 b2 key; apply Follow.bind₂ key <;> clear key))

/-- `follow h`: the runs begin with those that `h` is about. -/
macro "follow " t:term : tactic =>
  `(tactic| (refine Follow.elim $t ?_; intro a1 a2 b1 b2 key; apply Follow.bind key <;> clear key))

/-- `told s f`: the runs begin with a notification. -/
macro "told " s:term:max f:term:max : tactic =>
  `(tactic| (refine tell_elim $s $f ?_; intro a1 a2 b1 key; apply Follow.tell key <;> clear key))

variable {A : App W R} {P : PanicsOn R}

/-! ## Aggregates -/

theorem aggReviveO_follow (h : HConfig) (id : String) (env : Env) (s : Sys W R) (sc : AggScope R) :
    Follow P (Strict A P) badOp s (aggReviveO P.watch h id env s sc)
      ((aggRevive h id env s sc).1, (aggRevive h id env s sc).2, none) := by
  unfold aggReviveO aggRevive
  split
  · exact .pure s s _ rfl
  · cases sc.destroyed
    · simp only [Bool.false_eq_true, if_false]
      told s (.aggCreated h id env)
      · intro t; exact .pure _ _ _ rfl
      · intro t v; exact ⟨⟨[], by simp⟩, fun _ hv => ⟨rfl, rfl, hv⟩⟩
    · simp only [if_true]
      told s (.aggReverted h id env)
      · intro t; exact .pure _ _ _ rfl
      · intro t v; exact ⟨⟨[], by simp⟩, fun _ hv => ⟨rfl, rfl, hv⟩⟩

theorem aggDestroyO_follow (h : HConfig) (id : String) (env : Env) (s : Sys W R) (sc : AggScope R) :
    Follow P (Strict A P) badOp s (aggDestroyO P.watch A h id env s sc)
      (aggDestroy A h id env s sc) := by
  unfold aggDestroyO aggDestroy
  split
  · exact .pure s s _ rfl
  · refine user_elim ?_
    intro t x ht
    refine Follow.quiet [.call (.aggNew h)] (by simp) ht ?_
    cases x with
    | error v => exact .pure _ _ _ rfl
    | ok r =>
      dsimp only
      told t (.aggDestroyed h id env)
      · intro t; exact .pure _ _ _ rfl
      · intro t v; exact ⟨⟨[], by simp⟩, fun _ hv => ⟨rfl, rfl, hv⟩⟩

/-- Nothing but calls is observed between the states. -/
def Silent (s t : Sys W R) : Prop := ∃ l, (∀ f, .fact f ∉ l) ∧ t.trace = s.trace ++ l

theorem Silent.refl {s t : Sys W R} (h : t.trace = s.trace) : Silent s t := ⟨[], by simp, by simp [h]⟩

theorem Silent.trans {s t u : Sys W R} (h : Silent s t) (g : Silent t u) : Silent s u := by
  obtain ⟨l, h1, h2⟩ := h
  obtain ⟨l', g1, g2⟩ := g
  refine ⟨l ++ l', ?_, by rw [g2, h2, List.append_assoc]⟩
  intro f hf
  rcases List.mem_append.1 hf with hf | hf
  · exact h1 f hf
  · exact g1 f hf

theorem Silent.call {s t : Sys W R} {c : Call R} (h : t.trace = s.trace ++ [.call c]) : Silent s t :=
  ⟨[.call c], by simp, h⟩

theorem Silent.follow {α : Type} {S : Prop} {bad : PanicVal → α → Prop} {s t : Sys W R}
    {rO r0 : Sys W R × α} (h : Silent s t) (g : Follow P S bad t rO r0) : Follow P S bad s rO r0 := by
  obtain ⟨l, h1, h2⟩ := h
  exact Follow.quiet l h1 h2 g

theorem aggApplyScope_silent (h : HConfig) (m : Message) (s : Sys W R) (sc : AggScope R) :
    Silent s (aggApplyScope A h m s sc).1 := by
  unfold aggApplyScope
  split
  · exact .refl rfl
  · refine user_elim ?_
    rintro t ⟨r', _ | v⟩ ht <;> exact .call ht

theorem aggEmitO_follow (h : HConfig) (id : String) (now : Time) (env : Env) (m : Message)
    (s : Sys W R) (sc : AggScope R) :
    Follow P (Strict A P) badOp s (aggEmitO P.watch h id now env m s sc)
      ((aggEmit h id now env m s sc).1, (aggEmit h id now env m s sc).2, none) := by
  unfold aggEmitO aggEmit
  dsimp only
  refine Follow.quiet (t := { s with nextID := s.nextID + 1 }) [] (by simp) (by simp) ?_
  told { s with nextID := s.nextID + 1 } (.aggEvent h id env (env.child (s.nextID + 1) m now ⟨h, .aggregate, id⟩))
  · intro t; exact .pure _ _ _ rfl
  · intro t v; exact ⟨⟨[], by simp⟩, fun _ hv => ⟨rfl, rfl, hv⟩⟩

theorem aggRecordO_follow (h : HConfig) (id : String) (now : Time) (env : Env) (m : Message)
    (s : Sys W R) (sc : AggScope R) :
    Follow P (Strict A P) badOp s (aggRecordO P.watch A h id now env m s sc)
      (aggRecord A h id now env m s sc) := by
  unfold aggRecordO aggRecord
  split
  · exact .pure _ _ _ rfl
  · cases m.invalid with
    | some e => exact .pure _ _ _ rfl
    | none =>
      dsimp only
      follow₂ (aggReviveO_follow (A := A) (P := P) h id env s sc)
      · intro t sc
        dsimp only
        have hq := aggApplyScope_silent (A := A) h m t sc
        rcases he : aggApplyScope A h m t sc with ⟨u, sc', _ | v⟩
        · rw [he] at hq
          exact hq.follow (aggEmitO_follow h id now env m u sc')
        · rw [he] at hq
          exact hq.follow (.pure _ _ _ rfl)
      · intro t x v; exact ⟨⟨[], by simp⟩, fun _ hv => ⟨rfl, rfl, hv⟩⟩

theorem aggOpO_follow (h : HConfig) (id : String) (now : Time) (env : Env) (o : AggOp R)
    (s : Sys W R) (sc : AggScope R) :
    Follow P (Strict A P) badOp s (aggOpO P.watch A h id now env o s sc)
      (aggOp A h id now env o s sc) := by
  cases o with
  | record m => exact aggRecordO_follow h id now env m s sc
  | destroy => exact aggDestroyO_follow h id env s sc
  | setRoot r => exact .pure _ _ _ rfl
  | log t =>
    unfold aggOpO aggOp
    dsimp only
    told s (.aggLog h id env t)
    · intro t; exact .pure _ _ _ rfl
    · intro t v; exact ⟨⟨[], by simp⟩, fun _ hv => ⟨rfl, rfl, hv⟩⟩

theorem aggRunO_follow (h : HConfig) (id : String) (now : Time) (env : Env)
    (g : Prog W (AggOp R) Unit) : ∀ (s : Sys W R) (sc : AggScope R),
    Follow P (Strict A P ∧ g.Strict) badOp s (aggRunO P.watch A h id now env g s sc)
      (aggRun A h id now env g s sc) := by
  induction g with
  | ret a => intro s sc; exact .pure _ _ _ rfl
  | panic v => intro s sc; exact .pure _ _ _ rfl
  | get k ih =>
    intro s sc
    unfold aggRunO aggRun
    exact (ih s.w s sc).weaken fun hS => ⟨hS.1, by cases hS.2 with | get h => exact h _⟩
  | set w k ih =>
    intro s sc
    unfold aggRunO aggRun
    exact Follow.quiet (t := { s with w := w }) [] (by simp) (by simp)
      ((ih { s with w := w } sc).weaken fun hS => ⟨hS.1, by cases hS.2 with | set h => exact h⟩)
  | op o k ih =>
    intro s sc
    unfold aggRunO aggRun
    dsimp only
    follow ((aggOpO_follow (A := A) (P := P) h id now env o s sc).weaken
      (fun hS : Strict A P ∧ (Prog.op o k).Strict => hS.1))
    · rintro t ⟨sc, p⟩
      exact (ih p t sc).weaken fun hS => ⟨hS.1, by
        cases hS.2 with
        | op h hp =>
          cases p with
          | none => exact h
          | some v => rw [hp]; exact .panic v⟩
    · rintro hS t v ⟨sc, _⟩ ⟨rfl, hv⟩
      cases hS.2 with
      | op h hp =>
        dsimp only
        rw [hp]
        exact ⟨rfl, rfl, hv⟩

theorem aggReplay_silent (h : HConfig) (es : List Env) : ∀ (r : R) (s : Sys W R),
    Silent s (aggReplay A h es r s).1 := by
  induction es with
  | nil => intro r s; exact .refl rfl
  | cons e es ih =>
    intro r s
    unfold aggReplay
    refine user_elim ?_
    rintro t ⟨r', _ | v⟩ ht
    · exact (Silent.call ht).trans (ih r' t)
    · exact .call ht

theorem aggCommit_trace (h : HConfig) (id : String) (s : Sys W R) (sc : AggScope R) :
    (aggCommit h id s sc).trace = s.trace := by
  unfold aggCommit; split <;> rfl

theorem aggInvokeO_follow (h : HConfig) (id : String) (now : Time) (env : Env)
    (r : R) (ex : Bool) (s : Sys W R) :
    Follow P (Strict A P) badRes s (aggInvokeO P.watch A h id now env r ex s)
      (aggInvoke A h id now env r ex s) := by
  unfold aggInvokeO aggInvoke
  refine (Silent.call (c := .aggHandle h id r env.msg) (s := s)
    (t := s.emit (.call (.aggHandle h id r env.msg))) rfl).follow ?_
  follow ((aggRunO_follow (A := A) (P := P) h id now env (A.uc.aggHandle h id r env.msg)
    (s.emit (.call (.aggHandle h id r env.msg))) ⟨some r, ex, false, [], true⟩).weaken
      (fun hS : Strict A P => ⟨hS, hS.agg ..⟩))
  · rintro t ⟨sc, _ | v⟩
    · exact .pure _ _ _ (aggCommit_trace ..)
    · exact .pure _ _ _ rfl
  · rintro hS t v ⟨sc, _⟩ ⟨rfl, hv⟩
    dsimp only
    rw [enrich_other _ _ _ _ hv]
    exact ⟨rfl, rfl, hv⟩

theorem aggWithIDO_follow (h : HConfig) (id : String) (now : Time) (env : Env) (s : Sys W R) :
    Follow P (Strict A P) badRes s (aggWithIDO P.watch A h id now env s)
      (aggWithID A h id now env s) := by
  unfold aggWithIDO aggWithID
  refine user_elim ?_
  rintro t (v | _ | r) ht
  · exact (Silent.call ht).follow (.pure _ _ _ rfl)
  · exact (Silent.call ht).follow (.pure _ _ _ rfl)
  · refine (Silent.call ht).follow ?_
    dsimp only
    cases t.agg h.name id with
    | some hist =>
      dsimp only
      have hq := aggReplay_silent (A := A) h hist r t
      rcases he : aggReplay A h hist r t with ⟨u, v | r'⟩
      · rw [he] at hq
        exact hq.follow (.pure _ _ _ rfl)
      · rw [he] at hq
        refine hq.follow ?_
        dsimp only
        told u (.aggLoaded h id env)
        · intro t; exact aggInvokeO_follow ..
        · intro t v; exact ⟨⟨[], by simp⟩, fun _ hv => ⟨rfl, rfl, hv⟩⟩
    | none =>
      dsimp only
      told t (.aggNotFound h id env)
      · intro t; exact aggInvokeO_follow ..
      · intro t v; exact ⟨⟨[], by simp⟩, fun _ hv => ⟨rfl, rfl, hv⟩⟩

theorem aggHandleO_follow (h : HConfig) (now : Time) (env : Env) (s : Sys W R) :
    Follow P (Strict A P) badRes s (aggHandleO P.watch A h now env s) (aggHandle A h now env s) := by
  unfold aggHandleO aggHandle
  split
  · exact .pure _ _ _ rfl
  · split
    · exact .pure _ _ _ rfl
    · refine user_elim ?_
      rintro t (v | id) ht
      · exact (Silent.call ht).follow (.pure _ _ _ rfl)
      · refine (Silent.call ht).follow ?_
        dsimp only
        split
        · exact .pure _ _ _ rfl
        · exact aggWithIDO_follow ..

/-! ## Processes -/

theorem procReviveO_follow (h : HConfig) (id : String) (env : Env) (s : Sys W R) (sc : ProcScope R) :
    Follow P (Strict A P) badOp s (procReviveO P.watch h id env s sc)
      ((procRevive h id env s sc).1, (procRevive h id env s sc).2, none) := by
  unfold procReviveO procRevive
  split
  · dsimp only
    told s (.procReverted h id env)
    · intro t; exact .pure _ _ _ rfl
    · intro t v; exact ⟨⟨[], by simp⟩, fun _ hv => ⟨rfl, rfl, hv⟩⟩
  · exact .pure s s _ rfl

theorem procEmitCommandO_follow (h : HConfig) (id : String) (now : Time) (env : Env) (m : Message)
    (s : Sys W R) (sc : ProcScope R) :
    Follow P (Strict A P) badOp s (procEmitCommandO P.watch h id now env m s sc)
      ((procEmitCommand h id now env m s sc).1, (procEmitCommand h id now env m s sc).2, none) := by
  unfold procEmitCommandO procEmitCommand
  dsimp only
  refine Follow.quiet (t := { s with nextID := s.nextID + 1 }) [] (by simp) (by simp) ?_
  told { s with nextID := s.nextID + 1 } (.procCommand h id env (env.child (s.nextID + 1) m now ⟨h, .process, id⟩))
  · intro t; exact .pure _ _ _ rfl
  · intro t v; exact ⟨⟨[], by simp⟩, fun _ hv => ⟨rfl, rfl, hv⟩⟩

theorem procEmitTimeoutO_follow (h : HConfig) (id : String) (now : Time) (env : Env) (m : Message)
    (t : Time) (s : Sys W R) (sc : ProcScope R) :
    Follow P (Strict A P) badOp s (procEmitTimeoutO P.watch h id now env m t s sc)
      ((procEmitTimeout h id now env m t s sc).1, (procEmitTimeout h id now env m t s sc).2, none) := by
  unfold procEmitTimeoutO procEmitTimeout
  dsimp only
  refine Follow.quiet (t := { s with nextID := s.nextID + 1 }) [] (by simp) (by simp) ?_
  told { s with nextID := s.nextID + 1 }
    (.procTimeout h id env (env.childTimeout (s.nextID + 1) m now t ⟨h, .process, id⟩))
  · intro t; exact .pure _ _ _ rfl
  · intro t v; exact ⟨⟨[], by simp⟩, fun _ hv => ⟨rfl, rfl, hv⟩⟩

/-- A result with "no panic" added. -/
theorem follow_pair {γ : Type} {S : Prop} {s : Sys W R} {rO : Sys W R × γ × Option PanicVal}
    {r : Sys W R × γ} (h : Follow P S badOp s rO (r.1, r.2, none)) :
    Follow P S badOp s rO (match r with | (s, sc) => (s, sc, none)) := h

theorem procOpO_follow (h : HConfig) (id : String) (now : Time) (env : Env) (o : ProcOp R)
    (s : Sys W R) (sc : ProcScope R) :
    Follow P (Strict A P) badOp s (procOpO P.watch h id now env o s sc)
      (procOp h id now env o s sc) := by
  unfold procOpO procOp
  cases o with
  | end_ =>
    dsimp only
    split
    · exact .pure _ _ _ rfl
    · told s (.procEnded h id env)
      · intro t; exact .pure _ _ _ rfl
      · intro t v; exact ⟨⟨[], by simp⟩, fun _ hv => ⟨rfl, rfl, hv⟩⟩
  | execute m =>
    dsimp only
    split
    · exact .pure _ _ _ rfl
    · cases m.invalid with
      | some e => exact .pure _ _ _ rfl
      | none =>
        dsimp only
        follow₂ (procReviveO_follow (A := A) (P := P) h id env s sc)
        · intro t sc
          exact procEmitCommandO_follow h id now env m t sc
        · intro t x v; exact ⟨⟨[], by simp⟩, fun _ hv => ⟨rfl, rfl, hv⟩⟩
  | schedule m t =>
    dsimp only
    split
    · exact .pure _ _ _ rfl
    · cases m.invalid with
      | some e => exact .pure _ _ _ rfl
      | none =>
        dsimp only
        follow₂ (procReviveO_follow (A := A) (P := P) h id env s sc)
        · intro u sc
          exact procEmitTimeoutO_follow h id now env m t u sc
        · intro t x v; exact ⟨⟨[], by simp⟩, fun _ hv => ⟨rfl, rfl, hv⟩⟩
  | setRoot r => exact .pure _ _ _ rfl
  | log t =>
    dsimp only
    told s (.procLog h id env t)
    · intro t; exact .pure _ _ _ rfl
    · intro t v; exact ⟨⟨[], by simp⟩, fun _ hv => ⟨rfl, rfl, hv⟩⟩

theorem procRunO_follow (h : HConfig) (id : String) (now : Time) (env : Env)
    (g : Prog W (ProcOp R) (Option Err)) : ∀ (s : Sys W R) (sc : ProcScope R),
    Follow P (Strict A P ∧ g.Strict) badRun s (procRunO P.watch h id now env g s sc)
      (procRun h id now env g s sc) := by
  induction g with
  | ret a => intro s sc; exact .pure _ _ _ rfl
  | panic v => intro s sc; exact .pure _ _ _ rfl
  | get k ih =>
    intro s sc
    unfold procRunO procRun
    exact (ih s.w s sc).weaken fun hS => ⟨hS.1, by cases hS.2 with | get h => exact h _⟩
  | set w k ih =>
    intro s sc
    unfold procRunO procRun
    exact Follow.quiet (t := { s with w := w }) [] (by simp) (by simp)
      ((ih { s with w := w } sc).weaken fun hS => ⟨hS.1, by cases hS.2 with | set h => exact h⟩)
  | op o k ih =>
    intro s sc
    unfold procRunO procRun
    dsimp only
    follow ((procOpO_follow (A := A) (P := P) h id now env o s sc).weaken
      (fun hS : Strict A P ∧ (Prog.op o k).Strict => hS.1))
    · rintro t ⟨sc, p⟩
      exact (ih p t sc).weaken fun hS => ⟨hS.1, by
        cases hS.2 with
        | op h hp =>
          cases p with
          | none => exact h
          | some v => rw [hp]; exact .panic v⟩
    · rintro hS t v ⟨sc, _⟩ ⟨rfl, hv⟩
      cases hS.2 with
      | op h hp =>
        dsimp only
        rw [hp]
        exact ⟨rfl, rfl, hv⟩

theorem procAlias_trace (h : HConfig) (id : String) (b : Bool) (s : Sys W R) (r : R) :
    (procAlias h id b s r).trace = s.trace := by
  unfold procAlias; split <;> rfl

theorem procInvokeO_follow (h : HConfig) (id : String) (now : Time) (env : Env)
    (r : R) (ex : Bool) (s : Sys W R) :
    Follow P (Strict A P) badRes s (procInvokeO P.watch A h id now env r ex s)
      (procInvoke A h id now env r ex s) := by
  unfold procInvokeO procInvoke
  refine (Silent.call (c := .procHandle h id r env.msg (procSeenTime env)) (s := s)
    (t := s.emit (.call (.procHandle h id r env.msg (procSeenTime env)))) rfl).follow ?_
  follow ((procRunO_follow (A := A) (P := P) h id now env
    (A.uc.procHandle h id r env.msg (procSeenTime env))
    (s.emit (.call (.procHandle h id r env.msg (procSeenTime env)))) ⟨r, false, [], [], []⟩).weaken
      (fun hS : Strict A P => ⟨hS, hS.proc ..⟩))
  · rintro t ⟨sc, v | _ | e⟩
    · exact .pure _ _ _ (procAlias_trace ..)
    · dsimp only
      split
      · refine .pure _ _ _ ?_
        split <;> rfl
      · exact .pure _ _ _ rfl
    · exact .pure _ _ _ (procAlias_trace ..)
  · rintro hS t v ⟨sc, _⟩ ⟨rfl, hv⟩
    dsimp only
    rw [enrich_other _ _ _ _ hv]
    exact ⟨procAlias_trace .., rfl, hv⟩

theorem procWithIDO_follow (h : HConfig) (id : String) (now : Time) (env : Env) (s : Sys W R) :
    Follow P (Strict A P) badRes s (procWithIDO P.watch A h id now env s)
      (procWithID A h id now env s) := by
  unfold procWithIDO procWithID
  cases (s.proc h.name).inst id with
  | some r =>
    dsimp only
    told s (.procLoaded h id env)
    · intro t; exact procInvokeO_follow ..
    · intro t v; exact ⟨⟨[], by simp⟩, fun _ hv => ⟨rfl, rfl, hv⟩⟩
  | none =>
    dsimp only
    told s (.procNotFound h id env)
    · intro t
      dsimp only
      refine user_elim ?_
      rintro u (v | r) ht
      · exact (Silent.call ht).follow (.pure _ _ _ rfl)
      · refine (Silent.call ht).follow ?_
        cases r with
        | none =>
          dsimp only
          told u (.procBegun h id env)
          · intro t; exact .pure _ _ _ rfl
          · intro t v; exact ⟨⟨[], by simp⟩, fun _ hv => ⟨rfl, rfl, hv⟩⟩
        | some r =>
          dsimp only
          told u (.procBegun h id env)
          · intro t; exact procInvokeO_follow ..
          · intro t v; exact ⟨⟨[], by simp⟩, fun _ hv => ⟨rfl, rfl, hv⟩⟩
    · intro t v; exact ⟨⟨[], by simp⟩, fun _ hv => ⟨rfl, rfl, hv⟩⟩

theorem procHandleO_follow (h : HConfig) (now : Time) (env : Env) (s : Sys W R) :
    Follow P (Strict A P) badRes s (procHandleO P.watch A h now env s) (procHandle A h now env s) := by
  unfold procHandleO procHandle
  split
  · exact .pure _ _ _ rfl
  · cases env.msg.type.kind with
    | command => exact .pure _ _ _ rfl
    | event =>
      dsimp only
      refine user_elim ?_
      rintro t (v | e | _ | id) ht
      · exact (Silent.call ht).follow (.pure _ _ _ rfl)
      · exact (Silent.call ht).follow (.pure _ _ _ rfl)
      · refine (Silent.call ht).follow ?_
        dsimp only
        told t (.procEventIgnored h env)
        · intro t; exact .pure _ _ _ rfl
        · intro t v; exact ⟨⟨[], by simp⟩, fun _ hv => ⟨rfl, rfl, hv⟩⟩
      · refine (Silent.call ht).follow ?_
        dsimp only
        split
        · exact .pure _ _ _ rfl
        · exact procWithIDO_follow ..
    | timeout =>
      dsimp only
      cases env.origin with
      | none => exact .pure _ _ _ rfl
      | some o =>
        dsimp only
        cases (s.proc h.name).inst o.instanceID with
        | some r => exact procWithIDO_follow ..
        | none =>
          dsimp only
          told s (.procTimeoutIgnored h o.instanceID env)
          · intro t; exact .pure _ _ _ rfl
          · intro t v; exact ⟨⟨[], by simp⟩, fun _ hv => ⟨rfl, rfl, hv⟩⟩

/-! ## Integrations -/

theorem intOpO_follow (h : HConfig) (now : Time) (env : Env) (o : IntOp) (s : Sys W R) (evs : List Env) :
    Follow P (Strict A P) badOp s (intOpO P.watch h now env o s evs) (intOp h now env o s evs) := by
  unfold intOpO intOp intEmit
  cases o with
  | record m =>
    dsimp only
    split
    · exact .pure _ _ _ rfl
    · cases m.invalid with
      | some e => exact .pure _ _ _ rfl
      | none =>
        dsimp only
        refine Follow.quiet (t := { s with nextID := s.nextID + 1 }) [] (by simp) (by simp) ?_
        told { s with nextID := s.nextID + 1 }
          (.intEvent h env (env.child (s.nextID + 1) m now ⟨h, .integration, ""⟩))
        · intro t; exact .pure _ _ _ rfl
        · intro t v; exact ⟨⟨[], by simp⟩, fun _ hv => ⟨rfl, rfl, hv⟩⟩
  | log t =>
    dsimp only
    told s (.intLog h env t)
    · intro t; exact .pure _ _ _ rfl
    · intro t v; exact ⟨⟨[], by simp⟩, fun _ hv => ⟨rfl, rfl, hv⟩⟩

theorem intRunO_follow (h : HConfig) (now : Time) (env : Env)
    (g : Prog W IntOp (Option Err)) : ∀ (s : Sys W R) (evs : List Env),
    Follow P (Strict A P ∧ g.Strict) badRun s (intRunO P.watch h now env g s evs)
      (intRun h now env g s evs) := by
  induction g with
  | ret a => intro s evs; exact .pure _ _ _ rfl
  | panic v => intro s evs; exact .pure _ _ _ rfl
  | get k ih =>
    intro s evs
    unfold intRunO intRun
    exact (ih s.w s evs).weaken fun hS => ⟨hS.1, by cases hS.2 with | get h => exact h _⟩
  | set w k ih =>
    intro s evs
    unfold intRunO intRun
    exact Follow.quiet (t := { s with w := w }) [] (by simp) (by simp)
      ((ih { s with w := w } evs).weaken fun hS => ⟨hS.1, by cases hS.2 with | set h => exact h⟩)
  | op o k ih =>
    intro s evs
    unfold intRunO intRun
    dsimp only
    follow ((intOpO_follow (A := A) (P := P) h now env o s evs).weaken
      (fun hS : Strict A P ∧ (Prog.op o k).Strict => hS.1))
    · rintro t ⟨evs, p⟩
      exact (ih p t evs).weaken fun hS => ⟨hS.1, by
        cases hS.2 with
        | op h hp =>
          cases p with
          | none => exact h
          | some v => rw [hp]; exact .panic v⟩
    · rintro hS t v ⟨evs, _⟩ ⟨rfl, hv⟩
      cases hS.2 with
      | op h hp =>
        dsimp only
        rw [hp]
        exact ⟨rfl, rfl, hv⟩

theorem intHandleO_follow (h : HConfig) (now : Time) (env : Env) (s : Sys W R) :
    Follow P (Strict A P) badRes s (intHandleO P.watch A h now env s) (intHandle A h now env s) := by
  unfold intHandleO intHandle
  split
  · exact .pure _ _ _ rfl
  · split
    · exact .pure _ _ _ rfl
    · refine (Silent.call (c := .intHandle h env.msg) (s := s)
        (t := s.emit (.call (.intHandle h env.msg))) rfl).follow ?_
      follow ((intRunO_follow (A := A) (P := P) h now env (A.uc.intHandle h env.msg)
        (s.emit (.call (.intHandle h env.msg))) []).weaken (fun hS : Strict A P => ⟨hS, hS.int ..⟩))
      · rintro t ⟨evs, v | e⟩ <;> exact .pure _ _ _ rfl
      · rintro hS t v ⟨evs, _⟩ ⟨rfl, hv⟩
        dsimp only
        rw [enrich_other _ _ _ _ hv]
        exact ⟨rfl, rfl, hv⟩

/-! ## Projections -/

theorem prjRunO_follow {α : Type} (h : HConfig) (env : Option Env)
    (g : Prog W PrjOp α) : ∀ (s : Sys W R),
    Follow P (Strict A P ∧ g.Strict) badRes s (prjRunO P.watch h env g s) (prjRun h env g s) := by
  induction g with
  | ret a => intro s; exact .pure _ _ _ rfl
  | panic v => intro s; exact .pure _ _ _ rfl
  | get k ih =>
    intro s
    unfold prjRunO prjRun
    exact (ih s.w s).weaken fun hS => ⟨hS.1, by cases hS.2 with | get h => exact h _⟩
  | set w k ih =>
    intro s
    unfold prjRunO prjRun
    exact Follow.quiet (t := { s with w := w }) [] (by simp) (by simp)
      ((ih { s with w := w }).weaken fun hS => ⟨hS.1, by cases hS.2 with | set h => exact h⟩)
  | op o k ih =>
    intro s
    cases o with
    | log t =>
      unfold prjRunO prjRun
      refine Follow.bind (kO := fun s p => prjRunO P.watch h env (k p) s)
        (k0 := fun s p => prjRun h env (k p) s)
        ((tell_follow (A := A) (P := P) s (.prjLog h env t)).weaken
          (fun hS : Strict A P ∧ (Prog.op (PrjOp.log t) k).Strict => hS.1)) ?_ ?_
      · intro t p
        exact (ih p t).weaken fun hS => ⟨hS.1, by
          cases hS.2 with
          | op h hp =>
            cases p with
            | none => exact h
            | some v => rw [hp]; exact .panic v⟩
      · rintro hS t v _ ⟨rfl, hv⟩
        cases hS.2 with
        | op h hp =>
          rw [hp]
          exact ⟨rfl, rfl, hv⟩

include A in
theorem prjStepO_follow {α β : Type} (h : HConfig) (env : Option Env) (g : Prog W PrjOp α)
    (s : Sys W R) {bad : PanicVal → β → Prop} {kO k0 : Prog W PrjOp α → Sys W R → Sys W R × β}
    (hk : ∀ g t, Follow P False bad t (kO g t) (k0 g t)) :
    Follow P False bad s
      (kO (prjStepO P.watch h env g s).1 (prjStepO P.watch h env g s).2)
      (k0 (prjStep h env g s).1 (prjStep h env g s).2) := by
  cases g with
  | ret a => exact hk _ _
  | panic v => exact hk _ _
  | get k => exact hk _ _
  | set w k => exact Follow.quiet (t := { s with w := w }) [] (by simp) (by simp) (hk _ _)
  | op o k =>
    cases o with
    | log t =>
      exact Follow.bind (kO := fun s p => kO (k p) s) (k0 := fun s p => k0 (k p) s)
        ((tell_follow (A := A) (P := P) s (.prjLog h env t)).weaken (fun hS : False => hS.elim))
        (fun t p => hk _ _) (fun hS => hS.elim)

include A in
theorem prjParO_follow (h : HConfig) (env : Env) (l : List Bool) :
    ∀ (hp : Prog W PrjOp (Except Err Bool)) (cp : Prog W PrjOp (Option Err)) (s : Sys W R),
    Follow P False badRes s (prjParO P.watch h env l hp cp s) (prjPar h env l hp cp s) := by
  induction l with
  | nil =>
    intro hp cp s
    unfold prjParO prjPar
    follow ((prjRunO_follow (A := A) (P := P) h (some env) hp s).weaken (fun hS : False => hS.elim))
    · rintro t (v | r)
      · exact .pure _ _ _ rfl
      · dsimp only
        follow ((prjRunO_follow (A := A) (P := P) h none cp t).weaken (fun hS : False => hS.elim))
        · rintro t (v | r) <;> exact .pure _ _ _ rfl
        · intro hS; exact hS.elim
    · intro hS; exact hS.elim
  | cons b bs ih =>
    intro hp cp s
    have key : Follow P False badRes s
        (if b then prjParO P.watch h env bs hp (prjStepO P.watch h none cp s).1
            (prjStepO P.watch h none cp s).2
          else prjParO P.watch h env bs (prjStepO P.watch h (some env) hp s).1 cp
            (prjStepO P.watch h (some env) hp s).2)
        (if b then prjPar h env bs hp (prjStep h none cp s).1 (prjStep h none cp s).2
          else prjPar h env bs (prjStep h (some env) hp s).1 cp (prjStep h (some env) hp s).2) := by
      cases b with
      | true => exact prjStepO_follow (A := A) h none cp s fun g t => ih hp g t
      | false => exact prjStepO_follow (A := A) h (some env) hp s fun g t => ih g cp t
    unfold prjParO prjPar
    cases cp with
    | panic v => exact .pure _ _ _ rfl
    | _ => cases hp with
      | panic v => exact .pure _ _ _ rfl
      | _ => exact key

theorem prjApplyO_follow (h : HConfig) (now : Time) (env : Env) (s : Sys W R) :
    Follow P (Strict A P) badRes s (prjApplyO P.watch A h now env s) (prjApply A h now env s) := by
  unfold prjApplyO prjApply
  split
  · rename_i hc
    have hS : Strict A P → False := fun hS => by rw [hS.parallel] at hc; simp at hc
    dsimp only
    generalize A.uc.schedule s.w = sched
    told s (.prjCompactBegun h)
    · intro t
      dsimp only
      refine (Silent.call (c := .prjCompact h now) (s := t)
        (t := t.emit (.call (.prjCompact h now))) rfl).follow ?_
      refine (Silent.call (c := .prjHandle h env.id [] [1] env.msg)
        (t := (t.emit (.call (.prjCompact h now))).emit (.call (.prjHandle h env.id [] [1] env.msg)))
        rfl).follow ?_
      follow ((prjParO_follow (A := A) (P := P) h env sched
        (A.uc.prjHandle h env.id [] [1] env.msg env.createdAt) (A.uc.prjCompact h now)
        ((t.emit (.call (.prjCompact h now))).emit (.call (.prjHandle h env.id [] [1] env.msg)))).weaken hS)
      · rintro u (v | ⟨r, ce⟩)
        · exact .pure _ _ _ rfl
        · dsimp only
          told u (.prjCompactCompleted h ce)
          · intro t; exact .pure _ _ _ rfl
          · intro t v; exact ⟨⟨[], by simp⟩, fun _ hv => ⟨rfl, rfl, hv⟩⟩
      · intro h; exact (hS h).elim
    · intro t v; exact ⟨⟨[], by simp⟩, fun _ hv => ⟨rfl, rfl, hv⟩⟩
  · refine (Silent.call (c := .prjHandle h env.id [] [1] env.msg) (s := s)
      (t := s.emit (.call (.prjHandle h env.id [] [1] env.msg))) rfl).follow ?_
    follow ((prjRunO_follow (A := A) (P := P) h (some env)
      (A.uc.prjHandle h env.id [] [1] env.msg env.createdAt)
      (s.emit (.call (.prjHandle h env.id [] [1] env.msg)))).weaken
        (fun hS : Strict A P => ⟨hS, hS.prj ..⟩))
    · rintro t (v | e) <;> exact .pure _ _ _ rfl
    · rintro hS t v _ ⟨rfl, hv⟩
      dsimp only
      rw [enrich_other _ _ _ _ hv]
      exact ⟨rfl, rfl, hv⟩

theorem prjFinish_silent (h : HConfig) (env : Env) (r : Except Err Bool) (ce : Option Err)
    (s : Sys W R) : Silent s (prjFinish A h env r ce s).1 := by
  unfold prjFinish
  split
  · exact .refl rfl
  · exact .refl rfl
  · refine user_elim ?_
    rintro t (v | _ | e) ht <;> exact .call ht

theorem Silent.same {α : Type} {S : Prop} {bad : PanicVal → α → Prop} {s : Sys W R}
    {r : Sys W R × α} (h : Silent s r.1) : Follow P S bad s r r :=
  h.follow (.pure r.1 r.1 r.2 rfl)

theorem prjHandleO_follow (h : HConfig) (now : Time) (env : Env) (s : Sys W R) :
    Follow P (Strict A P) badRes s (prjHandleO P.watch A h now env s) (prjHandle A h now env s) := by
  unfold prjHandleO prjHandle
  split
  · exact .pure _ _ _ rfl
  · split
    · exact .pure _ _ _ rfl
    · refine user_elim ?_
      rintro t (v | e | _ | ⟨b, bs⟩) ht
      · exact (Silent.call ht).follow (.pure _ _ _ rfl)
      · exact (Silent.call ht).follow (.pure _ _ _ rfl)
      · refine (Silent.call ht).follow ?_
        dsimp only
        follow (prjApplyO_follow (A := A) (P := P) h now env t)
        · rintro t (v | ⟨r, ce⟩)
          · exact .pure _ _ _ rfl
          · exact (prjFinish_silent ..).same
        · rintro hS t v _ ⟨rfl, hv⟩
          exact ⟨rfl, rfl, hv⟩
      · exact (Silent.call ht).follow (.pure _ _ _ rfl)

theorem prjTickO_follow (h : HConfig) (now : Time) (s : Sys W R) :
    Follow P (Strict A P) badRes s (prjTickO P.watch A h now s) (prjTick A h now s) := by
  unfold prjTickO prjTick
  split
  · dsimp only
    refine (Silent.refl (s := s) (t := { s with lastCompact := upd s.lastCompact h.name now })
      rfl).follow ?_
    told { s with lastCompact := upd s.lastCompact h.name now } (.prjCompactBegun h)
    · intro t
      dsimp only
      refine (Silent.call (c := .prjCompact h now) (s := t)
        (t := t.emit (.call (.prjCompact h now))) rfl).follow ?_
      follow ((prjRunO_follow (A := A) (P := P) h none (A.uc.prjCompact h now)
        (t.emit (.call (.prjCompact h now)))).weaken (fun hS : Strict A P => ⟨hS, hS.compact ..⟩))
      · rintro u (v | e)
        · exact .pure _ _ _ rfl
        · dsimp only
          told u (.prjCompactCompleted h e)
          · intro t; exact .pure _ _ _ rfl
          · intro t v; exact ⟨⟨[], by simp⟩, fun _ hv => ⟨rfl, rfl, hv⟩⟩
      · rintro hS t v _ ⟨rfl, hv⟩
        exact ⟨rfl, rfl, hv⟩
    · intro t v; exact ⟨⟨[], by simp⟩, fun _ hv => ⟨rfl, rfl, hv⟩⟩
  · exact .pure _ _ _ rfl

/-! ## The engine -/

theorem ctlHandleO_follow (h : HConfig) (now : Time) (env : Env) (s : Sys W R) :
    Follow P (Strict A P) badRes s (ctlHandleO P.watch A h now env s) (ctlHandle A h now env s) := by
  unfold ctlHandleO ctlHandle
  cases h.htype with
  | aggregate => exact aggHandleO_follow ..
  | process => exact procHandleO_follow ..
  | integration => exact intHandleO_follow ..
  | projection => exact prjHandleO_follow ..

theorem handleOneO_follow (oo : OpOpts) (env : Env) (h : HConfig) (s : Sys W R) :
    Follow P (Strict A P) badRes s (handleOneO P.watch A oo env h s) (handleOne A oo env h s) := by
  unfold handleOneO handleOne
  cases skipHandler oo h with
  | some r =>
    dsimp only
    told s (.handlingSkipped h env r)
    · intro t; exact .pure _ _ _ rfl
    · intro t v; exact ⟨⟨[], by simp⟩, fun _ hv => ⟨rfl, rfl, hv⟩⟩
  | none =>
    dsimp only
    told s (.handlingBegun h env)
    · intro t
      dsimp only
      follow (ctlHandleO_follow (A := A) (P := P) h oo.now env t)
      · rintro u (v | ⟨envs, e⟩)
        · exact .pure _ _ _ rfl
        · dsimp only
          told u (.handlingCompleted h env e)
          · intro t; exact .pure _ _ _ rfl
          · intro t v; exact ⟨⟨[], by simp⟩, fun _ hv => ⟨rfl, rfl, hv⟩⟩
      · rintro hS t v _ ⟨rfl, hv⟩
        exact ⟨rfl, rfl, hv⟩
    · intro t v; exact ⟨⟨[], by simp⟩, fun _ hv => ⟨rfl, rfl, hv⟩⟩

theorem handleAllO_follow (oo : OpOpts) (env : Env) (hs : List HConfig) :
    ∀ (q : List Env) (de : List EngErr) (s : Sys W R),
    Follow P (Strict A P) badRes s (handleAllO P.watch A oo env hs q de s)
      (handleAll A oo env hs q de s) := by
  induction hs with
  | nil => intro q de s; exact .pure _ _ _ rfl
  | cons h hs ih =>
    intro q de s
    unfold handleAllO handleAll
    follow (handleOneO_follow (A := A) (P := P) oo env h s)
    · rintro u (v | ⟨envs, e⟩)
      · exact .pure _ _ _ rfl
      · exact ih _ _ _
    · rintro hS t v _ ⟨rfl, hv⟩
      exact ⟨rfl, rfl, hv⟩

theorem dispatchLoopO_follow (oo : OpOpts) (n : Nat) :
    ∀ (q : List Env) (errs : List EngErr) (s : Sys W R),
    Follow P (Strict A P) badOut s (dispatchLoopO P.watch A oo n q errs s)
      (dispatchLoop A oo n q errs s) := by
  induction n with
  | zero => intro q errs s; cases q <;> exact .pure _ _ _ rfl
  | succ n ih =>
    intro q errs s
    cases q with
    | nil => exact .pure _ _ _ rfl
    | cons env q =>
      unfold dispatchLoopO dispatchLoop
      cases A.targets env with
      | error v => exact .pure _ _ _ rfl
      | ok hs =>
        dsimp only
        told s (.dispatchBegun env)
        · intro t
          dsimp only
          follow (handleAllO_follow (A := A) (P := P) oo env hs q [] t)
          · rintro u (v | ⟨q, de⟩)
            · exact .pure _ _ _ rfl
            · dsimp only
              told u (.dispatchCompleted env de)
              · intro t
                dsimp only
                cases A.uc.ctxErr t.w with
                | some e => exact .pure _ _ _ rfl
                | none => exact ih _ _ _
              · intro t v; exact ⟨⟨[], by simp⟩, fun _ hv => ⟨rfl, rfl⟩⟩
          · rintro hS t v _ ⟨rfl, hv⟩
            exact ⟨rfl, rfl⟩
        · intro t v; exact ⟨⟨[], by simp⟩, fun _ hv => ⟨rfl, rfl⟩⟩

theorem procTick_trace (h : HConfig) (now : Time) (s : Sys W R) : (procTick h now s).1.trace = s.trace :=
  rfl

theorem ctlTickO_follow (h : HConfig) (now : Time) (s : Sys W R) :
    Follow P (Strict A P) badRes s (ctlTickO P.watch A h now s) (ctlTick A h now s) := by
  unfold ctlTickO ctlTick
  cases h.htype with
  | process =>
    exact (Silent.refl (t := (procTick h now s).1) (procTick_trace h now s)).follow
      (.pure _ _ _ rfl)
  | projection =>
    dsimp only
    follow (prjTickO_follow (A := A) (P := P) h now s)
    · rintro u (v | e) <;> exact .pure _ _ _ rfl
    · rintro hS t v _ ⟨rfl, hv⟩
      exact ⟨rfl, rfl, hv⟩
  | _ => exact .pure _ _ _ rfl

theorem tickAllO_follow (oo : OpOpts) (hs : List HConfig) :
    ∀ (q : List Env) (errs : List EngErr) (s : Sys W R),
    Follow P (Strict A P) badRes s (tickAllO P.watch A oo hs q errs s) (tickAll A oo hs q errs s) := by
  induction hs with
  | nil => intro q errs s; exact .pure _ _ _ rfl
  | cons h hs ih =>
    intro q errs s
    unfold tickAllO tickAll
    cases skipHandler oo h with
    | some r =>
      dsimp only
      told s (.tickSkipped h r)
      · intro t; exact ih _ _ _
      · intro t v; exact ⟨⟨[], by simp⟩, fun _ hv => ⟨rfl, rfl, hv⟩⟩
    | none =>
      dsimp only
      told s (.tickBegun h)
      · intro t
        dsimp only
        follow (ctlTickO_follow (A := A) (P := P) h oo.now t)
        · rintro u (v | ⟨envs, e⟩)
          · exact .pure _ _ _ rfl
          · dsimp only
            told u (.tickCompleted h e)
            · intro t
              dsimp only
              cases A.uc.ctxErr t.w with
              | some e => exact .pure _ _ _ rfl
              | none => exact ih _ _ _
            · intro t v; exact ⟨⟨[], by simp⟩, fun _ hv => ⟨rfl, rfl, hv⟩⟩
        · rintro hS t v _ ⟨rfl, hv⟩
          exact ⟨rfl, rfl, hv⟩
      · intro t v; exact ⟨⟨[], by simp⟩, fun _ hv => ⟨rfl, rfl, hv⟩⟩

theorem engTickLockedO_follow (oo : OpOpts) (n : Nat) (order : List HConfig) (s : Sys W R) :
    Follow P (Strict A P) badOut s (engTickLockedO P.watch A oo n order s)
      (engTickLocked A oo n order s) := by
  unfold engTickLockedO engTickLocked
  follow (tickAllO_follow (A := A) (P := P) oo order [] [] s)
  · rintro u (v | ⟨q, errs, _ | c⟩)
    · exact .pure _ _ _ rfl
    · dsimp only
      follow (dispatchLoopO_follow (A := A) (P := P) oo n q [] u)
      · rintro t (derrs | v | _) <;> exact .pure _ _ _ rfl
      · rintro hS t v _ rfl
        exact ⟨rfl, rfl⟩
    · exact .pure _ _ _ rfl
  · rintro hS t v _ ⟨rfl, hv⟩
    exact ⟨rfl, rfl⟩

theorem finishO_follow (f : Fact) (errs : List EngErr) (s : Sys W R) :
    Follow P (Strict A P) badOut s (finishO P.watch f errs s) (s.notify f, .done errs) := by
  unfold finishO
  told s f
  · intro t; exact .pure _ _ _ rfl
  · intro t v; exact ⟨⟨[], by simp⟩, fun _ hv => ⟨rfl, rfl⟩⟩

theorem engTickO_follow (n : Nat) (order : List HConfig) (os : List OpOption) (s : Sys W R) :
    Follow P (Strict A P) badOut s (engTickO P.watch A n order os s) (engTick A n order os s) := by
  unfold engTickO engTick
  cases newOpOpts A s os with
  | error v => exact .pure _ _ _ rfl
  | ok oo =>
    dsimp only
    told s (.tickCycleBegun (oo.cycle A))
    · intro t
      dsimp only
      cases A.uc.lockErr t.w with
      | some e => exact finishO_follow ..
      | none =>
        dsimp only
        follow (engTickLockedO_follow (A := A) (P := P) oo n order t)
        · rintro u (errs | v | _)
          · exact finishO_follow ..
          · exact .pure _ _ _ rfl
          · exact .pure _ _ _ rfl
        · rintro hS t v _ rfl
          exact ⟨rfl, rfl⟩
    · intro t v; exact ⟨⟨[], by simp⟩, fun _ hv => ⟨rfl, rfl⟩⟩

theorem engDispatchO_follow (n : Nat) (m : Message) (os : List OpOption) (s : Sys W R) :
    Follow P (Strict A P) badOut s (engDispatchO P.watch A n m os s) (engDispatch A n m os s) := by
  unfold engDispatchO engDispatch
  dsimp only
  refine (Silent.refl (s := s) (t := { s with nextID := s.nextID + 1 }) rfl).follow ?_
  generalize ({ s with nextID := s.nextID + 1 } : Sys W R) = s
  cases newOpOpts A s os with
  | error v => exact .pure _ _ _ rfl
  | ok oo =>
    dsimp only
    split
    · exact .pure _ _ _ rfl
    · cases m.invalid with
      | some e => exact .pure _ _ _ rfl
      | none =>
        dsimp only
        split
        · exact .pure _ _ _ rfl
        · generalize Env.root _ m oo.now = env
          told s (.dispatchCycleBegun env (oo.cycle A))
          · intro t
            dsimp only
            cases A.uc.lockErr t.w with
            | some e => exact finishO_follow ..
            | none =>
              dsimp only
              follow (dispatchLoopO_follow (A := A) (P := P) oo n [env] [] t)
              · rintro u (errs | v | _)
                · exact finishO_follow ..
                · exact .pure _ _ _ rfl
                · exact .pure _ _ _ rfl
              · rintro hS t v _ rfl
                exact ⟨rfl, rfl⟩
          · intro t v; exact ⟨⟨[], by simp⟩, fun _ hv => ⟨rfl, rfl⟩⟩

theorem runResetters_silent (l : List (W → W × Option PanicVal)) : ∀ (i : Nat) (s : Sys W R),
    Silent s (runResetters i l s).1 := by
  induction l with
  | nil => intro i s; exact .refl rfl
  | cons f fs ih =>
    intro i s
    unfold runResetters
    refine user_elim ?_
    rintro t (_ | v) ht
    · exact (Silent.call ht).trans (ih (i + 1) t)
    · exact .call ht

theorem engReset_silent (s : Sys W R) : Silent s (engReset A s).1 := by
  unfold engReset
  exact Silent.trans (t := { s.emit .reset with
      nextID := 0, agg := fun _ _ => none, proc := fun _ => ⟨fun _ => none, []⟩ })
    ⟨[.reset], by simp, rfl⟩ (runResetters_silent ..)

/-- Every operation. -/
theorem Op.execO_follow (op : Op) (s : Sys W R) :
    Follow P (Strict A P) badOut s (op.execO P.watch A s) (op.exec A s) := by
  cases op with
  | dispatch n m os => exact engDispatchO_follow ..
  | tick n order os => exact engTickO_follow ..
  | reset => exact (engReset_silent s).same

end Verif
