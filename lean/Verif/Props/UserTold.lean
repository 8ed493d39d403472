import Verif.Props.UserAction
import Verif.Frame

/-!
# What predicates see of actions written by users (C92)
-/

namespace Verif

variable {W R : Type}

/-! ## Specification -/

/-- Options that register no observers. -/
def quiet (os : List OpOption) : Prop := os.filterMap OpOption.observerOf = []

/-- The options that an action was given, with more options that register no observers. -/
def handsOn (os os' : List OpOption) : Prop := ∃ more, quiet more ∧ os' = os ++ more

/-- The call hands the options of the action on. -/
def EngCall.handsOn (os : List OpOption) : EngCall → Prop
  | .dispatch _ os' => Verif.handsOn os os'
  | .tick os' => Verif.handsOn os os'
  | .reset => True

/-- The program performs no further actions. -/
def AProg.Alone : AProg W → Prop
  | .ret _ => True
  | .panic _ => True
  | .get k => ∀ w, (k w).Alone
  | .set _ k => k.Alone
  | .clock k => ∀ c, (k c).Alone
  | .setClock _ k => k.Alone
  | .op _ k => ∀ r, (k r).Alone
  | .bind _ k => k.Alone
  | .unbind k => k.Alone
  | .intercept _ k => ∀ p, (k p).Alone
  | .exec _ k => ∀ r, (k r).Alone
  | .prepare .. => False
  | .expect .. => False

mutual
/-- The action, and all actions that it performs, use no options but those that they are given,
and more options that register no observers.  (What an action performs with `Expect()` has another
predicate than `k`.) -/
def UAction.Proper (k : Nat) : UAction W → Prop
  | .mk _ _ act => ∀ os, (act os).Proper k os
/-- The same for a program that was given the options `os`. -/
def AProg.Proper (k : Nat) : AProg W → List OpOption → Prop
  | .ret _, _ => True
  | .panic _, _ => True
  | .get f, os => ∀ w, (f w).Proper k os
  | .set _ f, os => f.Proper k os
  | .clock f, os => ∀ c, (f c).Proper k os
  | .setClock _ f, os => f.Proper k os
  | .op c f, os => c.handsOn os ∧ ∀ r, (f r).Proper k os
  | .bind os' f, os => handsOn os os' ∧ f.Proper k os
  | .unbind f, os => f.Proper k os
  | .intercept _ f, os => ∀ p, (f p).Proper k os
  | .exec _ f, os => ∀ r, (f r).Proper k os
  | .prepare a f, os => a.Proper k ∧ ∀ r, (f r).Proper k os
  | .expect _ o a f, os => (o ≠ k ∧ a.Proper k) ∧ ∀ r, (f r).Proper k os
end

/-! ## Proofs -/

theorem quiet_regs {os : List OpOption} (h : quiet os) (k : Nat) : regs k os = [] := by
  unfold regs
  rw [show os.filterMap OpOption.observerOf = [] from h]
  rfl

theorem runResetters_facts (fs : List (W → W × Option PanicVal)) : ∀ (i : Nat) (s : Sys W R),
    ∃ seg, (runResetters i fs s).1.trace = s.trace ++ seg ∧ factsOf seg = [] := by
  induction fs with
  | nil => intro i s; exact ⟨[], by simp [runResetters], rfl⟩
  | cons f fs ih =>
    intro i s
    unfold runResetters
    have h1 : (s.user (.resetter i) f).1.trace = s.trace ++ [.call (.resetter i)] := rfl
    rcases hx : s.user (.resetter i) f with ⟨s1, _ | v⟩
    · rw [hx] at h1
      obtain ⟨seg, h2, h3⟩ := ih (i + 1) s1
      refine ⟨[.call (.resetter i)] ++ seg, ?_, ?_⟩
      · simp only; rw [h2, show s1.trace = _ from h1, List.append_assoc]
      · rw [factsOf_append, h3]; rfl
    · rw [hx] at h1
      exact ⟨_, h1, rfl⟩

theorem reset_facts (A : App W R) (s : Sys W R) : factsOf (during s (engReset A s).1) = [] := by
  unfold engReset
  obtain ⟨seg, h1, h2⟩ := runResetters_facts A.uc.resetters 0
    { s.emit .reset with nextID := 0, agg := fun _ _ => none, proc := fun _ => ⟨fun _ => none, []⟩ }
  have h3 : during s (runResetters 0 A.uc.resetters
    { s.emit .reset with
      nextID := 0, agg := fun _ _ => none, proc := fun _ => ⟨fun _ => none, []⟩ }).1 =
      [.reset] ++ seg := by
    refine during_seg ?_
    rw [h1]
    simp [Sys.emit]
  rw [h3, factsOf_append, h2]
  rfl

/-- All engine operations in a record have options with property `p`, except for resets. -/
def allOptsU (p : List OpOption → Prop) (l : List TObs) : Prop :=
  ∀ c op f, TObs.engine c op f ∈ l → p op.opts ∨ f = []

theorem allOptsU.append {p : List OpOption → Prop} {l l' : List TObs} (h : allOptsU p l)
    (g : allOptsU p l') : allOptsU p (l ++ l') := by
  intro c op f hm
  rcases List.mem_append.1 hm with hm | hm
  · exact h c op f hm
  · exact g c op f hm

theorem allOptsU_said {p : List OpOption → Prop} {l : List TObs} (h : ∀ y ∈ l, y.isSaid = true) :
    allOptsU p l := by
  intro c op f hm
  cases h _ hm

theorem allOptsU_exec {p : List OpOption → Prop} {m : Message} {b : Bool} : allOptsU p [.exec m b] := by
  intro c op f hm
  cases List.mem_singleton.1 hm

theorem toldU_all {k : Nat} {l : List TObs} (h : allOptsU (fun os => regs k os = [k]) l) :
    toldIn k l = factsOfRecord l := by
  induction l with
  | nil => rfl
  | cons x l ih =>
    have hl := ih (fun c op f hm => h c op f (by simp [hm]))
    unfold toldIn factsOfRecord at hl ⊢
    rw [List.flatMap_cons, List.flatMap_cons, hl]
    cases x with
    | exec => rfl
    | log => rfl
    | fatal => rfl
    | failNow => rfl
    | engine c op facts =>
      rcases h c op facts (by simp) with h1 | h1
      · unfold regs at h1
        simp only [TObs.told]
        rw [h1]
        simp
      · subst h1; rfl

theorem toldU_none {k : Nat} {l : List TObs} (h : allOptsU (fun os => regs k os = []) l) :
    toldIn k l = [] := by
  unfold toldIn
  rw [List.flatMap_eq_nil_iff]
  intro x hx
  cases x with
  | exec => rfl
  | log => rfl
  | fatal => rfl
  | failNow => rfl
  | engine c op facts =>
    rcases h c op facts hx with h1 | h1
    · unfold regs at h1
      simp only [TObs.told]
      rw [h1]
      simp
    · subst h1; rfl

/-- From `t` to `t'`: nothing but operations with options with property `q`; the executor is bound
to such options, if it was. -/
structure TSt.Thru (q : List OpOption → Prop) (t t' : TSt W R) : Prop where
  did : ∃ l, t'.did = t.did ++ l ∧ allOptsU q l
  opts : t'.opts = t.opts
  bound : (∀ os, t.bound = some os → q os) → ∀ os, t'.bound = some os → q os

theorem TSt.Thru.refl (q : List OpOption → Prop) (t : TSt W R) : t.Thru q t :=
  ⟨⟨[], by simp, nofun⟩, rfl, id⟩

theorem TSt.Thru.trans {q : List OpOption → Prop} {a b c : TSt W R} (h : a.Thru q b)
    (g : b.Thru q c) : a.Thru q c := by
  obtain ⟨l, h1, h2⟩ := h.did
  obtain ⟨l', g1, g2⟩ := g.did
  exact ⟨⟨l ++ l', by rw [g1, h1, List.append_assoc], h2.append g2⟩, g.opts.trans h.opts,
    fun hb => g.bound (h.bound hb)⟩

theorem TSt.said_thru (q : List OpOption → Prop) (t : TSt W R) {l : List TObs}
    (h : ∀ y ∈ l, y.isSaid = true) : t.Thru q { t with did := t.did ++ l } :=
  ⟨⟨l, rfl, allOptsU_said h⟩, rfl, id⟩

theorem TSt.engine_thru {q : List OpOption → Prop} (A : App W R) (t : TSt W R) (op : Op)
    (h : q op.opts ∨ op = .reset) : t.Thru q (t.engine A op).1 := by
  refine ⟨⟨[.engine t.clock op (factsOf (during t.sys (op.exec A t.sys).1))], rfl, ?_⟩, rfl, id⟩
  intro c op' f hm
  cases List.mem_singleton.1 hm
  rcases h with h | rfl
  · exact .inl h
  · exact .inr (reset_facts A t.sys)

theorem IProg.run_thru {q : List OpOption → Prop} (A : App W R) (E : TEnv W) (os : List OpOption)
    (hq : q os) (p : IProg W) : ∀ t : TSt W R, t.Thru q (p.run A E os t).1 := by
  induction p with
  | ret e => intro t; exact .refl q t
  | panic v => intro t; exact .refl q t
  | get k ih => intro t; exact ih _ t
  | set w k ih =>
    intro t
    have := ih { t with sys := { t.sys with w := w } }
    exact ⟨this.did, this.opts, this.bound⟩
  | next m k ih =>
    intro t
    have h := t.engine_thru (q := q) A (.dispatch E.fuel m os) (.inl hq)
    unfold IProg.run
    rcases hx : t.engine A (.dispatch E.fuel m os) with ⟨t1, o⟩
    rw [hx] at h
    cases o with
    | done e => exact h.trans (ih _ t1)
    | panicked v => exact h.trans (ih _ t1)
    | running => exact h

theorem TSt.execute_thru {q : List OpOption → Prop} (A : App W R) (E : TEnv W) (t : TSt W R)
    (m : Message) (hb : ∀ os, t.bound = some os → q os) : t.Thru q (t.execute A E m).1 := by
  have h0 : t.Thru q { t with did := t.did ++ [TObs.exec m t.bound.isSome] } :=
    ⟨⟨[.exec m t.bound.isSome], rfl, allOptsU_exec⟩, rfl, id⟩
  unfold TSt.execute
  simp only
  split
  · exact h0
  · rename_i os he
    have hq := hb os he
    split
    · exact h0.trans (IProg.run_thru A E os hq _ _)
    · exact h0.trans (TSt.engine_thru A _ _ (.inl hq))

theorem TSt.check_thru {q : List OpOption → Prop} (E : TEnv W) {t : TSt W R}
    {r : TSt W R × Outcome (Option TErr)} (h : t.Thru q r.1) : t.Thru q (TSt.check E r).1 := by
  obtain ⟨post, hs, e, -⟩ := TSt.check_spec E r
  rw [e]
  exact h.trans (TSt.said_thru q _ hs)

theorem TSt.preparing_thru {q : List OpOption → Prop} (E : TEnv W) (cap : Except PanicVal String)
    (act : TSt W R → TSt W R × Outcome (Option TErr)) (t : TSt W R)
    (h : ∀ o : TObs, o.isSaid = true → (t.say o).Thru q (act (t.say o)).1) :
    t.Thru q (t.preparing E cap act).1 := by
  unfold TSt.preparing
  rcases cap with v | c
  · exact .refl q t
  · exact TSt.check_thru E ((t.said_thru q (by simp [TObs.isSaid])).trans (h (.log _) rfl))

theorem TSt.judge_thru {q : List OpOption → Prop} (j : Judge) (o : Nat) (t : TSt W R)
    (r : TSt W R × Outcome (Option TErr)) (h : t.Thru q r.1) : t.Thru q (t.judge j o r).1 := by
  obtain ⟨fs, tl, -, -, -, ⟨l, hl, e⟩, -⟩ := judge_cases (t' := (t.judge j o r).1)
    (calls := (t.judge j o r).2.1) (e := (t.judge j o r).2.2) j o t r rfl
  rw [e]
  exact h.trans (TSt.said_thru q _ hl)

theorem TSt.expecting_thru {q : List OpOption → Prop} (S : PScope) (x : Expected) (o : Nat)
    (cap : Except PanicVal String) (conf : PredOpts → Except PanicVal PredOpts)
    (act : List OpOption → TSt W R → TSt W R × Outcome (Option TErr)) (t : TSt W R)
    (h : ∀ y : TObs, y.isSaid = true → (t.say y).Thru q (act [.observer o] (t.say y)).1) :
    t.Thru q (t.expecting S x o cap conf act).1 := by
  unfold TSt.expecting
  rcases conf S.opts with v | po
  · exact .refl q t
  rcases cap with v | c
  · exact .refl q t
  rcases x.caption with v | c'
  · exact .refl q t
  simp only
  have h0 : t.Thru q (t.say (.log ("--- expect " ++ c ++ " " ++ c' ++ " ---"))) :=
    t.said_thru q (by simp [TObs.isSaid])
  rcases x.build { S with opts := po } with j | m | v
  · exact h0.trans (TSt.judge_thru j o _ _ (h _ rfl))
  · exact h0.trans (TSt.said_thru q _ (by simp [TObs.isSaid]))
  · exact h0

/-- A property of options that actions keep when they hand options on. -/
def keepsOn (q : List OpOption → Prop) : Prop := ∀ os os', handsOn os os' → q os → q os'

theorem EngCall.handsOn_op {q : List OpOption → Prop} (hq : keepsOn q) (E : TEnv W) (w : W)
    {os : List OpOption} (h : q os) (c : EngCall) (hc : c.handsOn os) :
    q (c.op E w).opts ∨ c.op E w = .reset := by
  cases c with
  | dispatch m os' => exact .inl (hq os os' hc h)
  | tick os' => exact .inl (hq os os' hc h)
  | reset => exact .inr rfl

mutual
theorem UAction.run_thru (A : App W R) (E : UEnv W) (k : Nat) {q : List OpOption → Prop}
    (hq : keepsOn q) : (a : UAction W) → a.Proper k → ∀ (extra : List OpOption) (t : TSt W R),
      (∀ os, t.bound = some os → q os) → q (t.actOpts extra) →
      (∀ c, q (.currentTime c :: t.opts)) →
      (∀ c o, o ≠ k → q (.currentTime c :: t.opts ++ [.observer o])) →
      t.Thru q (a.run A E extra t).1
  | .mk c f act, ha, extra, t, hb, h1, h2, h3 => by
    simp only [UAction.run]
    simp only [UAction.Proper] at ha
    exact (act _).run_thru A E k hq _ (ha _) t hb h1 h2 h3
theorem AProg.run_thru (A : App W R) (E : UEnv W) (k : Nat) {q : List OpOption → Prop}
    (hq : keepsOn q) : (p : AProg W) → ∀ os, p.Proper k os → ∀ t : TSt W R,
      (∀ os, t.bound = some os → q os) → q os → (∀ c, q (.currentTime c :: t.opts)) →
      (∀ c o, o ≠ k → q (.currentTime c :: t.opts ++ [.observer o])) →
      t.Thru q (p.run A E t).1
  | .ret e, os, _, t, _, _, _, _ => by simp only [AProg.run]; exact .refl q t
  | .panic v, os, _, t, _, _, _, _ => by simp only [AProg.run]; exact .refl q t
  | .get f, os, hp, t, hb, h1, h2, h3 => by
    simp only [AProg.run]
    simp only [AProg.Proper] at hp
    exact (f _).run_thru A E k hq os (hp _) t hb h1 h2 h3
  | .set w f, os, hp, t, hb, h1, h2, h3 => by
    simp only [AProg.run]
    simp only [AProg.Proper] at hp
    have := f.run_thru A E k hq os hp { t with sys := { t.sys with w := w } } hb h1 h2 h3
    exact ⟨this.did, this.opts, this.bound⟩
  | .clock f, os, hp, t, hb, h1, h2, h3 => by
    simp only [AProg.run]
    simp only [AProg.Proper] at hp
    exact (f _).run_thru A E k hq os (hp _) t hb h1 h2 h3
  | .setClock c f, os, hp, t, hb, h1, h2, h3 => by
    simp only [AProg.run]
    simp only [AProg.Proper] at hp
    have := f.run_thru A E k hq os hp { t with clock := c } hb h1 h2 h3
    exact ⟨this.did, this.opts, this.bound⟩
  | .op c f, os, hp, t, hb, h1, h2, h3 => by
    simp only [AProg.run]
    simp only [AProg.Proper] at hp
    have h := t.engine_thru A (c.op E.toTEnv t.sys.w)
      (c.handsOn_op hq E.toTEnv t.sys.w h1 hp.1)
    rcases hx : t.engine A (c.op E.toTEnv t.sys.w) with ⟨t1, o⟩
    rw [hx] at h
    have go : ∀ r, t.Thru q ((f r).run A E t1).1 := fun r =>
      h.trans ((f r).run_thru A E k hq os (hp.2 r) t1 (h.bound hb) h1
        (by rw [h.opts]; exact h2) (by rw [h.opts]; exact h3))
    cases o with
    | done e => exact go _
    | panicked v => exact go _
    | running => exact h
  | .bind os' f, os, hp, t, hb, h1, h2, h3 => by
    simp only [AProg.run]
    simp only [AProg.Proper] at hp
    have hb' : ∀ x, some os' = some x → q x := by
      intro x hx; cases hx; exact hq os os' hp.1 h1
    have := f.run_thru A E k hq os hp.2 { t with bound := some os' } hb' h1 h2 h3
    exact ⟨this.did, this.opts, fun _ => this.bound hb'⟩
  | .unbind f, os, hp, t, hb, h1, h2, h3 => by
    simp only [AProg.run]
    simp only [AProg.Proper] at hp
    have := f.run_thru A E k hq os hp { t with bound := none } nofun h1 h2 h3
    exact ⟨this.did, this.opts, fun _ => this.bound nofun⟩
  | .intercept g f, os, hp, t, hb, h1, h2, h3 => by
    simp only [AProg.run]
    simp only [AProg.Proper] at hp
    have := (f t.icept).run_thru A E k hq os (hp _) { t with icept := g } hb h1 h2 h3
    exact ⟨this.did, this.opts, this.bound⟩
  | .exec m f, os, hp, t, hb, h1, h2, h3 => by
    simp only [AProg.run]
    simp only [AProg.Proper] at hp
    have h := t.execute_thru A E.toTEnv m hb
    rcases hx : t.execute A E.toTEnv m with ⟨t1, o⟩
    rw [hx] at h
    have go : ∀ r, t.Thru q ((f r).run A E t1).1 := fun r =>
      h.trans ((f r).run_thru A E k hq os (hp r) t1 (h.bound hb) h1
        (by rw [h.opts]; exact h2) (by rw [h.opts]; exact h3))
    cases o with
    | done e => exact go _
    | panicked v => exact go _
    | running => exact h
  | .prepare a f, os, hp, t, hb, h1, h2, h3 => by
    simp only [AProg.run]
    simp only [AProg.Proper] at hp
    have h := t.preparing_thru (q := q) E.toTEnv a.caption (a.run A E [])
      (fun y _ => a.run_thru A E k hq hp.1 [] (t.say y) hb
        (by unfold TSt.actOpts; rw [List.append_nil]; exact h2 _) h2 h3)
    rcases hx : t.preparing E.toTEnv a.caption (a.run A E []) with ⟨t1, o⟩
    rw [hx] at h
    have go : ∀ r, t.Thru q ((f r).run A E t1).1 := fun r =>
      h.trans ((f r).run_thru A E k hq os (hp.2 r) t1 (h.bound hb) h1
        (by rw [h.opts]; exact h2) (by rw [h.opts]; exact h3))
    cases o with
    | done e => exact go _
    | panicked v => exact go _
    | running => exact h
  | .expect x o a f, os, hp, t, hb, h1, h2, h3 => by
    simp only [AProg.run]
    simp only [AProg.Proper] at hp
    have h := t.expecting_thru (q := q) E.scope x o a.caption a.configure (fun os => a.run A E os)
      (fun y _ => a.run_thru A E k hq hp.1.2 [.observer o] (t.say y) hb (h3 _ o hp.1.1) h2 h3)
    rcases hx : t.expecting E.scope x o a.caption a.configure (fun os => a.run A E os) with ⟨t1, cs, e⟩
    rw [hx] at h
    simp only
    rcases e.back E.toTEnv with _ | r
    · exact h
    · exact h.trans ((f r).run_thru A E k hq os (hp.2 r) t1 (h.bound hb) h1
        (by rw [h.opts]; exact h2) (by rw [h.opts]; exact h3))
end

theorem AProg.alone_thru (A : App W R) (E : UEnv W) (k : Nat) {q : List OpOption → Prop}
    (hq : keepsOn q) : (p : AProg W) → p.Alone → ∀ os, p.Proper k os → ∀ t : TSt W R,
      (∀ os, t.bound = some os → q os) → q os → t.Thru q (p.run A E t).1
  | .ret e, _, os, _, t, _, _ => by simp only [AProg.run]; exact .refl q t
  | .panic v, _, os, _, t, _, _ => by simp only [AProg.run]; exact .refl q t
  | .get f, ha, os, hp, t, hb, h1 => by
    simp only [AProg.run]
    simp only [AProg.Proper] at hp
    simp only [AProg.Alone] at ha
    exact (f _).alone_thru A E k hq (ha _) os (hp _) t hb h1
  | .set w f, ha, os, hp, t, hb, h1 => by
    simp only [AProg.run]
    simp only [AProg.Proper] at hp
    simp only [AProg.Alone] at ha
    have := f.alone_thru A E k hq ha os hp { t with sys := { t.sys with w := w } } hb h1
    exact ⟨this.did, this.opts, this.bound⟩
  | .clock f, ha, os, hp, t, hb, h1 => by
    simp only [AProg.run]
    simp only [AProg.Proper] at hp
    simp only [AProg.Alone] at ha
    exact (f _).alone_thru A E k hq (ha _) os (hp _) t hb h1
  | .setClock c f, ha, os, hp, t, hb, h1 => by
    simp only [AProg.run]
    simp only [AProg.Proper] at hp
    simp only [AProg.Alone] at ha
    have := f.alone_thru A E k hq ha os hp { t with clock := c } hb h1
    exact ⟨this.did, this.opts, this.bound⟩
  | .op c f, ha, os, hp, t, hb, h1 => by
    simp only [AProg.run]
    simp only [AProg.Proper] at hp
    simp only [AProg.Alone] at ha
    have h := t.engine_thru A (c.op E.toTEnv t.sys.w)
      (c.handsOn_op hq E.toTEnv t.sys.w h1 hp.1)
    rcases hx : t.engine A (c.op E.toTEnv t.sys.w) with ⟨t1, o⟩
    rw [hx] at h
    have go : ∀ r, t.Thru q ((f r).run A E t1).1 := fun r =>
      h.trans ((f r).alone_thru A E k hq (ha r) os (hp.2 r) t1 (h.bound hb) h1)
    cases o with
    | done e => exact go _
    | panicked v => exact go _
    | running => exact h
  | .bind os' f, ha, os, hp, t, hb, h1 => by
    simp only [AProg.run]
    simp only [AProg.Proper] at hp
    simp only [AProg.Alone] at ha
    have hb' : ∀ x, some os' = some x → q x := by
      intro x hx; cases hx; exact hq os os' hp.1 h1
    have := f.alone_thru A E k hq ha os hp.2 { t with bound := some os' } hb' h1
    exact ⟨this.did, this.opts, fun _ => this.bound hb'⟩
  | .unbind f, ha, os, hp, t, hb, h1 => by
    simp only [AProg.run]
    simp only [AProg.Proper] at hp
    simp only [AProg.Alone] at ha
    have := f.alone_thru A E k hq ha os hp { t with bound := none } nofun h1
    exact ⟨this.did, this.opts, fun _ => this.bound nofun⟩
  | .intercept g f, ha, os, hp, t, hb, h1 => by
    simp only [AProg.run]
    simp only [AProg.Proper] at hp
    simp only [AProg.Alone] at ha
    have := (f t.icept).alone_thru A E k hq (ha _) os (hp _) { t with icept := g } hb h1
    exact ⟨this.did, this.opts, this.bound⟩
  | .exec m f, ha, os, hp, t, hb, h1 => by
    simp only [AProg.run]
    simp only [AProg.Proper] at hp
    simp only [AProg.Alone] at ha
    have h := t.execute_thru A E.toTEnv m hb
    rcases hx : t.execute A E.toTEnv m with ⟨t1, o⟩
    rw [hx] at h
    have go : ∀ r, t.Thru q ((f r).run A E t1).1 := fun r =>
      h.trans ((f r).alone_thru A E k hq (ha r) os (hp r) t1 (h.bound hb) h1)
    cases o with
    | done e => exact go _
    | panicked v => exact go _
    | running => exact h
  | .prepare .., ha, _, _, _, _, _ => by simp only [AProg.Alone] at ha
  | .expect .., ha, _, _, _, _, _ => by simp only [AProg.Alone] at ha

theorem factsOfRecord_said {l : List TObs} (h : ∀ y ∈ l, y.isSaid = true) :
    factsOfRecord l = [] := by
  unfold factsOfRecord
  rw [List.flatMap_eq_nil_iff]
  intro y hy
  have := h y hy
  cases y <;> first | rfl | cases this

theorem keepsOn_regs (k : Nat) (l : List Nat) : keepsOn (fun os => regs k os = l) := by
  rintro os _ ⟨more, hm, rfl⟩ h
  rw [regs_append, h, quiet_regs hm, List.append_nil]

/-! ## Properties -/

/-- The action performs no further actions. -/
def UAction.Alone (a : UAction W) : Prop := ∀ os, (a.act os).Alone

/-- **C92.** The predicate of an `Expect()` with an action of the user's own, which hands the options
of its scope on to whatever it does with the engine and the executor, and which performs no further
actions, is told exactly the facts of what the action does, once each and in order. -/
theorem C92_own (A : App W R) (E : UEnv W) (x : Expected) (o : Nat) (a : UAction W)
    (hp : a.Proper o) (ha : a.Alone) (t : TSt W R) (hk : t.fresh o) (hb : t.bound = none)
    {t' : TSt W R} {calls : List ECall} {e : EEnd} (h : t.expectU A E x o a = (t', calls, e)) :
    ∃ l, t'.did = t.did ++ l ∧ notified calls = factsOfRecord l := by
  rcases expectU_cases A E x o a t h with ⟨-, hc, ⟨l, hl, rfl⟩, -⟩ | ⟨j, c, -, -, h⟩
  · refine ⟨l, rfl, ?_⟩
    rw [factsOfRecord_said hl]
    rcases hc with rfl | rfl <;> rfl
  · obtain ⟨fs, tl, hf, -, hn, ⟨l', hl', rfl⟩, -⟩ := judge_cases j o _ _ h
    rw [hn]
    obtain ⟨cap, conf, act⟩ := a
    simp only [UAction.Proper] at hp
    have hq : regs o ((t.say (.log c)).actOpts [.observer o]) = [o] := by
      unfold TSt.actOpts
      rw [List.cons_append, regs_time, regs_append, show regs o (t.say (.log c)).opts = [] from hk]
      simp [regs, OpOption.observerOf]
    have hrun := (act _).alone_thru A E o (keepsOn_regs o [o]) (ha _) _ (hp _) (t.say (.log c))
      (by intro os h; rw [show (t.say (.log c)).bound = t.bound from rfl, hb] at h; cases h) hq
    simp only [UAction.run] at hf ⊢
    obtain ⟨l, h1, h2⟩ := hrun.did
    rw [h1, List.drop_left, toldU_all h2] at hf
    refine ⟨.log c :: l ++ l', ?_, ?_⟩
    · show (AProg.run A E _ _).1.did ++ l' = _
      rw [h1]
      simp [TSt.say]
    · rw [hf]
      have := factsOfRecord_said hl'
      unfold factsOfRecord at this ⊢
      rw [List.flatMap_append, this, List.append_nil, List.flatMap_cons]
      rfl

/-- **C92.** No other action, with whatever other observers, earlier or later, with whatever actions
that it performs itself, tells the predicate anything. -/
theorem C92_others (A : App W R) (E : UEnv W) (k : Nat) (a : UAction W) (hp : a.Proper k)
    (t : TSt W R) (hk : t.fresh k) (hb : ∀ os, t.bound = some os → regs k os = []) :
    (∃ l, (t.prepareU A E a).1.did = t.did ++ l ∧ toldIn k l = []) ∧
    ∀ x o, o ≠ k → ∃ l, (t.expectU A E x o a).1.did = t.did ++ l ∧ toldIn k l = [] := by
  have h1 : ∀ c, regs k (.currentTime c :: t.opts) = [] := fun c => by rw [regs_time]; exact hk
  have h2 : ∀ c o, o ≠ k → regs k (.currentTime c :: t.opts ++ [.observer o]) = [] := by
    intro c o ho
    rw [List.cons_append, regs_time, regs_append, hk]
    simp [regs, OpOption.observerOf, ho]
  constructor
  · obtain ⟨l, e, hl⟩ := (t.preparing_thru (q := fun os => regs k os = []) E.toTEnv a.caption
      (a.run A E []) (fun y _ => a.run_thru A E k (keepsOn_regs k []) hp [] (t.say y) hb
        (by unfold TSt.actOpts; rw [List.append_nil]; exact h1 _) h1 h2)).did
    exact ⟨l, e, toldU_none hl⟩
  · intro x o ho
    obtain ⟨l, e, hl⟩ := (t.expecting_thru (q := fun os => regs k os = []) E.scope x o a.caption
      a.configure (fun os => a.run A E os)
      (fun y _ => a.run_thru A E k (keepsOn_regs k []) hp [.observer o] (t.say y) hb
        (h2 _ o ho) h1 h2)).did
    exact ⟨l, e, toldU_none hl⟩

/-! ## Examples -/

theorem Demo.mine_proper (k : Nat) : Demo.mine.Proper k := by
  unfold Demo.mine
  simp only [UAction.Proper, AProg.Proper]
  refine fun os => ⟨⟨[], rfl, by simp⟩, fun _ => ⟨⟨[.enableType .aggregate true], rfl, rfl⟩, fun _ =>
    ⟨⟨[], rfl, by simp⟩, fun r => ⟨trivial, fun _ => ?_⟩⟩⟩⟩
  cases r <;> simp only [AProg.ofRes, AProg.Proper]

theorem Demo.mine_alone : Demo.mine.Alone := by
  intro os _ _ r _
  cases r <;> trivial

/-- The number of facts that a predicate is told of in the `Expect()` with the action. -/
def Demo.toldCount (a : UAction Nat) (t : TSt Nat (List String)) : Nat :=
  (notified (t.expectU Demo.app Demo.uenv (Demo.expected (.type Demo.evtE)) 7 a).2.1).length

/-- The number of facts of the operations in the `Expect()` with the action. -/
def Demo.factCount (a : UAction Nat) (t : TSt Nat (List String)) : Nat :=
  (factsOfRecord ((t.expectU Demo.app Demo.uenv (Demo.expected (.type Demo.evtE)) 7 a).1.did.drop
    t.did.length)).length

set_option maxRecDepth 100000 in
example : Demo.mine.Proper 7 ∧ Demo.mine.Alone ∧ Demo.t0.fresh 7 ∧ Demo.t0.bound = none ∧
    Demo.toldCount Demo.mine Demo.t0 = 69 ∧ Demo.factCount Demo.mine Demo.t0 = 69 :=
  ⟨Demo.mine_proper 7, Demo.mine_alone, rfl, rfl, by decide +kernel, by decide +kernel⟩

/-- Does not hand its options on. -/
def Demo.careless : UAction Nat := .mk (.ok "forgetting the options") .ok fun _ =>
  .op (.dispatch (Demo.msgC "x") [.currentTime 100]) .ofRes

/-- Leaves the executor bound. -/
def Demo.leaky : UAction Nat := .mk (.ok "leaving the executor bound") .ok fun os =>
  .bind os (.ret none)

/-- Uses the executor as it is. -/
def Demo.borrow : UAction Nat := .mk (.ok "using the executor") .ok fun _ =>
  .exec (Demo.msgC "x") .ofRes

set_option maxRecDepth 100000 in
/-- **C92.** All conditions are needed: an action that does not hand the options of its scope on hides
the facts from the predicate, and so does one that uses an executor that was left bound by an earlier
action; that one tells the earlier predicate. -/
theorem C92_needed_fails :
    Demo.toldCount Demo.careless Demo.t0 = 0 ∧ Demo.factCount Demo.careless Demo.t0 = 49 ∧
    let t := (Demo.t0.expectU Demo.app Demo.uenv (Demo.expected (.type Demo.evtE)) 6 Demo.leaky).1
    Demo.borrow.Proper 7 ∧ Demo.borrow.Alone ∧ t.fresh 7 ∧ t.bound ≠ none ∧
    Demo.toldCount Demo.borrow t = 0 ∧ Demo.factCount Demo.borrow t = 31 ∧
    (toldIn 6 (t.prepareU Demo.app Demo.uenv Demo.borrow).1.did).length = 31 := by
  refine ⟨by decide +kernel, by decide +kernel, ?_, ?_, by unfold TSt.fresh; decide +kernel, by decide +kernel, by decide +kernel, by decide +kernel, by decide +kernel⟩
  · unfold Demo.borrow
    simp only [UAction.Proper, AProg.Proper]
    intro os r
    cases r <;> simp only [AProg.ofRes, AProg.Proper]
  · intro os r
    cases r <;> trivial

end Verif
