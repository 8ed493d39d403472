import Verif.Props.Test

/-!
# What an interceptor does

C62: during a `Call()` with an interceptor, executing a command is running the interceptor, which may
execute commands itself.
-/

namespace Verif

variable {W R : Type}

/-- The interceptor's code as part of the function given to `Call()`: where it uses the executor it
was given, the function uses the executor of a test that has no interceptor; `k` is what comes next. -/
def IProg.inline (k : TRes → CProg W) : IProg W → CProg W
  | .ret e => k (.ok e)
  | .panic v => k (.error v)
  | .get g => .get fun w => (g w).inline k
  | .set w p => .set w (p.inline k)
  | .next m g => .exec m fun r => (g r).inline k

/-- The function with each `ExecuteCommand()` replaced by the code of the interceptor. -/
def CProg.inline (f : Message → IProg W) : CProg W → CProg W
  | .ret => .ret
  | .panic v => .panic v
  | .get g => .get fun w => (g w).inline f
  | .set w k => .set w (k.inline f)
  | .exec m k => (f m).inline fun r => (k r).inline f
  | .act a k => .act a fun r => (k r).inline f

/-- What is on a record - engine operations and what the `TestingT` is told - but for the uses of the
executor. -/
def engineRecord (l : List TObs) : List TObs :=
  l.filter fun
    | .exec .. => false
    | _ => true

/-- The same but for the interceptor and the uses of the executor. -/
structure TSt.Like (t u : TSt W R) : Prop where
  sys : t.sys = u.sys
  clock : t.clock = u.clock
  opts : t.opts = u.opts
  bound : t.bound = u.bound
  did : engineRecord t.did = engineRecord u.did

theorem TSt.Like.engine (A : App W R) {t u : TSt W R} (h : t.Like u) (op : Op) :
    (t.engine A op).1.Like (u.engine A op).1 ∧ (t.engine A op).2 = (u.engine A op).2 ∧
    (t.engine A op).1.icept = t.icept ∧ (u.engine A op).1.icept = u.icept := by
  unfold TSt.engine
  rw [h.sys, h.clock]
  refine ⟨⟨rfl, rfl, h.opts, h.bound, ?_⟩, rfl, rfl, rfl⟩
  have := h.did
  unfold engineRecord at this ⊢
  simp [this]

theorem TSt.Like.say {t u : TSt W R} (h : t.Like u) (o : TObs) : (t.say o).Like (u.say o) := by
  refine ⟨h.sys, h.clock, h.opts, h.bound, ?_⟩
  have := h.did
  unfold engineRecord at this ⊢
  simp [TSt.say, this]

theorem TSt.Like.check {r s : TSt W R × Outcome (Option TErr)} (h : r.1.Like s.1) (E : TEnv W)
    (e : r.2 = s.2) :
    (TSt.check E r).1.Like (TSt.check E s).1 ∧ (TSt.check E r).2 = (TSt.check E s).2 := by
  obtain ⟨t, o⟩ := r
  obtain ⟨u, o'⟩ := s
  cases e
  rcases o with (_ | e) | v | _
  · exact ⟨h, rfl⟩
  · exact ⟨h.say _, rfl⟩
  · exact ⟨h, rfl⟩
  · exact ⟨h, rfl⟩

/-- Running the interceptor, then what comes next. -/
theorem IProg.run_inline (A : App W R) (E : TEnv W) (os : List OpOption) (k : TRes → CProg W) :
    ∀ (p : IProg W) (t u : TSt W R), t.Like u → u.bound = some os → u.icept = none →
    (∃ t' u' r, (p.inline k).run A E u = (k r).run A E u' ∧ t'.Like u' ∧ t'.icept = t.icept ∧
      u'.icept = none ∧ u'.bound = some os ∧
      p.run A E os t = (t', match r with | .ok e => .done e | .error v => .panicked v)) ∨
    (∃ t' u', p.run A E os t = (t', .running) ∧ (p.inline k).run A E u = (u', .running) ∧
      t'.Like u') := by
  intro p
  induction p with
  | ret e => intro t u h hb hi; exact .inl ⟨t, u, .ok e, rfl, h, rfl, hi, hb, rfl⟩
  | panic v => intro t u h hb hi; exact .inl ⟨t, u, .error v, rfl, h, rfl, hi, hb, rfl⟩
  | get g ih =>
    intro t u h hb hi
    have := ih u.sys.w t u h hb hi
    simp only [IProg.inline, CProg.run, IProg.run, h.sys] at this ⊢
    exact this
  | set w p ih =>
    intro t u h hb hi
    simp only [IProg.inline, CProg.run, IProg.run]
    have h' : ({ t with sys := { t.sys with w := w } } : TSt W R).Like
        { u with sys := { u.sys with w := w } } :=
      ⟨by rw [h.sys], h.clock, h.opts, h.bound, h.did⟩
    exact ih _ _ h' hb hi
  | next m g ih =>
    intro t u h hb hi
    simp only [IProg.inline, CProg.run, IProg.run]
    have hu : t.Like ({ u with did := u.did ++ [TObs.exec m u.bound.isSome] } : TSt W R) :=
      ⟨h.sys, h.clock, h.opts, h.bound, by
        have := h.did
        unfold engineRecord at this ⊢
        simp [this]⟩
    have he : u.execute A E m =
        ({ u with did := u.did ++ [TObs.exec m u.bound.isSome] } : TSt W R).engine A
          (.dispatch E.fuel m os) := by
      unfold TSt.execute
      simp only [hb, hi]
    rw [he]
    obtain ⟨h1, h2, h3, h4⟩ := hu.engine A (.dispatch E.fuel m os)
    have h5 : (({ u with did := u.did ++ [TObs.exec m u.bound.isSome] } : TSt W R).engine A
          (.dispatch E.fuel m os)).1.bound = some os := hb
    rcases hx : t.engine A (.dispatch E.fuel m os) with ⟨t1, o⟩
    rcases hy : ({ u with did := u.did ++ [TObs.exec m u.bound.isSome] } : TSt W R).engine A
          (.dispatch E.fuel m os) with ⟨u1, o'⟩
    rw [hx, hy] at h1 h2
    rw [hx] at h3
    rw [hy] at h4 h5
    simp only at h1 h2 h3 h4 h5
    subst h2
    cases o with
    | running => exact .inr ⟨t1, u1, rfl, rfl, h1⟩
    | done e =>
      rw [← h3]
      exact ih (.ok e) t1 u1 h1 h5 (h4.trans hi)
    | panicked v =>
      rw [← h3]
      exact ih (.error v) t1 u1 h1 h5 (h4.trans hi)

/-- Running a function with the interceptor, and with the interceptor's code in it. -/
theorem CProg.run_inline (A : App W R) (E : TEnv W) (f : Message → IProg W) {fn : CProg W}
    (hf : fn.NoCall) : ∀ (t u : TSt W R), t.Like u → t.icept = some f → u.icept = none →
    u.bound ≠ none →
    (fn.run A E t).1.Like ((fn.inline f).run A E u).1 ∧
    (fn.run A E t).2 = ((fn.inline f).run A E u).2 := by
  induction hf with
  | ret => intro t u h _ _ _; exact ⟨h, rfl⟩
  | panic v => intro t u h _ _ _; exact ⟨h, rfl⟩
  | get g _ ih =>
    intro t u h hi hj hb
    have := ih u.sys.w t u h hi hj hb
    simp only [CProg.inline, CProg.run, h.sys] at this ⊢
    exact this
  | set w p _ ih =>
    intro t u h hi hj hb
    simp only [CProg.inline, CProg.run]
    have h' : ({ t with sys := { t.sys with w := w } } : TSt W R).Like
        { u with sys := { u.sys with w := w } } :=
      ⟨by rw [h.sys], h.clock, h.opts, h.bound, h.did⟩
    exact ih _ _ h' hi hj hb
  | exec m k _ ih =>
    intro t u h hi hj hb
    obtain ⟨os, hos⟩ := Option.ne_none_iff_exists'.1 hb
    have ht : ({ t with did := t.did ++ [TObs.exec m t.bound.isSome] } : TSt W R).Like u :=
      ⟨h.sys, h.clock, h.opts, h.bound, by
        have := h.did
        unfold engineRecord at this ⊢
        simp [this]⟩
    have he : t.execute A E m = (f m).run A E os
        ({ t with did := t.did ++ [TObs.exec m t.bound.isSome] } : TSt W R) := by
      unfold TSt.execute
      simp only [h.bound, hos, hi]
    have hr : (CProg.exec m k).run A E t = match (f m).run A E os
        ({ t with did := t.did ++ [TObs.exec m t.bound.isSome] } : TSt W R) with
        | (t, .done e) => (k (.ok e)).run A E t
        | (t, .panicked v) => (k (.error v)).run A E t
        | (t, .running) => (t, .running) := by
      rw [← he]
      conv => lhs; unfold CProg.run
      rfl
    rw [hr]
    simp only [CProg.inline]
    rcases IProg.run_inline A E os (fun r => (k r).inline f) (f m) _ u ht hos hj with
      ⟨t', u', r, p1, p2, p3, p4, p5, p6⟩ | ⟨t', u', p1, p2, p3⟩
    · rw [p1, p6]
      cases r with
      | ok e => exact ih (.ok e) t' u' p2 (p3.trans hi) p4 (by rw [p5]; nofun)
      | error v => exact ih (.error v) t' u' p2 (p3.trans hi) p4 (by rw [p5]; nofun)
    · rw [p2, p1]
      exact ⟨p3, rfl⟩
  | act a k ha _ ih =>
    intro t u h hi hj hb
    have key : ∀ {t u : TSt W R}, t.Like u → (a.run A E [] t).1.Like (a.run A E [] u).1 ∧
        (a.run A E [] t).2 = (a.run A E [] u).2 ∧ (a.run A E [] t).1.icept = t.icept ∧
        (a.run A E [] u).1.icept = u.icept ∧ (a.run A E [] u).1.bound = u.bound := by
      intro t u h
      clear hi hj hb
      cases a with
      | call fn ic => exact absurd rfl (ha fn ic)
      | dispatch m =>
        unfold Action.run
        by_cases hm : A.uses m.type = true
        · rw [if_pos hm, if_pos hm]
          have : t.actOpts [] = u.actOpts [] := by unfold TSt.actOpts; rw [h.clock, h.opts]
          rw [this]
          obtain ⟨h1, h2, h3, h4⟩ := h.engine A (.dispatch E.fuel m (u.actOpts []))
          exact ⟨h1, h2, h3, h4, rfl⟩
        · rw [if_neg hm, if_neg hm]
          exact ⟨h, rfl, rfl, rfl, rfl⟩
      | advance desc step =>
        unfold Action.run
        have : t.actOpts [] = u.actOpts [] := by unfold TSt.actOpts; rw [h.clock, h.opts]
        rw [this, h.clock, h.sys]
        rcases step u.clock u.sys.w with ⟨w, v | now⟩
        · exact ⟨⟨rfl, rfl, h.opts, h.bound, h.did⟩, rfl, rfl, rfl, rfl⟩
        · simp only
          by_cases hn : now < u.clock
          · rw [if_pos hn, if_pos hn]
            exact ⟨⟨rfl, rfl, h.opts, h.bound, h.did⟩, rfl, rfl, rfl, rfl⟩
          · rw [if_neg hn, if_neg hn]
            have h' : ({ t with sys := { u.sys with w := w }, clock := now } : TSt W R).Like
                { u with sys := { u.sys with w := w }, clock := now } :=
              ⟨rfl, rfl, h.opts, h.bound, h.did⟩
            obtain ⟨h1, h2, h3, h4⟩ := h'.engine A
              (.tick E.fuel (E.order w) (u.actOpts [] ++ [.currentTime now]))
            exact ⟨h1, h2, h3, h4, rfl⟩
    obtain ⟨h1, h2, h3, h4, h5⟩ := key (h.say (.log a.prepareLine))
    obtain ⟨h1, h2⟩ := h1.check E h2
    replace h3 := (TSt.check_same E (a.run A E [] (t.announce a))).icept.trans h3
    replace h4 := (TSt.check_same E (a.run A E [] (u.announce a))).icept.trans h4
    replace h5 := (TSt.check_same E (a.run A E [] (u.announce a))).bound.trans h5
    change (TSt.check E (a.run A E [] (t.announce a))).1.Like
      (TSt.check E (a.run A E [] (u.announce a))).1 at h1
    change (TSt.check E (a.run A E [] (t.announce a))).2 =
      (TSt.check E (a.run A E [] (u.announce a))).2 at h2
    simp only [CProg.inline, CProg.run]
    rcases hx : TSt.check E (a.run A E [] (t.announce a)) with ⟨t1, o⟩
    rcases hy : TSt.check E (a.run A E [] (u.announce a)) with ⟨u1, o'⟩
    rw [hx, hy] at h1 h2
    rw [hx] at h3
    rw [hy] at h4 h5
    simp only at h1 h2 h3 h4 h5
    subst h2
    cases o with
    | running => exact ⟨h1, rfl⟩
    | done e => exact ih (.ok e) t1 u1 h1 (h3.trans hi) (h4.trans hj) (by rw [h5]; exact hb)
    | panicked v => exact ih (.error v) t1 u1 h1 (h3.trans hi) (h4.trans hj) (by rw [h5]; exact hb)

/-- **C62.** A `Call()` with an interceptor has the outcome and the effects (engine operations, log, state
of the engine and of the user's code, time) of the `Call()` of the function that has the
interceptor's code in place of each `ExecuteCommand()`, in a test without interceptors. -/
theorem C62_intercepts (A : App W R) (E : TEnv W) (fn : CProg W) (hf : fn.NoCall)
    (f : Message → IProg W) (extra : List OpOption) (t : TSt W R) :
    let r := (Action.call fn (some f)).run A E extra t
    let r' := (Action.call (fn.inline f) none).run A E extra { t with icept := none }
    r.2 = r'.2 ∧ r.1.sys = r'.1.sys ∧ r.1.clock = r'.1.clock ∧
      engineRecord r.1.did = engineRecord r'.1.did := by
  have h := CProg.run_inline A E f hf
    { t with bound := some (t.actOpts extra), icept := some f }
    { t with bound := some (t.actOpts extra), icept := none }
    ⟨rfl, rfl, rfl, rfl, rfl⟩ rfl rfl nofun
  simp only [Action.run]
  have e1 : (some f).or t.icept = some f := rfl
  have e2 : (none : Option (Message → IProg W)).or none = none := rfl
  rw [e1, e2]
  have e3 : ({ t with icept := none } : TSt W R).actOpts extra = t.actOpts extra := rfl
  rw [e3]
  rcases hx : fn.run A E { t with bound := some (t.actOpts extra), icept := some f } with ⟨t1, o⟩
  rcases hy : (fn.inline f).run A E { t with bound := some (t.actOpts extra), icept := none } with
    ⟨u1, o'⟩
  rw [hx, hy] at h
  obtain ⟨h1, h2⟩ := h
  simp only at h1 h2
  subst h2
  cases o <;> exact ⟨rfl, h1.sys, h1.clock, h1.did⟩

/-! ## Instances -/

/-- An interceptor that executes the command, and another one if the first one was not accepted. -/
def Demo.retry : Message → IProg Nat := fun m => .next m fun
  | .ok none => .ret none
  | _ => .next (Demo.msgC "again") fun _ => .ret none

set_option maxRecDepth 100000 in
example : Demo.twice.NoCall ∧
    (engineOps ((Action.call Demo.twice (some Demo.double)).run Demo.app Demo.tenv [] Demo.t0).1.did).length
      = 4 ∧
    (engineOps ((Action.call Demo.twice (some Demo.retry)).run Demo.app Demo.tenv [] Demo.t0).1.did).length
      = 2 :=
  ⟨.exec _ _ fun _ => .exec _ _ fun _ => .ret, by decide +kernel⟩

end Verif
