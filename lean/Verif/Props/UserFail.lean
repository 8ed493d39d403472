import Verif.Props.UserHist

/-!
# Failures are final (C95)
-/

namespace Verif

variable {W R : Type}

/-! ## Specification -/

/-- `Fatal()` or `FailNow()` of the `TestingT` is called. -/
def TObs.isFailure : TObs → Bool
  | .fatal _ => true
  | .failNow => true
  | _ => false

/-- The program does nothing but put things back, and panics. -/
def AProg.Cleanup : AProg W → Prop
  | .ret _ => False
  | .panic _ => True
  | .get k => ∀ w, (k w).Cleanup
  | .set _ k => k.Cleanup
  | .clock k => ∀ c, (k c).Cleanup
  | .setClock _ k => k.Cleanup
  | .op .. => False
  | .bind _ k => k.Cleanup
  | .unbind k => k.Cleanup
  | .intercept _ k => ∀ p, (k p).Cleanup
  | .exec .. => False
  | .prepare .. => False
  | .expect .. => False

mutual
/-- No action recovers from a panic that comes out of `Prepare()` or `Expect()`. -/
def UAction.Straight : UAction W → Prop
  | .mk _ _ act => ∀ os, (act os).Straight
/-- The same for a program. -/
def AProg.Straight : AProg W → Prop
  | .ret _ => True
  | .panic _ => True
  | .get k => ∀ w, (k w).Straight
  | .set _ k => k.Straight
  | .clock k => ∀ c, (k c).Straight
  | .setClock _ k => k.Straight
  | .op _ k => ∀ r, (k r).Straight
  | .bind _ k => k.Straight
  | .unbind k => k.Straight
  | .intercept _ k => ∀ p, (k p).Straight
  | .exec _ k => ∀ r, (k r).Straight
  | .prepare a k => a.Straight ∧ (∀ v, (k (.error v)).Cleanup) ∧ ∀ e, (k (.ok e)).Straight
  | .expect _ _ a k => a.Straight ∧ (∀ v, (k (.error v)).Cleanup) ∧ (k (.ok ())).Straight
end

/-- The record has no failures; or one, which is the last entry, and what was done panics. -/
def lastly (l : List TObs) (panics : Prop) : Prop :=
  (∀ o ∈ l, o.isFailure = false) ∨
  ∃ l' f, l = l' ++ [f] ∧ f.isFailure = true ∧ (∀ o ∈ l', o.isFailure = false) ∧ panics

/-! ## Proofs -/

def Outcome.isPanic {α : Type} : Outcome α → Prop
  | .panicked _ => True
  | _ => False

/-- From `t`, to a result. -/
def TSt.Ends (t : TSt W R) (r : TSt W R × Outcome (Option TErr)) : Prop :=
  ∃ l, r.1.did = t.did ++ l ∧ lastly l r.2.isPanic

/-- From `t` to `t'` without failures. -/
def TSt.NoFail (t t' : TSt W R) : Prop :=
  ∃ l, t'.did = t.did ++ l ∧ ∀ o ∈ l, o.isFailure = false

theorem TSt.NoFail.refl (t : TSt W R) : t.NoFail t := ⟨[], by simp, nofun⟩

theorem TSt.NoFail.trans {a b c : TSt W R} (h : a.NoFail b) (g : b.NoFail c) : a.NoFail c := by
  obtain ⟨l, h1, h2⟩ := h
  obtain ⟨l', g1, g2⟩ := g
  refine ⟨l ++ l', by rw [g1, h1, List.append_assoc], fun o ho => ?_⟩
  rcases List.mem_append.1 ho with ho | ho
  · exact h2 o ho
  · exact g2 o ho

theorem TSt.NoFail.ends {t t' : TSt W R} (h : t.NoFail t') {r : TSt W R × Outcome (Option TErr)}
    (g : t'.Ends r) : t.Ends r := by
  obtain ⟨l, h1, h2⟩ := h
  obtain ⟨l', g1, g2⟩ := g
  refine ⟨l ++ l', by rw [g1, h1, List.append_assoc], ?_⟩
  rcases g2 with g2 | ⟨l2, f, rfl, hf, g2, hp⟩
  · left
    intro o ho
    rcases List.mem_append.1 ho with ho | ho
    · exact h2 o ho
    · exact g2 o ho
  · right
    refine ⟨l ++ l2, f, by simp, hf, ?_, hp⟩
    intro o ho
    rcases List.mem_append.1 ho with ho | ho
    · exact h2 o ho
    · exact g2 o ho

theorem TSt.NoFail.done {t t' : TSt W R} (h : t.NoFail t') (o : Outcome (Option TErr)) :
    t.Ends (t', o) := by
  obtain ⟨l, h1, h2⟩ := h
  exact ⟨l, h1, .inl h2⟩

/-- If it did not panic, there was no failure. -/
theorem TSt.Ends.noFail {t t' : TSt W R} {o : Outcome (Option TErr)} (h : t.Ends (t', o))
    (ho : ¬ o.isPanic) : t.NoFail t' := by
  obtain ⟨l, h1, h2 | ⟨_, _, _, _, _, hp⟩⟩ := h
  · exact ⟨l, h1, h2⟩
  · exact absurd hp ho

theorem TSt.Ends.panics {t t' : TSt W R} {v : PanicVal} (h : t.Ends (t', .panicked v)) {t2 : TSt W R}
    (hd : t2.did = t'.did) {o : Outcome (Option TErr)} (ho : o.isPanic) : t.Ends (t2, o) := by
  obtain ⟨l, h1, h2 | ⟨l', f, e, hf, g, -⟩⟩ := h
  · exact ⟨l, hd.trans h1, .inl h2⟩
  · exact ⟨l, hd.trans h1, .inr ⟨l', f, e, hf, g, ho⟩⟩

theorem AProg.cleanup_run (A : App W R) (E : UEnv W) : (p : AProg W) → p.Cleanup → ∀ t : TSt W R,
    (p.run A E t).1.did = t.did ∧ (p.run A E t).2.isPanic
  | .ret _, h, _ => by simp only [AProg.Cleanup] at h
  | .panic v, _, t => by simp only [AProg.run]; exact ⟨trivial, trivial⟩
  | .get k, h, t => by
    simp only [AProg.run]; simp only [AProg.Cleanup] at h; exact (k _).cleanup_run A E (h _) t
  | .set w k, h, t => by
    simp only [AProg.run]; simp only [AProg.Cleanup] at h
    exact k.cleanup_run A E h { t with sys := { t.sys with w := w } }
  | .clock k, h, t => by
    simp only [AProg.run]; simp only [AProg.Cleanup] at h; exact (k _).cleanup_run A E (h _) t
  | .setClock c k, h, t => by
    simp only [AProg.run]; simp only [AProg.Cleanup] at h
    exact k.cleanup_run A E h { t with clock := c }
  | .op .., h, _ => by simp only [AProg.Cleanup] at h
  | .bind os k, h, t => by
    simp only [AProg.run]; simp only [AProg.Cleanup] at h
    exact k.cleanup_run A E h { t with bound := some os }
  | .unbind k, h, t => by
    simp only [AProg.run]; simp only [AProg.Cleanup] at h
    exact k.cleanup_run A E h { t with bound := none }
  | .intercept f k, h, t => by
    simp only [AProg.run]; simp only [AProg.Cleanup] at h
    exact (k _).cleanup_run A E (h _) { t with icept := f }
  | .exec .., h, _ => by simp only [AProg.Cleanup] at h
  | .prepare .., h, _ => by simp only [AProg.Cleanup] at h
  | .expect .., h, _ => by simp only [AProg.Cleanup] at h

theorem TSt.engine_noFail (A : App W R) (t : TSt W R) (op : Op) : t.NoFail (t.engine A op).1 :=
  ⟨[.engine t.clock op (factsOf (during t.sys (op.exec A t.sys).1))], rfl, by simp [TObs.isFailure]⟩

theorem TSt.log_noFail (t : TSt W R) (s : String) : t.NoFail (t.say (.log s)) :=
  ⟨[.log s], rfl, by simp [TObs.isFailure]⟩

theorem IProg.run_noFail (A : App W R) (E : TEnv W) (os : List OpOption) (p : IProg W) :
    ∀ t : TSt W R, t.NoFail (p.run A E os t).1 := by
  induction p with
  | ret e => intro t; exact .refl t
  | panic v => intro t; exact .refl t
  | get k ih => intro t; exact ih _ t
  | set w k ih => intro t; exact ih { t with sys := { t.sys with w := w } }
  | next m k ih =>
    intro t
    have h := t.engine_noFail A (.dispatch E.fuel m os)
    unfold IProg.run
    rcases hx : t.engine A (.dispatch E.fuel m os) with ⟨t1, o⟩
    rw [hx] at h
    cases o with
    | done e => exact h.trans (ih _ t1)
    | panicked v => exact h.trans (ih _ t1)
    | running => exact h

theorem TSt.execute_noFail (A : App W R) (E : TEnv W) (t : TSt W R) (m : Message) :
    t.NoFail (t.execute A E m).1 := by
  have h0 : t.NoFail { t with did := t.did ++ [TObs.exec m t.bound.isSome] } :=
    ⟨[.exec m t.bound.isSome], rfl, by simp [TObs.isFailure]⟩
  unfold TSt.execute
  simp only
  split
  · exact h0
  · split
    · exact h0.trans (IProg.run_noFail ..)
    · exact h0.trans (TSt.engine_noFail ..)

theorem TSt.Ends.check {E : TEnv W} {v : PanicVal} (hE : E.fatal = some v) {t : TSt W R}
    {r : TSt W R × Outcome (Option TErr)} (h : t.Ends r) : t.Ends (TSt.check E r) := by
  obtain ⟨t1, (_ | e) | v' | _⟩ := r
  · exact h
  · obtain ⟨l, h1, h2⟩ := h.noFail (by exact id)
    unfold TSt.check
    rw [hE]
    exact ⟨l ++ [.fatal e], by simp [TSt.say, h1], .inr ⟨l, .fatal e, rfl, rfl, h2, trivial⟩⟩
  · exact h
  · exact h

theorem TSt.Ends.preparing {E : TEnv W} {v : PanicVal} (hE : E.fatal = some v)
    (cap : Except PanicVal String) (act : TSt W R → TSt W R × Outcome (Option TErr))
    (h : ∀ t : TSt W R, t.Ends (act t)) (t : TSt W R) : t.Ends (t.preparing E cap act) := by
  unfold TSt.preparing
  rcases cap with v' | c
  · exact (TSt.NoFail.refl t).done _
  · exact (t.log_noFail _).ends ((h _).check hE)

/-- The end of an `Expect()`: no failure was reported, unless it did not pass and it was the last. -/
def EndsE (t : TSt W R) (r : TSt W R × List ECall × EEnd) : Prop :=
  ∃ l, r.1.did = t.did ++ l ∧
    ((∀ o ∈ l, o.isFailure = false) ∧ r.2.2 ≠ .failed ∨
      ∃ l' f, l = l' ++ [f] ∧ f.isFailure = true ∧ (∀ o ∈ l', o.isFailure = false) ∧
        (r.2.2 = .failed ∨ ∃ v, r.2.2 = .panicked v))

theorem EndsE.of_noFail {t t' : TSt W R} (h : t.NoFail t') {r : TSt W R × List ECall × EEnd}
    (g : EndsE t' r) : EndsE t r := by
  obtain ⟨l, h1, h2⟩ := h
  obtain ⟨l', g1, g2⟩ := g
  refine ⟨l ++ l', by rw [g1, h1, List.append_assoc], ?_⟩
  rcases g2 with ⟨g2, g3⟩ | ⟨l2, f, rfl, hf, g2, hp⟩
  · left
    refine ⟨fun o ho => ?_, g3⟩
    rcases List.mem_append.1 ho with ho | ho
    · exact h2 o ho
    · exact g2 o ho
  · right
    refine ⟨l ++ l2, f, by simp, hf, ?_, hp⟩
    intro o ho
    rcases List.mem_append.1 ho with ho | ho
    · exact h2 o ho
    · exact g2 o ho

theorem TSt.Ends.judge {t : TSt W R} {r : TSt W R × Outcome (Option TErr)} (h : t.Ends r) (j : Judge)
    (o : Nat) : EndsE t (t.judge j o r) := by
  unfold TSt.judge
  obtain ⟨t1, e | v | _⟩ := r
  · obtain ⟨l, h1, h2⟩ := h.noFail (by exact id)
    simp only
    rcases j.done (toldIn o (t1.did.drop t.did.length)) with _ | v
    · rcases e with _ | e
      · simp only
        generalize hz : t1.conclude (j.ok (toldIn o (t1.did.drop t.did.length)))
          (fun b => j.report b (toldIn o (t1.did.drop t.did.length))) = z
        obtain ⟨t2, cs, e2⟩ := z
        rcases TSt.conclude_cases _ _ _ hz with ⟨w, -, rfl, -, rfl⟩ |
          ⟨b, -, -, ⟨w, -, rfl, rfl⟩ | ⟨r, -, rfl, rfl⟩⟩
        · exact ⟨l, h1, .inl ⟨h2, nofun⟩⟩
        · exact ⟨l, h1, .inl ⟨h2, nofun⟩⟩
        cases b
        · refine ⟨l ++ [.log _] ++ [.failNow], by simp [h1]; rfl, .inr
            ⟨l ++ [.log _], .failNow, rfl, rfl, ?_, .inl rfl⟩⟩
          intro o ho
          rcases List.mem_append.1 ho with ho | ho
          · exact h2 o ho
          · rw [List.mem_singleton.1 ho]; rfl
        · refine ⟨l ++ [.log _], by simp [h1]; rfl, .inl ⟨?_, nofun⟩⟩
          intro o ho
          rcases List.mem_append.1 ho with ho | ho
          · exact h2 o ho
          · rw [List.mem_singleton.1 ho]; rfl
      · exact ⟨l ++ [.fatal e], by simp [TSt.say, h1], .inr ⟨l, .fatal e, rfl, rfl, h2, .inl rfl⟩⟩
    · exact ⟨l, h1, .inl ⟨h2, nofun⟩⟩
  · obtain ⟨l, h1, h2 | ⟨l', f, h3, h4, h5, -⟩⟩ := h
    · exact ⟨l, h1, .inl ⟨h2, nofun⟩⟩
    · exact ⟨l, h1, .inr ⟨l', f, h3, h4, h5, .inr ⟨_, rfl⟩⟩⟩
  · obtain ⟨l, h1, h2⟩ := h.noFail (by exact id)
    exact ⟨l, h1, .inl ⟨h2, nofun⟩⟩

theorem TSt.expecting_ends (S : PScope) (x : Expected) (o : Nat) (cap : Except PanicVal String)
    (conf : PredOpts → Except PanicVal PredOpts)
    (act : List OpOption → TSt W R → TSt W R × Outcome (Option TErr))
    (h : ∀ os, ∀ t : TSt W R, t.Ends (act os t)) (t : TSt W R) :
    EndsE t (t.expecting S x o cap conf act) := by
  unfold TSt.expecting
  rcases conf S.opts with v | po
  · exact ⟨[], by simp, .inl ⟨nofun, nofun⟩⟩
  rcases cap with v | c
  · exact ⟨[], by simp, .inl ⟨nofun, nofun⟩⟩
  rcases x.caption with v | c'
  · exact ⟨[], by simp, .inl ⟨nofun, nofun⟩⟩
  simp only
  have h0 := t.log_noFail ("--- expect " ++ c ++ " " ++ c' ++ " ---")
  rcases x.build { S with opts := po } with j | m | v
  · exact EndsE.of_noFail h0 ((h _ _).judge j o)
  · refine EndsE.of_noFail h0 ⟨[.fatal (.expectation m)], rfl, .inr ⟨[], _, rfl, rfl, nofun, .inl rfl⟩⟩
  · exact EndsE.of_noFail h0 ⟨[], by simp, .inl ⟨nofun, nofun⟩⟩

mutual
theorem UAction.run_ends (A : App W R) (E : UEnv W) {v : PanicVal} (hE : E.fatal = some v) :
    (a : UAction W) → a.Straight → ∀ (extra : List OpOption) (t : TSt W R), t.Ends (a.run A E extra t)
  | .mk c f act, h, extra, t => by
    simp only [UAction.run]
    simp only [UAction.Straight] at h
    exact (act _).run_ends A E hE (h _) t
theorem AProg.run_ends (A : App W R) (E : UEnv W) {v : PanicVal} (hE : E.fatal = some v) :
    (p : AProg W) → p.Straight → ∀ t : TSt W R, t.Ends (p.run A E t)
  | .ret e, _, t => by simp only [AProg.run]; exact (TSt.NoFail.refl t).done _
  | .panic v, _, t => by simp only [AProg.run]; exact (TSt.NoFail.refl t).done _
  | .get k, h, t => by
    simp only [AProg.run]; simp only [AProg.Straight] at h; exact (k _).run_ends A E hE (h _) t
  | .set w k, h, t => by
    simp only [AProg.run]; simp only [AProg.Straight] at h
    exact k.run_ends A E hE h { t with sys := { t.sys with w := w } }
  | .clock k, h, t => by
    simp only [AProg.run]; simp only [AProg.Straight] at h; exact (k _).run_ends A E hE (h _) t
  | .setClock c k, h, t => by
    simp only [AProg.run]; simp only [AProg.Straight] at h
    exact k.run_ends A E hE h { t with clock := c }
  | .op c k, h, t => by
    simp only [AProg.run]
    simp only [AProg.Straight] at h
    have g := t.engine_noFail A (c.op E.toTEnv t.sys.w)
    rcases hx : t.engine A (c.op E.toTEnv t.sys.w) with ⟨t1, o⟩
    rw [hx] at g
    cases o with
    | done e => exact g.ends ((k _).run_ends A E hE (h _) t1)
    | panicked v => exact g.ends ((k _).run_ends A E hE (h _) t1)
    | running => exact g.done _
  | .bind os k, h, t => by
    simp only [AProg.run]; simp only [AProg.Straight] at h
    exact k.run_ends A E hE h { t with bound := some os }
  | .unbind k, h, t => by
    simp only [AProg.run]; simp only [AProg.Straight] at h
    exact k.run_ends A E hE h { t with bound := none }
  | .intercept f k, h, t => by
    simp only [AProg.run]; simp only [AProg.Straight] at h
    exact (k _).run_ends A E hE (h _) { t with icept := f }
  | .exec m k, h, t => by
    simp only [AProg.run]
    simp only [AProg.Straight] at h
    have g := t.execute_noFail A E.toTEnv m
    rcases hx : t.execute A E.toTEnv m with ⟨t1, o⟩
    rw [hx] at g
    cases o with
    | done e => exact g.ends ((k _).run_ends A E hE (h _) t1)
    | panicked v => exact g.ends ((k _).run_ends A E hE (h _) t1)
    | running => exact g.done _
  | .prepare a k, h, t => by
    simp only [AProg.run]
    simp only [AProg.Straight] at h
    have g := TSt.Ends.preparing (E := E.toTEnv) hE a.caption (a.run A E [])
      (a.run_ends A E hE h.1 []) t
    rcases hx : t.preparing E.toTEnv a.caption (a.run A E []) with ⟨t1, o⟩
    rw [hx] at g
    cases o with
    | done e => exact (g.noFail id).ends ((k _).run_ends A E hE (h.2.2 _) t1)
    | panicked v =>
      have hc := (k (.error v)).cleanup_run A E (h.2.1 v) t1
      exact g.panics (t2 := ((k (.error v)).run A E t1).1) hc.1 hc.2
    | running => exact g
  | .expect x o a k, h, t => by
    simp only [AProg.run]
    simp only [AProg.Straight] at h
    have g := TSt.expecting_ends E.scope x o a.caption a.configure (fun os => a.run A E os)
      (fun os => a.run_ends A E hE h.1 os) t
    rcases hx : t.expecting E.scope x o a.caption a.configure (fun os => a.run A E os) with ⟨t1, cs, e⟩
    rw [hx] at g
    have pan : ∀ v, (e = .failed ∨ ∃ v, e = .panicked v) → t.Ends ((k (.error v)).run A E t1) := by
      intro v _
      have hc := (k (.error v)).cleanup_run A E (h.2.1 v) t1
      obtain ⟨l, h1, ⟨h2, -⟩ | ⟨l', f, h3, h4, h5, -⟩⟩ := g
      · exact ⟨l, hc.1.trans h1, .inl h2⟩
      · exact ⟨l, hc.1.trans h1, .inr ⟨l', f, h3, h4, h5, hc.2⟩⟩
    have okk : e = .passed ∨ e = .running → t.NoFail t1 := by
      intro he
      obtain ⟨l, h1, ⟨h2, -⟩ | ⟨l', f, h3, h4, h5, h6⟩⟩ := g
      · exact ⟨l, h1, h2⟩
      · rcases he with rfl | rfl <;> rcases h6 with h6 | ⟨_, h6⟩ <;> cases h6
    cases e with
    | passed => exact (okk (.inl rfl)).ends ((k _).run_ends A E hE h.2.2 t1)
    | failed =>
      simp only [EEnd.back, hE]
      exact pan v (.inl rfl)
    | panicked v => exact pan v (.inr ⟨v, rfl⟩)
    | running => exact (okk (.inr rfl)).done _
end

/-! ## C95 -/

/-- **C95.** With a `TestingT` whose `Fatal()` and `FailNow()` do not return, and actions that do not
recover from panics of `Prepare()` and `Expect()`: once a failure has been reported, by whatever
nested action, nothing more is done; `Prepare()` does not return. -/
theorem C95_prepare (A : App W R) (E : UEnv W) {v : PanicVal} (hE : E.fatal = some v)
    (a : UAction W) (ha : a.Straight) (t : TSt W R) :
    ∃ l, (t.prepareU A E a).1.did = t.did ++ l ∧
      lastly l (∃ v, (t.prepareU A E a).2 = .panicked v) := by
  obtain ⟨l, h1, h2⟩ := TSt.Ends.preparing (E := E.toTEnv) hE a.caption (a.run A E [])
    (a.run_ends A E hE ha []) t
  refine ⟨l, h1, h2.imp id ?_⟩
  rintro ⟨l', f, h3, h4, h5, h6⟩
  refine ⟨l', f, h3, h4, h5, ?_⟩
  unfold TSt.prepareU
  revert h6
  rcases (t.preparing E.toTEnv a.caption (a.run A E [])).2 with _ | v | _
  · exact False.elim
  · exact fun _ => ⟨v, rfl⟩
  · exact False.elim

/-- **C95.** Likewise for `Expect()`: an expectation passes only if all of those nested in it did, and
nothing else failed; and it fails only by reporting it. -/
theorem C95_expect (A : App W R) (E : UEnv W) {v : PanicVal} (hE : E.fatal = some v) (x : Expected)
    (o : Nat) (a : UAction W) (ha : a.Straight) (t : TSt W R) {t' : TSt W R} {calls : List ECall}
    {e : EEnd} (h : t.expectU A E x o a = (t', calls, e)) :
    ∃ l, t'.did = t.did ++ l ∧ lastly l (e = .failed ∨ ∃ v, e = .panicked v) ∧
      (e = .failed → ∃ f ∈ l, f.isFailure = true) := by
  obtain ⟨l, h1, h2⟩ := TSt.expecting_ends E.scope x o a.caption a.configure (fun os => a.run A E os)
    (fun os => a.run_ends A E hE ha os) t
  rw [show t.expecting E.scope x o a.caption a.configure (fun os => a.run A E os) = _ from h] at h1 h2
  refine ⟨l, h1, ?_, ?_⟩
  · rcases h2 with ⟨h2, -⟩ | ⟨l', f, h3, h4, h5, h6⟩
    · exact .inl h2
    · exact .inr ⟨l', f, h3, h4, h5, h6⟩
  · intro he
    rcases h2 with ⟨-, h2⟩ | ⟨l', f, h3, h4, h5, h6⟩
    · exact absurd he h2
    · exact ⟨f, by simp [h3], h4⟩

/-! ## Examples -/

/-- A `TestingT` whose `Fatal()` and `FailNow()` do not return. -/
def Demo.strict : UEnv Nat := { Demo.uenv with fatal := some (.user "test failed") }

/-- Expects something else of the demo action, then dispatches; on a panic, does as told. -/
def Demo.outer (k : PanicVal → AProg Nat) (x : Expectation) : UAction Nat :=
  .mk (.ok "expecting within") .ok fun os =>
    .expect (Demo.expected x) 8 (Demo.sends "x") fun
      | .ok _ => .op (.dispatch (Demo.msgC "y") os) .ofRes
      | .error v => k v

theorem Demo.sends_straight (s : String) : (Demo.sends s).Straight := by
  unfold Demo.sends
  simp only [UAction.Straight, AProg.Straight]
  intro os r
  cases r <;> simp only [AProg.ofRes, AProg.Straight]

theorem Demo.outer_straight (x : Expectation) :
    (Demo.outer (fun v => .unbind (.panic v)) x).Straight := by
  unfold Demo.outer
  simp only [UAction.Straight, AProg.Straight]
  refine fun os => ⟨Demo.sends_straight _, fun v => ?_, fun r => ?_⟩
  · simp only [AProg.Cleanup]
  · cases r <;> simp only [AProg.ofRes, AProg.Straight]

/-- The end of an `Expect()` of an event with the action, which entries on record are failures, and how
many operations are on record. -/
def Demo.fails (E : UEnv Nat) (a : UAction Nat) : EEnd × List Bool × Nat :=
  let r := Demo.t0.expectU Demo.app E (Demo.expected (.type Demo.evtE)) 7 a
  (r.2.2, r.1.did.map TObs.isFailure, (opsOf r.1.did).length)

set_option maxRecDepth 100000 in
example : Demo.strict.fatal = some (.user "test failed") ∧
    (∀ x, (Demo.outer (fun v => .unbind (.panic v)) x).Straight) ∧
    Demo.fails Demo.strict (Demo.outer (fun v => .unbind (.panic v)) (.type Demo.evtE)) =
      (.passed, [false, false, false, false, false, false], 2) ∧
    Demo.fails Demo.strict (Demo.outer (fun v => .unbind (.panic v)) (.not (.type Demo.evtE))) =
      (.panicked (.user "test failed"), [false, false, false, false, true], 1) :=
  ⟨rfl, Demo.outer_straight, by decide +kernel, by decide +kernel⟩

set_option maxRecDepth 100000 in
/-- **C95.** Both conditions are needed: if an action recovers from the panic, or `FailNow()` returns,
the outer expectation passes although the inner one failed. -/
theorem C95_needed_fails :
    let recovers := Demo.outer (fun _ => .op (.dispatch (Demo.msgC "y") [.currentTime 100, .observer 7]) .ofRes)
      (.not (.type Demo.evtE))
    let strict := Demo.outer (fun v => .panic v) (.not (.type Demo.evtE))
    Demo.fails Demo.strict recovers = (.passed, [false, false, false, false, true, false, false], 2) ∧
    Demo.fails Demo.uenv strict = (.passed, [false, false, false, false, true, false, false], 2) := by
  decide +kernel

end Verif
