import Verif.Goexit
import Verif.Props.UserFail

/-!
# Leaving the goroutine (C116)
-/

namespace Verif

variable {W R : Type}

/-! ## Specification -/

/-- The program does nothing but put things back (as deferred functions do). -/
def AProg.Restores : AProg W → Prop
  | .ret _ => True
  | .panic v => v = goexit
  | .get k => ∀ w, (k w).Restores
  | .set _ k => k.Restores
  | .clock k => ∀ c, (k c).Restores
  | .setClock _ k => k.Restores
  | .op .. => False
  | .bind _ k => k.Restores
  | .unbind k => k.Restores
  | .intercept _ k => ∀ p, (k p).Restores
  | .exec .. => False
  | .prepare .. => False
  | .expect .. => False

/-- `Done()` of the predicates does not panic (it may leave the goroutine). -/
def Expected.Calm (x : Expected) : Prop :=
  ∀ S j, x.build S = .ok j → ∀ fs v, j.done fs = some v → v = goexit

mutual
/-- If the goroutine is exiting, the deferred functions of the action, and of those nested in it, do
nothing but put things back.  What they do about panics is up to them. -/
def UAction.Tidy : UAction W → Prop
  | .mk _ _ act => ∀ os, (act os).Tidy
/-- The same for a program. -/
def AProg.Tidy : AProg W → Prop
  | .ret _ => True
  | .panic _ => True
  | .get k => ∀ w, (k w).Tidy
  | .set _ k => k.Tidy
  | .clock k => ∀ c, (k c).Tidy
  | .setClock _ k => k.Tidy
  | .op _ k => ∀ r, (k r).Tidy
  | .bind _ k => k.Tidy
  | .unbind k => k.Tidy
  | .intercept _ k => ∀ p, (k p).Tidy
  | .exec _ k => ∀ r, (k r).Tidy
  | .prepare a k => a.Tidy ∧ (k (.error goexit)).Restores ∧ ∀ r, (k r).Tidy
  | .expect x _ a k => x.Calm ∧ a.Tidy ∧ (k (.error goexit)).Restores ∧ ∀ r, (k r).Tidy
end

/-- The program ends by leaving the goroutine, if it ends. -/
def IProg.Gone : IProg W → Prop
  | .ret _ => False
  | .panic v => v = goexit
  | .get k => ∀ w, (k w).Gone
  | .set _ k => k.Gone
  | .next _ k => ∀ r, (k r).Gone

/-- The interceptor does not take `goexit` for a panic to recover from. -/
def IProg.Through : IProg W → Prop
  | .ret _ => True
  | .panic _ => True
  | .get k => ∀ w, (k w).Through
  | .set _ k => k.Through
  | .next _ k => (k (.error goexit)).Gone ∧ ∀ r, (k r).Through

/-- The program ends by leaving the goroutine, if it ends. -/
def AProg.Gone : AProg W → Prop
  | .ret _ => False
  | .panic v => v = goexit
  | .get k => ∀ w, (k w).Gone
  | .set _ k => k.Gone
  | .clock k => ∀ c, (k c).Gone
  | .setClock _ k => k.Gone
  | .op _ k => ∀ r, (k r).Gone
  | .bind _ k => k.Gone
  | .unbind k => k.Gone
  | .intercept _ k => ∀ p, (k p).Gone
  | .exec _ k => ∀ r, (k r).Gone
  | .prepare _ k => ∀ r, (k r).Gone
  | .expect _ _ _ k => ∀ r, (k r).Gone

mutual
/-- No program takes `goexit` for a panic to recover from. -/
def UAction.Through : UAction W → Prop
  | .mk _ _ act => ∀ os, (act os).Through
/-- The same for a program. -/
def AProg.Through : AProg W → Prop
  | .ret _ => True
  | .panic _ => True
  | .get k => ∀ w, (k w).Through
  | .set _ k => k.Through
  | .clock k => ∀ c, (k c).Through
  | .setClock _ k => k.Through
  | .op _ k => (k (.error goexit)).Gone ∧ ∀ r, (k r).Through
  | .bind _ k => k.Through
  | .unbind k => k.Through
  | .intercept f k => (∀ g, f = some g → ∀ m, (g m).Through) ∧
      ∀ p, (∀ g, p = some g → ∀ m, (g m).Through) → (k p).Through
  | .exec _ k => (k (.error goexit)).Gone ∧ ∀ r, (k r).Through
  | .prepare a k => a.Through ∧ (k (.error goexit)).Gone ∧ ∀ r, (k r).Through
  | .expect x _ a k => x.Calm ∧ a.Through ∧ (k (.error goexit)).Gone ∧ ∀ r, (k r).Through
end

/-- The interceptor that is installed does not take `goexit` for a panic to recover from. -/
def TSt.Through (t : TSt W R) : Prop := ∀ g, t.icept = some g → ∀ m, (g m).Through

/-! ## Proofs: nobody returns once a failure has been reported -/

/-- From `t` to the result of a program: if a failure was reported, the goroutine is exiting; if it is,
the program does not return. -/
structure TSt.Sticky (t : TSt W R) (r : XRes W R) : Prop where
  failed : ∃ l, r.1.1.did = t.did ++ l ∧ ((∃ f ∈ l, f.isFailure = true) → r.2 = true)
  gone : r.2 = true → ∀ e, r.1.2 ≠ .done e

theorem settle_did (ex : Bool) (r : XRes W R) : (r.settle ex).1.1 = r.1.1 := by
  unfold XRes.settle; split <;> rfl

theorem settle_flag (ex : Bool) (r : XRes W R) : (r.settle ex).2 = (ex || r.2) := by
  cases ex <;> simp [XRes.settle]

theorem settle_done {ex : Bool} {r : XRes W R} {e : Option TErr} (h : (r.settle ex).1.2 = .done e) :
    ex = false ∧ r.1.2 = .done e := by
  cases ex
  · exact ⟨rfl, h⟩
  · exfalso
    revert h
    unfold XRes.settle
    rcases r with ⟨⟨t, e | v | _⟩, b⟩ <;> intro h <;> cases h

theorem TSt.NoFail.sticky {t t' : TSt W R} (h : t.NoFail t') {r : XRes W R} (g : t'.Sticky r) :
    t.Sticky r := by
  obtain ⟨l, h1, h2⟩ := h
  obtain ⟨⟨l', g1, g2⟩, g3⟩ := g
  refine ⟨⟨l ++ l', by rw [g1, h1, List.append_assoc], ?_⟩, g3⟩
  rintro ⟨f, hf, hx⟩
  rcases List.mem_append.1 hf with hf | hf
  · rw [h2 f hf] at hx; cases hx
  · exact g2 ⟨f, hf, hx⟩

/-- One part after the other. -/
theorem TSt.Sticky.trans {t t1 : TSt W R} {o : Outcome (Option TErr)} {ex : Bool}
    (h : t.Sticky ((t1, o), ex)) {r : XRes W R} (g : t1.Sticky r) : t.Sticky (r.settle ex) := by
  obtain ⟨⟨l, h1, h2⟩, -⟩ := h
  obtain ⟨⟨l', g1, g2⟩, g3⟩ := g
  refine ⟨⟨l ++ l', ?_, ?_⟩, ?_⟩
  · rw [settle_did, g1, h1, List.append_assoc]
  · rw [settle_flag]
    rintro ⟨f, hf, hx⟩
    rcases List.mem_append.1 hf with hf | hf
    · rw [show ex = true from h2 ⟨f, hf, hx⟩]; rfl
    · rw [g2 ⟨f, hf, hx⟩]; exact Bool.or_true _
  · rw [settle_flag]
    intro hf e he
    obtain ⟨rfl, he⟩ := settle_done he
    exact g3 (by simpa using hf) e he

theorem TSt.NoFail.sticky_end {t t' : TSt W R} (h : t.NoFail t') {o : Outcome (Option TErr)} {ex : Bool}
    (ho : ex = true → ∀ e, o ≠ .done e) : t.Sticky ((t', o), ex) := by
  obtain ⟨l, h1, h2⟩ := h
  refine ⟨⟨l, h1, ?_⟩, ho⟩
  rintro ⟨f, hf, hx⟩
  rw [h2 f hf] at hx; cases hx

theorem engine_sticky (A : App W R) (t : TSt W R) (op : Op) :
    t.Sticky (t.engine A op, (t.engine A op).2.leaves) := by
  have h := t.engine_noFail A op
  generalize t.engine A op = r at h ⊢
  rcases r with ⟨t1, e | v | _⟩
  · exact h.sticky_end (by simp [Outcome.leaves])
  · exact h.sticky_end (by simp)
  · exact h.sticky_end (by simp)

theorem IProg.runX_noFail (A : App W R) (E : TEnv W) (os : List OpOption) (p : IProg W) :
    ∀ t : TSt W R, t.Sticky (p.runX A E os t) := by
  induction p with
  | ret e => intro t; exact (TSt.NoFail.refl t).sticky_end (by simp)
  | panic v => intro t; exact (TSt.NoFail.refl t).sticky_end (by simp)
  | get k ih => intro t; exact ih _ t
  | set w k ih =>
    intro t
    have h : t.NoFail { t with sys := { t.sys with w := w } } := ⟨[], by simp, nofun⟩
    exact h.sticky (ih _)
  | next m k ih =>
    intro t
    have h := engine_sticky A t (.dispatch E.fuel m os)
    unfold IProg.runX
    rcases hx : t.engine A (.dispatch E.fuel m os) with ⟨t1, o⟩
    rw [hx] at h
    cases o with
    | done e => exact h.trans (ih _ t1)
    | panicked v => exact h.trans (ih _ t1)
    | running => exact h

theorem executeX_sticky (A : App W R) (E : TEnv W) (t : TSt W R) (m : Message) :
    t.Sticky (t.executeX A E m) := by
  have h0 : t.NoFail { t with did := t.did ++ [TObs.exec m t.bound.isSome] } :=
    ⟨[.exec m t.bound.isSome], rfl, by simp [TObs.isFailure]⟩
  unfold TSt.executeX
  simp only
  split
  · exact h0.sticky_end (by simp)
  · split
    · exact h0.sticky (IProg.runX_noFail ..)
    · exact h0.sticky (engine_sticky ..)

theorem preparingX_sticky {E : TEnv W} (hE : E.fatal = some goexit) (cap : Except PanicVal String)
    (act : TSt W R → XRes W R) (h : ∀ t : TSt W R, t.Sticky (act t)) (t : TSt W R) :
    t.Sticky (t.preparingX E cap act) := by
  unfold TSt.preparingX
  rcases cap with v | c
  · exact (TSt.NoFail.refl t).sticky_end (by simp)
  · refine (t.log_noFail ("--- " ++ c ++ " ---")).sticky ?_
    have g := h (t.say (.log ("--- " ++ c ++ " ---")))
    simp only
    generalize act (t.say (.log ("--- " ++ c ++ " ---"))) = r at g
    rcases r with ⟨⟨t1, (_ | e) | v | _⟩, ex⟩
    · exact ⟨by simpa [TSt.check, Outcome.leaves] using g.failed,
        by simpa [TSt.check, Outcome.leaves] using g.gone⟩
    · obtain ⟨⟨l, h1, h2⟩, h3⟩ := g
      simp only [TSt.check, hE, Outcome.leaves]
      exact ⟨⟨l ++ [.fatal e], by
        simp only [TSt.say] at h1 ⊢; rw [h1]; simp, by simp⟩, by simp⟩
    · obtain ⟨⟨l, h1, h2⟩, h3⟩ := g
      simp only [TSt.check, Outcome.leaves]
      exact ⟨⟨l, h1, fun hf => by rw [show ex = true from h2 hf]; rfl⟩, by simp⟩
    · obtain ⟨⟨l, h1, h2⟩, h3⟩ := g
      simp only [TSt.check, Outcome.leaves]
      exact ⟨⟨l, h1, fun hf => by rw [show ex = true from h2 hf]; rfl⟩, by simp⟩

/-- The same for the end of an `Expect()`. -/
structure TSt.StickyE (t : TSt W R) (r : (TSt W R × List ECall × EEnd) × Bool) : Prop where
  failed : ∃ l, r.1.1.did = t.did ++ l ∧
    ((∃ f ∈ l, f.isFailure = true) → r.2 = true ∨ r.1.2.2 = .failed)
  gone : r.2 = true → r.1.2.2 ≠ .passed ∧ r.1.2.2 ≠ .failed

theorem leaves_gone {e : EEnd} (h : e.leaves = true) : e ≠ .passed ∧ e ≠ .failed := by
  constructor <;> rintro rfl <;> cases h

theorem judge_sticky {t0 t : TSt W R} {r : XRes W R} (g : t.Sticky r) (j : Judge) (o : Nat) :
    t.StickyE (t0.judge j o r.1, r.2 || (t0.judge j o r.1).2.2.leaves) := by
  rcases r with ⟨⟨t1, e | v | _⟩, ex⟩
  · obtain ⟨⟨l, h1, h2⟩, h3⟩ := g
    have hex : ex = false := by
      cases ex
      · rfl
      · exact absurd rfl (h3 rfl e)
    subst hex
    have hl : ∀ f ∈ l, f.isFailure = false := by
      intro f hf
      cases hx : f.isFailure
      · rfl
      · exact absurd (h2 ⟨f, hf, hx⟩) (by simp)
    have hd : t1.did = t.did ++ l := h1
    have none : ∀ l2 : List TObs, (∃ f ∈ l ++ l2, f.isFailure = true) → ∃ f ∈ l2, f.isFailure = true := by
      rintro l2 ⟨f, hf, hx⟩
      rcases List.mem_append.1 hf with hf | hf
      · rw [hl f hf] at hx; cases hx
      · exact ⟨f, hf, hx⟩
    unfold TSt.judge
    simp only [Bool.false_or]
    rcases j.done (toldIn o (t1.did.drop t0.did.length)) with _ | v
    · rcases e with _ | e
      · simp only
        generalize hz : t1.conclude (j.ok (toldIn o (t1.did.drop t0.did.length)))
          (fun b => j.report b (toldIn o (t1.did.drop t0.did.length))) = z
        obtain ⟨t2, cs, e2⟩ := z
        rcases TSt.conclude_cases _ _ _ hz with ⟨w, -, rfl, -, rfl⟩ |
          ⟨b, -, -, ⟨w, -, rfl, rfl⟩ | ⟨r, -, rfl, rfl⟩⟩
        · exact ⟨⟨l ++ [], by simpa using hd, fun h => by simpa using none [] h⟩, fun h => leaves_gone h⟩
        · exact ⟨⟨l ++ [], by simpa using hd, fun h => by simpa using none [] h⟩, fun h => leaves_gone h⟩
        cases b
        · exact ⟨⟨l ++ [.log _, .failNow], by simp [hd]; rfl, fun _ => .inr rfl⟩, fun h => leaves_gone h⟩
        · exact ⟨⟨l ++ [.log _], by simp [hd]; rfl, fun h => by simpa [TObs.isFailure] using none _ h⟩, fun h => leaves_gone h⟩
      · exact ⟨⟨l ++ [.fatal e], by simp [TSt.say, hd], fun _ => .inr rfl⟩, fun h => leaves_gone h⟩
    · exact ⟨⟨l ++ [], by simpa using hd, fun h => by simpa using none [] h⟩, fun h => leaves_gone h⟩
  · obtain ⟨⟨l, h1, h2⟩, h3⟩ := g
    exact ⟨⟨l, h1, fun h => .inl (by simp [show ex = true from h2 h])⟩, by simp [TSt.judge]⟩
  · obtain ⟨⟨l, h1, h2⟩, h3⟩ := g
    exact ⟨⟨l, h1, fun h => .inl (by simp [show ex = true from h2 h])⟩, by simp [TSt.judge]⟩

theorem expectingX_sticky (S : PScope) (x : Expected) (o : Nat) (cap : Except PanicVal String)
    (conf : PredOpts → Except PanicVal PredOpts) (act : List OpOption → TSt W R → XRes W R)
    (h : ∀ os, ∀ t : TSt W R, t.Sticky (act os t)) (t : TSt W R) :
    t.StickyE (t.expectingX S x o cap conf act) := by
  unfold TSt.expectingX TSt.expecting TSt.performs
  rcases conf S.opts with v | po
  · exact ⟨⟨[], by simp, by simp⟩, by simp⟩
  rcases cap with v | c
  · exact ⟨⟨[], by simp, by simp⟩, by simp⟩
  rcases x.caption with v | c'
  · exact ⟨⟨[], by simp, by simp⟩, by simp⟩
  simp only
  rcases x.build { S with opts := po } with j | m | v
  · simp only [Option.any_some]
    exact judge_sticky ((t.log_noFail _).sticky (h [.observer o] _)) j o
  · exact ⟨⟨[.log _, .fatal _], by simp only [TSt.say, List.append_assoc]; rfl, by simp⟩, by simp [EEnd.leaves]⟩
  · exact ⟨⟨[.log _], rfl, by simp [TObs.isFailure]⟩, by simp⟩

theorem TSt.Sticky.of_did {t t' : TSt W R} (hd : t'.did = t.did) {r : XRes W R} (g : t'.Sticky r) :
    t.Sticky r := TSt.NoFail.sticky ⟨[], by simp [hd], nofun⟩ g

mutual
theorem UAction.runX_sticky (A : App W R) (E : UEnv W) (hE : E.fatal = some goexit) :
    (a : UAction W) → ∀ (extra : List OpOption) (t : TSt W R), t.Sticky (a.runX A E extra t)
  | .mk c f act, extra, t => by
    simp only [UAction.runX]
    exact (act _).runX_sticky A E hE t
theorem AProg.runX_sticky (A : App W R) (E : UEnv W) (hE : E.fatal = some goexit) :
    (p : AProg W) → ∀ t : TSt W R, t.Sticky (p.runX A E t)
  | .ret e, t => by simp only [AProg.runX]; exact (TSt.NoFail.refl t).sticky_end (by simp)
  | .panic v, t => by simp only [AProg.runX]; exact (TSt.NoFail.refl t).sticky_end (by simp)
  | .get k, t => by simp only [AProg.runX]; exact (k _).runX_sticky A E hE t
  | .set w k, t => by
    simp only [AProg.runX]
    exact .of_did (t := t) (t' := { t with sys := { t.sys with w := w } }) rfl (k.runX_sticky A E hE _)
  | .clock k, t => by simp only [AProg.runX]; exact (k _).runX_sticky A E hE t
  | .setClock c k, t => by
    simp only [AProg.runX]
    exact .of_did (t := t) (t' := { t with clock := c }) rfl (k.runX_sticky A E hE _)
  | .op c k, t => by
    simp only [AProg.runX]
    have g := engine_sticky A t (c.op E.toTEnv t.sys.w)
    rcases hx : t.engine A (c.op E.toTEnv t.sys.w) with ⟨t1, o⟩
    rw [hx] at g
    cases o with
    | done e => exact g.trans ((k _).runX_sticky A E hE t1)
    | panicked v => exact g.trans ((k _).runX_sticky A E hE t1)
    | running => exact g
  | .bind os k, t => by
    simp only [AProg.runX]
    exact .of_did (t := t) (t' := { t with bound := some os }) rfl (k.runX_sticky A E hE _)
  | .unbind k, t => by
    simp only [AProg.runX]
    exact .of_did (t := t) (t' := { t with bound := none }) rfl (k.runX_sticky A E hE _)
  | .intercept f k, t => by
    simp only [AProg.runX]
    exact .of_did (t := t) (t' := { t with icept := f }) rfl ((k _).runX_sticky A E hE _)
  | .exec m k, t => by
    simp only [AProg.runX]
    have g := executeX_sticky A E.toTEnv t m
    rcases hx : t.executeX A E.toTEnv m with ⟨⟨t1, o⟩, ex⟩
    rw [hx] at g
    cases o with
    | done e => exact g.trans ((k _).runX_sticky A E hE t1)
    | panicked v => exact g.trans ((k _).runX_sticky A E hE t1)
    | running => exact g
  | .prepare a k, t => by
    simp only [AProg.runX]
    have g := preparingX_sticky (E := E.toTEnv) hE a.caption (a.runX A E [])
      (a.runX_sticky A E hE []) t
    rcases hx : t.preparingX E.toTEnv a.caption (a.runX A E []) with ⟨⟨t1, o⟩, ex⟩
    rw [hx] at g
    cases o with
    | done e => exact g.trans ((k _).runX_sticky A E hE t1)
    | panicked v => exact g.trans ((k _).runX_sticky A E hE t1)
    | running => exact g
  | .expect x o a k, t => by
    simp only [AProg.runX]
    have g := expectingX_sticky E.scope x o a.caption a.configure (fun os => a.runX A E os)
      (fun os => a.runX_sticky A E hE os) t
    rcases hx : t.expectingX E.scope x o a.caption a.configure (fun os => a.runX A E os)
      with ⟨⟨t1, cs, e⟩, ex⟩
    rw [hx] at g
    obtain ⟨⟨l, h1, h2⟩, h3⟩ := g
    have h1 : t1.did = t.did ++ l := h1
    have h2 : (∃ f ∈ l, f.isFailure = true) → ex = true ∨ e = .failed := h2
    have h3 : ex = true → e ≠ .passed ∧ e ≠ .failed := h3
    cases e with
    | passed =>
      refine TSt.Sticky.trans (o := .running) ⟨⟨l, h1, fun h => ?_⟩, by simp⟩ ((k _).runX_sticky A E hE t1)
      rcases h2 h with h | h
      · exact h
      · cases h
    | failed =>
      simp only [EEnd.backX, EEnd.back, hE]
      exact TSt.Sticky.trans (o := .running) ⟨⟨l, h1, by simp⟩, by simp⟩ ((k _).runX_sticky A E hE t1)
    | panicked v =>
      refine TSt.Sticky.trans (o := .running) ⟨⟨l, h1, fun h => ?_⟩, by simp⟩ ((k _).runX_sticky A E hE t1)
      rcases h2 h with h | h
      · simp [h]
      · cases h
    | running =>
      refine ⟨⟨l, h1, fun h => ?_⟩, by simp [EEnd.backX, EEnd.back]⟩
      rcases h2 h with h | h
      · exact h
      · cases h
end

/-- **C116.** With the `*testing.T` of Go: once a failure has been reported, by whatever nested action,
`Prepare()` does not return, whatever the actions do about panics. -/
theorem C116_prepare (A : App W R) (E : UEnv W) (hE : E.fatal = some goexit) (a : UAction W)
    (t : TSt W R) :
    ∃ l, (t.prepareX A E a).1.1.did = t.did ++ l ∧
      ((∃ f ∈ l, f.isFailure = true) → ∀ e, (t.prepareX A E a).1.2 ≠ .done e) := by
  obtain ⟨⟨l, h1, h2⟩, h3⟩ := preparingX_sticky (E := E.toTEnv) hE a.caption (a.runX A E [])
    (a.runX_sticky A E hE []) t
  exact ⟨l, h1, fun h => h3 (h2 h)⟩

/-- **C116.** Likewise, `Expect()` passes only if no failure has been reported since it was called. -/
theorem C116_expect (A : App W R) (E : UEnv W) (hE : E.fatal = some goexit) (x : Expected) (o : Nat)
    (a : UAction W) (t : TSt W R) :
    ∃ l, (t.expectX A E x o a).1.1.did = t.did ++ l ∧
      ((∃ f ∈ l, f.isFailure = true) → (t.expectX A E x o a).1.2.2 ≠ .passed) := by
  obtain ⟨⟨l, h1, h2⟩, h3⟩ := expectingX_sticky E.scope x o a.caption a.configure
    (fun os => a.runX A E os) (fun os => a.runX_sticky A E hE os) t
  refine ⟨l, h1, fun h => ?_⟩
  rcases h2 h with h | h
  · exact (h3 h).1
  · exact fun e => by rw [show (t.expectX A E x o a).1.2.2 = .failed from h] at e; cases e

/-! ## Proofs: nothing is done once a failure has been reported -/

theorem AProg.restores_runX (A : App W R) (E : UEnv W) : (p : AProg W) → p.Restores →
    ∀ t : TSt W R, (p.runX A E t).1.1.did = t.did ∧
      ((p.runX A E t).settle true).1.2 = .panicked goexit
  | .ret _, _, _ => by simp only [AProg.runX]; exact ⟨trivial, rfl⟩
  | .panic v, h, t => by
    simp only [AProg.Restores] at h; subst h; simp only [AProg.runX]; exact ⟨trivial, rfl⟩
  | .get k, h, t => by
    simp only [AProg.runX]; simp only [AProg.Restores] at h; exact (k _).restores_runX A E (h _) t
  | .set w k, h, t => by
    simp only [AProg.runX]; simp only [AProg.Restores] at h
    exact k.restores_runX A E h { t with sys := { t.sys with w := w } }
  | .clock k, h, t => by
    simp only [AProg.runX]; simp only [AProg.Restores] at h; exact (k _).restores_runX A E (h _) t
  | .setClock c k, h, t => by
    simp only [AProg.runX]; simp only [AProg.Restores] at h
    exact k.restores_runX A E h { t with clock := c }
  | .op .., h, _ => by simp only [AProg.Restores] at h
  | .bind os k, h, t => by
    simp only [AProg.runX]; simp only [AProg.Restores] at h
    exact k.restores_runX A E h { t with bound := some os }
  | .unbind k, h, t => by
    simp only [AProg.runX]; simp only [AProg.Restores] at h
    exact k.restores_runX A E h { t with bound := none }
  | .intercept f k, h, t => by
    simp only [AProg.runX]; simp only [AProg.Restores] at h
    exact (k _).restores_runX A E (h _) { t with icept := f }
  | .exec .., h, _ => by simp only [AProg.Restores] at h
  | .prepare .., h, _ => by simp only [AProg.Restores] at h
  | .expect .., h, _ => by simp only [AProg.Restores] at h

/-- From `t`, to a result: no failure was reported, or it was the last that was done. -/
def TSt.EndsX (t : TSt W R) (r : XRes W R) : Prop :=
  ∃ l, r.1.1.did = t.did ++ l ∧ lastly l (r.1.2 = .panicked goexit ∧ r.2 = true)

theorem TSt.NoFail.endsX {t t' : TSt W R} (h : t.NoFail t') {r : XRes W R} (g : t'.EndsX r) :
    t.EndsX r := by
  obtain ⟨l, h1, h2⟩ := h
  obtain ⟨l', g1, g2⟩ := g
  refine ⟨l ++ l', by rw [g1, h1, List.append_assoc], ?_⟩
  rcases g2 with g2 | ⟨l2, f, rfl, hf, g2, hp⟩
  · left
    intro o ho
    rcases List.mem_append.1 ho with ho | ho
    · exact h2 o ho
    · exact g2 o ho
  · right
    refine ⟨l ++ l2, f, by simp, hf, ?_, hp⟩
    intro o ho
    rcases List.mem_append.1 ho with ho | ho
    · exact h2 o ho
    · exact g2 o ho

theorem TSt.NoFail.doneX {t t' : TSt W R} (h : t.NoFail t') (o : Outcome (Option TErr)) (ex : Bool) :
    t.EndsX ((t', o), ex) := by
  obtain ⟨l, h1, h2⟩ := h
  exact ⟨l, h1, .inl h2⟩

theorem TSt.EndsX.settle {t : TSt W R} {r : XRes W R} (h : t.EndsX r) (ex : Bool) :
    t.EndsX (r.settle ex) := by
  obtain ⟨l, h1, h2⟩ := h
  refine ⟨l, by rw [settle_did]; exact h1, h2.imp id ?_⟩
  rintro ⟨l', f, h3, h4, h5, h6, h7⟩
  refine ⟨l', f, h3, h4, h5, ?_, by rw [settle_flag, h7, Bool.or_true]⟩
  cases ex
  · exact h6
  · unfold XRes.settle
    simp [h6]

theorem IProg.runX_quiet (A : App W R) (E : TEnv W) (os : List OpOption) (p : IProg W) :
    ∀ t : TSt W R, t.NoFail (p.runX A E os t).1.1 := by
  induction p with
  | ret e => intro t; exact .refl t
  | panic v => intro t; exact .refl t
  | get k ih => intro t; exact ih _ t
  | set w k ih => intro t; exact ih { t with sys := { t.sys with w := w } }
  | next m k ih =>
    intro t
    have h := t.engine_noFail A (.dispatch E.fuel m os)
    unfold IProg.runX
    rcases hx : t.engine A (.dispatch E.fuel m os) with ⟨t1, o⟩
    rw [hx] at h
    cases o with
    | done e => exact h.trans (ih _ t1)
    | panicked v => simp only [settle_did]; exact h.trans (ih _ t1)
    | running => exact h

theorem executeX_quiet (A : App W R) (E : TEnv W) (t : TSt W R) (m : Message) :
    t.NoFail (t.executeX A E m).1.1 := by
  have h0 : t.NoFail { t with did := t.did ++ [TObs.exec m t.bound.isSome] } :=
    ⟨[.exec m t.bound.isSome], rfl, by simp [TObs.isFailure]⟩
  unfold TSt.executeX
  simp only
  split
  · exact h0
  · split
    · exact h0.trans (IProg.runX_quiet ..)
    · exact h0.trans (TSt.engine_noFail ..)

theorem preparingX_ends {E : TEnv W} (hE : E.fatal = some goexit) (cap : Except PanicVal String)
    (act : TSt W R → XRes W R) (h : ∀ t : TSt W R, t.EndsX (act t)) (t : TSt W R) :
    t.EndsX (t.preparingX E cap act) := by
  unfold TSt.preparingX
  rcases cap with v | c
  · exact (TSt.NoFail.refl t).doneX _ _
  refine (t.log_noFail ("--- " ++ c ++ " ---")).endsX ?_
  have g := h (t.say (.log ("--- " ++ c ++ " ---")))
  simp only
  generalize t.say (.log ("--- " ++ c ++ " ---")) = t0 at g
  generalize act t0 = r at g
  rcases r with ⟨⟨t1, (_ | e) | v | _⟩, ex⟩
  · obtain ⟨l, h1, h2 | ⟨_, _, _, _, _, h, _⟩⟩ := g
    · exact ⟨l, h1, .inl h2⟩
    · cases h
  · obtain ⟨l, h1, h2 | ⟨_, _, _, _, _, h, _⟩⟩ := g
    · simp only [TSt.check, hE]
      refine ⟨l ++ [.fatal e], ?_, .inr ⟨l, .fatal e, rfl, rfl, h2, rfl, by simp [Outcome.leaves]⟩⟩
      simp only [TSt.say] at h1 ⊢
      rw [h1, List.append_assoc]
    · cases h
  · obtain ⟨l, h1, h2⟩ := g
    refine ⟨l, h1, h2.imp id ?_⟩
    rintro ⟨l', f, h3, h4, h5, h6, h7⟩
    exact ⟨l', f, h3, h4, h5, h6, by rw [show ex = true from h7]; rfl⟩
  · obtain ⟨l, h1, h2 | ⟨_, _, _, _, _, h, _⟩⟩ := g
    · exact ⟨l, h1, .inl h2⟩
    · cases h

/-- The same for the end of an `Expect()`. -/
def TSt.EndsXE (t : TSt W R) (r : (TSt W R × List ECall × EEnd) × Bool) : Prop :=
  ∃ l, r.1.1.did = t.did ++ l ∧
    lastly l ((r.1.2.2 = .panicked goexit ∧ r.2 = true) ∨ r.1.2.2 = .failed)

theorem judge_ends {t t0 : TSt W R} {r : XRes W R} (g : t.EndsX r) {j : Judge} {o : Nat}
    (hj : ∀ fs v, j.done fs = some v → v = goexit) :
    t.EndsXE (t0.judge j o r.1, r.2 || (t0.judge j o r.1).2.2.leaves) := by
  rcases r with ⟨⟨t1, e | v | _⟩, ex⟩
  · obtain ⟨l, hd, h2 | ⟨_, _, _, _, _, h, _⟩⟩ := g
    rotate_left
    · cases h
    have he : t1.did = t.did ++ l := hd
    unfold TSt.judge
    simp only
    rcases j.done (toldIn o (t1.did.drop t0.did.length)) with _ | v
    · rcases e with _ | e
      · simp only
        generalize hz : t1.conclude (j.ok (toldIn o (t1.did.drop t0.did.length)))
          (fun b => j.report b (toldIn o (t1.did.drop t0.did.length))) = z
        obtain ⟨t2, cs, e2⟩ := z
        rcases TSt.conclude_cases _ _ _ hz with ⟨w, -, rfl, -, rfl⟩ |
          ⟨b, -, -, ⟨w, -, rfl, rfl⟩ | ⟨r, -, rfl, rfl⟩⟩
        · exact ⟨l, hd, .inl h2⟩
        · exact ⟨l, hd, .inl h2⟩
        cases b
        · refine ⟨l ++ [.log _] ++ [.failNow], by simp [he]; rfl, .inr
            ⟨l ++ [.log _], .failNow, rfl, rfl, ?_, .inr rfl⟩⟩
          intro o ho
          rcases List.mem_append.1 ho with ho | ho
          · exact h2 o ho
          · rw [List.mem_singleton.1 ho]; rfl
        · refine ⟨l ++ [.log _], by simp [he]; rfl, .inl ?_⟩
          intro o ho
          rcases List.mem_append.1 ho with ho | ho
          · exact h2 o ho
          · rw [List.mem_singleton.1 ho]; rfl
      · exact ⟨l ++ [.fatal e], by simp [TSt.say, he], .inr ⟨l, .fatal e, rfl, rfl, h2, .inr rfl⟩⟩
    · exact ⟨l, hd, .inl h2⟩
  · obtain ⟨l, hd, h2 | ⟨l', f, h3, h4, h5, h6, h7⟩⟩ := g
    · exact ⟨l, hd, .inl h2⟩
    · refine ⟨l, hd, .inr ⟨l', f, h3, h4, h5, .inl ⟨?_, by rw [show ex = true from h7]; rfl⟩⟩⟩
      cases h6
      unfold TSt.judge
      simp only
      rcases hd : j.done (toldIn o (t1.did.drop t0.did.length)) with _ | v
      · rfl
      · rw [hj _ _ hd]; rfl
  · obtain ⟨l, hd, h2 | ⟨_, _, _, _, _, h, _⟩⟩ := g
    · exact ⟨l, hd, .inl h2⟩
    · cases h

theorem TSt.NoFail.endsXE {t t' : TSt W R} (h : t.NoFail t')
    {r : (TSt W R × List ECall × EEnd) × Bool} (g : t'.EndsXE r) : t.EndsXE r := by
  obtain ⟨l, h1, h2⟩ := h
  obtain ⟨l', g1, g2⟩ := g
  refine ⟨l ++ l', by rw [g1, h1, List.append_assoc], ?_⟩
  rcases g2 with g2 | ⟨l2, f, rfl, hf, g2, hp⟩
  · left
    intro o ho
    rcases List.mem_append.1 ho with ho | ho
    · exact h2 o ho
    · exact g2 o ho
  · right
    refine ⟨l ++ l2, f, by simp, hf, ?_, hp⟩
    intro o ho
    rcases List.mem_append.1 ho with ho | ho
    · exact h2 o ho
    · exact g2 o ho

theorem expectingX_ends (S : PScope) {x : Expected} (hx : x.Calm) (o : Nat)
    (cap : Except PanicVal String)
    (conf : PredOpts → Except PanicVal PredOpts) (act : List OpOption → TSt W R → XRes W R)
    (h : ∀ os, ∀ t : TSt W R, t.EndsX (act os t)) (t : TSt W R) :
    t.EndsXE (t.expectingX S x o cap conf act) := by
  unfold TSt.expectingX TSt.expecting TSt.performs
  rcases conf S.opts with v | po
  · exact ⟨[], by simp, .inl nofun⟩
  rcases cap with v | c
  · exact ⟨[], by simp, .inl nofun⟩
  rcases x.caption with v | c'
  · exact ⟨[], by simp, .inl nofun⟩
  simp only
  rcases hb : x.build { S with opts := po } with j | m | v
  · simp only [Option.any_some]
    exact (t.log_noFail _).endsXE (judge_ends (h [.observer o] _) (hx _ j hb))
  · refine (t.log_noFail _).endsXE ⟨[.fatal _], rfl, .inr ⟨[], .fatal _, rfl, rfl, nofun, .inr rfl⟩⟩
  · refine (t.log_noFail _).endsXE ⟨[], (List.append_nil _).symm, .inl nofun⟩

theorem restores_ends {A : App W R} {E : UEnv W} {t t1 : TSt W R} {l : List TObs}
    (hd : t1.did = t.did ++ l) (hl : lastly l True) {p : AProg W} (hp : p.Restores) :
    t.EndsX ((p.runX A E t1).settle true) := by
  have hr := p.restores_runX A E hp t1
  refine ⟨l, by rw [settle_did, hr.1, hd], hl.imp id ?_⟩
  rintro ⟨l', f, h3, h4, h5, -⟩
  exact ⟨l', f, h3, h4, h5, hr.2, by rw [settle_flag]; rfl⟩

mutual
theorem UAction.runX_ends (A : App W R) (E : UEnv W) (hE : E.fatal = some goexit) :
    (a : UAction W) → a.Tidy → ∀ (extra : List OpOption) (t : TSt W R), t.EndsX (a.runX A E extra t)
  | .mk c f act, h, extra, t => by
    simp only [UAction.runX]
    simp only [UAction.Tidy] at h
    exact (act _).runX_ends A E hE (h _) t
theorem AProg.runX_ends (A : App W R) (E : UEnv W) (hE : E.fatal = some goexit) :
    (p : AProg W) → p.Tidy → ∀ t : TSt W R, t.EndsX (p.runX A E t)
  | .ret e, _, t => by simp only [AProg.runX]; exact (TSt.NoFail.refl t).doneX _ _
  | .panic v, _, t => by simp only [AProg.runX]; exact (TSt.NoFail.refl t).doneX _ _
  | .get k, h, t => by
    simp only [AProg.runX]; simp only [AProg.Tidy] at h; exact (k _).runX_ends A E hE (h _) t
  | .set w k, h, t => by
    simp only [AProg.runX]; simp only [AProg.Tidy] at h
    exact k.runX_ends A E hE h { t with sys := { t.sys with w := w } }
  | .clock k, h, t => by
    simp only [AProg.runX]; simp only [AProg.Tidy] at h; exact (k _).runX_ends A E hE (h _) t
  | .setClock c k, h, t => by
    simp only [AProg.runX]; simp only [AProg.Tidy] at h
    exact k.runX_ends A E hE h { t with clock := c }
  | .op c k, h, t => by
    simp only [AProg.runX]
    simp only [AProg.Tidy] at h
    have g := t.engine_noFail A (c.op E.toTEnv t.sys.w)
    rcases hx : t.engine A (c.op E.toTEnv t.sys.w) with ⟨t1, o⟩
    rw [hx] at g
    cases o with
    | done e => exact g.endsX ((k _).runX_ends A E hE (h _) t1)
    | panicked v => exact g.endsX (((k _).runX_ends A E hE (h _) t1).settle _)
    | running => exact g.doneX _ _
  | .bind os k, h, t => by
    simp only [AProg.runX]; simp only [AProg.Tidy] at h
    exact k.runX_ends A E hE h { t with bound := some os }
  | .unbind k, h, t => by
    simp only [AProg.runX]; simp only [AProg.Tidy] at h
    exact k.runX_ends A E hE h { t with bound := none }
  | .intercept f k, h, t => by
    simp only [AProg.runX]; simp only [AProg.Tidy] at h
    exact (k _).runX_ends A E hE (h _) { t with icept := f }
  | .exec m k, h, t => by
    simp only [AProg.runX]
    simp only [AProg.Tidy] at h
    have g := executeX_quiet A E.toTEnv t m
    rcases hx : t.executeX A E.toTEnv m with ⟨⟨t1, o⟩, ex⟩
    rw [hx] at g
    cases o with
    | done e => exact g.endsX (((k _).runX_ends A E hE (h _) t1).settle _)
    | panicked v => exact g.endsX (((k _).runX_ends A E hE (h _) t1).settle _)
    | running => exact g.doneX _ _
  | .prepare a k, h, t => by
    simp only [AProg.runX]
    simp only [AProg.Tidy] at h
    have g := preparingX_ends (E := E.toTEnv) hE a.caption (a.runX A E [])
      (a.runX_ends A E hE h.1 []) t
    rcases hx : t.preparingX E.toTEnv a.caption (a.runX A E []) with ⟨⟨t1, o⟩, ex⟩
    rw [hx] at g
    obtain ⟨l, hd, hl | ⟨l', f, h3, h4, h5, h6, h7⟩⟩ := g
    · have g : t.NoFail t1 := ⟨l, hd, hl⟩
      cases o with
      | done e => exact g.endsX (((k _).runX_ends A E hE (h.2.2 _) t1).settle _)
      | panicked v => exact g.endsX (((k _).runX_ends A E hE (h.2.2 _) t1).settle _)
      | running => exact g.doneX _ _
    · cases h6
      cases h7
      exact restores_ends hd (.inr ⟨l', f, h3, h4, h5, trivial⟩) h.2.1
  | .expect x o a k, h, t => by
    simp only [AProg.runX]
    simp only [AProg.Tidy] at h
    have g := expectingX_ends E.scope h.1 o a.caption a.configure (fun os => a.runX A E os)
      (fun os => a.runX_ends A E hE h.2.1 os) t
    rcases hx : t.expectingX E.scope x o a.caption a.configure (fun os => a.runX A E os)
      with ⟨⟨t1, cs, e⟩, ex⟩
    rw [hx] at g
    obtain ⟨l, hd, hl | ⟨l', f, h3, h4, h5, h6⟩⟩ := g
    · have g : t.NoFail t1 := ⟨l, hd, hl⟩
      simp only
      rcases e.backX E.toTEnv ex with _ | ⟨r, ex⟩
      · exact g.doneX _ _
      · exact g.endsX (((k _).runX_ends A E hE (h.2.2.2 _) t1).settle _)
    · have hl : lastly l True := .inr ⟨l', f, h3, h4, h5, trivial⟩
      rcases h6 with ⟨h6, h7⟩ | h6
      · cases h6
        cases h7
        exact restores_ends hd hl h.2.2.1
      · cases h6
        simp only [EEnd.backX, EEnd.back, hE, decide_true, Bool.or_true]
        exact restores_ends hd hl h.2.2.1
end

/-- **C116.** If the goroutine exits, and deferred functions do nothing but put things back: once a
failure has been reported, by whatever nested action, nothing more is done, whatever the actions do
about panics. -/
theorem C116_last_prepare (A : App W R) (E : UEnv W) (hE : E.fatal = some goexit) (a : UAction W)
    (ha : a.Tidy) (t : TSt W R) :
    ∃ l, (t.prepareX A E a).1.1.did = t.did ++ l ∧
      lastly l ((t.prepareX A E a).1.2 = .panicked goexit) := by
  obtain ⟨l, h1, h2⟩ := preparingX_ends (E := E.toTEnv) hE a.caption (a.runX A E [])
    (a.runX_ends A E hE ha []) t
  refine ⟨l, h1, h2.imp id ?_⟩
  rintro ⟨l', f, h3, h4, h5, h6⟩
  exact ⟨l', f, h3, h4, h5, h6.1⟩

/-- **C116.** Likewise for `Expect()`. -/
theorem C116_last_expect (A : App W R) (E : UEnv W) (hE : E.fatal = some goexit) (x : Expected)
    (hx : x.Calm) (o : Nat) (a : UAction W) (ha : a.Tidy) (t : TSt W R) :
    ∃ l, (t.expectX A E x o a).1.1.did = t.did ++ l ∧
      lastly l ((t.expectX A E x o a).1.2.2 = .panicked goexit ∨ (t.expectX A E x o a).1.2.2 = .failed) := by
  obtain ⟨l, h1, h2⟩ := expectingX_ends E.scope hx o a.caption a.configure
    (fun os => a.runX A E os) (fun os => a.runX_ends A E hE ha os) t
  refine ⟨l, h1, h2.imp id ?_⟩
  rintro ⟨l', f, h3, h4, h5, h6⟩
  exact ⟨l', f, h3, h4, h5, h6.imp And.left id⟩

/-! ## `Expect()` when the action leaves the goroutine -/

theorem expecting_cases (E : UEnv W) (x : Expected) (o : Nat) (a : UAction W)
    (act : List OpOption → TSt W R → TSt W R × Outcome (Option TErr)) (t : TSt W R) {t' : TSt W R}
    {calls : List ECall} {e : EEnd}
    (h : t.expecting E.scope x o a.caption a.configure act = (t', calls, e)) :
    (judgeOf E.scope x a = none ∧ (calls = [] ∨ calls = [.build])) ∨
    ∃ j c, judgeOf E.scope x a = some j ∧
      (t.say (.log c)).judge j o (act [.observer o] (t.say (.log c))) = (t', calls, e) := by
  revert h
  unfold TSt.expecting judgeOf
  rcases a.configure E.scope.opts with v | po
  · intro h; cases h; exact .inl ⟨rfl, .inl rfl⟩
  rcases a.caption with v | c
  · intro h; cases h; exact .inl ⟨rfl, .inl rfl⟩
  rcases x.caption with v | c'
  · intro h; cases h; exact .inl ⟨rfl, .inl rfl⟩
  simp only
  rcases x.build { E.scope with opts := po } with j | m | v
  · intro h; exact .inr ⟨j, _, rfl, h⟩
  · intro h; cases h; exact .inl ⟨rfl, .inr rfl⟩
  · intro h; cases h; exact .inl ⟨rfl, .inr rfl⟩

/-- **C116.** Also if the action leaves the goroutine, `Done()` of the predicate is called exactly once,
after all notifications; `Ok()` and `Report()` are called at most once, and not at all if the goroutine
is exiting because of the action: then there is no report, and no further failure. -/
theorem C116_protocol (A : App W R) (E : UEnv W) (x : Expected) (o : Nat) (a : UAction W)
    (t : TSt W R) {t' : TSt W R} {calls : List ECall} {e : EEnd} {ex : Bool}
    (h : t.expectX A E x o a = ((t', calls, e), ex)) (he : e ≠ .running) :
    stageCount 0 calls ≤ 1 ∧
    stageCount 2 calls = (if (judgeOf E.scope x a).isSome then 1 else 0) ∧
    stageCount 3 calls ≤ 1 ∧ stageCount 4 calls ≤ 1 ∧
    calls.Pairwise (fun c d => c.stage ≤ d.stage) := by
  have h' : t.expecting E.scope x o a.caption a.configure (fun os t => (a.runX A E os t).1) =
      (t', calls, e) := congrArg Prod.fst h
  rcases expecting_cases E x o a _ t h' with ⟨hj, hc⟩ | ⟨j, c, hj, h⟩
  · rw [hj]
    rcases hc with rfl | rfl
    · exact ⟨by decide, rfl, by decide, by decide, by simp⟩
    · exact ⟨by decide, rfl, by decide, by decide, by simp⟩
  · obtain ⟨fs, tl, -, hc, -, -, h⟩ := judge_cases j o _ _ h
    rw [hj]
    have htl : tl = [.done] ∨ tl = [.done, .ok] ∨ tl = [.done, .ok, .report] := by
      rcases h with ⟨-, -, h⟩ | ⟨-, -, -, h, -⟩ | ⟨-, ⟨-, -, h, -⟩ | ⟨-, -, h, -⟩ |
        ⟨-, ⟨-, -, h, -⟩ | ⟨-, -, h, -⟩⟩⟩
      · exact absurd h he
      · exact .inl h
      · exact .inl h
      · exact .inl h
      · exact .inr (.inl h)
      · exact .inr (.inr h)
    have c0 : ∀ n, n ≠ 1 → stageCount n calls = stageCount n [.build] + stageCount n tl := by
      intro n hn
      rw [hc, stageCount_append, show (ECall.build :: fs.map .notify) = [.build] ++ fs.map .notify
        from rfl, stageCount_append, stageCount_notify n hn, Nat.add_zero]
    rw [c0 0 (by decide), c0 2 (by decide), c0 3 (by decide), c0 4 (by decide), hc]
    rcases htl with rfl | rfl | rfl
    · exact ⟨by decide, rfl, by decide, by decide, staged _ _ (by simp) (by simp [ECall.stage])⟩
    · exact ⟨by decide, rfl, by decide, by decide, staged _ _ (by simp [ECall.stage]) (by simp [ECall.stage])⟩
    · exact ⟨by decide, rfl, by decide, by decide, staged _ _ (by simp [ECall.stage]) (by simp [ECall.stage])⟩

theorem expectX_eq (A : App W R) (E : UEnv W) (x : Expected) (o : Nat) (a : UAction W) (t : TSt W R)
    {j : Judge} (hj : judgeOf E.scope x a = some j) :
    ∃ c, t.expectX A E x o a =
      ((t.say (.log c)).judge j o (a.runX A E [.observer o] (t.say (.log c))).1,
        (a.runX A E [.observer o] (t.say (.log c))).2 ||
          ((t.say (.log c)).judge j o (a.runX A E [.observer o] (t.say (.log c))).1).2.2.leaves) := by
  revert hj
  unfold TSt.expectX TSt.expectingX TSt.expecting TSt.performs judgeOf
  rcases a.configure E.scope.opts with v | po
  · intro h; cases h
  rcases a.caption with v | c
  · intro h; cases h
  rcases x.caption with v | c'
  · intro h; cases h
  simp only
  rcases x.build { E.scope with opts := po } with j | m | v
  · intro h; cases h; exact ⟨_, rfl⟩
  · intro h; cases h
  · intro h; cases h

/-- **C116.** If the action of an `Expect()` with a predicate reports a failure (or one nested in it
does), the predicate is done, is not asked for its verdict, and nothing more is reported: what is on
record ends with what the action did. -/
theorem C116_silent (A : App W R) (E : UEnv W) (hE : E.fatal = some goexit) (x : Expected) (o : Nat)
    (a : UAction W) (t : TSt W R) {j : Judge} (hj : judgeOf E.scope x a = some j) :
    ∃ c l, (a.runX A E [.observer o] (t.say (.log c))).1.1.did = t.did ++ .log c :: l ∧
      ((∃ f ∈ l, f.isFailure = true) →
        (a.runX A E [.observer o] (t.say (.log c))).1.2 ≠ .running →
        ∃ (fs : List Fact) (v : PanicVal), t.expectX A E x o a =
          (((a.runX A E [.observer o] (t.say (.log c))).1.1, .build :: fs.map .notify ++ [.done],
            .panicked v), true)) := by
  obtain ⟨c, hc⟩ := expectX_eq A E x o a t hj
  obtain ⟨⟨l, h1, h2⟩, h3⟩ := a.runX_sticky A E hE [.observer o] (t.say (.log c))
  refine ⟨c, l, by rw [h1]; simp [TSt.say], fun hf hr => ?_⟩
  have h2 := h2 hf
  rw [hc]
  generalize a.runX A E [.observer o] (t.say (.log c)) = r at *
  rcases r with ⟨⟨t1, e | v | _⟩, ex⟩
  · exact absurd rfl (h3 h2 e)
  · refine ⟨_, _, Prod.ext rfl ?_⟩
    show (ex || _) = true
    rw [show ex = true from h2]; rfl
  · exact absurd rfl hr

/-! ## `Call()` puts things back -/

theorem AProg.runX_andThen (A : App W R) (E : UEnv W) (κ : TRes → AProg W) (Q : TSt W R → Prop)
    (hκ : ∀ r t, Q ((κ r).runX A E t).1.1) : (p : AProg W) → ∀ t : TSt W R,
      ((p.andThen κ).runX A E t).1.2 = .running ∨ Q ((p.andThen κ).runX A E t).1.1
  | .ret e, t => by simp only [AProg.andThen]; exact .inr (hκ _ _)
  | .panic v, t => by simp only [AProg.andThen]; exact .inr (hκ _ _)
  | .get k, t => by simp only [AProg.andThen, AProg.runX]; exact (k _).runX_andThen A E κ Q hκ _
  | .set w k, t => by simp only [AProg.andThen, AProg.runX]; exact k.runX_andThen A E κ Q hκ _
  | .clock k, t => by simp only [AProg.andThen, AProg.runX]; exact (k _).runX_andThen A E κ Q hκ _
  | .setClock c k, t => by simp only [AProg.andThen, AProg.runX]; exact k.runX_andThen A E κ Q hκ _
  | .op c k, t => by
    simp only [AProg.andThen, AProg.runX]
    rcases t.engine A (c.op E.toTEnv t.sys.w) with ⟨t1, e | v | _⟩
    · exact (k _).runX_andThen A E κ Q hκ _
    · exact settle_andThen _ ((k _).runX_andThen A E κ Q hκ _)
    · exact .inl rfl
  | .bind os k, t => by simp only [AProg.andThen, AProg.runX]; exact k.runX_andThen A E κ Q hκ _
  | .unbind k, t => by simp only [AProg.andThen, AProg.runX]; exact k.runX_andThen A E κ Q hκ _
  | .intercept f k, t => by
    simp only [AProg.andThen, AProg.runX]; exact (k _).runX_andThen A E κ Q hκ _
  | .exec m k, t => by
    simp only [AProg.andThen, AProg.runX]
    rcases t.executeX A E.toTEnv m with ⟨⟨t1, e | v | _⟩, ex⟩
    · exact settle_andThen _ ((k _).runX_andThen A E κ Q hκ _)
    · exact settle_andThen _ ((k _).runX_andThen A E κ Q hκ _)
    · exact .inl rfl
  | .prepare a k, t => by
    simp only [AProg.andThen, AProg.runX]
    rcases t.preparingX E.toTEnv a.caption (a.runX A E []) with ⟨⟨t1, e | v | _⟩, ex⟩
    · exact settle_andThen _ ((k _).runX_andThen A E κ Q hκ _)
    · exact settle_andThen _ ((k _).runX_andThen A E κ Q hκ _)
    · exact .inl rfl
  | .expect x o a k, t => by
    simp only [AProg.andThen, AProg.runX]
    rcases t.expectingX E.scope x o a.caption a.configure (fun os => a.runX A E os)
      with ⟨⟨t1, cs, e⟩, ex⟩
    simp only
    rcases e.backX E.toTEnv ex with _ | ⟨r, ex⟩
    · exact .inl rfl
    · exact settle_andThen _ ((k _).runX_andThen A E κ Q hκ _)
where
  settle_andThen {Q : TSt W R → Prop} {r : XRes W R} (ex : Bool) (h : r.1.2 = .running ∨ Q r.1.1) :
      (r.settle ex).1.2 = .running ∨ Q (r.settle ex).1.1 := by
    rw [settle_did]
    refine h.imp (fun h => ?_) id
    cases ex
    · exact h
    · simp [XRes.settle, h]

theorem afterCall_runX (A : App W R) (E : UEnv W) (r : TRes) (t : TSt W R) :
    ((AProg.afterCall r : AProg W).runX A E t).1.1 = t := by
  rcases r with v | e <;> simp only [AProg.afterCall, AProg.runX]

/-- **C116.** `Call()` puts things back however the function ends: whether it returns, panics or leaves
the goroutine (because it, or anything nested in it, called `FailNow()` of the `*testing.T`), and
whatever it does to the executor: afterwards the executor can not be used outside of actions, and with
`InterceptCommandExecutor()` the interceptor is what it was before. -/
theorem C116_call (A : App W R) (E : UEnv W) (fn : AProg W) (ic : Option (Message → IProg W))
    (extra : List OpOption) (t : TSt W R)
    (h : ((UAction.calling fn ic).runX A E extra t).1.2 ≠ .running) :
    ((UAction.calling fn ic).runX A E extra t).1.1.bound = none ∧
    (ic.isSome = true → ((UAction.calling fn ic).runX A E extra t).1.1.icept = t.icept) := by
  revert h
  cases ic with
  | none =>
    simp only [UAction.calling, UAction.runX, AProg.runX]
    intro h
    rcases AProg.runX_andThen A E (fun r => .unbind (.afterCall r)) (fun t => t.bound = none)
      (fun r t => by simp only [AProg.runX, afterCall_runX]) fn
      { t with bound := some (t.actOpts extra) } with g | g
    · exact absurd g h
    · exact ⟨g, nofun⟩
  | some f =>
    simp only [UAction.calling, UAction.runX, AProg.runX]
    intro h
    rcases AProg.runX_andThen A E (fun r => .intercept t.icept fun _ => .unbind (.afterCall r))
      (fun t' => t'.bound = none ∧ t'.icept = t.icept)
      (fun r t => by simp only [AProg.runX, afterCall_runX]; exact ⟨trivial, trivial⟩) fn
      { t with bound := some (t.actOpts extra), icept := some f } with g | g
    · exact absurd g h
    · exact ⟨g.1, fun _ => g.2⟩

/-! ## Programs that do not tell the difference -/

/-- The two results are the same. -/
def XRes.Same (x : XRes W R) (r : TSt W R × Outcome (Option TErr)) : Prop :=
  x.1 = r ∧ (r.2 ≠ .running → x.2 = r.2.leaves)

/-- It does not return, and panics only with `goexit`. -/
def Outcome.gone {α : Type} (o : Outcome α) : Prop := o = .running ∨ o = .panicked goexit

theorem XRes.Same.settle {x : XRes W R} {r : TSt W R × Outcome (Option TErr)} (h : x.Same r)
    {ex : Bool} (hr : ex = true → r.2.gone) : (x.settle ex).Same r := by
  cases ex
  · exact h
  · obtain ⟨rfl, h⟩ := h
    rcases x with ⟨⟨t, e | v | _⟩, b⟩
    · rcases hr rfl with h | h <;> cases h
    · rcases hr rfl with h | h <;> cases h
      exact ⟨rfl, fun _ => by simp [XRes.settle, Outcome.leaves]⟩
    · exact ⟨rfl, fun h => absurd rfl h⟩

theorem IProg.gone_run (A : App W R) (E : TEnv W) (os : List OpOption) (p : IProg W) :
    p.Gone → ∀ t : TSt W R, (p.run A E os t).2.gone := by
  induction p with
  | ret e => intro h; exact h.elim
  | panic v => intro h t; exact .inr (by rw [show v = goexit from h]; rfl)
  | get k ih => intro h t; exact ih _ (h _) t
  | set w k ih => intro h t; exact ih h _
  | next m k ih =>
    intro h t
    unfold IProg.run
    rcases t.engine A (.dispatch E.fuel m os) with ⟨t1, e | v | _⟩
    · exact ih _ (h _) t1
    · exact ih _ (h _) t1
    · exact .inl rfl

theorem IProg.runX_same (A : App W R) (E : TEnv W) (os : List OpOption) (p : IProg W) :
    p.Through → ∀ t : TSt W R, (p.runX A E os t).Same (p.run A E os t) := by
  induction p with
  | ret e => intro _ t; exact ⟨rfl, fun _ => rfl⟩
  | panic v => intro _ t; exact ⟨rfl, fun _ => rfl⟩
  | get k ih => intro h t; exact ih _ (h _) t
  | set w k ih => intro h t; exact ih h _
  | next m k ih =>
    intro h t
    unfold IProg.run IProg.runX
    rcases t.engine A (.dispatch E.fuel m os) with ⟨t1, e | v | _⟩
    · exact ih _ (h.2 _) t1
    · refine (ih _ (h.2 _) t1).settle fun hv => ?_
      rw [show v = goexit from of_decide_eq_true hv]
      exact IProg.gone_run A E os _ h.1 t1
    · exact ⟨rfl, fun h => absurd rfl h⟩

theorem executeX_same (A : App W R) (E : TEnv W) {t : TSt W R} (h : t.Through) (m : Message) :
    (t.executeX A E m).Same (t.execute A E m) := by
  rcases t with ⟨sys, clock, opts, _ | os, ic, did⟩
  · exact ⟨rfl, fun _ => rfl⟩
  · rcases ic with _ | f
    · exact ⟨rfl, fun _ => rfl⟩
    · exact IProg.runX_same A E _ _ (h f rfl m) _

theorem preparingX_same {E : TEnv W} (cap : Except PanicVal String) {act : TSt W R → XRes W R}
    {act' : TSt W R → TSt W R × Outcome (Option TErr)} {t : TSt W R}
    (h : ∀ o, (act (t.say o)).Same (act' (t.say o))) :
    (t.preparingX E cap act).Same (t.preparing E cap act') := by
  unfold TSt.preparingX TSt.preparing
  rcases cap with v | c
  · exact ⟨rfl, fun _ => rfl⟩
  · obtain ⟨h1, h2⟩ := h (.log ("--- " ++ c ++ " ---"))
    simp only
    rw [← h1] at h2 ⊢
    generalize act (t.say (.log ("--- " ++ c ++ " ---"))) = r at h2 ⊢
    refine ⟨rfl, ?_⟩
    rcases r with ⟨⟨t1, (_ | e) | v | _⟩, ex⟩
    · intro _
      rw [show ex = false from h2 nofun]; rfl
    · intro _
      rw [show ex = false from h2 nofun]; rfl
    · intro _
      have : ex = decide (v = goexit) := h2 nofun
      subst this
      exact Bool.or_self _
    · intro h; exact absurd rfl h

theorem expectingX_same (S : PScope) {x : Expected} (hx : x.Calm) (o : Nat)
    (cap : Except PanicVal String) (conf : PredOpts → Except PanicVal PredOpts)
    {act : List OpOption → TSt W R → XRes W R}
    {act' : List OpOption → TSt W R → TSt W R × Outcome (Option TErr)} {t : TSt W R}
    (h : ∀ os o, (act os (t.say o)).Same (act' os (t.say o))) :
    (t.expectingX S x o cap conf act).1 = t.expecting S x o cap conf act' ∧
    ((t.expecting S x o cap conf act').2.2 ≠ .running →
      (t.expectingX S x o cap conf act).2 = (t.expecting S x o cap conf act').2.2.leaves) := by
  unfold TSt.expectingX TSt.expecting TSt.performs
  rcases conf S.opts with v | po
  · exact ⟨rfl, fun _ => rfl⟩
  rcases cap with v | c
  · exact ⟨rfl, fun _ => rfl⟩
  rcases x.caption with v | c'
  · exact ⟨rfl, fun _ => rfl⟩
  simp only
  rcases hb : x.build { S with opts := po } with j | m | v
  · obtain ⟨h1, h2⟩ := h [.observer o] (.log ("--- expect " ++ c ++ " " ++ c' ++ " ---"))
    simp only [Option.any_some]
    rw [← h1] at h2 ⊢
    generalize t.say (.log ("--- expect " ++ c ++ " " ++ c' ++ " ---")) = t0 at h2 ⊢
    generalize act [.observer o] t0 = r at h2 ⊢
    refine ⟨rfl, ?_⟩
    rcases r with ⟨⟨t1, e | v | _⟩, ex⟩
    · intro _
      rw [show ex = false from h2 nofun]; rfl
    · intro _
      have hv : ex = decide (v = goexit) := h2 nofun
      show (ex || _) = _
      cases ex
      · rfl
      · have hv := of_decide_eq_true hv.symm
        subst hv
        unfold TSt.judge
        simp only
        rcases hd : j.done (toldIn o (t1.did.drop t0.did.length)) with _ | v
        · rfl
        · rw [hx _ j hb _ v hd]; rfl
    · intro h; exact absurd rfl h
  · exact ⟨rfl, fun _ => rfl⟩
  · exact ⟨rfl, fun _ => rfl⟩

theorem AProg.gone_run (A : App W R) (E : UEnv W) : (p : AProg W) → p.Gone → ∀ t : TSt W R,
    (p.run A E t).2.gone
  | .ret _, h, _ => by simp only [AProg.Gone] at h
  | .panic v, h, t => by
    simp only [AProg.Gone] at h; subst h; simp only [AProg.run]; exact .inr rfl
  | .get k, h, t => by
    simp only [AProg.run]; simp only [AProg.Gone] at h; exact (k _).gone_run A E (h _) t
  | .set w k, h, t => by
    simp only [AProg.run]; simp only [AProg.Gone] at h; exact k.gone_run A E h _
  | .clock k, h, t => by
    simp only [AProg.run]; simp only [AProg.Gone] at h; exact (k _).gone_run A E (h _) t
  | .setClock c k, h, t => by
    simp only [AProg.run]; simp only [AProg.Gone] at h; exact k.gone_run A E h _
  | .op c k, h, t => by
    simp only [AProg.run]; simp only [AProg.Gone] at h
    rcases t.engine A (c.op E.toTEnv t.sys.w) with ⟨t1, e | v | _⟩
    · exact (k _).gone_run A E (h _) t1
    · exact (k _).gone_run A E (h _) t1
    · exact .inl rfl
  | .bind os k, h, t => by
    simp only [AProg.run]; simp only [AProg.Gone] at h; exact k.gone_run A E h _
  | .unbind k, h, t => by
    simp only [AProg.run]; simp only [AProg.Gone] at h; exact k.gone_run A E h _
  | .intercept f k, h, t => by
    simp only [AProg.run]; simp only [AProg.Gone] at h; exact (k _).gone_run A E (h _) _
  | .exec m k, h, t => by
    simp only [AProg.run]; simp only [AProg.Gone] at h
    rcases t.execute A E.toTEnv m with ⟨t1, e | v | _⟩
    · exact (k _).gone_run A E (h _) t1
    · exact (k _).gone_run A E (h _) t1
    · exact .inl rfl
  | .prepare a k, h, t => by
    simp only [AProg.run]; simp only [AProg.Gone] at h
    rcases t.preparing E.toTEnv a.caption (a.run A E []) with ⟨t1, e | v | _⟩
    · exact (k _).gone_run A E (h _) t1
    · exact (k _).gone_run A E (h _) t1
    · exact .inl rfl
  | .expect x o a k, h, t => by
    simp only [AProg.run]; simp only [AProg.Gone] at h
    rcases t.expecting E.scope x o a.caption a.configure (fun os => a.run A E os) with ⟨t1, cs, e⟩
    simp only
    rcases e.back E.toTEnv with _ | r
    · exact .inl rfl
    · exact (k _).gone_run A E (h _) t1

theorem IProg.run_icept (A : App W R) (E : TEnv W) (os : List OpOption) (p : IProg W) :
    ∀ t : TSt W R, (p.run A E os t).1.icept = t.icept := by
  induction p with
  | ret e => intro t; rfl
  | panic v => intro t; rfl
  | get k ih => intro t; exact ih _ t
  | set w k ih => intro t; exact ih { t with sys := { t.sys with w := w } }
  | next m k ih =>
    intro t
    have h : (t.engine A (.dispatch E.fuel m os)).1.icept = t.icept := rfl
    unfold IProg.run
    rcases hx : t.engine A (.dispatch E.fuel m os) with ⟨t1, o⟩
    rw [hx] at h
    cases o with
    | done e => exact (ih _ t1).trans h
    | panicked v => exact (ih _ t1).trans h
    | running => exact h

theorem execute_icept (A : App W R) (E : TEnv W) (t : TSt W R) (m : Message) :
    (t.execute A E m).1.icept = t.icept := by
  rcases t with ⟨sys, clock, opts, _ | os, _ | f, did⟩
  · rfl
  · rfl
  · rfl
  · exact IProg.run_icept A E os (f m) _

theorem preparing_through {E : TEnv W} (cap : Except PanicVal String)
    {act : TSt W R → TSt W R × Outcome (Option TErr)} {t : TSt W R} (ht : t.Through)
    (h : ∀ o, (act (t.say o)).1.Through) : (t.preparing E cap act).1.Through := by
  unfold TSt.preparing
  rcases cap with v | c
  · exact ht
  · have h := h (.log ("--- " ++ c ++ " ---"))
    simp only
    generalize act (t.say (.log ("--- " ++ c ++ " ---"))) = r at h ⊢
    rcases r with ⟨t1, (_ | e) | v | _⟩
    · exact h
    · exact h
    · exact h
    · exact h

theorem expecting_through (S : PScope) (x : Expected) (o : Nat)
    (cap : Except PanicVal String) (conf : PredOpts → Except PanicVal PredOpts)
    {act : List OpOption → TSt W R → TSt W R × Outcome (Option TErr)} {t : TSt W R} (ht : t.Through)
    (h : ∀ os o, (act os (t.say o)).1.Through) : (t.expecting S x o cap conf act).1.Through := by
  unfold TSt.expecting
  rcases conf S.opts with v | po
  · exact ht
  rcases cap with v | c
  · exact ht
  rcases x.caption with v | c'
  · exact ht
  simp only
  rcases x.build { S with opts := po } with j | m | v
  · have h := h [.observer o] (.log ("--- expect " ++ c ++ " " ++ c' ++ " ---"))
    simp only
    generalize t.say (.log ("--- expect " ++ c ++ " " ++ c' ++ " ---")) = t0 at h ⊢
    generalize act [.observer o] t0 = r at h ⊢
    rcases hz : t0.judge j o r with ⟨t', calls, e⟩
    obtain ⟨_, _, _, _, _, ⟨l, -, rfl⟩, -⟩ := judge_cases j o t0 r hz
    exact h
  · exact ht
  · exact ht

mutual
theorem UAction.runX_same (A : App W R) (E : UEnv W) : (a : UAction W) → a.Through →
    ∀ (extra : List OpOption) (t : TSt W R), t.Through →
      (a.runX A E extra t).Same (a.run A E extra t) ∧ (a.run A E extra t).1.Through
  | .mk c f act, h, extra, t, ht => by
    simp only [UAction.runX, UAction.run]
    simp only [UAction.Through] at h
    exact (act _).runX_same A E (h _) t ht
theorem AProg.runX_same (A : App W R) (E : UEnv W) : (p : AProg W) → p.Through →
    ∀ t : TSt W R, t.Through → (p.runX A E t).Same (p.run A E t) ∧ (p.run A E t).1.Through
  | .ret e, _, t, ht => by simp only [AProg.runX, AProg.run]; exact ⟨⟨rfl, fun _ => rfl⟩, ht⟩
  | .panic v, _, t, ht => by simp only [AProg.runX, AProg.run]; exact ⟨⟨rfl, fun _ => rfl⟩, ht⟩
  | .get k, h, t, ht => by
    simp only [AProg.runX, AProg.run]; simp only [AProg.Through] at h
    exact (k _).runX_same A E (h _) t ht
  | .set w k, h, t, ht => by
    simp only [AProg.runX, AProg.run]; simp only [AProg.Through] at h
    exact k.runX_same A E h { t with sys := { t.sys with w := w } } ht
  | .clock k, h, t, ht => by
    simp only [AProg.runX, AProg.run]; simp only [AProg.Through] at h
    exact (k _).runX_same A E (h _) t ht
  | .setClock c k, h, t, ht => by
    simp only [AProg.runX, AProg.run]; simp only [AProg.Through] at h
    exact k.runX_same A E h { t with clock := c } ht
  | .op c k, h, t, ht => by
    simp only [AProg.runX, AProg.run]; simp only [AProg.Through] at h
    have h1 : (t.engine A (c.op E.toTEnv t.sys.w)).1.Through := ht
    rcases hx : t.engine A (c.op E.toTEnv t.sys.w) with ⟨t1, e | v | _⟩
    · rw [hx] at h1; exact (k _).runX_same A E (h.2 _) t1 h1
    · rw [hx] at h1
      obtain ⟨g1, g2⟩ := (k (.error v)).runX_same A E (h.2 _) t1 h1
      refine ⟨g1.settle fun hv => ?_, g2⟩
      rw [show v = goexit from of_decide_eq_true hv]
      exact (k _).gone_run A E h.1 t1
    · rw [hx] at h1; exact ⟨⟨rfl, fun h => absurd rfl h⟩, h1⟩
  | .bind os k, h, t, ht => by
    simp only [AProg.runX, AProg.run]; simp only [AProg.Through] at h
    exact k.runX_same A E h { t with bound := some os } ht
  | .unbind k, h, t, ht => by
    simp only [AProg.runX, AProg.run]; simp only [AProg.Through] at h
    exact k.runX_same A E h { t with bound := none } ht
  | .intercept f k, h, t, ht => by
    simp only [AProg.runX, AProg.run]; simp only [AProg.Through] at h
    exact (k _).runX_same A E (h.2 _ ht) { t with icept := f } h.1
  | .exec m k, h, t, ht => by
    simp only [AProg.runX, AProg.run]; simp only [AProg.Through] at h
    have h1 : (t.execute A E.toTEnv m).1.Through := by
      unfold TSt.Through; rw [execute_icept]; exact ht
    have h2 := executeX_same A E.toTEnv ht m
    rcases hx : t.execute A E.toTEnv m with ⟨t1, o⟩
    rcases hy : t.executeX A E.toTEnv m with ⟨⟨t2, o2⟩, ex⟩
    rw [hx] at h1 h2
    rw [hy] at h2
    obtain ⟨h2, h3⟩ := h2
    cases h2
    cases o with
    | done e =>
      have : ex = false := h3 nofun
      subst this
      exact (k _).runX_same A E (h.2 _) t1 h1
    | panicked v =>
      have : ex = decide (v = goexit) := h3 nofun
      obtain ⟨g1, g2⟩ := (k (.error v)).runX_same A E (h.2 _) t1 h1
      refine ⟨g1.settle fun hv => ?_, g2⟩
      rw [this] at hv
      rw [show v = goexit from of_decide_eq_true hv]
      exact (k _).gone_run A E h.1 t1
    | running => exact ⟨⟨rfl, fun h => absurd rfl h⟩, h1⟩
  | .prepare a k, h, t, ht => by
    simp only [AProg.runX, AProg.run]; simp only [AProg.Through] at h
    have h1 := preparing_through (E := E.toTEnv) a.caption (act := a.run A E []) ht
      (fun o => (a.runX_same A E h.1 [] (t.say o) ht).2)
    have h2 := preparingX_same (E := E.toTEnv) a.caption (act := a.runX A E []) (act' := a.run A E [])
      (t := t) (fun o => (a.runX_same A E h.1 [] (t.say o) ht).1)
    rcases hx : t.preparing E.toTEnv a.caption (a.run A E []) with ⟨t1, o⟩
    rcases hy : t.preparingX E.toTEnv a.caption (a.runX A E []) with ⟨⟨t2, o2⟩, ex⟩
    rw [hx] at h1 h2
    rw [hy] at h2
    obtain ⟨h2, h3⟩ := h2
    cases h2
    cases o with
    | done e =>
      have : ex = false := h3 nofun
      subst this
      exact (k _).runX_same A E (h.2.2 _) t1 h1
    | panicked v =>
      have : ex = decide (v = goexit) := h3 nofun
      obtain ⟨g1, g2⟩ := (k (.error v)).runX_same A E (h.2.2 _) t1 h1
      refine ⟨g1.settle fun hv => ?_, g2⟩
      rw [this] at hv
      rw [show v = goexit from of_decide_eq_true hv]
      exact (k _).gone_run A E h.2.1 t1
    | running => exact ⟨⟨rfl, fun h => absurd rfl h⟩, h1⟩
  | .expect x o a k, h, t, ht => by
    simp only [AProg.runX, AProg.run]; simp only [AProg.Through] at h
    have h1 := expecting_through E.scope x o a.caption a.configure (act := fun os => a.run A E os) ht
      (fun os o => (a.runX_same A E h.2.1 os (t.say o) ht).2)
    have h2 := expectingX_same E.scope h.1 o a.caption a.configure (act := fun os => a.runX A E os)
      (act' := fun os => a.run A E os) (t := t) (fun os o => (a.runX_same A E h.2.1 os (t.say o) ht).1)
    rcases hx : t.expecting E.scope x o a.caption a.configure (fun os => a.run A E os) with ⟨t1, cs, e⟩
    rcases hy : t.expectingX E.scope x o a.caption a.configure (fun os => a.runX A E os)
      with ⟨⟨t2, cs2, e2⟩, ex⟩
    rw [hx] at h1 h2
    rw [hy] at h2
    obtain ⟨h2, h3⟩ := h2
    cases h2
    have pan : ∀ v b, (b = true → v = goexit) →
        (((k (.error v)).runX A E t1).settle b).Same ((k (.error v)).run A E t1) ∧
          ((k (.error v)).run A E t1).1.Through := by
      intro v b hb
      obtain ⟨g1, g2⟩ := (k (.error v)).runX_same A E (h.2.2.2 _) t1 h1
      refine ⟨g1.settle fun hv => ?_, g2⟩
      rw [hb hv]
      exact (k _).gone_run A E h.2.2.1 t1
    cases e with
    | passed =>
      have : ex = false := h3 nofun
      subst this
      exact (k _).runX_same A E (h.2.2.2 _) t1 h1
    | failed =>
      have : ex = false := h3 nofun
      subst this
      simp only [EEnd.backX, EEnd.back]
      rcases E.fatal with _ | v
      · exact (k _).runX_same A E (h.2.2.2 _) t1 h1
      · exact pan v _ (fun h => of_decide_eq_true h)
    | panicked v =>
      have : ex = decide (v = goexit) := h3 nofun
      exact pan v _ (by rw [this]; simp)
    | running => exact ⟨⟨rfl, fun h => absurd rfl h⟩, h1⟩
end

/-- **C116.** If nothing takes `runtime.Goexit()` for a panic to recover from, all is as if it were a
panic: what has been proved of `Prepare()` in this case, holds. -/
theorem C116_same_prepare (A : App W R) (E : UEnv W) (a : UAction W) (ha : a.Through) (t : TSt W R)
    (ht : t.Through) : (t.prepareX A E a).1 = t.prepareU A E a :=
  (preparingX_same (E := E.toTEnv) a.caption (act := a.runX A E []) (act' := a.run A E [])
    (fun o => (a.runX_same A E ha [] (t.say o) ht).1)).1

/-- **C116.** The same for `Expect()`. -/
theorem C116_same_expect (A : App W R) (E : UEnv W) (x : Expected) (hx : x.Calm) (o : Nat)
    (a : UAction W) (ha : a.Through) (t : TSt W R) (ht : t.Through) :
    (t.expectX A E x o a).1 = t.expectU A E x o a :=
  (expectingX_same E.scope hx o a.caption a.configure (act := fun os => a.runX A E os)
    (act' := fun os => a.run A E os) (fun os o => (a.runX_same A E ha os (t.say o) ht).1)).1

theorem AProg.gone_andThen {κ : TRes → AProg W} (hκ : (κ (.error goexit)).Gone) : (p : AProg W) →
    p.Gone → (p.andThen κ).Gone
  | .ret _, h => by simp only [AProg.Gone] at h
  | .panic v, h => by
    simp only [AProg.Gone] at h; subst h; simp only [AProg.andThen]; exact hκ
  | .get k, h => by
    simp only [AProg.andThen, AProg.Gone] at h ⊢; exact fun w => (k w).gone_andThen hκ (h w)
  | .set w k, h => by
    simp only [AProg.andThen, AProg.Gone] at h ⊢; exact k.gone_andThen hκ h
  | .clock k, h => by
    simp only [AProg.andThen, AProg.Gone] at h ⊢; exact fun w => (k w).gone_andThen hκ (h w)
  | .setClock c k, h => by
    simp only [AProg.andThen, AProg.Gone] at h ⊢; exact k.gone_andThen hκ h
  | .op c k, h => by
    simp only [AProg.andThen, AProg.Gone] at h ⊢; exact fun w => (k w).gone_andThen hκ (h w)
  | .bind os k, h => by
    simp only [AProg.andThen, AProg.Gone] at h ⊢; exact k.gone_andThen hκ h
  | .unbind k, h => by
    simp only [AProg.andThen, AProg.Gone] at h ⊢; exact k.gone_andThen hκ h
  | .intercept f k, h => by
    simp only [AProg.andThen, AProg.Gone] at h ⊢; exact fun w => (k w).gone_andThen hκ (h w)
  | .exec m k, h => by
    simp only [AProg.andThen, AProg.Gone] at h ⊢; exact fun w => (k w).gone_andThen hκ (h w)
  | .prepare a k, h => by
    simp only [AProg.andThen, AProg.Gone] at h ⊢; exact fun w => (k w).gone_andThen hκ (h w)
  | .expect x o a k, h => by
    simp only [AProg.andThen, AProg.Gone] at h ⊢; exact fun w => (k w).gone_andThen hκ (h w)

theorem AProg.through_andThen {κ : TRes → AProg W} (hκ : (κ (.error goexit)).Gone)
    (hr : ∀ r, (κ r).Through) : (p : AProg W) → p.Through → (p.andThen κ).Through
  | .ret _, _ => by simp only [AProg.andThen]; exact hr _
  | .panic v, _ => by simp only [AProg.andThen]; exact hr _
  | .get k, h => by
    simp only [AProg.andThen, AProg.Through] at h ⊢; exact fun w => (k w).through_andThen hκ hr (h w)
  | .set w k, h => by
    simp only [AProg.andThen, AProg.Through] at h ⊢; exact k.through_andThen hκ hr h
  | .clock k, h => by
    simp only [AProg.andThen, AProg.Through] at h ⊢; exact fun w => (k w).through_andThen hκ hr (h w)
  | .setClock c k, h => by
    simp only [AProg.andThen, AProg.Through] at h ⊢; exact k.through_andThen hκ hr h
  | .op c k, h => by
    simp only [AProg.andThen, AProg.Through] at h ⊢
    exact ⟨(k _).gone_andThen hκ h.1, fun w => (k w).through_andThen hκ hr (h.2 w)⟩
  | .bind os k, h => by
    simp only [AProg.andThen, AProg.Through] at h ⊢; exact k.through_andThen hκ hr h
  | .unbind k, h => by
    simp only [AProg.andThen, AProg.Through] at h ⊢; exact k.through_andThen hκ hr h
  | .intercept f k, h => by
    simp only [AProg.andThen, AProg.Through] at h ⊢
    exact ⟨h.1, fun p hp => (k p).through_andThen hκ hr (h.2 p hp)⟩
  | .exec m k, h => by
    simp only [AProg.andThen, AProg.Through] at h ⊢
    exact ⟨(k _).gone_andThen hκ h.1, fun w => (k w).through_andThen hκ hr (h.2 w)⟩
  | .prepare a k, h => by
    simp only [AProg.andThen, AProg.Through] at h ⊢
    exact ⟨h.1, (k _).gone_andThen hκ h.2.1, fun w => (k w).through_andThen hκ hr (h.2.2 w)⟩
  | .expect x o a k, h => by
    simp only [AProg.andThen, AProg.Through] at h ⊢
    exact ⟨h.1, h.2.1, (k _).gone_andThen hκ h.2.2.1, fun w => (k w).through_andThen hκ hr (h.2.2.2 w)⟩

theorem afterCall_through (r : TRes) : (AProg.afterCall r : AProg W).Through := by
  rcases r with v | e <;> simp only [AProg.afterCall, AProg.Through]

/-- `Call()` does not take `runtime.Goexit()` for a panic to recover from. -/
theorem calling_through {fn : AProg W} (h : fn.Through) {ic : Option (Message → IProg W)}
    (hi : ∀ g, ic = some g → ∀ m, (g m).Through) : (UAction.calling fn ic).Through := by
  rcases ic with _ | f
  · simp only [UAction.calling, UAction.Through, AProg.Through]
    intro _
    refine AProg.through_andThen ?_ (fun r => ?_) fn h
    · simp only [AProg.Gone, AProg.afterCall]
    · simp only [AProg.Through]; exact afterCall_through r
  · simp only [UAction.calling, UAction.Through, AProg.Through]
    refine fun _ => ⟨hi, fun p hp => ?_⟩
    refine AProg.through_andThen ?_ (fun r => ?_) fn h
    · simp only [AProg.Gone, AProg.afterCall]; exact fun _ => trivial
    · simp only [AProg.Through]; exact ⟨hp, fun _ _ => afterCall_through r⟩

/-! ## Examples -/

/-- A test with the `*testing.T` of Go. -/
def Demo.real : UEnv Nat := { Demo.uenv with fatal := some goexit }

/-- The expectation, if `Done()` of its predicates does not panic. -/
def Demo.quiet (x : Expectation) : Expected where
  caption := (Demo.expected x).caption
  build s := match (Demo.expected x).build s with
    | .ok j => .ok { j with done := fun _ => none }
    | .err m => .err m
    | .panic v => .panic v

theorem Demo.quiet_calm (x : Expectation) : (Demo.quiet x).Calm := by
  intro S j h fs v hv
  revert h
  unfold Demo.quiet
  simp only
  rcases (Demo.expected x).build S with j' | m | w
  · intro h; cases h; cases hv
  · intro h; cases h
  · intro h; cases h

/-- A function for `Call()` that executes a command and expects something else of another action; on a
panic, does as told. -/
def Demo.within (k : PanicVal → AProg Nat) (x : Expectation) : AProg Nat :=
  .exec (Demo.msgC "z") fun
    | .error v => .panic v
    | .ok _ => .expect (Demo.quiet x) 8 (Demo.sends "x") fun
      | .ok _ => .op (.dispatch (Demo.msgC "y") []) .ofRes
      | .error v => k v

/-- As `Demo.fails`, with whether the executor is bound afterwards. -/
def Demo.failsX (E : UEnv Nat) (a : UAction Nat) : EEnd × List Bool × Nat × Bool :=
  let r := (Demo.t0.expectX Demo.app E (Demo.quiet (.type Demo.evtE)) 7 a).1
  (r.2.2, r.1.did.map TObs.isFailure, (opsOf r.1.did).length, r.1.bound.isSome)

/-- Recovers from panics, and dispatches another command. -/
def Demo.retries (_ : PanicVal) : AProg Nat := .op (.dispatch (Demo.msgC "y") []) .ofRes

/-- Recovers from panics. -/
def Demo.ignores (_ : PanicVal) : AProg Nat := .ret none

theorem Demo.sends_tidy (s : String) : (Demo.sends s).Tidy := by
  unfold Demo.sends
  simp only [UAction.Tidy, AProg.Tidy]
  intro os r
  cases r <;> simp only [AProg.ofRes, AProg.Tidy]

theorem Demo.within_tidy (x : Expectation) :
    (UAction.calling (Demo.within Demo.ignores x) none).Tidy := by
  simp only [UAction.calling, Demo.within, AProg.andThen, UAction.Tidy, AProg.Tidy]
  intro os r
  rcases r with v | e
  · simp only [AProg.andThen, AProg.afterCall, AProg.Tidy]
  · simp only [AProg.andThen, AProg.Tidy]
    refine ⟨Demo.quiet_calm x, Demo.sends_tidy _, ?_, fun r => ?_⟩
    · simp only [Demo.ignores, AProg.andThen, AProg.Restores, AProg.afterCall]
    · rcases r with v | e
      · simp only [Demo.ignores, AProg.andThen, AProg.Tidy, AProg.afterCall]
      · simp only [AProg.andThen, AProg.Tidy]
        intro r
        rcases r with v | e <;> simp only [AProg.ofRes, AProg.andThen, AProg.Tidy, AProg.afterCall]

theorem Demo.within_through (x : Expectation) :
    (UAction.calling (Demo.within .panic x) none).Through := by
  refine calling_through ?_ (fun g h => nomatch h)
  unfold Demo.within
  simp only [AProg.Through, AProg.Gone]
  refine ⟨trivial, fun r => ?_⟩
  rcases r with v | e
  · simp only [AProg.Through]
  · simp only [AProg.Through, AProg.Gone]
    refine ⟨Demo.quiet_calm x, ?_, trivial, fun r => ?_⟩
    · unfold Demo.sends
      simp only [UAction.Through, AProg.Through, AProg.ofRes, AProg.Gone]
      refine fun _ => ⟨trivial, fun r => ?_⟩
      rcases r with v | e <;> simp only [AProg.Through]
    · rcases r with v | e
      · simp only [AProg.Through]
      · simp only [AProg.Through, AProg.ofRes, AProg.Gone]
        refine ⟨trivial, fun r => ?_⟩
        rcases r with v | e <;> simp only [AProg.Through]

set_option maxRecDepth 100000 in
/-- With the `*testing.T` of Go, an expectation does not pass if one nested in it fails, even if the
function given to `Call()` recovers from panics; with a `TestingT` that panics, it does. -/
example : Demo.real.fatal = some goexit ∧ Demo.t0.Through ∧
    (∀ x, (UAction.calling (Demo.within Demo.ignores x) none).Tidy) ∧
    (∀ x, (UAction.calling (Demo.within .panic x) none).Through) ∧
    (judgeOf Demo.real.scope (Demo.quiet (.type Demo.evtE))
      (UAction.calling (Demo.within Demo.ignores (.not (.type Demo.evtE))) none)).isSome = true ∧
    Demo.failsX Demo.real (.calling (Demo.within .panic (.type Demo.evtE)) none) =
      (.passed, [false, false, false, false, false, false, false, false], 3, false) ∧
    Demo.failsX Demo.real (.calling (Demo.within .panic (.not (.type Demo.evtE))) none) =
      (.panicked goexit, [false, false, false, false, false, false, true], 2, false) ∧
    Demo.failsX Demo.real (.calling (Demo.within Demo.ignores (.not (.type Demo.evtE))) none) =
      (.panicked goexit, [false, false, false, false, false, false, true], 2, false) ∧
    Demo.failsX Demo.real (.calling (Demo.within Demo.retries (.not (.type Demo.evtE))) none) =
      (.panicked goexit, [false, false, false, false, false, false, true, false], 3, false) ∧
    Demo.failsX Demo.strict (.calling (Demo.within Demo.ignores (.not (.type Demo.evtE))) none) =
      (.passed, [false, false, false, false, false, false, true, false], 2, false) :=
  ⟨rfl, (fun g h => nomatch h), Demo.within_tidy, Demo.within_through, by decide +kernel,
    by decide +kernel, by decide +kernel, by decide +kernel, by decide +kernel, by decide +kernel⟩

end Verif
