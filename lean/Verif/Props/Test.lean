import Verif.Protocol
import Verif.Options
import Verif.Demo

/-!
# Tests: virtual clock, executor, enabled handlers (C56, C59 - C63)
-/

namespace Verif

variable {W R : Type}

/-- Everything but the engine's state and the record of what was done is the same. -/
structure TSt.Same (t t' : TSt W R) : Prop where
  clock : t'.clock = t.clock
  opts : t'.opts = t.opts
  bound : t'.bound = t.bound
  icept : t'.icept = t.icept

theorem TSt.Same.refl (t : TSt W R) : t.Same t := ⟨rfl, rfl, rfl, rfl⟩

theorem TSt.Same.trans {a b c : TSt W R} (h : a.Same b) (g : b.Same c) : a.Same c :=
  ⟨g.1.trans h.1, g.2.trans h.2, g.3.trans h.3, g.4.trans h.4⟩

theorem TSt.engine_same (A : App W R) (t : TSt W R) (op : Op) :
    t.Same (t.engine A op).1 ∧
    ∃ f, (t.engine A op).1.did = t.did ++ [.engine t.clock op f] :=
  ⟨⟨rfl, rfl, rfl, rfl⟩, _, rfl⟩

/-- A dispatch with options `os` when the virtual clock showed `c`. -/
def TObs.dispatchAt (c : Time) (os : List OpOption) : TObs → Prop
  | .engine c' (.dispatch _ _ os') _ => c' = c ∧ os' = os
  | _ => False

theorem IProg.run_same (A : App W R) (E : TEnv W) (os : List OpOption) (p : IProg W) :
    ∀ t : TSt W R, t.Same (p.run A E os t).1 ∧
      ∃ l, (p.run A E os t).1.did = t.did ++ l ∧ ∀ x ∈ l, x.dispatchAt t.clock os := by
  induction p with
  | ret e => intro t; exact ⟨.refl t, [], by simp [IProg.run], by simp⟩
  | panic v => intro t; exact ⟨.refl t, [], by simp [IProg.run], by simp⟩
  | get k ih => intro t; exact ih _ t
  | set w k ih =>
    intro t
    obtain ⟨h1, h2⟩ := ih { t with sys := { t.sys with w := w } }
    exact ⟨⟨h1.1, h1.2, h1.3, h1.4⟩, h2⟩
  | next m k ih =>
    intro t
    obtain ⟨h1, f, h2⟩ := t.engine_same A (.dispatch E.fuel m os)
    unfold IProg.run
    rcases hx : t.engine A (.dispatch E.fuel m os) with ⟨t1, o⟩
    rw [hx] at h1 h2
    have hd : TObs.dispatchAt t.clock os (.engine t.clock (.dispatch E.fuel m os) f) := ⟨rfl, rfl⟩
    have go : ∀ r, t.Same ((k r).run A E os t1).1 ∧ ∃ l, ((k r).run A E os t1).1.did = t.did ++ l ∧
        ∀ x ∈ l, x.dispatchAt t.clock os := by
      intro r
      obtain ⟨g1, l, g2, g3⟩ := ih r t1
      refine ⟨h1.trans g1, _ :: l, by rw [g2, h2, List.append_assoc]; rfl, ?_⟩
      intro x hx
      rcases List.mem_cons.1 hx with rfl | hx
      · exact hd
      · have := g3 x hx; rwa [h1.clock] at this
    cases o with
    | done e => exact go _
    | panicked v => exact go _
    | running => exact ⟨h1, _, h2, by simpa using hd⟩

theorem TSt.execute_same (A : App W R) (E : TEnv W) (t : TSt W R) (m : Message) :
    t.Same (t.execute A E m).1 ∧
    ∃ l, (t.execute A E m).1.did = t.did ++ .exec m t.bound.isSome :: l ∧
      ∀ x ∈ l, ∃ os, t.bound = some os ∧ x.dispatchAt t.clock os := by
  obtain ⟨sys, clock, opts, bound, icept, did⟩ := t
  cases bound with
  | none => exact ⟨⟨rfl, rfl, rfl, rfl⟩, [], rfl, by simp⟩
  | some os =>
    cases icept with
    | none =>
      refine ⟨⟨rfl, rfl, rfl, rfl⟩, _, List.append_assoc .., fun x hx => ⟨os, rfl, ?_⟩⟩
      rw [List.mem_singleton.1 hx]; exact ⟨rfl, rfl⟩
    | some f =>
      obtain ⟨h1, l, h2, h3⟩ := (f m).run_same A E os
        ⟨sys, clock, opts, some os, some f, did ++ [TObs.exec m true]⟩
      exact ⟨⟨h1.1, h1.2, h1.3, h1.4⟩, l, h2.trans (List.append_assoc ..),
        fun x hx => ⟨os, rfl, h3 x hx⟩⟩

/-- What holds of every action and every function given to `Call()`. -/
structure TSt.After (t t' : TSt W R) (o : Outcome (Option TErr)) : Prop where
  clock : t.clock ≤ t'.clock
  opts : t'.opts = t.opts
  icept : o ≠ .running → t'.icept = t.icept
  bound : o ≠ .running → t'.bound = t.bound ∨ t'.bound = none

theorem TSt.Same.after {t t' : TSt W R} (h : t.Same t') (o : Outcome (Option TErr)) :
    t.After t' o := ⟨by rw [h.clock]; exact Int.le_refl _, h.opts, fun _ => h.icept, fun _ => .inl h.bound⟩

theorem TSt.After.trans {a b c : TSt W R} {o o' : Outcome (Option TErr)} (h : a.After b o)
    (ho : o ≠ .running) (g : b.After c o') : a.After c o' := by
  refine ⟨Int.le_trans h.clock g.clock, g.opts.trans h.opts, fun k => (g.icept k).trans (h.icept ho), ?_⟩
  intro k
  rcases g.bound k with e | e
  · rw [e]; exact h.bound ho
  · exact .inr e

/-- A call of a method of the `TestingT`. -/
def TObs.isSaid : TObs → Bool
  | .engine .. => false
  | .exec .. => false
  | _ => true

theorem TSt.check_spec (E : TEnv W) (r : TSt W R × Outcome (Option TErr)) :
    ∃ post : List TObs, (∀ o ∈ post, o.isSaid = true) ∧
      (TSt.check E r).1 = { r.1 with did := r.1.did ++ post } ∧
      ((TSt.check E r).2 = .running ↔ r.2 = .running) := by
  obtain ⟨t, o⟩ := r
  rcases o with (_ | e) | v | _
  · exact ⟨[], by simp, by simp [TSt.check], by simp [TSt.check]⟩
  · refine ⟨[.fatal e], by simp [TObs.isSaid], rfl, ?_⟩
    unfold TSt.check
    simp only
    cases E.fatal <;> simp
  · exact ⟨[], by simp, by simp [TSt.check], by simp [TSt.check]⟩
  · exact ⟨[], by simp, by simp [TSt.check], by simp [TSt.check]⟩

theorem TSt.check_same (E : TEnv W) (r : TSt W R × Outcome (Option TErr)) :
    r.1.Same (TSt.check E r).1 := by
  obtain ⟨post, -, h, -⟩ := TSt.check_spec E r
  rw [h]
  exact ⟨rfl, rfl, rfl, rfl⟩

theorem TSt.After.checked {t : TSt W R} {a : Action W} {r : TSt W R × Outcome (Option TErr)}
    (h : (t.announce a).After r.1 r.2) (E : TEnv W) : t.After (TSt.check E r).1 (TSt.check E r).2 := by
  have hs := TSt.check_same E r
  obtain ⟨post, -, -, hr⟩ := TSt.check_spec E r
  refine ⟨by rw [hs.clock]; exact h.clock, hs.opts.trans h.opts,
    fun k => hs.icept.trans (h.icept fun e => k (hr.2 e)), fun k => ?_⟩
  rcases h.bound (fun e => k (hr.2 e)) with e | e
  · exact .inl (hs.bound.trans e)
  · exact .inr (hs.bound.trans e)

mutual
theorem Action.run_after (A : App W R) (E : TEnv W) : (a : Action W) → ∀ (extra : List OpOption)
    (t : TSt W R), t.After (a.run A E extra t).1 (a.run A E extra t).2
  | .dispatch m, extra, t => by
    unfold Action.run
    split
    · exact (t.engine_same A _).1.after _
    · exact (TSt.Same.refl t).after _
  | .advance _ step, extra, t => by
    unfold Action.run
    rcases step t.clock t.sys.w with ⟨w, v | now⟩
    · exact ⟨Int.le_refl _, rfl, fun _ => rfl, fun _ => .inl rfl⟩
    · simp only
      split
      · exact ⟨Int.le_refl _, rfl, fun _ => rfl, fun _ => .inl rfl⟩
      · rename_i h
        exact ⟨Int.not_lt.1 h, rfl, fun _ => rfl, fun _ => .inl rfl⟩
  | .call fn ic, extra, t => by
    unfold Action.run
    have h := fn.run_after A E { t with bound := some (t.actOpts extra), icept := ic.or t.icept }
    rcases hx : fn.run A E { t with bound := some (t.actOpts extra), icept := ic.or t.icept }
      with ⟨t1, o⟩
    rw [hx] at h
    simp only
    have hi : o ≠ .running → (t1.leave t.icept ic.isSome).icept = t.icept := by
      intro ho
      unfold TSt.leave
      cases ic with
      | some f => rfl
      | none => exact (h.icept ho)
    cases o with
    | running => exact ⟨h.clock, h.opts, fun k => absurd rfl k, fun k => absurd rfl k⟩
    | done e => exact ⟨h.clock, h.opts, fun _ => hi nofun, fun _ => .inr rfl⟩
    | panicked v => exact ⟨h.clock, h.opts, fun _ => hi nofun, fun _ => .inr rfl⟩
theorem CProg.run_after (A : App W R) (E : TEnv W) : (p : CProg W) → ∀ (t : TSt W R),
    t.After (p.run A E t).1 (p.run A E t).2
  | .ret, t => by unfold CProg.run; exact (TSt.Same.refl t).after _
  | .panic v, t => by unfold CProg.run; exact (TSt.Same.refl t).after _
  | .get k, t => by unfold CProg.run; exact (k t.sys.w).run_after A E t
  | .set w k, t => by
    unfold CProg.run
    have h := k.run_after A E { t with sys := { t.sys with w := w } }
    exact ⟨h.clock, h.opts, h.icept, h.bound⟩
  | .exec m k, t => by
    unfold CProg.run
    have h := (t.execute_same A E m).1
    rcases hx : t.execute A E m with ⟨t1, o⟩
    rw [hx] at h
    cases o with
    | done e => exact (h.after (.done e)).trans nofun ((k (.ok e)).run_after A E t1)
    | panicked v => exact (h.after (.panicked v)).trans nofun ((k (.error v)).run_after A E t1)
    | running => exact h.after _
  | .act a k, t => by
    unfold CProg.run
    have h := (a.run_after A E [] (t.announce a)).checked E
    rcases hx : TSt.check E (a.run A E [] (t.announce a)) with ⟨t1, o⟩
    rw [hx] at h
    cases o with
    | done e => exact h.trans nofun ((k (.ok e)).run_after A E t1)
    | panicked v => exact h.trans nofun ((k (.error v)).run_after A E t1)
    | running => exact h
end

/-! ## C56 -/

/-- **C56.** No action moves the virtual clock backwards, however it ends and whatever actions
are performed within it. -/
theorem C56_forwards (A : App W R) (E : TEnv W) (a : Action W) (extra : List OpOption)
    (t : TSt W R) : t.clock ≤ (a.run A E extra t).1.clock := (a.run_after A E extra t).clock

mutual
/-- No `AdvanceTime()` in the action. -/
inductive Action.Timeless : Action W → Prop where
  | dispatch (m : Message) : Action.Timeless (.dispatch m)
  | call (fn : CProg W) (ic : Option (Message → IProg W)) (h : CProg.Timeless fn) :
      Action.Timeless (.call fn ic)
/-- No `AdvanceTime()` in the function. -/
inductive CProg.Timeless : CProg W → Prop where
  | ret : CProg.Timeless .ret
  | panic (v : PanicVal) : CProg.Timeless (.panic v)
  | get (k : W → CProg W) (h : ∀ w, CProg.Timeless (k w)) : CProg.Timeless (.get k)
  | set (w : W) (k : CProg W) (h : CProg.Timeless k) : CProg.Timeless (.set w k)
  | exec (m : Message) (k : TRes → CProg W) (h : ∀ r, CProg.Timeless (k r)) : CProg.Timeless (.exec m k)
  | act (a : Action W) (k : TRes → CProg W) (ha : Action.Timeless a) (h : ∀ r, CProg.Timeless (k r)) :
      CProg.Timeless (.act a k)
end

mutual
theorem Action.timeless_clock (A : App W R) (E : TEnv W) : (a : Action W) → a.Timeless →
    ∀ (extra : List OpOption) (t : TSt W R), (a.run A E extra t).1.clock = t.clock
  | .dispatch m, _, extra, t => by unfold Action.run; split <;> rfl
  | .advance _ step, h, _, _ => nomatch h
  | .call fn ic, h, extra, t => by
    have h : fn.Timeless := by cases h; assumption
    unfold Action.run
    have g := fn.timeless_clock A E h { t with bound := some (t.actOpts extra), icept := ic.or t.icept }
    rcases hx : fn.run A E { t with bound := some (t.actOpts extra), icept := ic.or t.icept }
      with ⟨t1, o⟩
    rw [hx] at g
    cases o <;> exact g
theorem CProg.timeless_clock (A : App W R) (E : TEnv W) : (p : CProg W) → p.Timeless →
    ∀ (t : TSt W R), (p.run A E t).1.clock = t.clock
  | .ret, _, t => by unfold CProg.run; rfl
  | .panic v, _, t => by unfold CProg.run; rfl
  | .get k, h, t => by
    have h : ∀ w, (k w).Timeless := by cases h; assumption
    unfold CProg.run; exact (k t.sys.w).timeless_clock A E (h _) t
  | .set w k, h, t => by
    have h : k.Timeless := by cases h; assumption
    unfold CProg.run; exact k.timeless_clock A E h _
  | .exec m k, h, t => by
    have h : ∀ r, (k r).Timeless := by cases h; assumption
    unfold CProg.run
    have g := (t.execute_same A E m).1.clock
    rcases hx : t.execute A E m with ⟨t1, o⟩
    rw [hx] at g
    cases o with
    | done e => exact ((k (.ok e)).timeless_clock A E (h _) t1).trans g
    | panicked v => exact ((k (.error v)).timeless_clock A E (h _) t1).trans g
    | running => exact g
  | .act a k, h, t => by
    have h : a.Timeless ∧ ∀ r, (k r).Timeless := by cases h; exact ⟨by assumption, by assumption⟩
    unfold CProg.run
    have g := (TSt.check_same E _).clock.trans (a.timeless_clock A E h.1 [] (t.announce a))
    rcases hx : TSt.check E (a.run A E [] (t.announce a)) with ⟨t1, o⟩
    rw [hx] at g
    cases o with
    | done e => exact ((k (.ok e)).timeless_clock A E (h.2 _) t1).trans g
    | panicked v => exact ((k (.error v)).timeless_clock A E (h.2 _) t1).trans g
    | running => exact g
end

/-- **C56.** Only `AdvanceTime()` moves the virtual clock. -/
theorem C56_only_advance (A : App W R) (E : TEnv W) (a : Action W) (h : a.Timeless)
    (extra : List OpOption) (t : TSt W R) : (a.run A E extra t).1.clock = t.clock :=
  a.timeless_clock A E h extra t

/-- **C56.** An adjustment into the past is an error; the clock stays, no engine operation is
performed and the engine is left alone (only the adjustment itself ran). -/
theorem C56_past (A : App W R) (E : TEnv W) (desc : String) (step : Time → W → W × Except PanicVal Time)
    (extra : List OpOption) (t : TSt W R) (w : W) (now : Time)
    (hs : step t.clock t.sys.w = (w, .ok now)) (hn : now < t.clock) :
    (Action.advance desc step).run A E extra t =
      ({ t with sys := { t.sys with w := w } }, .done (some (.reversed desc))) := by
  unfold Action.run
  simp only [hs, if_pos hn]

/-- **C56.** Otherwise the clock shows the adjusted time, and the engine ticks exactly once. -/
theorem C56_advance (A : App W R) (E : TEnv W) (desc : String) (step : Time → W → W × Except PanicVal Time)
    (extra : List OpOption) (t : TSt W R) (w : W) (now : Time)
    (hs : step t.clock t.sys.w = (w, .ok now)) (hn : t.clock ≤ now) :
    ((Action.advance desc step).run A E extra t).1.clock = now ∧
    ∃ os f, ((Action.advance desc step).run A E extra t).1.did =
      t.did ++ [.engine now (.tick E.fuel (E.order w) os) f] ∧ ∀ wall, engineTime os wall = now := by
  unfold Action.run
  simp only [hs, if_neg (Int.not_lt.2 hn)]
  refine ⟨rfl, _, _, rfl, ?_⟩
  intro wall
  simp only [engineTime, lastSome, List.reverse_append, List.reverse_cons, List.reverse_nil,
    List.nil_append, List.singleton_append, List.findSome?_cons, OpOption.timeSetting,
    Option.getD_some]

/-- The surroundings of the concrete tests. -/
def Demo.tenv : TEnv Nat := { fuel := 20, order := fun _ => Demo.app.cfgs }

/-- A test of the demo application that begins at time 100. -/
def Demo.t0 : TSt Nat (List String) := TSt.begin 0 100 [] none

/-- `AdvanceTime()` to a given time. -/
def Demo.toTime (c : Time) : Action Nat := .advance "to then" (fun _ w => (w, .ok c))

/-- The engine operations on record: is it a tick, the virtual clock, the engine time. -/
def engineOps (l : List TObs) : List (Bool × Time × Time) :=
  l.filterMap fun
    | .engine c op _ => some (op matches .tick .., c, engineTime op.opts 0)
    | _ => none

/-- The uses of the executor on record: was it bound? -/
def execs (l : List TObs) : List Bool :=
  l.filterMap fun
    | .exec _ b => some b
    | _ => none

set_option maxRecDepth 100000 in
example :
    let t1 := ((Demo.toTime 150).run Demo.app Demo.tenv [] Demo.t0).1
    let t2 := ((Demo.toTime 120).run Demo.app Demo.tenv [] t1).1
    let t3 := ((Action.dispatch (Demo.msgC "x")).run Demo.app Demo.tenv [] t2).1
    (t1.clock, t2.clock, t3.clock) = (150, 150, 150) ∧
    engineOps t3.did = [(true, 150, 150), (false, 150, 150)] := by decide +kernel

/-! ## C61 -/

/-- The states of a test between calls of `Prepare()` and `Expect()`; the state `t.prepare` and
`t.expect` are those after such a call, however it ended. -/
inductive TReach (A : App W R) (E : TEnv W) : TSt W R → Prop where
  | begin (w : W) (start : Time) (os : List OpOption) (ic : Option (Message → IProg W)) :
      TReach A E (TSt.begin w start os ic)
  | world {t : TSt W R} (w : W) (h : TReach A E t) : TReach A E { t with sys := { t.sys with w := w } }
  | prepare {t : TSt W R} (a : Action W) (h : TReach A E t)
      (hr : (t.prepare A E a).2 ≠ .running) : TReach A E (t.prepare A E a).1
  | expect {t : TSt W R} {P : Type} (S : PScope) (X : Expecting P) (k : Nat) (a : Action W)
      (h : TReach A E t) (hr : (t.expect A E S X k a).2.2 ≠ .running) :
      TReach A E (t.expect A E S X k a).1
  | enable {t : TSt W R} (b : Bool) (ns : List String) (h : TReach A E t) :
      TReach A E (t.enable A b ns).1
  | enableLike {t : TSt W R} (b : Bool) (pats : List (String → Bool)) (order : List String)
      (h : TReach A E t) : TReach A E (t.enableLike A b pats order).1

theorem TSt.enable_frame (A : App W R) (b : Bool) (ns : List String) : ∀ t : TSt W R,
    (t.enable A b ns).1.bound = t.bound ∧ (t.enable A b ns).1.icept = t.icept := by
  induction ns with
  | nil => intro t; exact ⟨rfl, rfl⟩
  | cons n ns ih =>
    intro t
    unfold TSt.enable
    split
    · exact ⟨rfl, rfl⟩
    · split
      · exact ⟨rfl, rfl⟩
      · exact ih _

/-- The last part of an `Expect()`, by cases. -/
theorem TSt.conclude_cases (ok : Except PanicVal Bool) (report : Bool → Except PanicVal Report)
    (t : TSt W R) {t' : TSt W R} {calls : List ECall} {e : EEnd}
    (h : t.conclude ok report = (t', calls, e)) :
    (∃ v, ok = .error v ∧ t' = t ∧ calls = [.ok] ∧ e = .panicked v) ∨
    ∃ b, ok = .ok b ∧ calls = [.ok, .report] ∧
      ((∃ v, report b = .error v ∧ t' = t ∧ e = .panicked v) ∨
       ∃ r, report b = .ok r ∧ e = (if b then .passed else .failed) ∧
        t' = { t with did := t.did ++ .log (reportText r) :: (if b then [] else [.failNow]) }) := by
  unfold TSt.conclude at h
  rcases ok with v | b
  · cases h; exact .inl ⟨v, rfl, rfl, rfl, rfl⟩
  simp only at h
  rcases hr : report b with v | r
  · rw [hr] at h; cases h; exact .inr ⟨b, rfl, rfl, .inl ⟨v, hr, rfl, rfl⟩⟩
  rw [hr] at h
  cases b <;> (cases h; exact .inr ⟨_, rfl, rfl, .inr ⟨r, hr, rfl, by simp [TSt.say]⟩⟩)

/-- The state after an `Expect()`: nothing but a call of the `TestingT`'s methods was done, or
besides the action. -/
theorem TSt.expect_state (A : App W R) (E : TEnv W) {P : Type} (S : PScope) (X : Expecting P) (k : Nat)
    (a : Action W) (t : TSt W R) (hr : (t.expect A E S X k a).2.2 ≠ .running) :
    (∃ post : List TObs, (∀ o ∈ post, o.isSaid = true) ∧
      (t.expect A E S X k a).1 = { t with did := t.did ++ post }) ∨
    ∃ c post, (∀ o ∈ post, o.isSaid = true) ∧
      (a.run A E [.observer k] (t.say (.log (a.expectLine c)))).2 ≠ .running ∧
      (t.expect A E S X k a).1 =
        { (a.run A E [.observer k] (t.say (.log (a.expectLine c)))).1 with
          did := (a.run A E [.observer k] (t.say (.log (a.expectLine c)))).1.did ++ post } := by
  unfold TSt.expect at hr ⊢
  rcases hc : X.caption with v | c
  · left; exact ⟨[], by simp, by simp⟩
  · rw [hc] at hr
    simp only at hr ⊢
    rcases hb : X.build (a.scope S) with p | msg | v
    · right
      rw [hb] at hr
      simp only at hr ⊢
      refine ⟨c, ?_⟩
      rcases hx : a.run A E [.observer k] (t.say (.log (a.expectLine c))) with ⟨t1, o⟩
      rw [hx] at hr
      simp only at hr ⊢
      generalize X.done ((toldIn k (t1.did.drop (t.say (.log (a.expectLine c))).did.length)).foldl
        (fun p f => X.notify (a.scope S) f p) p) = d at hr ⊢
      obtain ⟨p', v'⟩ := d
      rcases o with (_ | e) | v | _
      · cases v' with
        | some v' => exact ⟨[], by simp, nofun, by simp⟩
        | none =>
          simp only
          generalize hz : t1.conclude (X.ok p') (fun b => X.report b p') = z
          obtain ⟨t2, cs, e2⟩ := z
          rcases TSt.conclude_cases _ _ _ hz with ⟨w, -, rfl, -, -⟩ |
            ⟨b, -, -, ⟨w, -, rfl, -⟩ | ⟨r, -, -, rfl⟩⟩
          · exact ⟨[], by simp, nofun, by simp⟩
          · exact ⟨[], by simp, nofun, by simp⟩
          · refine ⟨_, ?_, nofun, rfl⟩
            cases b <;> simp [TObs.isSaid]
      · cases v' with
        | some v' => exact ⟨[], by simp, nofun, by simp⟩
        | none => exact ⟨[.fatal e], by simp [TObs.isSaid], nofun, rfl⟩
      · cases v' with
        | some v' => exact ⟨[], by simp, nofun, by simp⟩
        | none => exact ⟨[], by simp, nofun, by simp⟩
      · exact absurd rfl hr
    · left
      refine ⟨[.log (a.expectLine c), .fatal (.expectation msg)], by simp [TObs.isSaid], ?_⟩
      simp only [TSt.say, List.append_assoc, List.cons_append, List.nil_append]
    · left; exact ⟨[.log (a.expectLine c)], by simp [TObs.isSaid], rfl⟩

theorem TReach.unbound {A : App W R} {E : TEnv W} {t : TSt W R} (h : TReach A E t) :
    t.bound = none := by
  induction h with
  | begin => rfl
  | world w h ih => exact ih
  | prepare a h hr ih =>
    rcases ((a.run_after A E [] _).checked E).bound hr with e | e
    · exact e.trans ih
    · exact e
  | expect S X k a h hr ih =>
    rcases TSt.expect_state A E S X k a _ hr with ⟨post, -, e⟩ | ⟨c, post, -, hn, e⟩
    · rw [e]; exact ih
    · rw [e]
      rcases (a.run_after A E [.observer k] _).bound hn with e | e
      · exact e.trans ih
      · exact e
  | enable b ns h ih => exact (TSt.enable_frame A b ns _).1.trans ih
  | enableLike b pats order h ih => unfold TSt.enableLike; split <;> exact ih

/-- **C61.** Between actions, whatever the test did before (also if a `Call()` panicked), using the
executor panics, and nothing reaches the engine or an interceptor. -/
theorem C61_outside {A : App W R} {E : TEnv W} {t : TSt W R} (h : TReach A E t) (m : Message) :
    (∃ d, (t.execute A E m).2 = .panicked (.misuse d)) ∧ (t.execute A E m).1.sys = t.sys := by
  have hb := h.unbound
  obtain ⟨sys, clock, opts, bound, icept, did⟩ := t
  cases hb
  exact ⟨⟨_, rfl⟩, rfl⟩

example : TReach Demo.app Demo.tenv
    (Demo.t0.prepare Demo.app Demo.tenv (.call (.panic (.user "oops")) none)).1 :=
  .prepare _ (.begin 0 100 [] none) nofun

/-- The uses of the executor in a record all found it bound. -/
def allBound (l : List TObs) : Prop := ∀ m b, TObs.exec m b ∈ l → b = true

/-- Functions that perform no `Call()`. -/
inductive CProg.NoCall : CProg W → Prop where
  | ret : CProg.NoCall .ret
  | panic (v : PanicVal) : CProg.NoCall (.panic v)
  | get (k : W → CProg W) (h : ∀ w, CProg.NoCall (k w)) : CProg.NoCall (.get k)
  | set (w : W) (k : CProg W) (h : CProg.NoCall k) : CProg.NoCall (.set w k)
  | exec (m : Message) (k : TRes → CProg W) (h : ∀ r, CProg.NoCall (k r)) : CProg.NoCall (.exec m k)
  | act (a : Action W) (k : TRes → CProg W) (ha : ∀ fn ic, a ≠ .call fn ic)
      (h : ∀ r, CProg.NoCall (k r)) : CProg.NoCall (.act a k)

theorem Action.simple_run (A : App W R) (E : TEnv W) (a : Action W) (ha : ∀ fn ic, a ≠ .call fn ic)
    (extra : List OpOption) (t : TSt W R) : (a.run A E extra t).1.bound = t.bound ∧
    ∃ l, (a.run A E extra t).1.did = t.did ++ l ∧ allBound l := by
  cases a with
  | dispatch m =>
    unfold Action.run
    split
    · exact ⟨rfl, _, rfl, by simp [allBound]⟩
    · exact ⟨rfl, [], by simp, by simp [allBound]⟩
  | advance desc step =>
    unfold Action.run
    rcases step t.clock t.sys.w with ⟨w, v | now⟩
    · exact ⟨rfl, [], by simp, by simp [allBound]⟩
    · simp only
      split
      · exact ⟨rfl, [], by simp, by simp [allBound]⟩
      · exact ⟨rfl, _, rfl, by simp [allBound]⟩
  | call fn ic => exact absurd rfl (ha fn ic)

theorem CProg.noCall_run (A : App W R) (E : TEnv W) {p : CProg W} (hp : p.NoCall) :
    ∀ t : TSt W R, t.bound ≠ none →
      ∃ l, (p.run A E t).1.did = t.did ++ l ∧ allBound l := by
  induction hp with
  | ret => intro t _; exact ⟨[], by simp [CProg.run], by simp [allBound]⟩
  | panic v => intro t _; exact ⟨[], by simp [CProg.run], by simp [allBound]⟩
  | get k h ih => intro t ht; unfold CProg.run; exact ih _ t ht
  | set w k h ih => intro t ht; unfold CProg.run; exact ih { t with sys := { t.sys with w := w } } ht
  | exec m k h ih =>
    intro t ht
    unfold CProg.run
    obtain ⟨h1, l, h2, h3⟩ := t.execute_same A E m
    have hl : allBound (.exec m t.bound.isSome :: l) := by
      intro m' b hm
      rcases List.mem_cons.1 hm with e | hm
      · cases e; exact Option.isSome_iff_ne_none.2 ht
      · obtain ⟨_, _, hd⟩ := h3 _ hm; exact hd.elim
    rcases hx : t.execute A E m with ⟨t1, o⟩
    rw [hx] at h1 h2
    have go : ∀ r, ∃ l', ((k r).run A E t1).1.did = t.did ++ l' ∧ allBound l' := by
      intro r
      obtain ⟨l', g1, g2⟩ := ih r t1 (by rw [h1.bound]; exact ht)
      refine ⟨(.exec m t.bound.isSome :: l) ++ l', by rw [g1, h2, List.append_assoc], ?_⟩
      intro m' b hm
      rcases List.mem_append.1 hm with hm | hm
      · exact hl m' b hm
      · exact g2 m' b hm
    cases o with
    | done e => exact go _
    | panicked v => exact go _
    | running => exact ⟨_, h2, hl⟩
  | act a k ha h ih =>
    intro t ht
    unfold CProg.run
    have hp : (TSt.check E (a.run A E [] (t.announce a))).1.bound = t.bound ∧
        ∃ l, (TSt.check E (a.run A E [] (t.announce a))).1.did = t.did ++ l ∧ allBound l := by
      obtain ⟨h1, l, h2, hl⟩ := a.simple_run A E ha [] (t.announce a)
      obtain ⟨post, hp, he, -⟩ := TSt.check_spec E (a.run A E [] (t.announce a))
      rw [he]
      refine ⟨h1, .log a.prepareLine :: l ++ post, ?_, ?_⟩
      · show (a.run A E [] (t.announce a)).1.did ++ post = _
        rw [h2]
        simp [TSt.announce, TSt.say]
      · intro m b hm
        simp only [List.cons_append, List.mem_cons, reduceCtorEq, List.mem_append, false_or] at hm
        rcases hm with hm | hm
        · exact hl m b hm
        · exact nomatch hp _ hm
    obtain ⟨h1, l, h2, hl⟩ := hp
    rcases hx : TSt.check E (a.run A E [] (t.announce a)) with ⟨t1, o⟩
    rw [hx] at h1 h2
    have go : ∀ r, ∃ l', ((k r).run A E t1).1.did = t.did ++ l' ∧ allBound l' := by
      intro r
      obtain ⟨l', g1, g2⟩ := ih r t1 (by rw [h1]; exact ht)
      refine ⟨l ++ l', by rw [g1, h2, List.append_assoc], ?_⟩
      intro m' b hm
      rcases List.mem_append.1 hm with hm | hm
      · exact hl m' b hm
      · exact g2 m' b hm
    cases o with
    | done e => exact go _
    | panicked v => exact go _
    | running => exact ⟨_, h2, hl⟩

/-- **C61**, for functions that do not themselves perform a `Call()`: during a `Call()` the executor
is always usable.  Missing: functions that do; for those it is false (`C61_nested_fails`). -/
theorem C61_during_partial (A : App W R) (E : TEnv W) (fn : CProg W) (hf : fn.NoCall)
    (ic : Option (Message → IProg W)) (extra : List OpOption) (t : TSt W R) :
    ∃ l, ((Action.call fn ic).run A E extra t).1.did = t.did ++ l ∧ allBound l := by
  obtain ⟨l, h1, h2⟩ := CProg.noCall_run A E hf
    { t with bound := some (t.actOpts extra), icept := ic.or t.icept } nofun
  refine ⟨l, ?_, h2⟩
  unfold Action.run
  rcases hx : fn.run A E { t with bound := some (t.actOpts extra), icept := ic.or t.icept }
    with ⟨t1, o⟩
  rw [hx] at h1
  cases o <;> exact h1

/-- A function that executes a command twice. -/
def Demo.twice : CProg Nat := .exec (Demo.msgC "x") fun _ => .exec (Demo.msgC "y") fun _ => .ret

set_option maxRecDepth 100000 in
example : Demo.twice.NoCall ∧
    execs ((Action.call Demo.twice none).run Demo.app Demo.tenv [] Demo.t0).1.did = [true, true] :=
  ⟨.exec _ _ fun _ => .exec _ _ fun _ => .ret, by decide +kernel⟩

/-- A function that performs a `Call()` that does nothing, then executes a command. -/
def Demo.nestedCall : CProg Nat := .act (.call .ret none) fun _ => .exec (Demo.msgC "x") fun _ => .ret

set_option maxRecDepth 100000 in
/-- **C61 is false** for functions that perform a `Call()` themselves: the inner one unbinds the
executor, and the rest of the outer function cannot use it. -/
theorem C61_nested_fails :
    ¬ allBound ((Action.call Demo.nestedCall none).run Demo.app Demo.tenv [] Demo.t0).1.did := by
  intro h
  have hx : execs ((Action.call Demo.nestedCall none).run Demo.app Demo.tenv [] Demo.t0).1.did =
      [false] := by decide +kernel
  have hf : false ∈ execs ((Action.call Demo.nestedCall none).run Demo.app Demo.tenv [] Demo.t0).1.did := by
    rw [hx]; simp
  obtain ⟨o, ho, he⟩ := List.mem_filterMap.1 hf
  cases o with
  | exec m b =>
    cases he
    exact absurd (h m false ho) nofun
  | _ => cases he

/-! ## C62 -/

/-- **C62.** However an action ends, the executor's interceptor is the one it had before. -/
theorem C62_restored (A : App W R) (E : TEnv W) (a : Action W) (extra : List OpOption)
    (t : TSt W R) (hr : (a.run A E extra t).2 ≠ .running) :
    (a.run A E extra t).1.icept = t.icept := (a.run_after A E extra t).icept hr

/-- **C62.** A `Call()` with an interceptor of its own does what the same `Call()` without one does
in a test that has that interceptor (and then the test's own is back). -/
theorem C62_replaces (A : App W R) (E : TEnv W) (fn : CProg W) (f : Message → IProg W)
    (extra : List OpOption) (t : TSt W R)
    (hr : ((Action.call fn (some f)).run A E extra t).2 ≠ .running) :
    (Action.call fn (some f)).run A E extra t =
      let r := (Action.call fn none).run A E extra { t with icept := some f }
      ({ r.1 with icept := t.icept }, r.2) := by
  unfold Action.run at hr ⊢
  simp only [Option.some_or, Option.none_or] at hr ⊢
  have e : ({ t with icept := some f } : TSt W R).actOpts extra = t.actOpts extra := rfl
  rw [e]
  rcases hx : fn.run A E { t with bound := some (t.actOpts extra), icept := some f } with ⟨t1, o⟩
  rw [hx] at hr
  cases o with
  | running => exact absurd rfl hr
  | done _ => rfl
  | panicked _ => rfl

/-- An interceptor that drops commands. -/
def Demo.drop : Message → IProg Nat := fun _ => .ret none

/-- An interceptor that executes the command twice. -/
def Demo.double : Message → IProg Nat := fun m => .next m fun _ => .next m fun _ => .ret none

set_option maxRecDepth 100000 in
example :
    let t0 : TSt Nat (List String) := TSt.begin 0 100 [] (some Demo.double)
    let t1 := ((Action.call Demo.twice (some Demo.drop)).run Demo.app Demo.tenv [] t0).1
    let t2 := ((Action.call Demo.twice none).run Demo.app Demo.tenv [] t1).1
    ((engineOps t1.did).length, (engineOps t2.did).length) = (0, 4) := by decide +kernel

/-! ## C63 -/

/-- No option sets the engine time. -/
def noTime (os : List OpOption) : Prop := ∀ c, OpOption.currentTime c ∉ os

/-- An engine operation at the time of the virtual clock, which shows `c`. -/
def TObs.onTime (c : Time) : TObs → Prop
  | .engine c' op _ => c' = c ∧ ∀ wall, engineTime op.opts wall = c
  | _ => True

theorem actOpts_time {t : TSt W R} {extra : List OpOption} (h1 : noTime t.opts) (h2 : noTime extra)
    (wall : Time) : engineTime (t.actOpts extra) wall = t.clock := by
  have : lastSome OpOption.timeSetting (t.opts ++ extra) = none := by
    unfold lastSome
    rw [List.findSome?_eq_none_iff]
    intro o ho
    cases o with
    | currentTime c =>
      rcases List.mem_append.1 (List.mem_reverse.1 ho) with h | h
      · exact (h1 c h).elim
      · exact (h2 c h).elim
    | _ => rfl
  unfold engineTime TSt.actOpts
  rw [List.cons_append, lastSome_cons, this]
  rfl

/-- The executor, if bound, uses the time of the virtual clock. -/
def TSt.inTime (t : TSt W R) : Prop :=
  noTime t.opts ∧ ∀ os, t.bound = some os → ∀ wall, engineTime os wall = t.clock

theorem TSt.After.inTime {t t' : TSt W R} {o : Outcome (Option TErr)} (h : t.After t' o)
    (ho : o ≠ .running) (hc : t'.clock = t.clock) (hi : t.inTime) : t'.inTime := by
  refine ⟨by rw [h.opts]; exact hi.1, ?_⟩
  intro os hb wall
  rcases h.bound ho with e | e
  · rw [hc]; exact hi.2 os (e.symm.trans hb) wall
  · rw [e] at hb; cases hb

/-- What was done since `t` was done in time. -/
def TSt.TimelySince (t t' : TSt W R) : Prop :=
  ∃ l, t'.did = t.did ++ l ∧ ∀ x ∈ l, x.onTime t.clock

theorem TSt.TimelySince.trans {a b c : TSt W R} (h : a.TimelySince b) (hc : b.clock = a.clock)
    (g : b.TimelySince c) : a.TimelySince c := by
  obtain ⟨l, h1, h2⟩ := h
  obtain ⟨l', g1, g2⟩ := g
  refine ⟨l ++ l', by rw [g1, h1, List.append_assoc], ?_⟩
  intro x hx
  rcases List.mem_append.1 hx with hx | hx
  · exact h2 x hx
  · rw [← hc]; exact g2 x hx

theorem TObs.dispatchAt.onTime {c : Time} {os : List OpOption} {x : TObs} (h : x.dispatchAt c os)
    (ht : ∀ wall, engineTime os wall = c) : x.onTime c := by
  cases x with
  | exec => trivial
  | log => trivial
  | fatal => trivial
  | failNow => trivial
  | engine c' op f =>
    cases op with
    | dispatch n m os' => obtain ⟨rfl, rfl⟩ := h; exact ⟨rfl, ht⟩
    | tick => exact h.elim
    | reset => exact h.elim

mutual
theorem Action.run_timely (A : App W R) (E : TEnv W) : (a : Action W) → a.Timeless →
    ∀ (extra : List OpOption) (t : TSt W R), noTime extra → noTime t.opts →
      t.TimelySince (a.run A E extra t).1
  | .dispatch m, _, extra, t, he, ho => by
    unfold Action.run
    split
    · refine ⟨_, rfl, ?_⟩
      intro x hx
      rw [List.mem_singleton.1 hx]
      exact ⟨rfl, actOpts_time ho he⟩
    · exact ⟨[], by simp, by simp⟩
  | .advance _ step, h, _, _, _, _ => nomatch h
  | .call fn ic, h, extra, t, he, ho => by
    have h : fn.Timeless := by cases h; assumption
    obtain ⟨l, g1, g2⟩ := fn.run_timely A E h
      { t with bound := some (t.actOpts extra), icept := ic.or t.icept }
      ⟨ho, by intro os hb; cases hb; exact actOpts_time ho he⟩
    refine ⟨l, ?_, g2⟩
    unfold Action.run
    rcases hx : fn.run A E { t with bound := some (t.actOpts extra), icept := ic.or t.icept }
      with ⟨t1, o⟩
    rw [hx] at g1
    cases o <;> exact g1
theorem CProg.run_timely (A : App W R) (E : TEnv W) : (p : CProg W) → p.Timeless →
    ∀ (t : TSt W R), t.inTime → t.TimelySince (p.run A E t).1
  | .ret, _, t, _ => by unfold CProg.run; exact ⟨[], by simp, by simp⟩
  | .panic v, _, t, _ => by unfold CProg.run; exact ⟨[], by simp, by simp⟩
  | .get k, h, t, hi => by
    have h : ∀ w, (k w).Timeless := by cases h; assumption
    unfold CProg.run; exact (k t.sys.w).run_timely A E (h _) t hi
  | .set w k, h, t, hi => by
    have h : k.Timeless := by cases h; assumption
    unfold CProg.run; exact k.run_timely A E h { t with sys := { t.sys with w := w } } hi
  | .exec m k, h, t, hi => by
    have h : ∀ r, (k r).Timeless := by cases h; assumption
    unfold CProg.run
    obtain ⟨g1, l, g2, g3⟩ := t.execute_same A E m
    rcases hx : t.execute A E m with ⟨t1, o⟩
    rw [hx] at g1 g2
    have hl : t.TimelySince t1 := by
      refine ⟨_, g2, ?_⟩
      intro x hx
      rcases List.mem_cons.1 hx with rfl | hx
      · trivial
      · obtain ⟨os, hb, hd⟩ := g3 x hx; exact hd.onTime (hi.2 os hb)
    have hi1 : t1.inTime := (g1.after (.done none)).inTime nofun g1.clock hi
    cases o with
    | done e => exact hl.trans g1.clock ((k (.ok e)).run_timely A E (h _) t1 hi1)
    | panicked v => exact hl.trans g1.clock ((k (.error v)).run_timely A E (h _) t1 hi1)
    | running => exact hl
  | .act a k, h, t, hi => by
    have h : a.Timeless ∧ ∀ r, (k r).Timeless := by cases h; exact ⟨by assumption, by assumption⟩
    unfold CProg.run
    have g : t.TimelySince (TSt.check E (a.run A E [] (t.announce a))).1 := by
      obtain ⟨l, g1, g2⟩ := a.run_timely A E h.1 [] (t.announce a) (by simp [noTime]) hi.1
      obtain ⟨post, hp, he, -⟩ := TSt.check_spec E (a.run A E [] (t.announce a))
      rw [he]
      refine ⟨.log a.prepareLine :: l ++ post, ?_, ?_⟩
      · show (a.run A E [] (t.announce a)).1.did ++ post = _
        rw [g1]
        simp [TSt.announce, TSt.say]
      · intro x hx
        simp only [List.cons_append, List.mem_cons, List.mem_append] at hx
        rcases hx with rfl | hx | hx
        · trivial
        · exact g2 x hx
        · have := hp x hx
          cases x <;> first | trivial | cases this
    have gc := (TSt.check_same E _).clock.trans (a.timeless_clock A E h.1 [] (t.announce a))
    have ga := (a.run_after A E [] (t.announce a)).checked E
    rcases hx : TSt.check E (a.run A E [] (t.announce a)) with ⟨t1, o⟩
    rw [hx] at g gc ga
    cases o with
    | done e => exact g.trans gc ((k (.ok e)).run_timely A E (h.2 _) t1 (ga.inTime nofun gc hi))
    | panicked v =>
      exact g.trans gc ((k (.error v)).run_timely A E (h.2 _) t1 (ga.inTime nofun gc hi))
    | running => exact g
end

/-- **C63**, for actions without `AdvanceTime()` (which is `C56_advance`): if no (unsafe) option of
the test sets the time, every engine operation performed by the action takes place at the time
shown by the virtual clock.  Missing: `AdvanceTime()` performed by the function given to `Call()`,
for which it is false (`C63_fails`). -/
theorem C63_partial (A : App W R) (E : TEnv W) (a : Action W) (ha : a.Timeless)
    (extra : List OpOption) (t : TSt W R) (he : noTime extra) (ho : noTime t.opts) :
    ∃ l, (a.run A E extra t).1.did = t.did ++ l ∧
      ∀ c op f, .engine c op f ∈ l → c = t.clock ∧ ∀ wall, engineTime op.opts wall = t.clock := by
  obtain ⟨l, h1, h2⟩ := a.run_timely A E ha extra t he ho
  exact ⟨l, h1, fun c op f hm => h2 _ hm⟩

set_option maxRecDepth 100000 in
example : (Action.call Demo.twice none).Timeless ∧ noTime Demo.t0.opts ∧
    engineOps ((Action.call Demo.twice none).run Demo.app Demo.tenv [] Demo.t0).1.did =
      [(false, 100, 100), (false, 100, 100)] :=
  ⟨.call _ _ (.exec _ _ fun _ => .exec _ _ fun _ => .ret),
    by intro c; simp [Demo.t0, TSt.begin], by decide +kernel⟩

/-- A function that advances the time to 150, then executes a command. -/
def Demo.late : CProg Nat := .act (Demo.toTime 150) fun _ => .exec (Demo.msgC "x") fun _ => .ret

set_option maxRecDepth 100000 in
/-- **C63 is false** for functions that advance the time: the options bound to the executor
before hold the time at which the `Call()` began. -/
theorem C63_fails :
    engineOps ((Action.call Demo.late none).run Demo.app Demo.tenv [] Demo.t0).1.did =
      [(true, 150, 150), (false, 150, 100)] := by decide +kernel

/-- Is the operation a tick? -/
def Op.isTick : Op → Bool
  | .tick .. => true
  | _ => false

/-- An engine operation performed when the virtual clock showed a time between `lo` and `hi`: its
engine time is not before `lo` and not after what the clock showed, and exactly that for ticks. -/
def TObs.within (lo hi : Time) : TObs → Prop
  | .engine c op _ => c ≤ hi ∧ ∃ τ, (∀ wall, engineTime op.opts wall = τ) ∧ lo ≤ τ ∧ τ ≤ c ∧
      (op.isTick = true → τ = c)
  | _ => True

theorem TObs.within.mono {lo lo' hi hi' : Time} {x : TObs} (h : x.within lo hi) (hl : lo' ≤ lo)
    (hh : hi ≤ hi') : x.within lo' hi' := by
  cases x with
  | engine c op f =>
    obtain ⟨h1, τ, h2, h3, h4, h5⟩ := h
    exact ⟨Int.le_trans h1 hh, τ, h2, Int.le_trans hl h3, h4, h5⟩
  | _ => trivial

/-- The executor, if bound, uses a time between `lo` and what the clock shows. -/
def TSt.bounded (lo : Time) (t : TSt W R) : Prop :=
  noTime t.opts ∧ lo ≤ t.clock ∧
    ∀ os, t.bound = some os → ∃ τ, (∀ wall, engineTime os wall = τ) ∧ lo ≤ τ ∧ τ ≤ t.clock

theorem TSt.After.bounded {t t' : TSt W R} {o : Outcome (Option TErr)} {lo : Time}
    (h : t.After t' o) (ho : o ≠ .running) (hi : t.bounded lo) : t'.bounded lo := by
  refine ⟨by rw [h.opts]; exact hi.1, Int.le_trans hi.2.1 h.clock, ?_⟩
  intro os hb
  rcases h.bound ho with e | e
  · obtain ⟨τ, h1, h2, h3⟩ := hi.2.2 os (e.symm.trans hb)
    exact ⟨τ, h1, h2, Int.le_trans h3 h.clock⟩
  · rw [e] at hb; cases hb

/-- What was done since `t` was done at times between `lo` and what the clock shows now. -/
def TSt.WithinSince (lo : Time) (t t' : TSt W R) : Prop :=
  ∃ l, t'.did = t.did ++ l ∧ ∀ x ∈ l, x.within lo t'.clock

theorem TSt.WithinSince.trans {lo : Time} {a b c : TSt W R} (h : a.WithinSince lo b)
    (hc : b.clock ≤ c.clock) (g : b.WithinSince lo c) : a.WithinSince lo c := by
  obtain ⟨l, h1, h2⟩ := h
  obtain ⟨l', g1, g2⟩ := g
  refine ⟨l ++ l', by rw [g1, h1, List.append_assoc], ?_⟩
  intro x hx
  rcases List.mem_append.1 hx with hx | hx
  · exact (h2 x hx).mono (Int.le_refl _) hc
  · exact g2 x hx

theorem TObs.dispatchAt.within {lo c τ : Time} {os : List OpOption} {x : TObs}
    (h : x.dispatchAt c os) (ht : ∀ wall, engineTime os wall = τ) (h1 : lo ≤ τ) (h2 : τ ≤ c) :
    x.within lo c := by
  cases x with
  | exec => trivial
  | log => trivial
  | fatal => trivial
  | failNow => trivial
  | engine c' op f =>
    cases op with
    | dispatch n m os' => obtain ⟨rfl, rfl⟩ := h; exact ⟨Int.le_refl _, τ, ht, h1, h2, nofun⟩
    | tick => exact h.elim
    | reset => exact h.elim

mutual
theorem Action.run_within (A : App W R) (E : TEnv W) : (a : Action W) →
    ∀ (extra : List OpOption) (t : TSt W R), noTime extra → noTime t.opts →
      t.WithinSince t.clock (a.run A E extra t).1
  | .dispatch m, extra, t, he, ho => by
    unfold Action.run
    split
    · refine ⟨_, rfl, ?_⟩
      intro x hx
      rw [List.mem_singleton.1 hx]
      exact ⟨Int.le_refl _, t.clock, actOpts_time ho he, Int.le_refl _, Int.le_refl _, nofun⟩
    · exact ⟨[], by simp, by simp⟩
  | .advance desc step, extra, t, _, _ => by
    rcases hs : step t.clock t.sys.w with ⟨w, r⟩
    cases r with
    | error v => unfold Action.run; simp only [hs]; exact ⟨[], by simp, by simp⟩
    | ok now =>
      by_cases hn : now < t.clock
      · unfold Action.run; simp only [hs, if_pos hn]; exact ⟨[], by simp, by simp⟩
      · have hn : t.clock ≤ now := Int.not_lt.1 hn
        obtain ⟨h1, os, f, h2, h3⟩ := C56_advance A E desc step extra t w now hs hn
        refine ⟨_, h2, ?_⟩
        intro x hx
        rw [List.mem_singleton.1 hx, h1]
        exact ⟨Int.le_refl _, now, h3, hn, Int.le_refl _, fun _ => rfl⟩
  | .call fn ic, extra, t, he, ho => by
    obtain ⟨l, g1, g2⟩ := fn.run_within A E t.clock
      { t with bound := some (t.actOpts extra), icept := ic.or t.icept }
      ⟨ho, Int.le_refl _, by
        intro os hb; cases hb
        exact ⟨t.clock, actOpts_time ho he, Int.le_refl _, Int.le_refl _⟩⟩
    refine ⟨l, ?_⟩
    unfold Action.run
    rcases hx : fn.run A E { t with bound := some (t.actOpts extra), icept := ic.or t.icept }
      with ⟨t1, o⟩
    rw [hx] at g1 g2
    cases o <;> exact ⟨g1, g2⟩
theorem CProg.run_within (A : App W R) (E : TEnv W) (lo : Time) : (p : CProg W) →
    ∀ (t : TSt W R), t.bounded lo → t.WithinSince lo (p.run A E t).1
  | .ret, t, _ => by unfold CProg.run; exact ⟨[], by simp, by simp⟩
  | .panic v, t, _ => by unfold CProg.run; exact ⟨[], by simp, by simp⟩
  | .get k, t, hi => by unfold CProg.run; exact (k t.sys.w).run_within A E lo t hi
  | .set w k, t, hi => by
    unfold CProg.run; exact k.run_within A E lo { t with sys := { t.sys with w := w } } hi
  | .exec m k, t, hi => by
    unfold CProg.run
    obtain ⟨g1, l, g2, g3⟩ := t.execute_same A E m
    rcases hx : t.execute A E m with ⟨t1, o⟩
    rw [hx] at g1 g2
    have hl : t.WithinSince lo t1 := by
      refine ⟨_, g2, ?_⟩
      intro x hx
      rcases List.mem_cons.1 hx with rfl | hx
      · trivial
      · obtain ⟨os, hb, hd⟩ := g3 x hx
        obtain ⟨τ, h1, h2, h3⟩ := hi.2.2 os hb
        rw [g1.clock]
        exact hd.within h1 h2 h3
    have hi1 : t1.bounded lo := (g1.after (.done none)).bounded nofun hi
    cases o with
    | done e =>
      exact hl.trans ((k (.ok e)).run_after A E t1).clock ((k (.ok e)).run_within A E lo t1 hi1)
    | panicked v =>
      exact hl.trans ((k (.error v)).run_after A E t1).clock ((k (.error v)).run_within A E lo t1 hi1)
    | running => exact hl
  | .act a k, t, hi => by
    unfold CProg.run
    have g : t.WithinSince lo (TSt.check E (a.run A E [] (t.announce a))).1 := by
      obtain ⟨l, g1, g2⟩ := a.run_within A E [] (t.announce a) (by simp [noTime]) hi.1
      have gc := (TSt.check_same E (a.run A E [] (t.announce a))).clock
      obtain ⟨post, hp, he, -⟩ := TSt.check_spec E (a.run A E [] (t.announce a))
      refine ⟨.log a.prepareLine :: l ++ post, ?_, ?_⟩
      · rw [he]
        show (a.run A E [] (t.announce a)).1.did ++ post = _
        rw [g1]
        simp [TSt.announce, TSt.say]
      · intro x hx
        rw [gc]
        simp only [List.cons_append, List.mem_cons, List.mem_append] at hx
        rcases hx with rfl | hx | hx
        · trivial
        · exact (g2 x hx).mono hi.2.1 (Int.le_refl _)
        · have := hp x hx
          cases x <;> first | trivial | cases this
    have ga := (a.run_after A E [] (t.announce a)).checked E
    rcases hx : TSt.check E (a.run A E [] (t.announce a)) with ⟨t1, o⟩
    rw [hx] at g ga
    cases o with
    | done e =>
      exact g.trans ((k (.ok e)).run_after A E t1).clock
        ((k (.ok e)).run_within A E lo t1 (ga.bounded nofun hi))
    | panicked v =>
      exact g.trans ((k (.error v)).run_after A E t1).clock
        ((k (.error v)).run_within A E lo t1 (ga.bounded nofun hi))
    | running => exact g
end

/-- **C63**, what is true of all actions, whatever the function given to `Call()` does: if no
(unsafe) option of the test sets the time, each engine operation takes place at a time between
that of the virtual clock when the action began and that of the virtual clock when the operation
is performed; ticks at exactly the latter.  So when the clock does not move meanwhile, all
operations take place at its time, and operations may only lag behind the clock, by at most what
the action advanced it. -/
theorem C63_bounds (A : App W R) (E : TEnv W) (a : Action W)
    (extra : List OpOption) (t : TSt W R) (he : noTime extra) (ho : noTime t.opts) :
    ∃ l, (a.run A E extra t).1.did = t.did ++ l ∧
      ∀ c op f, .engine c op f ∈ l → c ≤ (a.run A E extra t).1.clock ∧
        ∃ τ, (∀ wall, engineTime op.opts wall = τ) ∧ t.clock ≤ τ ∧ τ ≤ c ∧
          (op.isTick = true → τ = c) := by
  obtain ⟨l, h1, h2⟩ := a.run_within A E extra t he ho
  exact ⟨l, h1, fun c op f hm => h2 _ hm⟩

/-- **C63**, for all actions that leave the clock where it was, whatever they do. -/
theorem C63_still (A : App W R) (E : TEnv W) (a : Action W)
    (extra : List OpOption) (t : TSt W R) (he : noTime extra) (ho : noTime t.opts)
    (hc : (a.run A E extra t).1.clock = t.clock) :
    ∃ l, (a.run A E extra t).1.did = t.did ++ l ∧
      ∀ c op f, .engine c op f ∈ l → c = t.clock ∧ ∀ wall, engineTime op.opts wall = t.clock := by
  obtain ⟨l, h1, h2⟩ := C63_bounds A E a extra t he ho
  refine ⟨l, h1, fun c op f hm => ?_⟩
  obtain ⟨h3, τ, h4, h5, h6, -⟩ := h2 c op f hm
  rw [hc] at h3
  have e : τ = t.clock := Int.le_antisymm (Int.le_trans h6 h3) h5
  exact ⟨Int.le_antisymm h3 (Int.le_trans h5 h6), fun wall => (h4 wall).trans e⟩

/-- A function that does a bit of everything: executes a command, advances the time to 150, has
another function advance the time to 160 and execute commands before and after, dispatches a
command. -/
def Demo.busy : CProg Nat :=
  .exec (Demo.msgC "x") fun _ => .act (Demo.toTime 150) fun _ => .exec (Demo.msgC "x") fun _ =>
    .act (.call (.exec (Demo.msgC "x") fun _ => .act (Demo.toTime 160) fun _ =>
      .exec (Demo.msgC "x") fun _ => .ret) none) fun _ =>
    .act (.dispatch (Demo.msgC "x")) fun _ => .ret

set_option maxRecDepth 100000 in
/-- Executors lag behind the clock within the bounds, others do not. -/
example : noTime Demo.t0.opts ∧
    engineOps ((Action.call Demo.busy none).run Demo.app Demo.tenv [] Demo.t0).1.did =
      [(false, 100, 100), (true, 150, 150), (false, 150, 100), (false, 150, 150),
        (true, 160, 160), (false, 160, 150), (false, 160, 160)] :=
  ⟨by intro c; simp [Demo.t0, TSt.begin], by decide +kernel⟩

set_option maxRecDepth 100000 in
/-- A function that ticks without advancing the clock. -/
example : let a := Action.call (.act (Demo.toTime 100) fun _ => Demo.twice) none
    let t := (a.run Demo.app Demo.tenv [] Demo.t0).1
    ¬ a.Timeless ∧ t.clock = 100 ∧
    engineOps t.did = [(true, 100, 100), (false, 100, 100), (false, 100, 100)] :=
  ⟨(fun h => by
      cases h with
      | call _ _ h =>
        cases h with
        | act _ _ h => exact nomatch h),
    by decide +kernel, by decide +kernel⟩

/-! ## C59 -/

/-- What the calls of `EnableHandlers()` and `DisableHandlers()` say about handler `n`. -/
def mentioned (calls : List (Bool × List String)) (n : String) : Option Bool :=
  lastSome (fun c => if n ∈ c.2 then some c.1 else none) calls

/-- Performing the calls. -/
def TSt.enableAll (A : App W R) : List (Bool × List String) → TSt W R → TSt W R × Option PanicVal
  | [], t => (t, none)
  | c :: cs, t =>
    match t.enable A c.1 c.2 with
    | (t, some v) => (t, some v)
    | (t, none) => TSt.enableAll A cs t

theorem TSt.enable_opts (A : App W R) (b : Bool) (ns : List String) : ∀ t : TSt W R,
    (t.enable A b ns).2 = none →
    (t.enable A b ns).1 = { t with opts := t.opts ++ ns.map (fun n => .enableHandler n b) } := by
  induction ns with
  | nil => intro t _; simp [TSt.enable]
  | cons n ns ih =>
    intro t h
    unfold TSt.enable at h ⊢
    split at h
    · cases h
    · split at h
      · cases h
      · rename_i h1 h2
        rw [if_neg h2, ih _ h]
        simp [List.append_assoc]

theorem TSt.enableAll_opts (A : App W R) (cs : List (Bool × List String)) : ∀ t : TSt W R,
    (t.enableAll A cs).2 = none →
    (t.enableAll A cs).1.opts =
      t.opts ++ cs.flatMap (fun c => c.2.map (fun n => .enableHandler n c.1)) ∧
    (t.enableAll A cs).1.clock = t.clock := by
  induction cs with
  | nil => intro t _; simp [TSt.enableAll]
  | cons c cs ih =>
    intro t h
    unfold TSt.enableAll at h ⊢
    have g := t.enable_opts A c.1 c.2
    rcases hx : t.enable A c.1 c.2 with ⟨t1, _ | v⟩
    · rw [hx] at h g
      simp only at h g ⊢
      obtain ⟨i1, i2⟩ := ih t1 h
      have := g trivial
      subst this
      exact ⟨by rw [i1]; simp [List.append_assoc], i2⟩
    · rw [hx] at h; cases h

theorem lastSome_append {α β : Type} (f : α → Option β) (l l' : List α) :
    lastSome f (l ++ l') = (lastSome f l').or (lastSome f l) := by
  unfold lastSome
  rw [List.reverse_append, List.findSome?_append]

theorem lastSome_names (n : String) (b : Bool) (ns : List String) :
    lastSome (OpOption.nameSetting n) (ns.map (fun x => .enableHandler x b)) =
      if n ∈ ns then some b else none := by
  induction ns with
  | nil => rfl
  | cons x ns ih =>
    rw [List.map_cons, lastSome_cons, ih]
    by_cases h : n ∈ ns
    · simp [h]
    · by_cases e : x = n
      · simp [h, OpOption.nameSetting, e]
      · simp [h, OpOption.nameSetting, e, Ne.symm e]

theorem lastSome_mentioned (n : String) (cs : List (Bool × List String)) :
    lastSome (OpOption.nameSetting n) (cs.flatMap (fun c => c.2.map (fun x => .enableHandler x c.1))) =
      mentioned cs n := by
  induction cs with
  | nil => rfl
  | cons c cs ih =>
    rw [List.flatMap_cons, lastSome_append, ih, lastSome_names, mentioned, mentioned, lastSome_cons]

theorem lastSome_types (t : HandlerType) (cs : List (Bool × List String)) :
    lastSome (OpOption.typeSetting t) (cs.flatMap (fun c => c.2.map (fun x => .enableHandler x c.1))) =
      none := by
  unfold lastSome
  rw [List.findSome?_eq_none_iff]
  intro o ho
  obtain ⟨c, _, hc⟩ := List.mem_flatMap.1 (List.mem_reverse.1 ho)
  obtain ⟨x, _, rfl⟩ := List.mem_map.1 hc
  rfl

/-- **C59.** In a test begun without unsafe options, after any calls of `EnableHandlers()` and
`DisableHandlers()`, a handler takes part in the actions as the last call that names it says; a
handler not named takes part iff it is an aggregate or a process not disabled by configuration.
(Expectations add the observer of their predicate.) -/
theorem C59_defaults (A : App W R) (w : W) (start : Time) (ic : Option (Message → IProg W))
    (calls : List (Bool × List String)) (obs : List Nat) (h : HConfig)
    (hc : ((TSt.begin w start [] ic : TSt W R).enableAll A calls).2 = none) :
    takesPart (((TSt.begin w start [] ic : TSt W R).enableAll A calls).1.actOpts
        (obs.map OpOption.observer)) h =
      match mentioned calls h.name with
      | some b => b
      | none => !h.disabled && decide (h.htype = .aggregate ∨ h.htype = .process) := by
  obtain ⟨h1, h2⟩ := TSt.enableAll_opts A calls _ hc
  have hn : ∀ {β : Type} (f : OpOption → Option β), (∀ k, f (.observer k) = none) →
      lastSome f (obs.map OpOption.observer) = none := by
    intro β f hf
    unfold lastSome
    rw [List.findSome?_eq_none_iff]
    intro o ho
    obtain ⟨k, _, rfl⟩ := List.mem_map.1 (List.mem_reverse.1 ho)
    exact hf k
  unfold takesPart TSt.actOpts
  rw [h1, List.cons_append, lastSome_cons, lastSome_cons, lastSome_append, lastSome_append,
    lastSome_append, lastSome_append, hn _ (fun _ => rfl), hn _ (fun _ => rfl),
    lastSome_mentioned, lastSome_types]
  cases hm : mentioned calls h.name with
  | some b => rfl
  | none => cases ht : h.htype <;> cases h.disabled <;> rfl

/-- **C59.** The calls succeed iff every name is that of a handler which, if it is to be enabled,
has not been disabled by configuration. -/
theorem C59_panics {A : App W R} (wf : A.WF) (b : Bool) (ns : List String) (t : TSt W R) :
    (t.enable A b ns).2 = none ↔
      ∀ n ∈ ns, ∃ h ∈ A.cfgs, h.name = n ∧ ¬ (b = true ∧ h.disabled = true) := by
  induction ns generalizing t with
  | nil => simp [TSt.enable]
  | cons n ns ih =>
    unfold TSt.enable
    split
    · rename_i hf
      refine ⟨nofun, fun h => ?_⟩
      obtain ⟨h0, hm, hn, _⟩ := h n (by simp)
      unfold App.find at hf
      rw [List.find?_eq_none] at hf
      exact absurd (decide_eq_true hn) (hf h0 hm)
    · rename_i h0 hf
      have hm := List.mem_of_find?_eq_some hf
      have hn : h0.name = n := by simpa using List.find?_some hf
      split
      · rename_i hd
        refine ⟨nofun, fun h => ?_⟩
        obtain ⟨h', hm', hn', hd'⟩ := h n (by simp)
        have : h' = h0 := wf.name_inj hm' hm (hn'.trans hn.symm)
        subst this
        simp at hd
        exact absurd hd hd'
      · rename_i hd
        rw [ih]
        constructor
        · intro h x hx
          rcases List.mem_cons.1 hx with rfl | hx
          · exact ⟨h0, hm, hn, by simpa using hd⟩
          · exact h x hx
        · exact fun h x hx => h x (by simp [hx])

example :
    let calls := [(true, ["int", "prj"]), (false, ["prj", "agg"])]
    (Demo.t0.enableAll Demo.app calls).2 = none ∧
    Demo.app.cfgs.map (takesPart ((Demo.t0.enableAll Demo.app calls).1.actOpts [])) =
      [false, true, true, false] ∧
    (Demo.t0.enable Demo.app true ["int", "nobody"]).2 ≠ none := by decide +kernel

/-! ## C60 -/

/-- **C60.** `EnableHandlersLike()`/`DisableHandlersLike()` panic iff some pattern matches no handler
that is not disabled by configuration, and then change nothing; otherwise they set exactly those
handlers whose names match some pattern, in whatever order the names are visited. -/
theorem C60_like {A : App W R} (wf : A.WF) (b : Bool) (pats : List (String → Bool))
    (order : List String) (ho : order.Perm (selected A pats)) (t : TSt W R) :
    ((t.enableLike A b pats order).2 = none ↔
      ∀ p ∈ pats, ∃ h ∈ A.cfgs, h.disabled = false ∧ p h.name = true) ∧
    ((t.enableLike A b pats order).2 ≠ none → (t.enableLike A b pats order).1 = t) ∧
    ((t.enableLike A b pats order).2 = none → ∀ h ∈ A.cfgs,
      takesPart ((t.enableLike A b pats order).1.actOpts []) h =
        if h.disabled = false ∧ ∃ p ∈ pats, p h.name = true then b
        else takesPart (t.actOpts []) h) := by
  unfold TSt.enableLike
  split
  · rename_i hp
    refine ⟨⟨fun _ p hm => ?_, fun _ => rfl⟩, fun h => absurd rfl h, fun _ h hh => ?_⟩
    · obtain ⟨h, h1, h2⟩ := List.any_eq_true.1 (List.all_eq_true.1 hp p hm)
      exact ⟨h, h1, by simpa using h2⟩
    · have hs : h.name ∈ order ↔ h.disabled = false ∧ ∃ p ∈ pats, p h.name = true := by
        rw [ho.mem_iff]
        unfold selected
        simp only [List.mem_map, List.mem_filter]
        constructor
        · rintro ⟨h', ⟨h1, h2⟩, h3⟩
          have : h' = h := wf.name_inj h1 hh h3
          subst this
          simpa using h2
        · intro h1; exact ⟨h, ⟨hh, by simpa using h1⟩, rfl⟩
      have e : ({ t with opts := t.opts ++ order.map (fun n => OpOption.enableHandler n b) } : TSt W R).actOpts []
          = t.actOpts [] ++ order.map (fun n => OpOption.enableHandler n b) := by
        simp [TSt.actOpts]
      have ht : lastSome (OpOption.typeSetting h.htype)
          (order.map (fun n => OpOption.enableHandler n b)) = none := by
        have := lastSome_types h.htype [(b, order)]
        simpa using this
      rw [e]
      unfold takesPart
      rw [lastSome_append, lastSome_append, lastSome_names, ht]
      by_cases hc : h.name ∈ order
      · rw [if_pos hc, if_pos (hs.1 hc)]; rfl
      · rw [if_neg hc, if_neg (fun k => hc (hs.2 k))]; rfl
  · rename_i hp
    refine ⟨⟨nofun, fun h => ?_⟩, fun _ => rfl, nofun⟩
    refine absurd (List.all_eq_true.2 fun p hm => ?_) hp
    obtain ⟨h1, h2, h3, h4⟩ := h p hm
    exact List.any_eq_true.2 ⟨h1, h2, by simp [h3, h4]⟩

example :
    let pats : List (String → Bool) := [fun n => n == "int", fun n => n == "int" || n == "prj"]
    ["prj", "int"].Perm (selected Demo.app pats) ∧
    (Demo.t0.enableLike Demo.app true pats ["prj", "int"]).2 = none ∧
    Demo.app.cfgs.map (takesPart ((Demo.t0.enableLike Demo.app true pats ["prj", "int"]).1.actOpts [])) =
      [true, true, true, true] ∧
    (Demo.t0.enableLike Demo.app true [fun n => n == "nobody"] []).2 ≠ none := by decide +kernel

end Verif
