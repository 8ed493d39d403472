import Verif.Protocol
import Verif.Props.Test
import Verif.Props.Expect

/-!
# `Expect()` (C57, C58)
-/

namespace Verif

variable {W R P : Type}

/-! ## C57 -/

/-- The stages of the life of a predicate. -/
def ECall.stage : ECall → Nat
  | .build => 0
  | .notify _ => 1
  | .done => 2
  | .ok => 3
  | .report => 4

/-- How often a stage occurs. -/
def stageCount (n : Nat) (l : List ECall) : Nat := l.countP (fun c => c.stage = n)

/-- The result of the action of an `Expect()`. -/
def TSt.actionResult (A : App W R) (E : TEnv W) (k : Nat) (a : Action W) (t : TSt W R) :
    Outcome (Option TErr) := (a.run A E [.observer k] t).2

/-- What the predicate of an `Expect()` is told. -/
def notified (l : List ECall) : List Fact :=
  l.filterMap fun
    | .notify f => some f
    | _ => none

theorem notified_map (fs : List Fact) : notified (fs.map .notify) = fs := by
  induction fs with
  | nil => rfl
  | cons f fs ih => simp only [List.map_cons, notified, List.filterMap_cons]; rw [← notified, ih]

theorem stageCount_notify (n : Nat) (hn : n ≠ 1) (fs : List Fact) :
    stageCount n (fs.map .notify) = 0 := by
  unfold stageCount
  rw [List.countP_eq_zero]
  intro c hc
  obtain ⟨f, _, rfl⟩ := List.mem_map.1 hc
  exact fun h => hn (of_decide_eq_true h).symm

theorem stageCount_append (n : Nat) (l l' : List ECall) :
    stageCount n (l ++ l') = stageCount n l + stageCount n l' := List.countP_append ..

theorem staged (fs : List Fact) (tl : List ECall) (ht : tl.Pairwise (fun a b => a.stage < b.stage))
    (h2 : ∀ c ∈ tl, 2 ≤ c.stage) :
    (ECall.build :: fs.map ECall.notify ++ tl).Pairwise (fun a b => a.stage ≤ b.stage) := by
  rw [List.cons_append, List.pairwise_cons]
  refine ⟨fun c _ => Nat.zero_le _, ?_⟩
  rw [List.pairwise_append]
  refine ⟨?_, ht.imp Nat.le_of_lt, ?_⟩
  · rw [List.pairwise_map]
    exact List.Pairwise.imp_of_mem (fun _ _ _ => Nat.le_refl _) (List.pairwise_of_forall (fun _ _ => trivial : ∀ x y : Fact, True))
  · intro c hc d hd
    obtain ⟨f, _, rfl⟩ := List.mem_map.1 hc
    exact Nat.le_of_lt (Nat.lt_of_lt_of_le (show 1 < 2 by decide) (h2 d hd))

/-- The same state after more has been done before. -/
def TSt.past (d : List TObs) (t : TSt W R) : TSt W R := { t with did := d ++ t.did }

theorem TSt.engine_past (A : App W R) (d : List TObs) (t : TSt W R) (op : Op) :
    (t.past d).engine A op = ((t.engine A op).1.past d, (t.engine A op).2) := by
  simp only [TSt.engine, TSt.past, List.append_assoc]

theorem IProg.run_past (A : App W R) (E : TEnv W) (d : List TObs) (os : List OpOption)
    (p : IProg W) : ∀ t : TSt W R,
      p.run A E os (t.past d) = ((p.run A E os t).1.past d, (p.run A E os t).2) := by
  induction p with
  | ret e => intro t; rfl
  | panic v => intro t; rfl
  | get k ih => intro t; exact ih _ t
  | set w k ih => intro t; exact ih { t with sys := { t.sys with w := w } }
  | next m k ih =>
    intro t
    unfold IProg.run
    rw [TSt.engine_past]
    rcases hx : t.engine A (.dispatch E.fuel m os) with ⟨t1, o⟩
    cases o with
    | done e => exact ih _ t1
    | panicked v => exact ih _ t1
    | running => rfl

theorem TSt.execute_past (A : App W R) (E : TEnv W) (d : List TObs) (t : TSt W R) (m : Message) :
    (t.past d).execute A E m = ((t.execute A E m).1.past d, (t.execute A E m).2) := by
  unfold TSt.execute
  have e : ({ t.past d with did := (t.past d).did ++ [TObs.exec m (t.past d).bound.isSome] } : TSt W R) =
      TSt.past d { t with did := t.did ++ [TObs.exec m t.bound.isSome] } := by
    simp [TSt.past]
  rw [e]
  generalize ({ t with did := t.did ++ [TObs.exec m t.bound.isSome] } : TSt W R) = u
  rcases u with ⟨sys, clock, opts, _ | os, _ | f, did⟩
  · rfl
  · rfl
  · exact TSt.engine_past A d _ _
  · exact (f m).run_past A E d os _

theorem TSt.announce_past (d : List TObs) (t : TSt W R) (a : Action W) :
    (t.past d).announce a = (t.announce a).past d := by
  simp [TSt.announce, TSt.say, TSt.past]

theorem TSt.check_past (E : TEnv W) (d : List TObs) (r : TSt W R × Outcome (Option TErr)) :
    TSt.check E (r.1.past d, r.2) = ((TSt.check E r).1.past d, (TSt.check E r).2) := by
  obtain ⟨t, o⟩ := r
  rcases o with (_ | e) | v | _ <;> simp [TSt.check, TSt.say, TSt.past]

mutual
theorem Action.run_past (A : App W R) (E : TEnv W) (d : List TObs) : (a : Action W) →
    ∀ (extra : List OpOption) (t : TSt W R),
      a.run A E extra (t.past d) = ((a.run A E extra t).1.past d, (a.run A E extra t).2)
  | .dispatch m, extra, t => by
    unfold Action.run
    split
    · exact TSt.engine_past A d t _
    · rfl
  | .advance desc step, extra, t => by
    unfold Action.run
    show (match step t.clock t.sys.w with | (w, .error v) => _ | (w, .ok now) => _) = _
    rcases step t.clock t.sys.w with ⟨w, v | now⟩
    · rfl
    · simp only
      show (if now < t.clock then _ else _) = _
      split
      · rfl
      · exact TSt.engine_past A d { t with sys := { t.sys with w := w }, clock := now } _
  | .call fn ic, extra, t => by
    unfold Action.run
    have h := fn.run_past A E d { t with bound := some (t.actOpts extra), icept := ic.or t.icept }
    show (match fn.run A E (TSt.past d { t with bound := some (t.actOpts extra), icept := ic.or t.icept })
      with | (t, .running) => _ | (t, .panicked v) => _ | (t, .done _) => _) = _
    rw [h]
    rcases fn.run A E { t with bound := some (t.actOpts extra), icept := ic.or t.icept } with ⟨t1, o⟩
    cases o <;> rfl
theorem CProg.run_past (A : App W R) (E : TEnv W) (d : List TObs) : (p : CProg W) →
    ∀ (t : TSt W R), p.run A E (t.past d) = ((p.run A E t).1.past d, (p.run A E t).2)
  | .ret, t => by simp only [CProg.run]
  | .panic v, t => by simp only [CProg.run]
  | .get k, t => by unfold CProg.run; exact (k t.sys.w).run_past A E d t
  | .set w k, t => by
    unfold CProg.run; exact k.run_past A E d { t with sys := { t.sys with w := w } }
  | .exec m k, t => by
    unfold CProg.run
    rw [TSt.execute_past]
    rcases hx : t.execute A E m with ⟨t1, o⟩
    cases o with
    | done e => exact (k (.ok e)).run_past A E d t1
    | panicked v => exact (k (.error v)).run_past A E d t1
    | running => rfl
  | .act a k, t => by
    unfold CProg.run
    rw [TSt.announce_past, a.run_past A E d [] (t.announce a), TSt.check_past]
    rcases hx : TSt.check E (a.run A E [] (t.announce a)) with ⟨t1, o⟩
    cases o with
    | done e => exact (k (.ok e)).run_past A E d t1
    | panicked v => exact (k (.error v)).run_past A E d t1
    | running => rfl
end

/-- What an action does does not depend on what was done before, other than by its effects. -/
theorem Action.run_did (A : App W R) (E : TEnv W) (a : Action W) (extra : List OpOption)
    (t : TSt W R) : ∃ l, (a.run A E extra t).1.did = t.did ++ l ∧
      ∀ d : List TObs, a.run A E extra { t with did := d } =
        ({ (a.run A E extra t).1 with did := d ++ l }, (a.run A E extra t).2) := by
  have h : ∀ d : List TObs, a.run A E extra { t with did := d } =
      ({ (a.run A E extra { t with did := [] }).1 with
          did := d ++ (a.run A E extra { t with did := [] }).1.did },
        (a.run A E extra { t with did := [] }).2) := by
    intro d
    have := a.run_past A E d extra { t with did := [] }
    simp only [TSt.past, List.append_nil] at this
    exact this
  refine ⟨(a.run A E extra { t with did := [] }).1.did, ?_, fun d => ?_⟩
  · have := h t.did
    rw [show ({ t with did := t.did } : TSt W R) = t from rfl] at this
    rw [this]
  · have := h t.did
    rw [show ({ t with did := t.did } : TSt W R) = t from rfl] at this
    rw [h d, this]

/-- The course of an `Expect()`, by cases. -/
theorem expect_cases (A : App W R) (E : TEnv W) (S : PScope) (X : Expecting P) (k : Nat)
    (a : Action W) (t : TSt W R) {t' : TSt W R} {calls : List ECall} {e : EEnd}
    (h : t.expect A E S X k a = (t', calls, e)) (he : e ≠ .running) :
    (∃ v, X.caption = .error v ∧ t' = t ∧ calls = [] ∧ e = .panicked v) ∨
    ∃ c, X.caption = .ok c ∧
    ((∃ v, X.build (a.scope S) = .panic v ∧ t' = { t with did := t.did ++ [.log (a.expectLine c)] } ∧
      calls = [.build] ∧ e = .panicked v) ∨
    (∃ msg, X.build (a.scope S) = .err msg ∧
      t' = { t with did := t.did ++ [.log (a.expectLine c), .fatal (.expectation msg)] } ∧
      calls = [.build] ∧ e = .failed) ∨
    ∃ p fs p' v l post, X.build (a.scope S) = .ok p ∧
      (a.run A E [.observer k] t).1.did = t.did ++ l ∧
      t' = { (a.run A E [.observer k] t).1 with
        did := t.did ++ .log (a.expectLine c) :: l ++ post } ∧
      fs = toldIn k l ∧
      X.done (fs.foldl (fun p f => X.notify (a.scope S) f p) p) = (p', v) ∧
      ((∃ w, t.actionResult A E k a = .panicked w ∧ calls = .build :: fs.map .notify ++ [.done] ∧
          e = .panicked (v.getD w) ∧ post = []) ∨
        (∃ r w, t.actionResult A E k a = .done r ∧ v = some w ∧
          calls = .build :: fs.map .notify ++ [.done] ∧ e = .panicked w ∧ post = []) ∨
        (∃ r, t.actionResult A E k a = .done (some r) ∧ v = none ∧
          calls = .build :: fs.map .notify ++ [.done] ∧ e = .failed ∧ post = [.fatal r]) ∨
        (t.actionResult A E k a = .done none ∧ v = none ∧
          ((∃ w, X.ok p' = .error w ∧ calls = .build :: fs.map .notify ++ [.done, .ok] ∧
              e = .panicked w ∧ post = []) ∨
            ∃ b, X.ok p' = .ok b ∧ calls = .build :: fs.map .notify ++ [.done, .ok, .report] ∧
              ((∃ w, X.report b p' = .error w ∧ e = .panicked w ∧ post = []) ∨
                ∃ r, X.report b p' = .ok r ∧ e = (if b then .passed else .failed) ∧
                  post = .log (reportText r) :: (if b then [] else [.failNow])))))) := by
  unfold TSt.expect at h
  unfold TSt.actionResult
  rcases hc : X.caption with v | c
  · rw [hc] at h; cases h; exact .inl ⟨v, rfl, rfl, rfl, rfl⟩
  rw [hc] at h
  refine .inr ⟨c, rfl, ?_⟩
  simp only at h
  rcases hb : X.build (a.scope S) with p | msg | v
  · rw [hb] at h
    right; right
    obtain ⟨l, hl, hrun⟩ := a.run_did A E [.observer k] t
    have hr := hrun (t.did ++ [.log (a.expectLine c)])
    rw [show ({ t with did := t.did ++ [TObs.log (a.expectLine c)] } : TSt W R) =
      t.say (.log (a.expectLine c)) from rfl] at hr
    simp only at h
    rw [hr] at h
    rcases hx : a.run A E [.observer k] t with ⟨t1, o⟩
    rw [hx] at h hl
    simp only at h hl ⊢
    have hdrop : (t.did ++ [TObs.log (a.expectLine c)] ++ l).drop
        (t.say (.log (a.expectLine c))).did.length = l := by
      show (t.did ++ [TObs.log (a.expectLine c)] ++ l).drop
        (t.did ++ [TObs.log (a.expectLine c)]).length = l
      exact List.drop_left
    rw [hdrop] at h
    cases o with
    | running => simp only [Prod.mk.injEq] at h; exact absurd h.2.2.symm he
    | panicked w =>
      simp only at h
      rcases hd : X.done ((toldIn k l).foldl
        (fun p f => X.notify (a.scope S) f p) p) with ⟨p', _ | v⟩
      · rw [hd] at h
        cases h
        exact ⟨p, _, p', none, l, [], rfl, hl, by simp, rfl, hd, .inl ⟨w, rfl, rfl, rfl, rfl⟩⟩
      · rw [hd] at h
        cases h
        exact ⟨p, _, p', some v, l, [], rfl, hl, by simp, rfl, hd, .inl ⟨w, rfl, rfl, rfl, rfl⟩⟩
    | done r =>
      simp only at h
      rcases hd : X.done ((toldIn k l).foldl
        (fun p f => X.notify (a.scope S) f p) p) with ⟨p', _ | v⟩
      · rw [hd] at h
        cases r with
        | none =>
          simp only at h
          generalize hz : TSt.conclude (X.ok p') (fun b => X.report b p')
            ({ t1 with did := t.did ++ [TObs.log (a.expectLine c)] ++ l } : TSt W R) = z at h
          obtain ⟨t2, cs, e2⟩ := z
          cases h
          rcases TSt.conclude_cases _ _ _ hz with ⟨w, ho, rfl, rfl, rfl⟩ |
            ⟨b, ho, rfl, ⟨w, hw, rfl, rfl⟩ | ⟨r, hr, rfl, rfl⟩⟩
          · exact ⟨p, _, p', none, l, [], rfl, hl, by simp, rfl, hd,
              .inr (.inr (.inr ⟨rfl, rfl, .inl ⟨w, ho, rfl, rfl, rfl⟩⟩))⟩
          · exact ⟨p, _, p', none, l, [], rfl, hl, by simp, rfl, hd,
              .inr (.inr (.inr ⟨rfl, rfl, .inr ⟨b, ho, rfl, .inl ⟨w, hw, rfl, rfl⟩⟩⟩))⟩
          · exact ⟨p, _, p', none, l, _, rfl, hl, by simp, rfl, hd,
              .inr (.inr (.inr ⟨rfl, rfl, .inr ⟨b, ho, rfl, .inr ⟨r, hr, rfl, rfl⟩⟩⟩))⟩
        | some r =>
          cases h
          exact ⟨p, _, p', none, l, _, rfl, hl, by simp [TSt.say], rfl, hd,
            .inr (.inr (.inl ⟨r, rfl, rfl, rfl, rfl, rfl⟩))⟩
      · rw [hd] at h
        cases h
        exact ⟨p, _, p', some v, l, [], rfl, hl, by simp, rfl, hd,
          .inr (.inl ⟨r, v, rfl, rfl, rfl, rfl, rfl⟩)⟩
  · rw [hb] at h; cases h
    exact .inr (.inl ⟨msg, rfl, by simp [TSt.say], rfl, rfl⟩)
  · rw [hb] at h; cases h; exact .inl ⟨v, rfl, rfl, rfl, rfl⟩

/-- Was a predicate made? -/
def Made.isOk : Made P → Bool
  | .ok _ => true
  | _ => false

/-- **C57.** Whatever the action, the expectation and the predicate do (they may be the user's
own): `Predicate()` is called exactly once, unless `Caption()` panicked; `Done()` is called exactly once if there is a
predicate, however the action ended, and not otherwise; `Ok()` and `Report()` at most once; and all
notifications come before `Done()`, which comes before `Ok()`, which comes before `Report()`. -/
theorem C57_protocol (A : App W R) (E : TEnv W) (S : PScope) (X : Expecting P) (k : Nat)
    (a : Action W) (t : TSt W R) {t' : TSt W R} {calls : List ECall} {e : EEnd}
    (h : t.expect A E S X k a = (t', calls, e)) (he : e ≠ .running) :
    stageCount 0 calls = (if X.caption.isOk then 1 else 0) ∧
    stageCount 2 calls = (if X.caption.isOk && (X.build (a.scope S)).isOk then 1 else 0) ∧
    stageCount 3 calls ≤ 1 ∧ stageCount 4 calls ≤ 1 ∧
    calls.Pairwise (fun c d => c.stage ≤ d.stage) := by
  have big : ∀ fs tl, (tl = [.done] ∨ tl = [.done, .ok] ∨ tl = [.done, .ok, .report]) →
      calls = .build :: List.map ECall.notify fs ++ tl → X.caption.isOk = true →
      (X.build (a.scope S)).isOk = true →
      stageCount 0 calls = (if X.caption.isOk then 1 else 0) ∧
      stageCount 2 calls = (if X.caption.isOk && (X.build (a.scope S)).isOk then 1 else 0) ∧
      stageCount 3 calls ≤ 1 ∧ stageCount 4 calls ≤ 1 ∧
      calls.Pairwise (fun c d => c.stage ≤ d.stage) := by
    intro fs tl htl hc hcap hb
    have c0 : ∀ n, n ≠ 1 → stageCount n calls = stageCount n [.build] + stageCount n tl := by
      intro n hn
      rw [hc, stageCount_append, show (ECall.build :: fs.map .notify) = [.build] ++ fs.map .notify
        from rfl, stageCount_append, stageCount_notify n hn, Nat.add_zero]
    rw [c0 0 (by decide), c0 2 (by decide), c0 3 (by decide), c0 4 (by decide), hb, hcap, hc]
    rcases htl with rfl | rfl | rfl
    · exact ⟨rfl, rfl, by decide, by decide, staged _ _ (by simp) (by simp [ECall.stage])⟩
    · exact ⟨rfl, rfl, by decide, by decide, staged _ _ (by simp [ECall.stage]) (by simp [ECall.stage])⟩
    · exact ⟨rfl, rfl, by decide, by decide, staged _ _ (by simp [ECall.stage]) (by simp [ECall.stage])⟩
  rcases expect_cases A E S X k a t h he with ⟨v, hcap, -, rfl, -⟩ | ⟨c, hcap,
    ⟨v, hb, -, rfl, -⟩ | ⟨msg, hb, -, rfl, -⟩ | ⟨p, fs, p', v, l, post, hb, -, -, -, -, h⟩⟩
  · rw [hcap]; exact ⟨rfl, rfl, by decide, by decide, by simp⟩
  · rw [hb, hcap]; exact ⟨rfl, rfl, by decide, by decide, by simp⟩
  · rw [hb, hcap]; exact ⟨rfl, rfl, by decide, by decide, by simp⟩
  · have hb' : (X.build (a.scope S)).isOk = true := by rw [hb]; rfl
    have hc' : X.caption.isOk = true := by rw [hcap]; rfl
    rcases h with ⟨w, -, hc, -⟩ | ⟨r, w, -, -, hc, -⟩ | ⟨r, -, -, hc, -⟩ |
      ⟨-, -, ⟨w, -, hc, -⟩ | ⟨b, -, hc, -⟩⟩
    · exact big fs _ (.inl rfl) hc hc' hb'
    · exact big fs _ (.inl rfl) hc hc' hb'
    · exact big fs _ (.inl rfl) hc hc' hb'
    · exact big fs _ (.inr (.inl rfl)) hc hc' hb'
    · exact big fs _ (.inr (.inr rfl)) hc hc' hb'

/-- The predicate after all it was told, and `Done()`. -/
def Expecting.finish (X : Expecting P) (s : PScope) (fs : List Fact) (p : P) : P × Option PanicVal :=
  X.done (fs.foldl (fun p f => X.notify s f p) p)

/-- **C57.** `Expect()` passes iff the predicate was made, the action succeeded, and the verdict of
the predicate on what it was told is positive; it fails the test iff the predicate could not be
made, or the action returned an error, or the verdict is negative; and it panics iff `Caption()`,
making the predicate or its `Done()` or else the action does, or, after an action that succeeded,
`Ok()` or `Report()`, with the same value. -/
theorem C57_outcome (A : App W R) (E : TEnv W) (S : PScope) (X : Expecting P) (k : Nat)
    (a : Action W) (t : TSt W R) {t' : TSt W R} {calls : List ECall} {e : EEnd}
    (h : t.expect A E S X k a = (t', calls, e)) (he : e ≠ .running) :
    (e = .passed ↔ ∃ c p p', X.caption = .ok c ∧ X.build (a.scope S) = .ok p ∧
      X.finish (a.scope S) (notified calls) p = (p', none) ∧
      t.actionResult A E k a = .done none ∧ X.ok p' = .ok true ∧ ∃ r, X.report true p' = .ok r) ∧
    (e = .failed ↔ ∃ c, X.caption = .ok c ∧ ((∃ msg, X.build (a.scope S) = .err msg) ∨
      ∃ p p', X.build (a.scope S) = .ok p ∧
      X.finish (a.scope S) (notified calls) p = (p', none) ∧
      ((∃ r, t.actionResult A E k a = .done (some r)) ∨
        (t.actionResult A E k a = .done none ∧ X.ok p' = .ok false ∧
          ∃ r, X.report false p' = .ok r)))) ∧
    ∀ v, e = .panicked v ↔ X.caption = .error v ∨ ∃ c, X.caption = .ok c ∧
      (X.build (a.scope S) = .panic v ∨ ∃ p,
      X.build (a.scope S) = .ok p ∧
      ((X.finish (a.scope S) (notified calls) p).2 = some v ∨
        ((X.finish (a.scope S) (notified calls) p).2 = none ∧
          t.actionResult A E k a = .panicked v) ∨
        ∃ p', X.finish (a.scope S) (notified calls) p = (p', none) ∧
          t.actionResult A E k a = .done none ∧
          (X.ok p' = .error v ∨ ∃ b, X.ok p' = .ok b ∧ X.report b p' = .error v))) := by
  rcases expect_cases A E S X k a t h he with ⟨v, hcap, -, rfl, rfl⟩ | ⟨c, hcap,
    ⟨v, hb, -, rfl, rfl⟩ | ⟨msg, hb, -, rfl, rfl⟩ | ⟨p, fs, p', v, l, post, hb, -, -, -, hd, h⟩⟩
  · rw [hcap]; simp
  · rw [hb, hcap]; simp
  · rw [hb, hcap]; simp
  · have hn : ∀ tl, (tl = [.done] ∨ tl = [.done, .ok] ∨ tl = [.done, .ok, .report]) →
        calls = .build :: List.map ECall.notify fs ++ tl → notified calls = fs := by
      intro tl htl hc
      rw [hc]
      show notified (fs.map .notify ++ tl) = fs
      unfold notified
      rw [List.filterMap_append]
      rw [← notified, notified_map]
      rcases htl with rfl | rfl | rfl <;> simp
    unfold Expecting.finish
    rw [hb, hcap]
    rcases h with ⟨w, hr, hc, rfl, -⟩ | ⟨r, w, hr, rfl, hc, rfl, -⟩ | ⟨r, hr, rfl, hc, rfl, -⟩ |
      ⟨hr, rfl, ⟨w, ho, hc, rfl, -⟩ | ⟨b, ho, hc, ⟨w, hw, rfl, -⟩ | ⟨r, hw, rfl, -⟩⟩⟩
    · rw [hn _ (.inl rfl) hc, hr]
      cases v <;> simp [hd]
    · rw [hn _ (.inl rfl) hc, hr]; simp [hd]
    · rw [hn _ (.inl rfl) hc, hr]; simp [hd]
    · rw [hn _ (.inr (.inl rfl)) hc, hr]; simp [hd, ho]
    · rw [hn _ (.inr (.inr rfl)) hc, hr]; cases b <;> simp [hd, ho, hw]
    · rw [hn _ (.inr (.inr rfl)) hc, hr]; cases b <;> simp [hd, ho, hw]

/-- Stages of the calls, and end, of an `Expect()` with predicate 7 in the demo test. -/
def Demo.expecting (a : Action Nat) (x : Expectation) : List Nat × EEnd :=
  let r := Demo.t0.expect Demo.app Demo.tenv (Demo.scope false) (x.impl Demo.ctx) 7 a
  ((r.2.1.map ECall.stage).filter (fun n => n ≠ 1), r.2.2)

set_option maxRecDepth 100000 in
example :
    Demo.expecting (.dispatch (Demo.msgC "x")) (.type Demo.evtE) = ([0, 2, 3, 4], .passed) ∧
    Demo.expecting (.dispatch (Demo.msgC "x")) (.not (.type Demo.evtE)) = ([0, 2, 3, 4], .failed) ∧
    Demo.expecting (.dispatch (Demo.msgC "x")) (.type Demo.cmdC) = ([0], .failed) ∧
    Demo.expecting (.dispatch ⟨⟨.command, "Z"⟩, "", none⟩) (.type Demo.evtE) = ([0, 2], .failed) ∧
    Demo.expecting (.call (.exec (Demo.msgC "x") fun _ => .panic (.user "oops")) none)
      (.type Demo.evtE) = ([0, 2], .panicked (.user "oops")) ∧
    Demo.expecting (.dispatch (Demo.msgC "x")) .nil = ([], .panicked (.user "nil expectation")) := by
  decide +kernel

/-- An expectation of the user's own that counts what it is told and whose `Ok()` or `Report()` panics. -/
def Demo.touchy (ok : Except PanicVal Bool) : Expecting Nat where
  caption := .ok "to be touchy"
  build _ := .ok 0
  notify _ _ n := n + 1
  done n := (n, none)
  ok _ := ok
  report b n := .error (.user (if b then "passed" else if n = 0 then "nothing" else "failed"))

set_option maxRecDepth 100000 in
example :
    let run := fun ok => (Demo.t0.expect Demo.app Demo.tenv (Demo.scope false) (Demo.touchy ok) 7
      (.dispatch (Demo.msgC "x"))).2
    let ends := fun ok => (((run ok).1.map ECall.stage).filter (fun n => n ≠ 1), (run ok).2)
    ends (.error (.user "undecided")) = ([0, 2, 3], .panicked (.user "undecided")) ∧
    ends (.ok true) = ([0, 2, 3, 4], .panicked (.user "passed")) ∧
    ends (.ok false) = ([0, 2, 3, 4], .panicked (.user "failed")) := by
  decide +kernel

/-! ## C58 -/

/-- The facts of the engine operations in a stretch of the record. -/
def factsOfRecord (l : List TObs) : List Fact :=
  l.flatMap fun
    | .engine _ _ facts => facts
    | _ => []

/-- The registrations of observer `k` among options. -/
def regs (k : Nat) (os : List OpOption) : List Nat :=
  (os.filterMap OpOption.observerOf).filter (fun o => o = k)

theorem regs_append (k : Nat) (l l' : List OpOption) : regs k (l ++ l') = regs k l ++ regs k l' := by
  simp [regs]

theorem regs_time (k : Nat) (c : Time) (l : List OpOption) :
    regs k (.currentTime c :: l) = regs k l := rfl

/-- All engine operations in a record have options with property `p`. -/
def allOpts (p : List OpOption → Prop) (l : List TObs) : Prop :=
  ∀ c op f, TObs.engine c op f ∈ l → p op.opts

theorem allOpts.append {p : List OpOption → Prop} {l l' : List TObs} (h : allOpts p l)
    (g : allOpts p l') : allOpts p (l ++ l') := by
  intro c op f hm
  rcases List.mem_append.1 hm with hm | hm
  · exact h c op f hm
  · exact g c op f hm

theorem told_all {k : Nat} {l : List TObs} (h : allOpts (fun os => regs k os = [k]) l) :
    toldIn k l = factsOfRecord l := by
  induction l with
  | nil => rfl
  | cons x l ih =>
    have hl := ih (fun c op f hm => h c op f (by simp [hm]))
    unfold toldIn factsOfRecord at hl ⊢
    rw [List.flatMap_cons, List.flatMap_cons, hl]
    cases x with
    | exec => rfl
    | log => rfl
    | fatal => rfl
    | failNow => rfl
    | engine c op facts =>
      have := h c op facts (by simp)
      unfold regs at this
      simp only [TObs.told]
      rw [this]
      simp

theorem told_none {k : Nat} {l : List TObs} (h : allOpts (fun os => regs k os = []) l) :
    toldIn k l = [] := by
  unfold toldIn
  rw [List.flatMap_eq_nil_iff]
  intro x hx
  cases x with
  | exec => rfl
  | log => rfl
  | fatal => rfl
  | failNow => rfl
  | engine c op facts =>
    have := h c op facts hx
    unfold regs at this
    simp only [TObs.told]
    rw [this]
    simp

theorem allOpts_dispatch {p : List OpOption → Prop} {c : Time} {os : List OpOption} {l : List TObs}
    (hp : p os) (h : ∀ x ∈ l, x.dispatchAt c os) : allOpts p l := by
  intro c' op f hm
  have := h _ hm
  cases op with
  | dispatch n m os' => obtain ⟨rfl, rfl⟩ := this; exact hp
  | tick => exact this.elim
  | reset => exact this.elim

theorem allOpts_exec {p : List OpOption → Prop} {m : Message} {b : Bool} {l : List TObs}
    (h : allOpts p l) : allOpts p (.exec m b :: l) := by
  intro c op f hm
  rcases List.mem_cons.1 hm with e | hm
  · cases e
  · exact h c op f hm

theorem allOpts_said {p : List OpOption → Prop} {l : List TObs} (h : ∀ o ∈ l, o.isSaid = true) :
    allOpts p l := by
  intro c op f hm
  cases h _ hm

mutual
theorem Action.run_opts (A : App W R) (E : TEnv W) (p : List OpOption → Prop)
    (hp : ∀ os c, p os → p (os ++ [.currentTime c])) : (a : Action W) →
    ∀ (extra : List OpOption) (t : TSt W R), (∀ c, p (.currentTime c :: t.opts ++ extra)) →
      (∀ c, p (.currentTime c :: t.opts)) →
      ∃ l, (a.run A E extra t).1.did = t.did ++ l ∧ allOpts p l
  | .dispatch m, extra, t, h1, _ => by
    unfold Action.run
    split
    · refine ⟨_, rfl, ?_⟩
      intro c op f hm
      cases List.mem_singleton.1 hm
      exact h1 _
    · exact ⟨[], by simp, nofun⟩
  | .advance desc step, extra, t, h1, _ => by
    unfold Action.run
    rcases step t.clock t.sys.w with ⟨w, v | now⟩
    · exact ⟨[], by simp, nofun⟩
    · simp only
      split
      · exact ⟨[], by simp, nofun⟩
      · refine ⟨_, rfl, ?_⟩
        intro c op f hm
        cases List.mem_singleton.1 hm
        exact hp _ _ (h1 _)
  | .call fn ic, extra, t, h1, h2 => by
    obtain ⟨l, g1, g2⟩ := fn.run_opts A E p hp
      { t with bound := some (t.actOpts extra), icept := ic.or t.icept } h2
      (by intro os hb; cases hb; exact h1 _)
    refine ⟨l, ?_, g2⟩
    unfold Action.run
    rcases hx : fn.run A E { t with bound := some (t.actOpts extra), icept := ic.or t.icept }
      with ⟨t1, o⟩
    rw [hx] at g1
    cases o <;> exact g1
theorem CProg.run_opts (A : App W R) (E : TEnv W) (p : List OpOption → Prop)
    (hp : ∀ os c, p os → p (os ++ [.currentTime c])) : (q : CProg W) →
    ∀ (t : TSt W R), (∀ c, p (.currentTime c :: t.opts)) → (∀ os, t.bound = some os → p os) →
      ∃ l, (q.run A E t).1.did = t.did ++ l ∧ allOpts p l
  | .ret, t, _, _ => by unfold CProg.run; exact ⟨[], by simp, nofun⟩
  | .panic v, t, _, _ => by unfold CProg.run; exact ⟨[], by simp, nofun⟩
  | .get k, t, h1, h2 => by unfold CProg.run; exact (k t.sys.w).run_opts A E p hp t h1 h2
  | .set w k, t, h1, h2 => by
    unfold CProg.run; exact k.run_opts A E p hp { t with sys := { t.sys with w := w } } h1 h2
  | .exec m k, t, h1, h2 => by
    unfold CProg.run
    obtain ⟨g1, l, g2, g3⟩ := t.execute_same A E m
    have hl : allOpts p l := by
      intro c op f hm
      obtain ⟨os, hb, hd⟩ := g3 _ hm
      exact allOpts_dispatch (l := [.engine c op f]) (c := t.clock) (h2 os hb) (by simpa using hd)
        c op f (by simp)
    rcases hx : t.execute A E m with ⟨t1, o⟩
    rw [hx] at g1 g2
    have go : ∀ r, ∃ l', ((k r).run A E t1).1.did = t.did ++ l' ∧ allOpts p l' := by
      intro r
      obtain ⟨l', i1, i2⟩ := (k r).run_opts A E p hp t1 (by rw [g1.opts]; exact h1)
        (by rw [g1.bound]; exact h2)
      exact ⟨_, by rw [i1, g2, List.append_assoc], (allOpts_exec hl).append i2⟩
    cases o with
    | done e => exact go _
    | panicked v => exact go _
    | running => exact ⟨_, g2, allOpts_exec hl⟩
  | .act a k, t, h1, h2 => by
    unfold CProg.run
    obtain ⟨l, g2, hl⟩ := a.run_opts A E p hp [] (t.announce a)
      (fun c => by rw [List.append_nil]; exact h1 c) h1
    have ga := a.run_after A E [] (t.announce a)
    obtain ⟨l, g2, hl⟩ : ∃ l, (TSt.check E (a.run A E [] (t.announce a))).1.did = t.did ++ l ∧
        allOpts p l := by
      obtain ⟨post, hs, hx, -⟩ := TSt.check_spec E (a.run A E [] (t.announce a))
      refine ⟨.log a.prepareLine :: l ++ post, ?_, ?_⟩
      · rw [hx]
        simp only [g2]
        simp only [TSt.announce, TSt.say, List.append_assoc, List.cons_append, List.nil_append]
      · exact ((allOpts_said (by simp [TObs.isSaid]) : allOpts p [.log a.prepareLine]).append hl).append
          (allOpts_said hs)
    replace ga := ga.checked E
    rcases hx : TSt.check E (a.run A E [] (t.announce a)) with ⟨t1, o⟩
    rw [hx] at g2 ga
    have go : o ≠ .running → ∀ r, ∃ l', ((k r).run A E t1).1.did = t.did ++ l' ∧ allOpts p l' := by
      intro ho r
      obtain ⟨l', i1, i2⟩ := (k r).run_opts A E p hp t1 (by rw [ga.opts]; exact h1)
        (by
          intro os hb
          rcases ga.bound ho with e | e
          · exact h2 os (e.symm.trans hb)
          · rw [e] at hb; cases hb)
      exact ⟨_, by rw [i1, g2, List.append_assoc], hl.append i2⟩
    cases o with
    | done e => exact go nofun _
    | panicked v => exact go nofun _
    | running => exact ⟨_, g2, hl⟩
end

/-- Functions that do not perform actions. -/
inductive CProg.Flat : CProg W → Prop where
  | ret : CProg.Flat .ret
  | panic (v : PanicVal) : CProg.Flat (.panic v)
  | get (k : W → CProg W) (h : ∀ w, CProg.Flat (k w)) : CProg.Flat (.get k)
  | set (w : W) (k : CProg W) (h : CProg.Flat k) : CProg.Flat (.set w k)
  | exec (m : Message) (k : TRes → CProg W) (h : ∀ r, CProg.Flat (k r)) : CProg.Flat (.exec m k)

/-- Actions that perform no other actions. -/
inductive Action.Flat : Action W → Prop where
  | dispatch (m : Message) : Action.Flat (.dispatch m)
  | advance (desc : String) (step : Time → W → W × Except PanicVal Time) :
    Action.Flat (.advance desc step)
  | call (fn : CProg W) (ic : Option (Message → IProg W)) (h : fn.Flat) : Action.Flat (.call fn ic)

theorem CProg.flat_opts (A : App W R) (E : TEnv W) {q : CProg W} (hq : q.Flat) :
    ∀ (t : TSt W R) (os : List OpOption), t.bound = some os →
      ∃ l, (q.run A E t).1.did = t.did ++ l ∧ allOpts (fun x => x = os) l := by
  induction hq with
  | ret => intro t os _; unfold CProg.run; exact ⟨[], by simp, nofun⟩
  | panic v => intro t os _; unfold CProg.run; exact ⟨[], by simp, nofun⟩
  | get k h ih => intro t os hb; unfold CProg.run; exact ih _ t os hb
  | set w k h ih =>
    intro t os hb; unfold CProg.run; exact ih { t with sys := { t.sys with w := w } } os hb
  | exec m k h ih =>
    intro t os hb
    unfold CProg.run
    obtain ⟨g1, l, g2, g3⟩ := t.execute_same A E m
    have hl : allOpts (fun x => x = os) l := by
      refine allOpts_dispatch (c := t.clock) rfl (fun x hx => ?_)
      obtain ⟨os', hb', hd⟩ := g3 x hx
      rw [hb] at hb'
      cases hb'
      exact hd
    rcases hx : t.execute A E m with ⟨t1, o⟩
    rw [hx] at g1 g2
    have go : ∀ r, ∃ l', ((k r).run A E t1).1.did = t.did ++ l' ∧ allOpts (fun x => x = os) l' := by
      intro r
      obtain ⟨l', i1, i2⟩ := ih r t1 os (by rw [g1.bound]; exact hb)
      exact ⟨_, by rw [i1, g2, List.append_assoc], (allOpts_exec hl).append i2⟩
    cases o with
    | done e => exact go _
    | panicked v => exact go _
    | running => exact ⟨_, g2, allOpts_exec hl⟩

theorem Action.flat_opts (A : App W R) (E : TEnv W) {a : Action W} (ha : a.Flat)
    (extra : List OpOption) (t : TSt W R) (p : List OpOption → Prop)
    (hp : ∀ os c, p os → p (os ++ [.currentTime c])) (h : p (t.actOpts extra)) :
    ∃ l, (a.run A E extra t).1.did = t.did ++ l ∧ allOpts p l := by
  cases ha with
  | dispatch m =>
    unfold Action.run
    split
    · refine ⟨_, rfl, ?_⟩
      intro c op f hm
      cases List.mem_singleton.1 hm
      exact h
    · exact ⟨[], by simp, nofun⟩
  | advance desc step =>
    unfold Action.run
    rcases step t.clock t.sys.w with ⟨w, v | now⟩
    · exact ⟨[], by simp, nofun⟩
    · simp only
      split
      · exact ⟨[], by simp, nofun⟩
      · refine ⟨_, rfl, ?_⟩
        intro c op f hm
        cases List.mem_singleton.1 hm
        exact hp _ _ h
  | call fn ic hf =>
    obtain ⟨l, g1, g2⟩ := CProg.flat_opts A E hf
      { t with bound := some (t.actOpts extra), icept := ic.or t.icept } _ rfl
    refine ⟨l, ?_, fun c op f hm => by rw [g2 c op f hm]; exact h⟩
    unfold Action.run
    rcases hx : fn.run A E { t with bound := some (t.actOpts extra), icept := ic.or t.icept }
      with ⟨t1, o⟩
    rw [hx] at g1
    cases o <;> exact g1

/-- The predicate is an observer of its own: the test's options do not have it. -/
def TSt.fresh (t : TSt W R) (k : Nat) : Prop := regs k t.opts = []

/-- **C58.** The predicate of an `Expect()` whose action performs no further actions is told exactly
the facts of the engine operations of that action, once each and in order.  Missing: functions given
to `Call()` that perform actions themselves; for those it is false (`C58_nested_fails`). -/
theorem C58_own_partial (A : App W R) (E : TEnv W) (S : PScope) (X : Expecting P) (k : Nat)
    (a : Action W) (ha : a.Flat) (t : TSt W R) (hk : t.fresh k)
    {t' : TSt W R} {calls : List ECall} {e : EEnd}
    (h : t.expect A E S X k a = (t', calls, e)) (he : e ≠ .running) :
    ∃ l, t'.did = t.did ++ l ∧ notified calls = factsOfRecord l := by
  obtain ⟨l, h1, h2⟩ := Action.flat_opts A E ha [.observer k] t (fun os => regs k os = [k])
    (by intro os c h; rw [regs_append, h]; rfl)
    (by
      unfold TSt.actOpts
      rw [List.cons_append, regs_time, regs_append, hk]
      simp [regs, OpOption.observerOf])
  rcases expect_cases A E S X k a t h he with ⟨v, -, rfl, rfl, -⟩ | ⟨c, -,
    ⟨v, -, rfl, rfl, -⟩ | ⟨msg, -, rfl, rfl, -⟩ | ⟨p, fs, p', v, l', post, -, hl', rfl, hf, -, h⟩⟩
  · exact ⟨[], by simp, rfl⟩
  · exact ⟨_, rfl, rfl⟩
  · exact ⟨_, rfl, rfl⟩
  · obtain rfl : l' = l := List.append_cancel_left (hl'.symm.trans h1)
    have hpost : factsOfRecord post = [] := by
      rcases h with ⟨-, -, -, -, rfl⟩ | ⟨-, -, -, -, -, -, rfl⟩ | ⟨-, -, -, -, -, rfl⟩ |
        ⟨-, -, ⟨-, -, -, -, rfl⟩ | ⟨-, -, -, ⟨-, -, -, rfl⟩ | ⟨-, -, -, rfl⟩⟩⟩
      · rfl
      · rfl
      · rfl
      · rfl
      · rfl
      · split <;> rfl
    refine ⟨.log (a.expectLine c) :: l' ++ post, by simp, ?_⟩
    have hf' : fs = factsOfRecord (.log (a.expectLine c) :: l' ++ post) := by
      rw [hf, told_all h2]
      unfold factsOfRecord at hpost ⊢
      rw [List.flatMap_append, hpost, List.append_nil, List.flatMap_cons]
      rfl
    have hn : ∀ tl, (tl = [.done] ∨ tl = [.done, .ok] ∨ tl = [.done, .ok, .report]) →
        calls = .build :: List.map ECall.notify fs ++ tl → notified calls = fs := by
      intro tl htl hc
      rw [hc]
      show notified (fs.map .notify ++ tl) = fs
      unfold notified
      rw [List.filterMap_append]
      rw [← notified, notified_map]
      rcases htl with rfl | rfl | rfl <;> simp
    rw [← hf']
    rcases h with ⟨w, -, hc, -⟩ | ⟨r, w, -, -, hc, -⟩ | ⟨r, -, -, hc, -⟩ |
      ⟨-, -, ⟨w, -, hc, -⟩ | ⟨b, -, hc, -⟩⟩
    · exact hn _ (.inl rfl) hc
    · exact hn _ (.inl rfl) hc
    · exact hn _ (.inl rfl) hc
    · exact hn _ (.inr (.inl rfl)) hc
    · exact hn _ (.inr (.inr rfl)) hc

/-- **C58.** No other action, with whatever other observers, earlier or later, with whatever nested
actions, tells the predicate anything. -/
theorem C58_others (A : App W R) (E : TEnv W) (k : Nat) (a : Action W) (others : List Nat)
    (ho : k ∉ others) (t : TSt W R) (hk : t.fresh k) :
    ∃ l, (a.run A E (others.map .observer) t).1.did = t.did ++ l ∧ toldIn k l = [] := by
  have hr : regs k (others.map OpOption.observer) = [] := by
    unfold regs
    rw [List.filter_eq_nil_iff]
    intro o hm
    simp only [List.mem_filterMap, List.mem_map] at hm
    obtain ⟨x, ⟨y, hy, rfl⟩, he⟩ := hm
    simp only [OpOption.observerOf, Option.some.injEq] at he
    subst he
    simp only [decide_eq_true_eq]
    rintro rfl
    exact ho hy
  obtain ⟨l, h1, h2⟩ := a.run_opts A E (fun os => regs k os = [])
    (by intro os c h; rw [regs_append, h]; rfl) (others.map .observer) t
    (by intro c; rw [List.cons_append, regs_time, regs_append, hk, hr]; rfl)
    (by intro c; rw [regs_time]; exact hk)
  exact ⟨l, h1, told_none h2⟩

/-- **C57, C58** for the built-in expectations: `Expect()` passes iff the action succeeds and the
verdict of the expectation (whose meaning is the subject of C44 - C53) on the facts of that action
is positive. -/
theorem C58_verdict (A : App W R) (E : TEnv W) (S : PScope) (c : RCtx) (x : Expectation) (k : Nat)
    (a : Action W) (ha : a.Flat) (t : TSt W R) (hk : t.fresh k)
    {t' : TSt W R} {calls : List ECall} {e : EEnd}
    (h : t.expect A E S (x.impl c) k a = (t', calls, e)) (he : e ≠ .running) :
    ∃ l, t'.did = t.did ++ l ∧ (e = .passed ↔
      t.actionResult A E k a = .done none ∧
      x.verdict (a.scope S) (factsOfRecord l) = .decided true) := by
  have ho := (C57_outcome A E S (x.impl c) k a t h he).1
  obtain ⟨l, h1, h2⟩ := C58_own_partial A E S (x.impl c) k a ha t hk h he
  refine ⟨l, h1, ?_⟩
  rcases hx : (x.build (a.scope S)).2 with err | p
  · have hb : ((x.impl c).build (a.scope S)).isOk = false := by
      simp only [Expectation.impl, hx]
      cases err <;> rfl
    rw [ho]
    constructor
    · rintro ⟨_, p, p', -, hb', -⟩
      rw [hb'] at hb; cases hb
    · rintro ⟨-, hv⟩
      unfold Expectation.verdict at hv
      rw [hx] at hv
      cases hv
  · have hb : (x.impl c).build (a.scope S) = .ok p := by simp only [Expectation.impl, hx]
    have hcap : (x.impl c).caption = .ok x.caption := by
      cases x <;> first | rfl | (simp [Expectation.build] at hx)
    rw [ho, h2, hb, hcap]
    have hv : x.verdict (a.scope S) (factsOfRecord l) = p.verdict (a.scope S) (factsOfRecord l) := by
      unfold Expectation.verdict; rw [hx]; rfl
    rw [hv]
    have hfin : (x.impl c).finish (a.scope S) (factsOfRecord l) p =
        ((p.observe (a.scope S) (factsOfRecord l)).done.1,
          (p.observe (a.scope S) (factsOfRecord l)).done.2.map .user) := rfl
    unfold Pred.verdict
    constructor
    · rintro ⟨_, q, p', -, hq, hf, hr, hok, -⟩
      cases hq
      rw [hfin] at hf
      refine ⟨hr, ?_⟩
      rcases hd : (p.observe (a.scope S) (factsOfRecord l)).done with ⟨p2, _ | v⟩
      · rw [hd] at hf; cases hf; exact congrArg Verdict.decided (Except.ok.inj hok)
      · rw [hd] at hf; simp at hf
    · rintro ⟨hr, hv⟩
      refine ⟨_, p, (p.observe (a.scope S) (factsOfRecord l)).done.1, rfl, rfl, ?_, hr, ?_, _, rfl⟩
      · rw [hfin]
        rcases hd : (p.observe (a.scope S) (factsOfRecord l)).done with ⟨p2, _ | v⟩
        · rfl
        · rw [hd] at hv; cases hv
      · rcases hd : (p.observe (a.scope S) (factsOfRecord l)).done with ⟨p2, _ | v⟩
        · rw [hd] at hv; exact congrArg Except.ok (Verdict.decided.inj hv)
        · rw [hd] at hv; cases hv

/-- The messages that count for `ToExecuteCommand()` and `ToRecordEvent()`: those produced by handlers,
and if the action is a `Call()` also those given to the engine. -/
def Action.countsIn (a : Action W) (fs : List Fact) : List Message :=
  match a with
  | .call .. => (fs.filterMap fun f => f.created).map Env.msg
  | _ => (fs.filterMap fun f => f.produced.map fun x => x.2.2).map Env.msg

/-- **C44, C58.** `Expect(action, ToExecuteCommand(m))` and `Expect(action, ToRecordEvent(m))`, for a
message whose type the application produces (or, for a `Call()`, consumes), pass iff the action succeeds and a message that a handler
produced during this action - or, if the action is a `Call()`, that was given to the engine - has
the type of `m` and is equal to `m` according to the comparator. -/
theorem C44_expect (A : App W R) (E : TEnv W) (S : PScope) (c : RCtx) (m : Message) (k : Nat)
    (hS : S.opts.matchDispatch = false) (a : Action W)
    (hm : (∃ h ∈ S.cfgs, m.type ∈ h.produces) ∨
      (∃ fn ic, a = .call fn ic) ∧ ∃ h ∈ S.cfgs, m.type ∈ h.consumes) (ha : a.Flat) (t : TSt W R) (hk : t.fresh k)
    {t' : TSt W R} {calls : List ECall} {e : EEnd}
    (h : t.expect A E S ((Expectation.message m).impl c) k a = (t', calls, e)) (he : e ≠ .running) :
    ∃ l, t'.did = t.did ++ l ∧ (e = .passed ↔ t.actionResult A E k a = .done none ∧
      ∃ x ∈ a.countsIn (factsOfRecord l), x.type = m.type ∧ S.same x m = true) := by
  obtain ⟨l, h1, h2⟩ := C58_verdict A E S c (.message m) k a ha t hk h he
  refine ⟨l, h1, ?_⟩
  rw [h2]
  have hc : countedIn (a.scope S).opts.matchDispatch (factsOfRecord l) =
      a.countsIn (factsOfRecord l) := by
    cases a with
    | call fn ic => rfl
    | dispatch m =>
      rw [show ((Action.dispatch m : Action W).scope S).opts.matchDispatch = false from hS]
      rfl
    | advance d f =>
      rw [show ((Action.advance d f).scope S).opts.matchDispatch = false from hS]
      rfl
  have hs : ∀ x, (a.scope S).same x m = S.same x m := by intro x; cases a <;> rfl
  have hp : Possible (a.scope S) m.type := by
    rcases hm with hm | ⟨⟨fn, ic, rfl⟩, hm⟩
    · cases a <;> exact .inl hm
    · exact .inr ⟨rfl, hm⟩
  have hv := (C44_message (a.scope S) (factsOfRecord l) m).1 hp
  rw [hc] at hv
  simp only [hs] at hv
  rcases hv with ⟨hx, hd⟩ | ⟨hx, hd⟩
  · simp [hd, hx]
  · simp only [hd, hx]
    simp

set_option maxRecDepth 100000 in
example : Demo.expecting (.call (.exec (Demo.msgC "x") fun _ => .ret) none) (.message (Demo.msgC "x")) =
      ([0, 2, 3, 4], .passed) ∧
    Demo.expecting (.call (.exec (Demo.msgC "x") fun _ => .ret) none) (.message (Demo.msgC "y")) =
      ([0, 2, 3, 4], .failed) ∧
    Demo.expecting (.dispatch ⟨Demo.cmdD, "x", none⟩) (.message ⟨Demo.cmdD, "x", none⟩) =
      ([0, 2, 3, 4], .failed) := by
  decide +kernel

set_option maxRecDepth 100000 in
example : (Action.call Demo.twice none).Flat ∧ Demo.t0.fresh 7 ∧
    (toldIn 7 ((Action.call Demo.twice none).run Demo.app Demo.tenv [.observer 7] Demo.t0).1.did).length
      = 61 :=
  ⟨.call _ _ (.exec _ _ fun _ => .exec _ _ fun _ => .ret), rfl, by decide +kernel⟩

/-- A function that performs another action. -/
def Demo.inner : CProg Nat := .act (.dispatch (Demo.msgC "x")) fun _ => .ret

set_option maxRecDepth 100000 in
/-- **C58 is false** if the action performs other actions.  Actions performed by the function given to a `Call()` are actions of their own: an expectation on
the `Call()` is not told of what they do. -/
theorem C58_nested_fails :
    let t := ((Action.call Demo.inner none).run Demo.app Demo.tenv [.observer 7] Demo.t0).1
    (factsOfRecord t.did).length ≠ 0 ∧ (toldIn 7 t.did).length = 0 ∧
    Demo.expecting (.call Demo.inner none) (.type Demo.evtE) = ([0, 2, 3, 4], .failed) := by
  decide +kernel

end Verif
