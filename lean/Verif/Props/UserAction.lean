import Verif.UserAction
import Verif.Props.Protocol
import Verif.Props.History

/-!
# Actions written by users (C90 - C93)
-/

namespace Verif

variable {W R P : Type}

/-! ## Running programs -/

theorem AProg.run_andThen (A : App W R) (E : UEnv W) (κ : TRes → AProg W) : (p : AProg W) →
    ∀ t : TSt W R, (p.andThen κ).run A E t =
      match p.run A E t with
      | (t, .done e) => (κ (.ok e)).run A E t
      | (t, .panicked v) => (κ (.error v)).run A E t
      | (t, .running) => (t, .running)
  | .ret e, t => by simp only [AProg.andThen, AProg.run]
  | .panic v, t => by simp only [AProg.andThen, AProg.run]
  | .get k, t => by simp only [AProg.andThen, AProg.run]; exact (k _).run_andThen A E κ _
  | .set w k, t => by simp only [AProg.andThen, AProg.run]; exact k.run_andThen A E κ _
  | .clock k, t => by simp only [AProg.andThen, AProg.run]; exact (k _).run_andThen A E κ _
  | .setClock c k, t => by simp only [AProg.andThen, AProg.run]; exact k.run_andThen A E κ _
  | .op c k, t => by
    simp only [AProg.andThen, AProg.run]
    rcases t.engine A (c.op E.toTEnv t.sys.w) with ⟨t1, e | v | _⟩
    · exact (k _).run_andThen A E κ _
    · exact (k _).run_andThen A E κ _
    · rfl
  | .bind os k, t => by simp only [AProg.andThen, AProg.run]; exact k.run_andThen A E κ _
  | .unbind k, t => by simp only [AProg.andThen, AProg.run]; exact k.run_andThen A E κ _
  | .intercept f k, t => by simp only [AProg.andThen, AProg.run]; exact (k _).run_andThen A E κ _
  | .exec m k, t => by
    simp only [AProg.andThen, AProg.run]
    rcases t.execute A E.toTEnv m with ⟨t1, e | v | _⟩
    · exact (k _).run_andThen A E κ _
    · exact (k _).run_andThen A E κ _
    · rfl
  | .prepare a k, t => by
    simp only [AProg.andThen, AProg.run]
    rcases t.preparing E.toTEnv a.caption (a.run A E []) with ⟨t1, e | v | _⟩
    · exact (k _).run_andThen A E κ _
    · exact (k _).run_andThen A E κ _
    · rfl
  | .expect x o a k, t => by
    simp only [AProg.andThen, AProg.run]
    rcases t.expecting E.scope x o a.caption a.configure (fun os => a.run A E os) with ⟨t1, cs, e⟩
    simp only
    rcases e.back E.toTEnv with _ | r
    · rfl
    · exact (k _).run_andThen A E κ _

theorem UAction.run_eq (A : App W R) (E : UEnv W) (a : UAction W) (extra : List OpOption)
    (t : TSt W R) : a.run A E extra t = (a.act (t.actOpts extra)).run A E t := by
  cases a; simp only [UAction.run, UAction.act]

theorem AProg.ofRes_run (A : App W R) (E : UEnv W) (r : TSt W R × Outcome (Option TErr)) :
    (match r with
      | (t, .done e) => (AProg.ofRes (.ok e) : AProg W).run A E t
      | (t, .panicked v) => (AProg.ofRes (.error v) : AProg W).run A E t
      | (t, .running) => (t, .running)) = r := by
  rcases r with ⟨t, e | v | _⟩ <;> simp only [AProg.ofRes, AProg.run]

/-! ## C90: built-in actions are programs that use the scope -/

theorem Action.asUser_caption (A : App W R) (a : Action W) : (a.asUser A).caption = .ok a.caption := by
  cases a <;> simp only [Action.asUser, UAction.caption] <;> rfl

theorem Action.asUser_configure (A : App W R) (a : Action W) (o : PredOpts) :
    (a.asUser A).configure o = .ok (a.configure o) := by
  cases a <;> simp only [Action.asUser, UAction.configure, Action.configure]

mutual
theorem Action.asUser_run (A : App W R) (E : UEnv W) : (a : Action W) → ∀ (extra : List OpOption)
    (t : TSt W R), (a.asUser A).run A E extra t = a.run A E.toTEnv extra t
  | .dispatch m, extra, t => by
    simp only [Action.asUser, UAction.run, Action.run]
    split
    · simp only [AProg.run, EngCall.op]
      exact AProg.ofRes_run A E _
    · simp only [AProg.run]
  | .advance desc step, extra, t => by
    simp only [Action.asUser, UAction.run, Action.run, AProg.run]
    rcases step t.clock t.sys.w with ⟨w, v | now⟩
    · simp only [AProg.run]
    · simp only [AProg.run]
      split
      · simp only [AProg.run]
      · simp only [AProg.run, EngCall.op]
        exact AProg.ofRes_run A E _
  | .call fn ic, extra, t => by
    simp only [Action.asUser, UAction.run, Action.run, AProg.run]
    cases ic with
    | none =>
      simp only [AProg.run_andThen, fn.asUser_run A E, Option.none_or]
      rcases fn.run A E.toTEnv { t with bound := some (t.actOpts extra) } with ⟨t1, e | v | _⟩ <;>
        simp [AProg.run, AProg.afterCall, TSt.leave]
    | some f =>
      simp only [AProg.run, AProg.run_andThen, fn.asUser_run A E, Option.some_or]
      rcases fn.run A E.toTEnv { t with bound := some (t.actOpts extra), icept := some f }
        with ⟨t1, e | v | _⟩ <;> simp [AProg.run, AProg.afterCall, TSt.leave]
theorem CProg.asUser_run (A : App W R) (E : UEnv W) : (p : CProg W) → ∀ t : TSt W R,
    (p.asUser A).run A E t = p.run A E.toTEnv t
  | .ret, t => by simp only [CProg.asUser, AProg.run, CProg.run]
  | .panic v, t => by simp only [CProg.asUser, AProg.run, CProg.run]
  | .get k, t => by
    simp only [CProg.asUser, AProg.run, CProg.run]; exact (k _).asUser_run A E _
  | .set w k, t => by
    simp only [CProg.asUser, AProg.run, CProg.run]; exact k.asUser_run A E _
  | .exec m k, t => by
    simp only [CProg.asUser, AProg.run, CProg.run]
    rcases t.execute A E.toTEnv m with ⟨t1, e | v | _⟩
    · exact (k _).asUser_run A E _
    · exact (k _).asUser_run A E _
    · rfl
  | .act a k, t => by
    simp only [CProg.asUser, AProg.run, CProg.run]
    have e : t.preparing E.toTEnv (a.asUser A).caption ((a.asUser A).run A E []) =
        TSt.check E.toTEnv (a.run A E.toTEnv [] (t.announce a)) := by
      rw [a.asUser_caption]
      simp only [TSt.preparing]
      rw [a.asUser_run A E]
      rfl
    rw [e]
    rcases TSt.check E.toTEnv (a.run A E.toTEnv [] (t.announce a)) with ⟨t1, e | v | _⟩
    · exact (k _).asUser_run A E _
    · exact (k _).asUser_run A E _
    · rfl
end

/-- **C90.** The built-in actions have no privileges: `Prepare()` of one is `Prepare()` of a program
that only uses its scope. -/
theorem C90_prepare (A : App W R) (E : UEnv W) (a : Action W) (t : TSt W R) :
    t.prepareU A E (a.asUser A) = t.prepare A E.toTEnv a := by
  unfold TSt.prepareU TSt.prepare
  rw [a.asUser_caption]
  simp only [TSt.preparing]
  rw [a.asUser_run A E]
  rfl

/-- **C90.** And so is `Expect()`. -/
theorem C90_expect (A : App W R) (E : UEnv W) (X : Expecting P) (k : Nat) (a : Action W)
    (t : TSt W R) :
    t.expectU A E X.asUser k (a.asUser A) = t.expect A E.toTEnv E.scope X k a := by
  unfold TSt.expectU TSt.expect TSt.expecting
  rw [a.asUser_caption, a.asUser_configure]
  simp only [Expecting.asUser]
  rcases X.caption with v | c
  · rfl
  simp only
  rw [show ({ E.scope with opts := a.configure E.scope.opts } : PScope) = a.scope E.scope from rfl]
  rw [show "--- expect " ++ a.caption ++ " " ++ c ++ " ---" = a.expectLine c from rfl]
  generalize t.say (.log (a.expectLine c)) = t0
  rcases X.build (a.scope E.scope) with p | m | v
  · simp only
    rw [a.asUser_run A E]
    unfold TSt.judge
    rcases a.run A E.toTEnv [.observer k] t0 with ⟨t1, e | v | _⟩
    · simp only
      rcases X.done ((toldIn k (t1.did.drop t0.did.length)).foldl
        (fun p f => X.notify (a.scope E.scope) f p) p) with ⟨q, _ | v⟩
      · cases e <;> rfl
      · rfl
    · simp only
      rcases X.done ((toldIn k (t1.did.drop t0.did.length)).foldl
        (fun p f => X.notify (a.scope E.scope) f p) p) with ⟨q, _ | v⟩ <;> rfl
    · rfl
  · rfl
  · rfl

/-! ## The past does not matter -/

theorem TSt.say_past (d : List TObs) (t : TSt W R) (o : TObs) :
    (t.past d).say o = (t.say o).past d := by
  simp [TSt.say, TSt.past]

theorem TSt.conclude_past (d : List TObs) (ok : Except PanicVal Bool)
    (report : Bool → Except PanicVal Report) (t : TSt W R) :
    (t.past d).conclude ok report = ((t.conclude ok report).1.past d, (t.conclude ok report).2) := by
  unfold TSt.conclude
  rcases ok with v | b
  · rfl
  simp only
  rcases report b with v | r
  · rfl
  · simp only [TSt.say_past]
    split <;> rfl

theorem TSt.judge_past (d : List TObs) (j : Judge) (o : Nat) (t : TSt W R)
    (r : TSt W R × Outcome (Option TErr)) :
    (t.past d).judge j o (r.1.past d, r.2) =
      ((t.judge j o r).1.past d, (t.judge j o r).2) := by
  have e : (r.1.past d).did.drop (t.past d).did.length = r.1.did.drop t.did.length := by
    simp [TSt.past, List.drop_append]
  unfold TSt.judge
  simp only [e]
  rcases r.2 with e | v | _
  · simp only
    split
    · rfl
    · cases e with
      | some e => simp only [TSt.say_past]
      | none =>
        simp only
        rw [TSt.conclude_past]
  · rfl
  · rfl

theorem TSt.expecting_past (d : List TObs) (S : PScope) (x : Expected) (o : Nat)
    (cap : Except PanicVal String) (conf : PredOpts → Except PanicVal PredOpts)
    (act : List OpOption → TSt W R → TSt W R × Outcome (Option TErr))
    (hact : ∀ os t, act os (t.past d) = ((act os t).1.past d, (act os t).2)) (t : TSt W R) :
    (t.past d).expecting S x o cap conf act =
      ((t.expecting S x o cap conf act).1.past d, (t.expecting S x o cap conf act).2) := by
  unfold TSt.expecting
  rcases conf S.opts with v | po
  · rfl
  rcases cap with v | c
  · rfl
  rcases x.caption with v | c'
  · rfl
  simp only [TSt.say_past]
  rcases x.build { S with opts := po } with j | m | v
  · simp only
    rw [hact, TSt.judge_past]
  · rfl
  · rfl

theorem TSt.preparing_past (d : List TObs) (E : TEnv W) (cap : Except PanicVal String)
    (act : TSt W R → TSt W R × Outcome (Option TErr))
    (hact : ∀ t, act (t.past d) = ((act t).1.past d, (act t).2)) (t : TSt W R) :
    (t.past d).preparing E cap act =
      ((t.preparing E cap act).1.past d, (t.preparing E cap act).2) := by
  unfold TSt.preparing
  rcases cap with v | c
  · rfl
  · simp only [TSt.say_past]
    rw [hact, TSt.check_past]

mutual
theorem UAction.run_past (A : App W R) (E : UEnv W) (d : List TObs) : (a : UAction W) →
    ∀ (extra : List OpOption) (t : TSt W R),
      a.run A E extra (t.past d) = ((a.run A E extra t).1.past d, (a.run A E extra t).2)
  | .mk c f act, extra, t => by
    simp only [UAction.run]
    exact (act _).run_past A E d t
theorem AProg.run_past (A : App W R) (E : UEnv W) (d : List TObs) : (p : AProg W) →
    ∀ t : TSt W R, p.run A E (t.past d) = ((p.run A E t).1.past d, (p.run A E t).2)
  | .ret e, t => by simp only [AProg.run]
  | .panic v, t => by simp only [AProg.run]
  | .get k, t => by simp only [AProg.run]; exact (k _).run_past A E d t
  | .set w k, t => by
    simp only [AProg.run]; exact k.run_past A E d { t with sys := { t.sys with w := w } }
  | .clock k, t => by simp only [AProg.run]; exact (k _).run_past A E d t
  | .setClock c k, t => by simp only [AProg.run]; exact k.run_past A E d { t with clock := c }
  | .op c k, t => by
    simp only [AProg.run]
    rw [show c.op E.toTEnv (t.past d).sys.w = c.op E.toTEnv t.sys.w from rfl, TSt.engine_past]
    rcases t.engine A (c.op E.toTEnv t.sys.w) with ⟨t1, e | v | _⟩
    · exact (k _).run_past A E d t1
    · exact (k _).run_past A E d t1
    · rfl
  | .bind os k, t => by simp only [AProg.run]; exact k.run_past A E d { t with bound := some os }
  | .unbind k, t => by simp only [AProg.run]; exact k.run_past A E d { t with bound := none }
  | .intercept f k, t => by
    simp only [AProg.run]; exact (k _).run_past A E d { t with icept := f }
  | .exec m k, t => by
    simp only [AProg.run]
    rw [TSt.execute_past]
    rcases t.execute A E.toTEnv m with ⟨t1, e | v | _⟩
    · exact (k _).run_past A E d t1
    · exact (k _).run_past A E d t1
    · rfl
  | .prepare a k, t => by
    simp only [AProg.run]
    rw [TSt.preparing_past d E.toTEnv a.caption _ (a.run_past A E d [])]
    rcases t.preparing E.toTEnv a.caption (a.run A E []) with ⟨t1, e | v | _⟩
    · exact (k _).run_past A E d t1
    · exact (k _).run_past A E d t1
    · rfl
  | .expect x o a k, t => by
    simp only [AProg.run]
    rw [TSt.expecting_past d E.scope x o a.caption a.configure _ (a.run_past A E d)]
    rcases t.expecting E.scope x o a.caption a.configure (fun os => a.run A E os) with ⟨t1, cs, e⟩
    simp only
    rcases e.back E.toTEnv with _ | r
    · rfl
    · exact (k _).run_past A E d t1
end

theorem TSt.said_run (A : App W R) (E : UEnv W) (a : UAction W) (extra : List OpOption) (o : TObs)
    (t : TSt W R) : (a.run A E extra (t.say o)).2 = (a.run A E extra t).2 := by
  have h1 : t = TSt.past t.did { t with did := [] } := by simp [TSt.past]
  have h2 : t.say o = TSt.past (t.did ++ [o]) { t with did := [] } := by simp [TSt.past, TSt.say]
  rw [h2]
  conv => rhs; rw [h1]
  rw [a.run_past, a.run_past]

/-! ## C91: `Expect()` with any action -/

/-- The predicate of an `Expect()`, if `ConfigurePredicate()`, both `Caption()`s and `Predicate()` succeed. -/
def judgeOf (S : PScope) (x : Expected) (a : UAction W) : Option Judge :=
  match a.configure S.opts, a.caption, x.caption with
  | .ok po, .ok _, .ok _ =>
    match x.build { S with opts := po } with
    | .ok j => some j
    | _ => none
  | _, _, _ => none

/-- The panic that keeps an `Expect()` from having a predicate. -/
def panicOf (S : PScope) (x : Expected) (a : UAction W) : Option PanicVal :=
  match a.configure S.opts, a.caption, x.caption with
  | .error v, _, _ => some v
  | .ok _, .error v, _ => some v
  | .ok _, .ok _, .error v => some v
  | .ok po, .ok _, .ok _ =>
    match x.build { S with opts := po } with
    | .panic v => some v
    | _ => none

/-- The result of the action of an `Expect()`. -/
def TSt.resultU (A : App W R) (E : UEnv W) (o : Nat) (a : UAction W) (t : TSt W R) :
    Outcome (Option TErr) := (a.run A E [.observer o] t).2

theorem expectU_cases (A : App W R) (E : UEnv W) (x : Expected) (o : Nat) (a : UAction W)
    (t : TSt W R) {t' : TSt W R} {calls : List ECall} {e : EEnd}
    (h : t.expectU A E x o a = (t', calls, e)) :
    (judgeOf E.scope x a = none ∧ (calls = [] ∨ calls = [.build]) ∧
      (∃ l, (∀ y ∈ l, y.isSaid = true) ∧ t' = { t with did := t.did ++ l }) ∧
      ((∃ v, panicOf E.scope x a = some v ∧ e = .panicked v) ∨
        panicOf E.scope x a = none ∧ e = .failed)) ∨
    ∃ j c, judgeOf E.scope x a = some j ∧ panicOf E.scope x a = none ∧
      (t.say (.log c)).judge j o (a.run A E [.observer o] (t.say (.log c))) = (t', calls, e) := by
  revert h
  unfold TSt.expectU TSt.expecting judgeOf panicOf
  rcases a.configure E.scope.opts with v | po
  · intro h; cases h; exact .inl ⟨rfl, .inl rfl, ⟨[], nofun, by simp⟩, .inl ⟨v, rfl, rfl⟩⟩
  rcases a.caption with v | c
  · intro h; cases h; exact .inl ⟨rfl, .inl rfl, ⟨[], nofun, by simp⟩, .inl ⟨v, rfl, rfl⟩⟩
  rcases x.caption with v | c'
  · intro h; cases h; exact .inl ⟨rfl, .inl rfl, ⟨[], nofun, by simp⟩, .inl ⟨v, rfl, rfl⟩⟩
  simp only
  rcases x.build { E.scope with opts := po } with j | m | v
  · intro h; exact .inr ⟨j, _, rfl, rfl, h⟩
  · intro h; cases h
    exact .inl ⟨rfl, .inr rfl, ⟨[.log _, .fatal _], by simp [TObs.isSaid], by
      simp only [TSt.say, List.append_assoc]; rfl⟩, .inr ⟨rfl, rfl⟩⟩
  · intro h; cases h
    exact .inl ⟨rfl, .inr rfl, ⟨[.log _], by simp [TObs.isSaid], rfl⟩, .inl ⟨v, rfl, rfl⟩⟩

/-- How an `Expect()` ends that has a predicate. -/
theorem judge_cases (j : Judge) (o : Nat) (t : TSt W R) (r : TSt W R × Outcome (Option TErr))
    {t' : TSt W R} {calls : List ECall} {e : EEnd} (h : t.judge j o r = (t', calls, e)) :
    ∃ fs tl, fs = toldIn o (r.1.did.drop t.did.length) ∧
      calls = .build :: fs.map ECall.notify ++ tl ∧ notified calls = fs ∧
      (∃ l, (∀ y ∈ l, y.isSaid = true) ∧ t' = { r.1 with did := r.1.did ++ l }) ∧
      ((r.2 = .running ∧ tl = [] ∧ e = .running) ∨
       (∃ v, j.done fs = some v ∧ r.2 ≠ .running ∧ tl = [.done] ∧ e = .panicked v) ∨
       (j.done fs = none ∧
        ((∃ v, r.2 = .panicked v ∧ tl = [.done] ∧ e = .panicked v) ∨
         (∃ x, r.2 = .done (some x) ∧ tl = [.done] ∧ e = .failed) ∨
         (r.2 = .done none ∧
          ((∃ v, j.ok fs = .error v ∧ tl = [.done, .ok] ∧ e = .panicked v) ∨
            ∃ b, j.ok fs = .ok b ∧ tl = [.done, .ok, .report] ∧
              ((∃ v, j.report b fs = .error v ∧ e = .panicked v) ∨
                ∃ y, j.report b fs = .ok y ∧ e = if b then .passed else .failed)))))) := by
  have hn : ∀ (fs : List Fact) tl, (tl = [] ∨ tl = [.done] ∨ tl = [.done, .ok] ∨
      tl = [.done, .ok, .report]) →
      notified (.build :: fs.map ECall.notify ++ tl) = fs := by
    intro fs tl htl
    show notified (fs.map .notify ++ tl) = fs
    unfold notified
    rw [List.filterMap_append, ← notified, notified_map]
    rcases htl with rfl | rfl | rfl | rfl <;> simp
  unfold TSt.judge at h
  rcases r with ⟨t1, e' | v | _⟩
  · simp only at h
    generalize toldIn o (t1.did.drop t.did.length) = fs at h ⊢
    cases hd : j.done fs with
    | some v =>
      simp only [hd] at h
      cases h
      exact ⟨fs, [.done], rfl, rfl, hn fs _ (.inr (.inl rfl)), ⟨[], nofun, by simp⟩,
        .inr (.inl ⟨v, hd, nofun, rfl, rfl⟩)⟩
    | none =>
      simp only [hd] at h
      cases e' with
      | some x =>
        cases h
        exact ⟨fs, [.done], rfl, rfl, hn fs _ (.inr (.inl rfl)),
          ⟨[.fatal x], by simp [TObs.isSaid], rfl⟩, .inr (.inr ⟨hd, .inr (.inl ⟨x, rfl, rfl, rfl⟩)⟩)⟩
      | none =>
        simp only at h
        generalize hz : t1.conclude (j.ok fs) (fun b => j.report b fs) = z at h
        obtain ⟨t2, cs, e2⟩ := z
        cases h
        rcases TSt.conclude_cases _ _ _ hz with ⟨w, ho, rfl, rfl, rfl⟩ |
          ⟨b, ho, rfl, ⟨w, hw, rfl, rfl⟩ | ⟨r, hr, rfl, rfl⟩⟩
        · exact ⟨fs, _, rfl, rfl, hn fs _ (.inr (.inr (.inl rfl))), ⟨[], nofun, by simp⟩,
            .inr (.inr ⟨hd, .inr (.inr ⟨rfl, .inl ⟨w, ho, rfl, rfl⟩⟩)⟩)⟩
        · exact ⟨fs, _, rfl, rfl, hn fs _ (.inr (.inr (.inr rfl))), ⟨[], nofun, by simp⟩,
            .inr (.inr ⟨hd, .inr (.inr ⟨rfl, .inr ⟨b, ho, rfl, .inl ⟨w, hw, rfl⟩⟩⟩)⟩)⟩
        · refine ⟨fs, _, rfl, rfl, hn fs _ (.inr (.inr (.inr rfl))), ⟨_, ?_, rfl⟩,
            .inr (.inr ⟨hd, .inr (.inr ⟨rfl, .inr ⟨b, ho, rfl, .inr ⟨r, hr, rfl⟩⟩⟩)⟩)⟩
          cases b <;> simp [TObs.isSaid]
  · simp only at h
    generalize toldIn o (t1.did.drop t.did.length) = fs at h ⊢
    cases hd : j.done fs with
    | some v' =>
      simp only [hd, Option.getD_some] at h
      cases h
      exact ⟨fs, [.done], rfl, rfl, hn fs _ (.inr (.inl rfl)), ⟨[], nofun, by simp⟩,
        .inr (.inl ⟨_, hd, nofun, rfl, rfl⟩)⟩
    | none =>
      simp only [hd, Option.getD_none] at h
      cases h
      exact ⟨fs, [.done], rfl, rfl, hn fs _ (.inr (.inl rfl)), ⟨[], nofun, by simp⟩,
        .inr (.inr ⟨hd, .inl ⟨_, rfl, rfl, rfl⟩⟩)⟩
  · cases h
    exact ⟨_, [], rfl, (List.append_nil _).symm, (congrArg notified (List.append_nil _).symm).trans
      (hn _ _ (.inl rfl)), ⟨[], nofun, by simp⟩, .inl ⟨rfl, rfl, rfl⟩⟩

/-- **C91.** Whatever the action (also if it is the user's own, and whatever it does with the engine,
the clock, the executor or the test itself), the expectation and the predicate do: `Predicate()` is
called at most once; `Done()` is called exactly once if there is a predicate, however the action
ended, and not otherwise; `Ok()` and `Report()` at most once; and all notifications come before
`Done()`, which comes before `Ok()`, which comes before `Report()`. -/
theorem C91_protocol (A : App W R) (E : UEnv W) (x : Expected) (o : Nat) (a : UAction W)
    (t : TSt W R) {t' : TSt W R} {calls : List ECall} {e : EEnd}
    (h : t.expectU A E x o a = (t', calls, e)) (he : e ≠ .running) :
    stageCount 0 calls ≤ 1 ∧
    stageCount 2 calls = (if (judgeOf E.scope x a).isSome then 1 else 0) ∧
    stageCount 3 calls ≤ 1 ∧ stageCount 4 calls ≤ 1 ∧
    calls.Pairwise (fun c d => c.stage ≤ d.stage) := by
  rcases expectU_cases A E x o a t h with ⟨hj, hc, -⟩ | ⟨j, c, hj, -, h⟩
  · rw [hj]
    rcases hc with rfl | rfl
    · exact ⟨by decide, rfl, by decide, by decide, by simp⟩
    · exact ⟨by decide, rfl, by decide, by decide, by simp⟩
  · obtain ⟨fs, tl, -, hc, -, -, h⟩ := judge_cases j o _ _ h
    rw [hj]
    have htl : tl = [.done] ∨ tl = [.done, .ok] ∨ tl = [.done, .ok, .report] := by
      rcases h with ⟨-, -, h⟩ | ⟨-, -, -, h, -⟩ | ⟨-, ⟨-, -, h, -⟩ | ⟨-, -, h, -⟩ |
        ⟨-, ⟨-, -, h, -⟩ | ⟨-, -, h, -⟩⟩⟩
      · exact absurd h he
      · exact .inl h
      · exact .inl h
      · exact .inl h
      · exact .inr (.inl h)
      · exact .inr (.inr h)
    have c0 : ∀ n, n ≠ 1 → stageCount n calls = stageCount n [.build] + stageCount n tl := by
      intro n hn
      rw [hc, stageCount_append, show (ECall.build :: fs.map .notify) = [.build] ++ fs.map .notify
        from rfl, stageCount_append, stageCount_notify n hn, Nat.add_zero]
    rw [c0 0 (by decide), c0 2 (by decide), c0 3 (by decide), c0 4 (by decide), hc]
    rcases htl with rfl | rfl | rfl
    · exact ⟨by decide, rfl, by decide, by decide, staged _ _ (by simp) (by simp [ECall.stage])⟩
    · exact ⟨by decide, rfl, by decide, by decide, staged _ _ (by simp [ECall.stage]) (by simp [ECall.stage])⟩
    · exact ⟨by decide, rfl, by decide, by decide, staged _ _ (by simp [ECall.stage]) (by simp [ECall.stage])⟩

/-- **C91.** `Expect()` passes iff there is a predicate, the action succeeds, and the verdict of
the predicate on what it was told is positive; it fails the test iff `Predicate()` returned an error,
or the action did, or the verdict is negative; and it panics iff one of the methods of the action and
the expectation panics, with the same value (`Done()` is called even if the action panics, and its
panic replaces that of the action). -/
theorem C91_outcome (A : App W R) (E : UEnv W) (x : Expected) (o : Nat) (a : UAction W)
    (t : TSt W R) {t' : TSt W R} {calls : List ECall} {e : EEnd}
    (h : t.expectU A E x o a = (t', calls, e)) (he : e ≠ .running) :
    (e = .passed ↔ ∃ j, judgeOf E.scope x a = some j ∧ j.done (notified calls) = none ∧
      t.resultU A E o a = .done none ∧ j.ok (notified calls) = .ok true ∧
      ∃ y, j.report true (notified calls) = .ok y) ∧
    (e = .failed ↔ (judgeOf E.scope x a = none ∧ panicOf E.scope x a = none) ∨
      ∃ j, judgeOf E.scope x a = some j ∧ j.done (notified calls) = none ∧
      ((∃ r, t.resultU A E o a = .done (some r)) ∨
        (t.resultU A E o a = .done none ∧ j.ok (notified calls) = .ok false ∧
          ∃ y, j.report false (notified calls) = .ok y))) ∧
    ∀ v, e = .panicked v ↔ panicOf E.scope x a = some v ∨
      ∃ j, judgeOf E.scope x a = some j ∧ (j.done (notified calls) = some v ∨
        (j.done (notified calls) = none ∧ (t.resultU A E o a = .panicked v ∨
          t.resultU A E o a = .done none ∧ (j.ok (notified calls) = .error v ∨
            ∃ b, j.ok (notified calls) = .ok b ∧ j.report b (notified calls) = .error v)))) := by
  rcases expectU_cases A E x o a t h with ⟨hj, -, -, ⟨v, hp, rfl⟩ | ⟨hp, rfl⟩⟩ | ⟨j, c, hj, hp, h⟩
  · simp [hj, hp]
  · simp [hj, hp]
  · obtain ⟨fs, tl, -, -, hn, -, h⟩ := judge_cases j o _ _ h
    rw [TSt.said_run] at h
    rw [hn, hj, hp]
    unfold TSt.resultU
    rcases h with ⟨-, -, rfl⟩ | ⟨v, hd, -, -, rfl⟩ | ⟨hd, ⟨v, hr, -, rfl⟩ | ⟨y, hr, -, rfl⟩ |
      ⟨hr, ⟨v, ho, -, rfl⟩ | ⟨b, ho, -, ⟨v, hw, rfl⟩ | ⟨y, hw, rfl⟩⟩⟩⟩
    · exact absurd rfl he
    · simp [hd]
    · simp [hd, hr]
    · simp [hd, hr]
    · simp [hd, hr, ho]
    · cases b <;> simp [hd, hr, ho, hw]
    · cases b <;> simp [hd, hr, ho, hw]

/-! ## Examples -/

/-- The surroundings of a demo test with the demo scope. -/
def Demo.uenv : UEnv Nat := { Demo.tenv with scope := Demo.scope false }

/-- The expectation, as one of the user. -/
def Demo.expected (x : Expectation) : Expected := (x.impl Demo.ctx).asUser

/-- An action of the user's own: ticks and then dispatches with the options of its scope, binds the
executor to them and executes another command, unbinds it and resets the engine. -/
def Demo.mine : UAction Nat := .mk (.ok "doing something") .ok fun os =>
  .op (.tick os) fun _ => .op (.dispatch (Demo.msgC "x") (os ++ [.enableType .aggregate true])) fun _ =>
    .bind os <| .exec (Demo.msgC "y") fun r => .unbind <| .op .reset fun _ => .ofRes r

/-- The kinds of calls without notifications, and the end. -/
def Demo.expectingU (a : UAction Nat) (x : Expectation) : List Nat × EEnd :=
  let r := Demo.t0.expectU Demo.app Demo.uenv (Demo.expected x) 7 a
  ((r.2.1.map ECall.stage).filter (· ≠ 1), r.2.2)

set_option maxRecDepth 100000 in
example : Demo.expectingU Demo.mine (.type Demo.evtE) = ([0, 2, 3, 4], .passed) ∧
    Demo.expectingU Demo.mine (.not (.type Demo.evtE)) = ([0, 2, 3, 4], .failed) ∧
    Demo.expectingU (.mk (.ok "x") (fun _ => .error (.user "no")) fun _ => .ret none)
      (.type Demo.evtE) = ([], .panicked (.user "no")) ∧
    Demo.expectingU (.mk (.ok "x") .ok fun _ => .panic (.user "oops")) (.type Demo.evtE) =
      ([0, 2], .panicked (.user "oops")) ∧
    Demo.expectingU (.mk (.ok "x") .ok fun os => .expect (Demo.expected (.type Demo.evtE)) 8 Demo.mine
      fun _ => .op (.dispatch (Demo.msgC "z") os) .ofRes) (.type Demo.evtE) = ([0, 2, 3, 4], .passed) ∧
    Demo.expectingU ((Action.dispatch (Demo.msgC "x")).asUser Demo.app) (.type Demo.evtE) =
      Demo.expecting (.dispatch (Demo.msgC "x")) (.type Demo.evtE) := by
  decide +kernel

end Verif
