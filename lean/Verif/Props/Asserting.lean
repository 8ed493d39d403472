import Verif.Props.AbsentTest
import Verif.Props.AnyData
import Verif.Props.AnyIdsTest

/-!
# C129: asserting changes nothing

`Expect()` does to the engine what `Prepare()` does with the same action, whatever the expectation is.
-/

namespace Verif

variable {W R : Type}

/-! ## Specification -/

/-- The option does not register an observer. -/
def OpOption.deaf : OpOption → Bool
  | .observer _ => false
  | _ => true

/-- The statement without its expectation. -/
def TStep.plain : TStep W → TStep W
  | .prepare a => .prepare a
  | .expect _ _ a => .prepare a

/-- The statement ended well. -/
def TStep.End.well : TStep.End → Bool
  | .inl (.done none) => true
  | .inr .passed => true
  | _ => false

/-- Two tests in which everything is the same, but for what they have done and said. -/
structure TSt.Equal (t t' : TSt W R) : Prop where
  sys : t'.sys = t.sys
  clock : t'.clock = t.clock
  opts : t'.opts = t.opts
  bound : t'.bound = t.bound
  icept : t'.icept = t.icept

/-! ## The engine -/

/-- Some of the options of an operation. -/
def Op.keep (q : OpOption → Bool) : Op → Op
  | .dispatch n m os => .dispatch n m (os.filter q)
  | .tick n order os => .tick n order (os.filter q)
  | .reset => .reset

/-- Options without observers. -/
def OpOpts.hush (oo : OpOpts) : OpOpts := { oo with observers := [] }

theorem handleOne_hush (A : App W R) (oo : OpOpts) (env : Env) (h : HConfig) (s : Sys W R) :
    handleOne A oo.hush env h s = handleOne A oo env h s := rfl

theorem handleAll_hush (A : App W R) (oo : OpOpts) (env : Env) : ∀ (hs : List HConfig) (q : List Env)
    (de : List EngErr) (s : Sys W R), handleAll A oo.hush env hs q de s = handleAll A oo env hs q de s
  | [], _, _, _ => rfl
  | h :: hs, q, de, s => by
    unfold handleAll
    rw [handleOne_hush]
    rcases handleOne A oo env h s with ⟨s1, v | ⟨envs, e⟩⟩
    · rfl
    · exact handleAll_hush A oo env hs _ _ _

theorem dispatchLoop_hush (A : App W R) (oo : OpOpts) : ∀ (n : Nat) (q : List Env) (errs : List EngErr)
    (s : Sys W R), dispatchLoop A oo.hush n q errs s = dispatchLoop A oo n q errs s
  | 0, [], _, _ => by unfold dispatchLoop; rfl
  | _ + 1, [], _, _ => by unfold dispatchLoop; rfl
  | 0, _ :: _, _, _ => by unfold dispatchLoop; rfl
  | n + 1, env :: q, errs, s => by
    unfold dispatchLoop
    cases A.targets env with
    | error v => rfl
    | ok hs =>
      simp only [handleAll_hush]
      rcases handleAll A oo env hs q [] (s.notify (.dispatchBegun env)) with ⟨s1, v | ⟨q1, de⟩⟩
      · rfl
      · simp only
        cases A.uc.ctxErr (s1.notify (.dispatchCompleted env de)).w with
        | some e => rfl
        | none => exact dispatchLoop_hush A oo n _ _ _

theorem tickAll_hush (A : App W R) (oo : OpOpts) : ∀ (hs : List HConfig) (q : List Env)
    (errs : List EngErr) (s : Sys W R), tickAll A oo.hush hs q errs s = tickAll A oo hs q errs s
  | [], _, _, _ => rfl
  | h :: hs, q, errs, s => by
    unfold tickAll
    rw [show skipHandler oo.hush h = skipHandler oo h from rfl]
    cases skipHandler oo h with
    | some r => exact tickAll_hush A oo hs _ _ _
    | none =>
      simp only [show oo.hush.now = oo.now from rfl]
      rcases ctlTick A h oo.now (s.notify (.tickBegun h)) with ⟨s1, v | ⟨envs, e⟩⟩
      · rfl
      · simp only
        cases A.uc.ctxErr (s1.notify (.tickCompleted h e)).w with
        | some c => rfl
        | none => exact tickAll_hush A oo hs _ _ _

theorem engTickLocked_hush (A : App W R) (oo : OpOpts) (n : Nat) (order : List HConfig) (s : Sys W R) :
    engTickLocked A oo.hush n order s = engTickLocked A oo n order s := by
  unfold engTickLocked
  simp only [tickAll_hush, dispatchLoop_hush]

theorem applyAll_hush (A : App W R) : ∀ (os : List OpOption) (oo : OpOpts),
    oo.hush.applyAll A (os.filter OpOption.deaf) = (oo.applyAll A os).map OpOpts.hush
  | [], oo => rfl
  | o :: os, oo => by
    cases o with
    | observer k =>
      have := applyAll_hush A os { oo with observers := oo.observers ++ [k] }
      simpa [OpOption.deaf, OpOpts.applyAll, OpOpts.apply, OpOpts.hush] using this
    | enableType t b =>
      rw [show (OpOption.enableType t b :: os).filter OpOption.deaf
        = .enableType t b :: os.filter OpOption.deaf from rfl]
      exact applyAll_hush A os { oo with types := fun x => if x = t then b else oo.types x }
    | currentTime t =>
      rw [show (OpOption.currentTime t :: os).filter OpOption.deaf
        = .currentTime t :: os.filter OpOption.deaf from rfl]
      exact applyAll_hush A os { oo with now := t }
    | enableHandler n b =>
      rw [show (OpOption.enableHandler n b :: os).filter OpOption.deaf
        = .enableHandler n b :: os.filter OpOption.deaf from rfl]
      by_cases h : n ∈ A.cfgs.map HConfig.name
      · simp only [OpOpts.applyAll, OpOpts.apply, if_pos h]
        exact applyAll_hush A os { oo with names := upd oo.names n (some b) }
      · simp only [OpOpts.applyAll, OpOpts.apply, if_neg h]
        rfl

theorem newOpOpts_hush (A : App W R) (s : Sys W R) (os : List OpOption) :
    newOpOpts A s (os.filter OpOption.deaf) = (newOpOpts A s os).map OpOpts.hush :=
  applyAll_hush A os (OpOpts.default (A.uc.wallClock s.w))

/-- **C129** for operations: observers make no difference to what an operation does and returns. -/
theorem C129_observers (A : App W R) (op : Op) (s : Sys W R) :
    (op.keep OpOption.deaf).exec A s = op.exec A s := by
  cases op with
  | reset => rfl
  | dispatch n m os =>
    simp only [Op.keep, Op.exec]
    unfold engDispatch
    simp only [newOpOpts_hush]
    cases newOpOpts A { s with nextID := s.nextID + 1 } os with
    | error v => rfl
    | ok oo => simp only [Except.map, dispatchLoop_hush]; rfl
  | tick n order os =>
    simp only [Op.keep, Op.exec]
    unfold engTick
    rw [newOpOpts_hush]
    cases newOpOpts A s os with
    | error v => rfl
    | ok oo => simp only [Except.map, engTickLocked_hush]; rfl

/-! ## Tests -/

/-- Some of the options of the operations of a test. -/
def TObs.keep (q : OpOption → Bool) : TObs → TObs
  | .engine c op fs => .engine c (op.keep q) fs
  | o => o

/-- Two tests that are the same but for options, and have been doing the same since some point. -/
structure TSt.Near (q : OpOption → Bool) (P P' : List TObs) (t t' : TSt W R) : Prop where
  sys : t'.sys = t.sys
  clock : t'.clock = t.clock
  opts : t'.opts = t.opts
  bound : t'.bound.map (·.filter q) = t.bound.map (·.filter q)
  icept : t'.icept = t.icept
  did : ∃ l l', t.did = P ++ l ∧ t'.did = P' ++ l' ∧ l'.map (TObs.keep q) = l.map (TObs.keep q)

section
variable {A : App W R} {q : OpOption → Bool} {P P' : List TObs}

theorem TSt.Near.also {t t' : TSt W R} (ht : t.Near q P P' t') {o o' : TObs}
    (ho : o'.keep q = o.keep q) :
    TSt.Near q P P' { t with did := t.did ++ [o] } { t' with did := t'.did ++ [o'] } :=
  ⟨ht.sys, ht.clock, ht.opts, ht.bound, ht.icept, by
    obtain ⟨l, l', h, h', e⟩ := ht.did
    exact ⟨l ++ [o], l' ++ [o'], by simp [h], by simp [h'], by simp [e, ho]⟩⟩

theorem TSt.Near.say {t t' : TSt W R} (ht : t.Near q P P' t') (o : TObs) :
    TSt.Near q P P' (t.say o) (t'.say o) := ht.also rfl

theorem TSt.Near.world {t t' : TSt W R} (ht : t.Near q P P' t') (w : W) :
    TSt.Near q P P' { t with sys := { t.sys with w := w } } { t' with sys := { t'.sys with w := w } } :=
  ⟨by simp only [ht.sys], ht.clock, ht.opts, ht.bound, ht.icept, ht.did⟩

theorem TSt.Near.engine (hq : ∀ op s, (Op.keep q op).exec A s = op.exec A s) {t t' : TSt W R}
    (ht : t.Near q P P' t') {op op' : Op} (h : op'.keep q = op.keep q) :
    TSt.Near q P P' (t.engine A op).1 (t'.engine A op').1 ∧ (t'.engine A op').2 = (t.engine A op).2 := by
  have he : op'.exec A t'.sys = op.exec A t.sys := by rw [ht.sys, ← hq op, ← h, hq op']
  unfold TSt.engine
  rw [he, ht.sys, ht.clock]
  rcases op.exec A t.sys with ⟨s, o⟩
  obtain ⟨l, l', e, e', k⟩ := ht.did
  exact ⟨⟨rfl, rfl, ht.opts, ht.bound, ht.icept,
    l ++ [.engine t.clock op (factsOf (during t.sys s))], l' ++ [.engine t.clock op' (factsOf (during t.sys s))],
    by simp only [e, List.append_assoc], by simp only [e', List.append_assoc],
    by simp [k, TObs.keep, h]⟩, rfl⟩

theorem IProg.run_near (hq : ∀ op s, (Op.keep q op).exec A s = op.exec A s) (E : TEnv W)
    {os os' : List OpOption} (ho : os'.filter q = os.filter q) : ∀ (p : IProg W) (t t' : TSt W R),
    t.Near q P P' t' →
    TSt.Near q P P' (p.run A E os t).1 (p.run A E os' t').1 ∧ (p.run A E os' t').2 = (p.run A E os t).2
  | .ret e, t, t', ht => ⟨ht, rfl⟩
  | .panic v, t, t', ht => ⟨ht, rfl⟩
  | .get k, t, t', ht => by
    unfold IProg.run
    rw [ht.sys]
    exact IProg.run_near hq E ho _ t t' ht
  | .set w k, t, t', ht => by
    unfold IProg.run
    exact IProg.run_near hq E ho k _ _ (ht.world w)
  | .next m k, t, t', ht => by
    unfold IProg.run
    obtain ⟨h1, h2⟩ := ht.engine hq (op := .dispatch E.fuel m os) (op' := .dispatch E.fuel m os')
      (by simp only [Op.keep, ho])
    rcases hx : t.engine A (.dispatch E.fuel m os) with ⟨t1, o⟩
    rcases hy : t'.engine A (.dispatch E.fuel m os') with ⟨t1', o'⟩
    rw [hx, hy] at h1 h2
    simp only at h2
    subst h2
    cases o' with
    | done e => exact IProg.run_near hq E ho _ t1 t1' h1
    | panicked pv => exact IProg.run_near hq E ho _ t1 t1' h1
    | running => exact ⟨h1, rfl⟩

theorem TSt.execute_near (hq : ∀ op s, (Op.keep q op).exec A s = op.exec A s) (E : TEnv W)
    {t t' : TSt W R} (ht : t.Near q P P' t') (m : Message) :
    TSt.Near q P P' (t.execute A E m).1 (t'.execute A E m).1 ∧
    (t'.execute A E m).2 = (t.execute A E m).2 := by
  unfold TSt.execute
  have hb := ht.bound
  have hs : t'.bound.isSome = t.bound.isSome := by
    revert hb
    cases t.bound <;> cases t'.bound <;> simp
  have h0 : TSt.Near q P P' { t with did := t.did ++ [TObs.exec m t.bound.isSome] }
      { t' with did := t'.did ++ [TObs.exec m t'.bound.isSome] } := ht.also (by rw [hs])
  have hi := ht.icept
  simp only
  generalize hu : ({ t with did := t.did ++ [TObs.exec m t.bound.isSome] } : TSt W R) = u at h0 ⊢
  generalize hu' : ({ t' with did := t'.did ++ [TObs.exec m t'.bound.isSome] } : TSt W R) = u' at h0 ⊢
  revert hb
  rw [hi]
  cases t.bound with
  | none =>
    cases t'.bound with
    | none => intro _; exact ⟨h0, rfl⟩
    | some os => intro hb; cases hb
  | some os =>
    cases t'.bound with
    | none => intro hb; cases hb
    | some os' =>
      intro hb
      have ho : os'.filter q = os.filter q := by simpa using hb
      simp only
      cases t.icept with
      | none => exact h0.engine hq (by simp only [Op.keep, ho])
      | some f => exact IProg.run_near hq E ho (f m) _ _ h0

theorem TSt.check_near (E : TEnv W) {x x' : TSt W R × Outcome (Option TErr)}
    (h1 : TSt.Near q P P' x.1 x'.1) (h2 : x'.2 = x.2) :
    TSt.Near q P P' (TSt.check E x).1 (TSt.check E x').1 ∧ (TSt.check E x').2 = (TSt.check E x).2 := by
  obtain ⟨t, o⟩ := x
  obtain ⟨t', o'⟩ := x'
  simp only at h1 h2
  subst h2
  rcases o' with (_ | e) | pv | _
  · exact ⟨h1, rfl⟩
  · exact ⟨h1.say _, rfl⟩
  · exact ⟨h1, rfl⟩
  · exact ⟨h1, rfl⟩

theorem TSt.Near.leave {t t' : TSt W R} (ht : t.Near q P P' t') (prev : Option (Message → IProg W))
    (had : Bool) : TSt.Near q P P' (t.leave prev had) (t'.leave prev had) :=
  ⟨ht.sys, ht.clock, ht.opts, rfl, by simp only [TSt.leave, ht.icept], ht.did⟩

theorem TSt.Near.actOpts {t t' : TSt W R} (ht : t.Near q P P' t') {x x' : List OpOption}
    (hx : x'.filter q = x.filter q) : (t'.actOpts x').filter q = (t.actOpts x).filter q := by
  unfold TSt.actOpts
  rw [ht.clock, ht.opts, List.filter_append, List.filter_append, hx]

mutual
theorem Action.run_near (hq : ∀ op s, (Op.keep q op).exec A s = op.exec A s) (E : TEnv W) :
    ∀ (a : Action W) (x x' : List OpOption), x'.filter q = x.filter q → ∀ (t t' : TSt W R),
    t.Near q P P' t' →
    TSt.Near q P P' (a.run A E x t).1 (a.run A E x' t').1 ∧ (a.run A E x' t').2 = (a.run A E x t).2
  | .dispatch m, x, x', hx, t, t', ht => by
    unfold Action.run
    split
    · exact ht.engine hq (by simp only [Op.keep, ht.actOpts hx])
    · exact ⟨ht, rfl⟩
  | .advance desc step, x, x', hx, t, t', ht => by
    unfold Action.run
    rw [ht.clock, ht.sys]
    rcases step t.clock t.sys.w with ⟨w, pv | now⟩
    · exact ⟨⟨rfl, rfl, ht.opts, ht.bound, ht.icept, ht.did⟩, rfl⟩
    · simp only
      split
      · exact ⟨⟨rfl, rfl, ht.opts, ht.bound, ht.icept, ht.did⟩, rfl⟩
      · have h0 : TSt.Near q P P' { t with sys := { t.sys with w := w }, clock := now }
            { t' with sys := { t.sys with w := w }, clock := now } :=
          ⟨rfl, rfl, ht.opts, ht.bound, ht.icept, ht.did⟩
        exact h0.engine hq (by simp only [Op.keep, List.filter_append, ht.actOpts hx])
  | .call fn ic, x, x', hx, t, t', ht => by
    unfold Action.run
    have h0 : TSt.Near q P P' { t with bound := some (t.actOpts x), icept := ic.or t.icept }
        { t' with bound := some (t'.actOpts x'), icept := ic.or t'.icept } :=
      ⟨ht.sys, ht.clock, ht.opts, by simp only [Option.map_some, ht.actOpts hx], by simp only [ht.icept],
        ht.did⟩
    obtain ⟨h1, h2⟩ := CProg.run_near hq E fn _ _ h0
    rcases hy : fn.run A E { t with bound := some (t.actOpts x), icept := ic.or t.icept } with ⟨u, o⟩
    rcases hy' : fn.run A E { t' with bound := some (t'.actOpts x'), icept := ic.or t'.icept }
      with ⟨u', o'⟩
    rw [hy, hy'] at h1 h2
    simp only at h1 h2
    subst h2
    simp only [ht.icept]
    rcases o' with e | pv | _
    · exact ⟨h1.leave _ _, rfl⟩
    · exact ⟨h1.leave _ _, rfl⟩
    · exact ⟨h1, rfl⟩
theorem CProg.run_near (hq : ∀ op s, (Op.keep q op).exec A s = op.exec A s) (E : TEnv W) :
    ∀ (p : CProg W) (t t' : TSt W R), t.Near q P P' t' →
    TSt.Near q P P' (p.run A E t).1 (p.run A E t').1 ∧ (p.run A E t').2 = (p.run A E t).2
  | .ret, t, t', ht => by unfold CProg.run; exact ⟨ht, rfl⟩
  | .panic pv, t, t', ht => by unfold CProg.run; exact ⟨ht, rfl⟩
  | .get k, t, t', ht => by
    unfold CProg.run
    rw [ht.sys]
    exact CProg.run_near hq E (k _) t t' ht
  | .set w k, t, t', ht => by
    unfold CProg.run
    exact CProg.run_near hq E k _ _ (ht.world w)
  | .exec m k, t, t', ht => by
    unfold CProg.run
    obtain ⟨h1, h2⟩ := TSt.execute_near hq E ht m
    rcases hy : t.execute A E m with ⟨u, o⟩
    rcases hy' : t'.execute A E m with ⟨u', o'⟩
    rw [hy, hy'] at h1 h2
    simp only at h1 h2
    subst h2
    rcases o' with e | pv | _
    · exact CProg.run_near hq E (k _) u u' h1
    · exact CProg.run_near hq E (k _) u u' h1
    · exact ⟨h1, rfl⟩
  | .act a k, t, t', ht => by
    unfold CProg.run
    obtain ⟨h0, h00⟩ := Action.run_near hq E a [] [] rfl (t.announce a) (t'.announce a) (ht.say _)
    obtain ⟨h1, h2⟩ := TSt.check_near E h0 h00
    rcases hy : TSt.check E (a.run A E [] (t.announce a)) with ⟨u, o⟩
    rcases hy' : TSt.check E (a.run A E [] (t'.announce a)) with ⟨u', o'⟩
    rw [hy, hy'] at h1 h2
    simp only at h1 h2
    subst h2
    rcases o' with e | pv | _
    · exact CProg.run_near hq E (k _) u u' h1
    · exact CProg.run_near hq E (k _) u u' h1
    · exact ⟨h1, rfl⟩
end

/-- What is bound after an action that ended. -/
theorem Action.run_bound (E : TEnv W) (a : Action W) (x x' : List OpOption) {t t' : TSt W R}
    (hb : t'.bound = t.bound) (h : (a.run A E x t).2 ≠ .running) (h' : (a.run A E x' t').2 ≠ .running) :
    (a.run A E x' t').1.bound = (a.run A E x t).1.bound := by
  cases a with
  | dispatch m =>
    unfold Action.run
    split
    · exact hb
    · exact hb
  | advance desc step =>
    unfold Action.run
    rcases step t.clock t.sys.w with ⟨w, pv | now⟩ <;> rcases step t'.clock t'.sys.w with ⟨w', pv' | now'⟩ <;>
      simp only <;> (try split) <;> (try split) <;> exact hb
  | call fn ic =>
    unfold Action.run at h h' ⊢
    simp only at h h' ⊢
    generalize fn.run A E { t with bound := some (t.actOpts x), icept := ic.or t.icept } = u at h ⊢
    generalize fn.run A E { t' with bound := some (t'.actOpts x'), icept := ic.or t'.icept } = u' at h' ⊢
    rcases u with ⟨u, e | pv | _⟩ <;> rcases u' with ⟨u', e' | pv' | _⟩ <;>
      first | rfl | exact absurd rfl h | exact absurd rfl h'

theorem List.filter_yes {α : Type} (l : List α) : l.filter (fun _ => true) = l := by simp

theorem Op.keep_yes (op : Op) : op.keep (fun _ => true) = op := by
  cases op <;> simp [Op.keep]

theorem TObs.keep_yes (l : List TObs) : l.map (TObs.keep fun _ => true) = l := by
  induction l with
  | nil => rfl
  | cons o l ih =>
    rw [List.map_cons, ih]
    cases o <;> simp [TObs.keep, Op.keep_yes]

theorem TSt.Equal.near {t t' : TSt W R} (ht : t.Equal t') (q : OpOption → Bool) :
    t.Near q t.did t'.did t' :=
  ⟨ht.sys, ht.clock, ht.opts, by rw [ht.bound], ht.icept, [], [], by simp, by simp, rfl⟩

theorem TSt.Near.equal {t t' : TSt W R} (ht : t.Near q P P' t') (hb : t'.bound = t.bound) : t.Equal t' :=
  ⟨ht.sys, ht.clock, ht.opts, hb, ht.icept⟩

/-- What is observed and said does not matter to a test. -/
theorem run_equal (E : TEnv W) (a : Action W) (k : Nat) {t t' : TSt W R} (ht : t.Equal t') :
    TSt.Near OpOption.deaf t.did t'.did (a.run A E [.observer k] t).1 (a.run A E [] t').1 ∧
    (a.run A E [] t').2 = (a.run A E [.observer k] t).2 :=
  Action.run_near (C129_observers A) E a [.observer k] [] rfl t t' (ht.near _)

theorem TSt.Equal.say {t t' : TSt W R} (ht : t.Equal t') (o o' : TObs) : (t.say o).Equal (t'.say o') :=
  ⟨ht.sys, ht.clock, ht.opts, ht.bound, ht.icept⟩

/-- **C129** for `Expect()`, with any implementation of `Expectation` that provides a predicate: whether it passes,
fails or panics, engine, clock, options and interceptor are as after `Prepare()` with the same action; and
if it passes then `Prepare()` succeeds. -/
theorem C129_expect {Q : Type} (A : App W R) (E : TEnv W) (S : PScope) (X : Expecting Q) (k : Nat) (a : Action W)
    (t : TSt W R) {c : String} (hc : X.caption = .ok c) {p : Q} (hp : X.build (a.scope S) = .ok p) :
    (t.expect A E S X k a).1.sys = (t.prepare A E a).1.sys ∧
    (t.expect A E S X k a).1.clock = (t.prepare A E a).1.clock ∧
    (t.expect A E S X k a).1.opts = (t.prepare A E a).1.opts ∧
    (t.expect A E S X k a).1.icept = (t.prepare A E a).1.icept ∧
    ((t.expect A E S X k a).2.2 = .passed →
      (t.prepare A E a).2 = .done none ∧ (t.prepare A E a).1.Equal (t.expect A E S X k a).1) := by
  have h0 : (t.say (.log (a.expectLine c))).Equal (t.announce a) := ⟨rfl, rfl, rfl, rfl, rfl⟩
  obtain ⟨h1, h2⟩ := run_equal (A := A) E a k h0
  have h3 := Action.run_bound (A := A) E a [.observer k] [] h0.bound
  unfold TSt.expect TSt.prepare
  simp only [hc, hp]
  rcases hx : a.run A E [.observer k] (t.say (.log (a.expectLine c))) with ⟨u, o⟩
  rcases hx' : a.run A E [] (t.announce a) with ⟨u', o'⟩
  rw [hx, hx'] at h1 h2 h3
  simp only at h1 h2 h3
  subst h2
  simp only
  generalize toldIn k _ = fs
  have e := h1.sys
  have e1 := h1.clock
  have e2 := h1.opts
  have e3 := h1.icept
  rcases o' with (_ | x) | v | _
  · have hb := h3 (by simp) (by simp)
    rcases X.done (fs.foldl (fun p f => X.notify (a.scope S) f p) p) with ⟨q, _ | v'⟩
    · simp only [TSt.conclude]
      rcases X.ok q with v | b
      · exact ⟨e.symm, e1.symm, e2.symm, e3.symm, by simp⟩
      · simp only
        rcases X.report b q with v | r
        · exact ⟨e.symm, e1.symm, e2.symm, e3.symm, by simp⟩
        · cases b
          · exact ⟨e.symm, e1.symm, e2.symm, e3.symm, by simp⟩
          · exact ⟨e.symm, e1.symm, e2.symm, e3.symm, fun _ =>
              ⟨rfl, ⟨e.symm, e1.symm, e2.symm, hb.symm, e3.symm⟩⟩⟩
    · exact ⟨e.symm, e1.symm, e2.symm, e3.symm, by simp⟩
  · rcases X.done (fs.foldl (fun p f => X.notify (a.scope S) f p) p) with ⟨q, _ | v'⟩
    · exact ⟨e.symm, e1.symm, e2.symm, e3.symm, by simp⟩
    · exact ⟨e.symm, e1.symm, e2.symm, e3.symm, by simp⟩
  · rcases X.done (fs.foldl (fun p f => X.notify (a.scope S) f p) p) with ⟨q, _ | v'⟩
    · exact ⟨e.symm, e1.symm, e2.symm, e3.symm, by simp⟩
    · exact ⟨e.symm, e1.symm, e2.symm, e3.symm, by simp⟩
  · exact ⟨e.symm, e1.symm, e2.symm, e3.symm, by simp⟩

theorem keep_yes_exec (A : App W R) (op : Op) (s : Sys W R) :
    (Op.keep (fun _ => true) op).exec A s = op.exec A s := by rw [Op.keep_yes]

theorem TSt.Near.exactly {t t' : TSt W R} (ht : t.Near (fun _ => true) P P' t') : t.Equal t' := by
  refine ht.equal ?_
  have := ht.bound
  simpa only [List.filter_yes, Option.map_id_fun', id_eq] using this

/-- **C129** for a statement after another: only what the tests are, not what they did and said before, decides
how it ends and what the expectation is told. -/
theorem C129_later {Q : Type} (A : App W R) (E : TEnv W) {t t' : TSt W R} (ht : t.Equal t') (a : Action W) :
    ((t.prepare A E a).1.Equal (t'.prepare A E a).1 ∧ (t'.prepare A E a).2 = (t.prepare A E a).2) ∧
    ∀ (S : PScope) (X : Expecting Q) (k : Nat),
      (t.expect A E S X k a).1.Equal (t'.expect A E S X k a).1 ∧
      (t'.expect A E S X k a).2 = (t.expect A E S X k a).2 := by
  constructor
  · obtain ⟨h1, h2⟩ := Action.run_near (keep_yes_exec A) E a [] [] rfl (t.announce a) (t'.announce a)
      ((ht.near _).say _)
    obtain ⟨h1, h2⟩ := TSt.check_near E h1 h2
    exact ⟨h1.exactly, h2⟩
  · intro S X k
    unfold TSt.expect
    rcases X.caption with v | c
    · exact ⟨ht, rfl⟩
    · simp only
      have h0 : (t.say (.log (a.expectLine c))).Equal (t'.say (.log (a.expectLine c))) := ht.say _ _
      cases X.build (a.scope S) with
      | panic v => exact ⟨h0, rfl⟩
      | err msg => exact ⟨h0.say _ _, rfl⟩
      | ok p =>
        simp only
        obtain ⟨h1, h2⟩ := Action.run_near (keep_yes_exec A) E a [.observer k] [.observer k] rfl _ _ (h0.near _)
        rcases hx : a.run A E [.observer k] (t.say (.log (a.expectLine c))) with ⟨u, o⟩
        rcases hx' : a.run A E [.observer k] (t'.say (.log (a.expectLine c))) with ⟨u', o'⟩
        rw [hx, hx'] at h1 h2
        simp only at h1 h2
        subst h2
        obtain ⟨l, l', e, e', hl⟩ := h1.did
        rw [TObs.keep_yes, TObs.keep_yes] at hl
        subst hl
        have hu := h1.exactly
        simp only [e, e', List.drop_left]
        generalize toldIn k l' = fs
        rcases X.done (fs.foldl (fun p f => X.notify (a.scope S) f p) p) with ⟨q, _ | v'⟩
        · rcases o' with (_ | x) | v | _
          · simp only [TSt.conclude]
            rcases X.ok q with v | b
            · exact ⟨hu, rfl⟩
            · simp only
              rcases X.report b q with v | r
              · exact ⟨hu, rfl⟩
              · cases b
                · exact ⟨(hu.say _ _).say _ _, rfl⟩
                · exact ⟨hu.say _ _, rfl⟩
          · exact ⟨hu.say _ _, rfl⟩
          · exact ⟨hu, rfl⟩
          · exact ⟨hu, rfl⟩
        · rcases o' with (_ | x) | v | _ <;> exact ⟨hu, rfl⟩

theorem TSt.Equal.trans {t u v : TSt W R} (h : t.Equal u) (k : u.Equal v) : t.Equal v :=
  ⟨k.sys.trans h.sys, k.clock.trans h.clock, k.opts.trans h.opts, k.bound.trans h.bound,
    k.icept.trans h.icept⟩

theorem TSt.Equal.refl (t : TSt W R) : t.Equal t := ⟨rfl, rfl, rfl, rfl, rfl⟩

theorem TSt.Equal.symm {t u : TSt W R} (h : t.Equal u) : u.Equal t :=
  ⟨h.sys.symm, h.clock.symm, h.opts.symm, h.bound.symm, h.icept.symm⟩

theorem steps_equal (A : App W R) (E : TEnv W) (S : PScope) (c : RCtx) : ∀ (l : List (TStep W))
    {t t' : TSt W R}, t.Equal t' →
    (t.steps A E S c l).1.Equal (t'.steps A E S c l).1 ∧ (t'.steps A E S c l).2 = (t.steps A E S c l).2
  | [], _, _, ht => ⟨ht, rfl⟩
  | .prepare a :: l, t, t', ht => by
    unfold TSt.steps
    obtain ⟨h1, h2⟩ := (C129_later (Q := Unit) A E ht a).1
    rcases hy : t.prepare A E a with ⟨u, o⟩
    rcases hy' : t'.prepare A E a with ⟨u', o'⟩
    rw [hy, hy'] at h1 h2
    simp only at h1 h2
    subst h2
    rcases o' with (_ | e) | pv | _
    · obtain ⟨k1, k2⟩ := steps_equal A E S c l h1
      exact ⟨k1, by simp only [k2]⟩
    · exact ⟨h1, rfl⟩
    · exact ⟨h1, rfl⟩
    · exact ⟨h1, rfl⟩
  | .expect k x a :: l, t, t', ht => by
    unfold TSt.steps
    obtain ⟨h1, h2⟩ := (C129_later A E ht a).2 S (x.impl c) k
    rcases hy : t.expect A E S (x.impl c) k a with ⟨u, cs, o⟩
    rcases hy' : t'.expect A E S (x.impl c) k a with ⟨u', cs', o'⟩
    rw [hy, hy'] at h1 h2
    cases h2
    rcases o with _ | _ | pv | _
    · obtain ⟨k1, k2⟩ := steps_equal A E S c l h1
      exact ⟨k1, by simp only [k2]⟩
    · exact ⟨h1, rfl⟩
    · exact ⟨h1, rfl⟩
    · exact ⟨h1, rfl⟩

/-- An `Expect()` that passes provided a predicate. -/
theorem passed_built {Q : Type} {A : App W R} {E : TEnv W} {S : PScope} {X : Expecting Q} {k : Nat} {a : Action W}
    {t : TSt W R} (h : (t.expect A E S X k a).2.2 = .passed) :
    ∃ c p, X.caption = .ok c ∧ X.build (a.scope S) = .ok p := by
  unfold TSt.expect at h
  cases hc : X.caption with
  | error v => simp [hc] at h
  | ok c =>
    cases hb : X.build (a.scope S) with
    | panic v => simp [hc, hb] at h
    | err msg => simp [hc, hb] at h
    | ok p => exact ⟨c, p, rfl, rfl⟩

/-- **C129** for tests: an `Expect()` that passes may be replaced by `Prepare()` with the same action.  The
statements after it end as they did, and the test ends up the same. -/
theorem C129_replace (A : App W R) (E : TEnv W) (S : PScope) (c : RCtx) (k : Nat) (x : Expectation)
    (a : Action W) (l : List (TStep W)) (t : TSt W R)
    (h : (t.expect A E S (x.impl c) k a).2.2 = .passed) :
    (t.steps A E S c (.expect k x a :: l)).1.Equal (t.steps A E S c (.prepare a :: l)).1 ∧
    ∃ es, (t.steps A E S c (.expect k x a :: l)).2 = .inr .passed :: es ∧
      (t.steps A E S c (.prepare a :: l)).2 = .inl (.done none) :: es := by
  obtain ⟨d, p, hd, hp⟩ := passed_built h
  obtain ⟨h1, h2⟩ := (C129_expect A E S (x.impl c) k a t hd hp).2.2.2.2 h
  unfold TSt.steps
  rcases hy : t.prepare A E a with ⟨u, o⟩
  rcases hy' : t.expect A E S (x.impl c) k a with ⟨u', cs, o'⟩
  rw [hy] at h1 h2
  rw [hy'] at h h2
  simp only at h h1 h2
  subst h h1
  obtain ⟨k1, k2⟩ := steps_equal A E S c l h2.symm
  exact ⟨k1, _, rfl, by simp only [k2]⟩

/-- **C129** for whole tests: if all statements end well then they do so without their expectations, and the test
ends up the same. -/
theorem C129_plain (A : App W R) (E : TEnv W) (S : PScope) (c : RCtx) : ∀ (l : List (TStep W)) (t : TSt W R),
    (t.steps A E S c l).2.all TStep.End.well = true →
    (t.steps A E S c l).1.Equal (t.steps A E S c (l.map TStep.plain)).1 ∧
    (t.steps A E S c (l.map TStep.plain)).2 = List.replicate l.length (.inl (.done none))
  | [], t, _ => ⟨.refl t, rfl⟩
  | .prepare a :: l, t, h => by
    unfold TSt.steps at h
    simp only [List.map_cons, TStep.plain]
    unfold TSt.steps
    rcases hy : t.prepare A E a with ⟨u, o⟩
    rw [hy] at h
    rcases o with (_ | e) | pv | _
    · simp only [List.all_cons, Bool.and_eq_true] at h
      obtain ⟨k1, k2⟩ := C129_plain A E S c l u h.2
      exact ⟨k1, by simp only [k2]; rfl⟩
    · simp [TStep.End.well] at h
    · simp [TStep.End.well] at h
    · simp [TStep.End.well] at h
  | .expect k x a :: l, t, h => by
    simp only [List.map_cons, TStep.plain]
    have hpass : (t.expect A E S (x.impl c) k a).2.2 = .passed := by
      unfold TSt.steps at h
      rcases hy : t.expect A E S (x.impl c) k a with ⟨u, cs, o⟩
      rw [hy] at h
      rcases o with _ | _ | pv | _
      · rfl
      · simp [TStep.End.well] at h
      · simp [TStep.End.well] at h
      · simp [TStep.End.well] at h
    obtain ⟨d, p, hd, hp⟩ := passed_built hpass
    obtain ⟨h1, h2⟩ := (C129_expect A E S (x.impl c) k a t hd hp).2.2.2.2 hpass
    unfold TSt.steps at h ⊢
    rcases hy : t.prepare A E a with ⟨u, o⟩
    rcases hy' : t.expect A E S (x.impl c) k a with ⟨u', cs, o'⟩
    rw [hy] at h1 h2
    rw [hy'] at hpass h2 h
    simp only at hpass h1 h2
    subst hpass h1
    simp only [List.all_cons, Bool.and_eq_true] at h
    obtain ⟨k1, k2⟩ := C129_plain A E S c l u' h.2
    obtain ⟨j1, j2⟩ := steps_equal A E S c (l.map TStep.plain) h2.symm
    exact ⟨k1.trans j1, by simp only [j2, k2]; rfl⟩

end

/-! ## Concrete cases -/

/-- A test whose expectations are met. -/
def Demo.assertingSteps : List (TStep (List Nat)) :=
  [.prepare (.dispatch (Demo.msgC "b")),
   .expect 7 (.not (.type Demo.evtF)) (.call (.exec (Demo.msgC "a") fun _ => .ret) none),
   .expect 8 (.satisfy "have facts" fun fs => if fs.isEmpty then .panic (.user "none") else .ret)
     (.advance "a while" fun c w => (w, .ok (c + 20)))]

set_option maxRecDepth 100000 in
/-- The hypothesis of `C129_plain` is met, and messages are dispatched; one more expectation fails. -/
example :
    let run := fun l => (Demo.fresh [0] []).steps Conc.Demo.app Demo.countingEnv (Demo.scope false) Demo.ctx l
    (run Demo.assertingSteps).2.all TStep.End.well = true ∧
    (run Demo.assertingSteps).2.length = 3 ∧
    (dispatchedIn (run Demo.assertingSteps).1.sys.trace).length > 2 ∧
    (run Demo.countingSteps).2.map TStep.endCode = [0, 0, 0, 1] ∧
    (run (Demo.countingSteps.map TStep.plain)).2.map TStep.endCode = [0, 0, 0, 0] := by decide +kernel

/-- What the failing expectation leaves behind is what `Prepare()` does. -/
example (t : TSt (List Nat) (List String)) (k : Nat) :
    (t.expect Conc.Demo.app Demo.countingEnv (Demo.scope false)
      ((Expectation.message ⟨Demo.evtE, "nothing", none⟩).impl Demo.ctx) k (.dispatch (Demo.msgC "a"))).1.sys =
    (t.prepare Conc.Demo.app Demo.countingEnv (.dispatch (Demo.msgC "a"))).1.sys :=
  (C129_expect Conc.Demo.app Demo.countingEnv (Demo.scope false) _ k (.dispatch (Demo.msgC "a")) t rfl rfl).1

set_option maxRecDepth 100000 in
/-- An expectation that cannot be met by the application, so that no predicate is provided: the action is not
performed. -/
example :
    let x := (Demo.fresh [0] []).expect Conc.Demo.app Demo.countingEnv (Demo.scope false)
      ((Expectation.type ⟨.event, "unknown"⟩).impl Demo.ctx) 7 (.dispatch (Demo.msgC "a"))
    let y := (Demo.fresh [0] []).prepare Conc.Demo.app Demo.countingEnv (.dispatch (Demo.msgC "a"))
    x.1.sys.trace.length = 0 ∧ y.1.sys.trace.length > 0 := by decide +kernel

end Verif
