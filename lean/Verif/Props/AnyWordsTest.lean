import Verif.Props.AnyWords

/-!
# C127, for tests

Tests with other contents of messages: they do the same and say the same, if their expectations are
about types of messages.
-/

namespace Verif

variable {W R W' R' : Type}

/-! ## Specification -/

/-- The second interceptor does with the other contents what the first one does. -/
inductive IProg.Bd (β : MType → String → String) (g : W → W') : IProg W → IProg W' → Prop where
  | ret (e : Option TErr) : IProg.Bd β g (.ret e) (.ret e)
  | panic (v : PanicVal) : IProg.Bd β g (.panic v) (.panic (v.bd β))
  | get {k k'} (h : ∀ w, IProg.Bd β g (k w) (k' (g w))) : IProg.Bd β g (.get k) (.get k')
  | set (w : W) {k k'} (h : IProg.Bd β g k k') : IProg.Bd β g (.set w k) (.set (g w) k')
  | next (m : Message) {k k'} (h : ∀ r : TRes, IProg.Bd β g (k r) (k' (resBd β (fun e => e) r))) :
      IProg.Bd β g (.next m k) (.next (m.bd β) k')

/-- The same for interceptors, if there are any. -/
inductive IcBd (β : MType → String → String) (g : W → W') :
    Option (Message → IProg W) → Option (Message → IProg W') → Prop where
  | none : IcBd β g none none
  | some {x x'} (h : ∀ m, IProg.Bd β g (x m) (x' (m.bd β))) : IcBd β g (some x) (some x')

mutual
/-- The second action does with the other contents what the first one does. -/
inductive Action.Bd (β : MType → String → String) (g : W → W') : Action W → Action W' → Prop where
  | dispatch (m : Message) : Action.Bd β g (.dispatch m) (.dispatch (m.bd β))
  | advance (desc : String) {step : Time → W → W × Except PanicVal Time}
      {step' : Time → W' → W' × Except PanicVal Time}
      (h : ∀ c, AltFn g (resBd β (fun a => a)) (step c) (step' c)) :
      Action.Bd β g (.advance desc step) (.advance desc step')
  | call {fn : CProg W} {fn' : CProg W'} {ic : Option (Message → IProg W)}
      {ic' : Option (Message → IProg W')} (hf : CProg.Bd β g fn fn') (hi : IcBd β g ic ic') :
      Action.Bd β g (.call fn ic) (.call fn' ic')
/-- The same for functions given to `Call()`. -/
inductive CProg.Bd (β : MType → String → String) (g : W → W') : CProg W → CProg W' → Prop where
  | ret : CProg.Bd β g .ret .ret
  | panic (v : PanicVal) : CProg.Bd β g (.panic v) (.panic (v.bd β))
  | get {k : W → CProg W} {k' : W' → CProg W'} (h : ∀ w, CProg.Bd β g (k w) (k' (g w))) :
      CProg.Bd β g (.get k) (.get k')
  | set (w : W) {k : CProg W} {k' : CProg W'} (h : CProg.Bd β g k k') :
      CProg.Bd β g (.set w k) (.set (g w) k')
  | exec (m : Message) {k : TRes → CProg W} {k' : TRes → CProg W'}
      (h : ∀ r, CProg.Bd β g (k r) (k' (resBd β (fun e => e) r))) :
      CProg.Bd β g (.exec m k) (.exec (m.bd β) k')
  | act {a : Action W} {a' : Action W'} {k : TRes → CProg W} {k' : TRes → CProg W'}
      (ha : Action.Bd β g a a') (h : ∀ r, CProg.Bd β g (k r) (k' (resBd β (fun e => e) r))) :
      CProg.Bd β g (.act a k) (.act a' k')
end

/-- The second statement of a test does with the other contents what the first one does. -/
inductive TStep.Bd (β : MType → String → String) (g : W → W') : TStep W → TStep W' → Prop where
  | prepare {a : Action W} {a' : Action W'} (h : Action.Bd β g a a') :
      TStep.Bd β g (.prepare a) (.prepare a')
  | expect (k : Nat) {x : Expectation} (hx : x.Typed) {a : Action W} {a' : Action W'}
      (h : Action.Bd β g a a') : TStep.Bd β g (.expect k x a) (.expect k x a')

/-- The same for statements in order. -/
inductive AllBd (β : MType → String → String) (g : W → W') : List (TStep W) → List (TStep W') → Prop where
  | nil : AllBd β g [] []
  | cons {x : TStep W} {x' : TStep W'} {l : List (TStep W)} {l' : List (TStep W')} (h : TStep.Bd β g x x')
      (hl : AllBd β g l l') : AllBd β g (x :: l) (x' :: l')

/-- Put other contents in messages in a record of a test.  What is said to the `TestingT` stays. -/
def TObs.bd (β : MType → String → String) : TObs → TObs
  | .engine c op fs => .engine c (op.bd β) (fs.map (Fact.bd β))
  | .exec m b => .exec (m.bd β) b
  | .log s => .log s
  | .fatal e => .fatal e
  | .failNow => .failNow

/-- Put other contents in messages of a call to a predicate. -/
def ECall.bd (β : MType → String → String) : ECall → ECall
  | .notify f => .notify (f.bd β)
  | .build => .build
  | .done => .done
  | .ok => .ok
  | .report => .report

/-- How an `Expect()` ended, with other contents of the message that a panic is about. -/
def EEnd.bd (β : MType → String → String) : EEnd → EEnd
  | .panicked v => .panicked (v.bd β)
  | e => e

/-- How a statement ended, with other contents of the message that a panic is about. -/
def TStep.endBd (β : MType → String → String) : TStep.End → TStep.End
  | .inl o => .inl (o.bd β)
  | .inr e => .inr (e.bd β)

/-- A test, and one with other contents of messages, at the same point. -/
structure TSt.Bd (v : Wording W R W' R') (t : TSt W R) (t' : TSt W' R') : Prop where
  sys : t'.sys = t.sys.bd v
  clock : t'.clock = t.clock
  opts : t'.opts = t.opts
  bound : t'.bound = t.bound
  icept : IcBd v.body v.world t.icept t'.icept
  did : t'.did = t.did.map (TObs.bd v.body)

/-- The surroundings of the tests are the same. -/
structure TEnv.Bd (β : MType → String → String) (g : W → W') (E : TEnv W) (E' : TEnv W') : Prop where
  fuel : E'.fuel = E.fuel
  order : ∀ w, E'.order (g w) = E.order w
  fatal : E'.fatal = E.fatal.map (PanicVal.bd β)

/-- An implementation of `Expectation` and `Predicate` that does not look at contents of messages, and
does not panic with values that tell them.  `P` holds of its predicates. -/
structure Expecting.Wordless {Q : Type} (X : Expecting Q) (β : MType → String → String) (P : Q → Prop) :
    Prop where
  caption : ∀ v, X.caption = .error v → v.bd β = v
  built : ∀ s v, X.build s = .panic v → v.bd β = v
  build : ∀ s p, X.build s = .ok p → P p
  notify : ∀ s f p, P p → P (X.notify s f p) ∧ X.notify s (f.bd β) p = X.notify s f p
  done : ∀ p v, P p → (X.done p).2 = some v → v.bd β = v
  ok : ∀ p v, P p → X.ok (X.done p).1 = .error v → v.bd β = v
  report : ∀ b p v, P p → X.report b (X.done p).1 = .error v → v.bd β = v

section
variable {A : App W R} {A' : App W' R'} {v : Wording W R W' R'} {β : MType → String → String} {g : W → W'}

theorem IcBd.or {a b : Option (Message → IProg W)} {a' b' : Option (Message → IProg W')}
    (h : IcBd β g a a') (h' : IcBd β g b b') : IcBd β g (a.or b) (a'.or b') := by
  cases h with
  | none => simpa using h'
  | some h => exact .some h

theorem IcBd.isSome {a : Option (Message → IProg W)} {a' : Option (Message → IProg W')}
    (h : IcBd β g a a') : a'.isSome = a.isSome := by
  cases h <;> rfl

theorem Action.Bd.caption {a : Action W} {a' : Action W'} (h : Action.Bd β g a a') :
    a'.caption = a.caption := by
  cases h <;> rfl

theorem Action.Bd.scope {a : Action W} {a' : Action W'} (h : Action.Bd β g a a') (S : PScope) :
    a'.scope S = a.scope S := by
  cases h <;> rfl

/-- **C127.** Expectations about types of messages do not look at contents. -/
theorem C127_wordless (c : RCtx) {x : Expectation} (hx : x.Typed) (β : MType → String → String) :
    (x.impl c).Wordless β Pred.Typed where
  caption u h := by
    simp only [Expectation.impl] at h
    split at h
    · cases h; rfl
    · cases h
  built s u h := by
    simp only [Expectation.impl] at h
    split at h
    · cases h
    · cases h; rfl
    · cases h
  build s p h := by
    simp only [Expectation.impl] at h
    have := hx.built s
    rcases hb : (x.build s).2 with e | q
    · rw [hb] at h
      cases e <;> simp at h
    · rw [hb] at h
      cases h
      exact this p hb
  notify s f p h := ⟨(Pred.notify_bd (β := β) s f h).2, (Pred.notify_bd s f h).1⟩
  done p u h h2 := by
    simp only [Expectation.impl] at h2
    cases hd : p.done.2 with
    | none => rw [hd] at h2; cases h2
    | some y => rw [hd] at h2; cases h2; rfl
  ok p u h h2 := by simp only [Expectation.impl] at h2; cases h2
  report b p u h h2 := by simp only [Expectation.impl] at h2; cases h2

/-! ## Tests -/

theorem TSt.Bd.w {t : TSt W R} {t' : TSt W' R'} (ht : TSt.Bd v t t') : t'.sys.w = v.world t.sys.w := by
  rw [ht.sys]; rfl

theorem TSt.Bd.world {t : TSt W R} {t' : TSt W' R'} (ht : TSt.Bd v t t') (w : W) :
    TSt.Bd v { t with sys := { t.sys with w := w } } { t' with sys := { t'.sys with w := v.world w } } :=
  ⟨by simp only [ht.sys]; rfl, ht.clock, ht.opts, ht.bound, ht.icept, ht.did⟩

theorem TSt.Bd.say {t : TSt W R} {t' : TSt W' R'} (ht : TSt.Bd v t t') (o : TObs)
    (ho : o.bd v.body = o := by rfl) : TSt.Bd v (t.say o) (t'.say o) :=
  ⟨ht.sys, ht.clock, ht.opts, ht.bound, ht.icept, by
    simp only [TSt.say, ht.did, List.map_append, List.map_cons, List.map_nil, ho]⟩

theorem TSt.Bd.actOpts {t : TSt W R} {t' : TSt W' R'} (ht : TSt.Bd v t t') (extra : List OpOption) :
    t'.actOpts extra = t.actOpts extra := by
  unfold TSt.actOpts
  rw [ht.clock, ht.opts]

theorem TSt.Bd.engine (al : A.Rewords A' v) {t : TSt W R} {t' : TSt W' R'} (ht : TSt.Bd v t t')
    (op : Op) : TSt.Bd v (t.engine A op).1 (t'.engine A' (op.bd v.body)).1 ∧
      (t'.engine A' (op.bd v.body)).2 = (t.engine A op).2.bd v.body := by
  unfold TSt.engine
  rw [ht.sys, exec_bd al]
  refine ⟨⟨rfl, ht.clock, ht.opts, ht.bound, ht.icept, ?_⟩, ?_⟩
  · simp only [ht.did, ht.clock, during_bd, factsOf_bd, List.map_append, List.map_cons, List.map_nil, TObs.bd]
  · simp only
    rcases (op.exec A t.sys).2 with (_ | ⟨e, es⟩) | p | _ <;> rfl

theorem IProg.run_bd (al : A.Rewords A' v) {E : TEnv W} {E' : TEnv W'} (hE : TEnv.Bd v.body v.world E E')
    (os : List OpOption) {p : IProg W} {p' : IProg W'} (hp : IProg.Bd v.body v.world p p') :
    ∀ (t : TSt W R) (t' : TSt W' R'), TSt.Bd v t t' →
    TSt.Bd v (p.run A E os t).1 (p'.run A' E' os t').1 ∧
    (p'.run A' E' os t').2 = (p.run A E os t).2.bd v.body := by
  induction hp with
  | ret e => intro t t' ht; exact ⟨ht, rfl⟩
  | panic pv => intro t t' ht; exact ⟨ht, rfl⟩
  | get h ih =>
    intro t t' ht
    unfold IProg.run
    rw [ht.w]
    exact ih _ t t' ht
  | set w h ih =>
    intro t t' ht
    unfold IProg.run
    exact ih _ _ (ht.world w)
  | @next m k k' h ih =>
    intro t t' ht
    unfold IProg.run
    obtain ⟨h1, h2⟩ := ht.engine al (.dispatch E.fuel m os)
    rw [hE.fuel]
    rcases hx : t.engine A (.dispatch E.fuel m os) with ⟨t1, o⟩
    rcases hy : t'.engine A' (.dispatch E.fuel (m.bd v.body) os) with ⟨t1', o'⟩
    rw [show (Op.dispatch E.fuel m os).bd v.body = .dispatch E.fuel (m.bd v.body) os from rfl, hx, hy] at h1 h2
    simp only at h2
    subst h2
    cases o with
    | done e => exact ih _ t1 t1' h1
    | panicked pv => exact ih _ t1 t1' h1
    | running => exact ⟨h1, rfl⟩

theorem TSt.execute_bd (al : A.Rewords A' v) {E : TEnv W} {E' : TEnv W'} (hE : TEnv.Bd v.body v.world E E')
    {t : TSt W R} {t' : TSt W' R'} (ht : TSt.Bd v t t') (m : Message) :
    TSt.Bd v (t.execute A E m).1 (t'.execute A' E' (m.bd v.body)).1 ∧
    (t'.execute A' E' (m.bd v.body)).2 = (t.execute A E m).2.bd v.body := by
  unfold TSt.execute
  have h0 : TSt.Bd v { t with did := t.did ++ [TObs.exec m t.bound.isSome] }
      { t' with did := t'.did ++ [TObs.exec (m.bd v.body) t'.bound.isSome] } :=
    ⟨ht.sys, ht.clock, ht.opts, ht.bound, ht.icept, by
      simp only [ht.did, ht.bound, List.map_append, List.map_cons, List.map_nil, TObs.bd]⟩
  have hb' := ht.bound
  have hi' := ht.icept
  simp only
  generalize hu : ({ t with did := t.did ++ [TObs.exec m t.bound.isSome] } : TSt W R) = u at h0 ⊢
  generalize hu' : ({ t' with did := t'.did ++ [TObs.exec (m.bd v.body) t'.bound.isSome] } : TSt W' R') = u' at h0 ⊢
  rw [hb', hE.fuel]
  cases hb : t.bound with
  | none => exact ⟨h0, rfl⟩
  | some os =>
    simp only
    revert hi'
    generalize t.icept = ic
    generalize t'.icept = ic'
    intro hi'
    cases hi' with
    | none => exact h0.engine al _
    | some h => exact IProg.run_bd al hE os (h m) _ _ h0

theorem TSt.check_bd {E : TEnv W} {E' : TEnv W'} (hE : TEnv.Bd v.body v.world E E')
    {x : TSt W R × Outcome (Option TErr)} {x' : TSt W' R' × Outcome (Option TErr)}
    (h1 : TSt.Bd v x.1 x'.1) (h2 : x'.2 = x.2.bd v.body) :
    TSt.Bd v (TSt.check E x).1 (TSt.check E' x').1 ∧ (TSt.check E' x').2 = (TSt.check E x).2.bd v.body := by
  obtain ⟨t, o⟩ := x
  obtain ⟨t', o'⟩ := x'
  simp only at h1 h2
  subst h2
  rcases o with (_ | e) | pv | _
  · exact ⟨h1, rfl⟩
  · refine ⟨h1.say _, ?_⟩
    simp only [Outcome.bd, TSt.check, hE.fatal]
    cases E.fatal <;> rfl
  · exact ⟨h1, rfl⟩
  · exact ⟨h1, rfl⟩

theorem TSt.Bd.leave {t : TSt W R} {t' : TSt W' R'} (ht : TSt.Bd v t t')
    {prev : Option (Message → IProg W)} {prev' : Option (Message → IProg W')} (hp : IcBd v.body v.world prev prev')
    (had : Bool) : TSt.Bd v (t.leave prev had) (t'.leave prev' had) := by
  refine ⟨ht.sys, ht.clock, ht.opts, rfl, ?_, ht.did⟩
  simp only [TSt.leave]
  cases had with
  | true => exact hp
  | false => exact ht.icept

theorem uses_bd (al : A.Rewords A' v) (mt : MType) : A'.uses mt = A.uses mt := by
  unfold App.uses
  rw [al.cfgs]

mutual
theorem Action.run_bd (al : A.Rewords A' v) {E : TEnv W} {E' : TEnv W'} (hE : TEnv.Bd v.body v.world E E') :
    {a : Action W} → {a' : Action W'} → Action.Bd v.body v.world a a' → ∀ (extra : List OpOption) (t : TSt W R)
    (t' : TSt W' R'), TSt.Bd v t t' →
    TSt.Bd v (a.run A E extra t).1 (a'.run A' E' extra t').1 ∧
    (a'.run A' E' extra t').2 = (a.run A E extra t).2.bd v.body
  | _, _, .dispatch m, extra, t, t', ht => by
    unfold Action.run
    rw [ht.actOpts, uses_bd al, hE.fuel, show (m.bd v.body).type = m.type from rfl]
    split
    · exact ht.engine al _
    · exact ⟨ht, rfl⟩
  | _, _, @Action.Bd.advance _ _ _ _ desc step step' h, extra, t, t', ht => by
    unfold Action.run
    have hs' : step' t'.clock t'.sys.w = (v.world (step t.clock t.sys.w).1,
        resBd v.body (fun a => a) (step t.clock t.sys.w).2) := by
      rw [ht.clock, ht.w]
      exact h _ _
    rw [ht.actOpts, hs', hE.fuel]
    clear hs'
    rcases step t.clock t.sys.w with ⟨w, pv | now⟩
    · exact ⟨ht.world w, rfl⟩
    · simp only [resBd]
      rw [ht.clock, hE.order]
      split
      · exact ⟨⟨(ht.world w).sys, rfl, ht.opts, ht.bound, ht.icept, ht.did⟩, rfl⟩
      · have h0 : TSt.Bd v { t with sys := { t.sys with w := w }, clock := now }
            { t' with sys := { t'.sys with w := v.world w }, clock := now } :=
          ⟨(ht.world w).sys, rfl, ht.opts, ht.bound, ht.icept, ht.did⟩
        exact h0.engine al _
  | _, _, @Action.Bd.call _ _ _ _ fn fn' ic ic' hf hi, extra, t, t', ht => by
    unfold Action.run
    have h0 : TSt.Bd v { t with bound := some (t.actOpts extra), icept := ic.or t.icept }
        { t' with bound := some (t'.actOpts extra), icept := ic'.or t'.icept } :=
      ⟨ht.sys, ht.clock, ht.opts, by simp only [ht.actOpts], hi.or ht.icept, ht.did⟩
    obtain ⟨h1, h2⟩ := CProg.run_bd al hE hf _ _ h0
    rcases hy : fn.run A E { t with bound := some (t.actOpts extra), icept := ic.or t.icept } with ⟨u, o⟩
    rcases hy' : fn'.run A' E' { t' with bound := some (t'.actOpts extra), icept := ic'.or t'.icept }
      with ⟨u', o'⟩
    rw [hy, hy'] at h1 h2
    simp only at h1 h2
    simp only [hi.isSome]
    subst h2
    rcases o with e | pv | _
    · exact ⟨h1.leave ht.icept _, rfl⟩
    · exact ⟨h1.leave ht.icept _, rfl⟩
    · exact ⟨h1, rfl⟩
theorem CProg.run_bd (al : A.Rewords A' v) {E : TEnv W} {E' : TEnv W'} (hE : TEnv.Bd v.body v.world E E') :
    {p : CProg W} → {p' : CProg W'} → CProg.Bd v.body v.world p p' → ∀ (t : TSt W R) (t' : TSt W' R'),
    TSt.Bd v t t' → TSt.Bd v (p.run A E t).1 (p'.run A' E' t').1 ∧
      (p'.run A' E' t').2 = (p.run A E t).2.bd v.body
  | _, _, .ret, t, t', ht => by unfold CProg.run; exact ⟨ht, rfl⟩
  | _, _, .panic pv, t, t', ht => by unfold CProg.run; exact ⟨ht, rfl⟩
  | _, _, .get h, t, t', ht => by
    unfold CProg.run
    rw [ht.w]
    exact CProg.run_bd al hE (h _) t t' ht
  | _, _, .set w h, t, t', ht => by
    unfold CProg.run
    exact CProg.run_bd al hE h _ _ (ht.world w)
  | _, _, @CProg.Bd.exec _ _ _ _ m k k' h, t, t', ht => by
    unfold CProg.run
    obtain ⟨h1, h2⟩ := TSt.execute_bd al hE ht m
    rcases hy : t.execute A E m with ⟨u, o⟩
    rcases hy' : t'.execute A' E' (m.bd v.body) with ⟨u', o'⟩
    rw [hy, hy'] at h1 h2
    simp only at h1 h2
    subst h2
    rcases o with e | pv | _
    · exact CProg.run_bd al hE (h _) u u' h1
    · exact CProg.run_bd al hE (h _) u u' h1
    · exact ⟨h1, rfl⟩
  | _, _, @CProg.Bd.act _ _ _ _ a a' k k' ha h, t, t', ht => by
    unfold CProg.run
    have hn : TSt.Bd v (t.announce a) (t'.announce a') := by
      unfold TSt.announce Action.prepareLine
      rw [ha.caption]
      exact ht.say _
    obtain ⟨h0, h00⟩ := Action.run_bd al hE ha [] _ _ hn
    obtain ⟨h1, h2⟩ := TSt.check_bd hE h0 h00
    rcases hy : TSt.check E (a.run A E [] (t.announce a)) with ⟨u, o⟩
    rcases hy' : TSt.check E' (a'.run A' E' [] (t'.announce a')) with ⟨u', o'⟩
    rw [hy, hy'] at h1 h2
    simp only at h1 h2
    subst h2
    rcases o with e | pv | _
    · exact CProg.run_bd al hE (h _) u u' h1
    · exact CProg.run_bd al hE (h _) u u' h1
    · exact ⟨h1, rfl⟩
end

/-- **C127** for `Prepare()`. -/
theorem C127_prepare (al : A.Rewords A' v) {E : TEnv W} {E' : TEnv W'} (hE : TEnv.Bd v.body v.world E E')
    {t : TSt W R} {t' : TSt W' R'} (ht : TSt.Bd v t t') {a : Action W} {a' : Action W'}
    (ha : Action.Bd v.body v.world a a') :
    TSt.Bd v (t.prepare A E a).1 (t'.prepare A' E' a').1 ∧
    (t'.prepare A' E' a').2 = (t.prepare A E a).2.bd v.body := by
  have hn : TSt.Bd v (t.announce a) (t'.announce a') := by
    unfold TSt.announce Action.prepareLine
    rw [ha.caption]
    exact ht.say _
  obtain ⟨h1, h2⟩ := Action.run_bd al hE ha [] _ _ hn
  exact TSt.check_bd hE h1 h2


theorem toldIn_bd (β : MType → String → String) (k : Nat) (l : List TObs) :
    toldIn k (l.map (TObs.bd β)) = (toldIn k l).map (Fact.bd β) := by
  unfold toldIn
  induction l with
  | nil => rfl
  | cons o l ih =>
    simp only [List.map_cons, List.flatMap_cons, List.map_append, ih]
    congr 1
    cases o with
    | engine c op fs =>
      simp only [TObs.bd, TObs.told, show (op.bd β).opts = op.opts by cases op <;> rfl]
      induction fs with
      | nil => rfl
      | cons x fs ih =>
        simp only [List.map_cons, List.flatMap_cons, List.map_append, ih, List.map_map, Function.comp_def]
    | _ => rfl

theorem Expecting.Wordless.notified {Q : Type} {X : Expecting Q} {P : Q → Prop}
    (hX : X.Wordless β P) (s : PScope) : ∀ (fs : List Fact) (p : Q), P p →
    P (fs.foldl (fun p f => X.notify s f p) p) ∧
    (fs.map (Fact.bd β)).foldl (fun p f => X.notify s f p) p = fs.foldl (fun p f => X.notify s f p) p
  | [], _, h => ⟨h, rfl⟩
  | f :: fs, p, h => by
    have h1 := hX.notify s f p h
    simp only [List.map_cons, List.foldl_cons, h1.2]
    exact hX.notified s fs _ h1.1

/-- **C127** for `Expect()`, with an expectation that does not look at contents of messages: its methods
are called with the same arguments in the same order, but for the contents, and it passes, fails or
panics the same. -/
theorem C127_expect {Q : Type} (al : A.Rewords A' v) {E : TEnv W} {E' : TEnv W'}
    (hE : TEnv.Bd v.body v.world E E') {t : TSt W R} {t' : TSt W' R'} (ht : TSt.Bd v t t') {a : Action W}
    {a' : Action W'} (ha : Action.Bd v.body v.world a a') (S : PScope) (X : Expecting Q) {P : Q → Prop}
    (hX : X.Wordless v.body P) (k : Nat) :
    TSt.Bd v (t.expect A E S X k a).1 (t'.expect A' E' S X k a').1 ∧
    (t'.expect A' E' S X k a').2.1 = (t.expect A E S X k a).2.1.map (ECall.bd v.body) ∧
    (t'.expect A' E' S X k a').2.2 = (t.expect A E S X k a).2.2.bd v.body := by
  unfold TSt.expect
  rw [ha.scope S]
  cases hc : X.caption with
  | error pv => exact ⟨ht, rfl, by simp only [EEnd.bd, hX.caption pv hc]⟩
  | ok c =>
    simp only
    have h0 : TSt.Bd v (t.say (.log (a.expectLine c))) (t'.say (.log (a'.expectLine c))) := by
      unfold Action.expectLine
      rw [ha.caption]
      exact ht.say _
    cases hb : X.build (a.scope S) with
    | panic pv => exact ⟨h0, rfl, by simp only [EEnd.bd, hX.built _ pv hb]⟩
    | err msg => exact ⟨h0.say _, rfl, rfl⟩
    | ok p =>
      simp only
      obtain ⟨h1, h2⟩ := Action.run_bd al hE ha [.observer k] _ _ h0
      rw [h0.did, List.length_map]
      generalize (t.say (.log (a.expectLine c))).did.length = n
      rcases hx : a.run A E [.observer k] (t.say (.log (a.expectLine c))) with ⟨u, o⟩
      rcases hx' : a'.run A' E' [.observer k] (t'.say (.log (a'.expectLine c))) with ⟨u', o'⟩
      rw [hx, hx'] at h1 h2
      simp only at h1 h2
      subst h2
      simp only
      rw [h1.did, ← List.map_drop, toldIn_bd]
      generalize toldIn k (u.did.drop n) = fs
      have hs : (fs.map (Fact.bd v.body)).map ECall.notify =
          (fs.map ECall.notify).map (ECall.bd v.body) := by
        simp [Function.comp_def, ECall.bd]
      obtain ⟨hp, hq⟩ := hX.notified (a.scope S) fs p (hX.build _ _ hb)
      rw [hs, hq]
      generalize fs.foldl (fun p f => X.notify (a.scope S) f p) p = q at hp ⊢
      have hd := hX.done q
      have hok := hX.ok q
      have hrep := hX.report
      rcases hy : X.done q with ⟨q2, r⟩
      rw [hy] at hd hok
      rcases r with _ | v'
      · rcases o with (_ | e) | pv | _
        · simp only [Outcome.bd]
          unfold TSt.conclude
          rcases hz : X.ok q2 with pv | b
          · exact ⟨h1, by simp [ECall.bd], by simp only [EEnd.bd, hok pv hp hz]⟩
          · simp only
            rcases hw : X.report b q2 with pv | r
            · refine ⟨h1, by simp [ECall.bd], ?_⟩
              simp only [EEnd.bd, hrep b q pv hp (by rw [hy]; exact hw)]
            · simp only
              cases b with
              | true => exact ⟨h1.say _, by simp [ECall.bd], rfl⟩
              | false => exact ⟨(h1.say _).say _, by simp [ECall.bd], rfl⟩
        · exact ⟨h1.say _, by simp [Outcome.bd, ECall.bd], rfl⟩
        · exact ⟨h1, by simp [Outcome.bd, ECall.bd], rfl⟩
        · exact ⟨h1, by simp [Outcome.bd, ECall.bd], rfl⟩
      · have hv := hd v' hp rfl
        rcases o with e | pv | _
        · exact ⟨h1, by simp [Outcome.bd, ECall.bd], by simp only [Outcome.bd, EEnd.bd, hv]⟩
        · exact ⟨h1, by simp [Outcome.bd, ECall.bd], by simp only [Outcome.bd, EEnd.bd, hv]⟩
        · exact ⟨h1, by simp [Outcome.bd, ECall.bd], rfl⟩

theorem steps_bd (al : A.Rewords A' v) {E : TEnv W} {E' : TEnv W'} (hE : TEnv.Bd v.body v.world E E')
    (S : PScope) (c : RCtx) {l : List (TStep W)} {l' : List (TStep W')} (hl : AllBd v.body v.world l l') :
    ∀ (t : TSt W R) (t' : TSt W' R'), TSt.Bd v t t' →
    TSt.Bd v (t.steps A E S c l).1 (t'.steps A' E' S c l').1 ∧
    (t'.steps A' E' S c l').2 = (t.steps A E S c l).2.map (TStep.endBd v.body) := by
  induction hl with
  | nil => intro t t' ht; exact ⟨ht, rfl⟩
  | @cons x x' l l' h hl ih =>
    intro t t' ht
    cases h with
    | @prepare a a' h =>
      unfold TSt.steps
      obtain ⟨h1, h2⟩ := C127_prepare al hE ht h
      rcases hy : t.prepare A E a with ⟨u, o⟩
      rcases hy' : t'.prepare A' E' a' with ⟨u', o'⟩
      rw [hy, hy'] at h1 h2
      simp only at h1 h2
      subst h2
      rcases o with (_ | e) | pv | _
      · obtain ⟨k1, k2⟩ := ih _ _ h1
        exact ⟨k1, by simp only [Outcome.bd, k2, List.map_cons, TStep.endBd]⟩
      · exact ⟨h1, rfl⟩
      · exact ⟨h1, rfl⟩
      · exact ⟨h1, rfl⟩
    | @expect k x hx a a' h =>
      unfold TSt.steps
      obtain ⟨h1, h2⟩ := C127_expect al hE ht h S (x.impl c) (C127_wordless c hx v.body) k
      rcases hy : t.expect A E S (x.impl c) k a with ⟨u, cs, o⟩
      rcases hy' : t'.expect A' E' S (x.impl c) k a' with ⟨u', cs', o'⟩
      rw [hy, hy'] at h1 h2
      simp only at h1 h2
      obtain ⟨-, h2⟩ := h2
      subst h2
      rcases o with _ | _ | pv | _
      · obtain ⟨k1, k2⟩ := ih _ _ h1
        exact ⟨k1, by simp only [EEnd.bd, k2, List.map_cons, TStep.endBd]⟩
      · exact ⟨h1, rfl⟩
      · exact ⟨h1, rfl⟩
      · exact ⟨h1, rfl⟩

/-- **C127** for whole tests with expectations about types: the statements end the same, and what the
test does and says is the same but for the contents of messages. -/
theorem C127_test (al : A.Rewords A' v) {E : TEnv W} {E' : TEnv W'} (hE : TEnv.Bd v.body v.world E E')
    (S : PScope) (c : RCtx) {l : List (TStep W)} {l' : List (TStep W')} (hl : AllBd v.body v.world l l')
    (w : W) (start : Time) (os : List OpOption) {ic : Option (Message → IProg W)}
    {ic' : Option (Message → IProg W')} (hi : IcBd v.body v.world ic ic') :
    ((TSt.begin (v.world w) start os ic' : TSt W' R').steps A' E' S c l').2 =
      ((TSt.begin w start os ic : TSt W R).steps A E S c l).2.map (TStep.endBd v.body) ∧
    ((TSt.begin (v.world w) start os ic' : TSt W' R').steps A' E' S c l').1.did =
      ((TSt.begin w start os ic : TSt W R).steps A E S c l).1.did.map (TObs.bd v.body) := by
  have h0 : TSt.Bd v (TSt.begin w start os ic : TSt W R) (TSt.begin (v.world w) start os ic') :=
    ⟨rfl, rfl, rfl, rfl, hi, rfl⟩
  obtain ⟨h1, h2⟩ := steps_bd al hE S c hl _ _ h0
  exact ⟨h2, h1.did⟩

end

/-! ## Examples -/

/-- A test with expectations about types, and a function that executes a command. -/
def Demo.readingSteps (f : String → String) : List (TStep Unit) :=
  [.prepare (.dispatch (Demo.msgC (f "b"))),
   .expect 7 (.composite .allOf [.type Demo.evtE, .not (.type Demo.evtF)])
     (.call (.exec (Demo.msgC (f "a")) fun _ => .ret) none),
   .expect 8 (.type Demo.evtF) (.dispatch (Demo.msgC (f "a")))]

theorem Demo.readingSteps_bd (f : String → String) :
    AllBd (Demo.wording f).body id (Demo.readingSteps id) (Demo.readingSteps f) := by
  refine .cons (.prepare (.dispatch _)) (.cons
    (.expect 7 (.composite _ _ ?_) (.call (.exec _ fun _ => .ret) .none)) (.cons (.expect 8 (.type _) (.dispatch _)) .nil))
  intro e he
  simp only [List.mem_cons, List.not_mem_nil, or_false] at he
  rcases he with rfl | rfl
  · exact .type _
  · exact .not _ (.type _)

/-- An expectation of a user that counts facts does not look at contents. -/
theorem Demo.touchy_wordless (ok : Bool) (β : MType → String → String) :
    (Demo.touchy (.ok ok)).Wordless β fun _ => True where
  caption u h := by cases h
  built s u h := by cases h
  build s p _ := trivial
  notify s f p _ := ⟨trivial, rfl⟩
  done p u _ h := by cases h
  ok p u _ h := by cases h
  report b p u _ h := by cases h; rfl

/-- `C127_expect` applies to it. -/
example (f : String → String) (S : PScope) (ok : Bool) :
    ((TSt.begin () 0 [] none : TSt Unit Nat).expect (Demo.reading fun _ => "i") (Demo.storingEnv Unit) S
      (Demo.touchy (.ok ok)) 7 (.dispatch (Demo.msgC (f "a")))).2.1 =
    ((TSt.begin () 0 [] none : TSt Unit Nat).expect (Demo.reading fun _ => "i") (Demo.storingEnv Unit) S
      (Demo.touchy (.ok ok)) 7 (.dispatch (Demo.msgC "a"))).2.1.map (ECall.bd fun _ => f) :=
  (C127_expect (v := Demo.wording f) (Demo.reading_rewords fun _ => rfl) (E := Demo.storingEnv _)
    (E' := Demo.storingEnv _) ⟨rfl, fun _ => rfl, rfl⟩ (t := TSt.begin () 0 [] none)
    (t' := TSt.begin () 0 [] none) ⟨rfl, rfl, rfl, rfl, .none, rfl⟩ (.dispatch (Demo.msgC "a")) S
    (Demo.touchy (.ok ok)) (Demo.touchy_wordless ok _) 7).2.1

/-- `C127_test` applies. -/
example (f : String → String) (S : PScope) (c : RCtx) (os : List OpOption) :
    ((TSt.begin () 0 os none : TSt Unit Nat).steps (Demo.reading fun _ => "i") (Demo.storingEnv Unit) S c
      (Demo.readingSteps f)).2 =
    ((TSt.begin () 0 os none : TSt Unit Nat).steps (Demo.reading fun _ => "i") (Demo.storingEnv Unit) S c
      (Demo.readingSteps id)).2.map (TStep.endBd fun _ => f) :=
  (C127_test (v := Demo.wording f) (Demo.reading_rewords fun _ => rfl) (E := Demo.storingEnv _)
    (E' := Demo.storingEnv _) ⟨rfl, fun _ => rfl, rfl⟩ S c (Demo.readingSteps_bd f) () 0 os .none).1

set_option maxRecDepth 100000 in
/-- How the statements of the test end. -/
example : ((TSt.begin () 0 [] none : TSt Unit Nat).steps (Demo.reading fun _ => "i")
    (Demo.storingEnv Unit) (Demo.scope false) Demo.ctx (Demo.readingSteps id)).2.map TStep.endCode =
    [0, 0, 1] := by decide +kernel

/-- Expectations about messages do look: one that passes fails with other contents. -/
example : ¬ (Expectation.message ⟨Demo.evtE, "a", none⟩).Typed := by
  intro h; cases h

end Verif
