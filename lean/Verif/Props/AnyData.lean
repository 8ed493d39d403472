import Verif.Refit
import Verif.Props.Reset
import Verif.Props.AbsentTest

/-!
# C125: handlers may keep their data as they like

Let handlers be rewritten so that they keep their data (roots, and everything else they know) in
another way, but do with it what they did before.  Nobody notices: neither the engine, nor observers,
nor tests.
-/

namespace Verif

variable {W R W' R' : Type}

/-! ## Specification -/

/-- Things that happen to an engine, with the world represented in the other way. -/
def Event.alt (g : W → W') : Event W → Event W'
  | .world w => .world (g w)
  | .op o => .op o

/-- The second interceptor does in the other world what the first one does in the first. -/
inductive IProg.Alt (g : W → W') : IProg W → IProg W' → Prop where
  | ret (e : Option TErr) : IProg.Alt g (.ret e) (.ret e)
  | panic (v : PanicVal) : IProg.Alt g (.panic v) (.panic v)
  | get {k k'} (h : ∀ w, IProg.Alt g (k w) (k' (g w))) : IProg.Alt g (.get k) (.get k')
  | set (w : W) {k k'} (h : IProg.Alt g k k') : IProg.Alt g (.set w k) (.set (g w) k')
  | next (m : Message) {k k'} (h : ∀ r, IProg.Alt g (k r) (k' r)) : IProg.Alt g (.next m k) (.next m k')

/-- The same for interceptors, if there are any. -/
inductive IcAlt (g : W → W') : Option (Message → IProg W) → Option (Message → IProg W') → Prop where
  | none : IcAlt g none none
  | some {x x'} (h : ∀ m, IProg.Alt g (x m) (x' m)) : IcAlt g (some x) (some x')

mutual
/-- The second action does in the other world what the first one does in the first. -/
inductive Action.Alt (g : W → W') : Action W → Action W' → Prop where
  | dispatch (m : Message) : Action.Alt g (.dispatch m) (.dispatch m)
  | advance (desc : String) {step : Time → W → W × Except PanicVal Time}
      {step' : Time → W' → W' × Except PanicVal Time} (h : ∀ c, AltFn g id (step c) (step' c)) :
      Action.Alt g (.advance desc step) (.advance desc step')
  | call {fn : CProg W} {fn' : CProg W'} {ic : Option (Message → IProg W)}
      {ic' : Option (Message → IProg W')} (hf : CProg.Alt g fn fn') (hi : IcAlt g ic ic') :
      Action.Alt g (.call fn ic) (.call fn' ic')
/-- The same for functions given to `Call()`. -/
inductive CProg.Alt (g : W → W') : CProg W → CProg W' → Prop where
  | ret : CProg.Alt g .ret .ret
  | panic (v : PanicVal) : CProg.Alt g (.panic v) (.panic v)
  | get {k : W → CProg W} {k' : W' → CProg W'} (h : ∀ w, CProg.Alt g (k w) (k' (g w))) :
      CProg.Alt g (.get k) (.get k')
  | set (w : W) {k : CProg W} {k' : CProg W'} (h : CProg.Alt g k k') :
      CProg.Alt g (.set w k) (.set (g w) k')
  | exec (m : Message) {k : TRes → CProg W} {k' : TRes → CProg W'} (h : ∀ r, CProg.Alt g (k r) (k' r)) :
      CProg.Alt g (.exec m k) (.exec m k')
  | act {a : Action W} {a' : Action W'} {k : TRes → CProg W} {k' : TRes → CProg W'}
      (ha : Action.Alt g a a') (h : ∀ r, CProg.Alt g (k r) (k' r)) : CProg.Alt g (.act a k) (.act a' k')
end

/-- The second statement of a test does in the other world what the first one does in the first. -/
inductive TStep.Alt (g : W → W') : TStep W → TStep W' → Prop where
  | prepare {a : Action W} {a' : Action W'} (h : Action.Alt g a a') : TStep.Alt g (.prepare a) (.prepare a')
  | expect (k : Nat) (x : Expectation) {a : Action W} {a' : Action W'} (h : Action.Alt g a a') :
      TStep.Alt g (.expect k x a) (.expect k x a')

/-- The same for statements in order. -/
inductive AllAlt (g : W → W') : List (TStep W) → List (TStep W') → Prop where
  | nil : AllAlt g [] []
  | cons {x : TStep W} {x' : TStep W'} {l : List (TStep W)} {l' : List (TStep W')} (h : TStep.Alt g x x')
      (hl : AllAlt g l l') : AllAlt g (x :: l) (x' :: l')

/-- A test, and one of an application that represents its data in another way, at the same point:
in particular their records (operations with all their facts, executed commands, everything said to
the `TestingT`) are the same. -/
structure TSt.Alt (f : R → R') (g : W → W') (t : TSt W R) (t' : TSt W' R') : Prop where
  sys : t'.sys = t.sys.alt f g
  clock : t'.clock = t.clock
  opts : t'.opts = t.opts
  bound : t'.bound = t.bound
  icept : IcAlt g t.icept t'.icept
  did : t'.did = t.did

/-- The surroundings of the tests are the same. -/
structure TEnv.Alt (g : W → W') (E : TEnv W) (E' : TEnv W') : Prop where
  fuel : E'.fuel = E.fuel
  order : ∀ w, E'.order (g w) = E.order w
  fatal : E'.fatal = E.fatal

section
variable {A : App W R} {A' : App W' R'} {f : R → R'} {g : W → W'}

/-! ## The engine -/

theorem factsOf_alt (l : List (Obs R)) : factsOf (l.map (Obs.alt f)) = factsOf l := by
  induction l with
  | nil => rfl
  | cons o l ih =>
    unfold factsOf at ih ⊢
    cases o with
    | call c => simpa [Obs.alt] using ih
    | reset => simpa [Obs.alt] using ih
    | fact x => simpa [Obs.alt] using ih

theorem during_alt (s s' : Sys W R) : during (s.alt f g) (s'.alt f g) = (during s s').map (Obs.alt f) := by
  unfold during Sys.alt
  simp only [List.length_map, List.map_drop]

/-- **C125.** An operation does the same, ends the same, notifies the same facts and calls the user's
code in the same order, with roots represented in the other way. -/
theorem C125_operation (al : A.Refits A' f g) (op : Op) (s : Sys W R) :
    (op.exec A' (s.alt f g)).1 = (op.exec A s).1.alt f g ∧
    (op.exec A' (s.alt f g)).2 = (op.exec A s).2 ∧
    during (s.alt f g) (op.exec A' (s.alt f g)).1 = (during s (op.exec A s).1).map (Obs.alt f) ∧
    factsOf (during (s.alt f g) (op.exec A' (s.alt f g)).1) = factsOf (during s (op.exec A s).1) := by
  rw [exec_alt al]
  exact ⟨rfl, rfl, during_alt _ _, by rw [during_alt, factsOf_alt]⟩

/-- **C125.** The same for histories, in which the world may change between operations. -/
theorem C125_history (al : A.Refits A' f g) (es : List (Event W)) : ∀ s : Sys W R,
    behaviour A' (es.map (Event.alt g)) (s.alt f g) =
      (behaviour A es s).map fun x => (x.1.map (Obs.alt f), x.2.1, g x.2.2) := by
  induction es with
  | nil => intro s; rfl
  | cons e es ih =>
    intro s
    cases e with
    | world w =>
      simp only [List.map_cons, Event.alt, behaviour]
      exact ih { s with w := w }
    | op o =>
      simp only [List.map_cons, Event.alt, behaviour, exec_alt al, ih]
      rw [during_alt]
      rfl

/-- **C125.** Let two applications keep data in different ways, neither of which can be computed from
the other, but let there be something that both have in common and that determines what their handlers
do.  Then new engines for them notify the same facts in every history. -/
theorem C125_common {W1 R1 W2 R2 : Type} {A1 : App W1 R1} {A2 : App W2 R2} {f1 : R1 → R'} {g1 : W1 → W'}
    {f2 : R2 → R'} {g2 : W2 → W'} (h1 : A1.Refits A' f1 g1) (h2 : A2.Refits A' f2 g2)
    (es1 : List (Event W1)) (es2 : List (Event W2))
    (he : es1.map (Event.alt g1) = es2.map (Event.alt g2)) (w1 : W1) (w2 : W2) (hw : g1 w1 = g2 w2) :
    (behaviour A1 es1 (Sys.init w1)).map (fun x => (factsOf x.1, x.2.1)) =
      (behaviour A2 es2 (Sys.init w2)).map (fun x => (factsOf x.1, x.2.1)) := by
  have k1 := C125_history h1 es1 (Sys.init w1)
  have k2 := C125_history h2 es2 (Sys.init w2)
  have hi1 : (Sys.init w1 : Sys W1 R1).alt f1 g1 = Sys.init (g1 w1) := rfl
  have hi2 : (Sys.init w2 : Sys W2 R2).alt f2 g2 = Sys.init (g2 w2) := rfl
  rw [hi1] at k1
  rw [hi2] at k2
  rw [he, hw, k2] at k1
  have k := congrArg (List.map fun x => (factsOf x.1, x.2.1)) k1
  simp only [List.map_map] at k
  have e : ∀ {R3 : Type} (f3 : R3 → R') {W3 : Type} (g3 : W3 → W'),
      ((fun x : List (Obs R') × Outcome (List EngErr) × W' => (factsOf x.1, x.2.1)) ∘
        fun x : List (Obs R3) × Outcome (List EngErr) × W3 => (x.1.map (Obs.alt f3), x.2.1, g3 x.2.2)) =
      fun x => (factsOf x.1, x.2.1) := by
    intro R3 f3 W3 g3
    funext x
    simp only [Function.comp, factsOf_alt]
  rw [e, e] at k
  exact k.symm

/-! ## Tests -/

theorem TSt.Alt.w {t : TSt W R} {t' : TSt W' R'} (ht : TSt.Alt f g t t') : t'.sys.w = g t.sys.w := by
  rw [ht.sys]; rfl

theorem TSt.Alt.world {t : TSt W R} {t' : TSt W' R'} (ht : TSt.Alt f g t t') (w : W) :
    TSt.Alt f g { t with sys := { t.sys with w := w } } { t' with sys := { t'.sys with w := g w } } :=
  ⟨by simp only [ht.sys]; rfl, ht.clock, ht.opts, ht.bound, ht.icept, ht.did⟩

theorem TSt.Alt.say {t : TSt W R} {t' : TSt W' R'} (ht : TSt.Alt f g t t') (o : TObs) :
    TSt.Alt f g (t.say o) (t'.say o) :=
  ⟨ht.sys, ht.clock, ht.opts, ht.bound, ht.icept, by simp only [TSt.say, ht.did]⟩

theorem TSt.Alt.actOpts {t : TSt W R} {t' : TSt W' R'} (ht : TSt.Alt f g t t') (extra : List OpOption) :
    t'.actOpts extra = t.actOpts extra := by
  unfold TSt.actOpts
  rw [ht.clock, ht.opts]

theorem TSt.Alt.engine (al : A.Refits A' f g) {t : TSt W R} {t' : TSt W' R'} (ht : TSt.Alt f g t t')
    (op : Op) : TSt.Alt f g (t.engine A op).1 (t'.engine A' op).1 ∧
      (t'.engine A' op).2 = (t.engine A op).2 := by
  unfold TSt.engine
  rw [ht.sys, exec_alt al]
  refine ⟨⟨rfl, ht.clock, ht.opts, ht.bound, ht.icept, ?_⟩, rfl⟩
  simp only [ht.did, ht.clock, during_alt, factsOf_alt]

theorem IProg.run_alt (al : A.Refits A' f g) {E : TEnv W} {E' : TEnv W'} (hE : TEnv.Alt g E E')
    (os : List OpOption) {p : IProg W} {p' : IProg W'} (hp : IProg.Alt g p p') :
    ∀ (t : TSt W R) (t' : TSt W' R'), TSt.Alt f g t t' →
    TSt.Alt f g (p.run A E os t).1 (p'.run A' E' os t').1 ∧
    (p'.run A' E' os t').2 = (p.run A E os t).2 := by
  induction hp with
  | ret e => intro t t' ht; exact ⟨ht, rfl⟩
  | panic v => intro t t' ht; exact ⟨ht, rfl⟩
  | get h ih =>
    intro t t' ht
    unfold IProg.run
    rw [ht.w]
    exact ih _ t t' ht
  | set w h ih =>
    intro t t' ht
    unfold IProg.run
    exact ih _ _ (ht.world w)
  | @next m k k' h ih =>
    intro t t' ht
    unfold IProg.run
    obtain ⟨h1, h2⟩ := ht.engine al (.dispatch E.fuel m os)
    rw [hE.fuel]
    rcases hx : t.engine A (.dispatch E.fuel m os) with ⟨t1, o⟩
    rcases hy : t'.engine A' (.dispatch E.fuel m os) with ⟨t1', o'⟩
    rw [hx, hy] at h1 h2
    simp only at h2
    subst h2
    cases o' with
    | done e => exact ih _ t1 t1' h1
    | panicked v => exact ih _ t1 t1' h1
    | running => exact ⟨h1, rfl⟩

theorem TSt.execute_alt (al : A.Refits A' f g) {E : TEnv W} {E' : TEnv W'} (hE : TEnv.Alt g E E')
    {t : TSt W R} {t' : TSt W' R'} (ht : TSt.Alt f g t t') (m : Message) :
    TSt.Alt f g (t.execute A E m).1 (t'.execute A' E' m).1 ∧
    (t'.execute A' E' m).2 = (t.execute A E m).2 := by
  unfold TSt.execute
  have h0 : TSt.Alt f g { t with did := t.did ++ [TObs.exec m t.bound.isSome] }
      { t' with did := t'.did ++ [TObs.exec m t'.bound.isSome] } :=
    ⟨ht.sys, ht.clock, ht.opts, ht.bound, ht.icept, by simp only [ht.did, ht.bound]⟩
  have hb' := ht.bound
  have hi' := ht.icept
  simp only
  generalize hu : ({ t with did := t.did ++ [TObs.exec m t.bound.isSome] } : TSt W R) = u at h0 ⊢
  generalize hu' : ({ t' with did := t'.did ++ [TObs.exec m t'.bound.isSome] } : TSt W' R') = u' at h0 ⊢
  rw [hb', hE.fuel]
  cases hb : t.bound with
  | none => exact ⟨h0, rfl⟩
  | some os =>
    simp only
    revert hi'
    generalize t.icept = ic
    generalize t'.icept = ic'
    intro hi'
    cases hi' with
    | none => exact h0.engine al _
    | some h => exact IProg.run_alt al hE os (h m) _ _ h0

theorem TSt.check_alt {E : TEnv W} {E' : TEnv W'} (hE : TEnv.Alt g E E')
    {x : TSt W R × Outcome (Option TErr)} {x' : TSt W' R' × Outcome (Option TErr)}
    (h1 : TSt.Alt f g x.1 x'.1) (h2 : x'.2 = x.2) :
    TSt.Alt f g (TSt.check E x).1 (TSt.check E' x').1 ∧ (TSt.check E' x').2 = (TSt.check E x).2 := by
  obtain ⟨t, o⟩ := x
  obtain ⟨t', o'⟩ := x'
  simp only at h1 h2
  subst h2
  rcases o' with (_ | e) | v | _
  · exact ⟨h1, rfl⟩
  · refine ⟨h1.say _, ?_⟩
    unfold TSt.check
    simp only [hE.fatal]
  · exact ⟨h1, rfl⟩
  · exact ⟨h1, rfl⟩

theorem IcAlt.or {a b : Option (Message → IProg W)} {a' b' : Option (Message → IProg W')}
    (h : IcAlt g a a') (h' : IcAlt g b b') : IcAlt g (a.or b) (a'.or b') := by
  cases h with
  | none => simpa using h'
  | some h => exact .some h

theorem IcAlt.isSome {a : Option (Message → IProg W)} {a' : Option (Message → IProg W')}
    (h : IcAlt g a a') : a'.isSome = a.isSome := by
  cases h <;> rfl

theorem TSt.Alt.leave {t : TSt W R} {t' : TSt W' R'} (ht : TSt.Alt f g t t')
    {prev : Option (Message → IProg W)} {prev' : Option (Message → IProg W')} (hp : IcAlt g prev prev')
    (had : Bool) : TSt.Alt f g (t.leave prev had) (t'.leave prev' had) := by
  refine ⟨ht.sys, ht.clock, ht.opts, rfl, ?_, ht.did⟩
  simp only [TSt.leave]
  cases had with
  | true => exact hp
  | false => exact ht.icept

theorem Action.Alt.caption {a : Action W} {a' : Action W'} (h : Action.Alt g a a') :
    a'.caption = a.caption := by
  cases h <;> rfl

theorem Action.Alt.scope {a : Action W} {a' : Action W'} (h : Action.Alt g a a') (S : PScope) :
    a'.scope S = a.scope S := by
  cases h <;> rfl

theorem uses_alt (al : A.Refits A' f g) (mt : MType) : A'.uses mt = A.uses mt := by
  unfold App.uses
  rw [al.cfgs]

mutual
theorem Action.run_alt (al : A.Refits A' f g) {E : TEnv W} {E' : TEnv W'} (hE : TEnv.Alt g E E') :
    {a : Action W} → {a' : Action W'} → Action.Alt g a a' → ∀ (extra : List OpOption) (t : TSt W R)
    (t' : TSt W' R'), TSt.Alt f g t t' →
    TSt.Alt f g (a.run A E extra t).1 (a'.run A' E' extra t').1 ∧
    (a'.run A' E' extra t').2 = (a.run A E extra t).2
  | _, _, .dispatch m, extra, t, t', ht => by
    unfold Action.run
    rw [ht.actOpts, uses_alt al, hE.fuel]
    split
    · exact ht.engine al _
    · exact ⟨ht, rfl⟩
  | _, _, @Action.Alt.advance _ _ _ desc step step' h, extra, t, t', ht => by
    unfold Action.run
    have hs' : step' t'.clock t'.sys.w = (g (step t.clock t.sys.w).1, (step t.clock t.sys.w).2) := by
      rw [ht.clock, ht.w]
      exact h _ _
    rw [ht.actOpts, hs', hE.fuel]
    clear hs'
    rcases step t.clock t.sys.w with ⟨w, v | now⟩
    · exact ⟨ht.world w, rfl⟩
    · simp only
      rw [ht.clock, hE.order]
      split
      · exact ⟨⟨(ht.world w).sys, rfl, ht.opts, ht.bound, ht.icept, ht.did⟩, rfl⟩
      · have h0 : TSt.Alt f g { t with sys := { t.sys with w := w }, clock := now }
            { t' with sys := { t'.sys with w := g w }, clock := now } :=
          ⟨(ht.world w).sys, rfl, ht.opts, ht.bound, ht.icept, ht.did⟩
        exact h0.engine al _
  | _, _, @Action.Alt.call _ _ _ fn fn' ic ic' hf hi, extra, t, t', ht => by
    unfold Action.run
    have h0 : TSt.Alt f g { t with bound := some (t.actOpts extra), icept := ic.or t.icept }
        { t' with bound := some (t'.actOpts extra), icept := ic'.or t'.icept } :=
      ⟨ht.sys, ht.clock, ht.opts, by simp only [ht.actOpts], hi.or ht.icept, ht.did⟩
    obtain ⟨h1, h2⟩ := CProg.run_alt al hE hf _ _ h0
    rcases hy : fn.run A E { t with bound := some (t.actOpts extra), icept := ic.or t.icept } with ⟨u, o⟩
    rcases hy' : fn'.run A' E' { t' with bound := some (t'.actOpts extra), icept := ic'.or t'.icept }
      with ⟨u', o'⟩
    rw [hy, hy'] at h1 h2
    simp only at h1 h2
    simp only [hi.isSome]
    subst h2
    rcases o' with e | v | _
    · exact ⟨h1.leave ht.icept _, rfl⟩
    · exact ⟨h1.leave ht.icept _, rfl⟩
    · exact ⟨h1, rfl⟩
theorem CProg.run_alt (al : A.Refits A' f g) {E : TEnv W} {E' : TEnv W'} (hE : TEnv.Alt g E E') :
    {p : CProg W} → {p' : CProg W'} → CProg.Alt g p p' → ∀ (t : TSt W R) (t' : TSt W' R'),
    TSt.Alt f g t t' → TSt.Alt f g (p.run A E t).1 (p'.run A' E' t').1 ∧
      (p'.run A' E' t').2 = (p.run A E t).2
  | _, _, .ret, t, t', ht => by unfold CProg.run; exact ⟨ht, rfl⟩
  | _, _, .panic v, t, t', ht => by unfold CProg.run; exact ⟨ht, rfl⟩
  | _, _, .get h, t, t', ht => by
    unfold CProg.run
    rw [ht.w]
    exact CProg.run_alt al hE (h _) t t' ht
  | _, _, .set w h, t, t', ht => by
    unfold CProg.run
    exact CProg.run_alt al hE h _ _ (ht.world w)
  | _, _, @CProg.Alt.exec _ _ _ m k k' h, t, t', ht => by
    unfold CProg.run
    obtain ⟨h1, h2⟩ := TSt.execute_alt al hE ht m
    rcases hy : t.execute A E m with ⟨u, o⟩
    rcases hy' : t'.execute A' E' m with ⟨u', o'⟩
    rw [hy, hy'] at h1 h2
    simp only at h1 h2
    subst h2
    rcases o' with e | v | _
    · exact CProg.run_alt al hE (h _) u u' h1
    · exact CProg.run_alt al hE (h _) u u' h1
    · exact ⟨h1, rfl⟩
  | _, _, @CProg.Alt.act _ _ _ a a' k k' ha h, t, t', ht => by
    unfold CProg.run
    have hn : TSt.Alt f g (t.announce a) (t'.announce a') := by
      unfold TSt.announce Action.prepareLine
      rw [ha.caption]
      exact ht.say _
    obtain ⟨h0, h00⟩ := Action.run_alt al hE ha [] _ _ hn
    obtain ⟨h1, h2⟩ := TSt.check_alt hE h0 h00
    rcases hy : TSt.check E (a.run A E [] (t.announce a)) with ⟨u, o⟩
    rcases hy' : TSt.check E' (a'.run A' E' [] (t'.announce a')) with ⟨u', o'⟩
    rw [hy, hy'] at h1 h2
    simp only at h1 h2
    subst h2
    rcases o' with e | v | _
    · exact CProg.run_alt al hE (h _) u u' h1
    · exact CProg.run_alt al hE (h _) u u' h1
    · exact ⟨h1, rfl⟩
end

/-- **C125** for `Prepare()`. -/
theorem C125_prepare (al : A.Refits A' f g) {E : TEnv W} {E' : TEnv W'} (hE : TEnv.Alt g E E')
    {t : TSt W R} {t' : TSt W' R'} (ht : TSt.Alt f g t t') {a : Action W} {a' : Action W'}
    (ha : Action.Alt g a a') :
    TSt.Alt f g (t.prepare A E a).1 (t'.prepare A' E' a').1 ∧
    (t'.prepare A' E' a').2 = (t.prepare A E a).2 := by
  have hn : TSt.Alt f g (t.announce a) (t'.announce a') := by
    unfold TSt.announce Action.prepareLine
    rw [ha.caption]
    exact ht.say _
  obtain ⟨h1, h2⟩ := Action.run_alt al hE ha [] _ _ hn
  exact TSt.check_alt hE h1 h2

/-- **C125** for `Expect()`, with whatever expectation: its methods are called with the same arguments
in the same order, and it passes, fails or panics the same. -/
theorem C125_expect {P : Type} (al : A.Refits A' f g) {E : TEnv W} {E' : TEnv W'} (hE : TEnv.Alt g E E')
    {t : TSt W R} {t' : TSt W' R'} (ht : TSt.Alt f g t t') {a : Action W} {a' : Action W'}
    (ha : Action.Alt g a a') (S : PScope) (X : Expecting P) (k : Nat) :
    TSt.Alt f g (t.expect A E S X k a).1 (t'.expect A' E' S X k a').1 ∧
    (t'.expect A' E' S X k a').2 = (t.expect A E S X k a).2 := by
  unfold TSt.expect
  rw [ha.scope S]
  cases X.caption with
  | error v => exact ⟨ht, rfl⟩
  | ok c =>
    simp only
    have h0 : TSt.Alt f g (t.say (.log (a.expectLine c))) (t'.say (.log (a'.expectLine c))) := by
      unfold Action.expectLine
      rw [ha.caption]
      exact ht.say _
    cases X.build (a.scope S) with
    | panic v => exact ⟨h0, rfl⟩
    | err msg => exact ⟨h0.say _, rfl⟩
    | ok p =>
      simp only
      obtain ⟨h1, h2⟩ := Action.run_alt al hE ha [.observer k] _ _ h0
      rw [h0.did]
      generalize (t.say (.log (a.expectLine c))).did.length = n
      rcases hx : a.run A E [.observer k] (t.say (.log (a.expectLine c))) with ⟨u, o⟩
      rcases hx' : a'.run A' E' [.observer k] (t'.say (.log (a'.expectLine c))) with ⟨u', o'⟩
      rw [hx, hx'] at h1 h2
      simp only at h1 h2
      subst h2
      simp only
      rw [h1.did]
      generalize toldIn k (u.did.drop n) = fs
      rcases X.done (fs.foldl (fun p f => X.notify (a.scope S) f p) p) with ⟨q, _ | v'⟩
      · rcases o' with (_ | e) | v | _
        · simp only
          unfold TSt.conclude
          rcases X.ok q with v | b
          · exact ⟨h1, rfl⟩
          · simp only
            rcases X.report b q with v | r
            · exact ⟨h1, rfl⟩
            · simp only
              cases b with
              | true => exact ⟨h1.say _, rfl⟩
              | false => exact ⟨(h1.say _).say _, rfl⟩
        · exact ⟨h1.say _, rfl⟩
        · exact ⟨h1, rfl⟩
        · exact ⟨h1, rfl⟩
      · rcases o' with e | v | _
        · exact ⟨h1, rfl⟩
        · exact ⟨h1, rfl⟩
        · exact ⟨h1, rfl⟩

theorem steps_alt (al : A.Refits A' f g) {E : TEnv W} {E' : TEnv W'} (hE : TEnv.Alt g E E') (S : PScope)
    (c : RCtx) {l : List (TStep W)} {l' : List (TStep W')} (hl : AllAlt g l l') :
    ∀ (t : TSt W R) (t' : TSt W' R'), TSt.Alt f g t t' →
    TSt.Alt f g (t.steps A E S c l).1 (t'.steps A' E' S c l').1 ∧
    (t'.steps A' E' S c l').2 = (t.steps A E S c l).2 := by
  induction hl with
  | nil => intro t t' ht; exact ⟨ht, rfl⟩
  | @cons x x' l l' h hl ih =>
    intro t t' ht
    cases h with
    | @prepare a a' h =>
      unfold TSt.steps
      obtain ⟨h1, h2⟩ := C125_prepare al hE ht h
      rcases hy : t.prepare A E a with ⟨u, o⟩
      rcases hy' : t'.prepare A' E' a' with ⟨u', o'⟩
      rw [hy, hy'] at h1 h2
      simp only at h1 h2
      subst h2
      rcases o' with (_ | e) | v | _
      · obtain ⟨k1, k2⟩ := ih _ _ h1
        exact ⟨k1, by simp only [k2]⟩
      · exact ⟨h1, rfl⟩
      · exact ⟨h1, rfl⟩
      · exact ⟨h1, rfl⟩
    | @expect k x a a' h =>
      unfold TSt.steps
      obtain ⟨h1, h2⟩ := C125_expect al hE ht h S (x.impl c) k
      rcases hy : t.expect A E S (x.impl c) k a with ⟨u, cs, o⟩
      rcases hy' : t'.expect A' E' S (x.impl c) k a' with ⟨u', cs', o'⟩
      rw [hy, hy'] at h1 h2
      simp only [Prod.mk.injEq] at h1 h2
      obtain ⟨-, h2⟩ := h2
      subst h2
      rcases o' with _ | _ | v | _
      · obtain ⟨k1, k2⟩ := ih _ _ h1
        exact ⟨k1, by simp only [k2]⟩
      · exact ⟨h1, rfl⟩
      · exact ⟨h1, rfl⟩
      · exact ⟨h1, rfl⟩

/-- **C125** for whole tests: the statements end the same, and everything that the test does and says
is the same. -/
theorem C125_test (al : A.Refits A' f g) {E : TEnv W} {E' : TEnv W'} (hE : TEnv.Alt g E E') (S : PScope)
    (c : RCtx) {l : List (TStep W)} {l' : List (TStep W')} (hl : AllAlt g l l') (w : W) (start : Time)
    (os : List OpOption) {ic : Option (Message → IProg W)} {ic' : Option (Message → IProg W')}
    (hi : IcAlt g ic ic') :
    ((TSt.begin (g w) start os ic' : TSt W' R').steps A' E' S c l').2 =
      ((TSt.begin w start os ic : TSt W R).steps A E S c l).2 ∧
    ((TSt.begin (g w) start os ic' : TSt W' R').steps A' E' S c l').1.did =
      ((TSt.begin w start os ic : TSt W R).steps A E S c l).1.did := by
  have h0 : TSt.Alt f g (TSt.begin w start os ic : TSt W R) (TSt.begin (g w) start os ic') :=
    ⟨rfl, rfl, rfl, rfl, hi, rfl⟩
  obtain ⟨h1, h2⟩ := steps_alt al hE S c hl _ _ h0
  exact ⟨h2, h1.did⟩

end

/-! ## Examples -/

/-- A way to keep data. -/
structure Demo.Store (D : Type) where
  empty : D
  add : D → String → D
  size : D → Nat

/-- `f` translates one way to keep data into another. -/
structure Demo.Store.Maps {D D' : Type} (S : Demo.Store D) (S' : Demo.Store D') (f : D → D') : Prop where
  empty : f S.empty = S'.empty
  add : ∀ d b, f (S.add d b) = S'.add (f d) b
  size : ∀ d, S'.size (f d) = S.size d

/-- An application that keeps roots and its world in these ways.  The aggregate is destroyed by every
second command, the process ends at the second event.  The integration handler stores commands in the
world and records how many there were; the context is cancelled once there are three. -/
def Demo.storing {W R : Type} (S : Demo.Store R) (T : Demo.Store W) : App W R where
  cfgs := Demo.app.cfgs
  compactDuringHandling := false
  sort := Demo.sortImpl
  uc := {
    aggRoute := fun _ _ w => (w, .ok "a")
    aggNew := fun _ w => (w, .ok (some S.empty))
    aggApply := fun _ r m w => (w, S.add r m.body, none)
    aggHandle := fun _ _ r m =>
      if S.size r = 0 then .do_ (.record ⟨Demo.evtE, m.body, none⟩) (.ret ())
      else .do_ (.record ⟨Demo.evtE, m.body, none⟩) (.do_ .destroy (.ret ()))
    procRoute := fun _ _ w => (w, .ok (.ok (some "p")))
    procNew := fun _ w => (w, .ok (some S.empty))
    procHandle := fun _ _ r m _ =>
      if S.size r = 0 then .do_ (.setRoot (S.add r m.body)) (.do_ (.execute ⟨Demo.cmdD, m.body, none⟩) (.ret none))
      else .do_ (.execute ⟨Demo.cmdD, m.body, none⟩) (.do_ .end_ (.ret none))
    intHandle := fun _ m => .get fun w => .set (T.add w m.body)
      (.do_ (.record ⟨Demo.evtF, toString (T.size w), none⟩) (.ret none))
    prjVersion := fun _ _ w => (w, .ok (.ok []))
    prjHandle := fun _ _ _ _ m _ => .do_ (.log m.body) (.ret (.ok true))
    prjClose := fun _ _ w => (w, .ok none)
    prjCompact := fun _ _ => .ret none
    schedule := fun _ => []
    resetters := [fun _ => (T.empty, none)]
    ctxErr := fun w => if T.size w = 3 then some "context canceled" else none
    lockErr := fun _ => none
    wallClock := fun _ => 0 }

theorem Prog.Alt.do_ {O O' α : Type} {g : W → W'} {φ : O → O'} (o : O) {k : Prog W O α} {k' : Prog W' O' α}
    (h : Prog.Alt g φ k k') {o' : O'} (ho : o' = φ o) : Prog.Alt g φ (Prog.do_ o k) (Prog.do_ o' k') := by
  subst ho
  refine .op o fun p => ?_
  cases p with
  | none => exact h
  | some v => exact .panic v

theorem Demo.storing_refits {S : Demo.Store R} {S' : Demo.Store R'} {T : Demo.Store W} {T' : Demo.Store W'}
    {f : R → R'} {g : W → W'} (hf : S.Maps S' f) (hg : T.Maps T' g) :
    (Demo.storing S T).Refits (Demo.storing S' T') f g where
  cfgs := rfl
  compact := rfl
  sort := rfl
  aggRoute _ _ _ := rfl
  aggNew _ _ := by simp only [Demo.storing, Except.map, Option.map, hf.empty]
  aggApply _ _ _ _ := by simp only [Demo.storing, hf.add]
  aggHandle _ _ r m := by
    simp only [Demo.storing, hf.size]
    split
    · exact .do_ (AggOp.record _) (.ret ()) rfl
    · exact .do_ (AggOp.record _) (.do_ AggOp.destroy (.ret ()) rfl) rfl
  procRoute _ _ _ := rfl
  procNew _ _ := by simp only [Demo.storing, Except.map, Option.map, hf.empty]
  procHandle _ _ r m _ := by
    simp only [Demo.storing, hf.size]
    split
    · exact .do_ (ProcOp.setRoot (S.add r m.body)) (.do_ (ProcOp.execute _) (.ret none) rfl)
        (by simp only [ProcOp.alt, hf.add])
    · exact .do_ (ProcOp.execute _) (.do_ ProcOp.end_ (.ret none) rfl) rfl
  intHandle _ m := by
    simp only [Demo.storing]
    refine .get fun w => ?_
    rw [← hg.add, hg.size]
    exact .set _ (.do_ (IntOp.record _) (.ret none) rfl)
  prjVersion _ _ _ := rfl
  prjHandle _ _ _ _ _ _ := .do_ (PrjOp.log _) (.ret (Except.ok true)) rfl
  prjClose _ _ _ := rfl
  prjCompact _ _ := .ret none
  schedule _ := rfl
  resetters := ⟨fun w => by simp only [hg.empty, id], trivial⟩
  ctxErr w := by simp only [Demo.storing, hg.size]
  lockErr _ := rfl
  wallClock _ := rfl

/-- Keep everything. -/
def Demo.allOfIt : Demo.Store (List String) := ⟨[], fun l b => l ++ [b], List.length⟩

/-- Keep how many there are, and the first one. -/
def Demo.firstOfIt : Demo.Store (Nat × String) := ⟨(0, ""), fun d b => (d.1 + 1, if d.1 = 0 then b else d.2), Prod.fst⟩

/-- Keep how many there are, and the last one. -/
def Demo.lastOfIt : Demo.Store (Nat × String) := ⟨(0, ""), fun d b => (d.1 + 1, b), Prod.fst⟩

/-- Keep only how many there are. -/
def Demo.countIt : Demo.Store Nat := ⟨0, fun n _ => n + 1, id⟩

theorem Demo.allOfIt_maps : Demo.allOfIt.Maps Demo.countIt List.length :=
  ⟨rfl, fun d b => by simp [Demo.allOfIt, Demo.countIt], fun _ => rfl⟩

theorem Demo.firstOfIt_maps : Demo.firstOfIt.Maps Demo.countIt Prod.fst := ⟨rfl, fun _ _ => rfl, fun _ => rfl⟩

theorem Demo.lastOfIt_maps : Demo.lastOfIt.Maps Demo.countIt Prod.fst := ⟨rfl, fun _ _ => rfl, fun _ => rfl⟩

/-- `C125_history` applies to handlers that keep everything and handlers that only count. -/
example (es : List (Event (List String))) :
    behaviour (Demo.storing Demo.countIt Demo.countIt) (es.map (Event.alt List.length)) (Sys.init 0) =
      (behaviour (Demo.storing Demo.allOfIt Demo.allOfIt) es (Sys.init [])).map
        fun x => (x.1.map (Obs.alt List.length), x.2.1, x.2.2.length) :=
  C125_history (Demo.storing_refits Demo.allOfIt_maps Demo.allOfIt_maps) es (Sys.init [])

/-- Operations, without changes of the world between them. -/
def Demo.opsOnly {W : Type} : List Op → List (Event W) := List.map .op

/-- Facts of a history, reduced to a few words: did the aggregate get created or destroyed, did the
process begin or end, what was recorded by the integration handler? -/
def Demo.gist : Fact → Option String
  | .aggCreated .. => some "created"
  | .aggDestroyed .. => some "destroyed"
  | .procBegun .. => some "begun"
  | .procEnded .. => some "ended"
  | .intEvent _ _ e => some e.msg.body
  | _ => none

/-- `C125_common` applies to handlers that keep the first and handlers that keep the last. -/
example (l : List Op) :
    (behaviour (Demo.storing Demo.firstOfIt Demo.firstOfIt) (Demo.opsOnly l) (Sys.init (0, ""))).map
        (fun x => (factsOf x.1, x.2.1)) =
      (behaviour (Demo.storing Demo.lastOfIt Demo.lastOfIt) (Demo.opsOnly l) (Sys.init (0, ""))).map
        (fun x => (factsOf x.1, x.2.1)) :=
  C125_common (Demo.storing_refits Demo.firstOfIt_maps Demo.firstOfIt_maps)
    (Demo.storing_refits Demo.lastOfIt_maps Demo.lastOfIt_maps) _ _
    (by simp [Demo.opsOnly, List.map_map, Function.comp_def, Event.alt]) _ _ rfl

/-- Four commands. -/
def Demo.fourCommands : List Op :=
  [.dispatch 20 (Demo.msgC "x") [.enableType .integration true], .dispatch 20 (Demo.msgC "y") [.enableType .integration true],
   .dispatch 20 (Demo.msgC "z") [.enableType .integration true], .dispatch 20 (Demo.msgC "u") [.enableType .integration true]]

set_option maxRecDepth 100000 in
/-- What happens does depend on the data. -/
example : (behaviour (Demo.storing Demo.lastOfIt Demo.lastOfIt) (Demo.opsOnly Demo.fourCommands)
    (Sys.init (0, ""))).map (fun x => (factsOf x.1).filterMap Demo.gist) =
    [["created", "begun", "0"], ["destroyed", "ended", "1"], ["created", "begun", "2"], ["destroyed"]] := by
  decide +kernel

/-- A test of the application.  The function given to `Call()` adds to the world what the way to keep
data adds, executes a command, and panics if that is all there is. -/
def Demo.storingSteps {W : Type} (T : Demo.Store W) : List (TStep W) :=
  [.prepare (.dispatch (Demo.msgC "x")),
   .expect 7 (.type Demo.evtE) (.dispatch (Demo.msgC "y")),
   .prepare (.call (.exec (Demo.msgC "z") fun _ => .get fun w => .set (T.add w "u") (.get fun w =>
     if T.size w = 1 then .panic (.user "one") else .ret)) none)]

theorem Demo.storingSteps_alt {T : Demo.Store W} {T' : Demo.Store W'} {g : W → W'} (hg : T.Maps T' g) :
    AllAlt g (Demo.storingSteps T) (Demo.storingSteps T') := by
  refine .cons (.prepare (.dispatch _)) (.cons (.expect _ _ (.dispatch _)) (.cons (.prepare (.call ?_ .none)) .nil))
  refine .exec _ fun _ => .get fun w => ?_
  rw [← hg.add]
  refine .set _ (.get fun w => ?_)
  rw [hg.size]
  split
  · exact .panic _
  · exact .ret

/-- Surroundings that do not depend on the data. -/
def Demo.storingEnv (W : Type) : TEnv W := { fuel := 20, order := fun _ => Demo.app.cfgs }

/-- `C125_test` applies. -/
example (S : PScope) (c : RCtx) (os : List OpOption) :
    ((TSt.begin 0 0 os none : TSt Nat Nat).steps (Demo.storing Demo.countIt Demo.countIt)
      (Demo.storingEnv Nat) S c (Demo.storingSteps Demo.countIt)).1.did =
    ((TSt.begin [] 0 os none : TSt (List String) (List String)).steps (Demo.storing Demo.allOfIt Demo.allOfIt)
      (Demo.storingEnv _) S c (Demo.storingSteps Demo.allOfIt)).1.did :=
  (C125_test (Demo.storing_refits Demo.allOfIt_maps Demo.allOfIt_maps) (E := Demo.storingEnv _)
    (E' := Demo.storingEnv _) ⟨rfl, fun _ => rfl, rfl⟩ S c (Demo.storingSteps_alt Demo.allOfIt_maps) [] 0 os .none).2

set_option maxRecDepth 100000 in
/-- How the statements of the test end. -/
example : ((TSt.begin 0 0 [.enableType .integration true] none : TSt Nat Nat).steps
      (Demo.storing Demo.countIt Demo.countIt) (Demo.storingEnv Nat) (Demo.scope false) Demo.ctx
      (Demo.storingSteps Demo.countIt)).2.map TStep.endCode = [0, 0, 0] ∧
    ((TSt.begin 0 0 [] none : TSt Nat Nat).steps
      (Demo.storing Demo.countIt Demo.countIt) (Demo.storingEnv Nat) (Demo.scope false) Demo.ctx
      (Demo.storingSteps Demo.countIt)).2.map TStep.endCode = [0, 0, 2] := by decide +kernel

end Verif
