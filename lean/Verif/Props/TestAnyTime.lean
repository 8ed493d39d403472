import Verif.Props.AnyTime
import Verif.Props.AbsentTest
import Verif.Build

/-!
# C121: what a test finds does not depend on what time it is

C120 for tests: a test that begins some time later, with actions that take place later, passes or
fails the same.
-/

namespace Verif

variable {W R : Type}

/-! ## Specification -/

/-- An error without the description of an adjustment of the clock, which may mention a time. -/
def TErr.bare : TErr → TErr
  | .reversed _ => .reversed ""
  | e => e

/-- The same, for what a caller gets. -/
def bareRes : TRes → TRes
  | .ok (some e) => .ok (some e.bare)
  | r => r

/-- The same, for the end of an action. -/
def Outcome.bare : Outcome (Option TErr) → Outcome (Option TErr)
  | .done (some e) => .done (some e.bare)
  | o => o

/-- The same, for an entry of the record; the log is left out. -/
def TObs.bare : TObs → Option TObs
  | .log _ => none
  | .fatal e => some (.fatal e.bare)
  | o => some o

/-- The same entry of the record, some time later. -/
def TObs.later (d : Int) : TObs → TObs
  | .engine c op facts => .engine (c + d) (op.later d) (facts.map (Fact.later d))
  | o => o

/-- What an adjustment of the clock yields, some time later. -/
def instantLater (d : Int) : Except PanicVal Time → Except PanicVal Time
  | .ok t => .ok (t + d)
  | .error v => .error v

/-- The second interceptor does some time later what the first one does. -/
inductive IProg.Late (ρ : W → W) : IProg W → IProg W → Prop where
  | ret {e e' : Option TErr} (h : bareRes (.ok e') = bareRes (.ok e)) : IProg.Late ρ (.ret e) (.ret e')
  | panic (v : PanicVal) : IProg.Late ρ (.panic v) (.panic v)
  | get {k k'} (h : ∀ w, IProg.Late ρ (k w) (k' (ρ w))) : IProg.Late ρ (.get k) (.get k')
  | set (w : W) {k k'} (h : IProg.Late ρ k k') : IProg.Late ρ (.set w k) (.set (ρ w) k')
  | next (m : Message) {k k'} (h : ∀ r r', bareRes r' = bareRes r → IProg.Late ρ (k r) (k' r')) :
      IProg.Late ρ (.next m k) (.next m k')

/-- The same for interceptors, if there are any. -/
inductive IcLate (ρ : W → W) : Option (Message → IProg W) → Option (Message → IProg W) → Prop where
  | none : IcLate ρ none none
  | some {f f' : Message → IProg W} (h : ∀ m, IProg.Late ρ (f m) (f' m)) : IcLate ρ (some f) (some f')

mutual
/-- The second action does some time later what the first one does: in particular, if the first sets
the clock to a time, the second sets it to the moved time, if the clock was moved as well. -/
inductive Action.Late (d : Int) (ρ : W → W) : Action W → Action W → Prop where
  | dispatch (m : Message) : Action.Late d ρ (.dispatch m) (.dispatch m)
  | advance {desc desc' : String} {step step' : Time → W → W × Except PanicVal Time}
      (h : ∀ c w, step' (c + d) (ρ w) = (ρ (step c w).1, instantLater d (step c w).2)) :
      Action.Late d ρ (.advance desc step) (.advance desc' step')
  | call {fn fn' : CProg W} {ic ic' : Option (Message → IProg W)} (hf : CProg.Late d ρ fn fn')
      (hi : IcLate ρ ic ic') : Action.Late d ρ (.call fn ic) (.call fn' ic')
/-- The same for functions given to `Call()`. -/
inductive CProg.Late (d : Int) (ρ : W → W) : CProg W → CProg W → Prop where
  | ret : CProg.Late d ρ .ret .ret
  | panic (v : PanicVal) : CProg.Late d ρ (.panic v) (.panic v)
  | get {k k' : W → CProg W} (h : ∀ w, CProg.Late d ρ (k w) (k' (ρ w))) : CProg.Late d ρ (.get k) (.get k')
  | set (w : W) {k k' : CProg W} (h : CProg.Late d ρ k k') : CProg.Late d ρ (.set w k) (.set (ρ w) k')
  | exec (m : Message) {k k' : TRes → CProg W}
      (h : ∀ r r', bareRes r' = bareRes r → CProg.Late d ρ (k r) (k' r')) :
      CProg.Late d ρ (.exec m k) (.exec m k')
  | act {a a' : Action W} {k k' : TRes → CProg W} (ha : Action.Late d ρ a a')
      (h : ∀ r r', bareRes r' = bareRes r → CProg.Late d ρ (k r) (k' r')) :
      CProg.Late d ρ (.act a k) (.act a' k')
end

/-- A test and one that is at the same point some time later. -/
structure TSt.Later (d : Int) (ρ : W → W) (t t' : TSt W R) : Prop where
  sys : t'.sys = t.sys.later d ρ
  clock : t'.clock = t.clock + d
  opts : t'.opts = t.opts.map (OpOption.later d)
  bound : t'.bound = t.bound.map (List.map (OpOption.later d))
  icept : IcLate ρ t.icept t'.icept
  did : t'.did.filterMap TObs.bare = (t.did.filterMap TObs.bare).map (TObs.later d)

/-- The test's clock is not within the first hour of Go's calendar, only timeouts are pending in its
engine, and commands executed by its executor are told the time. -/
structure TSt.Modern (d : Int) (t : TSt W R) : Prop where
  clock : Verif.Modern d t.clock
  timed : t.sys.Timed
  bound : ∀ os, t.bound = some os → ∃ c, OpOption.currentTime c ∈ os

/-- The surroundings of the test do not depend on what time it is. -/
def TEnv.AnyTime (E : TEnv W) (ρ : W → W) : Prop := ∀ w, E.order (ρ w) = E.order w

/-! ## Engine operations -/

section
variable {A : App W R} {d : Int} {ρ : W → W} {E : TEnv W}

theorem bareOpt_eq {e e' : Option TErr} (h : Outcome.bare (.done e') = Outcome.bare (.done e)) :
    bareRes (.ok e') = bareRes (.ok e) := by
  cases e <;> cases e' <;> simp_all [Outcome.bare, bareRes]

theorem watches_later {extra : List OpOption} (h : Watches extra) : extra.map (OpOption.later d) = extra := by
  induction extra with
  | nil => rfl
  | cons o l ih =>
    obtain ⟨k, hk⟩ := h o (by simp)
    rw [List.map_cons, ih (fun x hx => h x (by simp [hx])), hk]
    rfl

theorem TSt.Later.actOpts {t t' : TSt W R} (ht : t.Later d ρ t') {extra : List OpOption} (he : Watches extra) :
    t'.actOpts extra = (t.actOpts extra).map (OpOption.later d) := by
  unfold TSt.actOpts
  rw [ht.clock, ht.opts, List.map_append, watches_later he]
  rfl

theorem factsOf_later (l : List (Obs R)) : factsOf (l.map (Obs.later d)) = (factsOf l).map (Fact.later d) := by
  induction l with
  | nil => rfl
  | cons o l ih =>
    unfold factsOf at ih ⊢
    cases o with
    | call c => simpa [Obs.later] using ih
    | reset => simpa [Obs.later] using ih
    | fact f => simpa [Obs.later] using ih

/-- Both tests at once: the second is the first one some time later, and the first one is fit for the
move. -/
structure TSt.Pair (d : Int) (ρ : W → W) (t t' : TSt W R) : Prop where
  later : t.Later d ρ t'
  modern : t.Modern d

theorem TSt.Pair.engine (an : A.AnyTime d ρ) {t t' : TSt W R} (ht : TSt.Pair d ρ t t') {op op' : Op}
    (hc : ∃ c, OpOption.currentTime c ∈ op.opts)
    (hm : ∀ n order os, op = .tick n order os → Verif.Modern d (op.time A t.sys)) (ho : op' = op.later d) :
    TSt.Pair d ρ (t.engine A op).1 (t'.engine A op').1 ∧ (t'.engine A op').2 = (t.engine A op).2 := by
  obtain ⟨hx, htm⟩ := op_later an op t.sys ht.modern.timed (.inr (.inl hc)) hm
  unfold TSt.engine
  rw [ht.later.sys, ho, hx]
  have hd : factsOf (during (t.sys.later d ρ) ((op.exec A t.sys).1.later d ρ)) =
      (factsOf (during t.sys (op.exec A t.sys).1)).map (Fact.later d) := by
    rw [← factsOf_later]
    congr 1
    unfold during Sys.later
    simp only [List.length_map, List.map_drop]
  refine ⟨⟨⟨rfl, ht.later.clock, ht.later.opts, ht.later.bound, ht.later.icept, ?_⟩,
    ht.modern.clock, htm, ht.modern.bound⟩, rfl⟩
  simp only [List.filterMap_append, ht.later.did, ht.later.clock, hd, List.map_append]
  rfl

/-! ## Interceptors, the executor, actions -/

theorem TSt.Pair.world {t t' : TSt W R} (ht : TSt.Pair d ρ t t') (w : W) :
    TSt.Pair d ρ { t with sys := { t.sys with w := w } } { t' with sys := { t'.sys with w := ρ w } } :=
  ⟨⟨by simp only [ht.later.sys]; rfl, ht.later.clock, ht.later.opts, ht.later.bound, ht.later.icept,
    ht.later.did⟩, ht.modern.clock, ht.modern.timed.of_eq rfl, ht.modern.bound⟩

theorem TSt.Pair.w {t t' : TSt W R} (ht : TSt.Pair d ρ t t') : t'.sys.w = ρ t.sys.w := by
  rw [ht.later.sys]; rfl

theorem IProg.run_late (an : A.AnyTime d ρ) (E : TEnv W) (os : List OpOption)
    (ho : ∃ c, OpOption.currentTime c ∈ os) {p p' : IProg W} (hp : IProg.Late ρ p p') :
    ∀ t t' : TSt W R, TSt.Pair d ρ t t' →
    TSt.Pair d ρ (p.run A E os t).1 (p'.run A E (os.map (OpOption.later d)) t').1 ∧
    (p'.run A E (os.map (OpOption.later d)) t').2.bare = (p.run A E os t).2.bare := by
  induction hp with
  | @ret e e' h =>
    intro t t' ht
    refine ⟨ht, ?_⟩
    unfold IProg.run
    cases e <;> cases e' <;> simp_all [Outcome.bare, bareRes]
  | panic v => intro t t' ht; exact ⟨ht, rfl⟩
  | get h ih =>
    intro t t' ht
    unfold IProg.run
    rw [ht.w]
    exact ih _ t t' ht
  | set w h ih =>
    intro t t' ht
    unfold IProg.run
    exact ih _ _ (ht.world w)
  | @next m k k' h ih =>
    intro t t' ht
    unfold IProg.run
    obtain ⟨h1, h2⟩ := ht.engine an (op := .dispatch E.fuel m os)
      (op' := .dispatch E.fuel m (os.map (OpOption.later d))) ho nofun rfl
    rcases hx : t.engine A (.dispatch E.fuel m os) with ⟨t1, o⟩
    rcases hy : t'.engine A (.dispatch E.fuel m (os.map (OpOption.later d))) with ⟨t1', o'⟩
    rw [hx, hy] at h1 h2
    simp only at h2
    subst h2
    cases o' with
    | done e => exact ih _ _ rfl t1 t1' h1
    | panicked v => exact ih _ _ rfl t1 t1' h1
    | running => exact ⟨h1, rfl⟩

theorem TSt.execute_late (an : A.AnyTime d ρ) (E : TEnv W) {t t' : TSt W R} (ht : TSt.Pair d ρ t t')
    (m : Message) :
    TSt.Pair d ρ (t.execute A E m).1 (t'.execute A E m).1 ∧
    (t'.execute A E m).2.bare = (t.execute A E m).2.bare := by
  unfold TSt.execute
  have h0 : TSt.Pair d ρ { t with did := t.did ++ [TObs.exec m t.bound.isSome] }
      { t' with did := t'.did ++ [TObs.exec m t'.bound.isSome] } := by
    refine ⟨⟨ht.later.sys, ht.later.clock, ht.later.opts, ht.later.bound, ht.later.icept, ?_⟩,
      ht.modern.clock, ht.modern.timed, ht.modern.bound⟩
    simp only [List.filterMap_append, ht.later.did, ht.later.bound, Option.isSome_map, List.map_append]
    rfl
  have hb' := ht.later.bound
  have hi' := ht.later.icept
  simp only
  generalize hu : ({ t with did := t.did ++ [TObs.exec m t.bound.isSome] } : TSt W R) = u at h0 ⊢
  generalize hu' : ({ t' with did := t'.did ++ [TObs.exec m t'.bound.isSome] } : TSt W R) = u' at h0 ⊢
  rw [hb']
  cases hb : t.bound with
  | none => exact ⟨h0, rfl⟩
  | some os =>
    simp only [Option.map_some]
    have hc := ht.modern.bound os hb
    revert hi'
    generalize t.icept = ic
    generalize t'.icept = ic'
    intro hi'
    cases hi' with
    | none =>
      obtain ⟨h1, h2⟩ := h0.engine an (op := .dispatch E.fuel m os)
        (op' := .dispatch E.fuel m (os.map (OpOption.later d))) hc nofun rfl
      exact ⟨h1, congrArg Outcome.bare h2⟩
    | some h => exact IProg.run_late an E os hc (h m) _ _ h0

theorem TSt.Pair.say {t t' : TSt W R} (ht : TSt.Pair d ρ t t') {o o' : TObs}
    (h : o'.bare = o.bare.map (TObs.later d)) : TSt.Pair d ρ (t.say o) (t'.say o') := by
  refine ⟨⟨ht.later.sys, ht.later.clock, ht.later.opts, ht.later.bound, ht.later.icept, ?_⟩,
    ht.modern.clock, ht.modern.timed, ht.modern.bound⟩
  simp only [TSt.say, List.filterMap_append, ht.later.did, List.filterMap_cons, List.filterMap_nil, h,
    List.map_append]
  cases o.bare <;> rfl

theorem TSt.Pair.announce {t t' : TSt W R} (ht : TSt.Pair d ρ t t') (a a' : Action W) :
    TSt.Pair d ρ (t.announce a) (t'.announce a') := ht.say rfl

theorem TSt.check_late (E : TEnv W) {x x' : TSt W R × Outcome (Option TErr)}
    (h1 : TSt.Pair d ρ x.1 x'.1) (h2 : x'.2.bare = x.2.bare) :
    TSt.Pair d ρ (TSt.check E x).1 (TSt.check E x').1 ∧ (TSt.check E x').2.bare = (TSt.check E x).2.bare := by
  obtain ⟨t, o⟩ := x
  obtain ⟨t', o'⟩ := x'
  simp only at h1 h2
  rcases o with (_ | e) | v | _ <;> rcases o' with (_ | e') | v' | _ <;>
    simp only [Outcome.bare, Outcome.done.injEq, Outcome.panicked.injEq, Option.some.injEq, reduceCtorEq] at h2
  · exact ⟨h1, rfl⟩
  · refine ⟨h1.say ?_, ?_⟩
    · simp only [TObs.bare, h2]; rfl
    · unfold TSt.check
      simp only
      cases E.fatal with
      | none => simp only [Outcome.bare, h2]
      | some v => rfl
  · subst h2; exact ⟨h1, rfl⟩
  · exact ⟨h1, rfl⟩

theorem TSt.Pair.leave {t t' : TSt W R} (ht : TSt.Pair d ρ t t') {prev prev' : Option (Message → IProg W)}
    (hp : IcLate ρ prev prev') (had : Bool) : TSt.Pair d ρ (t.leave prev had) (t'.leave prev' had) := by
  refine ⟨⟨ht.later.sys, ht.later.clock, ht.later.opts, rfl, ?_, ht.later.did⟩,
    ht.modern.clock, ht.modern.timed, nofun⟩
  simp only [TSt.leave]
  cases had with
  | true => exact hp
  | false => exact ht.later.icept

theorem IcLate.or {a a' b b' : Option (Message → IProg W)} (h : IcLate ρ a a') (h' : IcLate ρ b b') :
    IcLate ρ (a.or b) (a'.or b') := by
  cases h with
  | none => simpa using h'
  | some h => exact .some h

theorem IcLate.isSome {a a' : Option (Message → IProg W)} (h : IcLate ρ a a') : a'.isSome = a.isSome := by
  cases h <;> rfl

mutual
theorem Action.run_late (an : A.AnyTime d ρ) (E : TEnv W) (hE : E.AnyTime ρ) : {a a' : Action W} →
    Action.Late d ρ a a' → ∀ (extra : List OpOption), Watches extra →
    ∀ (t t' : TSt W R), TSt.Pair d ρ t t' →
    TSt.Pair d ρ (a.run A E extra t).1 (a'.run A E extra t').1 ∧
    (a'.run A E extra t').2.bare = (a.run A E extra t).2.bare
  | _, _, .dispatch m, extra, hx, t, t', ht => by
    unfold Action.run
    rw [ht.later.actOpts hx]
    split
    · obtain ⟨h1, h2⟩ := ht.engine an (op := .dispatch E.fuel m (t.actOpts extra))
        (op' := .dispatch E.fuel m ((t.actOpts extra).map (OpOption.later d)))
        ⟨t.clock, by simp [Op.opts, TSt.actOpts]⟩ nofun rfl
      exact ⟨h1, congrArg Outcome.bare h2⟩
    · exact ⟨ht, rfl⟩
  | _, _, @Action.Late.advance _ _ _ desc desc' step step' h, extra, hx, t, t', ht => by
    unfold Action.run
    have hs' : step' t'.clock t'.sys.w =
        (ρ (step t.clock t.sys.w).1, instantLater d (step t.clock t.sys.w).2) := by
      rw [ht.later.clock, ht.w]
      exact h _ _
    rw [ht.later.actOpts hx, hs']
    clear hs'
    rcases step t.clock t.sys.w with ⟨w, v | now⟩
    · exact ⟨ht.world w, rfl⟩
    · simp only [instantLater]
      by_cases hn : now < t.clock
      · rw [if_pos hn, if_pos (show now + d < t'.clock by rw [ht.later.clock]; omega)]
        exact ⟨ht.world w, rfl⟩
      · rw [if_neg hn, if_neg (show ¬ now + d < t'.clock by rw [ht.later.clock]; omega)]
        have hmn : Verif.Modern d now := by
          have := ht.modern.clock
          unfold Verif.Modern at this ⊢
          omega
        have h0 : TSt.Pair d ρ { t with sys := { t.sys with w := w }, clock := now }
            { t' with sys := { t'.sys with w := ρ w }, clock := now + d } :=
          ⟨⟨(ht.world w).later.sys, rfl, ht.later.opts, ht.later.bound, ht.later.icept, ht.later.did⟩,
            hmn, (ht.world w).modern.timed, ht.modern.bound⟩
        obtain ⟨h1, h2⟩ := h0.engine an (op := .tick E.fuel (E.order w) (t.actOpts extra ++ [.currentTime now]))
          (op' := .tick E.fuel (E.order (ρ w)) ((t.actOpts extra).map (OpOption.later d) ++ [.currentTime (now + d)]))
          ⟨now, by simp [Op.opts]⟩ (by
            intro n order os e
            have : engineTime (t.actOpts extra ++ [.currentTime now]) (A.uc.wallClock w) = now := by
              simp only [engineTime, lastSome, List.reverse_append, List.reverse_cons, List.reverse_nil,
                List.nil_append, List.singleton_append, List.findSome?_cons, OpOption.timeSetting,
                Option.getD_some]
            show Verif.Modern d (engineTime (t.actOpts extra ++ [.currentTime now]) (A.uc.wallClock w))
            rw [this]
            exact hmn)
          (by simp only [Op.later, List.map_append, hE w]; rfl)
        exact ⟨h1, congrArg Outcome.bare h2⟩
  | _, _, @Action.Late.call _ _ _ fn fn' ic ic' hf hi, extra, hx, t, t', ht => by
    unfold Action.run
    have h0 : TSt.Pair d ρ { t with bound := some (t.actOpts extra), icept := ic.or t.icept }
        { t' with bound := some (t'.actOpts extra), icept := ic'.or t'.icept } :=
      ⟨⟨ht.later.sys, ht.later.clock, ht.later.opts, by simp only [ht.later.actOpts hx]; rfl,
        hi.or ht.later.icept, ht.later.did⟩, ht.modern.clock, ht.modern.timed, by
          intro os e
          cases e
          exact ⟨t.clock, by simp [TSt.actOpts]⟩⟩
    obtain ⟨h1, h2⟩ := CProg.run_late an E hE hf _ _ h0
    rcases hy : fn.run A E { t with bound := some (t.actOpts extra), icept := ic.or t.icept } with ⟨u, o⟩
    rcases hy' : fn'.run A E { t' with bound := some (t'.actOpts extra), icept := ic'.or t'.icept }
      with ⟨u', o'⟩
    rw [hy, hy'] at h1 h2
    simp only at h1 h2
    simp only [hi.isSome]
    rcases o with (_ | e) | v | _ <;> rcases o' with (_ | e') | v' | _ <;>
      simp only [Outcome.bare, Outcome.done.injEq, Outcome.panicked.injEq, Option.some.injEq, reduceCtorEq] at h2
    · exact ⟨h1.leave ht.later.icept _, rfl⟩
    · exact ⟨h1.leave ht.later.icept _, rfl⟩
    · subst h2; exact ⟨h1.leave ht.later.icept _, rfl⟩
    · exact ⟨h1, rfl⟩
theorem CProg.run_late (an : A.AnyTime d ρ) (E : TEnv W) (hE : E.AnyTime ρ) : {p p' : CProg W} →
    CProg.Late d ρ p p' → ∀ (t t' : TSt W R), TSt.Pair d ρ t t' →
    TSt.Pair d ρ (p.run A E t).1 (p'.run A E t').1 ∧ (p'.run A E t').2.bare = (p.run A E t).2.bare
  | _, _, .ret, t, t', ht => by unfold CProg.run; exact ⟨ht, rfl⟩
  | _, _, .panic v, t, t', ht => by unfold CProg.run; exact ⟨ht, rfl⟩
  | _, _, .get h, t, t', ht => by
    unfold CProg.run
    rw [ht.w]
    exact CProg.run_late an E hE (h _) t t' ht
  | _, _, .set w h, t, t', ht => by
    unfold CProg.run
    exact CProg.run_late an E hE h _ _ (ht.world w)
  | _, _, @CProg.Late.exec _ _ _ m k k' h, t, t', ht => by
    unfold CProg.run
    obtain ⟨h1, h2⟩ := TSt.execute_late an E ht m
    rcases hy : t.execute A E m with ⟨u, o⟩
    rcases hy' : t'.execute A E m with ⟨u', o'⟩
    rw [hy, hy'] at h1 h2
    simp only at h1 h2
    rcases o with e | v | _ <;> rcases o' with e' | v' | _
    · exact CProg.run_late an E hE (h _ _ (bareOpt_eq h2)) u u' h1
    · cases e <;> cases h2
    · cases e <;> cases h2
    · cases e' <;> cases h2
    · cases h2; exact CProg.run_late an E hE (h _ _ rfl) u u' h1
    · cases h2
    · cases e' <;> cases h2
    · cases h2
    · exact ⟨h1, rfl⟩
  | _, _, @CProg.Late.act _ _ _ a a' k k' ha h, t, t', ht => by
    unfold CProg.run
    obtain ⟨h0, h00⟩ := Action.run_late an E hE ha [] nofun _ _ (ht.announce a a')
    obtain ⟨h1, h2⟩ := TSt.check_late E h0 h00
    rcases hy : TSt.check E (a.run A E [] (t.announce a)) with ⟨u, o⟩
    rcases hy' : TSt.check E (a'.run A E [] (t'.announce a')) with ⟨u', o'⟩
    rw [hy, hy'] at h1 h2
    simp only at h1 h2
    rcases o with e | v | _ <;> rcases o' with e' | v' | _
    · exact CProg.run_late an E hE (h _ _ (bareOpt_eq h2)) u u' h1
    · cases e <;> cases h2
    · cases e <;> cases h2
    · cases e' <;> cases h2
    · cases h2; exact CProg.run_late an E hE (h _ _ rfl) u u' h1
    · cases h2
    · cases e' <;> cases h2
    · cases h2
    · exact ⟨h1, rfl⟩
end

/-! ## Verdicts -/

theorem counts_later (md : Bool) (f : Fact) :
    (f.later d).counts md = (f.counts md).map (Env.later d) := by
  unfold Fact.counts
  cases md <;> cases f <;> rfl

theorem countedIn_later (md : Bool) (fs : List Fact) :
    countedIn md (fs.map (Fact.later d)) = countedIn md fs := by
  unfold countedIn
  rw [List.filterMap_map]
  induction fs with
  | nil => rfl
  | cons f fs ih =>
    have h := counts_later (d := d) md f
    simp only [List.filterMap_cons, Function.comp_apply, h]
    cases f.counts md with
    | none => exact ih
    | some e => exact congrArg (e.msg :: ·) ih

/-- **C121** for verdicts: an expectation has the same verdict on facts that happen some time later. -/
theorem C121_verdict (d : Int) (s : PScope) (fs : List Fact) (x : Expectation)
    (hu : x.Unaware s s fs (fs.map (Fact.later d))) :
    ∀ b, x.verdict s (fs.map (Fact.later d)) = .decided b ↔ x.verdict s fs = .decided b := by
  intro b
  rcases verdict_same (s := s) (s' := s) (strict := True) rfl rfl (fun _ h => h) (countedIn_later _ fs) x hu
    (fun _ _ _ h => h) with h | ⟨⟨r, h1⟩, h2⟩
  · rw [h]
  · obtain ⟨r', h2⟩ := h2 trivial
    rw [h1, h2]
    simp

theorem told_later (k : Nat) (o : TObs) : TObs.told k (o.later d) = (TObs.told k o).map (Fact.later d) := by
  cases o with
  | engine c op fs =>
    have ho : (op.later d).opts.filterMap OpOption.observerOf = op.opts.filterMap OpOption.observerOf := by
      have key : ∀ os : List OpOption, (os.map (OpOption.later d)).filterMap OpOption.observerOf =
          os.filterMap OpOption.observerOf := by
        intro os
        rw [List.filterMap_map]
        congr 1
        funext o
        cases o <;> rfl
      cases op with
      | reset => rfl
      | dispatch n m os => exact key os
      | tick n order os => exact key os
    simp only [TObs.later, TObs.told, ho, List.flatMap_map, List.map_flatMap, List.map_map]
    rfl
  | _ => rfl

theorem toldIn_bare (k : Nat) (l : List TObs) : toldIn k (l.filterMap TObs.bare) = toldIn k l := by
  unfold toldIn
  induction l with
  | nil => rfl
  | cons o l ih =>
    rw [List.flatMap_cons, ← ih, List.filterMap_cons]
    cases o <;> rfl

theorem TSt.Later.told {t t' u u' : TSt W R} (h : t.Later d ρ t') (h1 : u.Later d ρ u') {l l' : List TObs}
    (hl : u.did = t.did ++ l) (hl' : u'.did = t'.did ++ l') (k : Nat) :
    toldIn k l' = (toldIn k l).map (Fact.later d) := by
  have hd := h1.did
  rw [hl, hl', List.filterMap_append, List.filterMap_append, h.did, List.map_append] at hd
  have hd := List.append_cancel_left hd
  rw [← toldIn_bare k l', hd, ← toldIn_bare k l]
  generalize l.filterMap TObs.bare = m
  unfold toldIn
  induction m with
  | nil => rfl
  | cons o m ih => rw [List.map_cons, List.flatMap_cons, List.flatMap_cons, List.map_append, ih, told_later]

theorem Action.Late.scope {a a' : Action W} (h : Action.Late d ρ a a') (S : PScope) : a'.scope S = a.scope S := by
  cases h <;> rfl

/-! ## Statements of a test -/

/-- **C121** for `Prepare()`: it ends the same, in the same state but for the time; an error that says
that the clock would go backwards may mention another time. -/
theorem C121_prepare (an : A.AnyTime d ρ) (E : TEnv W) (hE : E.AnyTime ρ) {t t' : TSt W R}
    (ht : t.Later d ρ t') (hm : t.Modern d) {a a' : Action W} (ha : Action.Late d ρ a a') :
    (t.prepare A E a).1.Later d ρ (t'.prepare A E a').1 ∧ (t.prepare A E a).1.Modern d ∧
      (t'.prepare A E a').2.bare = (t.prepare A E a).2.bare := by
  obtain ⟨h1, h2⟩ := Action.run_late an E hE ha [] nofun _ _ ((TSt.Pair.mk ht hm).announce a a')
  obtain ⟨h3, h4⟩ := TSt.check_late E h1 h2
  exact ⟨h3.later, h3.modern, h4⟩

/-- **C121** for `Expect()`: it passes, fails or panics the same, and the predicate is told the same
facts some time later. -/
theorem C121_expect (an : A.AnyTime d ρ) (E : TEnv W) (hE : E.AnyTime ρ) (hF : E.Fair A) {t t' : TSt W R}
    (ht : t.Later d ρ t') (hm : t.Modern d) {a a' : Action W} (ha : Action.Late d ρ a a') (S : PScope)
    (c c' : RCtx) (x : Expectation) (k : Nat)
    (hu : ∀ fs, x.Unaware (a.scope S) (a.scope S) fs (fs.map (Fact.later d))) :
    (t.expect A E S (x.impl c) k a).1.Later d ρ (t'.expect A E S (x.impl c') k a').1 ∧
    (t.expect A E S (x.impl c) k a).1.Modern d ∧
    notified (t'.expect A E S (x.impl c') k a').2.1 =
      (notified (t.expect A E S (x.impl c) k a).2.1).map (Fact.later d) ∧
    (t'.expect A E S (x.impl c') k a').2.2 = (t.expect A E S (x.impl c) k a).2.2 := by
  have hp : TSt.Pair d ρ t t' := ⟨ht, hm⟩
  suffices h : TSt.Pair d ρ (t.expect A E S (x.impl c) k a).1 (t'.expect A E S (x.impl c') k a').1 ∧
      notified (t'.expect A E S (x.impl c') k a').2.1 =
        (notified (t.expect A E S (x.impl c) k a).2.1).map (Fact.later d) ∧
      (t'.expect A E S (x.impl c') k a').2.2 = (t.expect A E S (x.impl c) k a).2.2 from
    ⟨h.1.later, h.1.modern, h.2⟩
  unfold TSt.expect
  rw [ha.scope S]
  rw [show (x.impl c').caption = (x.impl c).caption from rfl]
  cases hcap : (x.impl c).caption with
  | error v => exact ⟨hp, rfl, rfl⟩
  | ok cap =>
    simp only
    have h0 : TSt.Pair d ρ (t.say (.log (a.expectLine cap))) (t'.say (.log (a'.expectLine cap))) := hp.say rfl
    rw [show (x.impl c').build (a.scope S) = (x.impl c).build (a.scope S) from rfl]
    have hbuild : (∃ p, (x.build (a.scope S)).2 = .ok p ∧ (x.impl c).build (a.scope S) = .ok p) ∨
        ∀ p, (x.impl c).build (a.scope S) ≠ .ok p := by
      rcases hx : (x.build (a.scope S)).2 with e | p
      · refine .inr fun p h => ?_
        simp only [Expectation.impl, hx] at h
        cases e <;> cases h
      · exact .inl ⟨p, rfl, by simp only [Expectation.impl, hx]⟩
    rcases hbuild with ⟨p, hp1, hp2⟩ | hno
    rotate_left
    · cases hb : (x.impl c).build (a.scope S) with
      | panic v => exact ⟨h0, rfl, rfl⟩
      | err msg => exact ⟨h0.say rfl, rfl, rfl⟩
      | ok p => exact absurd hb (hno p)
    · rw [hp2]
      simp only
      have hv : ∀ fs, p.verdict (a.scope S) (fs.map (Fact.later d)) = p.verdict (a.scope S) fs := by
        intro fs
        have hnr : ∀ (fs : List Fact) (r : BuildErr), p.verdict (a.scope S) fs ≠ .refused r := by
          intro fs r h
          unfold Pred.verdict at h
          split at h <;> cases h
        have hx : ∀ fs, x.verdict (a.scope S) fs = p.verdict (a.scope S) fs := by
          intro fs
          unfold Expectation.verdict
          rw [hp1]
          rfl
        rcases verdict_same (s := a.scope S) (s' := a.scope S) (strict := True) rfl rfl (fun _ h => h)
          (countedIn_later _ fs) x (hu fs) (fun _ _ _ h => h) with h | ⟨⟨r, h1⟩, h2⟩
        · rw [← hx, ← hx]; exact h
        · rw [hx] at h1
          exact absurd h1 (hnr _ r)
      obtain ⟨h1, h2⟩ := Action.run_late an E hE ha [.observer k] (by intro o ho; simp at ho; exact ⟨k, ho⟩) _ _ h0
      obtain ⟨l, hd, -⟩ := a.run_hist A E hF [.observer k] (t.say (.log (a.expectLine cap)))
      obtain ⟨l', hd', -⟩ := a'.run_hist A E hF [.observer k] (t'.say (.log (a'.expectLine cap)))
      have htold := h0.later.told h1.later hd hd' k
      generalize t.say (.log (a.expectLine cap)) = t0 at *
      generalize t'.say (.log (a'.expectLine cap)) = t0' at *
      rcases hx : a.run A E [.observer k] t0 with ⟨u, o⟩
      rcases hx' : a'.run A E [.observer k] t0' with ⟨u', o'⟩
      rw [hx] at h1 h2 hd
      rw [hx'] at h1 h2 hd'
      simp only at h1 h2 hd hd'
      simp only [hd, hd', List.drop_left, htold]
      generalize toldIn k l = fs
      obtain ⟨q1, q2⟩ := verdict_parts (hv fs)
      have hn : ∀ (fs : List Fact) (m : List ECall), notified (.build :: fs.map .notify ++ m) = fs ++ notified m := by
        intro fs m
        rw [List.cons_append]
        simp only [notified, List.filterMap_cons, List.filterMap_append]
        congr 1
        exact notified_map fs
      have hn0 : ∀ (fs : List Fact), notified (.build :: fs.map .notify) = fs := by
        intro fs
        have h := hn fs []
        rw [List.append_nil] at h
        rw [h]
        exact List.append_nil fs
      have hnn : ∀ m, notified m = [] → notified (.build :: (fs.map (Fact.later d)).map .notify ++ m) =
          (notified (.build :: fs.map .notify ++ m)).map (Fact.later d) := by
        intro m hm
        rw [hn, hn, hm, List.append_nil, List.append_nil]
      have hfin : (x.impl c).done (fs.foldl (fun p f => (x.impl c).notify (a.scope S) f p) p) =
          ((p.observe (a.scope S) fs).done.1, (p.observe (a.scope S) fs).done.2.map .user) := rfl
      have hfin' : (x.impl c').done ((fs.map (Fact.later d)).foldl
          (fun p f => (x.impl c').notify (a.scope S) f p) p) =
          ((p.observe (a.scope S) (fs.map (Fact.later d))).done.1,
            (p.observe (a.scope S) (fs.map (Fact.later d))).done.2.map .user) := rfl
      rw [hfin, hfin', q1]
      generalize (p.observe (a.scope S) (fs.map (Fact.later d))).done.1 = y' at *
      revert q2
      rcases (p.observe (a.scope S) fs).done with ⟨y, _ | v⟩
      · intro q2
        have q2 := q2 rfl
        rcases o with (_ | e) | v | _ <;> rcases o' with (_ | e') | v' | _ <;>
          simp only [Outcome.bare, Outcome.done.injEq, Outcome.panicked.injEq, Option.some.injEq,
            reduceCtorEq] at h2
        · simp only [Option.map_none]
          have hk : (x.impl c').ok y' = (x.impl c).ok y := congrArg Except.ok q2
          rw [hk]
          unfold TSt.conclude
          simp only [Expectation.impl]
          cases y.ok with
          | true => exact ⟨h1.say rfl, hnn _ rfl, rfl⟩
          | false => exact ⟨(h1.say rfl).say rfl, hnn _ rfl, rfl⟩
        · refine ⟨h1.say ?_, hnn _ rfl, rfl⟩
          simp only [TObs.bare, h2]; rfl
        · subst h2; exact ⟨h1, hnn _ rfl, rfl⟩
        · exact ⟨h1, by simp only [hn0], rfl⟩
      · intro _
        rcases o with e | v | _ <;> rcases o' with e' | v' | _
        · exact ⟨h1, hnn _ rfl, rfl⟩
        · cases e <;> cases h2
        · cases e <;> cases h2
        · cases e' <;> cases h2
        · exact ⟨h1, hnn _ rfl, rfl⟩
        · cases h2
        · cases e' <;> cases h2
        · cases h2
        · exact ⟨h1, by simp only [hn0], rfl⟩

/-- How a statement ended, without the description of an adjustment of the clock. -/
def TStep.bareEnd : TStep.End → TStep.End
  | .inl o => .inl o.bare
  | .inr e => .inr e

/-- The second statement is the first one, some time later; the parts of its expectation that are
written by the user do not depend on what time it is. -/
inductive TStep.Late (d : Int) (ρ : W → W) (S : PScope) : TStep W → TStep W → Prop where
  | prepare {a a' : Action W} (h : Action.Late d ρ a a') : TStep.Late d ρ S (.prepare a) (.prepare a')
  | expect (k : Nat) (x : Expectation) {a a' : Action W} (h : Action.Late d ρ a a')
      (hu : ∀ fs, x.Unaware (a.scope S) (a.scope S) fs (fs.map (Fact.later d))) :
      TStep.Late d ρ S (.expect k x a) (.expect k x a')

/-- The same for statements in order. -/
inductive AllLate (d : Int) (ρ : W → W) (S : PScope) : List (TStep W) → List (TStep W) → Prop where
  | nil : AllLate d ρ S [] []
  | cons {x x' : TStep W} {l l' : List (TStep W)} (h : TStep.Late d ρ S x x') (hl : AllLate d ρ S l l') :
      AllLate d ρ S (x :: l) (x' :: l')

theorem steps_late (an : A.AnyTime d ρ) (E : TEnv W) (hE : E.AnyTime ρ) (hF : E.Fair A) (S : PScope)
    (c c' : RCtx) {l l' : List (TStep W)} (hl : AllLate d ρ S l l') :
    ∀ t t' : TSt W R, t.Later d ρ t' → t.Modern d →
    (t.steps A E S c l).1.Later d ρ (t'.steps A E S c' l').1 ∧
    (t'.steps A E S c' l').2.map TStep.bareEnd = (t.steps A E S c l).2.map TStep.bareEnd := by
  induction hl with
  | nil => intro t t' ht _; exact ⟨ht, rfl⟩
  | @cons x x' l l' hx _ ih =>
    intro t t' ht hm
    cases hx with
    | @prepare a a' ha =>
      obtain ⟨h1, h3, h2⟩ := C121_prepare an E hE ht hm ha
      unfold TSt.steps
      rcases hp : t.prepare A E a with ⟨u, o⟩
      rcases hp' : t'.prepare A E a' with ⟨u', o'⟩
      rw [hp] at h1 h2 h3
      rw [hp'] at h1 h2
      simp only at h1 h2 h3
      rcases o with (_ | e) | v | _ <;> rcases o' with (_ | e') | v' | _ <;>
        simp only [Outcome.bare, Outcome.done.injEq, Outcome.panicked.injEq, Option.some.injEq,
          reduceCtorEq] at h2
      · obtain ⟨i1, i2⟩ := ih u u' h1 h3
        exact ⟨i1, by simp only [List.map_cons, i2]⟩
      · exact ⟨h1, by simp only [List.map_cons, TStep.bareEnd, Outcome.bare, h2, List.map_nil]⟩
      · subst h2; exact ⟨h1, rfl⟩
      · exact ⟨h1, rfl⟩
    | @expect k x a a' ha hu =>
      obtain ⟨h1, h3, -, h2⟩ := C121_expect an E hE hF ht hm ha S c c' x k hu
      unfold TSt.steps
      rcases hp : t.expect A E S (x.impl c) k a with ⟨u, n, o⟩
      rcases hp' : t'.expect A E S (x.impl c') k a' with ⟨u', n', o'⟩
      rw [hp] at h1 h2 h3
      rw [hp'] at h1 h2
      simp only at h1 h2 h3
      subst h2
      cases o' with
      | passed =>
        obtain ⟨i1, i2⟩ := ih u u' h1 h3
        exact ⟨i1, by simp only [List.map_cons, i2]⟩
      | failed => exact ⟨h1, rfl⟩
      | panicked v => exact ⟨h1, rfl⟩
      | running => exact ⟨h1, rfl⟩

/-- **C121.** A test, and the same test begun with another start time and with its times moved
accordingly: the statements end the same, up to and including the first that does not succeed, and
the engine, the clock, the executor and the record of calls of the engine, of executed commands and
of failures end up the same, but for the times. -/
theorem C121_test (an : A.AnyTime d ρ) (E : TEnv W) (hE : E.AnyTime ρ) (hF : E.Fair A) (S : PScope)
    (c c' : RCtx) {l l' : List (TStep W)} (hl : AllLate d ρ S l l') (w : W) (start : Time)
    (hs : Verif.Modern d start) (os : List OpOption) {ic ic' : Option (Message → IProg W)}
    (hi : IcLate ρ ic ic') :
    ((TSt.begin w start os ic : TSt W R).steps A E S c l).1.Later d ρ
      ((TSt.begin (ρ w) (start + d) (os.map (OpOption.later d)) ic' : TSt W R).steps A E S c' l').1 ∧
    ((TSt.begin (ρ w) (start + d) (os.map (OpOption.later d)) ic' : TSt W R).steps A E S c' l').2.map
        TStep.bareEnd =
      ((TSt.begin w start os ic : TSt W R).steps A E S c l).2.map TStep.bareEnd := by
  refine steps_late an E hE hF S c c' hl _ _ ?_ ⟨hs, init_timed w, nofun⟩
  refine ⟨rfl, rfl, ?_, rfl, hi, rfl⟩
  simp only [TSt.begin, List.map_append]
  rfl

end

/-- `ByDuration()` is the same some time later, `ToTime()` is `ToTime()` of the moved time. -/
theorem C121_adjustments (q : Quote) (d : Int) (ρ : W → W) :
    (∀ δ x, (AdjCall.byDuration δ).make q = .ok x →
      Action.Late d ρ (.advance x.desc x.step) (.advance x.desc x.step)) ∧
    (∀ t x, (AdjCall.toTime t).make q = .ok x → ∃ x', (AdjCall.toTime (t + d)).make q = .ok x' ∧
      Action.Late d ρ (.advance x.desc x.step) (.advance x'.desc x'.step)) := by
  constructor
  · intro δ x h
    unfold AdjCall.make at h
    simp only at h
    split at h
    · cases h
    · cases h
      refine .advance fun c w => ?_
      simp only [instantLater]
      rw [show c + d + δ = c + δ + d by omega]
  · intro t x h
    cases h
    exact ⟨_, rfl, .advance fun c w => rfl⟩

namespace Demo

/-- The surroundings of a test of the application with the clock. -/
def clockEnv : TEnv Int := { fuel := 40, order := fun _ => [agg, proc, int, prj] }

theorem clockEnv_fair : clockEnv.Fair clockApp := fun _ => .refl _

/-- Two hours after Go's zero time, or some time later. -/
def clockStart (d : Int) : Time := 7200000000000 + d

/-- A test: a command, five seconds pass by, a time is set, and then a time is set that has passed. -/
def clockTest (d : Int) : List (TStep Int) :=
  [.prepare (.dispatch (msgC "x")),
   .expect 7 (.type cmdD) (.advance "by 5s" fun t w => (w, .ok (t + 5000000000))),
   .expect 8 (.not (.type cmdD)) (.advance "to then" fun _ w => (w, .ok (7206000000000 + d))),
   .prepare (.advance "to before" fun _ w => (w, .ok (7201000000000 + d)))]

theorem clockTest_late (d : Int) : AllLate d (· + d) (scope false) (clockTest 0) (clockTest d) := by
  refine .cons (.prepare (.dispatch _)) (.cons (.expect _ _ (.advance fun c w => ?_) fun _ => trivial)
    (.cons (.expect _ _ (.advance fun c w => ?_) fun _ => trivial) (.cons (.prepare (.advance fun c w => ?_)) .nil)))
  · simp only [instantLater]
    rw [show c + d + 5000000000 = c + 5000000000 + d by omega]
  · simp only [instantLater, Int.add_zero]
  · simp only [instantLater, Int.add_zero]

set_option maxRecDepth 100000 in
/-- The first three statements succeed, the last one fails. -/
example : ((TSt.begin 3 (clockStart 0) [] none : TSt Int (List String)).steps clockApp clockEnv (scope false)
    ctx (clockTest 0)).2.map TStep.endCode = [0, 0, 0, 1] := by decide +kernel

/-- The theorem, for this test a year later. -/
example (c c' : RCtx) : let d : Int := 31536000000000000
    ((TSt.begin (3 + d) (clockStart d) [] none : TSt Int (List String)).steps clockApp clockEnv (scope false)
      c' (clockTest d)).2.map TStep.bareEnd =
    ((TSt.begin 3 (clockStart 0) [] none : TSt Int (List String)).steps clockApp clockEnv (scope false)
      c (clockTest 0)).2.map TStep.bareEnd :=
  (C121_test (clockApp_anyTime _) clockEnv (fun _ => rfl) clockEnv_fair (scope false) c c' (clockTest_late _)
    3 (clockStart 0) (by unfold Modern compactInterval clockStart; omega) [] .none).2

end Demo

end Verif
