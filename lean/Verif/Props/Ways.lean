import Verif.Props.Asserting

/-!
# C130: ways of executing a command

`Call()` with a function that executes a command does what `ExecuteCommand()` does, with or without an interceptor
that passes the command on.
-/

namespace Verif

variable {W R : Type}

/-! ## Specification -/

/-- The rest of a function that fails its caller if the command could not be executed. -/
def relay (f : TErr → PanicVal) : TRes → CProg W
  | .ok none => .ret
  | .ok (some e) => .panic (f e)
  | .error v => .panic v

/-- An interceptor that passes commands on. -/
def passOn (m : Message) : IProg W :=
  .next m fun
    | .ok e => .ret e
    | .error v => .panic v

/-- How such a function ends, given how executing the command ends. -/
def relayed (f : TErr → PanicVal) : Outcome (Option TErr) → Outcome (Option TErr)
  | .done none => .done none
  | .done (some e) => .panicked (f e)
  | .panicked v => .panicked v
  | .running => .running

/-- What was done to the engine, and what observers were told, is the same. -/
structure TSt.SameWork (t u v : TSt W R) : Prop where
  sys : v.sys = u.sys
  clock : v.clock = u.clock
  opts : v.opts = u.opts
  told : ∀ k, toldIn k (v.did.drop t.did.length) = toldIn k (u.did.drop t.did.length)

/-- The expectation makes no difference between actions. -/
structure Expecting.Indifferent {Q : Type} (X : Expecting Q) (S S' : PScope) : Prop where
  build : X.build S' = X.build S
  notify : ∀ f p, X.notify S' f p = X.notify S f p

/-! ## Proofs -/

section
variable {A : App W R} {E : TEnv W} {t : TSt W R}

/-- An operation, and the same operation with some other things done before it. -/
theorem engine_work (u : TSt W R) (hs : u.sys = t.sys) (hc : u.clock = t.clock) (ho : u.opts = t.opts)
    {o : TObs} (hd : u.did = t.did ++ [o]) (hn : ∀ k, o.told k = []) (op : Op) :
    TSt.SameWork t (t.engine A op).1 (u.engine A op).1 ∧ (u.engine A op).2 = (t.engine A op).2 := by
  unfold TSt.engine
  rw [hs]
  rcases op.exec A t.sys with ⟨s, x⟩
  refine ⟨⟨rfl, hc, ho, fun k => ?_⟩, rfl⟩
  simp [hd, hc, toldIn, hn]

theorem relay_run (f : TErr → PanicVal) (x : TRes) (u : TSt W R) :
    (relay f x : CProg W).run A E u = (u, match x with
      | .ok none => .done none
      | .ok (some e) => .panicked (f e)
      | .error v => .panicked v) := by
  rcases x with v | _ | e <;> rfl

theorem passOn_run (os : List OpOption) (m : Message) (u : TSt W R) :
    (passOn m : IProg W).run A E os u = u.engine A (.dispatch E.fuel m os) := by
  unfold passOn IProg.run
  rcases u.engine A (.dispatch E.fuel m os) with ⟨u, e | v | _⟩ <;> rfl

/-- **C130** for actions: executing a command in `Call()`, without interceptor or with one that passes commands on,
is executing it. -/
theorem C130_run (A : App W R) (E : TEnv W) (f : TErr → PanicVal) (m : Message) (hm : A.uses m.type = true)
    (extra : List OpOption) (t : TSt W R) (ic : Option (Message → IProg W))
    (hi : ic = some passOn ∨ ic = none ∧ (t.icept = none ∨ t.icept = some passOn)) :
    let u := (Action.dispatch m).run A E extra t
    let v := (Action.call (.exec m (relay f)) ic).run A E extra t
    t.SameWork u.1 v.1 ∧ v.2 = relayed f u.2 ∧ (v.2 ≠ .running → v.1.icept = t.icept ∧ v.1.bound = none) := by
  have hic : ic.or t.icept = none ∨ ic.or t.icept = some passOn := by
    rcases hi with rfl | ⟨rfl, h | h⟩
    · exact .inr rfl
    · exact .inl h
    · exact .inr h
  let b : TSt W R :=
    { t with bound := some (t.actOpts extra), icept := ic.or t.icept, did := t.did ++ [TObs.exec m true] }
  have hx : TSt.execute A E { t with bound := some (t.actOpts extra), icept := ic.or t.icept } m =
      b.engine A (.dispatch E.fuel m (t.actOpts extra)) := by
    unfold TSt.execute
    simp only [Option.isSome_some]
    rcases hic with h | h
    · simp only [h, b]
    · simp only [h, b, passOn_run]
  obtain ⟨h1, h2⟩ := engine_work (A := A) (t := t) b rfl rfl rfl (o := .exec m true) rfl (fun _ => rfl)
    (.dispatch E.fuel m (t.actOpts extra))
  have h3 : (b.engine A (.dispatch E.fuel m (t.actOpts extra))).1.icept = ic.or t.icept := rfl
  simp only
  unfold Action.run CProg.run
  simp only [hm, if_true]
  rw [hx]
  rcases hu : t.engine A (.dispatch E.fuel m (t.actOpts extra)) with ⟨u, o⟩
  rcases hv : b.engine A (.dispatch E.fuel m (t.actOpts extra)) with ⟨v, o'⟩
  rw [hu, hv] at h1 h2
  rw [hv] at h3
  simp only at h1 h2 h3
  subst h2
  have hl : ∀ y : TSt W R, y = v → (y.leave t.icept ic.isSome).icept = t.icept := by
    intro y hy
    subst hy
    unfold TSt.leave
    cases ic with
    | none => simpa using h3
    | some g => rfl
  have hw : t.SameWork u (v.leave t.icept ic.isSome) := ⟨h1.sys, h1.clock, h1.opts, h1.told⟩
  rcases o' with (_ | e) | x | _
  · simp only [relay_run]
    exact ⟨hw, rfl, fun _ => ⟨hl v rfl, rfl⟩⟩
  · simp only [relay_run]
    exact ⟨hw, rfl, fun _ => ⟨hl v rfl, rfl⟩⟩
  · simp only [relay_run]
    exact ⟨hw, rfl, fun _ => ⟨hl v rfl, rfl⟩⟩
  · exact ⟨h1, rfl, fun h => absurd rfl h⟩

theorem check_work (f : TErr → PanicVal) {x x' : TSt W R × Outcome (Option TErr)}
    (h : t.SameWork x.1 x'.1) (e : x'.2 = relayed f x.2) :
    (TSt.check E x').1.sys = (TSt.check E x).1.sys ∧ (TSt.check E x').1.clock = (TSt.check E x).1.clock ∧
    (TSt.check E x').1.opts = (TSt.check E x).1.opts ∧
    ((TSt.check E x').2 = .done none ↔ (TSt.check E x).2 = .done none) := by
  obtain ⟨x, o⟩ := x
  obtain ⟨x', o'⟩ := x'
  simp only at h e
  subst e
  rcases o with (_ | e) | v | _
  · exact ⟨h.sys, h.clock, h.opts, Iff.rfl⟩
  · refine ⟨h.sys, h.clock, h.opts, ?_⟩
    simp only [TSt.check, relayed]
    cases E.fatal <;> simp
  · exact ⟨h.sys, h.clock, h.opts, by simp [TSt.check, relayed]⟩
  · exact ⟨h.sys, h.clock, h.opts, by simp [TSt.check, relayed]⟩

theorem check_ways (A : App W R) (E : TEnv W) (f : TErr → PanicVal) (m : Message) (hm : A.uses m.type = true)
    {t t' : TSt W R} (ht : t.Equal t') (ic : Option (Message → IProg W))
    (hi : ic = some passOn ∨ ic = none ∧ (t.icept = none ∨ t.icept = some passOn))
    {x x' : TSt W R × Outcome (Option TErr)} (hx : (Action.dispatch m).run A E [] t = x)
    (hx' : (Action.call (.exec m (relay f)) ic).run A E [] t' = x') :
    (TSt.check E x').1.sys = (TSt.check E x).1.sys ∧ (TSt.check E x').1.clock = (TSt.check E x).1.clock ∧
    (TSt.check E x').1.opts = (TSt.check E x).1.opts ∧
    ((TSt.check E x').2 = .done none ↔ (TSt.check E x).2 = .done none) := by
  have h := C130_run A E f m hm [] t ic hi
  have hr := Action.run_near (keep_yes_exec A) E (.call (.exec m (relay f)) ic) [] [] rfl t t' (ht.near _)
  simp only at h
  rw [hx] at h
  rw [hx'] at hr
  obtain ⟨k1, k2, k3, k4⟩ := check_work (E := E) f h.1 h.2.1
  have k' := TSt.check_near E hr.1 hr.2
  exact ⟨k'.1.sys.trans k1, k'.1.clock.trans k2, k'.1.opts.trans k3, by rw [k'.2]; exact k4⟩

/-- **C130** for `Prepare()`: both leave the engine in the same state, and one succeeds iff the other does. -/
theorem C130_prepare (A : App W R) (E : TEnv W) (f : TErr → PanicVal) (m : Message) (hm : A.uses m.type = true)
    (t : TSt W R) (ic : Option (Message → IProg W))
    (hi : ic = some passOn ∨ ic = none ∧ (t.icept = none ∨ t.icept = some passOn)) :
    (t.prepare A E (.call (.exec m (relay f)) ic)).1.sys = (t.prepare A E (.dispatch m)).1.sys ∧
    (t.prepare A E (.call (.exec m (relay f)) ic)).1.clock = (t.prepare A E (.dispatch m)).1.clock ∧
    (t.prepare A E (.call (.exec m (relay f)) ic)).1.opts = (t.prepare A E (.dispatch m)).1.opts ∧
    ((t.prepare A E (.call (.exec m (relay f)) ic)).2 = .done none ↔
      (t.prepare A E (.dispatch m)).2 = .done none) := by
  unfold TSt.prepare TSt.announce
  generalize Action.prepareLine (.dispatch m : Action W) = l
  generalize Action.prepareLine (.call (.exec m (relay f)) ic : Action W) = l'
  generalize hx : (Action.dispatch m).run A E [] (t.say (.log l)) = x
  generalize hx' : (Action.call (.exec m (relay f)) ic).run A E [] (t.say (.log l')) = x'
  exact check_ways A E f m hm (TSt.Equal.say (.refl t) _ _) ic hi hx hx'

mutual
/-- Predicates have been told what to match when they were made; they do not ask again. -/
theorem Pred.notify_opts (S : PScope) (o : PredOpts) (f : Fact) : ∀ p : Pred,
    p.notify { S with opts := o } f = p.notify S f
  | .message _ | .type _ | .matching _ | .satisfy _ | .custom .. => by simp only [Pred.notify] <;> rfl
  | .composite k n ps => by simp only [Pred.notify, Pred.notifyAll_opts S o f ps]
  | .not p => by simp only [Pred.notify, Pred.notify_opts S o f p]
  | .repeatedly c ps => by simp only [Pred.notify, Pred.notifyAll_opts S o f ps]
theorem Pred.notifyAll_opts (S : PScope) (o : PredOpts) (f : Fact) : ∀ ps : List Pred,
    Pred.notifyAll { S with opts := o } f ps = Pred.notifyAll S f ps
  | [] => by simp only [Pred.notifyAll]
  | p :: ps => by simp only [Pred.notifyAll, Pred.notify_opts S o f p, Pred.notifyAll_opts S o f ps]
end

/-- This module's expectations ask only when a predicate is made. -/
theorem C130_indifferent (c : RCtx) (x : Expectation) (S : PScope) (o : PredOpts)
    (h : (x.build { S with opts := o }).2 = (x.build S).2) :
    (x.impl c).Indifferent S { S with opts := o } :=
  ⟨by simp only [Expectation.impl, h], fun f p => Pred.notify_opts S o f p⟩

/-- What comes after the action in `Expect()`. -/
theorem expect_done {Q : Type} (X : Expecting Q) (S : PScope) (k : Nat) (a : Action W) (t : TSt W R) {c : String}
    (hc : X.caption = .ok c) {p : Q} (hp : X.build (a.scope S) = .ok p) {fs : List Fact}
    {x : TSt W R × Outcome (Option TErr)} (hx : a.run A E [.observer k] (t.say (.log (a.expectLine c))) = x)
    (hf : toldIn k (x.1.did.drop (t.say (.log (a.expectLine c))).did.length) = fs) :
    (t.expect A E S X k a).1.sys = x.1.sys ∧ (t.expect A E S X k a).1.clock = x.1.clock ∧
    ((t.expect A E S X k a).2.2 = .passed ↔ x.2 = .done none ∧
      ∃ r, X.done (fs.foldl (fun p f => X.notify (a.scope S) f p) p) = (r, none) ∧ X.ok r = .ok true ∧
        ∃ y, X.report true r = .ok y) := by
  unfold TSt.expect
  simp only [hc, hp, hx, hf]
  obtain ⟨u, o⟩ := x
  simp only
  rcases X.done (fs.foldl (fun p f => X.notify (a.scope S) f p) p) with ⟨r, _ | v'⟩
  · rcases o with (_ | e) | v | _
    · simp only [TSt.conclude]
      rcases hok : X.ok r with v | b
      · exact ⟨rfl, rfl, by simp [hok]⟩
      · simp only
        cases b with
        | true =>
          rcases hr : X.report true r with v | y
          · exact ⟨rfl, rfl, by simp [hok, hr]⟩
          · exact ⟨rfl, rfl, by simp [hok, hr]⟩
        | false =>
          rcases hr : X.report false r with v | y
          · exact ⟨rfl, rfl, by simp [hok]⟩
          · exact ⟨rfl, rfl, by simp [hok]⟩
    · exact ⟨rfl, rfl, by simp⟩
    · exact ⟨rfl, rfl, by simp⟩
    · exact ⟨rfl, rfl, by simp⟩
  · rcases o with (_ | e) | v | _
    · exact ⟨rfl, rfl, by simp⟩
    · exact ⟨rfl, rfl, by simp⟩
    · exact ⟨rfl, rfl, by simp⟩
    · exact ⟨rfl, rfl, by simp⟩

/-- **C130** for `Expect()`, with an expectation that does not ask which action it is about: both leave the engine
in the same state, and one passes iff the other does. -/
theorem C130_expect {Q : Type} (A : App W R) (E : TEnv W) (f : TErr → PanicVal) (m : Message)
    (hm : A.uses m.type = true) (t : TSt W R) (ic : Option (Message → IProg W))
    (hi : ic = some passOn ∨ ic = none ∧ (t.icept = none ∨ t.icept = some passOn))
    (S : PScope) (X : Expecting Q) (k : Nat)
    (hX : X.Indifferent S { S with opts := { S.opts with matchDispatch := true } })
    {c : String} (hc : X.caption = .ok c) {p : Q} (hp : X.build S = .ok p) :
    (t.expect A E S X k (.call (.exec m (relay f)) ic)).1.sys = (t.expect A E S X k (.dispatch m)).1.sys ∧
    (t.expect A E S X k (.call (.exec m (relay f)) ic)).1.clock = (t.expect A E S X k (.dispatch m)).1.clock ∧
    ((t.expect A E S X k (.call (.exec m (relay f)) ic)).2.2 = .passed ↔
      (t.expect A E S X k (.dispatch m)).2.2 = .passed) := by
  have d := fun fs => @expect_done W R A E Q X S k (.dispatch m) t c hc p hp fs
  have d' := fun fs => @expect_done W R A E Q X S k (.call (.exec m (relay f)) ic) t c hc p (hX.build.trans hp) fs
  have hs : ∀ g q, X.notify ((Action.call (.exec m (relay f)) ic : Action W).scope S) g q =
      X.notify ((Action.dispatch m : Action W).scope S) g q := hX.notify
  generalize (Action.dispatch m : Action W).scope S = s1 at d hs
  generalize (Action.call (.exec m (relay f)) ic : Action W).scope S = s2 at d' hs
  generalize Action.expectLine (.dispatch m : Action W) c = l at d
  generalize Action.expectLine (.call (.exec m (relay f)) ic : Action W) c = l' at d'
  have h := C130_run A E f m hm [.observer k] (t.say (.log l)) ic hi
  have ht : (t.say (.log l)).Equal (t.say (.log l')) := TSt.Equal.say (.refl t) _ _
  have hr := Action.run_near (keep_yes_exec A) E (.call (.exec m (relay f)) ic) [.observer k] [.observer k] rfl
    _ _ (ht.near _)
  simp only at h
  generalize (Action.dispatch m).run A E [.observer k] (t.say (.log l)) = x at d h
  generalize (Action.call (.exec m (relay f)) ic).run A E [.observer k] (t.say (.log l)) = y at h hr
  generalize (Action.call (.exec m (relay f)) ic).run A E [.observer k] (t.say (.log l')) = y' at d' hr
  obtain ⟨n, n', e, e', hn⟩ := hr.1.did
  rw [TObs.keep_yes, TObs.keep_yes] at hn
  subst hn
  have ht1 := h.1.told k
  obtain ⟨d1, d2, d3⟩ := d _ rfl rfl
  obtain ⟨b1, b2, b3⟩ := d' (toldIn k (x.1.did.drop (t.say (.log l)).did.length)) rfl (by
    rw [← ht1, e, e', List.drop_left, List.drop_left])
  refine ⟨b1.trans (hr.1.sys.trans (h.1.sys.trans d1.symm)),
    b2.trans (hr.1.clock.trans (h.1.clock.trans d2.symm)), b3.trans (Iff.trans ?_ d3.symm)⟩
  rw [hr.2, h.2.1]
  simp only [hs]
  have : relayed f x.2 = .done none ↔ x.2 = .done none := by
    rcases x.2 with (_ | e) | v | _ <;> simp [relayed]
  rw [this]

end

/-! ## Concrete cases -/

/-- `C130_prepare` applies: a call without interceptor, and one with. -/
example (f : TErr → PanicVal) (os : List OpOption) :
    ((Demo.fresh [0] os).prepare Conc.Demo.app Demo.countingEnv (.call (.exec (Demo.msgC "a") (relay f)) none)).1.sys =
      ((Demo.fresh [0] os).prepare Conc.Demo.app Demo.countingEnv (.dispatch (Demo.msgC "a"))).1.sys ∧
    ((Demo.fresh [0] os).prepare Conc.Demo.app Demo.countingEnv
        (.call (.exec (Demo.msgC "a") (relay f)) (some passOn))).1.sys =
      ((Demo.fresh [0] os).prepare Conc.Demo.app Demo.countingEnv (.dispatch (Demo.msgC "a"))).1.sys :=
  ⟨(C130_prepare Conc.Demo.app Demo.countingEnv f (Demo.msgC "a") rfl _ none (.inr ⟨rfl, .inl rfl⟩)).1,
    (C130_prepare Conc.Demo.app Demo.countingEnv f (Demo.msgC "a") rfl _ _ (.inl rfl)).1⟩

/-- An expectation that does not ask. -/
def Demo.indifferent : Expectation :=
  .satisfy "have facts" fun fs => if fs.isEmpty then .panic (.user "none") else .ret

/-- `C130_expect` applies. -/
example (f : TErr → PanicVal) (os : List OpOption) (k : Nat) :
    ((Demo.fresh [0] os).expect Conc.Demo.app Demo.countingEnv (Demo.scope false) (Demo.indifferent.impl Demo.ctx) k
        (.call (.exec (Demo.msgC "a") (relay f)) none)).2.2 = .passed ↔
      ((Demo.fresh [0] os).expect Conc.Demo.app Demo.countingEnv (Demo.scope false) (Demo.indifferent.impl Demo.ctx) k
        (.dispatch (Demo.msgC "a"))).2.2 = .passed :=
  (C130_expect Conc.Demo.app Demo.countingEnv f (Demo.msgC "a") rfl _ none (.inr ⟨rfl, .inl rfl⟩) (Demo.scope false)
    (Demo.indifferent.impl Demo.ctx) k (C130_indifferent _ _ _ _ rfl) rfl rfl).2.2

set_option maxRecDepth 100000 in
/-- It does pass, and messages are dispatched.  An expectation that asks may not: the command itself counts in
`Call()` only. -/
example :
    let run := fun x a => (Demo.fresh [0] []).expect Conc.Demo.app Demo.countingEnv (Demo.scope false)
      (Expectation.impl Demo.ctx x) 7 a
    let call : Action (List Nat) := .call (.exec (Demo.msgC "a") (relay fun _ => .user "failed")) none
    (run Demo.indifferent call).2.2 = .passed ∧ (run Demo.indifferent (.dispatch (Demo.msgC "a"))).2.2 = .passed ∧
    (dispatchedIn (run Demo.indifferent call).1.sys.trace).length > 1 ∧
    (run (.message (Demo.msgC "a")) call).2.2 = .passed ∧
    (run (.message (Demo.msgC "a")) (.dispatch (Demo.msgC "a"))).2.2 = .failed := by decide +kernel

end Verif
