import Verif.Props.Test
import Verif.Props.Emit

/-!
# Tests as histories of the engine: C77, C78

What a test does to the engine is exactly the sequence of the operations on its record, so that
everything proved of histories of the engine (C01 - C43, C74 - C76) applies to tests.  Then: the
virtual clock and the timeouts that are pending.
-/

namespace Verif

variable {W R : Type}

/-! ## Specification -/

/-- `l` are the operations performed on the engine between two states, in order, with the facts that
became known during each; none is a `Reset()`.  In between, only the world outside of the engine
changes. -/
inductive Hist (A : App W R) (s : Sys W R) : List (Op × List Fact) → Sys W R → Prop where
  | nil : Hist A s [] s
  | world {l : List (Op × List Fact)} {s' : Sys W R} (w : W) (h : Hist A s l s') :
      Hist A s l { s' with w := w }
  | step {l : List (Op × List Fact)} {s' : Sys W R} (op : Op) (h : Hist A s l s') (hop : op.ok A)
      (hne : op ≠ .reset) :
      Hist A s (l ++ [(op, factsOf (during s' (op.exec A s').1))]) (op.exec A s').1

/-- The engine operations on the record of a test. -/
def opsOf (l : List TObs) : List (Op × List Fact) :=
  l.filterMap fun
    | .engine _ op f => some (op, f)
    | _ => none

/-- Every tick visits every handler exactly once. -/
def TEnv.Fair (E : TEnv W) (A : App W R) : Prop := ∀ w, (E.order w).Perm A.cfgs

/-! ## Proofs -/

theorem opsOf_append (a b : List TObs) : opsOf (a ++ b) = opsOf a ++ opsOf b := by
  simp [opsOf]

theorem opsOf_said {l : List TObs} (h : ∀ o ∈ l, o.isSaid = true) : opsOf l = [] := by
  unfold opsOf
  rw [List.filterMap_eq_nil_iff]
  intro o ho
  have := h o ho
  cases o <;> first | rfl | cases this

theorem Hist.reach {A : App W R} {s s' : Sys W R} {l : List (Op × List Fact)} (h : Hist A s l s')
    (hs : Reach A s) : Reach A s' := by
  induction h with
  | nil => exact hs
  | world w h ih => exact .world w ih
  | step op h hop hne ih => exact .step op ih hop

theorem Hist.trans {A : App W R} {a b c : Sys W R} {l l' : List (Op × List Fact)} (h : Hist A a l b)
    (g : Hist A b l' c) : Hist A a (l ++ l') c := by
  induction g with
  | nil => rw [List.append_nil]; exact h
  | world w g ih => exact .world w ih
  | step op g hop hne ih => rw [← List.append_assoc]; exact .step op ih hop hne

/-- The states of a test are connected by the operations on record. -/
def TSt.Hist (A : App W R) (t t' : TSt W R) : Prop :=
  ∃ l, t'.did = t.did ++ l ∧ Verif.Hist A t.sys (opsOf l) t'.sys

theorem TSt.Hist.refl (A : App W R) (t : TSt W R) : t.Hist A t := ⟨[], by simp, .nil⟩

theorem TSt.Hist.trans {A : App W R} {a b c : TSt W R} (h : a.Hist A b) (g : b.Hist A c) :
    a.Hist A c := by
  obtain ⟨l, h1, h2⟩ := h
  obtain ⟨l', g1, g2⟩ := g
  exact ⟨l ++ l', by rw [g1, h1, List.append_assoc], by rw [opsOf_append]; exact h2.trans g2⟩

theorem TSt.engine_hist (A : App W R) (t : TSt W R) (op : Op) (hop : op.ok A) (hne : op ≠ .reset) :
    t.Hist A (t.engine A op).1 := by
  refine ⟨[.engine t.clock op (factsOf (during t.sys (op.exec A t.sys).1))], rfl, ?_⟩
  exact Verif.Hist.step (l := []) op .nil hop hne

theorem IProg.run_hist (A : App W R) (E : TEnv W) (os : List OpOption) (p : IProg W) :
    ∀ t : TSt W R, t.Hist A (p.run A E os t).1 := by
  induction p with
  | ret e => intro t; exact .refl A t
  | panic v => intro t; exact .refl A t
  | get k ih => intro t; exact ih _ t
  | set w k ih =>
    intro t
    obtain ⟨l, h1, h2⟩ := ih { t with sys := { t.sys with w := w } }
    exact ⟨l, h1, Verif.Hist.trans (l := []) (.world w .nil) h2⟩
  | next m k ih =>
    intro t
    have h := t.engine_hist A (.dispatch E.fuel m os) trivial nofun
    unfold IProg.run
    rcases hx : t.engine A (.dispatch E.fuel m os) with ⟨t1, o⟩
    rw [hx] at h
    cases o with
    | done e => exact h.trans (ih _ t1)
    | panicked v => exact h.trans (ih _ t1)
    | running => exact h

theorem TSt.execute_hist (A : App W R) (E : TEnv W) (t : TSt W R) (m : Message) :
    t.Hist A (t.execute A E m).1 := by
  have h0 : t.Hist A { t with did := t.did ++ [TObs.exec m t.bound.isSome] } :=
    ⟨[.exec m t.bound.isSome], rfl, .nil⟩
  unfold TSt.execute
  simp only
  split
  · exact h0
  · split
    · exact h0.trans (IProg.run_hist ..)
    · exact h0.trans (TSt.engine_hist _ _ _ trivial nofun)

/-- What is said to the `TestingT` does nothing to the engine. -/
theorem TSt.said_hist (A : App W R) (t : TSt W R) {l : List TObs} (h : ∀ o ∈ l, o.isSaid = true) :
    t.Hist A { t with did := t.did ++ l } :=
  ⟨l, rfl, by rw [opsOf_said h]; exact .nil⟩

mutual
theorem Action.run_hist (A : App W R) (E : TEnv W) (hE : E.Fair A) : (a : Action W) →
    ∀ (extra : List OpOption) (t : TSt W R), t.Hist A (a.run A E extra t).1
  | .dispatch m, extra, t => by
    unfold Action.run
    split
    · exact t.engine_hist A _ trivial nofun
    · exact .refl A t
  | .advance desc step, extra, t => by
    unfold Action.run
    have h0 : ∀ w, t.Hist A { t with sys := { t.sys with w := w } } :=
      fun w => ⟨[], by simp, .world w .nil⟩
    rcases step t.clock t.sys.w with ⟨w, v | now⟩
    · exact h0 w
    · simp only
      split
      · exact h0 w
      · refine (h0 w).trans ?_
        obtain ⟨l, h1, h2⟩ := ({ t with sys := { t.sys with w := w }, clock := now } : TSt W R).engine_hist A
          (.tick E.fuel (E.order w) (t.actOpts extra ++ [.currentTime now])) (hE w) nofun
        exact ⟨l, h1, h2⟩
  | .call fn ic, extra, t => by
    unfold Action.run
    obtain ⟨l, h1, h2⟩ := fn.run_hist A E hE { t with bound := some (t.actOpts extra), icept := ic.or t.icept }
    rcases hx : fn.run A E { t with bound := some (t.actOpts extra), icept := ic.or t.icept }
      with ⟨t1, o⟩
    rw [hx] at h1 h2
    cases o <;> exact ⟨l, h1, h2⟩
theorem CProg.run_hist (A : App W R) (E : TEnv W) (hE : E.Fair A) : (p : CProg W) →
    ∀ (t : TSt W R), t.Hist A (p.run A E t).1
  | .ret, t => by unfold CProg.run; exact .refl A t
  | .panic v, t => by unfold CProg.run; exact .refl A t
  | .get k, t => by unfold CProg.run; exact (k t.sys.w).run_hist A E hE t
  | .set w k, t => by
    unfold CProg.run
    obtain ⟨l, h1, h2⟩ := k.run_hist A E hE { t with sys := { t.sys with w := w } }
    exact ⟨l, h1, Verif.Hist.trans (l := []) (.world w .nil) h2⟩
  | .exec m k, t => by
    unfold CProg.run
    have h := t.execute_hist A E m
    rcases hx : t.execute A E m with ⟨t1, o⟩
    rw [hx] at h
    cases o with
    | done e => exact h.trans ((k (.ok e)).run_hist A E hE t1)
    | panicked v => exact h.trans ((k (.error v)).run_hist A E hE t1)
    | running => exact h
  | .act a k, t => by
    unfold CProg.run
    have h : t.Hist A (TSt.check E (a.run A E [] (t.announce a))).1 := by
      have h := a.run_hist A E hE [] (t.announce a)
      obtain ⟨post, hs, e, -⟩ := TSt.check_spec E (a.run A E [] (t.announce a))
      rw [e]
      exact ((t.said_hist A (by simp [TObs.isSaid]) : t.Hist A (t.announce a)).trans h).trans
        (TSt.said_hist A _ hs)
    rcases hx : TSt.check E (a.run A E [] (t.announce a)) with ⟨t1, o⟩
    rw [hx] at h
    cases o with
    | done e => exact h.trans ((k (.ok e)).run_hist A E hE t1)
    | panicked v => exact h.trans ((k (.error v)).run_hist A E hE t1)
    | running => exact h
end

theorem TSt.enable_sys (A : App W R) (b : Bool) (ns : List String) : ∀ t : TSt W R,
    (t.enable A b ns).1.sys = t.sys ∧ (t.enable A b ns).1.did = t.did ∧
      (t.enable A b ns).1.clock = t.clock := by
  induction ns with
  | nil => intro t; exact ⟨rfl, rfl, rfl⟩
  | cons n ns ih =>
    intro t
    unfold TSt.enable
    split
    · exact ⟨rfl, rfl, rfl⟩
    · split
      · exact ⟨rfl, rfl, rfl⟩
      · exact ih _

/-! ## C77 -/

theorem TSt.prepare_hist {A : App W R} {E : TEnv W} (hE : E.Fair A) (t : TSt W R) (a : Action W) :
    t.Hist A (t.prepare A E a).1 := by
  obtain ⟨post, hs, e, -⟩ := TSt.check_spec E (a.run A E [] (t.announce a))
  show t.Hist A (TSt.check E (a.run A E [] (t.announce a))).1
  rw [e]
  exact ((t.said_hist A (by simp [TObs.isSaid]) : t.Hist A (t.announce a)).trans
    (a.run_hist A E hE [] _)).trans (TSt.said_hist A _ hs)

theorem TSt.expect_hist {P : Type} {A : App W R} {E : TEnv W} (hE : E.Fair A) (t : TSt W R)
    (S : PScope) (X : Expecting P) (k : Nat) (a : Action W)
    (hr : (t.expect A E S X k a).2.2 ≠ .running) : t.Hist A (t.expect A E S X k a).1 := by
  rcases t.expect_state A E S X k a hr with ⟨post, hs, e⟩ | ⟨c, post, hs, -, e⟩
  · rw [e]; exact t.said_hist A hs
  · rw [e]
    exact ((t.said_hist A (by simp [TObs.isSaid]) :
      t.Hist A (t.say (.log (a.expectLine c)))).trans (a.run_hist A E hE _ _)).trans
      (TSt.said_hist A _ hs)

/-- **C77.** The engine of a test has been through exactly the operations on the test's record, in
order, each of which made known the facts on record; the test changes it in no other way. -/
theorem C77_history {A : App W R} {E : TEnv W} (hE : E.Fair A) {t : TSt W R} (h : TReach A E t) :
    ∃ w, Hist A (Sys.init w) (opsOf t.did) t.sys := by
  induction h with
  | begin w start os ic => exact ⟨w, .nil⟩
  | world w h ih => obtain ⟨w0, ih⟩ := ih; exact ⟨w0, .world w ih⟩
  | prepare a h hr ih =>
    obtain ⟨w0, ih⟩ := ih
    obtain ⟨l, h1, h2⟩ := TSt.prepare_hist hE _ a
    exact ⟨w0, by rw [h1, opsOf_append]; exact ih.trans h2⟩
  | expect S X k a h hr ih =>
    obtain ⟨w0, ih⟩ := ih
    obtain ⟨l, h1, h2⟩ := TSt.expect_hist hE _ S X k a hr
    exact ⟨w0, by rw [h1, opsOf_append]; exact ih.trans h2⟩
  | enable b ns h ih =>
    obtain ⟨h1, h2, _⟩ := TSt.enable_sys A b ns (by assumption)
    rw [h1, h2]; exact ih
  | enableLike b pats order h ih => unfold TSt.enableLike; split <;> exact ih

/-- **C77.** Hence the state of a test's engine is one that the engine reaches by its own
operations. -/
theorem C77_reach {A : App W R} {E : TEnv W} (hE : E.Fair A) {t : TSt W R} (h : TReach A E t) :
    Reach A t.sys := by
  obtain ⟨w, h⟩ := C77_history hE h
  exact h.reach (.init w)

/-- **C77.** An action that is not finished (or a function given to `Call()` in progress) too. -/
theorem C77_action {A : App W R} {E : TEnv W} (hE : E.Fair A) {t : TSt W R} (a : Action W)
    (extra : List OpOption) : ∃ l, (a.run A E extra t).1.did = t.did ++ l ∧
      Hist A t.sys (opsOf l) (a.run A E extra t).1.sys := a.run_hist A E hE extra t

theorem Op.trace_extends {A : App W R} (wf : A.WF) {s : Sys W R} (hs : Reach A s) (op : Op)
    (hop : op.ok A) (hne : op ≠ .reset) : (op.exec A s).1.trace = s.trace ++ during s (op.exec A s).1 := by
  rcases hr : op.exec A s with ⟨s', out⟩
  cases op with
  | reset => exact absurd rfl hne
  | dispatch n m os =>
    rcases dispatch_op wf (core_reach wf hs) n m os hr with ⟨h1, _⟩ | ⟨oo, _, _, _, _, t, L, left, g, _⟩
    · subst h1; simp [during]
    · rw [(flat_during g).1.symm]; exact g.trace
  | tick n order os =>
    rcases tick_op wf (core_reach wf hs) n order hop os hr with ⟨h1, _⟩ | ⟨oo, _, t, L, left, g, _⟩
    · subst h1; simp [during]
    · rw [(flat_during g).1.symm]; exact g.trace

theorem factsOf_append (a b : List (Obs R)) : factsOf (a ++ b) = factsOf a ++ factsOf b := by
  simp [factsOf]

theorem Hist.facts {A : App W R} (wf : A.WF) {s s' : Sys W R} {l : List (Op × List Fact)}
    (h : Hist A s l s') (hs : Reach A s) : factsOf s'.trace = factsOf s.trace ++ l.flatMap Prod.snd := by
  induction h with
  | nil => simp
  | world w h ih => exact ih
  | step op h hop hne ih =>
    rw [Op.trace_extends wf (h.reach hs) op hop hne, factsOf_append, ih, List.flatMap_append]
    simp

/-- **C77.** The facts on record are all the facts that the engine made known since the beginning
of the test. -/
theorem C77_facts {A : App W R} (wf : A.WF) {E : TEnv W} (hE : E.Fair A) {t : TSt W R}
    (h : TReach A E t) : factsOf t.sys.trace = (opsOf t.did).flatMap Prod.snd := by
  obtain ⟨w, h⟩ := C77_history hE h
  have := h.facts wf (.init w)
  simpa [Sys.init, factsOf] using this

theorem Demo.tenv_fair : Demo.tenv.Fair Demo.app := fun _ => .refl _

/-- A test that begins at time 0 and dispatches a command. -/
def Demo.h1 : TSt Nat (List String) :=
  ((Action.dispatch (Demo.msgC "x")).run Demo.app Demo.tenv []
    ((TSt.begin 0 0 [] none).announce (.dispatch (Demo.msgC "x")))).1

/-- It goes on to advance the time to 5, -/
def Demo.h2 : TSt Nat (List String) :=
  ((Demo.toTime 5).run Demo.app Demo.tenv [] (Demo.h1.announce (Demo.toTime 5))).1

/-- and then to 10. -/
def Demo.h3 : TSt Nat (List String) :=
  ((Demo.toTime 10).run Demo.app Demo.tenv [] (Demo.h2.announce (Demo.toTime 10))).1

/-- Is it a `done`? -/
def isDone : Outcome (Option TErr) → Bool
  | .done none => true
  | _ => false

theorem isDone_iff {o : Outcome (Option TErr)} (h : isDone o = true) : o = .done none := by
  unfold isDone at h
  split at h
  · rfl
  · cases h

set_option maxRecDepth 100000 in
theorem Demo.h1_run : (Action.dispatch (Demo.msgC "x")).run Demo.app Demo.tenv []
    ((TSt.begin 0 0 [] none).announce (.dispatch (Demo.msgC "x"))) = (Demo.h1, .done none) :=
  Prod.ext rfl (isDone_iff (by decide +kernel))

set_option maxRecDepth 100000 in
theorem Demo.h2_run : (Demo.toTime 5).run Demo.app Demo.tenv [] (Demo.h1.announce (Demo.toTime 5)) =
    (Demo.h2, .done none) :=
  Prod.ext rfl (isDone_iff (by decide +kernel))

set_option maxRecDepth 100000 in
theorem Demo.h3_run : (Demo.toTime 10).run Demo.app Demo.tenv [] (Demo.h2.announce (Demo.toTime 10)) =
    (Demo.h3, .done none) :=
  Prod.ext rfl (isDone_iff (by decide +kernel))

theorem Demo.h3_reach : TReach Demo.app Demo.tenv Demo.h3 := by
  have go : ∀ {t t' : TSt Nat (List String)} (a : Action Nat), TReach Demo.app Demo.tenv t →
      a.run Demo.app Demo.tenv [] (t.announce a) = (t', .done none) → TReach Demo.app Demo.tenv t' := by
    intro t t' a h e
    have e' : t.prepare Demo.app Demo.tenv a = (t', .done none) := by
      unfold TSt.prepare; rw [e]; rfl
    have := h.prepare a (by rw [e']; nofun)
    rwa [e'] at this
  exact go _ (go _ (go _ (.begin 0 0 [] none) Demo.h1_run) Demo.h2_run) Demo.h3_run

set_option maxRecDepth 100000 in
example : Demo.app.WF ∧ Demo.tenv.Fair Demo.app ∧ TReach Demo.app Demo.tenv Demo.h3 ∧
    (opsOf Demo.h3.did).map (fun x => (x.1 matches .tick .., x.2.length)) =
      [(false, 21), (true, 8), (true, 18)] ∧ (factsOf Demo.h3.sys.trace).length = 47 :=
  ⟨Demo.app_wf, Demo.tenv_fair, Demo.h3_reach, by decide +kernel, by decide +kernel⟩

/-! ## C78 -/

/-- No timeout of the process handler called `name` is due at time `c`. -/
def noneDue (name : String) (c : Time) (s : Sys W R) : Prop :=
  ∀ e ∈ (s.proc name).timeouts, c < e.scheduledFor

/-- No operation leaves timeouts behind that were already due, however it ends. -/
theorem op_noneDue {A : App W R} (wf : A.WF) {s : Sys W R} (hs : Reach A s) (op : Op) (hop : op.ok A)
    (hne : op ≠ .reset) (name : String) (hd : noneDue name (op.time A s) s) :
    noneDue name (op.time A s) (op.exec A s).1 := by
  have hs' : Reach A (op.exec A s).1 := .step op hs hop
  rcases hr : op.exec A s with ⟨s', out⟩
  rw [hr] at hs'
  rcases op_flat wf hs op hop hne hr with ⟨_, _, _, h, _⟩ | ⟨oo, left, h1, g, _⟩
  · show noneDue name _ s'
    unfold noneDue; rw [h]; exact hd
  · intro e he
    have he := (C29_pending wf hs' name).1.mem_iff.1 he
    have hh : happenings s'.trace = _ := g.happens
    rw [hh] at he
    unfold pendingAfter at he
    rw [List.foldl_append] at he
    have hnow : oo.now = op.time A s := newOpOpts_now h1
    rw [← hnow]
    refine pend_all (happenedDuring s s') g.times _ (.inl ?_) e he
    intro e he
    rw [hnow]
    exact hd e ((C29_pending wf hs name).1.mem_iff.2 he)

theorem Hist.noneDue {A : App W R} (wf : A.WF) {s s' : Sys W R} {l : List (Op × List Fact)}
    (h : Hist A s l s') (hs : Reach A s) (name : String) (c : Time)
    (hc : ∀ x ∈ l, ∀ wall, engineTime x.1.opts wall = c) (hd : Verif.noneDue name c s) :
    Verif.noneDue name c s' := by
  induction h with
  | nil => exact hd
  | world w h ih => exact ih hc
  | @step l s' op h hop hne ih =>
    have ih := ih (fun x hx => hc x (by simp [hx]))
    have e : op.time A s' = c := hc _ (List.mem_append_right _ (List.mem_singleton.2 rfl)) _
    have := op_noneDue wf (h.reach hs) op hop hne name (by rw [e]; exact ih)
    rwa [e] at this

/-- **C78.** If no timeout of a process is due according to the virtual clock, then this remains so
during and after any action without `AdvanceTime()`, however the action ends. -/
theorem C78_kept {A : App W R} (wf : A.WF) {E : TEnv W} (hE : E.Fair A) {t : TSt W R}
    (hs : Reach A t.sys) (a : Action W) (ha : a.Timeless) (extra : List OpOption) (he : noTime extra)
    (ho : noTime t.opts) (name : String) (hd : noneDue name t.clock t.sys) :
    noneDue name (a.run A E extra t).1.clock (a.run A E extra t).1.sys := by
  rw [C56_only_advance A E a ha extra t]
  obtain ⟨l, h1, h2⟩ := a.run_hist A E hE extra t
  obtain ⟨l', g1, g2⟩ := C63_partial A E a ha extra t he ho
  have : l = l' := List.append_cancel_left (h1.symm.trans g1)
  subst this
  refine h2.noneDue wf hs name t.clock ?_ hd
  intro x hx
  obtain ⟨o, ho, hox⟩ := List.mem_filterMap.1 hx
  split at hox
  · cases hox; exact (g2 _ _ _ ho).2
  · cases hox

/-- **C78.** After an `AdvanceTime()` that was not cancelled (and did not panic), no timeout of a
process that took part is due according to the virtual clock. -/
theorem C78_advanced {A : App W R} (wf : A.WF) {E : TEnv W} (hE : E.Fair A) {t : TSt W R}
    (hs : Reach A t.sys) (desc : String) (step : Time → W → W × Except PanicVal Time) (extra : List OpOption)
    {t' : TSt W R} {r : Option TErr} (hr : (Action.advance desc step).run A E extra t = (t', .done r))
    (h1 : r ≠ some (.reversed desc)) (h2 : ∀ es, r = some (.engine es) → ¬ Interrupted es)
    (h : HConfig) (hm : h ∈ A.cfgs) (hp : h.htype = .process)
    (ht : takesPart (t.opts ++ extra) h = true) : noneDue h.name t'.clock t'.sys := by
  unfold Action.run at hr
  rcases hst : step t.clock t.sys.w with ⟨w, v | now⟩
  · rw [hst] at hr; cases hr
  · rw [hst] at hr
    simp only at hr
    split at hr
    · cases hr; exact absurd rfl h1
    · have hs1 : Reach A { t.sys with w := w } := .world w hs
      have hop : (Op.tick E.fuel (E.order w) (t.actOpts extra ++ [.currentTime now])).ok A := hE w
      have htp : takesPart (t.actOpts extra ++ [.currentTime now]) h = true := by
        unfold TSt.actOpts
        unfold takesPart at ht ⊢
        have e1 : ∀ (β : Type) (f : OpOption → Option β), (∀ c, f (.currentTime c) = none) →
            lastSome f (.currentTime t.clock :: t.opts ++ extra ++ [.currentTime now]) =
              lastSome f (t.opts ++ extra) := by
          intro β f hf
          have : lastSome f [.currentTime now] = none := by simp [lastSome, hf]
          rw [lastSome_append, this, List.cons_append, lastSome_cons, hf]
          simp
        rw [e1 _ _ (fun _ => rfl), e1 _ _ (fun _ => rfl)]
        exact ht
      unfold TSt.engine at hr
      simp only at hr
      rcases hx : (Op.tick E.fuel (E.order w) (t.actOpts extra ++ [.currentTime now])).exec A
        { t.sys with w := w } with ⟨s', o⟩
      rw [hx] at hr
      have key : ∀ es, o = .done es → ¬ Interrupted es → noneDue h.name now s' := by
        intro es hes hi e he
        rw [hes] at hx
        have := C31_none_left wf hs1 E.fuel (E.order w) (hE w) _ hx hi h hm hp htp e he
        have e1 : (Op.tick E.fuel (E.order w) (t.actOpts extra ++ [.currentTime now])).time A
            { t.sys with w := w } = now := by
          simp only [Op.time, Op.opts, engineTime, lastSome, List.reverse_append, List.reverse_cons,
            List.reverse_nil, List.nil_append, List.singleton_append, List.findSome?_cons,
            OpOption.timeSetting, Option.getD_some]
        rwa [e1] at this
      simp only [Prod.mk.injEq] at hr
      obtain ⟨rfl, hr⟩ := hr
      show noneDue h.name now s'
      cases o with
      | done es =>
        cases es with
        | nil =>
          refine key [] rfl ?_
          rintro (⟨c, h⟩ | ⟨c, h⟩) <;> cases h
        | cons x es => cases hr; exact key _ rfl (h2 _ rfl)
      | panicked v => cases hr
      | running => cases hr

/-- The states of a test between its actions, if `AdvanceTime()` is only used directly, always
with handler `h` enabled, and is never cancelled and never panics (other errors are allowed); other
actions may end in any way, even by a panic. -/
inductive Smooth (A : App W R) (E : TEnv W) (h : HConfig) : TSt W R → Prop where
  | begin (w : W) (start : Time) (os : List OpOption) (ic : Option (Message → IProg W))
      (ho : noTime os) : Smooth A E h (TSt.begin w start os ic)
  | world {t : TSt W R} (w : W) (ht : Smooth A E h t) : Smooth A E h { t with sys := { t.sys with w := w } }
  | act {t : TSt W R} (a : Action W) (extra : List OpOption) (ht : Smooth A E h t) (ha : a.Timeless)
      (he : noTime extra) : Smooth A E h (a.run A E extra t).1
  | advance {t t' : TSt W R} (desc : String) (step : Time → W → W × Except PanicVal Time) (extra : List OpOption)
      (r : Option TErr) (ht : Smooth A E h t) (he : takesPart (t.opts ++ extra) h = true)
      (hr : (Action.advance desc step).run A E extra t = (t', .done r))
      (hi : ∀ es, r = some (.engine es) → ¬ Interrupted es) : Smooth A E h t'
  | said {t : TSt W R} (o : TObs) (ho : o.isSaid = true) (ht : Smooth A E h t) : Smooth A E h (t.say o)
  | enable {t : TSt W R} (b : Bool) (ns : List String) (ht : Smooth A E h t) :
      Smooth A E h (t.enable A b ns).1
  | enableLike {t : TSt W R} (b : Bool) (pats : List (String → Bool)) (order : List String)
      (ht : Smooth A E h t) : Smooth A E h (t.enableLike A b pats order).1

theorem TSt.enable_noTime (A : App W R) (b : Bool) (ns : List String) : ∀ t : TSt W R,
    noTime t.opts → noTime (t.enable A b ns).1.opts := by
  induction ns with
  | nil => intro t h; exact h
  | cons n ns ih =>
    intro t h
    unfold TSt.enable
    split
    · exact h
    · split
      · exact h
      · refine ih _ ?_
        intro c hc
        rcases List.mem_append.1 hc with hc | hc
        · exact h c hc
        · simp at hc

/-- **C78.** In such a test, the pending timeouts of the handler are always in the future according
to the virtual clock: none is due and undelivered. -/
theorem C78_always {A : App W R} (wf : A.WF) {E : TEnv W} (hE : E.Fair A) {h : HConfig}
    (hm : h ∈ A.cfgs) (hp : h.htype = .process) {t : TSt W R} (ht : Smooth A E h t) :
    ∀ e ∈ (t.sys.proc h.name).timeouts, t.clock < e.scheduledFor := by
  suffices H : Reach A t.sys ∧ noTime t.opts ∧ noneDue h.name t.clock t.sys from H.2.2
  induction ht with
  | begin w start os ic ho =>
    refine ⟨.init w, ?_, nofun⟩
    intro c hc
    rcases List.mem_append.1 hc with hc | hc
    · simp at hc
    · exact ho c hc
  | world w ht ih => exact ⟨.world w ih.1, ih.2.1, ih.2.2⟩
  | act a extra ht ha he ih =>
    obtain ⟨h1, h2, h3⟩ := ih
    obtain ⟨l, g1, g2⟩ := a.run_hist A E hE extra _
    refine ⟨g2.reach h1, ?_, C78_kept wf hE h1 a ha extra he h2 h.name h3⟩
    rw [(a.run_after A E extra _).opts]; exact h2
  | said o ho ht ih => exact ih
  | @advance t t' desc step extra r ht he hr hi ih =>
    obtain ⟨h1, h2, h3⟩ := ih
    obtain ⟨l, g1, g2⟩ := (Action.advance desc step).run_hist A E hE extra t
    have g3 := ((Action.advance desc step).run_after A E extra t).opts
    rw [hr] at g2 g3
    refine ⟨g2.reach h1, by rw [show t'.opts = t.opts from g3]; exact h2, ?_⟩
    by_cases hrev : r = some (.reversed desc)
    · subst hrev
      unfold Action.run at hr
      rcases hst : step t.clock t.sys.w with ⟨w, v | now⟩
      · rw [hst] at hr; cases hr
      · rw [hst] at hr
        simp only at hr
        split at hr
        · cases hr; exact h3
        · unfold TSt.engine at hr
          simp only [Prod.mk.injEq] at hr
          obtain ⟨_, hr⟩ := hr
          split at hr <;> cases hr
    · exact C78_advanced wf hE h1 desc step extra hr hrev hi h hm hp he
  | enable b ns ht ih =>
    obtain ⟨h1, h2, h3⟩ := ih
    rename_i t
    obtain ⟨e1, _, e3⟩ := TSt.enable_sys A b ns t
    rw [e1, e3]
    exact ⟨h1, TSt.enable_noTime A b ns t h2, h3⟩
  | enableLike b pats order ht ih =>
    obtain ⟨h1, h2, h3⟩ := ih
    unfold TSt.enableLike
    split
    · refine ⟨h1, ?_, h3⟩
      intro c hc
      rcases List.mem_append.1 hc with hc | hc
      · exact h2 c hc
      · simp at hc
    · exact ⟨h1, h2, h3⟩

/-- The demo's test is such a test. -/
theorem Demo.h3_smooth : Smooth Demo.app Demo.tenv Demo.proc Demo.h2 ∧
    Smooth Demo.app Demo.tenv Demo.proc Demo.h3 := by
  have r1 : Smooth Demo.app Demo.tenv Demo.proc Demo.h1 :=
    .act _ [] (.said _ rfl (.begin 0 0 [] none nofun)) (.dispatch _) nofun
  have r2 : Smooth Demo.app Demo.tenv Demo.proc Demo.h2 :=
    .advance _ _ [] none (.said _ rfl r1) rfl Demo.h2_run nofun
  exact ⟨r2, .advance _ _ [] none (.said _ rfl r2) rfl Demo.h3_run nofun⟩

set_option maxRecDepth 100000 in
/-- A timeout for time 10 is pending at 5, and not any more at 10. -/
example : Demo.proc ∈ Demo.app.cfgs ∧ Demo.h2.clock = 5 ∧ Demo.h3.clock = 10 ∧
    (Demo.h2.sys.proc "proc").timeouts.map Env.scheduledFor = [10] ∧
    (Demo.h3.sys.proc "proc").timeouts.map Env.scheduledFor = [] :=
  ⟨by simp [Demo.app], by decide +kernel, by decide +kernel, by decide +kernel, by decide +kernel⟩

end Verif
