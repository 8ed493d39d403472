import Verif.Props.UserTold

/-!
# Tests with actions written by users, as histories of the engine (C93), and actions made of actions
(C94)
-/

namespace Verif

variable {W R : Type}

/-! ## Specification -/

/-- As `Hist`, but the engine may also have been reset. -/
inductive HistR (A : App W R) (s : Sys W R) : List (Op × List Fact) → Sys W R → Prop where
  | nil : HistR A s [] s
  | world {l : List (Op × List Fact)} {s' : Sys W R} (w : W) (h : HistR A s l s') :
      HistR A s l { s' with w := w }
  | step {l : List (Op × List Fact)} {s' : Sys W R} (op : Op) (h : HistR A s l s') (hop : op.ok A) :
      HistR A s (l ++ [(op, factsOf (during s' (op.exec A s').1))]) (op.exec A s').1

/-- The states of a test that performs actions of the user's own. -/
inductive UReach (A : App W R) (E : UEnv W) : TSt W R → Prop where
  | begin (w : W) (start : Time) (os : List OpOption) (ic : Option (Message → IProg W)) :
      UReach A E (TSt.begin w start os ic)
  | world {t : TSt W R} (w : W) (h : UReach A E t) : UReach A E { t with sys := { t.sys with w := w } }
  | prepare {t : TSt W R} (a : UAction W) (h : UReach A E t) : UReach A E (t.prepareU A E a).1
  | expect {t : TSt W R} (x : Expected) (o : Nat) (a : UAction W) (h : UReach A E t) :
      UReach A E (t.expectU A E x o a).1
  | enable {t : TSt W R} (b : Bool) (ns : List String) (h : UReach A E t) :
      UReach A E (t.enable A b ns).1
  | enableLike {t : TSt W R} (b : Bool) (pats : List (String → Bool)) (order : List String)
      (h : UReach A E t) : UReach A E (t.enableLike A b pats order).1

/-! ## Proofs -/

theorem HistR.reach {A : App W R} {s s' : Sys W R} {l : List (Op × List Fact)} (h : HistR A s l s')
    (hs : Reach A s) : Reach A s' := by
  induction h with
  | nil => exact hs
  | world w h ih => exact .world w ih
  | step op h hop ih => exact .step op ih hop

theorem HistR.trans {A : App W R} {a b c : Sys W R} {l l' : List (Op × List Fact)} (h : HistR A a l b)
    (g : HistR A b l' c) : HistR A a (l ++ l') c := by
  induction g with
  | nil => rw [List.append_nil]; exact h
  | world w g ih => exact .world w ih
  | step op g hop ih => rw [← List.append_assoc]; exact .step op ih hop

theorem Hist.withResets {A : App W R} {s s' : Sys W R} {l : List (Op × List Fact)}
    (h : Hist A s l s') : HistR A s l s' := by
  induction h with
  | nil => exact .nil
  | world w h ih => exact .world w ih
  | step op h hop hne ih => exact .step op ih hop

/-- The states of a test are connected by the operations on record. -/
def TSt.HistR (A : App W R) (t t' : TSt W R) : Prop :=
  t'.opts = t.opts ∧ ∃ l, t'.did = t.did ++ l ∧ Verif.HistR A t.sys (opsOf l) t'.sys

theorem TSt.HistR.refl (A : App W R) (t : TSt W R) : t.HistR A t := ⟨rfl, [], by simp, .nil⟩

theorem TSt.HistR.trans {A : App W R} {a b c : TSt W R} (h : a.HistR A b) (g : b.HistR A c) :
    a.HistR A c := by
  obtain ⟨h0, l, h1, h2⟩ := h
  obtain ⟨g0, l', g1, g2⟩ := g
  exact ⟨g0.trans h0, l ++ l', by rw [g1, h1, List.append_assoc],
    by rw [opsOf_append]; exact h2.trans g2⟩

theorem TSt.engine_histR (A : App W R) (t : TSt W R) (op : Op) (hop : op.ok A) :
    t.HistR A (t.engine A op).1 :=
  ⟨rfl, [.engine t.clock op (factsOf (during t.sys (op.exec A t.sys).1))], rfl,
    Verif.HistR.step (l := []) op .nil hop⟩

theorem TSt.said_histR (A : App W R) (t : TSt W R) {l : List TObs} (h : ∀ o ∈ l, o.isSaid = true) :
    t.HistR A { t with did := t.did ++ l } :=
  ⟨rfl, l, rfl, by rw [opsOf_said h]; exact .nil⟩

theorem TSt.execute_opts (A : App W R) (E : TEnv W) (t : TSt W R) (m : Message) :
    (t.execute A E m).1.opts = t.opts := by
  have h := t.execute_thru (q := fun _ => True) A E m (fun _ _ => trivial)
  exact h.opts

theorem EngCall.op_ok {A : App W R} {E : TEnv W} (hE : E.Fair A) (w : W) (c : EngCall) :
    (c.op E w).ok A := by
  cases c with
  | dispatch => exact trivial
  | tick => exact hE w
  | reset => exact trivial

theorem TSt.preparing_histR {A : App W R} (E : TEnv W) (cap : Except PanicVal String)
    (act : TSt W R → TSt W R × Outcome (Option TErr)) (t : TSt W R)
    (h : ∀ t : TSt W R, t.HistR A (act t).1) : t.HistR A (t.preparing E cap act).1 := by
  unfold TSt.preparing
  rcases cap with v | c
  · exact .refl A t
  · obtain ⟨post, hs, e, -⟩ := TSt.check_spec E (act (t.say (.log ("--- " ++ c ++ " ---"))))
    rw [e]
    exact ((t.said_histR A (by simp [TObs.isSaid]) :
      t.HistR A (t.say (.log ("--- " ++ c ++ " ---")))).trans (h _)).trans
      (TSt.said_histR A _ hs)

theorem TSt.expecting_histR {A : App W R} (S : PScope) (x : Expected) (o : Nat)
    (cap : Except PanicVal String) (conf : PredOpts → Except PanicVal PredOpts)
    (act : List OpOption → TSt W R → TSt W R × Outcome (Option TErr)) (t : TSt W R)
    (h : ∀ os, ∀ t : TSt W R, t.HistR A (act os t).1) : t.HistR A (t.expecting S x o cap conf act).1 := by
  unfold TSt.expecting
  rcases conf S.opts with v | po
  · exact .refl A t
  rcases cap with v | c
  · exact .refl A t
  rcases x.caption with v | c'
  · exact .refl A t
  simp only
  have h0 : t.HistR A (t.say (.log ("--- expect " ++ c ++ " " ++ c' ++ " ---"))) :=
    t.said_histR A (by simp [TObs.isSaid])
  rcases x.build { S with opts := po } with j | m | v
  · refine h0.trans ?_
    generalize t.say _ = t0
    obtain ⟨fs, tl, -, -, -, ⟨l, hl, e⟩, -⟩ := judge_cases (t' := (t0.judge j o (act [.observer o] t0)).1)
      (calls := (t0.judge j o (act [.observer o] t0)).2.1)
      (e := (t0.judge j o (act [.observer o] t0)).2.2) j o t0 _ rfl
    show t0.HistR A (t0.judge j o (act [.observer o] t0)).1
    rw [e]
    exact (h _ t0).trans (TSt.said_histR A _ hl)
  · exact h0.trans (TSt.said_histR A _ (by simp [TObs.isSaid]))
  · exact h0

mutual
theorem UAction.run_histR (A : App W R) (E : UEnv W) (hE : E.Fair A) : (a : UAction W) →
    ∀ (extra : List OpOption) (t : TSt W R), t.HistR A (a.run A E extra t).1
  | .mk c f act, extra, t => by
    simp only [UAction.run]
    exact (act _).run_histR A E hE t
theorem AProg.run_histR (A : App W R) (E : UEnv W) (hE : E.Fair A) : (p : AProg W) →
    ∀ t : TSt W R, t.HistR A (p.run A E t).1
  | .ret e, t => by simp only [AProg.run]; exact .refl A t
  | .panic v, t => by simp only [AProg.run]; exact .refl A t
  | .get k, t => by simp only [AProg.run]; exact (k _).run_histR A E hE t
  | .set w k, t => by
    simp only [AProg.run]
    obtain ⟨h0, l, h1, h2⟩ := k.run_histR A E hE { t with sys := { t.sys with w := w } }
    exact ⟨h0, l, h1, Verif.HistR.trans (l := []) (.world w .nil) h2⟩
  | .clock k, t => by simp only [AProg.run]; exact (k _).run_histR A E hE t
  | .setClock c k, t => by
    simp only [AProg.run]; exact k.run_histR A E hE { t with clock := c }
  | .op c k, t => by
    simp only [AProg.run]
    have h := t.engine_histR A (c.op E.toTEnv t.sys.w) (c.op_ok hE t.sys.w)
    rcases hx : t.engine A (c.op E.toTEnv t.sys.w) with ⟨t1, o⟩
    rw [hx] at h
    cases o with
    | done e => exact h.trans ((k _).run_histR A E hE t1)
    | panicked v => exact h.trans ((k _).run_histR A E hE t1)
    | running => exact h
  | .bind os k, t => by
    simp only [AProg.run]; exact k.run_histR A E hE { t with bound := some os }
  | .unbind k, t => by
    simp only [AProg.run]; exact k.run_histR A E hE { t with bound := none }
  | .intercept f k, t => by
    simp only [AProg.run]; exact (k _).run_histR A E hE { t with icept := f }
  | .exec m k, t => by
    simp only [AProg.run]
    have h : t.HistR A (t.execute A E.toTEnv m).1 := by
      obtain ⟨l, h1, h2⟩ := t.execute_hist A E.toTEnv m
      exact ⟨t.execute_opts A _ m, l, h1, h2.withResets⟩
    rcases hx : t.execute A E.toTEnv m with ⟨t1, o⟩
    rw [hx] at h
    cases o with
    | done e => exact h.trans ((k _).run_histR A E hE t1)
    | panicked v => exact h.trans ((k _).run_histR A E hE t1)
    | running => exact h
  | .prepare a k, t => by
    simp only [AProg.run]
    have h := t.preparing_histR E.toTEnv a.caption (a.run A E []) (a.run_histR A E hE [])
    rcases hx : t.preparing E.toTEnv a.caption (a.run A E []) with ⟨t1, o⟩
    rw [hx] at h
    cases o with
    | done e => exact h.trans ((k _).run_histR A E hE t1)
    | panicked v => exact h.trans ((k _).run_histR A E hE t1)
    | running => exact h
  | .expect x o a k, t => by
    simp only [AProg.run]
    have h := t.expecting_histR E.scope x o a.caption a.configure (fun os => a.run A E os)
      (fun os => a.run_histR A E hE os)
    rcases hx : t.expecting E.scope x o a.caption a.configure (fun os => a.run A E os) with ⟨t1, cs, e⟩
    rw [hx] at h
    simp only
    rcases e.back E.toTEnv with _ | r
    · exact h
    · exact h.trans ((k r).run_histR A E hE t1)
end

/-! ## C93 -/

/-- **C93.** Whatever actions a test performs, its engine has been through exactly the operations on
the test's record, in order, each of which made known the facts on record. -/
theorem C93_history {A : App W R} {E : UEnv W} (hE : E.Fair A) {t : TSt W R} (h : UReach A E t) :
    ∃ w, HistR A (Sys.init w) (opsOf t.did) t.sys := by
  induction h with
  | begin w start os ic => exact ⟨w, .nil⟩
  | world w h ih => obtain ⟨w0, ih⟩ := ih; exact ⟨w0, .world w ih⟩
  | prepare a h ih =>
    rename_i t
    obtain ⟨w0, ih⟩ := ih
    obtain ⟨-, l, h1, h2⟩ := t.preparing_histR E.toTEnv a.caption (a.run A E []) (a.run_histR A E hE [])
    exact ⟨w0, by unfold TSt.prepareU; rw [h1, opsOf_append]; exact ih.trans h2⟩
  | expect x o a h ih =>
    rename_i t
    obtain ⟨w0, ih⟩ := ih
    obtain ⟨-, l, h1, h2⟩ := t.expecting_histR E.scope x o a.caption a.configure (fun os => a.run A E os)
      (fun os => a.run_histR A E hE os)
    exact ⟨w0, by unfold TSt.expectU; rw [h1, opsOf_append]; exact ih.trans h2⟩
  | enable b ns h ih =>
    obtain ⟨h1, h2, _⟩ := TSt.enable_sys A b ns (by assumption)
    rw [h1, h2]; exact ih
  | enableLike b pats order h ih => unfold TSt.enableLike; split <;> exact ih

/-- **C93.** Hence the state of the engine is one that the engine reaches by its own operations: no
action can bring it into another one. -/
theorem C93_reach {A : App W R} {E : UEnv W} (hE : E.Fair A) {t : TSt W R} (h : UReach A E t) :
    Reach A t.sys := by
  obtain ⟨w, h⟩ := C93_history hE h
  exact h.reach (.init w)

theorem reset_trace (A : App W R) (s : Sys W R) :
    (engReset A s).1.trace = s.trace ++ during s (engReset A s).1 := by
  unfold engReset
  obtain ⟨seg, h1, -⟩ := runResetters_facts A.uc.resetters 0
    { s.emit .reset with nextID := 0, agg := fun _ _ => none, proc := fun _ => ⟨fun _ => none, []⟩ }
  have h3 : (runResetters 0 A.uc.resetters
    { s.emit .reset with
      nextID := 0, agg := fun _ _ => none, proc := fun _ => ⟨fun _ => none, []⟩ }).1.trace =
      s.trace ++ ([.reset] ++ seg) := by
    rw [h1]; simp [Sys.emit]
  rw [during_seg h3]
  exact h3

theorem HistR.facts {A : App W R} (wf : A.WF) {s s' : Sys W R} {l : List (Op × List Fact)}
    (h : HistR A s l s') (hs : Reach A s) : factsOf s'.trace = factsOf s.trace ++ l.flatMap Prod.snd := by
  induction h with
  | nil => simp
  | world w h ih => exact ih
  | step op h hop ih =>
    have ht : ∀ s', Reach A s' → (op.exec A s').1.trace = s'.trace ++ during s' (op.exec A s').1 := by
      intro s' hs'
      by_cases hne : op = .reset
      · subst hne; exact reset_trace A s'
      · exact Op.trace_extends wf hs' op hop hne
    rw [ht _ (h.reach hs), factsOf_append, ih, List.flatMap_append]
    simp

/-- **C93.** The facts on record are all the facts that the engine made known since the beginning
of the test, resets or not. -/
theorem C93_facts {A : App W R} (wf : A.WF) {E : UEnv W} (hE : E.Fair A) {t : TSt W R}
    (h : UReach A E t) : factsOf t.sys.trace = (opsOf t.did).flatMap Prod.snd := by
  obtain ⟨w, h⟩ := C93_history hE h
  have := h.facts wf (.init w)
  simpa [Sys.init, factsOf] using this

/-! ## C94 -/

/-- An action made of two: `Do()` of the first with the scope that it was given, and then, unless that
fails, `Do()` of the second one with the same scope. -/
def UAction.seq (c : String) (a b : UAction W) : UAction W := .mk (.ok c) .ok fun os =>
  (a.act os).andThen fun
    | .ok none => b.act os
    | .ok (some e) => .ret (some e)
    | .error v => .panic v

/-- The same states, up to what was said to the `TestingT`. -/
structure TSt.Alike (t t' : TSt W R) : Prop where
  sys : t.sys = t'.sys
  clock : t.clock = t'.clock
  opts : t.opts = t'.opts
  bound : t.bound = t'.bound
  icept : t.icept = t'.icept
  did : t.did.filter (fun o => !o.isSaid) = t'.did.filter (fun o => !o.isSaid)

theorem TSt.Alike.pasts {t t' : TSt W R} (h : t.Alike t') : ∃ u d d', t = TSt.past d u ∧
    t' = TSt.past d' u ∧ d.filter (fun o => !o.isSaid) = d'.filter (fun o => !o.isSaid) := by
  refine ⟨{ t with did := [] }, t.did, t'.did, by simp [TSt.past], ?_, h.did⟩
  obtain ⟨s, c, o, b, i, d⟩ := t
  obtain ⟨s', c', o', b', i', d'⟩ := t'
  obtain ⟨rfl, rfl, rfl, rfl, rfl, -⟩ := h
  simp [TSt.past]

theorem TSt.past_alike (u : TSt W R) {d d' : List TObs}
    (h : d.filter (fun o => !o.isSaid) = d'.filter (fun o => !o.isSaid)) :
    (u.past d).Alike (u.past d') :=
  ⟨rfl, rfl, rfl, rfl, rfl, by simp [TSt.past, h]⟩

theorem AProg.run_alike (A : App W R) (E : UEnv W) (p : AProg W) {t t' : TSt W R} (h : t.Alike t') :
    (p.run A E t).1.Alike (p.run A E t').1 ∧ (p.run A E t).2 = (p.run A E t').2 := by
  obtain ⟨u, d, d', rfl, rfl, hd⟩ := h.pasts
  rw [p.run_past, p.run_past]
  exact ⟨TSt.past_alike _ hd, rfl⟩

theorem TSt.Alike.symm {t t' : TSt W R} (h : t.Alike t') : t'.Alike t :=
  ⟨h.sys.symm, h.clock.symm, h.opts.symm, h.bound.symm, h.icept.symm, h.did.symm⟩

theorem TSt.Alike.trans {a b c : TSt W R} (h : a.Alike b) (g : b.Alike c) : a.Alike c :=
  ⟨h.sys.trans g.sys, h.clock.trans g.clock, h.opts.trans g.opts, h.bound.trans g.bound,
    h.icept.trans g.icept, h.did.trans g.did⟩

theorem TSt.said_alike (t : TSt W R) {l : List TObs} (h : ∀ o ∈ l, o.isSaid = true) :
    t.Alike { t with did := t.did ++ l } := by
  refine ⟨rfl, rfl, rfl, rfl, rfl, ?_⟩
  have : l.filter (fun o => !o.isSaid) = [] := List.filter_eq_nil_iff.2 fun o ho => by simp [h o ho]
  rw [List.filter_append, this, List.append_nil]

theorem TSt.check_alike (E : TEnv W) {r r' : TSt W R × Outcome (Option TErr)} (h : r.1.Alike r'.1)
    (e : r.2 = r'.2) : (TSt.check E r).1.Alike (TSt.check E r').1 ∧
      (TSt.check E r).2 = (TSt.check E r').2 := by
  constructor
  · obtain ⟨p, hp, h1, -⟩ := TSt.check_spec E r
    obtain ⟨p', hp', h1', -⟩ := TSt.check_spec E r'
    rw [h1, h1']
    exact ((r.1.said_alike hp).symm.trans h).trans (r'.1.said_alike hp')
  · obtain ⟨t, o⟩ := r
    obtain ⟨t', o'⟩ := r'
    cases e
    rcases o with (_ | _) | _ | _ <;> rfl

theorem prepareU_done {A : App W R} {E : UEnv W} {ca : String} {a : UAction W}
    (ha : a.caption = .ok ca) {t t1 : TSt W R} (h : t.prepareU A E a = (t1, .done none)) :
    a.run A E [] (t.say (.log ("--- " ++ ca ++ " ---"))) = (t1, .done none) := by
  unfold TSt.prepareU TSt.preparing at h
  rw [ha] at h
  simp only at h
  revert h
  rcases a.run A E [] (t.say (.log ("--- " ++ ca ++ " ---"))) with ⟨t2, (_ | e) | v | _⟩
  · exact id
  · unfold TSt.check
    rcases E.fatal with _ | v
    · intro h; cases h
    · intro h; cases h
  · intro h; cases h
  · intro h; cases h

theorem seq_run (A : App W R) (E : UEnv W) (c : String) (a b : UAction W) (t : TSt W R) :
    (UAction.seq c a b).run A E [] t =
      match (a.act (t.actOpts [])).run A E t with
      | (t', .done none) => (b.act (t.actOpts [])).run A E t'
      | r => r := by
  rw [UAction.run_eq]
  show (AProg.andThen _ (a.act (t.actOpts []))).run A E t = _
  rw [AProg.run_andThen]
  rcases (a.act (t.actOpts [])).run A E t with ⟨t2, (_ | e) | v | _⟩
  · rfl
  · simp only [AProg.run]
  · simp only [AProg.run]
  · rfl

/-- **C94.** An action made of two is the two one after the other, up to what is said to the
`TestingT`, if the first leaves the virtual clock alone.  Missing: first actions that change the
virtual clock; for those it is false (`C94_fails`). -/
theorem C94_partial (A : App W R) (E : UEnv W) (hE : E.Fair A) (c ca cb : String) (a b : UAction W)
    (ha : a.caption = .ok ca) (hb : b.caption = .ok cb) (t : TSt W R) {t1 : TSt W R}
    (h : t.prepareU A E a = (t1, .done none)) (hc : t1.clock = t.clock) :
    (t.prepareU A E (.seq c a b)).1.Alike (t1.prepareU A E b).1 ∧
    (t.prepareU A E (.seq c a b)).2 = (t1.prepareU A E b).2 := by
  have hr := prepareU_done ha h
  have ho : t1.opts = t.opts := by
    have := (a.run_histR A E hE [] (t.say (.log ("--- " ++ ca ++ " ---")))).1
    rw [hr] at this
    exact this
  have hx : t1.actOpts [] = t.actOpts [] := by unfold TSt.actOpts; rw [ho, hc]
  have hs : ∀ (t : TSt W R) s s', (t.say (.log s)).Alike (t.say (.log s')) := fun t s s' =>
    (t.said_alike (l := [.log s]) (by simp [TObs.isSaid])).symm.trans
      (t.said_alike (l := [.log s']) (by simp [TObs.isSaid]))
  unfold TSt.prepareU TSt.preparing
  rw [hb]
  show (TSt.check E.toTEnv ((UAction.seq c a b).run A E [] (t.say (.log ("--- " ++ c ++ " ---"))))).1.Alike
      (TSt.check E.toTEnv (b.run A E [] (t1.say (.log ("--- " ++ cb ++ " ---"))))).1 ∧
    (TSt.check E.toTEnv ((UAction.seq c a b).run A E [] (t.say (.log ("--- " ++ c ++ " ---"))))).2 =
      (TSt.check E.toTEnv (b.run A E [] (t1.say (.log ("--- " ++ cb ++ " ---"))))).2
  have key : ((UAction.seq c a b).run A E [] (t.say (.log ("--- " ++ c ++ " ---")))).1.Alike
      (b.run A E [] (t1.say (.log ("--- " ++ cb ++ " ---")))).1 ∧
      ((UAction.seq c a b).run A E [] (t.say (.log ("--- " ++ c ++ " ---")))).2 =
      (b.run A E [] (t1.say (.log ("--- " ++ cb ++ " ---")))).2 := by
    rw [seq_run, b.run_eq]
    rw [a.run_eq] at hr
    have h1 := (a.act (t.actOpts [])).run_alike A E
      (hs t ("--- " ++ c ++ " ---") ("--- " ++ ca ++ " ---"))
    rw [show (t.say (.log ("--- " ++ ca ++ " ---"))).actOpts [] = t.actOpts [] from rfl] at hr
    rw [hr] at h1
    rw [show (t.say (.log ("--- " ++ c ++ " ---"))).actOpts [] = t.actOpts [] from rfl,
      show (t1.say (.log ("--- " ++ cb ++ " ---"))).actOpts [] = t.actOpts [] from hx]
    revert h1
    rcases (a.act (t.actOpts [])).run A E (t.say (.log ("--- " ++ c ++ " ---"))) with ⟨t2, o⟩
    rintro ⟨h1, h2⟩
    cases h2
    exact (b.act (t.actOpts [])).run_alike A E
      (h1.trans (t1.said_alike (l := [.log ("--- " ++ cb ++ " ---")]) (by simp [TObs.isSaid])))
  exact TSt.check_alike E.toTEnv key.1 key.2

/-- **C94.** If the first action fails, so does the whole, and the second is not begun. -/
theorem C94_failed (A : App W R) (E : UEnv W) (c ca : String) (a b : UAction W)
    (ha : a.caption = .ok ca) (t : TSt W R) (h : (t.prepareU A E a).2 ≠ .done none) :
    (t.prepareU A E (.seq c a b)).1.Alike (t.prepareU A E a).1 ∧
    (t.prepareU A E (.seq c a b)).2 = (t.prepareU A E a).2 := by
  have hs : ∀ (t : TSt W R) s s', (t.say (.log s)).Alike (t.say (.log s')) := fun t s s' =>
    (t.said_alike (l := [.log s]) (by simp [TObs.isSaid])).symm.trans
      (t.said_alike (l := [.log s']) (by simp [TObs.isSaid]))
  unfold TSt.prepareU TSt.preparing at h ⊢
  rw [ha] at h ⊢
  show (TSt.check E.toTEnv ((UAction.seq c a b).run A E [] (t.say (.log ("--- " ++ c ++ " ---"))))).1.Alike
      (TSt.check E.toTEnv (a.run A E [] (t.say (.log ("--- " ++ ca ++ " ---"))))).1 ∧
    (TSt.check E.toTEnv ((UAction.seq c a b).run A E [] (t.say (.log ("--- " ++ c ++ " ---"))))).2 =
      (TSt.check E.toTEnv (a.run A E [] (t.say (.log ("--- " ++ ca ++ " ---"))))).2
  have h1 := (a.act (t.actOpts [])).run_alike A E
    (hs t ("--- " ++ c ++ " ---") ("--- " ++ ca ++ " ---"))
  have h' : (a.run A E [] (t.say (.log ("--- " ++ ca ++ " ---")))).2 ≠ .done none := by
    intro e
    apply h
    revert e
    simp only
    rcases a.run A E [] (t.say (.log ("--- " ++ ca ++ " ---"))) with ⟨t2, o⟩
    intro e
    cases e
    rfl
  rw [seq_run, a.run_eq] at *
  rw [show (t.say (.log ("--- " ++ ca ++ " ---"))).actOpts [] = t.actOpts [] from rfl,
    show (t.say (.log ("--- " ++ c ++ " ---"))).actOpts [] = t.actOpts [] from rfl] at *
  rw [← h1.2] at h'
  have key : (match (a.act (t.actOpts [])).run A E (t.say (.log ("--- " ++ c ++ " ---"))) with
      | (t', .done none) => (b.act (t.actOpts [])).run A E t'
      | r => r) = (a.act (t.actOpts [])).run A E (t.say (.log ("--- " ++ c ++ " ---"))) := by
    revert h'
    rcases (a.act (t.actOpts [])).run A E (t.say (.log ("--- " ++ c ++ " ---"))) with ⟨t2, (_ | e) | v | _⟩
    · intro h'; exact absurd rfl h'
    · intro _; rfl
    · intro _; rfl
    · intro _; rfl
  rw [key]
  exact TSt.check_alike E.toTEnv h1.1 h1.2

/-! ## Examples -/

theorem Demo.uenv_fair : Demo.uenv.Fair Demo.app := fun _ => .refl _

/-- A test that performs the user's action, once with an expectation, and dispatches a command. -/
def Demo.u3 : TSt Nat (List String) :=
  (((Demo.t0.expectU Demo.app Demo.uenv (Demo.expected (.type Demo.evtE)) 7 Demo.mine).1.prepareU
    Demo.app Demo.uenv Demo.mine).1.prepareU Demo.app Demo.uenv
      ((Action.dispatch (Demo.msgC "x")).asUser Demo.app)).1

theorem Demo.u3_reach : UReach Demo.app Demo.uenv Demo.u3 :=
  (((UReach.begin 0 100 [] none).expect _ _ _).prepare _).prepare _

set_option maxRecDepth 100000 in
example : Demo.app.WF ∧ Demo.uenv.Fair Demo.app ∧ UReach Demo.app Demo.uenv Demo.u3 ∧
    (opsOf Demo.u3.did).map (fun x => (x.1 matches .reset, x.2.length)) =
      [(false, 8), (false, 31), (false, 30), (true, 0), (false, 8), (false, 31), (false, 30), (true, 0),
       (false, 31)] ∧ (factsOf Demo.u3.sys.trace).length = 169 :=
  ⟨Demo.app_wf, Demo.uenv_fair, Demo.u3_reach, by decide +kernel, by decide +kernel⟩

/-- Dispatches a command with the options of its scope. -/
def Demo.sends (s : String) : UAction Nat := .mk (.ok "sending") .ok fun os =>
  .op (.dispatch (Demo.msgC s) os) .ofRes

set_option maxRecDepth 100000 in
example : (Demo.sends "x").caption = .ok "sending" ∧
    Demo.t0.prepareU Demo.app Demo.uenv (Demo.sends "x") =
      ((Demo.t0.prepareU Demo.app Demo.uenv (Demo.sends "x")).1, .done none) ∧
    (Demo.t0.prepareU Demo.app Demo.uenv (Demo.sends "x")).1.clock = Demo.t0.clock ∧
    (Demo.t0.prepareU Demo.app Demo.uenv (.seq "both" (Demo.sends "x") (Demo.sends "y"))).1.sys.nextID = 10 :=
  ⟨rfl, Prod.ext rfl (isDone_iff (by decide +kernel)), by decide +kernel, by decide +kernel⟩

/-- The engine times of the operations on record. -/
def Demo.timesOf (t : TSt Nat (List String)) : List (Bool × Time) :=
  (opsOf t.did).map fun x => (x.1 matches .tick .., engineTime x.1.opts 0)

set_option maxRecDepth 100000 in
/-- **C94.** If the first action changes the virtual clock the claim is false: of an action made of
`AdvanceTime()` and one that dispatches a command with the options of its scope, the command is
dispatched at the time at which the whole began. -/
theorem C94_fails :
    let adv := (Demo.toTime 500).asUser Demo.app
    let t1 := (Demo.t0.prepareU Demo.app Demo.uenv adv).1
    Demo.timesOf (t1.prepareU Demo.app Demo.uenv (Demo.sends "x")).1 = [(true, 500), (false, 500)] ∧
    Demo.timesOf (Demo.t0.prepareU Demo.app Demo.uenv (.seq "both" adv (Demo.sends "x"))).1 =
      [(true, 500), (false, 100)] ∧
    ¬ (Demo.t0.prepareU Demo.app Demo.uenv (.seq "both" adv (Demo.sends "x"))).1.Alike
      (t1.prepareU Demo.app Demo.uenv (Demo.sends "x")).1 := by
  have h1 : Demo.timesOf ((Demo.t0.prepareU Demo.app Demo.uenv
      ((Demo.toTime 500).asUser Demo.app)).1.prepareU Demo.app Demo.uenv (Demo.sends "x")).1 =
      [(true, 500), (false, 500)] := by decide +kernel
  have h2 : Demo.timesOf (Demo.t0.prepareU Demo.app Demo.uenv
      (.seq "both" ((Demo.toTime 500).asUser Demo.app) (Demo.sends "x"))).1 =
      [(true, 500), (false, 100)] := by decide +kernel
  refine ⟨h1, h2, fun h => ?_⟩
  have hf : ∀ l : List TObs, opsOf (l.filter (fun o => !o.isSaid)) = opsOf l := by
    intro l
    unfold opsOf
    rw [List.filterMap_filter]
    congr 1
    funext o
    cases o <;> rfl
  have := congrArg opsOf h.did
  rw [hf, hf] at this
  unfold Demo.timesOf at h1 h2
  rw [this, h1] at h2
  revert h2
  decide

end Verif
