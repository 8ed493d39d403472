import Verif.Notified
import Verif.Props.UserAction
import Verif.Props.Watched

/-!
# C112: predicates whose `Notify()` panics
-/

namespace Verif

variable {W R : Type}

/-! ## Parts of records -/

/-- The facts up to the first on which `Notify()` panics, and the panic; `pre` are the facts before. -/
def factsUpTo (N : List Fact → Fact → Option PanicVal) :
    List Fact → List Fact → List Fact × Option PanicVal
  | _, [] => ([], none)
  | pre, f :: fs =>
    match N pre f with
    | some v => ([f], some v)
    | none => (f :: (factsUpTo N (pre ++ [f]) fs).1, (factsUpTo N (pre ++ [f]) fs).2)

/-- An entry of the record, up to the first fact on which the `Notify()` of `k` panics. -/
def TObs.upTo (k : Nat) (N : List Fact → Fact → Option PanicVal) (pre : List Fact) :
    TObs → TObs × Option PanicVal
  | .engine c op fs =>
    if op.heardBy k then (.engine c op (factsUpTo N pre fs).1, (factsUpTo N pre fs).2)
    else (.engine c op fs, none)
  | o => (o, none)

/-- A record up to the first fact on which the `Notify()` of `k` panics, and the panic. -/
def recordUpTo (k : Nat) (N : List Fact → Fact → Option PanicVal) :
    List Fact → List TObs → List TObs × Option PanicVal
  | _, [] => ([], none)
  | pre, o :: l =>
    match o.upTo k N pre with
    | (o', some v) => ([o'], some v)
    | (_, none) =>
      (o :: (recordUpTo k N (pre ++ o.heard k) l).1, (recordUpTo k N (pre ++ o.heard k) l).2)

theorem recordUpTo_append (k : Nat) (N : List Fact → Fact → Option PanicVal) (a b : List TObs) :
    ∀ pre, recordUpTo k N pre (a ++ b) =
      match (recordUpTo k N pre a).2 with
      | some v => ((recordUpTo k N pre a).1, some v)
      | none => (a ++ (recordUpTo k N (pre ++ a.flatMap (TObs.heard k)) b).1,
          (recordUpTo k N (pre ++ a.flatMap (TObs.heard k)) b).2) := by
  induction a with
  | nil => intro pre; simp [recordUpTo]
  | cons o a ih =>
    intro pre
    rw [List.cons_append, recordUpTo, recordUpTo]
    rcases ho : o.upTo k N pre with ⟨o', _ | v⟩
    · dsimp only
      rw [ih]
      rcases hz : recordUpTo k N (pre ++ o.heard k) a with ⟨z, _ | v⟩ <;>
        simp [List.append_assoc]
    · rfl

/-- Nothing is told, so nothing panics. -/
theorem recordUpTo_deaf (k : Nat) (N : List Fact → Fact → Option PanicVal) (l : List TObs)
    (h : ∀ c op fs, .engine c op fs ∈ l → op.heardBy k = false) :
    ∀ pre, recordUpTo k N pre l = (l, none) := by
  induction l with
  | nil => intro pre; rfl
  | cons o l ih =>
    intro pre
    have ho : o.upTo k N pre = (o, none) := by
      cases o with
      | engine c op fs => simp [TObs.upTo, h c op fs (by simp)]
      | _ => rfl
    rw [recordUpTo, ho]
    dsimp only
    rw [ih (fun c op fs hm => h c op fs (List.mem_cons_of_mem _ hm))]

theorem Hearer.before_append {M : Hearer} {t t1 : TSt W R} {seg : List TObs} (hn : M.n ≤ t.did.length)
    (h : t1.did = t.did ++ seg) : M.before t1 = M.before t ++ seg.flatMap (TObs.heard M.k) := by
  unfold Hearer.before
  rw [h, List.drop_append_of_le_length hn, List.flatMap_append]

theorem factsUpTo_trace (M : Hearer) (t : TSt W R) (op : Op) (h : op.heardBy M.k = true)
    (l : List (Obs R)) : ∀ done : List (Obs R),
    factsUpTo M.N (M.before t ++ factsOf done) (factsOf l) =
      (factsOf (upToPanic (M.during t op) (t.sys.trace ++ done) l).1,
        (upToPanic (M.during t op) (t.sys.trace ++ done) l).2) := by
  induction l with
  | nil => intro done; rfl
  | cons o l ih =>
    intro done
    rw [upToPanic]
    have ih := ih (done ++ [o])
    rw [← List.append_assoc] at ih
    cases o with
    | fact f =>
      have hp : (M.during t op).at (t.sys.trace ++ done) (.fact f) = M.N (M.before t ++ factsOf done) f := by
        unfold PanicsOn.at Hearer.during
        simp [h]
      have e1 : factsOf (.fact f :: l) = f :: factsOf l := rfl
      have e2 : factsOf (done ++ [.fact f]) = factsOf done ++ [f] := by simp [factsOf]
      rw [hp, e1, factsUpTo]
      cases M.N (M.before t ++ factsOf done) f with
      | some v => rfl
      | none =>
        rw [e2, ← List.append_assoc] at ih
        dsimp only
        rw [ih]
        rfl
    | call c =>
      have e2 : factsOf (done ++ [.call c]) = factsOf done := by simp [factsOf]
      rw [e2] at ih
      exact ih
    | reset =>
      have e2 : factsOf (done ++ [.reset]) = factsOf done := by simp [factsOf]
      rw [e2] at ih
      exact ih

theorem upToPanic_never (P : PanicsOn R) (h : ∀ tr f, P tr f = none) (l : List (Obs R)) :
    ∀ tr, (upToPanic P tr l).2 = none := by
  induction l with
  | nil => intro tr; rfl
  | cons o l ih =>
    intro tr
    have : P.at tr o = none := by cases o <;> simp [PanicsOn.at, h]
    rw [upToPanic, this]
    exact ih _

/-! ## Following the run without panics -/

theorem Lets.strict {A : App W R} {M : Hearer} (h : Lets A M.N) (t : TSt W R) (op : Op) :
    Strict A (M.during t op) :=
  ⟨fun tr f v hv => (by
    unfold Hearer.during at hv
    split at hv
    · exact h.value _ _ _ hv
    · cases hv), h.code.parallel, h.code.agg, h.code.proc, h.code.int, h.code.prj, h.code.compact⟩

/-- More was observed later on. -/
def TSt.Longer (t t' : TSt W R) : Prop := ∃ more, t'.sys.trace = t.sys.trace ++ more

theorem TSt.Longer.trans {a b c : TSt W R} (h : a.Longer b) (g : b.Longer c) : a.Longer c := by
  obtain ⟨m, hm⟩ := h
  obtain ⟨n, hn⟩ := g
  exact ⟨m ++ n, by rw [hn, hm, List.append_assoc]⟩

/-- `u` is where what led to `t` stopped, in the middle of the last entry of `l`. -/
def TSt.StoppedAt (l : List TObs) (u t : TSt W R) : Prop :=
  (∃ ct op fs f tr, l.getLast? = some (.engine ct op (fs ++ [f])) ∧ u.clock = ct ∧
    u.sys.trace = tr ++ [.fact f]) ∧ u.Longer t

/-- `r` is what happens without panics of `Notify()`, from `t`; `rN` what happens with them. -/
def Follow1 (M : Hearer) (st : Prop) (t : TSt W R) (r rN : TSt W R × Outcome (Option TErr)) : Prop :=
  t.Longer r.1 ∧
  ∃ seg, r.1.did = t.did ++ seg ∧ ((recordUpTo M.k M.N (M.before t) seg).2 = none → rN = r) ∧
    ∀ l v, recordUpTo M.k M.N (M.before t) seg = (l, some v) → st →
      rN.1.did = t.did ++ l ∧ rN.2 = .panicked v ∧ TSt.StoppedAt l rN.1 r.1

theorem Follow1.same {M : Hearer} {st : Prop} {t : TSt W R} {r : TSt W R × Outcome (Option TErr)}
    (h : r.1.did = t.did) (h' : r.1.sys.trace = t.sys.trace) : Follow1 M st t r r :=
  ⟨⟨[], by simp [h']⟩, [], by simp [h], fun _ => rfl, by intro l v h; simp [recordUpTo] at h⟩

theorem Follow1.weaken {M : Hearer} {st st' : Prop} {t : TSt W R}
    {r rN : TSt W R × Outcome (Option TErr)} (h : Follow1 M st t r rN) (hst : st' → st) :
    Follow1 M st' t r rN := by
  obtain ⟨h0, seg, h1, h2, h3⟩ := h
  exact ⟨h0, seg, h1, h2, fun l v h s => h3 l v h (hst s)⟩

/-- First something during which nothing panics. -/
theorem Follow1.after {M : Hearer} {st : Prop} {t t1 : TSt W R} {seg : List TObs}
    {r rN : TSt W R × Outcome (Option TErr)} (hn : M.n ≤ t.did.length) (hd : t1.did = t.did ++ seg)
    (hq : (recordUpTo M.k M.N (M.before t) seg).2 = none) (hl : t.Longer t1) (h : Follow1 M st t1 r rN) :
    Follow1 M st t r rN := by
  obtain ⟨h0, seg', h1, h2, h3⟩ := h
  rw [Hearer.before_append hn hd] at h2 h3
  refine ⟨hl.trans h0, seg ++ seg', by rw [h1, hd, List.append_assoc], ?_, ?_⟩
  · intro h
    rw [recordUpTo_append, hq] at h
    exact h2 h
  · intro l v h s
    rw [recordUpTo_append, hq] at h
    dsimp only at h
    obtain ⟨rfl, hv⟩ := Prod.mk.inj h
    obtain ⟨e1, e2, ⟨ct, op, fs, f, tr, e3, e4⟩, e5⟩ := h3 _ v (Prod.ext rfl hv) s
    refine ⟨by rw [e1, hd, List.append_assoc], e2, ⟨ct, op, fs, f, tr, ?_, e4⟩, e5⟩
    rw [List.getLast?_append, e3]
    rfl

/-- What is done with a result, by code that may recover. -/
def resume (K : TRes → TSt W R → TSt W R × Outcome (Option TErr)) :
    TSt W R × Outcome (Option TErr) → TSt W R × Outcome (Option TErr)
  | (t, .done e) => K (.ok e) t
  | (t, .panicked v) => K (.error v) t
  | (t, .running) => (t, .running)

theorem Follow1.resume {M : Hearer} {st : Prop} {t : TSt W R}
    {r rN : TSt W R × Outcome (Option TErr)}
    {K KN : TRes → TSt W R → TSt W R × Outcome (Option TErr)} (hn : M.n ≤ t.did.length)
    (h : Follow1 M st t r rN)
    (hk : r.2 ≠ .running → ∀ x, Follow1 M st r.1 (K x r.1) (KN x r.1))
    (hs : st → ∀ v u, KN (.error v) u = (u, .panicked v)) :
    Follow1 M st t (Verif.resume K r) (Verif.resume KN rN) := by
  obtain ⟨h0, seg, h1, h2, h3⟩ := h
  rcases hq : recordUpTo M.k M.N (M.before t) seg with ⟨l, _ | v⟩
  · rw [hq] at h2
    rw [h2 rfl]
    rcases r with ⟨t1, e | v | _⟩
    · exact .after hn h1 (by rw [hq]) h0 (hk nofun _)
    · exact .after hn h1 (by rw [hq]) h0 (hk nofun _)
    · exact ⟨h0, seg, h1, fun _ => rfl, fun l v h => by rw [hq] at h; cases h⟩
  · -- the panic is in the first part
    have more : r.1.Longer (Verif.resume K r).1 ∧
        ∃ seg', (Verif.resume K r).1.did = t.did ++ (seg ++ seg') := by
      rcases r with ⟨t1, e | v | _⟩
      · obtain ⟨g0, seg', g, -⟩ := hk nofun (.ok e)
        exact ⟨g0, seg', by rw [← List.append_assoc, ← h1]; exact g⟩
      · obtain ⟨g0, seg', g, -⟩ := hk nofun (.error v)
        exact ⟨g0, seg', by rw [← List.append_assoc, ← h1]; exact g⟩
      · exact ⟨⟨[], by simp [Verif.resume]⟩, [], by rw [List.append_nil]; exact h1⟩
    obtain ⟨g0, seg', g⟩ := more
    refine ⟨h0.trans g0, _, g, ?_, ?_⟩
    · intro h; rw [recordUpTo_append, hq] at h; cases h
    · intro l' v' h s
      rw [recordUpTo_append, hq] at h
      cases h
      obtain ⟨e1, e2, e3, e4⟩ := h3 l v hq s
      rcases rN with ⟨u, o⟩
      cases e2
      show (KN (.error v) u).1.did = _ ∧ (KN (.error v) u).2 = _ ∧ TSt.StoppedAt l (KN (.error v) u).1 _
      rw [hs s]
      exact ⟨e1, rfl, e3, e4.trans g0⟩

theorem TSt.engine_follow (M : Hearer) (A : App W R) (t : TSt W R) (op : Op) :
    Follow1 M (Lets A M.N) t (t.engine A op) (t.engineN M A op) := by
  have hd : (t.engine A op).1.did =
      t.did ++ [.engine t.clock op (factsOf (during t.sys (op.exec A t.sys).1))] := rfl
  obtain ⟨grown, hgrown, -⟩ := op.execO_follow (A := A) (P := M.during t op) t.sys
  refine ⟨⟨grown, hgrown⟩, _, hd, ?_, ?_⟩
  · intro h
    have : op.execO (M.during t op).watch A t.sys = op.exec A t.sys := by
      apply C110_same
      cases hh : op.heardBy M.k with
      | false => exact upToPanic_never _ (fun tr f => by simp [Hearer.during, hh]) _ _
      | true =>
        have := factsUpTo_trace M t op hh (during t.sys (op.exec A t.sys).1) []
        rw [List.append_nil, show factsOf ([] : List (Obs R)) = [] from rfl, List.append_nil] at this
        rw [recordUpTo, TObs.upTo, hh, this] at h
        dsimp only [↓reduceIte] at h
        split at h
        · cases h
        · rename_i heq
          exact (Prod.mk.inj heq).2
    unfold TSt.engineN TSt.engine
    rw [this]
    rfl
  · intro l v h hs
    cases hh : op.heardBy M.k with
    | false => simp [recordUpTo, TObs.upTo, hh] at h
    | true =>
      have := factsUpTo_trace M t op hh (during t.sys (op.exec A t.sys).1) []
      rw [List.append_nil, show factsOf ([] : List (Obs R)) = [] from rfl, List.append_nil] at this
      rw [recordUpTo, TObs.upTo, hh, this] at h
      rcases hu : upToPanic (M.during t op) t.sys.trace (during t.sys (op.exec A t.sys).1) with ⟨seg, _ | w⟩
      · rw [hu] at h
        simp [recordUpTo] at h
      · rw [hu] at h
        simp only [↓reduceIte] at h
        obtain ⟨rfl, hv⟩ := Prod.mk.inj h
        cases hv
        obtain ⟨e1, e2⟩ := C110_stop (hs.strict t op) op t.sys seg v hu
        obtain ⟨pre, f, post, f1, f2, -⟩ := (C110_first _ _ _ _ _).1 hu
        unfold TSt.engineN
        rcases hx : op.execO (M.during t op).watch A t.sys with ⟨s, o⟩
        rw [hx] at e1 e2
        dsimp only at e1 e2
        subst e2
        refine ⟨by dsimp only; rw [during_seg e1], rfl,
          ⟨t.clock, op, factsOf pre, f, t.sys.trace ++ pre, ?_, rfl, ?_⟩, .fact f :: post |>.drop 1, ?_⟩
        · rw [List.getLast?_singleton, f2]
          simp [factsOf]
        · dsimp only
          rw [e1, f2, List.append_assoc]
        · show (op.exec A t.sys).1.trace = s.trace ++ _
          rw [e1, hgrown, ← during_seg hgrown, f1, f2]
          simp

theorem IProg.run_next (A : App W R) (E : TEnv W) (os : List OpOption) (m : Message)
    (k : TRes → IProg W) (t : TSt W R) : (IProg.next m k).run A E os t =
      Verif.resume (fun x t => (k x).run A E os t) (t.engine A (.dispatch E.fuel m os)) := by
  conv => lhs; unfold IProg.run
  rcases t.engine A (.dispatch E.fuel m os) with ⟨u, _ | _ | _⟩ <;> rfl

theorem IProg.runN_next (M : Hearer) (A : App W R) (E : TEnv W) (os : List OpOption) (m : Message)
    (k : TRes → IProg W) (t : TSt W R) : (IProg.next m k).runN M A E os t =
      Verif.resume (fun x t => (k x).runN M A E os t) (t.engineN M A (.dispatch E.fuel m os)) := by
  conv => lhs; unfold IProg.runN
  rcases t.engineN M A (.dispatch E.fuel m os) with ⟨u, _ | _ | _⟩ <;> rfl

theorem CProg.run_exec (A : App W R) (E : TEnv W) (m : Message) (k : TRes → CProg W) (t : TSt W R) :
    (CProg.exec m k).run A E t = Verif.resume (fun x t => (k x).run A E t) (t.execute A E m) := by
  conv => lhs; unfold CProg.run
  rcases t.execute A E m with ⟨u, _ | _ | _⟩ <;> rfl

theorem CProg.runN_exec (M : Hearer) (A : App W R) (E : TEnv W) (m : Message) (k : TRes → CProg W)
    (t : TSt W R) : (CProg.exec m k).runN M A E t =
      Verif.resume (fun x t => (k x).runN M A E t) (t.executeN M A E m) := by
  conv => lhs; unfold CProg.runN
  rcases t.executeN M A E m with ⟨u, _ | _ | _⟩ <;> rfl

theorem CProg.run_act (A : App W R) (E : TEnv W) (a : Action W) (k : TRes → CProg W) (t : TSt W R) :
    (CProg.act a k).run A E t =
      Verif.resume (fun x t => (k x).run A E t) (TSt.check E (a.run A E [] (t.announce a))) := by
  conv => lhs; unfold CProg.run
  rcases TSt.check E (a.run A E [] (t.announce a)) with ⟨u, _ | _ | _⟩ <;> rfl

theorem CProg.runN_act (M : Hearer) (A : App W R) (E : TEnv W) (a : Action W) (k : TRes → CProg W)
    (t : TSt W R) : (CProg.act a k).runN M A E t =
      Verif.resume (fun x t => (k x).runN M A E t) (TSt.check E (a.runN M A E [] (t.announce a))) := by
  conv => lhs; unfold CProg.runN
  rcases TSt.check E (a.runN M A E [] (t.announce a)) with ⟨u, _ | _ | _⟩ <;> rfl

theorem IProg.run_follow (M : Hearer) (A : App W R) (E : TEnv W) (os : List OpOption) (p : IProg W) :
    ∀ t : TSt W R, M.n ≤ t.did.length →
      Follow1 M (Lets A M.N ∧ p.Strict) t (p.run A E os t) (p.runN M A E os t) := by
  induction p with
  | ret e => intro t _; exact .same rfl rfl
  | panic v => intro t _; exact .same rfl rfl
  | get k ih =>
    intro t hn
    exact (ih t.sys.w t hn).weaken (fun ⟨h, hp⟩ => ⟨h, by cases hp with | get h => exact h _⟩)
  | set w k ih =>
    intro t hn
    exact (ih { t with sys := { t.sys with w := w } } hn).weaken
      (fun ⟨h, hp⟩ => ⟨h, by cases hp with | set h => exact h⟩)
  | next m k ih =>
    intro t hn
    rw [IProg.run_next, IProg.runN_next]
    refine Follow1.resume hn ((t.engine_follow M A _).weaken And.left) ?_ ?_
    · intro hr x
      have hd : M.n ≤ (t.engine A (.dispatch E.fuel m os)).1.did.length := by
        obtain ⟨-, f, h⟩ := t.engine_same A (.dispatch E.fuel m os)
        rw [h, List.length_append]; omega
      refine (ih x _ hd).weaken ?_
      rintro ⟨h, hp⟩
      cases hp with
      | next h1 h2 =>
        refine ⟨h, ?_⟩
        cases x with
        | ok e => exact h1 e
        | error v => rw [h2]; exact .panic v
    · rintro ⟨h, hp⟩ v u
      cases hp with
      | next h1 h2 => rw [h2]; rfl

theorem TSt.execute_follow (M : Hearer) (A : App W R) (E : TEnv W) (t : TSt W R) (m : Message)
    (hn : M.n ≤ t.did.length) :
    Follow1 M (Lets A M.N ∧ IcStrict t.icept) t (t.execute A E m) (t.executeN M A E m) := by
  obtain ⟨sys, clock, opts, bound, icept, did⟩ := t
  have hq : ∀ pre b, (recordUpTo M.k M.N pre [.exec m b]).2 = none := fun _ _ => rfl
  cases bound with
  | none =>
    exact ⟨⟨[], by simp [TSt.execute]⟩, [.exec m false], rfl, fun _ => rfl, fun l v h => by simp [recordUpTo, TObs.upTo] at h⟩
  | some os =>
    have hn' : M.n ≤ (did ++ [TObs.exec m true]).length := by
      rw [List.length_append]; exact Nat.le_trans hn (Nat.le_add_right _ _)
    cases icept with
    | none =>
      exact .after hn (t1 := ⟨sys, clock, opts, some os, none, did ++ [TObs.exec m true]⟩) rfl
        (hq _ _) ⟨[], by simp⟩ ((TSt.engine_follow M A _ _).weaken And.left)
    | some f =>
      exact .after hn (t1 := ⟨sys, clock, opts, some os, some f, did ++ [TObs.exec m true]⟩) rfl
        (hq _ _) ⟨[], by simp⟩ (((f m).run_follow M A E os _ hn').weaken fun ⟨h, hi⟩ => ⟨h, hi f rfl m⟩)

mutual
theorem Action.run_follow (M : Hearer) (A : App W R) (E : TEnv W) : (a : Action W) →
    ∀ (extra : List OpOption) (t : TSt W R), M.n ≤ t.did.length → Unheard M.k t.opts →
      Follow1 M (Lets A M.N ∧ a.Strict ∧ IcStrict t.icept) t (a.run A E extra t) (a.runN M A E extra t)
  | .dispatch m, extra, t, hn, _ => by
    unfold Action.run Action.runN
    split
    · exact (t.engine_follow M A _).weaken And.left
    · exact .same rfl rfl
  | .advance desc step, extra, t, hn, _ => by
    unfold Action.run Action.runN
    rcases step t.clock t.sys.w with ⟨w, v | now⟩
    · exact .same rfl rfl
    · dsimp only
      split
      · exact .same rfl rfl
      · exact (TSt.engine_follow M A
          ({ t with sys := { t.sys with w := w }, clock := now } : TSt W R) _).weaken And.left
  | .call fn ic, extra, t, hn, ho => by
    have h := fn.run_follow M A E { t with bound := some (t.actOpts extra), icept := ic.or t.icept } hn ho
    unfold Action.run Action.runN
    dsimp only
    generalize fn.run A E { t with bound := some (t.actOpts extra), icept := ic.or t.icept } = r at h ⊢
    generalize fn.runN M A E { t with bound := some (t.actOpts extra), icept := ic.or t.icept } = rN
      at h ⊢
    obtain ⟨h0, seg, h1, h2, h3⟩ := h
    refine ⟨?_, seg, ?_, ?_, ?_⟩
    · rcases r with ⟨t1, _ | _ | _⟩ <;> exact h0
    · rcases r with ⟨t1, _ | _ | _⟩ <;> exact h1
    · intro hq; cases h2 hq; rcases r with ⟨t1, _ | _ | _⟩ <;> rfl
    · rintro l v hq ⟨s1, ⟨s2, s3⟩, s4⟩
      obtain ⟨e1, e2, e3⟩ := h3 l v hq ⟨s1, s2, by
        intro f hf m
        cases ic with
        | none => exact s4 f hf m
        | some g => exact s3 f hf m⟩
      rcases rN with ⟨u, o⟩
      cases e2
      refine ⟨e1, rfl, ?_⟩
      rcases r with ⟨t1, _ | _ | _⟩ <;> exact e3
theorem CProg.run_follow (M : Hearer) (A : App W R) (E : TEnv W) : (p : CProg W) →
    ∀ (t : TSt W R), M.n ≤ t.did.length → Unheard M.k t.opts →
      Follow1 M (Lets A M.N ∧ p.Strict ∧ IcStrict t.icept) t (p.run A E t) (p.runN M A E t)
  | .ret, t, _, _ => by unfold CProg.run CProg.runN; exact .same rfl rfl
  | .panic v, t, _, _ => by unfold CProg.run CProg.runN; exact .same rfl rfl
  | .get k, t, hn, ho => by
    unfold CProg.run CProg.runN
    exact ((k t.sys.w).run_follow M A E t hn ho).weaken
      (fun ⟨h, hp, hi⟩ => ⟨h, by cases hp with | get h => exact h _, hi⟩)
  | .set w k, t, hn, ho => by
    unfold CProg.run CProg.runN
    exact (k.run_follow M A E { t with sys := { t.sys with w := w } } hn ho).weaken
      (fun ⟨h, hp, hi⟩ => ⟨h, by cases hp with | set h => exact h, hi⟩)
  | .exec m k, t, hn, ho => by
    rw [CProg.run_exec, CProg.runN_exec]
    refine Follow1.resume hn ((t.execute_follow M A E m hn).weaken fun ⟨h1, _, h3⟩ => ⟨h1, h3⟩) ?_ ?_
    · intro hr x
      obtain ⟨hs, l, hd, -⟩ := t.execute_same A E m
      refine ((k x).run_follow M A E _ (by rw [hd, List.length_append]; omega)
        (by rw [hs.opts]; exact ho)).weaken ?_
      rintro ⟨h, hp, hi⟩
      rw [hs.icept]
      refine ⟨h, ?_, hi⟩
      cases hp with
      | exec h1 h2 =>
        cases x with
        | ok e => exact h1 e
        | error v => rw [h2]; exact .panic v
    · rintro ⟨h, hp, -⟩ v u
      cases hp with
      | exec h1 h2 => rw [h2]; unfold CProg.runN; rfl
  | .act a k, t, hn, ho => by
    rw [CProg.run_act, CProg.runN_act]
    -- the predicate is told nothing by the inner action
    have hn' : M.n ≤ (t.announce a).did.length := by
      unfold TSt.announce TSt.say; rw [List.length_append]; omega
    have hu : ∀ c, Unheard M.k (.currentTime c :: t.opts) := fun c => ho
    obtain ⟨l, hd, hl⟩ := a.run_opts A E (Unheard M.k)
      (by intro os c h; simpa [Unheard, List.filterMap_append, OpOption.observerOf] using h)
      [] (t.announce a) (fun c => by rw [List.append_nil]; exact hu c) hu
    have hq : ∀ pre, recordUpTo M.k M.N pre l = (l, none) := by
      refine recordUpTo_deaf _ _ _ ?_
      intro c op fs hm
      have := hl c op fs hm
      simpa [Op.heardBy, Unheard] using this
    have hrun : a.runN M A E [] (t.announce a) = a.run A E [] (t.announce a) := by
      obtain ⟨-, seg, g1, g2, -⟩ := a.run_follow M A E [] (t.announce a) hn' ho
      have : seg = l := List.append_cancel_left (g1.symm.trans hd)
      subst this
      exact g2 (by rw [hq])
    rw [hrun]
    have ga := (a.run_after A E [] (t.announce a)).checked E
    obtain ⟨post, hs, hx, -⟩ := TSt.check_spec E (a.run A E [] (t.announce a))
    have hlong : t.Longer (TSt.check E (a.run A E [] (t.announce a))).1 := by
      rw [hx]
      exact (a.run_follow M A E [] (t.announce a) hn' ho).1
    have hd1 : (TSt.check E (a.run A E [] (t.announce a))).1.did =
        t.did ++ (.log a.prepareLine :: l ++ post) := by
      rw [hx]
      rw [hd]; simp only [TSt.announce, TSt.say, List.append_assoc, List.cons_append, List.nil_append]
    have hq1 : ∀ pre, (recordUpTo M.k M.N pre (.log a.prepareLine :: l ++ post)).2 = none := by
      intro pre
      have hd : ∀ c op fs, .engine c op fs ∈ (.log a.prepareLine :: l ++ post : List TObs) →
          op.heardBy M.k = false := by
        intro c op fs hm
        rcases List.mem_append.1 hm with hm | hm
        · rcases List.mem_cons.1 hm with hm | hm
          · cases hm
          · have := hl c op fs hm
            simpa [Op.heardBy, Unheard] using this
        · cases hs _ hm
      rw [recordUpTo_deaf _ _ _ hd]
    generalize TSt.check E (a.run A E [] (t.announce a)) = r at ga hd1 hlong ⊢
    refine .after hn hd1 (hq1 _) hlong ?_
    rcases r with ⟨t1, e | v | _⟩
    · refine ((k _).run_follow M A E _ (by dsimp only at hd1 ⊢; rw [hd1, List.length_append]; omega)
        (by rw [ga.opts]; exact ho)).weaken ?_
      rintro ⟨h, hp, hi⟩
      rw [ga.icept nofun]
      exact ⟨h, by cases hp with | act h => exact h _, hi⟩
    · refine ((k _).run_follow M A E _ (by dsimp only at hd1 ⊢; rw [hd1, List.length_append]; omega)
        (by rw [ga.opts]; exact ho)).weaken ?_
      rintro ⟨h, hp, hi⟩
      rw [ga.icept nofun]
      exact ⟨h, by cases hp with | act h => exact h _, hi⟩
    · exact .same rfl rfl
end

/-! ## What the predicate is told -/

/-- Everything that `k` is told, once for each operation. -/
def heardIn (k : Nat) (l : List TObs) : List Fact := l.flatMap (TObs.heard k)

theorem factsUpTo_none (N : List Fact → Fact → Option PanicVal) (l : List Fact) :
    ∀ pre, ((factsUpTo N pre l).2 = none ↔
      ∀ fs f rest, l = fs ++ f :: rest → N (pre ++ fs) f = none) ∧
      ((factsUpTo N pre l).2 = none → (factsUpTo N pre l).1 = l) := by
  induction l with
  | nil => intro pre; simp [factsUpTo]
  | cons g l ih =>
    intro pre
    rw [factsUpTo]
    cases hg : N pre g with
    | some v =>
      refine ⟨⟨nofun, fun h => ?_⟩, nofun⟩
      have := h [] g l rfl
      rw [List.append_nil, hg] at this
      cases this
    | none =>
      obtain ⟨h1, h2⟩ := ih (pre ++ [g])
      dsimp only
      refine ⟨h1.trans ⟨fun h fs f rest e => ?_, fun h fs f rest e => ?_⟩, fun h => by rw [h2 h]⟩
      · cases fs with
        | nil => cases e; rw [List.append_nil]; exact hg
        | cons a fs =>
          cases (List.cons.inj e).1
          have := h fs f rest (List.cons.inj e).2
          rwa [List.append_assoc] at this
      · have := h (g :: fs) f rest (by rw [e]; rfl)
        rwa [List.append_assoc]

theorem factsUpTo_some (N : List Fact → Fact → Option PanicVal) (l : List Fact) :
    ∀ pre r v, factsUpTo N pre l = (r, some v) → ∃ fs f rest, l = fs ++ f :: rest ∧ r = fs ++ [f] ∧
      N (pre ++ fs) f = some v ∧ ∀ a g b, fs = a ++ g :: b → N (pre ++ a) g = none := by
  induction l with
  | nil => intro pre r v h; simp [factsUpTo] at h
  | cons g l ih =>
    intro pre r v h
    rw [factsUpTo] at h
    cases hg : N pre g with
    | some w =>
      rw [hg] at h
      cases h
      exact ⟨[], g, l, rfl, rfl, by rw [List.append_nil]; exact hg, by intro a b c h; simp at h⟩
    | none =>
      rw [hg] at h
      dsimp only at h
      obtain ⟨rfl, hv⟩ := Prod.mk.inj h
      obtain ⟨fs, f, rest, h1, h2, h3, h4⟩ := ih (pre ++ [g]) _ v (Prod.ext rfl hv)
      refine ⟨g :: fs, f, rest, by rw [h1]; rfl, congrArg (g :: ·) h2, ?_, ?_⟩
      · rwa [List.append_assoc] at h3
      · intro a x b e
        cases a with
        | nil => cases e; rw [List.append_nil]; exact hg
        | cons y a =>
          cases (List.cons.inj e).1
          have := h4 a x b (List.cons.inj e).2
          rwa [List.append_assoc] at this

/-- `recordUpTo` finds nothing if there is nothing. -/
theorem recordUpTo_none (k : Nat) (N : List Fact → Fact → Option PanicVal) (l : List TObs) :
    ∀ pre, (∀ fs f rest, heardIn k l = fs ++ f :: rest → N (pre ++ fs) f = none) →
      (recordUpTo k N pre l).2 = none := by
  induction l with
  | nil => intro pre _; rfl
  | cons o l ih =>
    intro pre h
    have ho : (o.upTo k N pre).2 = none := by
      cases o with
      | engine c op fs =>
        unfold TObs.upTo
        dsimp only
        by_cases hh : op.heardBy k = true
        · rw [if_pos hh]
          refine ((factsUpTo_none N fs pre).1).2 ?_
          intro a f rest e
          refine h a f (rest ++ heardIn k l) ?_
          unfold heardIn
          rw [List.flatMap_cons, TObs.heard, if_pos hh, e, List.append_assoc]
          rfl
        · rw [if_neg hh]
      | _ => rfl
    rw [recordUpTo]
    rcases hx : o.upTo k N pre with ⟨o', _ | v⟩
    · refine ih _ ?_
      intro fs f rest e
      rw [List.append_assoc]
      refine h (o.heard k ++ fs) f rest ?_
      unfold heardIn at e ⊢
      rw [List.flatMap_cons, e, List.append_assoc]
    · rw [hx] at ho; cases ho

/-- `recordUpTo` stops at the first fact on which `Notify()` panics. -/
theorem recordUpTo_some (k : Nat) (N : List Fact → Fact → Option PanicVal) (l : List TObs) :
    ∀ pre r v, recordUpTo k N pre l = (r, some v) → ∃ l1 c op fs f rest l2,
      l = l1 ++ .engine c op (fs ++ f :: rest) :: l2 ∧ r = l1 ++ [.engine c op (fs ++ [f])] ∧
      op.heardBy k = true ∧ N (pre ++ heardIn k l1 ++ fs) f = some v ∧
      ∀ a g b, heardIn k l1 ++ fs = a ++ g :: b → N (pre ++ a) g = none := by
  induction l with
  | nil => intro pre r v h; simp [recordUpTo] at h
  | cons o l ih =>
    intro pre r v h
    rw [recordUpTo] at h
    rcases hx : o.upTo k N pre with ⟨o', _ | w⟩
    · rw [hx] at h
      dsimp only at h
      obtain ⟨rfl, hv⟩ := Prod.mk.inj h
      obtain ⟨l1, c, op, fs, f, rest, l2, h1, h2, h3, h4, h5⟩ := ih _ _ v (Prod.ext rfl hv)
      refine ⟨o :: l1, c, op, fs, f, rest, l2, by rw [h1]; rfl, congrArg (o :: ·) h2, h3, ?_, ?_⟩
      · unfold heardIn at h4 ⊢
        rw [List.flatMap_cons, ← List.append_assoc pre]
        exact h4
      · -- an earlier fact is told in `o` or after it
        have e0 : heardIn k (o :: l1) = o.heard k ++ heardIn k l1 := by
          unfold heardIn; rw [List.flatMap_cons]
        have hq : ∀ a g b, o.heard k = a ++ g :: b → N (pre ++ a) g = none := by
          intro a g b e
          cases o with
          | engine c op fs =>
            unfold TObs.heard at e
            dsimp only at e
            unfold TObs.upTo at hx
            dsimp only at hx
            by_cases hh : op.heardBy k = true
            · rw [if_pos hh] at e hx
              exact ((factsUpTo_none N fs pre).1).1 (Prod.mk.inj hx).2 a g b e
            · rw [if_neg hh] at e
              simp at e
          | _ => simp [TObs.heard] at e
        intro a g b e
        rw [e0, List.append_assoc] at e
        rcases List.append_eq_append_iff.1 e with ⟨x, e1, e2⟩ | ⟨x, e1, e2⟩
        · have := h5 x g b e2
          rw [List.append_assoc] at this
          rw [e1]; exact this
        · cases x with
          | nil =>
            rw [List.append_nil] at e1
            have := h5 [] g b (by simpa using e2.symm)
            rw [List.append_assoc, List.append_nil] at this
            rw [← e1]; exact this
          | cons y x =>
            obtain ⟨rfl, e2⟩ := List.cons.inj e2
            exact hq a _ _ e1
    · rw [hx] at h
      cases h
      cases o with
      | engine c op fs =>
        unfold TObs.upTo at hx
        dsimp only at hx
        by_cases hh : op.heardBy k = true
        · rw [if_pos hh] at hx
          obtain ⟨rfl, hv⟩ := Prod.mk.inj hx
          obtain ⟨as, f, rest, h1, h2, h3, h4⟩ := factsUpTo_some N fs pre _ v (Prod.ext rfl hv)
          refine ⟨[], c, op, as, f, rest, l, by rw [h1]; rfl, by exact congrArg (fun r => [TObs.engine c op r]) h2, hh, ?_, ?_⟩
          · simpa [heardIn] using h3
          · intro a g b e
            exact h4 a g b (by simpa [heardIn] using e)
        · rw [if_neg hh] at hx
          cases hx
      | _ => cases hx

/-- The observer is registered at most once. -/
def OnceAtMost (k : Nat) (os : List OpOption) : Prop := regs k os = [] ∨ regs k os = [k]

theorem heardBy_regs (k : Nat) (op : Op) : op.heardBy k = true ↔ regs k op.opts ≠ [] := by
  unfold Op.heardBy regs
  rw [decide_eq_true_iff]
  constructor
  · intro h e
    have : k ∈ (op.opts.filterMap OpOption.observerOf).filter (fun o => o = k) :=
      List.mem_filter.2 ⟨h, by simp⟩
    rw [e] at this
    cases this
  · intro h
    rcases hl : (op.opts.filterMap OpOption.observerOf).filter (fun o => o = k) with _ | ⟨a, l⟩
    · exact absurd hl h
    · have : a ∈ (op.opts.filterMap OpOption.observerOf).filter (fun o => o = k) := by rw [hl]; simp
      obtain ⟨h1, h2⟩ := List.mem_filter.1 this
      have : a = k := by simpa using h2
      rwa [this] at h1

theorem toldIn_heardIn {k : Nat} {l : List TObs} (h : allOpts (OnceAtMost k) l) :
    toldIn k l = heardIn k l := by
  unfold toldIn heardIn
  induction l with
  | nil => rfl
  | cons o l ih =>
    rw [List.flatMap_cons, List.flatMap_cons, ih (fun c op f hm => h c op f (List.mem_cons_of_mem _ hm))]
    congr 1
    cases o with
    | engine c op fs =>
      have hr : ∀ x : Fact, ((op.opts.filterMap OpOption.observerOf).filter (fun o => o = k)).map
          (fun _ => x) = (regs k op.opts).map (fun _ => x) := fun _ => rfl
      unfold TObs.told TObs.heard
      dsimp only
      simp only [hr]
      rcases h c op fs (by simp) with e | e
      · rw [if_neg (by rw [heardBy_regs, e]; simp), e]
        simp
      · rw [if_pos (by rw [heardBy_regs, e]; simp), e]
        simp
    | _ => rfl

theorem unheard_regs {k : Nat} {os : List OpOption} (h : Unheard k os) : regs k os = [] := by
  unfold regs
  rw [List.filter_eq_nil_iff]
  intro a ha hk
  have : a = k := by simpa using hk
  exact h (this ▸ ha)

/-- The operations of an `Expect()` have its predicate at most once among their observers. -/
theorem Action.run_once (A : App W R) (E : TEnv W) (k : Nat) (a : Action W) (t : TSt W R)
    (h : Unheard k t.opts) : ∃ l, (a.run A E [.observer k] t).1.did = t.did ++ l ∧
      allOpts (OnceAtMost k) l := by
  have h := unheard_regs h
  refine a.run_opts A E _ ?_ _ t ?_ ?_
  · intro os c h
    unfold OnceAtMost
    rw [regs_append, show regs k [.currentTime c] = [] from rfl, List.append_nil]
    exact h
  · intro c
    refine .inr ?_
    rw [List.cons_append, regs_time, regs_append, h]
    simp [regs, OpOption.observerOf]
  · intro c
    exact .inl (by rw [regs_time]; exact h)

theorem first_unique {α : Type} {P : List α → α → Prop} {fs fs' rest rest' : List α} {f f' : α}
    (e : fs ++ f :: rest = fs' ++ f' :: rest') (h : P fs f) (h' : P fs' f')
    (hb : ∀ a g b, fs = a ++ g :: b → ¬ P a g) (hb' : ∀ a g b, fs' = a ++ g :: b → ¬ P a g) :
    fs = fs' ∧ f = f' := by
  rcases List.append_eq_append_iff.1 e with ⟨x, e1, e2⟩ | ⟨x, e1, e2⟩
  · cases x with
    | nil => exact ⟨by simpa using e1.symm, by cases e2; rfl⟩
    | cons y x =>
      obtain ⟨rfl, e2⟩ := List.cons.inj e2
      exact absurd h (hb' _ _ _ e1)
  · cases x with
    | nil => exact ⟨by simpa using e1, by cases e2; rfl⟩
    | cons y x =>
      obtain ⟨rfl, e2⟩ := List.cons.inj e2
      exact absurd h' (hb _ _ _ e1)

/-! ## C112 -/

theorem TSt.quietly_spec (A : App W R) (E : TEnv W) (k : Nat) (a : Action W) (c : String) (t : TSt W R)
    (h : Unheard k t.opts) :
    (a.run A E [.observer k] (t.say (.log (a.expectLine c)))).1.did =
      t.did ++ [.log (a.expectLine c)] ++ t.quietly A E k a c ∧
    allOpts (OnceAtMost k) (t.quietly A E k a c) := by
  obtain ⟨l, h1, h2⟩ := a.run_once A E k (t.say (.log (a.expectLine c))) h
  have e : t.quietly A E k a c = l := by
    unfold TSt.quietly
    rw [h1]
    show List.drop _ (t.did ++ [TObs.log (a.expectLine c)] ++ l) = l
    rw [List.drop_left]
  rw [e]
  exact ⟨h1, h2⟩

/-- **C112.** A predicate that panics on none of the facts that it is told (given those before)
changes nothing, whatever it would do with other facts. -/
theorem C112_same (A : App W R) (E : TEnv W) (S : PScope) (x : Expected) (k : Nat)
    (N : List Fact → Fact → Option PanicVal) (a : Action W) (t : TSt W R) (hk : Unheard k t.opts)
    (h : ∀ c, x.caption = .ok c → ∀ fs f rest,
      toldIn k (t.quietly A E k a c) = fs ++ f :: rest → N fs f = none) :
    t.expectN A E S x k N a = t.expectQ A E S x k a := by
  unfold TSt.expectN TSt.expectQ TSt.expecting
  dsimp only
  cases hc : x.caption with
  | error v => rfl
  | ok c =>
    dsimp only
    cases x.build { S with opts := a.configure S.opts } with
    | panic v => rfl
    | err m => rfl
    | ok j =>
      dsimp only
      obtain ⟨h1, h2⟩ := t.quietly_spec A E k a c hk
      rw [show "--- expect " ++ a.caption ++ " " ++ c ++ " ---" = a.expectLine c from rfl]
      obtain ⟨-, seg, g1, g2, -⟩ := a.run_follow ⟨k, (t.say (.log (a.expectLine c))).did.length, N⟩ A E
        [.observer k] (t.say (.log (a.expectLine c))) (Nat.le_refl _) hk
      have : seg = t.quietly A E k a c := List.append_cancel_left (g1.symm.trans h1)
      subst this
      rw [g2 ?_]
      have hb : Hearer.before ⟨k, (t.say (.log (a.expectLine c))).did.length, N⟩
          (t.say (.log (a.expectLine c))) = [] := by
        unfold Hearer.before
        rw [List.drop_length]
        rfl
      rw [hb]
      refine recordUpTo_none k N _ [] ?_
      intro fs f rest e
      rw [List.nil_append]
      exact h c hc fs f rest (by rw [toldIn_heardIn h2]; exact e)

/-- **C112.** If the predicate panics on what it is told, and no code of handlers, interceptors and
functions given to `Call()` recovers from panics (`Call()` may perform actions with `Prepare()` and
recover from their panics), then the test does what it would do without the panic up to the first fact
on which it panics, and nothing after it, except that `Done()` is called; `Ok()` and `Report()` are not
called.  `Expect()` panics with the value with which `Notify()` panicked, unless `Done()` panics. -/
theorem C112_stop (A : App W R) (E : TEnv W) (S : PScope) (x : Expected) (k : Nat)
    (N : List Fact → Fact → Option PanicVal) (a : Action W) (t : TSt W R) (hk : Unheard k t.opts)
    (hA : Lets A N) (ha : a.Strict) (hi : IcStrict t.icept) {c : String} {j : Judge}
    (hc : x.caption = .ok c) (hj : x.build (a.scope S) = .ok j) {fs : List Fact} {f : Fact}
    {rest : List Fact} {v : PanicVal} (hf : toldIn k (t.quietly A E k a c) = fs ++ f :: rest)
    (hv : N fs f = some v) (hb : ∀ b g r, fs = b ++ g :: r → N b g = none)
    {t' : TSt W R} {calls : List ECall} {e : EEnd} (h : t.expectN A E S x k N a = (t', calls, e)) :
    calls = .build :: (fs ++ [f]).map .notify ++ [.done] ∧
    e = .panicked ((j.done (fs ++ [f])).getD v) ∧
    ∃ l1 ct op gs more l2, t.quietly A E k a c = l1 ++ .engine ct op (gs ++ f :: more) :: l2 ∧
      toldIn k l1 ++ gs = fs ∧
      t'.did = t.did ++ [.log (a.expectLine c)] ++ l1 ++ [.engine ct op (gs ++ [f])] ∧
      t'.clock = ct ∧ ∃ tr more, t'.sys.trace = tr ++ [.fact f] ∧
        (a.run A E [.observer k] (t.say (.log (a.expectLine c)))).1.sys.trace = tr ++ .fact f :: more := by
  obtain ⟨h1, h2⟩ := t.quietly_spec A E k a c hk
  obtain ⟨-, seg, g1, -, g3⟩ := a.run_follow ⟨k, (t.say (.log (a.expectLine c))).did.length, N⟩ A E
    [.observer k] (t.say (.log (a.expectLine c))) (Nat.le_refl _) hk
  have : seg = t.quietly A E k a c := List.append_cancel_left (g1.symm.trans h1)
  subst this
  have hbef : Hearer.before ⟨k, (t.say (.log (a.expectLine c))).did.length, N⟩
      (t.say (.log (a.expectLine c))) = [] := by
    unfold Hearer.before
    rw [List.drop_length]
    rfl
  rw [hbef] at g3
  dsimp only at g3
  rw [toldIn_heardIn h2] at hf
  -- the first fact on which it panics
  rcases hr : recordUpTo k N [] (t.quietly A E k a c) with ⟨r, _ | w⟩
  · exfalso
    have key : ∀ (l : List TObs) pre, (recordUpTo k N pre l).2 = none →
        ∀ fs f rest, heardIn k l = fs ++ f :: rest → N (pre ++ fs) f = none := by
      intro l
      induction l with
      | nil => intro pre _ fs f rest e; simp [heardIn] at e
      | cons o l ih =>
        intro pre h fs f rest e
        rw [recordUpTo] at h
        rcases hx : o.upTo k N pre with ⟨o', _ | w⟩
        · rw [hx] at h
          have e0 : heardIn k (o :: l) = o.heard k ++ heardIn k l := by
            unfold heardIn; rw [List.flatMap_cons]
          rw [e0] at e
          rcases List.append_eq_append_iff.1 e with ⟨y, e1, e2⟩ | ⟨y, e1, e2⟩
          · have := ih _ h y f rest e2
            rw [List.append_assoc] at this
            rw [e1]; exact this
          · cases y with
            | nil =>
              rw [List.append_nil] at e1
              have := ih _ h [] f rest (by simpa using e2.symm)
              rw [List.append_assoc, List.append_nil] at this
              rw [← e1]; exact this
            | cons z y =>
              obtain ⟨rfl, e2⟩ := List.cons.inj e2
              cases o with
              | engine c op fs' =>
                unfold TObs.heard at e1
                dsimp only at e1
                unfold TObs.upTo at hx
                dsimp only at hx
                by_cases hh : op.heardBy k = true
                · rw [if_pos hh] at e1 hx
                  exact ((factsUpTo_none N fs' pre).1).1 (Prod.mk.inj hx).2 _ _ _ e1
                · rw [if_neg hh] at e1
                  simp at e1
              | _ => simp [TObs.heard] at e1
        · rw [hx] at h; cases h
    have := key _ [] (by rw [hr]) fs f rest hf
    rw [List.nil_append, hv] at this
    cases this
  · obtain ⟨l1, ct, op, gs, f', more, l2, k1, k2, k3, k4, k5⟩ := recordUpTo_some k N _ _ _ _ hr
    have hl1 : allOpts (OnceAtMost k) l1 := fun c op f hm =>
      h2 c op f (by rw [k1]; exact List.mem_append_left _ hm)
    have hop : OnceAtMost k op.opts := h2 ct op (gs ++ f' :: more) (by rw [k1]; simp)
    have hr1 : allOpts (OnceAtMost k) (l1 ++ [.engine ct op (gs ++ [f'])]) := by
      refine hl1.append ?_
      intro c' op' f'' hm
      cases List.mem_singleton.1 hm
      exact hop
    have hs : heardIn k (t.quietly A E k a c) =
        (heardIn k l1 ++ gs) ++ f' :: (more ++ heardIn k l2) := by
      rw [k1]
      unfold heardIn
      rw [List.flatMap_append, List.flatMap_cons, TObs.heard, if_pos k3]
      simp [List.append_assoc]
    obtain ⟨e1, rfl⟩ := first_unique (P := fun l f => N l f ≠ none) (hf.symm.trans hs)
      (by rw [hv]; nofun) (by rw [List.nil_append] at k4; rw [k4]; nofun)
      (fun b g r e hx => hx (hb b g r e))
      (fun b g r e hx => hx (by have := k5 b g r e; rwa [List.nil_append] at this))
    have ev : w = v := by
      rw [List.nil_append, ← e1, hv] at k4
      exact (Option.some.inj k4).symm
    subst ev
    obtain ⟨d1, d2, ⟨ct', op', gs', f', tr, d3, d4, d5⟩, long, d6⟩ := g3 _ _ hr ⟨hA, ha, hi⟩
    rw [k2, List.getLast?_append, List.getLast?_singleton] at d3
    have d3 : ct = ct' ∧ op = op' ∧ gs ++ [f] = gs' ++ [f'] := by simpa using d3
    obtain ⟨rfl, rfl, e3⟩ := d3
    cases (List.cons.inj (List.append_inj' e3 rfl).2).1
    have htold : toldIn k r = fs ++ [f] := by
      rw [k2, toldIn_heardIn hr1, e1]
      unfold heardIn
      rw [List.flatMap_append, List.flatMap_singleton, TObs.heard, if_pos k3, List.append_assoc]
    revert h
    unfold TSt.expectN TSt.expecting
    dsimp only
    rw [hc]
    dsimp only
    rw [show "--- expect " ++ a.caption ++ " " ++ c ++ " ---" = a.expectLine c from rfl,
      show ({ S with opts := a.configure S.opts } : PScope) = a.scope S from rfl, hj]
    dsimp only
    unfold TSt.judge
    rw [d2, d1, List.drop_left, htold]
    dsimp only
    intro h
    cases h
    refine ⟨rfl, rfl, l1, ct, op, gs, more, l2, k1, by rw [toldIn_heardIn hl1]; exact e1.symm, ?_, d4,
      tr, long, d5, by rw [d6, d5, List.append_assoc]; rfl⟩
    rw [d1, k2]
    simp [TSt.say, List.append_assoc]

/-! ## Whatever code recovers -/

theorem TSt.engineN_same (M : Hearer) (A : App W R) (t : TSt W R) (op : Op) :
    t.Same (t.engineN M A op).1 := ⟨rfl, rfl, rfl, rfl⟩

theorem IProg.runN_same (M : Hearer) (A : App W R) (E : TEnv W) (os : List OpOption) (p : IProg W) :
    ∀ t : TSt W R, t.Same (p.runN M A E os t).1 := by
  induction p with
  | ret e => intro t; exact .refl t
  | panic v => intro t; exact .refl t
  | get k ih => intro t; exact ih _ t
  | set w k ih =>
    intro t
    have h := ih { t with sys := { t.sys with w := w } }
    exact ⟨h.1, h.2, h.3, h.4⟩
  | next m k ih =>
    intro t
    rw [IProg.runN_next]
    have h1 := t.engineN_same M A (.dispatch E.fuel m os)
    generalize t.engineN M A (.dispatch E.fuel m os) = r at h1
    rcases r with ⟨t1, e | v | _⟩
    · exact h1.trans (ih _ t1)
    · exact h1.trans (ih _ t1)
    · exact h1

theorem TSt.executeN_same (M : Hearer) (A : App W R) (E : TEnv W) (t : TSt W R) (m : Message) :
    t.Same (t.executeN M A E m).1 := by
  obtain ⟨sys, clock, opts, bound, icept, did⟩ := t
  cases bound with
  | none => exact ⟨rfl, rfl, rfl, rfl⟩
  | some os =>
    cases icept with
    | none => exact ⟨rfl, rfl, rfl, rfl⟩
    | some f =>
      have h := (f m).runN_same M A E os ⟨sys, clock, opts, some os, some f, did ++ [TObs.exec m true]⟩
      exact ⟨h.1, h.2, h.3, h.4⟩

mutual
theorem Action.runN_after (M : Hearer) (A : App W R) (E : TEnv W) : (a : Action W) →
    ∀ (extra : List OpOption) (t : TSt W R), t.After (a.runN M A E extra t).1 (a.runN M A E extra t).2
  | .dispatch m, extra, t => by
    unfold Action.runN
    split
    · exact (t.engineN_same M A _).after _
    · exact (TSt.Same.refl t).after _
  | .advance _ step, extra, t => by
    unfold Action.runN
    rcases step t.clock t.sys.w with ⟨w, v | now⟩
    · exact ⟨Int.le_refl _, rfl, fun _ => rfl, fun _ => .inl rfl⟩
    · simp only
      split
      · exact ⟨Int.le_refl _, rfl, fun _ => rfl, fun _ => .inl rfl⟩
      · rename_i h
        exact ⟨Int.not_lt.1 h, rfl, fun _ => rfl, fun _ => .inl rfl⟩
  | .call fn ic, extra, t => by
    unfold Action.runN
    have h := fn.runN_after M A E { t with bound := some (t.actOpts extra), icept := ic.or t.icept }
    rcases hx : fn.runN M A E { t with bound := some (t.actOpts extra), icept := ic.or t.icept }
      with ⟨t1, o⟩
    rw [hx] at h
    simp only
    have hi : o ≠ .running → (t1.leave t.icept ic.isSome).icept = t.icept := by
      intro ho
      unfold TSt.leave
      cases ic with
      | some f => rfl
      | none => exact (h.icept ho)
    cases o with
    | running => exact ⟨h.clock, h.opts, fun k => absurd rfl k, fun k => absurd rfl k⟩
    | done e => exact ⟨h.clock, h.opts, fun _ => hi nofun, fun _ => .inr rfl⟩
    | panicked v => exact ⟨h.clock, h.opts, fun _ => hi nofun, fun _ => .inr rfl⟩
theorem CProg.runN_after (M : Hearer) (A : App W R) (E : TEnv W) : (p : CProg W) →
    ∀ (t : TSt W R), t.After (p.runN M A E t).1 (p.runN M A E t).2
  | .ret, t => by unfold CProg.runN; exact (TSt.Same.refl t).after _
  | .panic v, t => by unfold CProg.runN; exact (TSt.Same.refl t).after _
  | .get k, t => by unfold CProg.runN; exact (k t.sys.w).runN_after M A E t
  | .set w k, t => by
    unfold CProg.runN
    have h := k.runN_after M A E { t with sys := { t.sys with w := w } }
    exact ⟨h.clock, h.opts, h.icept, h.bound⟩
  | .exec m k, t => by
    unfold CProg.runN
    have h := t.executeN_same M A E m
    rcases hx : t.executeN M A E m with ⟨t1, o⟩
    rw [hx] at h
    cases o with
    | done e => exact (h.after (.done e)).trans nofun ((k (.ok e)).runN_after M A E t1)
    | panicked v => exact (h.after (.panicked v)).trans nofun ((k (.error v)).runN_after M A E t1)
    | running => exact h.after _
  | .act a k, t => by
    unfold CProg.runN
    have h := (a.runN_after M A E [] (t.announce a)).checked E
    rcases hx : TSt.check E (a.runN M A E [] (t.announce a)) with ⟨t1, o⟩
    rw [hx] at h
    cases o with
    | done e => exact h.trans nofun ((k (.ok e)).runN_after M A E t1)
    | panicked v => exact h.trans nofun ((k (.error v)).runN_after M A E t1)
    | running => exact h
end

theorem judge_protocol (j : Judge) (o : Nat) (t : TSt W R) (r : TSt W R × Outcome (Option TErr))
    {t' : TSt W R} {calls : List ECall} {e : EEnd} (h : t.judge j o r = (t', calls, e))
    (he : e ≠ .running) :
    (∃ tl, calls = .build :: (notified calls).map .notify ++ .done :: tl ∧
      (tl = [] ∨ tl = [.ok] ∨ tl = [.ok, .report]) ∧
      (e = .passed → tl = [.ok, .report] ∧ j.done (notified calls) = none ∧
        j.ok (notified calls) = .ok true) ∧
      (e = .failed → j.done (notified calls) = none ∧
        ((∃ d y, t'.did = d ++ [.fatal y] ∧ tl = []) ∨
          tl = [.ok, .report] ∧ j.ok (notified calls) = .ok false))) ∧
    r.1.Same t' ∧ r.2 ≠ .running := by
  obtain ⟨fs, tl0, hfs, -, hn, -, -⟩ := judge_cases j o t r h
  rw [hn]
  revert h
  unfold TSt.judge
  dsimp only
  rw [← hfs]
  rcases r with ⟨t1, x | v | _⟩
  · dsimp only
    cases hd : j.done fs with
    | some v =>
      intro h; cases h
      exact ⟨⟨[], rfl, .inl rfl, nofun, nofun⟩, .refl _, nofun⟩
    | none =>
      cases x with
      | some y =>
        intro h; cases h
        exact ⟨⟨[], rfl, .inl rfl, nofun, fun _ => ⟨rfl, .inl ⟨_, y, rfl, rfl⟩⟩⟩, ⟨rfl, rfl, rfl, rfl⟩, nofun⟩
      | none =>
        dsimp only
        unfold TSt.conclude
        cases ho : j.ok fs with
        | error v =>
          intro h; cases h
          exact ⟨⟨[.ok], rfl, .inr (.inl rfl), nofun, nofun⟩, .refl _, nofun⟩
        | ok b =>
          dsimp only
          cases hr : j.report b fs with
          | error v =>
            intro h; cases h
            exact ⟨⟨[.ok, .report], rfl, .inr (.inr rfl), nofun, nofun⟩, .refl _, nofun⟩
          | ok y =>
            cases b with
            | true =>
              intro h; cases h
              exact ⟨⟨[.ok, .report], rfl, .inr (.inr rfl), fun _ => ⟨rfl, rfl, rfl⟩, nofun⟩,
                ⟨rfl, rfl, rfl, rfl⟩, nofun⟩
            | false =>
              intro h; cases h
              exact ⟨⟨[.ok, .report], rfl, .inr (.inr rfl), nofun, fun _ => ⟨rfl, .inr ⟨rfl, rfl⟩⟩⟩,
                ⟨rfl, rfl, rfl, rfl⟩, nofun⟩
  · intro h; cases h
    exact ⟨⟨[], rfl, .inl rfl, nofun, nofun⟩, .refl _, nofun⟩
  · intro h; cases h; exact absurd rfl he

/-- **C112.** Whatever the predicate panics on and whichever code recovers from it: `Predicate()` is
called once and first, then come all notifications, then `Done()`, exactly once, then possibly `Ok()`,
then possibly `Report()`.  The `Expect()` only passes if `Ok()` returned true, and only fails the test
with an error of the action or if `Ok()` returned false.  The virtual clock does not go back, and the
options and the interceptor of the test are those of before; the executor is not bound by it. -/
theorem C112_protocol (A : App W R) (E : TEnv W) (S : PScope) (x : Expected) (k : Nat)
    (N : List Fact → Fact → Option PanicVal) (a : Action W) (t : TSt W R) {c : String} {j : Judge}
    (hc : x.caption = .ok c) (hj : x.build (a.scope S) = .ok j)
    {t' : TSt W R} {calls : List ECall} {e : EEnd} (h : t.expectN A E S x k N a = (t', calls, e))
    (he : e ≠ .running) :
    (∃ tl, calls = .build :: (notified calls).map .notify ++ .done :: tl ∧
      (tl = [] ∨ tl = [.ok] ∨ tl = [.ok, .report]) ∧
      (e = .passed → tl = [.ok, .report] ∧ j.done (notified calls) = none ∧
        j.ok (notified calls) = .ok true) ∧
      (e = .failed → j.done (notified calls) = none ∧
        ((∃ d y, t'.did = d ++ [.fatal y] ∧ tl = []) ∨
          tl = [.ok, .report] ∧ j.ok (notified calls) = .ok false))) ∧
    t.clock ≤ t'.clock ∧ t'.opts = t.opts ∧ t'.icept = t.icept ∧
    (t'.bound = t.bound ∨ t'.bound = none) := by
  revert h
  unfold TSt.expectN TSt.expecting
  dsimp only
  rw [hc]
  dsimp only
  rw [show "--- expect " ++ a.caption ++ " " ++ c ++ " ---" = a.expectLine c from rfl,
    show ({ S with opts := a.configure S.opts } : PScope) = a.scope S from rfl, hj]
  dsimp only
  have ha := a.runN_after ⟨k, (t.say (.log (a.expectLine c))).did.length, N⟩ A E [.observer k]
    (t.say (.log (a.expectLine c)))
  have h0 : t.After (t.say (.log (a.expectLine c))) (.done none) := ⟨Int.le_refl _, rfl, fun _ => rfl,
    fun _ => .inl rfl⟩
  have ha := h0.trans nofun ha
  generalize a.runN ⟨k, (t.say (.log (a.expectLine c))).did.length, N⟩ A E [.observer k]
    (t.say (.log (a.expectLine c))) = r at ha
  generalize t.say (.log (a.expectLine c)) = t0
  intro h
  obtain ⟨g1, g2, g3⟩ := judge_protocol j k t0 r h he
  refine ⟨g1, ?_, ?_, ?_, ?_⟩
  · rw [g2.clock]; exact ha.clock
  · rw [g2.opts]; exact ha.opts
  · rw [g2.icept]; exact ha.icept g3
  · rw [g2.bound]; exact ha.bound g3

/-- Without panics of `Notify()`, `Expect()` is the one that `C90`, `C91` and `C98` are about. -/
theorem TSt.expectQ_user (A : App W R) (E : UEnv W) (x : Expected) (k : Nat) (a : Action W)
    (t : TSt W R) : t.expectQ A E.toTEnv E.scope x k a = t.expectU A E x k (a.asUser A) := by
  unfold TSt.expectQ TSt.expectU
  rw [a.asUser_caption, show (a.asUser A).configure = fun o => .ok (a.configure o) from
    funext fun o => a.asUser_configure A o]
  congr 1
  funext os t
  rw [a.asUser_run A E]

/-! ## Examples -/

/-- A predicate that panics when an aggregate records an event, say because a function given to
`ToRecordEventMatching()` does. -/
def Demo.picky (_ : List Fact) : Fact → Option PanicVal
  | .aggEvent .. => some (.user "boom")
  | _ => none

/-- A predicate that panics as soon as a message is dispatched. -/
def Demo.shy (_ : List Fact) : Fact → Option PanicVal
  | .dispatchBegun .. => some (.user "boom")
  | _ => none

theorem Demo.picky_lets : Lets Demo.app Demo.picky where
  code := ⟨fun _ _ _ h => (nomatch h), Demo.nervous_strict.parallel, Demo.nervous_strict.agg, Demo.nervous_strict.proc,
    Demo.nervous_strict.int, Demo.nervous_strict.prj, Demo.nervous_strict.compact⟩
  value _ f v h := by
    unfold Demo.picky at h
    split at h
    · cases h; exact fun h => nomatch h
    · cases h

/-- Stages of the calls, and end, of an `Expect()` whose predicate panics as `N` says. -/
def Demo.expectingN (N : List Fact → Fact → Option PanicVal) (a : Action Nat) (x : Expectation) :
    List Nat × EEnd :=
  let r := Demo.t0.expectN Demo.app Demo.tenv (Demo.scope false) (Demo.expected x) 7 N a
  ((r.2.1.map ECall.stage).filter (fun n => n ≠ 1), r.2.2)

/-- The function calls `ExecuteCommand()` and recovers from its panics. -/
def Demo.calmCall : Action Nat := .call (.exec (Demo.msgC "x") fun _ => .ret) none

set_option maxRecDepth 100000 in
/-- The hypotheses of `C112_stop`: the predicate is told of a recorded event, not first and not last. -/
example :
    Unheard 7 Demo.t0.opts ∧ (Action.dispatch (Demo.msgC "x") : Action Nat).Strict ∧
    IcStrict Demo.t0.icept ∧
    ((∃ c, (Demo.expected (.type Demo.evtE)).caption = .ok c) ∧
      (match (Demo.expected (.type Demo.evtE)).build (Demo.scope false) with
        | .ok _ => true | _ => false) = true) ∧
    ((toldIn 7 (Demo.t0.quietly Demo.app Demo.tenv 7 (.dispatch (Demo.msgC "x")) "c")).map
      (fun f => (Demo.picky [] f).isSome)).findIdx? id = some 5 ∧
    (toldIn 7 (Demo.t0.quietly Demo.app Demo.tenv 7 (.dispatch (Demo.msgC "x")) "c")).length = 31 := by
  refine ⟨by unfold Unheard; decide +kernel, trivial, ?_, ⟨⟨_, rfl⟩, by decide +kernel⟩, by decide +kernel, by decide +kernel⟩
  intro f h
  cases h

set_option maxRecDepth 100000 in
example :
    Demo.expectingN (fun _ _ => none) (.dispatch (Demo.msgC "x")) (.type Demo.evtE) =
      ([0, 2, 3, 4], .passed) ∧
    Demo.expectingN Demo.picky (.dispatch (Demo.msgC "x")) (.type Demo.evtE) =
      ([0, 2], .panicked (.user "boom")) ∧
    Demo.expectingN Demo.picky (.call (.exec (Demo.msgC "x") fun r =>
      match r with | .ok _ => .ret | .error v => .panic v) none) (.type Demo.evtE) =
      ([0, 2], .panicked (.user "boom")) := by
  decide +kernel

set_option maxRecDepth 100000 in
/-- **C112.** A panic of `Notify()` is lost if the function given to `Call()` recovers from panics of
`ExecuteCommand()`: the expectation that no event is recorded is met, because the engine stopped
before the event; without the panic it is not. -/
theorem C112_recovered :
    Demo.expectingN Demo.shy Demo.calmCall (.not (.type Demo.evtE)) = ([0, 2, 3, 4], .passed) ∧
    Demo.expectingN (fun _ _ => none) Demo.calmCall (.not (.type Demo.evtE)) = ([0, 2, 3, 4], .failed) := by
  decide +kernel

end Verif
