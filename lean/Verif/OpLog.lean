import Verif.Refine

/-!
# Structured logs of operations

The trace of an operation, as a list of deliveries (one per message dispatched), each of which
is a list of offers (one per handler the message is offered to).  Proof machinery; the
properties in `Verif.Props` are stated on flat traces.
-/

namespace Verif

variable {W R : Type}

/-- A message is offered to a handler: skipped, or handled with the given observations and
error. -/
inductive Offer (R : Type) where
  | skipped (h : HConfig) (r : SkipReason)
  | handled (h : HConfig) (seg : List (Obs R)) (err : Option Err)

def Offer.handler : Offer R → HConfig
  | .skipped h _ => h
  | .handled h _ _ => h

def Offer.trace (env : Env) : Offer R → List (Obs R)
  | .skipped h r => [.fact (.handlingSkipped h env r)]
  | .handled h seg err => .fact (.handlingBegun h env) :: (seg ++ [.fact (.handlingCompleted h env err)])

def Offer.errs : Offer R → List EngErr
  | .skipped _ _ => []
  | .handled h _ err => tagErr h err

def Offer.emits (now : Time) : Offer R → List Env
  | .skipped _ _ => []
  | .handled h seg err => emission h now seg err

def Offer.happens (now : Time) (env : Env) : Offer R → List (Happening R)
  | .skipped _ _ => []
  | .handled h seg err => [.handled now h env seg err]

structure Delivery (R : Type) where
  env : Env
  offers : List (Offer R)

def Delivery.errs (d : Delivery R) : List EngErr := d.offers.flatMap Offer.errs
def Delivery.emits (now : Time) (d : Delivery R) : List Env := d.offers.flatMap (Offer.emits now)
def Delivery.happens (now : Time) (d : Delivery R) : List (Happening R) :=
  d.offers.flatMap (Offer.happens now d.env)
def Delivery.trace (d : Delivery R) : List (Obs R) :=
  .fact (.dispatchBegun d.env) :: (d.offers.flatMap (Offer.trace d.env) ++
    [.fact (.dispatchCompleted d.env d.errs)])

/-- An offer made by an operation with options `oo`. -/
def OfferOK (A : App W R) (oo : OpOpts) (env : Env) : Offer R → Prop
  | .skipped h r => h ∈ A.cfgs ∧ skipHandler oo h = some r
  | .handled h seg _ => h ∈ A.cfgs ∧ skipHandler oo h = none ∧ ∀ o ∈ seg, InnerObs h oo.now env o

structure DeliveryOK (A : App W R) (oo : OpOpts) (d : Delivery R) : Prop where
  targets : d.offers.map Offer.handler = consumers A.cfgs d.env
  offers : ∀ o ∈ d.offers, OfferOK A oo d.env o

/-- Engine-held state of handlers that do not take part is what it was. -/
def Inert (A : App W R) (oo : OpOpts) (s0 s : Sys W R) : Prop :=
  ∀ h ∈ A.cfgs, skipHandler oo h ≠ none → s.agg h.name = s0.agg h.name ∧
    s.proc h.name = s0.proc h.name ∧ s.lastCompact h.name = s0.lastCompact h.name

/-- All of these messages belong to the same conversation as those of `q0`. -/
def SameCorr (q0 l : List Env) : Prop :=
  ∀ c, (∀ e ∈ q0, e.correlation = c) → ∀ e ∈ l, e.correlation = c

/-- Between messages: `D` are the deliveries so far, starting in `s0` with queue `q0`. -/
structure LogInv (A : App W R) (oo : OpOpts) (s0 : Sys W R) (q0 : List Env) (D : List (Delivery R))
    (q : List Env) (errs : List EngErr) (s : Sys W R) : Prop where
  trace : s.trace = s0.trace ++ D.flatMap Delivery.trace
  queue : D.map Delivery.env ++ q = q0 ++ D.flatMap (Delivery.emits oo.now)
  errs : errs = D.flatMap Delivery.errs
  ok : ∀ d ∈ D, DeliveryOK A oo d
  corr : SameCorr q0 (D.map Delivery.env ++ q)
  inert : Inert A oo s0 s

/-- While `env` is being offered. -/
structure LogMid (A : App W R) (oo : OpOpts) (s0 : Sys W R) (q0 : List Env) (D : List (Delivery R))
    (env : Env) (offers : List (Offer R)) (q : List Env) (errs de : List EngErr) (s : Sys W R) :
    Prop where
  trace : s.trace = s0.trace ++ (D.flatMap Delivery.trace ++
    .fact (.dispatchBegun env) :: offers.flatMap (Offer.trace env))
  queue : D.map Delivery.env ++ env :: q =
    q0 ++ (D.flatMap (Delivery.emits oo.now) ++ offers.flatMap (Offer.emits oo.now))
  errs : errs = D.flatMap Delivery.errs
  de : de = offers.flatMap Offer.errs
  ok : ∀ d ∈ D, DeliveryOK A oo d
  offers : ∀ o ∈ offers, OfferOK A oo env o
  corr : SameCorr q0 (D.map Delivery.env ++ env :: q)
  inert : Inert A oo s0 s

/-- After a panic in a handling by `h`. -/
structure LogPanic (A : App W R) (oo : OpOpts) (s0 : Sys W R) (q0 : List Env) (D : List (Delivery R))
    (env : Env) (offers : List (Offer R)) (h : HConfig) (rest : List HConfig) (seg : List (Obs R))
    (q : List Env) (s : Sys W R) : Prop where
  trace : s.trace = s0.trace ++ (D.flatMap Delivery.trace ++
    .fact (.dispatchBegun env) :: (offers.flatMap (Offer.trace env) ++
      .fact (.handlingBegun h env) :: seg))
  queue : D.map Delivery.env ++ env :: q =
    q0 ++ (D.flatMap (Delivery.emits oo.now) ++ offers.flatMap (Offer.emits oo.now))
  targets : offers.map Offer.handler ++ h :: rest = consumers A.cfgs env
  handler : h ∈ A.cfgs
  enabled : skipHandler oo h = none
  inner : ∀ o ∈ seg, InnerObs h oo.now env o
  ok : ∀ d ∈ D, DeliveryOK A oo d
  offers : ∀ o ∈ offers, OfferOK A oo env o
  corr : SameCorr q0 (D.map Delivery.env ++ env :: q)
  inert : Inert A oo s0 s

theorem App.WF.name_inj {A : App W R} (wf : A.WF) {h h' : HConfig} (hm : h ∈ A.cfgs)
    (hm' : h' ∈ A.cfgs) (hn : h.name = h'.name) : h = h' := by
  have nd := wf.names
  rw [List.nodup_iff_pairwise_ne, List.pairwise_map] at nd
  apply Classical.byContradiction; intro hne
  obtain ⟨i, hi, e1⟩ := List.getElem_of_mem hm
  obtain ⟨j, hj, e2⟩ := List.getElem_of_mem hm'
  have := List.pairwise_iff_getElem.1 nd
  rcases Nat.lt_trichotomy i j with hlt | heq | hgt
  · exact this i j hi hj hlt (by rw [e1, e2]; exact hn)
  · subst heq; exact hne (e1.symm.trans e2)
  · exact this j i hj hi hgt (by rw [e1, e2]; exact hn.symm)

/-- A handling touches only the state of its handler. -/
theorem Handling.others {A : App W R} {h : HConfig} {now : Time} {env : Env} {s s' : Sys W R}
    {res : HRes} {seg : List (Obs R)} (hh : Handling A h now env s s' res seg) {n : String}
    (hn : n ≠ h.name) :
    s'.agg n = s.agg n ∧ s'.proc n = s.proc n ∧ s'.lastCompact n = s.lastCompact n := by
  refine ⟨?_, ?_, by rw [hh.last]⟩
  · by_cases ht : h.htype = .aggregate
    · rcases res with v | ⟨envs, e⟩
      · rw [(hh.agg ht).err v rfl]
      · obtain ⟨_, _, id, _, ha⟩ := (hh.agg ht).ok envs e rfl
        rw [ha, upd_ne _ _ hn]
    · rw [hh.noAgg ht]
  · by_cases ht : h.htype = .process
    · exact (hh.proc ht).other n hn
    · rw [hh.noProc ht]

theorem Inert.handling {A : App W R} (wf : A.WF) {oo : OpOpts} {h : HConfig} {now : Time} {env : Env}
    {s0 s1 s s' : Sys W R} {res : HRes} {seg : List (Obs R)} (hi : Inert A oo s0 s1)
    (hs : s.agg = s1.agg ∧ s.proc = s1.proc ∧ s.lastCompact = s1.lastCompact)
    (hk : skipHandler oo h = none) (hh : Handling A h now env s s' res seg) : Inert A oo s0 s' := by
  intro x hx hsk
  have hne : x.name ≠ h.name := by
    intro hn
    rw [wf.name_inj hx hh.handler hn] at hsk
    exact hsk hk
  obtain ⟨a, b, c⟩ := hh.others hne
  obtain ⟨a', b', c'⟩ := hi x hx hsk
  rw [hs.1] at a; rw [hs.2.1] at b; rw [hs.2.2] at c
  exact ⟨a.trans a', b.trans b', c.trans c'⟩

theorem createdIn_produced {h : HConfig} {now : Time} {env : Env} {seg : List (Obs R)}
    (hs : ∀ o ∈ seg, InnerObs h now env o) {e : Env} (he : e ∈ createdIn seg) :
    ChildOf h now env e := by
  simp only [createdIn, List.mem_filterMap] at he
  obtain ⟨o, ho, he⟩ := he
  have := hs o ho
  cases o with
  | call c => cases he
  | reset => cases he
  | fact f =>
    rcases this with h0 | ⟨ev, h1, h2, _⟩
    · cases f <;> first | exact h0.elim | cases he
    · have : f.created = some ev := by
        cases f <;> cases h1 <;> rfl
      have : some ev = some e := this.symm.trans he
      cases this; exact h2

/-- In the core invariant's context, a message to be dispatched always has targets. -/
theorem targets_ok {A : App W R} {env : Env} (hq : env.msg.type.kind = .timeout → TimeoutOK A env)
    {v : PanicVal} : A.targets env ≠ .error v := by
  unfold App.targets
  split
  · rename_i hk
    obtain ⟨o, ho, hm, _⟩ := hq hk
    rw [ho]
    simp only
    split
    · rename_i hf
      unfold App.find at hf
      rw [List.find?_eq_none] at hf
      exact absurd (hf _ hm) (by simp)
    · nofun
  · nofun

/-- The code's targets are the specified consumers. -/
theorem targets_consumers {A : App W R} (wf : A.WF) {env : Env} {hs : List HConfig}
    (ht : A.targets env = .ok hs) (hq : env.msg.type.kind = .timeout → TimeoutOK A env) :
    hs = consumers A.cfgs env := by
  have hs' : ∀ h ∈ hs, _ := fun h hh => targets_sound wf ht hq hh
  unfold App.targets at ht
  unfold consumers
  split at ht
  · rename_i hk
    obtain ⟨o, ho, hm, _⟩ := hq hk
    rw [ho] at ht
    simp only [hk, ho] at ht ⊢
    split at ht
    · cases ht
    · rename_i h' hf
      cases ht
      obtain ⟨_, _, h3⟩ := hs' h' (by simp)
      obtain ⟨o', ho', e, _⟩ := h3 hk
      rw [ho] at ho'
      cases ho'
      rw [e]
  · rename_i hk
    cases ht
    cases hkk : env.msg.type.kind with
    | timeout => exact (hk hkk).elim
    | command => rfl
    | event => rfl

theorem log_rule {A : App W R} (wf : A.WF) (oo : OpOpts) (s0 : Sys W R) (q0 : List Env) :
    DispRule A oo
      (fun q errs s => CoreI A oo q s ∧ ∃ D, LogInv A oo s0 q0 D q errs s)
      (fun env done q errs de s => CoreJ A oo env q s ∧
        ∃ D offers, offers.map Offer.handler = done ∧ LogMid A oo s0 q0 D env offers q errs de s)
      (fun s => Core A s ∧ ∃ D env offers h rest seg q, LogPanic A oo s0 q0 D env offers h rest seg q s) where
  begin_ env q errs s hs _ hi := by
    obtain ⟨D, hl⟩ := hi.2
    refine ⟨hi.1.begin_, D, [], rfl, ?_, ?_, hl.errs, rfl, hl.ok, by simp, hl.corr, hl.inert⟩
    · rw [Sys.notify_trace, hl.trace]; simp
    · rw [hl.queue]; simp
  handle env done h rest q errs de s s' envs e ht hj hr := by
    have hoff := hj.1.offered wf ht (h := h) (by simp)
    refine ⟨hj.1.handle wf ht (by simp) hr, ?_⟩
    obtain ⟨D, offers, hd, hl⟩ := hj.2
    rcases handleOne_cases hoff.handler hoff.consumed hr with
      ⟨rs, hk, rfl, hres⟩ | ⟨hk, s1, seg, hh, ⟨v, hv, _⟩ | ⟨envs', e', hv, rfl⟩⟩
    · cases hres
      refine ⟨D, offers ++ [.skipped h rs], by simp [hd, Offer.handler], ?_, ?_, hl.errs, ?_, hl.ok, ?_,
        by simpa using hl.corr, hl.inert⟩
      · rw [Sys.notify_trace, hl.trace]; simp [Offer.trace]
      · rw [List.append_nil, hl.queue]; simp [Offer.emits]
      · rw [hl.de]; simp [Offer.errs, tagErr]
      · intro o ho
        rcases List.mem_append.1 ho with ho | ho
        · exact hl.offers o ho
        · rw [List.mem_singleton.1 ho]; exact ⟨hoff.handler, hk⟩
    · cases hv
    · cases hv
      have hin := hl.inert.handling wf (s := s.notify (.handlingBegun h env)) ⟨rfl, rfl, rfl⟩ hk hh
      refine ⟨D, offers ++ [.handled h seg e], by simp [hd, Offer.handler], ?_, ?_, hl.errs, ?_, hl.ok, ?_, ?_,
        hin⟩
      · rw [Sys.notify_trace, hh.trace, Sys.notify_trace, hl.trace]; simp [Offer.trace]
      · have : D.map Delivery.env ++ env :: (q ++ envs) = (D.map Delivery.env ++ env :: q) ++ envs := by
          simp
        rw [this, hl.queue, hh.ok _ _ rfl]; simp [Offer.emits]
      · rw [hl.de]; simp [Offer.errs]
      · intro o ho
        rcases List.mem_append.1 ho with ho | ho
        · exact hl.offers o ho
        · rw [List.mem_singleton.1 ho]; exact ⟨hoff.handler, hk, hh.inner⟩
      · intro c hc x hx
        have hx' : x ∈ D.map Delivery.env ++ env :: q ∨ x ∈ envs := by
          simp only [List.mem_cons, List.mem_append] at hx ⊢
          rcases hx with hx | hx | hx | hx
          · exact .inl (.inl hx)
          · exact .inl (.inr (.inl hx))
          · exact .inl (.inr (.inr hx))
          · exact .inr hx
        rcases hx' with hx | hx
        · exact hl.corr c hc x hx
        · rw [hh.ok _ _ rfl] at hx
          rw [(createdIn_produced hh.inner (emission_ok hoff.handler hh.inner hx).1).correlation]
          exact hl.corr c hc env (by simp)
  panic env done h rest q errs de s s' v ht hj hr := by
    have hoff := hj.1.offered wf ht (h := h) (by simp)
    refine ⟨hj.1.panic wf ht (by simp) hr, ?_⟩
    obtain ⟨D, offers, hd, hl⟩ := hj.2
    rcases handleOne_cases hoff.handler hoff.consumed hr with
      ⟨rs, _, _, h0⟩ | ⟨hk, s1, seg, hh, ⟨v, hv, rfl⟩ | ⟨envs', e', hv, _⟩⟩
    · cases h0
    · have hin := hl.inert.handling wf (s := s.notify (.handlingBegun h env)) ⟨rfl, rfl, rfl⟩ hk hh
      refine ⟨D, env, offers, h, rest, seg, q, ?_, hl.queue, ?_, hoff.handler, hk, hh.inner,
        hl.ok, hl.offers, hl.corr, hin⟩
      · rw [hh.trace, Sys.notify_trace, hl.trace]; simp
      · rw [hd]
        exact targets_consumers wf ht (fun hk => ((hj.1.base.queue env (by simp)).2 hk).2)
    · cases hv
  panicT env q errs s v ht hi :=
    (targets_ok (fun hk => ((hi.1.queue env (by simp)).2 hk).2) ht).elim
  end_ env hs q errs de s ht hj := by
    obtain ⟨D, offers, hd, hl⟩ := hj.2
    refine ⟨hj.1.end_ de, D ++ [⟨env, offers⟩], ?_, ?_, ?_, ?_, by simpa using hl.corr, hl.inert⟩
    · rw [Sys.notify_trace, hl.trace]; simp [Delivery.trace, Delivery.errs, hl.de]
    · rw [List.map_append, List.append_assoc]
      have := hl.queue
      simp only [List.map_cons, List.map_nil, List.singleton_append]
      rw [this]; simp [Delivery.emits]
    · rw [hl.errs, hl.de]; simp [Delivery.errs]
    · intro d hd'
      rcases List.mem_append.1 hd' with hd' | hd'
      · exact hl.ok d hd'
      · rw [List.mem_singleton.1 hd']
        refine ⟨?_, hl.offers⟩
        rw [hd]
        exact targets_consumers wf ht (fun hk => ((hj.1.base.queue env (by simp)).2 hk).2)

/-! ## Scanning logs -/

theorem scan_offer {now : Time} {env : Env} {t : List (Obs R)} (hc : (scan t).cur = none)
    (ht : (scan t).time = now) (o : Offer R)
    (ho : ∀ h seg err, o = .handled h seg err → ∀ x ∈ seg, InnerObs h now env x) :
    scan (t ++ o.trace env) = ⟨(scan t).done ++ o.happens now env, none, now⟩ := by
  cases o with
  | skipped h r =>
    simp only [Offer.trace, scan_snoc, Offer.happens, List.append_nil]
    unfold Scan.step
    simp only [hc]
    cases hs : scan t; simp_all
  | handled h seg err =>
    have e : t ++ Offer.trace env (.handled h seg err) =
      ((t ++ [.fact (.handlingBegun h env)]) ++ seg) ++ [.fact (.handlingCompleted h env err)] := by
      simp [Offer.trace]
    have h1 : scan (t ++ [.fact (.handlingBegun h env)]) = { scan t with cur := some (h, env, []) } := by
      rw [scan_snoc]; rfl
    rw [e, scan_snoc, scan_inner seg _ (ho h seg err rfl) (by rw [h1]), h1]
    simp only [Scan.step, List.nil_append, ht]
    rfl

theorem scan_offers {A : App W R} {oo : OpOpts} {env : Env} {t : List (Obs R)}
    (hc : (scan t).cur = none) (ht : (scan t).time = oo.now) (l : List (Offer R))
    (hl : ∀ o ∈ l, OfferOK A oo env o) :
    scan (t ++ l.flatMap (Offer.trace env)) =
      ⟨(scan t).done ++ l.flatMap (Offer.happens oo.now env), none, oo.now⟩ := by
  induction l generalizing t with
  | nil => cases hs : scan t; simp_all
  | cons o l ih =>
    have ho : ∀ h seg err, o = .handled h seg err → ∀ x ∈ seg, InnerObs h oo.now env x := by
      intro h seg err e
      have := hl o (by simp)
      rw [e] at this
      exact this.2.2
    have h1 := scan_offer hc ht o ho
    rw [List.flatMap_cons, ← List.append_assoc,
      ih (by rw [h1]) (by rw [h1]) (fun x hx => hl x (by simp [hx])), h1]
    simp

theorem scan_outer {t : List (Obs R)} {f : Fact} (hc : (scan t).cur = none)
    (hf : (∃ e, f = .dispatchBegun e) ∨ (∃ e x, f = .dispatchCompleted e x) ∨
      (∃ e m x, f = .dispatchCycleCompleted e m x) ∨ (∃ m x, f = .tickCycleCompleted m x) ∨
      (∃ h r, f = .tickSkipped h r) ∨ (∃ h e, f = .tickCompleted h e)) :
    scan (t ++ [.fact f]) = scan t := by
  rw [scan_snoc]
  unfold Scan.step
  rcases hf with ⟨_, rfl⟩ | ⟨_, _, rfl⟩ | ⟨_, _, _, rfl⟩ | ⟨_, _, rfl⟩ | ⟨_, _, rfl⟩ | ⟨_, _, rfl⟩ <;>
    simp only [hc]

theorem scan_delivery {A : App W R} {oo : OpOpts} {t : List (Obs R)}
    (hc : (scan t).cur = none) (ht : (scan t).time = oo.now) (d : Delivery R)
    (hd : DeliveryOK A oo d) :
    scan (t ++ d.trace) = ⟨(scan t).done ++ d.happens oo.now, none, oo.now⟩ := by
  have e : t ++ d.trace = ((t ++ [.fact (.dispatchBegun d.env)]) ++ d.offers.flatMap (Offer.trace d.env)) ++
      [.fact (.dispatchCompleted d.env d.errs)] := by simp [Delivery.trace]
  have h0 : scan (t ++ [.fact (.dispatchBegun d.env)]) = scan t := scan_outer hc (.inl ⟨_, rfl⟩)
  have h1 := scan_offers (by rw [h0]; exact hc) (by rw [h0]; exact ht) d.offers hd.offers
    (t := t ++ [.fact (.dispatchBegun d.env)])
  rw [e, scan_outer (by rw [h1]) (.inr (.inl ⟨_, _, rfl⟩)), h1, h0]
  rfl

theorem scan_log {A : App W R} {oo : OpOpts} {t : List (Obs R)}
    (hc : (scan t).cur = none) (ht : (scan t).time = oo.now) (D : List (Delivery R))
    (hd : ∀ d ∈ D, DeliveryOK A oo d) :
    scan (t ++ D.flatMap Delivery.trace) =
      ⟨(scan t).done ++ D.flatMap (Delivery.happens oo.now), none, oo.now⟩ := by
  induction D generalizing t with
  | nil => cases hs : scan t; simp_all
  | cons d D ih =>
    have h1 := scan_delivery hc ht d (hd d (by simp))
    rw [List.flatMap_cons, ← List.append_assoc,
      ih (by rw [h1]) (by rw [h1]) (fun x hx => hd x (by simp [hx])), h1]
    simp

/-! ## Flat views of logs -/

theorem inner_dispatched {h : HConfig} {now : Time} {env : Env} {seg : List (Obs R)}
    (hs : ∀ o ∈ seg, InnerObs h now env o) : dispatchedIn seg = [] := by
  rw [dispatchedIn, List.filterMap_eq_nil_iff]
  intro o ho
  have := (inner_ctx (hs o ho) []).2.2.2.2
  simpa [dispatchedIn] using this

theorem offers_dispatched {A : App W R} {oo : OpOpts} {env : Env} (l : List (Offer R))
    (hl : ∀ o ∈ l, OfferOK A oo env o) : dispatchedIn (l.flatMap (Offer.trace env)) = [] := by
  induction l with
  | nil => rfl
  | cons o l ih =>
    rw [List.flatMap_cons, dispatchedIn_append, ih (fun x hx => hl x (by simp [hx]))]
    have := hl o (by simp)
    cases o with
    | skipped h r => rfl
    | handled h seg err =>
      have e : Offer.trace env (.handled h seg err) = [.fact (.handlingBegun h env)] ++ seg ++
        [.fact (.handlingCompleted h env err)] := by simp [Offer.trace]
      rw [e, dispatchedIn_append, dispatchedIn_append, inner_dispatched this.2.2]; rfl

theorem log_dispatched {A : App W R} {oo : OpOpts} (D : List (Delivery R))
    (hd : ∀ d ∈ D, DeliveryOK A oo d) :
    dispatchedIn (D.flatMap Delivery.trace) = D.map Delivery.env := by
  induction D with
  | nil => rfl
  | cons d D ih =>
    have e : d.trace = [.fact (.dispatchBegun d.env)] ++ d.offers.flatMap (Offer.trace d.env) ++
      [.fact (.dispatchCompleted d.env d.errs)] := by simp [Delivery.trace]
    rw [List.flatMap_cons, dispatchedIn_append, ih (fun x hx => hd x (by simp [hx])), e,
      dispatchedIn_append, dispatchedIn_append, offers_dispatched _ (hd d (by simp)).offers]
    rfl

theorem offer_happens_emits (now : Time) (env : Env) (o : Offer R) :
    (o.happens now env).flatMap Happening.emits = o.emits now := by
  cases o <;> simp [Offer.happens, Offer.emits, Happening.emits]

theorem offers_happens_emits (now : Time) (env : Env) (l : List (Offer R)) :
    (l.flatMap (Offer.happens now env)).flatMap Happening.emits = l.flatMap (Offer.emits now) := by
  induction l with
  | nil => rfl
  | cons o l ih =>
    rw [List.flatMap_cons, List.flatMap_append, ih, offer_happens_emits, List.flatMap_cons]

theorem log_happens_emits (now : Time) (D : List (Delivery R)) :
    (D.flatMap (Delivery.happens now)).flatMap Happening.emits = D.flatMap (Delivery.emits now) := by
  induction D with
  | nil => rfl
  | cons d D ih =>
    rw [List.flatMap_cons, List.flatMap_append, ih, List.flatMap_cons]
    congr 1
    exact offers_happens_emits now d.env d.offers

end Verif
