import Verif.OpLog
import Verif.ProcRefine

/-!
# Flat views of operation logs

What the structured logs of `Verif.OpLog` say about the flat trace.  Proof machinery.
-/

namespace Verif

variable {W R : Type}

@[simp] theorem errorsIn_append (a b : List (Obs R)) : errorsIn (a ++ b) = errorsIn a ++ errorsIn b := by
  simp [errorsIn]
@[simp] theorem offersIn_append (a b : List (Obs R)) : offersIn (a ++ b) = offersIn a ++ offersIn b := by
  simp [offersIn]

/-! ## Inner observations -/

theorem inner_flat {h : HConfig} {now : Time} {env : Env} (seg : List (Obs R))
    (hs : ∀ o ∈ seg, InnerObs h now env o) : errorsIn seg = [] ∧ offersIn seg = [] := by
  refine ⟨?_, ?_⟩ <;>
  · first | rw [errorsIn, List.filterMap_eq_nil_iff] | rw [offersIn, List.filterMap_eq_nil_iff]
    intro o ho
    have := hs o ho
    cases o with
    | call c => rfl
    | reset => rfl
    | fact f =>
      cases f <;>
        first
        | rfl
        | (exfalso; rcases this with h0 | ⟨ev, h0, _⟩
           · exact h0
           · cases h0)

theorem inner_bracket {h : HConfig} {now : Time} {env : Env} {o : Obs R}
    (ho : InnerObs h now env o) (st : List Frame) :
    bracketStep (.handling h env :: st) o = some (.handling h env :: st) := by
  cases o with
  | reset => exact ho.elim
  | call c =>
    have := Call.isFor_handler ho
    simp [bracketStep, this, Frame.runs]
  | fact f =>
    rcases ho with h0 | ⟨ev, h0, _⟩
    · cases f <;>
        first
        | exact h0.elim
        | (obtain ⟨rfl, rfl, _⟩ := h0; simp [bracketStep, Fact.about]; done)
        | (obtain ⟨rfl, _⟩ := h0; simp [bracketStep, Fact.about, Frame.runs]; done)
        | (obtain ⟨rfl, h1 | h1, _⟩ := h0 <;> subst h1 <;> simp [bracketStep, Fact.about, Frame.runs])
    · cases f <;> cases h0 <;> simp [bracketStep, Fact.about]

theorem inner_brackets {h : HConfig} {now : Time} {env : Env} (seg : List (Obs R))
    (hs : ∀ o ∈ seg, InnerObs h now env o) (st : List Frame) :
    bracketRun (.handling h env :: st) seg = some (.handling h env :: st) := by
  induction seg with
  | nil => rfl
  | cons o seg ih =>
    simp only [bracketRun, inner_bracket (hs o (by simp))]
    exact ih (fun x hx => hs x (by simp [hx]))

/-! ## Offers -/

theorem offer_flat {A : App W R} {oo : OpOpts} {env : Env} (o : Offer R) (ho : OfferOK A oo env o) :
    errorsIn (o.trace env) = o.errs ∧ offersIn (o.trace env) = [(env, o.handler)] ∧
    ∀ st, bracketRun (.message env :: st) (o.trace env) = some (.message env :: st) := by
  cases o with
  | skipped h r => exact ⟨rfl, rfl, fun st => by simp [Offer.trace, bracketRun, bracketStep]⟩
  | handled h seg err =>
    obtain ⟨h1, h2⟩ := inner_flat seg ho.2.2
    have e : Offer.trace env (.handled h seg err) = [.fact (.handlingBegun h env)] ++ seg ++
        [.fact (.handlingCompleted h env err)] := by simp [Offer.trace]
    refine ⟨?_, ?_, fun st => ?_⟩
    · rw [e, errorsIn_append, errorsIn_append, h1]
      cases err <;> rfl
    · rw [e, offersIn_append, offersIn_append, h2]; rfl
    · rw [e, bracketRun_append, bracketRun_append]
      simp [bracketRun, bracketStep, Frame.close, inner_brackets seg ho.2.2]

theorem offers_flat {A : App W R} {oo : OpOpts} {env : Env} (l : List (Offer R))
    (hl : ∀ o ∈ l, OfferOK A oo env o) :
    errorsIn (l.flatMap (Offer.trace env)) = l.flatMap Offer.errs ∧
    offersIn (l.flatMap (Offer.trace env)) = (l.map Offer.handler).map (fun h => (env, h)) ∧
    ∀ st, bracketRun (.message env :: st) (l.flatMap (Offer.trace env)) = some (.message env :: st) := by
  induction l with
  | nil => exact ⟨rfl, rfl, fun st => rfl⟩
  | cons o l ih =>
    obtain ⟨a, b, c⟩ := offer_flat o (hl o (by simp))
    obtain ⟨a', b', c'⟩ := ih (fun x hx => hl x (by simp [hx]))
    refine ⟨?_, ?_, fun st => ?_⟩
    · rw [List.flatMap_cons, errorsIn_append, a, a', List.flatMap_cons]
    · rw [List.flatMap_cons, offersIn_append, b, b']; rfl
    · rw [List.flatMap_cons, bracketRun_append, c, Option.bind_some, c']

theorem delivery_flat {A : App W R} {oo : OpOpts} (d : Delivery R) (hd : DeliveryOK A oo d) :
    errorsIn d.trace = d.errs ∧
    offersIn d.trace = (d.offers.map Offer.handler).map (fun h => (d.env, h)) ∧
    ∀ st, Frame.isCycle st = true → bracketRun st d.trace = some st := by
  obtain ⟨a, b, c⟩ := offers_flat d.offers hd.offers
  have e : d.trace = [.fact (.dispatchBegun d.env)] ++ d.offers.flatMap (Offer.trace d.env) ++
      [.fact (.dispatchCompleted d.env d.errs)] := by simp [Delivery.trace]
  refine ⟨?_, ?_, fun st hst => ?_⟩
  · rw [e, errorsIn_append, errorsIn_append, a]
    simp [errorsIn, Delivery.errs]
  · rw [e, offersIn_append, offersIn_append, b]
    simp [offersIn]
  · rw [e, bracketRun_append, bracketRun_append]
    simp [bracketRun, hst, c, bracketStep, Frame.close]

theorem log_flat {A : App W R} {oo : OpOpts} (D : List (Delivery R)) (hd : ∀ d ∈ D, DeliveryOK A oo d) :
    errorsIn (D.flatMap Delivery.trace) = D.flatMap Delivery.errs ∧
    offersIn (D.flatMap Delivery.trace) =
      D.flatMap (fun d => (d.offers.map Offer.handler).map (fun h => (d.env, h))) ∧
    ∀ st, Frame.isCycle st = true → bracketRun st (D.flatMap Delivery.trace) = some st := by
  induction D with
  | nil => exact ⟨rfl, rfl, fun st _ => rfl⟩
  | cons d D ih =>
    obtain ⟨a, b, c⟩ := delivery_flat d (hd d (by simp))
    obtain ⟨a', b', c'⟩ := ih (fun x hx => hd x (by simp [hx]))
    refine ⟨?_, ?_, fun st hst => ?_⟩
    · rw [List.flatMap_cons, errorsIn_append, a, a', List.flatMap_cons]
    · rw [List.flatMap_cons, offersIn_append, b, b', List.flatMap_cons]
    · rw [List.flatMap_cons, bracketRun_append, c st hst, Option.bind_some, c' st hst]

/-! ## Who takes part -/

/-- Every observation of an operation is consistent with who takes part: handlings, ticks and
calls only of handlers that take part; skips only of others, with the right reason. -/
def Partake (A : App W R) (oo : OpOpts) : Obs R → Prop
  | .reset => False
  | .call c => ∃ h ∈ A.cfgs, c.handler = some h ∧ skipHandler oo h = none
  | .fact (.handlingBegun h _) => h ∈ A.cfgs ∧ skipHandler oo h = none
  | .fact (.handlingSkipped h _ r) => h ∈ A.cfgs ∧ skipHandler oo h = some r
  | .fact (.tickBegun h) => h ∈ A.cfgs ∧ skipHandler oo h = none
  | .fact (.tickSkipped h r) => h ∈ A.cfgs ∧ skipHandler oo h = some r
  | _ => True

theorem inner_partake {A : App W R} {oo : OpOpts} {h : HConfig} {env : Env} {o : Obs R}
    (hm : h ∈ A.cfgs) (hk : skipHandler oo h = none) (ho : InnerObs h oo.now env o) :
    Partake A oo o := by
  cases o with
  | reset => exact ho.elim
  | call c => exact ⟨h, hm, Call.isFor_handler ho, hk⟩
  | fact f =>
    cases f <;>
      first
      | trivial
      | (exfalso; rcases ho with ho | ⟨ev, ho, _⟩
         · exact ho
         · cases ho)

theorem offer_partake {A : App W R} {oo : OpOpts} {env : Env} {x : Offer R} (hx : OfferOK A oo env x) :
    ∀ o ∈ x.trace env, Partake A oo o := by
  intro o ho
  cases x with
  | skipped h r =>
    rw [List.mem_singleton.1 ho]; exact hx
  | handled h seg err =>
    simp only [Offer.trace, List.mem_cons, List.mem_append, List.not_mem_nil, or_false] at ho
    rcases ho with rfl | ho | rfl
    · exact ⟨hx.1, hx.2.1⟩
    · exact inner_partake hx.1 hx.2.1 (hx.2.2 o ho)
    · trivial

theorem offers_partake {A : App W R} {oo : OpOpts} {env : Env} {l : List (Offer R)}
    (hl : ∀ o ∈ l, OfferOK A oo env o) : ∀ o ∈ l.flatMap (Offer.trace env), Partake A oo o := by
  intro o ho
  obtain ⟨x, hx, ho⟩ := List.mem_flatMap.1 ho
  exact offer_partake (hl x hx) o ho

theorem log_partake {A : App W R} {oo : OpOpts} {D : List (Delivery R)}
    (hd : ∀ d ∈ D, DeliveryOK A oo d) : ∀ o ∈ D.flatMap Delivery.trace, Partake A oo o := by
  intro o ho
  obtain ⟨d, hdm, ho⟩ := List.mem_flatMap.1 ho
  simp only [Delivery.trace, List.mem_cons, List.mem_append, List.not_mem_nil, or_false] at ho
  rcases ho with rfl | ho | rfl
  · trivial
  · exact offers_partake (hd d hdm).offers o ho
  · trivial

end Verif

namespace Verif

variable {W R : Type}

/-! ## The dispatch loop -/

/-- Everything about a run of the dispatch loop, in terms of the flat trace: from `s0` with queue
`q0` to `s` with outcome `out`, observing `t`, in which the happenings `L` took place and the
messages `left` remained in the queue. -/
structure Flat (A : App W R) (oo : OpOpts) (s0 : Sys W R) (q0 : List Env) (s : Sys W R)
    (out : Outcome (List EngErr)) (t : List (Obs R)) (L : List (Happening R)) (left : List Env) :
    Prop where
  trace : s.trace = s0.trace ++ t
  happens : happenings s.trace = happenings s0.trace ++ L
  handled : ∀ x ∈ L, ∃ h env seg err, x = .handled oo.now h env seg err
  disp : dispatchedIn t ++ left = q0 ++ L.flatMap Happening.emits
  done : ∀ errs, out = .done errs → (left = [] ∧ errs = errorsIn t) ∨
    ∃ c, errs = [.ctx c] ∧ A.uc.ctxErr s.w = some c
  offers : ∃ miss, offersIn t ++ miss = (dispatchedIn t).flatMap
      (fun e => (consumers A.cfgs e).map (fun h => (e, h))) ∧ ((∀ v, out ≠ .panicked v) → miss = [])
  brackets : ∀ st, Frame.isCycle st = true → ∃ fr, bracketRun st t = some (fr ++ st) ∧
    ((∀ v, out ≠ .panicked v) → fr = [])
  partake : ∀ o ∈ t, Partake A oo o
  corr : SameCorr q0 (dispatchedIn t ++ left)
  inert : Inert A oo s0 s

theorem offers_happens_handled (now : Time) (env : Env) (l : List (Offer R)) :
    ∀ x ∈ l.flatMap (Offer.happens now env), ∃ h e seg err, x = .handled now h e seg err := by
  intro x hx
  obtain ⟨o, _, hx⟩ := List.mem_flatMap.1 hx
  cases o with
  | skipped h r => cases hx
  | handled h seg err => rw [List.mem_singleton.1 hx]; exact ⟨_, _, _, _, rfl⟩

theorem log_happens_handled (now : Time) (D : List (Delivery R)) :
    ∀ x ∈ D.flatMap (Delivery.happens now), ∃ h e seg err, x = .handled now h e seg err := by
  intro x hx
  obtain ⟨d, _, hx⟩ := List.mem_flatMap.1 hx
  exact offers_happens_handled now d.env d.offers x hx

theorem log_offers {A : App W R} {oo : OpOpts} (D : List (Delivery R)) (hd : ∀ d ∈ D, DeliveryOK A oo d) :
    offersIn (D.flatMap Delivery.trace) =
      (D.map Delivery.env).flatMap (fun e => (consumers A.cfgs e).map (fun h => (e, h))) := by
  rw [(log_flat D hd).2.1, List.flatMap_map]
  induction D with
  | nil => rfl
  | cons d D ih =>
    rw [List.flatMap_cons, List.flatMap_cons, ih (fun x hx => hd x (by simp [hx])),
      (hd d (by simp)).targets]

theorem LogInv.flat {A : App W R} {oo : OpOpts} {s0 : Sys W R} {q0 q : List Env}
    {D : List (Delivery R)} {errs : List EngErr} {s : Sys W R} (hl : LogInv A oo s0 q0 D q errs s)
    (hc : (scan s0.trace).cur = none) (ht : (scan s0.trace).time = oo.now)
    {out : Outcome (List EngErr)}
    (ho : (q = [] ∧ out = .done errs) ∨ (∃ c, out = .done [.ctx c] ∧ A.uc.ctxErr s.w = some c) ∨
      out = .running) :
    ∃ t L, Flat A oo s0 q0 s out t L q := by
  refine ⟨D.flatMap Delivery.trace, D.flatMap (Delivery.happens oo.now), hl.trace, ?_,
    log_happens_handled oo.now D, ?_, ?_, ?_, ?_, log_partake hl.ok, ?_, hl.inert⟩
  · unfold happenings
    rw [hl.trace, scan_log hc ht D hl.ok]
  · rw [log_dispatched D hl.ok, log_happens_emits]; exact hl.queue
  · rintro e rfl
    rcases ho with ⟨h1, h2⟩ | ⟨c, h1, h2⟩ | h1
    · cases h2
      refine .inl ⟨h1, ?_⟩
      rw [(log_flat D hl.ok).1, hl.errs]
    · cases h1; exact .inr ⟨c, rfl, h2⟩
    · cases h1
  · refine ⟨[], ?_, fun _ => rfl⟩
    rw [List.append_nil, log_offers D hl.ok, log_dispatched D hl.ok]
  · intro st hst
    exact ⟨[], (log_flat D hl.ok).2.2 st hst, fun _ => rfl⟩
  · rw [log_dispatched D hl.ok]; exact hl.corr

theorem LogPanic.flat {A : App W R} {oo : OpOpts} {s0 : Sys W R} {q0 q : List Env}
    {D : List (Delivery R)} {env : Env} {offers : List (Offer R)} {h : HConfig} {rest : List HConfig}
    {seg : List (Obs R)} {s : Sys W R} (hl : LogPanic A oo s0 q0 D env offers h rest seg q s)
    (hc : (scan s0.trace).cur = none) (ht : (scan s0.trace).time = oo.now) (v : PanicVal) :
    ∃ t L, Flat A oo s0 q0 s (.panicked v) t L q := by
  have hdisp : dispatchedIn (D.flatMap Delivery.trace ++ .fact (.dispatchBegun env) ::
      (offers.flatMap (Offer.trace env) ++ .fact (.handlingBegun h env) :: seg)) =
      D.map Delivery.env ++ [env] := by
    have e : (.fact (.dispatchBegun env) :: (offers.flatMap (Offer.trace env) ++
        .fact (.handlingBegun h env) :: seg) : List (Obs R)) = [.fact (.dispatchBegun env)] ++
        offers.flatMap (Offer.trace env) ++ ([.fact (.handlingBegun h env)] ++ seg) := by simp
    rw [e, dispatchedIn_append, dispatchedIn_append, dispatchedIn_append, dispatchedIn_append,
      log_dispatched D hl.ok, offers_dispatched _ hl.offers, inner_dispatched hl.inner]
    rfl
  refine ⟨D.flatMap Delivery.trace ++ .fact (.dispatchBegun env) ::
      (offers.flatMap (Offer.trace env) ++ .fact (.handlingBegun h env) :: seg),
    D.flatMap (Delivery.happens oo.now) ++ offers.flatMap (Offer.happens oo.now env), hl.trace,
    ?_, ?_, ?_, nofun, ?_, ?_, ?_, ?_, hl.inert⟩
  · have e : s.trace = ((s0.trace ++ D.flatMap Delivery.trace) ++ [.fact (.dispatchBegun env)] ++
        offers.flatMap (Offer.trace env)) ++ .fact (.handlingBegun h env) :: seg := by
      rw [hl.trace]; simp
    have h1 := scan_log hc ht D hl.ok
    have h2 : scan (s0.trace ++ D.flatMap Delivery.trace ++ [.fact (.dispatchBegun env)]) =
        scan (s0.trace ++ D.flatMap Delivery.trace) := scan_outer (by rw [h1]) (.inl ⟨_, rfl⟩)
    have h3 := scan_offers (t := s0.trace ++ D.flatMap Delivery.trace ++ [.fact (.dispatchBegun env)])
      (by rw [h2, h1]) (by rw [h2, h1]) offers hl.offers
    unfold happenings
    rw [e, ((scan_handling seg _ hl.inner).1 seg [] (by simp)).1, h3, h2, h1]
    simp
  · intro x hx
    rcases List.mem_append.1 hx with hx | hx
    · exact log_happens_handled oo.now D x hx
    · exact offers_happens_handled oo.now env offers x hx
  · rw [hdisp, List.flatMap_append, log_happens_emits, offers_happens_emits, ← hl.queue]
    simp
  · refine ⟨rest.map (fun x => (env, x)), ?_, fun h0 => (h0 v rfl).elim⟩
    rw [hdisp, List.flatMap_append, ← log_offers D hl.ok]
    simp only [List.flatMap_cons, List.flatMap_nil, List.append_nil]
    rw [← hl.targets]
    have e : (.fact (.dispatchBegun env) :: (offers.flatMap (Offer.trace env) ++
        .fact (.handlingBegun h env) :: seg) : List (Obs R)) = [.fact (.dispatchBegun env)] ++
        offers.flatMap (Offer.trace env) ++ ([.fact (.handlingBegun h env)] ++ seg) := by simp
    rw [e, offersIn_append, offersIn_append, offersIn_append, offersIn_append,
      (offers_flat offers hl.offers).2.1, (inner_flat seg hl.inner).2]
    simp [offersIn]
  · intro st hst
    refine ⟨[.handling h env, .message env], ?_, fun h0 => (h0 v rfl).elim⟩
    have e : (D.flatMap Delivery.trace ++ .fact (.dispatchBegun env) :: (offers.flatMap (Offer.trace env) ++
        .fact (.handlingBegun h env) :: seg) : List (Obs R)) = D.flatMap Delivery.trace ++
        ([.fact (.dispatchBegun env)] ++ (offers.flatMap (Offer.trace env) ++
        ([.fact (.handlingBegun h env)] ++ seg))) := by simp
    rw [e, bracketRun_append, (log_flat D hl.ok).2.2 st hst, Option.bind_some, bracketRun_append]
    have e1 : bracketRun st ([.fact (.dispatchBegun env)] : List (Obs R)) = some (.message env :: st) := by
      simp [bracketRun, bracketStep, hst]
    rw [e1, Option.bind_some, bracketRun_append, (offers_flat offers hl.offers).2.2, Option.bind_some,
      bracketRun_append]
    have e2 : bracketRun (.message env :: st) ([.fact (.handlingBegun h env)] : List (Obs R)) =
        some (.handling h env :: .message env :: st) := by simp [bracketRun, bracketStep]
    rw [e2, Option.bind_some, inner_brackets seg hl.inner]
    rfl
  · intro o ho
    simp only [List.mem_append, List.mem_cons] at ho
    rcases ho with ho | rfl | ho | rfl | ho
    · exact log_partake hl.ok o ho
    · trivial
    · exact offers_partake hl.offers o ho
    · exact ⟨hl.handler, hl.enabled⟩
    · exact inner_partake hl.handler hl.enabled (hl.inner o ho)
  · rw [hdisp]
    have := hl.corr
    simpa using this

/-- Every run of the dispatch loop has a flat description. -/
theorem loop_flat {A : App W R} (wf : A.WF) {oo : OpOpts} {s0 : Sys W R} {q0 : List Env}
    (hi : CoreI A oo q0 s0) (hc : (scan s0.trace).cur = none) (n : Nat) {s : Sys W R}
    {out : Outcome (List EngErr)} (hr : dispatchLoop A oo n q0 [] s0 = (s, out)) :
    ∃ t L left, Flat A oo s0 q0 s out t L left := by
  have ht := happenings_idle hi.time
  have h0 : LogInv A oo s0 q0 [] q0 [] s0 :=
    ⟨by simp, by simp, rfl, by simp, fun c hc e he => hc e (by simpa using he), fun _ _ _ => ⟨rfl, rfl, rfl⟩⟩
  have := (log_rule wf oo s0 q0).loop n q0 [] s0 ⟨hi, [], h0⟩
  rw [hr] at this
  cases out with
  | done e =>
    rcases this with ⟨_, D, hl⟩ | ⟨q, e', c, ⟨_, D, hl⟩, hcx, rfl⟩
    · obtain ⟨t, L, h⟩ := hl.flat hc ht (.inl ⟨rfl, rfl⟩)
      exact ⟨t, L, _, h⟩
    · obtain ⟨t, L, h⟩ := hl.flat hc ht (.inr (.inl ⟨c, rfl, hcx⟩))
      exact ⟨t, L, _, h⟩
  | running =>
    obtain ⟨q, e, _, D, hl⟩ := this
    obtain ⟨t, L, h⟩ := hl.flat hc ht (.inr (.inr rfl))
    exact ⟨t, L, _, h⟩
  | panicked v =>
    obtain ⟨_, D, env, offers, h, rest, seg, q, hl⟩ := this
    obtain ⟨t, L, h⟩ := hl.flat hc ht v
    exact ⟨t, L, _, h⟩

end Verif
