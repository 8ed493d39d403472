import Verif.OpFlat

/-!
# Flat views of whole operations

Proof machinery for the properties of operations.
-/

namespace Verif

variable {W R : Type}

/-! ## Tick logs -/

/-- A controller is visited by a tick. -/
inductive TickRec (R : Type) where
  | skipped (h : HConfig) (r : SkipReason)
  | ticked (h : HConfig) (seg : List (Obs R)) (err : Option Err)

def TickRec.handler : TickRec R → HConfig
  | .skipped h _ => h
  | .ticked h _ _ => h

def TickRec.trace : TickRec R → List (Obs R)
  | .skipped h r => [.fact (.tickSkipped h r)]
  | .ticked h seg err => .fact (.tickBegun h) :: (seg ++ [.fact (.tickCompleted h err)])

def TickRec.errs : TickRec R → List EngErr
  | .skipped _ _ => []
  | .ticked h _ err => tagErr h err

def TickRec.happens (now : Time) : TickRec R → List (Happening R)
  | .skipped _ _ => []
  | .ticked h _ _ => [.ticked now h]

/-- The timeouts of handler `h` that are due, if it is a process that takes part. -/
def released (oo : OpOpts) (s : Sys W R) (h : HConfig) : List Env :=
  if skipHandler oo h = none ∧ h.htype = .process then
    (s.proc h.name).timeouts.takeWhile (fun e => decide (e.scheduledFor ≤ oo.now))
  else []

def RecOK (A : App W R) (oo : OpOpts) : TickRec R → Prop
  | .skipped h r => h ∈ A.cfgs ∧ skipHandler oo h = some r
  | .ticked h seg _ => h ∈ A.cfgs ∧ skipHandler oo h = none ∧ ∀ o ∈ seg, TickObs h oo.now o

structure TickLog (A : App W R) (oo : OpOpts) (s0 : Sys W R) (recs : List (TickRec R))
    (q : List Env) (errs : List EngErr) (s : Sys W R) : Prop where
  trace : s.trace = s0.trace ++ recs.flatMap TickRec.trace
  errs : errs = recs.flatMap TickRec.errs
  ok : ∀ r ∈ recs, RecOK A oo r
  inert : Inert A oo s0 s
  rel : (recs.map (fun r => r.handler.name)).Nodup →
    q = recs.flatMap (fun r => released oo s0 r.handler) ∧
    ∀ n, n ∉ recs.map (fun r => r.handler.name) → s.proc n = s0.proc n

structure TickPanic (A : App W R) (oo : OpOpts) (s0 : Sys W R) (recs : List (TickRec R))
    (h : HConfig) (seg : List (Obs R)) (s : Sys W R) : Prop where
  trace : s.trace = s0.trace ++ (recs.flatMap TickRec.trace ++ .fact (.tickBegun h) :: seg)
  ok : ∀ r ∈ recs, RecOK A oo r
  handler : h ∈ A.cfgs
  enabled : skipHandler oo h = none
  inner : ∀ o ∈ seg, TickObs h oo.now o
  inert : Inert A oo s0 s

theorem TickSum.others {h : HConfig} {now : Time} {s s' : Sys W R} {res : HRes}
    {seg : List (Obs R)} (g : TickSum h now s s' res seg) {n : String} (hn : n ≠ h.name) :
    s'.agg n = s.agg n ∧ s'.proc n = s.proc n ∧ s'.lastCompact n = s.lastCompact n := by
  refine ⟨by rw [g.agg], ?_, ?_⟩
  · rw [g.proc]; split
    · rw [upd_ne _ _ hn]
    · rfl
  · rw [g.last]; split
    · rw [upd_ne _ _ hn]
    · rfl

theorem Inert.ticking {A : App W R} (wf : A.WF) {oo : OpOpts} {h : HConfig}
    {s0 s1 s s' : Sys W R} {res : HRes} {seg : List (Obs R)} (hi : Inert A oo s0 s1)
    (hs : s.agg = s1.agg ∧ s.proc = s1.proc ∧ s.lastCompact = s1.lastCompact) (hm : h ∈ A.cfgs)
    (hk : skipHandler oo h = none) (g : TickSum h oo.now s s' res seg) : Inert A oo s0 s' := by
  intro x hx hsk
  have hne : x.name ≠ h.name := by
    intro hn
    rw [wf.name_inj hx hm hn] at hsk
    exact hsk hk
  obtain ⟨a, b, c⟩ := g.others hne
  obtain ⟨a', b', c'⟩ := hi x hx hsk
  rw [hs.1] at a; rw [hs.2.1] at b; rw [hs.2.2] at c
  exact ⟨a.trans a', b.trans b', c.trans c'⟩

theorem tick_rule {A : App W R} (wf : A.WF) (oo : OpOpts) (s0 : Sys W R) :
    TickRule A oo
      (fun done q errs s => CoreI A oo q s ∧
        ∃ recs, recs.map TickRec.handler = done ∧ TickLog A oo s0 recs q errs s)
      (fun s => Core A s ∧ ∃ recs h seg, TickPanic A oo s0 recs h seg s) where
  skip done h q errs s r hm hi hr := by
    obtain ⟨recs, hd, hl⟩ := hi.2
    refine ⟨hi.1.notify trivial rfl, recs ++ [.skipped h r], by simp [hd, TickRec.handler], ?_, ?_, ?_,
      hl.inert, ?_⟩
    · rw [Sys.notify_trace, hl.trace]; simp [TickRec.trace]
    · rw [hl.errs]; simp [TickRec.errs]
    · intro x hx
      rcases List.mem_append.1 hx with hx | hx
      · exact hl.ok x hx
      · rw [List.mem_singleton.1 hx]; exact ⟨hm, hr⟩
    · intro nd
      rw [List.map_append, List.nodup_append] at nd
      obtain ⟨h1, h2⟩ := hl.rel nd.1
      refine ⟨?_, ?_⟩
      · rw [List.flatMap_append, ← h1]
        simp [released, TickRec.handler, hr]
      · intro n hn
        rw [List.map_append, List.mem_append] at hn
        exact h2 n (fun h => hn (.inl h))
  tick done h q errs s s' envs e hm hi hsk hr := by
    obtain ⟨recs, hd, hl⟩ := hi.2
    obtain ⟨seg, g⟩ := ctlTick_sum A h oo.now (s.notify (.tickBegun h))
    rw [hr] at g
    have g : TickSum h oo.now (s.notify (.tickBegun h)) s' (.ok (envs, e)) seg := g
    have hin := hl.inert.ticking wf (s := s.notify (.tickBegun h)) ⟨rfl, rfl, rfl⟩ hm hsk g
    refine ⟨((core_lift A wf).tick oo).tick done h q errs s s' envs e hm hi.1 hsk hr,
      recs ++ [.ticked h seg e], by simp [hd, TickRec.handler], ?_, ?_, ?_, hin, ?_⟩
    · rw [Sys.notify_trace, g.trace, Sys.notify_trace, hl.trace]; simp [TickRec.trace]
    · rw [hl.errs]; simp [TickRec.errs]
    · intro x hx
      rcases List.mem_append.1 hx with hx | hx
      · exact hl.ok x hx
      · rw [List.mem_singleton.1 hx]; exact ⟨hm, hsk, fun o ho => (g.obs o ho).1⟩
    · intro nd
      rw [List.map_append, List.nodup_append] at nd
      obtain ⟨h1, h2⟩ := hl.rel nd.1
      refine ⟨?_, ?_⟩
      · rw [List.flatMap_append, ← h1, g.ok _ _ rfl]
        have hp : s.proc h.name = s0.proc h.name := by
          refine h2 h.name (fun hx => ?_)
          exact nd.2.2 h.name hx h.name (by simp [TickRec.handler]) rfl
        simp [released, TickRec.handler, hsk, hp]
      · intro n hn
        rw [List.map_append, List.mem_append] at hn
        have := (g.others (n := n) (fun hx => hn (.inr (by simp [TickRec.handler, hx])))).2.1
        rw [Sys.notify_proc, this]
        exact h2 n (fun h => hn (.inl h))
  panic done h q errs s s' v hm hi hsk hr := by
    obtain ⟨recs, hd, hl⟩ := hi.2
    obtain ⟨seg, g⟩ := ctlTick_sum A h oo.now (s.notify (.tickBegun h))
    rw [hr] at g
    have g : TickSum h oo.now (s.notify (.tickBegun h)) s' (.error v) seg := g
    have hin := hl.inert.ticking wf (s := s.notify (.tickBegun h)) ⟨rfl, rfl, rfl⟩ hm hsk g
    refine ⟨((core_lift A wf).tick oo).panic done h q errs s s' v hm hi.1 hsk hr,
      recs, h, seg, ?_, hl.ok, hm, hsk, fun o ho => (g.obs o ho).1, hin⟩
    rw [g.trace, Sys.notify_trace, hl.trace]; simp

/-! ## Flat views of ticks -/

theorem tickObs_flat {h : HConfig} {now : Time} (seg : List (Obs R)) (hs : ∀ o ∈ seg, TickObs h now o) :
    errorsIn seg = [] ∧ offersIn seg = [] ∧ dispatchedIn seg = [] ∧
    ∀ st, bracketRun (.ticking h :: st) seg = some (.ticking h :: st) := by
  induction seg with
  | nil => exact ⟨rfl, rfl, rfl, fun _ => rfl⟩
  | cons o seg ih =>
    obtain ⟨a, b, c, d⟩ := ih (fun x hx => hs x (by simp [hx]))
    have ho := hs o (by simp)
    have e : o :: seg = [o] ++ seg := rfl
    rw [e, errorsIn_append, offersIn_append, dispatchedIn_append, a, b, c]
    have key : errorsIn [o] = [] ∧ offersIn [o] = [] ∧ dispatchedIn [o] = [] ∧
        ∀ st, bracketStep (.ticking h :: st) o = some (.ticking h :: st) := by
      cases o with
      | reset => exact ho.elim
      | call x =>
        have : x = .prjCompact h now := ho
        subst this
        exact ⟨rfl, rfl, rfl, fun st => by simp [bracketStep, Call.handler, Frame.runs]⟩
      | fact f =>
        cases f <;>
          first
          | exact ho.elim
          | (obtain ⟨rfl, rfl⟩ := ho
             exact ⟨rfl, rfl, rfl, fun st => by simp [bracketStep, Frame.runs]⟩)
          | (have := ho; simp only [TickObs] at this; subst this
             exact ⟨rfl, rfl, rfl, fun st => by simp [bracketStep, Frame.runs]⟩)
    refine ⟨by rw [key.1]; rfl, by rw [key.2.1]; rfl, by rw [key.2.2.1]; rfl, fun st => ?_⟩
    rw [List.singleton_append]
    simp only [bracketRun, key.2.2.2]
    exact d st

theorem tickObs_partake {A : App W R} {oo : OpOpts} {h : HConfig} {o : Obs R} (hm : h ∈ A.cfgs)
    (hk : skipHandler oo h = none) (ho : TickObs h oo.now o) : Partake A oo o := by
  cases o with
  | reset => exact ho.elim
  | call c =>
    have : c = .prjCompact h oo.now := ho
    subst this
    exact ⟨h, hm, rfl, hk⟩
  | fact f => cases f <;> first | trivial | exact ho.elim

theorem scan_tickObs {h : HConfig} {now : Time} (seg t : List (Obs R)) (hc : (scan t).cur = none)
    (hs : ∀ o ∈ seg, TickObs h now o) : scan (t ++ seg) = scan t := by
  induction seg generalizing t with
  | nil => simp
  | cons o seg ih =>
    have h1 : scan (t ++ [o]) = scan t := by
      have ho := hs o (by simp)
      rw [scan_snoc]
      unfold Scan.step
      cases o with
      | reset => exact ho.elim
      | call c => simp only [hc]
      | fact f => cases f <;> first | exact ho.elim | (simp only [hc])
    have e : t ++ o :: seg = (t ++ [o]) ++ seg := by simp
    rw [e, ih _ (by rw [h1]; exact hc) (fun x hx => hs x (by simp [hx])), h1]

theorem rec_flat {A : App W R} {oo : OpOpts} (r : TickRec R) (hr : RecOK A oo r) :
    errorsIn r.trace = r.errs ∧ offersIn r.trace = [] ∧ dispatchedIn r.trace = [] ∧
    bracketRun [.tickCycle] r.trace = some [.tickCycle] ∧ (∀ o ∈ r.trace, Partake A oo o) ∧
    ∀ t : List (Obs R), (scan t).cur = none → (scan t).time = oo.now →
      scan (t ++ r.trace) = ⟨(scan t).done ++ r.happens oo.now, none, oo.now⟩ := by
  cases r with
  | skipped h rs =>
    refine ⟨rfl, rfl, rfl, rfl, ?_, ?_⟩
    · intro o ho; rw [List.mem_singleton.1 ho]; exact hr
    · intro t hc ht
      simp only [TickRec.trace, TickRec.happens, List.append_nil]
      rw [scan_outer hc (.inr (.inr (.inr (.inr (.inl ⟨_, _, rfl⟩)))))]
      cases hsc : scan t; simp_all
  | ticked h seg err =>
    obtain ⟨a, b, c, d⟩ := tickObs_flat seg hr.2.2
    have e : TickRec.trace (.ticked h seg err) = [.fact (.tickBegun h)] ++ seg ++
        [.fact (.tickCompleted h err)] := by simp [TickRec.trace]
    refine ⟨?_, ?_, ?_, ?_, ?_, ?_⟩
    · rw [e, errorsIn_append, errorsIn_append, a]; cases err <;> rfl
    · rw [e, offersIn_append, offersIn_append, b]; rfl
    · rw [e, dispatchedIn_append, dispatchedIn_append, c]; rfl
    · rw [e, bracketRun_append, bracketRun_append]
      simp [bracketRun, bracketStep, d, Frame.close]
    · intro o ho
      simp only [TickRec.trace, List.mem_cons, List.mem_append, List.not_mem_nil, or_false] at ho
      rcases ho with rfl | ho | rfl
      · exact ⟨hr.1, hr.2.1⟩
      · exact tickObs_partake hr.1 hr.2.1 (hr.2.2 o ho)
      · trivial
    · intro t hc ht
      have h1 : scan (t ++ [.fact (.tickBegun h)]) =
          ⟨(scan t).done ++ [.ticked oo.now h], none, oo.now⟩ := by
        rw [scan_snoc, ← ht]; simp only [Scan.step]; rw [hc]
      have h2 := scan_tickObs seg (t ++ [.fact (.tickBegun h)]) (by rw [h1]) hr.2.2
      have e2 : t ++ TickRec.trace (.ticked h seg err) = (t ++ [.fact (.tickBegun h)] ++ seg) ++
          [.fact (.tickCompleted h err)] := by simp [TickRec.trace]
      rw [e2, scan_outer (by rw [h2, h1]) (.inr (.inr (.inr (.inr (.inr ⟨_, _, rfl⟩))))), h2, h1]
      rfl

theorem recs_flat {A : App W R} {oo : OpOpts} (l : List (TickRec R)) (hl : ∀ r ∈ l, RecOK A oo r) :
    errorsIn (l.flatMap TickRec.trace) = l.flatMap TickRec.errs ∧
    offersIn (l.flatMap TickRec.trace) = [] ∧ dispatchedIn (l.flatMap TickRec.trace) = [] ∧
    bracketRun [.tickCycle] (l.flatMap TickRec.trace) = some [.tickCycle] ∧
    (∀ o ∈ l.flatMap TickRec.trace, Partake A oo o) ∧
    ∀ t : List (Obs R), (scan t).cur = none → (scan t).time = oo.now →
      scan (t ++ l.flatMap TickRec.trace) =
        ⟨(scan t).done ++ l.flatMap (TickRec.happens oo.now), none, oo.now⟩ := by
  induction l with
  | nil =>
    refine ⟨rfl, rfl, rfl, rfl, by simp, fun t hc ht => ?_⟩
    cases hsc : scan t; simp_all
  | cons r l ih =>
    obtain ⟨a, b, c, d, p, s⟩ := rec_flat r (hl r (by simp))
    obtain ⟨a', b', c', d', p', s'⟩ := ih (fun x hx => hl x (by simp [hx]))
    rw [List.flatMap_cons]
    refine ⟨?_, ?_, ?_, ?_, ?_, ?_⟩
    · rw [errorsIn_append, a, a', List.flatMap_cons]
    · rw [offersIn_append, b, b']; rfl
    · rw [dispatchedIn_append, c, c']; rfl
    · rw [bracketRun_append, d, Option.bind_some, d']
    · intro o ho
      rcases List.mem_append.1 ho with ho | ho
      · exact p o ho
      · exact p' o ho
    · intro t hc ht
      have h1 := s t hc ht
      rw [← List.append_assoc, s' _ (by rw [h1]) (by rw [h1]), h1]
      simp

end Verif

namespace Verif

variable {W R : Type}

/-! ## Whole operations -/

/-- Everything about one operation (that was not rejected), in terms of the flat trace. -/
structure OpFlat (A : App W R) (oo : OpOpts) (s : Sys W R) (init : List Env) (s' : Sys W R)
    (out : Outcome (List EngErr)) (t : List (Obs R)) (L : List (Happening R)) (left : List Env) :
    Prop where
  trace : s'.trace = s.trace ++ t
  happens : happenings s'.trace = happenings s.trace ++ L
  times : ∀ x ∈ L, x.time = oo.now
  disp : dispatchedIn t ++ left = init ++ L.flatMap Happening.emits
  done : ∀ errs, out = .done errs → (left = [] ∧ errs = errorsIn t) ∨
    (∃ pre c, errs = pre ++ [.ctx c] ∧ pre <+: errorsIn t ∧ A.uc.ctxErr s'.w = some c) ∨
    ∃ e, errs = [.lock e] ∧ t.length = 2
  offers : ∃ miss, offersIn t ++ miss = (dispatchedIn t).flatMap
      (fun e => (consumers A.cfgs e).map (fun h => (e, h))) ∧ ((∀ v, out ≠ .panicked v) → miss = [])
  brackets : ∃ fr, bracketRun [] t = some fr ∧ (∀ errs, out = .done errs → fr = [])
  partake : ∀ o ∈ t, Partake A oo o
  corr : SameCorr init (dispatchedIn t)
  inert : Inert A oo s s'

theorem scan_cycle (t : List (Obs R)) (f : Fact) {c : CycleInfo}
    (hf : (∃ e, f = .dispatchCycleBegun e c) ∨ f = .tickCycleBegun c) :
    scan (t ++ [.fact f]) = ⟨(scan t).done, none, c.now⟩ := by
  rw [scan_snoc]
  rcases hf with ⟨e, rfl⟩ | rfl <;> rfl

/-- Every `Dispatch()` is rejected or has a flat description. -/
theorem dispatch_op {A : App W R} (wf : A.WF) {s : Sys W R} (hs : Core A s) (n : Nat) (m : Message)
    (os : List OpOption) {s' : Sys W R} {out : Outcome (List EngErr)}
    (hr : engDispatch A n m os s = (s', out)) :
    (s' = { s with nextID := s.nextID + 1 } ∧ ∃ v, out = .panicked v) ∨
    ∃ oo, newOpOpts A s os = .ok oo ∧ m.type.kind ≠ .timeout ∧ m.invalid = none ∧ A.route m ≠ [] ∧
      ∃ t L left, OpFlat A oo s [Env.root (s.nextID + 1) m oo.now] s' out t L left ∧
        t.head? = some (.fact (.dispatchCycleBegun (Env.root (s.nextID + 1) m oo.now) (oo.cycle A))) ∧
        ∀ x ∈ L, ∃ h env seg err, x = .handled oo.now h env seg err := by
  unfold engDispatch at hr
  simp only at hr
  split at hr
  · cases hr; exact .inl ⟨rfl, _, rfl⟩
  · rename_i oo hoo
    have hoo' : newOpOpts A s os = .ok oo := hoo
    split at hr
    · cases hr; exact .inl ⟨rfl, _, rfl⟩
    · rename_i hk
      split at hr
      · cases hr; exact .inl ⟨rfl, _, rfl⟩
      · rename_i hv
        split at hr
        · cases hr; exact .inl ⟨rfl, _, rfl⟩
        · rename_i hrt
          refine .inr ⟨oo, hoo', hk, hv, hrt, ?_⟩
          have hi := (core_lift A wf).dBegin oo s m hs hrt hv hk
          have hsc := scan_cycle s.trace (.dispatchCycleBegun (Env.root (s.nextID + 1) m oo.now) (oo.cycle A))
            (.inl ⟨_, rfl⟩)
          generalize hroot : Env.root (s.nextID + 1) m oo.now = root at hr hi hsc
          split at hr
          · rename_i e he
            cases hr
            refine ⟨[.fact (.dispatchCycleBegun root (oo.cycle A)), .fact (.dispatchCycleCompleted root (oo.cycle A).maps [.lock e])],
              [], [root], ⟨by simp, ?_, by simp, rfl, ?_, ⟨[], rfl, fun _ => rfl⟩, ⟨[], ?_, fun _ _ => rfl⟩, ?_,
              ?_, fun _ _ _ => ⟨rfl, rfl, rfl⟩⟩, rfl, by simp⟩
            · simp only [Sys.notify_trace, List.append_nil]
              rw [happenings_outer (f := .dispatchCycleCompleted root (oo.cycle A).maps _) trivial,
                happenings_outer (f := .dispatchCycleBegun root _) trivial]
            · rintro errs ⟨⟩; exact .inr (.inr ⟨e, rfl, rfl⟩)
            · simp [bracketRun, bracketStep]
            · intro o ho
              simp only [List.mem_cons, List.not_mem_nil, or_false] at ho
              rcases ho with rfl | rfl <;> trivial
            · intro c _ e he; simp [dispatchedIn] at he
          · rcases hl : dispatchLoop A oo n [root] []
                ({ s with nextID := s.nextID + 1 }.notify (.dispatchCycleBegun root (oo.cycle A))) with ⟨s2, o2⟩
            obtain ⟨t, L, left, g⟩ := loop_flat wf hi (by rw [Sys.notify_trace]; rw [hsc]) n hl
            have hh : happenings s2.trace = happenings s.trace ++ L := by
              rw [g.happens, Sys.notify_trace, happenings_outer (f := .dispatchCycleBegun root _) trivial]
            have hti : ∀ x ∈ L, x.time = oo.now := by
              intro x hx
              obtain ⟨h, env, seg, err, rfl⟩ := g.handled x hx; rfl
            obtain ⟨miss, hm1, hm2⟩ := g.offers
            obtain ⟨fr, hb1, hb2⟩ := g.brackets [.cycle root] rfl
            have hcorr : SameCorr [root] (dispatchedIn t) :=
              fun c hc e he => g.corr c hc e (List.mem_append_left _ he)
            rw [hl] at hr
            have hpart : ∀ o ∈ ([.fact (.dispatchCycleBegun root (oo.cycle A))] ++ t : List (Obs R)), Partake A oo o := by
              intro o ho
              rcases List.mem_append.1 ho with ho | ho
              · rw [List.mem_singleton.1 ho]; trivial
              · exact g.partake o ho
            have hb0 : bracketRun [] ([.fact (.dispatchCycleBegun root (oo.cycle A))] : List (Obs R)) =
              some [.cycle root] := by simp [bracketRun, bracketStep]
            cases o2 with
            | done errs =>
              simp only at hr
              cases hr
              have hfr : fr = [] := hb2 (fun v => nofun)
              subst hfr
              refine ⟨([.fact (.dispatchCycleBegun root (oo.cycle A))] ++ t) ++
                  [.fact (.dispatchCycleCompleted root (oo.cycle A).maps errs)], L, left,
                ⟨by rw [Sys.notify_trace, g.trace]; simp, by rw [Sys.notify_trace, happenings_outer (f := .dispatchCycleCompleted root (oo.cycle A).maps _) trivial, hh],
                  hti, ?_, ?_, ⟨miss, ?_, fun _ => hm2 (fun v => nofun)⟩, ⟨[], ?_, fun _ _ => rfl⟩, ?_, ?_, g.inert⟩, rfl, g.handled⟩
              · rw [dispatchedIn_append, dispatchedIn_append]; simpa [dispatchedIn] using g.disp
              · rintro errs' ⟨⟩
                rcases g.done errs rfl with ⟨a, b⟩ | ⟨c, rfl, hcx⟩
                · refine .inl ⟨a, ?_⟩
                  rw [errorsIn_append, errorsIn_append, ← b]; simp [errorsIn]
                · exact .inr (.inl ⟨[], c, rfl, List.nil_prefix, by assumption⟩)
              · rw [offersIn_append, offersIn_append, dispatchedIn_append, dispatchedIn_append]
                simpa [offersIn, dispatchedIn] using hm1
              · rw [bracketRun_append, bracketRun_append, hb0, Option.bind_some, hb1, Option.bind_some]
                simp [bracketRun, bracketStep]
              · intro o ho
                rcases List.mem_append.1 ho with ho | ho
                · exact hpart o ho
                · rw [List.mem_singleton.1 ho]; trivial
              · rw [dispatchedIn_append, dispatchedIn_append]; simpa [dispatchedIn] using hcorr
            | panicked v =>
              simp only at hr
              cases hr
              refine ⟨[.fact (.dispatchCycleBegun root (oo.cycle A))] ++ t, L, left,
                ⟨by rw [g.trace]; simp, hh, hti, ?_, nofun, ⟨miss, ?_, fun h0 => hm2 h0⟩,
                  ⟨fr ++ [.cycle root], ?_, fun errs h0 => nomatch h0⟩, hpart, ?_, g.inert⟩, rfl, g.handled⟩
              · rw [dispatchedIn_append]; simpa [dispatchedIn] using g.disp
              · rw [offersIn_append, dispatchedIn_append]; simpa [offersIn, dispatchedIn] using hm1
              · rw [bracketRun_append, hb0, Option.bind_some, hb1]
              · rw [dispatchedIn_append]; simpa [dispatchedIn] using hcorr
            | running =>
              simp only at hr
              cases hr
              refine ⟨[.fact (.dispatchCycleBegun root (oo.cycle A))] ++ t, L, left,
                ⟨by rw [g.trace]; simp, hh, hti, ?_, nofun, ⟨miss, ?_, fun h0 => hm2 h0⟩,
                  ⟨fr ++ [.cycle root], ?_, fun errs h0 => nomatch h0⟩, hpart, ?_, g.inert⟩, rfl, g.handled⟩
              · rw [dispatchedIn_append]; simpa [dispatchedIn] using g.disp
              · rw [offersIn_append, dispatchedIn_append]; simpa [offersIn, dispatchedIn] using hm1
              · rw [bracketRun_append, hb0, Option.bind_some, hb1]
              · rw [dispatchedIn_append]; simpa [dispatchedIn] using hcorr


/-- What a tick does beyond `OpFlat`: the controllers are ticked first; if that is not
interrupted, all of them that take part are ticked, and only then messages are dispatched. -/
def TickPhases (oo : OpOpts) (order : List HConfig) (out : Outcome (List EngErr))
    (t : List (Obs R)) (L : List (Happening R)) : Prop :=
  (dispatchedIn t = [] ∧
    (∀ errs, out = .done errs → (∃ c, .ctx c ∈ errs) ∨ ∃ e, .lock e ∈ errs) ∧ ∃ l : List HConfig, (∀ h ∈ l, h ∈ order) ∧ L = l.map (Happening.ticked oo.now)) ∨
  ∃ L2, L = (order.filter (fun h => (skipHandler oo h).isNone)).map (Happening.ticked oo.now) ++ L2 ∧
    ∀ x ∈ L2, ∃ h env seg err, x = .handled oo.now h env seg err

theorem recs_happens {A : App W R} {oo : OpOpts} (l : List (TickRec R)) (hl : ∀ r ∈ l, RecOK A oo r) :
    l.flatMap (TickRec.happens oo.now) =
      ((l.map TickRec.handler).filter (fun h => (skipHandler oo h).isNone)).map
        (Happening.ticked oo.now) := by
  induction l with
  | nil => rfl
  | cons r l ih =>
    rw [List.flatMap_cons, ih (fun x hx => hl x (by simp [hx]))]
    have := hl r (by simp)
    cases r with
    | skipped h rs => simp [TickRec.happens, TickRec.handler, this.2]
    | ticked h seg err => simp [TickRec.happens, TickRec.handler, this.2.1]

theorem ticked_emits {now : Time} (l : List HConfig) :
    (l.map (Happening.ticked now : HConfig → Happening R)).flatMap Happening.emits = [] := by
  induction l with
  | nil => rfl
  | cons h l ih => simp [Happening.emits]

theorem TickRec.handler_ok {A : App W R} {oo : OpOpts} {r : TickRec R} (h : RecOK A oo r) :
    r.handler ∈ A.cfgs := by
  cases r <;> exact h.1

/-- Every `Tick()` is rejected or has a flat description. -/
theorem tick_op {A : App W R} (wf : A.WF) {s : Sys W R} (hs : Core A s) (n : Nat)
    (order : List HConfig) (ho : order.Perm A.cfgs) (os : List OpOption) {s' : Sys W R}
    {out : Outcome (List EngErr)} (hr : engTick A n order os s = (s', out)) :
    (s' = s ∧ ∃ v, out = .panicked v) ∨
    ∃ oo, newOpOpts A s os = .ok oo ∧ ∃ t L left,
      OpFlat A oo s (order.flatMap (released oo s)) s' out t L left ∧ TickPhases oo order out t L ∧
        t.head? = some (.fact (.tickCycleBegun (oo.cycle A))) := by
  unfold engTick at hr
  split at hr
  · cases hr; exact .inl ⟨rfl, _, rfl⟩
  · rename_i oo hoo
    refine .inr ⟨oo, hoo, ?_⟩
    have hi : CoreI A oo [] (s.notify (.tickCycleBegun (oo.cycle A))) := (core_lift A wf).tBegin oo s hs
    have hsc := scan_cycle s.trace (.tickCycleBegun (oo.cycle A)) (.inr rfl)
    have hmem : ∀ h ∈ order, h ∈ A.cfgs := fun h hh => ho.mem_iff.1 hh
    have hnd : (order.map HConfig.name).Nodup := (ho.map _).nodup_iff.2 wf.names
    have hb0 : bracketRun [] ([.fact (.tickCycleBegun (oo.cycle A))] : List (Obs R)) = some [.tickCycle] := by
      simp [bracketRun, bracketStep]
    simp only at hr
    split at hr
    · rename_i e he
      cases hr
      refine ⟨[.fact (.tickCycleBegun (oo.cycle A)), .fact (.tickCycleCompleted (oo.cycle A).maps [.lock e])], [],
        order.flatMap (released oo s), ⟨by simp, ?_, by simp, by simp [dispatchedIn], ?_, ⟨[], rfl, fun _ => rfl⟩,
          ⟨[], ?_, fun _ _ => rfl⟩, ?_, ?_, fun _ _ _ => ⟨rfl, rfl, rfl⟩⟩, Or.inl ⟨rfl, fun _ h0 => by cases h0; exact .inr ⟨e, by simp⟩, [], by simp, rfl⟩, rfl⟩
      · simp only [Sys.notify_trace, List.append_nil]
        rw [happenings_outer (f := .tickCycleCompleted _ _) trivial,
          happenings_outer (f := .tickCycleBegun _) trivial]
      · rintro errs ⟨⟩; exact .inr (.inr ⟨e, rfl, rfl⟩)
      · simp [bracketRun, bracketStep]
      · intro o ho
        simp only [List.mem_cons, List.not_mem_nil, or_false] at ho
        rcases ho with rfl | rfl <;> trivial
      · intro c _ e he; simp [dispatchedIn] at he
    · unfold engTickLocked at hr
      have h2 := (tick_rule wf oo (s.notify (.tickCycleBegun (oo.cycle A)))).all order [] [] [] _ hmem
        ⟨hi, [], rfl, by simp, rfl, by simp, fun _ _ _ => ⟨rfl, rfl, rfl⟩, fun _ => ⟨rfl, fun _ _ => rfl⟩⟩
      rcases hh : tickAll A oo order [] [] (s.notify (.tickCycleBegun (oo.cycle A))) with
        ⟨s1, v | ⟨q, errs, c⟩⟩
      · rw [hh] at h2 hr
        simp only at hr
        obtain ⟨rfl, rfl⟩ := Prod.mk.inj hr
        obtain ⟨_, recs, h, seg, g⟩ := h2
        obtain ⟨a, b, c, d, p, sc⟩ := recs_flat recs g.ok
        obtain ⟨a2, b2, c2, d2⟩ := tickObs_flat seg g.inner
        have hsc1 := sc (s.trace ++ [.fact (.tickCycleBegun (oo.cycle A))]) (by rw [hsc]) (by rw [hsc]; rfl)
        have hsc2 : scan ((s.trace ++ [.fact (.tickCycleBegun (oo.cycle A))]) ++ recs.flatMap TickRec.trace ++
            [.fact (.tickBegun h)]) = ⟨(scan s.trace).done ++ recs.flatMap (TickRec.happens oo.now) ++
              [.ticked oo.now h], none, oo.now⟩ := by
          rw [scan_snoc, hsc1, hsc]; rfl
        have hsc3 := scan_tickObs seg _ (by rw [hsc2]) g.inner
        have e1 : s1.trace = (s.trace ++ [.fact (.tickCycleBegun (oo.cycle A))]) ++ recs.flatMap TickRec.trace ++
            [.fact (.tickBegun h)] ++ seg := by rw [g.trace, Sys.notify_trace]; simp
        have dd : dispatchedIn ([.fact (.tickCycleBegun (oo.cycle A))] ++ recs.flatMap TickRec.trace ++
            [.fact (.tickBegun h)] ++ seg : List (Obs R)) = [] := by
          rw [dispatchedIn_append, dispatchedIn_append, dispatchedIn_append, c, c2]; rfl
        have oo' : offersIn ([.fact (.tickCycleBegun (oo.cycle A))] ++ recs.flatMap TickRec.trace ++
            [.fact (.tickBegun h)] ++ seg : List (Obs R)) = [] := by
          rw [offersIn_append, offersIn_append, offersIn_append, b, b2]; rfl
        have hL : recs.flatMap (TickRec.happens oo.now) ++ [.ticked oo.now h] =
            (((recs.map TickRec.handler).filter (fun h => (skipHandler oo h).isNone)) ++ [h]).map
              (Happening.ticked oo.now) := by
          rw [recs_happens recs g.ok, List.map_append]; rfl
        refine ⟨[.fact (.tickCycleBegun (oo.cycle A))] ++ recs.flatMap TickRec.trace ++
            [.fact (.tickBegun h)] ++ seg, recs.flatMap (TickRec.happens oo.now) ++ [.ticked oo.now h],
          order.flatMap (released oo s), ⟨by rw [e1]; simp, ?_, ?_, ?_, nofun, ⟨[], ?_, fun _ => rfl⟩, ?_, ?_, ?_, g.inert⟩,
          Or.inl ⟨dd, nofun, _, ?_, hL⟩, rfl⟩
        · unfold happenings; rw [e1, hsc3, hsc2]; simp
        · rw [hL]; intro x hx
          obtain ⟨y, _, rfl⟩ := List.mem_map.1 hx; rfl
        · rw [dd, hL, ticked_emits]; simp
        · rw [oo', dd]; rfl
        · refine ⟨[.ticking h, .tickCycle], ?_, nofun⟩
          rw [bracketRun_append, bracketRun_append, bracketRun_append, hb0, Option.bind_some, d, Option.bind_some]
          simp [bracketRun, bracketStep, d2]
        · intro o ho
          simp only [List.mem_append, List.mem_singleton] at ho
          rcases ho with ((rfl | ho) | rfl) | ho
          · trivial
          · exact p o ho
          · exact ⟨g.handler, g.enabled⟩
          · exact tickObs_partake g.handler g.enabled (g.inner o ho)
        · rw [dd]; intro c _ e he; simp at he
        · intro x hx
          rcases List.mem_append.1 hx with hx | hx
          · obtain ⟨r, hr, rfl⟩ := List.mem_map.1 (List.mem_filter.1 hx).1
            exact ho.mem_iff.2 (TickRec.handler_ok (g.ok r hr))
          · rw [List.mem_singleton.1 hx]; exact ho.mem_iff.2 g.handler
      · rw [hh] at h2 hr
        -- the log of the tick phase
        have key : ∀ recs : List (TickRec R), TickLog A oo (s.notify (.tickCycleBegun (oo.cycle A))) recs q errs s1 →
            scan s1.trace = ⟨(scan s.trace).done ++ recs.flatMap (TickRec.happens oo.now), none, oo.now⟩ ∧
            s1.trace = s.trace ++ ([.fact (.tickCycleBegun (oo.cycle A))] ++ recs.flatMap TickRec.trace) ∧
            dispatchedIn ([.fact (.tickCycleBegun (oo.cycle A))] ++ recs.flatMap TickRec.trace : List (Obs R)) = [] ∧
            offersIn ([.fact (.tickCycleBegun (oo.cycle A))] ++ recs.flatMap TickRec.trace : List (Obs R)) = [] ∧
            errorsIn ([.fact (.tickCycleBegun (oo.cycle A))] ++ recs.flatMap TickRec.trace : List (Obs R)) = errs ∧
            bracketRun [] ([.fact (.tickCycleBegun (oo.cycle A))] ++ recs.flatMap TickRec.trace) = some [.tickCycle] ∧
            ∀ o ∈ ([.fact (.tickCycleBegun (oo.cycle A))] ++ recs.flatMap TickRec.trace : List (Obs R)), Partake A oo o := by
          intro recs g
          obtain ⟨a, b, c, d, p, sc⟩ := recs_flat recs g.ok
          have hsc1 := sc (s.trace ++ [.fact (.tickCycleBegun (oo.cycle A))]) (by rw [hsc]) (by rw [hsc]; rfl)
          have e1 := g.trace
          rw [Sys.notify_trace] at e1
          refine ⟨by rw [e1, hsc1, hsc], by rw [e1]; simp, ?_, ?_, ?_, ?_, ?_⟩
          · rw [dispatchedIn_append, c]; rfl
          · rw [offersIn_append, b]; rfl
          · rw [errorsIn_append, a, g.errs]; rfl
          · rw [bracketRun_append, hb0, Option.bind_some, d]
          · intro o ho
            rcases List.mem_append.1 ho with ho | ho
            · rw [List.mem_singleton.1 ho]; trivial
            · exact p o ho
        cases c with
        | some c =>
          simp only at hr
          cases hr
          obtain ⟨done', ⟨_, recs, hrec, g⟩, hcx⟩ := h2
          obtain ⟨k1, k2, k3, k4, k5, k6, k7⟩ := key recs g
          refine ⟨([.fact (.tickCycleBegun (oo.cycle A))] ++ recs.flatMap TickRec.trace) ++
              [.fact (.tickCycleCompleted (oo.cycle A).maps [.ctx c])], recs.flatMap (TickRec.happens oo.now),
            order.flatMap (released oo s), ⟨by rw [Sys.notify_trace, k2]; simp, ?_, ?_, ?_, ?_, ⟨[], ?_, fun _ => rfl⟩,
              ⟨[], ?_, fun _ _ => rfl⟩, ?_, ?_, g.inert⟩, Or.inl ⟨?_, fun _ h0 => by cases h0; exact .inl ⟨c, by simp⟩, _, ?_, recs_happens recs g.ok⟩, rfl⟩
          · rw [Sys.notify_trace, happenings_outer (f := .tickCycleCompleted _ _) trivial]
            unfold happenings; rw [k1]
          · rw [recs_happens recs g.ok]; intro x hx
            obtain ⟨y, _, rfl⟩ := List.mem_map.1 hx; rfl
          · rw [dispatchedIn_append, k3, recs_happens recs g.ok, ticked_emits]; simp [dispatchedIn]
          · rintro errs' ⟨⟩; exact .inr (.inl ⟨[], c, rfl, List.nil_prefix, hcx⟩)
          · rw [offersIn_append, dispatchedIn_append, k3, k4]; rfl
          · rw [bracketRun_append, k6, Option.bind_some]; simp [bracketRun, bracketStep]
          · intro o ho
            rcases List.mem_append.1 ho with ho | ho
            · exact k7 o ho
            · rw [List.mem_singleton.1 ho]; trivial
          · rw [dispatchedIn_append, k3]; intro c _ e he; simp [dispatchedIn] at he
          · rw [dispatchedIn_append, k3]; rfl
          · intro x hx
            obtain ⟨r, hr, rfl⟩ := List.mem_map.1 (List.mem_filter.1 hx).1
            exact ho.mem_iff.2 (TickRec.handler_ok (g.ok r hr))
        | none =>
          simp only at hr
          obtain ⟨hi2, recs, hrec, g⟩ := h2
          simp only [List.nil_append] at hrec
          obtain ⟨k1, k2, k3, k4, k5, k6, k7⟩ := key recs g
          have hq : q = order.flatMap (released oo s) := by
            have hn : (recs.map (fun r => r.handler.name)) = order.map HConfig.name := by
              rw [← hrec, List.map_map]; rfl
            have := (g.rel (by rw [hn]; exact hnd)).1
            rw [this, ← hrec, List.flatMap_map]; rfl
          rcases hl : dispatchLoop A oo n q [] s1 with ⟨s2, o2⟩
          obtain ⟨t, L, left, f⟩ := loop_flat wf hi2 (by rw [k1]) n hl
          obtain ⟨miss, hm1, hm2⟩ := f.offers
          obtain ⟨fr, hb1, hb2⟩ := f.brackets [.tickCycle] rfl
          have hh : happenings s2.trace = happenings s.trace ++ (recs.flatMap (TickRec.happens oo.now) ++ L) := by
            rw [f.happens]; unfold happenings; rw [k1, List.append_assoc]
          have hL : recs.flatMap (TickRec.happens oo.now) ++ L =
              (order.filter (fun h => (skipHandler oo h).isNone)).map (Happening.ticked oo.now) ++ L := by
            rw [recs_happens recs g.ok, hrec]
          have hti : ∀ x ∈ recs.flatMap (TickRec.happens oo.now) ++ L, x.time = oo.now := by
            intro x hx
            rcases List.mem_append.1 hx with hx | hx
            · rw [recs_happens recs g.ok] at hx
              obtain ⟨y, _, rfl⟩ := List.mem_map.1 hx; rfl
            · obtain ⟨h, env, seg, err, rfl⟩ := f.handled x hx; rfl
          have hdisp : dispatchedIn t ++ left = order.flatMap (released oo s) ++
              (recs.flatMap (TickRec.happens oo.now) ++ L).flatMap Happening.emits := by
            rw [f.disp, hq, List.flatMap_append, recs_happens recs g.ok, ticked_emits]; rfl
          have hcorr : SameCorr (order.flatMap (released oo s)) (dispatchedIn t) := by
            rw [← hq]
            exact fun c hc e he => f.corr c hc e (List.mem_append_left _ he)
          have hin : Inert A oo s s2 := by
            intro x hx hsk
            obtain ⟨a, b, c⟩ := f.inert x hx hsk
            obtain ⟨a', b', c'⟩ := g.inert x hx hsk
            exact ⟨a.trans a', b.trans b', c.trans c'⟩
          rw [hl] at hr
          have hpart : ∀ o ∈ ([.fact (.tickCycleBegun (oo.cycle A))] ++ recs.flatMap TickRec.trace) ++ t,
              Partake A oo o := by
            intro o ho
            rcases List.mem_append.1 ho with ho | ho
            · exact k7 o ho
            · exact f.partake o ho
          cases o2 with
          | done derrs =>
            simp only at hr
            cases hr
            have hfr : fr = [] := hb2 (fun v => nofun)
            subst hfr
            refine ⟨([.fact (.tickCycleBegun (oo.cycle A))] ++ recs.flatMap TickRec.trace ++ t) ++
                [.fact (.tickCycleCompleted (oo.cycle A).maps (errs ++ derrs))], recs.flatMap (TickRec.happens oo.now) ++ L, left,
              ⟨by rw [Sys.notify_trace, f.trace, k2]; simp, ?_, hti, ?_, ?_,
                ⟨miss, ?_, fun _ => hm2 (fun v => nofun)⟩, ⟨[], ?_, fun _ _ => rfl⟩, ?_, ?_, hin⟩,
              Or.inr ⟨L, hL, f.handled⟩, rfl⟩
            · rw [Sys.notify_trace, happenings_outer (f := .tickCycleCompleted _ _) trivial, hh]
            · rw [dispatchedIn_append, dispatchedIn_append, k3]; simpa [dispatchedIn] using hdisp
            · rintro errs' ⟨⟩
              rcases f.done derrs rfl with ⟨a, b⟩ | ⟨c, rfl, hcx⟩
              · refine .inl ⟨a, ?_⟩
                rw [errorsIn_append, errorsIn_append, ← b, k5]; simp [errorsIn]
              · refine .inr (.inl ⟨errs, c, rfl, ?_, hcx⟩)
                rw [errorsIn_append, errorsIn_append, k5, List.append_assoc]
                exact List.prefix_append _ _
            · rw [offersIn_append, offersIn_append, dispatchedIn_append, dispatchedIn_append, k3, k4]
              simpa [offersIn, dispatchedIn] using hm1
            · rw [bracketRun_append, bracketRun_append, k6, Option.bind_some, hb1, Option.bind_some]
              simp [bracketRun, bracketStep]
            · intro o ho
              rcases List.mem_append.1 ho with ho | ho
              · exact hpart o ho
              · rw [List.mem_singleton.1 ho]; trivial
            · rw [dispatchedIn_append, dispatchedIn_append, k3]; simpa [dispatchedIn] using hcorr
          | panicked v =>
            simp only at hr
            cases hr
            refine ⟨[.fact (.tickCycleBegun (oo.cycle A))] ++ recs.flatMap TickRec.trace ++ t,
              recs.flatMap (TickRec.happens oo.now) ++ L, left,
              ⟨by rw [f.trace, k2]; simp, hh, hti, ?_, nofun, ⟨miss, ?_, fun h0 => hm2 h0⟩,
                ⟨fr ++ [.tickCycle], ?_, fun errs h0 => nomatch h0⟩, hpart, ?_, hin⟩,
              Or.inr ⟨L, hL, f.handled⟩, rfl⟩
            · rw [dispatchedIn_append, k3]; simpa [dispatchedIn] using hdisp
            · rw [offersIn_append, dispatchedIn_append, k3, k4]; simpa [offersIn, dispatchedIn] using hm1
            · rw [bracketRun_append, k6, Option.bind_some, hb1]
            · rw [dispatchedIn_append, k3]; simpa [dispatchedIn] using hcorr
          | running =>
            simp only at hr
            cases hr
            refine ⟨[.fact (.tickCycleBegun (oo.cycle A))] ++ recs.flatMap TickRec.trace ++ t,
              recs.flatMap (TickRec.happens oo.now) ++ L, left,
              ⟨by rw [f.trace, k2]; simp, hh, hti, ?_, nofun, ⟨miss, ?_, fun h0 => hm2 h0⟩,
                ⟨fr ++ [.tickCycle], ?_, fun errs h0 => nomatch h0⟩, hpart, ?_, hin⟩,
              Or.inr ⟨L, hL, f.handled⟩, rfl⟩
            · rw [dispatchedIn_append, k3]; simpa [dispatchedIn] using hdisp
            · rw [offersIn_append, dispatchedIn_append, k3, k4]; simpa [offersIn, dispatchedIn] using hm1
            · rw [bracketRun_append, k6, Option.bind_some, hb1]
            · rw [dispatchedIn_append, k3]; simpa [dispatchedIn] using hcorr

end Verif
