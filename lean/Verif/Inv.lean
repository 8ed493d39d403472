import Verif.Core

/-!
# The core invariant holds in every reachable state
-/

namespace Verif

variable {W R : Type}

theorem takeWhile_holds {α : Type} (p : α → Bool) (l : List α) {x : α}
    (hx : x ∈ l.takeWhile p) : p x = true := by
  induction l with
  | nil => cases hx
  | cons a l ih =>
    rw [List.takeWhile_cons] at hx
    split at hx
    · rcases List.mem_cons.1 hx with rfl | hx
      · assumption
      · exact ih hx
    · cases hx

theorem sinceReset_fact (t : List (Obs R)) (f : Fact) :
    sinceReset (t ++ [.fact f]) = sinceReset t ++ [.fact f] :=
  sinceReset_snoc t (.fact f) (fun h => nomatch h)

/-! ## Ticks -/

/-- Observations made while `h` is ticked. -/
def TickObs (h : HConfig) (now : Time) : Obs R → Prop
  | .call c => c = .prjCompact h now
  | .fact (.prjCompactBegun h') => h' = h
  | .fact (.prjCompactCompleted h' _) => h' = h
  | .fact (.prjLog h' e _) => h' = h ∧ e = none
  | _ => False

theorem prjRun_none {α : Type} (h : HConfig) (p : Prog W PrjOp α) (s : Sys W R) :
    ∃ seg, (prjRun h none p s).1.trace = s.trace ++ seg ∧
      (∀ o ∈ seg, ∃ t, o = .fact (.prjLog h none t)) ∧
      (prjRun h none p s).1.nextID = s.nextID ∧ (prjRun h none p s).1.agg = s.agg ∧
      (prjRun h none p s).1.proc = s.proc ∧ (prjRun h none p s).1.lastCompact = s.lastCompact := by
  induction p generalizing s with
  | ret => exact ⟨[], by simp [prjRun], by simp, rfl, rfl, rfl, rfl⟩
  | panic v => exact ⟨[], by simp [prjRun], by simp, rfl, rfl, rfl, rfl⟩
  | get k ih => exact ih _ _
  | set w k ih => exact ih { s with w := w }
  | op o k ih =>
    cases o with
    | log t =>
      obtain ⟨seg, h1, h2, h3⟩ := ih none (s.notify (.prjLog h none t))
      refine ⟨.fact (.prjLog h none t) :: seg, ?_, ?_, h3⟩
      · simp only [prjRun]; rw [h1]; simp
      · intro o ho
        rcases List.mem_cons.1 ho with rfl | ho
        · exact ⟨t, rfl⟩
        · exact h2 o ho

/-- Summary of one controller tick. -/
structure TickSum (h : HConfig) (now : Time) (s s' : Sys W R) (res : HRes) (seg : List (Obs R)) :
    Prop where
  trace : s'.trace = s.trace ++ seg
  obs : ∀ o ∈ seg, TickObs h now o ∧ h.htype = .projection
  nextID : s'.nextID = s.nextID
  agg : s'.agg = s.agg
  proc : s'.proc = if h.htype = .process then upd s.proc h.name ⟨(s.proc h.name).inst,
    (s.proc h.name).timeouts.dropWhile (fun e => decide (e.scheduledFor ≤ now))⟩ else s.proc
  ok : ∀ envs e, res = .ok (envs, e) → envs = if h.htype = .process then
    (s.proc h.name).timeouts.takeWhile (fun e => decide (e.scheduledFor ≤ now)) else []
  pan : ∀ v, res = .error v → h.htype = .projection
  last : s'.lastCompact = if h.htype = .projection ∧
      timeSub now (s.lastCompact h.name) ≥ compactInterval
    then upd s.lastCompact h.name now else s.lastCompact
  shape : (seg = [] ∧ (h.htype = .projection → timeSub now (s.lastCompact h.name) < compactInterval)) ∨
    (timeSub now (s.lastCompact h.name) ≥ compactInterval ∧ h.htype = .projection ∧
      ∃ logs, (∀ o ∈ logs, ∃ t, o = .fact (.prjLog h none t)) ∧
        match res with
        | .error _ => seg = .fact (.prjCompactBegun h) :: .call (.prjCompact h now) :: logs
        | .ok (_, e) => seg = .fact (.prjCompactBegun h) :: .call (.prjCompact h now) ::
            (logs ++ [.fact (.prjCompactCompleted h e)]))

theorem ctlTick_sum (A : App W R) (h : HConfig) (now : Time) (s : Sys W R) :
    ∃ seg, TickSum h now s (ctlTick A h now s).1 (ctlTick A h now s).2 seg := by
  unfold ctlTick
  cases ht : h.htype with
  | process =>
    refine ⟨[], ?_, by simp, ?_, ?_, ?_, ?_, ?_, ?_, .inl ⟨rfl, by simp [ht]⟩⟩ <;>
      simp [procTick, ht, Sys.setProc]
  | aggregate =>
    refine ⟨[], ?_, by simp, ?_, ?_, ?_, ?_, ?_, ?_, .inl ⟨rfl, by simp [ht]⟩⟩ <;> simp [ht]
  | integration =>
    refine ⟨[], ?_, by simp, ?_, ?_, ?_, ?_, ?_, ?_, .inl ⟨rfl, by simp [ht]⟩⟩ <;> simp [ht]
  | projection =>
    simp only
    unfold prjTick
    by_cases hd : timeSub now (s.lastCompact h.name) ≥ compactInterval
    · simp only [hd, if_true]
      obtain ⟨logs, h1, h2, h3, h4, h5, h6⟩ := prjRun_none h (A.uc.prjCompact h now)
        ((({ s with lastCompact := upd s.lastCompact h.name now } : Sys W R).notify
          (.prjCompactBegun h)).emit (.call (.prjCompact h now)))
      have hobs : ∀ o ∈ logs, TickObs h now o ∧ h.htype = .projection := by
        intro o ho
        obtain ⟨t, rfl⟩ := h2 o ho
        exact ⟨⟨rfl, rfl⟩, ht⟩
      split
      · rename_i s1 v hh
        split at hh
        · rename_i hr
          cases hh
          rw [hr] at h1 h3 h4 h5 h6
          refine ⟨.fact (.prjCompactBegun h) :: .call (.prjCompact h now) :: logs, ?_, ?_, h3, h4,
            ?_, by simp, fun _ _ => ht, ?_, .inr ⟨hd, ht, logs, h2, rfl⟩⟩
          · simp only at h1; rw [h1]; simp
          · intro o ho
            simp only [List.mem_cons] at ho
            rcases ho with rfl | rfl | ho
            · exact ⟨rfl, ht⟩
            · exact ⟨rfl, ht⟩
            · exact hobs o ho
          · simp only at h5; rw [h5]; simp [ht]
          · simp only at h6; rw [h6]; simp [ht, hd]
        · cases hh
      · rename_i s1 e hh
        split at hh
        · cases hh
        · rename_i hr
          cases hh
          rw [hr] at h1 h3 h4 h5 h6
          refine ⟨.fact (.prjCompactBegun h) :: .call (.prjCompact h now) ::
            (logs ++ [.fact (.prjCompactCompleted h e)]), ?_, ?_, h3, h4,
            ?_, by simp [ht], by simp, ?_, .inr ⟨hd, ht, logs, h2, rfl⟩⟩
          · simp only at h1; simp [Sys.notify, Sys.emit, h1]
          · intro o ho
            simp only [List.mem_cons, List.mem_append, List.not_mem_nil, or_false] at ho
            rcases ho with rfl | rfl | ho | rfl
            · exact ⟨rfl, ht⟩
            · exact ⟨rfl, ht⟩
            · exact hobs o ho
            · exact ⟨rfl, ht⟩
          · simp only at h5; simp [Sys.notify, Sys.emit, ht, h5]
          · simp only at h6; simp [Sys.notify, Sys.emit, ht, hd, h6]
    · simp only [hd, if_false]
      refine ⟨[], by simp, by simp, rfl, rfl, by simp [ht], by simp [ht], by simp, by simp [ht, hd],
        .inl ⟨rfl, fun _ => ?_⟩⟩
      omega

theorem tick_ctx {h : HConfig} {now : Time} {o : Obs R} (ho : TickObs h now o)
    (t : List (Obs R)) : handlingNow (t ++ [o]) = handlingNow t ∧ timeNow (t ++ [o]) = timeNow t ∧
      dispatchingNow (t ++ [o]) = dispatchingNow t ∧ o ≠ .reset ∧ o.created = none ∧
      dispatchedIn [o] = [] := by
  rw [handlingNow_snoc, timeNow_snoc, dispatchingNow_snoc]
  cases o with
  | call c => simp [dispatchedIn, Obs.created]
  | reset => exact ho.elim
  | fact f =>
    cases f <;> first | exact ⟨rfl, rfl, rfl, nofun, rfl, rfl⟩ | exact ho.elim

/-! ## The invariant -/

/-- Between messages. -/
structure CoreI (A : App W R) (oo : OpOpts) (q : List Env) (s : Sys W R) : Prop where
  core : Core A s
  time : timeNow s.trace = some oo.now
  idle : handlingNow s.trace = none
  queue : ∀ e ∈ q, QOK A oo.now s e

/-- While `env` is being dispatched. -/
structure CoreJ (A : App W R) (oo : OpOpts) (env : Env) (q : List Env) (s : Sys W R) : Prop where
  base : CoreI A oo (env :: q) s
  disp : dispatchingNow s.trace = some env

theorem targets_sound {A : App W R} (wf : A.WF) {env : Env} {hs : List HConfig}
    (ht : A.targets env = .ok hs) (hq : env.msg.type.kind = .timeout → TimeoutOK A env)
    {h : HConfig} (hh : h ∈ hs) :
    h ∈ A.cfgs ∧ env.msg.type ∈ h.consumes ∧ (env.msg.type.kind = .timeout →
      ∃ o, env.origin = some o ∧ o.handler = h ∧ h.htype = .process) := by
  unfold App.targets at ht
  split at ht
  · rename_i hk
    obtain ⟨o, ho, hm, hty, hp, _⟩ := hq hk
    rw [ho] at ht
    simp only at ht
    split at ht
    · cases ht
    · rename_i h' hf
      cases ht
      obtain rfl := List.mem_singleton.1 hh
      have hmem := List.mem_of_find?_eq_some hf
      have hname : h.name = o.handler.name := by
        have := List.find?_some hf; simpa using this
      have : h = o.handler := by
        have nd := wf.names
        rw [List.nodup_iff_pairwise_ne, List.pairwise_map] at nd
        apply Classical.byContradiction; intro hne
        obtain ⟨i, hi, e1⟩ := List.getElem_of_mem hmem
        obtain ⟨j, hj, e2⟩ := List.getElem_of_mem hm
        have := List.pairwise_iff_getElem.1 nd
        rcases Nat.lt_trichotomy i j with hlt | heq | hgt
        · exact this i j hi hj hlt (by rw [e1, e2]; exact hname)
        · subst heq; exact hne (e1.symm.trans e2)
        · exact this j i hj hi hgt (by rw [e1, e2]; exact hname.symm)
      subst this
      refine ⟨hm, ?_, fun _ => ⟨o, ho, rfl, hty⟩⟩
      have := (wf.handlers _ hm).produces _ hp
      rw [hty] at this
      simp only [hk] at this
      rcases this with h0 | h0
      · cases h0
      · exact h0.2
  · rename_i hk
    cases ht
    simp only [App.route, List.mem_filter, HConfig.consumes?, decide_eq_true_eq] at hh
    exact ⟨hh.1, hh.2, fun h0 => (hk h0).elim⟩

/-- Facts about which the core invariant says nothing. -/
def Fact.plain : Fact → Prop
  | .dispatchCycleCompleted _ _ _ | .dispatchCompleted _ _ | .handlingCompleted _ _ _
  | .tickCycleBegun _ | .tickCycleCompleted _ _ | .tickBegun _ | .tickCompleted _ _
  | .tickSkipped _ _ | .prjCompactBegun _ | .prjCompactCompleted _ _ | .prjLog _ _ _ => True
  | _ => False

theorem emitted_plain {A : App W R} {f : Fact} (hf : f.plain) (pre : List (Obs R)) :
    Emitted A pre (.fact f) ∧ f.created = none := by
  cases f <;> first | exact hf.elim | simp [Emitted, Fact.produced, Fact.created]

theorem Core.plain {A : App W R} {s : Sys W R} (hc : Core A s) {f : Fact} (hf : f.plain) :
    Core A (s.notify f) := by
  obtain ⟨h1, h2⟩ := emitted_plain (A := A) hf s.trace
  refine ⟨hc.toCore0.quiet rfl (Nat.le_refl _) nofun h2 h1, ?_⟩
  intro n e he
  obtain ⟨a, b, c⟩ := hc.pend n e he
  exact ⟨created_mono (seg := [.fact f]) rfl (by simp) a, b, c⟩

theorem Core.obs {A : App W R} {s : Sys W R} (hc : Core A s) {o : Obs R} (hr : o ≠ .reset)
    (h1 : o.created = none) (h2 : Emitted A s.trace o) : Core A (s.emit o) := by
  refine ⟨hc.toCore0.quiet rfl (Nat.le_refl _) hr h1 h2, ?_⟩
  intro n e he
  obtain ⟨a, b, c⟩ := hc.pend n e he
  exact ⟨created_mono (seg := [o]) rfl (by simpa using hr) a, b, c⟩

theorem QOK.notify {A : App W R} {now : Time} {s : Sys W R} {f : Fact} {e : Env}
    (hq : QOK A now s e) : QOK A now (s.notify f) e :=
  hq.mono (seg := [.fact f]) rfl (by simp)

section handle
variable {A : App W R} {oo : OpOpts}

theorem CoreI.begin_ {env : Env} {q : List Env} {s : Sys W R} (hi : CoreI A oo (env :: q) s) :
    CoreJ A oo env q (s.notify (.dispatchBegun env)) := by
  have hq := hi.queue env (by simp)
  refine ⟨⟨hi.core.obs nofun rfl ?_, ?_, ?_, fun e he => (hi.queue e he).notify⟩, ?_⟩
  · refine ⟨by simp [Fact.produced], by simp, by simp, ?_, by simp⟩
    rintro env' ⟨⟩
    exact ⟨hq.1, fun hk => ⟨oo.now, hi.time, (hq.2 hk).1⟩⟩
  · simp only [Sys.notify_trace, timeNow_snoc]; exact hi.time
  · simp only [Sys.notify_trace, handlingNow_snoc]; exact hi.idle
  · simp only [Sys.notify_trace, dispatchingNow_snoc]

theorem CoreJ.end_ {env : Env} {q : List Env} {s : Sys W R} (hj : CoreJ A oo env q s)
    (de : List EngErr) : CoreI A oo q (s.notify (.dispatchCompleted env de)) := by
  refine ⟨hj.base.core.plain trivial, ?_, ?_, ?_⟩
  · simp only [Sys.notify_trace, timeNow_snoc]; exact hj.base.time
  · simp only [Sys.notify_trace, handlingNow_snoc]; exact hj.base.idle
  · intro e he; exact (hj.base.queue e (by simp [he])).notify

theorem CoreJ.offered (wf : A.WF) {env : Env} {q : List Env} {s : Sys W R}
    (hj : CoreJ A oo env q s) {hs : List HConfig} (ht : A.targets env = .ok hs) {h : HConfig}
    (hh : h ∈ hs) : Offered A s.trace h env := by
  have hq := hj.base.queue env (by simp)
  obtain ⟨h1, h2, h3⟩ := targets_sound wf ht (fun hk => (hq.2 hk).2) hh
  exact ⟨h1, hj.disp, hq.1, h2, fun hk => ⟨h3 hk, oo.now, hj.base.time, (hq.2 hk).1⟩⟩

theorem CoreJ.inside (wf : A.WF) {env : Env} {q : List Env} {s : Sys W R}
    (hj : CoreJ A oo env q s) {hs : List HConfig} (ht : A.targets env = .ok hs) {h : HConfig}
    (hh : h ∈ hs) : Inside A h oo.now env (s.notify (.handlingBegun h env)) := by
  have hoff := hj.offered wf ht hh
  refine ⟨hj.base.core.toCore0.quiet rfl (Nat.le_refl _) nofun rfl ?_, ?_, ?_, ?_, hoff.handler,
    (hj.base.queue env (by simp)).notify⟩
  · refine ⟨by simp [Fact.produced], ?_, by simp, by simp, by simp⟩
    rintro h' env' ⟨⟩; exact hoff
  · simp only [Sys.notify_trace, handlingNow_snoc]
  · simp only [Sys.notify_trace, timeNow_snoc]; exact hj.base.time
  · simp only [Sys.notify_trace, dispatchingNow_snoc]; exact hj.disp

theorem pend_seg {h : HConfig} {now : Time} {env : Env} {seg : List (Obs R)} (hm : h ∈ A.cfgs)
    (hs : ∀ o ∈ seg, InnerObs h now env o) {e : Env} (he : e ∈ timeoutsIn seg) :
    TimeoutOK A e ∧ ∃ o, e.origin = some o ∧ o.handler.name = h.name := by
  simp only [timeoutsIn, List.mem_filterMap] at he
  obtain ⟨o, ho, he⟩ := he
  have := hs o ho
  split at he
  · rename_i h' id env' e'
    obtain rfl := Option.some.inj he
    rcases this with h0 | ⟨ev, h1, h2, h3⟩
    · exact h0.elim
    · simp only [Fact.produced, Option.some.injEq, Prod.mk.injEq] at h1
      obtain ⟨rfl, rfl, rfl⟩ := h1
      exact ⟨⟨_, h3.2.2, hm, h3.1, h2.declared, h3.2.1⟩, _, h3.2.2, rfl⟩
  · cases he

theorem mem_procCommit {now : Time} {seg : List (Obs R)} {e : Option Err} {p p' : ProcState R}
    (hc : ProcCommit A now seg e p p') {x : Env} (hx : x ∈ p'.timeouts) :
    x ∈ p.timeouts ∨ x ∈ timeoutsIn seg := by
  unfold ProcCommit at hc
  split at hc
  · rw [hc] at hx; exact .inl hx
  · obtain ⟨_, hc⟩ := hc
    split at hc
    · rw [hc.1] at hx; exact .inl hx
    · split at hc
      · rw [hc.2] at hx
        split at hx
        · exact .inl (List.mem_filter.1 hx).1
        · exact .inl hx
      · rw [hc.2, (A.sort.perm _).mem_iff, List.mem_append] at hx
        rcases hx with hx | hx
        · exact .inl hx
        · exact .inr (List.mem_filter.1 hx).1

/-- A handling keeps pending timeouts proper. -/
theorem ctlHandle_pend {h : HConfig} {now : Time} {env : Env} {s : Sys W R} (hm : h ∈ A.cfgs)
    (hp : PendOK A s) : PendOK A (ctlHandle A h now env s).1 := by
  obtain ⟨seg, h1, h2, _, _, h5, h6, _, _⟩ := ctlHandle_sum A h now env s
  have hr := (inner_ctxs seg s.trace h2).2.2.2.1
  intro n e he
  have hold : e ∈ (s.proc n).timeouts → e ∈ createdIn (sinceReset (ctlHandle A h now env s).1.trace) ∧
      TimeoutOK A e ∧ ∃ o, e.origin = some o ∧ o.handler.name = n := by
    intro he
    obtain ⟨a, b, c⟩ := hp n e he
    exact ⟨created_mono h1 hr a, b, c⟩
  by_cases ht : h.htype = .process
  · have g := h5 ht
    by_cases hn : n = h.name
    · subst hn
      rcases hres : (ctlHandle A h now env s).2 with v | ⟨envs, er⟩
      · rw [(g.err v hres).1] at he; exact hold he
      · rcases mem_procCommit (g.ok _ _ hres).2 he with hx | hx
        · exact hold hx
        · obtain ⟨a, b⟩ := pend_seg hm h2 hx
          refine ⟨?_, a, b⟩
          rw [h1, sinceReset_append _ _ hr, createdIn_append]
          exact List.mem_append_right _ (mem_timeoutsIn_created hx)
    · rw [g.other n hn] at he; exact hold he
  · rw [h6 ht] at he; exact hold he

/-- Messages returned by a handling may be put in the queue. -/
theorem emission_ok {h : HConfig} {now : Time} {env : Env} {seg : List (Obs R)} {er : Option Err}
    (hm : h ∈ A.cfgs) (hs : ∀ o ∈ seg, InnerObs h now env o) {e : Env}
    (he : e ∈ emission h now seg er) :
    e ∈ createdIn seg ∧ (e.msg.type.kind = .timeout → e.scheduledFor ≤ now ∧ TimeoutOK A e) := by
  have hcmd : ∀ x ∈ commandsIn seg, x.msg.type.kind = .command := by
    intro x hx
    simp only [commandsIn, List.mem_filterMap] at hx
    obtain ⟨o, ho, hx⟩ := hx
    have := hs o ho
    split at hx
    · obtain rfl := Option.some.inj hx
      rcases this with h0 | ⟨ev, h1, h2, h3⟩
      · exact h0.elim
      · exact h3.2.1
    · cases hx
  have hagg : ∀ x ∈ aggEventsIn seg, x.msg.type.kind = .event := by
    intro x hx
    simp only [aggEventsIn, List.mem_filterMap] at hx
    obtain ⟨o, ho, hx⟩ := hx
    have := hs o ho
    split at hx
    · obtain rfl := Option.some.inj hx
      rcases this with h0 | ⟨ev, h1, h2, h3⟩
      · exact h0.elim
      · exact h3.2.1
    · cases hx
  have hint : ∀ x ∈ intEventsIn seg, x.msg.type.kind = .event := by
    intro x hx
    simp only [intEventsIn, List.mem_filterMap] at hx
    obtain ⟨o, ho, hx⟩ := hx
    have := hs o ho
    split at hx
    · obtain rfl := Option.some.inj hx
      rcases this with h0 | ⟨ev, h1, h2, h3⟩
      · exact h0.elim
      · exact h3.2.1
    · cases hx
  unfold emission at he
  split at he
  · exact ⟨mem_aggEventsIn_created he, fun hk => by rw [hagg e he] at hk; cases hk⟩
  · exact ⟨mem_intEventsIn_created he, fun hk => by rw [hint e he] at hk; cases hk⟩
  · cases he
  · split at he
    · cases he
    · rcases List.mem_append.1 he with he | he
      · exact ⟨mem_commandsIn_created he, fun hk => by rw [hcmd e he] at hk; cases hk⟩
      · split at he
        · cases he
        · obtain ⟨h1, h2⟩ := List.mem_filter.1 he
          exact ⟨mem_timeoutsIn_created h1, fun _ => ⟨by simpa using h2, (pend_seg hm hs h1).1⟩⟩

/-- What one `handleOne` does, in the context of the core invariant. -/
theorem CoreJ.handle (wf : A.WF) {env : Env} {q : List Env} {s s' : Sys W R}
    (hj : CoreJ A oo env q s) {hs : List HConfig} (ht : A.targets env = .ok hs) {h : HConfig}
    (hh : h ∈ hs) {envs : List Env} {e : Option Err}
    (hr : handleOne A oo env h s = (s', .ok (envs, e))) : CoreJ A oo env (q ++ envs) s' := by
  unfold handleOne at hr
  split at hr
  · cases hr
    have hoff := hj.offered wf ht hh
    rename_i r _
    refine ⟨⟨hj.base.core.obs nofun rfl ?_, ?_, ?_, ?_⟩, ?_⟩
    · refine ⟨by simp [Fact.produced], by simp, ?_, by simp, by simp⟩
      rintro h' env' r' ⟨⟩; exact hoff
    · simp only [Sys.notify_trace, timeNow_snoc]; exact hj.base.time
    · simp only [Sys.notify_trace, handlingNow_snoc]; exact hj.base.idle
    · intro x hx; exact (hj.base.queue x (by simpa using hx)).notify
    · simp only [Sys.notify_trace, dispatchingNow_snoc]; exact hj.disp
  · have hin := hj.inside wf ht hh
    have hin' := (ctlHandle_steps A h oo.now env (s.notify (.handlingBegun h env))).inv
      (P := Inside A h oo.now env) (fun _ _ st hx => Inside.step st hx) hin
    have hpend := ctlHandle_pend (now := oo.now) (env := env) hin.handler
      (s := s.notify (.handlingBegun h env)) (by
        intro n x hx
        obtain ⟨a, b, c⟩ := hj.base.core.pend n x hx
        exact ⟨created_mono (seg := [.fact (.handlingBegun h env)]) rfl (by simp) a, b, c⟩)
    obtain ⟨seg, h1, h2, h3, _⟩ := ctlHandle_sum A h oo.now env (s.notify (.handlingBegun h env))
    have hnr := (inner_ctxs seg (s.notify (.handlingBegun h env)).trace h2).2.2.2.1
    rcases hc : ctlHandle A h oo.now env (s.notify (.handlingBegun h env)) with ⟨s1, v | ⟨envs1, e1⟩⟩
    · rw [hc] at hr; cases hr
    · rw [hc] at hr hin' hpend h1 h3
      simp only [Prod.mk.injEq, Except.ok.injEq] at hr
      obtain ⟨rfl, rfl, rfl⟩ := hr
      have hcore : Core A s1 := ⟨hin'.core, hpend⟩
      refine ⟨⟨hcore.plain trivial, ?_, ?_, ?_⟩, ?_⟩
      · simp only [Sys.notify_trace, timeNow_snoc]; exact hin'.time
      · simp only [Sys.notify_trace, handlingNow_snoc]
      · intro x hx
        have hx' : x ∈ env :: q ∨ x ∈ envs1 := by
          simp only [List.mem_cons, List.mem_append] at hx ⊢; exact or_assoc.2 hx
        rcases hx' with hx | hx
        · exact ((hj.base.queue x hx).notify.mono h1 hnr).notify
        · rw [h3 _ _ rfl] at hx
          obtain ⟨a, b⟩ := emission_ok hin.handler h2 hx
          refine QOK.notify ⟨?_, b⟩
          simp only at h1
          rw [h1, sinceReset_append _ _ hnr, createdIn_append]
          exact List.mem_append_right _ a
      · simp only [Sys.notify_trace, dispatchingNow_snoc]; exact hin'.disp

theorem CoreJ.panic (wf : A.WF) {env : Env} {q : List Env} {s s' : Sys W R}
    (hj : CoreJ A oo env q s) {hs : List HConfig} (ht : A.targets env = .ok hs) {h : HConfig}
    (hh : h ∈ hs) {v : PanicVal}
    (hr : handleOne A oo env h s = (s', .error v)) : Core A s' := by
  unfold handleOne at hr
  split at hr
  · cases hr
  · have hin := hj.inside wf ht hh
    have hin' := (ctlHandle_steps A h oo.now env (s.notify (.handlingBegun h env))).inv
      (P := Inside A h oo.now env) (fun _ _ st hx => Inside.step st hx) hin
    have hpend := ctlHandle_pend (now := oo.now) (env := env) hin.handler
      (s := s.notify (.handlingBegun h env)) (by
        intro n x hx
        obtain ⟨a, b, c⟩ := hj.base.core.pend n x hx
        exact ⟨created_mono (seg := [.fact (.handlingBegun h env)]) rfl (by simp) a, b, c⟩)
    rcases hc : ctlHandle A h oo.now env (s.notify (.handlingBegun h env)) with ⟨s1, v | ⟨envs1, e1⟩⟩
    · rw [hc] at hr hin' hpend
      cases hr
      exact ⟨hin'.core, hpend⟩
    · rw [hc] at hr; cases hr

/-- Ticking one controller. -/
theorem CoreI.ctlTick {q : List Env} {s : Sys W R} (hi : CoreI A oo q s) {h : HConfig}
    (hm : h ∈ A.cfgs) {s' : Sys W R} {res : HRes}
    (hr : Verif.ctlTick A h oo.now (s.notify (.tickBegun h)) = (s', res)) :
    CoreI A oo q s' ∧ ∀ envs e, res = .ok (envs, e) → ∀ x ∈ envs, QOK A oo.now s' x := by
  obtain ⟨seg, g⟩ := ctlTick_sum A h oo.now (s.notify (.tickBegun h))
  rw [hr] at g
  have h0 : CoreI A oo q (s.notify (.tickBegun h)) := by
    refine ⟨hi.core.plain trivial, ?_, ?_, fun e he => (hi.queue e he).notify⟩
    · simp only [Sys.notify_trace, timeNow_snoc]; exact hi.time
    · simp only [Sys.notify_trace, handlingNow_snoc]; exact hi.idle
  generalize s.notify (.tickBegun h) = s0 at h0 g hr
  have hlist : ∀ (l : List (Obs R)) (s1 : Sys W R), CoreI A oo q s1 →
      (∀ o ∈ l, TickObs h oo.now o ∧ h.htype = .projection) →
      CoreI A oo q { s1 with trace := s1.trace ++ l } ∧ ∀ o ∈ l, o ≠ .reset := by
    intro l
    induction l with
    | nil => intro s1 h1 _; refine ⟨by simpa using h1, by simp⟩
    | cons o l ih =>
      intro s1 h1 h2
      obtain ⟨c1, c2, c3, c4, c5, _⟩ := tick_ctx (h2 o (by simp)).1 s1.trace
      have hone : CoreI A oo q (s1.emit o) := by
        refine ⟨h1.core.obs c4 c5 ?_, ?_, ?_, ?_⟩
        · have ho := h2 o (by simp)
          cases o with
          | reset => exact (c4 rfl).elim
          | call c =>
            have : c = .prjCompact h oo.now := ho.1
            subst this
            intro h' hh'
            obtain rfl := Option.some.inj hh'
            exact ⟨hm, .inr ⟨oo.now, rfl, ho.2, h1.idle, h1.time⟩⟩
          | fact f =>
            refine (emitted_plain ?_ _).1
            cases f <;> first | trivial | exact ho.1.elim
        · simp only [Sys.emit_trace]; rw [c2]; exact h1.time
        · simp only [Sys.emit_trace]; rw [c1]; exact h1.idle
        · intro e he; exact (h1.queue e he).mono (seg := [o]) rfl (by simpa using c4)
      have := ih (s1.emit o) hone (fun x hx => h2 x (by simp [hx]))
      refine ⟨by simpa using this.1, ?_⟩
      intro x hx
      rcases List.mem_cons.1 hx with rfl | hx
      · exact c4
      · exact this.2 x hx
  obtain ⟨k1, k2⟩ := hlist seg s0 h0 g.obs
  have htr : s'.trace = s0.trace ++ seg := g.trace
  have hn : s'.nextID = s0.nextID := g.nextID
  have hpo : ∀ n e, e ∈ (s'.proc n).timeouts → e ∈ (s0.proc n).timeouts := by
    intro n e he
    have hp : s'.proc = _ := g.proc
    rw [hp] at he
    split at he
    · by_cases hnn : n = h.name
      · subst hnn; rw [upd_same] at he
        exact (List.dropWhile_sublist _).subset he
      · rw [upd_ne _ _ hnn] at he; exact he
    · exact he
  refine ⟨⟨⟨⟨?_, ?_, ?_, ?_⟩, ?_⟩, ?_, ?_, ?_⟩, ?_⟩
  · rw [htr]; exact k1.core.ids
  · rw [htr, hn]; exact k1.core.bound
  · rw [htr]; exact k1.core.em
  · rw [htr]; exact k1.core.inc
  · intro n e he
    have := k1.core.pend n e (hpo n e he)
    rw [htr]; exact this
  · rw [htr]; exact k1.time
  · rw [htr]; exact k1.idle
  · intro e he
    have := k1.queue e he
    unfold QOK; rw [htr]; exact this
  · intro envs e hres x hx
    rw [g.ok _ _ hres] at hx
    split at hx
    · have hmem := (List.takeWhile_sublist _).subset hx
      have hle : x.scheduledFor ≤ oo.now := by
        simpa using takeWhile_holds _ _ hx
      obtain ⟨a, b, _⟩ := k1.core.pend h.name x hmem
      refine ⟨?_, fun _ => ⟨hle, b⟩⟩
      rw [htr]; exact a
    · cases hx

theorem CoreI.notify {q : List Env} {s : Sys W R} (hi : CoreI A oo q s) {f : Fact} (hf : f.plain)
    (h1 : timeNow ([.fact f] : List (Obs R)) = none) : CoreI A oo q (s.notify f) := by
  refine ⟨hi.core.plain hf, ?_, ?_, fun e he => (hi.queue e he).notify⟩
  · rw [Sys.notify_trace, timeNow_snoc]
    cases f <;> first | exact hi.time | cases h1
  · rw [Sys.notify_trace, handlingNow_snoc]
    cases f <;> first | exact hi.idle | rfl | exact hf.elim

end handle

/-- The core invariant satisfies the lifting obligations. -/
theorem core_lift (A : App W R) (wf : A.WF) :
    Lift A (Core A) (fun oo q _ s => CoreI A oo q s) (fun oo env _ q _ _ s => CoreJ A oo env q s)
      (fun oo _ q _ s => CoreI A oo q s) where
  init w := ⟨⟨by simp [Sys.init, sinceReset, createdIn], by simp [Sys.init, sinceReset, createdIn],
    by simp [Sys.init], by simp [Sys.init]⟩, by intro n e he; simp [Sys.init] at he⟩
  world s w hs := ⟨⟨hs.ids, hs.bound, hs.em, hs.inc⟩, hs.pend⟩
  reset s hs := by
    refine ⟨⟨?_, ?_, ?_, ?_⟩, ?_⟩
    · simp [createdIn]
    · simp [createdIn]
    · simp only [Sys.emit_trace]
      rw [always_snoc]; exact ⟨hs.em, trivial⟩
    · simp only [Sys.emit_trace]
      rw [always_snoc]; exact ⟨hs.inc, nofun⟩
    · intro n e he; simp at he
  resetter s i hs := hs.obs nofun rfl (by intro h hh; cases hh)
  takeID s hs := by
    refine ⟨⟨hs.ids, ?_, hs.em, hs.inc⟩, hs.pend⟩
    intro e he
    have := hs.bound e he
    simp only; omega
  dBegin oo s m hs hr hv hk := by
    have hem : Emitted A s.trace (.fact (.dispatchCycleBegun (Env.root (s.nextID + 1) m oo.now) (oo.cycle A))) := by
      refine ⟨by simp [Fact.produced], by simp, by simp, by simp, ?_⟩
      rintro env now ⟨⟩
      refine ⟨rfl, rfl, rfl, rfl, hv, hk, ?_⟩
      obtain ⟨h, hm⟩ := List.exists_mem_of_ne_nil _ hr
      simp only [App.route, List.mem_filter, HConfig.consumes?, decide_eq_true_eq] at hm
      exact ⟨h, hm⟩
    refine ⟨⟨hs.toCore0.fresh (s' := { s with nextID := s.nextID + 1 }.notify
      (.dispatchCycleBegun (Env.root (s.nextID + 1) m oo.now) (oo.cycle A))) rfl rfl rfl rfl hem, ?_⟩, ?_, ?_, ?_⟩
    · intro n e he
      obtain ⟨a, b, c⟩ := hs.pend n e he
      exact ⟨created_mono (seg := [_]) rfl (by simp) a, b, c⟩
    · simp only [Sys.notify_trace, timeNow_snoc, OpOpts.cycle]
    · simp only [Sys.notify_trace, handlingNow_snoc]
    · intro e he
      obtain rfl := List.mem_singleton.1 he
      refine ⟨?_, fun h0 => (hk h0).elim⟩
      rw [Sys.notify_trace, sinceReset_fact, createdIn_append]
      simp [createdIn, Obs.created, Fact.created]
  dEnd oo q errs s env er hi := hi.core.plain trivial
  stop oo q errs s hi := hi.core
  disp oo :=
    { begin_ := fun env q errs s hs _ hi => hi.begin_
      handle := fun env done h rest q errs de s s' envs e ht hj hr =>
        hj.handle wf ht (by simp) hr
      panic := fun env done h rest q errs de s s' v ht hj hr => hj.panic wf ht (by simp) hr
      panicT := fun env q errs s v ht hi => hi.core
      end_ := fun env hs q errs de s _ hj => hj.end_ de }
  tBegin oo s hs := by
    refine ⟨hs.plain trivial, ?_, ?_, by simp⟩
    · simp only [Sys.notify_trace, timeNow_snoc, OpOpts.cycle]
    · simp only [Sys.notify_trace, handlingNow_snoc]
  tick oo :=
    { skip := fun done h q errs s r hm hi hr => hi.notify trivial rfl
      tick := fun done h q errs s s' envs e hm hi hsk hr => by
        obtain ⟨h1, h2⟩ := hi.ctlTick hm hr
        have h3 : CoreI A oo (q ++ envs) s' := by
          refine ⟨h1.core, h1.time, h1.idle, ?_⟩
          intro x hx
          rcases List.mem_append.1 hx with hx | hx
          · exact h1.queue x hx
          · exact h2 _ _ rfl x hx
        exact h3.notify trivial rfl
      panic := fun done h q errs s s' v hm hi hsk hr => (hi.ctlTick hm hr).1.core }
  tDisp oo order q errs s _ hi := hi
  tStop oo done q errs s er hi := hi.core.plain trivial
  tEnd oo q errs s er hi := hi.core.plain trivial

/-- The core invariant holds in every reachable state. -/
theorem core_reach {A : App W R} (wf : A.WF) {s : Sys W R} (hs : Reach A s) : Core A s :=
  (core_lift A wf).reach hs

end Verif
