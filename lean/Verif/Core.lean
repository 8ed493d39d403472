import Verif.Sum
import Verif.Lift

/-!
# The core invariant

One invariant that relates every observation to what came before it.  The
property theorems in `Verif/Props` are derived from it.
-/

namespace Verif

variable {W R : Type}

/-! ## Context functions -/

theorem handlingNow_snoc (t : List (Obs R)) (o : Obs R) :
    handlingNow (t ++ [o]) = match o with
      | .fact (.handlingBegun h e) => some (h, e)
      | .fact (.handlingCompleted _ _ _) => none
      | .fact (.dispatchCycleBegun _ _) => none
      | .fact (.tickCycleBegun _) => none
      | _ => handlingNow t := by
  simp only [handlingNow, List.foldl_append, List.foldl_cons, List.foldl_nil]
  cases o with
  | fact f => cases f <;> rfl
  | call c => rfl
  | reset => rfl

theorem timeNow_snoc (t : List (Obs R)) (o : Obs R) :
    timeNow (t ++ [o]) = match o with
      | .fact (.dispatchCycleBegun _ c) => some c.now
      | .fact (.tickCycleBegun c) => some c.now
      | _ => timeNow t := by
  simp only [timeNow, List.foldl_append, List.foldl_cons, List.foldl_nil]
  cases o with
  | fact f => cases f <;> rfl
  | call c => rfl
  | reset => rfl

theorem dispatchingNow_snoc (t : List (Obs R)) (o : Obs R) :
    dispatchingNow (t ++ [o]) = match o with
      | .fact (.dispatchBegun e) => some e
      | .fact (.dispatchCompleted _ _) => none
      | .fact (.dispatchCycleBegun _ _) => none
      | .fact (.tickCycleBegun _) => none
      | _ => dispatchingNow t := by
  simp only [dispatchingNow, List.foldl_append, List.foldl_cons, List.foldl_nil]
  cases o with
  | fact f => cases f <;> rfl
  | call c => rfl
  | reset => rfl

/-- `ev` is a proper child of `env`, produced by `h` at `now`. -/
structure ChildOf (h : HConfig) (now : Time) (env ev : Env) : Prop where
  causation : ev.causation = env.id
  correlation : ev.correlation = env.correlation
  createdAt : ev.createdAt = now
  origin : ∃ id, ev.origin = some ⟨h, h.htype, id⟩
  declared : ev.msg.type ∈ h.produces
  valid : ev.msg.invalid = none

/-- The kind and origin of a produced message, by the kind of fact. -/
def Fact.kindOK : Fact → Prop
  | .aggEvent h id _ e => h.htype = .aggregate ∧ e.msg.type.kind = .event ∧
      e.origin = some ⟨h, .aggregate, id⟩
  | .procCommand h id _ e => h.htype = .process ∧ e.msg.type.kind = .command ∧
      e.origin = some ⟨h, .process, id⟩
  | .procTimeout h id _ e => h.htype = .process ∧ e.msg.type.kind = .timeout ∧
      e.origin = some ⟨h, .process, id⟩
  | .intEvent h _ e => h.htype = .integration ∧ e.msg.type.kind = .event ∧
      e.origin = some ⟨h, .integration, ""⟩
  | _ => True

/-- Observations made while `h` handles `env`. -/
def InnerObs (h : HConfig) (now : Time) (env : Env) : Obs R → Prop
  | .call c => c.isFor h now env
  | .fact f => f.isNote h env ∨ ∃ ev, f.produced = some (h, env, ev) ∧ ChildOf h now env ev ∧ f.kindOK
  | .reset => False

theorem inner_ctx {h : HConfig} {now : Time} {env : Env} {o : Obs R} (ho : InnerObs h now env o)
    (t : List (Obs R)) : handlingNow (t ++ [o]) = handlingNow t ∧ timeNow (t ++ [o]) = timeNow t ∧
      dispatchingNow (t ++ [o]) = dispatchingNow t ∧ o ≠ .reset ∧
      dispatchedIn [o] = [] := by
  rw [handlingNow_snoc, timeNow_snoc, dispatchingNow_snoc]
  cases o with
  | call c => simp [dispatchedIn]
  | reset => exact ho.elim
  | fact f =>
    cases f <;>
      first
      | exact ⟨rfl, rfl, rfl, nofun, rfl⟩
      | (exfalso; rcases ho with ho | ⟨ev, ho, _⟩
         · exact ho
         · cases ho)

theorem produces?_mem {h : HConfig} {k : Kind} {m : Message} (hp : h.produces? k m = true) :
    m.type.kind = k ∧ m.type ∈ h.produces := by
  simpa [HConfig.produces?] using hp

/-- Every small step adds nothing or one inner observation. -/
theorem HStep.obs {h : HConfig} {now : Time} {env : Env} {s s' : Sys W R}
    (st : HStep h now env s s') :
    (s'.trace = s.trace ∧ s'.nextID = s.nextID) ∨
    (∃ o, s'.trace = s.trace ++ [o] ∧ InnerObs h now env o ∧ o.created = none ∧
      s'.nextID = s.nextID) ∨
    (∃ f ev, s'.trace = s.trace ++ [.fact f] ∧ f.created = some ev ∧
      f.produced = some (h, env, ev) ∧ (ChildOf h now env ev ∧ f.kindOK) ∧ ev.id = s.nextID + 1 ∧
      s'.nextID = s.nextID + 1) := by
  cases st with
  | world w => exact .inl ⟨rfl, rfl⟩
  | call c hc => exact .inr (.inl ⟨_, rfl, hc, rfl, rfl⟩)
  | note f hf =>
    refine .inr (.inl ⟨_, rfl, .inl hf, ?_, rfl⟩)
    cases f <;> first | rfl | exact hf.elim
  | aggEvent id m ht hp hv =>
    exact .inr (.inr ⟨_, _, rfl, rfl, rfl, ⟨⟨rfl, rfl, rfl, ⟨id, by rw [ht]; rfl⟩,
      (produces?_mem hp).2, hv⟩, ht, (produces?_mem hp).1, rfl⟩, rfl, rfl⟩)
  | procCommand id m ht hp hv =>
    exact .inr (.inr ⟨_, _, rfl, rfl, rfl, ⟨⟨rfl, rfl, rfl, ⟨id, by rw [ht]; rfl⟩,
      (produces?_mem hp).2, hv⟩, ht, (produces?_mem hp).1, rfl⟩, rfl, rfl⟩)
  | procTimeout id m t ht hp hv =>
    exact .inr (.inr ⟨_, _, rfl, rfl, rfl, ⟨⟨rfl, rfl, rfl, ⟨id, by rw [ht]; rfl⟩,
      (produces?_mem hp).2, hv⟩, ht, (produces?_mem hp).1, rfl⟩, rfl, rfl⟩)
  | intEvent m ht hp hv =>
    exact .inr (.inr ⟨_, _, rfl, rfl, rfl, ⟨⟨rfl, rfl, rfl, ⟨"", by rw [ht]; rfl⟩,
      (produces?_mem hp).2, hv⟩, ht, (produces?_mem hp).1, rfl⟩, rfl, rfl⟩)
  | commitAgg id x ht => exact .inl ⟨rfl, rfl⟩
  | commitProc p ht => exact .inl ⟨rfl, rfl⟩

/-- A handling extends the trace by inner observations. -/
theorem HSteps.ext {h : HConfig} {now : Time} {env : Env} {s s' : Sys W R}
    (st : HSteps h now env s s') :
    ∃ seg, s'.trace = s.trace ++ seg ∧ ∀ o ∈ seg, InnerObs h now env o := by
  induction st with
  | refl => exact ⟨[], by simp, by simp⟩
  | tail _ st ih =>
    obtain ⟨seg, h1, h2⟩ := ih
    rcases st.obs with ⟨e, _⟩ | ⟨o, e, ho, _⟩ | ⟨f, ev, e, _, hp, hc, _⟩
    · exact ⟨seg, by rw [e, h1], h2⟩
    · refine ⟨seg ++ [o], by rw [e, h1]; simp, ?_⟩
      intro x hx
      rcases List.mem_append.1 hx with hx | hx
      · exact h2 x hx
      · rw [List.mem_singleton.1 hx]; exact ho
    · refine ⟨seg ++ [.fact f], by rw [e, h1]; simp, ?_⟩
      intro x hx
      rcases List.mem_append.1 hx with hx | hx
      · exact h2 x hx
      · rw [List.mem_singleton.1 hx]; exact .inr ⟨ev, hp, hc⟩

theorem inner_ctxs {h : HConfig} {now : Time} {env : Env} (seg t : List (Obs R))
    (hs : ∀ o ∈ seg, InnerObs h now env o) :
    handlingNow (t ++ seg) = handlingNow t ∧ timeNow (t ++ seg) = timeNow t ∧
      dispatchingNow (t ++ seg) = dispatchingNow t ∧ (∀ o ∈ seg, o ≠ .reset) ∧
      dispatchedIn seg = [] := by
  induction seg generalizing t with
  | nil => simp [dispatchedIn]
  | cons o seg ih =>
    have e : t ++ o :: seg = (t ++ [o]) ++ seg := by simp
    obtain ⟨a1, a2, a3, a4, a5⟩ := inner_ctx (hs o (by simp)) t
    obtain ⟨b1, b2, b3, b4, b5⟩ := ih (t ++ [o]) (fun x hx => hs x (by simp [hx]))
    rw [e]
    refine ⟨b1.trans a1, b2.trans a2, b3.trans a3, ?_, ?_⟩
    · intro x hx
      rcases List.mem_cons.1 hx with rfl | hx
      · exact a4
      · exact b4 x hx
    · have : o :: seg = [o] ++ seg := rfl
      rw [this, dispatchedIn_append, a5, b5]; rfl

/-! ## What is known about each observation -/

/-- Circumstances under which a handler produces a message. -/
structure Produced (A : App W R) (pre : List (Obs R)) (h : HConfig) (env ev : Env) : Prop where
  handling : handlingNow pre = some (h, env)
  time : timeNow pre = some ev.createdAt
  handler : h ∈ A.cfgs
  cause : env ∈ createdIn (sinceReset pre)
  child : ChildOf h ev.createdAt env ev

/-- Circumstances under which a message is offered to a handler. -/
structure Offered (A : App W R) (pre : List (Obs R)) (h : HConfig) (env : Env) : Prop where
  handler : h ∈ A.cfgs
  dispatching : dispatchingNow pre = some env
  created : env ∈ createdIn (sinceReset pre)
  consumed : env.msg.type ∈ h.consumes
  timeout : env.msg.type.kind = .timeout →
    (∃ o, env.origin = some o ∧ o.handler = h ∧ h.htype = .process) ∧
      ∃ now, timeNow pre = some now ∧ env.scheduledFor ≤ now

/-- Circumstances under which user code is called. -/
def Called (A : App W R) (pre : List (Obs R)) (c : Call R) : Prop :=
  ∀ h, c.handler = some h → h ∈ A.cfgs ∧
    ((∃ env now, handlingNow pre = some (h, env) ∧ timeNow pre = some now ∧ c.isFor h now env ∧ env ∈ createdIn (sinceReset pre) ∧
        (env.msg.type.kind = .timeout → env.scheduledFor ≤ now)) ∨
     ∃ now, c = .prjCompact h now ∧ h.htype = .projection ∧ handlingNow pre = none ∧ timeNow pre = some now)

/-- What is known about an observation, given what came before. -/
def Emitted (A : App W R) (pre : List (Obs R)) : Obs R → Prop
  | .reset => True
  | .call c => Called A pre c
  | .fact f =>
    (∀ h env ev, f.produced = some (h, env, ev) → Produced A pre h env ev ∧ f.kindOK) ∧
    (∀ h env, f = .handlingBegun h env → Offered A pre h env) ∧
    (∀ h env r, f = .handlingSkipped h env r → Offered A pre h env) ∧
    (∀ env, f = .dispatchBegun env → env ∈ createdIn (sinceReset pre) ∧
      (env.msg.type.kind = .timeout → ∃ now, timeNow pre = some now ∧ env.scheduledFor ≤ now)) ∧
    (∀ env c, f = .dispatchCycleBegun env c → env.origin = none ∧ env.causation = env.id ∧
      env.correlation = env.id ∧ env.createdAt = c.now ∧ env.msg.invalid = none ∧
      env.msg.type.kind ≠ .timeout ∧ ∃ h ∈ A.cfgs, env.msg.type ∈ h.consumes)

/-- What is known about the origin of a timeout message. -/
def TimeoutOK (A : App W R) (e : Env) : Prop :=
  ∃ o, e.origin = some o ∧ o.handler ∈ A.cfgs ∧ o.handler.htype = .process ∧
    e.msg.type ∈ o.handler.produces ∧ e.msg.type.kind = .timeout

/-- The core invariant without the part about pending timeouts. -/
structure Core0 (A : App W R) (s : Sys W R) : Prop where
  ids : ((createdIn (sinceReset s.trace)).map Env.id).Pairwise (· < ·)
  bound : ∀ e ∈ createdIn (sinceReset s.trace), 1 ≤ e.id ∧ e.id ≤ s.nextID
  em : Always (Emitted A) s.trace
  inc : Always (fun pre o => ∀ e, o.created = some e → 1 ≤ e.id ∧
    ∀ e' ∈ createdIn (sinceReset pre), e'.id < e.id) s.trace

/-- Pending timeouts are proper. -/
def PendOK (A : App W R) (s : Sys W R) : Prop :=
  ∀ n e, e ∈ (s.proc n).timeouts → e ∈ createdIn (sinceReset s.trace) ∧ TimeoutOK A e ∧
    ∃ o, e.origin = some o ∧ o.handler.name = n

structure Core (A : App W R) (s : Sys W R) : Prop extends Core0 A s where
  pend : PendOK A s

/-- A message that may be in the queue. -/
def QOK (A : App W R) (now : Time) (s : Sys W R) (e : Env) : Prop :=
  e ∈ createdIn (sinceReset s.trace) ∧
  (e.msg.type.kind = .timeout → e.scheduledFor ≤ now ∧ TimeoutOK A e)

theorem createdIn_cons_fact (f : Fact) (t : List (Obs R)) :
    createdIn (.fact f :: t) = f.created.toList ++ createdIn t := by
  cases h : f.created <;> simp [createdIn, Obs.created, h]

/-- Adding an observation that announces nothing. -/
theorem Core0.quiet {A : App W R} {s s' : Sys W R} {o : Obs R} (hc : Core0 A s)
    (ht : s'.trace = s.trace ++ [o]) (hn : s.nextID ≤ s'.nextID) (hr : o ≠ .reset)
    (hq : o.created = none) (he : Emitted A s.trace o) : Core0 A s' := by
  have e : createdIn (sinceReset s'.trace) = createdIn (sinceReset s.trace) := by
    rw [ht, sinceReset_snoc _ _ hr, createdIn_append]; simp [createdIn, hq]
  refine ⟨by rw [e]; exact hc.ids, ?_, by rw [ht, always_snoc]; exact ⟨hc.em, he⟩,
    by rw [ht, always_snoc]; exact ⟨hc.inc, by simp [hq]⟩⟩
  rw [e]
  intro x hx
  have := hc.bound x hx
  omega

/-- Adding an observation that announces the next message. -/
theorem Core0.fresh {A : App W R} {s s' : Sys W R} {f : Fact} {ev : Env} (hc : Core0 A s)
    (ht : s'.trace = s.trace ++ [.fact f]) (hn : s'.nextID = s.nextID + 1)
    (hq : f.created = some ev) (hid : ev.id = s.nextID + 1) (he : Emitted A s.trace (.fact f)) :
    Core0 A s' := by
  have e : createdIn (sinceReset s'.trace) = createdIn (sinceReset s.trace) ++ [ev] := by
    rw [ht, sinceReset_snoc _ (.fact f) (fun h => nomatch h), createdIn_append]; simp [createdIn, Obs.created, hq]
  refine ⟨?_, ?_, by rw [ht, always_snoc]; exact ⟨hc.em, he⟩, ?_⟩
  · rw [e, List.map_append, List.pairwise_append]
    refine ⟨hc.ids, by simp, ?_⟩
    intro a ha b hb
    obtain ⟨x, hx, rfl⟩ := List.mem_map.1 ha
    simp only [List.map_cons, List.map_nil, List.mem_singleton] at hb
    have := hc.bound x hx
    omega
  · rw [e]
    intro x hx
    rcases List.mem_append.1 hx with hx | hx
    · have := hc.bound x hx; omega
    · rw [List.mem_singleton.1 hx]; omega
  · rw [ht, always_snoc]
    refine ⟨hc.inc, ?_⟩
    intro x hx
    have : ev = x := by simpa [Obs.created, hq] using hx
    subst this
    refine ⟨by omega, fun y hy => ?_⟩
    have := hc.bound y hy
    omega

/-- The state of affairs while `h` handles `env`. -/
structure Inside (A : App W R) (h : HConfig) (now : Time) (env : Env) (s : Sys W R) : Prop where
  core : Core0 A s
  handling : handlingNow s.trace = some (h, env)
  time : timeNow s.trace = some now
  disp : dispatchingNow s.trace = some env
  handler : h ∈ A.cfgs
  q : QOK A now s env

theorem emitted_note {A : App W R} {h : HConfig} {now : Time} {env : Env} {s : Sys W R}
    (hi : Inside A h now env s) {o : Obs R} (ho : InnerObs h now env o) : Emitted A s.trace o := by
  cases o with
  | reset => exact ho.elim
  | call c =>
    intro h' hh'
    have := Call.isFor_handler ho
    rw [this] at hh'
    obtain rfl := Option.some.inj hh'
    refine ⟨hi.handler, .inl ⟨env, now, hi.handling, hi.time, ho, hi.q.1, fun hk => (hi.q.2 hk).1⟩⟩
  | fact f =>
    have hbad : ∀ (P : Prop), (f.isNote h env → False) → f.produced = none → P := by
      intro P h1 h2
      rcases ho with ho | ⟨ev, ho, _⟩
      · exact (h1 ho).elim
      · rw [h2] at ho; cases ho
    refine ⟨?_, ?_, ?_, ?_, ?_⟩
    · intro h' env' ev' he
      rcases ho with ho | ⟨ev, ho, hc⟩
      · cases f <;> first | exact ho.elim | cases he
      · rw [ho] at he
        obtain ⟨rfl, rfl, rfl⟩ : h = h' ∧ env = env' ∧ ev = ev' := by simpa using he
        refine ⟨⟨hi.handling, ?_, hi.handler, hi.q.1, ?_⟩, hc.2⟩
        · rw [hc.1.createdAt]; exact hi.time
        · rw [hc.1.createdAt]; exact hc.1
    · rintro h' env' rfl; exact hbad _ (fun x => x) rfl
    · rintro h' env' r rfl; exact hbad _ (fun x => x) rfl
    · rintro env' rfl; exact hbad _ (fun x => x) rfl
    · rintro env' now' rfl; exact hbad _ (fun x => x) rfl

theorem created_mono {s s' : Sys W R} {seg : List (Obs R)} (ht : s'.trace = s.trace ++ seg)
    (hr : ∀ o ∈ seg, o ≠ .reset) {e : Env} (he : e ∈ createdIn (sinceReset s.trace)) :
    e ∈ createdIn (sinceReset s'.trace) := by
  rw [ht, sinceReset_append _ _ hr, createdIn_append]
  exact List.mem_append_left _ he

theorem QOK.mono {A : App W R} {now : Time} {s s' : Sys W R} {seg : List (Obs R)}
    (ht : s'.trace = s.trace ++ seg) (hr : ∀ o ∈ seg, o ≠ .reset) {e : Env} (hq : QOK A now s e) :
    QOK A now s' e := ⟨created_mono ht hr hq.1, hq.2⟩

theorem Inside.step {A : App W R} {h : HConfig} {now : Time} {env : Env} {s s' : Sys W R}
    (st : HStep h now env s s') (hi : Inside A h now env s) : Inside A h now env s' := by
  rcases st.obs with ⟨e, en⟩ | ⟨o, e, ho, hc, en⟩ | ⟨f, ev, e, hc, hp, hch, hid, en⟩
  · refine ⟨⟨?_, ?_, ?_, ?_⟩, ?_, ?_, ?_, hi.handler, ?_⟩
    · rw [e]; exact hi.core.ids
    · rw [e, en]; exact hi.core.bound
    · rw [e]; exact hi.core.em
    · rw [e]; exact hi.core.inc
    · rw [e]; exact hi.handling
    · rw [e]; exact hi.time
    · rw [e]; exact hi.disp
    · unfold QOK; rw [e]; exact hi.q
  · obtain ⟨c1, c2, c3, c4, _⟩ := inner_ctx ho s.trace
    refine ⟨hi.core.quiet e (by omega) c4 hc (emitted_note hi ho), ?_, ?_, ?_, hi.handler, ?_⟩
    · rw [e, c1]; exact hi.handling
    · rw [e, c2]; exact hi.time
    · rw [e, c3]; exact hi.disp
    · exact hi.q.mono e (by simpa using c4)
  · have ho : InnerObs h now env (.fact f : Obs R) := .inr ⟨ev, hp, hch⟩
    obtain ⟨c1, c2, c3, c4, _⟩ := inner_ctx ho s.trace
    refine ⟨hi.core.fresh e en hc hid (emitted_note hi ho), ?_, ?_, ?_, hi.handler, ?_⟩
    · rw [e, c1]; exact hi.handling
    · rw [e, c2]; exact hi.time
    · rw [e, c3]; exact hi.disp
    · exact hi.q.mono e (by simp)

/-! ## Returned envelopes and pending timeouts -/

theorem mem_timeoutsIn_created {t : List (Obs R)} {e : Env} (h : e ∈ timeoutsIn t) :
    e ∈ createdIn t := by
  simp only [timeoutsIn, createdIn, List.mem_filterMap] at h ⊢
  obtain ⟨o, ho, he⟩ := h
  refine ⟨o, ho, ?_⟩
  split at he <;> simp_all [Obs.created, Fact.created]

theorem mem_commandsIn_created {t : List (Obs R)} {e : Env} (h : e ∈ commandsIn t) :
    e ∈ createdIn t := by
  simp only [commandsIn, createdIn, List.mem_filterMap] at h ⊢
  obtain ⟨o, ho, he⟩ := h
  refine ⟨o, ho, ?_⟩
  split at he <;> simp_all [Obs.created, Fact.created]

theorem mem_aggEventsIn_created {t : List (Obs R)} {e : Env} (h : e ∈ aggEventsIn t) :
    e ∈ createdIn t := by
  simp only [aggEventsIn, createdIn, List.mem_filterMap] at h ⊢
  obtain ⟨o, ho, he⟩ := h
  refine ⟨o, ho, ?_⟩
  split at he <;> simp_all [Obs.created, Fact.created]

theorem mem_intEventsIn_created {t : List (Obs R)} {e : Env} (h : e ∈ intEventsIn t) :
    e ∈ createdIn t := by
  simp only [intEventsIn, createdIn, List.mem_filterMap] at h ⊢
  obtain ⟨o, ho, he⟩ := h
  refine ⟨o, ho, ?_⟩
  split at he <;> simp_all [Obs.created, Fact.created]

/-- Summary of any handling: what it adds to the trace, what it returns, and what
it does to pending timeouts. -/
theorem ctlHandle_sum (A : App W R) (h : HConfig) (now : Time) (env : Env) (s : Sys W R) :
    ∃ seg, (ctlHandle A h now env s).1.trace = s.trace ++ seg ∧
      (∀ o ∈ seg, InnerObs h now env o) ∧
      (∀ envs e, (ctlHandle A h now env s).2 = .ok (envs, e) → envs = emission h now seg e) ∧
      (h.htype = .aggregate →
        AggSum A h now env s (ctlHandle A h now env s).1 (ctlHandle A h now env s).2 seg) ∧
      (h.htype = .process →
        ProcSum A h now env s (ctlHandle A h now env s).1 (ctlHandle A h now env s).2 seg) ∧
      (h.htype ≠ .process → (ctlHandle A h now env s).1.proc = s.proc) ∧
      (h.htype ≠ .aggregate → (ctlHandle A h now env s).1.agg = s.agg) ∧
      (ctlHandle A h now env s).1.lastCompact = s.lastCompact := by
  obtain ⟨seg, h1, h2⟩ := (ctlHandle_steps A h now env s).ext
  have hframe : ∀ s', HSteps h now env s s' → (h.htype ≠ .process → s'.proc = s.proc) ∧
      (h.htype ≠ .aggregate → s'.agg = s.agg) ∧ s'.lastCompact = s.lastCompact := by
    intro s' hs
    refine hs.inv (P := fun x => (h.htype ≠ .process → x.proc = s.proc) ∧
      (h.htype ≠ .aggregate → x.agg = s.agg) ∧ x.lastCompact = s.lastCompact) ?_ ⟨fun _ => rfl,
        fun _ => rfl, rfl⟩
    intro x y st hx
    cases st with
    | commitAgg id z ht => exact ⟨hx.1, fun hn => (hn ht).elim, hx.2.2⟩
    | commitProc p ht => exact ⟨fun hn => (hn ht).elim, hx.2.1, hx.2.2⟩
    | _ => exact hx
  obtain ⟨f1, f2, f3⟩ := hframe _ (ctlHandle_steps A h now env s)
  refine ⟨seg, h1, h2, ?_, ?_, ?_, f1, f2, f3⟩
  · intro envs e he
    unfold emission
    unfold ctlHandle at h1 he
    cases ht : h.htype with
    | aggregate =>
      rw [ht] at h1 he
      obtain ⟨seg', g⟩ := aggHandle_sum A h now env s
      have : seg = seg' := List.append_cancel_left (h1.symm.trans g.trace)
      subst this
      exact (g.ok _ _ he).2.1
    | process =>
      rw [ht] at h1 he
      obtain ⟨seg', g⟩ := procHandle_sum A h now env s
      have : seg = seg' := List.append_cancel_left (h1.symm.trans g.trace)
      subst this
      exact (g.ok _ _ he).1
    | integration =>
      rw [ht] at h1 he
      simp only at h1 he ⊢
      unfold intHandle at h1 he
      split at he
      · cases he
      rename_i c1
      split at he
      · cases he
      rename_i c2
      simp only [c1, c2, if_false] at h1
      obtain ⟨seg', g⟩ := intRun_seg h now env (A.uc.intHandle h env.msg)
        (s.emit (.call (.intHandle h env.msg))) []
      split at he
      · cases he
      · rename_i s1 evs e' hh
        rw [hh] at g
        simp only [hh] at h1
        simp only [Except.ok.injEq, Prod.mk.injEq] at he
        have ht1 : s1.trace = s.trace ++ .call (.intHandle h env.msg) :: seg' := by
          have : s1.trace = _ := g.trace
          rw [this]; simp
        have : seg = .call (.intHandle h env.msg) :: seg' := List.append_cancel_left (h1.symm.trans ht1)
        rw [this, ← he.1]
        have : evs = _ := g.events
        rw [this]; simp [intEventsIn]
    | projection =>
      rw [ht] at he
      simp only at he ⊢
      unfold prjHandle at he
      split at he
      · cases he
      split at he
      · cases he
      split at he
      · cases he
      · cases he; rfl
      · cases he; rfl
      · split at he
        · cases he
        · unfold prjFinish at he
          split at he
          · cases he; rfl
          · cases he; rfl
          · split at he <;> first | (cases he; rfl) | cases he
  · intro ht
    unfold ctlHandle at h1 ⊢
    rw [ht] at h1 ⊢
    obtain ⟨seg', g⟩ := aggHandle_sum A h now env s
    have : seg = seg' := List.append_cancel_left (h1.symm.trans g.trace)
    subst this
    exact g
  · intro ht
    unfold ctlHandle at h1 ⊢
    rw [ht] at h1 ⊢
    obtain ⟨seg', g⟩ := procHandle_sum A h now env s
    have : seg = seg' := List.append_cancel_left (h1.symm.trans g.trace)
    subst this
    exact g

end Verif
