import Verif.Seg

/-!
# Summaries of handlings

What one call to a controller's `Handle` does, in terms of the observations it
adds.  Proof machinery.
-/

namespace Verif

variable {W R : Type}

theorem user_eq {α : Type} {s s' : Sys W R} {c : Call R} {f : W → W × α} {a : α}
    (e : s.user c f = (s', a)) : s' = { s.emit (.call c) with w := (f s.w).1 } ∧ a = (f s.w).2 := by
  simp only [Sys.user, Prod.mk.injEq] at e
  exact ⟨e.1.symm, e.2.symm⟩

/-! ## Aggregates -/

/-- Observations before the instance is known to exist or not. -/
def AggPre (h : HConfig) : Obs R → Prop
  | .call (.aggRoute h' _) | .call (.aggNew h') | .call (.aggApply h' _ _) => h' = h
  | _ => False

structure AggSum (A : App W R) (h : HConfig) (now : Time) (env : Env) (s s' : Sys W R) (res : HRes)
    (seg : List (Obs R)) : Prop where
  trace : s'.trace = s.trace ++ seg
  proc : s'.proc = s.proc
  last : s'.lastCompact = s.lastCompact
  ok : ∀ envs e, res = .ok (envs, e) → e = none ∧ envs = aggEventsIn seg ∧
    ∃ id, aggInstIn seg = some id ∧
      s'.agg = upd s.agg h.name (upd (s.agg h.name) id
        (if aggExistsAfter false seg then some ((s.agg h.name id).getD [] ++ aggEventsIn seg) else none))
  err : ∀ v, res = .error v → s'.agg = s.agg
  shape : (∀ o ∈ seg, AggPre h o) ∨
    ∃ pre id r post, seg = pre ++ .fact (if (s.agg h.name id).isSome then .aggLoaded h id env
        else .aggNotFound h id env) :: .call (.aggHandle h id r env.msg) :: post ∧
      (∀ o ∈ pre, AggPre h o) ∧ (∀ o ∈ post, AggObs h id now env o) ∧
      Always (fun a o => AggAllowed (aggExistsAfter (s.agg h.name id).isSome a)
        (destroyedAfter false a) o) post ∧
      (id ≠ "" ∧ ∃ w, (A.uc.aggRoute h env.msg w).2 = .ok id) ∧
      (∃ ap, pre = .call (.aggRoute h env.msg) :: .call (.aggNew h) :: ap ∧
        appliedIn ap = ((s.agg h.name id).getD []).map Env.msg ∧
        ap.length = ((s.agg h.name id).getD []).length) ∧
      ∃ r0, NewRoot A.uc h r0 ∧ Replays A.uc h r0 (((s.agg h.name id).getD []).map Env.msg) r

theorem aggReplay_trace (A : App W R) (h : HConfig) (hist : List Env) (r : R) (s : Sys W R) :
    ∃ seg, (aggReplay A h hist r s).1.trace = s.trace ++ seg ∧ (∀ o ∈ seg, AggPre h o) ∧
      (aggReplay A h hist r s).1.agg = s.agg ∧ (aggReplay A h hist r s).1.proc = s.proc ∧
      (aggReplay A h hist r s).1.lastCompact = s.lastCompact ∧
      (∀ r', (aggReplay A h hist r s).2 = .ok r' → Replays A.uc h r (hist.map Env.msg) r' ∧
        appliedIn seg = hist.map Env.msg ∧ seg.length = hist.length) := by
  induction hist generalizing r s with
  | nil =>
    refine ⟨[], by simp [aggReplay], by simp, rfl, rfl, rfl, ?_⟩
    intro r' hr
    cases hr
    exact ⟨.nil _, rfl, rfl⟩
  | cons e es ih =>
    unfold aggReplay
    split
    · rename_i he; obtain ⟨rfl, _⟩ := user_eq he
      exact ⟨[_], rfl, by simp [AggPre], rfl, rfl, rfl, fun r' hr => by cases hr⟩
    · rename_i s1 r' he; obtain ⟨rfl, hv⟩ := user_eq he
      obtain ⟨seg, h1, h2, h3, h4, h5, h6⟩ := ih r' _
      refine ⟨.call (.aggApply h r e.msg) :: seg, by rw [h1]; simp, ?_, h3, h4, h5, ?_⟩
      · intro o ho
        rcases List.mem_cons.1 ho with rfl | ho
        · rfl
        · exact h2 o ho
      · intro r'' hr
        obtain ⟨k1, k2, k3⟩ := h6 r'' hr
        refine ⟨.cons s.w ?_ k1, ?_, by simp [k3]⟩
        · exact hv.symm
        · simp only [appliedIn] at k2
          simp [appliedIn, k2]

theorem aggPre_inst (h : HConfig) (pre post : List (Obs R)) (hp : ∀ o ∈ pre, AggPre h o) :
    aggInstIn (pre ++ post) = aggInstIn post := by
  induction pre with
  | nil => rfl
  | cons o pre ih =>
    have ho := hp o (by simp)
    have ih := ih (fun x hx => hp x (by simp [hx]))
    cases o with
    | call c => simpa [aggInstIn] using ih
    | reset => simpa [aggInstIn] using ih
    | fact f => simp [AggPre] at ho

theorem aggPre_events (h : HConfig) (pre : List (Obs R)) (hp : ∀ o ∈ pre, AggPre h o) :
    aggEventsIn pre = [] := by
  rw [aggEventsIn, List.filterMap_eq_nil_iff]
  intro o ho
  have := hp o ho
  cases o with
  | call c => rfl
  | reset => rfl
  | fact f => simp [AggPre] at this

theorem aggPre_exists (h : HConfig) (b : Bool) (pre : List (Obs R)) (hp : ∀ o ∈ pre, AggPre h o) :
    aggExistsAfter b pre = b := by
  induction pre with
  | nil => rfl
  | cons o pre ih =>
    have ho := hp o (by simp)
    have ih := ih (fun x hx => hp x (by simp [hx]))
    cases o with
    | call c => simpa [aggExistsAfter] using ih
    | reset => simpa [aggExistsAfter] using ih
    | fact f => simp [AggPre] at ho

/-- Summary of `aggInvoke`. -/
theorem aggInvoke_sum (A : App W R) (h : HConfig) (id : String) (now : Time) (env : Env)
    (r : R) (ex : Bool) (s : Sys W R) :
    ∃ seg, (aggInvoke A h id now env r ex s).1.trace =
        s.trace ++ .call (.aggHandle h id r env.msg) :: seg ∧
      (aggInvoke A h id now env r ex s).1.proc = s.proc ∧
      (aggInvoke A h id now env r ex s).1.lastCompact = s.lastCompact ∧
      ((∀ o ∈ seg, AggObs h id now env o) ∧ Always (fun a o => AggAllowed (aggExistsAfter ex a)
        (destroyedAfter false a) o) seg) ∧
      (∀ envs e, (aggInvoke A h id now env r ex s).2 = .ok (envs, e) → e = none ∧
        envs = aggEventsIn seg ∧ (aggInvoke A h id now env r ex s).1.agg =
          upd s.agg h.name (upd (s.agg h.name) id
            (if aggExistsAfter ex seg then some ((s.agg h.name id).getD [] ++ aggEventsIn seg)
             else none))) ∧
      (∀ v, (aggInvoke A h id now env r ex s).2 = .error v →
        (aggInvoke A h id now env r ex s).1.agg = s.agg) := by
  unfold aggInvoke
  obtain ⟨seg, h1⟩ := aggRun_seg A h id now env (A.uc.aggHandle h id r env.msg)
      (s.emit (.call (.aggHandle h id r env.msg))) ⟨some r, ex, false, [], true⟩
  refine ⟨seg, ?_⟩
  split
  · rename_i he
    rw [he] at h1
    refine ⟨by rw [h1.trace]; simp, h1.proc, h1.last, ⟨h1.obs, h1.steps⟩, by simp, fun _ _ => h1.agg⟩
  · rename_i s1 sc he
    rw [he] at h1
    have ht : s1.trace = _ := h1.trace
    have hp : s1.proc = _ := h1.proc
    have hl : s1.lastCompact = _ := h1.last
    have ha : s1.agg = s.agg := h1.agg
    have hev : sc.events = aggEventsIn seg := by simpa using h1.events
    have hex : sc.exists_ = aggExistsAfter ex seg := h1.exists_
    unfold aggCommit
    refine ⟨?_, ?_, ?_, ⟨h1.obs, h1.steps⟩, ?_, by simp⟩
    · split <;> simp [ht]
    · split <;> simp [hp]
    · split <;> simp [hl]
    · intro envs e hr
      simp only [Except.ok.injEq, Prod.mk.injEq] at hr
      refine ⟨hr.2.symm, by rw [← hr.1, hev], ?_⟩
      rw [← hex]
      split
      · rename_i hx; simp [ha, hev]
      · rename_i hx; simp [ha]

theorem aggHandle_sum (A : App W R) (h : HConfig) (now : Time) (env : Env) (s : Sys W R) :
    ∃ seg, AggSum A h now env s (aggHandle A h now env s).1 (aggHandle A h now env s).2 seg := by
  unfold aggHandle
  split
  · exact ⟨[], by simp, rfl, rfl, by simp, by simp, .inl (by simp)⟩
  split
  · exact ⟨[], by simp, rfl, rfl, by simp, by simp, .inl (by simp)⟩
  split
  · rename_i he; obtain ⟨rfl, _⟩ := user_eq he
    exact ⟨[_], rfl, rfl, rfl, by simp, by simp, .inl (by simp [AggPre])⟩
  · rename_i s1 id he; obtain ⟨rfl, hrt⟩ := user_eq he
    split
    · exact ⟨[_], rfl, rfl, rfl, by simp, by simp, .inl (by simp [AggPre])⟩
    · rename_i hid0
      have hid : id ≠ "" ∧ ∃ w, (A.uc.aggRoute h env.msg w).2 = .ok id := ⟨hid0, s.w, hrt.symm⟩
      unfold aggWithID
      split
      · rename_i he; obtain ⟨rfl, _⟩ := user_eq he
        exact ⟨[.call (.aggRoute h env.msg), .call (.aggNew h)], by simp, rfl, rfl, by simp,
          by simp, .inl (by simp [AggPre])⟩
      · rename_i he; obtain ⟨rfl, _⟩ := user_eq he
        exact ⟨[.call (.aggRoute h env.msg), .call (.aggNew h)], by simp, rfl, rfl, by simp,
          by simp, .inl (by simp [AggPre])⟩
      · rename_i s2 r he; obtain ⟨rfl, hnew⟩ := user_eq he
        split
        · rename_i hist hh
          simp only [Sys.emit_agg] at hh
          obtain ⟨seg, hs1, hs2, hs3, hs4, hs5, hs6⟩ := aggReplay_trace A h hist r
            ({ ({ s.emit (.call (.aggRoute h env.msg)) with
                w := (A.uc.aggRoute h env.msg s.w).1 } : Sys W R).emit (.call (.aggNew h)) with
                w := (A.uc.aggNew h (A.uc.aggRoute h env.msg s.w).1).1 } : Sys W R)
          have hpre : ∀ o ∈ (.call (.aggRoute h env.msg) :: .call (.aggNew h) :: seg : List (Obs R)),
              AggPre h o := by
            intro o ho
            simp only [List.mem_cons] at ho
            rcases ho with rfl | rfl | ho
            · rfl
            · rfl
            · exact hs2 o ho
          split
          · rename_i he
            rw [he] at hs1 hs3 hs4 hs5
            refine ⟨.call (.aggRoute h env.msg) :: .call (.aggNew h) :: seg, ?_, hs4, hs5, by simp,
              fun _ _ => hs3, .inl hpre⟩
            simpa using hs1
          · rename_i s3 r3 he
            rw [he] at hs1 hs3 hs4 hs5 hs6
            obtain ⟨k1, k2, k3⟩ := hs6 r3 rfl
            obtain ⟨seg2, i1, i2, i3, i4, i5, i6⟩ := aggInvoke_sum A h id now env r3 true
              (s3.notify (.aggLoaded h id env))
            have hs3' : s3.agg = s.agg := hs3
            refine ⟨(.call (.aggRoute h env.msg) :: .call (.aggNew h) :: seg) ++
              .fact (.aggLoaded h id env) :: .call (.aggHandle h id r3 env.msg) :: seg2, ?_, ?_, ?_,
              ?_, ?_, .inr ⟨_, id, r3, seg2, ?_, hpre, i4.1, by rw [hh]; exact i4.2, hid,
                ⟨seg, rfl, by rw [hh]; exact k2, by rw [hh]; exact k3⟩,
                r, ⟨_, hnew.symm⟩, by rw [hh]; exact k1⟩⟩
            · rw [i1]
              have : s3.trace = _ := hs1
              simp [this]
            · rw [i2]; exact hs4
            · rw [i3]; exact hs5
            · intro envs e hr
              obtain ⟨j1, j2, j3⟩ := i5 envs e hr
              refine ⟨j1, ?_, id, ?_, ?_⟩
              · rw [j2, aggEventsIn_append, aggPre_events h _ hpre]
                simp [aggEventsIn]
              · rw [aggPre_inst h _ _ hpre]; simp [aggInstIn]
              · rw [j3, aggExistsAfter_append, aggPre_exists h _ _ hpre, aggEventsIn_append,
                  aggPre_events h _ hpre]
                simp [aggExistsAfter, hs3', aggEventsIn]
            · intro v hv
              rw [i6 v hv]; exact hs3
            · simp [hh]
        · rename_i hh
          simp only [Sys.emit_agg] at hh
          have hpre : ∀ o ∈ ([.call (.aggRoute h env.msg), .call (.aggNew h)] : List (Obs R)),
              AggPre h o := by simp [AggPre]
          obtain ⟨seg2, i1, i2, i3, i4, i5, i6⟩ := aggInvoke_sum A h id now env r false
            (Sys.notify ({ ({ s.emit (.call (.aggRoute h env.msg)) with
                w := (A.uc.aggRoute h env.msg s.w).1 } : Sys W R).emit (.call (.aggNew h)) with
                w := (A.uc.aggNew h (A.uc.aggRoute h env.msg s.w).1).1 } : Sys W R)
              (.aggNotFound h id env))
          refine ⟨[.call (.aggRoute h env.msg), .call (.aggNew h)] ++
            .fact (.aggNotFound h id env) :: .call (.aggHandle h id r env.msg) :: seg2, ?_, i2, i3,
            ?_, i6, .inr ⟨_, id, r, seg2, ?_, hpre, i4.1, by rw [hh]; exact i4.2, hid,
              ⟨[], rfl, by rw [hh]; rfl, by rw [hh]; rfl⟩, r, ⟨_, hnew.symm⟩, by rw [hh]; exact .nil _⟩⟩
          · have := i1
            simp only at this ⊢
            rw [this]; simp
          · intro envs e hr
            obtain ⟨j1, j2, j3⟩ := i5 envs e hr
            refine ⟨j1, ?_, id, ?_, ?_⟩
            · rw [j2, aggEventsIn_append, aggPre_events h _ hpre]
              simp [aggEventsIn]
            · rw [aggPre_inst h _ _ hpre]; simp [aggInstIn]
            · simp only at j3 ⊢
              rw [j3, aggExistsAfter_append, aggPre_exists h _ _ hpre, aggEventsIn_append,
                aggPre_events h _ hpre]
              simp [aggExistsAfter, aggEventsIn]
          · simp [hh]

/-! ## Processes -/

/-- The timeouts that stay pending. -/
def pendingIn (now : Time) (seg : List (Obs R)) : List Env :=
  (timeoutsIn seg).filter (fun e => !decide (e.scheduledFor ≤ now))

/-- Effect of a completed process handling on the controller's state. -/
def ProcCommit (A : App W R) (now : Time) (seg : List (Obs R)) (e : Option Err)
    (p p' : ProcState R) : Prop :=
  match procInstIn seg with
  | none => p' = p
  | some id =>
    (∀ x, x ≠ id → p'.inst x = p.inst x) ∧
    match e with
    | some _ => p'.timeouts = p.timeouts ∧ (p'.inst id).isSome = (p.inst id).isSome
    | none =>
      if endedAfter false seg then
        p'.inst id = none ∧
        p'.timeouts = if (p.inst id).isSome then p.timeouts.filter (fun e => !e.ofInstance id)
          else p.timeouts
      else
        (p'.inst id).isSome ∧ p'.timeouts = A.sort.sort (p.timeouts ++ pendingIn now seg)

/-- Observations at the start of a process handling that finds no instance to
invoke. -/
def ProcPre (h : HConfig) (env : Env) : Obs R → Prop
  | .call (.procRoute h' m) => h' = h ∧ m = env.msg ∧ env.msg.type.kind = .event
  | .fact (.procEventIgnored h' e) => h' = h ∧ e = env ∧ env.msg.type.kind = .event
  | .fact (.procTimeoutIgnored h' id e) => h' = h ∧ e = env ∧ env.msg.type.kind = .timeout ∧
      ∃ o, env.origin = some o ∧ o.instanceID = id
  | _ => False

/-- The observations that lead up to the invocation of an instance. -/
def procStart (h : HConfig) (id : String) (env : Env) (existed : Bool) : List (Obs R) :=
  if existed then [.fact (.procLoaded h id env)]
  else [.fact (.procNotFound h id env), .call (.procNew h), .fact (.procBegun h id env)]

structure ProcSum (A : App W R) (h : HConfig) (now : Time) (env : Env) (s s' : Sys W R) (res : HRes)
    (seg : List (Obs R)) : Prop where
  trace : s'.trace = s.trace ++ seg
  agg : s'.agg = s.agg
  last : s'.lastCompact = s.lastCompact
  other : ∀ n, n ≠ h.name → s'.proc n = s.proc n
  ok : ∀ envs e, res = .ok (envs, e) →
    (envs = match e with
      | some _ => []
      | none => commandsIn seg ++ if endedAfter false seg then []
          else (timeoutsIn seg).filter (fun e => decide (e.scheduledFor ≤ now))) ∧
    ProcCommit A now seg e (s.proc h.name) (s'.proc h.name)
  err : ∀ v, res = .error v → (s'.proc h.name).timeouts = (s.proc h.name).timeouts ∧
    (∀ x, ((s'.proc h.name).inst x).isSome = ((s.proc h.name).inst x).isSome) ∧
    (∀ x, procInstIn seg ≠ some x → (s'.proc h.name).inst x = (s.proc h.name).inst x)
  shape : ((∀ o ∈ seg, ProcPre h env o) ∧
      ∀ id e, .fact (.procTimeoutIgnored h id e) ∈ seg → (s.proc h.name).inst id = none) ∨
    ∃ pre id, (∀ o ∈ pre, o = .call (.procRoute h env.msg) ∧ env.msg.type.kind = .event) ∧
      (env.msg.type.kind = .timeout → ((s.proc h.name).inst id).isSome ∧
        ∃ o, env.origin = some o ∧ o.instanceID = id) ∧
      (env.msg.type.kind = .event → id ≠ "" ∧ pre = [.call (.procRoute h env.msg)] ∧
        ∃ w, (A.uc.procRoute h env.msg w).2 = .ok (.ok (some id))) ∧
      ((seg = pre ++ [.fact (.procNotFound h id env), .call (.procNew h)] ∧
          ((s.proc h.name).inst id).isSome = false ∧ ∃ v, res = .error v) ∨
       (seg = pre ++ procStart h id env ((s.proc h.name).inst id).isSome ∧
          ((s.proc h.name).inst id).isSome = false ∧ ∃ v, res = .error v) ∨
       ∃ r post, seg = pre ++ procStart h id env ((s.proc h.name).inst id).isSome ++
            .call (.procHandle h id r env.msg (procSeenTime env)) :: post ∧
          (∀ r', (s.proc h.name).inst id = some r' → r' = r) ∧
          (∀ o ∈ post, ProcObs h id now env o) ∧
          Always (fun a o => ProcAllowed (endedAfter false a) o) post)

theorem procObs_inst (h : HConfig) (id : String) (now : Time) (env : Env) (post : List (Obs R))
    (hp : ∀ o ∈ post, ProcObs h id now env o) : procInstIn post = none := by
  rw [procInstIn, List.findSome?_eq_none_iff]
  intro o ho
  have := hp o ho
  cases o with
  | call c => rfl
  | reset => rfl
  | fact f => cases f <;> first | rfl | exact this.elim

theorem procPre_fold (h : HConfig) (env : Env) (pre : List (Obs R)) (hp : ∀ o ∈ pre, ProcPre h env o) :
    procInstIn pre = none ∧ commandsIn pre = [] ∧ timeoutsIn pre = [] ∧
      ∀ b, endedAfter b pre = b := by
  induction pre with
  | nil => exact ⟨rfl, rfl, rfl, fun _ => rfl⟩
  | cons o pre ih =>
    have ho := hp o (by simp)
    obtain ⟨h1, h2, h3, h4⟩ := ih (fun x hx => hp x (by simp [hx]))
    cases o with
    | call c => exact ⟨h1, h2, h3, h4⟩
    | reset => simp [ProcPre] at ho
    | fact f => cases f <;> first | exact ho.elim | exact ⟨h1, h2, h3, h4⟩

theorem procInstIn_append (a b : List (Obs R)) :
    procInstIn (a ++ b) = (procInstIn a).or (procInstIn b) := by
  simp [procInstIn, List.findSome?_append]

theorem procStart_fold (h : HConfig) (id : String) (env : Env) (ex : Bool) :
    procInstIn (procStart h id env ex : List (Obs R)) = some id ∧
    commandsIn (procStart h id env ex : List (Obs R)) = [] ∧
    timeoutsIn (procStart h id env ex : List (Obs R)) = [] ∧
    ∀ b, endedAfter b (procStart h id env ex : List (Obs R)) = b := by
  cases ex <;> simp [procStart, procInstIn, commandsIn, timeoutsIn, endedAfter]

/-- Summary of `procInvoke`. -/
theorem procInvoke_sum (A : App W R) (h : HConfig) (id : String) (now : Time) (env : Env)
    (r : R) (s : Sys W R) (ex : Bool) (hex : ex = ((s.proc h.name).inst id).isSome) :
    ∃ post, (procInvoke A h id now env r ex s).1.trace =
        s.trace ++ .call (.procHandle h id r env.msg (procSeenTime env)) :: post ∧
      (procInvoke A h id now env r ex s).1.agg = s.agg ∧
      (procInvoke A h id now env r ex s).1.lastCompact = s.lastCompact ∧
      (∀ n, n ≠ h.name → (procInvoke A h id now env r ex s).1.proc n = s.proc n) ∧
      ((∀ o ∈ post, ProcObs h id now env o) ∧
        Always (fun a o => ProcAllowed (endedAfter false a) o) post) ∧
      (∀ x, x ≠ id → ((procInvoke A h id now env r ex s).1.proc h.name).inst x = (s.proc h.name).inst x) ∧
      (∀ envs e, (procInvoke A h id now env r ex s).2 = .ok (envs, e) →
        (envs = match e with
          | some _ => []
          | none => commandsIn post ++ if endedAfter false post then []
            else (timeoutsIn post).filter (fun e => decide (e.scheduledFor ≤ now))) ∧
        match e with
        | some _ => ((procInvoke A h id now env r ex s).1.proc h.name).timeouts = (s.proc h.name).timeouts ∧
            (((procInvoke A h id now env r ex s).1.proc h.name).inst id).isSome =
              ((s.proc h.name).inst id).isSome
        | none =>
          if endedAfter false post then
            ((procInvoke A h id now env r ex s).1.proc h.name).inst id = none ∧
            ((procInvoke A h id now env r ex s).1.proc h.name).timeouts =
              if ((s.proc h.name).inst id).isSome then
                (s.proc h.name).timeouts.filter (fun e => !e.ofInstance id)
              else (s.proc h.name).timeouts
          else
            (((procInvoke A h id now env r ex s).1.proc h.name).inst id).isSome ∧
            ((procInvoke A h id now env r ex s).1.proc h.name).timeouts =
              A.sort.sort ((s.proc h.name).timeouts ++ pendingIn now post)) ∧
      (∀ v, (procInvoke A h id now env r ex s).2 = .error v →
        ((procInvoke A h id now env r ex s).1.proc h.name).timeouts = (s.proc h.name).timeouts ∧
        (((procInvoke A h id now env r ex s).1.proc h.name).inst id).isSome =
          ((s.proc h.name).inst id).isSome) := by
  unfold procInvoke
  obtain ⟨post, h1⟩ := procRun_seg h id now env (A.uc.procHandle h id r env.msg (procSeenTime env))
    (s.emit (.call (.procHandle h id r env.msg (procSeenTime env)))) ⟨r, false, [], [], []⟩
  generalize procRun h id now env (A.uc.procHandle h id r env.msg (procSeenTime env))
    (s.emit (.call (.procHandle h id r env.msg (procSeenTime env)))) ⟨r, false, [], [], []⟩ = x at h1
  obtain ⟨s1, sc, res⟩ := x
  have ht : s1.trace = s.trace ++ .call (.procHandle h id r env.msg (procSeenTime env)) :: post := by
    have : s1.trace = _ := h1.trace
    rw [this]; simp
  have ha : s1.agg = s.agg := h1.agg
  have hp : s1.proc = s.proc := h1.proc
  have hl : s1.lastCompact = s.lastCompact := h1.last
  have hc : sc.commands = commandsIn post := by simpa using h1.commands
  have hr : sc.ready = (timeoutsIn post).filter (fun e => decide (e.scheduledFor ≤ now)) := by
    simpa using h1.ready
  have hpe : sc.pending = pendingIn now post := by simpa [pendingIn] using h1.pending
  have hen : sc.ended = endedAfter false post := h1.ended
  have halias : (procAlias h id ex s1 sc.root).trace = s1.trace ∧
      (procAlias h id ex s1 sc.root).agg = s1.agg ∧
      (procAlias h id ex s1 sc.root).lastCompact = s1.lastCompact ∧
      (∀ n, n ≠ h.name → (procAlias h id ex s1 sc.root).proc n = s1.proc n) ∧
      (∀ x, x ≠ id → ((procAlias h id ex s1 sc.root).proc h.name).inst x = (s1.proc h.name).inst x) ∧
      ((procAlias h id ex s1 sc.root).proc h.name).timeouts = (s1.proc h.name).timeouts ∧
      (((procAlias h id ex s1 sc.root).proc h.name).inst id).isSome =
        ((s1.proc h.name).inst id).isSome := by
    unfold procAlias
    split
    · rename_i hx
      refine ⟨rfl, rfl, rfl, ?_, ?_, ?_, ?_⟩
      · intro n hn; simp [upd_ne _ _ hn]
      · intro x hx; simp [upd_ne _ _ hx]
      · simp
      · rw [hp, ← hex, hx]; simp
    · exact ⟨rfl, rfl, rfl, fun _ _ => rfl, fun _ _ => rfl, rfl, rfl⟩
  obtain ⟨a1, a2, a3, a4, a5, a6, a7⟩ := halias
  rw [hp] at a4 a5 a6 a7
  rcases res with v | (_ | e)
  · -- panic
    refine ⟨post, a1.trans ht, a2.trans ha, a3.trans hl, a4, ⟨h1.obs, h1.steps⟩, a5, by simp, ?_⟩
    intro v _; exact ⟨a6, a7⟩
  · -- success
    simp only
    split
    · rename_i hx
      refine ⟨post, ?_, ?_, ?_, ?_, ⟨h1.obs, h1.steps⟩, ?_, ?_, by simp⟩
      · split <;> simp [procDelete, ht]
      · split <;> simp [procDelete, ha]
      · split <;> simp [procDelete, hl]
      · intro n hn
        split
        · simp [procDelete, upd_ne _ _ hn, hp]
        · rw [hp]
      · intro x hx
        split
        · simp [procDelete, upd_ne _ _ hx, hp]
        · rw [hp]
      · intro envs e he
        simp only [Except.ok.injEq, Prod.mk.injEq] at he
        obtain ⟨rfl, rfl⟩ := he
        rw [hen] at hx
        simp only [hx, if_true]
        refine ⟨by simp [hc], ?_⟩
        cases ex with
        | true => simp [procDelete, ← hex, hp]
        | false =>
          have hn : (s.proc h.name).inst id = none := by
            cases hi : (s.proc h.name).inst id with
            | none => rfl
            | some r => rw [hi] at hex; simp at hex
          simp [hp, hn]
    · rename_i hx
      refine ⟨post, ?_, ?_, ?_, ?_, ⟨h1.obs, h1.steps⟩, ?_, ?_, by simp⟩
      · simp [procUpdate, ht]
      · simp [procUpdate, ha]
      · simp [procUpdate, hl]
      · intro n hn; simp [procUpdate, upd_ne _ _ hn, hp]
      · intro x hx; simp [procUpdate, upd_ne _ _ hx, hp]
      · intro envs e he
        simp only [Except.ok.injEq, Prod.mk.injEq] at he
        obtain ⟨rfl, rfl⟩ := he
        rw [hen] at hx
        simp only [hx]
        refine ⟨by simp [hc, hr], ?_⟩
        simp [procUpdate, hp, hpe]
  · -- error
    refine ⟨post, a1.trans ht, a2.trans ha, a3.trans hl, a4, ⟨h1.obs, h1.steps⟩, a5, ?_, by simp⟩
    intro envs e' he
    simp only [Except.ok.injEq, Prod.mk.injEq] at he
    obtain ⟨rfl, rfl⟩ := he
    exact ⟨rfl, a6, a7⟩

theorem procWithID_sum (A : App W R) (h : HConfig) (id : String) (now : Time) (env : Env)
    (s0 s : Sys W R) (pre : List (Obs R)) (ht : s.trace = s0.trace ++ pre) (ha : s.agg = s0.agg)
    (hp : s.proc = s0.proc) (hl : s.lastCompact = s0.lastCompact)
    (hpre : ∀ o ∈ pre, o = .call (.procRoute h env.msg) ∧ env.msg.type.kind = .event)
    (hto : env.msg.type.kind = .timeout → ((s0.proc h.name).inst id).isSome ∧
        ∃ o, env.origin = some o ∧ o.instanceID = id)
    (hev : env.msg.type.kind = .event → id ≠ "" ∧ pre = [.call (.procRoute h env.msg)] ∧
        ∃ w, (A.uc.procRoute h env.msg w).2 = .ok (.ok (some id))) :
    ∃ seg, ProcSum A h now env s0 (procWithID A h id now env s).1
      (procWithID A h id now env s).2 seg := by
  obtain ⟨p1, p2, p3, p4⟩ := procPre_fold h env pre (fun o ho => by
    obtain ⟨rfl, hk⟩ := hpre o ho; exact ⟨rfl, rfl, hk⟩)
  have key : ∀ (r : R) (s1 : Sys W R) (ex : Bool), ex = ((s0.proc h.name).inst id).isSome →
      s1.trace = s0.trace ++ pre ++ procStart h id env ex → s1.agg = s0.agg → s1.proc = s0.proc →
      s1.lastCompact = s0.lastCompact → (∀ r', (s0.proc h.name).inst id = some r' → r' = r) →
      ∃ seg, ProcSum A h now env s0 (procInvoke A h id now env r ex s1).1
        (procInvoke A h id now env r ex s1).2 seg := by
    intro r s1 ex hex ht1 ha1 hp1 hl1 hroot
    obtain ⟨post, q1, q2, q3, q4, q5, q6, q7, q8⟩ :=
      procInvoke_sum A h id now env r s1 ex (by rw [hp1]; exact hex)
    rw [hp1] at q4 q6 q7 q8
    obtain ⟨t1, t2, t3, t4⟩ := procStart_fold (R := R) h id env ex
    have hseg : ∀ (c : Call R), procInstIn (pre ++ procStart h id env ex ++ .call c :: post) = some id ∧
        commandsIn (pre ++ procStart h id env ex ++ .call c :: post) = commandsIn post ∧
        timeoutsIn (pre ++ procStart h id env ex ++ .call c :: post) = timeoutsIn post ∧
        endedAfter false (pre ++ procStart h id env ex ++ .call c :: post) = endedAfter false post := by
      intro c
      refine ⟨?_, ?_, ?_, ?_⟩
      · simp [procInstIn_append, p1, t1]
      · rw [commandsIn_append, commandsIn_append, p2, t2]; simp [commandsIn]
      · rw [timeoutsIn_append, timeoutsIn_append, p3, t3]; simp [timeoutsIn]
      · rw [endedAfter_append, endedAfter_append, p4, t4]; simp [endedAfter]
    obtain ⟨u1, u2, u3, u4⟩ := hseg (.procHandle h id r env.msg (procSeenTime env))
    refine ⟨pre ++ procStart h id env ex ++ .call (.procHandle h id r env.msg (procSeenTime env)) :: post,
      ?_, q2.trans ha1, q3.trans hl1, q4, ?_, ?_, .inr ⟨pre, id, hpre, hto, hev, .inr (.inr ⟨r, post, ?_, hroot, q5.1, q5.2⟩)⟩⟩
    · rw [q1, ht1]; simp
    · intro envs e he
      obtain ⟨v1, v2⟩ := q7 envs e he
      refine ⟨?_, ?_⟩
      · rw [u2, u3, u4]; exact v1
      · unfold ProcCommit
        rw [u1, u4]
        refine ⟨q6, ?_⟩
        unfold pendingIn at *
        rw [u3]
        exact v2
    · intro v hv
      obtain ⟨v1, v2⟩ := q8 v hv
      refine ⟨v1, ?_, ?_⟩
      · intro x
        by_cases hx : x = id
        · rw [hx]; exact v2
        · rw [q6 x hx]
      · intro x hx
        rw [u1] at hx
        exact q6 x (fun e => hx (by rw [e]))
    · rw [← hex]
  unfold procWithID
  split
  · rename_i r hr
    rw [hp] at hr
    refine key r _ true (by rw [hr]; rfl) ?_ ha hp hl ?_
    · simp [procStart, ht]
    · intro r' hr'; rw [hr] at hr'; exact (Option.some.inj hr').symm
  · rename_i hn
    rw [hp] at hn
    split
    · rename_i he; obtain ⟨rfl, _⟩ := user_eq he
      refine ⟨pre ++ [.fact (.procNotFound h id env), .call (.procNew h)], ?_, ha, hl,
        fun n _ => by simp [hp], by simp, ?_, .inr ⟨pre, id, hpre, hto, hev,
          .inl ⟨rfl, by simp [hn], _, rfl⟩⟩⟩
      · simp [ht]
      · intro v _; simp [hp]
    · rename_i he; obtain ⟨rfl, _⟩ := user_eq he
      refine ⟨pre ++ procStart h id env false, ?_, ha, hl,
        fun n _ => by simp [hp], by simp, ?_, .inr ⟨pre, id, hpre, hto, hev,
          .inr (.inl ⟨by simp [hn], by simp [hn], _, rfl⟩)⟩⟩
      · simp [ht, procStart]
      · intro v _; simp [hp]
    · rename_i r he; obtain ⟨rfl, _⟩ := user_eq he
      refine key r _ false (by simp [hn]) ?_ ha hp hl ?_
      · simp [procStart, ht]
      · intro r' hr'; rw [hn] at hr'; cases hr'

theorem procHandle_sum (A : App W R) (h : HConfig) (now : Time) (env : Env) (s : Sys W R) :
    ∃ seg, ProcSum A h now env s (procHandle A h now env s).1 (procHandle A h now env s).2 seg := by
  have hnone : ∀ (seg : List (Obs R)) (res : HRes) (s' : Sys W R), (∀ o ∈ seg, ProcPre h env o) →
      s'.trace = s.trace ++ seg → s'.agg = s.agg → s'.proc = s.proc →
      s'.lastCompact = s.lastCompact → (∀ envs e, res = .ok (envs, e) → envs = []) →
      (∀ id e, .fact (.procTimeoutIgnored h id e) ∈ seg → (s.proc h.name).inst id = none) →
      ∃ seg, ProcSum A h now env s s' res seg := by
    intro seg res s' hseg ht ha hp hl hr hti
    obtain ⟨p1, p2, p3, p4⟩ := procPre_fold h env seg hseg
    refine ⟨seg, ht, ha, hl, fun n _ => by rw [hp], ?_, ?_, .inl ⟨hseg, hti⟩⟩
    · intro envs e he
      refine ⟨?_, ?_⟩
      · rw [hr envs e he, p2, p3]
        cases e <;> simp
      · simp [ProcCommit, p1, hp]
    · intro v _; simp [hp]
  unfold procHandle
  split
  · exact hnone [] _ _ (by simp) (by simp) rfl rfl rfl (by simp) (by simp)
  split
  · exact hnone [] _ _ (by simp) (by simp) rfl rfl rfl (by simp) (by simp)
  · rename_i hk
    split
    · rename_i he; obtain ⟨rfl, _⟩ := user_eq he
      exact hnone [.call (.procRoute h env.msg)] _ _ (by simp [ProcPre, hk]) rfl rfl rfl rfl (by simp) (by simp)
    · rename_i he; obtain ⟨rfl, _⟩ := user_eq he
      exact hnone [.call (.procRoute h env.msg)] _ _ (by simp [ProcPre, hk]) rfl rfl rfl rfl (by simp) (by simp)
    · rename_i he; obtain ⟨rfl, _⟩ := user_eq he
      exact hnone [.call (.procRoute h env.msg), .fact (.procEventIgnored h env)] _ _
        (by simp [ProcPre, hk]) (by simp) rfl rfl rfl (by simp) (by simp)
    · rename_i id he; obtain ⟨rfl, hrt⟩ := user_eq he
      split
      · exact hnone [.call (.procRoute h env.msg)] _ _ (by simp [ProcPre, hk]) rfl rfl rfl rfl (by simp) (by simp)
      · rename_i hid
        exact procWithID_sum A h id now env s _ [.call (.procRoute h env.msg)] rfl rfl rfl rfl
          (by simp [hk]) (by simp [hk]) (fun _ => ⟨hid, rfl, s.w, hrt.symm⟩)
  · rename_i hk
    split
    · exact hnone [] _ _ (by simp) (by simp) rfl rfl rfl (by simp) (by simp)
    · rename_i o ho
      split
      · rename_i r hr
        exact procWithID_sum A h o.instanceID now env s s [] (by simp) rfl rfl rfl (by simp)
          (fun _ => ⟨by rw [hr]; rfl, o, ho, rfl⟩) (by simp [hk])
      · rename_i hn
        exact hnone [.fact (.procTimeoutIgnored h o.instanceID env)] _ _
          (by simp [ProcPre, hk, ho]) rfl rfl rfl rfl (by simp) (by simp [hn])

end Verif
