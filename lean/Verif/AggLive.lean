import Verif.Sum

/-!
# The live root of an aggregate during a handling

Machinery for C23 and C26: what user code with well-behaved roots can rely on.
-/

namespace Verif

variable {W R : Type}

theorem liveRoot_append (r0 : HConfig → R) (ap : HConfig → R → Message → R) (b : Option R)
    (x y : List (Obs R)) : liveRoot r0 ap b (x ++ y) = liveRoot r0 ap (liveRoot r0 ap b x) y := by
  simp [liveRoot]

/-- The scope's root is what the events recorded so far make of `base`. -/
def ScopeOK (ap : HConfig → R → Message → R) (h : HConfig) (base : R) (sc : AggScope R) : Prop :=
  (sc.exists_ = true → sc.root = some ((sc.events.map Env.msg).foldl (ap h) base)) ∧
  (sc.exists_ = false → sc.destroyed = false → sc.events = [] ∧ sc.root = some base)

/-- What one or more operations do to the live root. -/
structure LiveSeg (r0 : HConfig → R) (ap : HConfig → R → Message → R) (h : HConfig)
    (s s' : Sys W R) (sc sc' : AggScope R) (seg : List (Obs R)) : Prop where
  trace : s'.trace = s.trace ++ seg
  root : sc'.root = liveRoot r0 ap sc.root seg
  ok : NoRevert seg → ∀ base, ScopeOK ap h base sc → ScopeOK ap h base sc'

theorem LiveSeg.refl (r0 : HConfig → R) (ap : HConfig → R → Message → R) (h : HConfig)
    (s : Sys W R) (sc : AggScope R) : LiveSeg r0 ap h s s sc sc [] :=
  ⟨by simp, rfl, fun _ _ h => h⟩

theorem LiveSeg.trans {r0 : HConfig → R} {ap : HConfig → R → Message → R} {h : HConfig}
    {s s1 s2 : Sys W R} {sc sc1 sc2 : AggScope R} {a b : List (Obs R)}
    (x : LiveSeg r0 ap h s s1 sc sc1 a) (y : LiveSeg r0 ap h s1 s2 sc1 sc2 b) :
    LiveSeg r0 ap h s s2 sc sc2 (a ++ b) := by
  refine ⟨by rw [y.trace, x.trace, List.append_assoc], by rw [y.root, x.root, liveRoot_append], ?_⟩
  intro hn base hb
  refine y.ok (fun h' i e hm => hn h' i e (by simp [hm])) base (x.ok ?_ base hb)
  exact fun h' i e hm => hn h' i e (by simp [hm])

theorem aggApplyScope_total (A : App W R) (h : HConfig) (m : Message) (s : Sys W R)
    (sc : AggScope R) {r : R} (hr : sc.root = some r) (hv : (A.uc.aggApply h r m s.w).2.2 = none) :
    aggApplyScope A h m s sc = ({ s.emit (.call (.aggApply h r m)) with w := (A.uc.aggApply h r m s.w).1 },
      { sc with root := some (A.uc.aggApply h r m s.w).2.1 }, none) := by
  unfold aggApplyScope
  rw [hr]
  simp only [Sys.user]
  generalize A.uc.aggApply h r m s.w = x at hv
  obtain ⟨w, r', v⟩ := x
  simp only at hv
  subst hv
  rfl

theorem aggOp_live (A : App W R) {r0 : HConfig → R} {ap : HConfig → R → Message → R}
    (g : A.uc.PureRoots r0 ap) (h : HConfig) (id : String) (now : Time) (env : Env) (o : AggOp R)
    (ho : ¬ o.direct) (s : Sys W R) (sc : AggScope R) (hroot : sc.root.isSome) :
    ∃ seg, LiveSeg r0 ap h s (aggOp A h id now env o s sc).1 sc
      (aggOp A h id now env o s sc).2.1 seg ∧ (aggOp A h id now env o s sc).2.1.root.isSome := by
  cases o with
  | destroy =>
    simp only [aggOp, aggDestroy]
    split
    · exact ⟨[], .refl _ _ _ _ _, hroot⟩
    · rename_i hx
      split
      · rename_i he; obtain ⟨rfl, hv⟩ := user_eq he
        rw [g.new] at hv; cases hv
      · rename_i s1 r he; obtain ⟨rfl, hv⟩ := user_eq he
        rw [g.new] at hv; cases hv
        refine ⟨[.call (.aggNew h), .fact (.aggDestroyed h id env)], ⟨by simp, rfl, ?_⟩, rfl⟩
        intro _ base hb
        exact ⟨by simp, by simp⟩
  | setRoot r => exact (ho trivial).elim
  | log t =>
    refine ⟨[.fact (.aggLog h id env t)], ⟨by simp [aggOp], rfl, fun _ _ h => h⟩, hroot⟩
  | record m =>
    simp only [aggOp, aggRecord]
    split
    · exact ⟨[], .refl _ _ _ _ _, hroot⟩
    · split
      · exact ⟨[], .refl _ _ _ _ _, hroot⟩
      · obtain ⟨r, hr⟩ := Option.isSome_iff_exists.1 hroot
        have happ : ∀ (s : Sys W R) (sc : AggScope R), sc.root = some r → aggApplyScope A h m s sc =
            ({ s.emit (.call (.aggApply h r m)) with w := (A.uc.aggApply h r m s.w).1 },
              { sc with root := some (ap h r m) }, none) := by
          intro s sc hr
          rw [aggApplyScope_total A h m s sc hr (by rw [g.apply]), g.apply]
        unfold aggRevive
        by_cases hx : sc.exists_ = true
        · rw [if_pos hx]
          simp only
          rw [happ s sc hr]
          refine ⟨[.call (.aggApply h r m), .fact (.aggEvent h id env
            (env.child (s.nextID + 1) m now ⟨h, .aggregate, id⟩))], ⟨?_, rfl, ?_⟩, rfl⟩
          · simp [aggEmit, Sys.notify, Sys.emit]
          · intro _ base hb
            refine ⟨fun _ => ?_, fun h0 => ?_⟩
            · have := hb.1 hx
              rw [hr] at this
              have := Option.some.inj this
              simp [aggEmit, Env.child, this]
            · simp only [aggEmit] at h0; rw [hx] at h0; cases h0
        · rw [if_neg hx]
          have hx' : sc.exists_ = false := by simpa using hx
          simp only
          by_cases hd : sc.destroyed = true
          · rw [if_pos hd, happ _ ⟨sc.root, true, false, sc.events, sc.given⟩ hr]
            refine ⟨[.fact (.aggReverted h id env), .call (.aggApply h r m), .fact (.aggEvent h id env
              (env.child (s.nextID + 1) m now ⟨h, .aggregate, id⟩))], ⟨?_, rfl, ?_⟩, rfl⟩
            · simp [aggEmit, Sys.notify, Sys.emit]
            · intro hn; exact (hn h id env (by simp)).elim
          · rw [if_neg hd, happ _ ⟨sc.root, true, false, sc.events, sc.given⟩ hr]
            refine ⟨[.fact (.aggCreated h id env), .call (.aggApply h r m), .fact (.aggEvent h id env
              (env.child (s.nextID + 1) m now ⟨h, .aggregate, id⟩))], ⟨?_, rfl, ?_⟩, rfl⟩
            · simp [aggEmit, Sys.notify, Sys.emit]
            · intro _ base hb
              refine ⟨fun _ => ?_, fun h0 => ?_⟩
              · obtain ⟨h1, h2⟩ := hb.2 hx' (by simpa using hd)
                rw [hr] at h2
                have := Option.some.inj h2
                simp [aggEmit, Env.child, this, h1]
              · simp only [aggEmit] at h0; cases h0

theorem aggRun_live (A : App W R) {r0 : HConfig → R} {ap : HConfig → R → Message → R}
    (g : A.uc.PureRoots r0 ap) (h : HConfig) (id : String) (now : Time) (env : Env)
    (p : Prog W (AggOp R) Unit) (hp : p.Avoids AggOp.direct) (s : Sys W R) (sc : AggScope R)
    (hroot : sc.root.isSome) : ∃ seg, LiveSeg r0 ap h s (aggRun A h id now env p s sc).1 sc
      (aggRun A h id now env p s sc).2.1 seg := by
  induction p generalizing s sc with
  | ret => exact ⟨[], .refl _ _ _ _ _⟩
  | panic v => exact ⟨[], .refl _ _ _ _ _⟩
  | get k ih => exact ih _ (hp _) _ _ hroot
  | set w k ih =>
    obtain ⟨seg, h1⟩ := ih hp { s with w := w } sc hroot
    exact ⟨seg, h1.1, h1.2, h1.3⟩
  | op o k ih =>
    unfold aggRun
    obtain ⟨seg, h1, h2⟩ := aggOp_live A g h id now env o hp.1 s sc hroot
    generalize aggOp A h id now env o s sc = x at h1 h2
    obtain ⟨s1, sc1, v⟩ := x
    obtain ⟨seg2, h3⟩ := ih v (hp.2 v) s1 sc1 h2
    exact ⟨seg ++ seg2, h1.trans h3⟩

/-- With well-behaved roots, an instance comes into being only by recording an event. -/
theorem aggRun_recorded (A : App W R) (g : A.uc.TotalRoots) (h : HConfig) (id : String) (now : Time)
    (env : Env) (p : Prog W (AggOp R) Unit) (s : Sys W R) (sc : AggScope R) (hroot : sc.root.isSome) :
    (aggRun A h id now env p s sc).2.1.exists_ = true →
      sc.exists_ = true ∨ (aggRun A h id now env p s sc).2.1.events.length > sc.events.length := by
  have hop : ∀ (o : AggOp R) (s : Sys W R) (sc : AggScope R), sc.root.isSome →
      (aggOp A h id now env o s sc).2.1.root.isSome ∧
      (aggOp A h id now env o s sc).2.1.events.length ≥ sc.events.length ∧
      ((aggOp A h id now env o s sc).2.1.exists_ = true → sc.exists_ = true ∨
        (aggOp A h id now env o s sc).2.1.events.length > sc.events.length) := by
    intro o s sc hroot
    cases o with
    | destroy =>
      simp only [aggOp, aggDestroy]
      split
      · exact ⟨hroot, Nat.le_refl _, .inl⟩
      · split
        · exact ⟨hroot, Nat.le_refl _, .inl⟩
        · rename_i he; obtain ⟨rfl, hv⟩ := user_eq he
          obtain ⟨r, hr⟩ := g.new h s.w
          rw [hr] at hv; cases hv
          exact ⟨rfl, Nat.le_refl _, by simp⟩
    | log t => exact ⟨hroot, Nat.le_refl _, .inl⟩
    | setRoot r => simp only [aggOp]; split <;> exact ⟨by first | rfl | exact hroot, Nat.le_refl _, .inl⟩
    | record m =>
      simp only [aggOp, aggRecord]
      split
      · exact ⟨hroot, Nat.le_refl _, .inl⟩
      · split
        · exact ⟨hroot, Nat.le_refl _, .inl⟩
        · obtain ⟨r, hr⟩ := Option.isSome_iff_exists.1 hroot
          have hrv : (aggRevive h id env s sc).2.root = sc.root ∧
              (aggRevive h id env s sc).2.events = sc.events := by
            unfold aggRevive; split <;> exact ⟨rfl, rfl⟩
          generalize aggRevive h id env s sc = x at hrv
          obtain ⟨s1, sc1⟩ := x
          obtain ⟨e1, e2⟩ := hrv
          simp only at e1 e2 ⊢
          rw [aggApplyScope_total A h m s1 sc1 (e1.trans hr) (g.apply _ _ _ _)]
          simp only [aggEmit, e2]
          exact ⟨rfl, by simp, fun _ => .inr (by simp)⟩
  have mono : ∀ (p : Prog W (AggOp R) Unit) (s : Sys W R) (sc : AggScope R), sc.root.isSome →
      (aggRun A h id now env p s sc).2.1.events.length ≥ sc.events.length := by
    intro p
    induction p with
    | ret => intro s sc _; exact Nat.le_refl _
    | panic v => intro s sc _; exact Nat.le_refl _
    | get k ih => intro s sc hr; exact ih _ _ _ hr
    | set w k ih => intro s sc hr; exact ih _ _ hr
    | op o k ih =>
      intro s sc hr
      obtain ⟨h1, h2, _⟩ := hop o s sc hr
      unfold aggRun
      generalize aggOp A h id now env o s sc = x at h1 h2
      obtain ⟨s1, sc1, v⟩ := x
      exact Nat.le_trans h2 (ih v s1 sc1 h1)
  induction p generalizing s sc with
  | ret => exact .inl
  | panic v => exact .inl
  | get k ih => exact ih _ _ _ hroot
  | set w k ih => exact ih _ _ hroot
  | op o k ih =>
    obtain ⟨h1, h2, h3⟩ := hop o s sc hroot
    unfold aggRun
    generalize aggOp A h id now env o s sc = x at h1 h2 h3
    obtain ⟨s1, sc1, v⟩ := x
    simp only at h1 h2 h3 ⊢
    intro hx
    rcases ih v s1 sc1 h1 hx with h0 | h0
    · rcases h3 h0 with h4 | h4
      · exact .inl h4
      · exact .inr (Nat.lt_of_lt_of_le h4 (mono (k v) s1 sc1 h1))
    · exact .inr (Nat.lt_of_le_of_lt h2 h0)

/-- What a completed command handling consisted of. -/
theorem aggHandle_inv {A : App W R} {h : HConfig} {now : Time} {env : Env} {s s' : Sys W R}
    {envs : List Env} {e : Option Err} (hr : aggHandle A h now env s = (s', .ok (envs, e))) :
    ∃ (id : String) (r r0 : R) (pre : List (Obs R)) (s1 s2 : Sys W R) (sc : AggScope R),
      (∀ o ∈ pre, AggPre h o) ∧ NewRoot A.uc h r0 ∧
      Replays A.uc h r0 (((s.agg h.name id).getD []).map Env.msg) r ∧
      s1.trace = s.trace ++ pre ++ [.fact (if (s.agg h.name id).isSome then .aggLoaded h id env
        else .aggNotFound h id env)] ∧
      aggRun A h id now env (A.uc.aggHandle h id r env.msg)
        (s1.emit (.call (.aggHandle h id r env.msg))) ⟨some r, (s.agg h.name id).isSome, false, [], true⟩ =
        (s2, sc, none) ∧ s'.trace = s2.trace := by
  have key : ∀ id r (s1 : Sys W R) ex, aggInvoke A h id now env r ex s1 = (s', .ok (envs, e)) →
      ∃ s2 sc, aggRun A h id now env (A.uc.aggHandle h id r env.msg)
        (s1.emit (.call (.aggHandle h id r env.msg))) ⟨some r, ex, false, [], true⟩ = (s2, sc, none) ∧
        s'.trace = s2.trace := by
    intro id r s1 ex he
    unfold aggInvoke at he
    split at he
    · cases he
    · rename_i s2 sc hrun
      cases he
      refine ⟨s2, sc, hrun, ?_⟩
      unfold aggCommit; split <;> rfl
  unfold aggHandle at hr
  split at hr
  · cases hr
  split at hr
  · cases hr
  split at hr
  · cases hr
  rename_i s1 id he; obtain ⟨rfl, _⟩ := user_eq he
  split at hr
  · cases hr
  unfold aggWithID at hr
  split at hr
  · cases hr
  · cases hr
  rename_i s2 r0 he; obtain ⟨rfl, hnew⟩ := user_eq he
  split at hr
  · rename_i hist hh
    simp only [Sys.emit_agg] at hh
    split at hr
    · cases hr
    · rename_i s3 r he
      obtain ⟨seg, hs1, hs2, hs3, _, _, hs6⟩ := aggReplay_trace A h hist r0
        ({ ({ s.emit (.call (.aggRoute h env.msg)) with
            w := (A.uc.aggRoute h env.msg s.w).1 } : Sys W R).emit (.call (.aggNew h)) with
            w := (A.uc.aggNew h (A.uc.aggRoute h env.msg s.w).1).1 } : Sys W R)
      rw [he] at hs1 hs6
      obtain ⟨k1, _, _⟩ := hs6 r rfl
      obtain ⟨s2, sc, hrun, ht⟩ := key id r _ true hr
      refine ⟨id, r, r0, .call (.aggRoute h env.msg) :: .call (.aggNew h) :: seg, _, s2, sc, ?_,
        ⟨_, hnew.symm⟩, by rw [hh]; exact k1, ?_, by rw [hh]; exact hrun, ht⟩
      · intro o ho
        simp only [List.mem_cons] at ho
        rcases ho with rfl | rfl | ho
        · rfl
        · rfl
        · exact hs2 o ho
      · have : s3.trace = _ := hs1
        simp [this, hh]
  · rename_i hh
    simp only [Sys.emit_agg] at hh
    obtain ⟨s2, sc, hrun, ht⟩ := key id r0 _ false hr
    refine ⟨id, r0, r0, [.call (.aggRoute h env.msg), .call (.aggNew h)], _, s2, sc,
      by simp [AggPre], ⟨_, hnew.symm⟩, by rw [hh]; exact .nil _, ?_, by rw [hh]; exact hrun, ht⟩
    simp [hh]

theorem replays_pure {uc : UserCode W R} {r0 : HConfig → R} {ap : HConfig → R → Message → R}
    (g : uc.PureRoots r0 ap) {h : HConfig} {r r' : R} {ms : List Message}
    (hr : Replays uc h r ms r') : r' = ms.foldl (ap h) r := by
  induction hr with
  | nil => rfl
  | cons w ha _ ih =>
    rw [g.apply] at ha
    cases ha
    exact ih

/-- Everything about a completed command handling that concerns roots and existence. -/
theorem aggHandle_live {A : App W R} {h : HConfig} {now : Time} {env : Env} {s s' : Sys W R}
    {envs : List Env} {e : Option Err} (hr : aggHandle A h now env s = (s', .ok (envs, e)))
    {seg : List (Obs R)} (ht : s'.trace = s.trace ++ seg) :
    ∃ id, aggInstIn seg = some id ∧
      (A.uc.TotalRoots → aggExistsAfter false seg = true →
        (s.agg h.name id).isSome ∨ aggEventsIn seg ≠ []) ∧
      (∀ r0 ap, A.uc.PureRoots r0 ap → A.uc.EventsOnly → NoRevert seg → aggExistsAfter false seg = true →
        liveRoot r0 ap none seg =
          some ((((s.agg h.name id).getD [] ++ aggEventsIn seg).map Env.msg).foldl (ap h) (r0 h))) := by
  obtain ⟨id, r, rn, pre, s1, s2, sc, hpre, hnew, hrep, h1, hrun, h2⟩ := aggHandle_inv hr
  obtain ⟨post, hseg⟩ := aggRun_seg A h id now env (A.uc.aggHandle h id r env.msg)
        (s1.emit (.call (.aggHandle h id r env.msg))) ⟨some r, (s.agg h.name id).isSome, false, [], true⟩
  rw [hrun] at hseg
  have hs2 : s2.trace = _ := hseg.trace
  have eseg : seg = pre ++ .fact (if (s.agg h.name id).isSome then .aggLoaded h id env
      else .aggNotFound h id env) :: .call (.aggHandle h id r env.msg) :: post := by
    have : s.trace ++ seg = s.trace ++ (pre ++ .fact (if (s.agg h.name id).isSome then .aggLoaded h id env
      else .aggNotFound h id env) :: .call (.aggHandle h id r env.msg) :: post) := by
      rw [← ht, h2, hs2, Sys.emit_trace, h1]; simp
    exact List.append_cancel_left this
  have hexs : aggExistsAfter false seg = sc.exists_ := by
    have := hseg.exists_
    simp only at this
    rw [this, eseg, aggExistsAfter_append, aggPre_exists h _ _ hpre]
    by_cases hx : (s.agg h.name id).isSome <;> simp [hx, aggExistsAfter]
  have hevs : aggEventsIn seg = sc.events := by
    have := hseg.events
    simp only at this
    rw [this, eseg, aggEventsIn_append, aggPre_events h _ hpre]
    by_cases hx : (s.agg h.name id).isSome <;> simp [hx, aggEventsIn]
  refine ⟨id, ?_, ?_, ?_⟩
  · rw [eseg, aggPre_inst h _ _ hpre]
    by_cases hx : (s.agg h.name id).isSome <;> simp [hx, aggInstIn]
  · intro g hx
    have := aggRun_recorded A g h id now env (A.uc.aggHandle h id r env.msg)
        (s1.emit (.call (.aggHandle h id r env.msg))) ⟨some r, (s.agg h.name id).isSome, false, [], true⟩ rfl
    rw [hrun] at this
    rcases this (by rw [← hexs]; exact hx) with h0 | h0
    · exact .inl h0
    · right; rw [hevs]; intro h3; simp [h3] at h0
  · intro r0 ap g hev hn hx
    obtain ⟨post', hlive⟩ := aggRun_live A g h id now env (A.uc.aggHandle h id r env.msg) (hev _ _ _ _)
        (s1.emit (.call (.aggHandle h id r env.msg))) ⟨some r, (s.agg h.name id).isSome, false, [], true⟩ rfl
    rw [hrun] at hlive
    have : post' = post := by
      have e1 : s2.trace = _ := hlive.trace
      exact List.append_cancel_left (e1.symm.trans hs2)
    subst this
    obtain ⟨wn, hwn⟩ := hnew
    rw [g.new] at hwn
    obtain rfl : r0 h = rn := by simpa using hwn
    have hbase := replays_pure g hrep
    have hok := hlive.ok (fun h' i e' hm => hn h' i e' (by rw [eseg]; simp [hm])) r
      ⟨fun _ => rfl, fun _ _ => ⟨rfl, rfl⟩⟩
    have hroot : sc.root = _ := hlive.root
    have : liveRoot r0 ap none seg = sc.root := by
      rw [hroot, eseg, liveRoot_append]
      by_cases hx : (s.agg h.name id).isSome <;> simp [hx, liveRoot]
    have hfin : sc.root = _ := hok.1 (by rw [← hexs]; exact hx)
    rw [this, hfin, hbase, hevs, List.map_append, List.foldl_append]

end Verif
