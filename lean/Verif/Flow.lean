import Verif.OpView

/-!
# The flow of messages through the engine

Every message announced since the last reset is in at most one place: already dispatched, in the
queue of the operation in progress, or pending.  Everything that is in one of these places and was
produced by a handler was produced in a handling that completed.  Proof machinery for
`Verif.Props.Flow`.
-/

namespace Verif

variable {W R : Type}

/-- What is announced in completed handlings, followed by what was announced so far in the handling
in progress, is part of what was announced. -/
theorem created_happenings (t : List (Obs R)) :
    ((happenings t).flatMap (fun x => createdIn x.seg) ++ createdIn (curSeg t)).Sublist
      (createdIn (sinceReset t)) := by
  induction t using List.reverseRecOn' with
  | nil => exact List.Sublist.refl _
  | append_singleton t o ih =>
    by_cases hr : o = .reset
    · subst hr
      unfold happenings curSeg
      rw [scan_snoc]
      simp [Scan.step, createdIn]
    · have hleft : ((happenings t).flatMap (fun x => createdIn x.seg)).Sublist
          (createdIn (sinceReset t)) := (List.sublist_append_left _ _).trans ih
      rw [sinceReset_snoc _ _ hr, createdIn_append]
      unfold happenings curSeg at *
      rw [scan_snoc]
      cases o with
      | reset => exact absurd rfl hr
      | call c =>
        unfold Scan.step
        simp only
        split
        · rename_i hc; rw [hc] at ih
          have h0 : createdIn ([.call c] : List (Obs R)) = [] := rfl
          simpa only [createdIn_append, h0, List.append_nil] using ih
        · rename_i hc
          have h0 : createdIn ([.call c] : List (Obs R)) = [] := rfl
          rw [h0, List.append_nil]
          simp only [hc]
          simpa [createdIn] using hleft
      | fact f =>
        have hgen : ((scan t).done.flatMap (fun x => createdIn x.seg) ++
            createdIn (match (scan t).cur with | some (_, _, seg) => seg ++ [.fact f] | none => [])).Sublist
            (createdIn (sinceReset t) ++ createdIn ([.fact f] : List (Obs R))) := by
          split
          · rename_i hc; rw [hc] at ih
            rw [createdIn_append, ← List.append_assoc]
            exact ih.append (List.Sublist.refl _)
          · rename_i hc
            simpa [createdIn] using hleft.trans (List.sublist_append_left _ _)
        have hplain : ((scan t).done.flatMap (fun x => createdIn x.seg) ++ createdIn ([] : List (Obs R))).Sublist
            (createdIn (sinceReset t) ++ createdIn ([.fact f] : List (Obs R))) := by
          simpa [createdIn] using hleft.trans (List.sublist_append_left _ _)
        unfold Scan.step
        cases f <;> first
          | exact hplain
          | (simp only
             split
             · rename_i hc
               simp only [hc] at hgen
               exact hgen
             · rename_i hc
               simpa [hc, createdIn] using hleft.trans (List.sublist_append_left _ _))
          | skip
        case handlingCompleted h e err =>
          simp only
          split
          · rename_i hc; rw [hc] at ih
            have h0 : createdIn ([.fact (.handlingCompleted h e err)] : List (Obs R)) = [] := rfl
            have h1 : createdIn ([] : List (Obs R)) = [] := rfl
            rw [h0, h1, List.append_nil, List.append_nil, List.flatMap_append, List.flatMap_cons,
              List.flatMap_nil, List.append_nil]
            exact ih
          · rename_i hc
            simpa [hc, createdIn] using hleft.trans (List.sublist_append_left _ _)
        case tickBegun h =>
          have h0 : createdIn ([.fact (.tickBegun h)] : List (Obs R)) = [] := rfl
          have h1 : createdIn (Happening.ticked (R := R) (scan t).time h).seg = [] := rfl
          rw [h0, List.append_nil, List.flatMap_append, List.flatMap_cons,
            List.flatMap_nil, List.append_nil, h1, List.append_nil]
          exact ih

/-! ## Pieces of what is announced in a handling -/

theorem aggEventsIn_sublist (t : List (Obs R)) : (aggEventsIn t).Sublist (createdIn t) := by
  induction t with
  | nil => exact List.Sublist.refl _
  | cons o t ih =>
    have e : o :: t = [o] ++ t := rfl
    rw [e, aggEventsIn_append, createdIn_append]
    refine List.Sublist.append ?_ ih
    cases o with
    | reset => exact List.Sublist.refl _
    | call c => exact List.Sublist.refl _
    | fact f => cases f <;> first | exact List.Sublist.refl _ | exact List.nil_sublist _

theorem intEventsIn_sublist (t : List (Obs R)) : (intEventsIn t).Sublist (createdIn t) := by
  induction t with
  | nil => exact List.Sublist.refl _
  | cons o t ih =>
    have e : o :: t = [o] ++ t := rfl
    rw [e, intEventsIn_append, createdIn_append]
    refine List.Sublist.append ?_ ih
    cases o with
    | reset => exact List.Sublist.refl _
    | call c => exact List.Sublist.refl _
    | fact f => cases f <;> first | exact List.Sublist.refl _ | exact List.nil_sublist _

/-- Commands and timeouts are different parts of what is announced. -/
theorem cmd_tmo_perm (t : List (Obs R)) :
    ∃ rest, (commandsIn t ++ timeoutsIn t ++ rest).Perm (createdIn t) := by
  induction t with
  | nil => exact ⟨[], .refl _⟩
  | cons o t ih =>
    obtain ⟨rest, ih⟩ := ih
    have e : o :: t = [o] ++ t := rfl
    rw [e, commandsIn_append, timeoutsIn_append, createdIn_append]
    have skip : commandsIn [o] = [] → timeoutsIn [o] = [] →
        ∃ rest, (commandsIn [o] ++ commandsIn t ++ (timeoutsIn [o] ++ timeoutsIn t) ++ rest).Perm
          (createdIn [o] ++ createdIn t) := by
      intro h1 h2
      rw [h1, h2]
      refine ⟨createdIn [o] ++ rest, ?_⟩
      rw [List.nil_append, List.nil_append, ← List.append_assoc]
      refine (List.perm_append_comm.append_right rest).trans ?_
      rw [List.append_assoc]
      exact ih.append_left _
    cases o with
    | reset => exact skip rfl rfl
    | call c => exact skip rfl rfl
    | fact f =>
      cases f <;> first | exact skip rfl rfl | skip
      case procCommand h id env ev => exact ⟨rest, ih.cons ev⟩
      case procTimeout h id env ev =>
        refine ⟨rest, ?_⟩
        have : (commandsIn t ++ (ev :: timeoutsIn t) ++ rest).Perm (ev :: createdIn t) := by
          rw [List.append_assoc, List.cons_append]
          refine List.perm_middle.trans ?_
          rw [← List.append_assoc]
          exact ih.cons ev
        exact this

/-- The messages emitted and kept by a handling are different messages announced in it. -/
theorem emits_keeps {h : HConfig} {now : Time} {env : Env} {seg : List (Obs R)} {err : Option Err}
    (nd : (createdIn seg).Nodup) :
    (emission h now seg err ++ (Happening.handled now h env seg err).keeps).Nodup ∧
    ∀ e ∈ emission h now seg err ++ (Happening.handled now h env seg err).keeps, e ∈ createdIn seg := by
  have key : ∃ l, (emission h now seg err ++ (Happening.handled now h env seg err).keeps ++ l).Perm
      (createdIn seg) := by
    have sub : ∀ {a b : List Env}, a.Sublist b → ∃ l, (a ++ l).Perm b := by
      intro a b hs
      obtain ⟨l, hl⟩ := hs.exists_perm_append
      exact ⟨l, hl.symm⟩
    obtain ⟨rest, hp⟩ := cmd_tmo_perm seg
    unfold emission Happening.keeps
    cases hh : h.htype with
    | aggregate => simpa [hh] using sub (aggEventsIn_sublist seg)
    | integration => simpa [hh] using sub (intEventsIn_sublist seg)
    | projection => exact ⟨createdIn seg, by simp [hh]⟩
    | process =>
      cases err with
      | some x => exact ⟨createdIn seg, by simp⟩
      | none =>
        cases he : endedAfter false seg with
        | true => exact ⟨timeoutsIn seg ++ rest, by simpa [he] using hp⟩
        | false =>
          refine ⟨rest, ?_⟩
          have h1 : ((timeoutsIn seg).filter (fun e => decide (e.scheduledFor ≤ now)) ++
              futureIn now seg).Perm (timeoutsIn seg) := by
            rw [← futureIn_eq]
            exact List.filter_append_perm _ _
          simp only [he, hh, Bool.false_eq_true, if_false, and_self, if_true]
          refine List.Perm.trans ?_ hp
          refine List.Perm.append_right _ ?_
          rw [List.append_assoc]
          exact h1.append_left _
  obtain ⟨l, hl⟩ := key
  have nd' := hl.symm.nodup_iff.1 nd
  exact ⟨(List.nodup_append.1 nd').1, fun e he => hl.mem_iff.1 (List.mem_append_left _ he)⟩

/-! ## The invariant -/

/-- A message whose dispatch begins was not dispatched before, and if it was produced by a handler,
then in a handling that completed and that either emitted it or left it pending. -/
def FlowObs (pre : List (Obs R)) (o : Obs R) : Prop :=
  ∀ e ∈ dispatchedIn [o], e.id ∉ (dispatchedIn (sinceReset pre)).map Env.id ∧
    (e.origin = none ∨ ∃ x ∈ happenings pre, e ∈ x.emits ++ x.keeps)

/-- `q` is what is waiting to be dispatched. -/
structure Flow (q : List Env) (s : Sys W R) : Prop where
  nodup : ∀ n, (dispatchedIn (sinceReset s.trace) ++ q ++ (s.proc n).timeouts).Nodup
  sub : ∀ e ∈ dispatchedIn (sinceReset s.trace), e ∈ createdIn (sinceReset s.trace)
  prov : ∀ e, (e ∈ dispatchedIn (sinceReset s.trace) ∨ e ∈ q ∨ ∃ n, e ∈ (s.proc n).timeouts) →
    e.origin = none ∨ ∃ x ∈ happenings s.trace, e ∈ x.emits ++ x.keeps
  obs : Always FlowObs s.trace

theorem flowObs_append {t u : List (Obs R)} (ht : Always FlowObs t) (hu : dispatchedIn u = []) :
    Always FlowObs (t ++ u) := by
  rw [always_append]
  refine ⟨ht, ?_⟩
  rintro a o b rfl e he
  have e1 : a ++ o :: b = a ++ ([o] ++ b) := rfl
  rw [e1, dispatchedIn_append, dispatchedIn_append] at hu
  have : dispatchedIn [o] = [] := by
    have := (List.append_eq_nil_iff.1 hu).2
    exact (List.append_eq_nil_iff.1 this).1
  rw [this] at he; cases he

/-- Messages announced since the last reset are determined by their IDs. -/
theorem Core0.id_inj {A : App W R} {s : Sys W R} (h : Core0 A s) {a b : Env}
    (ha : a ∈ createdIn (sinceReset s.trace)) (hb : b ∈ createdIn (sinceReset s.trace))
    (hid : a.id = b.id) : a = b := by
  have := h.ids
  rw [List.pairwise_map] at this
  obtain ⟨i, hi, e1⟩ := List.getElem_of_mem ha
  obtain ⟨j, hj, e2⟩ := List.getElem_of_mem hb
  have hp := List.pairwise_iff_getElem.1 this
  rcases Nat.lt_trichotomy i j with hij | hij | hij
  · have := hp i j hi hj hij; rw [e1, e2] at this; omega
  · subst hij; rw [← e1, ← e2]
  · have := hp j i hj hi hij; rw [e1, e2] at this; omega

theorem Core0.nodup {A : App W R} {s : Sys W R} (h : Core0 A s) :
    (createdIn (sinceReset s.trace)).Nodup := by
  have := h.ids
  rw [List.pairwise_map] at this
  exact this.imp (fun hab he => by subst he; omega)

/-- Facts that change neither happenings nor what was dispatched. -/
theorem Flow.quiet {q : List Env} {s : Sys W R} (hf : Flow q s) {o : Obs R} (h0 : o ≠ .reset)
    (h1 : happenings (s.trace ++ [o]) = happenings s.trace) (h2 : dispatchedIn [o] = []) :
    Flow q (s.emit o) := by
  have e1 : dispatchedIn (sinceReset (s.trace ++ [o])) = dispatchedIn (sinceReset s.trace) := by
    rw [sinceReset_snoc _ _ h0, dispatchedIn_append, h2, List.append_nil]
  refine ⟨?_, ?_, ?_, ?_⟩
  · intro n; rw [Sys.emit_trace, e1]; exact hf.nodup n
  · intro e he
    rw [Sys.emit_trace, e1] at he
    exact created_mono (seg := [o]) rfl (by simpa using h0) (hf.sub e he)
  · intro e he
    rw [Sys.emit_trace, e1] at he
    rw [Sys.emit_trace, h1]
    exact hf.prov e he
  · rw [Sys.emit_trace]; exact flowObs_append hf.obs h2

/-- Less is waiting. -/
theorem Flow.less {q q' : List Env} {s : Sys W R} (hf : Flow q s) (h : q'.Sublist q) : Flow q' s := by
  refine ⟨?_, hf.sub, ?_, hf.obs⟩
  · intro n
    exact (hf.nodup n).sublist (((List.Sublist.refl _).append h).append (List.Sublist.refl _))
  · rintro e (he | he | he)
    · exact hf.prov e (.inl he)
    · exact hf.prov e (.inr (.inl (h.subset he)))
    · exact hf.prov e (.inr (.inr he))

theorem Flow.dispatch {A : App W R} {q : List Env} {env : Env} {s : Sys W R}
    (hf : Flow (env :: q) s) (hc : Core0 A s)
    (hq : env ∈ createdIn (sinceReset s.trace)) : Flow q (s.notify (.dispatchBegun env)) := by
  have e1 : dispatchedIn (sinceReset (s.trace ++ [.fact (.dispatchBegun env)])) =
      dispatchedIn (sinceReset s.trace) ++ [env] := by
    rw [sinceReset_fact, dispatchedIn_append]; rfl
  refine ⟨?_, ?_, ?_, ?_⟩
  · intro n; rw [Sys.notify_trace, e1]
    have := hf.nodup n
    simpa using this
  · intro e he
    rw [Sys.notify_trace, e1] at he
    refine created_mono (s := s) (seg := [.fact (.dispatchBegun env)]) rfl (by simp) ?_
    rcases List.mem_append.1 he with he | he
    · exact hf.sub e he
    · rw [List.mem_singleton.1 he]; exact hq
  · intro e he
    rw [Sys.notify_trace, e1] at he
    rw [Sys.notify_trace, happenings_outer (f := .dispatchBegun _) trivial]
    refine hf.prov e ?_
    rcases he with he | he | he
    · rcases List.mem_append.1 he with he | he
      · exact .inl he
      · rw [List.mem_singleton.1 he]; exact .inr (.inl (by simp))
    · exact .inr (.inl (by simp [he]))
    · exact .inr (.inr he)
  · rw [Sys.notify_trace, always_snoc]
    refine ⟨hf.obs, ?_⟩
    intro e he
    obtain rfl : e = env := List.mem_singleton.1 he
    refine ⟨?_, hf.prov e (.inr (.inl (by simp)))⟩
    intro hx
    obtain ⟨a, ha, hid⟩ := List.mem_map.1 hx
    have := hc.id_inj (hf.sub a ha) hq hid
    subst this
    have := hf.nodup ""
    rw [List.append_assoc, List.nodup_append] at this
    exact this.2.2 a ha a (by simp) rfl

/-- How a handling changes the pending timeouts. -/
theorem Handling.pending {A : App W R} {h : HConfig} {now : Time} {env : Env} {s s' : Sys W R}
    {envs : List Env} {err : Option Err} {seg : List (Obs R)}
    (hh : Handling A h now env s s' (.ok (envs, err)) seg) (n : String) :
    ∃ m new, (s'.proc n).timeouts.Perm m ∧ m.Sublist ((s.proc n).timeouts ++ new) ∧
      (new = [] ∨ new = (Happening.handled now h env seg err).keeps) := by
  by_cases hk : h.htype = .process
  · have g := hh.proc hk
    by_cases hn : n = h.name
    · subst hn
      have hc := (g.ok envs err rfl).2
      unfold ProcCommit at hc
      split at hc
      · rw [hc]; exact ⟨_, [], .refl _, by simp, .inl rfl⟩
      · obtain ⟨_, hc⟩ := hc
        cases err with
        | some x =>
          simp only at hc
          rw [hc.1]; exact ⟨_, [], .refl _, by simp, .inl rfl⟩
        | none =>
          simp only at hc
          split at hc
          · refine ⟨_, [], .refl _, ?_, .inl rfl⟩
            rw [hc.2, List.append_nil]
            split
            · exact List.filter_sublist
            · exact List.Sublist.refl _
          · rename_i he
            refine ⟨_, futureIn now seg, ?_, List.Sublist.refl _, .inr ?_⟩
            · rw [hc.2, ← futureIn_eq]; exact A.sort.perm _
            · simp only [Bool.not_eq_true] at he
              simp [Happening.keeps, hk, he]
    · rw [g.other n hn]; exact ⟨_, [], .refl _, by simp, .inl rfl⟩
  · rw [hh.noProc hk]; exact ⟨_, [], .refl _, by simp, .inl rfl⟩

theorem Handling.pending_error {A : App W R} {h : HConfig} {now : Time} {env : Env} {s s' : Sys W R}
    {v : PanicVal} {seg : List (Obs R)}
    (hh : Handling A h now env s s' (.error v) seg) (n : String) :
    (s'.proc n).timeouts = (s.proc n).timeouts := by
  by_cases hk : h.htype = .process
  · have g := hh.proc hk
    by_cases hn : n = h.name
    · subst hn; exact (g.err v rfl).1
    · rw [g.other n hn]
  · rw [hh.noProc hk]

theorem inner_no_reset {h : HConfig} {now : Time} {env : Env} {seg : List (Obs R)}
    (hs : ∀ o ∈ seg, InnerObs h now env o) : ∀ o ∈ seg, o ≠ .reset := by
  rintro o ho rfl; exact hs _ ho

/-- A handling that completed. -/
theorem Flow.handled {A : App W R} {q : List Env} {s s1 : Sys W R} (hf : Flow q s)
    (hp : PendOK A s) (hq : ∀ e ∈ q, e ∈ createdIn (sinceReset s.trace))
    {h : HConfig} {now : Time} {env : Env} {envs : List Env} {err : Option Err} {seg : List (Obs R)}
    (ht : timeNow s.trace = some now)
    (hh : Handling A h now env (s.notify (.handlingBegun h env)) s1 (.ok (envs, err)) seg)
    (hc : Core0 A (s1.notify (.handlingCompleted h env err))) :
    Flow (q ++ envs) (s1.notify (.handlingCompleted h env err)) := by
  have htr : s1.trace = s.trace ++ .fact (.handlingBegun h env) :: seg := by rw [hh.trace]; simp
  have hnr : ∀ o ∈ (.fact (.handlingBegun h env) :: (seg ++ [.fact (.handlingCompleted h env err)]) :
      List (Obs R)), o ≠ .reset := by
    intro o ho
    rcases List.mem_cons.1 ho with rfl | ho
    · exact nofun
    · rcases List.mem_append.1 ho with ho | ho
      · exact inner_no_reset hh.inner o ho
      · rw [List.mem_singleton.1 ho]; exact nofun
  have htr' : (s1.notify (.handlingCompleted h env err)).trace =
      s.trace ++ (.fact (.handlingBegun h env) :: (seg ++ [.fact (.handlingCompleted h env err)])) := by
    rw [Sys.notify_trace, htr]; simp
  have hDu : dispatchedIn (.fact (.handlingBegun h env) ::
      (seg ++ [.fact (.handlingCompleted h env err)])) = [] := by
    have e : (.fact (.handlingBegun h env) :: (seg ++ [.fact (.handlingCompleted h env err)]) :
        List (Obs R)) = [.fact (.handlingBegun h env)] ++ seg ++ [.fact (.handlingCompleted h env err)] := by
      simp
    rw [e, dispatchedIn_append, dispatchedIn_append, inner_dispatched hh.inner]
    rfl
  have hD : dispatchedIn (sinceReset (s1.notify (.handlingCompleted h env err)).trace) =
      dispatchedIn (sinceReset s.trace) := by
    rw [htr', sinceReset_append _ _ hnr, dispatchedIn_append, hDu, List.append_nil]
  have hC : createdIn (sinceReset (s1.notify (.handlingCompleted h env err)).trace) =
      createdIn (sinceReset s.trace) ++ createdIn seg := by
    rw [htr', sinceReset_append _ _ hnr, createdIn_append]
    have e : (.fact (.handlingBegun h env) :: (seg ++ [.fact (.handlingCompleted h env err)]) :
          List (Obs R)) = [.fact (.handlingBegun h env)] ++ seg ++ [.fact (.handlingCompleted h env err)] := by
        simp
    rw [e, createdIn_append, createdIn_append]
    have h1 : createdIn ([.fact (.handlingBegun h env)] : List (Obs R)) = [] := rfl
    have h2 : createdIn ([.fact (.handlingCompleted h env err)] : List (Obs R)) = [] := rfl
    rw [h1, h2, List.append_nil, List.nil_append]
  have hH : happenings (s1.notify (.handlingCompleted h env err)).trace =
      happenings s.trace ++ [.handled now h env seg err] := by
    rw [htr', (scan_handling seg s.trace hh.inner).2 err, happenings_idle ht]
  have nd := hc.nodup
  rw [hC, List.nodup_append] at nd
  obtain ⟨_, nds, ndis⟩ := nd
  obtain ⟨k1, k2⟩ := emits_keeps (h := h) (now := now) (env := env) (err := err) nds
  have hev : envs = emission h now seg err := hh.ok _ _ rfl
  have hpend : ∀ n, ∃ m new, (s1.proc n).timeouts.Perm m ∧ m.Sublist ((s.proc n).timeouts ++ new) ∧
      (new = [] ∨ new = (Happening.handled now h env seg err).keeps) := hh.pending
  refine ⟨?_, ?_, ?_, ?_⟩
  · intro n
    rw [hD]
    obtain ⟨m, new, p1, p2, p3⟩ := hpend n
    have hnew : (emission h now seg err ++ new).Nodup ∧
        ∀ e ∈ emission h now seg err ++ new, e ∈ createdIn seg := by
      rcases p3 with rfl | rfl
      · refine ⟨by simpa using (List.nodup_append.1 k1).1, ?_⟩
        intro e he
        exact k2 e (by simpa using .inl (by simpa using he))
      · exact ⟨k1, k2⟩
    have hold := hf.nodup n
    have holdC : ∀ e ∈ dispatchedIn (sinceReset s.trace) ++ q ++ (s.proc n).timeouts,
        e ∈ createdIn (sinceReset s.trace) := by
      intro e he
      rcases List.mem_append.1 he with he | he
      · rcases List.mem_append.1 he with he | he
        · exact hf.sub e he
        · exact hq e he
      · exact (hp n e he).1
    have hbig : (dispatchedIn (sinceReset s.trace) ++ q ++ (s.proc n).timeouts ++
        (emission h now seg err ++ new)).Nodup := by
      rw [List.nodup_append]
      refine ⟨hold, hnew.1, ?_⟩
      intro a ha b hb
      exact ndis a (holdC a ha) b (hnew.2 b hb)
    have hperm : (dispatchedIn (sinceReset s.trace) ++ q ++ (s.proc n).timeouts ++
        (emission h now seg err ++ new)).Perm
        (dispatchedIn (sinceReset s.trace) ++ (q ++ emission h now seg err) ++
          ((s.proc n).timeouts ++ new)) := by
      simp only [List.append_assoc]
      refine List.Perm.append_left _ (List.Perm.append_left _ ?_)
      rw [← List.append_assoc, ← List.append_assoc]
      exact List.perm_append_comm.append_right _
    have h2 := hperm.nodup_iff.1 hbig
    have h3 : (dispatchedIn (sinceReset s.trace) ++ (q ++ emission h now seg err) ++ m).Nodup :=
      h2.sublist ((List.Sublist.refl _).append p2)
    rw [hev]
    exact ((p1.append_left _).nodup_iff).2 h3
  · intro e he
    rw [hD] at he; rw [hC]
    exact List.mem_append_left _ (hf.sub e he)
  · intro e he
    rw [hD] at he; rw [hH]
    have old : e.origin = none ∨ (∃ x ∈ happenings s.trace, e ∈ x.emits ++ x.keeps) →
        e.origin = none ∨ ∃ x ∈ happenings s.trace ++ [.handled now h env seg err],
          e ∈ x.emits ++ x.keeps := by
      rintro (h0 | ⟨x, hx, h0⟩)
      · exact .inl h0
      · exact .inr ⟨x, List.mem_append_left _ hx, h0⟩
    rcases he with he | he | ⟨n, he⟩
    · exact old (hf.prov e (.inl he))
    · rcases List.mem_append.1 he with he | he
      · exact old (hf.prov e (.inr (.inl he)))
      · rw [hev] at he
        exact .inr ⟨_, List.mem_append_right _ (List.mem_singleton.2 rfl), List.mem_append_left _ he⟩
    · obtain ⟨m, new, p1, p2, p3⟩ := hpend n
      have : e ∈ (s.proc n).timeouts ++ new := p2.subset (p1.mem_iff.1 he)
      rcases List.mem_append.1 this with he | he
      · exact old (hf.prov e (.inr (.inr ⟨n, he⟩)))
      · rcases p3 with rfl | rfl
        · cases he
        · exact .inr ⟨_, List.mem_append_right _ (List.mem_singleton.2 rfl), List.mem_append_right _ he⟩
  · rw [htr']
    exact flowObs_append hf.obs hDu

/-- A handling that panicked. -/
theorem Flow.panicked {A : App W R} {q : List Env} {s s1 : Sys W R} (hf : Flow q s)
    {h : HConfig} {now : Time} {env : Env} {v : PanicVal} {seg : List (Obs R)}
    (hh : Handling A h now env (s.notify (.handlingBegun h env)) s1 (.error v) seg) :
    Flow q s1 := by
  have htr : s1.trace = s.trace ++ .fact (.handlingBegun h env) :: seg := by rw [hh.trace]; simp
  have hnr : ∀ o ∈ (.fact (.handlingBegun h env) :: seg : List (Obs R)), o ≠ .reset := by
    intro o ho
    rcases List.mem_cons.1 ho with rfl | ho
    · exact nofun
    · exact inner_no_reset hh.inner o ho
  have hD : dispatchedIn (sinceReset s1.trace) = dispatchedIn (sinceReset s.trace) := by
    rw [htr, sinceReset_append _ _ hnr, dispatchedIn_append]
    have : dispatchedIn (.fact (.handlingBegun h env) :: seg) = dispatchedIn seg := rfl
    rw [this, inner_dispatched hh.inner, List.append_nil]
  have hH : happenings s1.trace = happenings s.trace := by
    rw [htr]; exact ((scan_handling seg s.trace hh.inner).1 seg [] (by simp)).1
  have hP : ∀ n, (s1.proc n).timeouts = (s.proc n).timeouts := hh.pending_error
  refine ⟨?_, ?_, ?_, ?_⟩
  · intro n; rw [hD, hP]; exact hf.nodup n
  · intro e he
    rw [hD] at he
    exact created_mono (s := s) htr hnr (hf.sub e he)
  · intro e he
    rw [hD] at he; rw [hH]
    simp only [hP] at he
    exact hf.prov e he
  · rw [htr]
    exact flowObs_append hf.obs (show dispatchedIn seg = [] from inner_dispatched hh.inner)

/-- Ticking a controller. -/
theorem Flow.ticked {A : App W R} {q : List Env} {s s' : Sys W R} (hf : Flow q s)
    (hp : PendOK A s) {h : HConfig} {now : Time} {res : HRes}
    (hr : ctlTick A h now (s.notify (.tickBegun h)) = (s', res)) :
    Flow q s' ∧ ∀ envs e, res = .ok (envs, e) → Flow (q ++ envs) s' := by
  obtain ⟨seg, g⟩ := ctlTick_sum A h now (s.notify (.tickBegun h))
  rw [hr] at g
  have hobs : ∀ o ∈ seg, TickObs h now o := fun o ho => (g.obs o ho).1
  have htr : s'.trace = s.trace ++ (.fact (.tickBegun h) :: seg) := by
    have : s'.trace = (s.trace ++ [.fact (.tickBegun h)]) ++ seg := g.trace
    rw [this]; simp
  have hnr : ∀ o ∈ (.fact (.tickBegun h) :: seg : List (Obs R)), o ≠ .reset := by
    intro o ho
    rcases List.mem_cons.1 ho with rfl | ho
    · exact nofun
    · rintro rfl; exact hobs _ ho
  have hD : dispatchedIn (sinceReset s'.trace) = dispatchedIn (sinceReset s.trace) := by
    rw [htr, sinceReset_append _ _ hnr, dispatchedIn_append]
    have h1 : dispatchedIn (.fact (.tickBegun h) :: seg) = dispatchedIn seg := rfl
    have h2 : dispatchedIn seg = [] := by
      rw [dispatchedIn, List.filterMap_eq_nil_iff]
      intro o ho
      have := hobs o ho
      cases o with
      | reset => rfl
      | call c => rfl
      | fact f => cases f <;> first | rfl | exact this.elim
    rw [h1, h2, List.append_nil]
  have hDu : dispatchedIn (.fact (.tickBegun h) :: seg) = [] := by
    have := hD
    rw [htr, sinceReset_append _ _ hnr, dispatchedIn_append] at this
    exact List.append_right_eq_self.1 this
  have hH : ∀ x ∈ happenings s.trace, x ∈ happenings s'.trace := by
    intro x hx
    have : s'.trace = (s.trace ++ [.fact (.tickBegun h)]) ++ seg := g.trace
    rw [this, happenings_tickObs seg _ hobs, happenings_ticked]
    exact List.mem_append_left _ hx
  have hproc : ∀ n, (n = h.name ∧ h.htype = .process ∧ (s'.proc n).timeouts =
        (s.proc n).timeouts.dropWhile (fun e => decide (e.scheduledFor ≤ now))) ∨
      (¬ (n = h.name ∧ h.htype = .process) ∧ (s'.proc n).timeouts = (s.proc n).timeouts) := by
    intro n
    have hpp : s'.proc = _ := g.proc
    rw [hpp]
    split
    · rename_i hk
      by_cases hn : n = h.name
      · subst hn; exact .inl ⟨rfl, hk, by rw [upd_same]; rfl⟩
      · exact .inr ⟨fun x => hn x.1, by rw [upd_ne _ _ hn]; rfl⟩
    · rename_i hk
      exact .inr ⟨fun x => hk x.2, rfl⟩
  have old : ∀ e, (e.origin = none ∨ ∃ x ∈ happenings s.trace, e ∈ x.emits ++ x.keeps) →
      e.origin = none ∨ ∃ x ∈ happenings s'.trace, e ∈ x.emits ++ x.keeps := by
    rintro e (h0 | ⟨x, hx, h0⟩)
    · exact .inl h0
    · exact .inr ⟨x, hH x hx, h0⟩
  have hsub : ∀ n, (s'.proc n).timeouts.Sublist (s.proc n).timeouts := by
    intro n
    rcases hproc n with ⟨_, _, h1⟩ | ⟨_, h1⟩
    · rw [h1]; exact List.dropWhile_sublist _
    · rw [h1]; exact List.Sublist.refl _
  have hnorm : Flow q s' := by
    refine ⟨?_, ?_, ?_, by rw [htr]; exact flowObs_append hf.obs hDu⟩
    · intro n
      rw [hD]
      exact (hf.nodup n).sublist ((List.Sublist.refl _).append (hsub n))
    · intro e he
      rw [hD] at he
      exact created_mono (s := s) htr hnr (hf.sub e he)
    · intro e he
      rw [hD] at he
      refine old e (hf.prov e ?_)
      rcases he with he | he | ⟨n, he⟩
      · exact .inl he
      · exact .inr (.inl he)
      · exact .inr (.inr ⟨n, (hsub n).subset he⟩)
  refine ⟨hnorm, ?_⟩
  intro envs e0 hres
  have hev : envs = if h.htype = .process then
      (s.proc h.name).timeouts.takeWhile (fun e => decide (e.scheduledFor ≤ now)) else [] :=
    g.ok _ _ hres
  by_cases hk : h.htype = .process
  · rw [if_pos hk] at hev
    refine ⟨?_, hnorm.sub, ?_, hnorm.obs⟩
    · intro n
      rw [hD]
      rcases hproc n with ⟨rfl, _, h1⟩ | ⟨hne, h1⟩
      · rw [h1, hev]
        have e : dispatchedIn (sinceReset s.trace) ++ (q ++ (s.proc h.name).timeouts.takeWhile
            (fun e => decide (e.scheduledFor ≤ now))) ++ (s.proc h.name).timeouts.dropWhile
            (fun e => decide (e.scheduledFor ≤ now)) =
            dispatchedIn (sinceReset s.trace) ++ q ++ (s.proc h.name).timeouts := by
          rw [← List.append_assoc, List.append_assoc (_ ++ q), List.takeWhile_append_dropWhile]
        rw [e]; exact hf.nodup h.name
      · rw [h1]
        have hn : n ≠ h.name := fun x => hne ⟨x, hk⟩
        have a1 := hf.nodup n
        have a2 := hf.nodup h.name
        rw [← List.append_assoc]
        have a3 : (dispatchedIn (sinceReset s.trace) ++ q ++ envs).Nodup := by
          rw [hev]
          exact a2.sublist ((List.Sublist.refl _).append (List.takeWhile_sublist _))
        rw [List.nodup_append] at a1
        rw [List.nodup_append]
        refine ⟨a3, a1.2.1, ?_⟩
        intro a ha b hb hab
        subst hab
        rcases List.mem_append.1 ha with ha | ha
        · exact a1.2.2 a ha a hb rfl
        · rw [hev] at ha
          obtain ⟨_, _, o, ho, hon⟩ := hp h.name a ((List.takeWhile_sublist _).subset ha)
          obtain ⟨_, _, o', ho', hon'⟩ := hp n a hb
          rw [ho] at ho'; cases ho'
          exact hn (hon'.symm.trans hon)
    · rintro e (he | he | ⟨n, he⟩)
      · exact hnorm.prov e (.inl he)
      · rcases List.mem_append.1 he with he | he
        · exact hnorm.prov e (.inr (.inl he))
        · rw [hev] at he
          exact old e (hf.prov e (.inr (.inr ⟨h.name, (List.takeWhile_sublist _).subset he⟩)))
      · exact hnorm.prov e (.inr (.inr ⟨n, he⟩))
  · rw [if_neg hk] at hev
    rw [hev, List.append_nil]; exact hnorm

theorem flow_lift (A : App W R) (wf : A.WF) :
    Lift A (fun s => Core A s ∧ Flow [] s)
      (fun oo q _ s => CoreI A oo q s ∧ Flow q s)
      (fun oo env _ q _ _ s => CoreJ A oo env q s ∧ Flow q s)
      (fun oo _ q _ s => CoreI A oo q s ∧ Flow q s) where
  init w := by
    refine ⟨(core_lift A wf).init w, ?_, ?_, ?_, by simp [Sys.init]⟩
    · intro n; simp [Sys.init, sinceReset, dispatchedIn]
    · simp [Sys.init, sinceReset, dispatchedIn]
    · rintro e (he | he | ⟨n, he⟩)
      · simp [Sys.init, sinceReset, dispatchedIn] at he
      · cases he
      · simp [Sys.init] at he
  world s w hs := ⟨(core_lift A wf).world s w hs.1, ⟨hs.2.nodup, hs.2.sub, hs.2.prov, hs.2.obs⟩⟩
  reset s hs := by
    refine ⟨(core_lift A wf).reset s hs.1, ?_, ?_, ?_, flowObs_append hs.2.obs rfl⟩
    · intro n; simp [dispatchedIn]
    · simp [dispatchedIn]
    · rintro e (he | he | ⟨n, he⟩)
      · simp [dispatchedIn] at he
      · cases he
      · simp at he
  resetter s i hs := by
    refine ⟨(core_lift A wf).resetter s i hs.1, hs.2.quiet nofun ?_ rfl⟩
    unfold happenings; rw [scan_snoc]; unfold Scan.step
    simp only; split <;> rfl
  takeID s hs := ⟨(core_lift A wf).takeID s hs.1, ⟨hs.2.nodup, hs.2.sub, hs.2.prov, hs.2.obs⟩⟩
  dBegin oo s m hs hr hv hk := by
    refine ⟨(core_lift A wf).dBegin oo s m hs.1 hr hv hk, ?_⟩
    have h1 : Flow [] ({ s with nextID := s.nextID + 1 } : Sys W R) :=
      ⟨hs.2.nodup, hs.2.sub, hs.2.prov, hs.2.obs⟩
    have h2 : Flow [] ({ s with nextID := s.nextID + 1 }.notify
        (.dispatchCycleBegun (Env.root (s.nextID + 1) m oo.now) (oo.cycle A))) :=
      h1.quiet nofun (happenings_outer (f := .dispatchCycleBegun _ _) trivial _) rfl
    refine ⟨?_, h2.sub, ?_, h2.obs⟩
    · intro n
      have hD : dispatchedIn (sinceReset ({ s with nextID := s.nextID + 1 }.notify
          (.dispatchCycleBegun (Env.root (s.nextID + 1) m oo.now) (oo.cycle A))).trace) =
          dispatchedIn (sinceReset s.trace) := by
        rw [Sys.notify_trace, sinceReset_fact, dispatchedIn_append]
        exact List.append_nil _
      rw [hD]
      have hold := hs.2.nodup n
      rw [List.append_nil] at hold
      have hnot : Env.root (s.nextID + 1) m oo.now ∉
          dispatchedIn (sinceReset s.trace) ++ (s.proc n).timeouts := by
        intro hx
        have : Env.root (s.nextID + 1) m oo.now ∈ createdIn (sinceReset s.trace) := by
          rcases List.mem_append.1 hx with hx | hx
          · exact hs.2.sub _ hx
          · exact (hs.1.pend n _ hx).1
        have := (hs.1.bound _ this).2
        have e : (Env.root (s.nextID + 1) m oo.now).id = s.nextID + 1 := rfl
        omega
      have hp : (dispatchedIn (sinceReset s.trace) ++ [Env.root (s.nextID + 1) m oo.now] ++
          (s.proc n).timeouts).Perm (Env.root (s.nextID + 1) m oo.now ::
          (dispatchedIn (sinceReset s.trace) ++ (s.proc n).timeouts)) := by
        rw [List.append_assoc]; exact List.perm_middle
      exact hp.nodup_iff.2 (List.nodup_cons.2 ⟨hnot, hold⟩)
    · rintro e (he | he | he)
      · exact h2.prov e (.inl he)
      · rw [List.mem_singleton.1 he]; exact .inl rfl
      · exact h2.prov e (.inr (.inr he))
  dEnd oo q errs s env er hi := ⟨hi.1.core.plain trivial, (hi.2.less (List.nil_sublist _)).quiet nofun
    (happenings_outer (f := .dispatchCycleCompleted _ _ _) trivial _) rfl⟩
  stop oo q errs s hi := ⟨hi.1.core, hi.2.less (List.nil_sublist _)⟩
  disp oo :=
    { begin_ := fun env q errs s hs _ hi =>
        ⟨hi.1.begin_, hi.2.dispatch hi.1.core.toCore0 (hi.1.queue env (by simp)).1⟩
      handle := fun env done h rest q errs de s s' envs e ht hj hr => by
        have hoff := hj.1.offered wf ht (h := h) (by simp)
        have hcore := hj.1.handle wf ht (h := h) (by simp) hr
        refine ⟨hcore, ?_⟩
        rcases handleOne_cases hoff.handler hoff.consumed hr with
          ⟨rs, _, rfl, h0⟩ | ⟨_, s1, seg, hh, ⟨v, hv, _⟩ | ⟨envs', e', hv, rfl⟩⟩
        · cases h0
          rw [List.append_nil]
          exact hj.2.quiet nofun (happenings_outer (f := .handlingSkipped _ _ _) trivial _) rfl
        · cases hv
        · cases hv
          exact hj.2.handled hj.1.base.core.pend
            (fun e he => (hj.1.base.queue e (by simp [he])).1) hj.1.base.time hh hcore.base.core.toCore0
      panic := fun env done h rest q errs de s s' v ht hj hr => by
        have hoff := hj.1.offered wf ht (h := h) (by simp)
        refine ⟨hj.1.panic wf ht (by simp) hr, ?_⟩
        rcases handleOne_cases hoff.handler hoff.consumed hr with
          ⟨rs, _, _, h0⟩ | ⟨_, s1, seg, hh, ⟨v, hv, rfl⟩ | ⟨envs', e', hv, _⟩⟩
        · cases h0
        · cases hv
          exact (hj.2.less (List.nil_sublist _)).panicked hh
        · cases hv
      panicT := fun env q errs s v ht hi => ⟨hi.1.core, hi.2.less (List.nil_sublist _)⟩
      end_ := fun env hs q errs de s _ hj => ⟨hj.1.end_ de, hj.2.quiet nofun
        (happenings_outer (f := .dispatchCompleted _ _) trivial _) rfl⟩ }
  tBegin oo s hs := ⟨(core_lift A wf).tBegin oo s hs.1, hs.2.quiet nofun
    (happenings_outer (f := .tickCycleBegun _) trivial _) rfl⟩
  tick oo :=
    { skip := fun done h q errs s rs hm hi hr =>
        ⟨hi.1.notify trivial rfl, hi.2.quiet nofun
          (happenings_outer (f := .tickSkipped _ _) trivial _) rfl⟩
      tick := fun done h q errs s s' envs e hm hi hsk hr =>
        ⟨((core_lift A wf).tick oo).tick done h q errs s s' envs e hm hi.1 hsk hr,
          ((hi.2.ticked hi.1.core.pend hr).2 envs e rfl).quiet nofun
            (happenings_plainTick _ _ _) rfl⟩
      panic := fun done h q errs s s' v hm hi hsk hr =>
        ⟨((core_lift A wf).tick oo).panic done h q errs s s' v hm hi.1 hsk hr,
          ((hi.2.less (List.nil_sublist _)).ticked hi.1.core.pend hr).1⟩ }
  tDisp oo order q errs s _ hi := hi
  tStop oo done q errs s er hi := ⟨hi.1.core.plain trivial, (hi.2.less (List.nil_sublist _)).quiet nofun
    (happenings_outer (f := .tickCycleCompleted _ _) trivial _) rfl⟩
  tEnd oo q errs s er hi := ⟨hi.1.core.plain trivial, (hi.2.less (List.nil_sublist _)).quiet nofun
    (happenings_outer (f := .tickCycleCompleted _ _) trivial _) rfl⟩

theorem flow_reach {A : App W R} (wf : A.WF) {s : Sys W R} (hs : Reach A s) : Flow [] s :=
  ((flow_lift A wf).reach hs).2

/-! ## Which handling a message comes from -/

theorem scan_step_cases (a : Scan R) (o : Obs R) :
    (a.step o).done = [] ∧ (a.step o).cur = none ∨
    (a.step o).done = a.done ∧ (a.step o).cur = none ∨
    (∃ h e, (a.step o).done = a.done ∧ (a.step o).cur = some (h, e, [])) ∨
    (∃ h, (a.step o).done = a.done ++ [.ticked a.time h] ∧ (a.step o).cur = a.cur) ∨
    (∃ h e sg err, a.cur = some (h, e, sg) ∧ (a.step o).done = a.done ++ [.handled a.time h e sg err] ∧
      (a.step o).cur = none) ∨
    (a.step o).done = a.done ∧ (a.step o).cur = a.cur ∨
    (∃ h e sg, a.cur = some (h, e, sg) ∧ (a.step o).done = a.done ∧
      (a.step o).cur = some (h, e, sg ++ [o])) := by
  obtain ⟨done, cur, time⟩ := a
  have hother : ∀ b : Scan R, b = (match cur with
      | some (h, e, sg) => ⟨done, some (h, e, sg ++ [o]), time⟩
      | none => ⟨done, cur, time⟩) →
      b.done = done ∧ b.cur = cur ∨
      (∃ h e sg, cur = some (h, e, sg) ∧ b.done = done ∧ b.cur = some (h, e, sg ++ [o])) := by
    intro b hb
    cases cur with
    | none => subst hb; exact .inl ⟨rfl, rfl⟩
    | some p => obtain ⟨h, e, sg⟩ := p; subst hb; exact .inr ⟨h, e, sg, rfl, rfl, rfl⟩
  cases o with
  | reset => exact .inl ⟨rfl, rfl⟩
  | call c => exact .inr (.inr (.inr (.inr (.inr (hother _ rfl)))))
  | fact f =>
    cases f
    case dispatchCycleBegun e n => exact .inr (.inl ⟨rfl, rfl⟩)
    case tickCycleBegun n => exact .inr (.inl ⟨rfl, rfl⟩)
    case handlingBegun h e => exact .inr (.inr (.inl ⟨h, e, rfl, rfl⟩))
    case tickBegun h => exact .inr (.inr (.inr (.inl ⟨h, rfl, rfl⟩)))
    case handlingCompleted h e err =>
      cases cur with
      | none => exact .inr (.inr (.inr (.inr (.inr (.inl ⟨rfl, rfl⟩)))))
      | some p =>
        obtain ⟨h', e', sg⟩ := p
        exact .inr (.inr (.inr (.inr (.inl ⟨h', e', sg, err, rfl, rfl, rfl⟩))))
    all_goals exact .inr (.inr (.inr (.inr (.inr (hother _ rfl)))))

/-- Everything collected by the scan was observed. -/
theorem scan_mem (t : List (Obs R)) :
    (∀ x ∈ (scan t).done, ∀ o ∈ x.seg, o ∈ t) ∧
    ∀ h e sg, (scan t).cur = some (h, e, sg) → ∀ o ∈ sg, o ∈ t := by
  induction t using List.reverseRecOn' with
  | nil => exact ⟨fun x hx => absurd hx List.not_mem_nil, fun h e sg hx => nomatch hx⟩
  | append_singleton t o ih =>
    obtain ⟨h1, h2⟩ := ih
    have h1' : ∀ x ∈ (scan t).done, ∀ o' ∈ x.seg, o' ∈ t ++ [o] :=
      fun x hx o' ho' => List.mem_append_left _ (h1 x hx o' ho')
    rw [scan_snoc]
    rcases scan_step_cases (scan t) o with ⟨k1, k2⟩ | ⟨k1, k2⟩ | ⟨h, e, k1, k2⟩ | ⟨h, k1, k2⟩ |
      ⟨h, e, sg, err, k0, k1, k2⟩ | ⟨k1, k2⟩ | ⟨h, e, sg, k0, k1, k2⟩ <;> rw [k1, k2]
    · exact ⟨fun x hx => absurd hx List.not_mem_nil, fun h e sg hx => nomatch hx⟩
    · exact ⟨h1', fun h e sg hx => nomatch hx⟩
    · refine ⟨h1', ?_⟩
      intro h' e' sg hx; cases hx; exact fun o ho => absurd ho List.not_mem_nil
    · refine ⟨?_, fun h' e' sg hx o' ho' => List.mem_append_left _ (h2 h' e' sg hx o' ho')⟩
      intro x hx
      rcases List.mem_append.1 hx with hx | hx
      · exact h1' x hx
      · rw [List.mem_singleton.1 hx]; exact fun o ho => absurd ho List.not_mem_nil
    · refine ⟨?_, fun h e sg hx => nomatch hx⟩
      intro x hx
      rcases List.mem_append.1 hx with hx | hx
      · exact h1' x hx
      · rw [List.mem_singleton.1 hx]
        exact fun o' ho' => List.mem_append_left _ (h2 h e sg k0 o' ho')
    · exact ⟨h1', fun h' e' sg hx o' ho' => List.mem_append_left _ (h2 h' e' sg hx o' ho')⟩
    · refine ⟨h1', ?_⟩
      intro h' e' sg' hx o' ho'
      cases hx
      rcases List.mem_append.1 ho' with ho' | ho'
      · exact List.mem_append_left _ (h2 h e sg k0 o' ho')
      · exact List.mem_append_right _ ho'

theorem flatMap_nodup_inj {α β : Type} (f : α → List β) (L : List α) (nd : (L.flatMap f).Nodup)
    {x y : α} (hx : x ∈ L) (hy : y ∈ L) {e : β} (h1 : e ∈ f x) (h2 : e ∈ f y) : x = y := by
  induction L with
  | nil => cases hx
  | cons a L ih =>
    rw [List.flatMap_cons, List.nodup_append] at nd
    rcases List.mem_cons.1 hx with rfl | hx
    · rcases List.mem_cons.1 hy with rfl | hy
      · rfl
      · exact absurd rfl (nd.2.2 e h1 e (List.mem_flatMap.2 ⟨y, hy, h2⟩))
    · rcases List.mem_cons.1 hy with rfl | hy
      · exact absurd rfl (nd.2.2 e h2 e (List.mem_flatMap.2 ⟨x, ‹x ∈ L›, h1⟩))
      · exact ih nd.2.1 ‹_› ‹_›

theorem created_nodup {A : App W R} (wf : A.WF) {s : Sys W R} (hs : Reach A s) :
    ((happenings s.trace).flatMap (fun x => createdIn x.seg)).Nodup :=
  ((core_reach wf hs).toCore0.nodup.sublist (created_happenings s.trace)).sublist
    (List.sublist_append_left _ _)

theorem seg_nodup {A : App W R} (wf : A.WF) {s : Sys W R} (hs : Reach A s) {x : Happening R}
    (hx : x ∈ happenings s.trace) : (createdIn x.seg).Nodup := by
  have := created_nodup wf hs
  obtain ⟨L1, L2, hL⟩ := List.append_of_mem hx
  rw [hL, List.flatMap_append, List.flatMap_cons] at this
  exact (List.nodup_append.1 (List.nodup_append.1 this).2.1).1

/-- What a happening emits or keeps was announced in it. -/
theorem emits_created {A : App W R} (wf : A.WF) {s : Sys W R} (hs : Reach A s) {x : Happening R}
    (hx : x ∈ happenings s.trace) {e : Env} (he : e ∈ x.emits ++ x.keeps) : e ∈ createdIn x.seg := by
  cases x with
  | ticked n h => cases he
  | handled now h env seg err => exact (emits_keeps (seg_nodup wf hs hx)).2 e he

/-- Only `Dispatch()` announces messages without origin. -/
theorem created_origin {A : App W R} (wf : A.WF) {s : Sys W R} (hs : Reach A s) {x : Happening R}
    (hx : x ∈ happenings s.trace) {f : Fact} (hf : .fact f ∈ x.seg) {h : HConfig} {env e : Env}
    (he : f.produced = some (h, env, e)) : e.origin ≠ none := by
  have hm := (scan_mem s.trace).1 x hx _ hf
  obtain ⟨a, b, hab⟩ := List.append_of_mem hm
  have := (core_reach wf hs).em a _ b hab
  obtain ⟨id, h1⟩ := (this.1 h env e he).1.child.origin
  rw [h1]; exact fun h => nomatch h

end Verif
