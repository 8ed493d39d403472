import Verif.Flow
import Verif.Demo

/-!
# Order of dispatch: C76

Commands and events are dispatched in the order in which they were announced.
-/

namespace Verif

variable {W R : Type}

/-! ## Helpers -/

theorem scan_step_prefix (a : Scan R) (o : Obs R) (h : o ≠ .reset) : a.done <+: (a.step o).done := by
  obtain ⟨done, cur, time⟩ := a
  cases o with
  | reset => exact absurd rfl h
  | call c => cases cur <;> exact List.prefix_refl _
  | fact f =>
    cases f <;> cases cur <;> first
      | exact List.prefix_refl _
      | exact List.prefix_append _ _

/-- What was announced so far in the handling in progress. -/
def Scan.announced (a : Scan R) : List Env :=
  match a.cur with
  | some (_, _, seg) => createdIn seg
  | none => []

/-- What the handlings completed in a stretch of a trace announced is part of what was announced in
the stretch, or before it in the handling in progress. -/
theorem scan_created (a : Scan R) (u : List (Obs R)) (hr : ∀ o ∈ u, o ≠ .reset) :
    ∃ L, (u.foldl Scan.step a).done = a.done ++ L ∧
      (L.flatMap (fun x => createdIn x.seg) ++ (u.foldl Scan.step a).announced).Sublist
        (a.announced ++ createdIn u) := by
  induction u using List.reverseRecOn' with
  | nil => exact ⟨[], by simp, by simp [createdIn]⟩
  | append_singleton u o ih =>
    obtain ⟨L, hd, hs⟩ := ih (fun x hx => hr x (by simp [hx]))
    rw [List.foldl_append, createdIn_append, ← List.append_assoc]
    simp only [List.foldl_cons, List.foldl_nil]
    generalize u.foldl Scan.step a = b at hd hs
    have hp := scan_step_prefix b o (hr o (by simp))
    have hleft : (L.flatMap (fun x => createdIn x.seg)).Sublist
        (a.announced ++ createdIn u ++ createdIn [o]) :=
      ((List.sublist_append_left _ _).trans hs).trans (List.sublist_append_left _ _)
    have hall := hs.trans (List.sublist_append_left _ (createdIn [o]))
    rcases scan_step_cases b o with ⟨k1, k2⟩ | ⟨k1, k2⟩ | ⟨h, e, k1, k2⟩ | ⟨h, k1, k2⟩ |
      ⟨h, e, sg, err, k0, k1, k2⟩ | ⟨k1, k2⟩ | ⟨h, e, sg, k0, k1, k2⟩
    · rw [k1, List.prefix_nil, hd] at hp
      have e1 : (b.step o).announced = [] := by unfold Scan.announced; rw [k2]
      exact ⟨L, by rw [k1, hp], by rw [e1, List.append_nil]; exact hleft⟩
    · have e1 : (b.step o).announced = [] := by unfold Scan.announced; rw [k2]
      exact ⟨L, by rw [k1, hd], by rw [e1, List.append_nil]; exact hleft⟩
    · have e1 : (b.step o).announced = [] := by unfold Scan.announced; rw [k2]; rfl
      exact ⟨L, by rw [k1, hd], by rw [e1, List.append_nil]; exact hleft⟩
    · refine ⟨L ++ [.ticked b.time h], by rw [k1, hd, List.append_assoc], ?_⟩
      have e1 : (b.step o).announced = b.announced := by unfold Scan.announced; rw [k2]
      have e2 : createdIn (Happening.ticked (R := R) b.time h).seg = [] := rfl
      rw [e1, List.flatMap_append, List.flatMap_cons, List.flatMap_nil, e2]
      simpa using hall
    · refine ⟨L ++ [.handled b.time h e sg err], by rw [k1, hd, List.append_assoc], ?_⟩
      have e1 : (b.step o).announced = [] := by unfold Scan.announced; rw [k2]
      have e2 : createdIn (Happening.handled b.time h e sg err).seg = b.announced := by
        unfold Scan.announced; rw [k0]; rfl
      rw [e1, List.flatMap_append, List.flatMap_cons, List.flatMap_nil, e2]
      simpa using hall
    · refine ⟨L, by rw [k1, hd], ?_⟩
      have e1 : (b.step o).announced = b.announced := by unfold Scan.announced; rw [k2]
      rw [e1]; exact hall
    · refine ⟨L, by rw [k1, hd], ?_⟩
      have e1 : (b.step o).announced = b.announced ++ createdIn [o] := by
        unfold Scan.announced; rw [k2, k0]; simp
      rw [e1, ← List.append_assoc]
      exact hs.append (List.Sublist.refl _)

/-- Is this a command or an event? -/
def Env.isPlain (e : Env) : Bool := decide (e.msg.type.kind ≠ .timeout)

theorem commandsIn_sublist (t : List (Obs R)) : (commandsIn t).Sublist (createdIn t) := by
  induction t with
  | nil => exact List.Sublist.refl _
  | cons o t ih =>
    have e : o :: t = [o] ++ t := rfl
    rw [e, commandsIn_append, createdIn_append]
    refine List.Sublist.append ?_ ih
    cases o with
    | reset => exact List.Sublist.refl _
    | call c => exact List.Sublist.refl _
    | fact f => cases f <;> first | exact List.Sublist.refl _ | exact List.nil_sublist _

/-- The commands and events that a handling hands to the engine are in the order in which it
announced them. -/
theorem emits_plain {x : Happening R}
    (ht : ∀ e ∈ timeoutsIn x.seg, e.msg.type.kind = .timeout) :
    (x.emits.filter Env.isPlain).Sublist (createdIn x.seg) := by
  cases x with
  | ticked n h => exact List.nil_sublist _
  | handled now h env seg err =>
    show ((emission h now seg err).filter Env.isPlain).Sublist (createdIn seg)
    unfold emission
    have ht : ∀ e ∈ timeoutsIn seg, e.msg.type.kind = .timeout := ht
    rcases h.htype with _ | _ | _ | _
    all_goals simp only
    all_goals first
      | exact List.filter_sublist.trans (aggEventsIn_sublist seg)
      | exact List.filter_sublist.trans (intEventsIn_sublist seg)
      | exact List.nil_sublist _
      | skip
    cases err with
    | some e => exact List.nil_sublist _
    | none =>
      simp only [List.filter_append]
      have : (if endedAfter false seg then [] else (timeoutsIn seg).filter
          (fun e => decide (e.scheduledFor ≤ now))).filter Env.isPlain = [] := by
        rw [List.filter_eq_nil_iff]
        intro e he
        have : e ∈ timeoutsIn seg := by
          split at he
          · cases he
          · exact (List.mem_filter.1 he).1
        simp [Env.isPlain, ht e this]
      rw [this, List.append_nil]
      exact List.filter_sublist.trans (commandsIn_sublist seg)

theorem flatMap_sublist {α β : Type} (f g : α → List β) (L : List α)
    (h : ∀ x ∈ L, (f x).Sublist (g x)) : (L.flatMap f).Sublist (L.flatMap g) := by
  induction L with
  | nil => exact List.Sublist.refl _
  | cons a L ih =>
    rw [List.flatMap_cons, List.flatMap_cons]
    exact (h a (by simp)).append (ih (fun x hx => h x (by simp [hx])))

/-- Timeouts are announced as such. -/
theorem timeouts_kind {A : App W R} (wf : A.WF) {s : Sys W R} (hs : Reach A s) {e : Env}
    (he : e ∈ timeoutsIn s.trace) : e.msg.type.kind = .timeout := by
  unfold timeoutsIn at he
  obtain ⟨o, ho, hoe⟩ := List.mem_filterMap.1 he
  split at hoe
  · cases hoe
    obtain ⟨a, b, hab⟩ := List.append_of_mem ho
    exact ((core_reach wf hs).em a _ b hab).1 _ _ _ rfl |>.2.2.1
  · cases hoe

theorem filter_flatMap {α β : Type} (p : β → Bool) (f : α → List β) (L : List α) :
    (L.flatMap f).filter p = L.flatMap (fun x => (f x).filter p) := by
  induction L with
  | nil => rfl
  | cons a L ih => rw [List.flatMap_cons, List.flatMap_cons, List.filter_append, ih]

/-- One operation. -/
theorem op_order {A : App W R} (wf : A.WF) {s : Sys W R} (hs : Reach A s) (op : Op) (hop : op.ok A)
    (hne : op ≠ .reset) :
    ∃ t, (op.exec A s).1.trace = s.trace ++ t ∧ (∀ o ∈ t, o ≠ .reset) ∧
      ((dispatchedIn t).filter Env.isPlain).Sublist (createdIn t) := by
  have hs' : Reach A (op.exec A s).1 := .step op hs hop
  rcases hr : op.exec A s with ⟨s', out⟩
  rw [hr] at hs'
  have hs' : Reach A s' := hs'
  show ∃ t, s'.trace = s.trace ++ t ∧ _
  have main : ∀ oo init t L left, OpFlat A oo s init s' out t L left → ∀ o rest, t = o :: rest →
      (scan (s.trace ++ [o])).cur = none → (scan (s.trace ++ [o])).done = happenings s.trace →
      (init.filter Env.isPlain).Sublist (createdIn [o]) →
      ∃ t, s'.trace = s.trace ++ t ∧ (∀ o ∈ t, o ≠ .reset) ∧
        ((dispatchedIn t).filter Env.isPlain).Sublist (createdIn t) := by
    intro oo init t L left g o rest ht hc hd hi
    have hnr : ∀ o ∈ t, o ≠ .reset := by
      intro o ho e
      subst e
      exact g.partake _ ho
    refine ⟨t, g.trace, hnr, ?_⟩
    obtain ⟨L', h1, h2⟩ := scan_created (scan (s.trace ++ [o])) rest
      (fun x hx => hnr x (by rw [ht]; exact List.mem_cons_of_mem _ hx))
    have hL : L' = L := by
      have e1 : s'.trace = s.trace ++ [o] ++ rest := by rw [g.trace, ht]; simp
      have e2 : happenings s'.trace = happenings s.trace ++ L' := by
        rw [← hd, ← h1, e1]; unfold happenings scan; rw [List.foldl_append]
      rw [g.happens] at e2
      exact (List.append_cancel_left e2).symm
    subst hL
    have h0 : (scan (s.trace ++ [o])).announced = [] := by unfold Scan.announced; rw [hc]
    rw [h0, List.nil_append] at h2
    have h3 := (List.sublist_append_left _ _).trans h2
    have hem : ((L'.flatMap Happening.emits).filter Env.isPlain).Sublist (createdIn rest) := by
      rw [filter_flatMap]
      refine (flatMap_sublist _ _ _ ?_).trans h3
      intro x hx
      refine emits_plain ?_
      intro e he
      refine timeouts_kind wf hs' ?_
      obtain ⟨ob, hob, hoe⟩ := List.mem_filterMap.1 he
      refine List.mem_filterMap.2 ⟨ob, ?_, hoe⟩
      refine (scan_mem s'.trace).1 x ?_ ob hob
      have := g.happens
      unfold happenings at this
      rw [this]; exact List.mem_append_right _ hx
    have hpre : dispatchedIn t <+: init ++ L'.flatMap Happening.emits := ⟨left, g.disp⟩
    have e3 : createdIn t = createdIn [o] ++ createdIn rest := by
      rw [ht, ← createdIn_append]; rfl
    rw [e3]
    refine (hpre.sublist.filter _).trans ?_
    rw [List.filter_append]
    exact hi.append hem
  cases op with
  | reset => exact absurd rfl hne
  | dispatch n m os =>
    rcases dispatch_op wf (core_reach wf hs) n m os hr with ⟨h1, _⟩ | ⟨oo, _, _, _, _, t, L, left, g, hh, _⟩
    · exact ⟨[], by rw [h1, List.append_nil], (fun _ h => (nomatch h)), List.Sublist.refl _⟩
    · cases t with
      | nil => cases hh
      | cons o rest =>
        cases hh
        refine main oo _ _ _ _ g _ rest rfl ?_ ?_ ?_
        · rw [scan_snoc]; rfl
        · rw [scan_snoc]; rfl
        · exact List.filter_sublist
  | tick n order os =>
    rcases tick_op wf (core_reach wf hs) n order hop os hr with ⟨h1, _⟩ | ⟨oo, _, t, L, left, g, _, hh⟩
    · exact ⟨[], by rw [h1, List.append_nil], (fun _ h => (nomatch h)), List.Sublist.refl _⟩
    · cases t with
      | nil => cases hh
      | cons o rest =>
        cases hh
        refine main oo _ _ _ _ g _ rest rfl ?_ ?_ ?_
        · rw [scan_snoc]; rfl
        · rw [scan_snoc]; rfl
        · have : (order.flatMap (released oo s)).filter Env.isPlain = [] := by
            rw [List.filter_eq_nil_iff]
            intro e he
            obtain ⟨h, _, he⟩ := List.mem_flatMap.1 he
            have : e ∈ (s.proc h.name).timeouts := by
              unfold released at he
              split at he
              · exact (List.takeWhile_sublist _).mem he
              · cases he
            obtain ⟨o, _, _, _, _, hk⟩ := ((core_reach wf hs).pend _ _ this).2.1
            simp [Env.isPlain, hk]
          rw [this]; exact List.nil_sublist _

/-! ## C76 -/

/-- **C76.** Between two resets, commands and events are dispatched in the order in which they were
announced (passed to `Dispatch()`, recorded, executed), over all operations and however these end:
those dispatched are a subsequence of those announced. -/
theorem C76_order {A : App W R} (wf : A.WF) {s : Sys W R} (hs : Reach A s) :
    ((dispatchedIn (sinceReset s.trace)).filter (fun e => decide (e.msg.type.kind ≠ .timeout))).Sublist
      (createdIn (sinceReset s.trace)) := by
  induction hs with
  | init w => exact List.Sublist.refl _
  | world w hs ih => exact ih
  | @step s op hs hop ih =>
    by_cases hne : op = .reset
    · subst hne
      have key : ∀ (fs : List (W → W × Option PanicVal)) (i : Nat) (s : Sys W R),
          ((dispatchedIn (sinceReset s.trace)).filter Env.isPlain).Sublist (createdIn (sinceReset s.trace)) →
          ((dispatchedIn (sinceReset (runResetters i fs s).1.trace)).filter Env.isPlain).Sublist
            (createdIn (sinceReset (runResetters i fs s).1.trace)) := by
        intro fs
        induction fs with
        | nil => intro i s h; exact h
        | cons f fs ihf =>
          intro i s h
          have h' : ((dispatchedIn (sinceReset (s.user (.resetter i) f).1.trace)).filter Env.isPlain).Sublist
              (createdIn (sinceReset (s.user (.resetter i) f).1.trace)) := by
            have e : (s.user (.resetter i) f).1.trace = s.trace ++ [.call (.resetter i)] := rfl
            rw [e, sinceReset_append _ _ (by simp), dispatchedIn_append, createdIn_append]
            simpa [dispatchedIn, createdIn, Obs.created, List.filterMap] using h
          unfold runResetters
          rcases hu : s.user (.resetter i) f with ⟨s1, _ | v⟩
          · rw [hu] at h'; exact ihf _ _ h'
          · rw [hu] at h'; exact h'
      refine key _ _ _ ?_
      have : sinceReset ({ s.emit .reset with
        nextID := 0, agg := fun _ _ => none, proc := fun _ => ⟨fun _ => none, []⟩ } : Sys W R).trace = [] :=
        sinceReset_reset s.trace
      rw [this]; exact List.Sublist.refl _
    · obtain ⟨t, h1, h2, h3⟩ := op_order wf hs op hop hne
      rw [h1, sinceReset_append _ _ h2, dispatchedIn_append, createdIn_append, List.filter_append]
      exact ih.append h3

/-- **C76**, in terms of IDs: of two commands or events, the one dispatched first has the smaller
ID. -/
theorem C76_ids {A : App W R} (wf : A.WF) {s : Sys W R} (hs : Reach A s) :
    (((dispatchedIn (sinceReset s.trace)).filter
      (fun e => decide (e.msg.type.kind ≠ .timeout))).map Env.id).Pairwise (· < ·) :=
  (core_reach wf hs).ids.sublist ((C76_order wf hs).map _)

set_option maxRecDepth 100000 in
/-- In the demo, ten commands and events are dispatched; the two timeouts among the messages
dispatched are not in the order of their IDs. -/
example : Reach Demo.app Demo.final ∧
    ((dispatchedIn (sinceReset Demo.final.trace)).filter
      (fun e => decide (e.msg.type.kind ≠ .timeout))).map Env.id = [1, 2, 3, 5, 6, 7, 8, 10, 11, 12] ∧
    (dispatchedIn (sinceReset Demo.final.trace)).map Env.id = [1, 2, 3, 5, 6, 7, 8, 10, 4, 9, 11, 12] :=
  ⟨Demo.final_reach, by decide +kernel, by decide +kernel⟩

end Verif
