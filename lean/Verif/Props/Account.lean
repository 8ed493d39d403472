import Verif.Props.Enable
import Verif.Props.Run
import Verif.Props.Order
import Verif.Props.Process
import Verif.Props.Flow
import Verif.Props.Reset
import Verif.Demo

/-!
# Every message is accounted for: C81
-/

namespace Verif

variable {W R : Type}

/-! ## Announcements belong to handlings -/

/-- This frame is a handling. -/
def Frame.isHandling : Frame → Bool
  | .handling _ _ => true
  | _ => false

/-- The scan of a trace knows about the handling in progress exactly if one is open. -/
def Lock (st : List Frame) (a : Scan R) : Prop :=
  (a.cur = none ∧ ∀ f ∈ st, f.isHandling = false) ∨
  ∃ h e seg rest, st = .handling h e :: rest ∧ a.cur = some (h, e, seg) ∧
    ∀ f ∈ rest, f.isHandling = false

theorem isCycle_noHandling {st : List Frame} (h : Frame.isCycle st = true) :
    ∀ f ∈ st, f.isHandling = false := by
  unfold Frame.isCycle at h
  split at h
  · simp [Frame.isHandling]
  · simp [Frame.isHandling]
  · cases h

theorem close_eq {f : Frame} {st st' : List Frame} (h : f.close st = some st') : st = f :: st' := by
  cases st with
  | nil => cases h
  | cons g st =>
    simp only [Frame.close] at h
    split at h
    · rename_i hg; cases h; rw [hg]
    · cases h

theorem lock_step {st st' : List Frame} {a : Scan R} {o : Obs R} (hl : Lock st a)
    (hb : bracketStep st o = some st') : Lock st' (a.step o) := by
  obtain ⟨done, cur, time⟩ := a
  -- an observation that leaves the stack alone
  have same : ∀ {st : List Frame}, Lock st ⟨done, cur, time⟩ →
      Lock st (match cur with
        | some (h, e, sg) => (⟨done, some (h, e, sg ++ [o]), time⟩ : Scan R)
        | none => ⟨done, cur, time⟩) := by
    intro st hl
    cases cur with
    | none => exact hl
    | some p =>
      obtain ⟨h, e, sg⟩ := p
      rcases hl with ⟨h1, _⟩ | ⟨h', e', seg, rest, h1, h2, h3⟩
      · cases h1
      · cases h2
        exact .inr ⟨_, _, _, rest, h1, rfl, h3⟩
  cases o with
  | reset =>
    simp only [bracketStep] at hb
    split at hb
    · cases hb; exact .inl ⟨rfl, by simp⟩
    · cases hb
  | call c =>
    have e : st' = st := by
      simp only [bracketStep] at hb
      split at hb
      · split at hb
        · cases hb; rfl
        · cases hb
      · split at hb
        · rename_i h; cases hb; exact h.symm
        · cases hb
    subst e
    exact same hl
  | fact f =>
    have note : ∀ p, f.about = some p → st' = st → Lock st' (match cur with
        | some (h, e, sg) => (⟨done, some (h, e, sg ++ [.fact f]), time⟩ : Scan R)
        | none => ⟨done, cur, time⟩) := by
      intro p _ e
      subst e
      exact same hl
    -- the frames below an operation's own
    cases f <;> simp only [bracketStep, Fact.about] at hb
    case dispatchCycleBegun e n =>
      split at hb
      · cases hb; exact .inl ⟨rfl, by simp [Frame.isHandling]⟩
      · cases hb
    case tickCycleBegun n =>
      split at hb
      · cases hb; exact .inl ⟨rfl, by simp [Frame.isHandling]⟩
      · cases hb
    case dispatchCycleCompleted e _ n =>
      split at hb
      · rename_i h
        cases hb
        subst h
        rcases hl with ⟨h1, _⟩ | ⟨h', e', seg, rest, h1, h2, h3⟩
        · cases h1; exact .inl ⟨rfl, by simp⟩
        · cases h1
      · cases hb
    case tickCycleCompleted _ n =>
      split at hb
      · rename_i h
        cases hb
        subst h
        rcases hl with ⟨h1, _⟩ | ⟨h', e', seg, rest, h1, h2, h3⟩
        · cases h1; exact .inl ⟨rfl, by simp⟩
        · cases h1
      · cases hb
    case dispatchBegun e =>
      split at hb
      · rename_i h
        cases hb
        have hn := isCycle_noHandling h
        rcases hl with ⟨h1, _⟩ | ⟨h', e', seg, rest, h1, h2, h3⟩
        · cases h1
          refine .inl ⟨rfl, ?_⟩
          intro f hf
          rcases List.mem_cons.1 hf with rfl | hf
          · rfl
          · exact hn f hf
        · subst h1; have := hn _ (List.mem_cons_self ..); cases this
      · cases hb
    case dispatchCompleted e n =>
      have := close_eq hb
      subst this
      rcases hl with ⟨h1, h2⟩ | ⟨h', e', seg, rest, h1, h2, h3⟩
      · cases h1; exact .inl ⟨rfl, fun f hf => h2 f (List.mem_cons_of_mem _ hf)⟩
      · cases h1
    case handlingBegun h e =>
      split at hb
      · rename_i hh
        cases hb
        rcases hl with ⟨h1, h2⟩ | ⟨h', e', seg, rest, h1, h2, h3⟩
        · exact .inr ⟨h, e, [], st, rfl, rfl, h2⟩
        · subst h1; cases hh
      · cases hb
    case handlingSkipped h e r =>
      split at hb
      · cases hb; exact same hl
      · cases hb
    case handlingCompleted h e r =>
      have := close_eq hb
      subst this
      rcases hl with ⟨h1, h2⟩ | ⟨h', e', seg, rest, h1, h2, h3⟩
      · have := h2 _ (List.mem_cons_self ..); cases this
      · cases h1; cases h2; exact .inl ⟨rfl, h3⟩
    case tickBegun h =>
      split at hb
      · rename_i hh
        cases hb
        subst hh
        rcases hl with ⟨h1, h2⟩ | ⟨h', e', seg, rest, h1, h2, h3⟩
        · cases h1; exact .inl ⟨rfl, by simp [Frame.isHandling]⟩
        · cases h1
      · cases hb
    case tickSkipped h r =>
      split at hb
      · cases hb; exact same hl
      · cases hb
    case tickCompleted h r =>
      have := close_eq hb
      subst this
      rcases hl with ⟨h1, h2⟩ | ⟨h', e', seg, rest, h1, h2, h3⟩
      · cases h1; exact .inl ⟨rfl, fun f hf => h2 f (List.mem_cons_of_mem _ hf)⟩
      · cases h1
    case prjLog h e m =>
      cases e <;>
      · simp only at hb
        split at hb
        · cases hb; exact same hl
        · cases hb
    all_goals
      split at hb
      · cases hb; exact same hl
      · cases hb

/-- A fact announcing a produced message is part of the handling in progress. -/
theorem lock_produced {st st' : List Frame} {a : Scan R} {f : Fact} (hl : Lock st a)
    (hb : bracketStep st (.fact f : Obs R) = some st') {h : HConfig} {env e : Env}
    (hf : f.produced = some (h, env, e)) :
    ∃ seg, (a.step (.fact f)).cur = some (h, env, seg ++ [.fact f]) := by
  obtain ⟨done, cur, time⟩ := a
  have key : st.head? = some (.handling h env) := by
    cases f <;> cases hf
    all_goals
      simp only [bracketStep, Fact.about] at hb
      split at hb
      · assumption
      · cases hb
  rcases hl with ⟨h1, h2⟩ | ⟨h', e', seg, rest, h1, h2, h3⟩
  · have := h2 _ (List.mem_of_mem_head? key); cases this
  · subst h1; cases key; cases h2
    refine ⟨seg, ?_⟩
    cases f <;> cases hf <;> rfl

/-- A handling in progress goes on or is completed. -/
theorem lock_keep {st' rest : List Frame} {a : Scan R} {o : Obs R} {h : HConfig} {e : Env}
    {seg : List (Obs R)} (hc : a.cur = some (h, e, seg))
    (hb : bracketStep (.handling h e :: rest) o = some st') :
    (∃ seg', (a.step o).cur = some (h, e, seg') ∧ ∀ x ∈ seg, x ∈ seg') ∨
    ∃ err, (a.step o).done = a.done ++ [.handled a.time h e seg err] := by
  obtain ⟨done, cur, time⟩ := a
  cases hc
  cases o with
  | reset => simp [bracketStep] at hb
  | call c => exact .inl ⟨_, rfl, fun x hx => List.mem_append_left _ hx⟩
  | fact f =>
    cases f
    case dispatchCycleBegun => simp [bracketStep] at hb
    case tickCycleBegun => simp [bracketStep] at hb
    case handlingBegun => simp [bracketStep] at hb
    case tickBegun => simp [bracketStep] at hb
    case handlingCompleted h' e' err => exact .inr ⟨err, rfl⟩
    all_goals exact .inl ⟨_, rfl, fun x hx => List.mem_append_left _ hx⟩

/-- Every message announced by a handler in a stretch of a trace whose brackets match belongs to a
handling completed in that stretch, or to the one in progress. -/
theorem lock_run (t : List (Obs R)) (hr : ∀ o ∈ t, o ≠ .reset) {st st' : List Frame} {a : Scan R}
    (hl : Lock st a) (hb : bracketRun st t = some st') :
    Lock st' (t.foldl Scan.step a) ∧ ∃ L, (t.foldl Scan.step a).done = a.done ++ L ∧
      ∀ f h env e, f.produced = some (h, env, e) →
        (.fact f ∈ t ∨ ∃ seg, a.cur = some (h, env, seg) ∧ .fact f ∈ seg) →
        (∃ now seg err, .handled now h env seg err ∈ L ∧ .fact f ∈ seg) ∨
        (∃ seg, (t.foldl Scan.step a).cur = some (h, env, seg) ∧ .fact f ∈ seg) := by
  induction t generalizing st a with
  | nil =>
    cases hb
    refine ⟨hl, [], by simp, ?_⟩
    rintro f h env e hf (hm | hm)
    · cases hm
    · exact .inr hm
  | cons o t ih =>
    simp only [bracketRun] at hb
    split at hb
    · cases hb
    · rename_i st1 hb1
      have hl1 := lock_step hl hb1
      obtain ⟨g1, L, g2, g3⟩ := ih (fun x hx => hr x (List.mem_cons_of_mem _ hx)) hl1 hb
      obtain ⟨L0, hL0⟩ := scan_step_prefix a o (hr o (List.mem_cons_self ..))
      refine ⟨g1, L0 ++ L, by rw [List.foldl_cons, g2, ← hL0, List.append_assoc], ?_⟩
      have up : ∀ {f : Fact} {h : HConfig} {env : Env},
          ((∃ now seg err, .handled now h env seg err ∈ L ∧ .fact f ∈ seg) ∨
          (∃ seg, (t.foldl Scan.step (a.step o)).cur = some (h, env, seg) ∧ .fact f ∈ seg)) →
          (∃ now seg err, .handled now h env seg err ∈ L0 ++ L ∧ .fact f ∈ seg) ∨
          (∃ seg, ((o :: t).foldl Scan.step a).cur = some (h, env, seg) ∧ .fact f ∈ seg) := by
        rintro f h env (⟨now, seg, err, h1, h2⟩ | h1)
        · exact .inl ⟨now, seg, err, List.mem_append_right _ h1, h2⟩
        · exact .inr h1
      rintro f h env e hf (hm | ⟨seg, hc, hm⟩)
      · rcases List.mem_cons.1 hm with rfl | hm
        · obtain ⟨seg, hs⟩ := lock_produced hl hb1 hf
          exact up (g3 f h env e hf (.inr ⟨_, hs, by simp⟩))
        · exact up (g3 f h env e hf (.inl hm))
      · rcases hl with ⟨h1, _⟩ | ⟨h', e', seg', rest, h1, h2, h3⟩
        · rw [hc] at h1; cases h1
        · rw [hc] at h2; cases h2
          subst h1
          rcases lock_keep hc hb1 with ⟨seg', k1, k2⟩ | ⟨err, k1⟩
          · exact up (g3 f h env e hf (.inr ⟨seg', k1, k2 _ hm⟩))
          · rw [k1] at hL0
            have := List.append_cancel_left hL0
            subst this
            exact .inl ⟨_, _, _, List.mem_append_left _ (List.mem_singleton_self _), hm⟩

/-- The outermost facts of an operation that returns. -/
theorem op_shape {A : App W R} {s : Sys W R} (op : Op) (hop : op.ok A) (hne : op ≠ .reset)
    {s' : Sys W R} {errs : List EngErr} (hr : op.exec A s = (s', .done errs)) :
    ∃ o u c, during s s' = .fact o :: (u ++ [.fact c]) ∧ (∀ x ∈ u, x.inTick) ∧ c.created = none ∧
      ((∃ e cy, o = .dispatchCycleBegun e cy ∧ op.initial A s = [e] ∧
          c = .dispatchCycleCompleted e cy.maps errs) ∨
        ∃ cy, o = .tickCycleBegun cy ∧ c = .tickCycleCompleted cy.maps errs) := by
  cases op with
  | reset => exact absurd rfl hne
  | dispatch n m os =>
    have hr : engDispatch A n m os s = (s', .done errs) := hr
    unfold engDispatch at hr
    simp only at hr
    split at hr
    · cases hr
    · rename_i oo hoo
      have hoo' : newOpOpts A s os = .ok oo := hoo
      split at hr
      · cases hr
      · split at hr
        · cases hr
        · split at hr
          · cases hr
          · have hi : Op.initial A s (.dispatch n m os) = [Env.root (s.nextID + 1) m oo.now] := by
              rw [newOpOpts_now hoo']; rfl
            split at hr
            · cases hr
              exact ⟨_, [], .dispatchCycleCompleted _ _ _, by simp [during, Sys.notify, Sys.emit]; exact ⟨rfl, rfl⟩,
                by simp, rfl, .inl ⟨_, _, rfl, hi, rfl⟩⟩
            · have h2 := (within_disp A oo _).loop n
                [Env.root (s.nextID + 1) m oo.now] [] _ (Within.refl
                  (({ s with nextID := s.nextID + 1 } : Sys W R).notify
                    (.dispatchCycleBegun (Env.root (s.nextID + 1) m oo.now) (oo.cycle A))))
              generalize hroot : Env.root (s.nextID + 1) m oo.now = root at hr h2 hi
              rcases hl : dispatchLoop A oo n [root] []
                ({ s with nextID := s.nextID + 1 }.notify (.dispatchCycleBegun root (oo.cycle A))) with
                ⟨s2, es | v | _⟩ <;> rw [hl] at hr h2
              · have hw : Within (({ s with nextID := s.nextID + 1 } : Sys W R).notify
                    (.dispatchCycleBegun root (oo.cycle A))) s2 := by
                  rcases h2 with h2 | ⟨_, _, _, h2, _⟩ <;> exact h2
                obtain ⟨u, e1, e2⟩ := hw
                cases hr
                refine ⟨_, u, .dispatchCycleCompleted root (oo.cycle A).maps errs, ?_, e2, rfl, .inl ⟨root, oo.cycle A, rfl, hi, rfl⟩⟩
                simp [during, Sys.notify, Sys.emit, e1]
              · cases hr
              · cases hr
  | tick n order os =>
    have hr : engTick A n order os s = (s', .done errs) := hr
    unfold engTick at hr
    split at hr
    · cases hr
    · rename_i oo hoo
      simp only at hr
      split at hr
      · cases hr
        exact ⟨_, [], .tickCycleCompleted _ _, by simp [during, Sys.notify, Sys.emit]; exact ⟨rfl, rfl⟩,
          by simp, rfl, .inr ⟨_, rfl, rfl⟩⟩
      · obtain ⟨u, e1, e2⟩ := within_locked A oo n order hop (s.notify (.tickCycleBegun (oo.cycle A)))
        rcases hx : engTickLocked A oo n order (s.notify (.tickCycleBegun (oo.cycle A))) with
          ⟨s1, es | v | _⟩ <;> rw [hx] at e1 hr
        · cases hr
          refine ⟨_, u, .tickCycleCompleted (oo.cycle A).maps errs, ?_, e2, rfl, .inr ⟨oo.cycle A, rfl, rfl⟩⟩
          simp only at e1; simp [during, Sys.notify, Sys.emit, e1]
        · cases hr
        · cases hr

/-- **C14.**  An operation that returns ends with a fact that says the same about the handlers as
the one it began with (`C14_announced`), with the errors that are returned. -/
theorem C14_concluded {A : App W R} (wf : A.WF) {s : Sys W R} (hs : Reach A s) (op : Op)
    (hop : op.ok A) (hne : op ≠ .reset) {s' : Sys W R} {errs : List EngErr}
    (hr : op.exec A s = (s', .done errs)) :
    ∃ m : EnabledMaps, (∀ h, m.covers h = takesPart op.opts h) ∧
      ((∃ e c, c.maps = m ∧ op.initial A s = [e] ∧
          (during s s').head? = some (.fact (.dispatchCycleBegun e c)) ∧
          (during s s').getLast? = some (.fact (.dispatchCycleCompleted e m errs))) ∨
        ∃ c, c.maps = m ∧ (during s s').head? = some (.fact (.tickCycleBegun c)) ∧
          (during s s').getLast? = some (.fact (.tickCycleCompleted m errs))) := by
  obtain ⟨o, u, c, ht, -, -, ho⟩ := op_shape op hop hne hr
  have hlast : (during s s').getLast? = some (.fact c) := by
    rw [ht, ← List.cons_append, List.getLast?_concat]
  rcases C14_announced wf hs op hop hne hr with ⟨-, v, hv⟩ | ⟨cy, -, hcov, hhead⟩
  · cases hv
  have hh : (during s s').head? = some (.fact o) := by rw [ht]; rfl
  refine ⟨cy.maps, hcov, ?_⟩
  rcases ho with ⟨e, cy', rfl, hi, rfl⟩ | ⟨cy', rfl, rfl⟩
  · rcases hhead with ⟨root, hd⟩ | hd
    · rw [hh] at hd
      cases hd
      exact .inl ⟨_, _, rfl, hi, hh, hlast⟩
    · rw [hh] at hd; cases hd
  · rcases hhead with ⟨root, hd⟩ | hd
    · rw [hh] at hd; cases hd
    · rw [hh] at hd
      cases hd
      exact .inr ⟨_, rfl, hh, hlast⟩

set_option maxRecDepth 100000 in
/-- The fact that ends a dispatch in the demo, and what it says about the handlers. -/
example : ((during (Sys.init 0) ((Op.dispatch 20 (Demo.msgC "x")
      [.enableType .projection false, .enableHandler "int" false]).exec Demo.app
        (Sys.init 0)).1).filterMap (fun o => match o with
      | .fact (.dispatchCycleCompleted _ m err) =>
        some (m.names, Demo.app.cfgs.map (fun h => (h.name, m.covers h)), err.length)
      | _ => none)) =
    [([("int", false)],
      Demo.app.cfgs.map (fun h => (h.name, !(h.name == "int" || h.htype == .projection))), 0)] := by
  decide +kernel

theorem op_created_cases {f : Fact} {e : Env} (h : f.created = some e) :
    (∃ now, f = .dispatchCycleBegun e now) ∨ ∃ h env, f.produced = some (h, env, e) := by
  cases f <;> cases h
  · exact .inl ⟨_, rfl⟩
  all_goals exact .inr ⟨_, _, rfl⟩

/-- Every message announced in an operation that returns is the one the operation is given, or was
announced in a handling that was completed in the operation. -/
theorem op_created {A : App W R} (wf : A.WF) {s : Sys W R} (hs : Reach A s) (op : Op) (hop : op.ok A)
    (hne : op ≠ .reset) {s' : Sys W R} {errs : List EngErr} (hr : op.exec A s = (s', .done errs))
    {e : Env} (he : e ∈ createdIn (during s s')) :
    e ∈ op.initial A s ∨ ∃ f now h env seg err, f.produced = some (h, env, e) ∧ .fact f ∈ during s s' ∧
      .handled now h env seg err ∈ happenedDuring s s' ∧ .fact f ∈ seg := by
  obtain ⟨oo, left, _, g, _, _⟩ := op_done wf hs op hop hne hr
  obtain ⟨o, u, c, ht, hu, hc, ho⟩ := op_shape op hop hne hr
  obtain ⟨fr, hb, hfr⟩ := g.brackets
  have hfr := hfr errs rfl
  subst hfr
  obtain ⟨x, hx, hxe⟩ := List.mem_filterMap.1 he
  cases x with
  | reset => cases hxe
  | call c => cases hxe
  | fact f =>
    have hxe : f.created = some e := hxe
    rcases op_created_cases hxe with ⟨now, rfl⟩ | ⟨h, env, hp⟩
    · -- the message the operation is given
      left
      rw [ht] at hx
      rcases List.mem_cons.1 hx with hx | hx
      · rcases ho with ⟨e', n', rfl, hi, -⟩ | ⟨n', rfl, -⟩
        · cases hx; rw [hi]; exact List.mem_singleton_self _
        · cases hx
      · rcases List.mem_append.1 hx with hx | hx
        · exact (hu _ hx).elim
        · cases List.mem_singleton.1 hx; cases hc
    · right
      have hnr : ∀ o ∈ during s s', o ≠ .reset := by
        intro o ho e
        subst e
        exact g.partake _ ho
      rw [ht] at hx hb hnr
      have hx : .fact f ∈ u ++ [.fact c] := by
        rcases List.mem_cons.1 hx with hx | hx
        · cases hx
          rcases ho with ⟨e', n', rfl, -⟩ | ⟨n', rfl, -⟩ <;> cases hp
        · exact hx
      -- the scan after the first fact
      have hfirst : ∃ st now, bracketStep [] (.fact o : Obs R) = some st ∧ Lock st ((scan s.trace).step (.fact o)) ∧
          (scan s.trace).step (.fact o) = ⟨(scan s.trace).done, none, now⟩ := by
        rcases ho with ⟨e', n', rfl, -⟩ | ⟨n', rfl, -⟩
        · exact ⟨[.cycle e'], n'.now, rfl, .inl ⟨rfl, by simp [Frame.isHandling]⟩, rfl⟩
        · exact ⟨[.tickCycle], n'.now, rfl, .inl ⟨rfl, by simp [Frame.isHandling]⟩, rfl⟩
      obtain ⟨st, n', k1, k2, k3⟩ := hfirst
      simp only [bracketRun, k1] at hb
      obtain ⟨m1, L, m2, m3⟩ := lock_run (u ++ [.fact c]) (fun x hx => hnr x (List.mem_cons_of_mem _ hx)) k2 hb
      have hscan : scan s'.trace = (u ++ [Obs.fact c]).foldl Scan.step ((scan s.trace).step (.fact o)) := by
        rw [g.trace, ht]
        unfold scan
        rw [List.foldl_append, List.foldl_cons]
      have hL : L = happenedDuring s s' := by
        have := g.happens
        unfold happenings at this
        rw [hscan, m2, k3] at this
        exact List.append_cancel_left this
      subst hL
      rcases m3 f h env e hp (.inl hx) with ⟨now, seg, err, h1, h2⟩ | ⟨seg, h1, _⟩
      · exact ⟨f, now, h, env, seg, err, hp, by rw [ht]; exact List.mem_cons_of_mem _ hx, h1, h2⟩
      · rcases m1 with ⟨h3, _⟩ | ⟨_, _, _, _, h3, _⟩
        · rw [h1] at h3; cases h3
        · cases h3

/-! ## The instance a timeout belongs to -/

/-- The timeouts announced in a handling are those of the process instance it deals with. -/
def Happening.owned : Happening R → Prop
  | .handled _ h _ seg _ => h.htype = .process → ∀ e ∈ timeoutsIn seg,
      ∃ id, procInstIn seg = some id ∧ e.byInstance id = true
  | .ticked _ _ => True

theorem ProcSum.owned {A : App W R} {h : HConfig} {now : Time} {env : Env} {s s' : Sys W R}
    {res : HRes} {seg : List (Obs R)} (g : ProcSum A h now env s s' res seg) {e : Env}
    (he : e ∈ timeoutsIn seg) : ∃ id, procInstIn seg = some id ∧ e.byInstance id = true := by
  have : ∃ id, procInstIn seg = some id := by
    rcases g.shape with ⟨hs, _⟩ | ⟨pre, id', hpre, _, _, h1⟩
    · rw [(procPre_fold h env seg hs).2.2.1] at he; cases he
    · have hpre' : ∀ o ∈ pre, ProcPre h env o := by
        intro o ho; obtain ⟨rfl, hk⟩ := hpre o ho; exact ⟨rfl, rfl, hk⟩
      obtain ⟨k1, k2, k3, k4⟩ := procPre_fold h env pre hpre'
      rcases h1 with ⟨rfl, _⟩ | ⟨rfl, _⟩ | ⟨r, post, rfl, _, hpost, _⟩
      · simp [timeoutsIn_append, k3] at he; simp [timeoutsIn] at he
      · exact ⟨id', by rw [procInstIn_append, k1, (procStart_fold h id' env _).1]; rfl⟩
      · exact ⟨id', by rw [List.append_assoc, procInstIn_append, k1, procInstIn_append,
          (procStart_fold h id' env _).1]; rfl⟩
  obtain ⟨id, hid⟩ := this
  obtain ⟨o, ho, hoi⟩ := g.timeout_origin he hid
  exact ⟨id, hid, by simp [Env.byInstance, ho, hoi]⟩

theorem owned_refine (A : App W R) :
    Refine A (fun L _ => ∀ x ∈ L, x.owned) (fun _ _ _ => True) where
  frame L s s' _ h := h
  init w := by simp
  reset L s h := by simp
  ok L h now env s s' envs e seg _ hL hh := by
    intro x hx
    rcases List.mem_append.1 hx with hx | hx
    · exact hL x hx
    · rw [List.mem_singleton.1 hx]
      intro hk e he
      exact (hh.proc hk).owned he
  panic L h now env s s' v seg _ hL hh := hL
  tick L h now s s' res seg _ _ hL _ := by
    intro x hx
    rcases List.mem_append.1 hx with hx | hx
    · exact hL x hx
    · rw [List.mem_singleton.1 hx]; trivial
  obs := fun _ _ _ _ _ _ _ _ _ _ _ _ _ _ _ => trivial
  tickObs := fun _ _ _ _ _ _ => trivial
  plain := fun _ _ _ _ => trivial
  resetter := fun _ _ _ => trivial
  resetObs := fun _ _ => trivial

/-! ## C81 -/

/-- What has become of a message that was discarded, given what happened: it was announced in a
handling by a process that returned an error; or it is a timeout announced in a handling that left
its process instance ended; or it was a pending timeout of a process instance that a handling left
ended. -/
inductive Discarded (L : List (Happening R)) (e : Env) : Prop where
  | failed {now : Time} {h : HConfig} {env : Env} {seg : List (Obs R)} {err : Err}
      (hx : .handled now h env seg (some err) ∈ L) (hk : h.htype = .process)
      (he : e ∈ commandsIn seg ++ timeoutsIn seg)
  | ended {now : Time} {h : HConfig} {env : Env} {seg : List (Obs R)}
      (hx : .handled now h env seg none ∈ L) (hk : h.htype = .process)
      (hen : endedAfter false seg = true) (he : e ∈ timeoutsIn seg)
  | cancelled {name id : String} {L1 L2 : List (Happening R)} {y : Happening R}
      (hL : L = L1 ++ y :: L2) (hp : StillPending name L1 e) (hy : y.isProc name id)
      (hid : e.byInstance id = true) (hen : endedAfter false y.seg = true)

/-- A history in which every operation returned, and none was interrupted. -/
inductive Smoothly (A : App W R) : Sys W R → Prop where
  | init (w : W) : Smoothly A (Sys.init w)
  | world {s : Sys W R} (w : W) (h : Smoothly A s) : Smoothly A { s with w := w }
  | step {s s' : Sys W R} {errs : List EngErr} (op : Op) (h : Smoothly A s) (hop : op.ok A)
      (hr : op.exec A s = (s', .done errs)) (hi : ¬ Interrupted errs) : Smoothly A s'

theorem Smoothly.reach {A : App W R} {s : Sys W R} (h : Smoothly A s) : Reach A s := by
  induction h with
  | init w => exact .init w
  | world w _ ih => exact .world w ih
  | step op _ hop hr _ ih => have := Reach.step op ih hop; rwa [hr] at this

theorem Discarded.mono {L M : List (Happening R)} {e : Env} (h : Discarded L e) :
    Discarded (L ++ M) e := by
  cases h with
  | failed hx hk he => exact .failed (List.mem_append_left _ hx) hk he
  | ended hx hk hen he => exact .ended (List.mem_append_left _ hx) hk hen he
  | cancelled hL hp hy hid hen => exact .cancelled (by rw [hL]; simp; rfl) hp hy hid hen

/-- Something must have happened to a timeout that is no longer pending. -/
theorem pending_lost {name : String} {L M : List (Happening R)} {e : Env}
    (h1 : e ∈ pendingAfter name L) (h2 : e ∉ pendingAfter name (L ++ M)) :
    ∃ M1 x M2, M = M1 ++ x :: M2 ∧ e ∈ pendingAfter name (L ++ M1) ∧
      ((∃ id, x.isProc name id ∧ e.byInstance id = true ∧ endedAfter false x.seg = true) ∨
        ∃ now h, x = .ticked now h ∧ h.htype = .process ∧ h.name = name ∧ e.scheduledFor ≤ now) := by
  induction M using List.reverseRecOn' with
  | nil => rw [List.append_nil] at h2; exact absurd h1 h2
  | append_singleton M x ih =>
    by_cases h : e ∈ pendingAfter name (L ++ M)
    · refine ⟨M, x, [], by simp, h, ?_⟩
      rw [← List.append_assoc, pendingAfter_snoc] at h2
      cases x with
      | handled now hh env seg err =>
        left
        simp only [Happening.pend] at h2
        split at h2
        · rename_i hc
          split at h2
          · exact absurd h h2
          · rename_i id hid
            refine ⟨id, ⟨hc.1, hc.2.1, hid, hc.2.2⟩, ?_⟩
            split at h2
            · rename_i hen
              refine ⟨?_, hen⟩
              apply Classical.byContradiction
              intro hb
              exact h2 (List.mem_filter.2 ⟨h, by simpa using hb⟩)
            · exact absurd (List.mem_append_left _ h) h2
        · exact absurd h h2
      | ticked now hh =>
        right
        simp only [Happening.pend] at h2
        split at h2
        · rename_i hc
          refine ⟨now, hh, rfl, hc.1, hc.2, ?_⟩
          apply Classical.byContradiction
          intro hb
          exact h2 (List.mem_filter.2 ⟨h, by simp only [decide_eq_true_eq]; omega⟩)
        · exact absurd h h2
    · obtain ⟨M1, y, M2, rfl, h3, h4⟩ := ih h
      exact ⟨M1, y, M2 ++ [x], by simp, h3, h4⟩

/-- A tick of a process handler releases its due timeouts. -/
theorem ticked_initial {A : App W R} (wf : A.WF) {s : Sys W R} (hs : Reach A s) (op : Op)
    (hop : op.ok A) (hne : op ≠ .reset) {s' : Sys W R} {errs : List EngErr}
    (hr : op.exec A s = (s', .done errs)) (hi : ¬ Interrupted errs) {now : Time} {h : HConfig}
    (hx : .ticked now h ∈ happenedDuring s s') (hk : h.htype = .process) {e : Env}
    (he : e ∈ (s.proc h.name).timeouts) (hd : e.scheduledFor ≤ now) : e ∈ op.initial A s := by
  obtain ⟨oo, left, h1, g, hdone, tp⟩ := op_done wf hs op hop hne hr
  have hnow : now = oo.now := g.times _ hx
  cases op with
  | reset => exact absurd rfl hne
  | dispatch n m os =>
    rcases dispatch_op wf (core_reach wf hs) n m os hr with ⟨_, v, hv⟩ | ⟨oo', _, _, _, _, t, L, left', g', _, hh⟩
    · cases hv
    · obtain ⟨rfl, rfl⟩ := flat_during g'
      obtain ⟨_, _, _, _, h0⟩ := hh _ hx
      cases h0
  | tick n order os =>
    rcases tp n order os rfl with ⟨_, h2, _⟩ | ⟨L2, h2, h3⟩
    · exact absurd (h2 errs rfl) hi
    · rw [h2] at hx
      rcases List.mem_append.1 hx with hx | hx
      · obtain ⟨h', hh', h4⟩ := List.mem_map.1 hx
        cases h4
        obtain ⟨h5, h6⟩ := List.mem_filter.1 hh'
        have h1 : newOpOpts A s os = .ok oo := h1
        rw [newOpOpts_skip h1] at h6
        refine List.mem_flatMap.2 ⟨h, List.mem_filter.2 ⟨h5, ?_⟩, List.mem_filter.2 ⟨he, ?_⟩⟩
        · rw [Bool.and_eq_true]
          exact ⟨takesPart_iff.2 (by simpa using h6), by simpa using hk⟩
        · have : Op.time A s (.tick n order os) = oo.now := (newOpOpts_now h1).symm
          rw [this]; simpa using hd
      · obtain ⟨_, _, _, _, h0⟩ := h3 _ hx
        cases h0

/-- What an operation that returned uninterrupted starts with, and what its handlings hand over, is
dispatched. -/
theorem all_dispatched {A : App W R} (wf : A.WF) {s : Sys W R} (hs : Reach A s) (op : Op)
    (hop : op.ok A) (hne : op ≠ .reset) {s' : Sys W R} {errs : List EngErr}
    (hr : op.exec A s = (s', .done errs)) (hi : ¬ Interrupted errs) {e : Env}
    (he : e ∈ op.initial A s ∨ ∃ x ∈ happenedDuring s s', e ∈ x.emits) :
    e ∈ dispatchedIn (during s s') := by
  obtain ⟨oo, left, h1, g, hdone, _⟩ := op_done wf hs op hop hne hr
  have hd := g.disp
  rw [(hdone hi).1, List.append_nil] at hd
  rw [hd]
  rcases he with he | ⟨x, hx, he⟩
  · exact List.mem_append_left _ he
  · exact List.mem_append_right _ (List.mem_flatMap.2 ⟨x, hx, he⟩)

theorem after_reset (A : App W R) (s : Sys W R) :
    happenings (engReset A s).1.trace = [] ∧ createdIn (sinceReset (engReset A s).1.trace) = [] := by
  obtain ⟨k, h1, _⟩ := runResetters_sum A.uc.resetters 0 ({ s.emit .reset with
    nextID := 0, agg := fun _ _ => none, proc := fun _ => ⟨fun _ => none, []⟩ } : Sys W R)
  unfold engReset
  rw [h1]
  simp only [Sys.emit]
  generalize List.range' 0 k = l
  have key : ∀ l : List Nat, scan (s.trace ++ [.reset] ++ l.map (fun j => .call (.resetter j))) =
      scan (s.trace ++ [.reset]) := by
    intro l
    induction l using List.reverseRecOn' with
    | nil => simp
    | append_singleton l i ih =>
      rw [List.map_append, ← List.append_assoc, List.map_cons, List.map_nil, scan_snoc, ih, scan_snoc]
      rfl
  refine ⟨?_, ?_⟩
  · unfold happenings
    rw [key, scan_snoc]
    rfl
  · rw [sinceReset_append _ _ (by intro o ho; obtain ⟨_, _, rfl⟩ := List.mem_map.1 ho; exact nofun),
      sinceReset_reset, List.nil_append]
    induction l with
    | nil => rfl
    | cons i l ih => rw [List.map_cons]; unfold createdIn at *; rw [List.filterMap_cons]; exact ih

/-- **C81.**  As long as operations return without being interrupted (by the lock, the context or a
panic of user code), every message announced since the last reset has been dispatched, is pending, or
was discarded. -/
theorem C81_accounted {A : App W R} (wf : A.WF) {s : Sys W R} (h : Smoothly A s) :
    ∀ e ∈ createdIn (sinceReset s.trace), e ∈ dispatchedIn (sinceReset s.trace) ∨
      (∃ name, e ∈ (s.proc name).timeouts) ∨ Discarded (happenings s.trace) e := by
  induction h with
  | init w => intro e he; cases he
  | world w _ ih => exact ih
  | @step s s' errs op hsm hop hr hi ih =>
    have hs := hsm.reach
    have hs' : Reach A s' := by have := Reach.step op hs hop; rwa [hr] at this
    by_cases hne : op = .reset
    · subst hne
      have := (after_reset A s).2
      rw [show engReset A s = (s', .done errs) from hr] at this
      intro e he
      rw [show createdIn (sinceReset s'.trace) = [] from this] at he
      cases he
    obtain ⟨oo, left, h1, g, hdone, _⟩ := op_done wf hs op hop hne hr
    have hnr : ∀ o ∈ during s s', o ≠ .reset := by
      intro o ho e
      subst e
      exact g.partake _ ho
    have hsr : sinceReset s'.trace = sinceReset s.trace ++ during s s' := by
      conv => lhs; rw [g.trace]
      exact sinceReset_append _ _ hnr
    have hdisp : ∀ {e : Env}, (e ∈ op.initial A s ∨ ∃ x ∈ happenedDuring s s', e ∈ x.emits) →
        e ∈ dispatchedIn (sinceReset s'.trace) := by
      intro e he
      rw [hsr, dispatchedIn_append]
      exact List.mem_append_right _ (all_dispatched wf hs op hop hne hr hi he)
    -- timeouts that were or would have become pending
    have later : ∀ {name : String} {e : Env} {L M : List (Happening R)},
        happenings s'.trace = L ++ M → StillPending name L e →
        (∀ now h, .ticked now h ∈ M → h.htype = .process → h.name = name → e.scheduledFor ≤ now →
          e ∈ op.initial A s) →
        e ∈ dispatchedIn (sinceReset s'.trace) ∨ (∃ name, e ∈ (s'.proc name).timeouts) ∨
          Discarded (happenings s'.trace) e := by
      intro name e L M hL hp ht
      by_cases hq : StillPending name (L ++ M) e
      · exact .inr (.inl ⟨name, (C29_pending_iff wf hs' name e).2 (hL ▸ hq)⟩)
      · obtain ⟨M1, x, M2, rfl, h2, h3⟩ := pending_lost (mem_pendingAfter.2 hp)
          (fun h => hq (mem_pendingAfter.1 h))
        rcases h3 with ⟨id, h3, h4, h5⟩ | ⟨now, h, rfl, h3, h4, h5⟩
        · refine .inr (.inr (.cancelled (L1 := L ++ M1) (y := x) (L2 := M2) (by rw [hL]; simp)
            (mem_pendingAfter.1 h2) h3 h4 h5))
        · exact .inl (hdisp (.inl (ht now h (by simp) h3 h4 h5)))
    intro e he
    rw [hsr, createdIn_append] at he
    rcases List.mem_append.1 he with he | he
    · -- announced in an earlier operation
      rcases ih e he with h2 | ⟨name, h2⟩ | h2
      · left; rw [hsr, dispatchedIn_append]; exact List.mem_append_left _ h2
      · refine later g.happens ((C29_pending_iff wf hs name e).1 h2) ?_
        intro now h hx hk hn hd
        subst hn
        exact ticked_initial wf hs op hop hne hr hi hx hk h2 hd
      · right; right; rw [g.happens]; exact h2.mono
    · -- announced in this operation
      rcases op_created wf hs op hop hne hr he with h2 | ⟨f, now, h, env, seg, err, hf, hfd, hx, hfs⟩
      · exact .inl (hdisp (.inl h2))
      · have hx' : .handled now h env seg err ∈ happenings s'.trace := by
          rw [g.happens]; exact List.mem_append_right _ hx
        have hnow : now = oo.now := g.times _ hx
        have hkind : f.kindOK := by
          have : .fact f ∈ s'.trace := by rw [g.trace]; exact List.mem_append_right _ hfd
          obtain ⟨a, b, hab⟩ := List.append_of_mem this
          exact (((core_reach wf hs').em a _ b hab).1 _ _ _ hf).2
        have emit : e ∈ emission h now seg err → e ∈ dispatchedIn (sinceReset s'.trace) :=
          fun h0 => hdisp (.inr ⟨_, hx, h0⟩)
        cases f <;> simp only [Fact.produced, reduceCtorEq, Option.some.injEq, Prod.mk.injEq] at hf <;>
          obtain ⟨rfl, rfl, rfl⟩ := hf
        case aggEvent id _ _ _ =>
          left; apply emit
          simp only [emission, hkind.1]
          exact List.mem_filterMap.2 ⟨_, hfs, rfl⟩
        case intEvent =>
          left; apply emit
          simp only [emission, hkind.1]
          exact List.mem_filterMap.2 ⟨_, hfs, rfl⟩
        case procCommand h id env e _ =>
          have hc : e ∈ commandsIn seg := List.mem_filterMap.2 ⟨_, hfs, rfl⟩
          cases err with
          | some er => exact .inr (.inr (.failed hx' hkind.1 (List.mem_append_left _ hc)))
          | none =>
            left; apply emit
            simp only [emission, hkind.1]
            exact List.mem_append_left _ hc
        case procTimeout h id env e _ =>
          have hc : e ∈ timeoutsIn seg := mem_timeoutsIn.2 ⟨_, _, _, hfs⟩
          cases err with
          | some er => exact .inr (.inr (.failed hx' hkind.1 (List.mem_append_right _ hc)))
          | none =>
            by_cases hen : endedAfter false seg = true
            · exact .inr (.inr (.ended hx' hkind.1 hen hc))
            · by_cases hd : e.scheduledFor ≤ now
              · left; apply emit
                simp only [emission, hkind.1]
                rw [if_neg hen]
                exact List.mem_append_right _ (List.mem_filter.2 ⟨hc, by simpa using hd⟩)
              · obtain ⟨M1, M2, hM⟩ := List.append_of_mem hx
                obtain ⟨id', hid', _⟩ := ((owned_refine A).reach wf hs').1 _ hx' hkind.1 e hc
                refine later (name := h.name) (L := happenings s.trace ++ M1 ++ [.handled now h env seg none])
                  (M := M2) (by rw [g.happens, hM]; simp) ?_ ?_
                · exact ⟨_, now, h, env, seg, id', [], rfl, hkind.1, rfl, hid',
                    by simpa using hen, hc, by omega, by simp, by simp⟩
                · intro now' h' hm _ _ hd'
                  have : now' = oo.now := g.times (.ticked now' h') (by rw [hM]; simp [hm])
                  omega

/-- The position of the handling in which a message was announced is determined. -/
theorem position_unique {α β : Type} (f : α → List β) {A1 B1 A2 B2 : List α} {x y : α} {b : β}
    (nd : ((A1 ++ x :: B1).flatMap f).Nodup) (h : A1 ++ x :: B1 = A2 ++ y :: B2) (hx : b ∈ f x)
    (hy : b ∈ f y) : A1 = A2 ∧ x = y ∧ B1 = B2 := by
  induction A1 generalizing A2 with
  | nil =>
    cases A2 with
    | nil => cases h; exact ⟨rfl, rfl, rfl⟩
    | cons z A2 =>
      cases h
      simp only [List.nil_append, List.flatMap_cons, List.nodup_append] at nd
      exact absurd rfl (nd.2.2 b hx b (by simp [hy]))
  | cons z A1 ih =>
    cases A2 with
    | nil =>
      cases h
      simp only [List.cons_append, List.flatMap_cons, List.flatMap_append, List.nodup_append] at nd
      exact absurd rfl (nd.2.2 b hy b (by simp [hx]))
    | cons z' A2 =>
      simp only [List.cons_append, List.cons.injEq] at h
      obtain ⟨rfl, h⟩ := h
      rw [List.cons_append, List.flatMap_cons, List.nodup_append] at nd
      obtain ⟨rfl, h2, h3⟩ := ih nd.2.1 h
      exact ⟨rfl, h2, h3⟩

/-- A timeout cancelled by the end of its instance is not pending. -/
theorem cancelled_not_pending {A : App W R} (wf : A.WF) {s : Sys W R} (hs : Reach A s) {e : Env}
    {name id : String} {L1 L2 : List (Happening R)} {y : Happening R}
    (hL : happenings s.trace = L1 ++ y :: L2) (hp : StillPending name L1 e) (hy : y.isProc name id)
    (hid : e.byInstance id = true) (hen : endedAfter false y.seg = true) (n : String) :
    e ∉ (s.proc n).timeouts := by
  intro h
  obtain ⟨A1, now, hh, env, seg, i, B1, rfl, _, hn, _, _, he, _⟩ := hp
  obtain ⟨A2, now2, hh2, env2, seg2, i2, B2, h2, _, hn2, _, _, he2, _, _, h3⟩ :=
    (C29_pending_iff wf hs n e).1 h
  have nd := created_nodup wf hs
  rw [hL] at h2 nd
  have e1 : A1 ++ Happening.handled now hh env seg none :: B1 ++ y :: L2 =
      A1 ++ Happening.handled now hh env seg none :: (B1 ++ y :: L2) := by simp
  rw [e1] at h2 nd
  obtain ⟨rfl, hx, rfl⟩ := position_unique (fun x : Happening R => createdIn x.seg) nd h2
    (timeout_created he) (timeout_created he2)
  cases hx
  subst hn
  subst hn2
  have := h3 y (by simp) id hy hid
  rw [hen] at this
  cases this

/-- A timeout cancelled by the end of its instance is never dispatched. -/
theorem cancelled_not_dispatched {A : App W R} (wf : A.WF) {s : Sys W R} (hs : Reach A s) {e : Env}
    {name id : String} {L1 L2 : List (Happening R)} {y : Happening R}
    (hL : happenings s.trace = L1 ++ y :: L2) (hp : StillPending name L1 e) (hy : y.isProc name id)
    (hid : e.byInstance id = true) (hen : endedAfter false y.seg = true) :
    e ∉ dispatchedIn (sinceReset s.trace) := by
  have hor : e.origin ≠ none := by
    intro h0; simp [Env.byInstance, h0] at hid
  induction hs generalizing L1 L2 with
  | init w => simp [Sys.init, happenings, scan] at hL
  | world w hs ih => exact ih hL hp
  | @step s op hs hop ih =>
    rcases hr : op.exec A s with ⟨s', out⟩
    have hs' : Reach A s' := by have := Reach.step op hs hop; rwa [hr] at this
    rw [hr] at hL
    have hL : happenings s'.trace = L1 ++ y :: L2 := hL
    show e ∉ dispatchedIn (sinceReset s'.trace)
    by_cases hne : op = .reset
    · subst hne
      have := (after_reset A s).1
      rw [show engReset A s = (s', out) from hr] at this
      rw [show happenings s'.trace = [] from this] at hL
      simp at hL
    rcases op_flat wf hs op hop hne hr with ⟨h1, _⟩ | ⟨oo, left, h1, g, tp⟩
    · obtain ⟨t, ht, _⟩ := op_order wf hs op hop hne
      rw [hr] at ht
      have ht : s'.trace = s.trace ++ t := ht
      have : t = [] := by
        rw [during, ht] at h1; simpa using h1
      subst this
      rw [List.append_nil] at ht
      rw [ht] at hL ⊢
      exact ih hL hp
    have hnr : ∀ o ∈ during s s', o ≠ .reset := by
      intro o ho e
      subst e
      exact g.partake _ ho
    have hsr : sinceReset s'.trace = sinceReset s.trace ++ during s s' := by
      conv => lhs; rw [g.trace]
      exact sinceReset_append _ _ hnr
    rw [hsr, dispatchedIn_append, List.mem_append]
    have hg := g.happens
    rw [hL] at hg
    have nd := created_nodup wf hs'
    have old : ∀ L2', happenings s.trace = L1 ++ y :: L2' →
        ¬ (e ∈ dispatchedIn (sinceReset s.trace) ∨ e ∈ dispatchedIn (during s s')) := by
      rintro L2' hL' (hd | hd)
      · exact ih hL' hp hd
      · have hpend := cancelled_not_pending wf hs hL' hp hy hid hen
        obtain ⟨A1, now, hh, env, seg, i, B1, rfl, _, _, _, _, he, _⟩ := hp
        have hi := old_initial wf hs op hop hne hr (x := .handled now hh env seg none)
          (by rw [hL']; simp) (timeout_created he) hd
        obtain ⟨n, hn⟩ := initial_pending hne hi hor
        exact hpend n hn
    have new : ∀ M1, L1 = happenings s.trace ++ M1 → happenedDuring s s' = M1 ++ y :: L2 →
        ¬ (e ∈ dispatchedIn (sinceReset s.trace) ∨ e ∈ dispatchedIn (during s s')) := by
      intro M1 hL1 hM
      obtain ⟨A1, now, hh, env, seg, i, B1, hA, hk, hn, hin, hnen, he, hlt, ht, hnoend⟩ := hp
      have hxin : Happening.handled now hh env seg none ∈ happenings s'.trace := by
        rw [hL, hA]; simp
      rw [hL1] at hA
      have inM : ∀ N, M1 = N ++ .handled now hh env seg none :: B1 →
          ¬ (e ∈ dispatchedIn (sinceReset s.trace) ∨ e ∈ dispatchedIn (during s s')) := by
        -- announced in this operation
        intro N hN2
        have hxM : Happening.handled now hh env seg none ∈ happenedDuring s s' := by
          rw [hM, hN2]; simp
        have fresh : ∀ z ∈ happenings s.trace, e ∉ createdIn z.seg := by
          intro z hz hez
          rw [g.happens, List.flatMap_append, List.nodup_append] at nd
          exact nd.2.2 e (List.mem_flatMap.2 ⟨z, hz, hez⟩) e
            (List.mem_flatMap.2 ⟨_, hxM, timeout_created he⟩) rfl
        have gone : ¬ (e ∈ dispatchedIn (sinceReset s.trace) ∨ e ∈ ([] : List Env) ∨
            ∃ n, e ∈ (s.proc n).timeouts) := by
          intro h0
          rcases (flow_reach wf hs).prov e h0 with h0 | ⟨z, hz, h0⟩
          · exact hor h0
          · exact fresh z hz (emits_created wf hs hz h0)
        rintro (hd | hd)
        · exact gone (.inl hd)
        · have : e ∈ op.initial A s ++ (happenedDuring s s').flatMap Happening.emits := by
            rw [← g.disp]; exact List.mem_append_left _ hd
          rcases List.mem_append.1 this with h0 | h0
          · exact gone (.inr (.inr (initial_pending hne h0 hor)))
          · obtain ⟨z, hz, h0⟩ := List.mem_flatMap.1 h0
            have hz' : z ∈ happenings s'.trace := by rw [g.happens]; exact List.mem_append_right _ hz
            have := flatMap_nodup_inj _ _ nd hxin hz' (timeout_created he)
              (emits_created wf hs' hz' (List.mem_append_left _ h0))
            subst this
            simp only [Happening.emits, emission, hk, hnen] at h0
            rcases List.mem_append.1 h0 with h0 | h0
            · exact cmd_tmo_disjoint (seg_nodup wf hs' hxin) h0 he
            · simp only [Bool.false_eq_true, if_false, List.mem_filter, decide_eq_true_eq] at h0
              omega
      have inL : ∀ B2, happenings s.trace = A1 ++ .handled now hh env seg none :: B2 → B1 = B2 ++ M1 →
          ¬ (e ∈ dispatchedIn (sinceReset s.trace) ∨ e ∈ dispatchedIn (during s s')) := by
        -- pending when this operation begins
        intro B2 hB hB1
        subst hB1
        have hpend : e ∈ (s.proc name).timeouts := (C29_pending_iff wf hs name e).2
          ⟨A1, now, hh, env, seg, i, B2, hB, hk, hn, hin, hnen, he, hlt,
            fun now' h' hm => ht now' h' (List.mem_append_left _ hm),
            fun z hz => hnoend z (List.mem_append_left _ hz)⟩
        rintro (hd | hd)
        · have := (flow_reach wf hs).nodup name
          rw [List.append_nil, List.nodup_append] at this
          exact this.2.2 e hd e hpend rfl
        · have hi := old_initial wf hs op hop hne hr (x := .handled now hh env seg none)
            (by rw [hB]; simp) (timeout_created he) hd
          have hyM : y ∈ happenedDuring s s' := by rw [hM]; simp
          cases op with
          | reset => exact hne rfl
          | dispatch n m os =>
            simp only [Op.initial, List.mem_singleton] at hi
            subst hi; exact hor rfl
          | tick n order os =>
            have h1 : newOpOpts A s os = .ok oo := h1
            have htime : Op.time A s (.tick n order os) = oo.now := (newOpOpts_now h1).symm
            obtain ⟨h, hm, hdue⟩ := List.mem_flatMap.1 hi
            obtain ⟨hdue, hle⟩ := List.mem_filter.1 hdue
            rw [htime] at hle
            obtain ⟨ho, hpart⟩ := List.mem_filter.1 hm
            rw [Bool.and_eq_true, takesPart_iff, ← newOpOpts_skip h1, decide_eq_true_eq] at hpart
            obtain ⟨_, _, o1, ho1, hn1⟩ := (core_reach wf hs).pend h.name e hdue
            obtain ⟨_, _, o2, ho2, hn2⟩ := (core_reach wf hs).pend name e hpend
            rw [ho1] at ho2
            cases ho2
            rcases tp n order os rfl with ⟨_, _, l, _, h2⟩ | ⟨L', h2, h3⟩
            · rw [h2] at hyM
              obtain ⟨_, _, rfl⟩ := List.mem_map.1 hyM
              exact hy
            · have hmem : Happening.ticked oo.now h ∈ M1 := by
                have hin : Happening.ticked oo.now h ∈
                    (order.filter (fun h => (skipHandler oo h).isNone)).map (Happening.ticked oo.now : _ → Happening R) :=
                  List.mem_map.2 ⟨h, List.mem_filter.2 ⟨ho, by rw [hpart.1]; rfl⟩, rfl⟩
                rw [hM] at h2
                rcases List.append_eq_append_iff.1 h2 with ⟨K, hK1, hK2⟩ | ⟨K, hK1, hK2⟩
                · cases K with
                  | nil => rw [List.append_nil] at hK1; rw [← hK1]; exact hin
                  | cons k K =>
                    cases hK2
                    have : y ∈ (order.filter (fun h => (skipHandler oo h).isNone)).map
                        (Happening.ticked oo.now : _ → Happening R) := by rw [hK1]; simp
                    obtain ⟨_, _, rfl⟩ := List.mem_map.1 this
                    exact hy.elim
                · rw [hK1]; exact List.mem_append_left _ hin
              have := ht oo.now h (List.mem_append_right _ hmem) hpart.2 (hn1.symm.trans hn2)
              simp only [decide_eq_true_eq] at hle
              omega
      rcases List.append_eq_append_iff.1 hA with ⟨N, hN1, hN2⟩ | ⟨N, hN1, hN2⟩
      · exact inM N hN2
      · cases N with
        | nil => exact inM [] hN2.symm
        | cons z N =>
          simp only [List.cons_append, List.cons.injEq] at hN2
          obtain ⟨rfl, h0⟩ := hN2
          exact inL N hN1 h0
    rcases List.append_eq_append_iff.1 hg with ⟨M, hM1, hM2⟩ | ⟨M, hM1, hM2⟩
    · cases M with
      | nil =>
        refine new [] (by simpa using hM1.symm) (by simpa using hM2.symm)
      | cons y' L2' =>
        simp only [List.cons_append, List.cons.injEq] at hM2
        obtain ⟨rfl, _⟩ := hM2
        exact old L2' hM1
    · exact new M hM1 hM2

/-- **C81.**  The three fates of a message exclude each other, in every history. -/
theorem C81_exclusive {A : App W R} (wf : A.WF) {s : Sys W R} (hs : Reach A s) (e : Env) :
    (e ∈ dispatchedIn (sinceReset s.trace) → ∀ name, e ∉ (s.proc name).timeouts) ∧
    (Discarded (happenings s.trace) e →
      e ∉ dispatchedIn (sinceReset s.trace) ∧ ∀ name, e ∉ (s.proc name).timeouts) := by
  refine ⟨?_, ?_⟩
  · intro hd name hp
    have := (flow_reach wf hs).nodup name
    rw [List.append_nil, List.nodup_append] at this
    exact this.2.2 e hd e hp rfl
  · intro h
    cases h with
    | failed hx hk he => exact C36_dropped wf hs hx hk he
    | ended hx hk hen he => exact C33_dropped wf hs hx hk hen he
    | cancelled hL hp hy hid hen =>
      exact ⟨cancelled_not_dispatched wf hs hL hp hy hid hen, cancelled_not_pending wf hs hL hp hy hid hen⟩

/-- All of these operations return without being interrupted. -/
def Demo.smooth {W R : Type} (A : App W R) : List Op → Sys W R → Bool
  | [], _ => true
  | op :: os, s =>
    (match (op.exec A s).2 with
      | .done errs => errs.all (fun e => match e with | .handler _ _ _ => true | _ => false)
      | _ => false) && Demo.smooth A os (op.exec A s).1

theorem Demo.smooth_run {W R : Type} {A : App W R} (l : List Op) (hl : ∀ op ∈ l, op.ok A) {s : Sys W R}
    (hs : Smoothly A s) (h : Demo.smooth A l s = true) : Smoothly A (Demo.runOps A l s) := by
  induction l generalizing s with
  | nil => exact hs
  | cons op l ih =>
    simp only [Demo.smooth, Bool.and_eq_true] at h
    refine ih (fun o ho => hl o (by simp [ho])) ?_ h.2
    rcases hr : op.exec A s with ⟨s', errs | v | _⟩ <;> rw [hr] at h <;> simp only at h
    · refine .step op hs (hl op (by simp)) hr ?_
      have := List.all_eq_true.1 h.1
      rintro (⟨c, hc⟩ | ⟨c, hc⟩) <;> exact absurd (this _ hc) (by simp)
    · exact absurd h.1 (by simp)
    · exact absurd h.1 (by simp)

/-- The demo `undoing` after "x", "stop" and "z", each of which returned. -/
def Demo.stopped : Sys Nat (List String) :=
  Demo.runOps Demo.undoing [.dispatch 20 (Demo.msgC "x") [], .dispatch 20 (Demo.msgC "stop") [],
    .dispatch 20 (Demo.msgC "z") []] (Sys.init 0)

set_option maxRecDepth 100000 in
theorem Demo.stopped_smooth : Smoothly Demo.undoing Demo.stopped :=
  Demo.smooth_run _ (by intro op ho; simp at ho; rcases ho with rfl | rfl | rfl <;> trivial) (.init 0)
    (by decide +kernel)

set_option maxRecDepth 100000 in
/-- Of the twelve messages announced in the demo eight were dispatched, one is pending; of the other
three, two were discarded by the handling that scheduled them and one was cancelled by it. -/
example : Smoothly Demo.undoing Demo.stopped ∧ (createdIn (sinceReset Demo.stopped.trace)).length = 12 ∧
    (dispatchedIn (sinceReset Demo.stopped.trace)).length = 8 ∧
    (Demo.stopped.proc "proc").timeouts.length = 1 ∧
    ((createdIn (sinceReset Demo.stopped.trace)).filter (fun e =>
      !(dispatchedIn (sinceReset Demo.stopped.trace)).contains e &&
      !(Demo.stopped.proc "proc").timeouts.contains e)).map (fun e => e.msg.body) =
        ["x", "never", "never"] :=
  ⟨Demo.stopped_smooth, by decide +kernel, by decide +kernel, by decide +kernel, by decide +kernel⟩

/-- The demo after "x" and a tick with a cancelled context that has already taken the timeout out of the
process handler. -/
def Demo.forgotten : Sys Nat (List String) :=
  ((Op.tick 20 [Demo.proc, Demo.agg, Demo.int, Demo.prj] [.currentTime 10]).exec Demo.app
    { Demo.runOps Demo.app [.dispatch 20 (Demo.msgC "x") []] (Sys.init 0) with w := 1 }).1

theorem Demo.forgotten_reach : Reach Demo.app Demo.forgotten := by
  refine .step _ (.world 1 (Demo.runOps_reach _ ?_ (.init 0))) ?_
  · intro op ho; simp at ho; subst ho; trivial
  · exact List.Perm.swap Demo.agg Demo.proc _

/-- Nothing that happened discards messages. -/
def Happening.harmless : Happening R → Bool
  | .handled _ _ _ seg err => err.isNone && !endedAfter false seg
  | .ticked _ _ => true

theorem harmless_keeps {L : List (Happening R)} (h : L.all Happening.harmless = true) (e : Env) :
    ¬ Discarded L e := by
  have h := List.all_eq_true.1 h
  intro hd
  cases hd with
  | failed hx _ _ => have := h _ hx; simp [Happening.harmless] at this
  | ended hx _ hen _ => have := h _ hx; simp [Happening.harmless, hen] at this
  | @cancelled _ _ _ _ y hL _ hy _ hen =>
    have := h y (by rw [hL]; simp)
    cases y with
    | ticked _ _ => exact hy
    | handled _ _ _ seg err => simp only [Happening.seg] at hen; simp [Happening.harmless, hen] at this

set_option maxRecDepth 100000 in
/-- **C81** is false of interrupted operations: a tick whose context is cancelled forgets the timeouts it
has already taken out of the process handlers. -/
theorem C81_interrupted : Reach Demo.app Demo.forgotten ∧
    ∃ e ∈ createdIn (sinceReset Demo.forgotten.trace), e ∉ dispatchedIn (sinceReset Demo.forgotten.trace) ∧
      (∀ name, e ∉ (Demo.forgotten.proc name).timeouts) ∧
      ¬ Discarded (happenings Demo.forgotten.trace) e := by
  refine ⟨Demo.forgotten_reach, ?_⟩
  have key : (createdIn (sinceReset Demo.forgotten.trace)).any (fun e =>
      !(dispatchedIn (sinceReset Demo.forgotten.trace)).contains e &&
      (match e.origin with
        | some o => decide (o.handler.name = "proc")
        | none => false) &&
      !(Demo.forgotten.proc "proc").timeouts.contains e) = true := by decide +kernel
  obtain ⟨e, he, h⟩ := List.any_eq_true.1 key
  simp only [Bool.and_eq_true, Bool.not_eq_true', List.contains_eq_mem, decide_eq_false_iff_not] at h
  refine ⟨e, he, h.1.1, ?_, harmless_keeps (by decide +kernel) e⟩
  intro name hp
  obtain ⟨_, _, o, ho, hn⟩ := (core_reach Demo.app_wf Demo.forgotten_reach).pend name e hp
  have h2 := h.1.2
  rw [ho] at h2
  simp only [decide_eq_true_eq] at h2
  rw [h2] at hn
  subst hn
  exact h.2 hp

end Verif
