import Verif.Flow
import Verif.Props.Emit

/-!
# The flow of messages: C06, C32–C34, C36, C75

See `Verif.Props.Dispatch` for `during` and `happenedDuring`.
-/

namespace Verif

variable {W R : Type}

/-! ## C06 -/

/-- **C06.** When the dispatch of a message begins, no message with the same ID was dispatched since
the last reset: in no earlier operation and not earlier in the same one, however they ended. -/
theorem C06_once {A : App W R} (wf : A.WF) {s : Sys W R} (hs : Reach A s) :
    Always (fun pre o => ∀ e, o = .fact (.dispatchBegun e) →
      ∀ e' ∈ dispatchedIn (sinceReset pre), e'.id ≠ e.id) s.trace := by
  intro pre o post ht e ho e' he' hid
  subst ho
  have := (flow_reach wf hs).obs pre _ post ht e (by simp [dispatchedIn])
  exact this.1 (List.mem_map.2 ⟨e', he', hid⟩)

/-- **C06.** The IDs of the messages dispatched since the last reset are all different. -/
theorem C06_distinct {A : App W R} (wf : A.WF) {s : Sys W R} (hs : Reach A s) :
    ((dispatchedIn (sinceReset s.trace)).map Env.id).Nodup := by
  have h := flow_reach wf hs
  have nd := h.nodup ""
  rw [List.append_assoc, List.nodup_append] at nd
  rw [List.nodup_iff_pairwise_ne, List.pairwise_map]
  refine (List.nodup_iff_pairwise_ne.1 nd.1).imp_of_mem ?_
  intro a b ha hb hne hid
  exact hne ((core_reach wf hs).toCore0.id_inj (h.sub a ha) (h.sub b hb) hid)

set_option maxRecDepth 100000 in
/-- In the demo twelve messages are dispatched. -/
example : Reach Demo.app Demo.final ∧ (dispatchedIn (sinceReset Demo.final.trace)).length = 12 :=
  ⟨Demo.final_reach, by decide +kernel⟩

/-! ## C75 -/

theorem inc_nodup (t : List (Obs R)) (h : Always (fun pre o => ∀ e, o.created = some e → 1 ≤ e.id ∧
    ∀ e' ∈ createdIn (sinceReset pre), e'.id < e.id) t) : (createdIn (sinceReset t)).Nodup := by
  induction t using List.reverseRecOn' with
  | nil => exact List.nodup_nil
  | append_singleton t o ih =>
    rw [always_snoc] at h
    by_cases hr : o = .reset
    · subst hr; rw [sinceReset_reset]; exact List.nodup_nil
    · rw [sinceReset_snoc _ _ hr, createdIn_append, List.nodup_append]
      refine ⟨ih h.1, ?_, ?_⟩
      · unfold createdIn; simp only [List.filterMap_cons, List.filterMap_nil]; split <;> simp
      · intro a ha b hb hab
        subst hab
        obtain ⟨o', ho', hb⟩ := List.mem_filterMap.1 hb
        rw [List.mem_singleton.1 ho'] at hb
        have := (h.2 a hb).2 a ha
        omega

/-- **C75.** A message produced by a handler is dispatched only after the handling in which it was
announced has completed, and only if that handling handed it to the engine or left it pending. -/
theorem C75_provenance {A : App W R} (wf : A.WF) {s : Sys W R} (hs : Reach A s) :
    Always (fun pre o => ∀ e, o = .fact (.dispatchBegun e) → e.origin ≠ none →
      ∃ x ∈ happenings pre, e ∈ createdIn x.seg ∧ (e ∈ x.emits ∨ e ∈ x.keeps)) s.trace := by
  intro pre o post ht e ho hor
  subst ho
  rcases ((flow_reach wf hs).obs pre _ post ht e (by simp [dispatchedIn])).2 with h | ⟨x, hx, he⟩
  · exact absurd h hor
  · refine ⟨x, hx, ?_, List.mem_append.1 he⟩
    have hinc := (core_reach wf hs).inc
    rw [ht, always_append] at hinc
    have nd := inc_nodup pre hinc.1
    cases x with
    | ticked n h => cases he
    | handled now h env seg err =>
      refine (emits_keeps ?_).2 e he
      have := (nd.sublist (created_happenings pre)).sublist (List.sublist_append_left _ _)
      obtain ⟨L1, L2, hL⟩ := List.append_of_mem hx
      rw [hL, List.flatMap_append, List.flatMap_cons] at this
      exact (List.nodup_append.1 (List.nodup_append.1 this).2.1).1

/-- **C75.** A message announced in a completed handling is dispatched or left pending only if that
handling handed it to the engine or left it pending. -/
theorem C75_dropped {A : App W R} (wf : A.WF) {s : Sys W R} (hs : Reach A s) {x : Happening R}
    (hx : x ∈ happenings s.trace) {f : Fact} (hf : .fact f ∈ x.seg) {h : HConfig} {env e : Env}
    (he : f.produced = some (h, env, e)) (h1 : e ∉ x.emits) (h2 : e ∉ x.keeps) :
    e ∉ dispatchedIn (sinceReset s.trace) ∧ ∀ n, e ∉ (s.proc n).timeouts := by
  have hor := created_origin wf hs hx hf he
  have hcr : e ∈ createdIn x.seg := by
    refine List.mem_filterMap.2 ⟨_, hf, ?_⟩
    cases f <;> first | (cases he; rfl) | cases he
  have key : (e ∈ dispatchedIn (sinceReset s.trace) ∨ e ∈ ([] : List Env) ∨
      ∃ n, e ∈ (s.proc n).timeouts) → False := by
    intro h0
    rcases (flow_reach wf hs).prov e h0 with h0 | ⟨y, hy, h0⟩
    · exact hor h0
    · have := flatMap_nodup_inj _ _ (created_nodup wf hs) hx hy hcr (emits_created wf hs hy h0)
      subst this
      rcases List.mem_append.1 h0 with h0 | h0
      · exact h1 h0
      · exact h2 h0
  exact ⟨fun h => key (.inl h), fun n h => key (.inr (.inr ⟨n, h⟩))⟩

/-! ## C33 -/

theorem cmd_tmo_disjoint {seg : List (Obs R)} (nd : (createdIn seg).Nodup) {e : Env}
    (h1 : e ∈ commandsIn seg) (h2 : e ∈ timeoutsIn seg) : False := by
  obtain ⟨rest, hp⟩ := cmd_tmo_perm seg
  have := (List.nodup_append.1 (hp.nodup_iff.2 nd)).1
  exact (List.nodup_append.1 this).2.2 e h1 e h2 rfl

/-- **C33** (second part). A timeout scheduled in a handling that leaves the instance ended is neither
dispatched nor kept. -/
theorem C33_dropped {A : App W R} (wf : A.WF) {s : Sys W R} (hs : Reach A s)
    {now : Time} {h : HConfig} {env : Env} {seg : List (Obs R)}
    (hx : .handled now h env seg none ∈ happenings s.trace) (hk : h.htype = .process)
    (hen : endedAfter false seg = true) {e : Env} (he : e ∈ timeoutsIn seg) :
    e ∉ dispatchedIn (sinceReset s.trace) ∧ ∀ n, e ∉ (s.proc n).timeouts := by
  obtain ⟨h', id, env', hm⟩ := mem_timeoutsIn.1 he
  refine C75_dropped wf hs hx (f := .procTimeout h' id env' e) hm rfl ?_ ?_
  · simp only [Happening.emits, emission, hk, hen, if_true, List.append_nil]
    exact fun hc => cmd_tmo_disjoint (seg_nodup wf hs hx) hc he
  · simp [Happening.keeps, hen]

set_option maxRecDepth 100000 in
/-- In the demo `undoing` the event "stop" schedules two timeouts, one of which is already due, and
ends the instance. -/
example : (happenings (Demo.runOps Demo.undoing [.dispatch 20 (Demo.msgC "stop") []] (Sys.init 0)).trace).any
    (fun x => match x with
      | .handled _ h _ seg none => h.htype = .process ∧ endedAfter false seg ∧ (timeoutsIn seg).length = 2
      | _ => false) = true := by decide +kernel

/-! ## C36 -/

/-- **C36.** Nothing a failing process handling produced is dispatched or kept. -/
theorem C36_dropped {A : App W R} (wf : A.WF) {s : Sys W R} (hs : Reach A s)
    {now : Time} {h : HConfig} {env : Env} {seg : List (Obs R)} {err : Err}
    (hx : .handled now h env seg (some err) ∈ happenings s.trace) (hk : h.htype = .process)
    {e : Env} (he : e ∈ commandsIn seg ++ timeoutsIn seg) :
    e ∉ dispatchedIn (sinceReset s.trace) ∧ ∀ n, e ∉ (s.proc n).timeouts := by
  have : ∃ f : Fact, .fact f ∈ seg ∧ ∃ h' env', f.produced = some (h', env', e) := by
    rcases List.mem_append.1 he with he | he
    · unfold commandsIn at he
      obtain ⟨o, ho, h1⟩ := List.mem_filterMap.1 he
      split at h1
      · cases h1; exact ⟨_, ho, _, _, rfl⟩
      · cases h1
    · obtain ⟨h', id, env', hm⟩ := mem_timeoutsIn.1 he
      exact ⟨_, hm, _, _, rfl⟩
  obtain ⟨f, hm, h', env', hf⟩ := this
  refine C75_dropped wf hs hx hm hf ?_ ?_
  · simp [Happening.emits, emission, hk]
  · simp [Happening.keeps]

/-- **C36.** A failing process handling, started in any state, hands nothing to the engine, and leaves
the set of instances and the pending timeouts of every handler as they were. -/
theorem C36_state {A : App W R} {h : HConfig} {now : Time} {env : Env} {s s' : Sys W R}
    {envs : List Env} {err : Err} (hk : h.htype = .process)
    (hr : ctlHandle A h now env s = (s', .ok (envs, some err))) :
    envs = [] ∧ ∀ n, (s'.proc n).timeouts = (s.proc n).timeouts ∧
      ∀ id, ((s'.proc n).inst id).isSome = ((s.proc n).inst id).isSome := by
  obtain ⟨seg, h1, h2, h3, h4, h5, h6, h7, h8⟩ := ctlHandle_sum A h now env s
  rw [hr] at h5
  have g := h5 hk
  obtain ⟨k1, k2⟩ := g.ok envs (some err) rfl
  refine ⟨k1, ?_⟩
  intro n
  by_cases hn : n = h.name
  · subst hn
    unfold ProcCommit at k2
    split at k2
    · simp only at k2; rw [k2]; exact ⟨rfl, fun _ => rfl⟩
    · simp only at k2
      rename_i id' _
      refine ⟨k2.2.1, ?_⟩
      intro id
      by_cases hid : id = id'
      · subst hid; exact k2.2.2
      · rw [k2.1 id hid]
  · have := g.other n hn
    simp only at this
    rw [this]; exact ⟨rfl, fun _ => rfl⟩

/-- An application whose process executes a command, schedules timeouts, ends and then fails. -/
def Demo.erring : App Nat (List String) :=
  { Demo.app with
    uc := { Demo.uc with
      procHandle := fun _ _ _ m _ =>
        if m.body = "bad" then Demo.ops (some "process failed") [.execute ⟨Demo.cmdD, "d", none⟩,
          .schedule ⟨Demo.tmoT, "t", none⟩ 0, .schedule ⟨Demo.tmoT, "t", none⟩ 9, .end_]
        else Demo.ops none [.schedule ⟨Demo.tmoT, m.body, none⟩ 10] } }

theorem Demo.erring_wf : Demo.erring.WF := ⟨Demo.app_wf.names, Demo.app_wf.handlers⟩

set_option maxRecDepth 100000 in
/-- In the demo `erring` the instance begun by "x" survives "bad". -/
example :
    let s := Demo.runOps Demo.erring [.dispatch 20 (Demo.msgC "x") [], .dispatch 20 (Demo.msgC "bad") []] (Sys.init 0)
    (happenings s.trace).any (fun x => match x with
      | .handled _ h _ seg (some _) => h.htype = .process ∧ (commandsIn seg ++ timeoutsIn seg).length = 3
      | _ => false) = true ∧
    (s.proc "proc").timeouts.length = 1 ∧ ((s.proc "proc").inst "p").isSome := by decide +kernel

/-! ## C34 -/

/-- What was announced in earlier handlings is not emitted by later ones. -/
theorem old_not_emitted {A : App W R} (wf : A.WF) {s' : Sys W R} (hs : Reach A s')
    {L L' : List (Happening R)} (hL : happenings s'.trace = L ++ L') {x y : Happening R} (hx : x ∈ L)
    (hy : y ∈ L') {e : Env} (he : e ∈ createdIn x.seg) : e ∉ y.emits := by
  intro h
  have nd := created_nodup wf hs
  have h1 := emits_created wf hs (hL ▸ List.mem_append_right _ hy) (List.mem_append_left y.keeps h)
  rw [hL, List.flatMap_append, List.nodup_append] at nd
  exact nd.2.2 e (List.mem_flatMap.2 ⟨x, hx, he⟩) e (List.mem_flatMap.2 ⟨y, hy, h1⟩) rfl

theorem timeout_created {seg : List (Obs R)} {e : Env} (he : e ∈ timeoutsIn seg) : e ∈ createdIn seg := by
  obtain ⟨h, id, env, hm⟩ := mem_timeoutsIn.1 he
  exact List.mem_filterMap.2 ⟨_, hm, rfl⟩

/-- A message announced in an earlier operation is dispatched only if the operation starts with it. -/
theorem old_initial {A : App W R} (wf : A.WF) {s : Sys W R} (hs : Reach A s) (op : Op)
    (hop : op.ok A) (hne : op ≠ .reset) {s' : Sys W R} {out : Outcome (List EngErr)}
    (hr : op.exec A s = (s', out)) {x : Happening R} (hx : x ∈ happenings s.trace) {e : Env}
    (he : e ∈ createdIn x.seg) (hd : e ∈ dispatchedIn (during s s')) : e ∈ op.initial A s := by
  have hs' : Reach A s' := by have := Reach.step op hs hop; rwa [hr] at this
  rcases op_flat wf hs op hop hne hr with ⟨h1, _⟩ | ⟨oo, left, _, g, _⟩
  · rw [h1] at hd; cases hd
  · have : e ∈ op.initial A s ++ (happenedDuring s s').flatMap Happening.emits := by
      rw [← g.disp]; exact List.mem_append_left _ hd
    rcases List.mem_append.1 this with h | h
    · exact h
    · obtain ⟨y, hy, h⟩ := List.mem_flatMap.1 h
      exact absurd h (old_not_emitted wf hs' g.happens hx hy he)

/-- The initial messages of a tick are pending timeouts. -/
theorem initial_pending {A : App W R} {s : Sys W R} {op : Op} (hne : op ≠ .reset) {e : Env}
    (he : e ∈ op.initial A s) (ho : e.origin ≠ none) : ∃ n, e ∈ (s.proc n).timeouts := by
  cases op with
  | reset => exact absurd rfl hne
  | dispatch n m os =>
    simp only [Op.initial, List.mem_singleton] at he
    subst he; exact absurd rfl ho
  | tick n order os =>
    obtain ⟨h, _, he⟩ := List.mem_flatMap.1 he
    exact ⟨h.name, (List.mem_filter.1 he).1⟩

/-- **C34** (the part that is true). If a timeout was scheduled by a process instance, and the instance
was since left ended, then no later operation dispatches the timeout.  (What is missing: within the
operation that ends the instance, a timeout that is already queued may still be delivered, see
`C34_fails`.) -/
theorem C34_partial {A : App W R} (wf : A.WF) {s : Sys W R} (hs : Reach A s) {name id : String}
    {L1 L2 L3 : List (Happening R)} {x y : Happening R}
    (hL : happenings s.trace = L1 ++ x :: (L2 ++ y :: L3))
    {e : Env} (he : e ∈ timeoutsIn x.seg)
    {o : Origin} (ho : e.origin = some o) (hn : o.handler.name = name) (hid : o.instanceID = id)
    (hy : y.isProc name id) (hen : endedAfter false y.seg = true)
    (op : Op) (hop : op.ok A) (hne : op ≠ .reset) {s' : Sys W R} {out : Outcome (List EngErr)}
    (hr : op.exec A s = (s', out)) : e ∉ dispatchedIn (during s s') := by
  intro hd
  have hx : x ∈ happenings s.trace := by rw [hL]; simp
  have hi := old_initial wf hs op hop hne hr hx (timeout_created he) hd
  obtain ⟨n, hp⟩ := initial_pending hne hi (by rw [ho]; exact nofun)
  obtain ⟨_, _, o', ho', hon⟩ := (core_reach wf hs).pend n e hp
  rw [ho] at ho'; cases ho'
  rw [hn] at hon; subst hon
  rw [C29_pending_iff wf hs] at hp
  obtain ⟨M1, now, h, env, seg, id', M2, hM, _, _, _, _, k1, _, _, k2⟩ := hp
  -- the handling that scheduled the timeout is `x`
  have hxe : .handled now h env seg none = x :=
    flatMap_nodup_inj _ _ (created_nodup wf hs) (by rw [hM]; simp) hx
      (show e ∈ createdIn seg from timeout_created k1) (timeout_created he)
  -- so `y` came after it
  have hy2 : y ∈ M2 := by
    have nd := created_nodup wf hs
    have hcx := timeout_created he
    have : M1 = L1 := by
      rw [hL] at hM
      rw [hL] at nd
      clear hL
      induction L1 generalizing M1 with
      | nil =>
        cases M1 with
        | nil => rfl
        | cons a M1 =>
          simp only [List.nil_append, List.cons_append, List.cons.injEq] at hM
          simp only [List.nil_append, List.flatMap_cons, List.nodup_append] at nd
          exact absurd rfl (nd.2.2 e hcx e (List.mem_flatMap.2 ⟨x, by rw [hM.2, hxe]; simp, hcx⟩))
      | cons a L1 ih =>
        cases M1 with
        | nil =>
          simp only [List.nil_append, List.cons_append, List.cons.injEq] at hM
          simp only [List.cons_append, List.flatMap_cons, List.nodup_append] at nd
          have ha : a = x := hM.1.trans hxe
          exact absurd rfl (nd.2.2 e (by rw [ha]; exact hcx) e (List.mem_flatMap.2 ⟨x, by simp, hcx⟩))
        | cons b M1 =>
          simp only [List.cons_append, List.cons.injEq] at hM
          simp only [List.cons_append, List.flatMap_cons] at nd
          rw [hM.1, ih _ hM.2 (List.nodup_append.1 nd).2.1]
    subst this
    rw [hL] at hM
    have := (List.append_cancel_left hM)
    simp only [List.cons.injEq] at this
    rw [← this.2]; simp
  have := k2 y hy2 id hy (by simp [Env.byInstance, ho, hid])
  rw [hen] at this; cases this

/-- An application in which a command makes the aggregate record three events: the first makes the
process schedule a timeout that is due at once, the second ends the process, the third begins it
again. -/
def Demo.reborn : App Nat (List String) :=
  { Demo.app with
    uc := { Demo.uc with
      aggHandle := fun _ _ _ _ => Demo.ops () [.record ⟨Demo.evtE, "one", none⟩,
        .record ⟨Demo.evtE, "two", none⟩, .record ⟨Demo.evtE, "three", none⟩]
      procHandle := fun _ _ _ m _ =>
        if m.body = "one" then Demo.ops none [.schedule ⟨Demo.tmoT, "t", none⟩ 0]
        else if m.body = "two" then Demo.ops none [.end_]
        else Demo.ops none [] } }

theorem Demo.reborn_wf : Demo.reborn.WF := ⟨Demo.app_wf.names, Demo.app_wf.handlers⟩

def Demo.rebornS : Sys Nat (List String) :=
  Demo.runOps Demo.reborn [.dispatch 20 (Demo.msgC "x") []] (Sys.init 0)

theorem Demo.rebornS_reach : Reach Demo.reborn Demo.rebornS :=
  Demo.runOps_reach _ (by intro op h; rw [List.mem_singleton.1 h]; trivial) (.init 0)

/-- Scheduled, ended, handled: the full claim of C34 is that this never happens. -/
def DeliveredToOther (name id : String) (L : List (Happening R)) : Prop :=
  ∃ (L1 L2 L3 L4 : List (Happening R)) (x y z : Happening R) (now : Time) (h : HConfig) (e : Env)
    (seg : List (Obs R)) (err : Option Err),
    L = L1 ++ x :: (L2 ++ y :: (L3 ++ z :: L4)) ∧ e ∈ timeoutsIn x.seg ∧
    (∃ o, e.origin = some o ∧ o.handler.name = name ∧ o.instanceID = id) ∧
    y.isProc name id ∧ endedAfter false y.seg = true ∧
    z = .handled now h e seg err ∧ procInstIn seg = some id

/-- Select three elements of a list in order. -/
def pick {α : Type} (p q r : α → Bool) (l : List α) : Bool :=
  match l.dropWhile (fun a => !p a) with
  | [] => false
  | _ :: l => match l.dropWhile (fun a => !q a) with
    | [] => false
    | _ :: l => l.any r

theorem pick_spec {α : Type} {p q r : α → Bool} {l : List α} (h : pick p q r l = true) :
    ∃ L1 L2 L3 L4 x y z, l = L1 ++ x :: (L2 ++ y :: (L3 ++ z :: L4)) ∧ p x ∧ q y ∧ r z := by
  unfold pick at h
  split at h
  · cases h
  · rename_i x l1 h1
    split at h
    · cases h
    · rename_i y l2 h2
      obtain ⟨z, hz, hr⟩ := List.any_eq_true.1 h
      obtain ⟨L3, L4, h3⟩ := List.append_of_mem hz
      have hp : ∀ {p : α → Bool} {l m : List α} {x : α}, l.dropWhile (fun a => !p a) = x :: m →
          p x = true := by
        intro p l m x hh
        have := List.head?_dropWhile_not (fun a => !p a) l
        rw [hh] at this
        simpa using this
      refine ⟨l.takeWhile (fun a => !p a), l1.takeWhile (fun a => !q a), L3, L4, x, y, z, ?_, hp h1, hp h2, hr⟩
      rw [← h3, ← h2, List.takeWhile_append_dropWhile, ← h1, List.takeWhile_append_dropWhile]

set_option maxRecDepth 100000 in
/-- **C34 is false.** A single `Dispatch()` delivers a timeout of an incarnation that has ended to the
next incarnation. -/
theorem C34_fails : Reach Demo.reborn Demo.rebornS ∧
    DeliveredToOther "proc" "p" (happenings Demo.rebornS.trace) := by
  refine ⟨Demo.rebornS_reach, ?_⟩
  have key : (happenings Demo.rebornS.trace).any (fun x => (timeoutsIn x.seg).any (fun e =>
      (match e.origin with | some o => o.handler.name = "proc" ∧ o.instanceID = "p" | none => false) &&
      pick (fun x => (timeoutsIn x.seg).contains e)
        (fun y => decide (y.isProc "proc" "p") && endedAfter false y.seg)
        (fun z => match z with
          | .handled _ _ e' seg _ => decide (e' = e) && decide (procInstIn seg = some "p")
          | _ => false) (happenings Demo.rebornS.trace))) = true := by decide +kernel
  obtain ⟨_, _, h⟩ := List.any_eq_true.1 key
  obtain ⟨e, _, h⟩ := List.any_eq_true.1 h
  rw [Bool.and_eq_true] at h
  obtain ⟨ho, h⟩ := h
  obtain ⟨L1, L2, L3, L4, x, y, z, hL, hx, hy, hz⟩ := pick_spec h
  rw [Bool.and_eq_true, decide_eq_true_eq] at hy
  cases z with
  | ticked _ _ => cases hz
  | handled now h e' seg err =>
    simp only [Bool.and_eq_true, decide_eq_true_eq] at hz
    refine ⟨L1, L2, L3, L4, x, y, _, now, h, e', seg, err, hL, ?_, ?_, hy.1, hy.2, rfl, hz.2⟩
    · rw [hz.1]; simpa using hx
    · rw [hz.1]
      split at ho
      · rename_i o ho'
        exact ⟨o, ho', by simpa using ho⟩
      · cases ho

/-! ## C32 -/

/-- **C32.** The timeouts of one process handler that were pending when a tick began are dispatched by
the tick in order of the time they are scheduled for. -/
theorem C32_chronological {A : App W R} (wf : A.WF) {s : Sys W R} (hs : Reach A s) (n : Nat)
    (order : List HConfig) (os : List OpOption) (hop : (Op.tick n order os).ok A) {s' : Sys W R}
    {out : Outcome (List EngErr)} (hr : (Op.tick n order os).exec A s = (s', out)) (name : String) :
    ((dispatchedIn (during s s')).filter (fun e => decide (e ∈ (s.proc name).timeouts))).Pairwise
      (fun a b => a.scheduledFor ≤ b.scheduledFor) := by
  have hs' : Reach A s' := by have := Reach.step _ hs hop; rwa [hr] at this
  have hpre := C05_prefix wf hs (.tick n order os) hop nofun hr
  rcases op_flat wf hs _ hop nofun hr with ⟨h1, _⟩ | ⟨oo, left, _, g, _⟩
  · rw [h1]; exact List.Pairwise.nil
  · have hnew : ((happenedDuring s s').flatMap Happening.emits).filter
        (fun e => decide (e ∈ (s.proc name).timeouts)) = [] := by
      rw [List.filter_eq_nil_iff]
      intro e he hp
      simp only [decide_eq_true_eq] at hp
      obtain ⟨y, hy, he⟩ := List.mem_flatMap.1 he
      rw [C29_pending_iff wf hs] at hp
      obtain ⟨M1, now, h, env, seg, id', M2, hM, _, _, _, _, k1, _⟩ := hp
      exact old_not_emitted wf hs' g.happens (x := .handled now h env seg none) (by rw [hM]; simp) hy
        (timeout_created k1) he
    have hsub : ((dispatchedIn (during s s')).filter
        (fun e => decide (e ∈ (s.proc name).timeouts))).Sublist
        (((Op.tick n order os).initial A s).filter (fun e => decide (e ∈ (s.proc name).timeouts))) := by
      have := hpre.sublist.filter (fun e => decide (e ∈ (s.proc name).timeouts))
      rwa [List.filter_append, hnew, List.append_nil] at this
    refine List.Pairwise.sublist hsub ?_
    have hsorted := (((proc_refine A).reach wf hs).1 name).sorted
    have hnames : (order.map HConfig.name).Nodup :=
      ((show order.Perm A.cfgs from hop).map HConfig.name).nodup_iff.2 wf.names
    have hblock : ∀ (l : List HConfig), (l.map HConfig.name).Nodup →
        ((l.flatMap (dueTimeouts s ((Op.tick n order os).time A s))).filter
          (fun e => decide (e ∈ (s.proc name).timeouts))).Pairwise
          (fun a b => a.scheduledFor ≤ b.scheduledFor) := by
      have hother : ∀ h : HConfig, h.name ≠ name → (dueTimeouts s ((Op.tick n order os).time A s) h).filter
          (fun e => decide (e ∈ (s.proc name).timeouts)) = [] := by
        intro h hh
        rw [List.filter_eq_nil_iff]
        intro e he hp
        simp only [decide_eq_true_eq] at hp
        obtain ⟨_, _, o, ho, hon⟩ := (core_reach wf hs).pend name e hp
        obtain ⟨_, _, o', ho', hon'⟩ := (core_reach wf hs).pend h.name e (List.mem_filter.1 he).1
        rw [ho] at ho'; cases ho'
        exact hh (hon'.symm.trans hon)
      intro l
      induction l with
      | nil => intro _; exact List.Pairwise.nil
      | cons h l ih =>
        intro hnd
        rw [List.map_cons, List.nodup_cons] at hnd
        rw [List.flatMap_cons, List.filter_append]
        by_cases hh : h.name = name
        · have : ((l.flatMap (dueTimeouts s ((Op.tick n order os).time A s))).filter
              (fun e => decide (e ∈ (s.proc name).timeouts))) = [] := by
            rw [List.filter_flatMap]
            rw [List.flatMap_eq_nil_iff]
            intro h' hm
            refine hother h' ?_
            intro hc
            exact hnd.1 (List.mem_map.2 ⟨h', hm, hc.trans hh.symm⟩)
          rw [this, List.append_nil]
          refine List.Pairwise.sublist List.filter_sublist ?_
          unfold dueTimeouts
          rw [hh]
          exact List.Pairwise.sublist List.filter_sublist hsorted
        · rw [hother h hh, List.nil_append]; exact ih hnd.2
    exact hblock _ (hnames.sublist (List.filter_sublist.map _))

set_option maxRecDepth 100000 in
/-- A tick that delivers a timeout scheduled for 5 before an earlier scheduled one for 10. -/
example :
    let A := { Demo.app with uc := { Demo.uc with
      procHandle := fun _ _ _ m _ => match m.type.kind with
        | .timeout => Demo.ops none []
        | _ => Demo.ops none [.schedule ⟨Demo.tmoT, "late", none⟩ 10,
            .schedule ⟨Demo.tmoT, "early", none⟩ 5] } }
    let s := Demo.runOps A [.dispatch 20 (Demo.msgC "x") []] (Sys.init 0)
    ((dispatchedIn (during s (Demo.tick10.exec A s).1)).map (fun e => e.msg.body)) = ["early", "late"] := by
  decide +kernel

end Verif
