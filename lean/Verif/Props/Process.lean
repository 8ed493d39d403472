import Verif.ProcRefine
import Verif.Demo

/-!
# Processes: C28, C29, C33, C35

Every theorem is about `Reach A s`: `s` is any state reached from a new engine by any
sequence of dispatches, ticks and resets, with any user code.  `happenings pre` are the
handlings completed and controller ticks performed (since the last reset) before an
observation, `curSeg pre` is what was observed so far in the handling in progress.
-/

namespace Verif

variable {W R : Type}

/-! ## C28 -/

/-- The last handling of the instance that completed without error, if any, did not leave it
ended. -/
def LeftRunning (name id : String) (L : List (Happening R)) : Prop :=
  ∃ L1 x L2, L = L1 ++ x :: L2 ∧ x.isProc name id ∧ endedAfter false x.seg = false ∧
    ∀ y ∈ L2, ¬ y.isProc name id

theorem procLive_later {name id : String} {L1 L2 : List (Happening R)}
    (h : ∀ y ∈ L2, ¬ y.isProc name id) : procLive name id (L1 ++ L2) = procLive name id L1 := by
  induction L2 using List.reverseRecOn' with
  | nil => simp
  | append_singleton L2 y ih =>
    rw [← List.append_assoc, procLive_snoc, if_neg (h y (by simp)), ih (fun z hz => h z (by simp [hz]))]

theorem procLive_iff {name id : String} {L : List (Happening R)} :
    procLive name id L = true ↔ LeftRunning name id L := by
  constructor
  · induction L using List.reverseRecOn' with
    | nil => intro h; cases h
    | append_singleton L y ih =>
      intro h
      rw [procLive_snoc] at h
      by_cases hy : y.isProc name id
      · rw [if_pos hy] at h
        exact ⟨L, y, [], rfl, hy, by simpa using h, by simp⟩
      · rw [if_neg hy] at h
        obtain ⟨L1, x, L2, rfl, h1, h2, h3⟩ := ih h
        refine ⟨L1, x, L2 ++ [y], by simp, h1, h2, ?_⟩
        intro z hz
        rcases List.mem_append.1 hz with hz | hz
        · exact h3 z hz
        · rw [List.mem_singleton.1 hz]; exact hy
  · rintro ⟨L1, x, L2, rfl, h1, h2, h3⟩
    have e : L1 ++ x :: L2 = (L1 ++ [x]) ++ L2 := by simp
    rw [e, procLive_later h3, procLive_snoc, if_pos h1, h2]; rfl

/-- **C28.** A process instance exists iff the last handling of it that completed without
error did not leave it ended. -/
theorem C28_exists {A : App W R} (wf : A.WF) {s : Sys W R} (hs : Reach A s) (name id : String) :
    ((s.proc name).inst id).isSome ↔ LeftRunning name id (happenings s.trace) := by
  rw [(((proc_refine A).reach wf hs).1 name).live id]
  exact procLive_iff

/-- **C28.** 'Loaded' is reported only for existing instances; 'not found', 'begun' and
'timeout ignored' only for instances that do not exist; 'begun' only right after 'not found'
and `New()`. -/
theorem C28_truth {A : App W R} (wf : A.WF) {s : Sys W R} (hs : Reach A s) :
    Always (fun pre o => ∀ h id env,
      (o = .fact (.procLoaded h id env) → LeftRunning h.name id (happenings pre)) ∧
      (o = .fact (.procNotFound h id env) → ¬ LeftRunning h.name id (happenings pre)) ∧
      (o = .fact (.procTimeoutIgnored h id env) → ¬ LeftRunning h.name id (happenings pre)) ∧
      (o = .fact (.procBegun h id env) → ¬ LeftRunning h.name id (happenings pre) ∧
        ∃ c, curSeg pre = c ++ [.fact (.procNotFound h id env), .call (.procNew h)])) s.trace := by
  intro pre o post ht h id env
  have k := ((proc_refine A).reach wf hs).2 pre _ post ht
  refine ⟨?_, ?_, ?_, ?_⟩
  · rintro rfl; exact procLive_iff.1 k
  · rintro rfl h0
    rw [← procLive_iff] at h0
    have k : procLive h.name id _ = false := k
    rw [h0] at k; cases k
  · rintro rfl h0
    rw [← procLive_iff] at h0
    have k : procLive h.name id _ = false := k.1
    rw [h0] at k; cases k
  · rintro rfl
    refine ⟨fun h0 => ?_, k.2⟩
    rw [← procLive_iff] at h0
    have k : procLive h.name id _ = false := k.1
    rw [h0] at k; cases k

/-- **C28.** The last thing observed before `HandleEvent()` or `HandleTimeout()` is called is
'loaded' if the instance exists, and otherwise 'not found', `New()`, 'begun'.  Timeouts are
only handled by instances that exist, and only by the instance that scheduled them. -/
theorem C28_reported {A : App W R} (wf : A.WF) {s : Sys W R} (hs : Reach A s) :
    Always (fun pre o => ∀ h id r m t, o = .call (.procHandle h id r m t) →
      ∃ c env, env.msg = m ∧
        (LeftRunning h.name id (happenings pre) → curSeg pre = c ++ [.fact (.procLoaded h id env)]) ∧
        (¬ LeftRunning h.name id (happenings pre) → curSeg pre = c ++
          [.fact (.procNotFound h id env), .call (.procNew h), .fact (.procBegun h id env)]) ∧
        (m.type.kind = .timeout → LeftRunning h.name id (happenings pre) ∧
          ∃ o, env.origin = some o ∧ o.instanceID = id))
      s.trace := by
  rintro pre o post ht h id r m t rfl
  obtain ⟨env, c, h1, h2, h3⟩ := ((proc_refine A).reach wf hs).2 pre _ post ht
  refine ⟨c, env, h1, ?_, ?_, ?_⟩
  · intro h0
    rw [← procLive_iff] at h0
    rw [if_pos h0] at h2; exact h2
  · intro h0
    rw [← procLive_iff] at h0
    rw [if_neg h0] at h2; exact h2
  · intro hk
    exact ⟨procLive_iff.1 (h3 hk).1, (h3 hk).2⟩

set_option maxRecDepth 100000 in
/-- In the demo the instance exists after the first two dispatches, and the tick ends it. -/
example : Demo.app.WF ∧ Reach Demo.app Demo.final ∧
    ((Demo.runOps Demo.app (Demo.history.take 2) (Sys.init 0)).proc "proc").inst "p" = some ["x", "y"] ∧
    (Demo.final.proc "proc").inst "p" = none ∧
    (happenings Demo.final.trace).any (fun x => x.isProc "proc" "p") = true :=
  ⟨Demo.app_wf, Demo.final_reach, by decide +kernel⟩

/-! ## C29 -/

/-- **C29.** The pending timeouts of a process handler are those that `pendingAfter` computes
from the past (as a multiset), in chronological order. -/
theorem C29_pending {A : App W R} (wf : A.WF) {s : Sys W R} (hs : Reach A s) (name : String) :
    (s.proc name).timeouts.Perm (pendingAfter name (happenings s.trace)) ∧
    (s.proc name).timeouts.Pairwise (fun a b => a.scheduledFor ≤ b.scheduledFor) :=
  ⟨(((proc_refine A).reach wf hs).1 name).perm, (((proc_refine A).reach wf hs).1 name).sorted⟩

/-- Timeout `e` was scheduled for later by a handling of the process handler called `name` that
completed without error and did not leave the instance ended; since then no tick of the handler
took place at or after its time, and no handling that completed without error left the
instance ended. -/
def StillPending (name : String) (L : List (Happening R)) (e : Env) : Prop :=
  ∃ L1 now h env seg id L2, L = L1 ++ .handled now h env seg none :: L2 ∧
    h.htype = .process ∧ h.name = name ∧ procInstIn seg = some id ∧
    endedAfter false seg = false ∧ e ∈ timeoutsIn seg ∧ now < e.scheduledFor ∧
    (∀ now' h', .ticked now' h' ∈ L2 → h'.htype = .process → h'.name = name →
      now' < e.scheduledFor) ∧
    (∀ y ∈ L2, ∀ id, y.isProc name id → e.byInstance id → endedAfter false y.seg = false)

theorem mem_pendingAfter {name : String} {L : List (Happening R)} {e : Env} :
    e ∈ pendingAfter name L ↔ StillPending name L e := by
  constructor
  · induction L using List.reverseRecOn' with
    | nil => intro h; cases h
    | append_singleton L x ih =>
      intro h
      have old : e ∈ pendingAfter name L →
          (∀ now' h', x = .ticked now' h' → h'.htype = .process → h'.name = name → now' < e.scheduledFor) →
          (∀ id, x.isProc name id → e.byInstance id → endedAfter false x.seg = false) →
          StillPending name (L ++ [x]) e := by
        intro h0 h1 h2
        obtain ⟨L1, now, hh, env, seg, id, L2, rfl, a1, a2, a3, a4, a5, a6, a7, a8⟩ := ih h0
        refine ⟨L1, now, hh, env, seg, id, L2 ++ [x], by simp, a1, a2, a3, a4, a5, a6, ?_, ?_⟩
        · intro now' h' hm
          rcases List.mem_append.1 hm with hm | hm
          · exact a7 now' h' hm
          · exact h1 now' h' (List.mem_singleton.1 hm).symm
        · intro y hy
          rcases List.mem_append.1 hy with hy | hy
          · exact a8 y hy
          · rw [List.mem_singleton.1 hy]; exact h2
      rw [pendingAfter_snoc] at h
      cases x with
      | ticked now h' =>
        simp only [Happening.pend] at h
        split at h
        · rw [List.mem_filter] at h
          refine old h.1 ?_ (fun id hi => hi.elim)
          intro now' h'' he _ _
          cases he
          simpa using h.2
        · rename_i hn
          refine old h ?_ (fun id hi => hi.elim)
          intro now' h'' he k1 k2
          cases he
          exact absurd ⟨k1, k2⟩ hn
      | handled now h' env seg err =>
        simp only [Happening.pend] at h
        split at h
        · rename_i hc
          obtain ⟨c1, c2, rfl⟩ := hc
          split at h
          · rename_i hi
            refine old h (fun _ _ he => nomatch he) ?_
            rintro id ⟨_, _, h3, _⟩
            rw [hi] at h3; cases h3
          · rename_i id hi
            split at h
            · rw [List.mem_filter] at h
              refine old h.1 (fun _ _ he => nomatch he) ?_
              rintro id' ⟨_, _, h3, _⟩ hb
              rw [hi] at h3
              cases h3
              rw [hb] at h; simp at h
            · rename_i hen
              rcases List.mem_append.1 h with h | h
              · refine old h (fun _ _ he => nomatch he) ?_
                intro id' _ _
                simpa [Happening.seg] using hen
              · unfold futureIn at h
                rw [List.mem_filter] at h
                exact ⟨L, now, h', env, seg, id, [], rfl, c1, c2, hi, by simpa using hen, h.1,
                  by simpa using h.2, by simp, by simp⟩
        · rename_i hn
          refine old h (fun _ _ he => nomatch he) ?_
          rintro id ⟨k1, k2, _, k4⟩
          exact absurd ⟨k1, k2, k4⟩ hn
  · rintro ⟨L1, now, hh, env, seg, id, L2, rfl, a1, a2, a3, a4, a5, a6, a7, a8⟩
    induction L2 using List.reverseRecOn' with
    | nil =>
      rw [pendingAfter_snoc]
      simp only [Happening.pend, a1, a2, a3, a4, true_and, if_true]
      exact List.mem_append_right _ (List.mem_filter.2 ⟨a5, by simpa using a6⟩)
    | append_singleton L2 x ih =>
      have h0 := ih (fun n h' hm => a7 n h' (by simp [hm])) (fun y hy => a8 y (by simp [hy]))
      have e2 : L1 ++ .handled now hh env seg none :: (L2 ++ [x]) =
        (L1 ++ .handled now hh env seg none :: L2) ++ [x] := by simp
      rw [e2, pendingAfter_snoc]
      cases x with
      | ticked now' h' =>
        simp only [Happening.pend]
        split
        · rename_i hc
          exact List.mem_filter.2 ⟨h0, by simpa using a7 now' h' (by simp) hc.1 hc.2⟩
        · exact h0
      | handled now' h' env' seg' err' =>
        simp only [Happening.pend]
        split
        · rename_i hc
          obtain ⟨c1, c2, rfl⟩ := hc
          split
          · exact h0
          · rename_i id' hi
            split
            · rename_i hen
              refine List.mem_filter.2 ⟨h0, ?_⟩
              apply Classical.byContradiction
              intro hb
              have := a8 (.handled now' h' env' seg' none) (by simp) id' ⟨c1, c2, hi, rfl⟩ (by simpa using hb)
              rw [Happening.seg, hen] at this; cases this
            · exact List.mem_append_left _ h0
        · exact h0

/-- **C29**, spelled out: a timeout is pending iff it was scheduled for later by a handling that
completed without error and did not leave the instance ended, and has since been neither
released by a tick nor discarded by the end of its instance. -/
theorem C29_pending_iff {A : App W R} (wf : A.WF) {s : Sys W R} (hs : Reach A s) (name : String)
    (e : Env) : e ∈ (s.proc name).timeouts ↔ StillPending name (happenings s.trace) e := by
  rw [(C29_pending wf hs name).1.mem_iff]
  exact mem_pendingAfter

set_option maxRecDepth 100000 in
/-- Two timeouts are pending before the tick, none after it. -/
example : ((Demo.runOps Demo.app (Demo.history.take 2) (Sys.init 0)).proc "proc").timeouts.map
      (fun e => (e.msg.body, e.scheduledFor)) = [("x", 10), ("y", 10)] ∧
    (Demo.final.proc "proc").timeouts = [] := by decide +kernel

/-- **C33** (first part). When the last handling of an instance that completed without error
left it ended, no timeout of that instance is pending. -/
theorem C33_none_pending {A : App W R} (wf : A.WF) {s : Sys W R} (hs : Reach A s)
    (name id : String) (L1 : List (Happening R)) (x : Happening R) (L2 : List (Happening R))
    (hL : happenings s.trace = L1 ++ x :: L2) (hx : x.isProc name id)
    (hen : endedAfter false x.seg = true) (hl : ∀ y ∈ L2, ¬ y.isProc name id) :
    ∀ e ∈ (s.proc name).timeouts, e.byInstance id = false := by
  intro e he
  obtain ⟨o, ho, hi⟩ := (((proc_refine A).reach wf hs).1 name).owner e he
  rw [(((proc_refine A).reach wf hs).1 name).live] at hi
  apply Classical.byContradiction
  intro hb
  have hb : o.instanceID = id := by simpa [Env.byInstance, ho] using hb
  rw [hb] at hi
  have e2 : L1 ++ x :: L2 = (L1 ++ [x]) ++ L2 := by simp
  rw [hL, e2, procLive_later hl, procLive_snoc, if_pos hx, hen] at hi
  cases hi

/-! ## C35 -/

/-- **C35.** Within a handling, 'ended' is reported only if the instance is not already ended,
'ending reverted' only if it is, and commands and timeouts are produced only while it is not
ended (so producing one after `End()` is always preceded by 'reverted'). -/
theorem C35_alternation {A : App W R} (wf : A.WF) {s : Sys W R} (hs : Reach A s) :
    Always (fun pre o => ∀ h id env,
      (o = .fact (.procEnded h id env) → endedAfter false (curSeg pre) = false) ∧
      (o = .fact (.procReverted h id env) → endedAfter false (curSeg pre) = true) ∧
      (∀ c, o = .fact (.procCommand h id env c) → endedAfter false (curSeg pre) = false) ∧
      (∀ c, o = .fact (.procTimeout h id env c) → endedAfter false (curSeg pre) = false)) s.trace := by
  intro pre o post ht h id env
  have k := ((proc_refine A).reach wf hs).2 pre _ post ht
  refine ⟨?_, ?_, ?_, ?_⟩
  · rintro rfl; exact k
  · rintro rfl; exact k
  · rintro c rfl; exact k
  · rintro c rfl; exact k

/-- **C35.** If a handling that completes without error reverts every `End()`, the instance
exists afterwards and every timeout that was pending before is still pending. -/
theorem C35_survives {A : App W R} (wf : A.WF) {s : Sys W R} (hs : Reach A s)
    (name id : String) (L : List (Happening R)) (x : Happening R)
    (hL : happenings s.trace = L ++ [x]) (hx : x.isProc name id)
    (hen : endedAfter false x.seg = false) :
    ((s.proc name).inst id).isSome ∧ ∀ e, StillPending name L e → e ∈ (s.proc name).timeouts := by
  refine ⟨(C28_exists wf hs name id).2 (hL ▸ ⟨L, x, [], rfl, hx, hen, by simp⟩), ?_⟩
  intro e he
  rw [C29_pending_iff wf hs, hL, ← mem_pendingAfter, pendingAfter_snoc]
  rw [← mem_pendingAfter] at he
  cases x with
  | ticked _ _ => exact hx.elim
  | handled now h env seg err =>
    obtain ⟨h1, h2, h3, rfl⟩ := hx
    simp only [Happening.seg] at hen
    simp only [Happening.pend, h1, h2, h3, hen, true_and, if_true]
    exact List.mem_append_left _ he

/-- An application whose process ends itself and then changes its mind on event "undo", and
ends for good on event "stop". -/
def Demo.undoing : App Nat (List String) :=
  { Demo.app with
    uc := { Demo.uc with
      procHandle := fun _ _ _ m _ =>
        if m.body = "undo" then Demo.ops none [.end_, .execute ⟨Demo.cmdD, "oops", none⟩]
        else if m.body = "stop" then
          Demo.ops none [.schedule ⟨Demo.tmoT, "never", none⟩ 0, .schedule ⟨Demo.tmoT, "never", none⟩ 20,
            .execute ⟨Demo.cmdD, "bye", none⟩, .end_]
        else Demo.ops none [.schedule ⟨Demo.tmoT, m.body, none⟩ 10] } }

theorem Demo.undoing_wf : Demo.undoing.WF := ⟨Demo.app_wf.names, Demo.app_wf.handlers⟩

set_option maxRecDepth 100000 in
/-- After "x" and "undo" the instance and its timeout are still there; "stop" removes both. -/
example :
    let s2 := Demo.runOps Demo.undoing [.dispatch 20 (Demo.msgC "x") [], .dispatch 20 (Demo.msgC "undo") []] (Sys.init 0)
    let s3 := Demo.runOps Demo.undoing [.dispatch 20 (Demo.msgC "stop") []] s2
    ((s2.proc "proc").inst "p").isSome = true ∧ (s2.proc "proc").timeouts.length = 1 ∧
    s2.trace.any (fun o => match o with | .fact (.procReverted _ _ _) => true | _ => false) = true ∧
    ((s3.proc "proc").inst "p").isSome = false ∧ (s3.proc "proc").timeouts = [] := by
  decide +kernel

end Verif
