import Verif.Demo

/-!
# How often ticks compact a projection

C40.  Compactions made by a tick are told from those made while an event is being
handled by the facts around them.
-/

namespace Verif

variable {W R : Type}

/-! ## Specification -/

/-- The handler whose tick is in progress after an observation. -/
def tickingStep (cur : Option HConfig) : Obs R → Option HConfig
  | .fact (.tickBegun h) => some h
  | .fact (.tickCompleted _ _) => none
  | .fact (.tickCycleBegun _) => none
  | .fact (.dispatchCycleBegun _ _) => none
  | _ => cur

/-- The handler whose tick is in progress. -/
def ticking (t : List (Obs R)) : Option HConfig := t.foldl tickingStep none

/-- The engine times at which ticks compacted the projection called `n`, while `cur` is
the handler being ticked at first. -/
def compactionsFrom (n : String) : Option HConfig → List (Obs R) → List Time
  | _, [] => []
  | cur, o :: t =>
    (match o with
      | .call (.prjCompact h x) => if cur = some h ∧ h.name = n then [x] else []
      | _ => []) ++ compactionsFrom n (tickingStep cur o) t

/-- The engine times at which ticks compacted the projection called `n`, over the whole
life of the engine. -/
def tickCompactions (n : String) (t : List (Obs R)) : List Time := compactionsFrom n none t

/-- The time of the last compaction by a tick; a projection never compacted counts as
compacted at Go's zero time. -/
def lastTickCompaction (n : String) (t : List (Obs R)) : Time :=
  (tickCompactions n t).getLast?.getD 0

/-- A tick compacts only what is due, and leaves nothing that is due. -/
def CompactsWhenDue (pre : List (Obs R)) : Obs R → Prop
  | .call (.prjCompact h t) => ticking pre = some h →
      timeNow pre = some t ∧ compactInterval ≤ t - lastTickCompaction h.name pre
  | .fact (.tickCompleted h _) => h.htype = .projection →
      ∃ t, timeNow pre = some t ∧ t - lastTickCompaction h.name pre < compactInterval
  | _ => True

/-! ## Lemmas -/

theorem compactionsFrom_append (n : String) (cur : Option HConfig) (t u : List (Obs R)) :
    compactionsFrom n cur (t ++ u) =
      compactionsFrom n cur t ++ compactionsFrom n (t.foldl tickingStep cur) u := by
  induction t generalizing cur with
  | nil => rfl
  | cons o t ih => simp only [List.cons_append, compactionsFrom, ih, List.foldl_cons, List.append_assoc]

theorem ticking_snoc (t : List (Obs R)) (o : Obs R) :
    ticking (t ++ [o]) = tickingStep (ticking t) o := by simp [ticking]

theorem tickCompactions_snoc (n : String) (t : List (Obs R)) (o : Obs R) :
    tickCompactions n (t ++ [o]) = tickCompactions n t ++
      (match o with
        | .call (.prjCompact h x) => if ticking t = some h ∧ h.name = n then [x] else []
        | _ => []) := by
  unfold tickCompactions
  rw [compactionsFrom_append]
  simp only [compactionsFrom, List.append_nil]
  rfl

theorem lastTickCompaction_other {n : String} {t : List (Obs R)} {o : Obs R}
    (h : ∀ h x, o = .call (.prjCompact h x) → ticking t ≠ some h ∨ h.name ≠ n) :
    lastTickCompaction n (t ++ [o]) = lastTickCompaction n t := by
  unfold lastTickCompaction
  rw [tickCompactions_snoc]
  split
  · rename_i h' x
    have := h _ _ rfl
    rw [if_neg (by rintro ⟨a, b⟩; rcases this with c | c <;> contradiction)]
    simp
  · simp

theorem timeSub_ge (a b : Time) : timeSub a b ≥ compactInterval ↔ compactInterval ≤ a - b := by
  unfold timeSub compactInterval maxDuration minDuration
  split
  · constructor <;> intro <;> omega
  · split <;> constructor <;> intro <;> omega

/-- The invariant, as a statement about a trace and the engine's record. -/
structure Compacted (last : String → Time) (t : List (Obs R)) : Prop where
  last : ∀ n, last n = lastTickCompaction n t
  due : Always CompactsWhenDue t

/-- Inside an operation, outside ticks. -/
structure CompactedI (oo : OpOpts) (s : Sys W R) : Prop where
  base : Compacted s.lastCompact s.trace
  time : timeNow s.trace = some oo.now
  tick : ticking s.trace = none

/-- Observations that do not matter. -/
def Obs.dull : Obs R → Prop
  | .call (.prjCompact _ _) => False
  | .fact (.tickCompleted _ _) => False
  | _ => True

theorem Compacted.dull {last : String → Time} {t : List (Obs R)} (h : Compacted last t) {o : Obs R}
    (ho : o.dull) : Compacted last (t ++ [o]) := by
  refine ⟨fun n => ?_, ?_⟩
  · rw [lastTickCompaction_other]
    · exact h.last n
    · rintro h x rfl; exact ho.elim
  · rw [always_snoc]
    refine ⟨h.due, ?_⟩
    unfold CompactsWhenDue
    split
    · exact ho.elim
    · exact ho.elim
    · trivial

/-- Facts that change neither the time nor the tick in progress. -/
def Fact.mute : Fact → Prop
  | .tickBegun _ | .tickCompleted _ _ | .tickCycleBegun _ | .dispatchCycleBegun _ _ => False
  | _ => True

theorem CompactedI.fact {oo : OpOpts} {s : Sys W R} (h : CompactedI oo s) {f : Fact}
    (hf : f.mute) : CompactedI oo (s.notify f) := by
  refine ⟨h.base.dull ?_, ?_, ?_⟩
  · cases f <;> first | exact hf.elim | trivial
  · rw [Sys.notify_trace, timeNow_snoc]
    cases f <;> first | exact hf.elim | exact h.time
  · rw [Sys.notify_trace, ticking_snoc]
    cases f <;> first | exact hf.elim | exact h.tick

/-- A segment in which only the user's compaction code could matter, and does not since
no tick is in progress. -/
theorem compacted_inner {h : HConfig} {now : Time} {env : Env} {last : String → Time}
    (seg : List (Obs R)) (hi : ∀ o ∈ seg, InnerObs h now env o) :
    ∀ (t : List (Obs R)) (x : Time), Compacted last t → timeNow t = some x → ticking t = none →
      Compacted last (t ++ seg) ∧ timeNow (t ++ seg) = some x ∧ ticking (t ++ seg) = none := by
  induction seg with
  | nil => intro t x a b c; simpa using ⟨a, b, c⟩
  | cons o seg ih =>
    intro t x a b c
    have ho := hi o (by simp)
    have hb : timeNow (t ++ [o]) = some x := by rw [(inner_ctx ho t).2.1]; exact b
    have hc : ticking (t ++ [o]) = none := by
      rw [ticking_snoc, c]
      unfold tickingStep
      split <;> first | rfl | skip
      · rename_i h'
        rcases ho with ho | ⟨ev, ho, _⟩
        · exact ho.elim
        · cases ho
    have ha : Compacted last (t ++ [o]) := by
      refine ⟨fun n => ?_, ?_⟩
      · rw [lastTickCompaction_other]
        · exact a.last n
        · intro h' x' _; rw [c]; exact .inl nofun
      · rw [always_snoc]
        refine ⟨a.due, ?_⟩
        unfold CompactsWhenDue
        split
        · rw [c]; exact nofun
        · rcases ho with ho | ⟨ev, ho, _⟩
          · exact ho.elim
          · cases ho
        · trivial
    have := ih (fun p hp => hi p (by simp [hp])) (t ++ [o]) x ha hb hc
    simpa using this

theorem CompactedI.handle {A : App W R} {oo : OpOpts} {s s' : Sys W R} {env : Env} {h : HConfig}
    {res : HRes} (hi : CompactedI oo s) (hr : handleOne A oo env h s = (s', res)) :
    CompactedI oo s' := by
  unfold handleOne at hr
  split at hr
  · cases hr
    exact hi.fact trivial
  · have h1 : CompactedI oo (s.notify (.handlingBegun h env)) := hi.fact trivial
    obtain ⟨seg, e1, e2, _, _, _, _, _, e3⟩ :=
      ctlHandle_sum A h oo.now env (s.notify (.handlingBegun h env))
    have h2 : CompactedI oo (ctlHandle A h oo.now env (s.notify (.handlingBegun h env))).1 := by
      have := compacted_inner seg e2 _ _ h1.base h1.time h1.tick
      exact ⟨by rw [e1, e3]; exact this.1, by rw [e1]; exact this.2.1, by rw [e1]; exact this.2.2⟩
    split at hr
    · rename_i he; rw [he] at h2; cases hr; exact h2
    · rename_i he; rw [he] at h2; cases hr; exact h2.fact trivial

/-- While the tick of `h` is in progress. -/
structure CompactedT (oo : OpOpts) (h : HConfig) (last : String → Time) (t : List (Obs R)) :
    Prop where
  base : Compacted last t
  time : timeNow t = some oo.now
  tick : ticking t = some h

theorem CompactedT.dull {oo : OpOpts} {h : HConfig} {last : String → Time} {t : List (Obs R)}
    (hi : CompactedT oo h last t) {f : Fact} (hf : f.mute) :
    CompactedT oo h last (t ++ [.fact f]) := by
  refine ⟨hi.base.dull ?_, ?_, ?_⟩
  · cases f <;> first | exact hf.elim | trivial
  · rw [timeNow_snoc]
    cases f <;> first | exact hf.elim | exact hi.time
  · rw [ticking_snoc]
    cases f <;> first | exact hf.elim | exact hi.tick

theorem CompactedT.logs {oo : OpOpts} {h : HConfig} {last : String → Time} (logs : List (Obs R))
    (hl : ∀ o ∈ logs, ∃ t, o = .fact (.prjLog h none t)) : ∀ {t : List (Obs R)},
    CompactedT oo h last t → CompactedT oo h last (t ++ logs) := by
  induction logs with
  | nil => intro t h; simpa using h
  | cons o logs ih =>
    intro t hi
    obtain ⟨x, rfl⟩ := hl o (by simp)
    have := ih (fun p hp => hl p (by simp [hp])) (hi.dull (f := .prjLog h none x) trivial)
    simpa using this

theorem CompactedT.compact {oo : OpOpts} {h : HConfig} {last : String → Time} {t : List (Obs R)}
    (hi : CompactedT oo h last t) (hd : compactInterval ≤ oo.now - last h.name) :
    CompactedT oo h (upd last h.name oo.now) (t ++ [.call (.prjCompact h oo.now)]) := by
  refine ⟨⟨fun n => ?_, ?_⟩, ?_, ?_⟩
  · by_cases hn : h.name = n
    · subst hn
      rw [upd_same]
      unfold lastTickCompaction
      rw [tickCompactions_snoc]
      simp [hi.tick]
    · rw [upd_ne _ _ (fun e => hn e.symm), lastTickCompaction_other]
      · exact hi.base.last n
      · rintro h' x ⟨⟩; exact .inr hn
  · rw [always_snoc]
    refine ⟨hi.base.due, fun _ => ⟨hi.time, ?_⟩⟩
    rw [← hi.base.last]; exact hd
  · rw [timeNow_snoc]; exact hi.time
  · rw [ticking_snoc]; exact hi.tick

/-- The tick of one handler. -/
theorem CompactedI.ticked {A : App W R} {oo : OpOpts} {s s' : Sys W R} {h : HConfig} {res : HRes}
    (hi : CompactedI oo s) (hr : ctlTick A h oo.now (s.notify (.tickBegun h)) = (s', res)) :
    CompactedT oo h s'.lastCompact s'.trace ∧
      (h.htype = .projection → oo.now - s'.lastCompact h.name < compactInterval) := by
  have h0 : CompactedT oo h s.lastCompact (s.trace ++ [.fact (.tickBegun h)]) :=
    ⟨hi.base.dull trivial, by rw [timeNow_snoc]; exact hi.time, by rw [ticking_snoc]; rfl⟩
  obtain ⟨seg, e⟩ := ctlTick_sum A h oo.now (s.notify (.tickBegun h))
  rw [hr] at e
  have ht : s'.trace = s.trace ++ [.fact (.tickBegun h)] ++ seg := e.trace
  have hl := e.last
  simp only [Sys.notify_last] at hl
  rcases e.shape with ⟨rfl, hn⟩ | ⟨hd, hp, logs, hlogs, hseg⟩
  · simp only [Sys.notify_last] at hn
    have hl' : s'.lastCompact = s.lastCompact := by
      refine hl.trans (if_neg ?_)
      rintro ⟨hc, hg⟩; have := hn hc; omega
    rw [ht, hl', List.append_nil]
    refine ⟨h0, fun hp => ?_⟩
    have := hn hp
    have h3 := timeSub_ge oo.now (s.lastCompact h.name)
    apply Classical.byContradiction
    intro hc
    have := h3.2 (by omega)
    omega
  · simp only [Sys.notify_last] at hd
    have hl' : s'.lastCompact = upd s.lastCompact h.name oo.now := hl.trans (if_pos ⟨hp, hd⟩)
    rw [hl']
    have h1 := h0.dull (f := .prjCompactBegun h) trivial
    have h2 := (h1.compact ((timeSub_ge _ _).1 hd)).logs logs hlogs
    refine ⟨?_, fun _ => ?_⟩
    · rw [ht]
      rcases res with v | ⟨envs, er⟩
      · simp only at hseg
        subst hseg
        simpa using h2
      · simp only at hseg
        subst hseg
        have h3 := h2.dull (f := .prjCompactCompleted h er) trivial
        simpa using h3
    · rw [upd_same]; unfold compactInterval; omega

theorem CompactedT.complete {oo : OpOpts} {h : HConfig} {s : Sys W R} (er : Option Err)
    (hi : CompactedT oo h s.lastCompact s.trace)
    (hd : h.htype = .projection → oo.now - s.lastCompact h.name < compactInterval) :
    CompactedI oo (s.notify (.tickCompleted h er)) := by
  refine ⟨⟨fun n => ?_, ?_⟩, ?_, ?_⟩
  · rw [Sys.notify_trace, lastTickCompaction_other (by rintro _ _ ⟨⟩)]
    exact hi.base.last n
  · rw [Sys.notify_trace, always_snoc]
    refine ⟨hi.base.due, fun hp => ⟨oo.now, hi.time, ?_⟩⟩
    rw [← hi.base.last]; exact hd hp
  · rw [Sys.notify_trace, timeNow_snoc]; exact hi.time
  · rw [Sys.notify_trace, ticking_snoc]; rfl

theorem compacted_lift (A : App W R) :
    Lift A (fun s => Compacted s.lastCompact s.trace) (fun oo _ _ s => CompactedI oo s)
      (fun oo _ _ _ _ _ s => CompactedI oo s) (fun oo _ _ _ s => CompactedI oo s) where
  init w := ⟨fun _ => rfl, always_nil _⟩
  world s w hs := hs
  reset s hs := hs.dull (o := .reset) trivial
  resetter s i hs := hs.dull trivial
  takeID s hs := hs
  dBegin oo s m hs _ _ _ := by
    refine ⟨hs.dull trivial, ?_, ?_⟩
    · simp only [Sys.notify_trace, timeNow_snoc, OpOpts.cycle]
    · simp only [Sys.notify_trace, ticking_snoc]; rfl
  dEnd oo q errs s env er hi := (hi.fact (f := .dispatchCycleCompleted env (oo.cycle A).maps er) trivial).base
  stop oo q errs s hi := hi.base
  disp oo :=
    { begin_ := fun env q errs s hs _ hi => hi.fact trivial
      handle := fun env done h rest q errs de s s' envs e ht hj hr => hj.handle hr
      panic := fun env done h rest q errs de s s' v ht hj hr => (hj.handle hr).base
      panicT := fun env q errs s v ht hi => hi.base
      end_ := fun env hs q errs de s _ hj => hj.fact trivial }
  tBegin oo s hs := by
    refine ⟨hs.dull trivial, ?_, ?_⟩
    · simp only [Sys.notify_trace, timeNow_snoc, OpOpts.cycle]
    · simp only [Sys.notify_trace, ticking_snoc]; rfl
  tick oo :=
    { skip := fun done h q errs s r hm hi hr => hi.fact trivial
      tick := fun done h q errs s s' envs e hm hi hsk hr =>
        (hi.ticked hr).1.complete e (hi.ticked hr).2
      panic := fun done h q errs s s' v hm hi hsk hr => (hi.ticked hr).1.base }
  tDisp oo order q errs s _ hi := hi
  tStop oo done q errs s er hi := (hi.fact (f := .tickCycleCompleted (oo.cycle A).maps er) trivial).base
  tEnd oo q errs s er hi := (hi.fact (f := .tickCycleCompleted (oo.cycle A).maps er) trivial).base

/-! ## C40 -/

/-- **C40 (1).**  Whenever a tick compacts a projection, at least `CompactInterval` of engine
time has passed since the last compaction by a tick; and when the tick of a projection is
complete, less than `CompactInterval` has passed: it has been compacted if it was due. -/
theorem C40_iff_due {A : App W R} {s : Sys W R} (hs : Reach A s) :
    Always CompactsWhenDue s.trace :=
  ((compacted_lift A).reach hs).due

theorem chain_of_due (n : String) (t : List (Obs R)) : Always CompactsWhenDue t →
    (tickCompactions n t).Pairwise (fun a b => a + compactInterval ≤ b) ∧
    ∀ x ∈ tickCompactions n t, x ≤ lastTickCompaction n t := by
  induction hn : t.length generalizing t with
  | zero =>
    intro _
    rw [List.length_eq_zero_iff.1 hn]
    simp [tickCompactions, compactionsFrom]
  | succ k ih =>
    intro hd
    rcases List.eq_nil_or_concat t with rfl | ⟨u, o, rfl⟩
    · simp at hn
    rw [List.concat_eq_append] at hd hn ⊢
    rw [always_snoc] at hd
    obtain ⟨h1, h2⟩ := ih u (by simpa using hn) hd.1
    by_cases ho : ∃ h x, o = .call (.prjCompact h x) ∧ ticking u = some h ∧ h.name = n
    · obtain ⟨h, x, rfl, hc, hnm⟩ := ho
      have hx := (hd.2 hc).2
      rw [hnm] at hx
      have e : tickCompactions n (u ++ [.call (.prjCompact h x)]) = tickCompactions n u ++ [x] := by
        rw [tickCompactions_snoc]; simp [hc, hnm]
      have el : lastTickCompaction n (u ++ [.call (.prjCompact h x)]) = x := by
        unfold lastTickCompaction; rw [e]; simp
      rw [e, el]
      refine ⟨?_, ?_⟩
      · rw [List.pairwise_append]
        refine ⟨h1, by simp, ?_⟩
        intro a ha b hb
        obtain rfl := List.mem_singleton.1 hb
        have := h2 a ha
        omega
      · intro y hy
        rcases List.mem_append.1 hy with hy | hy
        · have := h2 y hy
          unfold compactInterval at hx
          omega
        · obtain rfl := List.mem_singleton.1 hy
          omega
    · have e : tickCompactions n (u ++ [o]) = tickCompactions n u := by
        rw [tickCompactions_snoc]
        split
        · rename_i h x
          rw [if_neg (fun hc => ho ⟨h, x, rfl, hc.1, hc.2⟩), List.append_nil]
        · rw [List.append_nil]
      unfold lastTickCompaction at h2 ⊢
      rw [e]
      exact ⟨h1, h2⟩

/-- **C40 (2).**  Any two compactions of the same projection by ticks of one engine are at
least `CompactInterval` apart, whatever the engine times of the operations. -/
theorem C40_apart {A : App W R} {s : Sys W R} (hs : Reach A s) (n : String) :
    (tickCompactions n s.trace).Pairwise (fun a b => a + compactInterval ≤ b) :=
  (chain_of_due n s.trace (C40_iff_due hs)).1

namespace Demo

/-- Ticks one and a half, two, one and three hours after Go's zero time. -/
def hours : List Op :=
  [5400, 7200, 3600, 10800].map fun t =>
    .tick 20 [agg, proc, int, prj] [.currentTime (t * 1000000000)]

theorem hours_ok : ∀ op ∈ hours, op.ok app := by
  intro op ho
  simp only [hours, List.mem_map] at ho
  obtain ⟨t, _, rfl⟩ := ho
  exact List.Perm.refl _

end Demo

set_option maxRecDepth 100000 in
/-- The first and the last tick compact; the second comes too early and the third is before
the first. -/
example : Reach Demo.app (Demo.runOps Demo.app Demo.hours (Sys.init 0)) ∧
    tickCompactions "prj" (Demo.runOps Demo.app Demo.hours (Sys.init 0)).trace =
      [5400000000000, 10800000000000] :=
  ⟨Demo.runOps_reach _ Demo.hours_ok (.init 0), by decide +kernel⟩

set_option maxRecDepth 100000 in
/-- A projection that was never compacted is not compacted by a tick within an hour of Go's
zero time; a reset does not make a compaction due. -/
example : tickCompactions "prj" Demo.final.trace = [] ∧
    tickCompactions "prj" (Demo.runOps Demo.app [.tick 20 [Demo.agg, Demo.proc, Demo.int, Demo.prj]
      [.currentTime 4000000000000], .reset, .tick 20 [Demo.agg, Demo.proc, Demo.int, Demo.prj]
      [.currentTime 5000000000000]] (Sys.init 0)).trace = [4000000000000] := by decide +kernel

end Verif
