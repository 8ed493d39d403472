import Verif.Props.Compact
import Verif.Props.Emit
import Verif.Props.Reset
import Verif.Props.History
import Verif.Demo

/-!
# Ticking twice

C119: once a tick was completed, further ticks at the same time find nothing to do
(`engine.go` 86-179, `process/controller.go` 35-58, `projection/controller.go` 38-68).
-/

namespace Verif

variable {W R : Type}

/-! ## Specification -/

/-- What a tick tells of a handler that has nothing to do (`engine.go` 126-167). -/
def idleVisit (os : List OpOption) (h : HConfig) : List Fact :=
  match whyNot os h with
  | some r => [.tickSkipped h r]
  | none => [.tickBegun h, .tickCompleted h none]

/-- `s'` is reached from `s` by operations at time `T` – dispatches and ticks, however they end –
and resets; anything may happen outside of the engine meanwhile (`engine.go` 67-238). -/
inductive AtTime (A : App W R) (T : Time) (s : Sys W R) : Sys W R → Prop where
  | refl : AtTime A T s s
  | world {s' : Sys W R} (w : W) : AtTime A T s s' → AtTime A T s { s' with w := w }
  | step {s' : Sys W R} (op : Op) : AtTime A T s s' → op.ok A → (op ≠ .reset → op.time A s' = T) →
    AtTime A T s (op.exec A s').1

/-- No handler that takes part in operations with the options `os` has anything to do in a tick at
time `T`. -/
structure Settled (A : App W R) (os : List OpOption) (T : Time) (s : Sys W R) : Prop where
  timeouts : ∀ h ∈ A.cfgs, takesPart os h = true → h.htype = .process → noneDue h.name T s
  compaction : ∀ h ∈ A.cfgs, takesPart os h = true → h.htype = .projection →
    T - s.lastCompact h.name < compactInterval

/-! ## Lemmas -/

theorem AtTime.reach {A : App W R} {T : Time} {s s' : Sys W R} (h : AtTime A T s s')
    (hs : Reach A s) : Reach A s' := by
  induction h with
  | refl => exact hs
  | world w _ ih => exact .world w ih
  | step op _ hop _ ih => exact .step op ih hop

/-- The compaction clocks do not go back. -/
def Onward (s s' : Sys W R) : Prop := ∀ n, s.lastCompact n ≤ s'.lastCompact n

theorem Onward.of_eq {s s' : Sys W R} (h : s'.lastCompact = s.lastCompact) : Onward s s' := by
  intro n; rw [h]; exact Int.le_refl _

theorem Onward.trans {s s' s'' : Sys W R} (h : Onward s s') (h' : Onward s' s'') : Onward s s'' :=
  fun n => Int.le_trans (h n) (h' n)

theorem handleOne_last (A : App W R) (oo : OpOpts) (env : Env) (h : HConfig) (s : Sys W R) :
    (handleOne A oo env h s).1.lastCompact = s.lastCompact := by
  unfold handleOne
  split
  · rfl
  · obtain ⟨seg, h1⟩ := ctlHandle_sum A h oo.now env (s.notify (.handlingBegun h env))
    have h8 := h1.2.2.2.2.2.2.2
    rcases hc : ctlHandle A h oo.now env (s.notify (.handlingBegun h env)) with ⟨s1, v | ⟨envs, e⟩⟩
    · rw [hc] at h8; exact h8
    · rw [hc] at h8; exact h8

theorem lastRule (A : App W R) (oo : OpOpts) (L : String → Time) :
    DispRule A oo (fun _ _ s => s.lastCompact = L) (fun _ _ _ _ _ s => s.lastCompact = L)
      (fun s => s.lastCompact = L) where
  begin_ env q errs s hs _ h := h
  handle env done h rest q errs de s s' envs e _ hj hr := by
    have := handleOne_last A oo env h s
    rw [hr] at this; exact this.trans hj
  panic env done h rest q errs de s s' v _ hj hr := by
    have := handleOne_last A oo env h s
    rw [hr] at this; exact this.trans hj
  panicT env q errs s v _ h := h
  end_ env hs q errs de s _ h := h

theorem dispatchLoop_last (A : App W R) (oo : OpOpts) (n : Nat) (q : List Env) (errs : List EngErr)
    (s : Sys W R) : (dispatchLoop A oo n q errs s).1.lastCompact = s.lastCompact := by
  have h := (lastRule A oo s.lastCompact).loop n q errs s rfl
  rcases hd : dispatchLoop A oo n q errs s with ⟨s', o⟩
  rw [hd] at h
  cases o with
  | done e => rcases h with h | ⟨_, _, _, h, _⟩ <;> exact h
  | running => obtain ⟨_, _, h⟩ := h; exact h
  | panicked v => exact h

theorem ctlTick_onward (A : App W R) (h : HConfig) (now : Time) (s : Sys W R) :
    Onward s (ctlTick A h now s).1 ∧
      (h.htype = .projection → now - (ctlTick A h now s).1.lastCompact h.name < compactInterval) := by
  obtain ⟨seg, e⟩ := ctlTick_sum A h now s
  have hl := e.last
  split at hl
  · rename_i hc
    have hd := (timeSub_ge _ _).1 hc.2
    refine ⟨fun n => ?_, fun _ => ?_⟩
    · rw [hl]
      by_cases hn : n = h.name
      · subst hn; rw [upd_same]; unfold compactInterval at hd; omega
      · rw [upd_ne _ _ hn]; exact Int.le_refl _
    · rw [hl, upd_same]; unfold compactInterval; omega
  · rename_i hc
    refine ⟨.of_eq hl, fun hp => ?_⟩
    rw [hl]
    apply Classical.byContradiction
    intro hn
    exact hc ⟨hp, (timeSub_ge _ _).2 (by omega)⟩

theorem onwardRule (A : App W R) (oo : OpOpts) (s0 : Sys W R) :
    TickRule A oo (fun done _ _ s => Onward s0 s ∧ ∀ h ∈ done, skipHandler oo h = none →
        h.htype = .projection → oo.now - s.lastCompact h.name < compactInterval)
      (fun s => Onward s0 s) where
  skip done h q errs s r _ hT hr := by
    refine ⟨hT.1.trans (.of_eq rfl), fun x hx hk hp => ?_⟩
    rcases List.mem_append.1 hx with hx | hx
    · exact hT.2 x hx hk hp
    · rw [List.mem_singleton.1 hx, hr] at hk; cases hk
  tick done h q errs s s' envs e _ hT hk hr := by
    have ho := ctlTick_onward A h oo.now (s.notify (.tickBegun h))
    rw [hr] at ho
    refine ⟨hT.1.trans (Onward.trans (.of_eq rfl) (ho.1.trans (.of_eq rfl))), fun x hx hk hp => ?_⟩
    rcases List.mem_append.1 hx with hx | hx
    · have h1 := hT.2 x hx hk hp
      have h2 := ho.1 x.name
      have h3 : s.lastCompact x.name ≤ s'.lastCompact x.name := h2
      show oo.now - s'.lastCompact x.name < _
      omega
    · rw [List.mem_singleton.1 hx] at hp ⊢
      exact ho.2 hp
  panic done h q errs s s' v _ hT hk hr := by
    have ho := ctlTick_onward A h oo.now (s.notify (.tickBegun h))
    rw [hr] at ho
    exact hT.1.trans (Onward.trans (.of_eq rfl) ho.1)

theorem tick_onward (A : App W R) (n : Nat) (order : List HConfig) (ho : order.Perm A.cfgs)
    (os : List OpOption) (s : Sys W R) :
    Onward s (engTick A n order os s).1 ∧
      (∀ errs, (engTick A n order os s).2 = .done errs → ¬ Interrupted errs →
        ∀ h ∈ A.cfgs, takesPart os h = true → h.htype = .projection →
          engineTime os (A.uc.wallClock s.w) - (engTick A n order os s).1.lastCompact h.name <
            compactInterval) := by
  unfold engTick
  rcases hoo : newOpOpts A s os with v | oo
  · exact ⟨.of_eq rfl, fun _ h => nomatch h⟩
  · simp only
    split
    · rename_i e he
      refine ⟨.of_eq rfl, fun errs h hi => absurd (.inr ⟨e, ?_⟩) hi⟩
      cases h; simp
    · unfold engTickLocked
      have hT := (onwardRule A oo s).all order [] [] [] (s.notify (.tickCycleBegun (oo.cycle A)))
        (fun h hm => ho.mem_iff.1 hm) ⟨.of_eq rfl, nofun⟩
      rcases ht : tickAll A oo order [] [] (s.notify (.tickCycleBegun (oo.cycle A))) with
        ⟨s1, v | ⟨q, errs, c | c⟩⟩
      · rw [ht] at hT; exact ⟨hT, fun _ h => nomatch h⟩
      · rw [ht] at hT
        have hT : Onward s s1 ∧ ∀ h ∈ order, skipHandler oo h = none → h.htype = .projection →
          oo.now - s1.lastCompact h.name < compactInterval := hT
        have hl := dispatchLoop_last A oo n q [] s1
        rcases hd : dispatchLoop A oo n q [] s1 with ⟨s2, o⟩
        rw [hd] at hl
        have hl : s2.lastCompact = s1.lastCompact := hl
        have h2 : Onward s s2 := hT.1.trans (.of_eq hl)
        dsimp only
        rw [hd]
        cases o with
        | running => exact ⟨h2, fun _ h => nomatch h⟩
        | panicked v => exact ⟨h2, fun _ h => nomatch h⟩
        | done de =>
          refine ⟨h2, fun _ _ _ h hm htp hp => ?_⟩
          have := hT.2 h (ho.mem_iff.2 hm)
            (by rw [newOpOpts_skip hoo]; exact takesPart_iff.1 htp) hp
          rw [← newOpOpts_now hoo]
          show oo.now - s2.lastCompact h.name < _
          rw [hl]; exact this
      · rw [ht] at hT
        obtain ⟨_, hT, _⟩ := hT
        refine ⟨hT.1, fun errs h hi => absurd (.inl ⟨c, ?_⟩) hi⟩
        cases h; simp

theorem op_onward (A : App W R) (op : Op) (hop : op.ok A) (s : Sys W R) :
    Onward s (op.exec A s).1 := by
  cases op with
  | tick n order os => exact (tick_onward A n order hop os s).1
  | dispatch n m os =>
    unfold Op.exec engDispatch
    dsimp only
    split
    · exact .of_eq rfl
    · split
      · exact .of_eq rfl
      · split
        · exact .of_eq rfl
        · split
          · exact .of_eq rfl
          · split
            · exact .of_eq rfl
            · rename_i oo _ _ _ _ _ _ _
              have hl := dispatchLoop_last A oo n [Env.root (s.nextID + 1) m oo.now] []
                ({ s with nextID := s.nextID + 1 }.notify
                  (.dispatchCycleBegun (Env.root (s.nextID + 1) m oo.now) (oo.cycle A)))
              split
              · rename_i hd; rw [hd] at hl; exact .of_eq hl
              · rename_i hd; rw [hd] at hl; exact .of_eq hl
  | reset =>
    unfold Op.exec engReset
    obtain ⟨k, h1, _⟩ := runResetters_sum (R := R) A.uc.resetters 0 { s.emit .reset with
      nextID := 0, agg := fun _ _ => none, proc := fun _ => ⟨fun _ => none, []⟩ }
    rw [h1]
    exact .of_eq rfl

theorem reset_noneDue (A : App W R) (s : Sys W R) (name : String) (T : Time) :
    noneDue name T (Op.reset.exec A s).1 := by
  unfold Op.exec engReset noneDue
  obtain ⟨k, h1, _⟩ := runResetters_sum (R := R) A.uc.resetters 0 { s.emit .reset with
    nextID := 0, agg := fun _ _ => none, proc := fun _ => ⟨fun _ => none, []⟩ }
  rw [h1]
  exact nofun

/-! ## C119 -/

/-- **C119.**  After a tick that was not interrupted and did not panic, no handler that took part
has anything left to do at that time: its pending timeouts are for later, its next compaction is
not due. -/
theorem C119_settles {A : App W R} (wf : A.WF) {s : Sys W R} (hs : Reach A s) (n : Nat)
    (order : List HConfig) (ho : order.Perm A.cfgs) (os : List OpOption) {s' : Sys W R}
    {errs : List EngErr} (hr : (Op.tick n order os).exec A s = (s', .done errs))
    (hi : ¬ Interrupted errs) : Settled A os ((Op.tick n order os).time A s) s' where
  timeouts h hm ht hp := C31_none_left wf hs n order ho os hr hi h hm hp ht
  compaction h hm ht hp := by
    have := (tick_onward A n order ho os s).2
    rw [show engTick A n order os s = (s', .done errs) from hr] at this
    exact this errs rfl hi h hm ht hp

/-- **C119.**  This remains so whatever operations at that time, resets and changes of the world
follow, and however these end. -/
theorem C119_kept {A : App W R} (wf : A.WF) {s s' : Sys W R} (hs : Reach A s) (os : List OpOption)
    (T : Time) (ha : AtTime A T s s') (hd : Settled A os T s) : Settled A os T s' := by
  induction ha with
  | refl => exact hd
  | world w _ ih => exact ⟨ih.timeouts, ih.compaction⟩
  | @step s1 op ha hop ht ih =>
    refine ⟨fun h hm htp hp => ?_, fun h hm htp hp => ?_⟩
    · by_cases hne : op = .reset
      · subst hne; exact reset_noneDue A s1 h.name T
      · have := op_noneDue wf (ha.reach hs) op hop hne h.name
          (by rw [ht hne]; exact ih.timeouts h hm htp hp)
        rwa [ht hne] at this
    · have h1 := op_onward A op hop s1 h.name
      have h2 := ih.compaction h hm htp hp
      omega

theorem takeWhile_none {α : Type} {p : α → Bool} {l : List α} (h : ∀ x ∈ l, p x = false) :
    l.takeWhile p = [] ∧ l.dropWhile p = l := by
  cases l with
  | nil => exact ⟨rfl, rfl⟩
  | cons a l =>
    have := h a (by simp)
    exact ⟨by simp [List.takeWhile, this], by simp [List.dropWhile, this]⟩

/-- The tick of a handler that has nothing to do. -/
theorem ctlTick_idle {A : App W R} {h : HConfig} {T now : Time} (hle : now ≤ T) {s : Sys W R}
    (hp : h.htype = .process → noneDue h.name T s)
    (hc : h.htype = .projection → T - s.lastCompact h.name < compactInterval) :
    ctlTick A h now s = (s, .ok ([], none)) := by
  unfold ctlTick
  cases ht : h.htype with
  | aggregate => rfl
  | integration => rfl
  | process =>
    obtain ⟨h1, h2⟩ := takeWhile_none (p := fun e : Env => decide (e.scheduledFor ≤ now))
      (l := (s.proc h.name).timeouts) (by
        intro e he
        have : T < e.scheduledFor := hp ht e he
        simp; omega)
    simp only [procTick, h1, h2]
    have : s.setProc h ⟨(s.proc h.name).inst, (s.proc h.name).timeouts⟩ = s := by
      unfold Sys.setProc
      have : upd s.proc h.name ⟨(s.proc h.name).inst, (s.proc h.name).timeouts⟩ = s.proc := by
        funext n
        by_cases hn : n = h.name
        · subst hn; rw [upd_same]
        · rw [upd_ne _ _ hn]
      rw [this]
    rw [this]
  | projection =>
    have hn : ¬ timeSub now (s.lastCompact h.name) ≥ compactInterval := by
      intro hd
      have := (timeSub_ge _ _).1 hd
      have := hc ht
      omega
    simp only [prjTick, if_neg hn]

/-- A state with more facts in its trace. -/
def Sys.told (s : Sys W R) (fs : List Fact) : Sys W R :=
  { s with trace := s.trace ++ fs.map .fact }

theorem told_nil (s : Sys W R) : s.told [] = s := by
  unfold Sys.told; simp

theorem told_notify (s : Sys W R) (fs : List Fact) (f : Fact) :
    (s.told fs).notify f = s.told (fs ++ [f]) := by
  simp [Sys.told, Sys.notify, Sys.emit]

theorem told_told (s : Sys W R) (fs gs : List Fact) : (s.told fs).told gs = s.told (fs ++ gs) := by
  simp [Sys.told]

theorem notify_told (s : Sys W R) (f : Fact) : s.notify f = s.told [f] := rfl

theorem Settled.told {A : App W R} {os : List OpOption} {T : Time} {s : Sys W R}
    (h : Settled A os T s) (fs : List Fact) : Settled A os T (s.told fs) :=
  ⟨h.timeouts, h.compaction⟩

theorem tickAll_idle {A : App W R} {os os' : List OpOption} {T : Time} {oo : OpOpts}
    (hk : ∀ h, skipHandler oo h = whyNot os' h) (hle : oo.now ≤ T)
    (hsub : ∀ h ∈ A.cfgs, takesPart os' h = true → takesPart os h = true)
    (hs : List HConfig) : ∀ (s : Sys W R), (∀ h ∈ hs, h ∈ A.cfgs) → Settled A os T s →
      A.uc.ctxErr s.w = none →
      tickAll A oo hs [] [] s = (s.told (hs.flatMap (idleVisit os')), .ok ([], [], none)) := by
  induction hs with
  | nil => intro s _ _ _; simp only [tickAll, List.flatMap_nil, told_nil]
  | cons h hs ih =>
    intro s hm hd hc
    have hmh := hm h (by simp)
    have ih := fun s => ih s (fun x hx => hm x (by simp [hx]))
    rw [List.flatMap_cons, ← told_told]
    unfold tickAll
    rw [hk]
    cases hw : whyNot os' h with
    | some r =>
      have e : idleVisit os' h = [.tickSkipped h r] := by unfold idleVisit; rw [hw]
      rw [e]
      exact ih _ (hd.told [_]) hc
    | none =>
      have e : idleVisit os' h = [.tickBegun h, .tickCompleted h none] := by
        unfold idleVisit; rw [hw]
      have htp := hsub h hmh (takesPart_iff.2 hw)
      have ei := ctlTick_idle (A := A) (h := h) (now := oo.now) hle (s := s.notify (.tickBegun h))
        (fun hp => hd.timeouts h hmh htp hp) (fun hp => hd.compaction h hmh htp hp)
      simp only
      rw [ei]
      simp only [tagErr, List.append_nil]
      rw [show (s.notify (.tickBegun h)).notify (.tickCompleted h none) = s.told (idleVisit os' h) from by
        rw [e]; simp [Sys.told, Sys.notify, Sys.emit]]
      rw [show A.uc.ctxErr (s.told (idleVisit os' h)).w = none from hc]
      exact ih _ (hd.told _) hc

/-- **C119.**  If no handler has anything left to do at time `T`, a tick at this time or earlier –
visiting the handlers in any order, with the same handlers or fewer – calls no user code, creates
nothing, changes nothing, and returns no error: all there is to see are the facts that it began,
visited every handler, and ended. -/
theorem C119_idle {A : App W R} {s : Sys W R} {os : List OpOption} {T : Time}
    (hd : Settled A os T s) (n : Nat) (order : List HConfig) (ho : order.Perm A.cfgs)
    (os' : List OpOption) (hn : namesKnown A.cfgs os')
    (hsub : ∀ h ∈ A.cfgs, takesPart os' h = true → takesPart os h = true)
    (hle : (Op.tick n order os').time A s ≤ T) (hl : A.uc.lockErr s.w = none)
    (hc : A.uc.ctxErr s.w = none) :
    ∃ c : CycleInfo, c.Fits os' (A.uc.wallClock s.w) ∧
      (Op.tick n order os').exec A s =
        ({ s with trace := s.trace ++ (Fact.tickCycleBegun c :: order.flatMap (idleVisit os') ++
            [Fact.tickCycleCompleted c.maps []]).map Obs.fact }, .done []) := by
  obtain ⟨oo, hoo⟩ := newOpOpts_names (s := s).2 hn
  refine ⟨oo.cycle A, ?_, ?_⟩
  · exact newOpOpts_cycle hoo
  · show engTick A n order os' s = _
    unfold engTick
    rw [hoo]
    simp only
    rw [show A.uc.lockErr (s.notify (.tickCycleBegun (oo.cycle A))).w = none from hl]
    simp only
    unfold engTickLocked
    have e := tickAll_idle (A := A) (os := os) (os' := os') (T := T) (oo := oo) (newOpOpts_skip hoo)
      (by rw [newOpOpts_now hoo]; exact hle) hsub order (s.notify (.tickCycleBegun (oo.cycle A)))
      (fun h hm => ho.mem_iff.1 hm) (hd.told [_]) hc
    rw [e]
    have e2 : ∀ t : Sys W R, dispatchLoop A oo n [] [] t = (t, .done []) := by
      intro t; cases n <;> rfl
    simp only [e2, List.append_nil]
    rw [notify_told s, told_told, told_notify]
    rfl

/-- **C119.**  Ticking twice is ticking once: after a tick that was not interrupted and did not
panic, and any operations at the same time, however these ended, another tick at that time with the
same options does nothing at all. -/
theorem C119_twice {A : App W R} (wf : A.WF) {s : Sys W R} (hs : Reach A s) (n : Nat)
    (order : List HConfig) (ho : order.Perm A.cfgs) (os : List OpOption) {s' : Sys W R}
    {errs : List EngErr} (hr : (Op.tick n order os).exec A s = (s', .done errs))
    (hi : ¬ Interrupted errs) {s'' : Sys W R}
    (ha : AtTime A ((Op.tick n order os).time A s) s' s'')
    (n' : Nat) (order' : List HConfig) (ho' : order'.Perm A.cfgs)
    (hT : (Op.tick n' order' os).time A s'' = (Op.tick n order os).time A s)
    (hl : A.uc.lockErr s''.w = none) (hc : A.uc.ctxErr s''.w = none) :
    ∃ c : CycleInfo, c.Fits os (A.uc.wallClock s''.w) ∧
      (Op.tick n' order' os).exec A s'' =
        ({ s'' with trace := s''.trace ++ (Fact.tickCycleBegun c :: order'.flatMap (idleVisit os) ++
            [Fact.tickCycleCompleted c.maps []]).map Obs.fact }, .done []) := by
  have hs' : Reach A s' := by
    have := Reach.step (.tick n order os) hs ho
    rw [hr] at this; exact this
  have hd := C119_kept wf hs' os _ ha (C119_settles wf hs n order ho os hr hi)
  obtain ⟨oo, _, hoo, _⟩ := op_done wf hs (.tick n order os) ho (fun h => nomatch h) hr
  exact C119_idle hd n' order' ho' os (newOpOpts_names.1 ⟨oo, hoo⟩) (fun _ _ h => h)
    (by rw [hT]; exact Int.le_refl _) hl hc

/-! ### In a test -/

theorem takesPart_timed (c now : Time) (os : List OpOption) (h : HConfig) :
    takesPart (.currentTime c :: os ++ [.currentTime now]) h = takesPart os h := by
  have e1 : ∀ (β : Type) (f : OpOption → Option β), (∀ c, f (.currentTime c) = none) →
      lastSome f (.currentTime c :: os ++ [.currentTime now]) = lastSome f os := by
    intro β f hf
    have : lastSome f [.currentTime now] = none := by simp [lastSome, hf]
    rw [lastSome_append, this, lastSome_cons, hf]
    simp
  unfold takesPart
  rw [e1 _ _ (fun _ => rfl), e1 _ _ (fun _ => rfl)]

theorem engineTime_last (os : List OpOption) (now wall : Time) :
    engineTime (os ++ [.currentTime now]) wall = now := by
  simp only [engineTime, lastSome, List.reverse_append, List.reverse_cons, List.reverse_nil,
    List.nil_append, List.singleton_append, List.findSome?_cons, OpOption.timeSetting,
    Option.getD_some]

theorem Hist.atTime {A : App W R} {T : Time} {s s' : Sys W R} {l : List (Op × List Fact)}
    (h : Hist A s l s') (hl : ∀ x ∈ l, ∀ wall, engineTime x.1.opts wall = T) : AtTime A T s s' := by
  induction h with
  | nil => exact .refl
  | world w _ ih => exact .world w (ih hl)
  | step op _ hop _ ih =>
    refine .step op (ih fun x hx => hl x (List.mem_append_left _ hx)) hop fun _ => ?_
    exact hl _ (List.mem_append_right _ (List.mem_singleton.2 rfl)) _

/-- After an `AdvanceTime()` that was not interrupted (and did not panic), nothing is left to do. -/
theorem advance_settles {A : App W R} (wf : A.WF) {E : TEnv W} (hE : E.Fair A) {t : TSt W R}
    (hs : Reach A t.sys) (desc : String) (step : Time → W → W × Except PanicVal Time)
    (extra : List OpOption) {t' : TSt W R} {r : Option TErr}
    (hr : (Action.advance desc step).run A E extra t = (t', .done r))
    (h1 : r ≠ some (.reversed desc)) (h2 : ∀ es, r = some (.engine es) → ¬ Interrupted es) :
    Settled A (t.opts ++ extra) t'.clock t'.sys ∧ namesKnown A.cfgs (t.opts ++ extra) ∧
      Reach A t'.sys ∧ t'.opts = t.opts := by
  unfold Action.run at hr
  rcases hst : step t.clock t.sys.w with ⟨w, v | now⟩
  · rw [hst] at hr; cases hr
  · rw [hst] at hr
    simp only at hr
    split at hr
    · cases hr; exact absurd rfl h1
    · have hs1 : Reach A { t.sys with w := w } := .world w hs
      unfold TSt.engine at hr
      simp only at hr
      rcases hx : (Op.tick E.fuel (E.order w) (t.actOpts extra ++ [.currentTime now])).exec A
        { t.sys with w := w } with ⟨s', o⟩
      rw [hx] at hr
      simp only [Prod.mk.injEq] at hr
      obtain ⟨rfl, hr⟩ := hr
      have hs2 : Reach A s' := by
        have := Reach.step (.tick E.fuel (E.order w) (t.actOpts extra ++ [.currentTime now])) hs1 (hE w)
        rw [hx] at this; exact this
      have key : ∀ es, o = .done es → ¬ Interrupted es →
          Settled A (t.opts ++ extra) now s' ∧ namesKnown A.cfgs (t.opts ++ extra) := by
        intro es hes hi
        rw [hes] at hx
        have hd := C119_settles wf hs1 E.fuel (E.order w) (hE w) _ hx hi
        have ht : (Op.tick E.fuel (E.order w) (t.actOpts extra ++ [.currentTime now])).time A
          { t.sys with w := w } = now := engineTime_last _ _ _
        rw [ht] at hd
        have htp : ∀ h, takesPart (t.actOpts extra ++ [.currentTime now]) h =
          takesPart (t.opts ++ extra) h := fun h => takesPart_timed _ _ _ h
        obtain ⟨oo, _, hoo, _⟩ := op_done wf hs1
          (.tick E.fuel (E.order w) (t.actOpts extra ++ [.currentTime now])) (hE w)
          (fun h => nomatch h) hx
        have hk := newOpOpts_names.1 ⟨oo, hoo⟩
        refine ⟨⟨fun h hm hp => hd.timeouts h hm (by rw [htp]; exact hp),
          fun h hm hp => hd.compaction h hm (by rw [htp]; exact hp)⟩, fun n b hm => hk n b ?_⟩
        simp only [Op.opts, TSt.actOpts, List.cons_append, List.append_assoc, List.mem_cons]
        rw [← List.append_assoc]
        exact .inr (List.mem_append_left _ hm)
      refine ⟨?_, ?_, hs2, rfl⟩
      · cases o with
        | done es =>
          cases es with
          | nil => exact (key [] rfl (by rintro (⟨c, h⟩ | ⟨c, h⟩) <;> cases h)).1
          | cons x es => cases hr; exact (key _ rfl (h2 _ rfl)).1
        | panicked v => cases hr
        | running => cases hr
      · cases o with
        | done es =>
          cases es with
          | nil => exact (key [] rfl (by rintro (⟨c, h⟩ | ⟨c, h⟩) <;> cases h)).2
          | cons x es => cases hr; exact (key _ rfl (h2 _ rfl)).2
        | panicked v => cases hr
        | running => cases hr

/-- **C119.**  In a test: after an `AdvanceTime()` that was not interrupted and did not panic, and
any further action that does not advance the time, however it ended, an `AdvanceTime()` that does not
move the clock leaves everything as it is and succeeds. -/
theorem C119_advance {A : App W R} (wf : A.WF) {E : TEnv W} (hE : E.Fair A) {t : TSt W R}
    (hs : Reach A t.sys) (ho : noTime t.opts) (desc : String)
    (step : Time → W → W × Except PanicVal Time) (extra : List OpOption) {t' : TSt W R}
    {r : Option TErr} (hr : (Action.advance desc step).run A E extra t = (t', .done r))
    (h1 : r ≠ some (.reversed desc)) (h2 : ∀ es, r = some (.engine es) → ¬ Interrupted es)
    (a : Action W) (ha : a.Timeless) (extra' : List OpOption) (he : noTime extra')
    {t'' : TSt W R} (hu : (a.run A E extra' t').1 = t'')
    (desc' : String) (step' : Time → W → W × Except PanicVal Time)
    (hst : step' t''.clock t''.sys.w = (t''.sys.w, .ok t''.clock))
    (hl : A.uc.lockErr t''.sys.w = none) (hc : A.uc.ctxErr t''.sys.w = none) :
    ∃ fs : List Fact,
      ((Action.advance desc' step').run A E extra t'').1.sys =
        { t''.sys with trace := t''.sys.trace ++ fs.map .fact } ∧
      ((Action.advance desc' step').run A E extra t'').1.clock = t''.clock ∧
      ((Action.advance desc' step').run A E extra t'').2 = .done none := by
  obtain ⟨hd, hk, hs', hopt⟩ := advance_settles wf hE hs desc step extra hr h1 h2
  have hclk : t''.clock = t'.clock := by rw [← hu]; exact C56_only_advance A E a ha extra' t'
  have hopt2 : t''.opts = t.opts := by
    rw [← hu, (a.run_after A E extra' t').opts]; exact hopt
  have hat : AtTime A t'.clock t'.sys t''.sys := by
    obtain ⟨l, g1, g2⟩ := a.run_hist A E hE extra' t'
    obtain ⟨l', k1, k2⟩ := C63_partial A E a ha extra' t' he (by rw [hopt]; exact ho)
    have : l = l' := List.append_cancel_left (g1.symm.trans k1)
    subst this
    rw [hu] at g2
    refine Hist.atTime g2 ?_
    intro x hx
    obtain ⟨o, hom, hox⟩ := List.mem_filterMap.1 hx
    split at hox
    · cases hox; exact (k2 _ _ _ hom).2
    · cases hox
  have hd2 := C119_kept wf hs' _ _ hat hd
  obtain ⟨c, _, hx⟩ := C119_idle hd2 E.fuel (E.order t''.sys.w) (hE _)
    (t''.actOpts extra ++ [.currentTime t''.clock])
    (by
      intro n b hm
      simp only [TSt.actOpts, List.cons_append, List.append_assoc, List.mem_cons,
        List.mem_append, List.not_mem_nil, or_false, reduceCtorEq, false_or] at hm
      rw [hopt2] at hm
      exact hk n b (List.mem_append.2 hm))
    (fun h _ htp => by
      have := takesPart_timed t''.clock t''.clock (t''.opts ++ extra) h
      rw [← hopt2]; rw [← this]; exact htp)
    (by
      show engineTime (t''.actOpts extra ++ [.currentTime t''.clock]) _ ≤ _
      rw [engineTime_last, hclk]; exact Int.le_refl _)
    hl hc
  have e : (Action.advance desc' step').run A E extra t'' = t''.engine A
      (.tick E.fuel (E.order t''.sys.w) (t''.actOpts extra ++ [.currentTime t''.clock])) := by
    unfold Action.run
    rw [hst]
    simp only
    rw [if_neg (Int.lt_irrefl _)]
  rw [e]
  unfold TSt.engine
  rw [hx]
  exact ⟨_, rfl, rfl, rfl⟩

namespace Demo

/-- Five hours after Go's zero time. -/
def fiveHours : List OpOption := [.currentTime (5 * compactInterval)]

/-- The first tick. -/
def firstTick : Op := .tick 20 [agg, proc, int, prj] fiveHours

/-- A process instance has a timeout that is due at time 10. -/
def unticked : Sys Nat (List String) :=
  ((Op.dispatch 20 (msgC "x") [.currentTime 5]).exec app (Sys.init 0)).1

/-- After the first tick. -/
def ticked : Sys Nat (List String) := (firstTick.exec app unticked).1

/-- Another command is dispatched at the same time. -/
def worked : Sys Nat (List String) :=
  ((Op.dispatch 20 (msgC "x") fiveHours).exec app ticked).1

theorem unticked_reach : Reach app unticked := .step _ (.init 0) trivial

theorem fiveHours_time (s : Sys Nat (List String)) (op : Op) (h : op.opts = fiveHours) :
    op.time app s = 5 * compactInterval := by
  unfold Op.time
  rw [h]
  rfl

theorem worked_atTime : AtTime app (firstTick.time app unticked) ticked worked :=
  .step _ .refl trivial (fun _ => by rw [fiveHours_time _ _ rfl, fiveHours_time _ firstTick rfl])

end Demo

set_option maxRecDepth 100000 in
/-- The first tick delivers a timeout and compacts the projection. -/
example : (dispatchedIn (during Demo.unticked Demo.ticked)).map (fun e => e.msg.type.name) =
      ["T", "D", "F"] ∧
    tickCompactions "prj" Demo.ticked.trace = [5 * compactInterval] ∧
    (Demo.firstTick.exec Demo.app Demo.unticked).2 = .done [] := by decide +kernel

set_option maxRecDepth 100000 in
/-- The dispatch after it delivers a timeout as well; the second tick only visits the handlers. -/
example : ((dispatchedIn (during Demo.ticked Demo.worked)).map (fun e => e.msg.type.name)).count "T" = 1 ∧
    ∃ c : CycleInfo, c.Fits Demo.fiveHours 0 ∧
      (Op.tick 20 [Demo.prj, Demo.proc, Demo.int, Demo.agg] Demo.fiveHours).exec Demo.app Demo.worked =
        ({ Demo.worked with trace := Demo.worked.trace ++
            [.fact (.tickCycleBegun c), .fact (.tickBegun Demo.prj), .fact (.tickCompleted Demo.prj none),
              .fact (.tickBegun Demo.proc), .fact (.tickCompleted Demo.proc none),
              .fact (.tickBegun Demo.int), .fact (.tickCompleted Demo.int none),
              .fact (.tickBegun Demo.agg), .fact (.tickCompleted Demo.agg none),
              .fact (.tickCycleCompleted c.maps [])] }, .done []) := by
  refine ⟨by decide +kernel, ?_⟩
  have hr : Demo.firstTick.exec Demo.app Demo.unticked = (Demo.ticked, .done []) :=
    Prod.ext rfl (by decide +kernel)
  exact C119_twice Demo.app_wf Demo.unticked_reach 20 _ (List.Perm.refl _) Demo.fiveHours hr
    (by rintro (⟨c, h⟩ | ⟨c, h⟩) <;> cases h) Demo.worked_atTime 20
    [Demo.prj, Demo.proc, Demo.int, Demo.agg] (by decide)
    (by rw [Demo.fiveHours_time _ _ rfl, Demo.fiveHours_time _ _ rfl]) (by decide +kernel)
    (by decide +kernel)

set_option maxRecDepth 100000 in
/-- It is different if the first tick was interrupted: in world 1 the context is cancelled, and the
tick ends before it gets to the process. -/
example : (Demo.firstTick.exec Demo.app { Demo.unticked with w := 1 }).2 =
      .done [.ctx "context canceled"] ∧
    let s := { (Demo.firstTick.exec Demo.app { Demo.unticked with w := 1 }).1 with w := 0 }
    (dispatchedIn (during s (Demo.firstTick.exec Demo.app s).1)).map (fun e => e.msg.type.name) =
      ["T", "D", "F"] := by decide +kernel

theorem Demo.h2_sys : Reach Demo.app Demo.h2.sys := by
  obtain ⟨l, _, g⟩ := (Action.dispatch (W := Nat) (Demo.msgC "x")).run_hist Demo.app Demo.tenv Demo.tenv_fair []
    ((TSt.begin 0 0 [] none).announce (.dispatch (Demo.msgC "x")))
  obtain ⟨l', _, g'⟩ := (Demo.toTime 5).run_hist Demo.app Demo.tenv Demo.tenv_fair []
    (Demo.h1.announce (Demo.toTime 5))
  exact g'.reach (g.reach (.init 0))

set_option maxRecDepth 100000 in
/-- The demo's test advances the time to 10, which delivers a timeout; then a command is executed,
which makes the process schedule a timeout for this very time.  Advancing the time to 10 once more
does nothing. -/
example :
    let t := ((Action.dispatch (Demo.msgC "z")).run Demo.app Demo.tenv [] Demo.h3).1
    (dispatchedIn (during Demo.h3.sys t.sys)).any (fun e => e.msg.type.kind = .timeout) = true ∧
    ∃ fs : List Fact, ((Demo.toTime 10).run Demo.app Demo.tenv [] t).1.sys =
        { t.sys with trace := t.sys.trace ++ fs.map .fact } ∧
      ((Demo.toTime 10).run Demo.app Demo.tenv [] t).1.clock = t.clock ∧
      ((Demo.toTime 10).run Demo.app Demo.tenv [] t).2 = .done none := by
  intro t
  have hc : t.clock = 10 := by decide +kernel
  refine ⟨by decide +kernel, ?_⟩
  exact C119_advance Demo.app_wf Demo.tenv_fair (t := Demo.h2.announce (Demo.toTime 10)) Demo.h2_sys
    nofun _ _ [] Demo.h3_run nofun nofun (.dispatch (Demo.msgC "z")) (.dispatch _) [] nofun rfl _ _
    (by rw [show ((Action.dispatch (Demo.msgC "z")).run Demo.app Demo.tenv [] Demo.h3).1.clock = 10 from hc])
    (by decide +kernel) (by decide +kernel)

end Verif
