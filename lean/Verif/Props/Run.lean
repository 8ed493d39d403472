import Verif.Run
import Verif.Frame
import Verif.Options
import Verif.Demo

/-!
# Properties of the tick loop

C64.
-/

namespace Verif

variable {W R : Type}

/-! ## Specification -/

/-- The engine times of the ticks begun. -/
def tickTimes (t : List (Obs R)) : List Time :=
  t.filterMap fun
    | .fact (.tickCycleBegun c) => some c.now
    | _ => none

/-- The results of the ticks completed. -/
def tickResults (t : List (Obs R)) : List (List EngErr) :=
  t.filterMap fun
    | .fact (.tickCycleCompleted _ e) => some e
    | _ => none

/-! ## Lemmas -/

/-- Neither the beginning nor the end of an operation. -/
def Obs.inTick : Obs R → Prop
  | .fact (.tickCycleBegun _) | .fact (.tickCycleCompleted _ _) => False
  | .fact (.dispatchCycleBegun _ _) | .fact (.dispatchCycleCompleted _ _ _) => False
  | _ => True

theorem inTick_inner {h : HConfig} {now : Time} {env : Env} {o : Obs R}
    (ho : InnerObs h now env o) : o.inTick := by
  cases o with
  | call c => trivial
  | reset => trivial
  | fact f =>
    cases f <;>
      first
      | trivial
      | (rcases ho with ho | ⟨ev, ho, _⟩
         · exact ho.elim
         · cases ho)

theorem inTick_tick {h : HConfig} {now : Time} {o : Obs R} (ho : TickObs h now o) : o.inTick := by
  cases o with
  | call c => trivial
  | reset => trivial
  | fact f => cases f <;> first | trivial | exact ho.elim

/-- `s'` continues `s` without beginning or ending an operation. -/
def Within (s s' : Sys W R) : Prop := ∃ seg, s'.trace = s.trace ++ seg ∧ ∀ o ∈ seg, o.inTick

theorem Within.refl (s : Sys W R) : Within s s := ⟨[], by simp, by simp⟩

theorem Within.trans {a b c : Sys W R} : Within a b → Within b c → Within a c := by
  rintro ⟨x, h1, h2⟩ ⟨y, h3, h4⟩
  refine ⟨x ++ y, by simp [h1, h3], ?_⟩
  intro o ho
  rcases List.mem_append.1 ho with ho | ho
  · exact h2 o ho
  · exact h4 o ho

theorem Within.fact {a b : Sys W R} (h : Within a b) {f : Fact} (hf : (Obs.fact f : Obs R).inTick) :
    Within a (b.notify f) :=
  h.trans ⟨[.fact f], rfl, by intro o ho; rw [List.mem_singleton.1 ho]; exact hf⟩

theorem within_handle (A : App W R) (oo : OpOpts) (env : Env) (h : HConfig) (s : Sys W R) :
    Within s (handleOne A oo env h s).1 := by
  unfold handleOne
  split
  · exact (Within.refl s).fact trivial
  · obtain ⟨seg, e1, e2, _⟩ := ctlHandle_sum A h oo.now env (s.notify (.handlingBegun h env))
    have h1 := ((Within.refl s).fact (f := .handlingBegun h env) trivial).trans
      ⟨seg, e1, fun o ho => inTick_inner (e2 o ho)⟩
    split
    · rename_i he; rw [he] at h1; exact h1
    · rename_i he; rw [he] at h1; exact h1.fact trivial

theorem within_disp (A : App W R) (oo : OpOpts) (s0 : Sys W R) :
    DispRule A oo (fun _ _ s => Within s0 s) (fun _ _ _ _ _ s => Within s0 s)
      (fun s => Within s0 s) where
  begin_ env q errs s hs _ h := h.fact trivial
  handle env done h rest q errs de s s' envs e _ hj hr := by
    have := within_handle A oo env h s; rw [hr] at this; exact hj.trans this
  panic env done h rest q errs de s s' v _ hj hr := by
    have := within_handle A oo env h s; rw [hr] at this; exact hj.trans this
  panicT env q errs s v _ h := h
  end_ env hs q errs de s _ h := h.fact trivial

theorem within_ctlTick (A : App W R) (h : HConfig) (now : Time) (s : Sys W R) :
    Within s (ctlTick A h now s).1 := by
  obtain ⟨seg, e⟩ := ctlTick_sum A h now s
  exact ⟨seg, e.trace, fun o ho => inTick_tick (e.obs o ho).1⟩

theorem within_tick (A : App W R) (oo : OpOpts) (s0 : Sys W R) :
    TickRule A oo (fun _ _ _ s => Within s0 s) (fun s => Within s0 s) where
  skip done h q errs s r _ hi _ := hi.fact trivial
  tick done h q errs s s' envs e _ hi _ hr := by
    have := within_ctlTick A h oo.now (s.notify (.tickBegun h)); rw [hr] at this
    exact ((hi.fact (f := .tickBegun h) trivial).trans this).fact trivial
  panic done h q errs s s' v _ hi _ hr := by
    have := within_ctlTick A h oo.now (s.notify (.tickBegun h)); rw [hr] at this
    exact (hi.fact (f := .tickBegun h) trivial).trans this

theorem within_locked (A : App W R) (oo : OpOpts) (fuel : Nat) (order : List HConfig)
    (ho : order.Perm A.cfgs) (s : Sys W R) : Within s (engTickLocked A oo fuel order s).1 := by
  unfold engTickLocked
  have h1 := (within_tick A oo s).all order [] [] [] s (fun h hh => ho.mem_iff.1 hh) (.refl s)
  rcases hx : tickAll A oo order [] [] s with ⟨s1, v | ⟨q, errs, _ | c⟩⟩ <;> rw [hx] at h1
  · exact h1
  · have h1' : Within s s1 := h1
    have h2 := (within_disp A oo s).loop fuel q [] s1 h1'
    simp only
    rcases hy : dispatchLoop A oo fuel q [] s1 with ⟨s2, e | v | _⟩ <;> rw [hy] at h2
    · rcases h2 with h2 | ⟨_, _, _, h2, _⟩ <;> exact h2
    · exact h2
    · obtain ⟨_, _, h2⟩ := h2; exact h2
  · obtain ⟨_, h1, _⟩ := h1; exact h1

theorem inTick_none {seg : List (Obs R)} (h : ∀ o ∈ seg, o.inTick) :
    tickTimes seg = [] ∧ tickResults seg = [] := by
  induction seg with
  | nil => exact ⟨rfl, rfl⟩
  | cons o seg ih =>
    obtain ⟨a, b⟩ := ih (fun x hx => h x (by simp [hx]))
    have ho := h o (by simp)
    unfold tickTimes tickResults at *
    rw [List.filterMap_cons, List.filterMap_cons, a, b]
    constructor
    · split
      · rfl
      · rename_i hx; split at hx <;> first | exact ho.elim | cases hx
    · split
      · rfl
      · rename_i hx; split at hx <;> first | exact ho.elim | cases hx

/-- One tick: it begins once, at the engine time given by its options; and if it is done, it
ends once, with the errors returned. -/
theorem engTick_cycle (A : App W R) (fuel : Nat) (order : List HConfig) (ho : order.Perm A.cfgs)
    (os : List OpOption) (hn : namesKnown A.cfgs os) (s : Sys W R) :
    ∃ seg, (engTick A fuel order os s).1.trace = s.trace ++ seg ∧
      tickTimes seg = [engineTime os (A.uc.wallClock s.w)] ∧
      tickResults seg = (match (engTick A fuel order os s).2 with
        | .done e => [e]
        | _ => []) := by
  obtain ⟨oo, hoo⟩ := newOpOpts_names (s := s) |>.2 hn
  have hnow := newOpOpts_now hoo
  unfold engTick
  rw [hoo]
  simp only
  split
  · exact ⟨[_, _], by simp [Sys.notify, Sys.emit]; exact ⟨rfl, rfl⟩, by simp [tickTimes, hnow, OpOpts.cycle], rfl⟩
  · obtain ⟨seg, h1, h2⟩ := within_locked A oo fuel order ho (s.notify (.tickCycleBegun (oo.cycle A)))
    obtain ⟨h3, h4⟩ := inTick_none h2
    rcases hx : engTickLocked A oo fuel order (s.notify (.tickCycleBegun (oo.cycle A))) with
      ⟨s1, e | v | _⟩ <;> rw [hx] at h1
    · refine ⟨.fact (.tickCycleBegun (oo.cycle A)) :: (seg ++ [.fact (.tickCycleCompleted (oo.cycle A).maps e)]), ?_, ?_, ?_⟩
      · simp only at h1; simp [Sys.notify, Sys.emit, h1]
      · simp only [tickTimes] at h3 ⊢; simp [h3, hnow, OpOpts.cycle]
      · simp only [tickResults] at h4 ⊢; simp [h4]
    · refine ⟨.fact (.tickCycleBegun (oo.cycle A)) :: seg, ?_, ?_, ?_⟩
      · simp only at h1; simp [Sys.notify, Sys.emit, h1]
      · simp only [tickTimes] at h3 ⊢; simp [h3, hnow, OpOpts.cycle]
      · simp only [tickResults] at h4 ⊢; simp [h4]
    · refine ⟨.fact (.tickCycleBegun (oo.cycle A)) :: seg, ?_, ?_, ?_⟩
      · simp only at h1; simp [Sys.notify, Sys.emit, h1]
      · simp only [tickTimes] at h3 ⊢; simp [h3, hnow, OpOpts.cycle]
      · simp only [tickResults] at h4 ⊢; simp [h4]

theorem tickTimes_append (a b : List (Obs R)) : tickTimes (a ++ b) = tickTimes a ++ tickTimes b :=
  List.filterMap_append

theorem tickResults_append (a b : List (Obs R)) :
    tickResults (a ++ b) = tickResults a ++ tickResults b := List.filterMap_append

/-- What the results of the ticks say about how the run ended. -/
def EndsWith (k : Nat) (results : List (List EngErr)) (sleepErr : Err → Prop) :
    Outcome RunErr → Prop
  | .done (.tick e) => e ≠ [] ∧ ∃ j, k = j + 1 ∧ results = List.replicate j [] ++ [e]
  | .done (.sleep e) => results = List.replicate k [] ∧ sleepErr e
  | _ => ∀ r ∈ results, r = []

theorem lastSome_none_time {os : List OpOption} (ht : ∀ t, .currentTime t ∉ os) :
    lastSome OpOption.timeSetting os = none := by
  unfold lastSome
  rw [List.findSome?_eq_none_iff]
  intro o ho
  cases o with
  | currentTime t => exact (ht t (List.mem_reverse.1 ho)).elim
  | _ => rfl

/-- The option at the beginning has the same effect as the wall clock. -/
theorem engineTime_cons (c : Time) (os : List OpOption) (wall : Time) :
    engineTime (.currentTime c :: os) wall = engineTime os c := by
  unfold engineTime
  rw [lastSome_cons]
  cases lastSome OpOption.timeSetting os <;> rfl

theorem runLoop_sum (A : App W R) (E : RunEnv W) (hord : ∀ w, (E.order w).Perm A.cfgs)
    (fuel : Nat) (start epoch : Time) (os : List OpOption) (hn : namesKnown A.cfgs os)
    (n : Nat) : ∀ s : Sys W R,
    ∃ seg, (runLoop A E fuel start epoch os n s).1.trace = s.trace ++ seg ∧
      tickTimes seg = (runLoop A E fuel start epoch os n s).2.2.map
        (fun r => engineTime os (epoch + E.multiply (r - start))) ∧
      EndsWith (runLoop A E fuel start epoch os n s).2.2.length (tickResults seg)
        (fun e => ∃ w, E.sleep w = ((runLoop A E fuel start epoch os n s).1.w, some e))
        (runLoop A E fuel start epoch os n s).2.1 := by
  induction n with
  | zero => intro s; exact ⟨[], by simp [runLoop], rfl, by intro r hr; simp [tickResults] at hr⟩
  | succ n ih =>
    intro s
    unfold runLoop
    obtain ⟨seg, h1, h2, h3⟩ := engTick_cycle A fuel (E.order s.w) (hord s.w)
      (.currentTime (epoch + E.multiply (A.uc.wallClock s.w - start)) :: os)
      (by intro n' b hm
          rcases List.mem_cons.1 hm with hm | hm
          · cases hm
          · exact hn n' b hm) s
    have h2' : tickTimes seg =
        [engineTime os (epoch + E.multiply (A.uc.wallClock s.w - start))] := by
      rw [h2, engineTime_cons]
    simp only
    rcases hx : engTick A fuel (E.order s.w)
        (.currentTime (epoch + E.multiply (A.uc.wallClock s.w - start)) :: os) s with
      ⟨s1, (_ | ⟨e, es⟩) | v | _⟩ <;> rw [hx] at h1 h3
    · simp only at h1 h3 ⊢
      rcases hsl : E.sleep s1.w with ⟨w, _ | e⟩
      · simp only
        obtain ⟨seg', g1, g2, g3⟩ := ih { s1 with w := w }
        rcases hy : runLoop A E fuel start epoch os n { s1 with w := w } with ⟨s2, o, reads⟩
        rw [hy] at g1 g2 g3
        simp only at g1 g2 g3 ⊢
        refine ⟨seg ++ seg', by rw [g1, h1, List.append_assoc], ?_, ?_⟩
        · rw [tickTimes_append, h2', g2]; rfl
        · rw [tickResults_append, h3]
          cases o with
          | done r =>
            cases r with
            | tick e =>
              obtain ⟨a, j, b, c⟩ := g3
              refine ⟨a, j + 1, by simp [b], ?_⟩
              rw [c, List.replicate_succ]; rfl
            | sleep e =>
              obtain ⟨a, b⟩ := g3
              refine ⟨?_, b⟩
              rw [a, List.length_cons, List.replicate_succ]; rfl
          | panicked v =>
            intro r hr
            rcases List.mem_append.1 hr with hr | hr
            · exact List.mem_singleton.1 hr
            · exact g3 r hr
          | running =>
            intro r hr
            rcases List.mem_append.1 hr with hr | hr
            · exact List.mem_singleton.1 hr
            · exact g3 r hr
      · exact ⟨seg, h1, h2', by rw [h3]; exact ⟨rfl, s1.w, hsl⟩⟩
    · exact ⟨seg, h1, h2', by rw [h3]; exact ⟨nofun, 0, rfl, rfl⟩⟩
    · exact ⟨seg, h1, h2', by rw [h3]; intro r hr; simp at hr⟩
    · exact ⟨seg, h1, h2', by rw [h3]; intro r hr; simp at hr⟩

/-! ## C64 -/

/-- **C64 (1).**  The loop performs ticks at engine time `epoch + f * elapsed` (where the epoch
is the time at which the loop was started, if not given), unless an option given to the loop sets
the time; it goes on as long as ticks and sleeps return no error, and stops at the first error,
which it returns.  (`engineTime os c` is the time set by the last of the options `os` that sets
one, and `c` if there is none.) -/
theorem C64_ticks (A : App W R) (E : RunEnv W) (hord : ∀ w, (E.order w).Perm A.cfgs)
    (fuel n : Nat) (epoch : Time) (os : List OpOption) (hn : namesKnown A.cfgs os)
    (s : Sys W R) {s' : Sys W R} {o : Outcome RunErr}
    {reads : List Time} (hr : runTimeScaled A E fuel n epoch os s = (s', o, reads)) :
    tickTimes (during s s') = reads.map (fun r => engineTime os
      ((if epoch = 0 then A.uc.wallClock s.w else epoch) +
        E.multiply (r - A.uc.wallClock s.w))) ∧
    EndsWith reads.length (tickResults (during s s')) (fun e => ∃ w, E.sleep w = (s'.w, some e)) o := by
  obtain ⟨seg, h1, h2, h3⟩ := runLoop_sum A E hord fuel (A.uc.wallClock s.w)
    (if epoch = 0 then A.uc.wallClock s.w else epoch) os hn n s
  unfold runTimeScaled at hr
  simp only at hr
  rw [hr] at h1 h2 h3
  rw [during_seg h1]
  exact ⟨h2, h3⟩

/-- **C64 (2).**  If the wall clock never goes back and multiplying durations is monotonic
(`f ≥ 0`), engine time never decreases, whatever the options. -/
theorem C64_monotonic (A : App W R) (E : RunEnv W) (hord : ∀ w, (E.order w).Perm A.cfgs)
    (fuel n : Nat) (epoch : Time) (os : List OpOption) (hn : namesKnown A.cfgs os)
    (s : Sys W R) {s' : Sys W R} {o : Outcome RunErr}
    {reads : List Time} (hr : runTimeScaled A E fuel n epoch os s = (s', o, reads))
    (hw : reads.Pairwise (· ≤ ·)) (hm : ∀ a b, a ≤ b → E.multiply a ≤ E.multiply b) :
    (tickTimes (during s s')).Pairwise (· ≤ ·) := by
  rw [(C64_ticks A E hord fuel n epoch os hn s hr).1, List.pairwise_map]
  refine hw.imp ?_
  intro a b hab
  have := hm (a - A.uc.wallClock s.w) (b - A.uc.wallClock s.w) (by omega)
  unfold engineTime
  cases lastSome OpOption.timeSetting os with
  | none => simp only [Option.getD_none]; omega
  | some c => exact Int.le_refl _

/-- **C64 (3).**  `Run` ticks at the time of the wall clock, unless an option sets the time. -/
theorem C64_run (A : App W R) (E : RunEnv W) (hord : ∀ w, (E.order w).Perm A.cfgs)
    (fuel n : Nat) (os : List OpOption) (hn : namesKnown A.cfgs os)
    (s : Sys W R) {s' : Sys W R} {o : Outcome RunErr}
    {reads : List Time} (hr : run A E fuel n os s = (s', o, reads)) :
    tickTimes (during s s') = reads.map (engineTime os) := by
  rw [(C64_ticks A { E with multiply := fun x => x } hord fuel n 0 os hn s hr).1]
  apply List.map_congr_left
  intro r _
  simp only [if_true]
  congr 1
  omega

/-- **C64 (4).**  An option that sets the time keeps the engine's time from moving: all ticks take
place at the time set by the last such option. -/
theorem C64_overridden (A : App W R) (E : RunEnv W) (hord : ∀ w, (E.order w).Perm A.cfgs)
    (fuel n : Nat) (epoch c : Time) (pre post : List OpOption)
    (hn : namesKnown A.cfgs (pre ++ .currentTime c :: post)) (hp : ∀ c', .currentTime c' ∉ post)
    (s : Sys W R) {s' : Sys W R} {o : Outcome RunErr} {reads : List Time}
    (hr : runTimeScaled A E fuel n epoch (pre ++ .currentTime c :: post) s = (s', o, reads)) :
    tickTimes (during s s') = List.replicate reads.length c := by
  rw [(C64_ticks A E hord fuel n epoch _ hn s hr).1, List.map_eq_replicate_iff]
  intro r _
  unfold engineTime
  rw [lastSome, List.reverse_append, List.findSome?_append]
  have := lastSome_none_time hp
  rw [lastSome] at this
  rw [List.reverse_cons, List.findSome?_append, this]
  rfl

namespace Demo

/-- A clock that advances by 5 with every sleep; the third sleep is interrupted. -/
def runEnv : RunEnv Nat where
  sleep w := (w + 5, if w ≥ 20 then some "context canceled" else none)
  order _ := [agg, proc, int, prj]
  multiply x := 2 * x

def clocked : App Nat (List String) := { app with uc := { uc with wallClock := fun w => w } }

def ran := runTimeScaled clocked runEnv 20 10 1000 [] (Sys.init 10)

end Demo

set_option maxRecDepth 100000 in
/-- Three ticks at a doubled pace, then the sleep fails. -/
example : tickTimes Demo.ran.1.trace = [1000, 1010, 1020] ∧
    Demo.ran.2 = (.done (.sleep "context canceled"), [10, 15, 20]) := by decide +kernel

/-- The same with options that set the time. -/
def Demo.frozen := runTimeScaled Demo.clocked Demo.runEnv 20 10 1000
  [.currentTime 70, .currentTime 77, .enableType .projection false] (Sys.init 10)

set_option maxRecDepth 100000 in
example : tickTimes Demo.frozen.1.trace = [77, 77, 77] ∧
    Demo.frozen.2 = (.done (.sleep "context canceled"), [10, 15, 20]) := by decide +kernel

end Verif
