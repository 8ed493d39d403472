import Verif.Steps
import Verif.Spec

/-!
# Segments

What a run of a handler method adds to the trace, and how the scope's fields
follow from it.  Proof machinery.
-/

namespace Verif

variable {W R : Type}

@[simp] theorem Sys.emit_trace (s : Sys W R) (o) : (s.emit o).trace = s.trace ++ [o] := rfl
@[simp] theorem Sys.emit_agg (s : Sys W R) (o) : (s.emit o).agg = s.agg := rfl
@[simp] theorem Sys.emit_proc (s : Sys W R) (o) : (s.emit o).proc = s.proc := rfl
@[simp] theorem Sys.emit_last (s : Sys W R) (o) : (s.emit o).lastCompact = s.lastCompact := rfl
@[simp] theorem Sys.emit_w (s : Sys W R) (o) : (s.emit o).w = s.w := rfl
@[simp] theorem Sys.emit_nextID (s : Sys W R) (o) : (s.emit o).nextID = s.nextID := rfl
@[simp] theorem Sys.notify_trace (s : Sys W R) (f) : (s.notify f).trace = s.trace ++ [.fact f] := rfl
@[simp] theorem Sys.notify_agg (s : Sys W R) (o) : (s.notify o).agg = s.agg := rfl
@[simp] theorem Sys.notify_proc (s : Sys W R) (o) : (s.notify o).proc = s.proc := rfl
@[simp] theorem Sys.notify_last (s : Sys W R) (o) : (s.notify o).lastCompact = s.lastCompact := rfl
@[simp] theorem Sys.notify_w (s : Sys W R) (o) : (s.notify o).w = s.w := rfl
@[simp] theorem Sys.notify_nextID (s : Sys W R) (o) : (s.notify o).nextID = s.nextID := rfl
@[simp] theorem Sys.setProc_trace (s : Sys W R) (h p) : (s.setProc h p).trace = s.trace := rfl
@[simp] theorem Sys.setProc_agg (s : Sys W R) (h p) : (s.setProc h p).agg = s.agg := rfl
@[simp] theorem Sys.setProc_last (s : Sys W R) (h p) : (s.setProc h p).lastCompact = s.lastCompact := rfl
@[simp] theorem Sys.setProc_w (s : Sys W R) (h p) : (s.setProc h p).w = s.w := rfl
@[simp] theorem Sys.setProc_nextID (s : Sys W R) (h p) : (s.setProc h p).nextID = s.nextID := rfl
@[simp] theorem Sys.setProc_proc (s : Sys W R) (h p) : (s.setProc h p).proc = upd s.proc h.name p := rfl

@[simp] theorem upd_same {α : Type} (f : String → α) (k : String) (v : α) : upd f k v k = v := by
  simp [upd]
theorem upd_ne {α : Type} (f : String → α) {k x : String} (v : α) (h : x ≠ k) :
    upd f k v x = f x := by simp [upd, h]

/-! ## Processes -/

/-- Observations that occur while a process handler method runs. -/
def ProcObs (h : HConfig) (id : String) (now : Time) (env : Env) : Obs R → Prop
  | .fact (.procEnded h' id' e) | .fact (.procReverted h' id' e) | .fact (.procLog h' id' e _) =>
    h' = h ∧ id' = id ∧ e = env
  | .fact (.procCommand h' id' e c) => h' = h ∧ id' = id ∧ e = env ∧
    ∃ k m, c = env.child k m now ⟨h, .process, id⟩ ∧ h.produces? .command m = true ∧ m.invalid = none
  | .fact (.procTimeout h' id' e c) => h' = h ∧ id' = id ∧ e = env ∧
    ∃ k m t, c = env.childTimeout k m now t ⟨h, .process, id⟩ ∧
      h.produces? .timeout m = true ∧ m.invalid = none
  | _ => False

/-- Which facts may occur in a process handling, given whether `End()` is in effect. -/
def ProcAllowed (ended : Bool) : Obs R → Prop
  | .fact (.procEnded _ _ _) => ended = false
  | .fact (.procReverted _ _ _) => ended = true
  | .fact (.procCommand _ _ _ _) => ended = false
  | .fact (.procTimeout _ _ _ _) => ended = false
  | _ => True

theorem procRevive_ended (h : HConfig) (id : String) (env : Env) (s : Sys W R) (sc : ProcScope R) :
    (procRevive h id env s sc).2.ended = false := by
  unfold procRevive; split
  · rfl
  · simp_all

/-- How the state and scope of a process handling evolve along a segment. -/
structure ProcSeg (h : HConfig) (id : String) (now : Time) (env : Env)
    (s : Sys W R) (sc : ProcScope R) (s' : Sys W R) (sc' : ProcScope R) (seg : List (Obs R)) :
    Prop where
  trace : s'.trace = s.trace ++ seg
  agg : s'.agg = s.agg
  proc : s'.proc = s.proc
  last : s'.lastCompact = s.lastCompact
  obs : ∀ o ∈ seg, ProcObs h id now env o
  commands : sc'.commands = sc.commands ++ commandsIn seg
  ready : sc'.ready = sc.ready ++ (timeoutsIn seg).filter (fun e => decide (e.scheduledFor ≤ now))
  pending : sc'.pending = sc.pending ++ (timeoutsIn seg).filter (fun e => !decide (e.scheduledFor ≤ now))
  ended : sc'.ended = endedAfter sc.ended seg
  steps : Always (fun a o => ProcAllowed (endedAfter sc.ended a) o) seg

namespace ProcSeg

variable {h : HConfig} {id : String} {now : Time} {env : Env}

theorem refl (s : Sys W R) (sc : ProcScope R) : ProcSeg h id now env s sc s sc [] :=
  ⟨by simp, rfl, rfl, rfl, by simp, by simp [commandsIn], by simp [timeoutsIn],
    by simp [timeoutsIn], by simp [endedAfter], by simp⟩

theorem trans {s s1 s2 : Sys W R} {sc sc1 sc2 : ProcScope R} {a b : List (Obs R)}
    (x : ProcSeg h id now env s sc s1 sc1 a) (y : ProcSeg h id now env s1 sc1 s2 sc2 b) :
    ProcSeg h id now env s sc s2 sc2 (a ++ b) where
  trace := by rw [y.trace, x.trace, List.append_assoc]
  agg := y.agg.trans x.agg
  proc := y.proc.trans x.proc
  last := y.last.trans x.last
  obs := by
    intro o ho
    rcases List.mem_append.1 ho with ho | ho
    · exact x.obs o ho
    · exact y.obs o ho
  commands := by rw [y.commands, x.commands]; simp
  ready := by rw [y.ready, x.ready]; simp
  pending := by rw [y.pending, x.pending]; simp
  ended := by rw [y.ended, x.ended]; simp
  steps := by
    rw [always_append]
    refine ⟨x.steps, ?_⟩
    intro u o v huv
    have := y.steps u o v huv
    simpa [x.ended] using this

theorem revive (s : Sys W R) (sc : ProcScope R) :
    ∃ seg, ProcSeg h id now env s sc (procRevive h id env s sc).1 (procRevive h id env s sc).2 seg := by
  unfold procRevive
  split
  · rename_i he
    refine ⟨[.fact (.procReverted h id env)], ?_⟩
    constructor <;> simp [ProcObs, commandsIn, timeoutsIn, endedAfter, always_single, ProcAllowed, he]
  · exact ⟨[], refl _ _⟩

end ProcSeg

theorem procOp_seg (h : HConfig) (id : String) (now : Time) (env : Env) (o : ProcOp R)
    (s : Sys W R) (sc : ProcScope R) :
    ∃ seg, ProcSeg h id now env s sc (procOp h id now env o s sc).1
      (procOp h id now env o s sc).2.1 seg := by
  cases o with
  | end_ =>
    simp only [procOp]
    split
    · exact ⟨[], .refl _ _⟩
    · rename_i he
      refine ⟨[.fact (.procEnded h id env)], ?_⟩
      constructor <;> simp [ProcObs, commandsIn, timeoutsIn, endedAfter, always_single, ProcAllowed, he]
  | execute m =>
    simp only [procOp]
    split
    · exact ⟨[], .refl _ _⟩
    · rename_i hp
      split
      · exact ⟨[], .refl _ _⟩
      · rename_i hv
        obtain ⟨seg, h1⟩ := ProcSeg.revive (h := h) (id := id) (now := now) (env := env) s sc
        have hrv := procRevive_ended h id env s sc
        generalize procRevive h id env s sc = x at h1 hrv
        obtain ⟨s1, sc1⟩ := x
        refine ⟨seg ++ [.fact (.procCommand h id env
          (env.child (s1.nextID + 1) m now ⟨h, .process, id⟩))], h1.trans ?_⟩
        refine ⟨rfl, rfl, rfl, rfl, ?_, ?_, ?_, ?_, ?_, ?_⟩
        · simp only [List.mem_singleton, forall_eq, ProcObs]
          exact ⟨trivial, trivial, trivial, _, _, rfl, by simpa using hp, hv⟩
        case refine_6 =>
          rw [always_single]
          simpa [ProcAllowed, endedAfter] using hrv
        all_goals simp [commandsIn, timeoutsIn, endedAfter, procEmitCommand]
  | schedule m t =>
    simp only [procOp]
    split
    · exact ⟨[], .refl _ _⟩
    · rename_i hp
      split
      · exact ⟨[], .refl _ _⟩
      · rename_i hv
        obtain ⟨seg, h1⟩ := ProcSeg.revive (h := h) (id := id) (now := now) (env := env) s sc
        have hrv := procRevive_ended h id env s sc
        generalize procRevive h id env s sc = x at h1 hrv
        obtain ⟨s1, sc1⟩ := x
        refine ⟨seg ++ [.fact (.procTimeout h id env
          (env.childTimeout (s1.nextID + 1) m now t ⟨h, .process, id⟩))], h1.trans ?_⟩
        refine ⟨rfl, rfl, rfl, rfl, ?_, ?_, ?_, ?_, ?_, ?_⟩
        · simp only [List.mem_singleton, forall_eq, ProcObs]
          exact ⟨trivial, trivial, trivial, _, _, _, rfl, by simpa using hp, hv⟩
        case refine_6 =>
          rw [always_single]
          simpa [ProcAllowed, endedAfter] using hrv
        all_goals
          simp only [commandsIn, timeoutsIn, endedAfter, procEmitTimeout]
          by_cases hn : now < t
          · have : ¬ t ≤ now := by omega
            simp [hn, this, Env.childTimeout]
          · have : t ≤ now := by omega
            simp [hn, this, Env.childTimeout]
  | setRoot r =>
    refine ⟨[], ?_⟩
    constructor <;> simp [procOp, commandsIn, timeoutsIn, endedAfter]
  | log t =>
    refine ⟨[.fact (.procLog h id env t)], ?_⟩
    constructor <;> simp [procOp, ProcObs, commandsIn, timeoutsIn, endedAfter, always_single, ProcAllowed]

theorem procRun_seg (h : HConfig) (id : String) (now : Time) (env : Env)
    (p : Prog W (ProcOp R) (Option Err)) (s : Sys W R) (sc : ProcScope R) :
    ∃ seg, ProcSeg h id now env s sc (procRun h id now env p s sc).1
      (procRun h id now env p s sc).2.1 seg := by
  induction p generalizing s sc with
  | ret => exact ⟨[], .refl _ _⟩
  | panic v => exact ⟨[], .refl _ _⟩
  | get k ih => exact ih _ _ _
  | set w k ih =>
    obtain ⟨seg, h1⟩ := ih { s with w := w } sc
    exact ⟨seg, h1.1, h1.2, h1.3, h1.4, h1.5, h1.6, h1.7, h1.8, h1.9, h1.10⟩
  | op o k ih =>
    unfold procRun
    obtain ⟨seg, h1⟩ := procOp_seg h id now env o s sc
    generalize procOp h id now env o s sc = x at h1
    obtain ⟨s1, sc1, v⟩ := x
    obtain ⟨seg2, h2⟩ := ih v s1 sc1
    exact ⟨seg ++ seg2, h1.trans h2⟩

/-! ## Aggregates -/

/-- Observations that occur while an aggregate's `HandleCommand` runs. -/
def AggObs (h : HConfig) (id : String) (now : Time) (env : Env) : Obs R → Prop
  | .fact (.aggCreated h' id' e) | .fact (.aggReverted h' id' e) | .fact (.aggDestroyed h' id' e)
  | .fact (.aggLog h' id' e _) => h' = h ∧ id' = id ∧ e = env
  | .fact (.aggEvent h' id' e c) => h' = h ∧ id' = id ∧ e = env ∧
    ∃ k m, c = env.child k m now ⟨h, .aggregate, id⟩ ∧ h.produces? .event m = true ∧ m.invalid = none
  | .call (.aggNew h') => h' = h
  | .call (.aggApply h' _ _) => h' = h
  | _ => False

/-- Which facts may occur in an aggregate handling, given whether the instance
exists and whether it was destroyed in this handling. -/
def AggAllowed (ex de : Bool) : Obs R → Prop
  | .fact (.aggCreated _ _ _) => ex = false ∧ de = false
  | .fact (.aggReverted _ _ _) => ex = false ∧ de = true
  | .fact (.aggDestroyed _ _ _) => ex = true
  | .fact (.aggEvent _ _ _ _) => ex = true
  | _ => True

/-- How the state and scope of an aggregate handling evolve along a segment. -/
structure AggSeg (h : HConfig) (id : String) (now : Time) (env : Env)
    (s : Sys W R) (sc : AggScope R) (s' : Sys W R) (sc' : AggScope R) (seg : List (Obs R)) :
    Prop where
  trace : s'.trace = s.trace ++ seg
  agg : s'.agg = s.agg
  proc : s'.proc = s.proc
  last : s'.lastCompact = s.lastCompact
  obs : ∀ o ∈ seg, AggObs h id now env o
  events : sc'.events = sc.events ++ aggEventsIn seg
  exists_ : sc'.exists_ = aggExistsAfter sc.exists_ seg
  destroyed : sc'.destroyed = destroyedAfter sc.destroyed seg
  steps : Always (fun a o => AggAllowed (aggExistsAfter sc.exists_ a)
    (destroyedAfter sc.destroyed a) o) seg

namespace AggSeg

variable {h : HConfig} {id : String} {now : Time} {env : Env}

theorem refl (s : Sys W R) (sc : AggScope R) : AggSeg h id now env s sc s sc [] :=
  ⟨by simp, rfl, rfl, rfl, by simp, by simp [aggEventsIn], by simp [aggExistsAfter],
    by simp [destroyedAfter], by simp⟩

theorem trans {s s1 s2 : Sys W R} {sc sc1 sc2 : AggScope R} {a b : List (Obs R)}
    (x : AggSeg h id now env s sc s1 sc1 a) (y : AggSeg h id now env s1 sc1 s2 sc2 b) :
    AggSeg h id now env s sc s2 sc2 (a ++ b) where
  trace := by rw [y.trace, x.trace, List.append_assoc]
  agg := y.agg.trans x.agg
  proc := y.proc.trans x.proc
  last := y.last.trans x.last
  obs := by
    intro o ho
    rcases List.mem_append.1 ho with ho | ho
    · exact x.obs o ho
    · exact y.obs o ho
  events := by rw [y.events, x.events]; simp
  exists_ := by rw [y.exists_, x.exists_]; simp
  destroyed := by rw [y.destroyed, x.destroyed]; simp
  steps := by
    rw [always_append]
    refine ⟨x.steps, ?_⟩
    intro u o v huv
    have := y.steps u o v huv
    simpa [x.exists_, x.destroyed] using this

end AggSeg

theorem aggRevive_seg (h : HConfig) (id : String) (now : Time) (env : Env)
    (s : Sys W R) (sc : AggScope R) :
    ∃ seg, AggSeg h id now env s sc (aggRevive h id env s sc).1 (aggRevive h id env s sc).2 seg := by
  unfold aggRevive
  split
  · exact ⟨[], .refl _ _⟩
  · rename_i hx
    by_cases hd : sc.destroyed
    · refine ⟨[.fact (.aggReverted h id env)], ?_⟩
      constructor <;> simp [hd, hx, AggObs, aggEventsIn, aggExistsAfter, destroyedAfter, always_single, AggAllowed]
    · refine ⟨[.fact (.aggCreated h id env)], ?_⟩
      constructor <;> simp [hd, hx, AggObs, aggEventsIn, aggExistsAfter, destroyedAfter, always_single, AggAllowed]

theorem aggRevive_exists (h : HConfig) (id : String) (env : Env) (s : Sys W R) (sc : AggScope R) :
    (aggRevive h id env s sc).2.exists_ = true := by
  unfold aggRevive; split
  · assumption
  · rfl

theorem aggApplyScope_exists (A : App W R) (h : HConfig) (m : Message) (s : Sys W R)
    (sc : AggScope R) : (aggApplyScope A h m s sc).2.1.exists_ = sc.exists_ := by
  unfold aggApplyScope; split
  · rfl
  · split <;> rfl

theorem aggApplyScope_seg (A : App W R) (h : HConfig) (id : String) (now : Time) (env : Env)
    (m : Message) (s : Sys W R) (sc : AggScope R) :
    ∃ seg, AggSeg h id now env s sc (aggApplyScope A h m s sc).1 (aggApplyScope A h m s sc).2.1 seg := by
  unfold aggApplyScope
  split
  · exact ⟨[], .refl _ _⟩
  · rename_i r hr
    refine ⟨[.call (.aggApply h r m)], ?_⟩
    split <;>
      (rename_i he; simp only [Sys.user, Prod.mk.injEq] at he; obtain ⟨rfl, he⟩ := he
       constructor <;> simp [AggObs, aggEventsIn, aggExistsAfter, destroyedAfter, always_single, AggAllowed])

theorem aggOp_seg (A : App W R) (h : HConfig) (id : String) (now : Time) (env : Env) (o : AggOp R)
    (s : Sys W R) (sc : AggScope R) :
    ∃ seg, AggSeg h id now env s sc (aggOp A h id now env o s sc).1
      (aggOp A h id now env o s sc).2.1 seg := by
  cases o with
  | destroy =>
    simp only [aggOp, aggDestroy]
    split
    · exact ⟨[], .refl _ _⟩
    · rename_i hx
      split
      · rename_i he; simp only [Sys.user, Prod.mk.injEq] at he; obtain ⟨rfl, he⟩ := he
        refine ⟨[.call (.aggNew h)], ?_⟩
        constructor <;> simp [AggObs, aggEventsIn, aggExistsAfter, destroyedAfter, always_single, AggAllowed]
      · rename_i he; simp only [Sys.user, Prod.mk.injEq] at he; obtain ⟨rfl, he⟩ := he
        refine ⟨[.call (.aggNew h), .fact (.aggDestroyed h id env)], ?_⟩
        have hx' : sc.exists_ = true := by simpa using hx
        refine ⟨by simp, rfl, rfl, rfl, by simp [AggObs], by simp [aggEventsIn],
          by simp [aggExistsAfter], by simp [destroyedAfter], ?_⟩
        have e : ([.call (.aggNew h), .fact (.aggDestroyed h id env)] : List (Obs R)) =
          [.call (.aggNew h)] ++ [.fact (.aggDestroyed h id env)] := rfl
        rw [e, always_snoc, always_single]
        simp [AggAllowed, aggExistsAfter, hx']
  | setRoot r =>
    refine ⟨[], ?_⟩
    simp only [aggOp]
    split <;> constructor <;> simp [aggEventsIn, aggExistsAfter, destroyedAfter]
  | log t =>
    refine ⟨[.fact (.aggLog h id env t)], ?_⟩
    constructor <;> simp [aggOp, AggObs, aggEventsIn, aggExistsAfter, destroyedAfter, always_single, AggAllowed]
  | record m =>
    simp only [aggOp, aggRecord]
    split
    · exact ⟨[], .refl _ _⟩
    · rename_i hp
      split
      · exact ⟨[], .refl _ _⟩
      · rename_i hv
        obtain ⟨seg1, h1⟩ := aggRevive_seg h id now env s sc
        have hrv := aggRevive_exists h id env s sc
        generalize aggRevive h id env s sc = x at h1 hrv
        obtain ⟨s1, sc1⟩ := x
        obtain ⟨seg2, h2⟩ := aggApplyScope_seg A h id now env m s1 sc1
        have hex := aggApplyScope_exists A h m s1 sc1
        rw [show sc1.exists_ = true from hrv] at hex
        simp only
        generalize aggApplyScope A h m s1 sc1 = x at h2 hex
        obtain ⟨s2, sc2, v⟩ := x
        cases v with
        | some v => exact ⟨_, h1.trans h2⟩
        | none =>
          refine ⟨_, (h1.trans h2).trans (b := [.fact (.aggEvent h id env
            (env.child (s2.nextID + 1) m now ⟨h, .aggregate, id⟩))]) ?_⟩
          refine ⟨rfl, rfl, rfl, rfl, ?_, ?_, ?_, ?_, ?_⟩
          · simp only [List.mem_singleton, forall_eq, AggObs]
            exact ⟨trivial, trivial, trivial, _, _, rfl, by simpa using hp, hv⟩
          case refine_5 =>
            rw [always_single]
            have : sc2.exists_ = true := hex
            simp [AggAllowed, aggExistsAfter, this]
          all_goals simp [aggEventsIn, aggExistsAfter, destroyedAfter, aggEmit]

theorem aggRun_seg (A : App W R) (h : HConfig) (id : String) (now : Time) (env : Env)
    (p : Prog W (AggOp R) Unit) (s : Sys W R) (sc : AggScope R) :
    ∃ seg, AggSeg h id now env s sc (aggRun A h id now env p s sc).1
      (aggRun A h id now env p s sc).2.1 seg := by
  induction p generalizing s sc with
  | ret => exact ⟨[], .refl _ _⟩
  | panic v => exact ⟨[], .refl _ _⟩
  | get k ih => exact ih _ _ _
  | set w k ih =>
    obtain ⟨seg, h1⟩ := ih { s with w := w } sc
    exact ⟨seg, h1.1, h1.2, h1.3, h1.4, h1.5, h1.6, h1.7, h1.8, h1.9⟩
  | op o k ih =>
    unfold aggRun
    obtain ⟨seg, h1⟩ := aggOp_seg A h id now env o s sc
    generalize aggOp A h id now env o s sc = x at h1
    obtain ⟨s1, sc1, v⟩ := x
    obtain ⟨seg2, h2⟩ := ih v s1 sc1
    exact ⟨seg ++ seg2, h1.trans h2⟩

/-! ## Integrations -/

/-- Observations that occur while an integration's `HandleCommand` runs. -/
def IntObs (h : HConfig) (now : Time) (env : Env) : Obs R → Prop
  | .fact (.intLog h' e _) => h' = h ∧ e = env
  | .fact (.intEvent h' e c) => h' = h ∧ e = env ∧
    ∃ k m, c = env.child k m now ⟨h, .integration, ""⟩ ∧ h.produces? .event m = true ∧ m.invalid = none
  | _ => False

/-- How the state and scope of an integration handling evolve along a segment. -/
structure IntSeg (h : HConfig) (now : Time) (env : Env)
    (s : Sys W R) (evs : List Env) (s' : Sys W R) (evs' : List Env) (seg : List (Obs R)) :
    Prop where
  trace : s'.trace = s.trace ++ seg
  agg : s'.agg = s.agg
  proc : s'.proc = s.proc
  last : s'.lastCompact = s.lastCompact
  obs : ∀ o ∈ seg, IntObs h now env o
  events : evs' = evs ++ intEventsIn seg

theorem intOp_seg (h : HConfig) (now : Time) (env : Env) (o : IntOp)
    (s : Sys W R) (evs : List Env) :
    ∃ seg, IntSeg h now env s evs (intOp h now env o s evs).1 (intOp h now env o s evs).2.1 seg := by
  have hrefl : IntSeg (R := R) h now env s evs s evs [] :=
    ⟨by simp, rfl, rfl, rfl, by simp, by simp [intEventsIn]⟩
  cases o with
  | log t =>
    refine ⟨[.fact (.intLog h env t)], ?_⟩
    constructor <;> simp [intOp, IntObs, intEventsIn]
  | record m =>
    simp only [intOp]
    split
    · exact ⟨[], hrefl⟩
    · rename_i hp
      split
      · exact ⟨[], hrefl⟩
      · rename_i hv
        refine ⟨[.fact (.intEvent h env (env.child (s.nextID + 1) m now ⟨h, .integration, ""⟩))],
          rfl, rfl, rfl, rfl, ?_, ?_⟩
        · simp only [List.mem_singleton, forall_eq, IntObs]
          exact ⟨trivial, trivial, _, _, rfl, by simpa using hp, hv⟩
        · simp [intEventsIn, intEmit]

theorem intRun_seg (h : HConfig) (now : Time) (env : Env)
    (p : Prog W IntOp (Option Err)) (s : Sys W R) (evs : List Env) :
    ∃ seg, IntSeg h now env s evs (intRun h now env p s evs).1
      (intRun h now env p s evs).2.1 seg := by
  have hrefl : ∀ (s : Sys W R) evs, IntSeg (R := R) h now env s evs s evs [] :=
    fun _ _ => ⟨by simp, rfl, rfl, rfl, by simp, by simp [intEventsIn]⟩
  induction p generalizing s evs with
  | ret => exact ⟨[], hrefl _ _⟩
  | panic v => exact ⟨[], hrefl _ _⟩
  | get k ih => exact ih _ _ _
  | set w k ih =>
    obtain ⟨seg, h1⟩ := ih { s with w := w } evs
    exact ⟨seg, h1.1, h1.2, h1.3, h1.4, h1.5, h1.6⟩
  | op o k ih =>
    unfold intRun
    obtain ⟨seg, h1⟩ := intOp_seg h now env o s evs
    generalize intOp h now env o s evs = x at h1
    obtain ⟨s1, evs1, v⟩ := x
    obtain ⟨seg2, h2⟩ := ih v s1 evs1
    refine ⟨seg ++ seg2, ?_, h2.agg.trans h1.agg, h2.proc.trans h1.proc, h2.last.trans h1.last, ?_, ?_⟩
    · rw [h2.trace, h1.trace, List.append_assoc]
    · intro o ho
      rcases List.mem_append.1 ho with ho | ho
      · exact h1.obs o ho
      · exact h2.obs o ho
    · have e1 : evs1 = _ := h1.events
      rw [h2.events, e1]; simp

end Verif
