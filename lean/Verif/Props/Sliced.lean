import Verif.Sliced
import Verif.Props.Memory
import Verif.Props.Late

/-!
# C115: the engine with its messages in slices is the engine with its messages in lists
-/

namespace Verif.Sliced

open Verif.Memory (Use Done Stmt Mem Field Lists Agree Var)

variable {W R : Type}

/-! ## What slices contain -/

/-- The engine with these contents. -/
def view (s : Sys W R) (l : Lists Env) : Sys W R :=
  { s with
    agg := fun n i => (s.agg n i).map (fun _ => l.at_ (.history n i))
    proc := fun n => ⟨(s.proc n).inst, l.at_ (.timeouts n)⟩ }

/-- The contents are those of the engine. -/
structure Views (s : Sys W R) (l : Lists Env) : Prop where
  agg : ∀ n i, l.at_ (.history n i) = (s.agg n i).getD []
  proc : ∀ n, l.at_ (.timeouts n) = (s.proc n).timeouts

theorem Views.view_eq {s : Sys W R} {l : Lists Env} (h : Views s l) : view s l = s := by
  have h1 : (fun n i => (s.agg n i).map (fun _ => l.at_ (.history n i))) = s.agg := by
    funext n i
    rw [h.agg]
    cases s.agg n i <;> rfl
  have h2 : (fun n => (⟨(s.proc n).inst, l.at_ (.timeouts n)⟩ : ProcState R)) = s.proc := by
    funext n
    rw [h.proc]
  unfold view
  rw [h1, h2]

theorem Views.still {s t : Sys W R} {l : Lists Env} (h : Views s l) (ht : t.agg = s.agg) (hp : t.proc = s.proc) :
    Views t l := ⟨by rw [ht]; exact h.agg, by rw [hp]; exact h.proc⟩

theorem view_of {t' t : Sys W R} {l : Lists Env} (ht : Views t l) (hw : t'.w = t.w) (hn : t'.nextID = t.nextID)
    (hl : t'.lastCompact = t.lastCompact) (htr : t'.trace = t.trace)
    (ha : ∀ n i, (t'.agg n i).isSome = (t.agg n i).isSome) (hp : ∀ n, (t'.proc n).inst = (t.proc n).inst) :
    view t' l = t := by
  refine Eq.trans ?_ ht.view_eq
  have h1 : (fun n i => (t'.agg n i).map (fun _ => l.at_ (.history n i))) =
      (fun n i => (t.agg n i).map (fun _ => l.at_ (.history n i))) := by
    funext n i
    have := ha n i
    revert this
    cases t'.agg n i <;> cases t.agg n i <;> simp
  have h2 : (fun n => (⟨(t'.proc n).inst, l.at_ (.timeouts n)⟩ : ProcState R)) =
      (fun n => ⟨(t.proc n).inst, l.at_ (.timeouts n)⟩) := by
    funext n
    rw [hp]
  unfold view
  rw [h1, h2, hw, hn, hl, htr]

theorem uses_at (k : Nat) (f : Field) (es : List Env) : ∀ l : Lists Env,
    (es.map (fun e => (⟨k, f, e⟩ : Use Env))).foldl (fun l u => u.onLists l) l =
      l.set (.scope k f) (l.at_ (.scope k f) ++ es) := by
  induction es with
  | nil =>
    intro l
    unfold Lists.set
    cases l
    have : ∀ a : Var → List Env, a = (fun u => if u = Var.scope k f then a (Var.scope k f) ++ [] else a u) := by
      intro a
      funext u
      split
      · rename_i h
        rw [h, List.append_nil]
      · rfl
    show (⟨_, _⟩ : Lists Env) = ⟨_, _⟩
    rw [← this]
  | cons e es ih =>
    intro l
    rw [List.map_cons, List.foldl_cons, ih]
    show ((l.set _ _).set _ _) = _
    unfold Use.onLists
    dsimp only
    rw [Memory.lset_set, Memory.lset_at, List.append_assoc]
    rfl

/-! ## One handling -/

/-- What may change. -/
def Mine (h : HConfig) (k : Nat) : Var → Prop
  | .queue => False
  | .timeouts n => h.htype = .process ∧ n = h.name
  | .history n _ => h.htype = .aggregate ∧ n = h.name
  | .scope j _ => j = k

inductive BodySum (h : HConfig) (k : Nat) (l : Lists Env) : Sys W R × Res → Sys W R × HRes → Prop where
  | err (t : Sys W R) (p : PanicVal) (ht : Views t l) : BodySum h k l (t, .error p) (t, .error p)
  | ok (t' t : Sys W R) (d : End) (e : Option Err) (envs : List Env) (l' : Lists Env)
    (hd : d.done.onLists (d.uses.foldl (fun l u => u.onLists l) l) = (l', envs)) (hs : d.done.Sorts)
    (hv : view t' l' = t) (ht : Views t l') (hm : ∀ u, ¬ Mine h k u → l'.at_ u = l.at_ u) :
    BodySum h k l (t', .ok (d, e)) (t, .ok (envs, e))

theorem BodySum.plain {h : HConfig} {k : Nat} {l : Lists Env} {t : Sys W R} (e : Option Err) (ht : Views t l) :
    BodySum h k l (t, .ok (.nothing, e)) (t, .ok ([], e)) :=
  .ok _ _ _ _ _ l rfl trivial ht.view_eq ht (fun _ _ => rfl)

theorem agg_body (A : App W R) (h : HConfig) (hh : h.htype = .aggregate) (id : String) (now : Time) (env : Env) (k : Nat)
    (r : R) (ex : Bool) (s : Sys W R) (l : Lists Env) (hl : Views s l) (hf : ∀ f, l.at_ (.scope k f) = []) :
    BodySum h k l (aggInvokeS A h id now env k r ex s) (aggInvoke A h id now env r ex s) := by
  unfold aggInvokeS aggInvoke
  obtain ⟨seg, hseg⟩ := aggRun_seg A h id now env (A.uc.aggHandle h id r env.msg)
      (s.emit (.call (.aggHandle h id r env.msg))) ⟨some r, ex, false, [], true⟩
  revert hseg
  generalize aggRun A h id now env _ _ _ = z
  obtain ⟨t, sc, p⟩ := z
  intro hseg
  have ht : Views t l := hl.still hseg.agg hseg.proc
  cases p with
  | some v => exact .err _ _ ht
  | none =>
    dsimp only
    unfold aggCommit
    cases hx : sc.exists_ with
    | true =>
      simp only [if_true]
      have hv : Views ({ t with agg := upd t.agg h.name (upd (t.agg h.name) id
          (some ((t.agg h.name id).getD [] ++ sc.events))) } : Sys W R)
          ((l.set (.scope k .events) sc.events).set (.history h.name id) (l.at_ (.history h.name id) ++ sc.events)) := by
        refine ⟨fun n i => ?_, fun n => ?_⟩
        · simp only [Lists.set, upd, Var.history.injEq, reduceCtorEq, if_false]
          by_cases hn : n = h.name
          · by_cases hi : i = id
            · simp [hn, hi, upd, ht.agg]
            · simp [hn, hi, upd, ht.agg]
          · simp [hn, ht.agg]
        · simp only [Lists.set, reduceCtorEq, if_false]
          exact ht.proc n
      refine .ok _ _ _ _ _ _ ?_ trivial (view_of hv rfl rfl rfl rfl ?_ (fun _ => rfl)) hv ?_
      · simp only [eventsOf, uses_at, Memory.Done.onLists, hf, List.nil_append, Memory.lset_at]
        rw [Memory.lset_at_other _ (.history h.name id) (.scope k .events) _ (by simp)]
      · intro n i
        simp only [upd]
        by_cases hn : n = h.name
        · by_cases hi : i = id <;> simp [hn, hi, upd]
        · simp [hn]
      · intro u hu
        cases u with
        | history n i =>
          have : ¬ n = h.name := fun hn => hu ⟨hh, hn⟩
          simp [Lists.set, this]
        | scope j f =>
          have : ¬ j = k := hu
          simp [Lists.set, this]
        | _ => rfl
    | false =>
      simp only [Bool.false_eq_true, if_false]
      have hv : Views ({ t with agg := upd t.agg h.name (upd (t.agg h.name) id none) } : Sys W R)
          ((l.set (.scope k .events) sc.events).set (.history h.name id) []) := by
        refine ⟨fun n i => ?_, fun n => ?_⟩
        · simp only [Lists.set, upd, Var.history.injEq, reduceCtorEq, if_false]
          by_cases hn : n = h.name
          · by_cases hi : i = id
            · simp [hn, hi, upd]
            · simp [hn, hi, upd, ht.agg]
          · simp [hn, ht.agg]
        · simp only [Lists.set, reduceCtorEq, if_false]
          exact ht.proc n
      refine .ok _ _ _ _ _ _ ?_ trivial hv.view_eq hv ?_
      · simp only [eventsOf, uses_at, Memory.Done.onLists, hf, List.nil_append, Memory.lset_at]
      · intro u hu
        cases u with
        | history n i =>
          have : ¬ n = h.name := fun hn => hu ⟨hh, hn⟩
          simp [Lists.set, this]
        | scope j f =>
          have : ¬ j = k := hu
          simp [Lists.set, this]
        | _ => rfl

theorem agg_handle (A : App W R) (h : HConfig) (hh : h.htype = .aggregate) (now : Time) (env : Env) (k : Nat)
    (s : Sys W R) (l : Lists Env) (hl : Views s l) (hf : ∀ f, l.at_ (.scope k f) = []) :
    BodySum h k l (aggHandleS A h now env k s) (aggHandle A h now env s) := by
  unfold aggHandleS aggHandle
  split
  · exact .err _ _ hl
  split
  · exact .err _ _ hl
  have hu : Views (s.user (.aggRoute h env.msg) (A.uc.aggRoute h env.msg)).1 l := hl.still rfl rfl
  revert hu
  generalize s.user (.aggRoute h env.msg) (A.uc.aggRoute h env.msg) = z
  obtain ⟨s1, o⟩ := z
  intro hu
  cases o with
  | error v => exact .err _ _ hu
  | ok id =>
    dsimp only
    split
    · exact .err _ _ hu
    unfold aggWithIDS aggWithID
    have hu2 : Views (s1.user (.aggNew h) (A.uc.aggNew h)).1 l := hu.still rfl rfl
    revert hu2
    generalize s1.user (.aggNew h) (A.uc.aggNew h) = z
    obtain ⟨s2, o⟩ := z
    intro hu2
    match o with
    | .error v => exact .err _ _ hu2
    | .ok none => exact .err _ _ hu2
    | .ok (some r) =>
      dsimp only
      cases s2.agg h.name id with
      | none => exact agg_body A h hh id now env k r false _ l (hu2.still rfl rfl) hf
      | some hist =>
        dsimp only
        obtain ⟨seg, _, _, h3, h4, _⟩ := aggReplay_trace A h hist r s2
        have hu3 : Views (aggReplay A h hist r s2).1 l := hu2.still h3 h4
        revert hu3
        generalize aggReplay A h hist r s2 = z
        obtain ⟨s3, o⟩ := z
        intro hu3
        cases o with
        | error v => exact .err _ _ hu3
        | ok r => exact agg_body A h hh id now env k r true _ l (hu3.still rfl rfl) hf

theorem int_handle (A : App W R) (h : HConfig) (now : Time) (env : Env) (k : Nat)
    (s : Sys W R) (l : Lists Env) (hl : Views s l) (hf : ∀ f, l.at_ (.scope k f) = []) :
    BodySum h k l (intHandleS A h now env k s) (intHandle A h now env s) := by
  unfold intHandleS intHandle
  split
  · exact .err _ _ hl
  split
  · exact .err _ _ hl
  obtain ⟨seg, hseg⟩ := intRun_seg h now env (A.uc.intHandle h env.msg) (s.emit (.call (.intHandle h env.msg))) []
  revert hseg
  generalize intRun h now env _ _ _ = z
  obtain ⟨t, evs, p⟩ := z
  intro hseg
  have ht : Views t l := hl.still hseg.agg hseg.proc
  cases p with
  | error v => exact .err _ _ ht
  | ok e =>
    have hv : Views t (l.set (.scope k .events) evs) := ⟨ht.agg, ht.proc⟩
    refine .ok _ _ _ _ _ _ ?_ trivial hv.view_eq hv ?_
    · simp only [eventsOf, uses_at, Memory.Done.onLists, hf, List.nil_append, Memory.lset_at]
    · intro u hu
      cases u with
      | scope j f =>
        have : ¬ j = k := hu
        simp [Lists.set, this]
      | _ => rfl

/-- What the scope of a process has collected. -/
def filled (k : Nat) (l : Lists Env) (sc : ProcScope R) : Lists Env :=
  ((l.set (.scope k .commands) sc.commands).set (.scope k .ready) sc.ready).set (.scope k .pending) sc.pending

theorem filled_uses (k : Nat) (l : Lists Env) (sc : ProcScope R) (hf : ∀ f, l.at_ (.scope k f) = []) :
    (sc.commands.map (fun e => (⟨k, .commands, e⟩ : Use Env)) ++ sc.ready.map (fun e => (⟨k, .ready, e⟩ : Use Env)) ++
      sc.pending.map (fun e => (⟨k, .pending, e⟩ : Use Env))).foldl (fun l u => u.onLists l) l = filled k l sc := by
  rw [List.foldl_append, List.foldl_append, uses_at, uses_at, uses_at, hf, List.nil_append]
  rw [Memory.lset_at_other _ _ _ _ (by simp), hf, List.nil_append]
  rw [Memory.lset_at_other _ _ _ _ (by simp), Memory.lset_at_other _ _ _ _ (by simp), hf, List.nil_append]
  rfl

theorem filled_other (k : Nat) (l : Lists Env) (sc : ProcScope R) (u : Var) (hu : ∀ f, u ≠ .scope k f) :
    (filled k l sc).at_ u = l.at_ u := by
  unfold filled
  rw [Memory.lset_at_other _ _ _ _ (hu _), Memory.lset_at_other _ _ _ _ (hu _), Memory.lset_at_other _ _ _ _ (hu _)]

theorem filled_commands (k : Nat) (l : Lists Env) (sc : ProcScope R) :
    (filled k l sc).at_ (.scope k .commands) = sc.commands := by simp [filled, Lists.set]

theorem filled_ready (k : Nat) (l : Lists Env) (sc : ProcScope R) :
    (filled k l sc).at_ (.scope k .ready) = sc.ready := by simp [filled, Lists.set]

theorem filled_pending (k : Nat) (l : Lists Env) (sc : ProcScope R) :
    (filled k l sc).at_ (.scope k .pending) = sc.pending := by simp [filled, Lists.set]

theorem proc_views {t : Sys W R} {l : Lists Env} (ht : Views t l) (h : HConfig) (k : Nat) (sc : ProcScope R)
    (inst : String → Option R) (ts : List Env) :
    Views (t.setProc h ⟨inst, ts⟩) ((filled k l sc).set (.timeouts h.name) ts) := by
  refine ⟨fun n i => ?_, fun n => ?_⟩
  · rw [Memory.lset_at_other _ (.history n i) (.timeouts h.name) _ (by simp), filled_other _ _ _ _ (by simp)]
    exact ht.agg n i
  · simp only [Sys.setProc, upd]
    by_cases hn : n = h.name
    · subst hn
      simp [Memory.lset_at]
    · rw [Memory.lset_at_other _ _ _ _ (by simp [hn]), filled_other _ _ _ _ (by simp), if_neg hn]
      exact ht.proc n

theorem proc_mine (h : HConfig) (hh : h.htype = .process) (k : Nat) (l : Lists Env) (sc : ProcScope R) (ts : List Env)
    (u : Var) (hu : ¬ Mine h k u) : ((filled k l sc).set (.timeouts h.name) ts).at_ u = l.at_ u := by
  have h1 : u ≠ .timeouts h.name := fun he => hu (by rw [he]; exact ⟨hh, rfl⟩)
  rw [Memory.lset_at_other _ _ _ _ h1, filled_other]
  intro f he
  exact hu (by rw [he]; exact rfl)

theorem alias_views {t : Sys W R} {l : Lists Env} (ht : Views t l) (h : HConfig) (id : String) (b : Bool) (r : R) :
    Views (procAlias h id b t r) l := by
  unfold procAlias
  split
  · refine ⟨ht.agg, fun n => ?_⟩
    simp only [Sys.setProc, upd]
    by_cases hn : n = h.name
    · subst hn
      simp [ht.proc]
    · rw [if_neg hn]
      exact ht.proc n
  · exact ht

theorem setProc_inst (t : Sys W R) (h : HConfig) (i : String → Option R) (a b : List Env) (n : String) :
    ((t.setProc h ⟨i, a⟩).proc n).inst = ((t.setProc h ⟨i, b⟩).proc n).inst := by
  simp only [Sys.setProc, upd]
  split <;> rfl

theorem proc_body (A : App W R) (h : HConfig) (hh : h.htype = .process) (id : String) (now : Time) (env : Env) (k : Nat)
    (r : R) (ex : Bool) (s : Sys W R) (l : Lists Env) (hl : Views s l) (hf : ∀ f, l.at_ (.scope k f) = []) :
    BodySum h k l (procInvokeS A h id now env k r ex s) (procInvoke A h id now env r ex s) := by
  unfold procInvokeS procInvoke
  obtain ⟨seg, hseg⟩ := procRun_seg h id now env (A.uc.procHandle h id r env.msg (procSeenTime env))
      (s.emit (.call (.procHandle h id r env.msg (procSeenTime env)))) ⟨r, false, [], [], []⟩
  revert hseg
  generalize procRun h id now env _ _ _ = z
  obtain ⟨t, sc, p⟩ := z
  intro hseg
  have ht : Views t l := hl.still hseg.agg hseg.proc
  match p with
  | .error v => exact .err _ _ (alias_views ht _ _ _ _)
  | .ok (some e) => exact .plain _ (alias_views ht _ _ _ _)
  | .ok none =>
    dsimp only
    cases sc.ended with
    | true =>
      simp only [if_true]
      cases ex with
      | true =>
        simp only [if_true]
        have hv := proc_views ht h k sc (upd (t.proc h.name).inst id none)
          ((t.proc h.name).timeouts.filter (fun e => !e.ofInstance id))
        refine .ok _ _ _ _ _ _ ?_ trivial (view_of hv rfl rfl rfl rfl (fun _ _ => rfl)
          (fun n => setProc_inst _ _ _ _ _ _)) hv (proc_mine h hh k l sc _)
        dsimp only
        rw [filled_uses k l sc hf]
        simp only [Memory.Done.onLists, filled_commands]
        rw [filled_other _ _ _ _ (by simp), ht.proc]
      | false =>
        simp only [Bool.false_eq_true, if_false]
        have hv : Views t (filled k l sc) := by
          refine ⟨fun n i => ?_, fun n => ?_⟩
          · rw [filled_other _ _ _ _ (by simp)]
            exact ht.agg n i
          · rw [filled_other _ _ _ _ (by simp)]
            exact ht.proc n
        refine .ok _ _ _ _ _ _ ?_ trivial hv.view_eq hv ?_
        · dsimp only
          rw [filled_uses k l sc hf]
          simp only [Memory.Done.onLists, filled_commands]
        · intro u hu
          rw [filled_other]
          intro f he
          exact hu (by rw [he]; exact rfl)
    | false =>
      simp only [Bool.false_eq_true, if_false]
      have hv := proc_views ht h k sc (upd (t.proc h.name).inst id (some sc.root))
        (A.sort.sort ((t.proc h.name).timeouts ++ sc.pending))
      refine .ok _ _ _ _ _ _ ?_ ?_ (view_of hv rfl rfl rfl rfl (fun _ _ => rfl)
        (fun n => setProc_inst _ _ _ _ _ _)) hv (proc_mine h hh k l sc _)
      · dsimp only
        rw [filled_uses k l sc hf]
        simp only [Memory.Done.onLists, filled_commands, filled_ready, filled_pending]
        rw [filled_other _ _ _ _ (by simp), ht.proc]
      · exact fun l => (A.sort.perm l).length_eq

theorem proc_withID (A : App W R) (h : HConfig) (hh : h.htype = .process) (id : String) (now : Time) (env : Env) (k : Nat)
    (s : Sys W R) (l : Lists Env) (hl : Views s l) (hf : ∀ f, l.at_ (.scope k f) = []) :
    BodySum h k l (procWithIDS A h id now env k s) (procWithID A h id now env s) := by
  unfold procWithIDS procWithID
  cases (s.proc h.name).inst id with
  | some r => exact proc_body A h hh id now env k r true _ l (hl.still rfl rfl) hf
  | none =>
    dsimp only
    have hu : Views ((s.notify (.procNotFound h id env)).user (.procNew h) (A.uc.procNew h)).1 l := hl.still rfl rfl
    revert hu
    generalize (s.notify (.procNotFound h id env)).user (.procNew h) (A.uc.procNew h) = z
    obtain ⟨s1, o⟩ := z
    intro hu
    match o with
    | .error v => exact .err _ _ hu
    | .ok none => exact .err _ _ (hu.still rfl rfl)
    | .ok (some r) => exact proc_body A h hh id now env k r false _ l (hu.still rfl rfl) hf

theorem proc_handle (A : App W R) (h : HConfig) (hh : h.htype = .process) (now : Time) (env : Env) (k : Nat)
    (s : Sys W R) (l : Lists Env) (hl : Views s l) (hf : ∀ f, l.at_ (.scope k f) = []) :
    BodySum h k l (procHandleS A h now env k s) (procHandle A h now env s) := by
  unfold procHandleS procHandle
  split
  · exact .err _ _ hl
  cases env.msg.type.kind with
  | command => exact .err _ _ hl
  | event =>
    dsimp only
    have hu : Views (s.user (.procRoute h env.msg) (A.uc.procRoute h env.msg)).1 l := hl.still rfl rfl
    revert hu
    generalize s.user (.procRoute h env.msg) (A.uc.procRoute h env.msg) = z
    obtain ⟨s1, o⟩ := z
    intro hu
    match o with
    | .error v => exact .err _ _ hu
    | .ok (.error e) => exact .plain _ hu
    | .ok (.ok none) => exact .plain _ (hu.still rfl rfl)
    | .ok (.ok (some id)) =>
      dsimp only
      split
      · exact .err _ _ hu
      · exact proc_withID A h hh id now env k _ l hu hf
  | timeout =>
    dsimp only
    cases env.origin with
    | none => exact .err _ _ hl
    | some o =>
      dsimp only
      cases (s.proc h.name).inst o.instanceID with
      | none => exact .plain _ (hl.still rfl rfl)
      | some r => exact proc_withID A h hh _ now env k _ l hl hf

/-! ## The engine -/

/-- The slices contain what the engine with lists would have; scopes not made yet are empty, and so is what belongs to
handlers that do not exist. -/
structure Sim (A : App W R) (x : Sys' W R) (l : Lists Env) (v : Sys W R) : Prop where
  agree : Agree x.st l
  same : view x.sys l = v
  views : Views v l
  fresh : ∀ k f, x.scopes ≤ k → l.at_ (.scope k f) = []
  timeouts : ∀ n, (∀ h ∈ A.cfgs, h.htype = .process → h.name ≠ n) → l.at_ (.timeouts n) = []
  histories : ∀ n i, (∀ h ∈ A.cfgs, h.htype = .aggregate → h.name ≠ n) → l.at_ (.history n i) = []

theorem Sim.load {A : App W R} {x : Sys' W R} {l : Lists Env} {v : Sys W R} (h : Sim A x l v) : x.load = v := by
  rw [← h.same]
  unfold Sys'.load view
  simp only [h.agree.get]

/-- The trace, the world and so on change, the stores do not. -/
theorem Sim.keep {A : App W R} {x : Sys' W R} {l : Lists Env} {v : Sys W R} (h : Sim A x l v) (w : W) (n : Nat)
    (c : String → Time) (t : List (Obs R)) :
    Sim A { x with sys := { x.sys with w := w, nextID := n, lastCompact := c, trace := t } } l
      { v with w := w, nextID := n, lastCompact := c, trace := t } :=
  ⟨h.agree, by rw [← h.same]; rfl, h.views.still rfl rfl, h.fresh, h.timeouts, h.histories⟩

theorem Sim.w {A : App W R} {x : Sys' W R} {l : Lists Env} {v : Sys W R} (h : Sim A x l v) : x.sys.w = v.w := by
  rw [← h.same]; rfl

theorem Sim.nextID {A : App W R} {x : Sys' W R} {l : Lists Env} {v : Sys W R} (h : Sim A x l v) :
    x.sys.nextID = v.nextID := by
  rw [← h.same]; rfl

theorem Sim.notify {A : App W R} {x : Sys' W R} {l : Lists Env} {v : Sys W R} (h : Sim A x l v) (f : Fact) :
    Sim A (x.notify f) l (v.notify f) :=
  ⟨h.agree, by rw [← h.same]; rfl, h.views.still rfl rfl, h.fresh, h.timeouts, h.histories⟩

theorem uses_agree_any (grow : Nat → Nat → Nat) (us : List (Use Env)) (s : Memory.St Env) (l : Lists Env)
    (h : Agree s l) : Agree (us.foldl (fun s u => u.exec grow s) s) (us.foldl (fun l u => u.onLists l) l) :=
  (Memory.uses_agree grow (fun _ => True) .none us (fun _ _ => trivial) s l h (.inl rfl)).1

theorem handled_agree (grow : Nat → Nat → Nat) (d : Done Env) (hs : d.Sorts) {s : Memory.St Env} {l l' : Lists Env}
    {envs : List Env} (h : Agree s l) (hd : d.onLists l = (l', envs)) :
    Agree ((Stmt.handled d []).exec grow s) (l'.set .queue (l'.at_ .queue ++ envs)) := by
  have := Memory.stmt_agree grow (.handled d []) h hs (by cases d <;> first | trivial | exact .inr (by simp))
  simp only [Stmt.onLists, hd, List.foldl_nil] at this
  exact this

theorem set_queue_views {s : Sys W R} {l : Lists Env} (h : Views s l) (q : List Env) : Views s (l.set .queue q) :=
  ⟨h.agg, h.proc⟩

/-- What belongs to handlers that do not exist stays empty. -/
theorem Sim.step {A : App W R} {x : Sys' W R} {l : Lists Env} {v : Sys W R} (h : Sim A x l v) {c : HConfig}
    (hc : c ∈ A.cfgs) {y : Sys' W R} {l' : Lists Env} {t : Sys W R} (ha : Agree y.st l') (hs : view y.sys l' = t)
    (hv : Views t l') (hk : y.scopes = x.scopes + 1 ∨ y.scopes = x.scopes ∧ ∀ k f, l'.at_ (.scope k f) = l.at_ (.scope k f))
    (hm : ∀ u, u ≠ .queue → ¬ Mine c x.scopes u → l'.at_ u = l.at_ u) : Sim A y l' t := by
  refine ⟨ha, hs, hv, ?_, ?_, ?_⟩
  · intro k f hk'
    rcases hk with hk | ⟨hk, he⟩
    · rw [hm (.scope k f) (by simp) (show ¬ k = x.scopes by omega)]
      exact h.fresh k f (by omega)
    · rw [he]
      exact h.fresh k f (by omega)
  · intro n hn
    rw [hm (.timeouts n) (by simp) (fun hm => hn c hc hm.1 hm.2.symm)]
    exact h.timeouts n hn
  · intro n i hn
    rw [hm (.history n i) (by simp) (fun hm => hn c hc hm.1 hm.2.symm)]
    exact h.histories n i hn

/-- The result of handlings: a panic, or what is in the queue. -/
def SameRes {α : Type} (l l' : Lists Env) (a : Except PanicVal α) (b : Except PanicVal (List Env × α)) : Prop :=
  (∃ p, a = .error p ∧ b = .error p) ∨
    ∃ e envs, a = .ok e ∧ b = .ok (envs, e) ∧ l'.at_ .queue = l.at_ .queue ++ envs

theorem prj_nothing (A : App W R) (h : HConfig) (now : Time) (env : Env) (s : Sys W R) (envs : List Env) (e : Option Err)
    (hr : (prjHandle A h now env s).2 = .ok (envs, e)) : envs = [] := by
  unfold prjHandle prjFinish at hr
  repeat' split at hr
  all_goals first | (cases hr; done) | (cases hr; rfl)

theorem prj_still (A : App W R) (h : HConfig) (hh : h.htype = .projection) (now : Time) (env : Env) (s : Sys W R) :
    (prjHandle A h now env s).1.agg = s.agg ∧ (prjHandle A h now env s).1.proc = s.proc := by
  refine (prjHandle_steps A h now env hh s).inv (P := fun t => t.agg = s.agg ∧ t.proc = s.proc) ?_ ⟨rfl, rfl⟩
  intro x y hxy hx
  cases hxy with
  | commitAgg id x ht => rw [hh] at ht; cases ht
  | commitProc p ht => rw [hh] at ht; cases ht
  | _ => exact hx

theorem ctl_body (A : App W R) (h : HConfig) (now : Time) (env : Env) (k : Nat)
    (s : Sys W R) (l : Lists Env) (hl : Views s l) (hf : ∀ f, l.at_ (.scope k f) = []) :
    BodySum h k l (ctlHandleS A h now env k s) (ctlHandle A h now env s) := by
  unfold ctlHandleS ctlHandle
  cases hh : h.htype with
  | aggregate => exact agg_handle A h hh now env k s l hl hf
  | process => exact proc_handle A h hh now env k s l hl hf
  | integration => exact int_handle A h now env k s l hl hf
  | projection =>
    dsimp only
    obtain ⟨h1, h2⟩ := prj_still A h hh now env s
    have h3 := prj_nothing A h now env s
    revert h1 h2 h3
    generalize prjHandle A h now env s = z
    obtain ⟨t, o⟩ := z
    intro h1 h2 h3
    have ht : Views t l := hl.still h1 h2
    match o with
    | .error v => exact .err _ _ ht
    | .ok (envs, e) =>
      obtain rfl := h3 _ _ rfl
      exact .plain _ ht

theorem handleOne_sim (grow : Nat → Nat → Nat) (A : App W R) (oo : OpOpts) (env : Env) (h : HConfig) (hh : h ∈ A.cfgs)
    {x : Sys' W R} {l : Lists Env} {v : Sys W R} (hs : Sim A x l v) :
    ∃ l', Sim A (handleOneS grow A oo env h x).1 l' (handleOne A oo env h v).1 ∧
      SameRes l l' (handleOneS grow A oo env h x).2 (handleOne A oo env h v).2 := by
  unfold handleOneS handleOne
  cases skipHandler oo h with
  | some r =>
    dsimp only
    have hq := handled_agree grow .nothing trivial hs.agree (show Done.onLists _ _ = (l, []) from rfl)
    refine ⟨_, hs.step (t := v.notify (.handlingSkipped h env r)) hh hq ?_ ?_ (.inr ⟨rfl, fun _ _ => rfl⟩) ?_,
      .inr ⟨_, _, rfl, rfl, Memory.lset_at _ _ _⟩⟩
    · rw [← hs.same]; rfl
    · exact set_queue_views (hs.views.still (t := v.notify (.handlingSkipped h env r)) rfl rfl) _
    · intro u hu _
      exact Memory.lset_at_other _ _ _ _ hu
  | none =>
    dsimp only
    rw [hs.load]
    have hb := ctl_body A h oo.now env x.scopes (v.notify (.handlingBegun h env)) l (hs.views.still rfl rfl)
      (fun f => hs.fresh _ f (Nat.le_refl _))
    revert hb
    generalize ctlHandleS A h oo.now env x.scopes (v.notify (.handlingBegun h env)) = a
    generalize ctlHandle A h oo.now env (v.notify (.handlingBegun h env)) = b
    intro hb
    cases hb with
    | err t p ht =>
      exact ⟨l, hs.step hh hs.agree ht.view_eq ht (.inr ⟨rfl, fun _ _ => rfl⟩) (fun _ _ _ => rfl), .inl ⟨_, rfl, rfl⟩⟩
    | ok t' t d e envs l' hd hsort hv ht hm =>
      dsimp only
      have hq := handled_agree grow d.done hsort (uses_agree_any grow d.uses _ _ hs.agree) hd
      refine ⟨_, hs.step (t := t.notify (.handlingCompleted h env e)) hh hq ?_ ?_ (.inl rfl) ?_,
        .inr ⟨_, _, rfl, rfl, ?_⟩⟩
      · rw [← hv]; rfl
      · exact set_queue_views (ht.still (t := t.notify (.handlingCompleted h env e)) rfl rfl) _
      · intro u hu hmine
        rw [Memory.lset_at_other _ _ _ _ hu, hm u hmine]
      · rw [Memory.lset_at, hm .queue (fun h => h)]

theorem handleAll_sim (grow : Nat → Nat → Nat) (A : App W R) (oo : OpOpts) (env : Env) (hs : List HConfig) :
    ∀ (_ : ∀ h ∈ hs, h ∈ A.cfgs) (de : List EngErr) (x : Sys' W R) (l : Lists Env) (v : Sys W R) (_ : Sim A x l v)
      (q : List Env) (_ : l.at_ .queue = q),
    ∃ l', Sim A (handleAllS grow A oo env hs de x).1 l' (handleAll A oo env hs q de v).1 ∧
      SameRes ⟨fun _ => [], []⟩ l' (handleAllS grow A oo env hs de x).2 (handleAll A oo env hs q de v).2 := by
  induction hs with
  | nil =>
    intro _ de x l v hs q hq
    exact ⟨l, hs, .inr ⟨_, _, rfl, rfl, hq⟩⟩
  | cons h hs ih =>
    intro hh de x l v hsim q hq
    obtain ⟨l', h1, h2⟩ := handleOne_sim grow A oo env h (hh h List.mem_cons_self) hsim
    unfold handleAllS handleAll
    revert h1 h2
    generalize handleOneS grow A oo env h x = a
    generalize handleOne A oo env h v = b
    obtain ⟨y, ra⟩ := a
    obtain ⟨t, rb⟩ := b
    intro h1 h2
    rcases h2 with ⟨p, h2, h3⟩ | ⟨e, envs, h2, h3, h4⟩
    · obtain rfl : ra = _ := h2
      obtain rfl : rb = _ := h3
      exact ⟨l', h1, .inl ⟨_, rfl, rfl⟩⟩
    · obtain rfl : ra = _ := h2
      obtain rfl : rb = _ := h3
      dsimp only
      exact ih (fun h hm => hh h (List.mem_cons_of_mem _ hm)) _ _ _ _ h1 _ (by rw [h4, hq])

theorem targets_mem {A : App W R} {env : Env} {hs : List HConfig} (h : A.targets env = .ok hs) :
    ∀ c ∈ hs, c ∈ A.cfgs := by
  unfold App.targets at h
  split at h
  · split at h
    · cases h
    · split at h
      · cases h
      · rename_i c hc
        cases h
        intro c' hc'
        obtain rfl := List.mem_singleton.1 hc'
        exact List.mem_of_find?_eq_some hc
  · cases h
    exact fun c hc => (List.mem_filter.1 hc).1

/-- Taking a message from the queue. -/
theorem next_sim (grow : Nat → Nat → Nat) {A : App W R} {x : Sys' W R} {l : Lists Env} {v : Sys W R} (hs : Sim A x l v)
    {env : Env} {q : List Env} (hq : l.at_ .queue = env :: q) :
    (x.st.at_ .queue).len ≠ 0 ∧ x.st.mem.cell (x.st.at_ .queue).arr (x.st.at_ .queue).off = env ∧
      ∃ l', Sim A { x with st := Stmt.next.exec grow x.st } l' v ∧ l'.at_ .queue = q := by
  have hg : x.st.mem.get (x.st.at_ .queue) = env :: q := (hs.agree.get .queue).trans hq
  have hlen : (x.st.at_ .queue).len ≠ 0 := by
    rw [← Memory.get_length x.st.mem, hg]
    simp
  refine ⟨hlen, ?_, ?_⟩
  · obtain ⟨n, hn⟩ := Nat.exists_eq_succ_of_ne_zero hlen
    unfold Mem.get at hg
    rw [hn, List.range_succ_eq_map, List.map_cons] at hg
    exact (List.cons.inj hg).1
  · have := Memory.stmt_agree grow .next hs.agree trivial trivial
    simp only [Stmt.onLists, hq] at this
    refine ⟨_, ⟨this, ?_, ?_, ?_, ?_, ?_⟩, Memory.lset_at _ _ _⟩
    · exact hs.same
    · exact ⟨hs.views.agg, hs.views.proc⟩
    · exact hs.fresh
    · exact hs.timeouts
    · exact hs.histories

theorem len_zero {x : Memory.St Env} {l : Lists Env} (h : Agree x l) (hq : l.at_ .queue = []) :
    (x.at_ .queue).len = 0 := by
  rw [← Memory.get_length x.mem]
  have : x.mem.get (x.at_ .queue) = [] := (h.get .queue).trans hq
  rw [this]
  rfl

theorem loop_sim (grow : Nat → Nat → Nat) (A : App W R) (oo : OpOpts) (n : Nat) :
    ∀ (q : List Env) (errs : List EngErr) (x : Sys' W R) (l : Lists Env) (v : Sys W R) (_ : Sim A x l v)
      (_ : l.at_ .queue = q),
    (∃ l', Sim A (dispatchLoopS grow A oo n errs x).1 l' (dispatchLoop A oo n q errs v).1) ∧
      (dispatchLoopS grow A oo n errs x).2 = (dispatchLoop A oo n q errs v).2 := by
  induction n with
  | zero =>
    intro q errs x l v hs hq
    cases q with
    | nil =>
      unfold dispatchLoopS dispatchLoop
      rw [if_pos (len_zero hs.agree hq)]
      exact ⟨⟨l, hs⟩, rfl⟩
    | cons env q =>
      unfold dispatchLoopS dispatchLoop
      rw [if_neg (next_sim grow hs hq).1]
      exact ⟨⟨l, hs⟩, rfl⟩
  | succ n ih =>
    intro q errs x l v hs hq
    cases q with
    | nil =>
      unfold dispatchLoopS dispatchLoop
      rw [if_pos (len_zero hs.agree hq)]
      exact ⟨⟨l, hs⟩, rfl⟩
    | cons env q =>
      obtain ⟨h1, h2, l1, h3, h4⟩ := next_sim grow hs hq
      unfold dispatchLoopS dispatchLoop
      rw [if_neg h1]
      dsimp only
      rw [h2]
      cases ht : A.targets env with
      | error p => exact ⟨⟨l1, h3⟩, rfl⟩
      | ok hs' =>
        dsimp only
        obtain ⟨l2, h5, h6⟩ := handleAll_sim grow A oo env hs' (targets_mem ht) [] _ _ _
          (h3.notify (.dispatchBegun env)) q h4
        revert h5 h6
        generalize handleAllS grow A oo env hs' [] _ = a
        generalize handleAll A oo env hs' q [] _ = b
        obtain ⟨y, ra⟩ := a
        obtain ⟨t, rb⟩ := b
        intro h5 h6
        rcases h6 with ⟨p, h6, h7⟩ | ⟨e, envs, h6, h7, h8⟩
        · obtain rfl : ra = _ := h6
          obtain rfl : rb = _ := h7
          exact ⟨⟨l2, h5⟩, rfl⟩
        · obtain rfl : ra = _ := h6
          obtain rfl : rb = _ := h7
          dsimp only
          have h9 := h5.notify (.dispatchCompleted env e)
          rw [h9.w]
          cases A.uc.ctxErr (t.notify (.dispatchCompleted env e)).w with
          | some c => exact ⟨⟨l2, h9⟩, rfl⟩
          | none => exact ih _ _ _ _ _ h9 h8


theorem tick_sim (grow : Nat → Nat → Nat) (A : App W R) (h : HConfig) (hh : h ∈ A.cfgs) (now : Time)
    {x : Sys' W R} {l : Lists Env} {v : Sys W R} (hs : Sim A x l v) :
    ∃ l', Sim A (ctlTickS grow A h now x).1 l' (ctlTick A h now v).1 ∧
      SameRes l l' (ctlTickS grow A h now x).2 (ctlTick A h now v).2 := by
  have hq := handled_agree grow .nothing trivial hs.agree (show Done.onLists _ _ = (l, []) from rfl)
  have hn : ∃ l', Sim A { x with st := (Stmt.handled .nothing []).exec grow x.st } l' v ∧
      SameRes l l' (.ok (none : Option Err)) (.ok ([], none)) :=
    ⟨_, hs.step (t := v) hh hq hs.same (set_queue_views (hs.views.still rfl rfl) _) (.inr ⟨rfl, fun _ _ => rfl⟩)
      (fun u hu _ => Memory.lset_at_other _ _ _ _ hu), .inr ⟨_, _, rfl, rfl, Memory.lset_at _ _ _⟩⟩
  unfold ctlTickS ctlTick
  cases ht : h.htype with
  | aggregate => exact hn
  | integration => exact hn
  | process =>
    dsimp only
    have ha := Memory.stmt_agree grow (.tickProcess h.name (fun e => decide (e.scheduledFor ≤ now))) hs.agree trivial trivial
    have hv : Views (procTick h now v).1 ((Stmt.tickProcess h.name (fun e => decide (e.scheduledFor ≤ now))).onLists l) := by
      refine ⟨fun n i => ?_, fun n => ?_⟩
      · exact hs.views.agg n i
      · simp only [Stmt.onLists, procTick, Sys.setProc, upd]
        by_cases hn : n = h.name
        · subst hn
          rw [Memory.lset_at, hs.views.proc, if_pos rfl]
        · rw [Memory.lset_at_other _ (.timeouts n) _ _ (by simp [hn]), if_neg hn]
          exact hs.views.proc n
    refine ⟨_, hs.step (t := (procTick h now v).1) hh ha (view_of hv ?_ ?_ ?_ ?_ ?_ ?_) hv (.inr ⟨rfl, fun _ _ => rfl⟩) ?_,
      .inr ⟨_, _, rfl, rfl, ?_⟩⟩
    · exact hs.w
    · exact hs.nextID
    · show x.sys.lastCompact = v.lastCompact
      rw [← hs.same]; rfl
    · show x.sys.trace = v.trace
      rw [← hs.same]; rfl
    · intro n i
      show (x.sys.agg n i).isSome = (v.agg n i).isSome
      rw [← hs.same]
      simp [view]
    · intro n
      have h1 : (x.sys.proc n).inst = (v.proc n).inst := by rw [← hs.same]; rfl
      simp only [procTick, Sys.setProc, upd]
      by_cases hn : n = h.name
      · subst hn
        rw [if_pos rfl]
        exact h1
      · rw [if_neg hn]
        exact h1
    · intro u hu hm
      have h1 : u ≠ .timeouts h.name := fun he => hm (by rw [he]; exact ⟨ht, rfl⟩)
      simp only [Stmt.onLists]
      rw [Memory.lset_at_other _ _ _ _ h1, Memory.lset_at_other _ _ _ _ hu]
    · simp only [Stmt.onLists, procTick]
      rw [Memory.lset_at_other _ .queue _ _ (by simp), Memory.lset_at, hs.views.proc]
  | projection =>
    dsimp only
    rw [hs.load]
    obtain ⟨seg, hg⟩ := ctlTick_sum A h now v
    have h1 := hg.agg
    have h2 := hg.proc
    rw [if_neg (by rw [ht]; simp)] at h2
    unfold ctlTick at h1 h2
    rw [ht] at h1 h2
    dsimp only at h1 h2
    revert h1 h2
    generalize prjTick A h now v = z
    obtain ⟨t, o⟩ := z
    intro h1 h2
    cases o with
    | error p =>
      have hv : Views t l := hs.views.still h1 h2
      exact ⟨l, hs.step hh hs.agree hv.view_eq hv (.inr ⟨rfl, fun _ _ => rfl⟩) (fun _ _ _ => rfl), .inl ⟨_, rfl, rfl⟩⟩
    | ok e =>
      have hv : Views t l := hs.views.still h1 h2
      exact ⟨_, hs.step (t := t) hh hq hv.view_eq (set_queue_views hv _) (.inr ⟨rfl, fun _ _ => rfl⟩)
        (fun u hu _ => Memory.lset_at_other _ _ _ _ hu), .inr ⟨_, _, rfl, rfl, Memory.lset_at _ _ _⟩⟩

theorem tickAll_sim (grow : Nat → Nat → Nat) (A : App W R) (oo : OpOpts) (hs : List HConfig) :
    ∀ (_ : ∀ h ∈ hs, h ∈ A.cfgs) (errs : List EngErr) (x : Sys' W R) (l : Lists Env) (v : Sys W R) (_ : Sim A x l v)
      (q : List Env) (_ : l.at_ .queue = q),
    ∃ l', Sim A (tickAllS grow A oo hs errs x).1 l' (tickAll A oo hs q errs v).1 ∧
      SameRes ⟨fun _ => [], []⟩ l' (tickAllS grow A oo hs errs x).2 (tickAll A oo hs q errs v).2 := by
  induction hs with
  | nil =>
    intro _ errs x l v hs q hq
    exact ⟨l, hs, .inr ⟨_, _, rfl, rfl, hq⟩⟩
  | cons h hs ih =>
    intro hh errs x l v hsim q hq
    unfold tickAllS tickAll
    cases skipHandler oo h with
    | some r => exact ih (fun h hm => hh h (List.mem_cons_of_mem _ hm)) _ _ _ _ (hsim.notify _) _ hq
    | none =>
      dsimp only
      obtain ⟨l', h1, h2⟩ := tick_sim grow A h (hh h List.mem_cons_self) oo.now (hsim.notify (.tickBegun h))
      revert h1 h2
      generalize ctlTickS grow A h oo.now (x.notify (.tickBegun h)) = a
      generalize ctlTick A h oo.now (v.notify (.tickBegun h)) = b
      obtain ⟨y, ra⟩ := a
      obtain ⟨t, rb⟩ := b
      intro h1 h2
      rcases h2 with ⟨p, h2, h3⟩ | ⟨e, envs, h2, h3, h4⟩
      · obtain rfl : ra = _ := h2
        obtain rfl : rb = _ := h3
        exact ⟨l', h1, .inl ⟨_, rfl, rfl⟩⟩
      · obtain rfl : ra = _ := h2
        obtain rfl : rb = _ := h3
        dsimp only
        have h5 := h1.notify (.tickCompleted h e)
        rw [h5.w]
        cases A.uc.ctxErr (t.notify (.tickCompleted h e)).w with
        | some c => exact ⟨l', h5, .inr ⟨_, _, rfl, rfl, by rw [h4, hq]; rfl⟩⟩
        | none => exact ih (fun h hm => hh h (List.mem_cons_of_mem _ hm)) _ _ _ _ h5 _ (by rw [h4, hq])

/-- The queue begins. -/
theorem Sim.queue {A : App W R} {x : Sys' W R} {l : Lists Env} {v : Sys W R} (hs : Sim A x l v) {st : Memory.St Env}
    {q : List Env} (ha : Agree st (l.set .queue q)) : Sim A { x with st := st } (l.set .queue q) v :=
  ⟨ha, hs.same, set_queue_views hs.views _, hs.fresh, hs.timeouts, hs.histories⟩

/-- Two results are the same. -/
def SameOut (A : App W R) (a : Sys' W R × Outcome (List EngErr)) (b : Sys W R × Outcome (List EngErr)) : Prop :=
  (∃ l, Sim A a.1 l b.1) ∧ a.2 = b.2

theorem engTick_sim (grow : Nat → Nat → Nat) (A : App W R) (fuel : Nat) (order : List HConfig)
    (ho : ∀ h ∈ order, h ∈ A.cfgs) (os : List OpOption)
    {x : Sys' W R} {l : Lists Env} {v : Sys W R} (hs : Sim A x l v) :
    SameOut A (engTickS grow A fuel order os x) (engTick A fuel order os v) := by
  unfold engTickS engTick newOpOpts
  rw [hs.w]
  generalize (OpOpts.default (A.uc.wallClock v.w)).applyAll A os = z
  cases z with
  | error p => exact ⟨⟨l, hs⟩, rfl⟩
  | ok oo =>
    dsimp only
    have h1 := hs.notify (.tickCycleBegun (oo.cycle A))
    rw [h1.w]
    cases A.uc.lockErr (v.notify (.tickCycleBegun (oo.cycle A))).w with
    | some e => exact ⟨⟨l, h1.notify _⟩, rfl⟩
    | none =>
      dsimp only
      suffices h : SameOut A (engTickLockedS grow A oo fuel order (x.notify (.tickCycleBegun (oo.cycle A))))
          (engTickLocked A oo fuel order (v.notify (.tickCycleBegun (oo.cycle A)))) by
        revert h
        generalize engTickLockedS grow A oo fuel order _ = a
        generalize engTickLocked A oo fuel order _ = b
        obtain ⟨y, o⟩ := a
        obtain ⟨t, o'⟩ := b
        rintro ⟨⟨l3, h6⟩, h7⟩
        obtain rfl : o = o' := h7
        cases o with
        | done errs => exact ⟨⟨l3, h6.notify _⟩, rfl⟩
        | panicked p => exact ⟨⟨l3, h6⟩, rfl⟩
        | running => exact ⟨⟨l3, h6⟩, rfl⟩
      unfold engTickLockedS engTickLocked
      obtain ⟨l2, h2, h3⟩ := tickAll_sim grow A oo order ho [] _ _ _
        (h1.queue (Memory.stmt_agree grow .tick h1.agree trivial trivial)) [] (Memory.lset_at _ _ _)
      revert h2 h3
      generalize tickAllS grow A oo order [] _ = a
      generalize tickAll A oo order [] [] _ = b
      obtain ⟨y, ra⟩ := a
      obtain ⟨t, rb⟩ := b
      intro h2 h3
      rcases h3 with ⟨p, h3, h4⟩ | ⟨⟨errs, c⟩, envs, h3, h4, h5⟩
      · obtain rfl : ra = _ := h3
        obtain rfl : rb = _ := h4
        exact ⟨⟨l2, h2⟩, rfl⟩
      · obtain rfl : ra = _ := h3
        obtain rfl : rb = _ := h4
        cases c with
        | some c => exact ⟨⟨l2, h2⟩, rfl⟩
        | none =>
          dsimp only
          have h6 := loop_sim grow A oo fuel envs [] y l2 t h2 h5
          revert h6
          generalize dispatchLoopS grow A oo fuel [] y = a
          generalize dispatchLoop A oo fuel envs [] t = b
          obtain ⟨y, o⟩ := a
          obtain ⟨t, o'⟩ := b
          rintro ⟨⟨l3, h6⟩, h7⟩
          obtain rfl : o = o' := h7
          cases o <;> exact ⟨⟨l3, h6⟩, rfl⟩

theorem engDispatch_sim (grow : Nat → Nat → Nat) (A : App W R) (fuel : Nat) (m : Message) (os : List OpOption)
    {x : Sys' W R} {l : Lists Env} {v : Sys W R} (hs : Sim A x l v) :
    SameOut A (engDispatchS grow A fuel m os x) (engDispatch A fuel m os v) := by
  have h0 : Sim A ⟨⟨x.sys.w, x.sys.nextID + 1, x.sys.agg, x.sys.proc, x.sys.lastCompact, x.sys.trace⟩, x.st, x.scopes⟩ l
      ⟨v.w, v.nextID + 1, v.agg, v.proc, v.lastCompact, v.trace⟩ := by
    rw [hs.nextID]
    exact ⟨hs.agree, by rw [← hs.same]; rfl, hs.views.still rfl rfl, hs.fresh, hs.timeouts, hs.histories⟩
  unfold engDispatchS engDispatch newOpOpts
  dsimp only
  have hw := hs.w
  have hid := h0.nextID
  dsimp only at hid
  revert h0
  rw [hw, hid]
  generalize (OpOpts.default (A.uc.wallClock v.w)).applyAll A os = z
  intro h0
  cases z with
  | error p => exact ⟨⟨l, h0⟩, rfl⟩
  | ok oo =>
    dsimp only
    split
    · exact ⟨⟨l, h0⟩, rfl⟩
    cases m.invalid with
    | some e => exact ⟨⟨l, h0⟩, rfl⟩
    | none =>
      dsimp only
      split
      · exact ⟨⟨l, h0⟩, rfl⟩
      have h1 := h0.notify (.dispatchCycleBegun (Env.root (v.nextID + 1) m oo.now) (oo.cycle A))
      rw [h1.w]
      cases A.uc.lockErr _ with
      | some e => exact ⟨⟨l, h1.notify _⟩, rfl⟩
      | none =>
        dsimp only
        have h2 := loop_sim grow A oo fuel [Env.root (v.nextID + 1) m oo.now] [] _ _ _
          (h1.queue (Memory.stmt_agree grow (.dispatch (Env.root (v.nextID + 1) m oo.now)) h1.agree trivial trivial))
          (Memory.lset_at _ _ _)
        revert h2
        generalize dispatchLoopS grow A oo fuel [] _ = a
        generalize dispatchLoop A oo fuel _ [] _ = b
        obtain ⟨y, o⟩ := a
        obtain ⟨t, o'⟩ := b
        rintro ⟨⟨l3, h6⟩, h7⟩
        obtain rfl : o = o' := h7
        cases o with
        | done errs => exact ⟨⟨l3, h6.notify _⟩, rfl⟩
        | panicked p => exact ⟨⟨l3, h6⟩, rfl⟩
        | running => exact ⟨⟨l3, h6⟩, rfl⟩

/-- `Reset()` of the controllers. -/
structure Emptied (cfgs : List HConfig) (l l' : Lists Env) : Prop where
  mono : ∀ u, l.at_ u = [] → l'.at_ u = []
  scope : ∀ k f, l'.at_ (.scope k f) = l.at_ (.scope k f)
  timeouts : ∀ h ∈ cfgs, h.htype = .process → l'.at_ (.timeouts h.name) = []
  histories : ∀ h ∈ cfgs, h.htype = .aggregate → ∀ i, l'.at_ (.history h.name i) = []

theorem resets_agree (grow : Nat → Nat → Nat) (cfgs : List HConfig) : ∀ (s : Memory.St Env) (l : Lists Env), Agree s l →
    ∃ l', Agree (cfgs.foldl (resetOne grow) s) l' ∧ Emptied cfgs l l' := by
  induction cfgs with
  | nil => exact fun s l h => ⟨l, h, ⟨fun _ h => h, fun _ _ => rfl, (fun h hh => nomatch hh), (fun h hh => nomatch hh)⟩⟩
  | cons c cs ih =>
    intro s l h
    rw [List.foldl_cons]
    unfold resetOne
    cases hc : c.htype with
    | process =>
      obtain ⟨l', h1, h2⟩ := ih _ _ (Memory.stmt_agree grow (.resetProcess c.name) h trivial trivial)
      refine ⟨l', h1, ?_, ?_, ?_, ?_⟩
      · intro u hu
        apply h2.mono
        simp only [Stmt.onLists]
        by_cases he : u = .timeouts c.name
        · rw [he, Memory.lset_at]
        · rw [Memory.lset_at_other _ _ _ _ he, hu]
      · exact h2.scope
      · intro x hx hp
        rcases List.mem_cons.1 hx with rfl | hx
        · exact h2.mono _ (Memory.lset_at _ _ _)
        · exact h2.timeouts x hx hp
      · intro x hx hp
        rcases List.mem_cons.1 hx with rfl | hx
        · rw [hc] at hp; cases hp
        · exact h2.histories x hx hp
    | aggregate =>
      obtain ⟨l', h1, h2⟩ := ih _ _ (Memory.stmt_agree grow (.resetAggregate c.name) h trivial trivial)
      refine ⟨l', h1, ?_, ?_, ?_, ?_⟩
      · intro u hu
        apply h2.mono
        cases u with
        | history n i =>
          simp only [Stmt.onLists]
          split
          · rfl
          · exact hu
        | _ => exact hu
      · exact h2.scope
      · intro x hx hp
        rcases List.mem_cons.1 hx with rfl | hx
        · rw [hc] at hp; cases hp
        · exact h2.timeouts x hx hp
      · intro x hx hp i
        rcases List.mem_cons.1 hx with rfl | hx
        · exact h2.mono _ (by simp [Stmt.onLists])
        · exact h2.histories x hx hp i
    | integration =>
      obtain ⟨l', h1, h2⟩ := ih _ _ h
      refine ⟨l', h1, h2.mono, h2.scope, ?_, ?_⟩
      · intro x hx hp
        rcases List.mem_cons.1 hx with rfl | hx
        · rw [hc] at hp; cases hp
        · exact h2.timeouts x hx hp
      · intro x hx hp
        rcases List.mem_cons.1 hx with rfl | hx
        · rw [hc] at hp; cases hp
        · exact h2.histories x hx hp
    | projection =>
      obtain ⟨l', h1, h2⟩ := ih _ _ h
      refine ⟨l', h1, h2.mono, h2.scope, ?_, ?_⟩
      · intro x hx hp
        rcases List.mem_cons.1 hx with rfl | hx
        · rw [hc] at hp; cases hp
        · exact h2.timeouts x hx hp
      · intro x hx hp
        rcases List.mem_cons.1 hx with rfl | hx
        · rw [hc] at hp; cases hp
        · exact h2.histories x hx hp

theorem resetters_sim {A : App W R} (fs : List (W → W × Option PanicVal)) : ∀ (i : Nat) (s : Sys W R) (st : Memory.St Env)
    (k : Nat) (l : Lists Env) (v : Sys W R), Sim A ⟨s, st, k⟩ l v →
    Sim A ⟨(runResetters i fs s).1, st, k⟩ l (runResetters i fs v).1 ∧
      (runResetters i fs s).2 = (runResetters i fs v).2 := by
  induction fs with
  | nil => exact fun _ _ _ _ _ _ h => ⟨h, rfl⟩
  | cons f fs ih =>
    intro i s st k l v h
    have hw : s.w = v.w := h.w
    have h1 : Sim A ⟨(s.user (.resetter i) f).1, st, k⟩ l (v.user (.resetter i) f).1 :=
      ⟨h.agree, by rw [← h.same]; rfl, h.views.still rfl rfl, h.fresh, h.timeouts, h.histories⟩
    have h2 : (s.user (.resetter i) f).2 = (v.user (.resetter i) f).2 := by
      unfold Sys.user
      rw [hw]
    unfold runResetters
    revert h1 h2
    generalize s.user (.resetter i) f = a
    generalize v.user (.resetter i) f = b
    obtain ⟨y, o⟩ := a
    obtain ⟨t, o'⟩ := b
    intro h1 h2
    obtain rfl : o = o' := h2
    cases o with
    | some p => exact ⟨h1, rfl⟩
    | none => exact ih _ _ _ _ _ _ h1

theorem engReset_sim (grow : Nat → Nat → Nat) (A : App W R)
    {x : Sys' W R} {l : Lists Env} {v : Sys W R} (hs : Sim A x l v) :
    SameOut A (engResetS grow A x) (engReset A v) := by
  obtain ⟨l', h1, h2⟩ := resets_agree grow A.cfgs _ _ hs.agree
  have ht : ∀ n, l'.at_ (.timeouts n) = [] := by
    intro n
    by_cases h : ∀ h ∈ A.cfgs, h.htype = .process → h.name ≠ n
    · exact h2.mono _ (hs.timeouts n h)
    · rcases Classical.not_forall.1 h with ⟨c, hc⟩
      rcases Classical.not_forall.1 hc with ⟨hc1, hc⟩
      rcases Classical.not_forall.1 hc with ⟨hc2, hc⟩
      rw [← Classical.not_not.1 hc]
      exact h2.timeouts c hc1 hc2
  have hh : ∀ n i, l'.at_ (.history n i) = [] := by
    intro n i
    by_cases h : ∀ h ∈ A.cfgs, h.htype = .aggregate → h.name ≠ n
    · exact h2.mono _ (hs.histories n i h)
    · rcases Classical.not_forall.1 h with ⟨c, hc⟩
      rcases Classical.not_forall.1 hc with ⟨hc1, hc⟩
      rcases Classical.not_forall.1 hc with ⟨hc2, hc⟩
      rw [← Classical.not_not.1 hc]
      exact h2.histories c hc1 hc2 i
  have hv : Views ({ v.emit .reset with
      nextID := 0, agg := fun _ _ => none, proc := fun _ => ⟨fun _ => none, []⟩ } : Sys W R) l' := ⟨hh, ht⟩
  have h3 : Sim A ⟨{ x.sys.emit .reset with
      nextID := 0, agg := fun _ _ => none, proc := fun _ => ⟨fun _ => none, []⟩ }, A.cfgs.foldl (resetOne grow) x.st, x.scopes⟩ l'
      { v.emit .reset with nextID := 0, agg := fun _ _ => none, proc := fun _ => ⟨fun _ => none, []⟩ } := by
    refine ⟨h1, view_of hv hs.w rfl ?_ ?_ (fun _ _ => rfl) (fun _ => rfl), hv, ?_, fun n _ => ht n, fun n i _ => hh n i⟩
    · show x.sys.lastCompact = v.lastCompact
      rw [← hs.same]; rfl
    · show x.sys.trace ++ _ = v.trace ++ _
      rw [← hs.same]; rfl
    · intro k f hk
      rw [h2.scope]
      exact hs.fresh k f hk
  have h4 := resetters_sim A.uc.resetters 0 _ _ _ _ _ h3
  exact ⟨⟨l', h4.1⟩, h4.2⟩

theorem exec_sim (grow : Nat → Nat → Nat) (A : App W R) (op : Op) (ho : op.ok A)
    {x : Sys' W R} {l : Lists Env} {v : Sys W R} (hs : Sim A x l v) :
    SameOut A (execS grow A x op) (op.exec A v) := by
  cases op with
  | dispatch n m os => exact engDispatch_sim grow A n m os hs
  | tick n order os => exact engTick_sim grow A n order (fun h hh => (List.Perm.mem_iff ho).1 hh) os hs
  | reset => exact engReset_sim grow A hs

theorem reach_sim (grow : Nat → Nat → Nat) (A : App W R) {x : Sys' W R} (hx : ReachS grow A x) :
    ∃ l, Sim A x l x.load ∧ Reach A x.load := by
  suffices h : ∃ l v, Sim A x l v ∧ Reach A v by
    obtain ⟨l, v, h1, h2⟩ := h
    exact ⟨l, by rw [h1.load]; exact h1, by rw [h1.load]; exact h2⟩
  induction hx with
  | init w m =>
    refine ⟨⟨fun _ => [], []⟩, Sys.init w, ⟨⟨⟨?_, ?_, ?_⟩, ?_, rfl⟩, ?_, ⟨fun _ _ => rfl, fun _ => rfl⟩,
      fun _ _ _ => rfl, fun _ _ => rfl, fun _ _ _ => rfl⟩, .init w⟩
    · exact fun v => Nat.le_refl _
    · exact fun v => .inl rfl
    · exact fun u v _ => .inl rfl
    · exact fun v => rfl
    · rfl
  | world w _ ih =>
    obtain ⟨l, v, h, h'⟩ := ih
    exact ⟨l, { v with w := w }, ⟨h.agree, by rw [← h.same]; rfl, h.views.still rfl rfl, h.fresh, h.timeouts, h.histories⟩,
      .world w h'⟩
  | step op _ ho ih =>
    obtain ⟨l, v, h, h'⟩ := ih
    obtain ⟨⟨l', h1⟩, _⟩ := exec_sim grow A op ho h
    exact ⟨l', _, h1, .step op h' ho⟩

/-- However much room there is in slices, and whatever memory contains to begin with: an engine with slices is always in
a state that the engine with lists can be in, the operations have the same results, and they lead to the same state. -/
theorem C115_engine (grow : Nat → Nat → Nat) (A : App W R) {x : Sys' W R} (hx : ReachS grow A x) :
    Reach A x.load ∧ ∀ op : Op, op.ok A →
      (execS grow A x op).2 = (op.exec A x.load).2 ∧ (execS grow A x op).1.load = (op.exec A x.load).1 := by
  obtain ⟨l, h, hr⟩ := reach_sim grow A hx
  refine ⟨hr, fun op ho => ?_⟩
  obtain ⟨⟨l', h1⟩, h2⟩ := exec_sim grow A op ho h
  exact ⟨h2, h1.load⟩

namespace Demo

/-- Room for twice as many. -/
def twice (cap len : Nat) : Nat := max (2 * cap) len

/-- Perform operations one after the other. -/
def runS : List Op → Sys' Nat (List String) → Sys' Nat (List String)
  | [], x => x
  | op :: os, x => runS os (execS twice Verif.Demo.app x op).1

theorem runS_reach (os : List Op) (ho : ∀ op ∈ os, op.ok Verif.Demo.app) : ∀ x : Sys' Nat (List String),
    ReachS twice Verif.Demo.app x → ReachS twice Verif.Demo.app (runS os x) := by
  induction os with
  | nil => exact fun _ h => h
  | cons op os ih =>
    exact fun x h => ih (fun o hm => ho o (List.mem_cons_of_mem _ hm)) _ (.step op h (ho op List.mem_cons_self))

/-- Memory full of something else. -/
def memory : Mem Env := ⟨fun _ _ => Env.root 99 (Verif.Demo.msgC "old") 0, 5⟩

/-- Three commands. -/
def three : List Op :=
  [.dispatch 20 (Verif.Demo.msgC "x") [.currentTime 1], .dispatch 20 (Verif.Demo.msgC "y") [.currentTime 3],
   .dispatch 20 (Verif.Demo.msgC "z") [.currentTime 4]]

def before : Sys' Nat (List String) := runS three ⟨Sys.init 0, Memory.St.init memory, 0⟩

theorem before_reach : ReachS twice Verif.Demo.app before := by
  refine runS_reach _ ?_ _ (.init 0 memory)
  intro op ho
  simp only [three, List.mem_cons, List.not_mem_nil, or_false] at ho
  rcases ho with rfl | rfl | rfl <;> trivial

def tick : Op := .tick 20 [Verif.Demo.agg, Verif.Demo.proc, Verif.Demo.int, Verif.Demo.prj] [.currentTime 10]

end Demo

set_option maxRecDepth 100000 in
/-- Three events are in a history that has room for four, and three timeouts are pending; then the timeouts are due. -/
example : ReachS Demo.twice Verif.Demo.app Demo.before ∧ Demo.tick.ok Verif.Demo.app ∧
    (Demo.before.st.at_ (.history "agg" "a")).len = 3 ∧ (Demo.before.st.at_ (.history "agg" "a")).cap = 4 ∧
    ((Demo.before.load.proc "proc").timeouts.map (fun e => e.msg.body)) = ["x", "y", "z"] ∧
    (execS Demo.twice Verif.Demo.app Demo.before Demo.tick).2 = .done [] ∧
    (dispatchedIn (execS Demo.twice Verif.Demo.app Demo.before Demo.tick).1.load.trace).length = 17 := by
  refine ⟨Demo.before_reach, List.Perm.refl _, ?_⟩
  decide +kernel

end Verif.Sliced
