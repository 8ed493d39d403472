import Verif.EngineBlind

/-!
# The interruptible programs do what the engine does

Run without interruption, the programs of `Verif.EngineConc` do what the functions of
`Verif.Engine` do.  Proof machinery for C65.
-/

namespace Verif

variable {W R : Type}

/-- The state with another last message ID. -/
def Sys.at (s : Sys W R) (n : Nat) : Sys W R := { s with nextID := n }

theorem env_ren_id : Env.ren id = id := by
  funext e; rfl

theorem fact_ren_id (f : Fact) : f.ren id = f := by
  cases f <;> simp [Fact.ren, env_ren_id]

theorem call_ren_id (c : Call R) : c.ren id = c := by
  cases c <;> simp [Call.ren]

theorem obs_ren_id : Obs.ren (R := R) id = id := by
  funext o
  cases o <;> simp [Obs.ren, fact_ren_id, call_ren_id]

theorem sys_ren_id (s : Sys W R) (n : Nat) : s.ren id id n = s.at n := by
  simp [Sys.ren, Sys.at, env_ren_id, obs_ren_id]

theorem prog_sim_id {O α : Type} (p : Prog W O α) : Prog.Sim id p p := by
  induction p with
  | ret a => exact .ret a
  | panic v => exact .panic v
  | op o k ih => exact .op o ih
  | get k ih => exact .get ih
  | set w k ih => exact .set w ih

theorem anon_id (A : App W R) : A.Anon id id where
  aggRoute _ _ _ := rfl
  aggNew _ _ := rfl
  aggApply _ _ _ _ := rfl
  aggHandle _ _ _ _ := prog_sim_id _
  procRoute _ _ _ := rfl
  procNew _ _ := rfl
  procHandle _ _ _ _ _ := prog_sim_id _
  intHandle _ _ := prog_sim_id _
  prjVersion _ _ _ := rfl
  prjHandle _ _ _ _ _ _ := prog_sim_id _
  prjClose _ _ _ := rfl
  prjCompact _ _ := prog_sim_id _
  schedule _ := rfl
  resetters _ _ _ := rfl
  ctxErr _ := rfl
  sort _ := by simp [env_ren_id]

theorem agg_ren_id : AggScope.ren (R := R) id = id := by funext sc; simp [AggScope.ren, env_ren_id]
theorem proc_ren_id : ProcScope.ren (R := R) id = id := by funext sc; simp [ProcScope.ren, env_ren_id]
theorem hres_ren_id : HRes.ren id = id := by
  funext r; rcases r with v | ⟨q, e⟩ <;> simp [HRes.ren, env_ren_id]

theorem at_self (s : Sys W R) : s.at s.nextID = s := rfl
@[simp] theorem at_at (s : Sys W R) (m n : Nat) : (s.at m).at n = s.at n := rfl
@[simp] theorem at_nextID (s : Sys W R) (n : Nat) : (s.at n).nextID = n := rfl

end Verif

namespace Verif.Conc

variable {W R : Type}

/-- Run a program from a state that says which message ID was the last one. -/
def sol (b : Crit (Sys W R)) (s : Sys W R) : Sys W R × Nat := solo b (s.at 0) s.nextID

theorem sol_act {α : Type} {f : Sys W R → Sys W R × α} {s : Sys W R} (κ : α → Crit (Sys W R))
    (hf : ∀ n, f (s.at n) = ((f s).1.at n, (f s).2)) :
    sol (.act f κ) s = sol (κ (f s).2) (f s).1 := by
  have h0 : (f s).1.nextID = s.nextID := by
    have := hf s.nextID
    rw [at_self] at this
    exact congrArg (·.1.nextID) this
  show solo (κ (f (s.at 0)).2) (f (s.at 0)).1 s.nextID = _
  rw [hf]
  simp only [sol, h0]

theorem sol_doing {f : Sys W R → Sys W R} {s : Sys W R} (κ : Crit (Sys W R))
    (hf : ∀ n, f (s.at n) = (f s).at n) : sol (.doing f κ) s = sol κ (f s) :=
  sol_act (f := fun s => (f s, ())) (fun _ => κ) (fun n => by rw [hf])

theorem sol_look {s : Sys W R} (k : Sys W R → Crit (Sys W R)) (hk : k (s.at 0) = k s) :
    sol (.touch (fun s => s) k) s = sol (k s) s := by
  show solo (k (s.at 0)) (s.at 0) s.nextID = _
  rw [hk]; rfl

theorem sol_id {s : Sys W R} (k : Nat → Crit (Sys W R)) :
    sol (.id k) s = sol (k (s.nextID + 1)) (s.at (s.nextID + 1)) := rfl

theorem sol_notify {s : Sys W R} (f : Fact) (κ : Crit (Sys W R)) :
    sol (.doing (·.notify f) κ) s = sol κ (s.notify f) := sol_doing κ (fun _ => rfl)

theorem sol_emit {s : Sys W R} (o : Obs R) (κ : Crit (Sys W R)) :
    sol (.doing (·.emit o) κ) s = sol κ (s.emit o) := sol_doing κ (fun _ => rfl)

theorem sol_user {α : Type} {s : Sys W R} (c : Verif.Call R) (f : W → W × α) (κ : α → Crit (Sys W R)) :
    sol (.act (·.user c f) κ) s = sol (κ (s.user c f).2) (s.user c f).1 :=
  sol_act κ (fun _ => rfl)

variable (A : App W R) (h : HConfig) (id : String) (now : Time) (env : Env)

/-! ## Aggregates -/

theorem aggDestroy_at (s : Sys W R) (sc : AggScope R) (n : Nat) :
    aggDestroy A h id env (s.at n) sc = ((aggDestroy A h id env s sc).1.at n,
      (aggDestroy A h id env s sc).2) := by
  have := aggDestroy_ren n (anon_id A) h id env s sc
  simpa only [sys_ren_id, env_ren_id, agg_ren_id, id_eq, Prod.eta] using this

theorem aggApplyScope_at (m : Message) (s : Sys W R) (sc : AggScope R) (n : Nat) :
    aggApplyScope A h m (s.at n) sc = ((aggApplyScope A h m s sc).1.at n,
      (aggApplyScope A h m s sc).2) := by
  have := aggApplyScope_ren n (anon_id A) h m s sc
  simpa only [sys_ren_id, env_ren_id, agg_ren_id, id_eq, Prod.eta] using this

theorem aggRevive_at (s : Sys W R) (sc : AggScope R) (n : Nat) :
    aggRevive h id env (s.at n) sc = ((aggRevive h id env s sc).1.at n,
      (aggRevive h id env s sc).2) := by
  have := aggRevive_ren (σ := _root_.id) (ρ := _root_.id) n h id env s sc
  simpa only [sys_ren_id, env_ren_id, agg_ren_id, id_eq, Prod.eta] using this

theorem aggReplay_at (es : List Env) (r : R) (s : Sys W R) (n : Nat) :
    aggReplay A h es r (s.at n) = ((aggReplay A h es r s).1.at n, (aggReplay A h es r s).2) := by
  have := aggReplay_ren n (anon_id A) h es r s
  simpa only [sys_ren_id, env_ren_id, List.map_id_fun, id_eq, Prod.eta] using this

theorem aggCommit_at (s : Sys W R) (sc : AggScope R) (n : Nat) :
    aggCommit h id (s.at n) sc = (aggCommit h id s sc).at n := by
  have := aggCommit_ren (σ := _root_.id) (ρ := _root_.id) n h id s sc
  simpa only [sys_ren_id, agg_ren_id, id_eq] using this

theorem aggRecordC_sol (m : Message) (s : Sys W R) (sc : AggScope R)
    (κ : AggScope R → Option PanicVal → Crit (Sys W R)) :
    sol (aggRecordC A h id now env m sc κ) s =
      let r := aggRecord A h id now env m s sc
      sol (κ r.2.1 r.2.2) r.1 := by
  unfold aggRecordC aggRecord
  split
  · rfl
  rcases m.invalid with _ | v
  case some => rfl
  simp only
  rw [sol_act _ (aggRevive_at h id env s sc), sol_act _ (aggApplyScope_at A h m _ _)]
  rcases aggRevive h id env s sc with ⟨s, sc⟩
  simp only
  rcases aggApplyScope A h m s sc with ⟨s, sc, _ | v⟩
  · simp only [sol_id]
    rw [sol_act _ (fun n => rfl)]
    rfl
  · rfl

theorem aggOpC_sol (o : AggOp R) (s : Sys W R) (sc : AggScope R)
    (κ : AggScope R → Option PanicVal → Crit (Sys W R)) :
    sol (aggOpC A h id now env o sc κ) s =
      let r := aggOp A h id now env o s sc
      sol (κ r.2.1 r.2.2) r.1 := by
  cases o with
  | record m => exact aggRecordC_sol A h id now env m s sc κ
  | setRoot r => rfl
  | destroy => exact sol_act (fun (x : AggScope R × Option PanicVal) => κ x.1 x.2) (aggDestroy_at A h id env s sc)
  | log t => exact sol_notify _ _

theorem aggRunC_sol (p : Prog W (AggOp R) Unit) : ∀ (s : Sys W R) (sc : AggScope R)
    (κ : AggScope R → Option PanicVal → Crit (Sys W R)),
    sol (aggRunC A h id now env p sc κ) s =
      let r := aggRun A h id now env p s sc
      sol (κ r.2.1 r.2.2) r.1 := by
  induction p with
  | ret a => intro s sc κ; rfl
  | panic v => intro s sc κ; rfl
  | get k ih =>
    intro s sc κ
    rw [aggRunC, sol_look _ rfl, ih]; rfl
  | set w k ih =>
    intro s sc κ
    rw [aggRunC, sol_doing _ (fun _ => rfl), ih]; rfl
  | op o k ih =>
    intro s sc κ
    rw [aggRunC, aggOpC_sol, ih]; rfl

theorem aggInvokeC_sol (r : R) (ex : Bool) (s : Sys W R) (κ : HRes → Crit (Sys W R)) :
    sol (aggInvokeC A h id now env r ex κ) s =
      sol (κ (aggInvoke A h id now env r ex s).2) (aggInvoke A h id now env r ex s).1 := by
  unfold aggInvokeC aggInvoke
  rw [sol_emit, aggRunC_sol]
  rcases aggRun A h id now env _ _ _ with ⟨s, sc, _ | v⟩
  · exact sol_doing _ (aggCommit_at h id s sc)
  · rfl

theorem aggWithIDC_sol (s : Sys W R) (κ : HRes → Crit (Sys W R)) :
    sol (aggWithIDC A h id now env κ) s =
      sol (κ (aggWithID A h id now env s).2) (aggWithID A h id now env s).1 := by
  unfold aggWithIDC aggWithID
  rw [sol_user]
  rcases s.user (.aggNew h) (A.uc.aggNew h) with ⟨s, v | _ | r⟩
  · rfl
  · rfl
  · simp only
    rw [sol_look _ rfl]
    rcases hh : s.agg h.name id with _ | es
    · simp only [Option.isSome_none]
      rw [sol_notify, aggInvokeC_sol]
    · simp only [Option.isSome_some]
      rw [sol_act _ (fun n => ?_)]
      · simp only [hh, Option.getD_some]
        rcases aggReplay A h es r s with ⟨s, v | r⟩
        · rfl
        · simp only
          rw [sol_notify, aggInvokeC_sol]
      · exact aggReplay_at A h _ r s n

theorem aggHandleC_sol (s : Sys W R) (κ : HRes → Crit (Sys W R)) :
    sol (aggHandleC A h now env κ) s =
      sol (κ (aggHandle A h now env s).2) (aggHandle A h now env s).1 := by
  unfold aggHandleC aggHandle
  split
  · rfl
  split
  · rfl
  rw [sol_user]
  rcases s.user (.aggRoute h env.msg) (A.uc.aggRoute h env.msg) with ⟨s, v | id⟩
  · rfl
  · simp only
    split
    · rfl
    · exact aggWithIDC_sol A h id now env s κ

/-! ## Processes -/

theorem procRevive_at (s : Sys W R) (sc : ProcScope R) (n : Nat) :
    procRevive h id env (s.at n) sc = ((procRevive h id env s sc).1.at n,
      (procRevive h id env s sc).2) := by
  have := procRevive_ren (σ := _root_.id) (ρ := _root_.id) n h id env s sc
  simpa only [sys_ren_id, env_ren_id, proc_ren_id, id_eq, Prod.eta] using this

theorem procOpC_sol (o : ProcOp R) (s : Sys W R) (sc : ProcScope R)
    (κ : ProcScope R → Option PanicVal → Crit (Sys W R)) :
    sol (procOpC h id now env o sc κ) s =
      let r := procOp h id now env o s sc
      sol (κ r.2.1 r.2.2) r.1 := by
  unfold procOpC procOp
  cases o with
  | end_ =>
    simp only
    split
    · rfl
    · exact sol_notify _ _
  | execute m =>
    simp only
    split
    · rfl
    rcases m.invalid with _ | v
    case some => rfl
    simp only
    rw [sol_act _ (procRevive_at h id env s sc)]
    rcases procRevive h id env s sc with ⟨s, sc⟩
    simp only [sol_id]
    rw [sol_act _ (fun n => rfl)]
    rfl
  | schedule m t =>
    simp only
    split
    · rfl
    rcases m.invalid with _ | v
    case some => rfl
    simp only
    rw [sol_act _ (procRevive_at h id env s sc)]
    rcases procRevive h id env s sc with ⟨s, sc⟩
    simp only [sol_id]
    rw [sol_act _ (fun n => rfl)]
    rfl
  | setRoot r => rfl
  | log t => exact sol_notify _ _

theorem procRunC_sol (p : Prog W (ProcOp R) (Option Err)) : ∀ (s : Sys W R) (sc : ProcScope R)
    (κ : ProcScope R → Except PanicVal (Option Err) → Crit (Sys W R)),
    sol (procRunC h id now env p sc κ) s =
      let r := procRun h id now env p s sc
      sol (κ r.2.1 r.2.2) r.1 := by
  induction p with
  | ret a => intro s sc κ; rfl
  | panic v => intro s sc κ; rfl
  | get k ih =>
    intro s sc κ
    rw [procRunC, sol_look _ rfl, ih]; rfl
  | set w k ih =>
    intro s sc κ
    rw [procRunC, sol_doing _ (fun _ => rfl), ih]; rfl
  | op o k ih =>
    intro s sc κ
    rw [procRunC, procOpC_sol, ih]; rfl

theorem procInvokeC_sol (r : R) (ex : Bool) (s : Sys W R) (κ : HRes → Crit (Sys W R)) :
    sol (procInvokeC A h id now env r ex κ) s =
      sol (κ (procInvoke A h id now env r ex s).2) (procInvoke A h id now env r ex s).1 := by
  unfold procInvokeC procInvoke
  rw [sol_emit, procRunC_sol]
  have ha : ∀ (s : Sys W R) (r : R) (n : Nat), procAlias h id ex (s.at n) r = (procAlias h id ex s r).at n := by
    intro s r n
    have := procAlias_ren (σ := _root_.id) (ρ := _root_.id) n h id ex s r
    simpa only [sys_ren_id] using this
  rcases procRun h id now env _ _ _ with ⟨s, sc, v | _ | e⟩
  · exact sol_doing _ (ha s sc.root)
  · simp only
    split
    · refine sol_doing _ fun n => ?_
      split
      · have := procDelete_ren (σ := _root_.id) (ρ := _root_.id) n h id s
        simpa only [sys_ren_id] using this
      · rfl
    · refine sol_doing _ fun n => ?_
      have := procUpdate_ren n (anon_id A) h id s sc
      simpa only [sys_ren_id, proc_ren_id, id_eq] using this
  · exact sol_doing _ (ha s sc.root)

theorem procWithIDC_sol (s : Sys W R) (κ : HRes → Crit (Sys W R)) :
    sol (procWithIDC A h id now env κ) s =
      sol (κ (procWithID A h id now env s).2) (procWithID A h id now env s).1 := by
  unfold procWithIDC procWithID
  rw [sol_look _ rfl]
  rcases (s.proc h.name).inst id with _ | r
  · simp only
    rw [sol_notify, sol_user]
    rcases (s.notify (.procNotFound h id env)).user (.procNew h) (A.uc.procNew h) with ⟨s, v | _ | r⟩
    · rfl
    · exact sol_notify _ _
    · simp only
      rw [sol_notify, procInvokeC_sol]
  · simp only
    rw [sol_notify, procInvokeC_sol]

theorem procHandleC_sol (s : Sys W R) (κ : HRes → Crit (Sys W R)) :
    sol (procHandleC A h now env κ) s =
      sol (κ (procHandle A h now env s).2) (procHandle A h now env s).1 := by
  unfold procHandleC procHandle
  split
  · rfl
  cases env.msg.type.kind with
  | command => rfl
  | event =>
    simp only
    rw [sol_user]
    rcases s.user (.procRoute h env.msg) (A.uc.procRoute h env.msg) with ⟨s, v | e | _ | id⟩
    · rfl
    · rfl
    · exact sol_notify _ _
    · simp only
      split
      · rfl
      · exact procWithIDC_sol A h id now env s κ
  | timeout =>
    simp only
    rcases env.origin with _ | o
    · rfl
    · simp only
      rw [sol_look _ rfl]
      rcases (s.proc h.name).inst o.instanceID with _ | r
      · exact sol_notify _ _
      · exact procWithIDC_sol A h o.instanceID now env s κ

/-! ## Integrations -/

theorem intOpC_sol (o : IntOp) (s : Sys W R) (evs : List Env)
    (κ : List Env → Option PanicVal → Crit (Sys W R)) :
    sol (intOpC h now env o evs κ) s =
      let r := intOp h now env o s evs
      sol (κ r.2.1 r.2.2) r.1 := by
  unfold intOpC intOp
  cases o with
  | record m =>
    simp only
    split
    · rfl
    rcases m.invalid with _ | v
    case some => rfl
    simp only
    rw [sol_id, sol_act _ (fun n => rfl)]
    rfl
  | log t => exact sol_notify _ _

theorem intRunC_sol (p : Prog W IntOp (Option Err)) : ∀ (s : Sys W R) (evs : List Env)
    (κ : List Env → Except PanicVal (Option Err) → Crit (Sys W R)),
    sol (intRunC h now env p evs κ) s =
      let r := intRun h now env p s evs
      sol (κ r.2.1 r.2.2) r.1 := by
  induction p with
  | ret a => intro s sc κ; rfl
  | panic v => intro s sc κ; rfl
  | get k ih =>
    intro s sc κ
    rw [intRunC, sol_look _ rfl, ih]; rfl
  | set w k ih =>
    intro s sc κ
    rw [intRunC, sol_doing _ (fun _ => rfl), ih]; rfl
  | op o k ih =>
    intro s sc κ
    rw [intRunC, intOpC_sol, ih]; rfl

theorem intHandleC_sol (s : Sys W R) (κ : HRes → Crit (Sys W R)) :
    sol (intHandleC A h now env κ) s =
      sol (κ (intHandle A h now env s).2) (intHandle A h now env s).1 := by
  unfold intHandleC intHandle
  split
  · rfl
  split
  · rfl
  rw [sol_emit, intRunC_sol]
  rcases intRun h now env _ _ _ with ⟨s, evs, v | e⟩ <;> rfl

/-! ## Engine -/

theorem ctlHandleC_sol (s : Sys W R) (κ : HRes → Crit (Sys W R)) :
    sol (ctlHandleC A h now env κ) s =
      sol (κ (ctlHandle A h now env s).2) (ctlHandle A h now env s).1 := by
  unfold ctlHandleC ctlHandle
  cases h.htype
  · exact aggHandleC_sol A h now env s κ
  · exact procHandleC_sol A h now env s κ
  · exact intHandleC_sol A h now env s κ
  · refine sol_act κ fun n => ?_
    have := prjHandle_ren n (anon_id A) h now env s
    simpa only [sys_ren_id, env_ren_id, hres_ren_id, id_eq] using this

theorem handleOneC_sol (oo : OpOpts) (s : Sys W R) (κ : HRes → Crit (Sys W R)) :
    sol (handleOneC A oo env h κ) s =
      sol (κ (handleOne A oo env h s).2) (handleOne A oo env h s).1 := by
  unfold handleOneC handleOne
  rcases skipHandler oo h with _ | r
  case some => exact sol_notify _ _
  · simp only
    rw [sol_notify, ctlHandleC_sol]
    rcases ctlHandle A h oo.now env _ with ⟨s, v | ⟨envs, e⟩⟩
    · rfl
    · exact sol_notify _ _

theorem handleAllC_sol (oo : OpOpts) (hs : List HConfig) : ∀ (q : List Env) (de : List EngErr)
    (s : Sys W R) (κ : Except PanicVal (List Env × List EngErr) → Crit (Sys W R)),
    sol (handleAllC A oo env hs q de κ) s =
      sol (κ (handleAll A oo env hs q de s).2) (handleAll A oo env hs q de s).1 := by
  induction hs with
  | nil => intro q de s κ; rfl
  | cons h hs ih =>
    intro q de s κ
    rw [handleAllC, handleAll, handleOneC_sol]
    rcases handleOne A oo env h s with ⟨s, v | ⟨envs, e⟩⟩
    · rfl
    · exact ih _ _ s κ

theorem dispatchLoopC_sol (oo : OpOpts) (n : Nat) : ∀ (q : List Env) (errs : List EngErr)
    (s : Sys W R) (κ : Outcome (List EngErr) → Crit (Sys W R)),
    sol (dispatchLoopC A oo n q errs κ) s =
      sol (κ (dispatchLoop A oo n q errs s).2) (dispatchLoop A oo n q errs s).1 := by
  induction n with
  | zero =>
    intro q errs s κ
    cases q <;> rfl
  | succ n ih =>
    intro q errs s κ
    cases q with
    | nil => rfl
    | cons e q =>
      rw [dispatchLoopC, dispatchLoop]
      rcases A.targets e with v | hs
      · rfl
      · simp only
        rw [sol_notify, handleAllC_sol]
        rcases handleAll A oo e hs q [] _ with ⟨s, v | ⟨q, de⟩⟩
        · rfl
        · simp only
          rw [sol_notify, sol_look _ rfl]
          rcases A.uc.ctxErr (s.notify (.dispatchCompleted e de)).w with _ | c
          · exact ih _ _ _ κ
          · rfl

theorem tickC_sol (oo : OpOpts) (fuel : Nat) (order : List HConfig) (s : Sys W R)
    (κ : Outcome (List EngErr) → Crit (Sys W R)) :
    sol (tickC A oo fuel order κ) s =
      sol (κ (engTickLocked A oo fuel order s).2) (engTickLocked A oo fuel order s).1 := by
  unfold tickC engTickLocked
  rw [sol_act _ (fun n => ?_)]
  · rcases tickAll A oo order [] [] s with ⟨s, v | ⟨q, es, _ | c⟩⟩
    · rfl
    · simp only
      rw [dispatchLoopC_sol]
      rcases dispatchLoop A oo fuel q [] s with ⟨s, _ | _ | _⟩ <;> rfl
    · rfl
  · have := tickAll_ren n (anon_id A) oo order [] [] s
    simp only [sys_ren_id, env_ren_id, List.map_nil, List.map_id_fun, id_eq] at this
    rw [this]
    rcases tickAll A oo order [] [] s with ⟨s, v | ⟨q, es, c⟩⟩ <;> rfl

theorem sol_end {b : Crit (Sys W R)} (s : Sys W R) (hb : b = .done ∨ b = .panic) :
    sol b s = (s.at 0, s.nextID) := by
  rcases hb with rfl | rfl <;> rfl

end Verif.Conc
