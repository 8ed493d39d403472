import Verif.Rename
import Verif.Props.Serial

/-!
# The engine does not look into message IDs

The programs of `Verif.EngineConc` do to the renamed state what they do to the state.  Proof
machinery for C65.
-/

namespace Verif.Conc

variable {W R : Type} {σ : Nat → Nat} {ρ : (Nat → Nat) → W → W}

/-- Renaming the protected state. -/
def actS (ρ : (Nat → Nat) → W → W) (σ : Nat → Nat) (s : Sys W R) : Sys W R := s.ren σ (ρ σ) 0

/-- Programs that do the same up to the renaming. -/
abbrev Same (ρ : (Nat → Nat) → W → W) (σ : Nat → Nat) (b b' : Crit (Sys W R)) : Prop :=
  Renamed (actS ρ) σ b b'

theorem same_act {α : Type} {f f' : Sys W R → Sys W R × α} {g : α → α} {κ κ' : α → Crit (Sys W R)}
    (hf : ∀ s, f' (s.ren σ (ρ σ) 0) = ((f s).1.ren σ (ρ σ) 0, g (f s).2))
    (hk : ∀ a, Same ρ σ (κ a) (κ' (g a))) : Same ρ σ (.act f κ) (.act f' κ') := by
  refine .touch (fun s => ?_) (fun s => ?_)
  · show (f' (s.ren σ (ρ σ) 0)).1 = _
    rw [hf]; rfl
  · show Renamed _ _ _ (κ' (f' (s.ren σ (ρ σ) 0)).2)
    rw [hf]; exact hk _

theorem same_doing {f f' : Sys W R → Sys W R} {κ κ' : Crit (Sys W R)}
    (hf : ∀ s, f' (s.ren σ (ρ σ) 0) = (f s).ren σ (ρ σ) 0)
    (hk : Same ρ σ κ κ') : Same ρ σ (.doing f κ) (.doing f' κ') :=
  .touch hf (fun _ => hk)

theorem same_notify {f f' : Fact} (e : f' = f.ren σ) {κ κ' : Crit (Sys W R)} (hk : Same ρ σ κ κ') :
    Same ρ σ (.doing (·.notify f) κ) (.doing (·.notify f') κ') :=
  same_doing (fun s => by rw [e]; exact ren_notify 0 s f) hk

theorem same_emit {o o' : Obs R} (e : o' = o.ren σ) {κ κ' : Crit (Sys W R)} (hk : Same ρ σ κ κ') :
    Same ρ σ (.doing (·.emit o) κ) (.doing (·.emit o') κ') :=
  same_doing (fun s => by rw [e]; exact ren_emit 0 s o) hk

/-- Looking at a part of the state that the renaming leaves alone. -/
theorem same_look {α : Type} (f : Sys W R → α) (hf : ∀ s, f (s.ren σ (ρ σ) 0) = f s)
    {κ κ' : α → Crit (Sys W R)} (hk : ∀ a, Same ρ σ (κ a) (κ' a)) :
    Same ρ σ (.touch (fun s => s) fun s => κ (f s)) (.touch (fun s => s) fun s => κ' (f s)) :=
  .touch (fun _ => rfl) (fun s => by
    show Renamed _ _ (κ (f s)) (κ' (f (s.ren σ (ρ σ) 0)))
    rw [hf]; exact hk _)

section
variable {A : App W R} (an : A.Anon σ (ρ σ)) (h : HConfig) (id : String) (now : Time)
  (env : Env)
include an

/-! ## Aggregates -/

theorem aggRecordC_same (m : Message) (sc : AggScope R)
    {κ κ' : AggScope R → Option PanicVal → Crit (Sys W R)}
    (hk : ∀ sc p, Same ρ σ (κ sc p) (κ' (sc.ren σ) p)) :
    Same ρ σ (aggRecordC A h id now env m sc κ) (aggRecordC A h id now (env.ren σ) m (sc.ren σ) κ') := by
  unfold aggRecordC
  rw [show (env.ren σ).msg = env.msg from rfl]
  split
  · exact hk _ _
  split
  · exact hk _ _
  refine same_act (g := AggScope.ren σ) (fun s => aggRevive_ren 0 h id env s sc) fun sc => ?_
  refine same_act (g := fun x => (x.1.ren σ, x.2)) (fun s => aggApplyScope_ren 0 an h m s sc) fun x => ?_
  rcases x with ⟨sc, _ | v⟩
  · refine .id fun n => same_act (g := AggScope.ren σ) (fun s => ?_) fun sc => hk _ _
    simp only [aggEmitC, child_ren]
    rw [show Fact.aggEvent h id (env.ren σ) ((env.child n m now ⟨h, .aggregate, id⟩).ren σ) =
      (Fact.aggEvent h id env (env.child n m now ⟨h, .aggregate, id⟩)).ren σ from rfl, ren_notify]
    simp [AggScope.ren]
  · exact hk _ _

theorem aggOpC_same (o : AggOp R) (sc : AggScope R)
    {κ κ' : AggScope R → Option PanicVal → Crit (Sys W R)}
    (hk : ∀ sc p, Same ρ σ (κ sc p) (κ' (sc.ren σ) p)) :
    Same ρ σ (aggOpC A h id now env o sc κ) (aggOpC A h id now (env.ren σ) o (sc.ren σ) κ') := by
  cases o with
  | record m => exact aggRecordC_same an h id now env m sc hk
  | destroy =>
    exact same_act (g := fun (x : AggScope R × Option PanicVal) => (x.1.ren σ, x.2))
      (κ := fun x => κ x.1 x.2) (κ' := fun x => κ' x.1 x.2)
      (fun s => aggDestroy_ren 0 an h id env s sc) fun x => hk _ _
  | setRoot r =>
    have := hk (if sc.given then { sc with root := some r } else sc) none
    simp only [aggOpC, AggScope.ren] at this ⊢
    split <;> simp_all
  | log t => exact same_notify rfl (hk _ _)

theorem aggRunC_same {p p' : Prog W (AggOp R) Unit} (sim : Prog.Sim (ρ σ) p p') :
    ∀ (sc : AggScope R) {κ κ' : AggScope R → Option PanicVal → Crit (Sys W R)}
    (_ : ∀ sc p, Same ρ σ (κ sc p) (κ' (sc.ren σ) p)),
    Same ρ σ (aggRunC A h id now env p sc κ) (aggRunC A h id now (env.ren σ) p' (sc.ren σ) κ') := by
  induction sim with
  | ret a => intro sc κ κ' hk; exact hk _ _
  | panic v => intro sc κ κ' hk; exact hk _ _
  | get g ih => intro sc κ κ' hk; exact .touch (fun _ => rfl) (fun s => ih s.w sc hk)
  | set w g ih => intro sc κ κ' hk; exact same_doing (fun _ => rfl) (ih sc hk)
  | op o g ih =>
    intro sc κ κ' hk
    exact aggOpC_same an h id now env o sc fun sc p => ih p sc hk

theorem aggInvokeC_same (r : R) (ex : Bool) {κ κ' : HRes → Crit (Sys W R)}
    (hk : ∀ x, Same ρ σ (κ x) (κ' (HRes.ren σ x))) :
    Same ρ σ (aggInvokeC A h id now env r ex κ) (aggInvokeC A h id now (env.ren σ) r ex κ') := by
  refine same_emit rfl ?_
  refine aggRunC_same an h id now env (an.aggHandle h id r env.msg) ⟨some r, ex, false, [], true⟩ fun sc p => ?_
  rcases p with _ | v
  · exact same_doing (fun s => aggCommit_ren 0 h id s sc) (hk _)
  · exact hk (.error _)

theorem aggWithIDC_same {κ κ' : HRes → Crit (Sys W R)}
    (hk : ∀ x, Same ρ σ (κ x) (κ' (HRes.ren σ x))) :
    Same ρ σ (aggWithIDC A h id now env κ) (aggWithIDC A h id now (env.ren σ) κ') := by
  refine same_act (g := fun x => x) (fun s => ren_user (σ := σ) 0 s (c := .aggNew h) (an.aggNew h)) fun x => ?_
  rcases x with v | _ | r
  · exact hk (.error _)
  · exact hk (.error _)
  · refine .touch (fun _ => rfl) (fun s => ?_)
    show Same ρ σ _ (match (((s.agg h.name id).map (List.map (Env.ren σ))).isSome) with
      | true => _
      | false => _)
    rw [Option.isSome_map]
    cases (s.agg h.name id).isSome with
    | true =>
      refine same_act (g := fun x => x) (fun s => ?_) fun x => ?_
      · rw [ren_agg, show ((s.agg h.name id).map (List.map (Env.ren σ))).getD [] =
          ((s.agg h.name id).getD []).map (Env.ren σ) by cases s.agg h.name id <;> rfl]
        exact aggReplay_ren 0 an h _ r s
      · rcases x with v | r
        · exact hk (.error _)
        · exact same_notify rfl (aggInvokeC_same an h id now env r true hk)
    | false => exact same_notify rfl (aggInvokeC_same an h id now env r false hk)

theorem aggHandleC_same {κ κ' : HRes → Crit (Sys W R)}
    (hk : ∀ x, Same ρ σ (κ x) (κ' (HRes.ren σ x))) :
    Same ρ σ (aggHandleC A h now env κ) (aggHandleC A h now (env.ren σ) κ') := by
  unfold aggHandleC
  rw [show (env.ren σ).msg = env.msg from rfl]
  split
  · exact hk (.error _)
  split
  · exact hk (.error _)
  refine same_act (g := fun x => x)
    (fun s => ren_user (σ := σ) 0 s (c := .aggRoute h env.msg) (an.aggRoute h env.msg)) fun x => ?_
  rcases x with v | id
  · exact hk (.error _)
  · simp only
    split
    · exact hk (.error _)
    · exact aggWithIDC_same an h id now env hk

/-! ## Processes -/

omit an in
theorem procOpC_same (o : ProcOp R) (sc : ProcScope R)
    {κ κ' : ProcScope R → Option PanicVal → Crit (Sys W R)}
    (hk : ∀ sc p, Same ρ σ (κ sc p) (κ' (sc.ren σ) p)) :
    Same ρ σ (procOpC h id now env o sc κ) (procOpC h id now (env.ren σ) o (sc.ren σ) κ') := by
  unfold procOpC
  rw [show (env.ren σ).msg = env.msg from rfl, show procMethod (env.ren σ) = procMethod env from rfl,
    show (sc.ren σ).ended = sc.ended from rfl]
  cases o with
  | end_ =>
    simp only
    split
    · exact hk _ _
    · exact same_notify rfl (hk _ _)
  | execute m =>
    simp only
    split
    · exact hk _ _
    split
    · exact hk _ _
    refine same_act (g := ProcScope.ren σ) (fun s => procRevive_ren 0 h id env s sc) fun sc => ?_
    refine .id fun n => same_act (g := ProcScope.ren σ) (fun s => ?_) fun sc => hk _ _
    simp only [procEmitCommandC, child_ren]
    rw [show Fact.procCommand h id (env.ren σ) ((env.child n m now ⟨h, .process, id⟩).ren σ) =
      (Fact.procCommand h id env (env.child n m now ⟨h, .process, id⟩)).ren σ from rfl, ren_notify]
    simp [ProcScope.ren]
  | schedule m t =>
    simp only
    split
    · exact hk _ _
    split
    · exact hk _ _
    refine same_act (g := ProcScope.ren σ) (fun s => procRevive_ren 0 h id env s sc) fun sc => ?_
    refine .id fun n => same_act (g := ProcScope.ren σ) (fun s => ?_) fun sc => hk _ _
    simp only [procEmitTimeoutC, childTimeout_ren]
    rw [show Fact.procTimeout h id (env.ren σ) ((env.childTimeout n m now t ⟨h, .process, id⟩).ren σ) =
      (Fact.procTimeout h id env (env.childTimeout n m now t ⟨h, .process, id⟩)).ren σ from rfl, ren_notify]
    by_cases ht : now < t <;> simp [ProcScope.ren, ht]
  | setRoot r => exact hk _ _
  | log t => exact same_notify rfl (hk _ _)

omit an in
theorem procRunC_same {p p' : Prog W (ProcOp R) (Option Err)} (sim : Prog.Sim (ρ σ) p p') :
    ∀ (sc : ProcScope R) {κ κ' : ProcScope R → Except PanicVal (Option Err) → Crit (Sys W R)}
    (_ : ∀ sc p, Same ρ σ (κ sc p) (κ' (sc.ren σ) p)),
    Same ρ σ (procRunC h id now env p sc κ) (procRunC h id now (env.ren σ) p' (sc.ren σ) κ') := by
  induction sim with
  | ret a => intro sc κ κ' hk; exact hk _ _
  | panic v => intro sc κ κ' hk; exact hk _ _
  | get g ih => intro sc κ κ' hk; exact .touch (fun _ => rfl) (fun s => ih s.w sc hk)
  | set w g ih => intro sc κ κ' hk; exact same_doing (fun _ => rfl) (ih sc hk)
  | op o g ih =>
    intro sc κ κ' hk
    exact procOpC_same h id now env o sc fun sc p => ih p sc hk

theorem procInvokeC_same (r : R) (ex : Bool) {κ κ' : HRes → Crit (Sys W R)}
    (hk : ∀ x, Same ρ σ (κ x) (κ' (HRes.ren σ x))) :
    Same ρ σ (procInvokeC A h id now env r ex κ) (procInvokeC A h id now (env.ren σ) r ex κ') := by
  refine same_emit rfl ?_
  refine procRunC_same h id now env (an.procHandle h id r env.msg (procSeenTime env))
    ⟨r, false, [], [], []⟩ fun sc p => ?_
  rcases p with v | _ | e
  · exact same_doing (fun s => procAlias_ren 0 h id ex s sc.root) (hk (.error _))
  · simp only
    rw [show (sc.ren σ).ended = sc.ended from rfl]
    split
    · refine same_doing (fun s => ?_) (hk (.ok (sc.commands, none)))
      split
      · exact procDelete_ren 0 h id s
      · rfl
    · refine same_doing (fun s => procUpdate_ren 0 an h id s sc) ?_
      have := hk (.ok (sc.commands ++ sc.ready, none))
      simpa only [HRes.ren, List.map_append, ProcScope.ren] using this
  · exact same_doing (fun s => procAlias_ren 0 h id ex s sc.root) (hk (.ok ([], some e)))

theorem procWithIDC_same {κ κ' : HRes → Crit (Sys W R)}
    (hk : ∀ x, Same ρ σ (κ x) (κ' (HRes.ren σ x))) :
    Same ρ σ (procWithIDC A h id now env κ) (procWithIDC A h id now (env.ren σ) κ') := by
  refine .touch (fun _ => rfl) (fun s => ?_)
  show Same ρ σ _ (match (s.proc h.name).inst id with
      | some r => _
      | none => _)
  rcases (s.proc h.name).inst id with _ | r
  · refine same_notify rfl ?_
    refine same_act (g := fun x => x) (fun s => ren_user (σ := σ) 0 s (c := .procNew h) (an.procNew h)) fun x => ?_
    rcases x with v | _ | r
    · exact hk (.error _)
    · exact same_notify rfl (hk (.error _))
    · exact same_notify rfl (procInvokeC_same an h id now env r false hk)
  · exact same_notify rfl (procInvokeC_same an h id now env r true hk)

theorem procHandleC_same {κ κ' : HRes → Crit (Sys W R)}
    (hk : ∀ x, Same ρ σ (κ x) (κ' (HRes.ren σ x))) :
    Same ρ σ (procHandleC A h now env κ) (procHandleC A h now (env.ren σ) κ') := by
  unfold procHandleC
  rw [show (env.ren σ).msg = env.msg from rfl, show (env.ren σ).origin = env.origin from rfl]
  split
  · exact hk (.error _)
  split
  · exact hk (.error _)
  · refine same_act (g := fun x => x)
      (fun s => ren_user (σ := σ) 0 s (c := .procRoute h env.msg) (an.procRoute h env.msg)) fun x => ?_
    rcases x with v | e | _ | id
    · exact hk (.error _)
    · exact hk (.ok ([], some e))
    · exact same_notify rfl (hk (.ok ([], none)))
    · simp only
      split
      · exact hk (.error _)
      · exact procWithIDC_same an h id now env hk
  · split
    · exact hk (.error _)
    · rename_i o _
      refine .touch (fun _ => rfl) (fun s => ?_)
      show Same ρ σ _ (match ((s.proc h.name).inst o.instanceID).isSome with
        | true => _
        | false => _)
      cases ((s.proc h.name).inst o.instanceID).isSome with
      | true => exact procWithIDC_same an h o.instanceID now env hk
      | false => exact same_notify rfl (hk (.ok ([], none)))

/-! ## Integrations -/

omit an in
theorem intOpC_same (o : IntOp) (evs : List Env)
    {κ κ' : List Env → Option PanicVal → Crit (Sys W R)}
    (hk : ∀ evs p, Same ρ σ (κ evs p) (κ' (evs.map (Env.ren σ)) p)) :
    Same ρ σ (intOpC h now env o evs κ) (intOpC h now (env.ren σ) o (evs.map (Env.ren σ)) κ') := by
  unfold intOpC
  rw [show (env.ren σ).msg = env.msg from rfl]
  cases o with
  | record m =>
    simp only
    split
    · exact hk _ _
    split
    · exact hk _ _
    refine .id fun n => same_act (g := List.map (Env.ren σ)) (fun s => ?_) fun evs => hk _ _
    simp only [intEmitC, child_ren]
    rw [show Fact.intEvent h (env.ren σ) ((env.child n m now ⟨h, .integration, ""⟩).ren σ) =
      (Fact.intEvent h env (env.child n m now ⟨h, .integration, ""⟩)).ren σ from rfl, ren_notify]
    simp
  | log t => exact same_notify rfl (hk _ _)

omit an in
theorem intRunC_same {p p' : Prog W IntOp (Option Err)} (sim : Prog.Sim (ρ σ) p p') :
    ∀ (evs : List Env) {κ κ' : List Env → Except PanicVal (Option Err) → Crit (Sys W R)}
    (_ : ∀ evs p, Same ρ σ (κ evs p) (κ' (evs.map (Env.ren σ)) p)),
    Same ρ σ (intRunC h now env p evs κ) (intRunC h now (env.ren σ) p' (evs.map (Env.ren σ)) κ') := by
  induction sim with
  | ret a => intro sc κ κ' hk; exact hk _ _
  | panic v => intro sc κ κ' hk; exact hk _ _
  | get g ih => intro sc κ κ' hk; exact .touch (fun _ => rfl) (fun s => ih s.w sc hk)
  | set w g ih => intro sc κ κ' hk; exact same_doing (fun _ => rfl) (ih sc hk)
  | op o g ih =>
    intro sc κ κ' hk
    exact intOpC_same h now env o sc fun sc p => ih p sc hk

theorem intHandleC_same {κ κ' : HRes → Crit (Sys W R)}
    (hk : ∀ x, Same ρ σ (κ x) (κ' (HRes.ren σ x))) :
    Same ρ σ (intHandleC A h now env κ) (intHandleC A h now (env.ren σ) κ') := by
  unfold intHandleC
  rw [show (env.ren σ).msg = env.msg from rfl]
  split
  · exact hk (.error _)
  split
  · exact hk (.error _)
  refine same_emit rfl ?_
  refine intRunC_same h now env (an.intHandle h env.msg) [] fun evs p => ?_
  rcases p with v | e
  · exact hk (.error _)
  · exact hk (.ok (evs, e))

/-! ## Engine -/

theorem ctlHandleC_same {κ κ' : HRes → Crit (Sys W R)}
    (hk : ∀ x, Same ρ σ (κ x) (κ' (HRes.ren σ x))) :
    Same ρ σ (ctlHandleC A h now env κ) (ctlHandleC A h now (env.ren σ) κ') := by
  unfold ctlHandleC
  split
  · exact aggHandleC_same an h now env hk
  · exact procHandleC_same an h now env hk
  · exact intHandleC_same an h now env hk
  · exact same_act (g := HRes.ren σ) (fun s => prjHandle_ren 0 an h now env s) hk

theorem handleOneC_same (oo : OpOpts) {κ κ' : HRes → Crit (Sys W R)}
    (hk : ∀ x, Same ρ σ (κ x) (κ' (HRes.ren σ x))) :
    Same ρ σ (handleOneC A oo env h κ) (handleOneC A oo (env.ren σ) h κ') := by
  unfold handleOneC
  split
  · exact same_notify rfl (hk (.ok ([], none)))
  · refine same_notify rfl (ctlHandleC_same an h oo.now env fun x => ?_)
    rcases x with v | ⟨envs, e⟩
    · exact hk (.error _)
    · exact same_notify rfl (hk (.ok (envs, e)))

theorem handleAllC_same (oo : OpOpts) (hs : List HConfig) : ∀ (q : List Env) (de : List EngErr)
    {κ κ' : Except PanicVal (List Env × List EngErr) → Crit (Sys W R)}
    (_ : ∀ v, Same ρ σ (κ (.error v)) (κ' (.error v)))
    (_ : ∀ q de, Same ρ σ (κ (.ok (q, de))) (κ' (.ok (q.map (Env.ren σ), de)))),
    Same ρ σ (handleAllC A oo env hs q de κ) (handleAllC A oo (env.ren σ) hs (q.map (Env.ren σ)) de κ') := by
  induction hs with
  | nil => intro q de κ κ' _ h2; exact h2 _ _
  | cons h hs ih =>
    intro q de κ κ' h1 h2
    refine handleOneC_same an h env oo fun x => ?_
    rcases x with v | ⟨envs, e⟩
    · exact h1 v
    · have := ih (q ++ envs) (de ++ tagErr h e) h1 h2
      simpa only [HRes.ren, List.map_append] using this

omit an in
theorem targets_ren : A.targets (env.ren σ) = A.targets env := rfl

theorem dispatchLoopC_same (oo : OpOpts) (n : Nat) : ∀ (q : List Env) (errs : List EngErr)
    {κ κ' : Outcome (List EngErr) → Crit (Sys W R)} (_ : ∀ o, Same ρ σ (κ o) (κ' o)),
    Same ρ σ (dispatchLoopC A oo n q errs κ) (dispatchLoopC A oo n (q.map (Env.ren σ)) errs κ') := by
  induction n with
  | zero =>
    intro q errs κ κ' hk
    cases q with
    | nil => exact hk _
    | cons e q => exact hk _
  | succ n ih =>
    intro q errs κ κ' hk
    cases q with
    | nil => exact hk _
    | cons e q =>
      simp only [List.map_cons]
      unfold dispatchLoopC
      rw [targets_ren e (σ := σ)]
      split
      · exact hk _
      · refine same_notify rfl (handleAllC_same an e oo _ q [] (fun v => hk _) fun q de => ?_)
        refine same_notify rfl ?_
        refine same_look (fun s => A.uc.ctxErr s.w) (fun s => an.ctxErr s.w)
          (κ := fun x => match x with
            | some e => κ (.done [.ctx e])
            | none => dispatchLoopC A oo n q (errs ++ de) κ)
          (κ' := fun x => match x with
            | some e => κ' (.done [.ctx e])
            | none => dispatchLoopC A oo n (q.map (Env.ren σ)) (errs ++ de) κ') fun x => ?_
        cases x with
        | some e => exact hk _
        | none => exact ih q (errs ++ de) hk

theorem tickC_same (oo : OpOpts) (fuel : Nat) (order : List HConfig)
    {κ κ' : Outcome (List EngErr) → Crit (Sys W R)} (hk : ∀ o, Same ρ σ (κ o) (κ' o)) :
    Same ρ σ (tickC A oo fuel order κ) (tickC A oo fuel order κ') := by
  refine same_act
    (g := fun (x : Except PanicVal (List Env × List EngErr × Option Err)) => match x with
        | .error v => .error v
        | .ok (q, es, c) => .ok (q.map (Env.ren σ), es, c))
    (fun s => tickAll_ren 0 an oo order [] [] s) fun x => ?_
  rcases x with v | ⟨q, es, _ | c⟩
  · exact hk _
  · refine dispatchLoopC_same an oo fuel q [] fun o => ?_
    cases o <;> exact hk _
  · exact hk _

omit an in
theorem finishC_same {f f' : List EngErr → Fact} (hf : ∀ es, f' es = (f es).ren σ)
    (o : Outcome (List EngErr)) : Same (R := R) ρ σ (finishC f o) (finishC f' o) := by
  cases o with
  | done es => exact same_notify (hf es) .done
  | panicked v => exact .panic
  | running => exact .done

end

/-- The operations of the engine do not look into message IDs. -/
theorem callOf_blind {A : App W R} (an : ∀ σ, Inj σ → A.Anon σ (ρ σ)) (x : Time × Op) :
    (callOf A x).Blind (actS ρ) := by
  rcases x with ⟨now, op⟩
  cases op with
  | dispatch fuel m os =>
    intro σ hσ n
    simp only [dispatchC]
    cases optsAt A now os with
    | error v => trivial
    | ok oo =>
      simp only
      by_cases h1 : m.type.kind = .timeout
      · simp only [h1, if_true]
      simp only [h1, if_false]
      cases m.invalid with
      | some v => trivial
      | none =>
        simp only
        by_cases h2 : A.route m = []
        · simp only [h2, if_true]
        simp only [h2, if_false]
        refine same_notify rfl ?_
        exact dispatchLoopC_same (an σ hσ) oo fuel [Env.root n m oo.now] []
          fun o => finishC_same (fun _ => rfl) o
  | tick fuel order os =>
    intro σ hσ
    simp only [engTickC]
    cases optsAt A now os with
    | error v => exact .panic
    | ok oo => exact same_notify rfl (tickC_same (an σ hσ) oo fuel order fun o => finishC_same (fun _ => rfl) o)
  | reset =>
    intro σ hσ
    refine .resetIDs ?_
    refine same_act (g := fun x => x) (fun s => engReset_ren (an σ hσ) s) fun o => ?_
    cases o with
    | done es => exact .done
    | panicked v => exact .panic
    | running => exact .done

end Verif.Conc
