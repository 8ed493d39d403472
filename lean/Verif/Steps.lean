import Verif.Engine
import Verif.Spec

/-!
# Small steps of a handling

Every controller's `Handle` is a sequence of small steps.  Predicates on states
that are closed under the small steps are therefore preserved by handlings.
This is proof machinery, not part of the specification.
-/

namespace Verif

variable {W R : Type}

/-- Calls made while `h` handles `env`, with the arguments they must have. -/
def Call.isFor (h : HConfig) (now : Time) (env : Env) : Call R → Prop
  | .aggRoute h' m | .aggHandle h' _ _ m => h' = h ∧ m = env.msg ∧ h.htype = .aggregate
  | .aggNew h' | .aggApply h' _ _ => h' = h ∧ h.htype = .aggregate
  | .procRoute h' m => h' = h ∧ m = env.msg ∧ h.htype = .process
  | .procNew h' => h' = h ∧ h.htype = .process
  | .procHandle h' id _ m at_ => h' = h ∧ m = env.msg ∧ h.htype = .process ∧
    (env.msg.type.kind = .event → at_ = env.createdAt) ∧
    (env.msg.type.kind = .timeout → at_ = env.scheduledFor ∧
      ∃ o, env.origin = some o ∧ o.instanceID = id)
  | .intHandle h' m => h' = h ∧ m = env.msg ∧ h.htype = .integration
  | .prjVersion h' res | .prjClose h' res => h' = h ∧ res = env.id ∧ h.htype = .projection
  | .prjHandle h' res cur next m => h' = h ∧ res = env.id ∧ cur = [] ∧ next = [1] ∧ m = env.msg ∧ h.htype = .projection
  | .prjCompact h' t => h' = h ∧ t = now ∧ h.htype = .projection
  | .resetter _ => False

theorem Call.isFor_handler {h : HConfig} {now : Time} {env : Env} {c : Call R} (hc : c.isFor h now env) :
    c.handler = some h := by
  cases c <;> simp_all [Call.isFor, Call.handler]

/-- Facts notified while `h` handles `env`, other than those that announce a new
message. -/
def Fact.isNote (h : HConfig) (env : Env) : Fact → Prop
  | .aggLoaded h' _ e | .aggNotFound h' _ e | .aggCreated h' _ e | .aggDestroyed h' _ e
  | .aggReverted h' _ e | .aggLog h' _ e _ => h' = h ∧ e = env ∧ h.htype = .aggregate
  | .procLoaded h' _ e | .procEventIgnored h' e | .procTimeoutIgnored h' _ e
  | .procNotFound h' _ e | .procBegun h' _ e | .procEnded h' _ e | .procReverted h' _ e
  | .procLog h' _ e _ => h' = h ∧ e = env ∧ h.htype = .process
  | .intLog h' e _ => h' = h ∧ e = env ∧ h.htype = .integration
  | .prjCompactBegun h' | .prjCompactCompleted h' _ => h' = h ∧ h.htype = .projection
  | .prjLog h' e _ => h' = h ∧ (e = none ∨ e = some env) ∧ h.htype = .projection
  | _ => False

/-- One small step of `h` handling `env` at engine time `now`. -/
inductive HStep (h : HConfig) (now : Time) (env : Env) : Sys W R → Sys W R → Prop
  | world (s w) : HStep h now env s { s with w := w }
  | call (s c) (hc : Call.isFor h now env c) : HStep h now env s (s.emit (.call c))
  | note (s f) (hf : Fact.isNote h env f) : HStep h now env s (s.notify f)
  | aggEvent (s id m) (ht : h.htype = .aggregate) (hp : h.produces? .event m = true)
      (hv : m.invalid = none) : HStep h now env s
        ({ s with nextID := s.nextID + 1 }.notify
          (.aggEvent h id env (env.child (s.nextID + 1) m now ⟨h, .aggregate, id⟩)))
  | procCommand (s id m) (ht : h.htype = .process) (hp : h.produces? .command m = true)
      (hv : m.invalid = none) : HStep h now env s
        ({ s with nextID := s.nextID + 1 }.notify
          (.procCommand h id env (env.child (s.nextID + 1) m now ⟨h, .process, id⟩)))
  | procTimeout (s id m t) (ht : h.htype = .process) (hp : h.produces? .timeout m = true)
      (hv : m.invalid = none) : HStep h now env s
        ({ s with nextID := s.nextID + 1 }.notify
          (.procTimeout h id env (env.childTimeout (s.nextID + 1) m now t ⟨h, .process, id⟩)))
  | intEvent (s m) (ht : h.htype = .integration) (hp : h.produces? .event m = true)
      (hv : m.invalid = none) : HStep h now env s
        ({ s with nextID := s.nextID + 1 }.notify
          (.intEvent h env (env.child (s.nextID + 1) m now ⟨h, .integration, ""⟩)))
  | commitAgg (s id x) (ht : h.htype = .aggregate) : HStep h now env s
        { s with agg := upd s.agg h.name (upd (s.agg h.name) id x) }
  | commitProc (s p) (ht : h.htype = .process) : HStep h now env s (s.setProc h p)

/-- Sequences of small steps. -/
inductive HSteps (h : HConfig) (now : Time) (env : Env) : Sys W R → Sys W R → Prop
  | refl (s) : HSteps h now env s s
  | tail {a b c} : HSteps h now env a b → HStep h now env b c → HSteps h now env a c

namespace HSteps

variable {h : HConfig} {now : Time} {env : Env}

theorem single {a b : Sys W R} (s : HStep h now env a b) : HSteps h now env a b :=
  .tail (.refl _) s

theorem trans {a b c : Sys W R} (h₁ : HSteps h now env a b) (h₂ : HSteps h now env b c) :
    HSteps h now env a c := by
  induction h₂ with
  | refl => exact h₁
  | tail _ s ih => exact .tail ih s

theorem head {a b c : Sys W R} (s : HStep h now env a b) (t : HSteps h now env b c) :
    HSteps h now env a c := (single s).trans t

/-- A predicate closed under small steps is closed under sequences of them. -/
theorem inv {a b : Sys W R} (t : HSteps h now env a b) {P : Sys W R → Prop}
    (hP : ∀ x y, HStep h now env x y → P x → P y) (ha : P a) : P b := by
  induction t with
  | refl => exact ha
  | tail _ s ih => exact hP _ _ s ih

end HSteps

/-- A user call is two small steps. -/
theorem user_steps {α : Type} {h : HConfig} {now : Time} {env : Env} (s : Sys W R) (c : Call R)
    (hc : Call.isFor h now env c) (f : W → W × α) :
    HSteps h now env s (s.user c f).1 :=
  .tail (.single (.call s c hc)) (.world _ _)

/-- Turn `match s.user .. with` into something usable. -/
theorem user_steps' {α : Type} {h : HConfig} {now : Time} {env : Env} {s s' : Sys W R} {c : Call R}
    {f : W → W × α} {a : α} (hc : Call.isFor h now env c) (e : s.user c f = (s', a)) :
    HSteps h now env s s' := by
  have := user_steps (now := now) (env := env) s c hc f
  rw [e] at this; exact this

section agg

variable (A : App W R) (h : HConfig) (id : String) (now : Time) (env : Env)

theorem aggRecord_steps (ht : h.htype = .aggregate) (m : Message) (s : Sys W R) (sc : AggScope R) :
    HSteps h now env s (aggRecord A h id now env m s sc).1 := by
  unfold aggRecord
  split
  · exact .refl _
  · rename_i hp
    split
    · exact .refl _
    · rename_i hv
      have h1 : HSteps h now env s (aggRevive h id env s sc).1 := by
        unfold aggRevive
        split
        · exact .refl _
        · simp only
          split <;> exact .single (.note _ _ (by exact ⟨rfl, rfl, ht⟩))
      generalize aggRevive h id env s sc = p1 at h1
      obtain ⟨s1, sc1⟩ := p1
      simp only at h1 ⊢
      have h2 : HSteps h now env s1 (aggApplyScope A h m s1 sc1).1 := by
        unfold aggApplyScope
        split
        · exact .refl _
        · split <;> rename_i he <;> exact user_steps' (by simp [Call.isFor, ht]) he
      generalize aggApplyScope A h m s1 sc1 = p2 at h2
      obtain ⟨s2, sc2, p⟩ := p2
      simp only at h2 ⊢
      cases p with
      | some v => exact h1.trans h2
      | none =>
        exact (h1.trans h2).tail (.aggEvent _ _ _ ht (by simpa using hp) hv)

theorem aggOp_steps (ht : h.htype = .aggregate) (o : AggOp R) (s : Sys W R) (sc : AggScope R) :
    HSteps h now env s (aggOp A h id now env o s sc).1 := by
  cases o with
  | record m => exact aggRecord_steps A h id now env ht m s sc
  | setRoot r => exact .refl _
  | destroy =>
    unfold aggOp; simp only
    unfold aggDestroy
    split
    · exact .refl _
    · split
      · rename_i he; exact user_steps' (by simp [Call.isFor, ht]) he
      · rename_i he
        exact (user_steps' (by simp [Call.isFor, ht]) he).tail (.note _ _ (by exact ⟨rfl, rfl, ht⟩))
  | log t => exact .single (.note _ _ (by exact ⟨rfl, rfl, ht⟩))

theorem aggRun_steps (ht : h.htype = .aggregate) (p : Prog W (AggOp R) Unit) (s : Sys W R)
    (sc : AggScope R) : HSteps h now env s (aggRun A h id now env p s sc).1 := by
  induction p generalizing s sc with
  | ret => exact .refl _
  | panic v => exact .refl _
  | get k ih => exact ih _ _ _
  | set w k ih => exact .head (.world _ _) (ih _ _)
  | op o k ih =>
    unfold aggRun
    have := aggOp_steps A h id now env ht o s sc
    generalize aggOp A h id now env o s sc = p at this
    obtain ⟨s1, sc1, v⟩ := p
    exact this.trans (ih _ _ _)

theorem aggReplay_steps (ht : h.htype = .aggregate) (hist : List Env) (r : R) (s : Sys W R) :
    HSteps h now env s (aggReplay A h hist r s).1 := by
  induction hist generalizing r s with
  | nil => exact .refl _
  | cons e es ih =>
    unfold aggReplay
    split
    · rename_i he; exact user_steps' (by simp [Call.isFor, ht]) he
    · rename_i he
      exact (user_steps' (by simp [Call.isFor, ht]) he).trans (ih _ _)

theorem aggInvoke_steps (ht : h.htype = .aggregate) (r : R) (ex : Bool) (s : Sys W R) :
    HSteps h now env s (aggInvoke A h id now env r ex s).1 := by
  unfold aggInvoke
  have h0 : HSteps h now env s (s.emit (.call (.aggHandle h id r env.msg))) := .single (.call _ _ (by simp [Call.isFor, ht]))
  have := h0.trans (aggRun_steps A h id now env ht (A.uc.aggHandle h id r env.msg)
    (s.emit (.call (.aggHandle h id r env.msg))) ⟨some r, ex, false, [], true⟩)
  split
  · rename_i he; rw [he] at this; exact this
  · rename_i he; rw [he] at this
    refine this.tail ?_
    unfold aggCommit
    split <;> exact .commitAgg _ _ _ ht

theorem aggHandle_steps (ht : h.htype = .aggregate) (s : Sys W R) :
    HSteps h now env s (aggHandle A h now env s).1 := by
  unfold aggHandle
  split
  · exact .refl _
  split
  · exact .refl _
  split
  · rename_i he; exact user_steps' (by simp [Call.isFor, ht]) he
  · rename_i s1 id he
    have h1 : HSteps h now env s s1 := user_steps' (by simp [Call.isFor, ht]) he
    split
    · exact h1
    · refine h1.trans ?_
      unfold aggWithID
      split
      · rename_i he; exact user_steps' (by simp [Call.isFor, ht]) he
      · rename_i he; exact user_steps' (by simp [Call.isFor, ht]) he
      · rename_i s2 r he
        have h2 : HSteps h now env s1 s2 := user_steps' (by simp [Call.isFor, ht]) he
        refine h2.trans ?_
        split
        · rename_i hist _
          have h3 := aggReplay_steps A h now env ht hist r s2
          split
          · rename_i he; rw [he] at h3; exact h3
          · rename_i he; rw [he] at h3
            exact (h3.tail (.note _ _ (by exact ⟨rfl, rfl, ht⟩))).trans (aggInvoke_steps A h id now env ht _ _ _)
        · exact .head (.note _ _ (by exact ⟨rfl, rfl, ht⟩)) (aggInvoke_steps A h id now env ht _ _ _)

end agg

section proc

variable (A : App W R) (h : HConfig) (id : String) (now : Time) (env : Env)

theorem procOp_steps (ht : h.htype = .process) (o : ProcOp R) (s : Sys W R) (sc : ProcScope R) :
    HSteps h now env s (procOp h id now env o s sc).1 := by
  have hr : ∀ (s : Sys W R) (sc : ProcScope R), HSteps h now env s (procRevive h id env s sc).1 := by
    intro s sc
    unfold procRevive
    split
    · exact .single (.note _ _ (by exact ⟨rfl, rfl, ht⟩))
    · exact .refl _
  cases o with
  | end_ =>
    unfold procOp; simp only
    split
    · exact .refl _
    · exact .single (.note _ _ (by exact ⟨rfl, rfl, ht⟩))
  | execute m =>
    unfold procOp; simp only
    split
    · exact .refl _
    · rename_i hp
      split
      · exact .refl _
      · rename_i hv
        exact (hr s sc).tail (.procCommand _ _ _ ht (by simpa using hp) hv)
  | schedule m t =>
    unfold procOp; simp only
    split
    · exact .refl _
    · rename_i hp
      split
      · exact .refl _
      · rename_i hv
        exact (hr s sc).tail (.procTimeout _ _ _ _ ht (by simpa using hp) hv)
  | setRoot r => exact .refl _
  | log t => exact .single (.note _ _ (by exact ⟨rfl, rfl, ht⟩))

theorem procRun_steps (ht : h.htype = .process) (p : Prog W (ProcOp R) (Option Err)) (s : Sys W R)
    (sc : ProcScope R) : HSteps h now env s (procRun h id now env p s sc).1 := by
  induction p generalizing s sc with
  | ret => exact .refl _
  | panic v => exact .refl _
  | get k ih => exact ih _ _ _
  | set w k ih => exact .head (.world _ _) (ih _ _)
  | op o k ih =>
    unfold procRun
    have := procOp_steps h id now env ht o s sc
    generalize procOp h id now env o s sc = p at this
    obtain ⟨s1, sc1, v⟩ := p
    exact this.trans (ih _ _ _)

theorem procAlias_steps (ht : h.htype = .process) (ex : Bool) (s : Sys W R) (r : R) :
    HSteps h now env s (procAlias h id ex s r) := by
  unfold procAlias
  split
  · exact .single (.commitProc _ _ ht)
  · exact .refl _

theorem procInvoke_steps (ht : h.htype = .process) (hto : env.msg.type.kind = .timeout → ∃ o, env.origin = some o ∧ o.instanceID = id) (r : R) (ex : Bool) (s : Sys W R) :
    HSteps h now env s (procInvoke A h id now env r ex s).1 := by
  unfold procInvoke
  have h0 : HSteps h now env s
    (s.emit (.call (.procHandle h id r env.msg (procSeenTime env)))) := by
    refine .single (.call _ _ ⟨rfl, rfl, ht, ?_, ?_⟩)
    · intro hk; simp [procSeenTime, hk]
    · intro hk; exact ⟨by simp [procSeenTime, hk], hto hk⟩
  have h1 := h0.trans (procRun_steps h id now env ht
    (A.uc.procHandle h id r env.msg (procSeenTime env))
    (s.emit (.call (.procHandle h id r env.msg (procSeenTime env)))) ⟨r, false, [], [], []⟩)
  split
  · rename_i he; rw [he] at h1; exact h1.trans (procAlias_steps h id now env ht _ _ _)
  · rename_i he; rw [he] at h1; exact h1.trans (procAlias_steps h id now env ht _ _ _)
  · rename_i he; rw [he] at h1
    split
    · simp only
      split
      · exact h1.tail (.commitProc _ _ ht)
      · exact h1
    · exact h1.tail (.commitProc _ _ ht)

theorem procWithID_steps (ht : h.htype = .process) (hto : env.msg.type.kind = .timeout → ∃ o, env.origin = some o ∧ o.instanceID = id) (s : Sys W R) :
    HSteps h now env s (procWithID A h id now env s).1 := by
  unfold procWithID
  split
  · exact .head (.note _ _ (by exact ⟨rfl, rfl, ht⟩)) (procInvoke_steps A h id now env ht hto _ _ _)
  · have h0 : HSteps h now env s (s.notify (.procNotFound h id env)) :=
      .single (.note _ _ (by exact ⟨rfl, rfl, ht⟩))
    split
    · rename_i he; exact h0.trans (user_steps' (by simp [Call.isFor, ht]) he)
    · rename_i he
      exact (h0.trans (user_steps' (by simp [Call.isFor, ht]) he)).tail (.note _ _ (by exact ⟨rfl, rfl, ht⟩))
    · rename_i he
      exact ((h0.trans (user_steps' (by simp [Call.isFor, ht]) he)).tail (.note _ _ (by exact ⟨rfl, rfl, ht⟩))).trans
        (procInvoke_steps A h id now env ht hto _ _ _)

theorem procHandle_steps (ht : h.htype = .process) (s : Sys W R) :
    HSteps h now env s (procHandle A h now env s).1 := by
  unfold procHandle
  split
  · exact .refl _
  split
  · exact .refl _
  · rename_i hk
    split
    · rename_i he; exact user_steps' (by simp [Call.isFor, ht]) he
    · rename_i he; exact user_steps' (by simp [Call.isFor, ht]) he
    · rename_i he; exact (user_steps' (by simp [Call.isFor, ht]) he).tail (.note _ _ (by exact ⟨rfl, rfl, ht⟩))
    · rename_i he
      have h1 : HSteps h now env s _ := user_steps' (by simp [Call.isFor, ht]) he
      split
      · exact h1
      · exact h1.trans (procWithID_steps A h _ now env ht (by simp [hk]) _)
  · split
    · exact .refl _
    · rename_i o ho
      split
      · exact procWithID_steps A h _ now env ht (fun _ => ⟨o, ho, rfl⟩) _
      · exact .single (.note _ _ (by exact ⟨rfl, rfl, ht⟩))

end proc

section int

variable (A : App W R) (h : HConfig) (now : Time) (env : Env)

theorem intRun_steps (ht : h.htype = .integration) (p : Prog W IntOp (Option Err)) (s : Sys W R)
    (evs : List Env) : HSteps h now env s (intRun h now env p s evs).1 := by
  induction p generalizing s evs with
  | ret => exact .refl _
  | panic v => exact .refl _
  | get k ih => exact ih _ _ _
  | set w k ih => exact .head (.world _ _) (ih _ _)
  | op o k ih =>
    unfold intRun
    have : HSteps h now env s (intOp h now env o s evs).1 := by
      cases o with
      | record m =>
        unfold intOp; simp only
        split
        · exact .refl _
        · rename_i hp
          split
          · exact .refl _
          · rename_i hv
            exact .single (.intEvent _ _ ht (by simpa using hp) hv)
      | log t => exact .single (.note _ _ (by exact ⟨rfl, rfl, ht⟩))
    generalize intOp h now env o s evs = p at this
    obtain ⟨s1, sc1, v⟩ := p
    exact this.trans (ih _ _ _)

theorem intHandle_steps (ht : h.htype = .integration) (s : Sys W R) :
    HSteps h now env s (intHandle A h now env s).1 := by
  unfold intHandle
  split
  · exact .refl _
  split
  · exact .refl _
  · have h0 : HSteps h now env s (s.emit (.call (.intHandle h env.msg))) := .single (.call _ _ (by simp [Call.isFor, ht]))
    have h1 := h0.trans (intRun_steps h now env ht (A.uc.intHandle h env.msg)
      (s.emit (.call (.intHandle h env.msg))) [])
    split <;> (rename_i he; rw [he] at h1; exact h1)

end int

section prj

variable (A : App W R) (h : HConfig) (now : Time) (env : Env)

theorem prjStep_steps {α : Type} (ht : h.htype = .projection) (e : Option Env)
    (he : e = none ∨ e = some env) (p : Prog W PrjOp α) (s : Sys W R) :
    HSteps h now env s (prjStep h e p s).2 := by
  cases p with
  | ret => exact .refl _
  | panic v => exact .refl _
  | get k => exact .refl _
  | set w k => exact .single (.world _ _)
  | op o k =>
    cases o with
    | log t => exact .single (.note _ _ (by exact ⟨rfl, he, ht⟩))

theorem prjRun_steps {α : Type} (ht : h.htype = .projection) (e : Option Env)
    (he : e = none ∨ e = some env) (p : Prog W PrjOp α) (s : Sys W R) :
    HSteps h now env s (prjRun h e p s).1 := by
  induction p generalizing s with
  | ret => exact .refl _
  | panic v => exact .refl _
  | get k ih => exact ih _ _
  | set w k ih => exact .head (.world _ _) (ih _)
  | op o k ih =>
    cases o with
    | log t => exact .head (.note _ _ (by exact ⟨rfl, he, ht⟩)) (ih _ _)

theorem prjPar_steps (ht : h.htype = .projection) (bs : List Bool)
    (hp : Prog W PrjOp (Except Err Bool)) (cp : Prog W PrjOp (Option Err)) (s : Sys W R) :
    HSteps h now env s (prjPar h env bs hp cp s).1 := by
  induction bs generalizing hp cp s with
  | nil =>
    unfold prjPar
    have h1 := prjRun_steps h now env ht (some env) (.inr rfl) hp s
    split
    · rename_i he; rw [he] at h1; exact h1
    · rename_i s1 _ he; rw [he] at h1
      have h2 := prjRun_steps h now env ht none (.inl rfl) cp s1
      split <;> (rename_i he2; rw [he2] at h2; exact h1.trans h2)
  | cons b bs ih =>
    unfold prjPar
    split
    · exact .refl _
    · exact .refl _
    · split
      · exact (prjStep_steps h now env ht none (.inl rfl) cp s).trans (ih _ _ _)
      · exact (prjStep_steps h now env ht (some env) (.inr rfl) hp s).trans (ih _ _ _)

theorem prjApply_steps (ht : h.htype = .projection) (s : Sys W R) :
    HSteps h now env s (prjApply A h now env s).1 := by
  unfold prjApply
  split
  · have h1 : HSteps h now env s _ :=
      (((HSteps.single (.note s (.prjCompactBegun h) (by exact ⟨rfl, ht⟩))).tail
        (.call _ (.prjCompact h now) (by simp [Call.isFor, ht]))).tail (.call _ (.prjHandle h env.id [] [1] env.msg) (by simp [Call.isFor, ht]))).trans
      (prjPar_steps h now env ht (A.uc.schedule s.w)
        (A.uc.prjHandle h env.id [] [1] env.msg env.createdAt) (A.uc.prjCompact h now) _)
    split
    · rename_i he; rw [he] at h1; exact h1
    · rename_i he; rw [he] at h1; exact h1.tail (.note _ _ (by exact ⟨rfl, ht⟩))
  · have h1 : HSteps h now env s _ :=
      (HSteps.single (.call s (.prjHandle h env.id [] [1] env.msg) (by simp [Call.isFor, ht]))).trans
        (prjRun_steps h now env ht (some env) (.inr rfl)
          (A.uc.prjHandle h env.id [] [1] env.msg env.createdAt) _)
    split <;> (rename_i he; rw [he] at h1; exact h1)

theorem prjFinish_steps (ht : h.htype = .projection) (r : Except Err Bool) (ce : Option Err) (s : Sys W R) :
    HSteps h now env s (prjFinish A h env r ce s).1 := by
  unfold prjFinish
  split
  · exact .refl _
  · exact .refl _
  · split <;> (rename_i he; exact user_steps' (by simp [Call.isFor, ht]) he)

theorem prjHandle_steps (ht : h.htype = .projection) (s : Sys W R) :
    HSteps h now env s (prjHandle A h now env s).1 := by
  unfold prjHandle
  split
  · exact .refl _
  split
  · exact .refl _
  split
  · rename_i he; exact user_steps' (by simp [Call.isFor, ht]) he
  · rename_i he; exact user_steps' (by simp [Call.isFor, ht]) he
  · rename_i he; exact user_steps' (by simp [Call.isFor, ht]) he
  · rename_i s1 he
    have h1 : HSteps h now env s s1 := user_steps' (by simp [Call.isFor, ht]) he
    have h2 := h1.trans (prjApply_steps A h now env ht s1)
    split
    · rename_i he; rw [he] at h2; exact h2
    · rename_i he; rw [he] at h2
      exact h2.trans (prjFinish_steps A h now env ht _ _ _)

end prj

/-- Every handling is a sequence of small steps. -/
theorem ctlHandle_steps (A : App W R) (h : HConfig) (now : Time) (env : Env) (s : Sys W R) :
    HSteps h now env s (ctlHandle A h now env s).1 := by
  unfold ctlHandle
  split
  · rename_i ht; exact aggHandle_steps A h now env ht s
  · rename_i ht; exact procHandle_steps A h now env ht s
  · rename_i ht; exact intHandle_steps A h now env ht s
  · rename_i ht; exact prjHandle_steps A h now env ht s

theorem undeclared_blames {h : HConfig} {k : Kind} {m : Message} (hp : h.produces? k m = false)
    (verb : String) : Describes h k m (undeclaredText verb m) := by
  refine ⟨⟨verb ++ " of type ", ", which is not produced by this handler", rfl⟩, fun h1 h2 => ?_⟩
  simp [HConfig.produces?, h1, h2] at hp

theorem invalid_blames {m : Message} {e : Err} (hi : m.invalid = some e) (h : HConfig) (k : Kind)
    (verb noun : String) : Describes h k m (invalidText verb noun m e) := by
  refine ⟨⟨verb ++ " an invalid ", " " ++ (noun ++ (": " ++ e)), ?_⟩, fun _ _ => ⟨_, e, hi, rfl⟩⟩
  simp only [invalidText, String.append_assoc]

end Verif
