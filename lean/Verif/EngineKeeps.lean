import Verif.EngineSolo

/-!
# Dispatching and ticking do not reset message IDs

Proof machinery for C89.
-/

namespace Verif.Conc

variable {W R : Type}

/-- A program that does not reset the message IDs. -/
inductive Keeps {C : Type} : Crit C → Prop where
  | done : Keeps .done
  | panic : Keeps .panic
  | touch {f k} (hk : ∀ c, Keeps (k c)) : Keeps (.touch f k)
  | id {k} (hk : ∀ n, Keeps (k n)) : Keeps (.id k)

theorem keeps_act {C α : Type} {f : C → C × α} {κ : α → Crit C} (hk : ∀ a, Keeps (κ a)) :
    Keeps (.act f κ) := .touch fun _ => hk _

theorem keeps_doing {C : Type} {f : C → C} {κ : Crit C} (hk : Keeps κ) : Keeps (.doing f κ) :=
  .touch fun _ => hk

section
variable (A : App W R) (h : HConfig) (id : String) (now : Time) (env : Env)

theorem aggOpC_keeps (o : AggOp R) (sc : AggScope R) {κ : AggScope R → Option PanicVal → Crit (Sys W R)}
    (hk : ∀ sc p, Keeps (κ sc p)) : Keeps (aggOpC A h id now env o sc κ) := by
  unfold aggOpC aggRecordC
  cases o with
  | record m =>
    simp only
    split
    · exact hk _ _
    split
    · exact hk _ _
    refine keeps_act fun sc => keeps_act fun x => ?_
    rcases x with ⟨sc, _ | v⟩
    · exact .id fun n => keeps_act fun sc => hk _ _
    · exact hk _ _
  | destroy => exact keeps_act fun x => hk _ _
  | setRoot r => exact hk _ _
  | log t => exact keeps_doing (hk _ _)

theorem aggRunC_keeps (p : Prog W (AggOp R) Unit) : ∀ (sc : AggScope R)
    {κ : AggScope R → Option PanicVal → Crit (Sys W R)} (_ : ∀ sc p, Keeps (κ sc p)),
    Keeps (aggRunC A h id now env p sc κ) := by
  induction p with
  | ret a => intro sc κ hk; exact hk _ _
  | panic v => intro sc κ hk; exact hk _ _
  | get k ih => intro sc κ hk; exact .touch fun s => ih s.w sc hk
  | set w k ih => intro sc κ hk; exact keeps_doing (ih sc hk)
  | op o k ih => intro sc κ hk; exact aggOpC_keeps A h id now env o sc fun sc p => ih p sc hk

theorem aggInvokeC_keeps (r : R) (ex : Bool) {κ : HRes → Crit (Sys W R)} (hk : ∀ x, Keeps (κ x)) :
    Keeps (aggInvokeC A h id now env r ex κ) := by
  refine keeps_doing (aggRunC_keeps A h id now env _ _ fun sc p => ?_)
  rcases p with _ | v
  · exact keeps_doing (hk _)
  · exact hk _

theorem aggHandleC_keeps {κ : HRes → Crit (Sys W R)} (hk : ∀ x, Keeps (κ x)) :
    Keeps (aggHandleC A h now env κ) := by
  unfold aggHandleC
  split
  · exact hk _
  split
  · exact hk _
  refine keeps_act fun x => ?_
  rcases x with v | id
  · exact hk _
  · simp only
    split
    · exact hk _
    refine keeps_act fun x => ?_
    rcases x with v | _ | r
    · exact hk _
    · exact hk _
    · refine .touch fun s => ?_
      split
      · refine keeps_act fun x => ?_
        rcases x with v | r
        · exact hk _
        · exact keeps_doing (aggInvokeC_keeps A h id now env r true hk)
      · exact keeps_doing (aggInvokeC_keeps A h id now env r false hk)

theorem procOpC_keeps (o : ProcOp R) (sc : ProcScope R)
    {κ : ProcScope R → Option PanicVal → Crit (Sys W R)}
    (hk : ∀ sc p, Keeps (κ sc p)) : Keeps (procOpC h id now env o sc κ) := by
  unfold procOpC
  cases o with
  | end_ =>
    simp only
    split
    · exact hk _ _
    · exact keeps_doing (hk _ _)
  | execute m =>
    simp only
    split
    · exact hk _ _
    split
    · exact hk _ _
    exact keeps_act fun sc => .id fun n => keeps_act fun sc => hk _ _
  | schedule m t =>
    simp only
    split
    · exact hk _ _
    split
    · exact hk _ _
    exact keeps_act fun sc => .id fun n => keeps_act fun sc => hk _ _
  | setRoot r => exact hk _ _
  | log t => exact keeps_doing (hk _ _)

theorem procRunC_keeps (p : Prog W (ProcOp R) (Option Err)) : ∀ (sc : ProcScope R)
    {κ : ProcScope R → Except PanicVal (Option Err) → Crit (Sys W R)} (_ : ∀ sc p, Keeps (κ sc p)),
    Keeps (procRunC h id now env p sc κ) := by
  induction p with
  | ret a => intro sc κ hk; exact hk _ _
  | panic v => intro sc κ hk; exact hk _ _
  | get k ih => intro sc κ hk; exact .touch fun s => ih s.w sc hk
  | set w k ih => intro sc κ hk; exact keeps_doing (ih sc hk)
  | op o k ih => intro sc κ hk; exact procOpC_keeps h id now env o sc fun sc p => ih p sc hk

theorem procInvokeC_keeps (r : R) (ex : Bool) {κ : HRes → Crit (Sys W R)} (hk : ∀ x, Keeps (κ x)) :
    Keeps (procInvokeC A h id now env r ex κ) := by
  refine keeps_doing (procRunC_keeps h id now env _ _ fun sc p => ?_)
  rcases p with v | _ | e
  · exact keeps_doing (hk _)
  · simp only
    split <;> exact keeps_doing (hk _)
  · exact keeps_doing (hk _)

theorem procWithIDC_keeps {κ : HRes → Crit (Sys W R)} (hk : ∀ x, Keeps (κ x)) :
    Keeps (procWithIDC A h id now env κ) := by
  refine .touch fun s => ?_
  split
  · exact keeps_doing (procInvokeC_keeps A h id now env _ true hk)
  · refine keeps_doing (keeps_act fun x => ?_)
    rcases x with v | _ | r
    · exact hk _
    · exact keeps_doing (hk _)
    · exact keeps_doing (procInvokeC_keeps A h id now env r false hk)

theorem procHandleC_keeps {κ : HRes → Crit (Sys W R)} (hk : ∀ x, Keeps (κ x)) :
    Keeps (procHandleC A h now env κ) := by
  unfold procHandleC
  split
  · exact hk _
  split
  · exact hk _
  · refine keeps_act fun x => ?_
    rcases x with v | e | _ | id
    · exact hk _
    · exact hk _
    · exact keeps_doing (hk _)
    · simp only
      split
      · exact hk _
      · exact procWithIDC_keeps A h id now env hk
  · split
    · exact hk _
    · refine .touch fun s => ?_
      split
      · exact procWithIDC_keeps A h _ now env hk
      · exact keeps_doing (hk _)

theorem intRunC_keeps (p : Prog W IntOp (Option Err)) : ∀ (evs : List Env)
    {κ : List Env → Except PanicVal (Option Err) → Crit (Sys W R)} (_ : ∀ sc p, Keeps (κ sc p)),
    Keeps (intRunC h now env p evs κ) := by
  induction p with
  | ret a => intro sc κ hk; exact hk _ _
  | panic v => intro sc κ hk; exact hk _ _
  | get k ih => intro sc κ hk; exact .touch fun s => ih s.w sc hk
  | set w k ih => intro sc κ hk; exact keeps_doing (ih sc hk)
  | op o k ih =>
    intro evs κ hk
    unfold intRunC intOpC
    cases o with
    | record m =>
      simp only
      split
      · exact ih _ _ hk
      split
      · exact ih _ _ hk
      exact .id fun n => keeps_act fun evs => ih _ _ hk
    | log t => exact keeps_doing (ih _ _ hk)

theorem ctlHandleC_keeps {κ : HRes → Crit (Sys W R)} (hk : ∀ x, Keeps (κ x)) :
    Keeps (ctlHandleC A h now env κ) := by
  unfold ctlHandleC
  split
  · exact aggHandleC_keeps A h now env hk
  · exact procHandleC_keeps A h now env hk
  · unfold intHandleC
    split
    · exact hk _
    split
    · exact hk _
    refine keeps_doing (intRunC_keeps h now env _ _ fun evs p => ?_)
    rcases p with v | e <;> exact hk _
  · exact keeps_act hk

theorem handleAllC_keeps (oo : OpOpts) (hs : List HConfig) : ∀ (q : List Env) (de : List EngErr)
    {κ : Except PanicVal (List Env × List EngErr) → Crit (Sys W R)} (_ : ∀ x, Keeps (κ x)),
    Keeps (handleAllC A oo env hs q de κ) := by
  induction hs with
  | nil => intro q de κ hk; exact hk _
  | cons h hs ih =>
    intro q de κ hk
    unfold handleAllC handleOneC
    split
    · exact keeps_doing (ih _ _ hk)
    · refine keeps_doing (ctlHandleC_keeps A h oo.now env fun x => ?_)
      rcases x with v | ⟨envs, e⟩
      · exact hk _
      · exact keeps_doing (ih _ _ hk)

theorem dispatchLoopC_keeps (oo : OpOpts) (n : Nat) : ∀ (q : List Env) (errs : List EngErr)
    {κ : Outcome (List EngErr) → Crit (Sys W R)} (_ : ∀ x, Keeps (κ x)),
    Keeps (dispatchLoopC A oo n q errs κ) := by
  induction n with
  | zero => intro q errs κ hk; cases q <;> exact hk _
  | succ n ih =>
    intro q errs κ hk
    cases q with
    | nil => exact hk _
    | cons e q =>
      unfold dispatchLoopC
      split
      · exact hk _
      · refine keeps_doing (handleAllC_keeps A e oo _ q [] fun x => ?_)
        rcases x with v | ⟨q, de⟩
        · exact hk _
        · refine keeps_doing (.touch fun s => ?_)
          split
          · exact hk _
          · exact ih _ _ hk

theorem finishC_keeps (f : List EngErr → Fact) (o : Outcome (List EngErr)) :
    Keeps (finishC (W := W) (R := R) f o) := by
  cases o with
  | done es => exact keeps_doing .done
  | panicked v => exact .panic
  | running => exact .done

end

/-- The programs of a call. -/
def Call.Programs {C : Type} (P : Crit C → Prop) : Call C → Prop
  | .locked b => P b
  | .withID k => ∀ n b, k n = some b → P b

theorem callOf_keeps (A : App W R) (now : Time) (op : Op) (hop : op ≠ .reset) :
    (callOf A (now, op)).Programs Keeps := by
  cases op with
  | dispatch fuel m os =>
    intro n b hb
    simp only [dispatchC] at hb
    split at hb
    · cases hb
    split at hb
    · cases hb
    split at hb
    · cases hb
    split at hb
    · cases hb
    cases hb
    exact keeps_doing (dispatchLoopC_keeps A _ fuel _ [] (finishC_keeps _))
  | tick fuel order os =>
    show Keeps (engTickC A now fuel order os)
    unfold engTickC
    split
    · exact .panic
    · refine keeps_doing (keeps_act fun x => ?_)
      rcases x with v | ⟨q, es, _ | c⟩
      · exact finishC_keeps _ _
      · refine dispatchLoopC_keeps A _ fuel _ [] fun o => ?_
        cases o <;> exact finishC_keeps _ _
      · exact finishC_keeps _ _
  | reset => exact absurd rfl hop

/-- A goroutine that is not going to reset the message IDs. -/
def Thread.Keeps {C : Type} (x : Thread C) : Prop :=
  (∀ y ∈ x.todo, y.Programs Conc.Keeps) ∧
    ∀ b, x.phase = .waiting b ∨ x.phase = .inside b → Conc.Keeps b

theorem keepsInv {C : Type} {c : C} {prog : Nat → List (Call C)}
    (hp : ∀ t, ∀ x ∈ prog t, x.Programs Keeps) {ls : List (Label C)} {s : St C}
    (h : Steps (init c prog) ls s) :
    (∀ t i, .resetIDs t i ∉ ls) ∧ ∀ t, (s.threads t).Keeps := by
  induction h with
  | nil =>
    refine ⟨by simp, fun t => ⟨hp t, ?_⟩⟩
    rintro b (hb | hb) <;> exact nomatch hb
  | @snoc _ s1 _ _ _ hs ih =>
    obtain ⟨h1, h2⟩ := ih
    have at_ : ∀ {t : Nat} {x : Thread C}, s1.threads t = x → x.Keeps := fun e => e ▸ h2 _
    have key : ∀ {s' : St C} {t : Nat} {x : Thread C}, x.Keeps → (∀ u, (s'.threads u).Keeps) →
        ∀ u, ((s'.set t x).threads u).Keeps := by
      intro s' t x hx hs' u
      simp only [set_threads]
      split
      · exact hx
      · exact hs' u
    cases hs with
    | call h =>
      refine ⟨by simpa using h1, key ?_ h2⟩
      have := at_ h
      refine ⟨fun y hy => this.1 y (List.mem_cons_of_mem _ hy), ?_⟩
      rintro b (hb | hb) <;> cases hb
      exact this.1 _ (List.mem_cons_self ..)
    | callID h hk =>
      refine ⟨by simpa using h1, key ?_ h2⟩
      have := at_ h
      refine ⟨fun y hy => this.1 y (List.mem_cons_of_mem _ hy), ?_⟩
      rintro b (hb | hb) <;> cases hb
      exact this.1 _ (List.mem_cons_self ..) _ _ hk
    | callIDPanic h hk =>
      refine ⟨by simpa using h1, key ?_ h2⟩
      have := at_ h
      refine ⟨fun y hy => this.1 y (List.mem_cons_of_mem _ hy), ?_⟩
      rintro b (hb | hb) <;> cases hb
    | giveUp h =>
      refine ⟨by simpa using h1, key ?_ h2⟩
      have := at_ h
      refine ⟨this.1, ?_⟩
      rintro b (hb | hb) <;> cases hb
    | lock h hl =>
      refine ⟨by simpa using h1, key ?_ h2⟩
      have := at_ h
      refine ⟨this.1, ?_⟩
      rintro b (hb | hb) <;> cases hb
      exact this.2 _ (.inl rfl)
    | touch h =>
      refine ⟨by simpa using h1, key ?_ h2⟩
      have := at_ h
      refine ⟨this.1, ?_⟩
      rintro b (hb | hb) <;> cases hb
      have := this.2 _ (.inr rfl)
      cases this with
      | touch hk => exact hk _
    | id h =>
      refine ⟨by simpa using h1, key ?_ h2⟩
      have := at_ h
      refine ⟨this.1, ?_⟩
      rintro b (hb | hb) <;> cases hb
      have := this.2 _ (.inr rfl)
      cases this with
      | id hk => exact hk _
    | resetIDs h =>
      have := at_ h
      exact nomatch this.2 _ (.inr rfl)
    | unlock h hb =>
      refine ⟨by simpa using h1, key ?_ h2⟩
      have := at_ h
      refine ⟨this.1, ?_⟩
      rintro b (hb | hb) <;> cases hb

/-- Goroutines that only dispatch messages and tick do not reset message IDs. -/
theorem no_reset {A : App W R} {ops : Nat → List (Time × Op)}
    (hop : ∀ t, ∀ x ∈ ops t, x.2 ≠ .reset) {c : Sys W R} {ls : List (Label (Sys W R))}
    {s : St (Sys W R)} (h : Steps (init c (fun t => (ops t).map (callOf A))) ls s) :
    ∀ t i, .resetIDs t i ∉ ls :=
  (keepsInv (fun t x hx => by
    obtain ⟨y, hy, rfl⟩ := List.mem_map.1 hx
    exact callOf_keeps A y.1 y.2 (hop t y hy)) h).1

end Verif.Conc
