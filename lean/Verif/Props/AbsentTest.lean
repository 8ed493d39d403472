import Verif.Props.Absent
import Verif.Props.History
import Verif.Props.Protocol

/-!
# C118: a test does not notice handlers that it leaves out

C117 for tests: `Prepare()` and `Expect()` do the same with the application from which handlers that
are not enabled have been removed.
-/

namespace Verif

variable {W R : Type}

/-! ## Specification -/

/-- If a handler that is left out uses messages of the type of `m`, another one does so too (and
consumes them, if the former does). -/
structure StillUsed (A : App W R) (gone : String → Bool) (m : Message) : Prop where
  consumed : ∀ h ∈ A.cfgs, gone h.name = true → m.type ∈ h.consumes →
    ∃ h' ∈ A.cfgs, gone h'.name = false ∧ m.type ∈ h'.consumes
  produced : ∀ h ∈ A.cfgs, gone h.name = true → m.type ∈ h.produces →
    ∃ h' ∈ A.cfgs, gone h'.name = false ∧ (m.type ∈ h'.consumes ∨ m.type ∈ h'.produces)

/-- All messages that an interceptor gives to the engine are such messages. -/
def IProg.Sends (P : Message → Prop) : IProg W → Prop
  | .ret _ | .panic _ => True
  | .get k => ∀ w, (k w).Sends P
  | .set _ k => k.Sends P
  | .next m k => P m ∧ ∀ r, (k r).Sends P

/-- The same for an interceptor, if there is one. -/
def IcSends (P : Message → Prop) (ic : Option (Message → IProg W)) : Prop :=
  ∀ f, ic = some f → ∀ m, (f m).Sends P

mutual
/-- All messages that an action gives to the engine or to the executor are such messages. -/
def Action.Sends (P : Message → Prop) : Action W → Prop
  | .dispatch m => P m
  | .advance .. => True
  | .call fn ic => fn.Sends P ∧ IcSends P ic
/-- The same for a function given to `Call()`. -/
def CProg.Sends (P : Message → Prop) : CProg W → Prop
  | .ret | .panic _ => True
  | .get k => ∀ w, (k w).Sends P
  | .set _ k => k.Sends P
  | .exec m k => P m ∧ ∀ r, (k r).Sends P
  | .act a k => a.Sends P ∧ ∀ r, (k r).Sends P
end

/-- An entry of the record of a test without mention of these handlers; the log is left out. -/
def TObs.without (gone : String → Bool) : TObs → Option TObs
  | .engine c op facts => some (.engine c (op.without gone) (facts.filterMap (Fact.without gone)))
  | .log _ => none
  | o => some o

/-- The same surroundings, but ticks do not visit these handlers. -/
def TEnv.without (E : TEnv W) (gone : String → Bool) : TEnv W :=
  { E with order := fun w => (E.order w).filter (fun h => !gone h.name) }

/-- The predicates of the test know the same handlers as the application. -/
def PScope.without (S : PScope) (gone : String → Bool) : PScope :=
  { S with cfgs := S.cfgs.filter (fun h => !gone h.name) }

/-- A test of the application and one of the application without these handlers that are at the same
point. -/
structure Twin (gone : String → Bool) (t t' : TSt W R) : Prop where
  sys : t'.sys = t.sys.without gone
  clock : t'.clock = t.clock
  opts : t'.opts = t.opts.filter (OpOption.about gone)
  bound : t'.bound = t.bound.map (·.filter (OpOption.about gone))
  icept : t'.icept = t.icept
  did : t'.did.filterMap (TObs.without (fun _ => false)) = t.did.filterMap (TObs.without gone)

/-- The test leaves these handlers out, and has an interceptor that only sends such messages. -/
structure TSt.LeavesOut (A : App W R) (gone : String → Bool) (t : TSt W R) : Prop where
  opts : ∀ h ∈ A.cfgs, gone h.name = true → takesPart t.opts h = false
  bound : ∀ os, t.bound = some os → ∀ h ∈ A.cfgs, gone h.name = true → takesPart os h = false
  icept : IcSends (StillUsed A gone) t.icept

/-- A statement of a test. -/
inductive TStep (W : Type) where
  | prepare (a : Action W)
  | expect (k : Nat) (x : Expectation) (a : Action W)

/-- How the statement ended. -/
abbrev TStep.End := Outcome (Option TErr) ⊕ EEnd

/-- The statements of a test one after the other, up to one that does not succeed; how each of them
ended. -/
def TSt.steps (A : App W R) (E : TEnv W) (S : PScope) (c : RCtx) :
    List (TStep W) → TSt W R → TSt W R × List TStep.End
  | [], t => (t, [])
  | .prepare a :: l, t =>
    match t.prepare A E a with
    | (u, .done none) => ((TSt.steps A E S c l u).1, .inl (.done none) :: (TSt.steps A E S c l u).2)
    | (u, o) => (u, [.inl o])
  | .expect k x a :: l, t =>
    match t.expect A E S (x.impl c) k a with
    | (u, _, .passed) => ((TSt.steps A E S c l u).1, .inr .passed :: (TSt.steps A E S c l u).2)
    | (u, _, e) => (u, [.inr e])

/-! ## Options -/

/-- Options that enable or disable something. -/
def OpOption.enables : OpOption → Bool
  | .enableType .. | .enableHandler .. => true
  | _ => false

theorem lastSome_enables {β : Type} (f : OpOption → Option β) (hf : ∀ o, o.enables = false → f o = none)
    (l : List OpOption) : lastSome f (l.filter OpOption.enables) = lastSome f l := by
  induction l with
  | nil => rfl
  | cons o l ih =>
    cases ho : o.enables with
    | true => rw [List.filter_cons, ho, if_pos rfl, lastSome_cons, lastSome_cons, ih]
    | false => simp [ho, lastSome_cons, ih, hf o ho]

theorem takesPart_enables (os : List OpOption) (h : HConfig) :
    takesPart (os.filter OpOption.enables) h = takesPart os h := by
  unfold takesPart
  rw [lastSome_enables _ (by intro o ho; cases o <;> first | rfl | cases ho),
    lastSome_enables _ (by intro o ho; cases o <;> first | rfl | cases ho)]

theorem takesPart_congr {os os' : List OpOption} (he : os.filter OpOption.enables = os'.filter OpOption.enables)
    (h : HConfig) : takesPart os h = takesPart os' h := by
  rw [← takesPart_enables, he, takesPart_enables]

/-- Options of an action that are about observers. -/
def Watches (extra : List OpOption) : Prop := ∀ o ∈ extra, ∃ k, o = .observer k

theorem Watches.enables {extra : List OpOption} (h : Watches extra) : extra.filter OpOption.enables = [] := by
  rw [List.filter_eq_nil_iff]
  intro o ho
  obtain ⟨k, rfl⟩ := h o ho
  simp [OpOption.enables]

theorem Watches.about {extra : List OpOption} (h : Watches extra) (gone : String → Bool) :
    extra.filter (OpOption.about gone) = extra := by
  rw [List.filter_eq_self]
  intro o ho
  obtain ⟨k, rfl⟩ := h o ho
  rfl

section
variable {A : App W R} {gone : String → Bool}

theorem Twin.actOpts {t t' : TSt W R} (ht : Twin gone t t') {extra : List OpOption} (he : Watches extra) :
    t'.actOpts extra = (t.actOpts extra).filter (OpOption.about gone) := by
  unfold TSt.actOpts
  rw [ht.clock, ht.opts, List.filter_append, he.about]
  rfl

theorem TSt.LeavesOut.actOpts {t : TSt W R} (hl : t.LeavesOut A gone) {extra : List OpOption}
    (he : Watches extra) : ∀ h ∈ A.cfgs, gone h.name = true → takesPart (t.actOpts extra) h = false := by
  intro h hm hg
  rw [← hl.opts h hm hg]
  refine takesPart_congr ?_ h
  unfold TSt.actOpts
  rw [List.filter_append, he.enables, List.append_nil]
  rfl

/-! ## Engine operations of a test -/

theorem factsOf_without (gone : String → Bool) (l : List (Obs R)) :
    factsOf (l.filterMap (Obs.without gone)) = (factsOf l).filterMap (Fact.without gone) := by
  induction l with
  | nil => rfl
  | cons o l ih =>
    unfold factsOf at ih ⊢
    cases o with
    | call c => simpa [Obs.without] using ih
    | reset => simpa [Obs.without] using ih
    | fact f =>
      simp only [List.filterMap_cons, Obs.without]
      cases f.without gone with
      | none => simpa using ih
      | some f' => simpa using ih

theorem keep_all (f : Fact) : f.without (fun _ => false) = some f := by
  cases f <;> simp [Fact.without, List.filter_eq_self.2]

theorem filter_about_none (os : List OpOption) : os.filter (OpOption.about fun _ => false) = os := by
  rw [List.filter_eq_self]
  intro o _
  cases o <;> rfl

theorem Op.without_none (op : Op) : op.without (fun _ => false) = op := by
  cases op with
  | reset => rfl
  | dispatch n m os => simp only [Op.without, filter_about_none]
  | tick n order os => simp [Op.without, filter_about_none]

theorem Twin.engine (wf : A.WF) (hg : ∀ n, gone n = true → n ∈ A.cfgs.map HConfig.name)
    {t t' : TSt W R} (ht : Twin gone t t') (hs : Reach A t.sys) {op op' : Op} (hop : op.ok A)
    (hne : op ≠ .reset) (hl : op.LeavesOut A gone) (ho : op' = op.without gone) :
    Twin gone (t.engine A op).1 (t'.engine (A.without gone) op').1 ∧
      (t'.engine (A.without gone) op').2 = (t.engine A op).2 := by
  have hx := C117_operation wf hs gone hg op hop hl
  have htr := Op.trace_extends wf hs op hop hne
  unfold TSt.engine
  rw [ht.sys, ho, hx]
  have hd : factsOf (during (t.sys.without gone) ((op.exec A t.sys).1.without gone)) =
      (factsOf (during t.sys (op.exec A t.sys).1)).filterMap (Fact.without gone) := by
    rw [← factsOf_without]
    congr 1
    generalize hD : during t.sys (op.exec A t.sys).1 = D at htr
    unfold during Sys.without
    simp only [htr, List.filterMap_append, List.drop_left]
  refine ⟨⟨rfl, ht.clock, ht.opts, ht.bound, ht.icept, ?_⟩, rfl⟩
  simp only [List.filterMap_append, ht.did, ht.clock, hd]
  congr 1
  have hk : ∀ l : List Fact, l.filterMap (Fact.without fun _ => false) = l := by
    intro l
    rw [show (Fact.without fun _ => false) = some from funext keep_all, List.filterMap_some]
  simp [TObs.without, Op.without_none, hk]

theorem dispatch_leavesOut {m : Message} (hm : StillUsed A gone m) {os : List OpOption}
    (ho : ∀ h ∈ A.cfgs, gone h.name = true → takesPart os h = false) (n : Nat) :
    (Op.dispatch n m os).LeavesOut A gone := by
  refine ⟨ho, ?_⟩
  intro n' m' os' e
  cases e
  exact hm.consumed

theorem tick_leavesOut {os : List OpOption}
    (ho : ∀ h ∈ A.cfgs, gone h.name = true → takesPart os h = false) (n : Nat) (order : List HConfig) :
    (Op.tick n order os).LeavesOut A gone :=
  ⟨ho, fun _ _ _ e => by cases e⟩

/-! ## Interceptors, the executor, actions -/

theorem Twin.world {t t' : TSt W R} (ht : Twin gone t t') (w : W) :
    Twin gone { t with sys := { t.sys with w := w } } { t' with sys := { t'.sys with w := w } } :=
  ⟨by simp only [ht.sys]; rfl, ht.clock, ht.opts, ht.bound, ht.icept, ht.did⟩

theorem Twin.w {t t' : TSt W R} (ht : Twin gone t t') : t'.sys.w = t.sys.w := by rw [ht.sys]; rfl

theorem IProg.run_twin (wf : A.WF) (hg : ∀ n, gone n = true → n ∈ A.cfgs.map HConfig.name) (E : TEnv W)
    (os : List OpOption) (ho : ∀ h ∈ A.cfgs, gone h.name = true → takesPart os h = false) (p : IProg W) :
    p.Sends (StillUsed A gone) → ∀ t t' : TSt W R, Twin gone t t' → Reach A t.sys →
    Twin gone (p.run A E os t).1
      (p.run (A.without gone) (E.without gone) (os.filter (OpOption.about gone)) t').1 ∧
    (p.run (A.without gone) (E.without gone) (os.filter (OpOption.about gone)) t').2 = (p.run A E os t).2 := by
  induction p with
  | ret e => intro _ t t' ht _; exact ⟨ht, rfl⟩
  | panic v => intro _ t t' ht _; exact ⟨ht, rfl⟩
  | get k ih =>
    intro hp t t' ht hs
    unfold IProg.run
    rw [ht.w]
    exact ih _ (hp _) t t' ht hs
  | set w k ih =>
    intro hp t t' ht hs
    unfold IProg.run
    exact ih hp _ _ (ht.world w) (.world w hs)
  | next m k ih =>
    intro hp t t' ht hs
    unfold IProg.run
    obtain ⟨h1, h2⟩ := ht.engine (op' := .dispatch (E.without gone).fuel m (os.filter (OpOption.about gone)))
      wf hg hs (op := .dispatch E.fuel m os) trivial nofun (dispatch_leavesOut hp.1 ho _) rfl
    have hs1 : Reach A (t.engine A (.dispatch E.fuel m os)).1.sys :=
      .step (.dispatch E.fuel m os) hs trivial
    rcases hx : t.engine A (.dispatch E.fuel m os) with ⟨t1, o⟩
    rcases hy : t'.engine (A.without gone) (.dispatch (E.without gone).fuel m (os.filter (OpOption.about gone)))
      with ⟨t1', o'⟩
    rw [hx] at h1 h2 hs1
    rw [hy] at h1 h2
    simp only at h2
    subst h2
    cases o' with
    | done e => exact ih _ (hp.2 _) t1 t1' h1 hs1
    | panicked v => exact ih _ (hp.2 _) t1 t1' h1 hs1
    | running => exact ⟨h1, rfl⟩

theorem TSt.execute_twin (wf : A.WF) (hg : ∀ n, gone n = true → n ∈ A.cfgs.map HConfig.name) (E : TEnv W)
    {t t' : TSt W R} (ht : Twin gone t t') (hs : Reach A t.sys) (hl : t.LeavesOut A gone) (m : Message)
    (hm : StillUsed A gone m) :
    Twin gone (t.execute A E m).1 (t'.execute (A.without gone) (E.without gone) m).1 ∧
    (t'.execute (A.without gone) (E.without gone) m).2 = (t.execute A E m).2 := by
  unfold TSt.execute
  have h0 : Twin gone { t with did := t.did ++ [TObs.exec m t.bound.isSome] }
      { t' with did := t'.did ++ [TObs.exec m t'.bound.isSome] } := by
    refine ⟨ht.sys, ht.clock, ht.opts, ht.bound, ht.icept, ?_⟩
    simp only [List.filterMap_append, ht.did, ht.bound, Option.isSome_map]
    rfl
  simp only [ht.bound, ht.icept] at h0 ⊢
  cases hb : t.bound with
  | none =>
    rw [hb] at h0
    exact ⟨h0, rfl⟩
  | some os =>
    rw [hb] at h0
    simp only [Option.map_some] at h0 ⊢
    cases hi : t.icept with
    | some f =>
      rw [hi] at h0
      exact IProg.run_twin wf hg E os (hl.bound os hb) (f m) (hl.icept f hi m) _ _ h0 hs
    | none =>
      rw [hi] at h0
      exact h0.engine wf hg hs (op := .dispatch E.fuel m os) trivial nofun
        (dispatch_leavesOut hm (hl.bound os hb) _) rfl

theorem uses_without {m : Message} (hm : StillUsed A gone m) : (A.without gone).uses m.type = A.uses m.type := by
  unfold App.uses
  rw [Bool.eq_iff_iff]
  simp only [List.any_eq_true, Bool.or_eq_true, decide_eq_true_eq]
  constructor
  · rintro ⟨h, hh, hu⟩
    exact ⟨h, (List.mem_filter.1 hh).1, hu⟩
  · rintro ⟨h, hh, hu⟩
    cases hgn : gone h.name with
    | false => exact ⟨h, List.mem_filter.2 ⟨hh, by simp [hgn]⟩, hu⟩
    | true =>
      rcases hu with hu | hu
      · obtain ⟨x, hx, h1, h2⟩ := hm.consumed h hh hgn hu
        exact ⟨x, List.mem_filter.2 ⟨hx, by simp [h1]⟩, .inl h2⟩
      · obtain ⟨x, hx, h1, h2⟩ := hm.produced h hh hgn hu
        exact ⟨x, List.mem_filter.2 ⟨hx, by simp [h1]⟩, h2⟩

theorem Twin.say {t t' : TSt W R} (ht : Twin gone t t') {o o' : TObs}
    (h : o'.without (fun _ => false) = o.without gone) : Twin gone (t.say o) (t'.say o') := by
  refine ⟨ht.sys, ht.clock, ht.opts, ht.bound, ht.icept, ?_⟩
  simp only [TSt.say, List.filterMap_append, ht.did, List.filterMap_cons, List.filterMap_nil, h]

theorem TSt.check_twin (E : TEnv W) {x x' : TSt W R × Outcome (Option TErr)} (h1 : Twin gone x.1 x'.1)
    (h2 : x'.2 = x.2) :
    Twin gone (TSt.check E x).1 (TSt.check (E.without gone) x').1 ∧
      (TSt.check (E.without gone) x').2 = (TSt.check E x).2 := by
  obtain ⟨t, o⟩ := x
  obtain ⟨t', o'⟩ := x'
  simp only at h1 h2
  subst h2
  cases o' with
  | done e =>
    cases e with
    | none => exact ⟨h1, rfl⟩
    | some e => exact ⟨h1.say rfl, rfl⟩
  | panicked v => exact ⟨h1, rfl⟩
  | running => exact ⟨h1, rfl⟩

theorem TSt.LeavesOut.after {t u : TSt W R} {o : Outcome (Option TErr)} (hl : t.LeavesOut A gone)
    (ha : t.After u o) (ho : o ≠ .running) : u.LeavesOut A gone := by
  refine ⟨by rw [ha.opts]; exact hl.opts, ?_, by rw [ha.icept ho]; exact hl.icept⟩
  intro os hb
  rcases ha.bound ho with h | h
  · rw [h] at hb; exact hl.bound os hb
  · rw [h] at hb; cases hb

theorem Outcome.cases_running (o : Outcome (Option TErr)) : o = .running ∨ o ≠ .running := by
  cases o <;> simp

theorem Twin.leave {t t' : TSt W R} (ht : Twin gone t t') (prev : Option (Message → IProg W)) (had : Bool) :
    Twin gone (t.leave prev had) (t'.leave prev had) :=
  ⟨ht.sys, ht.clock, ht.opts, rfl, by simp only [TSt.leave, ht.icept], ht.did⟩

theorem Twin.announce {t t' : TSt W R} (ht : Twin gone t t') (a : Action W) :
    Twin gone (t.announce a) (t'.announce a) := ht.say rfl

theorem TSt.LeavesOut.say {t : TSt W R} (hl : t.LeavesOut A gone) (o : TObs) : (t.say o).LeavesOut A gone :=
  ⟨hl.opts, hl.bound, hl.icept⟩

theorem TSt.check_after (E : TEnv W) {t : TSt W R} {x : TSt W R × Outcome (Option TErr)}
    (h : t.After x.1 x.2) (hr : (TSt.check E x).2 ≠ .running) :
    t.After (TSt.check E x).1 (TSt.check E x).2 := by
  obtain ⟨u, o⟩ := x
  cases o with
  | done e =>
    cases e with
    | none => exact h
    | some e => exact ⟨h.clock, h.opts, fun _ => h.icept nofun, fun _ => h.bound nofun⟩
  | panicked v => exact h
  | running => exact absurd rfl hr

mutual
theorem Action.run_twin (wf : A.WF) (hg : ∀ n, gone n = true → n ∈ A.cfgs.map HConfig.name) (E : TEnv W)
    (hE : E.Fair A) : (a : Action W) → a.Sends (StillUsed A gone) → ∀ (extra : List OpOption), Watches extra →
    ∀ (t t' : TSt W R), Twin gone t t' → Reach A t.sys → t.LeavesOut A gone →
    Twin gone (a.run A E extra t).1 (a.run (A.without gone) (E.without gone) extra t').1 ∧
    (a.run (A.without gone) (E.without gone) extra t').2 = (a.run A E extra t).2
  | .dispatch m, hp, extra, hx, t, t', ht, hs, hl => by
    have hm : StillUsed A gone m := by unfold Action.Sends at hp; exact hp
    unfold Action.run
    rw [uses_without hm, ht.actOpts hx]
    split
    · exact ht.engine wf hg hs (op := .dispatch E.fuel m (t.actOpts extra)) trivial nofun
        (dispatch_leavesOut hm (hl.actOpts hx) _) rfl
    · exact ⟨ht, rfl⟩
  | .advance desc step, _, extra, hx, t, t', ht, hs, hl => by
    unfold Action.run
    rw [ht.actOpts hx, show step t'.clock t'.sys.w = step t.clock t.sys.w from by rw [ht.clock, ht.w]]
    have hlo := hl.actOpts hx
    generalize t.actOpts extra = os at hlo ⊢
    rcases step t.clock t.sys.w with ⟨w, v | now⟩
    · exact ⟨ht.world w, rfl⟩
    · simp only
      by_cases hn : now < t.clock
      · rw [if_pos hn, if_pos (by rw [ht.clock]; exact hn)]
        exact ⟨ht.world w, rfl⟩
      · rw [if_neg hn, if_neg (by rw [ht.clock]; exact hn)]
        have h0 : Twin gone { t with sys := { t.sys with w := w }, clock := now }
            { t' with sys := { t'.sys with w := w }, clock := now } :=
          ⟨(ht.world w).sys, rfl, ht.opts, ht.bound, ht.icept, ht.did⟩
        have ho : ∀ h ∈ A.cfgs, gone h.name = true → takesPart (os ++ [.currentTime now]) h = false := by
          intro h hm hgn
          rw [← hlo h hm hgn]
          refine takesPart_congr ?_ h
          simp [OpOption.enables]
        refine h0.engine wf hg (.world w hs) (op := .tick E.fuel (E.order w) (os ++ [.currentTime now]))
          (hE w) nofun (tick_leavesOut ho _ _) ?_
        simp only [Op.without, TEnv.without, List.filter_append]
        rfl
  | .call fn ic, hp, extra, hx, t, t', ht, hs, hl => by
    unfold Action.Sends at hp
    unfold Action.run
    have h0 : Twin gone { t with bound := some (t.actOpts extra), icept := ic.or t.icept }
        { t' with bound := some (t'.actOpts extra), icept := ic.or t'.icept } :=
      ⟨ht.sys, ht.clock, ht.opts, by simp only [ht.actOpts hx]; rfl, by simp only [ht.icept], ht.did⟩
    have hl0 : TSt.LeavesOut A gone { t with bound := some (t.actOpts extra), icept := ic.or t.icept } := by
      refine ⟨hl.opts, ?_, ?_⟩
      · intro os he
        cases he
        exact hl.actOpts hx
      · cases ic with
        | none => exact hl.icept
        | some f => exact hp.2
    obtain ⟨h1, h2⟩ := fn.run_twin wf hg E hE hp.1 _ _ h0 hs hl0
    rcases hy : fn.run A E { t with bound := some (t.actOpts extra), icept := ic.or t.icept } with ⟨u, o⟩
    rcases hy' : fn.run (A.without gone) (E.without gone)
      { t' with bound := some (t'.actOpts extra), icept := ic.or t'.icept } with ⟨u', o'⟩
    rw [hy] at h1 h2
    rw [hy'] at h1 h2
    simp only at h1 h2
    subst h2
    simp only [ht.icept]
    cases o' with
    | done e => exact ⟨h1.leave _ _, rfl⟩
    | panicked v => exact ⟨h1.leave _ _, rfl⟩
    | running => exact ⟨h1, rfl⟩
theorem CProg.run_twin (wf : A.WF) (hg : ∀ n, gone n = true → n ∈ A.cfgs.map HConfig.name) (E : TEnv W)
    (hE : E.Fair A) : (p : CProg W) → p.Sends (StillUsed A gone) →
    ∀ (t t' : TSt W R), Twin gone t t' → Reach A t.sys → t.LeavesOut A gone →
    Twin gone (p.run A E t).1 (p.run (A.without gone) (E.without gone) t').1 ∧
    (p.run (A.without gone) (E.without gone) t').2 = (p.run A E t).2
  | .ret, _, t, t', ht, _, _ => by unfold CProg.run; exact ⟨ht, rfl⟩
  | .panic v, _, t, t', ht, _, _ => by unfold CProg.run; exact ⟨ht, rfl⟩
  | .get k, hp, t, t', ht, hs, hl => by
    unfold CProg.Sends at hp
    unfold CProg.run
    rw [ht.w]
    exact (k t.sys.w).run_twin wf hg E hE (hp _) t t' ht hs hl
  | .set w k, hp, t, t', ht, hs, hl => by
    unfold CProg.Sends at hp
    unfold CProg.run
    exact k.run_twin wf hg E hE hp _ _ (ht.world w) (.world w hs) ⟨hl.opts, hl.bound, hl.icept⟩
  | .exec m k, hp, t, t', ht, hs, hl => by
    unfold CProg.Sends at hp
    unfold CProg.run
    obtain ⟨h1, h2⟩ := TSt.execute_twin wf hg E ht hs hl m hp.1
    have hs1 : Reach A (t.execute A E m).1.sys := by
      obtain ⟨l, -, hh⟩ := t.execute_hist A E m
      exact hh.reach hs
    have ha := (t.execute_same A E m).1
    rcases hy : t.execute A E m with ⟨u, o⟩
    rcases hy' : t'.execute (A.without gone) (E.without gone) m with ⟨u', o'⟩
    rw [hy] at h1 h2 hs1 ha
    rw [hy'] at h1 h2
    simp only at h1 h2 hs1
    subst h2
    cases o' with
    | done e => exact (k (.ok e)).run_twin wf hg E hE (hp.2 _) u u' h1 hs1 (hl.after (ha.after (.done e)) nofun)
    | panicked v => exact (k (.error v)).run_twin wf hg E hE (hp.2 _) u u' h1 hs1 (hl.after (ha.after (.panicked v)) nofun)
    | running => exact ⟨h1, rfl⟩
  | .act a k, hp, t, t', ht, hs, hl => by
    unfold CProg.Sends at hp
    unfold CProg.run
    obtain ⟨h0, h00⟩ := a.run_twin wf hg E hE hp.1 [] nofun _ _ (ht.announce a) hs (hl.say _)
    obtain ⟨h1, h2⟩ := TSt.check_twin E h0 h00
    have hs1 : Reach A (TSt.check E (a.run A E [] (t.announce a))).1.sys := by
      obtain ⟨l, -, hh⟩ := a.run_hist A E hE [] (t.announce a)
      obtain ⟨post, -, e, -⟩ := TSt.check_spec E (a.run A E [] (t.announce a))
      rw [e]
      exact hh.reach hs
    have ha : (TSt.check E (a.run A E [] (t.announce a))).2 ≠ .running →
        (t.announce a).After (TSt.check E (a.run A E [] (t.announce a))).1
          (TSt.check E (a.run A E [] (t.announce a))).2 :=
      TSt.check_after E (a.run_after A E [] (t.announce a))
    rcases hy : TSt.check E (a.run A E [] (t.announce a)) with ⟨u, o⟩
    rcases hy' : TSt.check (E.without gone) (a.run (A.without gone) (E.without gone) [] (t'.announce a))
      with ⟨u', o'⟩
    rw [hy] at h1 h2 hs1 ha
    rw [hy'] at h1 h2
    simp only at h1 h2 hs1
    subst h2
    cases o' with
    | done e =>
      exact (k (.ok e)).run_twin wf hg E hE (hp.2 _) u u' h1 hs1 ((hl.say _).after (ha nofun) nofun)
    | panicked v =>
      exact (k (.error v)).run_twin wf hg E hE (hp.2 _) u u' h1 hs1 ((hl.say _).after (ha nofun) nofun)
    | running => exact ⟨h1, rfl⟩
end

/-! ## Verdicts -/

end

/-- The types of messages that expectations in this tree ask for by name. -/
inductive Expectation.Names : Expectation → MType → Prop where
  | message (m : Message) : Names (.message m) m.type
  | type (t : MType) : Names (.type t) t
  | matching {T : MatchType} {fn : List Message → Message → MatchRes} {loc : String} {ex : Bool}
      (h : T.iface = none) : Names (.matching T fn loc ex) T.type
  | composite {k : CompKind} {es : List Expectation} {e : Expectation} {t : MType} (he : e ∈ es)
      (h : Names e t) : Names (.composite k es) t
  | not {e : Expectation} {t : MType} (h : Names e t) : Names (.not e) t
  | repeatedly {desc : String} {n : Nat} {f : Nat → Expectation} {i : Nat} {t : MType} (h : Names (f i) t) :
      Names (.repeatedly desc n f) t

mutual
/-- The verdicts of the expectations in this tree that are written by the user are the same with
one application and facts, and another one. -/
def Expectation.Unaware (s s' : PScope) (fs fs' : List Fact) : Expectation → Prop
  | .message _ | .type _ | .matching .. | .nil => True
  | .composite _ es => Expectation.AllUnaware s s' fs fs' es
  | .not e => e.Unaware s s' fs fs'
  | .repeatedly _ _ f => ∀ i, (f i).Unaware s s' fs fs'
  | .satisfy d fn => (Expectation.satisfy d fn).verdict s' fs' = (Expectation.satisfy d fn).verdict s fs
  | .custom d mk => (Expectation.custom d mk).verdict s' fs' = (Expectation.custom d mk).verdict s fs
/-- The same, for all of the expectations. -/
def Expectation.AllUnaware (s s' : PScope) (fs fs' : List Fact) : List Expectation → Prop
  | [] => True
  | e :: es => e.Unaware s s' fs fs' ∧ Expectation.AllUnaware s s' fs fs' es
end

/-- The verdict is the same, or a refusal: and if `strict`, only if there was one before. -/
def Verdict.Same (strict : Prop) (v v' : Verdict) : Prop :=
  v' = v ∨ ((∃ r, v' = .refused r) ∧ (strict → ∃ r, v = .refused r))

/-- The same for all of the verdicts, in order. -/
inductive AllSame (strict : Prop) : List Verdict → List Verdict → Prop where
  | nil : AllSame strict [] []
  | cons {v v' : Verdict} {vs vs' : List Verdict} (h : Verdict.Same strict v v') (hs : AllSame strict vs vs') :
      AllSame strict (v :: vs) (v' :: vs')

theorem Verdict.says_same {v v' : Verdict} {P P' : Prop} (h : v.says P) (h' : v'.says P') (hP : P ↔ P') :
    v' = v := by
  rcases h with ⟨hp, rfl⟩ | ⟨hp, rfl⟩ <;> rcases h' with ⟨hp', rfl⟩ | ⟨hp', rfl⟩
  · rfl
  · exact absurd (hP.1 hp) hp'
  · exact absurd (hP.2 hp') hp
  · rfl

theorem together_same {strict : Prop} (f : List Bool → Bool) {vs vs' : List Verdict}
    (h : AllSame strict vs vs') : Verdict.Same strict (together f vs) (together f vs') := by
  have key : vs' = vs ∨ ((∃ r, vs'.findSome? Verdict.refusal = some r) ∧
      (strict → ∃ r, vs.findSome? Verdict.refusal = some r)) := by
    induction h with
    | nil => exact .inl rfl
    | @cons v v' l l' hv _ ih =>
      rcases hv with rfl | ⟨⟨r, rfl⟩, hr⟩
      · rcases ih with rfl | ⟨⟨r, h1⟩, h2⟩
        · exact .inl rfl
        · refine .inr ⟨?_, ?_⟩
          · rw [List.findSome?_cons]
            cases hx : v'.refusal with
            | none => exact ⟨r, h1⟩
            | some x => exact ⟨x, rfl⟩
          · intro hs
            rw [List.findSome?_cons]
            cases hx : v'.refusal with
            | none => exact h2 hs
            | some x => exact ⟨x, rfl⟩
      · refine .inr ⟨⟨r, rfl⟩, ?_⟩
        intro hs
        obtain ⟨x, rfl⟩ := hr hs
        exact ⟨x, rfl⟩
  rcases key with rfl | ⟨⟨r, h1⟩, h2⟩
  · exact .inl rfl
  · refine .inr ⟨⟨r, by unfold together; rw [h1]⟩, ?_⟩
    intro hs
    obtain ⟨x, hx⟩ := h2 hs
    exact ⟨x, by unfold together; rw [hx]⟩

theorem Verdict.Same.opposite {strict : Prop} {v v' : Verdict} (h : Verdict.Same strict v v') :
    Verdict.Same strict v.opposite v'.opposite := by
  rcases h with rfl | ⟨⟨r, rfl⟩, hr⟩
  · exact .inl rfl
  · refine .inr ⟨⟨r, rfl⟩, ?_⟩
    intro hs
    obtain ⟨x, rfl⟩ := hr hs
    exact ⟨x, rfl⟩

theorem iteration_refused (i : Nat) (r : BuildErr) : ∃ x, (Verdict.refused r).iteration i = .refused x := by
  cases r <;> exact ⟨_, rfl⟩

theorem Verdict.Same.iteration {strict : Prop} {v v' : Verdict} (h : Verdict.Same strict v v') (i : Nat) :
    Verdict.Same strict (v.iteration i) (v'.iteration i) := by
  rcases h with rfl | ⟨⟨r, rfl⟩, hr⟩
  · exact .inl rfl
  · refine .inr ⟨iteration_refused i r, ?_⟩
    intro hs
    obtain ⟨x, rfl⟩ := hr hs
    exact iteration_refused i x

theorem leaf_same {strict : Prop} {v v' : Verdict} {G G' P : Prop} (hG : G' → G) (hs : strict → G → G')
    (h : (G → v.says P) ∧ (¬G → ∃ r, v = .refused r)) (h' : (G' → v'.says P) ∧ (¬G' → ∃ r, v' = .refused r)) :
    Verdict.Same strict v v' := by
  by_cases g' : G'
  · exact .inl (Verdict.says_same (h.1 (hG g')) (h'.1 g') .rfl)
  · exact .inr ⟨h'.2 g', fun k => h.2 (fun g => g' (hs k g))⟩

theorem possible_mono {s s' : PScope} {t : MType} (ho : s'.opts = s.opts) (hc : ∀ h ∈ s'.cfgs, h ∈ s.cfgs)
    (h : Possible s' t) : Possible s t := by
  unfold Possible at h ⊢
  rw [ho] at h
  rcases h with ⟨x, hx, ht⟩ | ⟨hm, x, hx, ht⟩
  · exact .inl ⟨x, hc x hx, ht⟩
  · exact .inr ⟨hm, x, hc x hx, ht⟩

section
variable {s s' : PScope} {fs fs' : List Fact} {strict : Prop}

mutual
theorem verdict_same (ho : s'.opts = s.opts) (he : s'.goEq = s.goEq) (hc : ∀ h ∈ s'.cfgs, h ∈ s.cfgs)
    (hf : countedIn s.opts.matchDispatch fs' = countedIn s.opts.matchDispatch fs) :
    (e : Expectation) → e.Unaware s s' fs fs' →
    (strict → ∀ t, e.Names t → Possible s t → Possible s' t) →
    Verdict.Same strict (e.verdict s fs) (e.verdict s' fs')
  | .message m, _, hn => by
    have h := C44_message s fs m
    have h' := C44_message s' fs' m
    rw [ho, hf, show s'.same = s.same from by unfold PScope.same; rw [ho, he]] at h'
    exact leaf_same (possible_mono ho hc) (fun k => hn k _ (.message m)) h h'
  | .type t, _, hn => by
    have h := C45_type s fs t
    have h' := C45_type s' fs' t
    rw [ho, hf] at h'
    exact leaf_same (possible_mono ho hc) (fun k => hn k _ (.type t)) h h'
  | .matching T fn loc false, _, hn => by
    have h := C46_matching s fs T fn loc
    have h' := C46_matching s' fs' T fn loc
    rw [ho, hf] at h'
    exact leaf_same (Or.imp_right (possible_mono ho hc))
      (fun k g => g.elim .inl fun g => (Classical.em (T.iface = none)).elim
        (fun hi => .inr (hn k _ (.matching hi) g)) .inl)
      ⟨h.1, fun hx => h.2 (Classical.not_not.1 fun hi => hx (.inl hi)) fun hp => hx (.inr hp)⟩
      ⟨h'.1, fun hx => h'.2 (Classical.not_not.1 fun hi => hx (.inl hi)) fun hp => hx (.inr hp)⟩
  | .matching T fn loc true, _, hn => by
    have h := C47_only_matching s fs T fn loc
    have h' := C47_only_matching s' fs' T fn loc
    rw [ho, hf] at h'
    exact leaf_same (Or.imp_right (possible_mono ho hc))
      (fun k g => g.elim .inl fun g => (Classical.em (T.iface = none)).elim
        (fun hi => .inr (hn k _ (.matching hi) g)) .inl)
      ⟨h.1, fun hx => h.2 (Classical.not_not.1 fun hi => hx (.inl hi)) fun hp => hx (.inr hp)⟩
      ⟨h'.1, fun hx => h'.2 (Classical.not_not.1 fun hi => hx (.inl hi)) fun hp => hx (.inr hp)⟩
  | .composite k es, hu, hn => by
    rw [verdict_composite, verdict_composite]
    unfold Expectation.Unaware at hu
    exact together_same _ (verdicts_same ho he hc hf es hu (fun k e hm t ht => hn k t (.composite hm ht)))
  | .not e, hu, hn => by
    rw [verdict_not, verdict_not]
    unfold Expectation.Unaware at hu
    exact (verdict_same ho he hc hf e hu (fun k t ht => hn k t (.not ht))).opposite
  | .repeatedly d n f, hu, hn => by
    rw [verdict_repeatedly, verdict_repeatedly]
    unfold Expectation.Unaware at hu
    refine together_same _ ?_
    have key : ∀ i, Verdict.Same strict (iterVerdict s fs f i) (iterVerdict s' fs' f i) := by
      intro i
      unfold iterVerdict
      split
      · exact .inl rfl
      · exact (verdict_same ho he hc hf (f i) (hu i) (fun k t ht => hn k t (.repeatedly ht))).iteration i
    induction List.range n with
    | nil => exact .nil
    | cons i l ih => exact .cons (key i) ih
  | .satisfy d fn, hu, _ => by
    unfold Expectation.Unaware at hu
    exact .inl hu
  | .custom d mk, hu, _ => by
    unfold Expectation.Unaware at hu
    exact .inl hu
  | .nil, _, _ => .inl rfl
theorem verdicts_same (ho : s'.opts = s.opts) (he : s'.goEq = s.goEq) (hc : ∀ h ∈ s'.cfgs, h ∈ s.cfgs)
    (hf : countedIn s.opts.matchDispatch fs' = countedIn s.opts.matchDispatch fs) :
    (es : List Expectation) → Expectation.AllUnaware s s' fs fs' es →
    (strict → ∀ e ∈ es, ∀ t, e.Names t → Possible s t → Possible s' t) →
    AllSame strict (es.map (Expectation.verdict s fs)) (es.map (Expectation.verdict s' fs'))
  | [], _, _ => .nil
  | e :: es, hu, hn => by
    unfold Expectation.AllUnaware at hu
    exact .cons (verdict_same ho he hc hf e hu.1 (fun k => hn k e (by simp)))
      (verdicts_same ho he hc hf es hu.2 (fun k x hx => hn k x (by simp [hx])))
end
end

/-! ## What predicates are told -/

theorem counts_without (md : Bool) (gone : String → Bool) (f : Fact) :
    (f.without gone).bind (Fact.counts md) = f.counts md := by
  cases f <;> simp only [Fact.without] <;> try rfl
  all_goals
    split
    · simp [Fact.counts, Fact.created, Fact.produced]
    · rfl

theorem countedIn_without (md : Bool) (gone : String → Bool) (fs : List Fact) :
    countedIn md (fs.filterMap (Fact.without gone)) = countedIn md fs := by
  unfold countedIn
  rw [List.filterMap_filterMap]
  congr 2
  funext f
  exact counts_without md gone f

theorem observers_without (gone : String → Bool) (op : Op) :
    (op.without gone).opts.filterMap OpOption.observerOf = op.opts.filterMap OpOption.observerOf := by
  have key : ∀ os : List OpOption, (os.filter (OpOption.about gone)).filterMap OpOption.observerOf =
      os.filterMap OpOption.observerOf := by
    intro os
    rw [List.filterMap_filter]
    congr 1
    funext o
    cases o with
    | enableHandler n b => split <;> rfl
    | _ => rfl
  cases op with
  | reset => rfl
  | dispatch n m os => exact key os
  | tick n order os => exact key os

theorem filterMap_copies (g : Fact → Option Fact) (l : List Nat) (fs : List Fact) :
    (fs.filterMap g).flatMap (fun f => l.map fun _ => f) =
      (fs.flatMap (fun f => l.map fun _ => f)).filterMap g := by
  induction fs with
  | nil => rfl
  | cons f fs ih =>
    rw [List.flatMap_cons, List.filterMap_append, ← ih, List.filterMap_cons]
    cases hf : g f with
    | none => simp [hf, Function.comp_def]
    | some f' => simp [hf, Function.comp_def]

theorem told_without (gone : String → Bool) (k : Nat) (o : TObs) :
    (match o.without gone with | some o' => TObs.told k o' | none => []) =
      (TObs.told k o).filterMap (Fact.without gone) := by
  cases o with
  | engine c op fs =>
    simp only [TObs.without, TObs.told, observers_without]
    exact filterMap_copies _ _ _
  | _ => rfl

theorem toldIn_without (gone : String → Bool) (k : Nat) (l : List TObs) :
    toldIn k (l.filterMap (TObs.without gone)) = (toldIn k l).filterMap (Fact.without gone) := by
  unfold toldIn
  induction l with
  | nil => rfl
  | cons o l ih =>
    rw [List.flatMap_cons, List.filterMap_append, ← ih, ← told_without gone k o, List.filterMap_cons]
    cases o.without gone with
    | none => rfl
    | some o' => rfl

theorem filterMap_keep (fs : List Fact) : fs.filterMap (Fact.without fun _ => false) = fs := by
  rw [show (Fact.without fun _ => false) = some from funext keep_all, List.filterMap_some]

section
variable {A : App W R} {gone : String → Bool}

theorem TEnv.without_fair {E : TEnv W} (hE : E.Fair A) : (E.without gone).Fair (A.without gone) :=
  fun w => (hE w).filter _

/-- What an observer is told during an action. -/
theorem Twin.told {t t' u u' : TSt W R} (h : Twin gone t t') (h1 : Twin gone u u') {l l' : List TObs}
    (hl : u.did = t.did ++ l) (hl' : u'.did = t'.did ++ l') (k : Nat) :
    toldIn k l' = (toldIn k l).filterMap (Fact.without gone) := by
  have hd := h1.did
  rw [hl, hl', List.filterMap_append, List.filterMap_append, h.did] at hd
  have hd := List.append_cancel_left hd
  rw [← filterMap_keep (toldIn k l'), ← toldIn_without, hd, toldIn_without]

/-- **C118** for verdicts: an expectation, given the application and the facts without mention of the
handlers that are left out, has the same verdict, unless its predicate can not be made because
none of the remaining handlers uses the type of message it asks for.  If they do use these types,
it has the same verdict, or is refused in both cases. -/
theorem C118_verdict (gone : String → Bool) (s : PScope) (fs : List Fact) (x : Expectation)
    (hu : x.Unaware s (s.without gone) fs (fs.filterMap (Fact.without gone))) :
    (x.verdict (s.without gone) (fs.filterMap (Fact.without gone)) = x.verdict s fs ∨
      ∃ r, x.verdict (s.without gone) (fs.filterMap (Fact.without gone)) = .refused r) ∧
    ((∀ t, x.Names t → Possible s t → Possible (s.without gone) t) →
      ∀ b, x.verdict (s.without gone) (fs.filterMap (Fact.without gone)) = .decided b ↔
        x.verdict s fs = .decided b) := by
  have hc : ∀ h ∈ (s.without gone).cfgs, h ∈ s.cfgs := fun h hh => (List.mem_filter.1 hh).1
  constructor
  · rcases verdict_same (s := s) (s' := s.without gone) (strict := False) rfl rfl hc (countedIn_without _ gone fs) x hu nofun with h | h
    · exact .inl h
    · exact .inr h.1
  · intro hn b
    rcases verdict_same (s := s) (s' := s.without gone) (strict := True) rfl rfl hc (countedIn_without _ gone fs) x hu (fun _ => hn)
      with h | ⟨⟨r, h1⟩, h2⟩
    · rw [h]
    · obtain ⟨r', h2⟩ := h2 trivial
      rw [h1, h2]
      simp

/-- A test with a reachable engine that leaves these handlers out stays one. -/
theorem C118_kept (E : TEnv W) (hE : E.Fair A) {t : TSt W R} (hs : Reach A t.sys) (hl : t.LeavesOut A gone)
    (a : Action W) :
    ((t.prepare A E a).2 ≠ .running →
      Reach A (t.prepare A E a).1.sys ∧ (t.prepare A E a).1.LeavesOut A gone) ∧
    ∀ {P : Type} (S : PScope) (X : Expecting P) (k : Nat), (t.expect A E S X k a).2.2 ≠ .running →
      Reach A (t.expect A E S X k a).1.sys ∧ (t.expect A E S X k a).1.LeavesOut A gone := by
  constructor
  · intro hr
    obtain ⟨l, -, hh⟩ := t.prepare_hist hE a
    exact ⟨hh.reach hs, (hl.say _).after (TSt.check_after E (a.run_after A E [] (t.announce a)) hr) hr⟩
  · intro P S X k hr
    obtain ⟨l, -, hh⟩ := t.expect_hist hE S X k a hr
    refine ⟨hh.reach hs, ?_⟩
    rcases t.expect_state A E S X k a hr with ⟨post, -, e⟩ | ⟨c, post, -, hr', e⟩
    · rw [e]
      exact ⟨hl.opts, hl.bound, hl.icept⟩
    · rw [e]
      have h := (hl.say (.log (a.expectLine c))).after (a.run_after A E [.observer k] _) hr'
      exact ⟨h.opts, h.bound, h.icept⟩

/-- **C118** for `Prepare()`: it ends the same, and the engine, the clock, the executor and the record
of the test are the same but for mention of the handlers that were left out. -/
theorem C118_prepare (wf : A.WF) (hg : ∀ n, gone n = true → n ∈ A.cfgs.map HConfig.name) (E : TEnv W)
    (hE : E.Fair A) {t t' : TSt W R} (ht : Twin gone t t') (hs : Reach A t.sys) (hl : t.LeavesOut A gone)
    (a : Action W) (ha : a.Sends (StillUsed A gone)) :
    Twin gone (t.prepare A E a).1 (t'.prepare (A.without gone) (E.without gone) a).1 ∧
      (t'.prepare (A.without gone) (E.without gone) a).2 = (t.prepare A E a).2 := by
  obtain ⟨h1, h2⟩ := a.run_twin wf hg E hE ha [] nofun _ _ (ht.announce a) hs (hl.say _)
  exact TSt.check_twin E h1 h2

theorem verdict_parts {s s' : PScope} {fs fs' : List Fact} {p p' : Pred}
    (h : p'.verdict s' fs' = p.verdict s fs) :
    (p'.observe s' fs').done.2 = (p.observe s fs).done.2 ∧
    ((p.observe s fs).done.2 = none → (p'.observe s' fs').done.1.ok = (p.observe s fs).done.1.ok) := by
  unfold Pred.verdict at h
  rcases hx : (p.observe s fs).done with ⟨q, _ | v⟩ <;> rcases hy : (p'.observe s' fs').done with ⟨q', _ | v'⟩ <;>
    rw [hx, hy] at h
  · exact ⟨rfl, fun _ => Verdict.decided.inj h⟩
  · cases h
  · cases h
  · cases h; exact ⟨rfl, nofun⟩

/-- **C118** for `Expect()`: if the predicate can be made for the handlers that remain, then `Expect()`
passes, fails or panics the same, the predicate is told the same facts but for mention of the
handlers that were left out, and so on. -/
theorem C118_expect (wf : A.WF) (hg : ∀ n, gone n = true → n ∈ A.cfgs.map HConfig.name) (E : TEnv W)
    (hE : E.Fair A) {t t' : TSt W R} (ht : Twin gone t t') (hs : Reach A t.sys) (hl : t.LeavesOut A gone)
    (a : Action W) (ha : a.Sends (StillUsed A gone)) (S : PScope) (c c' : RCtx) (x : Expectation) (k : Nat)
    (hb : x.buildable (a.scope (S.without gone)) = true)
    (hu : ∀ fs, x.Unaware (a.scope S) (a.scope (S.without gone)) fs (fs.filterMap (Fact.without gone))) :
    Twin gone (t.expect A E S (x.impl c) k a).1
      (t'.expect (A.without gone) (E.without gone) (S.without gone) (x.impl c') k a).1 ∧
    notified (t'.expect (A.without gone) (E.without gone) (S.without gone) (x.impl c') k a).2.1 =
      (notified (t.expect A E S (x.impl c) k a).2.1).filterMap (Fact.without gone) ∧
    (t'.expect (A.without gone) (E.without gone) (S.without gone) (x.impl c') k a).2.2 =
      (t.expect A E S (x.impl c) k a).2.2 := by
  have hv : ∀ fs, x.verdict (a.scope (S.without gone)) (fs.filterMap (Fact.without gone)) = x.verdict (a.scope S) fs ∨
      ∃ r, x.verdict (a.scope (S.without gone)) (fs.filterMap (Fact.without gone)) = .refused r :=
    fun fs => (C118_verdict gone (a.scope S) fs x (hu fs)).1
  obtain ⟨p', hp'⟩ : ∃ p', (x.build (a.scope (S.without gone))).2 = .ok p' := by
    unfold Expectation.buildable at hb
    rcases hx : (x.build (a.scope (S.without gone))).2 with e | p
    · rw [hx] at hb; cases hb
    · exact ⟨p, rfl⟩
  have hnr : ∀ (fs : List Fact) (p : Pred) (s : PScope) (r : BuildErr), p.verdict s fs ≠ .refused r := by
    intro fs p s r h
    unfold Pred.verdict at h
    split at h <;> cases h
  have hv' : ∀ fs, p'.verdict (a.scope (S.without gone)) (fs.filterMap (Fact.without gone)) = x.verdict (a.scope S) fs := by
    intro fs
    have h := hv fs
    rw [show x.verdict (a.scope (S.without gone)) (fs.filterMap (Fact.without gone)) =
      p'.verdict (a.scope (S.without gone)) (fs.filterMap (Fact.without gone)) from by
        unfold Expectation.verdict; rw [hp']; rfl] at h
    rcases h with h | ⟨r, h⟩
    · exact h
    · exact absurd h (hnr _ _ _ _)
  obtain ⟨p, hp⟩ : ∃ p, (x.build (a.scope S)).2 = .ok p := by
    rcases hx : (x.build (a.scope S)).2 with e | p
    · have h := hv' []
      unfold Expectation.verdict at h
      rw [hx] at h
      exact absurd h (hnr _ _ _ _)
    · exact ⟨p, rfl⟩
  have hv'' : ∀ fs, p'.verdict (a.scope (S.without gone)) (fs.filterMap (Fact.without gone)) = p.verdict (a.scope S) fs := by
    intro fs
    rw [hv']
    unfold Expectation.verdict
    rw [hp]
    rfl
  have hcap : ∀ c, (x.impl c).caption = .ok x.caption := by
    intro c
    cases x <;> first | rfl | (simp [Expectation.build] at hp)
  have hB : (x.impl c).build (a.scope S) = .ok p := by simp only [Expectation.impl, hp]
  have hB' : (x.impl c').build (a.scope (S.without gone)) = .ok p' := by simp only [Expectation.impl, hp']
  have h0 : Twin gone (t.say (.log (a.expectLine x.caption))) (t'.say (.log (a.expectLine x.caption))) := ht.say rfl
  obtain ⟨h1, h2⟩ := a.run_twin wf hg E hE ha [.observer k] (by intro o ho; simp at ho; exact ⟨k, ho⟩) _ _ h0 hs
    (hl.say _)
  obtain ⟨l, hd, -⟩ := a.run_hist A E hE [.observer k] (t.say (.log (a.expectLine x.caption)))
  obtain ⟨l', hd', -⟩ := a.run_hist (A.without gone) (E.without gone) (TEnv.without_fair hE) [.observer k]
    (t'.say (.log (a.expectLine x.caption)))
  have htold := h0.told h1 hd hd' k
  unfold TSt.expect
  simp only [hcap, hB, hB']
  generalize t.say (.log (a.expectLine x.caption)) = t0 at *
  generalize t'.say (.log (a.expectLine x.caption)) = t0' at *
  rcases hx : a.run A E [.observer k] t0 with ⟨u, o⟩
  rcases hx' : a.run (A.without gone) (E.without gone) [.observer k] t0' with ⟨u', o'⟩
  rw [hx] at h1 h2 hd
  rw [hx'] at h1 h2 hd'
  simp only at h1 h2 hd hd'
  subst h2
  simp only [hd, hd', List.drop_left, htold]
  generalize toldIn k l = fs
  obtain ⟨q1, q2⟩ := verdict_parts (hv'' fs)
  have hn : ∀ (fs : List Fact) (m : List ECall), notified (.build :: fs.map .notify ++ m) = fs ++ notified m := by
    intro fs m
    rw [List.cons_append]
    simp only [notified, List.filterMap_cons, List.filterMap_append]
    congr 1
    exact notified_map fs
  have hn0 : ∀ (fs : List Fact), notified (.build :: fs.map .notify) = fs := by
    intro fs
    have h := hn fs []
    rw [List.append_nil] at h
    rw [h]
    exact List.append_nil fs
  have hnn : ∀ m, notified m = [] → notified (.build :: (fs.filterMap (Fact.without gone)).map .notify ++ m) =
      (notified (.build :: fs.map .notify ++ m)).filterMap (Fact.without gone) := by
    intro m hm
    rw [hn, hn, hm, List.append_nil, List.append_nil]
  have hfin : (x.impl c).done (fs.foldl (fun p f => (x.impl c).notify (a.scope S) f p) p) =
      ((p.observe (a.scope S) fs).done.1, (p.observe (a.scope S) fs).done.2.map .user) := rfl
  have hfin' : (x.impl c').done ((fs.filterMap (Fact.without gone)).foldl
      (fun p f => (x.impl c').notify (a.scope (S.without gone)) f p) p') =
      ((p'.observe (a.scope (S.without gone)) (fs.filterMap (Fact.without gone))).done.1,
        (p'.observe (a.scope (S.without gone)) (fs.filterMap (Fact.without gone))).done.2.map .user) := rfl
  rw [hfin, hfin', q1]
  generalize (p'.observe (a.scope (S.without gone)) (fs.filterMap (Fact.without gone))).done.1 = y' at *
  revert q2
  rcases (p.observe (a.scope S) fs).done with ⟨y, _ | v⟩
  · intro q2
    have q2 := q2 rfl
    cases o' with
    | running => exact ⟨h1, by simp only [hn0], rfl⟩
    | panicked w => exact ⟨h1, hnn _ rfl, rfl⟩
    | done e =>
      cases e with
      | some e => exact ⟨h1.say rfl, hnn _ rfl, rfl⟩
      | none =>
        simp only [Option.map_none]
        have hk : (x.impl c').ok y' = (x.impl c).ok y := congrArg Except.ok q2
        rw [hk]
        unfold TSt.conclude
        simp only [Expectation.impl]
        cases y.ok with
        | true => exact ⟨h1.say rfl, hnn _ rfl, rfl⟩
        | false => exact ⟨(h1.say rfl).say rfl, hnn _ rfl, rfl⟩
  · intro _
    cases o' with
    | running => exact ⟨h1, by simp only [hn0], rfl⟩
    | panicked w => exact ⟨h1, hnn _ rfl, rfl⟩
    | done e => exact ⟨h1, hnn _ rfl, rfl⟩

/-- The statement gives the engine only messages that the handlers that remain use if the others do; and
if it has an expectation, its predicate can be made for the handlers that remain, and the parts of
it that are written by the user ignore the others. -/
def TStep.Fits (A : App W R) (gone : String → Bool) (S : PScope) : TStep W → Prop
  | .prepare a => a.Sends (StillUsed A gone)
  | .expect _ x a => a.Sends (StillUsed A gone) ∧ x.buildable (a.scope (S.without gone)) = true ∧
      ∀ fs, x.Unaware (a.scope S) (a.scope (S.without gone)) fs (fs.filterMap (Fact.without gone))

theorem steps_twin (wf : A.WF) (hg : ∀ n, gone n = true → n ∈ A.cfgs.map HConfig.name) (E : TEnv W)
    (hE : E.Fair A) (S : PScope) (c c' : RCtx) (l : List (TStep W)) (hl : ∀ x ∈ l, x.Fits A gone S) :
    ∀ t t' : TSt W R, Twin gone t t' → Reach A t.sys → t.LeavesOut A gone →
    Twin gone (t.steps A E S c l).1 (t'.steps (A.without gone) (E.without gone) (S.without gone) c' l).1 ∧
    (t'.steps (A.without gone) (E.without gone) (S.without gone) c' l).2 = (t.steps A E S c l).2 := by
  induction l with
  | nil => intro t t' ht _ _; exact ⟨ht, rfl⟩
  | cons x l ih =>
    intro t t' ht hs ho
    have ih := ih (fun y hy => hl y (by simp [hy]))
    have hx := hl x (by simp)
    cases x with
    | prepare a =>
      obtain ⟨h1, h2⟩ := C118_prepare wf hg E hE ht hs ho a hx
      have hk := (C118_kept E hE hs ho a).1
      unfold TSt.steps
      rcases hp : t.prepare A E a with ⟨u, o⟩
      rcases hp' : t'.prepare (A.without gone) (E.without gone) a with ⟨u', o'⟩
      rw [hp] at h1 h2 hk
      rw [hp'] at h1 h2
      simp only at h1 h2 hk
      subst h2
      cases o' with
      | done e =>
        cases e with
        | none =>
          obtain ⟨k1, k2⟩ := hk nofun
          obtain ⟨i1, i2⟩ := ih u u' h1 k1 k2
          exact ⟨i1, by simp only [i2]⟩
        | some e => exact ⟨h1, rfl⟩
      | panicked v => exact ⟨h1, rfl⟩
      | running => exact ⟨h1, rfl⟩
    | expect k x a =>
      obtain ⟨hx1, hx2, hx3⟩ := hx
      obtain ⟨h1, -, h2⟩ := C118_expect wf hg E hE ht hs ho a hx1 S c c' x k hx2 hx3
      have hk := (C118_kept E hE hs ho a).2 S (x.impl c) k
      unfold TSt.steps
      rcases hp : t.expect A E S (x.impl c) k a with ⟨u, n, o⟩
      rcases hp' : t'.expect (A.without gone) (E.without gone) (S.without gone) (x.impl c') k a
        with ⟨u', n', o'⟩
      rw [hp] at h1 h2 hk
      rw [hp'] at h1 h2
      simp only at h1 h2 hk
      subst h2
      cases o' with
      | passed =>
        obtain ⟨k1, k2⟩ := hk nofun
        obtain ⟨i1, i2⟩ := ih u u' h1 k1 k2
        exact ⟨i1, by simp only [i2]⟩
      | failed => exact ⟨h1, rfl⟩
      | panicked v => exact ⟨h1, rfl⟩
      | running => exact ⟨h1, rfl⟩

/-- **C118.** A test of an application that leaves handlers out (because of their type or by name) and a
test of the application that does not have them: the statements end the same, up to and including
the first that does not succeed, and the engine, the clock and the executor end up the same, as does
the record of calls of the engine, of executed commands and of failures, but for mention of these
handlers. -/
theorem C118_test (wf : A.WF) (hg : ∀ n, gone n = true → n ∈ A.cfgs.map HConfig.name) (E : TEnv W)
    (hE : E.Fair A) (S : PScope) (c c' : RCtx) (l : List (TStep W)) (hl : ∀ x ∈ l, x.Fits A gone S)
    (w : W) (start : Time) (os : List OpOption) (ic : Option (Message → IProg W))
    (ho : ∀ h ∈ A.cfgs, gone h.name = true →
      takesPart ([.enableType .projection false, .enableType .integration false] ++ os) h = false)
    (hi : IcSends (StillUsed A gone) ic) :
    Twin gone ((TSt.begin w start os ic : TSt W R).steps A E S c l).1
      ((TSt.begin w start (os.filter (OpOption.about gone)) ic : TSt W R).steps (A.without gone)
        (E.without gone) (S.without gone) c' l).1 ∧
    ((TSt.begin w start (os.filter (OpOption.about gone)) ic : TSt W R).steps (A.without gone)
        (E.without gone) (S.without gone) c' l).2 =
      ((TSt.begin w start os ic : TSt W R).steps A E S c l).2 := by
  refine steps_twin wf hg E hE S c c' l hl _ _ ?_ (.init w) ?_
  · refine ⟨rfl, rfl, ?_, rfl, rfl, rfl⟩
    simp only [TSt.begin, List.filter_append]
    rfl
  · refine ⟨?_, nofun, hi⟩
    intro h hh hgn
    rw [← ho h hh hgn]
    refine takesPart_congr ?_ h
    simp only [TSt.begin, List.filter_append]
    rfl

/-- The names of the integrations and projections of an application. -/
def App.extras (A : App W R) (n : String) : Bool :=
  A.cfgs.any fun h => h.name == n && (h.htype == .integration || h.htype == .projection)

/-- **C118.** A test that has no further options treats the application as if it had aggregates and
processes only. -/
theorem C118_default (wf : A.WF) (E : TEnv W) (hE : E.Fair A) (S : PScope) (c c' : RCtx) (l : List (TStep W))
    (hl : ∀ x ∈ l, x.Fits A A.extras S) (w : W) (start : Time) :
    (∀ h, h ∈ (A.without A.extras).cfgs ↔ h ∈ A.cfgs ∧ (h.htype = .aggregate ∨ h.htype = .process)) ∧
    Twin A.extras ((TSt.begin w start [] none : TSt W R).steps A E S c l).1
      ((TSt.begin w start [] none : TSt W R).steps (A.without A.extras) (E.without A.extras)
        (S.without A.extras) c' l).1 ∧
    ((TSt.begin w start [] none : TSt W R).steps (A.without A.extras) (E.without A.extras)
        (S.without A.extras) c' l).2 =
      ((TSt.begin w start [] none : TSt W R).steps A E S c l).2 := by
  have hx : ∀ h ∈ A.cfgs, A.extras h.name = true ↔ h.htype = .integration ∨ h.htype = .projection := by
    intro h hh
    unfold App.extras
    rw [List.any_eq_true]
    constructor
    · rintro ⟨x, hx, hp⟩
      simp only [Bool.and_eq_true, Bool.or_eq_true, beq_iff_eq] at hp
      have : x = h := wf.name_inj hx hh hp.1
      rw [← this]
      exact hp.2
    · intro hp
      exact ⟨h, hh, by simpa using hp⟩
  refine ⟨?_, C118_test wf ?_ E hE S c c' l hl w start [] none ?_ nofun⟩
  · intro h
    show h ∈ A.cfgs.filter _ ↔ _
    rw [List.mem_filter]
    refine and_congr_right fun hh => ?_
    have := hx h hh
    rw [Bool.not_eq_true', ← Bool.not_eq_true, this]
    cases h.htype <;> simp
  · intro n hn
    unfold App.extras at hn
    rw [List.any_eq_true] at hn
    obtain ⟨h, hh, hp⟩ := hn
    simp only [Bool.and_eq_true, beq_iff_eq] at hp
    exact List.mem_map.2 ⟨h, hh, hp.1⟩
  · intro h hh hgn
    unfold takesPart
    rcases (hx h hh).1 hgn with e | e <;> simp [e, lastSome, List.findSome?, OpOption.nameSetting, OpOption.typeSetting]

end

/-! ## Examples -/

/-- A function for `Call()` that executes a command and, if that succeeds, has the clock advanced. -/
def Demo.absentCall : CProg Nat :=
  .exec (Demo.msgC "z") fun r => match r with
    | .ok none => .act (Demo.toTime 20) fun _ => .ret
    | _ => .ret

/-- A test with three statements. -/
def Demo.absentSteps : List (TStep Nat) :=
  [.prepare (.dispatch (Demo.msgC "x")), .expect 7 (.type Demo.evtE) (.dispatch (Demo.msgC "y")),
   .expect 8 (.not (.type Demo.evtE)) (.call Demo.absentCall none)]

theorem Demo.absent_used (b : String) : StillUsed Demo.app Demo.app.extras (Demo.msgC b) := by
  constructor
  · intro h hh hg hc
    exact ⟨Demo.agg, by simp [Demo.app], by decide, by simp [Demo.msgC, Demo.agg]⟩
  · intro h hh hg hc
    exact ⟨Demo.agg, by simp [Demo.app], by decide, .inl (by simp [Demo.msgC, Demo.agg])⟩

theorem Demo.absent_fits : ∀ x ∈ Demo.absentSteps, x.Fits Demo.app Demo.app.extras (Demo.scope false) := by
  intro x hx
  simp only [Demo.absentSteps, List.mem_cons, List.not_mem_nil, or_false] at hx
  rcases hx with rfl | rfl | rfl
  · exact Demo.absent_used "x"
  · exact ⟨Demo.absent_used "y", by decide, fun _ => trivial⟩
  · refine ⟨⟨⟨Demo.absent_used "z", ?_⟩, nofun⟩, by decide, fun _ => trivial⟩
    intro r
    rcases r with v | e
    · trivial
    · cases e with
      | none => exact ⟨trivial, fun _ => trivial⟩
      | some e => trivial

/-- The hypotheses of `C118_default` are met by a test in which the last of three statements fails,
and here is what it says. -/
example (c c' : RCtx) :
    ((TSt.begin 0 0 [] none : TSt Nat (List String)).steps (Demo.app.without Demo.app.extras)
      (Demo.tenv.without Demo.app.extras) ((Demo.scope false).without Demo.app.extras) c' Demo.absentSteps).2 =
    ((TSt.begin 0 0 [] none : TSt Nat (List String)).steps Demo.app Demo.tenv (Demo.scope false) c
      Demo.absentSteps).2 :=
  (C118_default Demo.app_wf Demo.tenv Demo.tenv_fair (Demo.scope false) c c' Demo.absentSteps Demo.absent_fits
    0 0).2.2

/-- How a statement ended: 0 means that it succeeded. -/
def TStep.endCode : TStep.End → Nat
  | .inl (.done none) | .inr .passed => 0
  | .inl (.done (some _)) | .inr .failed => 1
  | .inl (.panicked _) | .inr (.panicked _) => 2
  | .inl .running | .inr .running => 3

set_option maxRecDepth 100000 in
example : ((TSt.begin 0 0 [] none : TSt Nat (List String)).steps Demo.app Demo.tenv (Demo.scope false) Demo.ctx
    Demo.absentSteps).2.map TStep.endCode = [0, 0, 1] := by decide +kernel

/-- Without the condition that the predicate can be made, `Expect()` may differ: no remaining handler
produces events of type `F`, which is an error; otherwise it is only that there were none. -/
example : Demo.app.extras "int" = true ∧
    (Expectation.type Demo.evtF).verdict (Demo.scope false) [] = .decided false ∧
    ∃ r, (Expectation.type Demo.evtF).verdict ((Demo.scope false).without Demo.app.extras) [] = .refused r :=
  ⟨by decide, by decide, _, by rfl⟩

end Verif
