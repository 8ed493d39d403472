import Verif.ProcRefine
import Verif.Demo

/-!
# The instance a handling deals with (C87)

Which aggregate or process instance a message is for is decided once, at the beginning of its
handling, by the routing method of the handler (commands and events) or by the origin of the
message (timeouts).  Everything that is observed afterwards in the handling, facts, calls of user
code and the messages that are produced, is about that instance.
-/

namespace Verif

variable {W R : Type}

/-- The aggregate or process instance that an observation is about. -/
def Obs.inst : Obs R → Option String
  | .call (.aggHandle _ id _ _) | .call (.procHandle _ id _ _ _) => some id
  | .fact (.aggLoaded _ id _) | .fact (.aggNotFound _ id _) | .fact (.aggCreated _ id _)
  | .fact (.aggDestroyed _ id _) | .fact (.aggReverted _ id _) | .fact (.aggEvent _ id _ _)
  | .fact (.aggLog _ id _ _) => some id
  | .fact (.procLoaded _ id _) | .fact (.procNotFound _ id _) | .fact (.procBegun _ id _)
  | .fact (.procEnded _ id _) | .fact (.procReverted _ id _) | .fact (.procCommand _ id _ _)
  | .fact (.procTimeout _ id _ _) | .fact (.procTimeoutIgnored _ id _)
  | .fact (.procLog _ id _ _) => some id
  | _ => none

/-- The handler and the message that a fact from within a handling names. -/
def Obs.names : Obs R → Option (HConfig × Env)
  | .fact (.aggLoaded h _ e) | .fact (.aggNotFound h _ e) | .fact (.aggCreated h _ e)
  | .fact (.aggDestroyed h _ e) | .fact (.aggReverted h _ e) | .fact (.aggEvent h _ e _)
  | .fact (.aggLog h _ e _) => some (h, e)
  | .fact (.procLoaded h _ e) | .fact (.procNotFound h _ e) | .fact (.procBegun h _ e)
  | .fact (.procEnded h _ e) | .fact (.procReverted h _ e) | .fact (.procCommand h _ e _)
  | .fact (.procTimeout h _ e _) | .fact (.procTimeoutIgnored h _ e) | .fact (.procEventIgnored h e)
  | .fact (.procLog h _ e _) => some (h, e)
  | .fact (.intEvent h e _) | .fact (.intLog h e _) => some (h, e)
  | .fact (.prjLog h (some e) _) => some (h, e)
  | _ => none

/-- The calls that ask a handler which instance a message is for. -/
def Obs.isRoute : Obs R → Bool
  | .call (.aggRoute _ _) | .call (.procRoute _ _) => true
  | _ => false

/-- `id` is the instance of handler `h` that message `env` is for, given what was observed since
its handling was begun:
* for an aggregate, the first thing that happened was a call of the routing method with the
  message, there was no second such call, and `id` is a (non-empty) answer of that method;
* for an event and a process, likewise;
* for a timeout and a process, the routing method was not called, and `id` is the instance that
  scheduled the timeout. -/
inductive Addressed (A : App W R) (h : HConfig) (env : Env) (seg : List (Obs R)) (id : String) : Prop
  | command (c : List (Obs R)) (kind : env.msg.type.kind = .command) (type : h.htype = .aggregate)
      (first : seg = .call (.aggRoute h env.msg) :: c) (once : ∀ o ∈ c, o.isRoute = false)
      (nonempty : id ≠ "") (w : W) (answer : (A.uc.aggRoute h env.msg w).2 = .ok id)
  | event (c : List (Obs R)) (kind : env.msg.type.kind = .event) (type : h.htype = .process)
      (first : seg = .call (.procRoute h env.msg) :: c) (once : ∀ o ∈ c, o.isRoute = false)
      (nonempty : id ≠ "") (w : W) (answer : (A.uc.procRoute h env.msg w).2 = .ok (.ok (some id)))
  | timeout (kind : env.msg.type.kind = .timeout) (type : h.htype = .process)
      (never : ∀ o ∈ seg, o.isRoute = false)
      (org : Origin) (origin : env.origin = some org) (scheduled : org.instanceID = id)

/-! ## Proof machinery -/

theorem handlingNow_of_scan (t : List (Obs R)) {h : HConfig} {e : Env} {seg : List (Obs R)}
    (hc : (scan t).cur = some (h, e, seg)) : handlingNow t = some (h, e) := by
  induction t using List.reverseRecOn' generalizing h e seg with
  | nil => cases hc
  | append_singleton t o ih =>
    rw [handlingNow_snoc]
    rw [scan_snoc] at hc
    unfold Scan.step at hc
    cases o with
    | reset => cases hc
    | call c =>
      simp only at hc ⊢
      split at hc
      · rename_i hs; cases hc; exact ih hs
      · rename_i hs; rw [hs] at hc; cases hc
    | fact f =>
      cases f <;> simp only at hc ⊢ <;> first
        | (cases hc; done)
        | (cases hc; rfl)
        | (split at hc
           · rename_i hs; cases hc <;> exact ih hs
           · rename_i hs; rw [hs] at hc; cases hc)
        | exact ih hc

/-- What `instance_refine` says about one observation. -/
def InstanceOK (A : App W R) (c : Cur R) (o : Obs R) : Prop :=
  (∀ h e, o.names = some (h, e) → ∃ a, c = some (h, e, a)) ∧
  ∀ id, o.inst = some id → ∃ h e a, c = some (h, e, a) ∧ Addressed A h e a id ∧
    ∀ o' ∈ a, ∀ id', o'.inst = some id' → id' = id

theorem InstanceOK.trivial {A : App W R} {c : Cur R} {o : Obs R} (h1 : o.names = none)
    (h2 : o.inst = none) : InstanceOK A c o :=
  ⟨by simp [h1], by simp [h2]⟩

/-- Facts from within a handling name its handler and message. -/
theorem names_inner {h : HConfig} {now : Time} {env : Env} {o : Obs R} (ho : InnerObs h now env o)
    {h' : HConfig} {e : Env} (hn : o.names = some (h', e)) : h' = h ∧ e = env := by
  cases o with
  | reset => cases hn
  | call c => cases hn
  | fact f =>
    cases f with
    | prjLog h1 e1 t =>
      cases e1 with
      | none => cases hn
      | some e1 =>
        cases hn
        rcases ho with h0 | ⟨ev, h0, _⟩
        · obtain ⟨rfl, h2, _⟩ := h0
          rcases h2 with h2 | h2
          · cases h2
          · cases h2; exact ⟨rfl, rfl⟩
        · cases h0
    | _ =>
      first
      | (cases hn; done)
      | (cases hn
         rcases ho with h0 | ⟨ev, h0, _⟩
         · first | exact h0.elim | (obtain ⟨rfl, rfl, _⟩ := h0; exact ⟨rfl, rfl⟩)
         · cases h0 <;> exact ⟨rfl, rfl⟩)

/-- Calls of `ApplyEvent()` only. -/
theorem applies_only {ap : List (Obs R)} (h : ap.length = (appliedIn ap).length) :
    ∀ o ∈ ap, o.isRoute = false ∧ o.inst = none := by
  induction ap with
  | nil => simp
  | cons x ap ih =>
    have hle : ∀ l : List (Obs R), (appliedIn l).length ≤ l.length := fun l => by
      unfold appliedIn; exact List.length_filterMap_le _ _
    have hx : appliedIn (x :: ap) = appliedIn [x] ++ appliedIn ap := by
      show appliedIn ([x] ++ ap) = _
      unfold appliedIn; rw [List.filterMap_append]
    rw [hx, List.length_append] at h
    have h1 := hle ap
    have h2 := hle [x]
    simp only [List.length_cons, List.length_nil] at h h2
    intro o ho
    rcases List.mem_cons.1 ho with rfl | ho
    · cases o with
      | call c => cases c <;> first | exact ⟨rfl, rfl⟩ | (simp [appliedIn] at h h1; omega)
      | fact f => simp [appliedIn] at h h1; omega
      | reset => simp [appliedIn] at h h1; omega
    · exact ih (by omega) o ho

theorem aggHandle_kind {A : App W R} {h : HConfig} {now : Time} {env : Env} {s : Sys W R}
    (hk : env.msg.type.kind ≠ .command) : (aggHandle A h now env s).1 = s := by
  unfold aggHandle
  split
  · rfl
  · rfl

theorem procHandle_kind {A : App W R} {h : HConfig} {now : Time} {env : Env} {s : Sys W R}
    (hk : env.msg.type.kind = .command) : (procHandle A h now env s).1 = s := by
  unfold procHandle
  split
  · rfl
  · rw [hk]

/-- Aggregate handlings. -/
theorem Handling.instance_agg {A : App W R} {h : HConfig} {now : Time} {env : Env} {s s' : Sys W R}
    {res : HRes} {seg : List (Obs R)} (hh : Handling A h now env s s' res seg)
    (ht : h.htype = .aggregate) (a : List (Obs R)) (o : Obs R) (b : List (Obs R))
    (hab : seg = a ++ o :: b) (id : String) (hi : o.inst = some id) :
    Addressed A h env a id ∧ ∀ o' ∈ a, ∀ id', o'.inst = some id' → id' = id := by
  have hkind : env.msg.type.kind = .command := by
    by_cases hk : env.msg.type.kind = .command
    · exact hk
    · have h1 := aggHandle_kind (A := A) (h := h) (now := now) (s := s) hk
      have h2 := hh.run
      unfold ctlHandle at h2
      rw [ht] at h2
      simp only at h2
      rw [h2] at h1
      have h3 := hh.trace
      rw [show s' = s from h1, hab] at h3
      have := congrArg List.length h3
      simp at this
  rcases (hh.agg ht).shape with hs | ⟨pre, id0, r, post, hseg, hpre, hpost, _, ⟨hne, w, hw⟩, ⟨ap, h1, h2, h3⟩, _⟩
  · have := hs o (by simp [hab])
    cases o with
    | call c => cases c <;> first | exact this.elim | cases hi
    | reset => exact this.elim
    | fact f => exact this.elim
  · have hap := applies_only (ap := ap) (by rw [h2, h3]; simp)
    have hpre0 : ∀ x ∈ pre, x.inst = none := by
      intro x hx
      rw [h1] at hx
      simp only [List.mem_cons] at hx
      rcases hx with rfl | rfl | hx
      · rfl
      · rfl
      · exact (hap x hx).2
    have hpost0 : ∀ x ∈ post, x.isRoute = false ∧ ∀ i, x.inst = some i → i = id0 := by
      intro x hx
      have := hpost x hx
      cases x with
      | call c => cases c <;> first | exact this.elim | exact ⟨rfl, nofun⟩
      | reset => exact this.elim
      | fact f =>
        cases f <;> first
          | exact this.elim
          | exact ⟨rfl, fun i hi => by cases hi; exact this.2.1⟩
    have hmid : ∀ (ex : Bool), (Obs.fact (if ex = true then Fact.aggLoaded h id0 env
        else Fact.aggNotFound h id0 env) : Obs R).inst = some id0 ∧
        (Obs.fact (if ex = true then Fact.aggLoaded h id0 env
        else Fact.aggNotFound h id0 env) : Obs R).isRoute = false := by
      intro ex; cases ex <;> exact ⟨rfl, rfl⟩
    have hall : ∀ x ∈ seg, ∀ i, x.inst = some i → i = id0 := by
      intro x hx i hxi
      rw [hseg] at hx
      simp only [List.mem_append, List.mem_cons] at hx
      rcases hx with hx | rfl | rfl | hx
      · rw [hpre0 x hx] at hxi; cases hxi
      · rw [(hmid _).1] at hxi; cases hxi; rfl
      · cases hxi; rfl
      · exact (hpost0 x hx).2 i hxi
    obtain rfl := hall o (by simp [hab]) id hi
    refine ⟨?_, fun o' ho' id' => hall o' (by simp [hab, ho']) id'⟩
    -- `o` is not in `pre`, so `a` begins with `pre`
    have hlong : ∃ c, a = pre ++ c := by
      rcases List.append_eq_append_iff.1 (hseg.symm.trans hab) with ⟨a', ha, _⟩ | ⟨c', ha, hb⟩
      · exact ⟨a', ha⟩
      · cases c' with
        | nil => exact ⟨[], by simp at ha; simp [ha]⟩
        | cons z c' =>
          simp only [List.cons_append, List.cons.injEq] at hb
          have := hpre0 o (by rw [ha, hb.1]; simp)
          rw [hi] at this; cases this
    obtain ⟨c, rfl⟩ := hlong
    have hc : ∀ x ∈ c, x.isRoute = false := by
      intro x hx
      have : x ∈ Obs.fact (if (s.agg h.name id).isSome then Fact.aggLoaded h id env
          else Fact.aggNotFound h id env) :: .call (.aggHandle h id r env.msg) :: post := by
        rw [hseg, List.append_assoc, List.append_cancel_left_eq] at hab
        rw [hab]; simp [hx]
      simp only [List.mem_cons] at this
      rcases this with rfl | rfl | hx
      · exact (hmid _).2
      · rfl
      · exact (hpost0 x hx).1
    refine .command (.call (.aggNew h) :: ap ++ c) hkind ht (by rw [h1]; rfl) ?_ hne w hw
    intro x hx
    simp only [List.cons_append, List.mem_cons, List.mem_append] at hx
    rcases hx with rfl | hx | hx
    · rfl
    · exact (hap x hx).1
    · exact hc x hx

/-- Process handlings. -/
theorem Handling.instance_proc {A : App W R} {h : HConfig} {now : Time} {env : Env} {s s' : Sys W R}
    {res : HRes} {seg : List (Obs R)} (hh : Handling A h now env s s' res seg)
    (ht : h.htype = .process) (a : List (Obs R)) (o : Obs R) (b : List (Obs R))
    (hab : seg = a ++ o :: b) (id : String) (hi : o.inst = some id) :
    Addressed A h env a id ∧ ∀ o' ∈ a, ∀ id', o'.inst = some id' → id' = id := by
  have hkind : env.msg.type.kind ≠ .command := by
    intro hk
    have h1 := procHandle_kind (A := A) (h := h) (now := now) (s := s) hk
    have h2 := hh.run
    unfold ctlHandle at h2
    rw [ht] at h2
    simp only at h2
    rw [h2] at h1
    have h3 := hh.trace
    rw [show s' = s from h1, hab] at h3
    have := congrArg List.length h3
    simp at this
  rcases (hh.proc ht).shape with ⟨hs, _⟩ | ⟨pre, id0, hpre, htm, hev, hsh⟩
  · -- only an ignored timeout is about an instance
    have key : ∀ x ∈ seg, ∀ i, x.inst = some i → env.msg.type.kind = .timeout ∧
        ∃ og, env.origin = some og ∧ og.instanceID = i := by
      intro x hx i hxi
      have := hs x hx
      cases x with
      | call c => cases c <;> first | exact this.elim | cases hxi
      | reset => exact this.elim
      | fact f =>
        cases f <;> first
          | exact this.elim
          | (cases hxi; done)
          | (cases hxi; exact this.2.2)
    obtain ⟨hk, og, h1, h2⟩ := key o (by simp [hab]) id hi
    refine ⟨.timeout hk ht ?_ og h1 h2, ?_⟩
    · intro x hx
      have := hs x (by simp [hab, hx])
      cases x with
      | call c =>
        cases c <;> first
          | exact this.elim
          | (have h3 := this.2.2; rw [hk] at h3; cases h3)
      | reset => rfl
      | fact f => rfl
    · intro o' ho' id' hi'
      obtain ⟨_, og', h1', h2'⟩ := key o' (by simp [hab, ho']) id' hi'
      rw [h1] at h1'; cases h1'
      exact h2'.symm.trans h2
  · have hpre0 : ∀ x ∈ pre, x.inst = none := by
      intro x hx; rw [(hpre x hx).1]; rfl
    -- what comes after the routing
    have hrest : ∃ rest, seg = pre ++ rest ∧
        ∀ x ∈ rest, x.isRoute = false ∧ ∀ i, x.inst = some i → i = id0 := by
      have hst : ∀ ex : Bool, ∀ x ∈ procStart (R := R) h id0 env ex,
          x.isRoute = false ∧ ∀ i, x.inst = some i → i = id0 := by
        intro ex x hx
        cases ex <;> simp [procStart] at hx
        · rcases hx with rfl | rfl | rfl <;> exact ⟨rfl, fun i hi => by cases hi <;> rfl⟩
        · subst hx; exact ⟨rfl, fun i hi => by cases hi; rfl⟩
      rcases hsh with ⟨h1, _⟩ | ⟨h1, _⟩ | ⟨r, post, h1, _, hpost, _⟩
      · refine ⟨_, h1, ?_⟩
        intro x hx
        simp only [List.mem_cons, List.not_mem_nil, or_false] at hx
        rcases hx with rfl | rfl <;> exact ⟨rfl, fun i hi => by cases hi <;> rfl⟩
      · exact ⟨_, h1, hst _⟩
      · refine ⟨_, h1.trans (List.append_assoc ..), ?_⟩
        intro x hx
        simp only [List.mem_append, List.mem_cons] at hx
        rcases hx with hx | rfl | hx
        · exact hst _ x hx
        · exact ⟨rfl, fun i hi => by cases hi; rfl⟩
        · have := hpost x hx
          cases x with
          | call c => exact this.elim
          | reset => exact this.elim
          | fact f =>
            cases f <;> first
              | exact this.elim
              | exact ⟨rfl, fun i hi => by cases hi; exact this.2.1⟩
    obtain ⟨rest, hseg, hrest⟩ := hrest
    have hall : ∀ x ∈ seg, ∀ i, x.inst = some i → i = id0 := by
      intro x hx i hxi
      rw [hseg] at hx
      rcases List.mem_append.1 hx with hx | hx
      · rw [hpre0 x hx] at hxi; cases hxi
      · exact (hrest x hx).2 i hxi
    obtain rfl := hall o (by simp [hab]) id hi
    refine ⟨?_, fun o' ho' id' => hall o' (by simp [hab, ho']) id'⟩
    have hlong : ∃ c, a = pre ++ c := by
      rcases List.append_eq_append_iff.1 (hseg.symm.trans hab) with ⟨a', ha, _⟩ | ⟨c', ha, hb⟩
      · exact ⟨a', ha⟩
      · cases c' with
        | nil => exact ⟨[], by simp at ha; simp [ha]⟩
        | cons z c' =>
          simp only [List.cons_append, List.cons.injEq] at hb
          have := hpre0 o (by rw [ha, hb.1]; simp)
          rw [hi] at this; cases this
    obtain ⟨c, rfl⟩ := hlong
    have hc : ∀ x ∈ c, x.isRoute = false := by
      intro x hx
      rw [hseg, List.append_assoc, List.append_cancel_left_eq] at hab
      exact (hrest x (by rw [hab]; simp [hx])).1
    cases hk : env.msg.type.kind with
    | command => exact (hkind hk).elim
    | event =>
      obtain ⟨hne, h1, w, hw⟩ := hev hk
      exact .event c hk ht (by rw [h1]; rfl) hc hne w hw
    | timeout =>
      obtain ⟨_, og, h1, h2⟩ := htm hk
      refine .timeout hk ht ?_ og h1 h2
      intro x hx
      rcases List.mem_append.1 hx with hx | hx
      · have h3 := (hpre x hx).2; rw [hk] at h3; cases h3
      · exact hc x hx

theorem instance_refine (A : App W R) : Refine A (fun _ _ => True) (fun _ c o => InstanceOK A c o) where
  frame _ _ _ _ _ := trivial
  init _ := trivial
  reset _ _ _ := trivial
  ok _ _ _ _ _ _ _ _ _ _ _ _ := trivial
  panic _ _ _ _ _ _ _ _ _ _ _ := trivial
  tick _ _ _ _ _ _ _ _ _ _ _ := trivial
  obs L h now env s s' res seg _ _ hh a o b hab := by
    have hin := hh.inner o (by simp [hab])
    refine ⟨fun h' e hn => ?_, fun id hi => ⟨h, env, a, rfl, ?_⟩⟩
    · obtain ⟨rfl, rfl⟩ := names_inner hin hn
      exact ⟨a, rfl⟩
    · by_cases ha : h.htype = .aggregate
      · exact hh.instance_agg ha a o b hab id hi
      · by_cases hp : h.htype = .process
        · exact hh.instance_proc hp a o b hab id hi
        · exfalso
          cases o with
          | reset => exact hin
          | call c =>
            cases c <;> first
              | (cases hi; done)
              | exact ha hin.2.2
              | exact hp hin.2.2.1
          | fact f =>
            cases f <;> first
              | (cases hi; done)
              | (rcases hin with h0 | ⟨ev, h0, _, h1⟩
                 · first | exact ha h0.2.2 | exact hp h0.2.2 | exact h0
                 · cases h0 <;> first | exact ha h1.1 | exact hp h1.1)
  tickObs L c h now o ho := by
    cases o with
    | reset => exact ho.elim
    | call c => rw [show c = .prjCompact h now from ho]; exact .trivial rfl rfl
    | fact f =>
      cases f with
      | prjLog h1 e t =>
        cases e with
        | none => exact .trivial rfl rfl
        | some e => simp [TickObs] at ho
      | _ => first | exact .trivial rfl rfl | exact ho.elim
  plain L c f hf := by
    refine .trivial ?_ ?_ <;>
    · rcases hf with hf | ⟨_, _, rfl⟩ | ⟨_, _, _, rfl⟩ | ⟨_, rfl⟩ | ⟨_, _, rfl⟩
      · cases f <;> first | rfl | exact hf.elim
      all_goals rfl
  resetter _ _ _ := .trivial rfl rfl
  resetObs _ _ := .trivial rfl rfl

theorem mem_createdIn_since {t : List (Obs R)} {e : Env} (h : e ∈ createdIn (sinceReset t)) :
    ∃ a o b, t = a ++ o :: b ∧ o.created = some e := by
  have hsub : ∀ t : List (Obs R), ∀ o ∈ sinceReset t, o ∈ t := by
    intro t
    induction t using List.reverseRecOn' with
    | nil => intro o ho; exact ho
    | append_singleton t x ih =>
      intro o ho
      unfold sinceReset at ho ih
      rw [List.foldl_append] at ho
      simp only [List.foldl_cons, List.foldl_nil] at ho
      cases x with
      | reset => cases ho
      | call c =>
        rcases List.mem_append.1 ho with ho | ho
        · exact List.mem_append_left _ (ih o ho)
        · exact List.mem_append_right _ ho
      | fact f =>
        rcases List.mem_append.1 ho with ho | ho
        · exact List.mem_append_left _ (ih o ho)
        · exact List.mem_append_right _ ho
  unfold createdIn at h
  obtain ⟨o, ho, he⟩ := List.mem_filterMap.1 h
  obtain ⟨a, b, hab⟩ := List.append_of_mem (hsub t o ho)
  exact ⟨a, o, b, hab, he⟩

theorem handlingNow_begun (t : List (Obs R)) {h : HConfig} {e : Env}
    (hc : handlingNow t = some (h, e)) : ∃ a b, t = a ++ .fact (.handlingBegun h e) :: b := by
  induction t using List.reverseRecOn' with
  | nil => cases hc
  | append_singleton t o ih =>
    rw [handlingNow_snoc] at hc
    have key : handlingNow t = some (h, e) → ∃ a b, t ++ [o] = a ++ .fact (.handlingBegun h e) :: b := by
      intro h0
      obtain ⟨a, b, hab⟩ := ih h0
      exact ⟨a, b ++ [o], by rw [hab]; simp⟩
    cases o with
    | reset => exact key hc
    | call c => exact key hc
    | fact f =>
      cases f <;> first
        | exact key hc
        | (cases hc; done)
        | (cases hc; exact ⟨t, [], rfl⟩)

/-! ## C87 -/

/-- **C87.** Every fact from within a handling names the handler and the message of the handling
in progress. -/
theorem C87_names {A : App W R} (wf : A.WF) {s : Sys W R} (hs : Reach A s) :
    Always (fun pre o => ∀ h e, o.names = some (h, e) → handlingNow pre = some (h, e)) s.trace := by
  intro pre o post ht h e hn
  obtain ⟨a, ha⟩ := (((instance_refine A).reach wf hs).2 pre o post ht).1 h e hn
  exact handlingNow_of_scan pre ha

/-- **C87.** Every fact and every call that is about an instance occurs within a handling
(`handlingNow`), whose message is for that instance (`Addressed`), and all observations of the
handling so far (`curSeg pre`) that are about an instance are about the same one. -/
theorem C87_one {A : App W R} (wf : A.WF) {s : Sys W R} (hs : Reach A s) :
    Always (fun pre o => ∀ id, o.inst = some id → ∃ h env, handlingNow pre = some (h, env) ∧
      Addressed A h env (curSeg pre) id ∧
      ∀ o' ∈ curSeg pre, ∀ id', o'.inst = some id' → id' = id) s.trace := by
  intro pre o post ht id hi
  obtain ⟨h, e, a, hc, h1, h2⟩ := (((instance_refine A).reach wf hs).2 pre o post ht).2 id hi
  have : curSeg pre = a := by unfold curSeg; rw [hc]
  rw [this]
  exact ⟨h, e, handlingNow_of_scan pre hc, h1, h2⟩

/-- **C87.** The produced messages carry the instance as their origin. -/
theorem C87_origin {A : App W R} (wf : A.WF) {s : Sys W R} (hs : Reach A s) :
    Always (fun _ o => ∀ id e, o.inst = some id → o.created = some e →
      ∃ org, e.origin = some org ∧ org.instanceID = id) s.trace := by
  rintro pre o post ht id e hi hc
  have hem := (core_reach wf hs).em pre o post ht
  cases o with
  | reset => cases hi
  | call c => cases hc
  | fact f =>
    cases f <;> first
      | (cases hi; done)
      | (cases hc; done)
      | (cases hi; cases hc
         exact ⟨_, ((hem.1 _ _ _ rfl).2).2.2, rfl⟩)

/-- **C87.** The ID of an instance is never empty, not even that of an instance which a timeout is
for. -/
theorem C87_nonempty {A : App W R} (wf : A.WF) {s : Sys W R} (hs : Reach A s) :
    Always (fun _ o => ∀ id, o.inst = some id → id ≠ "") s.trace := by
  have key : ∀ n, ∀ pre o post, pre.length = n → s.trace = pre ++ o :: post →
      ∀ id, o.inst = some id → id ≠ "" := by
    intro n
    induction n using Nat.strongRecOn with
    | _ n ih =>
      intro pre o post hn ht id hi
      obtain ⟨h, env, hnow, had, _⟩ := C87_one wf hs pre o post ht id hi
      cases had with
      | command _ _ _ _ _ hne _ _ => exact hne
      | event _ _ _ _ _ hne _ _ => exact hne
      | timeout hk _ _ org ho hid =>
        have hem := (core_reach wf hs).em
        obtain ⟨a, b, hab⟩ := handlingNow_begun pre hnow
        have hoff := (hem a (.fact (.handlingBegun h env)) (b ++ o :: post) (by rw [ht, hab]; simp)).2.1 h env rfl
        obtain ⟨a1, o1, b1, hab1, hc1⟩ := mem_createdIn_since hoff.created
        have ht1 : s.trace = a1 ++ o1 :: (b1 ++ .fact (.handlingBegun h env) :: b ++ o :: post) := by
          rw [ht, hab, hab1]; simp
        have hlen : a1.length < n := by rw [← hn, hab, hab1]; simp
        have hinst : o1.inst = some id := by
          have h1 := hem a1 o1 _ ht1
          cases o1 with
          | reset => cases hc1
          | call c => cases hc1
          | fact f =>
            cases f with
            | dispatchCycleBegun e c =>
              cases hc1
              exact ((h1.2.2.2.2 _ _ rfl).2.2.2.2.2.1 hk).elim
            | procTimeout h' id' e e' =>
              cases hc1
              have h2 := ((h1.1 _ _ _ rfl).2).2.2
              rw [ho] at h2; cases h2
              exact congrArg some hid
            | aggEvent h' id' e e' =>
              cases hc1
              have h2 := ((h1.1 _ _ _ rfl).2).2.1
              rw [hk] at h2; cases h2
            | procCommand h' id' e e' =>
              cases hc1
              have h2 := ((h1.1 _ _ _ rfl).2).2.1
              rw [hk] at h2; cases h2
            | intEvent h' e e' =>
              cases hc1
              have h2 := ((h1.1 _ _ _ rfl).2).2.1
              rw [hk] at h2; cases h2
            | _ => cases hc1
        exact ih a1.length hlen a1 o1 _ rfl ht1 id hinst
  intro pre o post ht id hi
  exact key _ pre o post rfl ht id hi

set_option maxRecDepth 100000 in
/-- The demo application deals with one aggregate and one process instance.  Commands, events and
a timeout are handled. -/
example : Demo.app.WF ∧ Reach Demo.app Demo.final ∧
    (Demo.final.trace.filterMap Obs.inst).eraseDups = ["a", "p"] ∧
    (Demo.final.trace.filter fun o => o.inst.isSome && o.names.isSome).length = 16 ∧
    (Demo.final.trace.filter Obs.isRoute).length = 4 ∧
    (timeoutsIn Demo.final.trace).map (fun e => e.origin.map (·.instanceID)) = [some "p", some "p"] :=
  ⟨Demo.app_wf, Demo.final_reach, by decide +kernel⟩

end Verif
