import Verif.Props.Projection
import Verif.Props.Scopes

/-!
# C104: a handling hands its message to the handler once

C88 explains what is observed in a handling by what the handler's method asked for, if the method
was called.  Here: when it is called, and how often.

* `C104_heard`: in any history, a handling that was completed called the handler's method exactly
  once, and with the message that was handled, unless there is one of these reasons not to, and
  then nothing else was done:
  the process's router returned an error, which is the error of the handling;
  the process's router said that the event is to be ignored, which is reported;
  the instance that scheduled the timeout has ended, which is reported;
  the projection failed to say what version it has, which is the error of the handling;
  or the projection said that it has already handled the event.
* `C104_once`: a handling never calls the handler's method a second time, even one that was not
  completed because user code panicked.
-/

namespace Verif

variable {W R : Type}

/-! ## The specification -/

/-- The calls of handlers' methods among what was observed. -/
def invocations (seg : List (Obs R)) : List (Obs R) := seg.filter Obs.invokes

/-- Why a process is not given message `env`: `seg` is all that was observed. -/
inductive NotForProcess (A : App W R) (h : HConfig) (env : Env) :
    List (Obs R) → Option Err → Prop
  /-- The router failed. -/
  | failed (w : W) (e : Err) : env.msg.type.kind = .event →
    (A.uc.procRoute h env.msg w).2 = .ok (.error e) →
    NotForProcess A h env [.call (.procRoute h env.msg)] (some e)
  /-- The router said that no instance is interested. -/
  | ignored (w : W) : env.msg.type.kind = .event →
    (A.uc.procRoute h env.msg w).2 = .ok (.ok none) →
    NotForProcess A h env [.call (.procRoute h env.msg), .fact (.procEventIgnored h env)] none
  /-- The instance that scheduled the timeout no longer exists. -/
  | ended (o : Origin) : env.msg.type.kind = .timeout → env.origin = some o →
    NotForProcess A h env [.fact (.procTimeoutIgnored h o.instanceID env)] none

/-- Why a projection is not given event `env`: all that was observed is that it was asked for its
version of the resource named after the event. -/
inductive NotForProjection (A : App W R) (h : HConfig) (env : Env) :
    List (Obs R) → Option Err → Prop
  /-- It could not say. -/
  | failed (w : W) (e : Err) : (A.uc.prjVersion h env.id w).2 = .ok (.error e) →
    NotForProjection A h env [.call (.prjVersion h env.id)] (some e)
  /-- It has one. -/
  | seen (w : W) (v : List Nat) : v ≠ [] → (A.uc.prjVersion h env.id w).2 = .ok (.ok v) →
    NotForProjection A h env [.call (.prjVersion h env.id)] none

/-- The handler was given the message once, or there is a reason why it was not. -/
def Heard (A : App W R) (h : HConfig) (env : Env) (seg : List (Obs R)) (err : Option Err) : Prop :=
  match h.htype with
  | .aggregate => ∃ id r, invocations seg = [.call (.aggHandle h id r env.msg)]
  | .integration => invocations seg = [.call (.intHandle h env.msg)]
  | .process => (∃ id r t, invocations seg = [.call (.procHandle h id r env.msg t)]) ∨
      NotForProcess A h env seg err
  | .projection => invocations seg = [.call (.prjHandle h env.id [] [1] env.msg)] ∨
      NotForProjection A h env seg err

/-! ## Machinery -/

theorem invocations_none {seg : List (Obs R)} (h : ∀ o ∈ seg, o.invokes = false) :
    invocations seg = [] := by
  unfold invocations
  rw [List.filter_eq_nil_iff]
  intro o ho
  simp [h o ho]

theorem invocations_one {pre post : List (Obs R)} {o : Obs R} (ho : o.invokes = true)
    (h1 : ∀ o ∈ pre, o.invokes = false) (h2 : ∀ o ∈ post, o.invokes = false) :
    invocations (pre ++ o :: post) = [o] := by
  have a := invocations_none h1
  have b := invocations_none h2
  unfold invocations at *
  rw [List.filter_append, List.filter_cons, if_pos ho, a, b]
  rfl

theorem AggPre.quiet {h : HConfig} {o : Obs R} (ho : AggPre h o) : o.invokes = false := by
  cases o with
  | call c => cases c <;> first | rfl | exact ho.elim
  | fact f => rfl
  | reset => rfl

theorem AggObs.quiet {h : HConfig} {id : String} {now : Time} {env : Env} {o : Obs R}
    (ho : AggObs h id now env o) : o.invokes = false := by
  cases o with
  | call c => cases c <;> first | rfl | exact ho.elim
  | fact f => rfl
  | reset => rfl

theorem ProcObs.quiet {h : HConfig} {id : String} {now : Time} {env : Env} {o : Obs R}
    (ho : ProcObs h id now env o) : o.invokes = false := by
  cases o with
  | call c => cases c <;> exact ho.elim
  | fact f => rfl
  | reset => rfl

theorem IntObs.quiet {h : HConfig} {now : Time} {env : Env} {o : Obs R}
    (ho : IntObs h now env o) : o.invokes = false := by
  cases o with
  | call c => cases c <;> exact ho.elim
  | fact f => rfl
  | reset => rfl

theorem ProcPre.quiet {h : HConfig} {env : Env} {o : Obs R}
    (ho : ProcPre h env o) : o.invokes = false := by
  cases o with
  | call c => cases c <;> first | rfl | exact ho.elim
  | fact f => rfl
  | reset => rfl

theorem IsLog.quiet {h : HConfig} {env : Env} {o : Obs R} (ho : IsLog h env o) :
    o.invokes = false := by
  rcases ho with ⟨t, rfl⟩ | ⟨t, rfl⟩ <;> rfl

theorem procStart_quiet (h : HConfig) (id : String) (env : Env) (ex : Bool) :
    ∀ o ∈ (procStart h id env ex : List (Obs R)), o.invokes = false := by
  cases ex <;> simp [procStart, Obs.invokes]

theorem applySeg_shape {A : App W R} {h : HConfig} {now : Time} {env : Env} {logs : List (Obs R)}
    {ce : Option Err} (hl : ∀ o ∈ logs, IsLog h env o) : ∃ pre post,
    ApplySeg A h now env logs ce = pre ++ .call (.prjHandle h env.id [] [1] env.msg) :: post ∧
      (∀ o ∈ pre, o.invokes = false) ∧ ∀ o ∈ post, o.invokes = false := by
  unfold ApplySeg
  split
  · refine ⟨[.fact (.prjCompactBegun h), .call (.prjCompact h now)],
      logs ++ [.fact (.prjCompactCompleted h ce)], by simp, by simp [Obs.invokes], ?_⟩
    intro o ho
    rcases List.mem_append.1 ho with ho | ho
    · exact (hl o ho).quiet
    · cases List.mem_singleton.1 ho; rfl
  · exact ⟨[], logs, rfl, by simp, fun o ho => (hl o ho).quiet⟩

/-- A handling by a projection. -/
theorem Handling.heard_projection {A : App W R} {h : HConfig} {now : Time} {env : Env}
    {s s' : Sys W R} {res : HRes} {seg : List (Obs R)} (hh : Handling A h now env s s' res seg)
    (ht : h.htype = .projection) :
    (∃ pre post, seg = pre ++ .call (.prjHandle h env.id [] [1] env.msg) :: post ∧
      (∀ o ∈ pre, o.invokes = false) ∧ ∀ o ∈ post, o.invokes = false) ∨
    ((∀ o ∈ seg, o.invokes = false) ∧
      ∀ envs e, res = .ok (envs, e) → NotForProjection A h env seg e) := by
  have hr := hh.run
  have htr := hh.trace
  by_cases hk : env.msg.type.kind = .event
  · have ha : Accepts h env .projection .event := ⟨ht, hk, hh.consumed⟩
    by_cases hv : (A.uc.prjVersion h env.id s.w).2 = .ok (.ok [])
    · obtain ⟨logs, h1, h2⟩ := prjHandle_sum A h now env s ha hv
      rw [hr] at h2
      have key : ∀ (ce : Option Err) (p q : List (Obs R)),
          (∀ o ∈ p, o.invokes = false) → (∀ o ∈ q, o.invokes = false) →
          seg = p ++ (ApplySeg A h now env logs ce ++ q) →
          ∃ pre post, seg = pre ++ .call (.prjHandle h env.id [] [1] env.msg) :: post ∧
          (∀ o ∈ pre, o.invokes = false) ∧ ∀ o ∈ post, o.invokes = false := by
        intro ce p q hp hq e
        obtain ⟨pre, post, h3, h4, h5⟩ := applySeg_shape (A := A) (now := now) (ce := ce) h1
        refine ⟨p ++ pre, post ++ q, by rw [e, h3]; simp, ?_, ?_⟩
        · intro o ho; rcases List.mem_append.1 ho with ho | ho
          · exact hp o ho
          · exact h4 o ho
        · intro o ho; rcases List.mem_append.1 ho with ho | ho
          · exact h5 o ho
          · exact hq o ho
      left
      cases res with
      | ok x =>
        obtain ⟨_, r, ce, _, _, h3, _⟩ := h2
        have e := List.append_cancel_left (htr.symm.trans h3)
        refine key ce [.call (.prjVersion h env.id)] _ (by simp [Obs.invokes]) ?_ e
        split <;> simp [Obs.invokes]
      | error v =>
        rcases h2 with ⟨sg, ce, h3, h4 | h4⟩ | ⟨ce, _, h3⟩
        · have e := List.append_cancel_left (htr.symm.trans h3)
          -- the panic cut the segment short, after the method was called
          obtain ⟨pre, post, h5, h6, h7⟩ := applySeg_shape (A := A) (now := now) (ce := ce) h1
          rw [h5] at h4
          rcases List.eq_nil_or_concat post with rfl | ⟨po, x, rfl⟩
          · have := (List.append_inj' h4 rfl).2
            cases this
          · have h4' : sg ++ [.fact (.prjCompactCompleted h ce)] =
                (pre ++ .call (.prjHandle h env.id [] [1] env.msg) :: po) ++ [x] := by rw [h4]; simp
            have h8 := (List.append_inj' h4' rfl).1
            refine ⟨.call (.prjVersion h env.id) :: pre, po, by rw [e, h8]; rfl, ?_, ?_⟩
            · intro o ho; rcases List.mem_cons.1 ho with rfl | ho
              · rfl
              · exact h6 o ho
            · intro o ho; exact h7 o (by simp [ho])
        · have e := List.append_cancel_left (htr.symm.trans h3)
          exact key ce [.call (.prjVersion h env.id)] [] (by simp [Obs.invokes]) (by simp)
            (by rw [e, h4]; simp)
        · have e := List.append_cancel_left (htr.symm.trans h3)
          exact key ce [.call (.prjVersion h env.id)] [.call (.prjClose h env.id)]
            (by simp [Obs.invokes]) (by simp [Obs.invokes]) (by rw [e]; simp)
    · right
      unfold ctlHandle prjHandle at hr
      simp only [ht, accepts_consumes ha, hk, Sys.user, if_false, ne_eq, not_true_eq_false,
        Bool.true_eq_false] at hr
      have hseg : ∀ x : Sys W R, x.trace = s.trace ++ [.call (.prjVersion h env.id)] → x = s' →
          seg = [.call (.prjVersion h env.id)] := by
        rintro x hx rfl
        exact List.append_cancel_left (htr.symm.trans hx)
      rcases hx : (A.uc.prjVersion h env.id s.w).2 with v | e | b
      · rw [hx] at hr
        cases hr
        cases hseg _ rfl rfl
        exact ⟨by simp [Obs.invokes], fun _ _ h => by cases h⟩
      · rw [hx] at hr
        cases hr
        cases hseg _ rfl rfl
        exact ⟨by simp [Obs.invokes], fun _ _ h => by cases h; exact .failed _ _ hx⟩
      · cases b with
        | nil => exact absurd hx hv
        | cons _ _ =>
          rw [hx] at hr
          cases hr
          cases hseg _ rfl rfl
          exact ⟨by simp [Obs.invokes], fun _ _ h => by cases h; exact .seen _ _ (by simp) hx⟩
  · right
    have : (s, Except.error (PanicVal.internal "not an event")) = (s', res) := by
      simpa [ctlHandle, ht, prjHandle, hk, HConfig.consumes?, hh.consumed] using hr
    cases this
    have : seg = [] := by simpa using htr
    subst this
    exact ⟨by simp, fun _ _ h => by cases h⟩

theorem Handling.heard_integration {A : App W R} {h : HConfig} {now : Time} {env : Env}
    {s s' : Sys W R} {res : HRes} {seg : List (Obs R)} (hh : Handling A h now env s s' res seg)
    (ht : h.htype = .integration) :
    (∃ post, seg = .call (.intHandle h env.msg) :: post ∧ ∀ o ∈ post, o.invokes = false) ∨
    (seg = [] ∧ ∀ x, res ≠ .ok x) := by
  have hr := hh.run
  have htr := hh.trace
  simp only [ctlHandle, ht, intHandle] at hr
  split at hr
  · cases hr; exact .inr ⟨by simpa using htr, fun _ h => by cases h⟩
  split at hr
  · cases hr; exact .inr ⟨by simpa using htr, fun _ h => by cases h⟩
  left
  obtain ⟨sg, g⟩ := intRun_seg h now env (A.uc.intHandle h env.msg)
    (s.emit (.call (.intHandle h env.msg))) []
  refine ⟨sg, ?_, fun o ho => (g.obs o ho).quiet⟩
  have g1 := g.trace
  split at hr <;> rename_i he <;> rw [he] at g1 <;> cases hr <;>
    exact List.append_cancel_left (htr.symm.trans (g1.trans (by simp [Sys.emit])))

/-- A handling routed to an instance that completes has called the method. -/
theorem procWithID_invokes {A : App W R} {h : HConfig} {id : String} {now : Time} {env : Env}
    {s s' : Sys W R} {x : List Env × Option Err}
    (hs : procWithID A h id now env s = (s', .ok x)) :
    ∃ p r t post, s'.trace = s.trace ++ p ++ .call (.procHandle h id r env.msg t) :: post := by
  unfold procWithID at hs
  split at hs
  · rename_i r hr
    obtain ⟨seg, xs, q, h1, _⟩ := procInvoke_says A h id now env r
      (s.notify (.procLoaded h id env)) true
      (by simp only [Sys.notify, Sys.emit]; rw [hr]; rfl)
    rw [hs] at h1
    exact ⟨[.fact (.procLoaded h id env)], r, _, seg, h1⟩
  · rename_i hr
    split at hs
    · cases hs
    · cases hs
    · rename_i s2 r he; obtain ⟨rfl, hn⟩ := user_eq he
      obtain ⟨seg, xs, q, h1, _⟩ := procInvoke_says A h id now env r
        (Sys.notify ({ ((s.notify (.procNotFound h id env)).emit (.call (.procNew h))) with
          w := (A.uc.procNew h (s.notify (.procNotFound h id env)).w).1 } : Sys W R)
          (.procBegun h id env)) false
        (by simp only [Sys.notify, Sys.emit]; rw [hr]; rfl)
      rw [show procInvoke A h id now env r false _ = (s', .ok x) from hs] at h1
      refine ⟨[.fact (.procNotFound h id env), .call (.procNew h), .fact (.procBegun h id env)],
        r, procSeenTime env, seg, ?_⟩
      rw [show s'.trace = _ from h1]
      simp [Sys.notify, Sys.emit]

/-- A process handling that completes without having called the method has a reason. -/
theorem procHandle_reason {A : App W R} {h : HConfig} {now : Time} {env : Env}
    {s s' : Sys W R} {envs : List Env} {e : Option Err} {seg : List (Obs R)}
    (hr : procHandle A h now env s = (s', .ok (envs, e))) (htr : s'.trace = s.trace ++ seg)
    (hq : ∀ o ∈ seg, o.invokes = false) : NotForProcess A h env seg e := by
  have key : ∀ (s1 : Sys W R) (q : List (Obs R)) (id : String), s1.trace = s.trace ++ q →
      procWithID A h id now env s1 = (s', .ok (envs, e)) → NotForProcess A h env seg e := by
    intro s1 q id h1 h2
    obtain ⟨p, r, t, post, h3⟩ := procWithID_invokes h2
    have : seg = q ++ p ++ .call (.procHandle h id r env.msg t) :: post :=
      List.append_cancel_left (htr.symm.trans (h3.trans (by rw [h1]; simp)))
    have := hq (.call (.procHandle h id r env.msg t)) (by simp [this])
    cases this
  have hseg : ∀ {x : Sys W R} {sg : List (Obs R)}, x = s' → x.trace = s.trace ++ sg → seg = sg := by
    rintro x sg rfl hx
    exact List.append_cancel_left (htr.symm.trans hx)
  unfold procHandle at hr
  split at hr
  · cases hr
  split at hr
  · cases hr
  · rename_i hk
    split at hr
    · cases hr
    · rename_i he; obtain ⟨rfl, hv⟩ := user_eq he
      cases hr
      rw [hseg (sg := [.call (.procRoute h env.msg)]) rfl rfl]
      exact .failed _ _ hk hv.symm
    · rename_i he; obtain ⟨rfl, hv⟩ := user_eq he
      cases hr
      rw [hseg (sg := [.call (.procRoute h env.msg), .fact (.procEventIgnored h env)]) rfl
        (by simp [Sys.notify, Sys.emit])]
      exact .ignored _ hk hv.symm
    · rename_i he; obtain ⟨rfl, hv⟩ := user_eq he
      split at hr
      · cases hr
      · exact key _ [.call (.procRoute h env.msg)] _ rfl hr
  · rename_i hk
    split at hr
    · cases hr
    · rename_i o ho
      split at hr
      · exact key s [] _ (by simp) hr
      · cases hr
        rw [hseg (sg := [.fact (.procTimeoutIgnored h o.instanceID env)]) rfl rfl]
        exact .ended _ hk ho

/-- A handling by a process. -/
theorem Handling.heard_process {A : App W R} {h : HConfig} {now : Time} {env : Env}
    {s s' : Sys W R} {res : HRes} {seg : List (Obs R)} (hh : Handling A h now env s s' res seg)
    (ht : h.htype = .process) :
    (∃ pre id r t post, seg = pre ++ .call (.procHandle h id r env.msg t) :: post ∧
      (∀ o ∈ pre, o.invokes = false) ∧ ∀ o ∈ post, o.invokes = false) ∨
    ((∀ o ∈ seg, o.invokes = false) ∧
      ∀ envs e, res = .ok (envs, e) → NotForProcess A h env seg e) := by
  have hreason : (∀ o ∈ seg, o.invokes = false) → (∀ o ∈ seg, o.invokes = false) ∧
      ∀ envs e, res = .ok (envs, e) → NotForProcess A h env seg e := by
    refine fun hq => ⟨hq, ?_⟩
    rintro envs e rfl
    exact procHandle_reason (by simpa [ctlHandle, ht] using hh.run) hh.trace hq
  have hroute : ∀ pre : List (Obs R), (∀ o ∈ pre, o = .call (.procRoute h env.msg) ∧
      env.msg.type.kind = .event) → ∀ o ∈ pre, o.invokes = false := by
    intro pre hp o ho
    rw [(hp o ho).1]; rfl
  rcases (hh.proc ht).shape with ⟨h1, _⟩ | ⟨pre, id, h1, _, _, h2⟩
  · exact .inr (hreason fun o ho => (h1 o ho).quiet)
  · rcases h2 with ⟨rfl, _⟩ | ⟨rfl, _⟩ | ⟨r, post, rfl, _, h3, _⟩
    · refine .inr (hreason fun o ho => ?_)
      rcases List.mem_append.1 ho with ho | ho
      · exact hroute pre h1 o ho
      · simp only [List.mem_cons, List.not_mem_nil, or_false] at ho
        rcases ho with rfl | rfl <;> rfl
    · refine .inr (hreason fun o ho => ?_)
      rcases List.mem_append.1 ho with ho | ho
      · exact hroute pre h1 o ho
      · exact procStart_quiet _ _ _ _ o ho
    · refine .inl ⟨_, id, r, _, post, rfl, fun o ho => ?_, fun o ho => (h3 o ho).quiet⟩
      rcases List.mem_append.1 ho with ho | ho
      · exact hroute pre h1 o ho
      · exact procStart_quiet _ _ _ _ o ho

/-- A handling by an aggregate. -/
theorem Handling.heard_aggregate {A : App W R} {h : HConfig} {now : Time} {env : Env}
    {s s' : Sys W R} {res : HRes} {seg : List (Obs R)} (hh : Handling A h now env s s' res seg)
    (ht : h.htype = .aggregate) :
    (∃ pre id r post, seg = pre ++ .call (.aggHandle h id r env.msg) :: post ∧
      (∀ o ∈ pre, o.invokes = false) ∧ ∀ o ∈ post, o.invokes = false) ∨
    ((∀ o ∈ seg, o.invokes = false) ∧ ∀ x, res ≠ .ok x) := by
  rcases (hh.agg ht).shape with h1 | ⟨pre, id, r, post, rfl, h1, h2, _⟩
  · refine .inr ⟨fun o ho => (h1 o ho).quiet, ?_⟩
    rintro ⟨envs, e⟩ rfl
    obtain ⟨_, _, id, h2, _⟩ := (hh.agg ht).ok envs e rfl
    unfold aggInstIn at h2
    obtain ⟨o, ho, h3⟩ := List.exists_of_findSome?_eq_some h2
    have := h1 o ho
    cases o with
    | call c => cases h3
    | reset => cases h3
    | fact f => exact this.elim
  · refine .inl ⟨pre ++ [.fact (if (s.agg h.name id).isSome then .aggLoaded h id env
        else .aggNotFound h id env)], id, r, post, by simp, fun o ho => ?_,
        fun o ho => (h2 o ho).quiet⟩
    rcases List.mem_append.1 ho with ho | ho
    · exact (h1 o ho).quiet
    · rw [List.mem_singleton.1 ho]; rfl

/-- A handling calls the method at most once. -/
theorem Handling.atMostOnce {A : App W R} {h : HConfig} {now : Time} {env : Env} {s s' : Sys W R}
    {res : HRes} {seg : List (Obs R)} (hh : Handling A h now env s s' res seg) :
    (∀ o ∈ seg, o.invokes = false) ∨ ∃ pre o post, seg = pre ++ o :: post ∧ o.invokes = true ∧
      (∀ o ∈ pre, o.invokes = false) ∧ ∀ o ∈ post, o.invokes = false := by
  cases ht : h.htype with
  | aggregate =>
    rcases hh.heard_aggregate ht with ⟨pre, id, r, post, h1, h2, h3⟩ | ⟨h1, _⟩
    · exact .inr ⟨pre, _, post, h1, rfl, h2, h3⟩
    · exact .inl h1
  | process =>
    rcases hh.heard_process ht with ⟨pre, id, r, t, post, h1, h2, h3⟩ | ⟨h1, _⟩
    · exact .inr ⟨pre, _, post, h1, rfl, h2, h3⟩
    · exact .inl h1
  | integration =>
    rcases hh.heard_integration ht with ⟨post, h1, h2⟩ | ⟨rfl, _⟩
    · exact .inr ⟨[], _, post, h1, rfl, by simp, h2⟩
    · exact .inl (by simp)
  | projection =>
    rcases hh.heard_projection ht with ⟨pre, post, h1, h2, h3⟩ | ⟨h1, _⟩
    · exact .inr ⟨pre, _, post, h1, rfl, h2, h3⟩
    · exact .inl h1

theorem Handling.heard {A : App W R} {h : HConfig} {now : Time} {env : Env} {s s' : Sys W R}
    {envs : List Env} {e : Option Err} {seg : List (Obs R)}
    (hh : Handling A h now env s s' (.ok (envs, e)) seg) : Heard A h env seg e := by
  unfold Heard
  cases ht : h.htype with
  | aggregate =>
    rcases hh.heard_aggregate ht with ⟨pre, id, r, post, h1, h2, h3⟩ | ⟨_, h1⟩
    · exact ⟨id, r, by rw [h1]; exact invocations_one rfl h2 h3⟩
    · exact absurd rfl (h1 _)
  | process =>
    rcases hh.heard_process ht with ⟨pre, id, r, t, post, h1, h2, h3⟩ | ⟨_, h1⟩
    · exact .inl ⟨id, r, t, by rw [h1]; exact invocations_one rfl h2 h3⟩
    · exact .inr (h1 _ _ rfl)
  | integration =>
    rcases hh.heard_integration ht with ⟨post, h1, h2⟩ | ⟨_, h1⟩
    · show invocations seg = _
      rw [h1]; exact invocations_one (pre := []) rfl (by simp) h2
    · exact absurd rfl (h1 _)
  | projection =>
    rcases hh.heard_projection ht with ⟨pre, post, h1, h2, h3⟩ | ⟨_, h1⟩
    · exact .inl (by rw [h1]; exact invocations_one rfl h2 h3)
    · exact .inr (h1 _ _ rfl)

theorem heard_refine (A : App W R) : Refine A
    (fun L _ => ∀ now h env seg err, .handled now h env seg err ∈ L → Heard A h env seg err)
    (fun _ c o => o.invokes = true → ∃ h env seg, c = some (h, env, seg) ∧
      ∀ o ∈ seg, o.invokes = false) where
  frame _ _ _ _ h := h
  init _ := by simp
  reset _ _ _ := by simp
  ok L h now env s s' envs e seg _ hp hh := by
    intro now' h' env' seg' err' hm
    rcases List.mem_append.1 hm with hm | hm
    · exact hp _ _ _ _ _ hm
    · cases List.mem_singleton.1 hm; exact hh.heard
  panic _ _ _ _ _ _ _ _ _ hp _ := hp
  tick L h now s s' res seg _ _ hp _ := by
    intro now' h' env' seg' err' hm
    rcases List.mem_append.1 hm with hm | hm
    · exact hp _ _ _ _ _ hm
    · cases List.mem_singleton.1 hm
  obs L h now env s s' res seg _ _ hh a o b hab ho := by
    refine ⟨h, env, a, rfl, fun x hx => ?_⟩
    rcases hh.atMostOnce with h1 | ⟨pre, o', post, h1, h2, h3, h4⟩
    · exact h1 x (by simp [hab, hx])
    · have ha : a = pre := by
        rw [hab] at h1
        rcases List.append_eq_append_iff.1 h1 with ⟨c, h5, h6⟩ | ⟨c, h5, h6⟩
        · cases c with
          | nil => simpa using h5.symm
          | cons y c =>
            cases h6
            have := h3 o (by simp [h5])
            rw [this] at ho; cases ho
        · cases c with
          | nil => simpa using h5
          | cons y c =>
            cases h6
            have := h4 o (by simp)
            rw [this] at ho; cases ho
      exact h3 x (ha ▸ hx)
  tickObs L c h now o ht ho := by
    cases o with
    | call c => cases c <;> first | (cases ho; done) | exact absurd ht (by simp [TickObs])
    | fact f => cases ho
    | reset => cases ho
  plain _ _ _ _ := nofun
  resetter _ _ _ := nofun
  resetObs _ _ := nofun

/-! ## C104 -/

/-- **C104.**  In any history, a handling that was completed called the handler's method once and
with the message that was handled, or else did nothing but find out why it should not be. -/
theorem C104_heard {A : App W R} (wf : A.WF) {s : Sys W R} (hs : Reach A s) (now : Time)
    (h : HConfig) (env : Env) (seg : List (Obs R)) (err : Option Err)
    (hm : .handled now h env seg err ∈ happenings s.trace) : Heard A h env seg err :=
  ((heard_refine A).reach wf hs).1 now h env seg err hm

/-- **C104.**  Handlers' methods are called only in handlings, and not when the handling has
already called one. -/
theorem C104_once {A : App W R} (wf : A.WF) {s : Sys W R} (hs : Reach A s) :
    Always (fun pre o => o.invokes = true → ∃ h env seg, (scan pre).cur = some (h, env, seg) ∧
      ∀ o ∈ seg, o.invokes = false) s.trace :=
  ((heard_refine A).reach wf hs).2

namespace Demo

/-- A process that does not care for every event and cannot tell about some, and a projection that
knows some already and cannot tell about others. -/
def fussy : App Nat (List String) :=
  { app with uc := { uc with
      procRoute := fun _ m w => (w, .ok (if m.body = "unclear" then .error "what is this?"
        else if m.body = "boring" then .ok none else .ok (some "p")))
      prjVersion := fun _ id w => (w, .ok (if id % 3 = 0 then .error "no connection"
        else if id % 3 = 1 then .ok [1] else .ok [])) } }

theorem fussy_wf : fussy.WF := ⟨app_wf.names, app_wf.handlers⟩

/-- Dispatch events that are unclear, boring and neither, and tick twice. -/
def fussyOps : List Op :=
  [.dispatch 20 ⟨evtE, "unclear", none⟩ [.currentTime 1],
   .dispatch 20 ⟨evtE, "boring", none⟩ [.currentTime 2],
   .dispatch 20 ⟨evtE, "x", none⟩ [.currentTime 3],
   .dispatch 20 ⟨evtE, "y", none⟩ [.currentTime 4],
   .tick 20 [agg, proc, int, prj] [.currentTime 10]]

theorem fussyOps_ok : ∀ op ∈ fussyOps, op.ok fussy := by
  intro op ho
  simp only [fussyOps, List.mem_cons, List.not_mem_nil, or_false] at ho
  rcases ho with rfl | rfl | rfl | rfl | rfl
  · trivial
  · trivial
  · trivial
  · trivial
  · exact List.Perm.refl _

def fussyEnd : Sys Nat (List String) := runOps fussy fussyOps (Sys.init 0)

/-- Who handled what, how often the method was called, how much was observed, and the error. -/
def heardBy (t : List (Obs (List String))) : List (String × String × Nat × Nat × Option Err) :=
  (happenings t).filterMap fun
    | .handled _ h env seg err =>
      some (h.name, env.msg.body, (invocations seg).length, seg.length, err)
    | .ticked .. => none

set_option maxRecDepth 100000 in
/-- Seven handlings gave the handler its message.  The others have each of the reasons: the router
failed; the event was known; the router ignored the event; the projection had no answer; and the
timeout of `y` came when the timeout of `x` had ended the instance. -/
example : fussy.WF ∧ Reach fussy fussyEnd ∧ heardBy fussyEnd.trace =
    [("proc", "unclear", 0, 1, some "what is this?"), ("prj", "unclear", 0, 1, none),
     ("proc", "boring", 0, 2, none), ("prj", "boring", 1, 4, none),
     ("proc", "x", 1, 7, none), ("prj", "x", 0, 1, some "no connection"),
     ("int", "x", 1, 3, none), ("prj", "x", 0, 1, some "no connection"),
     ("proc", "y", 1, 5, none), ("prj", "y", 0, 1, none),
     ("int", "y", 1, 3, none), ("prj", "y", 0, 1, none),
     ("proc", "x", 1, 4, none), ("proc", "y", 0, 1, none),
     ("int", "x", 1, 3, none), ("prj", "x", 0, 1, some "no connection")] := by
  refine ⟨fussy_wf, runOps_reach fussyOps fussyOps_ok (.init 0), ?_⟩
  decide +kernel

end Demo

end Verif
