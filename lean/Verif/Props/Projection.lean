import Verif.Frame
import Verif.Props.Panic
import Verif.Demo

/-!
# Properties of projections: concurrency control, errors, parallel compaction

C39, C41, C42.
-/

namespace Verif

variable {W R : Type}

/-- `Runs p ts a`: the program can log exactly the texts `ts`, in that order, and return `a`
(whatever it reads from the world on its way). -/
inductive Runs {α : Type} : Prog W PrjOp α → List String → α → Prop where
  | ret (a : α) : Runs (.ret a) [] a
  | get {k : W → Prog W PrjOp α} {ts : List String} {a : α} (w : W) (h : Runs (k w) ts a) :
      Runs (.get k) ts a
  | set {w : W} {k : Prog W PrjOp α} {ts : List String} {a : α} (h : Runs k ts a) :
      Runs (.set w k) ts a
  | log {t : String} {k : Option PanicVal → Prog W PrjOp α} {ts : List String} {a : α}
      (h : Runs (k none) ts a) : Runs (.op (.log t) k) (t :: ts) a

/-- The texts logged through the scope of `HandleEvent`. -/
def handlerLogs (l : List (Obs R)) : List String :=
  l.filterMap fun
    | .fact (.prjLog _ (some _) t) => some t
    | _ => none

/-- The texts logged through the scope of `Compact`. -/
def compactLogs (l : List (Obs R)) : List String :=
  l.filterMap fun
    | .fact (.prjLog _ none t) => some t
    | _ => none

/-- A log message of the projection, from either side. -/
def IsLog (h : HConfig) (env : Env) (o : Obs R) : Prop :=
  (∃ t, o = .fact (.prjLog h (some env) t)) ∨ ∃ t, o = .fact (.prjLog h none t)

theorem handlerLogs_cons_some (h : HConfig) (e : Env) (t : String) (l : List (Obs R)) :
    handlerLogs (.fact (.prjLog h (some e) t) :: l) = t :: handlerLogs l := rfl

theorem handlerLogs_cons_none (h : HConfig) (t : String) (l : List (Obs R)) :
    handlerLogs (.fact (.prjLog h none t) :: l) = handlerLogs l := rfl

theorem compactLogs_cons_some (h : HConfig) (e : Env) (t : String) (l : List (Obs R)) :
    compactLogs (.fact (.prjLog h (some e) t) :: l) = compactLogs l := rfl

theorem compactLogs_cons_none (h : HConfig) (t : String) (l : List (Obs R)) :
    compactLogs (.fact (.prjLog h none t) :: l) = t :: compactLogs l := rfl

/-- Running one side alone. -/
theorem prjRun_runs {α : Type} (h : HConfig) (env : Option Env) (p : Prog W PrjOp α)
    (s : Sys W R) : ∃ logs ts, (prjRun h env p s).1.trace = s.trace ++ logs ∧
      logs = ts.map (fun t => .fact (.prjLog h env t)) ∧
      ∀ a, (prjRun h env p s).2 = .ok a → Runs p ts a := by
  induction p generalizing s with
  | ret a =>
    refine ⟨[], [], by simp [prjRun], rfl, ?_⟩
    intro b hb; cases hb; exact .ret _
  | panic v => exact ⟨[], [], by simp [prjRun], rfl, fun a ha => by cases ha⟩
  | get k ih =>
    obtain ⟨logs, ts, h1, h2, h3⟩ := ih s.w s
    exact ⟨logs, ts, h1, h2, fun a ha => .get _ (h3 a ha)⟩
  | set w k ih =>
    obtain ⟨logs, ts, h1, h2, h3⟩ := ih { s with w := w }
    exact ⟨logs, ts, h1, h2, fun a ha => .set (h3 a ha)⟩
  | op o k ih =>
    cases o with
    | log t =>
      obtain ⟨logs, ts, h1, h2, h3⟩ := ih none (s.notify (.prjLog h env t))
      refine ⟨.fact (.prjLog h env t) :: logs, t :: ts, ?_, by rw [h2]; rfl,
        fun a ha => .log (h3 a ha)⟩
      unfold prjRun; rw [h1]; simp

theorem logs_some (h : HConfig) (env : Env) (ts : List String) :
    handlerLogs (ts.map (fun t => (.fact (.prjLog h (some env) t) : Obs R))) = ts ∧
    compactLogs (ts.map (fun t => (.fact (.prjLog h (some env) t) : Obs R))) = [] := by
  induction ts with
  | nil => exact ⟨rfl, rfl⟩
  | cons t ts ih =>
    simp only [List.map_cons, handlerLogs_cons_some, compactLogs_cons_some, ih, and_self]

theorem logs_none (h : HConfig) (ts : List String) :
    handlerLogs (ts.map (fun t => (.fact (.prjLog h none t) : Obs R))) = [] ∧
    compactLogs (ts.map (fun t => (.fact (.prjLog h none t) : Obs R))) = ts := by
  induction ts with
  | nil => exact ⟨rfl, rfl⟩
  | cons t ts ih =>
    simp only [List.map_cons, handlerLogs_cons_none, compactLogs_cons_none, ih, and_self]

theorem handlerLogs_append (a b : List (Obs R)) :
    handlerLogs (a ++ b) = handlerLogs a ++ handlerLogs b := List.filterMap_append

theorem compactLogs_append (a b : List (Obs R)) :
    compactLogs (a ++ b) = compactLogs a ++ compactLogs b := List.filterMap_append

theorem prjPar_runs (h : HConfig) (env : Env) (bs : List Bool)
    (hp : Prog W PrjOp (Except Err Bool)) (cp : Prog W PrjOp (Option Err)) (s : Sys W R) :
    ∃ logs, (prjPar h env bs hp cp s).1.trace = s.trace ++ logs ∧
      (∀ o ∈ logs, IsLog h env o) ∧
      ∀ r ce, (prjPar h env bs hp cp s).2 = .ok (r, ce) →
        Runs hp (handlerLogs logs) r ∧ Runs cp (compactLogs logs) ce := by
  induction bs generalizing hp cp s with
  | nil =>
    unfold prjPar
    obtain ⟨l1, t1, h1, h2, h3⟩ := prjRun_runs h (some env) hp s
    have hl1 : ∀ o ∈ l1, IsLog h env o := by
      intro o ho
      rw [h2] at ho
      obtain ⟨t, _, rfl⟩ := List.mem_map.1 ho
      exact .inl ⟨t, rfl⟩
    split
    · rename_i he
      rw [he] at h1
      exact ⟨l1, h1, hl1, fun r ce hr => by cases hr⟩
    · rename_i s1 r he
      rw [he] at h1 h3
      obtain ⟨l2, t2, k1, k2, k3⟩ := prjRun_runs h none cp s1
      have hl2 : ∀ o ∈ l1 ++ l2, IsLog h env o := by
        intro o ho
        rcases List.mem_append.1 ho with ho | ho
        · exact hl1 o ho
        · rw [k2] at ho
          obtain ⟨t, _, rfl⟩ := List.mem_map.1 ho
          exact .inr ⟨t, rfl⟩
      simp only at h1
      split
      · rename_i he2
        rw [he2] at k1
        exact ⟨l1 ++ l2, by simp only at k1 ⊢; rw [k1, h1, List.append_assoc], hl2,
          fun r ce hr => by cases hr⟩
      · rename_i s2 ce he2
        rw [he2] at k1 k3
        refine ⟨l1 ++ l2, by simp only at k1 ⊢; rw [k1, h1, List.append_assoc], hl2, ?_⟩
        intro r' ce' hr
        cases hr
        rw [handlerLogs_append, compactLogs_append, h2, k2, (logs_some h env t1).1,
          (logs_some h env t1).2, (logs_none h t2).1, (logs_none h t2).2]
        exact ⟨by simpa using h3 _ rfl, by simpa using k3 _ rfl⟩
  | cons b bs ih =>
    unfold prjPar
    split
    · exact ⟨[], by simp, by simp, fun r ce hr => by cases hr⟩
    · exact ⟨[], by simp, by simp, fun r ce hr => by cases hr⟩
    · split
      · cases cp with
        | ret a => exact ih _ _ _
        | panic v => exact ih _ _ _
        | get k =>
          obtain ⟨logs, h1, h2, h3⟩ := ih hp (k s.w) s
          exact ⟨logs, h1, h2, fun r ce hr => ⟨(h3 r ce hr).1, .get _ (h3 r ce hr).2⟩⟩
        | set w k =>
          obtain ⟨logs, h1, h2, h3⟩ := ih hp k { s with w := w }
          exact ⟨logs, h1, h2, fun r ce hr => ⟨(h3 r ce hr).1, .set (h3 r ce hr).2⟩⟩
        | op o k =>
          cases o with
          | log t =>
            obtain ⟨logs, h1, h2, h3⟩ := ih hp (k none) (s.notify (.prjLog h none t))
            refine ⟨.fact (.prjLog h none t) :: logs, ?_, ?_, ?_⟩
            · refine h1.trans ?_
              simp
            · intro o ho
              rcases List.mem_cons.1 ho with rfl | ho
              · exact .inr ⟨t, rfl⟩
              · exact h2 o ho
            · intro r ce hr
              exact ⟨(h3 r ce hr).1, .log (h3 r ce hr).2⟩
      · cases hp with
        | ret a => exact ih _ _ _
        | panic v => exact ih _ _ _
        | get k =>
          obtain ⟨logs, h1, h2, h3⟩ := ih (k s.w) cp s
          exact ⟨logs, h1, h2, fun r ce hr => ⟨.get _ (h3 r ce hr).1, (h3 r ce hr).2⟩⟩
        | set w k =>
          obtain ⟨logs, h1, h2, h3⟩ := ih k cp { s with w := w }
          exact ⟨logs, h1, h2, fun r ce hr => ⟨.set (h3 r ce hr).1, (h3 r ce hr).2⟩⟩
        | op o k =>
          cases o with
          | log t =>
            obtain ⟨logs, h1, h2, h3⟩ := ih (k none) cp (s.notify (.prjLog h (some env) t))
            refine ⟨.fact (.prjLog h (some env) t) :: logs, ?_, ?_, ?_⟩
            · refine h1.trans ?_
              simp
            · intro o ho
              rcases List.mem_cons.1 ho with rfl | ho
              · exact .inl ⟨t, rfl⟩
              · exact h2 o ho
            · intro r ce hr
              exact ⟨.log (h3 r ce hr).1, (h3 r ce hr).2⟩

/-- What `HandleEvent`, with or without compaction, adds to the trace. -/
def ApplySeg (A : App W R) (h : HConfig) (now : Time) (env : Env) (logs : List (Obs R))
    (ce : Option Err) : List (Obs R) :=
  if A.compactDuringHandling then
    .fact (.prjCompactBegun h) :: .call (.prjCompact h now) ::
      .call (.prjHandle h env.id [] [1] env.msg) :: logs ++ [.fact (.prjCompactCompleted h ce)]
  else .call (.prjHandle h env.id [] [1] env.msg) :: logs

theorem prjApply_sum (A : App W R) (h : HConfig) (now : Time) (env : Env) (s : Sys W R) :
    ∃ logs seg, (prjApply A h now env s).1.trace = s.trace ++ seg ∧
      (∀ o ∈ logs, IsLog h env o) ∧
      match (prjApply A h now env s).2 with
      | .ok (r, ce) => seg = ApplySeg A h now env logs ce ∧
          Runs (A.uc.prjHandle h env.id [] [1] env.msg env.createdAt) (handlerLogs logs) r ∧
          if A.compactDuringHandling then Runs (A.uc.prjCompact h now) (compactLogs logs) ce
          else ce = none ∧ compactLogs logs = []
      | .error _ => ∃ ce, seg ++ [.fact (.prjCompactCompleted h ce)] = ApplySeg A h now env logs ce
          ∨ seg = ApplySeg A h now env logs ce := by
  by_cases hc : A.compactDuringHandling = true
  · unfold prjApply ApplySeg
    simp only [hc, if_true]
    obtain ⟨logs, h1, h2, h3⟩ := prjPar_runs h env (A.uc.schedule s.w)
      (A.uc.prjHandle h env.id [] [1] env.msg env.createdAt) (A.uc.prjCompact h now)
      (((s.notify (.prjCompactBegun h)).emit (.call (.prjCompact h now))).emit
        (.call (.prjHandle h env.id [] [1] env.msg)))
    rcases hx : prjPar h env (A.uc.schedule s.w)
      (A.uc.prjHandle h env.id [] [1] env.msg env.createdAt) (A.uc.prjCompact h now)
      (((s.notify (.prjCompactBegun h)).emit (.call (.prjCompact h now))).emit
        (.call (.prjHandle h env.id [] [1] env.msg))) with ⟨s1, v | ⟨r, ce⟩⟩
    · rw [hx] at h1
      simp only at h1 ⊢
      exact ⟨logs, .fact (.prjCompactBegun h) :: .call (.prjCompact h now) ::
        .call (.prjHandle h env.id [] [1] env.msg) :: logs, by rw [h1]; simp, h2, none, .inl rfl⟩
    · rw [hx] at h1 h3
      simp only at h1 ⊢
      refine ⟨logs, _, ?_, h2, rfl, h3 r ce rfl⟩
      simp [Sys.notify, Sys.emit, h1]
  · have hc : A.compactDuringHandling = false := by simpa using hc
    unfold prjApply ApplySeg
    simp only [hc, Bool.false_eq_true, if_false]
    obtain ⟨logs, ts, h1, h2, h3⟩ := prjRun_runs h (some env)
      (A.uc.prjHandle h env.id [] [1] env.msg env.createdAt)
      (s.emit (.call (.prjHandle h env.id [] [1] env.msg)))
    have hl : ∀ o ∈ logs, IsLog h env o := by
      intro o ho
      rw [h2] at ho
      obtain ⟨t, _, rfl⟩ := List.mem_map.1 ho
      exact .inl ⟨t, rfl⟩
    rcases hx : prjRun h (some env) (A.uc.prjHandle h env.id [] [1] env.msg env.createdAt)
      (s.emit (.call (.prjHandle h env.id [] [1] env.msg))) with ⟨s1, v | r⟩
    · rw [hx] at h1
      simp only at h1 ⊢
      exact ⟨logs, .call (.prjHandle h env.id [] [1] env.msg) :: logs, by rw [h1]; simp, hl, none,
        .inr rfl⟩
    · rw [hx] at h1 h3
      simp only at h1 ⊢
      have := h3 r rfl
      refine ⟨logs, .call (.prjHandle h env.id [] [1] env.msg) :: logs, by rw [h1]; simp, hl, rfl, ?_, trivial, ?_⟩
      · rw [h2, (logs_some h env ts).1]; exact this
      · rw [h2, (logs_some h env ts).2]

/-- The whole handling, once the version is known to be empty. -/
theorem prjHandle_sum (A : App W R) (h : HConfig) (now : Time) (env : Env) (s : Sys W R)
    (ha : Accepts h env .projection .event)
    (hv : (A.uc.prjVersion h env.id s.w).2 = .ok (.ok [])) :
    ∃ logs, (∀ o ∈ logs, IsLog h env o) ∧
    match (ctlHandle A h now env s).2 with
    | .error _ =>
      (∃ seg ce, (ctlHandle A h now env s).1.trace = s.trace ++ .call (.prjVersion h env.id) :: seg ∧
        (seg ++ [.fact (.prjCompactCompleted h ce)] = ApplySeg A h now env logs ce ∨
          seg = ApplySeg A h now env logs ce)) ∨
      ∃ ce, (∃ ts, Runs (A.uc.prjHandle h env.id [] [1] env.msg env.createdAt) ts (.ok true)) ∧
        (ctlHandle A h now env s).1.trace = s.trace ++ .call (.prjVersion h env.id) ::
          (ApplySeg A h now env logs ce ++ [.call (.prjClose h env.id)])
    | .ok (envs, er) => envs = [] ∧ ∃ r ce,
      Runs (A.uc.prjHandle h env.id [] [1] env.msg env.createdAt) (handlerLogs logs) r ∧
      (if A.compactDuringHandling then Runs (A.uc.prjCompact h now) (compactLogs logs) ce
        else ce = none ∧ compactLogs logs = []) ∧
      (ctlHandle A h now env s).1.trace = s.trace ++ .call (.prjVersion h env.id) ::
        (ApplySeg A h now env logs ce ++
          match r with
          | .ok true => [.call (.prjClose h env.id)]
          | _ => []) ∧
      match r with
      | .error e => er = some e
      | .ok false => er = ce
      | .ok true => ∃ c w, (A.uc.prjClose h env.id w).2 = .ok c ∧ er = c.or ce := by
  have hc : ctlHandle A h now env s = (match prjApply A h now env
      { s.emit (.call (.prjVersion h env.id)) with w := (A.uc.prjVersion h env.id s.w).1 } with
      | (s, .error v) => (s, .error v)
      | (s, .ok (r, ce)) => prjFinish A h env r ce s) := by
    unfold ctlHandle prjHandle
    simp only [ha.htype, accepts_consumes ha, ha.kind, Sys.user, hv, if_false, ne_eq,
      not_true_eq_false, Bool.true_eq_false]
    rfl
  generalize hs : ({ s.emit (.call (.prjVersion h env.id)) with
    w := (A.uc.prjVersion h env.id s.w).1 } : Sys W R) = s0 at hc
  have ht0 : s0.trace = s.trace ++ [.call (.prjVersion h env.id)] := by rw [← hs]; simp
  obtain ⟨logs, seg, h1, h2, h3⟩ := prjApply_sum A h now env s0
  rw [hc]
  refine ⟨logs, h2, ?_⟩
  rcases hx : prjApply A h now env s0 with ⟨s1, v | ⟨r, ce⟩⟩
  · rw [hx] at h1 h3
    simp only at h1 h3 ⊢
    obtain ⟨ce, h3⟩ := h3
    exact .inl ⟨seg, ce, by rw [h1, ht0]; simp, h3⟩
  · rw [hx] at h1 h3
    simp only at h1 h3 ⊢
    obtain ⟨h3, h4, h5⟩ := h3
    rw [ht0, h3] at h1
    unfold prjFinish
    cases r with
    | error e => exact ⟨rfl, .error e, ce, h4, h5, by rw [h1]; simp, rfl⟩
    | ok b =>
      cases b with
      | false => exact ⟨rfl, .ok false, ce, h4, h5, by rw [h1]; simp, rfl⟩
      | true =>
        simp only
        rcases hu : s1.user (.prjClose h env.id) (A.uc.prjClose h env.id) with ⟨s2, v | c⟩
        · obtain ⟨rfl, hv⟩ := user_eq hu
          exact .inr ⟨ce, ⟨_, h4⟩, by simp [h1]⟩
        · obtain ⟨rfl, hv⟩ := user_eq hu
          cases c with
          | none => exact ⟨rfl, .ok true, ce, h4, h5, by simp [h1], none, _, hv.symm, rfl⟩
          | some e => exact ⟨rfl, .ok true, ce, h4, h5, by simp [h1], some e, _, hv.symm, rfl⟩

/-! ## C39 -/

/-- The calls of the user's projection methods, other than `Compact`. -/
def occCalls (t : List (Obs R)) : List (Call R) :=
  t.filterMap fun
    | .call (.prjCompact _ _) => none
    | .call c => some c
    | _ => none

theorem occCalls_append (a b : List (Obs R)) : occCalls (a ++ b) = occCalls a ++ occCalls b :=
  List.filterMap_append

theorem occCalls_logs {h : HConfig} {env : Env} {logs : List (Obs R)}
    (hl : ∀ o ∈ logs, IsLog h env o) : occCalls logs = [] := by
  unfold occCalls
  rw [List.filterMap_eq_nil_iff]
  intro o ho
  rcases hl o ho with ⟨t, rfl⟩ | ⟨t, rfl⟩ <;> rfl

theorem occCalls_apply {A : App W R} {h : HConfig} {now : Time} {env : Env} {logs : List (Obs R)}
    (hl : ∀ o ∈ logs, IsLog h env o) (ce : Option Err) :
    occCalls (ApplySeg A h now env logs ce) = [.prjHandle h env.id [] [1] env.msg] := by
  unfold ApplySeg
  have h0 := occCalls_logs hl
  split
  · have : ∀ l : List (Obs R), occCalls (.fact (.prjCompactBegun h) :: .call (.prjCompact h now) ::
        .call (.prjHandle h env.id [] [1] env.msg) :: l) = .prjHandle h env.id [] [1] env.msg :: occCalls l :=
      fun _ => rfl
    rw [List.cons_append, List.cons_append, List.cons_append, this, occCalls_append, h0]
    rfl
  · have : ∀ l : List (Obs R), occCalls (.call (.prjHandle h env.id [] [1] env.msg) :: l) =
        .prjHandle h env.id [] [1] env.msg :: occCalls l := fun _ => rfl
    rw [this, h0]

/-- **C39.** Offered an event, a projection is first asked for the version of the resource
named after the event.  Unless that is empty, nothing else happens.  Otherwise it is given the
event once, and the resource is closed once, as the last thing, iff `HandleEvent` reported
success without an error. -/
theorem C39_protocol (A : App W R) (h : HConfig) (now : Time) (env : Env) (s : Sys W R)
    (ha : Accepts h env .projection .event) :
    match (A.uc.prjVersion h env.id s.w).2 with
    | .ok (.ok []) =>
      (occCalls (during s (ctlHandle A h now env s).1) =
          [.prjVersion h env.id, .prjHandle h env.id [] [1] env.msg] ∧
        ∀ envs er, (ctlHandle A h now env s).2 = .ok (envs, er) →
          ∃ ts r, Runs (A.uc.prjHandle h env.id [] [1] env.msg env.createdAt) ts r ∧ r ≠ .ok true) ∨
      (occCalls (during s (ctlHandle A h now env s).1) =
          [.prjVersion h env.id, .prjHandle h env.id [] [1] env.msg, .prjClose h env.id] ∧
        (during s (ctlHandle A h now env s).1).getLast? = some (.call (.prjClose h env.id)) ∧
        ∃ ts, Runs (A.uc.prjHandle h env.id [] [1] env.msg env.createdAt) ts (.ok true))
    | _ => during s (ctlHandle A h now env s).1 = [.call (.prjVersion h env.id)] := by
  have hseg : ∀ l : List (Obs R), occCalls (.call (.prjVersion h env.id) :: l) =
      .prjVersion h env.id :: occCalls l := fun _ => rfl
  split
  · rename_i hv
    obtain ⟨logs, h1, h2⟩ := prjHandle_sum A h now env s ha hv
    rcases hr : (ctlHandle A h now env s).2 with v | ⟨envs, er⟩
    · rw [hr] at h2
      rcases h2 with ⟨seg, ce, h2, h3⟩ | ⟨ce, h3, h2⟩
      · left
        refine ⟨?_, fun _ _ h => by cases h⟩
        rw [show during s (ctlHandle A h now env s).1 = .call (.prjVersion h env.id) :: seg by
          simp [during, h2], hseg]
        have h4 := occCalls_apply (A := A) (now := now) h1 ce
        rcases h3 with h3 | h3
        · rw [← h3, occCalls_append] at h4
          have : occCalls ([.fact (.prjCompactCompleted h ce)] : List (Obs R)) = [] := rfl
          rw [this, List.append_nil] at h4
          rw [h4]
        · rw [h3, h4]
      · right
        rw [show during s (ctlHandle A h now env s).1 = .call (.prjVersion h env.id) ::
          (ApplySeg A h now env logs ce ++ [.call (.prjClose h env.id)]) by simp [during, h2],
          hseg, occCalls_append, occCalls_apply h1]
        exact ⟨rfl, by rw [← List.cons_append, List.getLast?_concat], h3⟩
    · rw [hr] at h2
      obtain ⟨_, r, ce, h3, _, h4, _⟩ := h2
      rw [during_seg h4, hseg, occCalls_append, occCalls_apply h1]
      by_cases hrt : r = .ok true
      · subst hrt
        exact .inr ⟨rfl, by rw [← List.cons_append, List.getLast?_concat], _, h3⟩
      · left
        refine ⟨?_, fun _ _ _ => ⟨_, r, h3, hrt⟩⟩
        cases r with
        | error e => rfl
        | ok b =>
          cases b with
          | false => rfl
          | true => exact absurd rfl hrt
  · rename_i hv
    have : (ctlHandle A h now env s).1.trace = s.trace ++ [.call (.prjVersion h env.id)] := by
      unfold ctlHandle prjHandle
      simp only [ha.htype, accepts_consumes ha, ha.kind, Sys.user, if_false, ne_eq,
        not_true_eq_false, Bool.true_eq_false]
      cases hx : (A.uc.prjVersion h env.id s.w).2 with
      | error v => simp [Sys.emit]
      | ok x =>
        cases x with
        | error e => simp [Sys.emit]
        | ok b =>
          cases b with
          | cons _ _ => simp [Sys.emit]
          | nil => exact absurd hx hv
    simp [during, this]

/-- **C39.** Projections produce no messages. -/
theorem C39_no_messages (A : App W R) (h : HConfig) (ht : h.htype = .projection) (now : Time)
    (env : Env) (s : Sys W R) (envs : List Env) (er : Option Err)
    (hr : (ctlHandle A h now env s).2 = .ok (envs, er)) :
    envs = [] ∧ createdIn (during s (ctlHandle A h now env s).1) = [] := by
  by_cases ha : Accepts h env .projection .event
  · by_cases hv : (A.uc.prjVersion h env.id s.w).2 = .ok (.ok [])
    · obtain ⟨logs, h1, h2⟩ := prjHandle_sum A h now env s ha hv
      rw [hr] at h2
      obtain ⟨h0, r, ce, _, _, h4, _⟩ := h2
      refine ⟨h0, ?_⟩
      unfold during
      rw [h4, List.drop_left]
      have hl : createdIn logs = [] := by
        unfold createdIn
        rw [List.filterMap_eq_nil_iff]
        intro o ho
        rcases h1 o ho with ⟨t, rfl⟩ | ⟨t, rfl⟩ <;> rfl
      have happ : ∀ a b : List (Obs R), createdIn (a ++ b) = createdIn a ++ createdIn b :=
        fun a b => List.filterMap_append
      have hc : ∀ (c : Call R) (l : List (Obs R)), createdIn (.call c :: l) = createdIn l :=
        fun _ _ => rfl
      rw [hc, happ]
      have h5 : createdIn (ApplySeg A h now env logs ce) = [] := by
        unfold ApplySeg
        split
        · rw [List.cons_append, List.cons_append, List.cons_append]
          have : ∀ l : List (Obs R), createdIn (.fact (.prjCompactBegun h) :: l) = createdIn l :=
            fun _ => rfl
          rw [this, hc, hc, happ, hl]; rfl
        · rw [hc, hl]
      rw [h5]
      cases r with
      | error e => rfl
      | ok b => cases b <;> rfl
    · have h1 := C39_protocol A h now env s ha
      split at h1
      · exact absurd ‹_› hv
      · rw [h1]
        refine ⟨?_, rfl⟩
        revert hr
        unfold ctlHandle prjHandle
        simp only [ha.htype, accepts_consumes ha, ha.kind, Sys.user, if_false, ne_eq,
          not_true_eq_false, Bool.true_eq_false]
        cases hx : (A.uc.prjVersion h env.id s.w).2 with
        | error v => intro hr; cases hr
        | ok x =>
          cases x with
          | error e => intro hr; cases hr; rfl
          | ok b =>
            cases b with
            | cons _ _ => intro hr; cases hr; rfl
            | nil => exact absurd hx hv
  · exfalso
    revert hr
    unfold ctlHandle prjHandle
    rw [ht]
    simp only
    split
    · intro hr; cases hr
    · rename_i hc
      split
      · intro hr; cases hr
      · rename_i hk
        refine absurd ⟨ht, Classical.not_not.1 hk, ?_⟩ ha
        simpa [HConfig.consumes?] using hc

/-! ## C42 -/

/-- **C42.** An error of `ResourceVersion` is the error of the handling. -/
theorem C42_version_error (A : App W R) (h : HConfig) (now : Time) (env : Env) (s : Sys W R)
    (ha : Accepts h env .projection .event) (e : Err)
    (hv : (A.uc.prjVersion h env.id s.w).2 = .ok (.error e)) :
    (ctlHandle A h now env s).2 = .ok ([], some e) := by
  unfold ctlHandle prjHandle
  simp only [ha.htype, accepts_consumes ha, ha.kind, Sys.user, hv, if_false, ne_eq,
    not_true_eq_false, Bool.true_eq_false]

/-- **C42.** Otherwise it is `HandleEvent`'s error, else `CloseResource`'s, else `Compact`'s
(the one announced by the "compaction completed" fact). -/
theorem C42_precedence (A : App W R) (h : HConfig) (now : Time) (env : Env) (s : Sys W R)
    (ha : Accepts h env .projection .event)
    (hv : (A.uc.prjVersion h env.id s.w).2 = .ok (.ok [])) (envs : List Env) (er : Option Err)
    (hr : (ctlHandle A h now env s).2 = .ok (envs, er)) :
    ∃ r ce, (∃ ts, Runs (A.uc.prjHandle h env.id [] [1] env.msg env.createdAt) ts r) ∧
      (if A.compactDuringHandling then
        .fact (.prjCompactCompleted h ce) ∈ during s (ctlHandle A h now env s).1 ∧
          ∃ ts, Runs (A.uc.prjCompact h now) ts ce
      else ce = none) ∧
      match r with
      | .error e => er = some e
      | .ok false => er = ce
      | .ok true => ∃ c w, (A.uc.prjClose h env.id w).2 = .ok c ∧ er = c.or ce := by
  obtain ⟨logs, h1, h2⟩ := prjHandle_sum A h now env s ha hv
  rw [hr] at h2
  obtain ⟨_, r, ce, h3, h5, h4, h6⟩ := h2
  refine ⟨r, ce, ⟨_, h3⟩, ?_, h6⟩
  split
  · rename_i hc
    rw [if_pos hc] at h5
    refine ⟨?_, _, h5⟩
    unfold during
    rw [h4, List.drop_left]
    unfold ApplySeg
    rw [if_pos hc]
    simp
  · rename_i hc
    rw [if_neg hc] at h5
    exact h5.1

/-! ## C41 -/

/-- **C41.** When compaction runs in parallel with handling then, under every schedule of the
two goroutines, "compaction begun" comes before and "compaction completed" after every log
message of both sides; each side's messages appear completely and in the order in which that
side logged them. -/
theorem C41_bracketed (A : App W R) (h : HConfig) (now : Time) (env : Env) (s : Sys W R)
    (hc : A.compactDuringHandling = true) (ha : Accepts h env .projection .event)
    (hv : (A.uc.prjVersion h env.id s.w).2 = .ok (.ok [])) (envs : List Env) (er : Option Err)
    (hr : (ctlHandle A h now env s).2 = .ok (envs, er)) :
    ∃ pre logs post r ce,
      during s (ctlHandle A h now env s).1 = pre ++ [.fact (.prjCompactBegun h)] ++ logs ++
        [.fact (.prjCompactCompleted h ce)] ++ post ∧
      handlerLogs pre = [] ∧ compactLogs pre = [] ∧ handlerLogs post = [] ∧ compactLogs post = [] ∧
      Runs (A.uc.prjHandle h env.id [] [1] env.msg env.createdAt) (handlerLogs logs) r ∧
      Runs (A.uc.prjCompact h now) (compactLogs logs) ce := by
  obtain ⟨logs, h1, h2⟩ := prjHandle_sum A h now env s ha hv
  rw [hr] at h2
  obtain ⟨_, r, ce, h3, h5, h4, h6⟩ := h2
  rw [if_pos hc] at h5
  obtain ⟨post, h4, k1, k2⟩ : ∃ post : List (Obs R), (ctlHandle A h now env s).1.trace =
      s.trace ++ .call (.prjVersion h env.id) :: (ApplySeg A h now env logs ce ++ post) ∧
      handlerLogs post = [] ∧ compactLogs post = [] := by
    cases r with
    | error e => exact ⟨[], h4, rfl, rfl⟩
    | ok b =>
      cases b with
      | false => exact ⟨[], h4, rfl, rfl⟩
      | true => exact ⟨_, h4, rfl, rfl⟩
  exact ⟨[.call (.prjVersion h env.id)], .call (.prjCompact h now) ::
      .call (.prjHandle h env.id [] [1] env.msg) :: logs, post, r, ce, by
        unfold during
        rw [h4, List.drop_left]
        unfold ApplySeg
        rw [if_pos hc]
        simp, rfl, rfl, k1, k2, h3, h5⟩

namespace Demo

/-- A projection with two log messages on either side, run in parallel: the goroutines take
turns. -/
def parallel : App Nat (List String) :=
  { app with
    compactDuringHandling := true
    uc := { uc with
      prjHandle := fun _ _ _ _ _ _ => ops (.ok true) [.log "h1", .log "h2"]
      prjCompact := fun _ _ => ops (some "compact failed") [.log "c1", .log "c2"]
      schedule := fun _ => [true, false, true, false] } }

def parEnv : Env := Env.root 1 ⟨evtE, "x", none⟩ 0

def parRes : Sys Nat (List String) × HRes := ctlHandle parallel prj 5 parEnv (Sys.init 0)

/-- The hypotheses of C39, C41 and C42 are met, with a real interleaving: the close succeeds,
so the error is that of the compaction. -/
example : Accepts prj parEnv .projection .event ∧
    (parRes.2 matches .ok ([], some "compact failed")) ∧
    parRes.1.trace = [.call (.prjVersion prj 1), .fact (.prjCompactBegun prj),
      .call (.prjCompact prj 5), .call (.prjHandle prj 1 [] [1] ⟨evtE, "x", none⟩),
      .fact (.prjLog prj none "c1"), .fact (.prjLog prj (some parEnv) "h1"),
      .fact (.prjLog prj none "c2"), .fact (.prjLog prj (some parEnv) "h2"),
      .fact (.prjCompactCompleted prj (some "compact failed")), .call (.prjClose prj 1)] := by
  refine ⟨⟨rfl, rfl, by decide⟩, ?_⟩
  decide +kernel

end Demo

end Verif
