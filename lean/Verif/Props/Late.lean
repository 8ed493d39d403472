import Verif.Late
import Verif.WatchedGrow
import Verif.Shift
import Verif.Props.Watched
import Verif.Props.EngineSerial

/-!
# Scopes that are used too late (C114)
-/

namespace Verif

variable {W R : Type}

/-! ## Specification -/

/-- What is observed of the operations. -/
def ownOf (T : List (Bool × Obs R)) : List (Obs R) := (T.filter (fun x => !x.1)).map (·.2)

/-- The messages that late uses of scopes have made since the last reset. -/
def lateMade (T : List (Bool × Obs R)) : List Env :=
  T.foldl (fun acc x => match x.2 with
    | .reset => []
    | o => if x.1 then acc ++ o.created.toList else acc) []

/-! ## Proof -/

/-- What a late use adds. -/
structure LateSum (h : HConfig) (env : Env) (now : Time) (s : Sys W R) (r : Sys W R × Option PanicVal) :
    Prop where
  still : Still s r.1
  grown : ∃ seg, r.1.trace = s.trace ++ seg ∧ dispatchedIn seg = [] ∧ (∀ o ∈ seg, o ≠ .reset) ∧
    ((createdIn seg = [] ∧ r.1.nextID = s.nextID) ∨
      ∃ e o, createdIn seg = [e] ∧ r.2 = none ∧ r.1.nextID = s.nextID + 1 ∧ e.id = s.nextID + 1 ∧
        e.causation = env.id ∧ e.correlation = env.correlation ∧ e.createdAt = now ∧
        e.origin = some o ∧ o.handler = h)

theorem LateSum.none_ {h : HConfig} {env : Env} {now : Time} (s : Sys W R) (p : Option PanicVal) :
    LateSum h env now s (s, p) :=
  ⟨⟨rfl, rfl, rfl⟩, [], by simp, rfl, by simp, .inl ⟨rfl, rfl⟩⟩

theorem LateSum.note {h : HConfig} {env : Env} {now : Time} (s : Sys W R) (p : Option PanicVal) (o : Obs R)
    (hd : dispatchedIn [o] = []) (hc : o.created = none) (hr : o ≠ .reset) (w : W) :
    LateSum h env now s ({ s.emit o with w := w }, p) :=
  ⟨⟨rfl, rfl, rfl⟩, [o], rfl, hd, by simpa using hr, .inl ⟨by simp [createdIn, hc], rfl⟩⟩

theorem LateSum.before {h : HConfig} {env : Env} {now : Time} {s t : Sys W R} {r : Sys W R × Option PanicVal}
    {l : List (Obs R)}
    (g : LateSum h env now t r) (ht : t.trace = s.trace ++ l) (hn : t.nextID = s.nextID) (hs : Still s t)
    (hd : dispatchedIn l = []) (hc : createdIn l = []) (hr : ∀ o ∈ l, o ≠ .reset) : LateSum h env now s r := by
  obtain ⟨g1, seg, g2, g3, g4, g5⟩ := g
  refine ⟨hs.trans g1, l ++ seg, by rw [g2, ht, List.append_assoc], ?_, ?_, ?_⟩
  · unfold dispatchedIn at *
    rw [List.filterMap_append, hd, g3]
    rfl
  · intro o ho
    rcases List.mem_append.1 ho with ho | ho
    · exact hr o ho
    · exact g4 o ho
  · rw [createdIn_append, hc, List.nil_append, ← hn]
    exact g5

theorem late_revive {h : HConfig} {id : String} {env : Env} {now : Time} {s : Sys W R} {sc : AggScope R}
    {r : Sys W R × Option PanicVal} (g : LateSum h env now (aggRevive h id env s sc).1 r) :
    LateSum h env now s r := by
  unfold aggRevive at g
  split at g
  · exact g
  · dsimp only at g
    split at g
    · exact g.before (l := [.fact (.aggReverted h id env)]) rfl rfl ⟨rfl, rfl, rfl⟩ rfl rfl (by simp)
    · exact g.before (l := [.fact (.aggCreated h id env)]) rfl rfl ⟨rfl, rfl, rfl⟩ rfl rfl (by simp)

theorem late_agg (A : App W R) (h : HConfig) (id : String) (now : Time) (env : Env) (o : AggOp R)
    (s : Sys W R) (sc : AggScope R) :
    LateSum h env now s ((aggOp A h id now env o s sc).1, (aggOp A h id now env o s sc).2.2) := by
  cases o with
  | record m =>
    unfold aggOp aggRecord
    dsimp only
    split
    · exact .none_ s _
    · split
      · exact .none_ s _
      · have key := fun r => late_revive (r := r) (h := h) (id := id) (env := env) (now := now) (s := s) (sc := sc)
        revert key
        generalize aggRevive h id env s sc = x
        rcases x with ⟨t, sc1⟩
        intro key
        refine key _ ?_
        dsimp only
        unfold aggApplyScope
        rcases sc1.root with _ | r
        · exact .none_ t _
        · dsimp only [Sys.user]
          rcases hx : A.uc.aggApply h r m t.w with ⟨w, r', _ | v⟩
          · dsimp only [aggEmit]
            refine LateSum.before (t := { t.emit (.call (.aggApply h r m)) with w := w })
              (l := [.call (.aggApply h r m)]) ?_ rfl rfl ⟨rfl, rfl, rfl⟩ rfl rfl (by simp)
            exact ⟨⟨rfl, rfl, rfl⟩, [_], rfl, rfl, by simp, .inr ⟨_, _, rfl, rfl, rfl, rfl, rfl, rfl, rfl, rfl, rfl⟩⟩
          · exact .note t _ _ rfl rfl (by simp) w
  | destroy =>
    unfold aggOp aggDestroy
    dsimp only
    split
    · exact .none_ s _
    · dsimp only [Sys.user]
      rcases hx : A.uc.aggNew h s.w with ⟨w, v | r⟩
      · exact .note s _ _ rfl rfl (by simp) w
      · dsimp only
        refine LateSum.before (t := { s.emit (.call (.aggNew h)) with w := w })
          (l := [.call (.aggNew h)]) ?_ rfl rfl ⟨rfl, rfl, rfl⟩ rfl rfl (by simp)
        exact .note _ _ (.fact _) rfl rfl (by simp) _
  | setRoot r => exact .none_ s _
  | log t => exact .note s _ (.fact _) rfl rfl (by simp) s.w

theorem late_procRevive {h : HConfig} {id : String} {env : Env} {now : Time} {s : Sys W R} {sc : ProcScope R}
    {r : Sys W R × Option PanicVal} (g : LateSum h env now (procRevive h id env s sc).1 r) :
    LateSum h env now s r := by
  unfold procRevive at g
  split at g
  · exact g.before (l := [.fact (.procReverted h id env)]) rfl rfl ⟨rfl, rfl, rfl⟩ rfl rfl (by simp)
  · exact g

theorem late_proc (h : HConfig) (id : String) (now : Time) (env : Env) (o : ProcOp R)
    (s : Sys W R) (sc : ProcScope R) :
    LateSum h env now s ((procOp h id now env o s sc).1, (procOp h id now env o s sc).2.2) := by
  cases o with
  | execute m =>
    unfold procOp
    dsimp only
    split
    · exact .none_ s _
    · split
      · exact .none_ s _
      · have key := fun r => late_procRevive (r := r) (h := h) (id := id) (env := env) (now := now) (s := s) (sc := sc)
        revert key
        generalize procRevive h id env s sc = x
        rcases x with ⟨t, sc1⟩
        intro key
        refine key _ ?_
        exact ⟨⟨rfl, rfl, rfl⟩, [_], rfl, rfl, by simp, .inr ⟨_, _, rfl, rfl, rfl, rfl, rfl, rfl, rfl, rfl, rfl⟩⟩
  | schedule m t =>
    unfold procOp
    dsimp only
    split
    · exact .none_ s _
    · split
      · exact .none_ s _
      · have key := fun r => late_procRevive (r := r) (h := h) (id := id) (env := env) (now := now) (s := s) (sc := sc)
        revert key
        generalize procRevive h id env s sc = x
        rcases x with ⟨t, sc1⟩
        intro key
        refine key _ ?_
        exact ⟨⟨rfl, rfl, rfl⟩, [_], rfl, rfl, by simp, .inr ⟨_, _, rfl, rfl, rfl, rfl, rfl, rfl, rfl, rfl, rfl⟩⟩
  | end_ =>
    unfold procOp
    dsimp only
    split
    · exact .none_ s _
    · exact .note s _ (.fact _) rfl rfl (by simp) s.w
  | setRoot r => exact .none_ s _
  | log t => exact .note s _ (.fact _) rfl rfl (by simp) s.w

theorem late_int (h : HConfig) (now : Time) (env : Env) (o : IntOp) (s : Sys W R) (evs : List Env) :
    LateSum h env now s ((intOp h now env o s evs).1, (intOp h now env o s evs).2.2) := by
  cases o with
  | record m =>
    unfold intOp
    dsimp only
    split
    · exact .none_ s _
    · split
      · exact .none_ s _
      · exact ⟨⟨rfl, rfl, rfl⟩, [_], rfl, rfl, by simp, .inr ⟨_, _, rfl, rfl, rfl, rfl, rfl, rfl, rfl, rfl, rfl⟩⟩
  | log t => exact .note s _ (.fact _) rfl rfl (by simp) s.w

theorem late_use (A : App W R) (k : Kept R) (c : ScopeCall) (s : Sys W R) (env : Env)
    (he : ∀ e, k.of.2.1 = some e → env = e) :
    LateSum k.of.1 env k.of.2.2 s ((k.use A c s).1, (k.use A c s).2.2) := by
  cases k with
  | agg h id now env' sc =>
    cases he env' rfl
    cases c with
    | record m => exact late_agg A h id now env (.record m) s sc
    | destroy => exact late_agg A h id now env .destroy s sc
    | log t => exact late_agg A h id now env (.log t) s sc
    | _ => exact .none_ s _
  | proc h id now env' sc =>
    cases he env' rfl
    cases c with
    | execute m => exact late_proc h id now env (.execute m) s sc
    | schedule m t => exact late_proc h id now env (.schedule m t) s sc
    | end_ => exact late_proc h id now env .end_ s sc
    | log t => exact late_proc h id now env (.log t) s sc
    | _ => exact .none_ s _
  | int h now env' evs =>
    cases he env' rfl
    cases c with
    | record m => exact late_int h now env (.record m) s evs
    | log t => exact late_int h now env (.log t) s evs
    | _ => exact .none_ s _
  | prj h env' =>
    cases c with
    | log t => exact .note s _ (.fact _) rfl rfl (by simp) s.w
    | _ => exact .none_ s _

theorem lateMade_snoc (T : List (Bool × Obs R)) (x : Bool × Obs R) : lateMade (T ++ [x]) =
    match x.2 with
    | .reset => []
    | o => if x.1 then lateMade T ++ o.created.toList else lateMade T := by
  unfold lateMade
  rw [List.foldl_append]
  rfl

theorem rejected_reach {A : App W R} {s : Sys W R} (hs : Reach A s) :
    Reach A { s with nextID := s.nextID + 1 } :=
  .step (.dispatch 0 ⟨⟨.timeout, ""⟩, "", none⟩ []) hs trivial

theorem exec_trace (A : App W R) (op : Op) (b : Sys W R) (t : List (Obs R)) (hb : b.trace = []) :
    op.exec A { b with trace := t } =
      ({ (op.exec A b).1 with trace := t ++ (op.exec A b).1.trace }, (op.exec A b).2) := by
  have := exec_on t A op b
  rw [show b.on t = { b with trace := t } by simp [Sys.on, hb]] at this
  exact this

theorem ownOf_append (a b : List (Bool × Obs R)) : ownOf (a ++ b) = ownOf a ++ ownOf b := by
  simp [ownOf]

theorem ownOf_own (l : List (Obs R)) : ownOf (l.map (fun o => (false, o))) = l := by
  simp [ownOf, List.filter_map, Function.comp_def]

theorem ownOf_late (l : List (Obs R)) : ownOf (l.map (fun o => (true, o))) = [] := by
  simp [ownOf, List.filter_map, Function.comp_def]

theorem later_as {A : App W R} {s : Sys W R} {T : List (Bool × Obs R)} (hs : Later A s T) :
    s.trace = T.map (·.2) ∧ ∃ s0, Reach A s0 ∧ s0.trace = ownOf T ∧ s = { s0 with trace := s.trace } := by
  induction hs with
  | init w => exact ⟨rfl, _, .init w, rfl, rfl⟩
  | @world s T w _ ih =>
    obtain ⟨h1, s0, h2, h3, h4⟩ := ih
    refine ⟨h1, _, .world w h2, h3, ?_⟩
    rw [h4]
  | @step s T op _ hop ih =>
    obtain ⟨h1, s0, h2, h3, h4⟩ := ih
    have e1 := exec_trace A op { s0 with trace := [] } s.trace rfl
    have e2 := exec_trace A op { s0 with trace := [] } s0.trace rfl
    rw [show ({ ({ s0 with trace := [] } : Sys W R) with trace := s.trace } : Sys W R) = s from h4.symm] at e1
    rw [show ({ ({ s0 with trace := [] } : Sys W R) with trace := s0.trace } : Sys W R) = s0 from rfl] at e2
    have d : during s (op.exec A s).1 = (op.exec A { s0 with trace := [] }).1.trace := by
      rw [e1]; exact during_seg rfl
    refine ⟨?_, _, .step op h2 hop, ?_, ?_⟩
    · rw [d, e1, h1]; simp [Function.comp_def]
    · rw [ownOf_append, ownOf_own, d, ← h3, e2]
    · rw [e1, e2]
  | @late s T k c _ ih =>
    obtain ⟨h1, s0, h2, h3, h4⟩ := ih
    obtain ⟨⟨g1, g2, g3⟩, seg, g4, _, _, g7⟩ := late_use A k c s (k.of.2.1.getD (Env.root 0 ⟨⟨.command, ""⟩, "", none⟩ 0))
      (fun e he => by rw [he]; rfl)
    dsimp only at g1 g2 g3 g4 g7
    have d : during s (k.use A c s).1 = seg := during_seg g4
    refine ⟨by rw [d, g4, h1]; simp [Function.comp_def], ?_⟩
    rw [d, ownOf_append, ownOf_late, List.append_nil]
    have a1 : s.agg = s0.agg := by rw [h4]
    have a2 : s.proc = s0.proc := by rw [h4]
    have a3 : s.lastCompact = s0.lastCompact := by rw [h4]
    have a4 : s.nextID = s0.nextID := by rw [h4]
    rcases g7 with ⟨_, g7⟩ | ⟨e, o, _, _, g7, _⟩
    · refine ⟨_, .world (k.use A c s).1.w h2, h3, ?_⟩
      generalize (k.use A c s).1 = s' at *
      rcases s' with ⟨w, n, ag, pr, lc, tr⟩
      dsimp only at *
      rw [g1, g2, g3, g7, a1, a2, a3, a4]
    · refine ⟨_, .world (k.use A c s).1.w (rejected_reach h2), h3, ?_⟩
      generalize (k.use A c s).1 = s' at *
      rcases s' with ⟨w, n, ag, pr, lc, tr⟩
      dsimp only at *
      rw [g1, g2, g3, g7, a1, a2, a3, a4]

theorem silent_none (tr l : List (Obs R)) : (upToPanic (fun _ _ => none) tr l).2 = none := by
  induction l generalizing tr with
  | nil => rfl
  | cons o l ih =>
    unfold upToPanic
    rw [show PanicsOn.at (fun _ _ => none) tr o = none by cases o <;> rfl]
    exact ih _

theorem reach_sound {A : App W R} {s : Sys W R} (hs : Reach A s) : Sound s := by
  induction hs with
  | init w => exact .init w
  | world w _ ih => exact ih.goes (world_goes _ w)
  | @step s op _ _ ih =>
    rw [← C110_same A (fun _ _ => none) op s (silent_none _ _)]
    exact op.execO_sound ih

theorem Later.sound {A : App W R} {s : Sys W R} {T : List (Bool × Obs R)} (hs : Later A s T) : Sound s := by
  induction hs with
  | init w => exact .init w
  | world w _ ih => exact ih.goes (world_goes _ w)
  | @step s T op _ _ ih =>
    rw [← C110_same A (fun _ _ => none) op s (silent_none _ _)]
    exact op.execO_sound ih
  | @late s T k c _ ih =>
    obtain ⟨g1, seg, g4, _, g6, g7⟩ := late_use A k c s (k.of.2.1.getD (Env.root 0 ⟨⟨.command, ""⟩, "", none⟩ 0))
      (fun e he => by rw [he]; rfl)
    refine ih.goes ⟨seg, ⟨g4, g6, ?_, ?_, ?_⟩, g1⟩
    all_goals
      dsimp only at g7
      rcases g7 with ⟨g7, g8⟩ | ⟨e, o, g7, _, g8, g9, _⟩
    · simp [g7]
    · simp [g7]
    · simp [g7]
    · intro x hx
      rw [g7] at hx
      cases List.mem_singleton.1 hx
      omega
    · omega
    · omega

theorem Later.marks {A : App W R} {s : Sys W R} {T : List (Bool × Obs R)} (hs : Later A s T) :
    ∀ x ∈ T, x.1 = true → x.2 ≠ .reset ∧ dispatchedIn [x.2] = [] := by
  induction hs with
  | init w => intro x hx; cases hx
  | world w _ ih => exact ih
  | step op _ _ ih =>
    intro x hx hm
    rcases List.mem_append.1 hx with hx | hx
    · exact ih x hx hm
    · obtain ⟨o, _, rfl⟩ := List.mem_map.1 hx
      cases hm
  | @late s T k c _ ih =>
    intro x hx hm
    rcases List.mem_append.1 hx with hx | hx
    · exact ih x hx hm
    · obtain ⟨o, ho, rfl⟩ := List.mem_map.1 hx
      obtain ⟨_, seg, g4, g5, g6, _⟩ := late_use A k c s (k.of.2.1.getD (Env.root 0 ⟨⟨.command, ""⟩, "", none⟩ 0))
        (fun e he => by rw [he]; rfl)
      rw [during_seg g4] at ho
      refine ⟨g6 o ho, ?_⟩
      obtain ⟨a, b, rfl⟩ := List.append_of_mem ho
      rw [show a ++ o :: b = a ++ ([o] ++ b) by simp, dispatchedIn_append, dispatchedIn_append] at g5
      exact (List.append_eq_nil_iff.1 (List.append_eq_nil_iff.1 g5).2).1

theorem late_split (l : List (Bool × Obs R)) : ∀ T : List (Bool × Obs R),
    (∀ x ∈ l, x.1 = true → x.2 ≠ .reset ∧ dispatchedIn [x.2] = []) →
    (createdIn (sinceReset (T.map (·.2)))).Perm (lateMade T ++ createdIn (sinceReset (ownOf T))) ∧
      dispatchedIn (sinceReset (T.map (·.2))) = dispatchedIn (sinceReset (ownOf T)) →
    (createdIn (sinceReset ((T ++ l).map (·.2)))).Perm
      (lateMade (T ++ l) ++ createdIn (sinceReset (ownOf (T ++ l)))) ∧
      dispatchedIn (sinceReset ((T ++ l).map (·.2))) = dispatchedIn (sinceReset (ownOf (T ++ l))) := by
  induction l with
  | nil => intro T _ h; simpa using h
  | cons x l ih =>
    intro T hl h
    rw [show T ++ x :: l = (T ++ [x]) ++ l by simp]
    refine ih _ (fun y hy => hl y (List.mem_cons_of_mem _ hy)) ?_
    have hx := hl x (List.mem_cons_self ..)
    rw [lateMade_snoc, ownOf_append, List.map_append]
    rcases x with ⟨b, o⟩
    by_cases ho : o = .reset
    · subst ho
      cases b with
      | true => exact absurd rfl (hx rfl).1
      | false =>
        have : ownOf [(false, (Obs.reset : Obs R))] = [.reset] := rfl
        rw [this]
        simp [createdIn]
    · have e1 : sinceReset (T.map (·.2) ++ [o]) = sinceReset (T.map (·.2)) ++ [o] :=
        sinceReset_append _ _ (by simpa using ho)
      have e2 : sinceReset (ownOf T ++ [o]) = sinceReset (ownOf T) ++ [o] :=
        sinceReset_append _ _ (by simpa using ho)
      have e4 : createdIn [o] = o.created.toList := by
        unfold createdIn; cases h : o.created <;> simp [h]
      cases b with
      | true =>
        have : ownOf [(true, o)] = [] := rfl
        simp only [List.map_cons, List.map_nil, e1, this, List.append_nil, createdIn_append,
          dispatchedIn_append, (hx rfl).2, h.2, and_true]
        rw [if_pos trivial, e4]
        refine (h.1.append_right _).trans ?_
        simp only [List.append_assoc]
        exact List.Perm.append_left _ List.perm_append_comm
      | false =>
        have : ownOf [(false, o)] = [o] := rfl
        simp only [List.map_cons, List.map_nil, e1, this, e2, createdIn_append,
          dispatchedIn_append, h.2, and_true]
        rw [if_neg (by simp)]
        rw [← List.append_assoc]
        exact h.1.append_right _

/-! ## Properties -/

/-- **C114.**  Calling a method of a scope when its handling is over changes nothing of the engine
but the message ID that is next: no history, no instance and no pending timeout, and nothing is dispatched.  A
message that is made this way has the next message ID, and is otherwise like one made in time. -/
theorem C114_effect (A : App W R) (k : Kept R) (c : ScopeCall) (s s' : Sys W R) (k' : Kept R)
    (p : Option PanicVal) (h : k.use A c s = (s', k', p)) :
    s'.agg = s.agg ∧ s'.proc = s.proc ∧ s'.lastCompact = s.lastCompact ∧
    dispatchedIn (during s s') = [] ∧
    ((createdIn (during s s') = [] ∧ s'.nextID = s.nextID) ∨
      ∃ env e o, k.of.2.1 = some env ∧ createdIn (during s s') = [e] ∧ p = none ∧
        s'.nextID = s.nextID + 1 ∧ e.id = s.nextID + 1 ∧ e.causation = env.id ∧
        e.correlation = env.correlation ∧ e.createdAt = k.of.2.2 ∧ e.origin = some o ∧
        o.handler = k.of.1) := by
  cases hk : k.of.2.1 with
  | none =>
    cases k with
    | prj hc env =>
      cases c with
      | log t =>
        cases h
        refine ⟨rfl, rfl, rfl, ?_, .inl ⟨?_, rfl⟩⟩ <;>
          rw [during_seg (seg := [.fact (.prjLog hc env t)]) rfl] <;> rfl
      | _ => cases h; exact ⟨rfl, rfl, rfl, by simp [during, dispatchedIn], .inl ⟨by simp [during, createdIn], rfl⟩⟩
    | _ => cases hk
  | some env =>
    obtain ⟨g1, seg, g4, g5, _, g7⟩ := late_use A k c s env (fun e he => by rw [hk] at he; cases he; rfl)
    rw [h] at g1 g4 g7
    rw [during_seg g4]
    refine ⟨g1.agg, g1.proc, g1.last, g5, ?_⟩
    rcases g7 with g7 | ⟨e, o, g7⟩
    · exact .inl g7
    · exact .inr ⟨env, e, o, rfl, g7⟩

/-- **C114.**  However scopes are used too late, the engine is in a state that it can be brought into
without that: late uses are like calls of `Dispatch()` that are rejected.  Whatever holds of
the stores in all states that can be reached, holds in spite of late uses, and so does
whatever holds of what is observed of operations. -/
theorem C114_as_if {A : App W R} {s : Sys W R} {T : List (Bool × Obs R)} (hs : Later A s T) :
    s.trace = T.map (·.2) ∧
    ∃ s0, Reach A s0 ∧ s0.trace = ownOf T ∧ s0.agg = s.agg ∧ s0.proc = s.proc ∧
      s0.lastCompact = s.lastCompact ∧ s0.nextID = s.nextID ∧ s0.w = s.w := by
  obtain ⟨h1, s0, h2, h3, h4⟩ := later_as hs
  refine ⟨h1, s0, h2, h3, ?_⟩
  rw [h4]
  exact ⟨rfl, rfl, rfl, rfl, rfl⟩

/-- **C114.**  Message IDs are unique and increasing in spite of late uses. -/
theorem C114_ids {A : App W R} {s : Sys W R} {T : List (Bool × Obs R)} (hs : Later A s T) :
    (createdIn (sinceReset s.trace)).Pairwise (fun a b => a.id < b.id) := hs.sound.ids

/-- **C114.**  A message that is made by a late use is lost: it is not dispatched, neither by the
operation in which it would have been nor by later ones, it becomes no part of the history of an aggregate, and it does
not become pending.  No message in any of these places has its ID. -/
theorem C114_lost {A : App W R} (wf : A.WF) {s : Sys W R} {T : List (Bool × Obs R)} (hs : Later A s T)
    {e : Env} (he : e ∈ lateMade T) :
    (∀ d ∈ dispatchedIn (sinceReset s.trace), d.id ≠ e.id) ∧
    (∀ name id l, s.agg name id = some l → ∀ d ∈ l, d.id ≠ e.id) ∧
    (∀ name, ∀ d ∈ (s.proc name).timeouts, d.id ≠ e.id) := by
  obtain ⟨h1, s0, h2, h3, h4⟩ := later_as hs
  obtain ⟨p1, p2⟩ := late_split T [] hs.marks ⟨.nil, rfl⟩
  rw [List.nil_append, ← h1] at p1 p2
  have nd := hs.sound.ids.imp (S := fun (a b : Env) => a.id ≠ b.id) (fun h => Nat.ne_of_lt h)
  have nd := (p1.pairwise_iff (fun h => h.symm)).1 nd
  have key : ∀ d ∈ createdIn (sinceReset s0.trace), d.id ≠ e.id := by
    intro d hd
    rw [h3] at hd
    exact ((List.pairwise_append.1 nd).2.2 e he d hd).symm
  have sn : Sound s0 := reach_sound h2
  rw [show s.agg = s0.agg by rw [h4], show s.proc = s0.proc by rw [h4], p2, ← h3]
  refine ⟨fun d hd => key d ((flow_reach wf h2).sub d hd), ?_, ?_⟩
  · intro name id l hl d hd
    obtain ⟨h, env, _, hm⟩ := (sn.hist name id l hl).2 d hd
    exact key d (created_of_mem hm rfl)
  · intro name d hd
    obtain ⟨h, i, env, _, hm⟩ := sn.pend name d hd
    exact key d (created_of_mem hm rfl)

/-! ### Other goroutines -/

namespace Conc

/-- The operations that acquired the mutex, in this order. -/
def acquiredOps (ops : Nat → List (Option (Time × Op))) (ls : List (Label (Sys W R))) :
    List (Time × Op) :=
  (sections ls).filterMap (fun x => ((ops x.1)[x.2.1]?).join)

/-- An operation that is rejected at once. -/
def refusedOp : Time × Op := (0, .dispatch 0 ⟨⟨.timeout, ""⟩, "", none⟩ [])

theorem refusedOp_call (A : App W R) : callOf A refusedOp = .withID (fun _ => none) := by
  unfold callOf refusedOp
  dsimp only
  congr 1

theorem callOrLate_eq (A : App W R) (x : Option (Time × Op)) :
    callOrLate A x = callOf A (x.getD refusedOp) := by
  cases x with
  | none => exact (refusedOp_call A).symm
  | some x => rfl

theorem acquiredOps_eq {A : App W R} {ops : Nat → List (Option (Time × Op))} {c : Sys W R}
    {ls : List (Label (Sys W R))} {s : St (Sys W R)}
    (h : Steps (init c (fun t => (ops t).map (callOrLate A))) ls s) :
    acquired (fun t => (ops t).map (·.getD refusedOp)) ls = acquiredOps ops ls := by
  unfold acquired acquiredOps
  have key : ∀ x ∈ sections ls, (ops x.1)[x.2.1]? ≠ some none := by
    intro x hx hn
    have hl := (sections_locked ls x hx).1
    rcases (C65_calls h).1 _ _ _ hl with hb | ⟨k, n, hb, _, hk⟩
    · rw [List.getElem?_map, hn] at hb
      cases hb
    · rw [List.getElem?_map, hn] at hb
      cases hb
      cases hk
  revert key
  generalize sections ls = l
  intro key
  induction l with
  | nil => rfl
  | cons x l ih =>
    have this := key x (List.mem_cons_self ..)
    revert this
    rw [List.filterMap_cons, List.filterMap_cons, ih (fun y hy => key y (List.mem_cons_of_mem _ hy))]
    rw [List.getElem?_map]
    rcases (ops x.1)[x.2.1]? with _ | _ | y
    · exact fun _ => rfl
    · exact fun this => absurd rfl this
    · exact fun _ => rfl

/-- **C114.**  Goroutines dispatch messages and tick an engine, while any of them uses scopes too late, at any
time, also in the middle of an operation.  Whenever none of them holds the mutex, the
engine is in the state in which a sequential program would have left it that performs just
the operations, except that messages have other IDs. -/
theorem C114_anytime {A : App W R} {ρ : (Nat → Nat) → W → W} {w : W}
    {ops : Nat → List (Option (Time × Op))} {ls : List (Label (Sys W R))} {s : St (Sys W R)}
    (hl : ∀ w, A.uc.lockErr w = none) (han : ∀ σ, Inj σ → A.Anon σ (ρ σ))
    (hw : ∀ σ, Inj σ → ρ σ w = w)
    (h : Steps (init (Sys.init w) (fun t => (ops t).map (callOrLate A))) ls s)
    (hn : holding ls = none) (hr : ∀ t x, some x ∈ ops t → x.2 ≠ .reset) :
    ∃ σ, Inj σ ∧ s.ctl = (inTurn A w (acquiredOps ops ls)).ren σ (ρ σ) 0 := by
  have e : (fun t => (ops t).map (callOrLate A)) =
      fun t => ((fun t => (ops t).map (·.getD refusedOp)) t).map (callOf A) := by
    funext t
    rw [List.map_map]
    exact List.map_congr_left (fun x _ => callOrLate_eq A x)
  rw [← acquiredOps_eq h]
  rw [e] at h
  refine C89_sequential hl han hw h hn ?_
  intro t x hx
  obtain ⟨y, hy, rfl⟩ := List.mem_map.1 hx
  cases y with
  | none => exact fun h => (nomatch h)
  | some y => exact hr t y hy

end Conc

/-! ## Instances -/

namespace Demo

/-- The scope that the aggregate of `Demo` was given for the first command, as it is when the handling is over. -/
def keptScope : Kept (List String) :=
  .agg agg "a" 1 (Env.root 1 (msgC "x") 1)
    ⟨some ["x"], true, false, [(Env.root 1 (msgC "x") 1).child 2 ⟨evtE, "x", none⟩ 1 ⟨agg, .aggregate, "a"⟩], true⟩

/-- The scope that the process was given for the event. -/
def keptProc : Kept (List String) :=
  .proc proc "p" 1 ((Env.root 1 (msgC "x") 1).child 2 ⟨evtE, "x", none⟩ 1 ⟨agg, .aggregate, "a"⟩)
    ⟨["x"], false, [], [], []⟩

/-- An operation, or a late use. -/
abbrev LOp := Op ⊕ (Kept (List String) × ScopeCall)

def runLate (A : App Nat (List String)) : List LOp → Sys Nat (List String) × List (Bool × Obs (List String)) →
    Sys Nat (List String) × List (Bool × Obs (List String))
  | [], x => x
  | .inl op :: l, (s, T) =>
    runLate A l ((op.exec A s).1, T ++ (during s (op.exec A s).1).map (fun o => (false, o)))
  | .inr (k, c) :: l, (s, T) =>
    runLate A l ((k.use A c s).1, T ++ (during s (k.use A c s).1).map (fun o => (true, o)))

theorem runLate_later {A : App Nat (List String)} (l : List LOp) (hl : ∀ op, .inl op ∈ l → op.ok A) :
    ∀ x, Later A x.1 x.2 → Later A (runLate A l x).1 (runLate A l x).2 := by
  induction l with
  | nil => exact fun x h => h
  | cons y l ih =>
    rintro ⟨s, T⟩ h
    have hl' : ∀ op, .inl op ∈ l → op.ok A := fun op ho => hl op (List.mem_cons_of_mem _ ho)
    rcases y with op | ⟨k, c⟩
    · exact ih hl' (_, _) (.step op h (hl op (List.mem_cons_self ..)))
    · exact ih hl' (_, _) (.late k c h)

/-- Between the operations of `Demo.history` the aggregate destroys the instance and records an event, and the process
schedules a timeout, with the scopes of the first operation. -/
def belatedly : List LOp :=
  [.inl (.dispatch 20 (msgC "x") [.currentTime 1]),
   .inr (keptScope, .record ⟨evtE, "late", none⟩), .inr (keptScope, .destroy),
   .inr (keptProc, .schedule ⟨tmoT, "late", none⟩ 4),
   .inl (.dispatch 20 (msgC "y") [.currentTime 3]),
   .inl (.tick 20 [agg, proc, int, prj] [.currentTime 10])]

def belatedlyDone : Sys Nat (List String) × List (Bool × Obs (List String)) :=
  runLate app belatedly (Sys.init 0, [])

theorem belatedlyDone_later : Later app belatedlyDone.1 belatedlyDone.2 := by
  refine runLate_later belatedly ?_ (Sys.init 0, []) (.init 0)
  intro op h
  simp only [belatedly, List.mem_cons, Sum.inl.injEq, reduceCtorEq, List.not_mem_nil, or_false, false_or] at h
  rcases h with rfl | rfl | rfl
  · trivial
  · trivial
  · exact List.Perm.refl _

end Demo

set_option maxRecDepth 100000 in
/-- The hypotheses hold of that history: the late messages have the IDs 6 and 7, all others have the bodies that
they have without late uses, and what is stored is the same but for IDs. -/
example : Later Demo.app Demo.belatedlyDone.1 Demo.belatedlyDone.2 ∧
    (lateMade Demo.belatedlyDone.2).map Env.id = [6, 7] ∧
    (dispatchedIn Demo.belatedlyDone.1.trace).map (fun e => e.msg.body) =
      (dispatchedIn Demo.final.trace).map (fun e => e.msg.body) ∧
    (dispatchedIn Demo.belatedlyDone.1.trace).map Env.id ≠ (dispatchedIn Demo.final.trace).map Env.id ∧
    (Demo.belatedlyDone.1.agg "agg" "a").map (List.map (fun e => e.msg.body)) = some ["x", "y"] := by
  refine ⟨Demo.belatedlyDone_later, ?_, ?_, ?_, ?_⟩ <;> decide +kernel

namespace Conc.Demo

/-- The goroutines of `ops`, and a third one that uses scopes too late, twice. -/
def opsAndLate : Nat → List (Option (Time × Op))
  | 2 => [none, none]
  | t => (ops t).map some

/-- The first late use is in the middle of the operation of goroutine 1, the second one in that of goroutine 0. -/
def scheduleAndLate : List Nat :=
  List.replicate 12 1 ++ [0] ++ List.replicate 4 1 ++ [2] ++ List.replicate 40 1 ++ List.replicate 10 0 ++ [2] ++
    List.replicate 44 0 ++ List.replicate 42 1

end Conc.Demo

open Conc in
set_option maxRecDepth 100000 in
/-- A run with two late uses in the middle of operations (see `Demo.app_anon` for the hypothesis on the
application): other IDs than in the run without them, otherwise the same. -/
example : ∃ ls s, Steps (Conc.init (Sys.init []) (fun t => (Conc.Demo.opsAndLate t).map (callOrLate Conc.Demo.app))) ls s ∧
    holding ls = none ∧ (∀ t x, some x ∈ Conc.Demo.opsAndLate t → x.2 ≠ .reset) ∧
    (acquiredOps Conc.Demo.opsAndLate ls).map (·.1) = [3, 1, 10] ∧
    (dispatchedIn s.ctl.trace).map Env.id = [1, 3, 5, 7, 2, 9, 10, 12, 6, 11, 13, 14] ∧
    (dispatchedIn (inTurn Conc.Demo.app [] (acquiredOps Conc.Demo.opsAndLate ls)).trace).map Env.id =
      [1, 2, 3, 5, 6, 7, 8, 10, 4, 9, 11, 12] := by
  have h : ((Conc.runOf (Conc.init (Sys.init []) (fun t => (Conc.Demo.opsAndLate t).map (callOrLate Conc.Demo.app)))
      Conc.Demo.scheduleAndLate).any fun x =>
      decide (holding x.1 = none) &&
      decide ((acquiredOps Conc.Demo.opsAndLate x.1).map (·.1) = [3, 1, 10]) &&
      decide ((dispatchedIn x.2.ctl.trace).map Env.id = [1, 3, 5, 7, 2, 9, 10, 12, 6, 11, 13, 14]) &&
      decide ((dispatchedIn (inTurn Conc.Demo.app [] (acquiredOps Conc.Demo.opsAndLate x.1)).trace).map Env.id =
        [1, 2, 3, 5, 6, 7, 8, 10, 4, 9, 11, 12])) = true := by
    decide +kernel
  obtain ⟨⟨ls, s⟩, hr, hx⟩ := Conc.Demo.any_some h
  simp only [Bool.and_eq_true, decide_eq_true_eq] at hx
  obtain ⟨⟨⟨h1, h3⟩, h4⟩, h5⟩ := hx
  refine ⟨ls, s, Conc.runOf_steps hr, h1, ?_, h3, h4, h5⟩
  rintro (_ | _ | _ | t) x hx
  · exact Conc.Demo.ops_no_reset 0 x (by simpa [Conc.Demo.opsAndLate] using hx)
  · exact Conc.Demo.ops_no_reset 1 x (by simpa [Conc.Demo.opsAndLate] using hx)
  · simp [Conc.Demo.opsAndLate] at hx
  · exact Conc.Demo.ops_no_reset (t + 3) x (by simpa [Conc.Demo.opsAndLate] using hx)

end Verif
