import Verif.Props.Scopes

/-!
# C106: the roots that events are applied to

When an aggregate handles a command, the events it records are applied to the
root of its instance.  That is the root the handler was given, as changed by the
events applied to it before and by the handler itself, until `Destroy()` puts a
new root in its place, of which the handler knows nothing: what it does to the
old one from then on is of no consequence.

The conversation between the handler and the engine is that of C88.
-/

namespace Verif

variable {W R : Type}

/-- The events among the requests that the engine does not refuse. -/
def recordable (h : HConfig) : List (AggOp R × Option PanicVal) → List Message
  | [] => []
  | (.record m, _) :: xs => open Classical in
    if MayProduce h .event m then m :: recordable h xs else recordable h xs
  | _ :: xs => recordable h xs

theorem AppliedTo.once {uc : UserCode W R} {h : HConfig} (hn : ∀ w, (uc.aggNew h w).2 ≠ .ok none)
    {ex own root xs calls root'} (ha : AppliedTo uc h ex own root xs calls root') :
    root.isSome → calls.map (·.2) = recordable h xs := by
  induction ha with
  | nil => intro _; rfl
  | log _ ih => exact ih
  | change _ ih => intro _; exact ih rfl
  | changeOld _ ih => exact ih
  | destroyNone _ ih => exact ih
  | destroyPanic _ _ ih => exact ih
  | @destroy _ _ w new _ _ _ e _ ih =>
    intro _
    refine ih ?_
    cases new with
    | none => exact (hn w e).elim
    | some _ => rfl
  | refused hm _ ih => intro hr; simp only [recordable, if_neg hm]; exact ih hr
  | record hm _ _ ih => intro _; simp only [recordable, if_pos hm, List.map_cons, ih rfl]
  | recordNil => intro hr; cases hr

open Classical in
/-- The calls of `ApplyEvent()` that requests call for if `New()` and `ApplyEvent()` are functions of their
arguments.  `root` is the instance's root; `ex`: the instance exists; `own`: the handler has its root. -/
noncomputable def callsFor (h : HConfig) (r0 : R) (ap : R → Message → R) :
    (ex own : Bool) → (root : R) → List (AggOp R) → List (R × Message)
  | _, _, _, [] => []
  | ex, own, root, .log _ :: os => callsFor h r0 ap ex own root os
  | ex, own, root, .setRoot r :: os => callsFor h r0 ap ex own (if own then r else root) os
  | true, _, _, .destroy :: os => callsFor h r0 ap false false r0 os
  | false, own, root, .destroy :: os => callsFor h r0 ap false own root os
  | ex, own, root, .record m :: os =>
    if MayProduce h .event m then (root, m) :: callsFor h r0 ap true own (ap root m) os
    else callsFor h r0 ap ex own root os

theorem AppliedTo.pure {uc : UserCode W R} {h : HConfig} {r0 : HConfig → R}
    {ap : HConfig → R → Message → R} (g : uc.PureRoots r0 ap)
    {ex own root xs calls root'} (ha : AppliedTo uc h ex own root xs calls root') :
    ∀ r, root = some r → calls = callsFor h (r0 h) (ap h) ex own r (xs.map (·.1)) := by
  induction ha with
  | nil => intro _ _; rfl
  | log _ ih => exact ih
  | change _ ih => intro r _; exact ih _ rfl
  | changeOld _ ih => exact ih
  | destroyNone _ ih => exact ih
  | @destroyPanic _ _ w _ _ _ _ e => rw [g.new] at e; cases e
  | @destroy _ _ w new _ _ _ e _ ih => intro r _; rw [g.new] at e; cases e; exact ih _ rfl
  | refused hm _ ih =>
    intro r hr; simp only [List.map_cons, callsFor, if_neg hm]; exact ih _ hr
  | record hm _ _ ih =>
    intro r hr; cases hr
    simp only [List.map_cons, callsFor, if_pos hm]
    rw [ih _ rfl, g.apply]
  | recordNil => intro _ hr; cases hr

/-- **C106.**  When an aggregate handles a message, either its method is not called at all, or from the
moment it is called `ApplyEvent()` is called exactly as the handler's requests call for: for the
events that it may record, in order, each on the root as the requests made so far have left it. -/
theorem C106_roots (A : App W R) (h : HConfig) (ht : h.htype = .aggregate) (now : Time)
    (env : Env) (s s' : Sys W R) (res : HRes) (hs : ctlHandle A h now env s = (s', res)) :
    (∀ o ∈ during s s', o.invokes = false) ∨
    ∃ pre ex id r seg w xs q root,
      during s s' = pre ++ .fact (if ex then .aggLoaded h id env else .aggNotFound h id env) ::
        .call (.aggHandle h id r env.msg) :: seg ∧ (∀ o ∈ pre, o.invokes = false) ∧
      Talk AggOp.calls true (A.uc.aggHandle h id r env.msg) w xs s'.w q ∧
      AppliedTo A.uc h ex true (some r) xs (appliesIn h seg) root := by
  rcases aggregate_talk A h ht now env s s' res hs with g | ⟨pre, ex, id, r, seg, w, xs, q, root, g1, g2, g3,
    _, _, _, g7⟩
  · exact .inl g
  · exact .inr ⟨pre, ex, id, r, seg, w, xs, q, root, g1, g2, g3, g7⟩

/-- **C106 (once each).**  Unless `New()` may return nil, every event that the handler may record is applied
exactly once, in the order of recording, and nothing else is. -/
theorem C106_once (A : App W R) (h : HConfig) (ht : h.htype = .aggregate)
    (hn : ∀ w, (A.uc.aggNew h w).2 ≠ .ok none) (now : Time)
    (env : Env) (s s' : Sys W R) (res : HRes) (hs : ctlHandle A h now env s = (s', res)) :
    (∀ o ∈ during s s', o.invokes = false) ∨
    ∃ pre id r seg w xs q,
      during s s' = pre ++ .call (.aggHandle h id r env.msg) :: seg ∧ (∀ o ∈ pre, o.invokes = false) ∧
      Talk AggOp.calls true (A.uc.aggHandle h id r env.msg) w xs s'.w q ∧
      (appliesIn h seg).map (·.2) = recordable h xs := by
  rcases C106_roots A h ht now env s s' res hs with g | ⟨pre, ex, id, r, seg, w, xs, q, root, g1, g2, g3, g4⟩
  · exact .inl g
  · refine .inr ⟨pre ++ [.fact (if ex then .aggLoaded h id env else .aggNotFound h id env)], id, r, seg, w,
      xs, q, by simp [g1], ?_, g3, g4.once hn rfl⟩
    intro o ho
    rcases List.mem_append.1 ho with ho | ho
    · exact g2 o ho
    · rw [List.mem_singleton.1 ho]; rfl

/-- **C106**, when `New()` and `ApplyEvent()` are functions of their arguments: the calls of `ApplyEvent()` are
determined by what the handler asks for. -/
theorem C106_pure (A : App W R) (h : HConfig) (ht : h.htype = .aggregate)
    {r0 : HConfig → R} {ap : HConfig → R → Message → R} (g : A.uc.PureRoots r0 ap) (now : Time)
    (env : Env) (s s' : Sys W R) (res : HRes) (hs : ctlHandle A h now env s = (s', res)) :
    (∀ o ∈ during s s', o.invokes = false) ∨
    ∃ pre ex id r seg w xs q,
      during s s' = pre ++ .fact (if ex then .aggLoaded h id env else .aggNotFound h id env) ::
        .call (.aggHandle h id r env.msg) :: seg ∧ (∀ o ∈ pre, o.invokes = false) ∧
      Talk AggOp.calls true (A.uc.aggHandle h id r env.msg) w xs s'.w q ∧
      appliesIn h seg = callsFor h (r0 h) (ap h) ex true r (xs.map (·.1)) := by
  rcases C106_roots A h ht now env s s' res hs with k | ⟨pre, ex, id, r, seg, w, xs, q, root, g1, g2, g3, g4⟩
  · exact .inl k
  · exact .inr ⟨pre, ex, id, r, seg, w, xs, q, g1, g2, g3, g4.pure g _ rfl⟩

namespace Demo

/-- A handler that changes its root itself, before and after destroying the instance. -/
def rooted : App Nat (List String) :=
  { app with uc := { uc with
      aggHandle := fun _ _ r m => stubborn () [.setRoot (r ++ ["by hand"]), .record ⟨evtE, m.body, none⟩,
        .record ⟨cmdD, "not an event", none⟩, .record ⟨evtE, "more", none⟩, .destroy,
        .setRoot ["lost"], .record ⟨evtE, "anew", none⟩, .record ⟨evtE, "last", none⟩] } }

set_option maxRecDepth 100000 in
/-- The first two events are applied to the root that the handler was given and has changed, the others to
the new one; what was not an event is not applied. -/
example : appliesIn agg (during (Sys.init 0)
      (ctlHandle rooted agg 2 (Env.root 1 (msgC "x") 2) (Sys.init 0)).1) =
    [(["by hand"], ⟨evtE, "x", none⟩), (["by hand", "x"], ⟨evtE, "more", none⟩),
     ([], ⟨evtE, "anew", none⟩), (["anew"], ⟨evtE, "last", none⟩)] ∧
    agg.htype = .aggregate := by
  decide +kernel

example : rooted.uc.PureRoots (fun _ => []) (fun _ r m => r ++ [m.body]) :=
  ⟨fun _ _ _ _ => rfl, fun _ _ => rfl⟩

example : ∀ w, (rooted.uc.aggNew agg w).2 ≠ .ok none := by intro w h; cases h

/-- Without an instance there is nothing to destroy, so the handler still holds the root of its instance. -/
example : AppliedTo rooted.uc agg false true (some []) [(.destroy, none), (.setRoot ["a"], none),
    (.record ⟨evtE, "x", none⟩, none)] [(["a"], ⟨evtE, "x", none⟩)] (some ["a", "x"]) := by
  refine .destroyNone (.change (.record (w := 0) ?_ ?_ (.nil ..)))
  · rw [mayProduce_iff]; decide
  · simp [rooted, app, uc]

end Demo

end Verif
