import Verif.Props.Dispatch

/-!
# Accepting operations and taking part in them: C13, C14, C15, C19

See `Verif.Props.Dispatch` for `during` and `happenedDuring`, and `Verif.Options` for what a list
of options means (`takesPart`, `whyNot`, `engineTime`, `namesKnown`).
-/

namespace Verif

variable {W R : Type}

/-! ## C13 -/

/-- The messages `Dispatch()` rejects. -/
def Unacceptable (cfgs : List HConfig) (m : Message) : Prop :=
  m.type.kind = .timeout ∨ m.invalid ≠ none ∨ ∀ h ∈ cfgs, m.type ∉ h.consumes

/-- **C13.** `Dispatch()` of a timeout, an invalid message or a message that nobody consumes panics;
nothing is observed (no fact, no call), nothing changes but the counter of IDs. -/
theorem C13_rejected (A : App W R) (s : Sys W R) (n : Nat) (m : Message) (os : List OpOption)
    (hm : Unacceptable A.cfgs m) :
    ∃ v, (Op.dispatch n m os).exec A s =
      ({ s with nextID := s.nextID + 1 }, .panicked (.misuse v)) := by
  show ∃ v, engDispatch A n m os s = _
  unfold engDispatch
  simp only
  split
  · rename_i v hv
    have : ∃ x, v = .misuse x := by
      have : ∀ (os : List OpOption) (o1 : OpOpts), o1.applyAll A os = .error v → ∃ x, v = .misuse x := by
        intro os
        induction os with
        | nil => intro o1 h; cases h
        | cons o os ih =>
          intro o1 h
          unfold OpOpts.applyAll at h
          split at h
          · rename_i v' h2
            cases h
            cases o with
            | enableHandler n b =>
              simp only [OpOpts.apply] at h2
              split at h2
              · cases h2
              · cases h2; exact ⟨_, rfl⟩
            | enableType t b => cases h2
            | currentTime t => cases h2
            | observer k => cases h2
          · exact ih _ h
      exact this os _ hv
    obtain ⟨x, rfl⟩ := this
    exact ⟨x, rfl⟩
  · split
    · exact ⟨_, rfl⟩
    · rename_i hk
      split
      · exact ⟨_, rfl⟩
      · rename_i hv
        split
        · exact ⟨_, rfl⟩
        · rename_i hr
          exfalso
          rcases hm with h | h | h
          · exact hk h
          · exact h hv
          · apply hr
            unfold App.route
            rw [List.filter_eq_nil_iff]
            intro c hc
            simpa [HConfig.consumes?] using h c hc

/-- **C13.** Every other message is accepted (if the options only name existing handlers): the
operation begins with the fact that announces a message with a fresh ID. -/
theorem C13_accepted {A : App W R} (wf : A.WF) {s : Sys W R} (hs : Reach A s) (n : Nat) (m : Message)
    (os : List OpOption) (hm : ¬ Unacceptable A.cfgs m) (ho : namesKnown A.cfgs os) {s' : Sys W R}
    {out : Outcome (List EngErr)} (hr : (Op.dispatch n m os).exec A s = (s', out)) :
    ∃ root c, root.msg = m ∧ root.id = s.nextID + 1 ∧ c.now = engineTime os (A.uc.wallClock s.w) ∧
      (during s s').head? = some (.fact (.dispatchCycleBegun root c)) := by
  have hr : engDispatch A n m os s = (s', out) := hr
  rcases dispatch_op wf (core_reach wf hs) n m os hr with ⟨h1, v, h2⟩ | ⟨oo, h1, _, _, _, t, L, left, g, h2, _⟩
  · exfalso
    obtain ⟨oo, hoo⟩ := (newOpOpts_names (s := s)).2 ho
    unfold Unacceptable at hm
    have hk : m.type.kind ≠ .timeout := fun h => hm (.inl h)
    have hv : m.invalid = none := Classical.byContradiction (fun h => hm (.inr (.inl h)))
    have hrt : A.route m ≠ [] := by
      intro h
      refine hm (.inr (.inr ?_))
      unfold App.route at h
      rw [List.filter_eq_nil_iff] at h
      intro c hc
      simpa [HConfig.consumes?] using h c hc
    rw [dispatch_accept hoo hk hv hrt] at hr
    simp only at hr
    split at hr
    · cases hr; cases h2
    · obtain ⟨t, ht, _⟩ := loop_count A oo n [Env.root (s.nextID + 1) m oo.now] []
        (({ s with nextID := s.nextID + 1 } : Sys W R).notify
          (.dispatchCycleBegun (Env.root (s.nextID + 1) m oo.now) (oo.cycle A)))
      rcases hd : dispatchLoop A oo n [Env.root (s.nextID + 1) m oo.now] []
        (({ s with nextID := s.nextID + 1 } : Sys W R).notify
          (.dispatchCycleBegun (Env.root (s.nextID + 1) m oo.now) (oo.cycle A))) with ⟨s2, o2⟩
      rw [hd] at hr ht
      simp only at ht
      cases o2 with
      | done errs => simp only at hr; cases hr; cases h2
      | running => simp only at hr; cases hr; cases h2
      | panicked v' =>
        simp only at hr
        have : s2 = s' := (Prod.mk.inj hr).1
        rw [this, h1, Sys.notify_trace] at ht
        have := congrArg List.length ht
        simp at this
  · obtain ⟨rfl, rfl⟩ := flat_during g
    exact ⟨_, _, rfl, rfl, newOpOpts_now h1, h2⟩

set_option maxRecDepth 100000 in
/-- In the demo nobody consumes the command type `X`, `T` is a timeout, and `C` is fine. -/
example : Unacceptable Demo.app.cfgs ⟨⟨.command, "X"⟩, "", none⟩ ∧
    Unacceptable Demo.app.cfgs ⟨Demo.tmoT, "", none⟩ ∧
    Unacceptable Demo.app.cfgs ⟨Demo.cmdC, "", some "bad"⟩ ∧
    ¬ Unacceptable Demo.app.cfgs (Demo.msgC "x") := by
  unfold Unacceptable; decide

/-! ## C14 -/

/-- **C14.** In an operation with options `op.opts`, a handler handles messages, is ticked or has its
code called only if it takes part; it is skipped, with reason `r`, only if `r` is why it does
not. -/
theorem C14_facts {A : App W R} (wf : A.WF) {s : Sys W R} (hs : Reach A s) (op : Op)
    (hop : op.ok A) (hne : op ≠ .reset) {s' : Sys W R} {out : Outcome (List EngErr)}
    (hr : op.exec A s = (s', out)) (h : HConfig) (e : Env) (r : SkipReason) :
    (.fact (.handlingBegun h e) ∈ during s s' → takesPart op.opts h = true) ∧
    (.fact (.handlingSkipped h e r) ∈ during s s' → whyNot op.opts h = some r) ∧
    (.fact (.tickBegun h) ∈ during s s' → takesPart op.opts h = true) ∧
    (.fact (.tickSkipped h r) ∈ during s s' → whyNot op.opts h = some r) := by
  rcases op_flat wf hs op hop hne hr with ⟨h1, _⟩ | ⟨oo, left, h1, g, _⟩
  · rw [h1]; simp
  · refine ⟨fun hx => ?_, fun hx => ?_, fun hx => ?_, fun hx => ?_⟩
    · have := (g.partake _ hx).2
      rw [newOpOpts_skip h1] at this; exact takesPart_iff.2 this
    · have := (g.partake _ hx).2
      rw [newOpOpts_skip h1] at this; exact this
    · have := (g.partake _ hx).2
      rw [newOpOpts_skip h1] at this; exact takesPart_iff.2 this
    · have := (g.partake _ hx).2
      rw [newOpOpts_skip h1] at this; exact this

/-- **C14.** Every message dispatched in an operation that does not panic is handled by those of its
consumers that take part, and skipped by the others. -/
theorem C14_offered {A : App W R} (wf : A.WF) {s : Sys W R} (hs : Reach A s) (op : Op)
    (hop : op.ok A) (hne : op ≠ .reset) {s' : Sys W R} {out : Outcome (List EngErr)}
    (hr : op.exec A s = (s', out)) (hp : ∀ v, out ≠ .panicked v) (e : Env)
    (he : e ∈ dispatchedIn (during s s')) (h : HConfig) (hh : h ∈ consumers A.cfgs e) :
    if takesPart op.opts h = true then .fact (.handlingBegun h e) ∈ during s s'
    else ∃ r, .fact (.handlingSkipped h e r) ∈ during s s' := by
  have h1 := C07_offers wf hs op hop hne hr hp
  have hm : (e, h) ∈ offersIn (during s s') := by
    rw [h1]
    exact List.mem_flatMap.2 ⟨e, he, List.mem_map_of_mem hh⟩
  unfold offersIn at hm
  obtain ⟨o, ho, hx⟩ := List.mem_filterMap.1 hm
  have key : .fact (.handlingBegun h e) ∈ during s s' ∨
      ∃ r, .fact (.handlingSkipped h e r) ∈ during s s' := by
    clear hm
    revert ho
    split at hx
    · cases hx; exact fun ho => .inl ho
    · cases hx; exact fun ho => .inr ⟨_, ho⟩
    · cases hx
  rcases key with k | ⟨r, k⟩
  · rw [if_pos ((C14_facts wf hs op hop hne hr h e .typeDisabled).1 k)]; exact k
  · have hw := (C14_facts wf hs op hop hne hr h e r).2.1 k
    rw [if_neg (fun ht => by rw [takesPart_iff.1 ht] at hw; cases hw)]
    exact ⟨r, k⟩

/-- What the fact that announces an operation says about a handler: what is said about it by name
if anything is, otherwise what its own configuration and its type say. -/
def CycleInfo.covers (c : CycleInfo) (h : HConfig) : Bool :=
  match c.names.lookup h.name with
  | some b => b
  | none => !h.disabled && decide (c.types.lookup h.htype = some true)

/-- The same for the fact that an operation ends with. -/
def EnabledMaps.covers (m : EnabledMaps) (h : HConfig) : Bool :=
  match m.names.lookup h.name with
  | some b => b
  | none => !h.disabled && decide (m.types.lookup h.htype = some true)

theorem CycleInfo.Fits.covers {c : CycleInfo} {os : List OpOption} {wall : Time}
    (hc : c.Fits os wall) (h : HConfig) : c.covers h = takesPart os h := by
  unfold CycleInfo.covers takesPart
  rw [hc.names, hc.types]
  cases lastSome (OpOption.nameSetting h.name) os with
  | some b => rfl
  | none => simp

/-- **C14.** An operation that is not rejected begins with a fact that tells its engine time and
which handlers take part. -/
theorem C14_announced {A : App W R} (wf : A.WF) {s : Sys W R} (hs : Reach A s) (op : Op)
    (hop : op.ok A) (hne : op ≠ .reset) {s' : Sys W R} {out : Outcome (List EngErr)}
    (hr : op.exec A s = (s', out)) :
    (during s s' = [] ∧ ∃ v, out = .panicked v) ∨
    ∃ c : CycleInfo, c.now = op.time A s ∧ (∀ h, c.covers h = takesPart op.opts h) ∧
      ((∃ root, (during s s').head? = some (.fact (.dispatchCycleBegun root c))) ∨
        (during s s').head? = some (.fact (.tickCycleBegun c))) := by
  have key : ∀ {s0 : Sys W R} {oo : OpOpts}, s0.w = s.w → newOpOpts A s0 op.opts = .ok oo →
      (oo.cycle A).now = op.time A s ∧ ∀ h, (oo.cycle A).covers h = takesPart op.opts h := by
    intro s0 oo hw h
    have hc := newOpOpts_cycle h
    rw [hw] at hc
    exact ⟨hc.now, hc.covers⟩
  cases op with
  | reset => exact absurd rfl hne
  | dispatch n m os =>
    have hr : engDispatch A n m os s = (s', out) := hr
    rcases dispatch_op wf (core_reach wf hs) n m os hr with
      ⟨rfl, h2⟩ | ⟨oo, h1, _, _, _, t, L, left, g, h2, _⟩
    · exact .inl ⟨by simp [during], h2⟩
    · obtain ⟨rfl, rfl⟩ := flat_during g
      obtain ⟨k1, k2⟩ := key rfl h1
      exact .inr ⟨_, k1, k2, .inl ⟨_, h2⟩⟩
  | tick n order os =>
    have hr : engTick A n order os s = (s', out) := hr
    rcases tick_op wf (core_reach wf hs) n order hop os hr with
      ⟨rfl, h2⟩ | ⟨oo, h1, t, L, left, g, _, h2⟩
    · exact .inl ⟨by simp [during], h2⟩
    · obtain ⟨rfl, rfl⟩ := flat_during g
      obtain ⟨k1, k2⟩ := key rfl h1
      exact .inr ⟨_, k1, k2, .inr h2⟩

/-- The handlers ticked in a list of happenings. -/
def tickedIn (L : List (Happening R)) : List HConfig :=
  L.filterMap fun
    | .ticked _ h => some h
    | _ => none

/-- **C14.** A tick that is not cancelled (and does not panic) ticks exactly the handlers that take
part, each once. -/
theorem C14_ticked {A : App W R} (wf : A.WF) {s : Sys W R} (hs : Reach A s) (n : Nat)
    (order : List HConfig) (ho : order.Perm A.cfgs) (os : List OpOption) {s' : Sys W R}
    {errs : List EngErr} (hr : (Op.tick n order os).exec A s = (s', .done errs))
    (hi : ¬ Interrupted errs) :
    tickedIn (happenedDuring s s') = order.filter (takesPart os) := by
  obtain ⟨oo, left, h1, g, _, tp⟩ := op_done wf hs (.tick n order os) ho (fun h => nomatch h) hr
  rcases tp _ _ _ rfl with ⟨_, h2, _⟩ | ⟨L2, h2, h3⟩
  · exact absurd (h2 errs rfl) hi
  · rw [h2]
    unfold tickedIn
    rw [List.filterMap_append, List.filterMap_map]
    have e1 : ∀ L2 : List (Happening R), (∀ x ∈ L2, ∃ h env seg err, x = .handled oo.now h env seg err) →
        tickedIn L2 = [] := by
      intro L2 h3
      unfold tickedIn
      rw [List.filterMap_eq_nil_iff]
      intro x hx
      obtain ⟨_, _, _, _, rfl⟩ := h3 x hx; rfl
    have := e1 L2 h3
    unfold tickedIn at this
    rw [this, List.append_nil]
    have e2 : ∀ l : List HConfig, l.filterMap ((fun x : Happening R => match x with
        | .ticked _ h => some h | _ => none) ∘ Happening.ticked oo.now) = l := by
      intro l
      induction l with
      | nil => rfl
      | cons a l ih => rw [List.filterMap_cons]; simp only [Function.comp_apply]; rw [← Function.comp_def] at *; rw [ih]
    rw [e2]
    apply List.filter_congr
    intro h _
    have h1 : newOpOpts A s os = .ok oo := h1
    rw [newOpOpts_skip h1]
    cases ht : takesPart os h with
    | true => rw [takesPart_iff.1 ht]; rfl
    | false =>
      cases hw : whyNot os h with
      | none => rw [takesPart_iff.2 hw] at ht; cases ht
      | some r => rfl

/-- Options in which a later setting overrides an earlier one and a name overrides a type. -/
example : takesPart [.enableType .integration false, .enableHandler "int" true] Demo.int = true ∧
    takesPart [.enableHandler "int" true, .enableHandler "int" false] Demo.int = false ∧
    takesPart [.enableType .integration false, .enableType .integration true] Demo.int = true ∧
    whyNot [.enableType .integration false] Demo.int = some .typeDisabled := by decide

set_option maxRecDepth 100000 in
/-- The fact that announces a dispatch in the demo, and what it says about the handlers. -/
example : ((during (Sys.init 0) ((Op.dispatch 20 (Demo.msgC "x")
      [.enableType .projection false, .enableHandler "int" false, .currentTime 7]).exec Demo.app
        (Sys.init 0)).1).filterMap (fun o => match o with
      | .fact (.dispatchCycleBegun _ c) =>
        some (c.now, c.names, Demo.app.cfgs.map (fun h => (h.name, c.covers h)))
      | _ => none)) =
    [(7, [("int", false)],
      Demo.app.cfgs.map (fun h => (h.name, !(h.name == "int" || h.htype == .projection))))] := by
  decide +kernel

set_option maxRecDepth 100000 in
/-- With the projection disabled the demo skips it twice. -/
example : Reach Demo.app (Sys.init 0) ∧
    ((Op.dispatch 20 (Demo.msgC "x") [.enableType .projection false]).exec Demo.app (Sys.init 0)).2 = .done [] ∧
    ((during (Sys.init 0)
      ((Op.dispatch 20 (Demo.msgC "x") [.enableType .projection false]).exec Demo.app (Sys.init 0)).1).filter
        (fun o => match o with
          | .fact (.handlingSkipped h _ .typeDisabled) => h = Demo.prj | _ => false)).length = 2 :=
  ⟨.init 0, by decide +kernel⟩

/-! ## C15 -/

/-- **C15.** None of the user code of a handler that does not take part is called, and none of its
engine-held state changes. -/
theorem C15_inert {A : App W R} (wf : A.WF) {s : Sys W R} (hs : Reach A s) (op : Op)
    (hop : op.ok A) (hne : op ≠ .reset) {s' : Sys W R} {out : Outcome (List EngErr)}
    (hr : op.exec A s = (s', out)) (h : HConfig) (hm : h ∈ A.cfgs)
    (ht : takesPart op.opts h = false) :
    (∀ c, .call c ∈ during s s' → c.handler ≠ some h) ∧ s'.agg h.name = s.agg h.name ∧
    s'.proc h.name = s.proc h.name ∧ s'.lastCompact h.name = s.lastCompact h.name := by
  rcases op_flat wf hs op hop hne hr with ⟨h1, _, h2, h3, h4, _⟩ | ⟨oo, left, h1, g, _⟩
  · rw [h1, h2, h3, h4]; simp
  · have hw : skipHandler oo h ≠ none := by
      rw [newOpOpts_skip h1]
      intro h0
      rw [takesPart_iff.2 h0] at ht; cases ht
    refine ⟨?_, g.inert h hm hw⟩
    intro c hc h0
    obtain ⟨h', _, h2, h3⟩ := g.partake _ hc
    rw [h0] at h2; cases h2
    exact hw h3

set_option maxRecDepth 100000 in
/-- In the demo a tick with the process disabled leaves its two timeouts alone. -/
example : Reach Demo.app Demo.before ∧ takesPart [.enableHandler "proc" false, .currentTime 10] Demo.proc = false ∧
    (Demo.before.proc "proc").timeouts.length = 2 ∧
    ((((Op.tick 20 Demo.app.cfgs [.enableHandler "proc" false, .currentTime 10]).exec Demo.app
      Demo.before).1).proc "proc").timeouts.length = 2 :=
  ⟨Demo.before_reach, by decide +kernel⟩

/-! ## C19 -/

/-- **C19.** The options take effect as described by `engineTime` and `whyNot`: last setting wins,
defaults otherwise; observers accumulate in order; an operation is rejected without effect iff
an option names an unknown handler (or, for `Dispatch()`, the message is unacceptable). -/
theorem C19_options {A : App W R} (s : Sys W R) (os : List OpOption) :
    ((∃ oo, newOpOpts A s os = .ok oo) ↔ namesKnown A.cfgs os) ∧
    ∀ oo, newOpOpts A s os = .ok oo → oo.now = engineTime os (A.uc.wallClock s.w) ∧
      (∀ h, skipHandler oo h = whyNot os h) ∧ oo.observers = os.filterMap OpOption.observerOf :=
  ⟨newOpOpts_names, fun _ h => ⟨newOpOpts_now h, newOpOpts_skip h, newOpOpts_observers h⟩⟩

/-- **C19.** Everything that happens in an operation happens at the time the options give it, and the
opening fact of a tick shows it. -/
theorem C19_time {A : App W R} (wf : A.WF) {s : Sys W R} (hs : Reach A s) (op : Op)
    (hop : op.ok A) (hne : op ≠ .reset) {s' : Sys W R} {out : Outcome (List EngErr)}
    (hr : op.exec A s = (s', out)) : ∀ x ∈ happenedDuring s s', x.time = op.time A s := by
  rcases op_flat wf hs op hop hne hr with ⟨_, h1, _⟩ | ⟨oo, left, h1, g, _⟩
  · rw [h1]; simp
  · intro x hx
    rw [g.times x hx, newOpOpts_now h1]; rfl

/-- **C19.** Naming an unknown handler makes both operations panic; nothing is observed and no
handler's state changes. -/
theorem C19_unknown {A : App W R} (wf : A.WF) {s : Sys W R} (hs : Reach A s) (op : Op)
    (hop : op.ok A) (hne : op ≠ .reset) (hn : ¬ namesKnown A.cfgs op.opts) {s' : Sys W R}
    {out : Outcome (List EngErr)} (hr : op.exec A s = (s', out)) :
    (∃ v, out = .panicked v) ∧ during s s' = [] ∧ s'.agg = s.agg ∧ s'.proc = s.proc := by
  rcases op_flat wf hs op hop hne hr with ⟨h1, _, h2, h3, _, h4⟩ | ⟨oo, left, h1, _⟩
  · exact ⟨h4, h1, h2, h3⟩
  · exact absurd (newOpOpts_names.1 ⟨oo, h1⟩) hn

example : ¬ namesKnown Demo.app.cfgs [.enableHandler "nobody" true] ∧
    namesKnown Demo.app.cfgs [.enableHandler "int" true, .currentTime 3] := by
  constructor
  · intro h; have := h "nobody" true (by simp); revert this; decide
  · intro n b h
    simp only [List.mem_cons, OpOption.enableHandler.injEq, List.not_mem_nil, or_false, reduceCtorEq] at h
    rw [h.1]; decide

end Verif
