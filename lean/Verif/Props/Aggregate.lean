import Verif.AggRefine
import Verif.Demo

/-!
# Aggregates: C21, C22, C23, C24, C25, C26, C74

Every theorem is about `Reach A s`: `s` is any state reached from a new engine by any
sequence of dispatches, ticks and resets, with any user code.  `happenings pre` are the
handlings completed (since the last reset) before an observation, `curSeg pre` is what was
observed so far in the handling in progress.
-/

namespace Verif

variable {W R : Type}

/-! ## C21 -/

/-- **C21.** The stored history of every aggregate instance is `aggHistory` of what
happened. -/
theorem C21_history {A : App W R} (wf : A.WF) {s : Sys W R} (hs : Reach A s) (name id : String) :
    s.agg name id = aggHistory name id (happenings s.trace) :=
  ((agg_refine A).reach wf hs).1 name id

theorem aggHistory_none {name id : String} {L : List (Happening R)}
    (h : ∀ y ∈ L, ¬ y.isAgg name id) : aggHistory name id L = none := by
  have := aggHistory_later (L1 := []) h
  simpa [aggHistory] using this

theorem aggHistory_since {name id : String} {L1 L2 : List (Happening R)}
    (h1 : L1 = [] ∨ ∃ L0 x, L1 = L0 ++ [x] ∧ x.isAgg name id ∧ aggExistsAfter false x.seg = false)
    (h2 : ∀ y ∈ L2, y.isAgg name id → aggExistsAfter false y.seg = true) :
    aggHistory name id (L1 ++ L2) =
      if L2.filter (fun y => y.isAgg name id) = [] then none
      else some ((L2.filter (fun y => y.isAgg name id)).flatMap (fun y => aggEventsIn y.seg)) := by
  have base : aggHistory name id L1 = none := by
    rcases h1 with rfl | ⟨L0, x, rfl, hx, he⟩
    · rfl
    · rw [aggHistory_snoc, if_pos hx, he]; rfl
  induction L2 using List.reverseRecOn' with
  | nil => simpa using base
  | append_singleton L2 y ih =>
    have ih := ih (fun z hz => h2 z (by simp [hz]))
    rw [← List.append_assoc, aggHistory_snoc]
    by_cases hy : y.isAgg name id
    · rw [if_pos hy, h2 y (by simp) hy, ih]
      simp only [if_true, List.filter_append, hy, decide_true, List.filter_cons_of_pos,
        List.filter_nil, List.append_eq_nil_iff, List.cons_ne_nil, and_false, if_false]
      congr 1
      split
      · rename_i h0; simp [h0]
      · simp
    · rw [if_neg hy, ih]
      simp [List.filter_append, hy]

/-- **C21**, spelled out: cut the past (since the last reset) after the last handling that
left the instance destroyed.  The stored history is the list of the events recorded for the
instance in the completed handlings since then, and there is none if there was no handling. -/
theorem C21_since_destroyed {A : App W R} (wf : A.WF) {s : Sys W R} (hs : Reach A s)
    (name id : String) (L1 L2 : List (Happening R)) (hL : happenings s.trace = L1 ++ L2)
    (h1 : L1 = [] ∨ ∃ L0 x, L1 = L0 ++ [x] ∧ x.isAgg name id ∧ aggExistsAfter false x.seg = false)
    (h2 : ∀ y ∈ L2, y.isAgg name id → aggExistsAfter false y.seg = true) :
    s.agg name id =
      if L2.filter (fun y => y.isAgg name id) = [] then none
      else some ((L2.filter (fun y => y.isAgg name id)).flatMap (fun y => aggEventsIn y.seg)) := by
  rw [C21_history wf hs, hL]; exact aggHistory_since h1 h2

set_option maxRecDepth 100000 in
example : Demo.app.WF ∧ Reach Demo.app Demo.final ∧
    ((Demo.final.agg "agg" "a").map (·.map fun e => e.msg.body)) = some ["x", "y"] :=
  ⟨Demo.app_wf, Demo.final_reach, by decide +kernel⟩

/-! ## C22 -/

/-- **C22.** Whenever `HandleCommand()` is called with a root `r`:
* `r` is the result of applying the historical events of the instance, in order, to a root
  returned by `New()`;
* before the call, in the same handling, the handler saw exactly: the routing of the command,
  `New()`, one `ApplyEvent()` call per historical event, in order. -/
theorem C22_replay {A : App W R} (wf : A.WF) {s : Sys W R} (hs : Reach A s) :
    Always (fun pre o => ∀ h id r m, o = .call (.aggHandle h id r m) →
      let hist := ((aggHistory h.name id (happenings pre)).getD []).map Env.msg
      (∃ r0, NewRoot A.uc h r0 ∧ Replays A.uc h r0 hist r) ∧
      ∃ f ap, curSeg pre = .call (.aggRoute h m) :: .call (.aggNew h) :: ap ++ [.fact f] ∧
        appliedIn ap = hist ∧ ap.length = hist.length) s.trace := by
  rintro pre o post ht h id r m rfl
  have := (((agg_refine A).reach wf hs).2 pre _ post ht).2
  obtain ⟨h1, env, ap, h2, h3, h4, h5⟩ := this
  exact ⟨h1, _, ap, h3, h4, by simpa using h5⟩

/-- **C22**, when `New()` and `ApplyEvent()` are functions of their arguments: the root is
the fold of the history. -/
theorem C22_replay_pure {A : App W R} (wf : A.WF) {s : Sys W R} (hs : Reach A s)
    {r0 : HConfig → R} {ap : HConfig → R → Message → R} (g : A.uc.PureRoots r0 ap) :
    Always (fun pre o => ∀ h id r m, o = .call (.aggHandle h id r m) →
      r = (((aggHistory h.name id (happenings pre)).getD []).map Env.msg).foldl (ap h) (r0 h))
      s.trace := by
  intro pre o post ht h id r m ho
  obtain ⟨⟨rn, ⟨w, hw⟩, hr⟩, _⟩ := C22_replay wf hs pre o post ht h id r m ho
  rw [g.new] at hw
  obtain rfl : r0 h = rn := by simpa using hw
  exact replays_pure g hr

theorem Demo.pureRoots : Demo.app.uc.PureRoots (fun _ => []) (fun _ r m => r ++ [m.body]) :=
  ⟨fun _ _ _ _ => rfl, fun _ _ => rfl⟩

set_option maxRecDepth 100000 in
example : Demo.app.uc.PureRoots (fun _ => []) (fun _ r m => r ++ [m.body]) ∧
    Obs.call (.aggHandle Demo.agg "a" ["x"] (Demo.msgC "y")) ∈ Demo.final.trace :=
  ⟨Demo.pureRoots, by decide +kernel⟩

/-! ## C23 -/

/-- The last completed handling of the instance, if any, left it existing. -/
def LeftExisting (name id : String) (L : List (Happening R)) : Prop :=
  ∃ L1 x L2, L = L1 ++ x :: L2 ∧ x.isAgg name id ∧ aggExistsAfter false x.seg = true ∧
    ∀ y ∈ L2, ¬ y.isAgg name id

theorem aggHistory_isSome {name id : String} {L : List (Happening R)} :
    (aggHistory name id L).isSome ↔ LeftExisting name id L := by
  constructor
  · induction L using List.reverseRecOn' with
    | nil => intro h; cases h
    | append_singleton L y ih =>
      intro h
      rw [aggHistory_snoc] at h
      by_cases hy : y.isAgg name id
      · rw [if_pos hy] at h
        by_cases hx : aggExistsAfter false y.seg = true
        · exact ⟨L, y, [], rfl, hy, hx, by simp⟩
        · rw [if_neg hx] at h; cases h
      · rw [if_neg hy] at h
        obtain ⟨L1, x, L2, rfl, h1, h2, h3⟩ := ih h
        refine ⟨L1, x, L2 ++ [y], by simp, h1, h2, ?_⟩
        intro z hz
        rcases List.mem_append.1 hz with hz | hz
        · exact h3 z hz
        · rw [List.mem_singleton.1 hz]; exact hy
  · rintro ⟨L1, x, L2, rfl, h1, h2, h3⟩
    have e : L1 ++ x :: L2 = (L1 ++ [x]) ++ L2 := by simp
    rw [e, aggHistory_later h3, aggHistory_snoc, if_pos h1, if_pos h2]; rfl

/-- **C23.** 'Loaded' is reported only if the last completed handling of that instance left
it existing (created and not destroyed); 'not found' only otherwise.  (Every handling that
gets as far as calling `HandleCommand()` reports one of the two: `C23_reported`.) -/
theorem C23_truth {A : App W R} (wf : A.WF) {s : Sys W R} (hs : Reach A s) :
    Always (fun pre o => ∀ h id env,
      (o = .fact (.aggLoaded h id env) → LeftExisting h.name id (happenings pre)) ∧
      (o = .fact (.aggNotFound h id env) → ¬ LeftExisting h.name id (happenings pre))) s.trace := by
  intro pre o post ht h id env
  have := (((agg_refine A).reach wf hs).2 pre _ post ht).1
  refine ⟨?_, ?_⟩
  · rintro rfl; exact aggHistory_isSome.1 this
  · rintro rfl h0
    have := this
    simp only [AggObsOK] at this
    rw [← aggHistory_isSome, this] at h0; cases h0

/-- **C23.** The last thing observed before `HandleCommand()` is called is 'loaded' or 'not
found' for that instance, according to the truth. -/
theorem C23_reported {A : App W R} (wf : A.WF) {s : Sys W R} (hs : Reach A s) :
    Always (fun pre o => ∀ h id r m, o = .call (.aggHandle h id r m) →
      ∃ c env, env.msg = m ∧
        (LeftExisting h.name id (happenings pre) → curSeg pre = c ++ [.fact (.aggLoaded h id env)]) ∧
        (¬ LeftExisting h.name id (happenings pre) → curSeg pre = c ++ [.fact (.aggNotFound h id env)]))
      s.trace := by
  rintro pre o post ht h id r m rfl
  obtain ⟨_, env, ap, h2, h3, _, _⟩ := (((agg_refine A).reach wf hs).2 pre _ post ht).2
  refine ⟨.call (.aggRoute h m) :: .call (.aggNew h) :: ap, env, h2, ?_, ?_⟩
  · intro h0
    rw [if_pos (aggHistory_isSome.2 h0)] at h3; exact h3
  · intro h0
    rw [if_neg (fun h1 => h0 (aggHistory_isSome.1 h1))] at h3; exact h3

/-- **C74**, in terms of recorded events, for applications whose `ApplyEvent()` never panics
and whose `New()` never fails: 'loaded' is reported iff an event was recorded for the instance
in a completed handling since the last one that left it destroyed.
Missing: for other applications this is false, see `C74_recorded_false`. -/
theorem C74_recorded_partial {A : App W R} (wf : A.WF) {s : Sys W R} (hs : Reach A s)
    (g : A.uc.TotalRoots) :
    Always (fun pre o => ∀ h id env L1 L2, happenings pre = L1 ++ L2 →
      (L1 = [] ∨ ∃ L0 x, L1 = L0 ++ [x] ∧ x.isAgg h.name id ∧ aggExistsAfter false x.seg = false) →
      (∀ y ∈ L2, y.isAgg h.name id → aggExistsAfter false y.seg = true) →
      (o = .fact (.aggLoaded h id env) → ∃ y ∈ L2, y.isAgg h.name id ∧ aggEventsIn y.seg ≠ []) ∧
      (o = .fact (.aggNotFound h id env) → ∀ y ∈ L2, ¬ y.isAgg h.name id)) s.trace := by
  intro pre o post ht h id env L1 L2 hL h1 h2
  have hsince := aggHistory_since h1 h2
  rw [← hL] at hsince
  refine ⟨?_, ?_⟩
  · rintro rfl
    have k1 := (((agg_refine A).reach wf hs).2 pre _ post ht).1
    have k2 := ((roots_refine wf).reach wf hs).2 pre _ post ht g
    simp only [AggObsOK] at k1
    rw [hsince] at k1 k2
    split at k1
    · cases k1
    · rename_i hne
      rw [if_neg hne] at k2
      apply Classical.byContradiction
      intro hno
      apply k2
      congr 1
      rw [List.flatMap_eq_nil_iff]
      intro y hy
      rw [List.mem_filter] at hy
      apply Classical.byContradiction
      intro h0
      exact hno ⟨y, hy.1, by simpa using hy.2, h0⟩
  · rintro rfl y hy hya
    have k1 := (((agg_refine A).reach wf hs).2 pre _ post ht).1
    simp only [AggObsOK] at k1
    rw [hsince] at k1
    split at k1
    · rename_i he
      rw [List.filter_eq_nil_iff] at he
      exact he y hy (by simpa using hya)
    · cases k1

theorem Demo.totalRoots : Demo.app.uc.TotalRoots := ⟨fun _ _ _ _ => rfl, fun _ _ => ⟨[], rfl⟩⟩

set_option maxRecDepth 100000 in
example : Demo.app.uc.TotalRoots ∧ Demo.final.trace.any (fun o => match o with
      | .fact (.aggLoaded _ id _) => id = "a" | _ => false) = true ∧
    Demo.final.trace.any (fun o => match o with
      | .fact (.aggNotFound _ id _) => id = "a" | _ => false) = true :=
  ⟨Demo.totalRoots, by decide +kernel, by decide +kernel⟩

/-- An application in which `ApplyEvent()` panics for one event and the handler recovers from
that panic. -/
def Demo.recovering : App Nat (List String) :=
  { Demo.app with
    uc := { Demo.uc with
      aggApply := fun _ r m w => if m.body = "boom" then (w, r, some (.user "boom"))
        else (w, r ++ [m.body], none)
      aggHandle := fun _ _ _ m => .op (.record ⟨Demo.evtE, m.body, none⟩) (fun _ => .ret ()) } }

theorem Demo.recovering_wf : Demo.recovering.WF := ⟨Demo.app_wf.names, Demo.app_wf.handlers⟩

def Demo.recovered : Sys Nat (List String) :=
  Demo.runOps Demo.recovering [.dispatch 20 (Demo.msgC "boom") [], .dispatch 20 (Demo.msgC "x") []] (Sys.init 0)

/-- **C74**, negative part: in terms of recorded events, the claim is false in general.  If
`ApplyEvent()` panics and the handler recovers, the instance exists although no event was
ever recorded; the next command reports 'loaded'. -/
theorem C74_recorded_false : Reach Demo.recovering Demo.recovered ∧
    ∃ pre h id env post, Demo.recovered.trace = pre ++ .fact (.aggLoaded h id env) :: post ∧
      ∀ y ∈ happenings pre, aggEventsIn y.seg = [] := by
  refine ⟨Demo.runOps_reach _ (by simp [Op.ok]) (.init 0), ?_⟩
  refine ⟨Demo.recovered.trace.take 17, Demo.agg, "a",
    ⟨2, 2, 2, Demo.msgC "x", 0, 0, none⟩, Demo.recovered.trace.drop 18, ?_, ?_⟩
  · decide +kernel
  · decide +kernel

/-! ## C24 -/

/-- **C24.** Suppose the last completed handling of an instance left it destroyed.  Then no
history is stored for it, 'loaded' is not reported for it, and when `HandleCommand()` is called
for it the root comes straight from `New()`, without any `ApplyEvent()` call.  (That the events
recorded by such a handling are dispatched all the same is part of C05.) -/
theorem C24_starts_over {A : App W R} (wf : A.WF) {s : Sys W R} (hs : Reach A s) :
    Always (fun pre o => ∀ h id L1 x L2, happenings pre = L1 ++ x :: L2 → x.isAgg h.name id →
      aggExistsAfter false x.seg = false → (∀ y ∈ L2, ¬ y.isAgg h.name id) →
      (∀ env, o ≠ .fact (.aggLoaded h id env)) ∧
      (∀ r m, o = .call (.aggHandle h id r m) → NewRoot A.uc h r ∧ appliedIn (curSeg pre) = [] ∧
        ∃ env c, curSeg pre = c ++ [.fact (.aggNotFound h id env)])) s.trace := by
  intro pre o post ht h id L1 x L2 hL hx hex hl
  have hn : aggHistory h.name id (happenings pre) = none := by
    have e : L1 ++ x :: L2 = (L1 ++ [x]) ++ L2 := by simp
    rw [hL, e, aggHistory_later hl, aggHistory_snoc, if_pos hx, hex]; rfl
  refine ⟨?_, ?_⟩
  · rintro env rfl
    have k1 := (((agg_refine A).reach wf hs).2 pre _ post ht).1
    simp only [AggObsOK, hn] at k1
    cases k1
  · rintro r m rfl
    obtain ⟨⟨r0, h1, h2⟩, env, ap, h3, h4, h5, h6⟩ := (((agg_refine A).reach wf hs).2 pre _ post ht).2
    rw [hn] at h2 h4 h5 h6
    simp only [Option.getD_none, List.map_nil, List.length_nil, List.length_eq_zero_iff] at h2 h5 h6
    subst h6
    cases h2
    refine ⟨h1, ?_, env, _, h4⟩
    rw [show curSeg pre = _ from h4]; simp [appliedIn]

/-- **C24.** No history is stored for an instance that was left destroyed. -/
theorem C24_deleted {A : App W R} (wf : A.WF) {s : Sys W R} (hs : Reach A s) (name id : String)
    (L1 : List (Happening R)) (x : Happening R) (L2 : List (Happening R))
    (hL : happenings s.trace = L1 ++ x :: L2) (hx : x.isAgg name id)
    (hex : aggExistsAfter false x.seg = false) (hl : ∀ y ∈ L2, ¬ y.isAgg name id) :
    s.agg name id = none := by
  rw [C21_history wf hs]
  have e : L1 ++ x :: L2 = (L1 ++ [x]) ++ L2 := by simp
  rw [hL, e, aggHistory_later hl, aggHistory_snoc, if_pos hx, hex]; rfl

/-- The `i`th happening. -/
def Demo.nth (L : List (Happening R)) (i : Nat) : Happening R := (L[i]?).getD (.ticked 0 Demo.agg)

/-- An application whose aggregate can be told to destroy itself ("destroy"), or to destroy
itself and start over ("replace"). -/
def Demo.destroying : App Nat (List String) :=
  { Demo.app with
    uc := { Demo.uc with
      aggHandle := fun _ _ _ m =>
        if m.body = "destroy" then Demo.ops () [.record ⟨Demo.evtE, "bye", none⟩, .destroy]
        else if m.body = "replace" then Demo.ops () [.destroy, .record ⟨Demo.evtE, "again", none⟩]
        else Demo.ops () [.record ⟨Demo.evtE, m.body, none⟩] } }

theorem Demo.destroying_wf : Demo.destroying.WF := ⟨Demo.app_wf.names, Demo.app_wf.handlers⟩

def Demo.destroyed : Sys Nat (List String) :=
  Demo.runOps Demo.destroying [.dispatch 20 (Demo.msgC "x") [.enableHandler "proc" false],
    .dispatch 20 (Demo.msgC "destroy") [.enableHandler "proc" false],
    .dispatch 20 (Demo.msgC "y") [.enableHandler "proc" false]] (Sys.init 0)

set_option maxRecDepth 100000 in
/-- The hypotheses of C24 are met: after "x" and "destroy", the third command is handled
with a new root. -/
example : Demo.destroying.WF ∧ Reach Demo.destroying Demo.destroyed ∧
    (∃ pre post, Demo.destroyed.trace =
        pre ++ .call (.aggHandle Demo.agg "a" [] (Demo.msgC "y")) :: post ∧
      ∃ x y z u, happenings pre = [x, y, z, u] ∧ z.isAgg "agg" "a" ∧
        aggExistsAfter false z.seg = false ∧ aggEventsIn z.seg ≠ [] ∧ ¬ u.isAgg "agg" "a") :=
  ⟨Demo.destroying_wf, Demo.runOps_reach _ (by simp [Op.ok]) (.init 0),
    Demo.destroyed.trace.take 52, Demo.destroyed.trace.drop 53, by decide +kernel,
    (Demo.nth (happenings (Demo.destroyed.trace.take 52)) 0), (Demo.nth (happenings (Demo.destroyed.trace.take 52)) 1),
    (Demo.nth (happenings (Demo.destroyed.trace.take 52)) 2), (Demo.nth (happenings (Demo.destroyed.trace.take 52)) 3),
    by decide +kernel⟩

/-! ## C25 -/

/-- **C25.** Within a handling (`curSeg pre` is what was observed in it so far):
'created' is reported only if the instance does not exist and was not destroyed in this
handling; 'destruction reverted' only if it was destroyed in this handling and still is;
'destroyed' only while it exists; an event is recorded only while it exists. -/
theorem C25_alternation {A : App W R} (wf : A.WF) {s : Sys W R} (hs : Reach A s) :
    Always (fun pre o =>
      let existing := aggExistsAfter false (curSeg pre)
      let destroyed := destroyedAfter false (curSeg pre)
      ∀ h id env,
        (o = .fact (.aggCreated h id env) → existing = false ∧ destroyed = false) ∧
        (o = .fact (.aggReverted h id env) → existing = false ∧ destroyed = true) ∧
        (o = .fact (.aggDestroyed h id env) → existing = true) ∧
        (∀ ev, o = .fact (.aggEvent h id env ev) → existing = true)) s.trace := by
  intro pre o post ht existing destroyed h id env
  have k := (((agg_refine A).reach wf hs).2 pre _ post ht).1
  refine ⟨?_, ?_, ?_, ?_⟩
  · rintro rfl; exact k
  · rintro rfl; exact k
  · rintro rfl; exact k
  · rintro ev rfl; exact k

/-- **C25.** After any history, an instance exists iff the facts of its last completed
handling say so. -/
theorem C25_outcome {A : App W R} (wf : A.WF) {s : Sys W R} (hs : Reach A s) (name id : String) :
    (s.agg name id).isSome ↔ LeftExisting name id (happenings s.trace) := by
  rw [C21_history wf hs]; exact aggHistory_isSome

/-! ## C26 -/

/-- **C26**, for handlings in which no destruction was reverted: if `New()` and `ApplyEvent()`
are functions of their arguments and `HandleCommand()` changes roots by recording events only, the root
that `HandleCommand()` sees is the root as the previous completed handling of that instance left it.
Missing: handlings in which a destruction was reverted or the root was changed otherwise, for which it is
false (`C26_reverted_false`, `C26_changed_false`). -/
theorem C26_kept_partial {A : App W R} (wf : A.WF) {s : Sys W R} (hs : Reach A s)
    {r0 : HConfig → R} {ap : HConfig → R → Message → R} (g : A.uc.PureRoots r0 ap)
    (hev : A.uc.EventsOnly) :
    Always (fun pre o => ∀ h id r m, o = .call (.aggHandle h id r m) →
      ∀ L1 x L2, happenings pre = L1 ++ x :: L2 → x.isAgg h.name id →
        (∀ y ∈ L2, ¬ y.isAgg h.name id) → NoRevert x.seg → aggExistsAfter false x.seg = true →
        liveRoot r0 ap none x.seg = some r) s.trace := by
  rintro pre o post ht h id r m rfl
  exact ((roots_refine wf).reach wf hs).2 pre _ post ht r0 ap g hev

def Demo.replaced : Sys Nat (List String) :=
  Demo.runOps Demo.destroying [.dispatch 20 (Demo.msgC "x") [.enableHandler "proc" false],
    .dispatch 20 (Demo.msgC "replace") [.enableHandler "proc" false],
    .dispatch 20 (Demo.msgC "y") [.enableHandler "proc" false]] (Sys.init 0)

theorem Prog.avoids_ops {O α : Type} {bad : O → Prop} {a : α} {l : List O} (h : ∀ o ∈ l, ¬ bad o) :
    (Demo.ops a l).Avoids bad := by
  induction l with
  | nil => trivial
  | cons o l ih =>
    refine ⟨h o (by simp), fun p => ?_⟩
    cases p with
    | none => exact ih fun o ho => h o (by simp [ho])
    | some v => trivial

theorem Demo.destroying_events : Demo.destroying.uc.EventsOnly := by
  intro h id r m
  show Prog.Avoids _ (ite ..)
  split
  · exact Prog.avoids_ops (by simp [AggOp.direct])
  split <;> exact Prog.avoids_ops (by simp [AggOp.direct])

theorem Demo.destroying_pure :
    Demo.destroying.uc.PureRoots (fun _ => []) (fun _ r m => r ++ [m.body]) :=
  ⟨fun _ _ _ _ => rfl, fun _ _ => rfl⟩

instance (t : List (Obs R)) : Decidable (NoRevert t) :=
  decidable_of_iff (t.all fun o => match o with | .fact (.aggReverted _ _ _) => false | _ => true) (by
    rw [List.all_eq_true]
    refine ⟨fun h hc id env hm => by simpa using h _ hm, fun h o ho => ?_⟩
    split
    · rename_i hc id env; exact (h hc id env ho).elim
    · rfl)

/-- A history that meets the hypotheses of C26: the root of the second command is the one the
first handling left. -/
def Demo.kept : Sys Nat (List String) :=
  Demo.runOps Demo.destroying [.dispatch 20 (Demo.msgC "x") [.enableHandler "proc" false],
    .dispatch 20 (Demo.msgC "y") [.enableHandler "proc" false]] (Sys.init 0)

set_option maxRecDepth 100000 in
example : ∃ pre post r, Demo.kept.trace =
      pre ++ .call (.aggHandle Demo.agg "a" r (Demo.msgC "y")) :: post ∧
    ∃ x y, happenings pre = [x, y] ∧ x.isAgg "agg" "a" ∧ ¬ y.isAgg "agg" "a" ∧
      NoRevert x.seg ∧ aggExistsAfter false x.seg = true ∧ r = ["x"] :=
  ⟨Demo.kept.trace.take 29, Demo.kept.trace.drop 30, ["x"], by decide +kernel,
    (Demo.nth (happenings (Demo.kept.trace.take 29)) 0), (Demo.nth (happenings (Demo.kept.trace.take 29)) 1),
    by decide +kernel⟩

set_option maxRecDepth 100000 in
/-- **C26 is false for reverted destructions.** The second handling destroys the instance and
then records an event.  Its own root is then the new root with that event applied, but the next
command sees a root with the events from before the destruction replayed as well: the history
is not cleared by a destruction that is reverted. -/
theorem C26_reverted_false :
    ∃ (A : App Nat (List String)) (r0 : HConfig → List String)
      (ap : HConfig → List String → Message → List String) (s : Sys Nat (List String)),
      A.WF ∧ Reach A s ∧ A.uc.PureRoots r0 ap ∧
      ¬ Always (fun pre o => ∀ h id r m, o = .call (.aggHandle h id r m) →
        ∀ L1 x L2, happenings pre = L1 ++ x :: L2 → x.isAgg h.name id →
          (∀ y ∈ L2, ¬ y.isAgg h.name id) → aggExistsAfter false x.seg = true →
          liveRoot r0 ap none x.seg = some r) s.trace := by
  refine ⟨Demo.destroying, _, _, Demo.replaced, Demo.destroying_wf,
    Demo.runOps_reach _ (by simp [Op.ok]) (.init 0), Demo.destroying_pure, ?_⟩
  intro h
  have k := h (Demo.replaced.trace.take 55) (.call (.aggHandle Demo.agg "a" ["x", "again"] (Demo.msgC "y")))
    (Demo.replaced.trace.drop 56) (by decide +kernel) Demo.agg "a" ["x", "again"] (Demo.msgC "y") rfl
    ((happenings (Demo.replaced.trace.take 55)).take 2)
    (Demo.nth (happenings (Demo.replaced.trace.take 55)) 2)
    ((happenings (Demo.replaced.trace.take 55)).drop 3) (by decide +kernel) (by decide +kernel)
    (by decide +kernel) (by decide +kernel)
  exact absurd k (by decide +kernel)

/-- A handler that changes the root itself before it records an event. -/
def Demo.meddling : App Nat (List String) :=
  { Demo.app with
    uc := { Demo.uc with
      aggHandle := fun _ _ r m =>
        Demo.ops () [.setRoot (r ++ ["by hand"]), .record ⟨Demo.evtE, m.body, none⟩] } }

theorem Demo.meddling_wf : Demo.meddling.WF := ⟨Demo.app_wf.names, Demo.app_wf.handlers⟩

def Demo.meddled : Sys Nat (List String) :=
  Demo.runOps Demo.meddling [.dispatch 20 (Demo.msgC "x") [.enableHandler "proc" false],
    .dispatch 20 (Demo.msgC "y") [.enableHandler "proc" false]] (Sys.init 0)

theorem Demo.meddling_pure :
    Demo.meddling.uc.PureRoots (fun _ => []) (fun _ r m => r ++ [m.body]) :=
  ⟨fun _ _ _ _ => rfl, fun _ _ => rfl⟩

set_option maxRecDepth 100000 in
/-- **C26 is false for roots that are changed otherwise.**  The first handling changes the root itself, then
records an event, which is applied to the changed root; no destruction is reverted.  The next command sees
a root without that change. -/
theorem C26_changed_false :
    ∃ (A : App Nat (List String)) (r0 : HConfig → List String)
      (ap : HConfig → List String → Message → List String) (s : Sys Nat (List String)),
      A.WF ∧ Reach A s ∧ A.uc.PureRoots r0 ap ∧
      ¬ Always (fun pre o => ∀ h id r m, o = .call (.aggHandle h id r m) →
        ∀ L1 x L2, happenings pre = L1 ++ x :: L2 → x.isAgg h.name id →
          (∀ y ∈ L2, ¬ y.isAgg h.name id) → NoRevert x.seg → aggExistsAfter false x.seg = true →
          liveRoot r0 ap none x.seg = some r) s.trace := by
  refine ⟨Demo.meddling, _, _, Demo.meddled, Demo.meddling_wf,
    Demo.runOps_reach _ (by simp [Op.ok]) (.init 0), Demo.meddling_pure, ?_⟩
  intro h
  have k := h (Demo.meddled.trace.take 29) (.call (.aggHandle Demo.agg "a" ["x"] (Demo.msgC "y")))
    (Demo.meddled.trace.drop 30) (by decide +kernel) Demo.agg "a" ["x"] (Demo.msgC "y") rfl
    [] (Demo.nth (happenings (Demo.meddled.trace.take 29)) 0)
    ((happenings (Demo.meddled.trace.take 29)).drop 1) (by decide +kernel) (by decide +kernel)
    (by decide +kernel) (by decide +kernel) (by decide +kernel)
  exact absurd k (by decide +kernel)

end Verif
