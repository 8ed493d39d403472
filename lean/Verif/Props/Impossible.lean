import Verif.Props.Expect
import Verif.Props.Identity

/-!
# Expectations that can not be met (C54)
-/

namespace Verif

variable {W R : Type}

/-- Messages that count, in a run of the engine, have types that the application uses
accordingly. -/
theorem counted_possible {A : App W R} (wf : A.WF) {s : Sys W R} (hs : Reach A s) (sc : PScope)
    (hc : sc.cfgs = A.cfgs) (fs : List Fact) (hfs : ∀ f ∈ fs, Obs.fact f ∈ s.trace) (m : Message)
    (hm : m ∈ countedIn sc.opts.matchDispatch fs) : Possible sc m.type := by
  unfold countedIn at hm
  obtain ⟨ev, hev, rfl⟩ := List.mem_map.1 hm
  obtain ⟨f, hf, hcf⟩ := List.mem_filterMap.1 hev
  obtain ⟨pre, post, ht⟩ := List.append_of_mem (hfs f hf)
  have hem := (core_reach wf hs).em pre _ post ht
  unfold Possible
  rw [hc]
  have hprod : ∀ h env, f.produced = some (h, env, ev) → ∃ h ∈ A.cfgs, ev.msg.type ∈ h.produces :=
    fun h env hp => ⟨h, ((hem.1 h env ev hp).1).handler, ((hem.1 h env ev hp).1).child.declared⟩
  unfold Fact.counts at hcf
  by_cases hmd : sc.opts.matchDispatch = true
  · rw [if_pos hmd] at hcf
    cases f with
    | dispatchCycleBegun e now =>
      simp only [Fact.created, Option.some.injEq] at hcf
      subst hcf
      right
      exact ⟨hmd, (hem.2.2.2.2 e now rfl).2.2.2.2.2.2⟩
    | aggEvent h id env e =>
      simp only [Fact.created, Option.some.injEq] at hcf
      subst hcf; exact .inl (hprod h env rfl)
    | procCommand h id env e =>
      simp only [Fact.created, Option.some.injEq] at hcf
      subst hcf; exact .inl (hprod h env rfl)
    | procTimeout h id env e =>
      simp only [Fact.created, Option.some.injEq] at hcf
      subst hcf; exact .inl (hprod h env rfl)
    | intEvent h env e =>
      simp only [Fact.created, Option.some.injEq] at hcf
      subst hcf; exact .inl (hprod h env rfl)
    | _ => cases hcf
  · rw [if_neg hmd] at hcf
    simp only [Option.map_eq_some_iff] at hcf
    obtain ⟨⟨h, env, e⟩, hp, rfl⟩ := hcf
    exact .inl (hprod h env hp)

/-- An expectation that asks for a message: `ToExecuteCommand`, `ToRecordEvent`,
`ToExecuteCommandType`, `ToRecordEventType`, `ToExecuteCommandMatching`, `ToRecordEventMatching`. -/
def Expectation.wantsMessage : Expectation → Bool
  | .message _ => true
  | .type _ => true
  | .matching _ _ _ ex => !ex
  | _ => false

/-- **C54.**  If an expectation that asks for a message is refused because of how the application
uses its type, then it can not be met by any facts of any run of an engine for that
application. -/
theorem C54_impossible_partial {A : App W R} (wf : A.WF) {s : Sys W R} (hs : Reach A s) (sc : PScope)
    (hc : sc.cfgs = A.cfgs) (fs : List Fact) (hfs : ∀ f ∈ fs, Obs.fact f ∈ s.trace)
    (e : Expectation) (he : e.wantsMessage = true) (x : BuildErr)
    (hx : (e.build sc).2 = .error x) : ¬ Holds sc fs e := by
  have hp := counted_possible wf hs sc hc fs hfs
  cases e with
  | message m =>
    unfold Holds
    rintro ⟨y, hy, ht, -⟩
    have := guard_ok (hp y hy)
    rw [ht] at this
    unfold Expectation.build at hx
    rw [this] at hx
    cases hx
  | type t =>
    unfold Holds
    rintro ⟨y, hy, ht⟩
    have := guard_ok (hp y hy)
    rw [ht] at this
    unfold Expectation.build at hx
    rw [this] at hx
    cases hx
  | matching T fn loc ex =>
    cases ex with
    | true => cases he
    | false =>
      unfold Holds
      rintro ⟨pre, y, post, hy, -⟩
      unfold Expectation.build at hx
      cases hi : T.iface with
      | some g => simp [hi] at hx
      | none =>
        have hm : y ∈ asked T (countedIn sc.opts.matchDispatch fs) := by rw [hy]; simp
        simp only [asked, ofKind, List.mem_filter, decide_eq_true_eq] at hm
        have ht : y.type = T.type := by simpa [MatchType.asserts, hi] using hm.2
        have := guard_ok (hp y hm.1.1)
        rw [ht] at this
        simp only [hi, this] at hx
        cases hx
  | _ => cases he

/-- **C54** does not extend to `ToOnlyExecuteCommandsMatching`/`ToOnlyRecordEventsMatching`, which
are refused though they would be met: no message of the kind is produced. -/
theorem C54_only_fails : ∃ (sc : PScope) (e : Expectation) (x : BuildErr),
    (e.build sc).2 = .error x ∧ Holds sc [] e := by
  refine ⟨Demo.scope false, .matching { type := ⟨.event, "unknown"⟩ } (fun _ _ => .nil) "f" true,
    .unused ⟨.event, "unknown"⟩, ?_, ?_⟩
  · rfl
  · unfold Holds
    simp [countedIn, asked, ofKind]

-- A refused expectation, and facts of a run.
set_option maxRecDepth 100000 in
example : Reach Demo.app Demo.final ∧ (∀ f ∈ Demo.runFacts, Obs.fact f ∈ Demo.final.trace) ∧
    ((Expectation.type Demo.cmdC).build (Demo.scope false)).2 = .error (.onlyConsumed Demo.cmdC) ∧
    Demo.runFacts.length > 20 := by
  refine ⟨Demo.final_reach, ?_, rfl, by decide +kernel⟩
  intro f hf
  unfold Demo.runFacts at hf
  obtain ⟨o, ho, h⟩ := List.mem_filterMap.1 hf
  cases o with
  | fact g => simp at h; rwa [← h]
  | call c => cases h
  | reset => cases h

end Verif
