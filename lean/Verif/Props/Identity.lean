import Verif.Demo

/-!
# Identity of messages: C01, C02, C03, C04, C08, C09, C30

Every theorem is about `Reach A s`: `s` is any state reached from a new engine
by any sequence of dispatches, ticks and resets, with any user code.  The trace
`s.trace` is everything that was observed on the way.
-/

namespace Verif

variable {W R : Type}

/-! ## C01 -/

/-- **C01.** Whenever a message enters the engine or is produced, its ID is positive
and greater than the ID of every message announced since the last reset. -/
theorem C01_ids_increase {A : App W R} (wf : A.WF) {s : Sys W R} (hs : Reach A s) :
    Always (fun pre o => ∀ e, o.created = some e →
      0 < e.id ∧ ∀ e' ∈ createdIn (sinceReset pre), e'.id < e.id) s.trace := by
  intro pre o post ht e he
  exact (core_reach wf hs).inc pre o post ht e he

/-- **C01**, as a statement about the messages since the last reset: no two share an ID. -/
theorem C01_ids_unique {A : App W R} (wf : A.WF) {s : Sys W R} (hs : Reach A s) :
    ((createdIn (sinceReset s.trace)).map Env.id).Nodup :=
  (core_reach wf hs).ids.imp (fun h => Nat.ne_of_lt h)

example : Demo.app.WF ∧ Reach Demo.app Demo.final ∧
    (createdIn (sinceReset Demo.final.trace)).map Env.id = [1, 2, 3, 4, 5, 6, 7, 8, 9, 10, 11, 12] :=
  ⟨Demo.app_wf, Demo.final_reach, by decide +kernel⟩

/-! ## C02 -/

/-- **C02.** A message announced as produced by handler `h` while handling `env`:
* `h` is indeed handling `env` (its handling was begun and not completed);
* `env` was itself announced before, since the last reset, so its ID is smaller;
* the causation ID is the ID of `env`. -/
theorem C02_causation {A : App W R} (wf : A.WF) {s : Sys W R} (hs : Reach A s) :
    Always (fun pre o => ∀ f h env ev, o = .fact f → f.produced = some (h, env, ev) →
      handlingNow pre = some (h, env) ∧ env ∈ createdIn (sinceReset pre) ∧
      ev.causation = env.id ∧ env.id < ev.id) s.trace := by
  rintro pre o post ht f h env ev rfl hf
  have hc := core_reach wf hs
  have hp := ((hc.em pre _ post ht).1 h env ev hf).1
  have hcr : Obs.created (.fact f : Obs R) = some ev := by
    cases f <;> simp_all [Fact.produced, Obs.created, Fact.created]
  exact ⟨hp.handling, hp.cause, hp.child.causation, (hc.inc pre _ post ht ev hcr).2 env hp.cause⟩

example : ∃ e ∈ createdIn (sinceReset Demo.final.trace),
    e.id = 5 ∧ e.causation = 3 ∧ e.msg.type = Demo.evtF := by
  refine ⟨_, List.getElem_mem (n := 4) (by decide +kernel), ?_⟩
  decide +kernel

/-! ## C03 -/

/-- `Descends L r e`: following causation links inside the list of messages `L`
leads from `e` to the message `r` which was passed to `Dispatch()`. -/
inductive Descends (L : List Env) (r : Env) : Env → Prop
  | root : r ∈ L → r.origin = none → Descends L r r
  | child {p e : Env} : Descends L r p → e ∈ L → e.origin ≠ none → e.causation = p.id →
      Descends L r e

/-- Every announced message is a root, or the child of one announced before. -/
theorem created_cases {A : App W R} (wf : A.WF) {s : Sys W R} (hs : Reach A s) {e : Env}
    (he : e ∈ createdIn (sinceReset s.trace)) :
    (e.origin = none ∧ e.causation = e.id ∧ e.correlation = e.id) ∨
    (e.origin ≠ none ∧ ∃ p ∈ createdIn (sinceReset s.trace), p.id < e.id ∧ e.causation = p.id ∧
      e.correlation = p.correlation) := by
  have hc := core_reach wf hs
  have key : ∀ t : List (Obs R), Always (Emitted A) t → Always (fun pre o => ∀ e,
      o.created = some e → 1 ≤ e.id ∧ ∀ e' ∈ createdIn (sinceReset pre), e'.id < e.id) t →
      ∀ e ∈ createdIn (sinceReset t),
      (e.origin = none ∧ e.causation = e.id ∧ e.correlation = e.id) ∨
      (e.origin ≠ none ∧ ∃ p ∈ createdIn (sinceReset t), p.id < e.id ∧ e.causation = p.id ∧
        e.correlation = p.correlation) := by
    intro t
    induction t using List.reverseRecOn' with
    | nil => intro _ _ e he; simp [sinceReset, createdIn] at he
    | append_singleton t o ih =>
      intro h1 h2 e he
      rw [always_snoc] at h1 h2
      cases o with
      | reset => simp [createdIn] at he
      | call c =>
        rw [sinceReset_snoc _ (.call c) (fun h => nomatch h), createdIn_append] at he ⊢
        simp only [createdIn, List.filterMap_cons, Obs.created, List.filterMap_nil,
          List.append_nil] at he ⊢
        exact ih h1.1 h2.1 e he
      | fact f =>
        rw [sinceReset_fact, createdIn_append] at he ⊢
        rcases List.mem_append.1 he with he | he
        · rcases ih h1.1 h2.1 e he with h | ⟨ho, p, hp, h⟩
          · exact .inl h
          · exact .inr ⟨ho, p, List.mem_append_left _ hp, h⟩
        · have hcr : f.created = some e := by simpa [createdIn, Obs.created] using he
          by_cases hd : ∃ h env ev, f.produced = some (h, env, ev)
          · obtain ⟨h, env, ev, hp⟩ := hd
            have : ev = e := by
              cases f <;> simp_all [Fact.produced, Fact.created]
            subst this
            have hP := (h1.2.1 h env ev hp).1
            obtain ⟨id, hid⟩ := hP.child.origin
            exact .inr ⟨by simp [hid], env, List.mem_append_left _ hP.cause,
              (h2.2 ev hcr).2 env hP.cause, hP.child.causation, hP.child.correlation⟩
          · have : ∃ now, f = .dispatchCycleBegun e now := by
              cases f <;> first
                | (exfalso; exact hd ⟨_, _, _, rfl⟩)
                | (cases hcr; exact ⟨_, rfl⟩)
                | cases hcr
            obtain ⟨now, rfl⟩ := this
            obtain ⟨a, b, c, _⟩ := h1.2.2.2.2.2 e now rfl
            exact .inl ⟨a, b, c⟩
  exact key _ hc.em hc.inc e he

/-- **C03.** Every message since the last reset descends from exactly one root, whose ID is
its correlation ID. -/
theorem C03_correlation {A : App W R} (wf : A.WF) {s : Sys W R} (hs : Reach A s) (e : Env)
    (he : e ∈ createdIn (sinceReset s.trace)) :
    ∃ r, Descends (createdIn (sinceReset s.trace)) r e ∧ e.correlation = r.id ∧
      ∀ r', Descends (createdIn (sinceReset s.trace)) r' e → r' = r := by
  have hids := (core_reach wf hs).ids
  generalize hn : e.id = n
  induction n using Nat.strongRecOn generalizing e with
  | _ n ih =>
    subst hn
    have huniq : ∀ a ∈ createdIn (sinceReset s.trace), ∀ b ∈ createdIn (sinceReset s.trace),
        a.id = b.id → a = b := by
      intro a ha b hb hab
      obtain ⟨i, hi, rfl⟩ := List.getElem_of_mem ha
      obtain ⟨j, hj, rfl⟩ := List.getElem_of_mem hb
      rw [List.pairwise_map] at hids
      have hp := List.pairwise_iff_getElem.1 hids
      rcases Nat.lt_trichotomy i j with h | h | h
      · have := hp i j hi hj h; omega
      · subst h; rfl
      · have := hp j i hj hi h; omega
    rcases created_cases wf hs he with ⟨ho, hca, hco⟩ | ⟨ho, p, hp, hlt, hca, hco⟩
    · refine ⟨e, .root he ho, hco, ?_⟩
      intro r' hr'
      cases hr' with
      | root _ _ => rfl
      | child _ _ hne _ => exact (hne ho).elim
    · obtain ⟨r, hr, hcr, hu⟩ := ih p.id hlt p hp rfl
      refine ⟨r, .child hr he ho hca, by rw [hco, hcr], ?_⟩
      intro r' hr'
      cases hr' with
      | root _ ho' => exact (ho ho').elim
      | @child p' _ hd hm _ hc =>
        have hmem : p' ∈ createdIn (sinceReset s.trace) := by cases hd <;> assumption
        have : p' = p := huniq _ hmem _ hp (hc.symm.trans hca)
        subst this
        exact hu r' hd

example : ∃ e ∈ createdIn (sinceReset Demo.final.trace), ∃ r ∈ createdIn (sinceReset Demo.final.trace),
    e.id = 12 ∧ e.causation = 11 ∧ e.correlation = r.id ∧ r.id = 1 ∧ r.origin = none := by
  refine ⟨_, List.getElem_mem (n := 11) (by decide +kernel), _,
    List.getElem_mem (n := 0) (by decide +kernel), ?_⟩
  decide +kernel

/-! ## C04 -/

/-- The instance a fact names as the producer of a message; integrations have no
instances. -/
def Fact.producer : Fact → Option (HConfig × HandlerType × String)
  | .aggEvent h id _ _ => some (h, .aggregate, id)
  | .procCommand h id _ _ => some (h, .process, id)
  | .procTimeout h id _ _ => some (h, .process, id)
  | .intEvent h _ _ => some (h, .integration, "")
  | _ => none

/-- **C04.** A produced message was created at the engine time of the operation in progress;
its origin is the handler (registered, of the right type) and instance named in the fact,
and that handler is handling a message. A message passed to `Dispatch()` has no origin and
is created at the engine time of that operation. -/
theorem C04_time_and_origin {A : App W R} (wf : A.WF) {s : Sys W R} (hs : Reach A s) :
    Always (fun pre o =>
      (∀ f h env ev, o = .fact f → f.produced = some (h, env, ev) →
        timeNow pre = some ev.createdAt ∧ h ∈ A.cfgs ∧
        (∃ env', handlingNow pre = some (h, env')) ∧
        ∃ id, f.producer = some (h, h.htype, id) ∧ ev.origin = some ⟨h, h.htype, id⟩) ∧
      (∀ env c, o = .fact (.dispatchCycleBegun env c) →
        env.origin = none ∧ env.createdAt = c.now)) s.trace := by
  intro pre o post ht
  have hc := core_reach wf hs
  have hem := hc.em pre o post ht
  refine ⟨?_, ?_⟩
  · rintro f h env ev rfl hf
    obtain ⟨hp, hk⟩ := hem.1 h env ev hf
    refine ⟨hp.time, hp.handler, ⟨env, hp.handling⟩, ?_⟩
    cases f <;> simp [Fact.produced] at hf
    all_goals
      obtain ⟨rfl, rfl, rfl⟩ := hf
      exact ⟨_, by rw [hk.1]; rfl, by rw [hk.1]; exact hk.2.2⟩
  · rintro env now rfl
    obtain ⟨a, _, _, d, _⟩ := hem.2.2.2.2 env now rfl
    exact ⟨a, d⟩

example : ∃ e ∈ createdIn (sinceReset Demo.final.trace), e.id = 8 ∧ e.createdAt = 3 ∧
    e.origin = some ⟨Demo.proc, .process, "p"⟩ := by
  refine ⟨_, List.getElem_mem (n := 7) (by decide +kernel), ?_⟩
  decide +kernel

/-! ## C08 -/

/-- **C08.** When a timeout is offered to a handler (handled or skipped), that handler is the
process handler that scheduled it. When user code is called with it, the call goes to that
handler, for the instance that scheduled it. -/
theorem C08_timeout_origin {A : App W R} (wf : A.WF) {s : Sys W R} (hs : Reach A s) :
    Always (fun pre o =>
      (∀ h env, env.msg.type.kind = .timeout →
        (o = .fact (.handlingBegun h env) ∨ ∃ r, o = .fact (.handlingSkipped h env r)) →
        ∃ org, env.origin = some org ∧ org.handler = h ∧ h.htype = .process) ∧
      (∀ h id r m t, o = .call (.procHandle h id r m t) → m.type.kind = .timeout →
        ∃ env, handlingNow pre = some (h, env) ∧ env.msg = m ∧
          ∃ org, env.origin = some org ∧ org.instanceID = id)) s.trace := by
  intro pre o post ht
  have hem := (core_reach wf hs).em pre o post ht
  refine ⟨?_, ?_⟩
  · rintro h env hk (rfl | ⟨r, rfl⟩)
    · exact ((hem.2.1 h env rfl).timeout hk).1
    · exact ((hem.2.2.1 h env r rfl).timeout hk).1
  · rintro h id r m t rfl hk
    obtain ⟨_, hcall⟩ := hem h rfl
    rcases hcall with ⟨env, now, h1, _, h2, _⟩ | ⟨now, h1, _⟩
    · obtain ⟨_, rfl, _, _, h3⟩ := h2
      exact ⟨env, h1, rfl, (h3 hk).2⟩
    · cases h1

example : ∃ pre post, Demo.final.trace = pre ++
    .call (.procHandle Demo.proc "p" ["x", "y"] ⟨Demo.tmoT, "x", none⟩ 10) :: post :=
  ⟨Demo.final.trace.take 100, Demo.final.trace.drop 101, by decide +kernel⟩

/-! ## C09 -/

/-- **C09 (first part).** Every produced message has a type the producing handler declared,
of the kind the scope method is for, and passed its own validation. -/
theorem C09_declared_and_valid {A : App W R} (wf : A.WF) {s : Sys W R} (hs : Reach A s) :
    Always (fun _ o => ∀ f h env ev, o = .fact f → f.produced = some (h, env, ev) →
      ev.msg.type ∈ h.produces ∧ ev.msg.invalid = none ∧
      (match f with
        | .procCommand .. => ev.msg.type.kind = .command
        | .procTimeout .. => ev.msg.type.kind = .timeout
        | _ => ev.msg.type.kind = .event)) s.trace := by
  rintro pre o post ht f h env ev rfl hf
  obtain ⟨hp, hk⟩ := ((core_reach wf hs).em pre _ post ht).1 h env ev hf
  refine ⟨hp.child.declared, hp.child.valid, ?_⟩
  cases f <;> simp [Fact.produced] at hf
  all_goals
    obtain ⟨rfl, rfl, rfl⟩ := hf
    exact hk.2.1

/-- A message the handler may produce through a scope method for messages of kind `k`. -/
def Producible (h : HConfig) (k : Kind) (m : Message) : Prop :=
  m.type.kind = k ∧ m.type ∈ h.produces ∧ m.invalid = none

instance (h : HConfig) (k : Kind) (m : Message) : Decidable (Producible h k m) := by
  unfold Producible; infer_instance

theorem not_producible {h : HConfig} {k : Kind} {m : Message} (hn : ¬ Producible h k m) :
    h.produces? k m = false ∨ ∃ e, m.invalid = some e := by
  cases hi : m.invalid with
  | some e => exact .inr ⟨e, rfl⟩
  | none =>
    left
    unfold Producible at hn
    simp only [HConfig.produces?, Bool.and_eq_false_iff, decide_eq_false_iff_not]
    by_cases h1 : m.type.kind = k
    · exact .inr (fun h2 => hn ⟨h1, h2, hi⟩)
    · exact .inl h1

/-- **C09 (second part, aggregates).** Recording any other message panics with an
unexpected-behaviour value and changes neither the engine (state, IDs, facts) nor the scope.  The
panic's description names the type of the message, and gives the validation error if that is the
reason. -/
theorem C09_rejected_aggregate (A : App W R) (h : HConfig) (id : String) (now : Time) (env : Env)
    (m : Message) (hn : ¬ Producible h .event m) (s : Sys W R) (sc : AggScope R) :
    ∃ d, aggOp A h id now env (.record m) s sc =
      (s, sc, some (.behavior h.name "AggregateMessageHandler" "HandleCommand" env.msg d)) ∧
      Describes h .event m d := by
  unfold aggOp aggRecord
  by_cases hp : h.produces? .event m = false
  · exact ⟨_, by simp only [if_pos hp]; rfl, undeclared_blames hp _⟩
  · obtain ⟨e, hi⟩ := (not_producible hn).resolve_left hp
    exact ⟨_, by simp only [if_neg hp, hi]; rfl, invalid_blames hi _ _ _ _⟩

/-- **C09 (second part, integrations).** -/
theorem C09_rejected_integration (h : HConfig) (now : Time) (env : Env)
    (m : Message) (hn : ¬ Producible h .event m) (s : Sys W R) (evs : List Env) :
    ∃ d, intOp h now env (.record m) s evs =
      (s, evs, some (.behavior h.name "IntegrationMessageHandler" "HandleCommand" env.msg d)) ∧
      Describes h .event m d := by
  unfold intOp
  by_cases hp : h.produces? .event m = false
  · exact ⟨_, by simp only [if_pos hp]; rfl, undeclared_blames hp _⟩
  · obtain ⟨e, hi⟩ := (not_producible hn).resolve_left hp
    exact ⟨_, by simp only [if_neg hp, hi]; rfl, invalid_blames hi _ _ _ _⟩

/-- **C09 (second part, processes).** -/
theorem C09_rejected_process (h : HConfig) (id : String) (now : Time) (env : Env)
    (m : Message) (s : Sys W R) (sc : ProcScope R) :
    (¬ Producible h .command m → ∃ i d, procOp h id now env (.execute m) s sc =
      (s, sc, some (.behavior h.name "ProcessMessageHandler" i env.msg d)) ∧
      Describes h .command m d) ∧
    (¬ Producible h .timeout m → ∀ t, ∃ i d, procOp h id now env (.schedule m t) s sc =
      (s, sc, some (.behavior h.name "ProcessMessageHandler" i env.msg d)) ∧
      Describes h .timeout m d) := by
  constructor
  · intro hn
    unfold procOp
    by_cases hp : h.produces? .command m = false
    · exact ⟨_, _, by simp only [if_pos hp]; rfl, undeclared_blames hp _⟩
    · obtain ⟨e, hi⟩ := (not_producible hn).resolve_left hp
      exact ⟨_, _, by simp only [if_neg hp, hi]; rfl, invalid_blames hi _ _ _ _⟩
  · intro hn t
    unfold procOp
    by_cases hp : h.produces? .timeout m = false
    · exact ⟨_, _, by simp only [if_pos hp]; rfl, undeclared_blames hp _⟩
    · obtain ⟨e, hi⟩ := (not_producible hn).resolve_left hp
      exact ⟨_, _, by simp only [if_neg hp, hi]; rfl, invalid_blames hi _ _ _ _⟩

example : ¬ Producible Demo.agg .event ⟨Demo.evtF, "", none⟩ ∧
    ¬ Producible Demo.agg .event ⟨Demo.evtE, "", some "bad"⟩ ∧
    Producible Demo.agg .event ⟨Demo.evtE, "", none⟩ := by decide

/-! ## C30 -/

/-- **C30.** Whenever a process handler is called with a timeout, the time it is told the
timeout was scheduled for is not after the engine time of the operation in progress. -/
theorem C30_no_early_timeout {A : App W R} (wf : A.WF) {s : Sys W R} (hs : Reach A s) :
    Always (fun pre o => ∀ h id r m t, o = .call (.procHandle h id r m t) →
      m.type.kind = .timeout → ∃ now, timeNow pre = some now ∧ t ≤ now) s.trace := by
  rintro pre o post ht h id r m t rfl hk
  obtain ⟨_, hcall⟩ := (core_reach wf hs).em pre _ post ht h rfl
  rcases hcall with ⟨env, now, h1, h2, h3, _, h4⟩ | ⟨now, h1, _⟩
  · obtain ⟨_, rfl, _, _, h5⟩ := h3
    exact ⟨now, h2, by rw [(h5 hk).1]; exact h4 hk⟩
  · cases h1

end Verif
