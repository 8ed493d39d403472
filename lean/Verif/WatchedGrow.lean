import Verif.WatchedRefine
import Verif.Core

/-!
# What observers cannot do

Proof machinery: whatever the observers of `Verif.Watched` do, IDs are handed out once, and what is
kept of a handling is what the facts told.
-/

namespace Verif

variable {W R : Type}

/-- What a part of an operation adds. -/
structure Grow (seg : List (Obs R)) (s t : Sys W R) : Prop where
  trace : t.trace = s.trace ++ seg
  reset : ∀ o ∈ seg, o ≠ .reset
  ids : (createdIn seg).Pairwise (fun a b => a.id < b.id)
  fresh : ∀ e ∈ createdIn seg, s.nextID < e.id ∧ e.id ≤ t.nextID
  mono : s.nextID ≤ t.nextID

/-- The stores are the same. -/
structure Still (s t : Sys W R) : Prop where
  agg : t.agg = s.agg
  proc : t.proc = s.proc
  last : t.lastCompact = s.lastCompact

theorem Grow.same {s t : Sys W R} (ht : t.trace = s.trace) (hn : t.nextID = s.nextID) : Grow [] s t :=
  ⟨by simp [ht], by simp, by simp [createdIn], by simp [createdIn], by simp [hn]⟩

theorem Grow.one {s t : Sys W R} {o : Obs R} (ht : t.trace = s.trace ++ [o]) (hr : o ≠ .reset)
    (ho : o.created = none) (hn : s.nextID ≤ t.nextID) : Grow [o] s t :=
  ⟨ht, by simpa using hr, by simp [createdIn, ho], by simp [createdIn, ho], hn⟩

theorem Grow.make {s t : Sys W R} {o : Obs R} {e : Env} (ht : t.trace = s.trace ++ [o]) (hr : o ≠ .reset)
    (ho : o.created = some e) (he : e.id = s.nextID + 1) (hn : t.nextID = s.nextID + 1) : Grow [o] s t := by
  refine ⟨ht, by simpa using hr, by simp [createdIn, ho], ?_, by omega⟩
  intro x hx
  have : x = e := by simpa [createdIn, ho] using hx
  subst this
  omega

theorem Grow.trans {a b : List (Obs R)} {s t u : Sys W R} (h : Grow a s t) (g : Grow b t u) :
    Grow (a ++ b) s u := by
  refine ⟨by rw [g.trace, h.trace, List.append_assoc], ?_, ?_, ?_, Nat.le_trans h.mono g.mono⟩
  · intro o ho
    rcases List.mem_append.1 ho with ho | ho
    · exact h.reset o ho
    · exact g.reset o ho
  · rw [createdIn_append, List.pairwise_append]
    exact ⟨h.ids, g.ids, fun x hx y hy => Nat.lt_of_le_of_lt (h.fresh x hx).2 (g.fresh y hy).1⟩
  · intro e he
    rw [createdIn_append] at he
    rcases List.mem_append.1 he with he | he
    · exact ⟨(h.fresh e he).1, Nat.le_trans (h.fresh e he).2 g.mono⟩
    · exact ⟨Nat.lt_of_le_of_lt h.mono (g.fresh e he).1, (g.fresh e he).2⟩

theorem Still.refl (s : Sys W R) : Still s s := ⟨rfl, rfl, rfl⟩

theorem Still.trans {s t u : Sys W R} (h : Still s t) (g : Still t u) : Still s u :=
  ⟨g.agg.trans h.agg, g.proc.trans h.proc, g.last.trans h.last⟩

/-- Some part of an operation that keeps the stores. -/
def Goes (s t : Sys W R) : Prop := ∃ seg, Grow seg s t ∧ Still s t

theorem Goes.refl (s : Sys W R) : Goes s s := ⟨[], .same rfl rfl, .refl s⟩

theorem Goes.trans {s t u : Sys W R} (h : Goes s t) (g : Goes t u) : Goes s u := by
  obtain ⟨a, h1, h2⟩ := h
  obtain ⟨b, g1, g2⟩ := g
  exact ⟨a ++ b, h1.trans g1, h2.trans g2⟩

/-- For taking runs apart. -/
@[elab_as_elim]
theorem run_elim {α : Type} {r : Sys W R × α} {C : Sys W R × α → Prop} {Q : Sys W R → α → Prop}
    (h : Q r.1 r.2) (k : ∀ t x, Q t x → C (t, x)) : C r := k r.1 r.2 h

@[elab_as_elim]
theorem tell_cases {O : Watch W R} {s : Sys W R} {f : Fact} {C : Sys W R × Option PanicVal → Prop}
    (k : ∀ t p, t.trace = s.trace ++ [.fact f] → t.nextID = s.nextID → Still s t → C (t, p)) :
    C (s.tell O f) :=
  k _ _ rfl rfl ⟨rfl, rfl, rfl⟩

/-- Some part of an operation that keeps the stores and makes no messages. -/
def Hush (s t : Sys W R) : Prop := ∃ seg, Grow seg s t ∧ Still s t ∧ createdIn seg = []

theorem Hush.goes {s t : Sys W R} (h : Hush s t) : Goes s t := by
  obtain ⟨seg, h1, h2, -⟩ := h
  exact ⟨seg, h1, h2⟩

theorem Hush.refl (s : Sys W R) : Hush s s := ⟨[], .same rfl rfl, .refl s, rfl⟩

theorem Hush.trans {s t u : Sys W R} (h : Hush s t) (g : Hush t u) : Hush s u := by
  obtain ⟨a, h1, h2, h3⟩ := h
  obtain ⟨b, g1, g2, g3⟩ := g
  exact ⟨a ++ b, h1.trans g1, h2.trans g2, by rw [createdIn_append, h3, g3]; rfl⟩

theorem user_hush {γ : Type} (s : Sys W R) (c : Call R) (f : W → W × γ) : Hush s (s.user c f).1 :=
  ⟨[.call c], .one rfl (fun h => nomatch h) rfl (Nat.le_refl _), ⟨rfl, rfl, rfl⟩, rfl⟩

theorem tell_hush (O : Watch W R) (s : Sys W R) (f : Fact) (hf : f.created = none) :
    Hush s (s.tell O f).1 :=
  ⟨[.fact f], .one rfl (fun h => nomatch h) hf (Nat.le_refl _), ⟨rfl, rfl, rfl⟩,
    by simp [createdIn, Obs.created, hf]⟩

theorem call_hush (s : Sys W R) (c : Call R) : Hush s (s.emit (.call c)) :=
  ⟨[.call c], .one rfl (fun h => nomatch h) rfl (Nat.le_refl _), ⟨rfl, rfl, rfl⟩, rfl⟩

theorem world_hush (s : Sys W R) (w : W) : Hush s { s with w := w } :=
  ⟨[], .same rfl rfl, ⟨rfl, rfl, rfl⟩, rfl⟩

theorem user_goes {γ : Type} (s : Sys W R) (c : Call R) (f : W → W × γ) : Goes s (s.user c f).1 :=
  (user_hush s c f).goes

theorem tell_goes (O : Watch W R) (s : Sys W R) (f : Fact) (hf : f.created = none) :
    Goes s (s.tell O f).1 := (tell_hush O s f hf).goes

theorem call_goes (s : Sys W R) (c : Call R) : Goes s (s.emit (.call c)) := (call_hush s c).goes

theorem world_goes (s : Sys W R) (w : W) : Goes s { s with w := w } := (world_hush s w).goes

/-! ## Aggregates -/

/-- The events of a scope are those the facts told about. -/
structure AggGoes (h : HConfig) (id : String) (s : Sys W R) (sc : AggScope R) (t : Sys W R)
    (sc' : AggScope R) : Prop where
  goes : ∃ seg new, Grow seg s t ∧ Still s t ∧ sc'.events = sc.events ++ new ∧
    new = createdIn seg ∧ ∀ e ∈ new, ∃ env, .fact (.aggEvent h id env e) ∈ seg

theorem AggGoes.of {h : HConfig} {id : String} {s t : Sys W R} {sc sc' : AggScope R} (g : Hush s t)
    (he : sc'.events = sc.events) : AggGoes h id s sc t sc' := by
  obtain ⟨seg, g1, g2, g3⟩ := g
  exact ⟨seg, [], g1, g2, by simp [he], g3.symm, by simp⟩

theorem AggGoes.trans {h : HConfig} {id : String} {s t u : Sys W R} {a b c : AggScope R}
    (h1 : AggGoes h id s a t b) (h2 : AggGoes h id t b u c) : AggGoes h id s a u c := by
  obtain ⟨seg, new, g1, g2, g3, g4, g5⟩ := h1
  obtain ⟨seg', new', k1, k2, k3, k4, k5⟩ := h2
  refine ⟨seg ++ seg', new ++ new', g1.trans k1, g2.trans k2, by rw [k3, g3, List.append_assoc], ?_, ?_⟩
  · rw [createdIn_append, g4, k4]
  · intro e he
    rcases List.mem_append.1 he with he | he
    · obtain ⟨env, h⟩ := g5 e he; exact ⟨env, List.mem_append_left _ h⟩
    · obtain ⟨env, h⟩ := k5 e he; exact ⟨env, List.mem_append_right _ h⟩

variable {O : Watch W R} {A : App W R}

theorem aggReviveO_goes (h : HConfig) (id : String) (env : Env) (s : Sys W R) (sc : AggScope R) :
    AggGoes h id s sc (aggReviveO O h id env s sc).1 (aggReviveO O h id env s sc).2.1 := by
  unfold aggReviveO
  split
  · exact .of (.refl s) rfl
  · have hg := tell_hush O s (if sc.destroyed then Fact.aggReverted h id env else .aggCreated h id env)
      (by split <;> rfl)
    generalize s.tell O (if sc.destroyed then Fact.aggReverted h id env else .aggCreated h id env) = z at hg ⊢
    rcases z with ⟨t, _ | v⟩ <;> exact .of hg rfl

theorem aggApplyScope_goes (h : HConfig) (id : String) (m : Message) (s : Sys W R) (sc : AggScope R) :
    AggGoes h id s sc (aggApplyScope A h m s sc).1 (aggApplyScope A h m s sc).2.1 := by
  unfold aggApplyScope
  split
  · exact .of (.refl s) rfl
  · rename_i r _
    have hg := user_hush s (.aggApply h r m) (A.uc.aggApply h r m)
    generalize s.user (.aggApply h r m) (A.uc.aggApply h r m) = z at hg ⊢
    rcases z with ⟨t, r', _ | v⟩ <;> exact .of hg rfl

theorem aggEmitO_goes (h : HConfig) (id : String) (now : Time) (env : Env) (m : Message)
    (s : Sys W R) (sc : AggScope R) :
    AggGoes h id s sc (aggEmitO O h id now env m s sc).1 (aggEmitO O h id now env m s sc).2.1 := by
  unfold aggEmitO
  dsimp only
  refine ⟨[.fact (.aggEvent h id env (env.child (s.nextID + 1) m now ⟨h, .aggregate, id⟩))],
    [env.child (s.nextID + 1) m now ⟨h, .aggregate, id⟩],
    .make rfl (fun h => nomatch h) rfl rfl rfl, ⟨rfl, rfl, rfl⟩, rfl, ?_, ?_⟩
  · simp [createdIn, Obs.created, Fact.created]
  · intro e he
    exact ⟨env, by simp at he; simp [he]⟩

theorem aggRecordO_goes (h : HConfig) (id : String) (now : Time) (env : Env) (m : Message)
    (s : Sys W R) (sc : AggScope R) :
    AggGoes h id s sc (aggRecordO O A h id now env m s sc).1 (aggRecordO O A h id now env m s sc).2.1 := by
  unfold aggRecordO
  split
  · exact .of (.refl s) rfl
  · cases m.invalid with
    | some e => exact .of (.refl s) rfl
    | none =>
      dsimp only
      have h1 := aggReviveO_goes (O := O) h id env s sc
      generalize aggReviveO O h id env s sc = z at h1 ⊢
      rcases z with ⟨t, sc1, _ | v⟩
      · dsimp only at h1 ⊢
        have h2 := aggApplyScope_goes (A := A) h id m t sc1
        generalize aggApplyScope A h m t sc1 = z at h2 ⊢
        rcases z with ⟨u, sc2, _ | v⟩
        · exact (h1.trans h2).trans (aggEmitO_goes ..)
        · exact h1.trans h2
      · exact h1

theorem aggOpO_goes (h : HConfig) (id : String) (now : Time) (env : Env) (o : AggOp R)
    (s : Sys W R) (sc : AggScope R) :
    AggGoes h id s sc (aggOpO O A h id now env o s sc).1 (aggOpO O A h id now env o s sc).2.1 := by
  unfold aggOpO
  cases o with
  | record m => exact aggRecordO_goes ..
  | destroy =>
    dsimp only
    unfold aggDestroyO
    split
    · exact .of (.refl s) rfl
    · have h1 := user_hush s (.aggNew h) (A.uc.aggNew h)
      generalize s.user (.aggNew h) (A.uc.aggNew h) = z at h1 ⊢
      rcases z with ⟨t, v | r⟩
      · exact .of h1 rfl
      · exact .of (h1.trans (tell_hush O t (.aggDestroyed h id env) rfl)) rfl
  | setRoot r =>
    dsimp only
    refine .of (.refl s) ?_
    split <;> rfl
  | log t => exact .of (tell_hush O s (.aggLog h id env t) rfl) rfl

theorem aggRunO_goes (h : HConfig) (id : String) (now : Time) (env : Env)
    (g : Prog W (AggOp R) Unit) : ∀ (s : Sys W R) (sc : AggScope R),
    AggGoes h id s sc (aggRunO O A h id now env g s sc).1 (aggRunO O A h id now env g s sc).2.1 := by
  induction g with
  | ret a => intro s sc; exact .of (.refl s) rfl
  | panic v => intro s sc; exact .of (.refl s) rfl
  | get k ih => intro s sc; exact ih _ s sc
  | set w k ih => intro s sc; exact (AggGoes.of (world_hush s w) rfl).trans (ih { s with w := w } sc)
  | op o k ih =>
    intro s sc
    unfold aggRunO
    exact (aggOpO_goes (O := O) (A := A) h id now env o s sc).trans (ih _ _ _)

theorem aggReplay_hush (h : HConfig) (es : List Env) : ∀ (r : R) (s : Sys W R),
    Hush s (aggReplay A h es r s).1 := by
  induction es with
  | nil => intro r s; exact .refl s
  | cons e es ih =>
    intro r s
    unfold aggReplay
    have h1 := user_hush s (.aggApply h r e.msg) (A.uc.aggApply h r e.msg)
    generalize s.user (.aggApply h r e.msg) (A.uc.aggApply h r e.msg) = z at h1 ⊢
    rcases z with ⟨t, r', _ | v⟩
    · exact h1.trans (ih r' t)
    · exact h1

/-- What a handling by an aggregate does. -/
inductive AggEnds (h : HConfig) (s : Sys W R) : Sys W R × HRes → Prop where
  | kept {t : Sys W R} {v : PanicVal} (g : Goes s t) : AggEnds h s (t, .error v)
  | stored {t : Sys W R} {id : String} {sc sc' : AggScope R} (hs : sc.events = [])
      (g : AggGoes h id s sc t sc') : AggEnds h s (aggCommit h id t sc', .ok (sc'.events, none))

theorem AggEnds.before {h : HConfig} {s t : Sys W R} {r : Sys W R × HRes} (g : Hush s t)
    (e : AggEnds h t r) : AggEnds h s r := by
  cases e with
  | kept g' => exact .kept (g.goes.trans g')
  | stored hs g' =>
    exact .stored (sc := ⟨none, false, false, [], false⟩) rfl
      ((AggGoes.of g (sc' := ⟨none, false, false, [], false⟩) rfl).trans
        ⟨by obtain ⟨seg, new, h1, h2, h3, h4⟩ := g'
            exact ⟨seg, new, h1, h2, by rw [h3, hs], h4⟩⟩)

theorem aggInvokeO_goes (h : HConfig) (id : String) (now : Time) (env : Env)
    (r : R) (ex : Bool) (s : Sys W R) :
    AggEnds h s (aggInvokeO O A h id now env r ex s) := by
  unfold aggInvokeO
  refine .before (call_hush s (.aggHandle h id r env.msg)) ?_
  generalize s.emit (.call (.aggHandle h id r env.msg)) = s
  have h1 := aggRunO_goes (O := O) (A := A) h id now env (A.uc.aggHandle h id r env.msg) s
    ⟨some r, ex, false, [], true⟩
  generalize aggRunO O A h id now env (A.uc.aggHandle h id r env.msg) s ⟨some r, ex, false, [], true⟩ = z at h1 ⊢
  rcases z with ⟨t, sc, _ | v⟩
  · exact .stored rfl h1
  · obtain ⟨seg, new, g1, g2, -⟩ := h1
    exact .kept ⟨seg, g1, g2⟩

theorem aggHandleO_goes (h : HConfig) (now : Time) (env : Env) (s : Sys W R) :
    AggEnds h s (aggHandleO O A h now env s) := by
  unfold aggHandleO
  split
  · exact .kept (.refl s)
  · split
    · exact .kept (.refl s)
    · have h1 := user_hush s (.aggRoute h env.msg) (A.uc.aggRoute h env.msg)
      generalize s.user (.aggRoute h env.msg) (A.uc.aggRoute h env.msg) = z at h1 ⊢
      rcases z with ⟨t, v | id⟩
      · exact .kept h1.goes
      · dsimp only
        split
        · exact .kept h1.goes
        · refine .before h1 ?_
          clear h1
          unfold aggWithIDO
          have h1 := user_hush t (.aggNew h) (A.uc.aggNew h)
          generalize t.user (.aggNew h) (A.uc.aggNew h) = z at h1 ⊢
          rcases z with ⟨u, v | _ | r⟩
          · exact .kept h1.goes
          · exact .kept h1.goes
          · refine .before h1 ?_
            clear h1
            dsimp only
            cases u.agg h.name id with
            | some hist =>
              dsimp only
              have h1 := aggReplay_hush (A := A) h hist r u
              generalize aggReplay A h hist r u = z at h1 ⊢
              rcases z with ⟨x, v | r⟩
              · exact .kept h1.goes
              · refine .before h1 ?_
                dsimp only
                have h2 := tell_hush O x (.aggLoaded h id env) rfl
                generalize x.tell O (.aggLoaded h id env) = z at h2 ⊢
                rcases z with ⟨y, _ | v⟩
                · exact .before h2 (aggInvokeO_goes ..)
                · exact .kept h2.goes
            | none =>
              dsimp only
              have h2 := tell_hush O u (.aggNotFound h id env) rfl
              generalize u.tell O (.aggNotFound h id env) = z at h2 ⊢
              rcases z with ⟨y, _ | v⟩
              · exact .before h2 (aggInvokeO_goes ..)
              · exact .kept h2.goes

/-! ## Processes -/

theorem commandsIn_nil {a : List (Obs R)} (h : createdIn a = []) : commandsIn a = [] := by
  unfold createdIn at h
  unfold commandsIn
  rw [List.filterMap_eq_nil_iff] at h ⊢
  intro o ho
  have := h o ho
  split
  · simp [Obs.created, Fact.created] at this
  · rfl

theorem timeoutsIn_nil {a : List (Obs R)} (h : createdIn a = []) : timeoutsIn a = [] := by
  unfold createdIn at h
  unfold timeoutsIn
  rw [List.filterMap_eq_nil_iff] at h ⊢
  intro o ho
  have := h o ho
  split
  · simp [Obs.created, Fact.created] at this
  · rfl

/-- The messages of a scope are those the facts told about. -/
structure ProcGoes (h : HConfig) (id : String) (now : Time) (s : Sys W R) (sc : ProcScope R)
    (t : Sys W R) (sc' : ProcScope R) : Prop where
  goes : ∃ seg, Grow seg s t ∧ Still s t ∧
    sc'.commands = sc.commands ++ commandsIn seg ∧
    sc'.ready = sc.ready ++ (timeoutsIn seg).filter (fun e => decide (e.scheduledFor ≤ now)) ∧
    sc'.pending = sc.pending ++ (timeoutsIn seg).filter (fun e => decide (now < e.scheduledFor)) ∧
    (sc'.ended = true → sc.ended = true ∨ ∃ env, .fact (.procEnded h id env) ∈ seg) ∧
    ∀ e ∈ timeoutsIn seg, ∃ env, .fact (.procTimeout h id env e) ∈ seg

theorem ProcGoes.of {h : HConfig} {id : String} {now : Time} {s t : Sys W R} {sc sc' : ProcScope R}
    (g : Hush s t) (hc : sc'.commands = sc.commands) (hr : sc'.ready = sc.ready)
    (he : sc'.pending = sc.pending) (hd : sc'.ended = true → sc.ended = true) :
    ProcGoes h id now s sc t sc' := by
  obtain ⟨seg, g1, g2, g3⟩ := g
  refine ⟨seg, g1, g2, ?_, ?_, ?_, fun h => .inl (hd h), ?_⟩
  · simp [commandsIn_nil g3, hc]
  · simp [timeoutsIn_nil g3, hr]
  · simp [timeoutsIn_nil g3, he]
  · simp [timeoutsIn_nil g3]

theorem ProcGoes.trans {h : HConfig} {id : String} {now : Time} {s t u : Sys W R}
    {a b c : ProcScope R} (h1 : ProcGoes h id now s a t b) (h2 : ProcGoes h id now t b u c) :
    ProcGoes h id now s a u c := by
  obtain ⟨seg, g1, g2, g3, g4, g5, g6, g7⟩ := h1
  obtain ⟨seg', k1, k2, k3, k4, k5, k6, k7⟩ := h2
  refine ⟨seg ++ seg', g1.trans k1, g2.trans k2, ?_, ?_, ?_, ?_, ?_⟩
  · rw [k3, g3, commandsIn_append, List.append_assoc]
  · rw [k4, g4, timeoutsIn_append, List.filter_append, List.append_assoc]
  · rw [k5, g5, timeoutsIn_append, List.filter_append, List.append_assoc]
  · intro hc
    rcases k6 hc with hb | ⟨env, he⟩
    · rcases g6 hb with ha | ⟨env, he⟩
      · exact .inl ha
      · exact .inr ⟨env, List.mem_append_left _ he⟩
    · exact .inr ⟨env, List.mem_append_right _ he⟩
  · intro e he
    rw [timeoutsIn_append] at he
    rcases List.mem_append.1 he with he | he
    · obtain ⟨env, he⟩ := g7 e he
      exact ⟨env, List.mem_append_left _ he⟩
    · obtain ⟨env, he⟩ := k7 e he
      exact ⟨env, List.mem_append_right _ he⟩

theorem procReviveO_goes (h : HConfig) (id : String) (now : Time) (env : Env) (s : Sys W R) (sc : ProcScope R) :
    ProcGoes h id now s sc (procReviveO O h id env s sc).1 (procReviveO O h id env s sc).2.1 := by
  unfold procReviveO
  split
  · have hg := tell_hush O s (.procReverted h id env) rfl
    generalize s.tell O (.procReverted h id env) = z at hg ⊢
    rcases z with ⟨t, _ | v⟩ <;> exact .of hg rfl rfl rfl (by simp_all)
  · exact .of (.refl s) rfl rfl rfl (fun h => h)

theorem procEmitCommandO_goes (h : HConfig) (id : String) (now : Time) (env : Env) (m : Message)
    (s : Sys W R) (sc : ProcScope R) :
    ProcGoes h id now s sc (procEmitCommandO O h id now env m s sc).1
      (procEmitCommandO O h id now env m s sc).2.1 :=
  ⟨[.fact (.procCommand h id env (env.child (s.nextID + 1) m now ⟨h, .process, id⟩))],
    .make rfl (fun h => nomatch h) rfl rfl rfl, ⟨rfl, rfl, rfl⟩, rfl, (List.append_nil _).symm,
    (List.append_nil _).symm, .inl, by simp [timeoutsIn]⟩

theorem procEmitTimeoutO_goes (h : HConfig) (id : String) (now : Time) (env : Env) (m : Message)
    (t : Time) (s : Sys W R) (sc : ProcScope R) :
    ProcGoes h id now s sc (procEmitTimeoutO O h id now env m t s sc).1
      (procEmitTimeoutO O h id now env m t s sc).2.1 := by
  unfold procEmitTimeoutO
  dsimp only
  refine ⟨[.fact (.procTimeout h id env (env.childTimeout (s.nextID + 1) m now t ⟨h, .process, id⟩))],
    .make rfl (fun h => nomatch h) rfl rfl rfl, ⟨rfl, rfl, rfl⟩, ?_⟩
  have ht : (env.childTimeout (s.nextID + 1) m now t ⟨h, .process, id⟩).scheduledFor = t := rfl
  split <;> simp_all [timeoutsIn, commandsIn] <;> omega

theorem procOpO_goes (h : HConfig) (id : String) (now : Time) (env : Env) (o : ProcOp R)
    (s : Sys W R) (sc : ProcScope R) :
    ProcGoes h id now s sc (procOpO O h id now env o s sc).1 (procOpO O h id now env o s sc).2.1 := by
  unfold procOpO
  cases o with
  | end_ =>
    dsimp only
    split
    · exact .of (.refl s) rfl rfl rfl (fun h => h)
    · exact ⟨[.fact (.procEnded h id env)], .one rfl (fun h => nomatch h) rfl (Nat.le_refl _),
        ⟨rfl, rfl, rfl⟩, (List.append_nil _).symm, (List.append_nil _).symm, (List.append_nil _).symm,
        fun _ => .inr ⟨env, by simp⟩, by simp [timeoutsIn]⟩
  | execute m =>
    dsimp only
    split
    · exact .of (.refl s) rfl rfl rfl (fun h => h)
    · cases m.invalid with
      | some e => exact .of (.refl s) rfl rfl rfl (fun h => h)
      | none =>
        dsimp only
        have h1 := procReviveO_goes (O := O) h id now env s sc
        generalize procReviveO O h id env s sc = z at h1 ⊢
        rcases z with ⟨t, sc1, _ | v⟩
        · exact h1.trans (procEmitCommandO_goes ..)
        · exact h1
  | schedule m t =>
    dsimp only
    split
    · exact .of (.refl s) rfl rfl rfl (fun h => h)
    · cases m.invalid with
      | some e => exact .of (.refl s) rfl rfl rfl (fun h => h)
      | none =>
        dsimp only
        have h1 := procReviveO_goes (O := O) h id now env s sc
        generalize procReviveO O h id env s sc = z at h1 ⊢
        rcases z with ⟨t, sc1, _ | v⟩
        · exact h1.trans (procEmitTimeoutO_goes ..)
        · exact h1
  | setRoot r => exact .of (.refl s) rfl rfl rfl (fun h => h)
  | log t => exact .of (tell_hush O s (.procLog h id env t) rfl) rfl rfl rfl (fun h => h)

theorem procRunO_goes (h : HConfig) (id : String) (now : Time) (env : Env)
    (g : Prog W (ProcOp R) (Option Err)) : ∀ (s : Sys W R) (sc : ProcScope R),
    ProcGoes h id now s sc (procRunO O h id now env g s sc).1 (procRunO O h id now env g s sc).2.1 := by
  induction g with
  | ret a => intro s sc; exact .of (.refl s) rfl rfl rfl (fun h => h)
  | panic v => intro s sc; exact .of (.refl s) rfl rfl rfl (fun h => h)
  | get k ih => intro s sc; exact ih _ s sc
  | set w k ih => intro s sc; exact (ProcGoes.of (world_hush s w) rfl rfl rfl (fun h => h)).trans (ih { s with w := w } sc)
  | op o k ih =>
    intro s sc
    unfold procRunO
    exact (procOpO_goes (O := O) h id now env o s sc).trans (ih _ _ _)

/-- What is returned when a process keeps its instances: nothing with an error, the commands without,
and timeouts are lost only if the process ended. -/
def Quits (h : HConfig) (seg : List (Obs R)) (res : HRes) : Prop :=
  ∀ l e, res = .ok (l, e) → (e ≠ none ∧ l = []) ∨
    (e = none ∧ l = commandsIn seg ∧
      (timeoutsIn seg = [] ∨ ∃ id env, .fact (.procEnded h id env) ∈ seg))

/-- What a handling by a process does. -/
inductive ProcEnds (A : App W R) (h : HConfig) (now : Time) (s : Sys W R) : Sys W R × HRes → Prop where
  | kept {seg : List (Obs R)} {t : Sys W R} {res : HRes} (g : Grow seg s t) (g' : Still s t)
      (hr : Quits h seg res) : ProcEnds A h now s (t, res)
  | root {t : Sys W R} {res : HRes} {id : String} {r : R} (g : Goes s t)
      (hi : ((s.proc h.name).inst id).isSome) (hr : ∀ l, res ≠ .ok (l, none))
      (hr' : ∀ l e, res = .ok (l, e) → l = []) :
      ProcEnds A h now s (procAlias h id true t r, res)
  | gone {seg : List (Obs R)} {t : Sys W R} {id : String} {env : Env} (g : Grow seg s t)
      (g' : Still s t) (he : .fact (.procEnded h id env) ∈ seg) :
      ProcEnds A h now s (procDelete h id t, .ok (commandsIn seg, none))
  | stored {t : Sys W R} {id : String} {r : R} {sc' : ProcScope R}
      (g : ProcGoes h id now s ⟨r, false, [], [], []⟩ t sc') :
      ProcEnds A h now s (procUpdate A h id t sc', .ok (sc'.commands ++ sc'.ready, none))

theorem ProcEnds.quit {h : HConfig} {now : Time} {s t : Sys W R} {res : HRes} (g : Hush s t)
    (hr : ∀ l e, res = .ok (l, e) → l = []) : ProcEnds A h now s (t, res) := by
  obtain ⟨seg, g1, g2, g3⟩ := g
  refine .kept g1 g2 ?_
  intro l e h
  have := hr l e h
  cases e with
  | none => exact .inr ⟨rfl, by rw [commandsIn_nil g3, this], .inl (timeoutsIn_nil g3)⟩
  | some e => exact .inl ⟨(fun h => nomatch h), this⟩

theorem ProcEnds.before {h : HConfig} {now : Time} {s t : Sys W R} {r : Sys W R × HRes} (g : Hush s t)
    (e : ProcEnds A h now t r) : ProcEnds A h now s r := by
  obtain ⟨seg, g1, g2, g3⟩ := g
  cases e with
  | @kept seg' t' res k k' hr =>
    refine .kept (g1.trans k) (g2.trans k') ?_
    intro l e h
    rcases hr l e h with h | ⟨h1, h2, h3⟩
    · exact .inl h
    · refine .inr ⟨h1, by rw [commandsIn_append, commandsIn_nil g3, h2]; rfl, ?_⟩
      rcases h3 with h3 | ⟨id, env, h3⟩
      · exact .inl (by rw [timeoutsIn_append, timeoutsIn_nil g3, h3]; rfl)
      · exact .inr ⟨id, env, List.mem_append_right _ h3⟩
  | root k hi hr hr' =>
    refine .root (Goes.trans ⟨seg, g1, g2⟩ k) ?_ hr hr'
    rw [← g2.proc]; exact hi
  | @gone seg' t' id env k k' he =>
    have := ProcEnds.gone (A := A) (now := now) (g1.trans k) (g2.trans k') (List.mem_append_right seg he)
    rw [commandsIn_append, commandsIn_nil g3, List.nil_append] at this
    exact this
  | stored k =>
    exact .stored ((ProcGoes.of ⟨seg, g1, g2, g3⟩ rfl rfl rfl (fun h => h)).trans k)

theorem procInvokeO_goes (h : HConfig) (id : String) (now : Time) (env : Env)
    (r : R) (ex : Bool) (s : Sys W R) (hi : ex → ((s.proc h.name).inst id).isSome) :
    ProcEnds A h now s (procInvokeO O A h id now env r ex s) := by
  unfold procInvokeO
  have h0 := call_hush s (.procHandle h id r env.msg (procSeenTime env))
  have hi' : ex → (((s.emit (.call (.procHandle h id r env.msg (procSeenTime env)))).proc h.name).inst id).isSome := hi
  refine .before h0 ?_
  generalize s.emit (.call (.procHandle h id r env.msg (procSeenTime env))) = s at hi' ⊢
  have h1 := procRunO_goes (O := O) h id now env (A.uc.procHandle h id r env.msg (procSeenTime env)) s
    ⟨r, false, [], [], []⟩
  generalize procRunO O h id now env (A.uc.procHandle h id r env.msg (procSeenTime env)) s
    ⟨r, false, [], [], []⟩ = z at h1 ⊢
  have hg : Goes s z.1 := by obtain ⟨seg, g1, g2, -⟩ := h1; exact ⟨seg, g1, g2⟩
  have ha : ∀ res : HRes, (∀ l, res ≠ .ok (l, none)) → (∀ l e, res = .ok (l, e) → l = []) →
      ProcEnds A h now s (procAlias h id ex z.1 z.2.1.root, res) := by
    intro res hr hr'
    cases ex with
    | true => exact .root hg (hi' rfl) hr hr'
    | false =>
      obtain ⟨seg, g1, g2⟩ := hg
      refine .kept g1 g2 ?_
      intro l e h
      refine .inl ⟨?_, hr' l e h⟩
      rintro rfl
      exact hr l h
  rcases z with ⟨t, sc, v | _ | e⟩
  · exact ha _ (by simp) (by simp)
  · dsimp only
    split
    · rename_i hd
      obtain ⟨seg, g1, g2, g3, -, -, g6, -⟩ := h1
      rcases g6 hd with h | ⟨env', he⟩
      · cases h
      have g3 : sc.commands = commandsIn seg := g3
      rw [g3]
      cases ex with
      | true => exact .gone g1 g2 he
      | false =>
        refine .kept g1 g2 ?_
        intro l e h
        cases h
        exact .inr ⟨rfl, rfl, .inr ⟨id, env', he⟩⟩
    · exact .stored h1
  · exact ha _ (by simp) (by simp)

theorem procWithIDO_goes (h : HConfig) (id : String) (now : Time) (env : Env) (s : Sys W R) :
    ProcEnds A h now s (procWithIDO O A h id now env s) := by
  unfold procWithIDO
  cases hi : (s.proc h.name).inst id with
  | some r =>
    dsimp only
    have h1 := tell_hush O s (.procLoaded h id env) rfl
    generalize s.tell O (.procLoaded h id env) = z at h1 ⊢
    rcases z with ⟨t, _ | v⟩
    · refine .before h1 (procInvokeO_goes _ _ _ _ _ _ _ fun _ => ?_)
      obtain ⟨seg, -, g2, -⟩ := h1
      rw [g2.proc, hi]; rfl
    · exact .quit h1 (by simp)
  | none =>
    dsimp only
    have h1 := tell_hush O s (.procNotFound h id env) rfl
    generalize s.tell O (.procNotFound h id env) = z at h1 ⊢
    rcases z with ⟨t, _ | v⟩
    · refine .before h1 ?_
      dsimp only
      have h2 := user_hush t (.procNew h) (A.uc.procNew h)
      generalize t.user (.procNew h) (A.uc.procNew h) = z at h2 ⊢
      rcases z with ⟨u, v | _ | r⟩
      · exact .quit h2 (by simp)
      · refine .before h2 ?_
        dsimp only
        have h3 := tell_hush O u (.procBegun h id env) rfl
        generalize u.tell O (.procBegun h id env) = z at h3 ⊢
        rcases z with ⟨x, _ | v⟩ <;> exact .quit h3 (by simp)
      · refine .before h2 ?_
        dsimp only
        have h3 := tell_hush O u (.procBegun h id env) rfl
        generalize u.tell O (.procBegun h id env) = z at h3 ⊢
        rcases z with ⟨x, _ | v⟩
        · exact .before h3 (procInvokeO_goes _ _ _ _ _ _ _ (fun h => nomatch h))
        · exact .quit h3 (by simp)
    · exact .quit h1 (by simp)

theorem procHandleO_goes (h : HConfig) (now : Time) (env : Env) (s : Sys W R) :
    ProcEnds A h now s (procHandleO O A h now env s) := by
  unfold procHandleO
  split
  · exact .quit (.refl s) (by simp)
  · cases env.msg.type.kind with
    | command => exact .quit (.refl s) (by simp)
    | event =>
      dsimp only
      have h1 := user_hush s (.procRoute h env.msg) (A.uc.procRoute h env.msg)
      generalize s.user (.procRoute h env.msg) (A.uc.procRoute h env.msg) = z at h1 ⊢
      rcases z with ⟨t, v | e | _ | id⟩
      · exact .quit h1 (by simp)
      · exact .quit h1 (by simp)
      · refine .before h1 ?_
        dsimp only
        have h2 := tell_hush O t (.procEventIgnored h env) rfl
        generalize t.tell O (.procEventIgnored h env) = z at h2 ⊢
        rcases z with ⟨u, _ | v⟩ <;> exact .quit h2 (by simp)
      · dsimp only
        split
        · exact .quit h1 (by simp)
        · exact .before h1 (procWithIDO_goes ..)
    | timeout =>
      dsimp only
      cases env.origin with
      | none => exact .quit (.refl s) (by simp)
      | some o =>
        dsimp only
        cases (s.proc h.name).inst o.instanceID with
        | some r => exact procWithIDO_goes ..
        | none =>
          dsimp only
          have h2 := tell_hush O s (.procTimeoutIgnored h o.instanceID env) rfl
          generalize s.tell O (.procTimeoutIgnored h o.instanceID env) = z at h2 ⊢
          rcases z with ⟨u, _ | v⟩ <;> exact .quit h2 (by simp)

/-! ## Integrations -/

/-- The events of a scope are those the facts told about. -/
def IntGoes (s : Sys W R) (evs : List Env) (t : Sys W R) (evs' : List Env) : Prop :=
  ∃ seg, Grow seg s t ∧ Still s t ∧ evs' = evs ++ createdIn seg

theorem IntGoes.of {s t : Sys W R} {evs : List Env} (g : Hush s t) : IntGoes s evs t evs := by
  obtain ⟨seg, g1, g2, g3⟩ := g
  exact ⟨seg, g1, g2, by simp [g3]⟩

theorem IntGoes.trans {s t u : Sys W R} {a b c : List Env} (h1 : IntGoes s a t b)
    (h2 : IntGoes t b u c) : IntGoes s a u c := by
  obtain ⟨seg, g1, g2, g3⟩ := h1
  obtain ⟨seg', k1, k2, k3⟩ := h2
  exact ⟨seg ++ seg', g1.trans k1, g2.trans k2, by rw [k3, g3, createdIn_append, List.append_assoc]⟩

theorem intOpO_goes (h : HConfig) (now : Time) (env : Env) (o : IntOp) (s : Sys W R) (evs : List Env) :
    IntGoes s evs (intOpO O h now env o s evs).1 (intOpO O h now env o s evs).2.1 := by
  unfold intOpO
  cases o with
  | record m =>
    dsimp only
    split
    · exact .of (.refl s)
    · cases m.invalid with
      | some e => exact .of (.refl s)
      | none =>
        exact ⟨[.fact (.intEvent h env (env.child (s.nextID + 1) m now ⟨h, .integration, ""⟩))],
          .make rfl (fun h => nomatch h) rfl rfl rfl, ⟨rfl, rfl, rfl⟩, rfl⟩
  | log t => exact .of (tell_hush O s (.intLog h env t) rfl)

theorem intRunO_goes (h : HConfig) (now : Time) (env : Env)
    (g : Prog W IntOp (Option Err)) : ∀ (s : Sys W R) (evs : List Env),
    IntGoes s evs (intRunO O h now env g s evs).1 (intRunO O h now env g s evs).2.1 := by
  induction g with
  | ret a => intro s sc; exact .of (.refl s)
  | panic v => intro s sc; exact .of (.refl s)
  | get k ih => intro s sc; exact ih _ s sc
  | set w k ih => intro s sc; exact (IntGoes.of (world_hush s w)).trans (ih { s with w := w } sc)
  | op o k ih =>
    intro s sc
    unfold intRunO
    exact (intOpO_goes (O := O) h now env o s sc).trans (ih _ _ _)

theorem intHandleO_ends (h : HConfig) (now : Time) (env : Env) (s : Sys W R) :
    ∃ seg, Grow seg s (intHandleO O A h now env s).1 ∧ Still s (intHandleO O A h now env s).1 ∧
      ∀ l e, (intHandleO O A h now env s).2 = .ok (l, e) → l = createdIn seg := by
  unfold intHandleO
  have quit : ∀ v : PanicVal, ∃ seg, Grow seg s (s, (.error v : HRes)).1 ∧ Still s (s, (.error v : HRes)).1 ∧
      ∀ l e, (s, (.error v : HRes)).2 = .ok (l, e) → l = createdIn seg :=
    fun v => ⟨[], .same rfl rfl, .refl s, by simp⟩
  split
  · exact quit _
  · split
    · exact quit _
    · have h1 := (IntGoes.of (evs := []) (call_hush s (.intHandle h env.msg))).trans (intRunO_goes (O := O) h now env
        (A.uc.intHandle h env.msg) (s.emit (.call (.intHandle h env.msg))) [])
      generalize intRunO O h now env (A.uc.intHandle h env.msg)
        (s.emit (.call (.intHandle h env.msg))) [] = z at h1 ⊢
      obtain ⟨seg, g1, g2, g3⟩ := h1
      rcases z with ⟨t, evs, v | e⟩
      · exact ⟨seg, g1, g2, by simp⟩
      · refine ⟨seg, g1, g2, ?_⟩
        intro l e he
        cases he
        exact g3

theorem intHandleO_goes (h : HConfig) (now : Time) (env : Env) (s : Sys W R) :
    Goes s (intHandleO O A h now env s).1 := by
  obtain ⟨seg, g1, g2, -⟩ := intHandleO_ends (O := O) (A := A) h now env s
  exact ⟨seg, g1, g2⟩

/-! ## Projections -/

theorem prjRunO_goes {α : Type} (h : HConfig) (env : Option Env) (g : Prog W PrjOp α) :
    ∀ (s : Sys W R), Goes s (prjRunO O h env g s).1 := by
  induction g with
  | ret a => intro s; exact .refl s
  | panic v => intro s; exact .refl s
  | get k ih => intro s; exact ih _ s
  | set w k ih => intro s; exact (world_goes s w).trans (ih { s with w := w })
  | op o k ih =>
    intro s
    cases o with
    | log t => exact (tell_goes O s (.prjLog h env t) rfl).trans (ih _ _)

theorem prjStepO_goes {α : Type} (h : HConfig) (env : Option Env) (g : Prog W PrjOp α) (s : Sys W R) :
    Goes s (prjStepO O h env g s).2 := by
  cases g with
  | ret a => exact .refl s
  | panic v => exact .refl s
  | get k => exact .refl s
  | set w k => exact world_goes s w
  | op o k => cases o with | log t => exact tell_goes O s (.prjLog h env t) rfl

theorem prjParO_goes (h : HConfig) (env : Env) (l : List Bool) :
    ∀ (hp : Prog W PrjOp (Except Err Bool)) (cp : Prog W PrjOp (Option Err)) (s : Sys W R),
    Goes s (prjParO O h env l hp cp s).1 := by
  induction l with
  | nil =>
    intro hp cp s
    unfold prjParO
    have h1 := prjRunO_goes (O := O) h (some env) hp s
    generalize prjRunO O h (some env) hp s = z at h1 ⊢
    rcases z with ⟨t, v | r⟩
    · exact h1
    · dsimp only
      have h2 := prjRunO_goes (O := O) h none cp t
      generalize prjRunO O h none cp t = z at h2 ⊢
      rcases z with ⟨t, v | r⟩ <;> exact h1.trans h2
  | cons b bs ih =>
    intro hp cp s
    have key : Goes s
        (if b then prjParO O h env bs hp (prjStepO O h none cp s).1 (prjStepO O h none cp s).2
          else prjParO O h env bs (prjStepO O h (some env) hp s).1 cp
            (prjStepO O h (some env) hp s).2).1 := by
      cases b with
      | true => exact (prjStepO_goes h none cp s).trans (ih _ _ _)
      | false => exact (prjStepO_goes h (some env) hp s).trans (ih _ _ _)
    unfold prjParO
    cases cp with
    | panic v => exact .refl s
    | _ => cases hp with
      | panic v => exact .refl s
      | _ => exact key

theorem prjHandleO_goes (h : HConfig) (now : Time) (env : Env) (s : Sys W R) :
    Goes s (prjHandleO O A h now env s).1 := by
  unfold prjHandleO
  split
  · exact .refl s
  · split
    · exact .refl s
    · have h1 := user_goes s (.prjVersion h env.id) (A.uc.prjVersion h env.id)
      generalize s.user (.prjVersion h env.id) (A.uc.prjVersion h env.id) = z at h1 ⊢
      rcases z with ⟨t, v | e | _ | ⟨b, bs⟩⟩
      · exact h1
      · exact h1
      · refine h1.trans ?_
        dsimp only
        have h2 : Goes t (prjApplyO O A h now env t).1 := by
          unfold prjApplyO
          split
          · dsimp only
            have h2 := tell_goes O t (.prjCompactBegun h) rfl
            generalize A.uc.schedule t.w = sched
            generalize t.tell O (.prjCompactBegun h) = z at h2 ⊢
            rcases z with ⟨u, _ | v⟩
            · dsimp only at h2 ⊢
              have h3 := (h2.trans ((call_goes u (.prjCompact h now)).trans (call_goes _
                (.prjHandle h env.id [] [1] env.msg)))).trans (prjParO_goes (O := O) h env sched
                (A.uc.prjHandle h env.id [] [1] env.msg env.createdAt) (A.uc.prjCompact h now)
                ((u.emit (.call (.prjCompact h now))).emit (.call (.prjHandle h env.id [] [1] env.msg))))
              generalize prjParO O h env sched (A.uc.prjHandle h env.id [] [1] env.msg env.createdAt)
                (A.uc.prjCompact h now)
                ((u.emit (.call (.prjCompact h now))).emit
                  (.call (.prjHandle h env.id [] [1] env.msg))) = z at h3 ⊢
              rcases z with ⟨x, v | ⟨r, ce⟩⟩
              · exact h3
              · dsimp only at h3 ⊢
                have h4 := h3.trans (tell_goes O x (.prjCompactCompleted h ce) rfl)
                generalize x.tell O (.prjCompactCompleted h ce) = z at h4 ⊢
                rcases z with ⟨y, _ | v⟩ <;> exact h4
            · exact h2
          · have h2 := (call_goes t (.prjHandle h env.id [] [1] env.msg)).trans
              (prjRunO_goes (O := O) h (some env)
                (A.uc.prjHandle h env.id [] [1] env.msg env.createdAt)
                (t.emit (.call (.prjHandle h env.id [] [1] env.msg))))
            generalize prjRunO O h (some env) (A.uc.prjHandle h env.id [] [1] env.msg env.createdAt)
              (t.emit (.call (.prjHandle h env.id [] [1] env.msg))) = z at h2 ⊢
            rcases z with ⟨y, v | r⟩ <;> exact h2
        generalize prjApplyO O A h now env t = z at h2 ⊢
        rcases z with ⟨u, v | ⟨r, ce⟩⟩
        · exact h2
        · refine h2.trans ?_
          dsimp only
          unfold prjFinish
          split
          · exact .refl u
          · exact .refl u
          · have h3 := user_goes u (.prjClose h env.id) (A.uc.prjClose h env.id)
            generalize u.user (.prjClose h env.id) (A.uc.prjClose h env.id) = z at h3 ⊢
            rcases z with ⟨x, v | _ | e⟩ <;> exact h3
      · exact h1

/-! ## Operations -/

/-- What holds between operations. -/
structure Sound (s : Sys W R) : Prop where
  ids : (createdIn (sinceReset s.trace)).Pairwise (fun a b => a.id < b.id)
  bound : ∀ e ∈ createdIn (sinceReset s.trace), 0 < e.id ∧ e.id ≤ s.nextID
  hist : ∀ n i l, s.agg n i = some l → l.Pairwise (fun a b => a.id < b.id) ∧
    ∀ e ∈ l, ∃ h env, h.name = n ∧ .fact (.aggEvent h i env e) ∈ sinceReset s.trace
  pend : ∀ n, ∀ e ∈ (s.proc n).timeouts,
    ∃ h i env, h.name = n ∧ .fact (.procTimeout h i env e) ∈ sinceReset s.trace

theorem created_of_mem {t : List (Obs R)} {f : Fact} {e : Env} (h : .fact f ∈ t) (hf : f.created = some e) :
    e ∈ createdIn t := List.mem_filterMap.2 ⟨_, h, hf⟩

theorem Sound.grow {s t : Sys W R} {seg : List (Obs R)} (hs : Sound s) (g : Grow seg s t)
    (hh : ∀ n i l, t.agg n i = some l → l.Pairwise (fun a b => a.id < b.id) ∧
      ∀ e ∈ l, ∃ h env, h.name = n ∧ .fact (.aggEvent h i env e) ∈ sinceReset s.trace ++ seg)
    (hp : ∀ n, ∀ e ∈ (t.proc n).timeouts,
      ∃ h i env, h.name = n ∧ .fact (.procTimeout h i env e) ∈ sinceReset s.trace ++ seg) : Sound t := by
  have e : sinceReset t.trace = sinceReset s.trace ++ seg := by
    rw [g.trace, sinceReset_append _ _ g.reset]
  refine ⟨?_, ?_, by rw [e]; exact hh, by rw [e]; exact hp⟩
  · rw [e, createdIn_append, List.pairwise_append]
    exact ⟨hs.ids, g.ids, fun x hx y hy => Nat.lt_of_le_of_lt (hs.bound x hx).2 (g.fresh y hy).1⟩
  · intro x hx
    rw [e, createdIn_append] at hx
    rcases List.mem_append.1 hx with hx | hx
    · exact ⟨(hs.bound x hx).1, Nat.le_trans (hs.bound x hx).2 g.mono⟩
    · exact ⟨Nat.lt_of_le_of_lt (Nat.zero_le _) (g.fresh x hx).1, (g.fresh x hx).2⟩

theorem Sound.hist' {s : Sys W R} (hs : Sound s) (seg : List (Obs R)) : ∀ n i l, s.agg n i = some l →
    l.Pairwise (fun a b => a.id < b.id) ∧
      ∀ e ∈ l, ∃ h env, h.name = n ∧ .fact (.aggEvent h i env e) ∈ sinceReset s.trace ++ seg := by
  intro n i l hl
  obtain ⟨h1, h2⟩ := hs.hist n i l hl
  refine ⟨h1, fun e he => ?_⟩
  obtain ⟨h, env, hn, hm⟩ := h2 e he
  exact ⟨h, env, hn, List.mem_append_left _ hm⟩

theorem Sound.pend' {s : Sys W R} (hs : Sound s) (seg : List (Obs R)) :
    ∀ n, ∀ e ∈ (s.proc n).timeouts,
      ∃ h i env, h.name = n ∧ .fact (.procTimeout h i env e) ∈ sinceReset s.trace ++ seg := by
  intro n e he
  obtain ⟨h, i, env, hn, hm⟩ := hs.pend n e he
  exact ⟨h, i, env, hn, List.mem_append_left _ hm⟩

theorem Sound.goes {s t : Sys W R} (hs : Sound s) (g : Goes s t) : Sound t := by
  obtain ⟨seg, g1, g2⟩ := g
  exact hs.grow g1 (by rw [g2.agg]; exact hs.hist' seg) (by rw [g2.proc]; exact hs.pend' seg)

theorem Sound.aggEnds {h : HConfig} {s : Sys W R} {r : Sys W R × HRes} (hs : Sound s)
    (e : AggEnds h s r) : Sound r.1 := by
  cases e with
  | kept g => exact hs.goes g
  | @stored t id sc sc' h0 g =>
    obtain ⟨seg, new, g1, g2, g3, g4, g5⟩ := g
    rw [h0, List.nil_append] at g3
    have hp : (sc'.events).Pairwise (fun a b => a.id < b.id) := by rw [g3, g4]; exact g1.ids
    have gt : Grow seg s (aggCommit h id t sc') := by
      unfold aggCommit
      split <;> exact ⟨g1.trace, g1.reset, g1.ids, g1.fresh, g1.mono⟩
    refine hs.grow gt ?_ ?_
    · intro n i l hl
      have ht : ∀ l, t.agg n i = some l → _ := fun l hl => hs.hist' seg n i l (by rw [← g2.agg]; exact hl)
      unfold aggCommit at hl
      by_cases hn : n = h.name
      · subst hn
        by_cases hi : i = id
        · subst hi
          split at hl
          · have hl : l = (t.agg h.name i).getD [] ++ sc'.events := by
              simpa [upd] using hl.symm
            subst hl
            have old : ∀ e ∈ (t.agg h.name i).getD [], e ∈ createdIn (sinceReset s.trace) := by
              intro e he
              cases ho : t.agg h.name i with
              | none => rw [ho] at he; simp at he
              | some l =>
                rw [ho] at he
                obtain ⟨h', env, -, hm⟩ := (hs.hist h.name i l (by rw [← g2.agg]; exact ho)).2 e he
                exact created_of_mem hm rfl
            refine ⟨List.pairwise_append.2 ⟨?_, hp, ?_⟩, ?_⟩
            · cases ho : t.agg h.name i with
              | none => simp
              | some l => exact (ht l ho).1
            · intro a ha b hb
              rw [g3] at hb
              exact Nat.lt_of_le_of_lt (hs.bound a (old a ha)).2 (g1.fresh b (g4 ▸ hb)).1
            · intro e he
              rcases List.mem_append.1 he with he | he
              · cases ho : t.agg h.name i with
                | none => rw [ho] at he; simp at he
                | some l => rw [ho] at he; exact (ht l ho).2 e he
              · rw [g3] at he
                obtain ⟨env, hm⟩ := g5 e he
                exact ⟨h, env, rfl, List.mem_append_right _ hm⟩
          · simp [upd] at hl
        · split at hl
          · exact ht l (by simpa [upd, hi] using hl)
          · exact ht l (by simpa [upd, hi] using hl)
      · split at hl
        · exact ht l (by simpa [upd, hn] using hl)
        · exact ht l (by simpa [upd, hn] using hl)
    · have : (aggCommit h id t sc').proc = s.proc := by
        rw [← g2.proc]; unfold aggCommit; split <;> rfl
      rw [this]; exact hs.pend' seg

theorem Sound.proc_ {h : HConfig} {s t : Sys W R} {seg : List (Obs R)} (hs : Sound s)
    (g1 : Grow seg s t) (g2 : Still s t) (p : ProcState R)
    (hp : ∀ e ∈ p.timeouts, e ∈ (t.proc h.name).timeouts ∨
      ∃ id env, .fact (.procTimeout h id env e) ∈ seg) : Sound (t.setProc h p) := by
  refine hs.grow (seg := seg) ⟨g1.trace, g1.reset, g1.ids, g1.fresh, g1.mono⟩ ?_ ?_
  · show ∀ n i l, t.agg n i = some l → _
    rw [g2.agg]; exact hs.hist' seg
  · intro n e he
    by_cases hn : n = h.name
    · subst hn
      have he : e ∈ p.timeouts := by simpa [Sys.setProc, upd] using he
      rcases hp e he with he | ⟨id, env, hm⟩
      · rw [g2.proc] at he; exact hs.pend' seg _ e he
      · exact ⟨h, id, env, rfl, List.mem_append_right _ hm⟩
    · have he : e ∈ (t.proc n).timeouts := by simpa [Sys.setProc, upd, hn] using he
      rw [g2.proc] at he; exact hs.pend' seg n e he

theorem Sound.procEnds {h : HConfig} {now : Time} {s : Sys W R} {r : Sys W R × HRes} (hs : Sound s)
    (e : ProcEnds A h now s r) : Sound r.1 := by
  cases e with
  | kept g g' => exact hs.goes ⟨_, g, g'⟩
  | root g hi =>
    obtain ⟨seg, g1, g2⟩ := g
    exact hs.proc_ g1 g2 _ fun e he => .inl he
  | gone g1 g2 =>
    exact hs.proc_ g1 g2 _ fun e he => .inl (List.mem_filter.1 he).1
  | stored g =>
    obtain ⟨seg, g1, g2, -, -, g3, -, g4⟩ := g
    refine hs.proc_ g1 g2 _ fun e he => ?_
    rcases List.mem_append.1 ((A.sort.perm _).mem_iff.1 he) with he | he
    · exact .inl he
    · rw [g3] at he
      obtain ⟨env, he⟩ := g4 e (List.mem_filter.1 he).1
      exact .inr ⟨_, env, he⟩

theorem ctlHandleO_sound (h : HConfig) (now : Time) (env : Env) {s : Sys W R} (hs : Sound s) :
    Sound (ctlHandleO O A h now env s).1 := by
  unfold ctlHandleO
  cases h.htype with
  | aggregate => exact hs.aggEnds (aggHandleO_goes ..)
  | process => exact hs.procEnds (procHandleO_goes ..)
  | integration => exact hs.goes (intHandleO_goes ..)
  | projection => exact hs.goes (prjHandleO_goes ..)

theorem Sound.tell {s : Sys W R} (hs : Sound s) {f : Fact} (hf : f.created = none) :
    Sound (s.tell O f).1 := hs.goes (tell_goes O s f hf)

theorem handleOneO_sound (oo : OpOpts) (env : Env) (h : HConfig) {s : Sys W R} (hs : Sound s) :
    Sound (handleOneO O A oo env h s).1 := by
  unfold handleOneO
  cases skipHandler oo h with
  | some r =>
    dsimp only
    have h1 := hs.tell (O := O) (f := .handlingSkipped h env r) rfl
    generalize s.tell O (.handlingSkipped h env r) = z at h1 ⊢
    rcases z with ⟨t, _ | v⟩ <;> exact h1
  | none =>
    dsimp only
    have h1 := hs.tell (O := O) (f := .handlingBegun h env) rfl
    generalize s.tell O (.handlingBegun h env) = z at h1 ⊢
    rcases z with ⟨t, _ | v⟩
    · dsimp only at h1 ⊢
      have h2 := ctlHandleO_sound (O := O) (A := A) h oo.now env h1
      generalize ctlHandleO O A h oo.now env t = z at h2 ⊢
      rcases z with ⟨u, v | ⟨envs, e⟩⟩
      · exact h2
      · dsimp only at h2 ⊢
        have h3 := h2.tell (O := O) (f := .handlingCompleted h env e) rfl
        generalize u.tell O (.handlingCompleted h env e) = z at h3 ⊢
        rcases z with ⟨x, _ | v⟩ <;> exact h3
    · exact h1

theorem handleAllO_sound (oo : OpOpts) (env : Env) (hs : List HConfig) :
    ∀ (q : List Env) (de : List EngErr) {s : Sys W R}, Sound s →
    Sound (handleAllO O A oo env hs q de s).1 := by
  induction hs with
  | nil => intro q de s hs; exact hs
  | cons h hs ih =>
    intro q de s hS
    unfold handleAllO
    have h1 := handleOneO_sound (O := O) (A := A) oo env h hS
    generalize handleOneO O A oo env h s = z at h1 ⊢
    rcases z with ⟨u, v | ⟨envs, e⟩⟩
    · exact h1
    · exact ih _ _ h1

theorem dispatchLoopO_sound (oo : OpOpts) (n : Nat) :
    ∀ (q : List Env) (errs : List EngErr) {s : Sys W R}, Sound s →
    Sound (dispatchLoopO O A oo n q errs s).1 := by
  induction n with
  | zero => intro q errs s hs; cases q <;> exact hs
  | succ n ih =>
    intro q errs s hS
    cases q with
    | nil => exact hS
    | cons env q =>
      unfold dispatchLoopO
      cases A.targets env with
      | error v => exact hS
      | ok hs =>
        dsimp only
        have h1 := hS.tell (O := O) (f := .dispatchBegun env) rfl
        generalize s.tell O (.dispatchBegun env) = z at h1 ⊢
        rcases z with ⟨t, _ | v⟩
        · dsimp only at h1 ⊢
          have h2 := handleAllO_sound (O := O) (A := A) oo env hs q [] h1
          generalize handleAllO O A oo env hs q [] t = z at h2 ⊢
          rcases z with ⟨u, v | ⟨q, de⟩⟩
          · exact h2
          · dsimp only at h2 ⊢
            have h3 := h2.tell (O := O) (f := .dispatchCompleted env de) rfl
            generalize u.tell O (.dispatchCompleted env de) = z at h3 ⊢
            rcases z with ⟨x, _ | v⟩
            · dsimp only at h3 ⊢
              cases A.uc.ctxErr x.w with
              | some e => exact h3
              | none => exact ih _ _ h3
            · exact h3
        · exact h1

theorem ctlTickO_sound (h : HConfig) (now : Time) {s : Sys W R} (hs : Sound s) :
    Sound (ctlTickO O A h now s).1 := by
  unfold ctlTickO
  cases h.htype with
  | process =>
    exact hs.proc_ (.same rfl rfl) (.refl s) _ fun e he => .inl (List.dropWhile_subset _ he)
  | projection =>
    dsimp only
    have h1 : Sound (prjTickO O A h now s).1 := by
      unfold prjTickO
      split
      · dsimp only
        have h0 : Sound { s with lastCompact := upd s.lastCompact h.name now } :=
          hs.grow (.same rfl rfl) (hs.hist' []) (hs.pend' [])
        generalize ({ s with lastCompact := upd s.lastCompact h.name now } : Sys W R) = s at h0 ⊢
        have h1 := h0.tell (O := O) (f := .prjCompactBegun h) rfl
        generalize s.tell O (.prjCompactBegun h) = z at h1 ⊢
        rcases z with ⟨t, _ | v⟩
        · dsimp only at h1 ⊢
          have h2 := h1.goes ((call_goes t (.prjCompact h now)).trans (prjRunO_goes (O := O) h none
            (A.uc.prjCompact h now) (t.emit (.call (.prjCompact h now)))))
          generalize prjRunO O h none (A.uc.prjCompact h now) (t.emit (.call (.prjCompact h now))) = z
            at h2 ⊢
          rcases z with ⟨u, v | e⟩
          · exact h2
          · dsimp only at h2 ⊢
            have h3 := h2.tell (O := O) (f := .prjCompactCompleted h e) rfl
            generalize u.tell O (.prjCompactCompleted h e) = z at h3 ⊢
            rcases z with ⟨x, _ | v⟩ <;> exact h3
        · exact h1
      · exact hs
    generalize prjTickO O A h now s = z at h1 ⊢
    rcases z with ⟨t, v | e⟩ <;> exact h1
  | _ => exact hs

theorem tickAllO_sound (oo : OpOpts) (hs : List HConfig) :
    ∀ (q : List Env) (errs : List EngErr) {s : Sys W R}, Sound s →
    Sound (tickAllO O A oo hs q errs s).1 := by
  induction hs with
  | nil => intro q errs s hs; exact hs
  | cons h hs ih =>
    intro q errs s hS
    unfold tickAllO
    cases skipHandler oo h with
    | some r =>
      dsimp only
      have h1 := hS.tell (O := O) (f := .tickSkipped h r) rfl
      generalize s.tell O (.tickSkipped h r) = z at h1 ⊢
      rcases z with ⟨t, _ | v⟩
      · exact ih _ _ h1
      · exact h1
    | none =>
      dsimp only
      have h1 := hS.tell (O := O) (f := .tickBegun h) rfl
      generalize s.tell O (.tickBegun h) = z at h1 ⊢
      rcases z with ⟨t, _ | v⟩
      · dsimp only at h1 ⊢
        have h2 := ctlTickO_sound (O := O) (A := A) h oo.now h1
        generalize ctlTickO O A h oo.now t = z at h2 ⊢
        rcases z with ⟨u, v | ⟨envs, e⟩⟩
        · exact h2
        · dsimp only at h2 ⊢
          have h3 := h2.tell (O := O) (f := .tickCompleted h e) rfl
          generalize u.tell O (.tickCompleted h e) = z at h3 ⊢
          rcases z with ⟨x, _ | v⟩
          · dsimp only at h3 ⊢
            cases A.uc.ctxErr x.w with
            | some e => exact h3
            | none => exact ih _ _ h3
          · exact h3
      · exact h1

theorem finishO_sound (f : Fact) (hf : f.created = none) (errs : List EngErr) {s : Sys W R}
    (hs : Sound s) : Sound (finishO O f errs s).1 := by
  unfold finishO
  have h1 := hs.tell (O := O) hf
  generalize s.tell O f = z at h1 ⊢
  rcases z with ⟨t, _ | v⟩ <;> exact h1

theorem engTickO_sound (n : Nat) (order : List HConfig) (os : List OpOption) {s : Sys W R}
    (hs : Sound s) : Sound (engTickO O A n order os s).1 := by
  unfold engTickO
  cases newOpOpts A s os with
  | error v => exact hs
  | ok oo =>
    dsimp only
    have h1 := hs.tell (O := O) (f := .tickCycleBegun (oo.cycle A)) rfl
    generalize s.tell O (.tickCycleBegun (oo.cycle A)) = z at h1 ⊢
    rcases z with ⟨t, _ | v⟩
    · dsimp only at h1 ⊢
      cases A.uc.lockErr t.w with
      | some e => exact finishO_sound _ rfl _ h1
      | none =>
        dsimp only
        have h2 : Sound (engTickLockedO O A oo n order t).1 := by
          unfold engTickLockedO
          have h2 := tickAllO_sound (O := O) (A := A) oo order [] [] h1
          generalize tickAllO O A oo order [] [] t = z at h2 ⊢
          rcases z with ⟨u, v | ⟨q, errs, _ | c⟩⟩
          · exact h2
          · dsimp only at h2 ⊢
            have h3 := dispatchLoopO_sound (O := O) (A := A) oo n q [] h2
            generalize dispatchLoopO O A oo n q [] u = z at h3 ⊢
            rcases z with ⟨x, derrs | v | _⟩ <;> exact h3
          · exact h2
        generalize engTickLockedO O A oo n order t = z at h2 ⊢
        rcases z with ⟨u, errs | v | _⟩
        · exact finishO_sound _ rfl _ h2
        · exact h2
        · exact h2
    · exact h1

theorem engDispatchO_sound (n : Nat) (m : Message) (os : List OpOption) {s : Sys W R}
    (hs : Sound s) : Sound (engDispatchO O A n m os s).1 := by
  have h0 : Sound { s with nextID := s.nextID + 1 } :=
    hs.grow (seg := []) ⟨by simp, by simp, by simp [createdIn], by simp [createdIn], by simp⟩
      (hs.hist' []) (hs.pend' [])
  unfold engDispatchO
  dsimp only
  cases newOpOpts A { s with nextID := s.nextID + 1 } os with
  | error v => exact h0
  | ok oo =>
    dsimp only
    split
    · exact h0
    · cases m.invalid with
      | some e => exact h0
      | none =>
        dsimp only
        split
        · exact h0
        · have h1 : Sound (({ s with nextID := s.nextID + 1 } : Sys W R).tell O
              (.dispatchCycleBegun (Env.root (s.nextID + 1) m oo.now) (oo.cycle A))).1 :=
            hs.goes ⟨[.fact (.dispatchCycleBegun (Env.root (s.nextID + 1) m oo.now) (oo.cycle A))],
              .make rfl (fun h => nomatch h) rfl rfl rfl, ⟨rfl, rfl, rfl⟩⟩
          generalize ({ s with nextID := s.nextID + 1 } : Sys W R).tell O
              (.dispatchCycleBegun (Env.root (s.nextID + 1) m oo.now) (oo.cycle A)) = z at h1 ⊢
          rcases z with ⟨t, _ | v⟩
          · dsimp only at h1 ⊢
            cases A.uc.lockErr t.w with
            | some e => exact finishO_sound _ rfl _ h1
            | none =>
              dsimp only
              have h2 := dispatchLoopO_sound (O := O) (A := A) oo n
                [Env.root (s.nextID + 1) m oo.now] [] h1
              generalize dispatchLoopO O A oo n [Env.root (s.nextID + 1) m oo.now] [] t = z at h2 ⊢
              rcases z with ⟨u, errs | v | _⟩
              · exact finishO_sound _ rfl _ h2
              · exact h2
              · exact h2
          · exact h1

theorem runResetters_goes (l : List (W → W × Option PanicVal)) : ∀ (i : Nat) (s : Sys W R),
    Goes s (runResetters i l s).1 := by
  induction l with
  | nil => intro i s; exact .refl s
  | cons f fs ih =>
    intro i s
    unfold runResetters
    have h1 := user_goes s (.resetter i) f
    generalize s.user (.resetter i) f = z at h1 ⊢
    rcases z with ⟨t, _ | v⟩
    · exact h1.trans (ih _ _)
    · exact h1

theorem Op.execO_sound (op : Op) {s : Sys W R} (hs : Sound s) : Sound (op.execO O A s).1 := by
  cases op with
  | dispatch n m os => exact engDispatchO_sound n m os hs
  | tick n order os => exact engTickO_sound n order os hs
  | reset =>
    show Sound (engReset A s).1
    unfold engReset
    refine Sound.goes ?_ (runResetters_goes ..)
    have e : sinceReset ((s.emit .reset).trace) = [] := sinceReset_reset s.trace
    exact ⟨by dsimp only; rw [e]; simp [createdIn], by dsimp only; rw [e]; simp [createdIn],
      (fun _ _ _ h => nomatch h), (fun _ _ h => nomatch h)⟩

theorem Sound.init (w : W) : Sound (Sys.init w : Sys W R) :=
  ⟨by simp [Sys.init, sinceReset, createdIn], by simp [Sys.init, sinceReset, createdIn],
    (fun _ _ _ h => nomatch h), (fun _ _ h => nomatch h)⟩

theorem ReachO.sound {s : Sys W R} (hs : ReachO A s) : Sound s := by
  induction hs with
  | init w => exact .init w
  | world w _ ih => exact ih.goes (world_goes _ w)
  | step O op _ ih => exact op.execO_sound ih

end Verif
