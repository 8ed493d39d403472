import Verif.AggRefine

/-!
# Refinement of process state

The process controllers' instances and pending timeouts are the functions `procLive` and
`pendingAfter` of the past.  Proof machinery for `Verif.Props.Process`.
-/

namespace Verif

variable {W R : Type}

theorem procLive_snoc (name id : String) (L : List (Happening R)) (x : Happening R) :
    procLive name id (L ++ [x]) =
      if x.isProc name id then !endedAfter false x.seg else procLive name id L := by
  simp [procLive]

theorem pendingAfter_snoc (name : String) (L : List (Happening R)) (x : Happening R) :
    pendingAfter name (L ++ [x]) = x.pend name (pendingAfter name L) := by
  simp [pendingAfter]

theorem byInstance_eq (e : Env) (id : String) : e.ofInstance id = e.byInstance id := rfl

theorem futureIn_eq (now : Time) (seg : List (Obs R)) : pendingIn now seg = futureIn now seg := by
  unfold pendingIn futureIn
  apply List.filter_congr
  intro e _
  by_cases h : e.scheduledFor ≤ now
  · have : ¬ now < e.scheduledFor := by omega
    simp [h, this]
  · have : now < e.scheduledFor := by omega
    simp [h, this]

/-- The state of one process controller, in terms of the past. -/
structure ProcStateOK (name : String) (L : List (Happening R)) (p : ProcState R) : Prop where
  live : ∀ id, (p.inst id).isSome = procLive name id L
  perm : p.timeouts.Perm (pendingAfter name L)
  sorted : p.timeouts.Pairwise (fun a b => a.scheduledFor ≤ b.scheduledFor)
  owner : ∀ e ∈ p.timeouts, ∃ o, e.origin = some o ∧ (p.inst o.instanceID).isSome

/-- Dropping a prefix of a sorted list is filtering. -/
theorem dropWhile_sorted (now : Time) (l : List Env)
    (hs : l.Pairwise (fun a b => a.scheduledFor ≤ b.scheduledFor)) :
    l.dropWhile (fun e => decide (e.scheduledFor ≤ now)) = l.filter (fun e => decide (now < e.scheduledFor)) := by
  induction l with
  | nil => rfl
  | cons a l ih =>
    rw [List.pairwise_cons] at hs
    by_cases ha : a.scheduledFor ≤ now
    · rw [List.dropWhile_cons_of_pos (by simpa using ha), ih hs.2, List.filter_cons_of_neg (by simpa using ha)]
    · rw [List.dropWhile_cons_of_neg (by simpa using ha)]
      symm
      rw [List.filter_eq_self]
      intro e he
      rcases List.mem_cons.1 he with rfl | he
      · simp; omega
      · have := hs.1 e he; simp; omega

/-- Taking a prefix of a sorted list is filtering. -/
theorem takeWhile_sorted (now : Time) (l : List Env)
    (hs : l.Pairwise (fun a b => a.scheduledFor ≤ b.scheduledFor)) :
    l.takeWhile (fun e => decide (e.scheduledFor ≤ now)) = l.filter (fun e => decide (e.scheduledFor ≤ now)) := by
  induction l with
  | nil => rfl
  | cons a l ih =>
    rw [List.pairwise_cons] at hs
    by_cases ha : a.scheduledFor ≤ now
    · rw [List.takeWhile_cons_of_pos (by simpa using ha), ih hs.2, List.filter_cons_of_pos (by simpa using ha)]
    · rw [List.takeWhile_cons_of_neg (by simpa using ha)]
      symm
      rw [List.filter_eq_nil_iff]
      intro e he
      rcases List.mem_cons.1 he with rfl | he
      · simpa using ha
      · have := hs.1 e he; simp; omega

/-- Facts about process instances, given the past and the handling in progress. -/
def ProcObsOK (L : List (Happening R)) (c : List (Obs R)) : Obs R → Prop
  | .fact (.procLoaded h id _) => procLive h.name id L = true
  | .fact (.procNotFound h id _) => procLive h.name id L = false
  | .fact (.procBegun h id env) => procLive h.name id L = false ∧
    ∃ c', c = c' ++ [.fact (.procNotFound h id env), .call (.procNew h)]
  | .fact (.procTimeoutIgnored h id env) => procLive h.name id L = false ∧
    env.msg.type.kind = .timeout ∧ ∃ o, env.origin = some o ∧ o.instanceID = id
  | .fact (.procEnded _ _ _) => endedAfter false c = false
  | .fact (.procReverted _ _ _) => endedAfter false c = true
  | .fact (.procCommand _ _ _ _) => endedAfter false c = false
  | .fact (.procTimeout _ _ _ _) => endedAfter false c = false
  | .call (.procHandle h id _ m _) => ∃ (env : Env) (c' : List (Obs R)), env.msg = m ∧
    c = c' ++ (if procLive h.name id L then [.fact (.procLoaded h id env)]
      else [.fact (.procNotFound h id env), .call (.procNew h), .fact (.procBegun h id env)]) ∧
    (m.type.kind = .timeout → procLive h.name id L = true ∧
      ∃ o, env.origin = some o ∧ o.instanceID = id)
  | _ => True

theorem mem_timeoutsIn {t : List (Obs R)} {e : Env} :
    e ∈ timeoutsIn t ↔ ∃ h id env, .fact (.procTimeout h id env e) ∈ t := by
  unfold timeoutsIn
  rw [List.mem_filterMap]
  constructor
  · rintro ⟨o, ho, he⟩
    split at he
    · cases he; exact ⟨_, _, _, ho⟩
    · cases he
  · rintro ⟨h, id, env, ho⟩; exact ⟨_, ho, rfl⟩

/-- The origin of the timeouts scheduled in a handling. -/
theorem ProcSum.timeout_origin {A : App W R} {h : HConfig} {now : Time} {env : Env} {s s' : Sys W R}
    {res : HRes} {seg : List (Obs R)} (g : ProcSum A h now env s s' res seg) {e : Env}
    (he : e ∈ timeoutsIn seg) {id : String} (hid : procInstIn seg = some id) :
    ∃ o, e.origin = some o ∧ o.instanceID = id := by
  rcases g.shape with ⟨hs, _⟩ | ⟨pre, id', hpre, _, _, h1⟩
  · rw [(procPre_fold h env seg hs).2.2.1] at he; cases he
  · have hpre' : ∀ o ∈ pre, ProcPre h env o := by
      intro o ho; obtain ⟨rfl, hk⟩ := hpre o ho; exact ⟨rfl, rfl, hk⟩
    obtain ⟨k1, k2, k3, k4⟩ := procPre_fold h env pre hpre'
    rcases h1 with ⟨rfl, _⟩ | ⟨rfl, _⟩ | ⟨r, post, rfl, _, hpost, _⟩
    · simp [timeoutsIn_append, k3] at he; simp [timeoutsIn] at he
    · rw [timeoutsIn_append, k3, (procStart_fold h id' env _).2.2.1] at he; cases he
    · have hi : id' = id := by
        rw [List.append_assoc, procInstIn_append, k1, procInstIn_append,
          (procStart_fold h id' env _).1] at hid
        simpa using hid
      subst hi
      rw [timeoutsIn_append, timeoutsIn_append, k3, (procStart_fold h id' env _).2.2.1,
        List.nil_append, List.nil_append] at he
      obtain ⟨h', i, e', hm⟩ := mem_timeoutsIn.1 he
      rcases List.mem_cons.1 hm with hm | hm
      · cases hm
      · obtain ⟨_, _, _, k, m, t, rfl, _⟩ := hpost _ hm
        exact ⟨_, rfl, rfl⟩

theorem ProcStateOK.handled {A : App W R} {h : HConfig} {now : Time} {env : Env} {s s' : Sys W R}
    {envs : List Env} {e : Option Err} {seg : List (Obs R)} {L : List (Happening R)}
    (hk : h.htype = .process) (g : ProcSum A h now env s s' (.ok (envs, e)) seg)
    (hP : ProcStateOK h.name L (s.proc h.name)) :
    ProcStateOK h.name (L ++ [.handled now h env seg e]) (s'.proc h.name) := by
  have hc := (g.ok envs e rfl).2
  unfold ProcCommit at hc
  cases hi : procInstIn seg with
  | none =>
    rw [hi] at hc
    simp only at hc
    rw [hc]
    refine ⟨?_, ?_, hP.sorted, hP.owner⟩
    · intro id
      rw [procLive_snoc, if_neg (by simp [Happening.isProc, hi]), hP.live]
    · rw [pendingAfter_snoc]
      simp only [Happening.pend, hi]
      split <;> exact hP.perm
  | some id =>
    rw [hi] at hc
    obtain ⟨h1, h2⟩ := hc
    have hlive : ∀ x, x ≠ id → ((s'.proc h.name).inst x).isSome =
        procLive h.name x (L ++ [.handled now h env seg e]) := by
      intro x hx
      rw [procLive_snoc, if_neg, h1 x hx, hP.live]
      simp only [Happening.isProc, hi]
      rintro ⟨_, _, h3, _⟩
      exact hx (by simpa using h3.symm)
    cases e with
    | some e =>
      simp only at h2
      have hin : ∀ x, ((s'.proc h.name).inst x).isSome = ((s.proc h.name).inst x).isSome := by
        intro x
        by_cases hx : x = id
        · subst hx; exact h2.2
        · rw [h1 x hx]
      refine ⟨?_, ?_, by rw [h2.1]; exact hP.sorted, ?_⟩
      · intro x
        rw [procLive_snoc, if_neg (by simp [Happening.isProc]), hin, hP.live]
      · rw [pendingAfter_snoc, h2.1]
        simp only [Happening.pend]
        rw [if_neg (by simp)]
        exact hP.perm
      · rw [h2.1]
        intro x hx
        obtain ⟨o, ho, ho2⟩ := hP.owner x hx
        exact ⟨o, ho, by rw [hin]; exact ho2⟩
    | none =>
      simp only at h2
      have hpend : ∀ cur : List Env, (Happening.handled now h env seg none).pend h.name cur =
          if endedAfter false seg then cur.filter (fun e => !e.byInstance id)
          else cur ++ futureIn now seg := by
        intro cur; simp [Happening.pend, hk, hi]
      by_cases hen : endedAfter false seg = true
      · rw [if_pos hen] at h2
        have hto : (s'.proc h.name).timeouts =
            (s.proc h.name).timeouts.filter (fun e => !e.byInstance id) := by
          rw [h2.2]
          split
          · rfl
          · rename_i hn
            symm
            rw [List.filter_eq_self]
            intro x hx
            obtain ⟨o, ho, ho2⟩ := hP.owner x hx
            simp only [Env.byInstance, ho, Bool.not_eq_eq_eq_not, Bool.not_true, decide_eq_false_iff_not]
            rintro rfl
            exact hn ho2
        refine ⟨?_, ?_, ?_, ?_⟩
        · intro x
          by_cases hx : x = id
          · subst hx
            rw [procLive_snoc, if_pos (by simp [Happening.isProc, hi, hk]), h2.1]
            simp [Happening.seg, hen]
          · exact hlive x hx
        · rw [pendingAfter_snoc, hpend, if_pos hen, hto]
          exact hP.perm.filter _
        · rw [hto]; exact hP.sorted.filter _
        · rw [hto]
          intro x hx
          rw [List.mem_filter] at hx
          obtain ⟨o, ho, ho2⟩ := hP.owner x hx.1
          have hne : o.instanceID ≠ id := by
            have := hx.2
            simpa [Env.byInstance, ho] using this
          exact ⟨o, ho, by rw [h1 _ hne]; exact ho2⟩
      · rw [if_neg hen] at h2
        obtain ⟨hsome, hto⟩ := h2
        refine ⟨?_, ?_, ?_, ?_⟩
        · intro x
          by_cases hx : x = id
          · subst hx
            rw [procLive_snoc, if_pos (by simp [Happening.isProc, hi, hk]), hsome]
            simp only [Happening.seg]
            simpa using hen
          · exact hlive x hx
        · rw [pendingAfter_snoc, hpend, if_neg hen, hto, futureIn_eq]
          exact (A.sort.perm _).trans (hP.perm.append_right _)
        · rw [hto]; exact A.sort.sorted _
        · rw [hto]
          intro x hx
          rw [(A.sort.perm _).mem_iff, List.mem_append] at hx
          rcases hx with hx | hx
          · obtain ⟨o, ho, ho2⟩ := hP.owner x hx
            refine ⟨o, ho, ?_⟩
            by_cases hx : o.instanceID = id
            · rw [hx]; exact hsome
            · rw [h1 _ hx]; exact ho2
          · obtain ⟨o, ho, rfl⟩ := g.timeout_origin (List.mem_filter.1 hx).1 hi
            exact ⟨o, ho, hsome⟩

theorem ProcStateOK.skip {name : String} {L : List (Happening R)} {p : ProcState R} {x : Happening R}
    (hP : ProcStateOK name L p) (h1 : ∀ id, ¬ x.isProc name id) (h2 : ∀ cur, x.pend name cur = cur) :
    ProcStateOK name (L ++ [x]) p :=
  ⟨fun id => by rw [procLive_snoc, if_neg (h1 id), hP.live], by rw [pendingAfter_snoc, h2]; exact hP.perm,
    hP.sorted, hP.owner⟩

theorem ProcStateOK.ticked {h : HConfig} {now : Time} {L : List (Happening R)} {p : ProcState R}
    (hk : h.htype = .process) (hP : ProcStateOK h.name L p) :
    ProcStateOK h.name (L ++ [.ticked now h])
      ⟨p.inst, p.timeouts.dropWhile (fun e => decide (e.scheduledFor ≤ now))⟩ := by
  refine ⟨?_, ?_, ?_, ?_⟩
  · intro id; rw [procLive_snoc, if_neg (by intro h; exact h)]; exact hP.live id
  · rw [pendingAfter_snoc, dropWhile_sorted now _ hP.sorted]
    simp only [Happening.pend, hk, true_and, if_true]
    exact hP.perm.filter _
  · exact hP.sorted.sublist (List.dropWhile_sublist _)
  · intro e he; exact hP.owner e ((List.dropWhile_sublist _).subset he)

/-- Observations up to the invocation. -/
theorem proc_start_obs {L : List (Happening R)} {h : HConfig} {id : String} {env : Env}
    {pre a b : List (Obs R)} {o : Obs R}
    (hpre : ∀ o ∈ pre, o = .call (.procRoute h env.msg) ∧ env.msg.type.kind = .event)
    (hab : pre ++ procStart h id env (procLive h.name id L) = a ++ o :: b) : ProcObsOK L a o := by
  have hp0 : ∀ o ∈ pre, ∀ c, ProcObsOK L c o := by
    intro o ho c; obtain ⟨rfl, _⟩ := hpre o ho; trivial
  unfold procStart at hab
  by_cases hx : procLive h.name id L = true
  · rw [if_pos hx] at hab
    rcases split_snoc hab with ⟨_, rfl, rfl⟩ | ⟨t, _, rfl⟩
    · exact hx
    · exact hp0 o (by simp) a
  · rw [if_neg hx] at hab
    have hx : procLive h.name id L = false := by simpa using hx
    have e : pre ++ [.fact (.procNotFound h id env), .call (.procNew h), .fact (.procBegun h id env)] =
      (pre ++ [.fact (.procNotFound h id env), .call (.procNew h)]) ++ [.fact (.procBegun h id env)] := by
      simp
    rw [e] at hab
    rcases split_snoc hab with ⟨_, rfl, rfl⟩ | ⟨t, _, hab⟩
    · exact ⟨hx, pre, rfl⟩
    · rcases split_mid hab with ⟨t, rfl⟩ | ⟨rfl, rfl⟩ | ⟨rfl, rfl⟩ | ⟨u, _, h2⟩
      · exact hp0 o (by simp) a
      · exact hx
      · trivial
      · simp at h2

theorem proc_obs {A : App W R} {L : List (Happening R)} {h : HConfig} {now : Time} {env : Env}
    {s s' : Sys W R} {res : HRes} {seg : List (Obs R)}
    (hP : ∀ name, ProcStateOK name L (s.proc name)) (hh : Handling A h now env s s' res seg)
    (a : List (Obs R)) (o : Obs R) (b : List (Obs R)) (hab : seg = a ++ o :: b) : ProcObsOK L a o := by
  by_cases ht : h.htype = .process
  · have hl := fun id => (hP h.name).live id
    rcases (hh.proc ht).shape with ⟨hs, hig⟩ | ⟨pre, id, hpre, htm, _, hsh⟩
    · have hm : o ∈ seg := by simp [hab]
      have := hs o hm
      cases o with
      | call c => cases c <;> first | exact this.elim | trivial
      | reset => exact this.elim
      | fact f =>
        cases f with
        | procTimeoutIgnored h' id' e' =>
          obtain ⟨rfl, rfl, h3, h4⟩ := this
          refine ⟨?_, h3, h4⟩
          rw [← hl, hig _ _ hm]; rfl
        | _ => first | exact this.elim | trivial
    · have hpre' : ∀ o ∈ pre, ProcPre h env o := by
        intro o ho; obtain ⟨rfl, hk⟩ := hpre o ho; exact ⟨rfl, rfl, hk⟩
      rw [hl id] at hsh htm
      have hstart := fun a o b => proc_start_obs (L := L) (id := id) hpre (a := a) (o := o) (b := b)
      rcases hsh with ⟨rfl, hx, _⟩ | ⟨rfl, hx, _⟩ | ⟨r, post, rfl, _, hpost, hst⟩
      · refine hstart a o (b ++ [.fact (.procBegun h id env)]) ?_
        rw [hx]
        have : pre ++ procStart h id env false = (pre ++ [Obs.fact (Fact.procNotFound h id env), Obs.call (Call.procNew h)]) ++ [.fact (.procBegun h id env)] := by
          simp [procStart]
        rw [this, hab]; simp
      · exact hstart a o b hab
      · rcases List.append_eq_append_iff.1 hab with ⟨a', ha, hb⟩ | ⟨c', ha, hb⟩
        · subst ha
          cases a' with
          | nil =>
            simp at hb
            rw [← hb.1, List.append_nil]
            refine ⟨env, pre, rfl, rfl, fun hk => htm hk⟩
          | cons x a' =>
            simp only [List.cons_append, List.cons.injEq] at hb
            obtain ⟨rfl, hb⟩ := hb
            have k := hst a' o b hb
            have k2 := hpost o (by simp [hb])
            have hen : endedAfter false (pre ++ procStart h id env (procLive h.name id L) ++
                .call (.procHandle h id r env.msg (procSeenTime env)) :: a') = endedAfter false a' := by
              rw [endedAfter_append, endedAfter_append, (procPre_fold h env pre hpre').2.2.2,
                (procStart_fold h id env _).2.2.2]
              rfl
            cases o with
            | call c => exact k2.elim
            | reset => trivial
            | fact f =>
              cases f <;> first | exact k2.elim | trivial |
                (simp only [ProcObsOK]; rw [hen]; exact k)
        · cases c' with
          | nil =>
            simp at ha hb
            rw [hb.1, ← ha]
            refine ⟨env, pre, rfl, rfl, fun hk => htm hk⟩
          | cons z c =>
            simp only [List.cons_append, List.cons.injEq] at hb
            exact hstart a o c (by rw [ha, hb.1])
  · have := hh.inner o (by simp [hab])
    cases o with
    | call c => cases c <;> first | trivial | exact (ht this.2.2.1).elim | exact (ht this.2.2).elim
    | reset => trivial
    | fact f =>
      cases f <;> first
        | trivial
        | (exfalso
           rcases this with h0 | ⟨ev, h0, _, h1⟩
           · first | exact ht h0.2.2 | exact h0
           · cases h0 <;> exact ht h1.1)

theorem proc_refine (A : App W R) : Refine A
    (fun L s => ∀ name, ProcStateOK name L (s.proc name)) (fun L c => ProcObsOK L c.seg) where
  frame L s s' hs h name := by rw [hs.proc]; exact h name
  init w name := ⟨fun _ => rfl, .nil, .nil, by simp [Sys.init]⟩
  reset L s h name := ⟨fun _ => rfl, .nil, .nil, by simp⟩
  ok L h now env s s' envs e seg _ hP hh name := by
    by_cases ht : h.htype = .process
    · by_cases hn : name = h.name
      · subst hn; exact ProcStateOK.handled ht (hh.proc ht) (hP _)
      · rw [(hh.proc ht).other name hn]
        refine (hP name).skip ?_ ?_
        · rintro id ⟨_, h2, _⟩; exact hn h2.symm
        · intro cur; simp only [Happening.pend]; rw [if_neg (by rintro ⟨_, h2, _⟩; exact hn h2.symm)]
    · rw [hh.noProc ht]
      refine (hP name).skip ?_ ?_
      · rintro id ⟨h2, _⟩; exact ht h2
      · intro cur; simp only [Happening.pend]; rw [if_neg (by rintro ⟨h2, _⟩; exact ht h2)]
  panic L h now env s s' v seg _ hP hh name := by
    by_cases ht : h.htype = .process
    · by_cases hn : name = h.name
      · subst hn
        obtain ⟨h1, h2, _⟩ := (hh.proc ht).err v rfl
        refine ⟨fun id => by rw [h2, (hP _).live], by rw [h1]; exact (hP _).perm,
          by rw [h1]; exact (hP _).sorted, ?_⟩
        rw [h1]
        intro e he
        obtain ⟨o, ho, ho2⟩ := (hP _).owner e he
        exact ⟨o, ho, by rw [h2]; exact ho2⟩
      · rw [(hh.proc ht).other name hn]; exact hP name
    · rw [hh.noProc ht]; exact hP name
  tick L h now s s' res seg _ _ hP g name := by
    rw [g.proc]
    by_cases ht : h.htype = .process
    · rw [if_pos ht]
      by_cases hn : name = h.name
      · subst hn; rw [upd_same]; exact ProcStateOK.ticked ht (hP _)
      · rw [upd_ne _ _ hn]
        refine (hP name).skip (fun id h => h) ?_
        intro cur; simp only [Happening.pend]; rw [if_neg (by rintro ⟨_, h2⟩; exact hn h2.symm)]
    · rw [if_neg ht]
      refine (hP name).skip (fun id h => h) ?_
      intro cur; simp only [Happening.pend]; rw [if_neg (by rintro ⟨h2, _⟩; exact ht h2)]
  obs L h now env s s' res seg _ hP hh a o b hab := proc_obs hP hh a o b hab
  tickObs L c h now o ho := by
    cases o with
    | call c => cases c <;> first | exact ho.elim | (cases ho; done) | trivial
    | reset => trivial
    | fact f => cases f <;> first | exact ho.elim | trivial
  plain L c f hf := by
    rcases hf with hf | ⟨h, e, rfl⟩ | ⟨h, e, x, rfl⟩ | ⟨h, rfl⟩ | ⟨h, e, rfl⟩
    · cases f <;> first | exact hf.elim | trivial
    all_goals trivial
  resetter L c i := trivial
  resetObs L c := trivial

end Verif
