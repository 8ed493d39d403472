import Verif.Refine
import Verif.AggLive

/-!
# Refinement of aggregate state

The aggregate controllers' state is the function `aggHistory` of the past.  Proof machinery for
`Verif.Props.Aggregate`.
-/

namespace Verif

variable {W R : Type}

theorem aggHistory_snoc (name id : String) (L : List (Happening R)) (x : Happening R) :
    aggHistory name id (L ++ [x]) =
      if x.isAgg name id then
        if aggExistsAfter false x.seg then
          some ((aggHistory name id L).getD [] ++ aggEventsIn x.seg) else none
      else aggHistory name id L := by
  simp [aggHistory]

/-- Was the instance destroyed, created, ... by these facts?  Which facts may come next.
`ex`: the instance exists; `de`: it was destroyed in this handling. -/
def AggObsOK (L : List (Happening R)) (c : List (Obs R)) : Obs R → Prop
  | .fact (.aggLoaded h id _) => (aggHistory h.name id L).isSome
  | .fact (.aggNotFound h id _) => aggHistory h.name id L = none
  | .fact (.aggCreated _ _ _) => aggExistsAfter false c = false ∧ destroyedAfter false c = false
  | .fact (.aggReverted _ _ _) => aggExistsAfter false c = false ∧ destroyedAfter false c = true
  | .fact (.aggDestroyed _ _ _) => aggExistsAfter false c = true
  | .fact (.aggEvent _ _ _ _) => aggExistsAfter false c = true
  | _ => True

/-- What holds when `HandleCommand()` is called with root `r`. -/
def AggCallOK (A : App W R) (L : List (Happening R)) (c : List (Obs R)) : Obs R → Prop
  | .call (.aggHandle h id r m) =>
    (∃ r0, NewRoot A.uc h r0 ∧
      Replays A.uc h r0 (((aggHistory h.name id L).getD []).map Env.msg) r) ∧
    ∃ env ap, env.msg = m ∧ c = .call (.aggRoute h m) :: .call (.aggNew h) :: ap ++
        [.fact (if (aggHistory h.name id L).isSome then .aggLoaded h id env
          else .aggNotFound h id env)] ∧
      appliedIn ap = ((aggHistory h.name id L).getD []).map Env.msg ∧
      ap.length = ((aggHistory h.name id L).getD []).length
  | _ => True

/-! ## Refinement -/

theorem aggPre_destroyed (h : HConfig) (b : Bool) (pre : List (Obs R)) (hp : ∀ o ∈ pre, AggPre h o) :
    destroyedAfter b pre = b := by
  induction pre with
  | nil => rfl
  | cons o pre ih =>
    have ho := hp o (by simp)
    have ih := ih (fun x hx => hp x (by simp [hx]))
    cases o with
    | call c => simpa [destroyedAfter] using ih
    | reset => simpa [destroyedAfter] using ih
    | fact f => simp [AggPre] at ho

/-- An element of a list split at two places. -/
theorem split_mid {α : Type} {pre post a b : List α} {x y o : α}
    (h : pre ++ x :: y :: post = a ++ o :: b) :
    (∃ t, pre = a ++ o :: t) ∨ (a = pre ∧ o = x) ∨ (a = pre ++ [x] ∧ o = y) ∨
      ∃ u, a = pre ++ x :: y :: u ∧ post = u ++ o :: b := by
  rcases List.append_eq_append_iff.1 h with ⟨a', ha, hb⟩ | ⟨c', ha, hb⟩
  · match a', ha, hb with
    | [], ha, hb => simp at ha hb; exact .inr (.inl ⟨ha, hb.1.symm⟩)
    | [_], ha, hb =>
      simp at hb
      obtain ⟨rfl, rfl, _⟩ := hb
      exact .inr (.inr (.inl ⟨ha, rfl⟩))
    | _ :: _ :: u, ha, hb =>
      simp at hb
      obtain ⟨rfl, rfl, h3⟩ := hb
      exact .inr (.inr (.inr ⟨u, ha, h3⟩))
  · cases c' with
    | nil => simp at ha hb; exact .inr (.inl ⟨ha.symm, hb.1⟩)
    | cons z c =>
      simp only [List.cons_append, List.cons.injEq] at hb
      exact .inl ⟨c, by rw [ha, hb.1]⟩

theorem agg_refine (A : App W R) : Refine A
    (fun L s => ∀ name id, s.agg name id = aggHistory name id L)
    (fun L c o => AggObsOK L c.seg o ∧ AggCallOK A L c.seg o) where
  frame L s s' hs h name id := by rw [hs.agg]; exact h name id
  init w name id := rfl
  reset L s h name id := rfl
  ok L h now env s s' envs e seg _ hP hh name id := by
    rw [aggHistory_snoc]
    by_cases ht : h.htype = .aggregate
    · obtain ⟨rfl, _, i, hi, ha⟩ := (hh.agg ht).ok envs e rfl
      rw [ha]
      have key : (Happening.handled now h env seg none).isAgg name id ↔ h.name = name ∧ i = id := by
        simp [Happening.isAgg, ht, hi]
      by_cases hk : h.name = name ∧ i = id
      · rw [if_pos (key.2 hk)]
        obtain ⟨rfl, rfl⟩ := hk
        simp only [upd_same, hP, Happening.seg]; rfl
      · rw [if_neg (fun h0 => hk (key.1 h0))]
        by_cases hn : name = h.name
        · subst hn
          have : id ≠ i := fun h0 => hk ⟨rfl, h0.symm⟩
          simp [upd_ne _ _ this, hP]
        · simp [upd_ne _ _ hn, hP]
    · rw [if_neg (by rintro ⟨h1, _⟩; exact ht h1), hh.noAgg ht, hP]
  panic L h now env s s' v seg _ hP hh name id := by
    by_cases ht : h.htype = .aggregate
    · rw [(hh.agg ht).err v rfl, hP]
    · rw [hh.noAgg ht, hP]
  tick L h now s s' res seg _ _ hP g name id := by
    rw [aggHistory_snoc, if_neg (by intro h; exact h), g.agg, hP]
  obs L h now env s s' res seg _ hP hh a o b hab := by
    by_cases ht : h.htype = .aggregate
    · rcases (hh.agg ht).shape with hs | ⟨pre, id, r, post, hseg, hpre, hpost, hst, hid, ⟨ap, h1, h2, h3⟩, hr⟩
      · have := hs o (by simp [hab])
        cases o with
        | call c => cases c <;> first | exact this.elim | exact ⟨trivial, trivial⟩
        | reset => exact this.elim
        | fact f => exact this.elim
      · rw [hP h.name id] at hseg h2 h3 hr hst
        rcases split_mid (hseg.symm.trans hab) with ⟨t, e⟩ | ⟨e1, e2⟩ | ⟨e1, e2⟩ | ⟨u, e1, e2⟩
        · have := hpre o (by simp [e])
          cases o with
          | call c => cases c <;> first | exact this.elim | exact ⟨trivial, trivial⟩
          | reset => exact this.elim
          | fact f => exact this.elim
        · subst e1 e2
          by_cases hx : (aggHistory h.name id L).isSome
          · rw [if_pos hx]; exact ⟨hx, trivial⟩
          · rw [if_neg hx]; exact ⟨by simpa [AggObsOK] using hx, trivial⟩
        · subst e1 e2
          refine ⟨trivial, hr, env, ap, rfl, ?_, h2, h3⟩
          simp only [Cur.seg]; rw [h1]
        · have hex : ∀ u : List (Obs R), aggExistsAfter false (pre ++ .fact (if (aggHistory h.name id L).isSome
                then .aggLoaded h id env else .aggNotFound h id env) ::
                .call (.aggHandle h id r env.msg) :: u) =
              aggExistsAfter (aggHistory h.name id L).isSome u := by
            intro u
            rw [aggExistsAfter_append, aggPre_exists h _ _ hpre]
            by_cases hx : (aggHistory h.name id L).isSome <;> simp [hx, aggExistsAfter]
          have hde : ∀ u : List (Obs R), destroyedAfter false (pre ++ .fact (if (aggHistory h.name id L).isSome
                then .aggLoaded h id env else .aggNotFound h id env) ::
                .call (.aggHandle h id r env.msg) :: u) = destroyedAfter false u := by
            intro u
            rw [destroyedAfter_append, aggPre_destroyed h _ _ hpre]
            by_cases hx : (aggHistory h.name id L).isSome <;> simp [hx, destroyedAfter]
          have k := hst u o b e2
          have k2 := hpost o (by simp [e2])
          rw [e1]
          refine ⟨?_, ?_⟩
          · cases o with
            | call c => trivial
            | reset => trivial
            | fact f =>
              cases f <;> first | exact k2.elim | exact k | trivial |
                (simp only [AggObsOK, Cur.seg, hex, hde]; exact k)
          · cases o with
            | call c => cases c <;> first | exact k2.elim | trivial
            | reset => trivial
            | fact f => trivial
    · have := hh.inner o (by simp [hab])
      cases o with
      | call c => cases c <;> first | exact ⟨trivial, trivial⟩ | exact (ht this.2.2).elim
      | reset => exact ⟨trivial, trivial⟩
      | fact f =>
        cases f <;> first
          | exact ⟨trivial, trivial⟩
          | (exfalso
             rcases this with h0 | ⟨ev, h0, _, h1⟩
             · first | exact ht h0.2.2 | exact h0
             · cases h0 <;> exact ht h1.1)
  tickObs L c h now o ho := by
    cases o with
    | call c => cases c <;> first | exact ho.elim | (cases ho; done) | exact ⟨trivial, trivial⟩
    | reset => exact ⟨trivial, trivial⟩
    | fact f => cases f <;> first | exact ho.elim | exact ⟨trivial, trivial⟩
  plain L c f hf := by
    refine ⟨?_, trivial⟩
    rcases hf with hf | ⟨h, e, rfl⟩ | ⟨h, e, x, rfl⟩ | ⟨h, rfl⟩ | ⟨h, e, rfl⟩
    · cases f <;> first | exact hf.elim | trivial
    all_goals trivial
  resetter L c i := ⟨trivial, trivial⟩
  resetObs L c := ⟨trivial, trivial⟩

/-! ## Well-behaved roots -/

theorem same_handler {A : App W R} (wf : A.WF) {h h' : HConfig} (hm : h ∈ A.cfgs) (hm' : h' ∈ A.cfgs)
    (e : h.name = h'.name) : h = h' := by
  have nd := wf.names
  rw [List.nodup_iff_pairwise_ne, List.pairwise_map] at nd
  apply Classical.byContradiction; intro hne
  obtain ⟨i, hi, e1⟩ := List.getElem_of_mem hm
  obtain ⟨j, hj, e2⟩ := List.getElem_of_mem hm'
  have := List.pairwise_iff_getElem.1 nd
  rcases Nat.lt_trichotomy i j with hlt | heq | hgt
  · exact this i j hi hj hlt (by rw [e1, e2]; exact e)
  · subst heq; exact hne (e1.symm.trans e2)
  · exact this j i hj hi hgt (by rw [e1, e2]; exact e.symm)

/-- What the past says about roots that behave. -/
structure RootsInv (A : App W R) (L : List (Happening R)) : Prop where
  cfgs : ∀ now h env seg e, .handled now h env seg e ∈ L → h ∈ A.cfgs
  total : A.uc.TotalRoots → ∀ name id hist, aggHistory name id L = some hist → hist ≠ []
  pure_ : ∀ r0 ap, A.uc.PureRoots r0 ap → A.uc.EventsOnly → ∀ L1 now h env seg e L2 id,
    L = L1 ++ .handled now h env seg e :: L2 → h.htype = .aggregate → aggInstIn seg = some id →
    NoRevert seg → aggExistsAfter false seg = true →
    liveRoot r0 ap none seg = some
      ((((aggHistory h.name id (L1 ++ [.handled now h env seg e])).getD []).map Env.msg).foldl (ap h) (r0 h))

theorem split_snoc {α : Type} {L L1 L2 : List α} {x y : α} (h : L ++ [y] = L1 ++ x :: L2) :
    (L2 = [] ∧ L1 = L ∧ x = y) ∨ ∃ L3, L2 = L3 ++ [y] ∧ L = L1 ++ x :: L3 := by
  rcases List.eq_nil_or_concat L2 with rfl | ⟨L3, z, rfl⟩
  · have := List.append_inj' h (by simp)
    simp only [List.cons.injEq, and_true] at this
    exact .inl ⟨rfl, this.1.symm, this.2.symm⟩
  · rw [List.concat_eq_append] at h
    have e' : L ++ [y] = (L1 ++ x :: L3) ++ [z] := by simpa using h
    obtain ⟨e1, e2⟩ := List.append_inj' e' rfl
    refine .inr ⟨L3, ?_, e1⟩
    simp only [List.cons.injEq, and_true] at e2
    rw [e2, List.concat_eq_append]

theorem RootsInv.skip {A : App W R} {L : List (Happening R)} (hi : RootsInv A L) {x : Happening R}
    (h1 : ∀ now h env seg e, x = .handled now h env seg e → h ∈ A.cfgs)
    (h2 : ∀ now h env seg e, x = .handled now h env seg e → h.htype ≠ .aggregate) :
    RootsInv A (L ++ [x]) := by
  refine ⟨?_, ?_, ?_⟩
  · intro now h env seg e hm
    rcases List.mem_append.1 hm with hm | hm
    · exact hi.cfgs _ _ _ _ _ hm
    · exact h1 _ _ _ _ _ (List.mem_singleton.1 hm).symm
  · intro g name id hist hh
    rw [aggHistory_snoc, if_neg ?_] at hh
    · exact hi.total g _ _ _ hh
    · cases x with
      | ticked => intro h; exact h
      | handled now h env seg e => rintro ⟨h0, _⟩; exact h2 _ _ _ _ _ rfl h0
  · intro r0 ap g hev L1 now h env seg e L2 id hL ht
    rcases split_snoc hL with ⟨_, _, rfl⟩ | ⟨L3, _, h3⟩
    · exact (h2 _ _ _ _ _ rfl ht).elim
    · exact hi.pure_ r0 ap g hev L1 now h env seg e L3 id h3 ht

/-- The root given to `HandleCommand()` is the one the last completed handling left behind. -/
def AggKept (A : App W R) (L : List (Happening R)) : Obs R → Prop
  | .call (.aggHandle h id r _) => ∀ r0 ap, A.uc.PureRoots r0 ap → A.uc.EventsOnly → ∀ L1 x L2,
      L = L1 ++ x :: L2 → x.isAgg h.name id → (∀ y ∈ L2, ¬ y.isAgg h.name id) →
      NoRevert x.seg → aggExistsAfter false x.seg = true → liveRoot r0 ap none x.seg = some r
  | .fact (.aggLoaded h id _) => A.uc.TotalRoots → aggHistory h.name id L ≠ some []
  | _ => True

theorem aggHistory_later {name id : String} {L1 L2 : List (Happening R)}
    (h : ∀ y ∈ L2, ¬ y.isAgg name id) : aggHistory name id (L1 ++ L2) = aggHistory name id L1 := by
  induction L2 using List.reverseRecOn' with
  | nil => simp
  | append_singleton L2 y ih =>
    rw [← List.append_assoc, aggHistory_snoc, if_neg (h y (by simp)), ih (fun z hz => h z (by simp [hz]))]

theorem roots_refine {A : App W R} (wf : A.WF) : Refine A
    (fun L s => (∀ name id, s.agg name id = aggHistory name id L) ∧ RootsInv A L)
    (fun L _ o => AggKept A L o) where
  frame L s s' hs h := ⟨(agg_refine A).frame L s s' hs h.1, h.2⟩
  init w := ⟨(agg_refine A).init w, ⟨by simp, by simp [aggHistory], by simp⟩⟩
  reset L s h := ⟨(agg_refine A).reset L s h.1, ⟨by simp, by simp [aggHistory], by simp⟩⟩
  ok L h now env s s' envs e seg hp hP hh := by
    refine ⟨(agg_refine A).ok L h now env s s' envs e seg hp hP.1 hh, ?_⟩
    by_cases ht : h.htype = .aggregate
    · have hrun := hh.run
      unfold ctlHandle at hrun
      rw [ht] at hrun
      obtain ⟨id, hid, k1, k2⟩ := aggHandle_live hrun hh.trace
      have key : ∀ name i, (Happening.handled now h env seg e).isAgg name i ↔ h.name = name ∧ id = i := by
        intro name i; simp [Happening.isAgg, ht, hid]
      refine ⟨?_, ?_, ?_⟩
      · intro now' h' env' seg' e' hm
        rcases List.mem_append.1 hm with hm | hm
        · exact hP.2.cfgs _ _ _ _ _ hm
        · cases List.mem_singleton.1 hm; exact hh.handler
      · intro g name i hist hist'
        rw [aggHistory_snoc] at hist'
        by_cases hk : h.name = name ∧ id = i
        · rw [if_pos ((key name i).2 hk)] at hist'
          obtain ⟨rfl, rfl⟩ := hk
          split at hist'
          · rename_i hx
            rw [← Option.some.inj hist']
            rcases k1 g hx with h0 | h0
            · rw [hP.1] at h0
              obtain ⟨l, hl⟩ := Option.isSome_iff_exists.1 h0
              have := hP.2.total g _ _ _ hl
              rw [hl]; simp [this]
            · intro h1
              exact h0 (List.append_eq_nil_iff.1 h1).2
          · cases hist'
        · rw [if_neg (fun h0 => hk ((key name i).1 h0))] at hist'
          exact hP.2.total g _ _ _ hist'
      · intro r0 ap g hev L1 now' h' env' seg' e' L2 i hL ht' hi' hn hx
        rcases split_snoc hL with ⟨_, rfl, heq⟩ | ⟨L3, _, h3⟩
        · cases heq
          have : id = i := by rw [hid] at hi'; exact Option.some.inj hi'
          subst this
          rw [aggHistory_snoc, if_pos ((key h.name id).2 ⟨rfl, rfl⟩),
            if_pos (show aggExistsAfter false (Happening.handled now h env seg e).seg = true from hx)]
          have := k2 r0 ap g hev hn hx
          rw [this, hP.1]; rfl
        · exact hP.2.pure_ r0 ap g hev L1 now' h' env' seg' e' L3 i h3 ht' hi' hn hx
    · exact hP.2.skip (by rintro _ _ _ _ _ ⟨⟩; exact hh.handler) (by rintro _ _ _ _ _ ⟨⟩; exact ht)
  panic L h now env s s' v seg hp hP hh :=
    ⟨(agg_refine A).panic L h now env s s' v seg hp hP.1 hh, hP.2⟩
  tick L h now s s' res seg hm hp hP g :=
    ⟨(agg_refine A).tick L h now s s' res seg hm hp hP.1 g, hP.2.skip (by simp) (by simp)⟩
  obs L h now env s s' res seg hp hP hh a o b hab := by
    have hq := (agg_refine A).obs L h now env s s' res seg hp hP.1 hh a o b hab
    have hin := hh.inner o (by simp [hab])
    cases o with
    | call c =>
      cases c with
      | aggHandle h' id r m =>
        obtain ⟨rfl, _, hty⟩ := hin
        intro r0 ap g hev L1 x L2 hL hx hlater hn hex
        cases x with
        | ticked => exact hx.elim
        | handled now' h'' env' seg' e' =>
          obtain ⟨g1, g2, g3⟩ := hx
          have hsame := same_handler wf (hP.2.cfgs now' h'' env' seg' e' (by rw [hL]; simp)) hh.handler g2
          subst hsame
          have := hP.2.pure_ r0 ap g hev L1 now' h'' env' seg' e' L2 id hL g1 g3 hn hex
          simp only [Happening.seg]
          rw [this]
          obtain ⟨⟨rn, hrn, hrep⟩, _⟩ := hq.2
          obtain ⟨wn, hwn⟩ := hrn
          rw [g.new] at hwn
          obtain rfl : r0 h'' = rn := by simpa using hwn
          rw [replays_pure g hrep, hL]
          have e : L1 ++ .handled now' h'' env' seg' e' :: L2 = (L1 ++ [.handled now' h'' env' seg' e']) ++ L2 := by
            simp
          rw [e, aggHistory_later hlater]
      | _ => trivial
    | reset => trivial
    | fact f =>
      cases f <;> first
        | trivial
        | (intro g h0; exact hP.2.total g _ _ _ h0 rfl)
  tickObs L c h now o ho := by
    cases o with
    | call c => cases c <;> first | (cases ho; done) | trivial
    | reset => trivial
    | fact f => cases f <;> first | exact ho.elim | trivial
  plain L c f hf := by
    rcases hf with hf | ⟨h, e, rfl⟩ | ⟨h, e, x, rfl⟩ | ⟨h, rfl⟩ | ⟨h, e, rfl⟩
    · cases f <;> first | exact hf.elim | trivial
    all_goals trivial
  resetter L c i := trivial
  resetObs L c := trivial

end Verif
