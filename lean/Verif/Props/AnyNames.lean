import Verif.Relabel
import Verif.Props.AnyData

/-!
# C126: instances may be called what they like

Let the instances of aggregates and processes have other names, one for each and none for two.
Handlers do for an instance what they did when it had its old name.  Then nothing changes but the
names: the same facts are notified, with the other names, and tests end the same and say the same.
-/

namespace Verif

variable {W R W' R' : Type}

/-! ## Specification -/

/-- Rename the instances in a record of a test. -/
def TObs.nm (σ : String → String) : TObs → TObs
  | .engine c op fs => .engine c op (fs.map (Fact.nm σ))
  | .exec m b => .exec m b
  | .log s => .log s
  | .fatal e => .fatal e
  | .failNow => .failNow

/-- Rename the instances in a call to a predicate. -/
def ECall.nm (σ : String → String) : ECall → ECall
  | .notify f => .notify (f.nm σ)
  | .build => .build
  | .done => .done
  | .ok => .ok
  | .report => .report

/-- A test, and one of an application with other names of instances, at the same point: in particular
their records (operations with all their facts, executed commands, everything said to the `TestingT`)
are the same, but for the names. -/
structure TSt.Nm (v : Naming W R W' R') (t : TSt W R) (t' : TSt W' R') : Prop where
  sys : t'.sys = t.sys.nm v
  clock : t'.clock = t.clock
  opts : t'.opts = t.opts
  bound : t'.bound = t.bound
  icept : IcAlt v.world t.icept t'.icept
  did : t'.did = t.did.map (TObs.nm v.inst)

/-- An implementation of `Expectation` and `Predicate` that does not look at names of instances.
`P` relates predicates that have been told the same, but for the names. -/
structure Expecting.Nameless {Q : Type} (X : Expecting Q) (σ : String → String) (P : Q → Q → Prop) : Prop where
  build : ∀ s p, X.build s = .ok p → P p p
  notify : ∀ s f p p', P p p' → P (X.notify s f p) (X.notify s (f.nm σ) p')
  done : ∀ p p', P p p' → P (X.done p).1 (X.done p').1 ∧ (X.done p').2 = (X.done p).2
  ok : ∀ p p', P p p' → X.ok p' = X.ok p
  report : ∀ b p p', P p p' → X.report b p' = X.report b p

/-- A predicate of users that does not look at names of instances. -/
structure CustomPred.Nameless (σ : String → String) (p : CustomPred) : Prop where
  crash : ∀ fs, p.crash (fs.map (Fact.nm σ)) = p.crash fs
  ok : ∀ fs, p.ok (fs.map (Fact.nm σ)) = p.ok fs
  report : ∀ c fs, p.report c (fs.map (Fact.nm σ)) = p.report c fs

/-- The expectations of this module look at names of instances only in functions of users. -/
inductive Expectation.Nameless (σ : String → String) : Expectation → Prop where
  | message (m : Message) : Nameless σ (.message m)
  | type (t : MType) : Nameless σ (.type t)
  | matching (T : MatchType) (fn : List Message → Message → MatchRes) (loc : String) (ex : Bool) :
      Nameless σ (.matching T fn loc ex)
  | composite (k : CompKind) (es : List Expectation) (h : ∀ e ∈ es, Nameless σ e) : Nameless σ (.composite k es)
  | not (e : Expectation) (h : Nameless σ e) : Nameless σ (.not e)
  | repeatedly (d : String) (n : Nat) (fn : Nat → Expectation) (h : ∀ i, Nameless σ (fn i)) :
      Nameless σ (.repeatedly d n fn)
  | satisfy (d : String) (fn : List Fact → SProg) (h : ∀ fs, fn (fs.map (Fact.nm σ)) = fn fs) :
      Nameless σ (.satisfy d fn)
  | custom (c : String) (mk : PScope → Except String CustomPred)
      (h : ∀ s p, mk s = .ok p → p.Nameless σ) : Nameless σ (.custom c mk)
  | nil : Nameless σ .nil

/-- The expectations of these statements do not look at names of instances. -/
def TStep.Nameless (σ : String → String) : TStep W → Prop
  | .prepare _ => True
  | .expect _ x _ => x.Nameless σ

section
variable {A : App W R} {A' : App W' R'} {v : Naming W R W' R'}

/-! ## The engine -/

theorem factsOf_nm (l : List (Obs R)) : factsOf (l.map (Obs.nm v)) = (factsOf l).map (Fact.nm v.inst) := by
  induction l with
  | nil => rfl
  | cons o l ih =>
    unfold factsOf at ih ⊢
    cases o with
    | call c => simpa [Obs.nm] using ih
    | reset => simpa [Obs.nm] using ih
    | fact x => simpa [Obs.nm] using ih

theorem during_nm (s s' : Sys W R) : during (s.nm v) (s'.nm v) = (during s s').map (Obs.nm v) := by
  unfold during Sys.nm
  simp only [List.length_map, List.map_drop]

/-- **C126.** An operation does the same, ends the same, notifies the same facts and calls the user's
code in the same order, but for the names of instances. -/
theorem C126_operation (al : A.Relabels A' v) (op : Op) (s : Sys W R) :
    (op.exec A' (s.nm v)).1 = (op.exec A s).1.nm v ∧
    (op.exec A' (s.nm v)).2 = (op.exec A s).2 ∧
    during (s.nm v) (op.exec A' (s.nm v)).1 = (during s (op.exec A s).1).map (Obs.nm v) ∧
    factsOf (during (s.nm v) (op.exec A' (s.nm v)).1) =
      (factsOf (during s (op.exec A s).1)).map (Fact.nm v.inst) := by
  rw [exec_nm al]
  exact ⟨rfl, rfl, during_nm _ _, by rw [during_nm, factsOf_nm]⟩

/-- **C126.** The same for histories, in which the world may change between operations. -/
theorem C126_history (al : A.Relabels A' v) (es : List (Event W)) : ∀ s : Sys W R,
    behaviour A' (es.map (Event.alt v.world)) (s.nm v) =
      (behaviour A es s).map fun x => (x.1.map (Obs.nm v), x.2.1, v.world x.2.2) := by
  induction es with
  | nil => intro s; rfl
  | cons e es ih =>
    intro s
    cases e with
    | world w =>
      simp only [List.map_cons, Event.alt, behaviour]
      exact ih { s with w := w }
    | op o =>
      simp only [List.map_cons, Event.alt, behaviour, exec_nm al, ih]
      rw [during_nm]
      rfl

/-! ## Expectations -/

mutual
/-- Predicates that were told the same, but for the names of instances. -/
inductive Pred.Nm (σ : String → String) : Pred → Pred → Prop where
  | message (p : MsgPred) :
      Pred.Nm σ (.message p) (.message { p with bestMatch := p.bestMatch.map (Env.nm σ) })
  | type (p : TypePred) : Pred.Nm σ (.type p) (.type p)
  | matching (p : MatchPred) : Pred.Nm σ (.matching p) (.matching p)
  | composite (k : CompKind) (n : Nat) {ps ps' : List Pred} (h : Pred.AllNm σ ps ps') :
      Pred.Nm σ (.composite k n ps) (.composite k n ps')
  | not {p p' : Pred} (h : Pred.Nm σ p p') : Pred.Nm σ (.not p) (.not p')
  | repeatedly (c : String) {ps ps' : List Pred} (h : Pred.AllNm σ ps ps') :
      Pred.Nm σ (.repeatedly c ps) (.repeatedly c ps')
  | satisfy (p : SatPred) (h : ∀ fs, p.fn (fs.map (Fact.nm σ)) = p.fn fs) :
      Pred.Nm σ (.satisfy p) (.satisfy { p with facts := p.facts.map (Fact.nm σ) })
  | custom (p : CustomPred) (fs : List Fact) (h : p.Nameless σ) :
      Pred.Nm σ (.custom p fs) (.custom p (fs.map (Fact.nm σ)))
/-- The same for predicates in order. -/
inductive Pred.AllNm (σ : String → String) : List Pred → List Pred → Prop where
  | nil : Pred.AllNm σ [] []
  | cons {p p' : Pred} {ps ps' : List Pred} (h : Pred.Nm σ p p') (hs : Pred.AllNm σ ps ps') :
      Pred.AllNm σ (p :: ps) (p' :: ps')
end

theorem Tracker.notify_nm (σ : String → String) (t : Tracker) (f : Fact) :
    t.notify (f.nm σ) = ((t.notify f).1, (t.notify f).2.map (Env.nm σ)) := by
  cases f <;> try rfl
  simp only [Fact.nm, Tracker.notify]
  split <;> rfl

theorem MatchPred.messageProduced_nm (σ : String → String) (p : MatchPred) (e : Env) :
    p.messageProduced (e.nm σ) = p.messageProduced e := rfl

mutual
theorem Pred.notify_nm {σ : String → String} (s : PScope) (f : Fact) :
    {p p' : Pred} → Pred.Nm σ p p' → Pred.Nm σ (p.notify s f) (p'.notify s (f.nm σ))
  | _, _, .message p => by
    have h : ({ p with bestMatch := p.bestMatch.map (Env.nm σ) } : MsgPred).notify s (f.nm σ) =
        { p.notify s f with bestMatch := (p.notify s f).bestMatch.map (Env.nm σ) } := by
      unfold MsgPred.notify
      simp only [Tracker.notify_nm]
      split
      · rfl
      · rcases p.tracker.notify f with ⟨t, _ | e⟩
        · rfl
        · simp only [Option.map_some, show (e.nm σ).msg = e.msg from rfl]
          split <;> rfl
    unfold Pred.notify
    rw [h]
    exact .message _
  | _, _, .type p => by
    have h : p.notify s (f.nm σ) = p.notify s f := by
      unfold TypePred.notify
      simp only [Tracker.notify_nm]
      split
      · rfl
      · rcases p.tracker.notify f with ⟨t, _ | e⟩ <;> rfl
    unfold Pred.notify
    rw [h]
    exact .type _
  | _, _, .matching p => by
    have h : p.notify s (f.nm σ) = p.notify s f := by
      unfold MatchPred.notify
      simp only [Tracker.notify_nm]
      split
      · rfl
      · rcases p.tracker.notify f with ⟨t, _ | e⟩ <;> rfl
    unfold Pred.notify
    rw [h]
    exact .matching _
  | _, _, .composite k n h => by unfold Pred.notify; exact .composite k n (Pred.notifyAll_nm s f h)
  | _, _, .not h => by unfold Pred.notify; exact .not (Pred.notify_nm s f h)
  | _, _, .repeatedly c h => by unfold Pred.notify; exact .repeatedly c (Pred.notifyAll_nm s f h)
  | _, _, .satisfy p h => by
    unfold Pred.notify
    have := Pred.Nm.satisfy (σ := σ) { p with facts := p.facts ++ [f] } h
    simpa using this
  | _, _, .custom p fs h => by
    unfold Pred.notify
    have := Pred.Nm.custom (σ := σ) p (fs ++ [f]) h
    simpa using this
theorem Pred.notifyAll_nm {σ : String → String} (s : PScope) (f : Fact) :
    {ps ps' : List Pred} → Pred.AllNm σ ps ps' →
    Pred.AllNm σ (Pred.notifyAll s f ps) (Pred.notifyAll s (f.nm σ) ps')
  | _, _, .nil => by unfold Pred.notifyAll; exact .nil
  | _, _, .cons h hs => by
    unfold Pred.notifyAll; exact .cons (Pred.notify_nm s f h) (Pred.notifyAll_nm s f hs)
end

mutual
theorem Pred.ok_nm {σ : String → String} : {p p' : Pred} → Pred.Nm σ p p' → p'.ok = p.ok
  | _, _, .message p => by unfold Pred.ok; rfl
  | _, _, .type p => rfl
  | _, _, .matching p => rfl
  | _, _, .composite k n h => by unfold Pred.ok; rw [Pred.countOk_nm h]
  | _, _, .not h => by unfold Pred.ok; rw [Pred.ok_nm h]
  | _, _, .repeatedly c h => by unfold Pred.ok; rw [Pred.allOk_nm h]
  | _, _, .satisfy p h => by unfold Pred.ok; rfl
  | _, _, .custom p fs h => by unfold Pred.ok; exact h.ok fs
theorem Pred.countOk_nm {σ : String → String} : {ps ps' : List Pred} → Pred.AllNm σ ps ps' →
    Pred.countOk ps' = Pred.countOk ps
  | _, _, .nil => rfl
  | _, _, .cons h hs => by unfold Pred.countOk; rw [Pred.ok_nm h, Pred.countOk_nm hs]
theorem Pred.allOk_nm {σ : String → String} : {ps ps' : List Pred} → Pred.AllNm σ ps ps' →
    Pred.allOk ps' = Pred.allOk ps
  | _, _, .nil => rfl
  | _, _, .cons h hs => by unfold Pred.allOk; rw [Pred.ok_nm h, Pred.allOk_nm hs]
end

theorem Pred.AllNm.length {σ : String → String} : {ps ps' : List Pred} → Pred.AllNm σ ps ps' →
    ps'.length = ps.length
  | _, _, .nil => rfl
  | _, _, .cons _ hs => by simp only [List.length_cons, Pred.AllNm.length hs]

theorem MsgPred.report_nm (σ : String → String) (c : RCtx) (p : MsgPred) :
    ({ p with bestMatch := p.bestMatch.map (Env.nm σ) } : MsgPred).report c = p.report c := by
  unfold MsgPred.report
  simp only
  split
  · rfl
  · cases p.bestMatch with
    | none => rfl
    | some e =>
      simp only [Option.map_some, show (e.nm σ).msg = e.msg from rfl,
        show (e.nm σ).origin = e.origin.map fun o => { o with instanceID := σ o.instanceID } from rfl]
      cases e.origin <;> rfl

mutual
theorem Pred.report_nm {σ : String → String} : {p p' : Pred} → Pred.Nm σ p p' → ∀ c : RCtx,
    p'.report c = p.report c
  | _, _, .message p, c => by unfold Pred.report; exact MsgPred.report_nm σ c p
  | _, _, .type p, c => rfl
  | _, _, .matching p, c => rfl
  | _, _, .composite k n h, c => by
    unfold Pred.report
    simp only [Pred.countOk_nm h, Pred.reportAll_nm h]
  | _, _, .not h, c => by unfold Pred.report; rw [Pred.ok_nm h, Pred.report_nm h]
  | _, _, .repeatedly x h, c => by unfold Pred.report; rw [Pred.reportAll_nm h, h.length]
  | _, _, .satisfy p h, c => by unfold Pred.report; rfl
  | _, _, .custom p fs h, c => by unfold Pred.report; exact h.report c fs
theorem Pred.reportAll_nm {σ : String → String} : {ps ps' : List Pred} → Pred.AllNm σ ps ps' →
    ∀ c : RCtx, Pred.reportAll c ps' = Pred.reportAll c ps
  | _, _, .nil, c => rfl
  | _, _, .cons h hs, c => by
    unfold Pred.reportAll; rw [Pred.ok_nm h, Pred.report_nm h, Pred.reportAll_nm hs]
end

mutual
theorem Pred.done_nm {σ : String → String} : {p p' : Pred} → Pred.Nm σ p p' →
    Pred.Nm σ p.done.1 p'.done.1 ∧ p'.done.2 = p.done.2
  | _, _, .message p => by unfold Pred.done; exact ⟨.message p, rfl⟩
  | _, _, .type p => by unfold Pred.done; exact ⟨.type p, rfl⟩
  | _, _, .matching p => by unfold Pred.done; exact ⟨.matching _, rfl⟩
  | _, _, @Pred.Nm.composite _ k n ps ps' h => by
    unfold Pred.done
    have := Pred.doneAll_nm h
    rcases hx : Pred.doneAll ps with ⟨qs, o⟩
    rcases hy : Pred.doneAll ps' with ⟨qs', o'⟩
    rw [hx, hy] at this
    exact ⟨.composite k n this.1, this.2⟩
  | _, _, @Pred.Nm.not _ p p' h => by
    unfold Pred.done
    have := Pred.done_nm h
    rcases hx : p.done with ⟨q, o⟩
    rcases hy : p'.done with ⟨q', o'⟩
    rw [hx, hy] at this
    exact ⟨.not this.1, this.2⟩
  | _, _, @Pred.Nm.repeatedly _ c ps ps' h => by
    unfold Pred.done
    have := Pred.doneAll_nm h
    rcases hx : Pred.doneAll ps with ⟨qs, o⟩
    rcases hy : Pred.doneAll ps' with ⟨qs', o'⟩
    rw [hx, hy] at this
    exact ⟨.repeatedly c this.1, this.2⟩
  | _, _, .satisfy p h => by
    unfold Pred.done
    simp only [h]
    rcases satDone (p.fn p.facts) p.t with ⟨t, o⟩
    exact ⟨.satisfy { p with t := t } h, trivial⟩
  | _, _, .custom p fs h => by unfold Pred.done; exact ⟨.custom p fs h, h.crash fs⟩
theorem Pred.doneAll_nm {σ : String → String} : {ps ps' : List Pred} → Pred.AllNm σ ps ps' →
    Pred.AllNm σ (Pred.doneAll ps).1 (Pred.doneAll ps').1 ∧ (Pred.doneAll ps').2 = (Pred.doneAll ps).2
  | _, _, .nil => by unfold Pred.doneAll; exact ⟨.nil, rfl⟩
  | _, _, @Pred.AllNm.cons _ p p' ps ps' h hs => by
    unfold Pred.doneAll
    have h1 := Pred.done_nm h
    have h2 := Pred.doneAll_nm hs
    rcases hx : p.done with ⟨q, o⟩
    rcases hy : p'.done with ⟨q', o'⟩
    rw [hx, hy] at h1
    obtain ⟨h1, h3⟩ := h1
    simp only at h1 h3
    subst h3
    cases o' with
    | some x => exact ⟨.cons h1 hs, rfl⟩
    | none =>
      rcases hx : Pred.doneAll ps with ⟨qs, o⟩
      rcases hy : Pred.doneAll ps' with ⟨qs', o'⟩
      rw [hx, hy] at h2
      exact ⟨.cons h1 h2.1, h2.2⟩
end

theorem repeatLoop_nm {σ : String → String} (d : String)
    (b : Nat → List (String × Nat) × Except BuildErr Pred)
    (hb : ∀ i p, (b i).2 = .ok p → Pred.Nm σ p p) : ∀ (n i : Nat) (ps : List Pred),
    (repeatLoop d b n i).2 = .ok ps → Pred.AllNm σ ps ps
  | 0, i, ps, h => by
    unfold repeatLoop at h
    cases h
    exact .nil
  | n + 1, i, ps, h => by
    unfold repeatLoop at h
    have h1 := hb i
    rcases hx : b i with ⟨l, e | p⟩
    · simp only [hx] at h
      cases h
    · have h2 := repeatLoop_nm d b hb n (i + 1)
      rcases hy : repeatLoop d b n (i + 1) with ⟨l', e | qs⟩
      · simp only [hx, hy] at h
        cases h
      · simp only [hx, hy] at h
        cases h
        rw [hx] at h1
        rw [hy] at h2
        exact .cons (h1 p rfl) (h2 qs rfl)

theorem buildAll_nm {σ : String → String} (s : PScope) : ∀ (es : List Expectation),
    (∀ e ∈ es, ∀ p, (e.build s).2 = .ok p → Pred.Nm σ p p) → ∀ ps,
    (Expectation.buildAll s es).2 = .ok ps → Pred.AllNm σ ps ps
  | [], _, ps, h => by
    unfold Expectation.buildAll at h
    cases h
    exact .nil
  | e :: es, he, ps, h => by
    unfold Expectation.buildAll at h
    have h1 := he e (by simp)
    have h2 := buildAll_nm s es fun x hx => he x (by simp [hx])
    rcases hx : e.build s with ⟨l, x | p⟩
    · simp only [hx] at h
      cases h
    · rcases hy : Expectation.buildAll s es with ⟨l', x | qs⟩
      · simp only [hx, hy] at h
        cases h
      · simp only [hx, hy] at h
        cases h
        rw [hx] at h1
        rw [hy] at h2
        exact .cons (h1 p rfl) (h2 qs rfl)

theorem Expectation.Nameless.built {σ : String → String} (s : PScope) {x : Expectation} (hx : x.Nameless σ) :
    ∀ p, (x.build s).2 = .ok p → Pred.Nm σ p p := by
  induction hx with
  | message m =>
    intro p h
    unfold Expectation.build at h
    cases hg : guardImpossible s m.type with
    | error e => simp only [hg] at h; cases h
    | ok _ => simp only [hg] at h; cases h; exact .message _
  | type t =>
    intro p h
    unfold Expectation.build at h
    cases hg : guardImpossible s t with
    | error e => simp only [hg] at h; cases h
    | ok _ => simp only [hg] at h; cases h; exact .type _
  | matching T fn loc ex =>
    intro p h
    unfold Expectation.build at h
    cases hi : T.iface with
    | some x => simp only [hi] at h; cases h; exact .matching _
    | none =>
      cases hg : guardImpossible s T.type with
      | error e => simp only [hi, hg] at h; cases h
      | ok _ => simp only [hi, hg] at h; cases h; exact .matching _
  | composite k es _ ih =>
    intro p h
    unfold Expectation.build at h
    have h1 := buildAll_nm (σ := σ) s es ih
    rcases hx : Expectation.buildAll s es with ⟨l, x | ps⟩
    · simp only [hx] at h; cases h
    · simp only [hx] at h
      cases h
      rw [hx] at h1
      exact .composite _ _ (h1 ps rfl)
  | not e _ ih =>
    intro p h
    unfold Expectation.build at h
    rcases hx : e.build s with ⟨l, x | q⟩
    · simp only [hx] at h; cases h
    · simp only [hx] at h
      cases h
      rw [hx] at ih
      exact .not (ih q rfl)
  | repeatedly d n fn _ ih =>
    intro p h
    unfold Expectation.build at h
    have h1 := repeatLoop_nm (σ := σ) d
      (fun i => if (fn i).isNil then ([], .error .nilExpectation) else (fn i).build s) (by
        intro i q hq
        split at hq
        · cases hq
        · exact ih i q hq) n 0
    rcases hx : repeatLoop d
      (fun i => if (fn i).isNil then ([], .error .nilExpectation) else (fn i).build s) n 0 with ⟨l, x | ps⟩
    · simp only [hx] at h; cases h
    · simp only [hx] at h
      cases h
      rw [hx] at h1
      exact .repeatedly _ (h1 ps rfl)
  | satisfy d fn hf =>
    intro p h
    unfold Expectation.build at h
    cases h
    exact .satisfy _ hf
  | custom c mk hm =>
    intro p h
    unfold Expectation.build at h
    rcases hx : mk s with e | q
    · simp only [hx] at h; cases h
    · simp only [hx] at h
      cases h
      exact .custom q [] (hm s q hx)
  | nil =>
    intro p h
    unfold Expectation.build at h
    cases h

/-- **C126.** The expectations of this module do not look at names of instances, unless functions of
users do. -/
theorem C126_nameless {σ : String → String} (c : RCtx) {x : Expectation} (hx : x.Nameless σ) :
    (x.impl c).Nameless σ (Pred.Nm σ) where
  build s p h := by
    simp only [Expectation.impl] at h
    have := hx.built s
    rcases hb : (x.build s).2 with e | q
    · rw [hb] at h
      cases e <;> simp at h
    · rw [hb] at h
      cases h
      exact this p hb
  notify s f p p' h := Pred.notify_nm s f h
  done p p' h := by
    have := Pred.done_nm h
    simp only [Expectation.impl]
    exact ⟨this.1, by rw [this.2]⟩
  ok p p' h := by simp only [Expectation.impl, Pred.ok_nm h]
  report b p p' h := by simp only [Expectation.impl, Pred.report_nm h]

/-! ## Tests -/

theorem TSt.Nm.w {t : TSt W R} {t' : TSt W' R'} (ht : TSt.Nm v t t') : t'.sys.w = v.world t.sys.w := by
  rw [ht.sys]; rfl

theorem TSt.Nm.world {t : TSt W R} {t' : TSt W' R'} (ht : TSt.Nm v t t') (w : W) :
    TSt.Nm v { t with sys := { t.sys with w := w } } { t' with sys := { t'.sys with w := v.world w } } :=
  ⟨by simp only [ht.sys]; rfl, ht.clock, ht.opts, ht.bound, ht.icept, ht.did⟩

theorem TSt.Nm.say {t : TSt W R} {t' : TSt W' R'} (ht : TSt.Nm v t t') (o : TObs)
    (ho : o.nm v.inst = o := by rfl) : TSt.Nm v (t.say o) (t'.say o) :=
  ⟨ht.sys, ht.clock, ht.opts, ht.bound, ht.icept, by
    simp only [TSt.say, ht.did, List.map_append, List.map_cons, List.map_nil, ho]⟩

theorem TSt.Nm.actOpts {t : TSt W R} {t' : TSt W' R'} (ht : TSt.Nm v t t') (extra : List OpOption) :
    t'.actOpts extra = t.actOpts extra := by
  unfold TSt.actOpts
  rw [ht.clock, ht.opts]

theorem TSt.Nm.engine (al : A.Relabels A' v) {t : TSt W R} {t' : TSt W' R'} (ht : TSt.Nm v t t')
    (op : Op) : TSt.Nm v (t.engine A op).1 (t'.engine A' op).1 ∧
      (t'.engine A' op).2 = (t.engine A op).2 := by
  unfold TSt.engine
  rw [ht.sys, exec_nm al]
  refine ⟨⟨rfl, ht.clock, ht.opts, ht.bound, ht.icept, ?_⟩, rfl⟩
  simp only [ht.did, ht.clock, during_nm, factsOf_nm, List.map_append, List.map_cons, List.map_nil, TObs.nm]

theorem IProg.run_nm (al : A.Relabels A' v) {E : TEnv W} {E' : TEnv W'} (hE : TEnv.Alt v.world E E')
    (os : List OpOption) {p : IProg W} {p' : IProg W'} (hp : IProg.Alt v.world p p') :
    ∀ (t : TSt W R) (t' : TSt W' R'), TSt.Nm v t t' →
    TSt.Nm v (p.run A E os t).1 (p'.run A' E' os t').1 ∧
    (p'.run A' E' os t').2 = (p.run A E os t).2 := by
  induction hp with
  | ret e => intro t t' ht; exact ⟨ht, rfl⟩
  | panic pv => intro t t' ht; exact ⟨ht, rfl⟩
  | get h ih =>
    intro t t' ht
    unfold IProg.run
    rw [ht.w]
    exact ih _ t t' ht
  | set w h ih =>
    intro t t' ht
    unfold IProg.run
    exact ih _ _ (ht.world w)
  | @next m k k' h ih =>
    intro t t' ht
    unfold IProg.run
    obtain ⟨h1, h2⟩ := ht.engine al (.dispatch E.fuel m os)
    rw [hE.fuel]
    rcases hx : t.engine A (.dispatch E.fuel m os) with ⟨t1, o⟩
    rcases hy : t'.engine A' (.dispatch E.fuel m os) with ⟨t1', o'⟩
    rw [hx, hy] at h1 h2
    simp only at h2
    subst h2
    cases o' with
    | done e => exact ih _ t1 t1' h1
    | panicked pv => exact ih _ t1 t1' h1
    | running => exact ⟨h1, rfl⟩

theorem TSt.execute_nm (al : A.Relabels A' v) {E : TEnv W} {E' : TEnv W'} (hE : TEnv.Alt v.world E E')
    {t : TSt W R} {t' : TSt W' R'} (ht : TSt.Nm v t t') (m : Message) :
    TSt.Nm v (t.execute A E m).1 (t'.execute A' E' m).1 ∧
    (t'.execute A' E' m).2 = (t.execute A E m).2 := by
  unfold TSt.execute
  have h0 : TSt.Nm v { t with did := t.did ++ [TObs.exec m t.bound.isSome] }
      { t' with did := t'.did ++ [TObs.exec m t'.bound.isSome] } :=
    ⟨ht.sys, ht.clock, ht.opts, ht.bound, ht.icept, by
      simp only [ht.did, ht.bound, List.map_append, List.map_cons, List.map_nil, TObs.nm]⟩
  have hb' := ht.bound
  have hi' := ht.icept
  simp only
  generalize hu : ({ t with did := t.did ++ [TObs.exec m t.bound.isSome] } : TSt W R) = u at h0 ⊢
  generalize hu' : ({ t' with did := t'.did ++ [TObs.exec m t'.bound.isSome] } : TSt W' R') = u' at h0 ⊢
  rw [hb', hE.fuel]
  cases hb : t.bound with
  | none => exact ⟨h0, rfl⟩
  | some os =>
    simp only
    revert hi'
    generalize t.icept = ic
    generalize t'.icept = ic'
    intro hi'
    cases hi' with
    | none => exact h0.engine al _
    | some h => exact IProg.run_nm al hE os (h m) _ _ h0

theorem TSt.check_nm {E : TEnv W} {E' : TEnv W'} (hE : TEnv.Alt v.world E E')
    {x : TSt W R × Outcome (Option TErr)} {x' : TSt W' R' × Outcome (Option TErr)}
    (h1 : TSt.Nm v x.1 x'.1) (h2 : x'.2 = x.2) :
    TSt.Nm v (TSt.check E x).1 (TSt.check E' x').1 ∧ (TSt.check E' x').2 = (TSt.check E x).2 := by
  obtain ⟨t, o⟩ := x
  obtain ⟨t', o'⟩ := x'
  simp only at h1 h2
  subst h2
  rcases o' with (_ | e) | pv | _
  · exact ⟨h1, rfl⟩
  · refine ⟨h1.say _, ?_⟩
    unfold TSt.check
    simp only [hE.fatal]
  · exact ⟨h1, rfl⟩
  · exact ⟨h1, rfl⟩

theorem TSt.Nm.leave {t : TSt W R} {t' : TSt W' R'} (ht : TSt.Nm v t t')
    {prev : Option (Message → IProg W)} {prev' : Option (Message → IProg W')} (hp : IcAlt v.world prev prev')
    (had : Bool) : TSt.Nm v (t.leave prev had) (t'.leave prev' had) := by
  refine ⟨ht.sys, ht.clock, ht.opts, rfl, ?_, ht.did⟩
  simp only [TSt.leave]
  cases had with
  | true => exact hp
  | false => exact ht.icept

theorem uses_nm (al : A.Relabels A' v) (mt : MType) : A'.uses mt = A.uses mt := by
  unfold App.uses
  rw [al.cfgs]

mutual
theorem Action.run_nm (al : A.Relabels A' v) {E : TEnv W} {E' : TEnv W'} (hE : TEnv.Alt v.world E E') :
    {a : Action W} → {a' : Action W'} → Action.Alt v.world a a' → ∀ (extra : List OpOption) (t : TSt W R)
    (t' : TSt W' R'), TSt.Nm v t t' →
    TSt.Nm v (a.run A E extra t).1 (a'.run A' E' extra t').1 ∧
    (a'.run A' E' extra t').2 = (a.run A E extra t).2
  | _, _, .dispatch m, extra, t, t', ht => by
    unfold Action.run
    rw [ht.actOpts, uses_nm al, hE.fuel]
    split
    · exact ht.engine al _
    · exact ⟨ht, rfl⟩
  | _, _, @Action.Alt.advance _ _ _ desc step step' h, extra, t, t', ht => by
    unfold Action.run
    have hs' : step' t'.clock t'.sys.w = (v.world (step t.clock t.sys.w).1, (step t.clock t.sys.w).2) := by
      rw [ht.clock, ht.w]
      exact h _ _
    rw [ht.actOpts, hs', hE.fuel]
    clear hs'
    rcases step t.clock t.sys.w with ⟨w, pv | now⟩
    · exact ⟨ht.world w, rfl⟩
    · simp only
      rw [ht.clock, hE.order]
      split
      · exact ⟨⟨(ht.world w).sys, rfl, ht.opts, ht.bound, ht.icept, ht.did⟩, rfl⟩
      · have h0 : TSt.Nm v { t with sys := { t.sys with w := w }, clock := now }
            { t' with sys := { t'.sys with w := v.world w }, clock := now } :=
          ⟨(ht.world w).sys, rfl, ht.opts, ht.bound, ht.icept, ht.did⟩
        exact h0.engine al _
  | _, _, @Action.Alt.call _ _ _ fn fn' ic ic' hf hi, extra, t, t', ht => by
    unfold Action.run
    have h0 : TSt.Nm v { t with bound := some (t.actOpts extra), icept := ic.or t.icept }
        { t' with bound := some (t'.actOpts extra), icept := ic'.or t'.icept } :=
      ⟨ht.sys, ht.clock, ht.opts, by simp only [ht.actOpts], hi.or ht.icept, ht.did⟩
    obtain ⟨h1, h2⟩ := CProg.run_nm al hE hf _ _ h0
    rcases hy : fn.run A E { t with bound := some (t.actOpts extra), icept := ic.or t.icept } with ⟨u, o⟩
    rcases hy' : fn'.run A' E' { t' with bound := some (t'.actOpts extra), icept := ic'.or t'.icept }
      with ⟨u', o'⟩
    rw [hy, hy'] at h1 h2
    simp only at h1 h2
    simp only [hi.isSome]
    subst h2
    rcases o' with e | pv | _
    · exact ⟨h1.leave ht.icept _, rfl⟩
    · exact ⟨h1.leave ht.icept _, rfl⟩
    · exact ⟨h1, rfl⟩
theorem CProg.run_nm (al : A.Relabels A' v) {E : TEnv W} {E' : TEnv W'} (hE : TEnv.Alt v.world E E') :
    {p : CProg W} → {p' : CProg W'} → CProg.Alt v.world p p' → ∀ (t : TSt W R) (t' : TSt W' R'),
    TSt.Nm v t t' → TSt.Nm v (p.run A E t).1 (p'.run A' E' t').1 ∧
      (p'.run A' E' t').2 = (p.run A E t).2
  | _, _, .ret, t, t', ht => by unfold CProg.run; exact ⟨ht, rfl⟩
  | _, _, .panic pv, t, t', ht => by unfold CProg.run; exact ⟨ht, rfl⟩
  | _, _, .get h, t, t', ht => by
    unfold CProg.run
    rw [ht.w]
    exact CProg.run_nm al hE (h _) t t' ht
  | _, _, .set w h, t, t', ht => by
    unfold CProg.run
    exact CProg.run_nm al hE h _ _ (ht.world w)
  | _, _, @CProg.Alt.exec _ _ _ m k k' h, t, t', ht => by
    unfold CProg.run
    obtain ⟨h1, h2⟩ := TSt.execute_nm al hE ht m
    rcases hy : t.execute A E m with ⟨u, o⟩
    rcases hy' : t'.execute A' E' m with ⟨u', o'⟩
    rw [hy, hy'] at h1 h2
    simp only at h1 h2
    subst h2
    rcases o' with e | pv | _
    · exact CProg.run_nm al hE (h _) u u' h1
    · exact CProg.run_nm al hE (h _) u u' h1
    · exact ⟨h1, rfl⟩
  | _, _, @CProg.Alt.act _ _ _ a a' k k' ha h, t, t', ht => by
    unfold CProg.run
    have hn : TSt.Nm v (t.announce a) (t'.announce a') := by
      unfold TSt.announce Action.prepareLine
      rw [ha.caption]
      exact ht.say _
    obtain ⟨h0, h00⟩ := Action.run_nm al hE ha [] _ _ hn
    obtain ⟨h1, h2⟩ := TSt.check_nm hE h0 h00
    rcases hy : TSt.check E (a.run A E [] (t.announce a)) with ⟨u, o⟩
    rcases hy' : TSt.check E' (a'.run A' E' [] (t'.announce a')) with ⟨u', o'⟩
    rw [hy, hy'] at h1 h2
    simp only at h1 h2
    subst h2
    rcases o' with e | pv | _
    · exact CProg.run_nm al hE (h _) u u' h1
    · exact CProg.run_nm al hE (h _) u u' h1
    · exact ⟨h1, rfl⟩
end

/-- **C126** for `Prepare()`. -/
theorem C126_prepare (al : A.Relabels A' v) {E : TEnv W} {E' : TEnv W'} (hE : TEnv.Alt v.world E E')
    {t : TSt W R} {t' : TSt W' R'} (ht : TSt.Nm v t t') {a : Action W} {a' : Action W'}
    (ha : Action.Alt v.world a a') :
    TSt.Nm v (t.prepare A E a).1 (t'.prepare A' E' a').1 ∧
    (t'.prepare A' E' a').2 = (t.prepare A E a).2 := by
  have hn : TSt.Nm v (t.announce a) (t'.announce a') := by
    unfold TSt.announce Action.prepareLine
    rw [ha.caption]
    exact ht.say _
  obtain ⟨h1, h2⟩ := Action.run_nm al hE ha [] _ _ hn
  exact TSt.check_nm hE h1 h2

theorem toldIn_nm (σ : String → String) (k : Nat) (l : List TObs) :
    toldIn k (l.map (TObs.nm σ)) = (toldIn k l).map (Fact.nm σ) := by
  unfold toldIn
  induction l with
  | nil => rfl
  | cons o l ih =>
    simp only [List.map_cons, List.flatMap_cons, List.map_append, ih]
    congr 1
    cases o with
    | engine c op fs =>
      simp only [TObs.nm, TObs.told]
      induction fs with
      | nil => rfl
      | cons x fs ih =>
        simp only [List.map_cons, List.flatMap_cons, List.map_append, ih, List.map_map, Function.comp_def]
    | _ => rfl

theorem Expecting.Nameless.notified {Q : Type} {X : Expecting Q} {σ : String → String} {P : Q → Q → Prop}
    (hX : X.Nameless σ P) (s : PScope) : ∀ (fs : List Fact) (p p' : Q), P p p' →
    P (fs.foldl (fun p f => X.notify s f p) p) ((fs.map (Fact.nm σ)).foldl (fun p f => X.notify s f p) p')
  | [], _, _, h => h
  | f :: fs, _, _, h => hX.notified s fs _ _ (hX.notify s f _ _ h)

/-- **C126** for `Expect()`, with an expectation that does not look at names of instances: its methods
are called with the same arguments in the same order, but for the names, and it passes, fails or panics
the same. -/
theorem C126_expect {Q : Type} (al : A.Relabels A' v) {E : TEnv W} {E' : TEnv W'}
    (hE : TEnv.Alt v.world E E') {t : TSt W R} {t' : TSt W' R'} (ht : TSt.Nm v t t') {a : Action W}
    {a' : Action W'} (ha : Action.Alt v.world a a') (S : PScope) (X : Expecting Q) {P : Q → Q → Prop}
    (hX : X.Nameless v.inst P) (k : Nat) :
    TSt.Nm v (t.expect A E S X k a).1 (t'.expect A' E' S X k a').1 ∧
    (t'.expect A' E' S X k a').2.1 = (t.expect A E S X k a).2.1.map (ECall.nm v.inst) ∧
    (t'.expect A' E' S X k a').2.2 = (t.expect A E S X k a).2.2 := by
  unfold TSt.expect
  rw [ha.scope S]
  cases X.caption with
  | error pv => exact ⟨ht, rfl, rfl⟩
  | ok c =>
    simp only
    have h0 : TSt.Nm v (t.say (.log (a.expectLine c))) (t'.say (.log (a'.expectLine c))) := by
      unfold Action.expectLine
      rw [ha.caption]
      exact ht.say _
    cases hb : X.build (a.scope S) with
    | panic pv => exact ⟨h0, rfl, rfl⟩
    | err msg => exact ⟨h0.say _, rfl, rfl⟩
    | ok p =>
      simp only
      obtain ⟨h1, h2⟩ := Action.run_nm al hE ha [.observer k] _ _ h0
      rw [h0.did, List.length_map]
      generalize (t.say (.log (a.expectLine c))).did.length = n
      rcases hx : a.run A E [.observer k] (t.say (.log (a.expectLine c))) with ⟨u, o⟩
      rcases hx' : a'.run A' E' [.observer k] (t'.say (.log (a'.expectLine c))) with ⟨u', o'⟩
      rw [hx, hx'] at h1 h2
      simp only at h1 h2
      subst h2
      simp only
      rw [h1.did, ← List.map_drop, toldIn_nm]
      generalize toldIn k (u.did.drop n) = fs
      have hs : (fs.map (Fact.nm v.inst)).map ECall.notify =
          (fs.map ECall.notify).map (ECall.nm v.inst) := by
        simp [Function.comp_def, ECall.nm]
      rw [hs]
      have hd := hX.done _ _ (hX.notified (a.scope S) fs p p (hX.build _ _ hb))
      rcases hy : X.done (fs.foldl (fun p f => X.notify (a.scope S) f p) p) with ⟨q, r⟩
      rcases hy' : X.done ((fs.map (Fact.nm v.inst)).foldl (fun p f => X.notify (a.scope S) f p) p)
        with ⟨q', r'⟩
      rw [hy, hy'] at hd
      obtain ⟨hq, hr⟩ := hd
      simp only at hq hr
      subst hr
      rcases r' with _ | v'
      · rcases o' with (_ | e) | pv | _
        · simp only
          unfold TSt.conclude
          rw [hX.ok q q' hq]
          rcases X.ok q with pv | b
          · exact ⟨h1, by simp [ECall.nm], rfl⟩
          · simp only [hX.report b q q' hq]
            rcases X.report b q with pv | r
            · exact ⟨h1, by simp [ECall.nm], rfl⟩
            · simp only
              cases b with
              | true => exact ⟨h1.say _, by simp [ECall.nm], rfl⟩
              | false => exact ⟨(h1.say _).say _, by simp [ECall.nm], rfl⟩
        · exact ⟨h1.say _, by simp [ECall.nm], rfl⟩
        · exact ⟨h1, by simp [ECall.nm], rfl⟩
        · exact ⟨h1, by simp [ECall.nm], rfl⟩
      · rcases o' with e | pv | _
        · exact ⟨h1, by simp [ECall.nm], rfl⟩
        · exact ⟨h1, by simp [ECall.nm], rfl⟩
        · exact ⟨h1, by simp [ECall.nm], rfl⟩

theorem steps_nm (al : A.Relabels A' v) {E : TEnv W} {E' : TEnv W'} (hE : TEnv.Alt v.world E E') (S : PScope)
    (c : RCtx) {l : List (TStep W)} {l' : List (TStep W')} (hl : AllAlt v.world l l')
    (hn : ∀ x ∈ l, x.Nameless v.inst) :
    ∀ (t : TSt W R) (t' : TSt W' R'), TSt.Nm v t t' →
    TSt.Nm v (t.steps A E S c l).1 (t'.steps A' E' S c l').1 ∧
    (t'.steps A' E' S c l').2 = (t.steps A E S c l).2 := by
  induction hl with
  | nil => intro t t' ht; exact ⟨ht, rfl⟩
  | @cons x x' l l' h hl ih =>
    intro t t' ht
    replace ih := ih fun y hy => hn y (List.mem_cons_of_mem _ hy)
    cases h with
    | @prepare a a' h =>
      unfold TSt.steps
      obtain ⟨h1, h2⟩ := C126_prepare al hE ht h
      rcases hy : t.prepare A E a with ⟨u, o⟩
      rcases hy' : t'.prepare A' E' a' with ⟨u', o'⟩
      rw [hy, hy'] at h1 h2
      simp only at h1 h2
      subst h2
      rcases o' with (_ | e) | pv | _
      · obtain ⟨k1, k2⟩ := ih _ _ h1
        exact ⟨k1, by simp only [k2]⟩
      · exact ⟨h1, rfl⟩
      · exact ⟨h1, rfl⟩
      · exact ⟨h1, rfl⟩
    | @expect k x a a' h =>
      unfold TSt.steps
      obtain ⟨h1, h2⟩ := C126_expect al hE ht h S (x.impl c) (C126_nameless c (hn _ List.mem_cons_self)) k
      rcases hy : t.expect A E S (x.impl c) k a with ⟨u, cs, o⟩
      rcases hy' : t'.expect A' E' S (x.impl c) k a' with ⟨u', cs', o'⟩
      rw [hy, hy'] at h1 h2
      simp only at h1 h2
      obtain ⟨-, h2⟩ := h2
      subst h2
      rcases o' with _ | _ | pv | _
      · obtain ⟨k1, k2⟩ := ih _ _ h1
        exact ⟨k1, by simp only [k2]⟩
      · exact ⟨h1, rfl⟩
      · exact ⟨h1, rfl⟩
      · exact ⟨h1, rfl⟩

/-- **C126** for whole tests: the statements end the same, and what the test does and says is the same
but for the names in facts. -/
theorem C126_test (al : A.Relabels A' v) {E : TEnv W} {E' : TEnv W'} (hE : TEnv.Alt v.world E E') (S : PScope)
    (c : RCtx) {l : List (TStep W)} {l' : List (TStep W')} (hl : AllAlt v.world l l')
    (hn : ∀ x ∈ l, x.Nameless v.inst) (w : W) (start : Time)
    (os : List OpOption) {ic : Option (Message → IProg W)} {ic' : Option (Message → IProg W')}
    (hi : IcAlt v.world ic ic') :
    ((TSt.begin (v.world w) start os ic' : TSt W' R').steps A' E' S c l').2 =
      ((TSt.begin w start os ic : TSt W R).steps A E S c l).2 ∧
    ((TSt.begin (v.world w) start os ic' : TSt W' R').steps A' E' S c l').1.did =
      ((TSt.begin w start os ic : TSt W R).steps A E S c l).1.did.map (TObs.nm v.inst) := by
  have h0 : TSt.Nm v (TSt.begin w start os ic : TSt W R) (TSt.begin (v.world w) start os ic') :=
    ⟨rfl, rfl, rfl, rfl, hi, rfl⟩
  obtain ⟨h1, h2⟩ := steps_nm al hE S c hl hn _ _ h0
  exact ⟨h2, h1.did⟩

end

/-! ## Examples -/

theorem Demo.isort_nm (σ : String → String) (l : List Env) :
    Demo.isort (l.map (Env.nm σ)) = (Demo.isort l).map (Env.nm σ) := by
  have hi : ∀ (e : Env) (l : List Env),
      Demo.insert (e.nm σ) (l.map (Env.nm σ)) = (Demo.insert e l).map (Env.nm σ) := by
    intro e l
    induction l with
    | nil => rfl
    | cons x l ih =>
      simp only [List.map_cons]
      unfold Demo.insert
      rw [show (e.nm σ).scheduledFor = e.scheduledFor from rfl,
        show (x.nm σ).scheduledFor = x.scheduledFor from rfl, ih]
      split <;> rfl
  induction l with
  | nil => rfl
  | cons x l ih =>
    simp only [List.map_cons, Demo.isort, ih, hi]

/-- An application that routes messages by what is in them and calls the instances `inst` of that.
The aggregate `a` is destroyed by its second command, others are not.  The process `a` ends at its
second event, others schedule a timeout for every event. -/
def Demo.calling (inst orig : String → String) : App Unit Nat where
  cfgs := Demo.app.cfgs
  compactDuringHandling := false
  sort := Demo.sortImpl
  uc := {
    aggRoute := fun _ m w => (w, .ok (inst m.body))
    aggNew := fun _ w => (w, .ok (some 0))
    aggApply := fun _ r _ w => (w, r + 1, none)
    aggHandle := fun _ id r m =>
      if orig id = "a" ∧ r = 1 then .do_ (.record ⟨Demo.evtE, m.body, none⟩) (.do_ .destroy (.ret ()))
      else .do_ (.record ⟨Demo.evtE, m.body, none⟩) (.ret ())
    procRoute := fun _ m w => (w, .ok (.ok (if m.body = "c" then none else some (inst m.body))))
    procNew := fun _ w => (w, .ok (some 0))
    procHandle := fun _ id r m _ =>
      if orig id = "a" ∧ r = 1 then .do_ .end_ (.ret none)
      else if m.type = Demo.tmoT then .do_ (.execute ⟨Demo.cmdD, m.body, none⟩) (.ret none)
      else .do_ (.setRoot (r + 1)) (.do_ (.schedule ⟨Demo.tmoT, m.body, none⟩ 5) (.ret none))
    intHandle := fun _ m => .do_ (.record ⟨Demo.evtF, m.body, none⟩) (.ret none)
    prjVersion := fun _ _ w => (w, .ok (.ok []))
    prjHandle := fun _ _ _ _ m _ => .do_ (.log m.body) (.ret (.ok true))
    prjClose := fun _ _ w => (w, .ok none)
    prjCompact := fun _ _ => .ret none
    schedule := fun _ => []
    resetters := []
    ctxErr := fun _ => none
    lockErr := fun _ => none
    wallClock := fun _ => 0 }

theorem Demo.calling_relabels (v : Naming Unit Nat Unit Nat) (hr : v.root = id) (hw : v.world = id) :
    (Demo.calling id id).Relabels (Demo.calling v.inst v.orig) v where
  cfgs := rfl
  compact := rfl
  sort := Demo.isort_nm v.inst
  aggRoute _ _ _ := by simp only [hw]; rfl
  aggNew _ _ := by simp only [hr, hw]; rfl
  aggApply _ _ _ _ := by simp only [hr, hw]; rfl
  aggHandle _ i r m := by
    simp only [Demo.calling, hr, hw, v.orig_inst, id]
    split
    · exact .do_ (AggOp.record _) (.do_ AggOp.destroy (.ret ()) rfl) rfl
    · exact .do_ (AggOp.record _) (.ret ()) rfl
  procRoute _ m _ := by
    simp only [Demo.calling, hw, id, Except.map]
    split <;> rfl
  procNew _ _ := by simp only [hr, hw]; rfl
  procHandle _ i r m _ := by
    simp only [Demo.calling, hr, hw, v.orig_inst, id]
    split
    · exact .do_ ProcOp.end_ (.ret none) rfl
    split
    · exact .do_ (ProcOp.execute _) (.ret none) rfl
    · exact .do_ (ProcOp.setRoot (r + 1)) (.do_ (ProcOp.schedule _ _) (.ret none) rfl) rfl
  intHandle _ m := .do_ (IntOp.record _) (.ret none) rfl
  prjVersion _ _ _ := by simp only [hw]; rfl
  prjHandle _ _ _ _ _ _ := .do_ (PrjOp.log _) (.ret (Except.ok true)) rfl
  prjClose _ _ _ := by simp only [hw]; rfl
  prjCompact _ _ := .ret none
  schedule _ := rfl
  resetters := trivial
  ctxErr _ := rfl
  lockErr _ := rfl
  wallClock _ := rfl

/-- Call `a` `b`, and `b` `a`. -/
def Demo.crossed (i : String) : String := if i = "a" then "b" else if i = "b" then "a" else i

theorem Demo.crossed_crossed (i : String) : Demo.crossed (Demo.crossed i) = i := by
  unfold Demo.crossed
  by_cases ha : i = "a"
  · subst ha; rfl
  · by_cases hb : i = "b"
    · subst hb; rfl
    · simp only [if_neg ha, if_neg hb]

/-- Exchange two names. -/
def Demo.crossing : Naming Unit Nat Unit Nat where
  root := id
  world := id
  inst := Demo.crossed
  orig := Demo.crossed
  orig_inst := Demo.crossed_crossed
  inst_orig := Demo.crossed_crossed
  empty := rfl

/-- `C126_history` applies. -/
example (es : List (Event Unit)) :
    behaviour (Demo.calling Demo.crossed Demo.crossed) (es.map (Event.alt id)) (Sys.init ()) =
      (behaviour (Demo.calling id id) es (Sys.init ())).map
        fun x => (x.1.map (Obs.nm Demo.crossing), x.2.1, x.2.2) :=
  C126_history (v := Demo.crossing) (Demo.calling_relabels Demo.crossing rfl rfl) es (Sys.init ())

/-- Commands for two instances, and time passes. -/
def Demo.callingOps : List Op :=
  [.dispatch 20 (Demo.msgC "a") [], .dispatch 20 (Demo.msgC "b") [], .dispatch 20 (Demo.msgC "a") [],
   .tick 20 Demo.app.cfgs [.currentTime 9, .enableType .integration true]]

/-- Facts of a history, reduced to a few words and the name of the instance. -/
def Demo.whose : Fact → Option (String × String)
  | .aggCreated _ i _ => some ("created", i)
  | .aggDestroyed _ i _ => some ("destroyed", i)
  | .aggLoaded _ i _ => some ("loaded", i)
  | .procBegun _ i _ => some ("begun", i)
  | .procEnded _ i _ => some ("ended", i)
  | .procTimeout _ i _ _ => some ("scheduled", i)
  | .intEvent _ e _ => e.origin.map fun o => ("executed", o.instanceID)
  | _ => none

set_option maxRecDepth 100000 in
/-- What happens does depend on the instance. -/
example : (behaviour (Demo.calling id id) (Demo.opsOnly Demo.callingOps) (Sys.init ())).map
      (fun x => (factsOf x.1).filterMap Demo.whose) =
    [[("created", "a"), ("begun", "a"), ("scheduled", "a")],
     [("created", "b"), ("begun", "b"), ("scheduled", "b")],
     [("loaded", "a"), ("destroyed", "a"), ("ended", "a")],
     [("executed", "b")]] ∧
    (behaviour (Demo.calling Demo.crossed Demo.crossed) (Demo.opsOnly Demo.callingOps) (Sys.init ())).map
      (fun x => (factsOf x.1).filterMap Demo.whose) =
    [[("created", "b"), ("begun", "b"), ("scheduled", "b")],
     [("created", "a"), ("begun", "a"), ("scheduled", "a")],
     [("loaded", "b"), ("destroyed", "b"), ("ended", "b")],
     [("executed", "a")]] := by decide +kernel

/-- A test of the application.  One of its expectations is met if there were facts. -/
def Demo.callingSteps : List (TStep Unit) :=
  [.prepare (.dispatch (Demo.msgC "b")),
   .expect 7 (.composite .allOf [.message ⟨Demo.evtE, "a", none⟩, .not (.type Demo.evtF)])
     (.dispatch (Demo.msgC "a")),
   .expect 8 (.satisfy "have facts" fun fs => if fs.isEmpty then .panic (.user "none") else .ret)
     (.dispatch (Demo.msgC "b")),
   .expect 9 (.message ⟨Demo.evtE, "b", none⟩) (.dispatch (Demo.msgC "a"))]

theorem Demo.callingSteps_nameless (σ : String → String) : ∀ x ∈ Demo.callingSteps, x.Nameless σ := by
  intro x hx
  simp only [Demo.callingSteps, List.mem_cons, List.not_mem_nil, or_false] at hx
  rcases hx with rfl | rfl | rfl | rfl
  · trivial
  · refine .composite _ _ ?_
    intro e he
    simp only [List.mem_cons, List.not_mem_nil, or_false] at he
    rcases he with rfl | rfl
    · exact .message _
    · exact .not _ (.type _)
  · exact .satisfy _ _ fun fs => by simp
  · exact .message _

theorem Demo.callingSteps_alt : AllAlt id Demo.callingSteps Demo.callingSteps :=
  .cons (.prepare (.dispatch _)) (.cons (.expect _ _ (.dispatch _)) (.cons (.expect _ _ (.dispatch _))
    (.cons (.expect _ _ (.dispatch _)) .nil)))

/-- `C126_test` applies. -/
example (S : PScope) (c : RCtx) (os : List OpOption) :
    ((TSt.begin () 0 os none : TSt Unit Nat).steps (Demo.calling Demo.crossed Demo.crossed)
      (Demo.storingEnv Unit) S c Demo.callingSteps).2 =
    ((TSt.begin () 0 os none : TSt Unit Nat).steps (Demo.calling id id)
      (Demo.storingEnv Unit) S c Demo.callingSteps).2 :=
  (C126_test (v := Demo.crossing) (Demo.calling_relabels Demo.crossing rfl rfl) (E := Demo.storingEnv _)
    (E' := Demo.storingEnv _) ⟨rfl, fun _ => rfl, rfl⟩ S c Demo.callingSteps_alt
    (Demo.callingSteps_nameless _) () 0 os .none).1

set_option maxRecDepth 100000 in
/-- How the statements of the test end. -/
example : ((TSt.begin () 0 [] none : TSt Unit Nat).steps (Demo.calling Demo.crossed Demo.crossed)
    (Demo.storingEnv Unit) (Demo.scope false) Demo.ctx Demo.callingSteps).2.map TStep.endCode =
    [0, 0, 0, 1] := by decide +kernel

/-- Without the condition on expectations, tests may differ: one that looks for a name does. -/
example : ¬ (Expectation.satisfy "have a created" fun fs =>
      if fs.any (fun f => match f with | .aggCreated _ i _ => i = "a" | _ => false) then .ret
      else .panic (.user "none")).Nameless Demo.crossed := by
  intro h
  cases h with
  | satisfy _ _ h =>
    have := h [.aggCreated Demo.agg "a" (Env.root 1 (Demo.msgC "a") 0)]
    revert this
    simp [Fact.nm, Demo.crossed]

end Verif
