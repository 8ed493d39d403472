import Verif.Props.AnyIds
import Verif.Props.AnyData
import Verif.Props.Reset

/-!
# C128: what a test finds does not depend on how many message IDs its engine has handed out

C123 for tests.  The IDs in facts continue where they are.  Apart from that, `Prepare()` and `Expect()`
do the same and say the same.
-/

namespace Verif

variable {W R : Type}

/-! ## Specification -/

/-- Rename the messages in a record of a test. -/
def TObs.ren (σ : Nat → Nat) : TObs → TObs
  | .engine c op fs => .engine c op (fs.map (Fact.ren σ))
  | .exec m b => .exec m b
  | .log s => .log s
  | .fatal e => .fatal e
  | .failNow => .failNow

/-- Rename the messages in a call to a predicate. -/
def ECall.ren (σ : Nat → Nat) : ECall → ECall
  | .notify f => .notify (f.ren σ)
  | .build => .build
  | .done => .done
  | .ok => .ok
  | .report => .report

/-- The user's code does not look into message IDs, and the clock and the lock of the engine do not
depend on those that are stored in the world. -/
structure App.Uncounted (A : App W R) (d : Nat) (ρ : W → W) : Prop where
  anon : A.Anon (fun n => n + d) ρ
  lock : ∀ w, A.uc.lockErr (ρ w) = A.uc.lockErr w
  clock : ∀ w, A.uc.wallClock (ρ w) = A.uc.wallClock w

/-- Two tests at points where their engines remember the same, but for `d` more message IDs handed out by
the second.  What was before may be different. -/
structure TSt.OnPar (d : Nat) (ρ : W → W) (t t' : TSt W R) : Prop where
  world : t'.sys.w = ρ t.sys.w
  nextID : t'.sys.nextID = t.sys.nextID + d
  agg : ∀ h id, t'.sys.agg h id = (t.sys.agg h id).map (List.map (Env.ren fun n => n + d))
  inst : ∀ h id, (t'.sys.proc h).inst id = (t.sys.proc h).inst id
  timeouts : ∀ h, (t'.sys.proc h).timeouts = (t.sys.proc h).timeouts.map (Env.ren fun n => n + d)
  lastCompact : ∀ h, t'.sys.lastCompact h = t.sys.lastCompact h
  clock : t'.clock = t.clock
  opts : t'.opts = t.opts
  bound : t'.bound = t.bound
  icept : IcAlt ρ t.icept t'.icept

/-- What a test does and says in statements. -/
def TSt.doing (A : App W R) (E : TEnv W) (S : PScope) (c : RCtx) (l : List (TStep W)) (t : TSt W R) :
    List TObs :=
  (t.steps A E S c l).1.did.drop t.did.length

/-- An implementation of `Expectation` and `Predicate` that does not look at message IDs.
`P` relates predicates that have been told the same, but for the IDs. -/
structure Expecting.Uncounted {Q : Type} (X : Expecting Q) (σ : Nat → Nat) (P : Q → Q → Prop) : Prop where
  build : ∀ s p, X.build s = .ok p → P p p
  notify : ∀ s f p p', P p p' → P (X.notify s f p) (X.notify s (f.ren σ) p')
  done : ∀ p p', P p p' → P (X.done p).1 (X.done p').1 ∧ (X.done p').2 = (X.done p).2
  ok : ∀ p p', P p p' → X.ok p' = X.ok p
  report : ∀ b p p', P p p' → X.report b p' = X.report b p

/-- A predicate of users that does not look at message IDs. -/
structure CustomPred.Uncounted (σ : Nat → Nat) (p : CustomPred) : Prop where
  crash : ∀ fs, p.crash (fs.map (Fact.ren σ)) = p.crash fs
  ok : ∀ fs, p.ok (fs.map (Fact.ren σ)) = p.ok fs
  report : ∀ c fs, p.report c (fs.map (Fact.ren σ)) = p.report c fs

/-- The expectations of this module look at message IDs only in functions of users. -/
inductive Expectation.Uncounted (σ : Nat → Nat) : Expectation → Prop where
  | message (m : Message) : Uncounted σ (.message m)
  | type (t : MType) : Uncounted σ (.type t)
  | matching (T : MatchType) (fn : List Message → Message → MatchRes) (loc : String) (ex : Bool) :
      Uncounted σ (.matching T fn loc ex)
  | composite (k : CompKind) (es : List Expectation) (h : ∀ e ∈ es, Uncounted σ e) : Uncounted σ (.composite k es)
  | not (e : Expectation) (h : Uncounted σ e) : Uncounted σ (.not e)
  | repeatedly (d : String) (n : Nat) (fn : Nat → Expectation) (h : ∀ i, Uncounted σ (fn i)) :
      Uncounted σ (.repeatedly d n fn)
  | satisfy (d : String) (fn : List Fact → SProg) (h : ∀ fs, fn (fs.map (Fact.ren σ)) = fn fs) :
      Uncounted σ (.satisfy d fn)
  | custom (c : String) (mk : PScope → Except String CustomPred)
      (h : ∀ s p, mk s = .ok p → p.Uncounted σ) : Uncounted σ (.custom c mk)
  | nil : Uncounted σ .nil

/-- The expectations of these statements do not look at message IDs. -/
def TStep.Uncounted (σ : Nat → Nat) : TStep W → Prop
  | .prepare _ => True
  | .expect _ x _ => x.Uncounted σ

/-- What was before, in two tests: in their engines and in their own records. -/
structure Past (R : Type) where
  seen : List (Obs R)
  seen' : List (Obs R)
  done : List TObs
  done' : List TObs

/-- Two tests that differ in what was before and have been doing the same since then, but for the IDs. -/
structure TSt.Rn (d : Nat) (ρ : W → W) (π : Past R) (t : TSt W R) (t' : TSt W R) : Prop where
  sys : ∃ s : Sys W R, t.sys = s.on π.seen ∧ t'.sys = (s.further d ρ).on π.seen'
  clock : t'.clock = t.clock
  opts : t'.opts = t.opts
  bound : t'.bound = t.bound
  icept : IcAlt ρ t.icept t'.icept
  did : ∃ l, t.did = π.done ++ l ∧ t'.did = π.done' ++ l.map (TObs.ren fun n => n + d)

section
variable {A : App W R} {d : Nat} {ρ : W → W} {π : Past R}

/-! ## The engine -/

theorem factsOf_rn (σ : Nat → Nat) (l : List (Obs R)) :
    factsOf (l.map (Obs.ren σ)) = (factsOf l).map (Fact.ren σ) := by
  induction l with
  | nil => rfl
  | cons o l ih =>
    unfold factsOf at ih ⊢
    cases o with
    | call c => simpa [Obs.ren] using ih
    | reset => simpa [Obs.ren] using ih
    | fact x => simpa [Obs.ren] using ih

theorem during_rn (s s' : Sys W R) :
    during (s.further d ρ) (s'.further d ρ) = (during s s').map (Obs.ren fun n => n + d) := by
  unfold during Sys.further Sys.ren
  simp only [List.length_map, List.map_drop]

/-! ## Expectations -/

mutual
/-- Predicates that were told the same, but for the message IDs. -/
inductive Pred.Rn (σ : Nat → Nat) : Pred → Pred → Prop where
  | message (p : MsgPred) :
      Pred.Rn σ (.message p) (.message { p with bestMatch := p.bestMatch.map (Env.ren σ) })
  | type (p : TypePred) : Pred.Rn σ (.type p) (.type p)
  | matching (p : MatchPred) : Pred.Rn σ (.matching p) (.matching p)
  | composite (k : CompKind) (n : Nat) {ps ps' : List Pred} (h : Pred.AllRn σ ps ps') :
      Pred.Rn σ (.composite k n ps) (.composite k n ps')
  | not {p p' : Pred} (h : Pred.Rn σ p p') : Pred.Rn σ (.not p) (.not p')
  | repeatedly (c : String) {ps ps' : List Pred} (h : Pred.AllRn σ ps ps') :
      Pred.Rn σ (.repeatedly c ps) (.repeatedly c ps')
  | satisfy (p : SatPred) (h : ∀ fs, p.fn (fs.map (Fact.ren σ)) = p.fn fs) :
      Pred.Rn σ (.satisfy p) (.satisfy { p with facts := p.facts.map (Fact.ren σ) })
  | custom (p : CustomPred) (fs : List Fact) (h : p.Uncounted σ) :
      Pred.Rn σ (.custom p fs) (.custom p (fs.map (Fact.ren σ)))
/-- The same for predicates in order. -/
inductive Pred.AllRn (σ : Nat → Nat) : List Pred → List Pred → Prop where
  | nil : Pred.AllRn σ [] []
  | cons {p p' : Pred} {ps ps' : List Pred} (h : Pred.Rn σ p p') (hs : Pred.AllRn σ ps ps') :
      Pred.AllRn σ (p :: ps) (p' :: ps')
end

theorem Tracker.notify_rn (σ : Nat → Nat) (t : Tracker) (f : Fact) :
    t.notify (f.ren σ) = ((t.notify f).1, (t.notify f).2.map (Env.ren σ)) := by
  cases f <;> try rfl
  simp only [Fact.ren, Tracker.notify]
  split <;> rfl

theorem MatchPred.messageProduced_rn (σ : Nat → Nat) (p : MatchPred) (e : Env) :
    p.messageProduced (e.ren σ) = p.messageProduced e := rfl

mutual
theorem Pred.notify_rn {σ : Nat → Nat} (s : PScope) (f : Fact) :
    {p p' : Pred} → Pred.Rn σ p p' → Pred.Rn σ (p.notify s f) (p'.notify s (f.ren σ))
  | _, _, .message p => by
    have h : ({ p with bestMatch := p.bestMatch.map (Env.ren σ) } : MsgPred).notify s (f.ren σ) =
        { p.notify s f with bestMatch := (p.notify s f).bestMatch.map (Env.ren σ) } := by
      unfold MsgPred.notify
      simp only [Tracker.notify_rn]
      split
      · rfl
      · rcases p.tracker.notify f with ⟨t, _ | e⟩
        · rfl
        · simp only [Option.map_some, show (e.ren σ).msg = e.msg from rfl]
          split <;> rfl
    unfold Pred.notify
    rw [h]
    exact .message _
  | _, _, .type p => by
    have h : p.notify s (f.ren σ) = p.notify s f := by
      unfold TypePred.notify
      simp only [Tracker.notify_rn]
      split
      · rfl
      · rcases p.tracker.notify f with ⟨t, _ | e⟩ <;> rfl
    unfold Pred.notify
    rw [h]
    exact .type _
  | _, _, .matching p => by
    have h : p.notify s (f.ren σ) = p.notify s f := by
      unfold MatchPred.notify
      simp only [Tracker.notify_rn]
      split
      · rfl
      · rcases p.tracker.notify f with ⟨t, _ | e⟩ <;> rfl
    unfold Pred.notify
    rw [h]
    exact .matching _
  | _, _, .composite k n h => by unfold Pred.notify; exact .composite k n (Pred.notifyAll_rn s f h)
  | _, _, .not h => by unfold Pred.notify; exact .not (Pred.notify_rn s f h)
  | _, _, .repeatedly c h => by unfold Pred.notify; exact .repeatedly c (Pred.notifyAll_rn s f h)
  | _, _, .satisfy p h => by
    unfold Pred.notify
    have := Pred.Rn.satisfy (σ := σ) { p with facts := p.facts ++ [f] } h
    simpa using this
  | _, _, .custom p fs h => by
    unfold Pred.notify
    have := Pred.Rn.custom (σ := σ) p (fs ++ [f]) h
    simpa using this
theorem Pred.notifyAll_rn {σ : Nat → Nat} (s : PScope) (f : Fact) :
    {ps ps' : List Pred} → Pred.AllRn σ ps ps' →
    Pred.AllRn σ (Pred.notifyAll s f ps) (Pred.notifyAll s (f.ren σ) ps')
  | _, _, .nil => by unfold Pred.notifyAll; exact .nil
  | _, _, .cons h hs => by
    unfold Pred.notifyAll; exact .cons (Pred.notify_rn s f h) (Pred.notifyAll_rn s f hs)
end

mutual
theorem Pred.ok_rn {σ : Nat → Nat} : {p p' : Pred} → Pred.Rn σ p p' → p'.ok = p.ok
  | _, _, .message p => by unfold Pred.ok; rfl
  | _, _, .type p => rfl
  | _, _, .matching p => rfl
  | _, _, .composite k n h => by unfold Pred.ok; rw [Pred.countOk_rn h]
  | _, _, .not h => by unfold Pred.ok; rw [Pred.ok_rn h]
  | _, _, .repeatedly c h => by unfold Pred.ok; rw [Pred.allOk_rn h]
  | _, _, .satisfy p h => by unfold Pred.ok; rfl
  | _, _, .custom p fs h => by unfold Pred.ok; exact h.ok fs
theorem Pred.countOk_rn {σ : Nat → Nat} : {ps ps' : List Pred} → Pred.AllRn σ ps ps' →
    Pred.countOk ps' = Pred.countOk ps
  | _, _, .nil => rfl
  | _, _, .cons h hs => by unfold Pred.countOk; rw [Pred.ok_rn h, Pred.countOk_rn hs]
theorem Pred.allOk_rn {σ : Nat → Nat} : {ps ps' : List Pred} → Pred.AllRn σ ps ps' →
    Pred.allOk ps' = Pred.allOk ps
  | _, _, .nil => rfl
  | _, _, .cons h hs => by unfold Pred.allOk; rw [Pred.ok_rn h, Pred.allOk_rn hs]
end

theorem Pred.AllRn.length {σ : Nat → Nat} : {ps ps' : List Pred} → Pred.AllRn σ ps ps' →
    ps'.length = ps.length
  | _, _, .nil => rfl
  | _, _, .cons _ hs => by simp only [List.length_cons, Pred.AllRn.length hs]

theorem MsgPred.report_rn (σ : Nat → Nat) (c : RCtx) (p : MsgPred) :
    ({ p with bestMatch := p.bestMatch.map (Env.ren σ) } : MsgPred).report c = p.report c := by
  unfold MsgPred.report
  simp only
  split
  · rfl
  · cases p.bestMatch with
    | none => rfl
    | some e =>
      simp only [Option.map_some, show (e.ren σ).msg = e.msg from rfl,
        show (e.ren σ).origin = e.origin from rfl]

mutual
theorem Pred.report_rn {σ : Nat → Nat} : {p p' : Pred} → Pred.Rn σ p p' → ∀ c : RCtx,
    p'.report c = p.report c
  | _, _, .message p, c => by unfold Pred.report; exact MsgPred.report_rn σ c p
  | _, _, .type p, c => rfl
  | _, _, .matching p, c => rfl
  | _, _, .composite k n h, c => by
    unfold Pred.report
    simp only [Pred.countOk_rn h, Pred.reportAll_rn h]
  | _, _, .not h, c => by unfold Pred.report; rw [Pred.ok_rn h, Pred.report_rn h]
  | _, _, .repeatedly x h, c => by unfold Pred.report; rw [Pred.reportAll_rn h, h.length]
  | _, _, .satisfy p h, c => by unfold Pred.report; rfl
  | _, _, .custom p fs h, c => by unfold Pred.report; exact h.report c fs
theorem Pred.reportAll_rn {σ : Nat → Nat} : {ps ps' : List Pred} → Pred.AllRn σ ps ps' →
    ∀ c : RCtx, Pred.reportAll c ps' = Pred.reportAll c ps
  | _, _, .nil, c => rfl
  | _, _, .cons h hs, c => by
    unfold Pred.reportAll; rw [Pred.ok_rn h, Pred.report_rn h, Pred.reportAll_rn hs]
end

mutual
theorem Pred.done_rn {σ : Nat → Nat} : {p p' : Pred} → Pred.Rn σ p p' →
    Pred.Rn σ p.done.1 p'.done.1 ∧ p'.done.2 = p.done.2
  | _, _, .message p => by unfold Pred.done; exact ⟨.message p, rfl⟩
  | _, _, .type p => by unfold Pred.done; exact ⟨.type p, rfl⟩
  | _, _, .matching p => by unfold Pred.done; exact ⟨.matching _, rfl⟩
  | _, _, @Pred.Rn.composite _ k n ps ps' h => by
    unfold Pred.done
    have := Pred.doneAll_rn h
    rcases hx : Pred.doneAll ps with ⟨qs, o⟩
    rcases hy : Pred.doneAll ps' with ⟨qs', o'⟩
    rw [hx, hy] at this
    exact ⟨.composite k n this.1, this.2⟩
  | _, _, @Pred.Rn.not _ p p' h => by
    unfold Pred.done
    have := Pred.done_rn h
    rcases hx : p.done with ⟨q, o⟩
    rcases hy : p'.done with ⟨q', o'⟩
    rw [hx, hy] at this
    exact ⟨.not this.1, this.2⟩
  | _, _, @Pred.Rn.repeatedly _ c ps ps' h => by
    unfold Pred.done
    have := Pred.doneAll_rn h
    rcases hx : Pred.doneAll ps with ⟨qs, o⟩
    rcases hy : Pred.doneAll ps' with ⟨qs', o'⟩
    rw [hx, hy] at this
    exact ⟨.repeatedly c this.1, this.2⟩
  | _, _, .satisfy p h => by
    unfold Pred.done
    simp only [h]
    rcases satDone (p.fn p.facts) p.t with ⟨t, o⟩
    exact ⟨.satisfy { p with t := t } h, trivial⟩
  | _, _, .custom p fs h => by unfold Pred.done; exact ⟨.custom p fs h, h.crash fs⟩
theorem Pred.doneAll_rn {σ : Nat → Nat} : {ps ps' : List Pred} → Pred.AllRn σ ps ps' →
    Pred.AllRn σ (Pred.doneAll ps).1 (Pred.doneAll ps').1 ∧ (Pred.doneAll ps').2 = (Pred.doneAll ps).2
  | _, _, .nil => by unfold Pred.doneAll; exact ⟨.nil, rfl⟩
  | _, _, @Pred.AllRn.cons _ p p' ps ps' h hs => by
    unfold Pred.doneAll
    have h1 := Pred.done_rn h
    have h2 := Pred.doneAll_rn hs
    rcases hx : p.done with ⟨q, o⟩
    rcases hy : p'.done with ⟨q', o'⟩
    rw [hx, hy] at h1
    obtain ⟨h1, h3⟩ := h1
    simp only at h1 h3
    subst h3
    cases o' with
    | some x => exact ⟨.cons h1 hs, rfl⟩
    | none =>
      rcases hx : Pred.doneAll ps with ⟨qs, o⟩
      rcases hy : Pred.doneAll ps' with ⟨qs', o'⟩
      rw [hx, hy] at h2
      exact ⟨.cons h1 h2.1, h2.2⟩
end

theorem repeatLoop_rn {σ : Nat → Nat} (d : String)
    (b : Nat → List (String × Nat) × Except BuildErr Pred)
    (hb : ∀ i p, (b i).2 = .ok p → Pred.Rn σ p p) : ∀ (n i : Nat) (ps : List Pred),
    (repeatLoop d b n i).2 = .ok ps → Pred.AllRn σ ps ps
  | 0, i, ps, h => by
    unfold repeatLoop at h
    cases h
    exact .nil
  | n + 1, i, ps, h => by
    unfold repeatLoop at h
    have h1 := hb i
    rcases hx : b i with ⟨l, e | p⟩
    · simp only [hx] at h
      cases h
    · have h2 := repeatLoop_rn d b hb n (i + 1)
      rcases hy : repeatLoop d b n (i + 1) with ⟨l', e | qs⟩
      · simp only [hx, hy] at h
        cases h
      · simp only [hx, hy] at h
        cases h
        rw [hx] at h1
        rw [hy] at h2
        exact .cons (h1 p rfl) (h2 qs rfl)

theorem buildAll_rn {σ : Nat → Nat} (s : PScope) : ∀ (es : List Expectation),
    (∀ e ∈ es, ∀ p, (e.build s).2 = .ok p → Pred.Rn σ p p) → ∀ ps,
    (Expectation.buildAll s es).2 = .ok ps → Pred.AllRn σ ps ps
  | [], _, ps, h => by
    unfold Expectation.buildAll at h
    cases h
    exact .nil
  | e :: es, he, ps, h => by
    unfold Expectation.buildAll at h
    have h1 := he e (by simp)
    have h2 := buildAll_rn s es fun x hx => he x (by simp [hx])
    rcases hx : e.build s with ⟨l, x | p⟩
    · simp only [hx] at h
      cases h
    · rcases hy : Expectation.buildAll s es with ⟨l', x | qs⟩
      · simp only [hx, hy] at h
        cases h
      · simp only [hx, hy] at h
        cases h
        rw [hx] at h1
        rw [hy] at h2
        exact .cons (h1 p rfl) (h2 qs rfl)

theorem Expectation.Uncounted.built {σ : Nat → Nat} (s : PScope) {x : Expectation} (hx : x.Uncounted σ) :
    ∀ p, (x.build s).2 = .ok p → Pred.Rn σ p p := by
  induction hx with
  | message m =>
    intro p h
    unfold Expectation.build at h
    cases hg : guardImpossible s m.type with
    | error e => simp only [hg] at h; cases h
    | ok _ => simp only [hg] at h; cases h; exact .message _
  | type t =>
    intro p h
    unfold Expectation.build at h
    cases hg : guardImpossible s t with
    | error e => simp only [hg] at h; cases h
    | ok _ => simp only [hg] at h; cases h; exact .type _
  | matching T fn loc ex =>
    intro p h
    unfold Expectation.build at h
    cases hi : T.iface with
    | some x => simp only [hi] at h; cases h; exact .matching _
    | none =>
      cases hg : guardImpossible s T.type with
      | error e => simp only [hi, hg] at h; cases h
      | ok _ => simp only [hi, hg] at h; cases h; exact .matching _
  | composite k es _ ih =>
    intro p h
    unfold Expectation.build at h
    have h1 := buildAll_rn (σ := σ) s es ih
    rcases hx : Expectation.buildAll s es with ⟨l, x | ps⟩
    · simp only [hx] at h; cases h
    · simp only [hx] at h
      cases h
      rw [hx] at h1
      exact .composite _ _ (h1 ps rfl)
  | not e _ ih =>
    intro p h
    unfold Expectation.build at h
    rcases hx : e.build s with ⟨l, x | q⟩
    · simp only [hx] at h; cases h
    · simp only [hx] at h
      cases h
      rw [hx] at ih
      exact .not (ih q rfl)
  | repeatedly d n fn _ ih =>
    intro p h
    unfold Expectation.build at h
    have h1 := repeatLoop_rn (σ := σ) d
      (fun i => if (fn i).isNil then ([], .error .nilExpectation) else (fn i).build s) (by
        intro i q hq
        split at hq
        · cases hq
        · exact ih i q hq) n 0
    rcases hx : repeatLoop d
      (fun i => if (fn i).isNil then ([], .error .nilExpectation) else (fn i).build s) n 0 with ⟨l, x | ps⟩
    · simp only [hx] at h; cases h
    · simp only [hx] at h
      cases h
      rw [hx] at h1
      exact .repeatedly _ (h1 ps rfl)
  | satisfy d fn hf =>
    intro p h
    unfold Expectation.build at h
    cases h
    exact .satisfy _ hf
  | custom c mk hm =>
    intro p h
    unfold Expectation.build at h
    rcases hx : mk s with e | q
    · simp only [hx] at h; cases h
    · simp only [hx] at h
      cases h
      exact .custom q [] (hm s q hx)
  | nil =>
    intro p h
    unfold Expectation.build at h
    cases h

/-- **C128.** The expectations of this module do not look at message IDs, unless functions of
users do. -/
theorem C128_uncounted {σ : Nat → Nat} (c : RCtx) {x : Expectation} (hx : x.Uncounted σ) :
    (x.impl c).Uncounted σ (Pred.Rn σ) where
  build s p h := by
    simp only [Expectation.impl] at h
    have := hx.built s
    rcases hb : (x.build s).2 with e | q
    · rw [hb] at h
      cases e <;> simp at h
    · rw [hb] at h
      cases h
      exact this p hb
  notify s f p p' h := Pred.notify_rn s f h
  done p p' h := by
    have := Pred.done_rn h
    simp only [Expectation.impl]
    exact ⟨this.1, by rw [this.2]⟩
  ok p p' h := by simp only [Expectation.impl, Pred.ok_rn h]
  report b p p' h := by simp only [Expectation.impl, Pred.report_rn h]

/-! ## Tests -/

theorem TSt.Rn.w {t : TSt W R} {t' : TSt W R} (ht : TSt.Rn d ρ π t t') : t'.sys.w = ρ t.sys.w := by
  obtain ⟨s, h, h'⟩ := ht.sys
  rw [h, h']; rfl

theorem TSt.Rn.world {t : TSt W R} {t' : TSt W R} (ht : TSt.Rn d ρ π t t') (w : W) :
    TSt.Rn d ρ π { t with sys := { t.sys with w := w } } { t' with sys := { t'.sys with w := ρ w } } :=
  ⟨by obtain ⟨s, h, h'⟩ := ht.sys; exact ⟨{ s with w := w }, by rw [h]; rfl, by rw [h']; rfl⟩, ht.clock, ht.opts, ht.bound, ht.icept, ht.did⟩

theorem TSt.Rn.say {t : TSt W R} {t' : TSt W R} (ht : TSt.Rn d ρ π t t') (o : TObs)
    (ho : o.ren (fun n => n + d) = o := by rfl) : TSt.Rn d ρ π (t.say o) (t'.say o) :=
  ⟨ht.sys, ht.clock, ht.opts, ht.bound, ht.icept, by
    obtain ⟨l, h, h'⟩ := ht.did
    exact ⟨l ++ [o], by simp [TSt.say, h], by simp [TSt.say, h', ho]⟩⟩

theorem TSt.Rn.actOpts {t : TSt W R} {t' : TSt W R} (ht : TSt.Rn d ρ π t t') (extra : List OpOption) :
    t'.actOpts extra = t.actOpts extra := by
  unfold TSt.actOpts
  rw [ht.clock, ht.opts]

theorem TSt.Rn.engine (al : A.Uncounted d ρ) {t : TSt W R} {t' : TSt W R} (ht : TSt.Rn d ρ π t t')
    (op : Op) (hop : op ≠ .reset := by nofun) : TSt.Rn d ρ π (t.engine A op).1 (t'.engine A op).1 ∧
      (t'.engine A op).2 = (t.engine A op).2 := by
  unfold TSt.engine
  obtain ⟨s, h, h'⟩ := ht.sys
  obtain ⟨l, hl, hl'⟩ := ht.did
  rw [h, h', exec_on, exec_on, C123_operation al.anon al.lock al.clock op hop]
  simp only [lft, during_on, during_rn, factsOf_rn]
  refine ⟨⟨⟨_, rfl, rfl⟩, ht.clock, ht.opts, ht.bound, ht.icept, ?_⟩, trivial⟩
  exact ⟨l ++ [.engine t.clock op (factsOf (during s (op.exec A s).1))], by simp [hl],
    by simp [hl', ht.clock, TObs.ren]⟩

theorem IProg.run_rn (al : A.Uncounted d ρ) {E : TEnv W} {E' : TEnv W} (hE : TEnv.Alt ρ E E')
    (os : List OpOption) {p : IProg W} {p' : IProg W} (hp : IProg.Alt ρ p p') :
    ∀ (t : TSt W R) (t' : TSt W R), TSt.Rn d ρ π t t' →
    TSt.Rn d ρ π (p.run A E os t).1 (p'.run A E' os t').1 ∧
    (p'.run A E' os t').2 = (p.run A E os t).2 := by
  induction hp with
  | ret e => intro t t' ht; exact ⟨ht, rfl⟩
  | panic pv => intro t t' ht; exact ⟨ht, rfl⟩
  | get h ih =>
    intro t t' ht
    unfold IProg.run
    rw [ht.w]
    exact ih _ t t' ht
  | set w h ih =>
    intro t t' ht
    unfold IProg.run
    exact ih _ _ (ht.world w)
  | @next m k k' h ih =>
    intro t t' ht
    unfold IProg.run
    obtain ⟨h1, h2⟩ := ht.engine al (.dispatch E.fuel m os)
    rw [hE.fuel]
    rcases hx : t.engine A (.dispatch E.fuel m os) with ⟨t1, o⟩
    rcases hy : t'.engine A (.dispatch E.fuel m os) with ⟨t1', o'⟩
    rw [hx, hy] at h1 h2
    simp only at h2
    subst h2
    cases o' with
    | done e => exact ih _ t1 t1' h1
    | panicked pv => exact ih _ t1 t1' h1
    | running => exact ⟨h1, rfl⟩

theorem TSt.execute_rn (al : A.Uncounted d ρ) {E : TEnv W} {E' : TEnv W} (hE : TEnv.Alt ρ E E')
    {t : TSt W R} {t' : TSt W R} (ht : TSt.Rn d ρ π t t') (m : Message) :
    TSt.Rn d ρ π (t.execute A E m).1 (t'.execute A E' m).1 ∧
    (t'.execute A E' m).2 = (t.execute A E m).2 := by
  unfold TSt.execute
  have h0 : TSt.Rn d ρ π { t with did := t.did ++ [TObs.exec m t.bound.isSome] }
      { t' with did := t'.did ++ [TObs.exec m t'.bound.isSome] } :=
    ⟨ht.sys, ht.clock, ht.opts, ht.bound, ht.icept, by
      obtain ⟨l, h, h'⟩ := ht.did
      exact ⟨l ++ [.exec m t.bound.isSome], by simp [h], by simp [h', ht.bound, TObs.ren]⟩⟩
  have hb' := ht.bound
  have hi' := ht.icept
  simp only
  generalize hu : ({ t with did := t.did ++ [TObs.exec m t.bound.isSome] } : TSt W R) = u at h0 ⊢
  generalize hu' : ({ t' with did := t'.did ++ [TObs.exec m t'.bound.isSome] } : TSt W R) = u' at h0 ⊢
  rw [hb', hE.fuel]
  cases hb : t.bound with
  | none => exact ⟨h0, rfl⟩
  | some os =>
    simp only
    revert hi'
    generalize t.icept = ic
    generalize t'.icept = ic'
    intro hi'
    cases hi' with
    | none => exact h0.engine al _
    | some h => exact IProg.run_rn al hE os (h m) _ _ h0

theorem TSt.check_rn {E : TEnv W} {E' : TEnv W} (hE : TEnv.Alt ρ E E')
    {x : TSt W R × Outcome (Option TErr)} {x' : TSt W R × Outcome (Option TErr)}
    (h1 : TSt.Rn d ρ π x.1 x'.1) (h2 : x'.2 = x.2) :
    TSt.Rn d ρ π (TSt.check E x).1 (TSt.check E' x').1 ∧ (TSt.check E' x').2 = (TSt.check E x).2 := by
  obtain ⟨t, o⟩ := x
  obtain ⟨t', o'⟩ := x'
  simp only at h1 h2
  subst h2
  rcases o' with (_ | e) | pv | _
  · exact ⟨h1, rfl⟩
  · refine ⟨h1.say _, ?_⟩
    unfold TSt.check
    simp only [hE.fatal]
  · exact ⟨h1, rfl⟩
  · exact ⟨h1, rfl⟩

theorem TSt.Rn.leave {t : TSt W R} {t' : TSt W R} (ht : TSt.Rn d ρ π t t')
    {prev : Option (Message → IProg W)} {prev' : Option (Message → IProg W)} (hp : IcAlt ρ prev prev')
    (had : Bool) : TSt.Rn d ρ π (t.leave prev had) (t'.leave prev' had) := by
  refine ⟨ht.sys, ht.clock, ht.opts, rfl, ?_, ht.did⟩
  simp only [TSt.leave]
  cases had with
  | true => exact hp
  | false => exact ht.icept

mutual
theorem Action.run_rn (al : A.Uncounted d ρ) {E : TEnv W} {E' : TEnv W} (hE : TEnv.Alt ρ E E') :
    {a : Action W} → {a' : Action W} → Action.Alt ρ a a' → ∀ (extra : List OpOption) (t : TSt W R)
    (t' : TSt W R), TSt.Rn d ρ π t t' →
    TSt.Rn d ρ π (a.run A E extra t).1 (a'.run A E' extra t').1 ∧
    (a'.run A E' extra t').2 = (a.run A E extra t).2
  | _, _, .dispatch m, extra, t, t', ht => by
    unfold Action.run
    rw [ht.actOpts, hE.fuel]
    split
    · exact ht.engine al _
    · exact ⟨ht, rfl⟩
  | _, _, @Action.Alt.advance _ _ _ desc step step' h, extra, t, t', ht => by
    unfold Action.run
    have hs' : step' t'.clock t'.sys.w = (ρ (step t.clock t.sys.w).1, (step t.clock t.sys.w).2) := by
      rw [ht.clock, ht.w]
      exact h _ _
    rw [ht.actOpts, hs', hE.fuel]
    clear hs'
    rcases step t.clock t.sys.w with ⟨w, pv | now⟩
    · exact ⟨ht.world w, rfl⟩
    · simp only
      rw [ht.clock, hE.order]
      split
      · exact ⟨⟨(ht.world w).sys, rfl, ht.opts, ht.bound, ht.icept, ht.did⟩, rfl⟩
      · have h0 : TSt.Rn d ρ π { t with sys := { t.sys with w := w }, clock := now }
            { t' with sys := { t'.sys with w := ρ w }, clock := now } :=
          ⟨(ht.world w).sys, rfl, ht.opts, ht.bound, ht.icept, ht.did⟩
        exact h0.engine al _
  | _, _, @Action.Alt.call _ _ _ fn fn' ic ic' hf hi, extra, t, t', ht => by
    unfold Action.run
    have h0 : TSt.Rn d ρ π { t with bound := some (t.actOpts extra), icept := ic.or t.icept }
        { t' with bound := some (t'.actOpts extra), icept := ic'.or t'.icept } :=
      ⟨ht.sys, ht.clock, ht.opts, by simp only [ht.actOpts], hi.or ht.icept, ht.did⟩
    obtain ⟨h1, h2⟩ := CProg.run_rn al hE hf _ _ h0
    rcases hy : fn.run A E { t with bound := some (t.actOpts extra), icept := ic.or t.icept } with ⟨u, o⟩
    rcases hy' : fn'.run A E' { t' with bound := some (t'.actOpts extra), icept := ic'.or t'.icept }
      with ⟨u', o'⟩
    rw [hy, hy'] at h1 h2
    simp only at h1 h2
    simp only [hi.isSome]
    subst h2
    rcases o' with e | pv | _
    · exact ⟨h1.leave ht.icept _, rfl⟩
    · exact ⟨h1.leave ht.icept _, rfl⟩
    · exact ⟨h1, rfl⟩
theorem CProg.run_rn (al : A.Uncounted d ρ) {E : TEnv W} {E' : TEnv W} (hE : TEnv.Alt ρ E E') :
    {p : CProg W} → {p' : CProg W} → CProg.Alt ρ p p' → ∀ (t : TSt W R) (t' : TSt W R),
    TSt.Rn d ρ π t t' → TSt.Rn d ρ π (p.run A E t).1 (p'.run A E' t').1 ∧
      (p'.run A E' t').2 = (p.run A E t).2
  | _, _, .ret, t, t', ht => by unfold CProg.run; exact ⟨ht, rfl⟩
  | _, _, .panic pv, t, t', ht => by unfold CProg.run; exact ⟨ht, rfl⟩
  | _, _, .get h, t, t', ht => by
    unfold CProg.run
    rw [ht.w]
    exact CProg.run_rn al hE (h _) t t' ht
  | _, _, .set w h, t, t', ht => by
    unfold CProg.run
    exact CProg.run_rn al hE h _ _ (ht.world w)
  | _, _, @CProg.Alt.exec _ _ _ m k k' h, t, t', ht => by
    unfold CProg.run
    obtain ⟨h1, h2⟩ := TSt.execute_rn al hE ht m
    rcases hy : t.execute A E m with ⟨u, o⟩
    rcases hy' : t'.execute A E' m with ⟨u', o'⟩
    rw [hy, hy'] at h1 h2
    simp only at h1 h2
    subst h2
    rcases o' with e | pv | _
    · exact CProg.run_rn al hE (h _) u u' h1
    · exact CProg.run_rn al hE (h _) u u' h1
    · exact ⟨h1, rfl⟩
  | _, _, @CProg.Alt.act _ _ _ a a' k k' ha h, t, t', ht => by
    unfold CProg.run
    have hn : TSt.Rn d ρ π (t.announce a) (t'.announce a') := by
      unfold TSt.announce Action.prepareLine
      rw [ha.caption]
      exact ht.say _
    obtain ⟨h0, h00⟩ := Action.run_rn al hE ha [] _ _ hn
    obtain ⟨h1, h2⟩ := TSt.check_rn hE h0 h00
    rcases hy : TSt.check E (a.run A E [] (t.announce a)) with ⟨u, o⟩
    rcases hy' : TSt.check E' (a'.run A E' [] (t'.announce a')) with ⟨u', o'⟩
    rw [hy, hy'] at h1 h2
    simp only at h1 h2
    subst h2
    rcases o' with e | pv | _
    · exact CProg.run_rn al hE (h _) u u' h1
    · exact CProg.run_rn al hE (h _) u u' h1
    · exact ⟨h1, rfl⟩
end

/-- **C128** for `Prepare()`. -/
theorem C128_prepare (al : A.Uncounted d ρ) {E : TEnv W} {E' : TEnv W} (hE : TEnv.Alt ρ E E')
    {t : TSt W R} {t' : TSt W R} (ht : TSt.Rn d ρ π t t') {a : Action W} {a' : Action W}
    (ha : Action.Alt ρ a a') :
    TSt.Rn d ρ π (t.prepare A E a).1 (t'.prepare A E' a').1 ∧
    (t'.prepare A E' a').2 = (t.prepare A E a).2 := by
  have hn : TSt.Rn d ρ π (t.announce a) (t'.announce a') := by
    unfold TSt.announce Action.prepareLine
    rw [ha.caption]
    exact ht.say _
  obtain ⟨h1, h2⟩ := Action.run_rn al hE ha [] _ _ hn
  exact TSt.check_rn hE h1 h2

theorem toldIn_rn (σ : Nat → Nat) (k : Nat) (l : List TObs) :
    toldIn k (l.map (TObs.ren σ)) = (toldIn k l).map (Fact.ren σ) := by
  unfold toldIn
  induction l with
  | nil => rfl
  | cons o l ih =>
    simp only [List.map_cons, List.flatMap_cons, List.map_append, ih]
    congr 1
    cases o with
    | engine c op fs =>
      simp only [TObs.ren, TObs.told]
      induction fs with
      | nil => rfl
      | cons x fs ih =>
        simp only [List.map_cons, List.flatMap_cons, List.map_append, ih, List.map_map, Function.comp_def]
    | _ => rfl

theorem Expecting.Uncounted.notified {Q : Type} {X : Expecting Q} {σ : Nat → Nat} {P : Q → Q → Prop}
    (hX : X.Uncounted σ P) (s : PScope) : ∀ (fs : List Fact) (p p' : Q), P p p' →
    P (fs.foldl (fun p f => X.notify s f p) p) ((fs.map (Fact.ren σ)).foldl (fun p f => X.notify s f p) p')
  | [], _, _, h => h
  | f :: fs, _, _, h => hX.notified s fs _ _ (hX.notify s f _ _ h)

/-- **C128** for `Expect()`, with an expectation that does not look at message IDs: its methods
are called with the same arguments in the same order, but for the IDs, and it passes, fails or panics
the same. -/
theorem C128_expect {Q : Type} (al : A.Uncounted d ρ) {E : TEnv W} {E' : TEnv W}
    (hE : TEnv.Alt ρ E E') {t : TSt W R} {t' : TSt W R} (ht : TSt.Rn d ρ π t t') {a : Action W}
    {a' : Action W} (ha : Action.Alt ρ a a') (S : PScope) (X : Expecting Q) {P : Q → Q → Prop}
    (hX : X.Uncounted (fun n => n + d) P) (k : Nat) :
    TSt.Rn d ρ π (t.expect A E S X k a).1 (t'.expect A E' S X k a').1 ∧
    (t'.expect A E' S X k a').2.1 = (t.expect A E S X k a).2.1.map (ECall.ren (fun n => n + d)) ∧
    (t'.expect A E' S X k a').2.2 = (t.expect A E S X k a).2.2 := by
  unfold TSt.expect
  rw [ha.scope S]
  cases X.caption with
  | error pv => exact ⟨ht, rfl, rfl⟩
  | ok c =>
    simp only
    have h0 : TSt.Rn d ρ π (t.say (.log (a.expectLine c))) (t'.say (.log (a'.expectLine c))) := by
      unfold Action.expectLine
      rw [ha.caption]
      exact ht.say _
    cases hb : X.build (a.scope S) with
    | panic pv => exact ⟨h0, rfl, rfl⟩
    | err msg => exact ⟨h0.say _, rfl, rfl⟩
    | ok p =>
      simp only
      obtain ⟨h1, h2⟩ := Action.run_rn al hE ha [.observer k] _ _ h0
      obtain ⟨l0, e0, e0'⟩ := h0.did
      rcases hx : a.run A E [.observer k] (t.say (.log (a.expectLine c))) with ⟨u, o⟩
      rcases hx' : a'.run A E' [.observer k] (t'.say (.log (a'.expectLine c))) with ⟨u', o'⟩
      rw [hx, hx'] at h1 h2
      simp only at h1 h2
      subst h2
      simp only
      obtain ⟨l1, e1, e1'⟩ := h1.did
      rw [e0, e0', e1, e1', List.length_append, List.length_append, List.length_map,
        List.drop_length_add_append, List.drop_length_add_append, ← List.map_drop, toldIn_rn]
      generalize toldIn k (l1.drop l0.length) = fs
      have hs : (fs.map (Fact.ren (fun n => n + d))).map ECall.notify =
          (fs.map ECall.notify).map (ECall.ren (fun n => n + d)) := by
        simp [Function.comp_def, ECall.ren]
      rw [hs]
      have hd := hX.done _ _ (hX.notified (a.scope S) fs p p (hX.build _ _ hb))
      rcases hy : X.done (fs.foldl (fun p f => X.notify (a.scope S) f p) p) with ⟨q, r⟩
      rcases hy' : X.done ((fs.map (Fact.ren (fun n => n + d))).foldl (fun p f => X.notify (a.scope S) f p) p)
        with ⟨q', r'⟩
      rw [hy, hy'] at hd
      obtain ⟨hq, hr⟩ := hd
      simp only at hq hr
      subst hr
      rcases r' with _ | v'
      · rcases o' with (_ | e) | pv | _
        · simp only
          unfold TSt.conclude
          rw [hX.ok q q' hq]
          rcases X.ok q with pv | b
          · exact ⟨h1, by simp [ECall.ren], rfl⟩
          · simp only [hX.report b q q' hq]
            rcases X.report b q with pv | r
            · exact ⟨h1, by simp [ECall.ren], rfl⟩
            · simp only
              cases b with
              | true => exact ⟨h1.say _, by simp [ECall.ren], rfl⟩
              | false => exact ⟨(h1.say _).say _, by simp [ECall.ren], rfl⟩
        · exact ⟨h1.say _, by simp [ECall.ren], rfl⟩
        · exact ⟨h1, by simp [ECall.ren], rfl⟩
        · exact ⟨h1, by simp [ECall.ren], rfl⟩
      · rcases o' with e | pv | _
        · exact ⟨h1, by simp [ECall.ren], rfl⟩
        · exact ⟨h1, by simp [ECall.ren], rfl⟩
        · exact ⟨h1, by simp [ECall.ren], rfl⟩

theorem steps_rn (al : A.Uncounted d ρ) {E : TEnv W} {E' : TEnv W} (hE : TEnv.Alt ρ E E') (S : PScope)
    (c : RCtx) {l : List (TStep W)} {l' : List (TStep W)} (hl : AllAlt ρ l l')
    (hn : ∀ x ∈ l, x.Uncounted (fun n => n + d)) :
    ∀ (t : TSt W R) (t' : TSt W R), TSt.Rn d ρ π t t' →
    TSt.Rn d ρ π (t.steps A E S c l).1 (t'.steps A E' S c l').1 ∧
    (t'.steps A E' S c l').2 = (t.steps A E S c l).2 := by
  induction hl with
  | nil => intro t t' ht; exact ⟨ht, rfl⟩
  | @cons x x' l l' h hl ih =>
    intro t t' ht
    replace ih := ih fun y hy => hn y (List.mem_cons_of_mem _ hy)
    cases h with
    | @prepare a a' h =>
      unfold TSt.steps
      obtain ⟨h1, h2⟩ := C128_prepare al hE ht h
      rcases hy : t.prepare A E a with ⟨u, o⟩
      rcases hy' : t'.prepare A E' a' with ⟨u', o'⟩
      rw [hy, hy'] at h1 h2
      simp only at h1 h2
      subst h2
      rcases o' with (_ | e) | pv | _
      · obtain ⟨k1, k2⟩ := ih _ _ h1
        exact ⟨k1, by simp only [k2]⟩
      · exact ⟨h1, rfl⟩
      · exact ⟨h1, rfl⟩
      · exact ⟨h1, rfl⟩
    | @expect k x a a' h =>
      unfold TSt.steps
      obtain ⟨h1, h2⟩ := C128_expect al hE ht h S (x.impl c) (C128_uncounted c (hn _ List.mem_cons_self)) k
      rcases hy : t.expect A E S (x.impl c) k a with ⟨u, cs, o⟩
      rcases hy' : t'.expect A E' S (x.impl c) k a' with ⟨u', cs', o'⟩
      rw [hy, hy'] at h1 h2
      simp only at h1 h2
      obtain ⟨-, h2⟩ := h2
      subst h2
      rcases o' with _ | _ | pv | _
      · obtain ⟨k1, k2⟩ := ih _ _ h1
        exact ⟨k1, by simp only [k2]⟩
      · exact ⟨h1, rfl⟩
      · exact ⟨h1, rfl⟩
      · exact ⟨h1, rfl⟩

/-- **C128** for tests: from points on where their engines remember the same, statements end the same however
many message IDs the engines have handed out and whatever was before, and what the tests do and say is the
same but for the IDs in facts. -/
theorem C128_test (al : A.Uncounted d ρ) {E : TEnv W} {E' : TEnv W} (hE : TEnv.Alt ρ E E') (S : PScope)
    (c : RCtx) {l : List (TStep W)} {l' : List (TStep W)} (hl : AllAlt ρ l l')
    (hn : ∀ x ∈ l, x.Uncounted (fun n => n + d)) {t t' : TSt W R} (ht : TSt.OnPar d ρ t t') :
    (t'.steps A E' S c l').2 = (t.steps A E S c l).2 ∧
    t'.doing A E' S c l' = (t.doing A E S c l).map (TObs.ren fun n => n + d) := by
  have h0 : TSt.Rn d ρ ⟨t.sys.trace, t'.sys.trace, t.did, t'.did⟩ t t' := by
    refine ⟨⟨{ t.sys with trace := [] }, by simp [Sys.on], ?_⟩, ht.clock, ht.opts, ht.bound, ht.icept,
      ⟨[], by simp, by simp⟩⟩
    have ha := funext fun h => funext fun id => ht.agg h id
    have hp : t'.sys.proc =
        fun h => ⟨(t.sys.proc h).inst, (t.sys.proc h).timeouts.map (Env.ren fun n => n + d)⟩ := by
      funext h
      rw [← ht.timeouts h, ← funext fun id => ht.inst h id]
    have hc := funext fun h => ht.lastCompact h
    have hw := ht.world
    have hi := ht.nextID
    revert ha hp hc hw hi
    generalize t'.sys = s'
    obtain ⟨w, n, ag, pr, lc, tr⟩ := s'
    intro ha hp hc hw hi
    simp only at ha hp hc hw hi
    subst ha hp hc hw hi
    simp [Sys.further, Sys.ren, Sys.on]
  obtain ⟨h1, h2⟩ := steps_rn al hE S c hl hn t t' h0
  refine ⟨h2, ?_⟩
  obtain ⟨k, h, h'⟩ := h1.did
  unfold TSt.doing
  rw [h, h']
  simp

/-- **C128** for `Prepare()` that leaves nothing behind in the engine but a higher number of IDs: the test
ends as it does without it, and does and says the same but for the IDs in facts. -/
theorem C128_needless (al : A.Uncounted d ρ) {E : TEnv W} (hE : TEnv.Alt ρ E E) (S : PScope)
    (c : RCtx) {l : List (TStep W)} (hl : AllAlt ρ l l)
    (hn : ∀ x ∈ l, x.Uncounted (fun n => n + d)) {t : TSt W R} {a : Action W}
    (hp : (t.prepare A E a).2 = .done none) (ht : TSt.OnPar d ρ t (t.prepare A E a).1) :
    (t.steps A E S c (.prepare a :: l)).2 = .inl (.done none) :: (t.steps A E S c l).2 ∧
    (t.steps A E S c (.prepare a :: l)).1.did.drop (t.prepare A E a).1.did.length =
      (t.doing A E S c l).map (TObs.ren fun n => n + d) := by
  have h := C128_test al hE S c hl hn ht
  revert hp h
  rw [show t.steps A E S c (.prepare a :: l) = (match t.prepare A E a with
    | (u, .done none) => ((TSt.steps A E S c l u).1, .inl (.done none) :: (TSt.steps A E S c l u).2)
    | (u, o) => (u, [.inl o])) from by rw [TSt.steps]; rfl]
  rcases t.prepare A E a with ⟨u, o⟩
  intro hp h
  simp only at hp h
  subst hp
  exact ⟨by rw [← h.1], h.2⟩

end

/-! ## Concrete cases -/

/-- The application of C123 meets the hypothesis: its projection stores IDs and compares them. -/
theorem Demo.counting (d : Nat) : Conc.Demo.app.Uncounted d (List.map fun n => n + d) :=
  ⟨Conc.Demo.app_anon _ fun _ _ h => Nat.add_right_cancel h, fun _ => rfl, fun _ => rfl⟩

/-- Surroundings of a test. -/
def Demo.countingEnv : TEnv (List Nat) := { fuel := 20, order := fun _ => Demo.app.cfgs }

/-- A test.  One of its expectations is met if there were facts, one is not met. -/
def Demo.countingSteps : List (TStep (List Nat)) :=
  [.prepare (.dispatch (Demo.msgC "b")),
   .expect 7 (.not (.type Demo.evtF)) (.call (.exec (Demo.msgC "a") fun _ => .ret) none),
   .expect 8 (.satisfy "have facts" fun fs => if fs.isEmpty then .panic (.user "none") else .ret)
     (.advance "a while" fun c w => (w, .ok (c + 20))),
   .expect 9 (.message ⟨Demo.evtE, "nothing", none⟩) (.dispatch (Demo.msgC "a"))]

theorem Demo.countingSteps_uncounted (σ : Nat → Nat) : ∀ x ∈ Demo.countingSteps, x.Uncounted σ := by
  intro x hx
  simp only [Demo.countingSteps, List.mem_cons, List.not_mem_nil, or_false] at hx
  rcases hx with rfl | rfl | rfl | rfl
  · trivial
  · exact .not _ (.type _)
  · exact .satisfy _ _ fun fs => by simp
  · exact .message _

theorem Demo.countingSteps_alt (ρ : List Nat → List Nat) : AllAlt ρ Demo.countingSteps Demo.countingSteps :=
  .cons (.prepare (.dispatch _)) (.cons (.expect _ _ (.call (.exec _ fun _ => .ret) .none))
    (.cons (.expect _ _ (.advance _ fun _ _ => rfl)) (.cons (.expect _ _ (.dispatch _)) .nil)))

/-- A test that begins. -/
def Demo.fresh (w : List Nat) (os : List OpOption) : TSt (List Nat) (List String) := TSt.begin w 0 os none

/-- The test at a point where its engine has handed out `d` more message IDs. -/
def Demo.counted (d : Nat) (os : List OpOption) : TSt (List Nat) (List String) :=
  { Demo.fresh [0] os with sys := { (Demo.fresh [0] os).sys with w := [d], nextID := d } }

theorem Demo.counted_onPar (d : Nat) (os : List OpOption) :
    TSt.OnPar d (List.map fun n => n + d) (Demo.fresh [0] os) (Demo.counted d os) :=
  ⟨by simp [Demo.counted, Demo.fresh, TSt.begin, Sys.init], by simp [Demo.counted, Demo.fresh, TSt.begin, Sys.init],
    fun _ _ => rfl, fun _ _ => rfl, fun _ => rfl, fun _ => rfl, rfl, rfl, rfl, .none⟩

/-- `C128_test` applies. -/
example (d : Nat) (S : PScope) (c : RCtx) (os : List OpOption) :
    ((Demo.counted d os).steps Conc.Demo.app Demo.countingEnv S c Demo.countingSteps).2 =
      ((Demo.fresh [0] os).steps Conc.Demo.app Demo.countingEnv S c Demo.countingSteps).2 :=
  (C128_test (Demo.counting d) (E := Demo.countingEnv) (E' := Demo.countingEnv) ⟨rfl, fun _ => rfl, rfl⟩ S c
    (Demo.countingSteps_alt _) (Demo.countingSteps_uncounted _) (Demo.counted_onPar d os)).1

set_option maxRecDepth 100000 in
/-- How the statements of the test end, and the IDs of the messages that are dispatched in it. -/
example :
    let run := fun d => (Demo.counted d []).steps Conc.Demo.app Demo.countingEnv (Demo.scope false) Demo.ctx
      Demo.countingSteps
    (run 0).2.map TStep.endCode = [0, 0, 0, 1] ∧ (run 100).2.map TStep.endCode = [0, 0, 0, 1] ∧
    (dispatchedIn (run 100).1.sys.trace).map Env.id =
      (dispatchedIn (run 0).1.sys.trace).map fun e => e.id + 100 := by decide +kernel

/-- Options that enable integrations. -/
def Demo.integrate : List OpOption := [.enableType .integration true]

/-- A preparation that leaves nothing behind: a command for the integration. -/
def Demo.needless : Action (List Nat) := .dispatch ⟨Demo.cmdD, "z", none⟩

set_option maxRecDepth 100000 in
/-- It meets the hypotheses of `C128_needless`: it passes, and uses up two IDs. -/
theorem Demo.needless_onPar :
    let x := (Demo.fresh [] Demo.integrate).prepare Conc.Demo.app Demo.countingEnv Demo.needless
    x.2 = .done none ∧ TSt.OnPar 2 (List.map fun n => n + 2) (Demo.fresh [] Demo.integrate) x.1 := by
  refine ⟨rfl, ?_, ?_, fun _ _ => rfl, fun _ _ => rfl, fun _ => rfl, fun _ => rfl, rfl, rfl, rfl, .none⟩ <;>
    decide +kernel

/-- `C128_needless` applies. -/
example (S : PScope) (c : RCtx) :
    ((Demo.fresh [] Demo.integrate).steps Conc.Demo.app Demo.countingEnv S c
      (.prepare Demo.needless :: Demo.countingSteps)).2 = .inl (.done none) ::
    ((Demo.fresh [] Demo.integrate).steps Conc.Demo.app Demo.countingEnv S c Demo.countingSteps).2 :=
  (C128_needless (Demo.counting 2) ⟨rfl, fun _ => rfl, rfl⟩ S c (Demo.countingSteps_alt _)
    (Demo.countingSteps_uncounted _) Demo.needless_onPar.1 Demo.needless_onPar.2).1

/-- Without the condition on expectations, tests may differ: one that looks for an ID does. -/
example : ¬ (Expectation.satisfy "be about the first message" fun fs =>
      if fs.any (fun f => match f with | .dispatchBegun e => e.id = 1 | _ => false) then .ret
      else .panic (.user "none")).Uncounted (fun n => n + 100) := by
  intro h
  cases h with
  | satisfy _ _ h =>
    have := h [.dispatchBegun (Env.root 1 (Demo.msgC "a") 0)]
    revert this
    simp [Fact.ren, Env.ren, Env.root]

end Verif
