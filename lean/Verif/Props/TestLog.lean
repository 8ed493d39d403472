import Verif.TestLog
import Verif.Props.Protocol

/-!
# C85: what a test tells the `TestingT`
-/

namespace Verif

variable {W R P : Type}

/-! ## Specification -/

/-- What there is to say about a stretch of the record: every fact's line once, and what the test says
by itself. -/
def spoken (φ : LogFmt) (l : List TObs) : List Told :=
  l.flatMap fun
    | .engine _ _ facts => facts.filterMap (Fact.line φ)
    | .exec .. => []
    | .log s => [.log s]
    | .fatal e => [.fatal e]
    | .failNow => [.failNow]

/-- The states of a test between calls of `Prepare()` and `Expect()`, if no observer other than the
test's own logger has its number: the options given to `Begin()` do not contain observer 0, and the
predicates of expectations are others. -/
inductive Course (A : App W R) (E : TEnv W) : TSt W R → Prop where
  | begin (w : W) (start : Time) (os : List OpOption) (ic : Option (Message → IProg W))
      (ho : regs 0 os = []) : Course A E (TSt.begin w start os ic)
  | world {t : TSt W R} (w : W) (h : Course A E t) : Course A E { t with sys := { t.sys with w := w } }
  | prepare {t : TSt W R} (a : Action W) (h : Course A E t)
      (hr : (t.prepare A E a).2 ≠ .running) : Course A E (t.prepare A E a).1
  | expect {t : TSt W R} {P : Type} (S : PScope) (X : Expecting P) (k : Nat) (hk : k ≠ 0)
      (a : Action W) (h : Course A E t) (hr : (t.expect A E S X k a).2.2 ≠ .running) :
      Course A E (t.expect A E S X k a).1
  | enable {t : TSt W R} (b : Bool) (ns : List String) (h : Course A E t) :
      Course A E (t.enable A b ns).1
  | enableLike {t : TSt W R} (b : Bool) (pats : List (String → Bool)) (order : List String)
      (h : Course A E t) : Course A E (t.enableLike A b pats order).1

/-- Does a call of the `TestingT` mark the test as failed? -/
def Told.fails : Told → Bool
  | .log _ => false
  | .fatal _ => true
  | .failNow => true

/-! ## Proofs -/

theorem spoken_append (φ : LogFmt) (l l' : List TObs) : spoken φ (l ++ l') = spoken φ l ++ spoken φ l' := by
  simp [spoken]

theorem tells_spoken (φ : LogFmt) {l : List TObs} (h : allOpts (fun os => regs 0 os = [0]) l) :
    l.flatMap (TObs.tells φ) = spoken φ l := by
  unfold spoken
  induction l with
  | nil => rfl
  | cons x l ih =>
    rw [List.flatMap_cons, List.flatMap_cons, ih (fun c op f hm => h c op f (by simp [hm]))]
    cases x with
    | exec => rfl
    | log => rfl
    | fatal => rfl
    | failNow => rfl
    | engine c op facts =>
      have := h c op facts (by simp)
      unfold regs at this
      simp only [TObs.tells, TObs.told]
      rw [this]
      simp

theorem regs_extra {k : Nat} {os : List OpOption} (c : Time) (h : regs 0 os = [0]) (hk : k ≠ 0) :
    regs 0 (.currentTime c :: os ++ [.observer k]) = [0] := by
  rw [List.cons_append, regs_time, regs_append, h]
  have : regs 0 [OpOption.observer k] = [] := by
    simp [regs, OpOption.observerOf, hk]
  rw [this]
  rfl

theorem TSt.enable_logged (A : App W R) (b : Bool) (ns : List String) : ∀ t : TSt W R,
    regs 0 (t.enable A b ns).1.opts = regs 0 t.opts ∧ (t.enable A b ns).1.did = t.did := by
  induction ns with
  | nil => intro t; exact ⟨rfl, rfl⟩
  | cons n ns ih =>
    intro t
    unfold TSt.enable
    split
    · exact ⟨rfl, rfl⟩
    · split
      · exact ⟨rfl, rfl⟩
      · refine ⟨((ih _).1).trans ?_, (ih _).2⟩
        simp only [regs_append]
        exact List.append_nil _

theorem Action.run_logged (A : App W R) (E : TEnv W) (a : Action W) (extra : List OpOption)
    (he : extra = [] ∨ ∃ k, k ≠ 0 ∧ extra = [.observer k]) (t : TSt W R) (h : regs 0 t.opts = [0]) :
    ∃ l, (a.run A E extra t).1.did = t.did ++ l ∧ allOpts (fun os => regs 0 os = [0]) l := by
  refine a.run_opts A E _ (by intro os c h; rw [regs_append, h]; rfl) extra t ?_ (fun c => h)
  intro c
  rcases he with rfl | ⟨k, hk, rfl⟩
  · rw [List.append_nil]; exact h
  · exact regs_extra c h hk

theorem Course.logged {A : App W R} {E : TEnv W} {t : TSt W R} (h : Course A E t) :
    regs 0 t.opts = [0] ∧ allOpts (fun os => regs 0 os = [0]) t.did := by
  induction h with
  | begin w start os ic ho =>
    refine ⟨?_, nofun⟩
    show regs 0 ([.enableType .projection false, .enableType .integration false, .observer 0] ++ os) = _
    rw [regs_append, ho]
    rfl
  | world w h ih => exact ih
  | prepare a h hr ih =>
    rename_i t
    obtain ⟨l, h1, h2⟩ := a.run_logged A E [] (.inl rfl) (t.announce a) ih.1
    obtain ⟨post, hs, e, -⟩ := TSt.check_spec E (a.run A E [] (t.announce a))
    refine ⟨?_, ?_⟩
    · have := (a.run_after A E [] (t.announce a)).opts
      show regs 0 (TSt.check E (a.run A E [] (t.announce a))).1.opts = _
      rw [e]
      exact (congrArg (regs 0) this).trans ih.1
    · show allOpts _ (TSt.check E (a.run A E [] (t.announce a))).1.did
      rw [e]
      simp only [h1]
      exact ((ih.2.append (allOpts_said (by simp [TObs.isSaid]))).append h2).append (allOpts_said hs)
  | expect S X k hk a h hr ih =>
    rename_i t _
    rcases t.expect_state A E S X k a hr with ⟨post, hs, e⟩ | ⟨c, post, hs, -, e⟩
    · rw [e]; exact ⟨ih.1, ih.2.append (allOpts_said hs)⟩
    · obtain ⟨l, h1, h2⟩ := a.run_logged A E [.observer k] (.inr ⟨k, hk, rfl⟩)
        (t.say (.log (a.expectLine c))) ih.1
      have := (a.run_after A E [.observer k] (t.say (.log (a.expectLine c)))).opts
      rw [e]
      refine ⟨(congrArg (regs 0) this).trans ih.1, ?_⟩
      simp only [h1]
      exact ((ih.2.append (allOpts_said (by simp [TObs.isSaid]))).append h2).append (allOpts_said hs)
  | enable b ns h ih =>
    obtain ⟨h1, h2⟩ := TSt.enable_logged A b ns (by assumption)
    rw [h1, h2]; exact ih
  | enableLike b pats order h ih =>
    unfold TSt.enableLike
    split
    · refine ⟨?_, ih.2⟩
      simp only [regs_append, ih.1]
      have : regs 0 (order.map (fun n => OpOption.enableHandler n b)) = [] := by
        simp [regs, OpOption.observerOf, List.filterMap_map, Function.comp_def]
      rw [this]
      rfl
    · exact ih

theorem notified_calls (fs : List Fact) :
    notified (.build :: fs.map .notify ++ [.done, .ok, .report]) = fs := by
  show notified (fs.map .notify ++ [.done, .ok, .report]) = fs
  unfold notified
  rw [List.filterMap_append, ← notified, notified_map]
  simp

/-! ## Theorems -/

/-- **C85.** In every test, what the `TestingT` was told is the line of every fact of every engine
operation, once each, and the test's own words, all in the order in which things happened; be the
operations in actions, in functions given to `Call()`, or in interceptors. -/
theorem C85_complete {A : App W R} {E : TEnv W} (φ : LogFmt) {t : TSt W R} (h : Course A E t) :
    t.output φ = spoken φ t.did :=
  tells_spoken φ h.logged.2

/-- **C85.** `Prepare(action)` tells the `TestingT` the caption of the action, then what there is to
say about the action, and then, iff the action returned an error, calls `Fatal()` with that error. -/
theorem C85_prepare {A : App W R} {E : TEnv W} (φ : LogFmt) {t : TSt W R} (h : Course A E t)
    (a : Action W) :
    ∃ l, (a.run A E [] t).1.did = t.did ++ l ∧
      (t.prepare A E a).1.output φ = t.output φ ++
        .log ("--- " ++ a.caption ++ " ---") :: spoken φ l ++
        (match (a.run A E [] t).2 with
          | .done (some e) => [.fatal e]
          | _ => []) := by
  obtain ⟨l, hl, hrun⟩ := a.run_did A E [] t
  obtain ⟨l', h1, h2⟩ := a.run_logged A E [] (.inl rfl) t h.logged.1
  obtain rfl : l' = l := List.append_cancel_left (h1.symm.trans hl)
  refine ⟨l', hl, ?_⟩
  have hr := hrun (t.did ++ [.log a.prepareLine])
  rw [show ({ t with did := t.did ++ [TObs.log a.prepareLine] } : TSt W R) = t.announce a from rfl] at hr
  unfold TSt.prepare
  rw [hr]
  rcases ho : (a.run A E [] t).2 with (_ | e) | v | _
  all_goals
    simp only [TSt.check, TSt.say, TSt.output, List.flatMap_append, tells_spoken φ h2,
      List.append_nil]
    simp [TObs.tells, Action.prepareLine, List.append_assoc]

/-- **C85.** The same goes for `Prepare(action)` in a function given to `Call()` (which changes none of
the options of the test): the caption, what there is to say about the action and its error come next,
before anything else that the function does. -/
theorem C85_nested {A : App W R} {E : TEnv W} (φ : LogFmt) {t : TSt W R} (h : Course A E t)
    (a : Action W) (k : TRes → CProg W) (t1 : TSt W R) (ho : t1.opts = t.opts) :
    ∃ l rest, (a.run A E [] t1).1.did = t1.did ++ l ∧
      ((CProg.act a k).run A E t1).1.output φ = t1.output φ ++
        .log ("--- " ++ a.caption ++ " ---") :: spoken φ l ++
        (match (a.run A E [] t1).2 with
          | .done (some e) => [.fatal e]
          | _ => []) ++ rest := by
  obtain ⟨l, hl, hrun⟩ := a.run_did A E [] t1
  obtain ⟨l', h1, h2⟩ := a.run_logged A E [] (.inl rfl) t1 (by rw [ho]; exact h.logged.1)
  obtain rfl : l' = l := List.append_cancel_left (h1.symm.trans hl)
  have hr := hrun (t1.did ++ [.log a.prepareLine])
  rw [show ({ t1 with did := t1.did ++ [TObs.log a.prepareLine] } : TSt W R) = t1.announce a from rfl] at hr
  have more : ∀ (p : CProg W) (t2 : TSt W R), ∃ m, (p.run A E t2).1.did = t2.did ++ m := by
    intro p t2
    have := p.run_past A E t2.did { t2 with did := [] }
    rw [show TSt.past t2.did { t2 with did := [] } = t2 by simp [TSt.past]] at this
    exact ⟨(p.run A E { t2 with did := [] }).1.did, by rw [this]; rfl⟩
  have fin : ∀ (t2 t3 : TSt W R) (m : List TObs), t3.did = t2.did ++ m →
      t3.output φ = t2.output φ ++ m.flatMap (TObs.tells φ) := by
    intro t2 t3 m hm
    simp [TSt.output, hm]
  suffices hc : ∃ m, ((CProg.act a k).run A E t1).1.did = (TSt.check E (a.run A E [] (t1.announce a))).1.did ++ m by
    obtain ⟨m, hm⟩ := hc
    refine ⟨l', m.flatMap (TObs.tells φ), hl, ?_⟩
    rw [fin _ _ m hm]
    congr 1
    rw [hr]
    rcases ho : (a.run A E [] t1).2 with (_ | e) | v | _
    all_goals
      simp only [TSt.check, TSt.say, TSt.output, List.flatMap_append, tells_spoken φ h2,
        List.append_nil]
      simp [TObs.tells, Action.prepareLine, List.append_assoc]
  simp only [CProg.run]
  rcases TSt.check E (a.run A E [] (t1.announce a)) with ⟨t2, e | v | _⟩
  · exact more (k (.ok e)) t2
  · exact more (k (.error v)) t2
  · exact ⟨[], by simp⟩

/-- **C85.** `Expect()` tells the `TestingT` the captions of the action and of the expectation, then
what there is to say about the action, and last what became of it: `Fatal()` with the error of the
expectation or of the action, or else the report, with `FailNow()` after it iff the test fails; nothing
if there was a panic. -/
theorem C85_expect {A : App W R} {E : TEnv W} (φ : LogFmt) {t : TSt W R} (h : Course A E t)
    (S : PScope) (X : Expecting P) (k : Nat) (hk : k ≠ 0) (a : Action W)
    {t' : TSt W R} {calls : List ECall} {e : EEnd}
    (hx : t.expect A E S X k a = (t', calls, e)) (he : e ≠ .running) :
    (∃ v, X.caption = .error v ∧ e = .panicked v ∧ t'.output φ = t.output φ) ∨
    ∃ c told last, X.caption = .ok c ∧
      t'.output φ = t.output φ ++ .log ("--- expect " ++ a.caption ++ " " ++ c ++ " ---") :: told ++ last ∧
      ((X.build (a.scope S)).isOk = false → told = []) ∧
      ((X.build (a.scope S)).isOk = true → ∃ l, (a.run A E [.observer k] t).1.did = t.did ++ l ∧
        told = spoken φ l) ∧
      match e with
      | .panicked _ => last = []
      | .passed => ∃ p p', X.build (a.scope S) = .ok p ∧
        X.finish (a.scope S) (notified calls) p = (p', none) ∧ X.ok p' = .ok true ∧
        ∃ r, X.report true p' = .ok r ∧ last = [.log (reportText r)]
      | .failed =>
        (∃ msg, X.build (a.scope S) = .err msg ∧ last = [.fatal (.expectation msg)]) ∨
        (∃ r, t.actionResult A E k a = .done (some r) ∧ last = [.fatal r]) ∨
        ∃ p p', X.build (a.scope S) = .ok p ∧
          X.finish (a.scope S) (notified calls) p = (p', none) ∧ X.ok p' = .ok false ∧
          ∃ r, X.report false p' = .ok r ∧ last = [.log (reportText r), .failNow]
      | .running => False := by
  rcases expect_cases A E S X k a t hx he with ⟨v, hc, rfl, -, rfl⟩ | ⟨c, hc,
    ⟨v, hb, rfl, -, rfl⟩ | ⟨msg, hb, rfl, -, rfl⟩ | ⟨p, fs, p', v, l, post, hb, hl, rfl, -, hd, hend⟩⟩
  · exact .inl ⟨v, hc, rfl, rfl⟩
  · right
    refine ⟨c, [], [], hc, ?_, fun _ => rfl, by rw [hb]; nofun, rfl⟩
    simp [TSt.output, TObs.tells, Action.expectLine]
  · right
    refine ⟨c, [], _, hc, ?_, fun _ => rfl, by rw [hb]; nofun, .inl ⟨msg, hb, rfl⟩⟩
    simp [TSt.output, TObs.tells, Action.expectLine]
  · right
    obtain ⟨l', h1, h2⟩ := a.run_logged A E [.observer k] (.inr ⟨k, hk, rfl⟩) t h.logged.1
    obtain rfl : l' = l := List.append_cancel_left (h1.symm.trans hl)
    refine ⟨c, spoken φ l', post.flatMap (TObs.tells φ), hc, ?_, ?_, ?_, ?_⟩
    · simp only [TSt.output, List.flatMap_append, List.flatMap_cons, tells_spoken φ h2]
      simp [TObs.tells, Action.expectLine]
    · rw [hb]; nofun
    · exact fun _ => ⟨l', hl, rfl⟩
    · rcases hend with ⟨w, -, -, rfl, rfl⟩ | ⟨r, w, -, -, -, rfl, rfl⟩ | ⟨r, hr, -, -, rfl, rfl⟩ |
        ⟨hr, rfl, ⟨w, -, -, rfl, rfl⟩ | ⟨b, hok, hcalls, ⟨w, -, rfl, rfl⟩ | ⟨r, hrep, rfl, rfl⟩⟩⟩
      · rfl
      · rfl
      · exact .inr (.inl ⟨r, hr, rfl⟩)
      · rfl
      · rfl
      · have hf : X.finish (a.scope S) (notified calls) p = (p', none) := by
          rw [hcalls, notified_calls]; exact hd
        cases b
        · exact .inr (.inr ⟨p, p', hb, hf, hok, r, hrep, rfl⟩)
        · exact ⟨p, p', hb, hf, hok, r, hrep, rfl⟩

theorem reportText_head (r : Report) :
    ∃ rest, reportText r = "--- TEST REPORT ---\n\n" ++ (if r.ok then "✓ " else "✗ ") ++ rest := by
  obtain ⟨t, ok, criteria, outcome, explanation, sections, subReports⟩ := r
  refine ⟨String.ofList (criteria.toList ++
    (if outcome ≠ "" then " (".toList ++ outcome.toList ++ [')'] else []) ++ ['\n'] ++
      renderBody explanation sections ++ indentText subReportsIndent (Report.renderAll subReports)), ?_⟩
  unfold reportText Report.render renderHead
  rw [String.append_assoc]
  congr 1
  simp only [List.append_assoc, String.ofList_append, String.ofList_toList]

/-- **C85.** The first line of the report of an expectation begins with the sign of the verdict: the
check mark iff the test goes on, the cross iff `FailNow()` is called (for expectations whose
user-written parts, if any, report what they decide). -/
theorem C85_report {A : App W R} {E : TEnv W} (φ : LogFmt) {t : TSt W R} (h : Course A E t)
    (S : PScope) (x : Expectation) (ctx : RCtx) (k : Nat) (hk : k ≠ 0) (a : Action W)
    (hh : x.Honest (a.scope S)) {t' : TSt W R} {calls : List ECall} {e : EEnd}
    (hx : t.expect A E S (x.impl ctx) k a = (t', calls, e)) (he : e ≠ .running) :
    (e = .passed → ∃ before rest, t'.output φ =
      before ++ [.log ("--- TEST REPORT ---\n\n✓ " ++ rest)]) ∧
    (e = .failed → (∃ before err, t'.output φ = before ++ [.fatal err]) ∨
      ∃ before rest, t'.output φ =
        before ++ [.log ("--- TEST REPORT ---\n\n✗ " ++ rest), .failNow]) := by
  have key : ∀ p p', (x.impl ctx).build (a.scope S) = .ok p →
      (x.impl ctx).finish (a.scope S) (notified calls) p = (p', none) →
      ∃ rest, reportText (p'.report { ctx with treeOk := p'.ok, inverted := false }) =
        "--- TEST REPORT ---\n\n" ++ (if p'.ok then "✓ " else "✗ ") ++ rest := by
    intro p p' hb hf
    have hp : (x.build (a.scope S)).2 = .ok p := by
      simp only [Expectation.impl] at hb
      split at hb
      · cases hb; assumption
      · cases hb
      · cases hb
    have hq : (p.observe (a.scope S) (notified calls)).done = (p', none) := by
      have hfin : (x.impl ctx).finish (a.scope S) (notified calls) p =
        ((p.observe (a.scope S) (notified calls)).done.1,
          (p.observe (a.scope S) (notified calls)).done.2.map .user) := rfl
      rw [hfin] at hf
      rcases hd : (p.observe (a.scope S) (notified calls)).done with ⟨q, _ | v⟩
      · rw [hd] at hf; cases hf; rfl
      · rw [hd] at hf; simp at hf
    obtain ⟨rest, hr⟩ := reportText_head
      (p'.report { ctx with treeOk := p'.ok, inverted := false })
    have hok : (p'.report { ctx with treeOk := p'.ok, inverted := false }).ok = p'.ok :=
      (report_ok p' (hh.reported hp hq) _).1
    rw [hok] at hr
    exact ⟨rest, hr⟩
  have tick : ∀ rest, "--- TEST REPORT ---\n\n" ++ "✓ " ++ rest = "--- TEST REPORT ---\n\n✓ " ++ rest :=
    fun _ => rfl
  have cross : ∀ rest, "--- TEST REPORT ---\n\n" ++ "✗ " ++ rest = "--- TEST REPORT ---\n\n✗ " ++ rest :=
    fun _ => rfl
  rcases C85_expect φ h S (x.impl ctx) k hk a hx he with ⟨v, -, rfl, -⟩ |
    ⟨c, told, last, -, ho, -, -, hl⟩
  · exact ⟨nofun, nofun⟩
  · cases e with
    | running => exact absurd rfl he
    | panicked v => exact ⟨nofun, nofun⟩
    | passed =>
      refine ⟨fun _ => ?_, nofun⟩
      obtain ⟨p, p', hb, hf, hok, r, hrep, rfl⟩ := hl
      obtain ⟨rest, hr⟩ := key p p' hb hf
      replace hok : p'.ok = true := Except.ok.inj hok
      cases hrep
      rw [hok] at hr
      exact ⟨_, rest, by rw [ho, hr, if_pos rfl, tick]⟩
    | failed =>
      refine ⟨nofun, fun _ => ?_⟩
      rcases hl with ⟨msg, -, rfl⟩ | ⟨r, -, rfl⟩ | ⟨p, p', hb, hf, hok, r, hrep, rfl⟩
      · exact .inl ⟨_, _, ho⟩
      · exact .inl ⟨_, _, ho⟩
      · right
        obtain ⟨rest, hr⟩ := key p p' hb hf
        replace hok : p'.ok = false := Except.ok.inj hok
        cases hrep
        rw [hok] at hr
        exact ⟨_, rest, by rw [ho, hr, if_neg (by decide), cross]⟩

/-! The test is marked as failed iff something failed. -/

theorem CProg.flat_silent (A : App W R) (E : TEnv W) {q : CProg W} (hq : q.Flat) :
    ∀ (t : TSt W R), ∃ l, (q.run A E t).1.did = t.did ++ l ∧ ∀ o ∈ l, o.isSaid = false := by
  induction hq with
  | ret => intro t; unfold CProg.run; exact ⟨[], by simp, nofun⟩
  | panic v => intro t; unfold CProg.run; exact ⟨[], by simp, nofun⟩
  | get k h ih => intro t; unfold CProg.run; exact ih _ t
  | set w k h ih =>
    intro t; unfold CProg.run; exact ih { t with sys := { t.sys with w := w } }
  | exec m k h ih =>
    intro t
    unfold CProg.run
    obtain ⟨g1, l, g2, g3⟩ := t.execute_same A E m
    have hl : ∀ o ∈ .exec m t.bound.isSome :: l, o.isSaid = false := by
      intro o ho
      rcases List.mem_cons.1 ho with rfl | ho
      · rfl
      · obtain ⟨os', hb', hd⟩ := g3 o ho
        cases o with
        | engine => rfl
        | exec => rfl
        | log => exact hd.elim
        | fatal => exact hd.elim
        | failNow => exact hd.elim
    rcases hx : t.execute A E m with ⟨t1, o⟩
    rw [hx] at g1 g2
    have go : ∀ r, ∃ l', ((k r).run A E t1).1.did = t.did ++ l' ∧ ∀ o ∈ l', o.isSaid = false := by
      intro r
      obtain ⟨l', i1, i2⟩ := ih r t1
      refine ⟨_, by rw [i1, g2, List.append_assoc], fun o ho => ?_⟩
      rcases List.mem_append.1 ho with ho | ho
      · exact hl o ho
      · exact i2 o ho
    cases o with
    | done e => exact go _
    | panicked v => exact go _
    | running => exact ⟨_, g2, hl⟩

theorem Action.flat_silent (A : App W R) (E : TEnv W) {a : Action W} (ha : a.Flat)
    (extra : List OpOption) (t : TSt W R) :
    ∃ l, (a.run A E extra t).1.did = t.did ++ l ∧ ∀ o ∈ l, o.isSaid = false := by
  cases ha with
  | dispatch m =>
    unfold Action.run
    split
    · exact ⟨_, rfl, by simp [TObs.isSaid]⟩
    · exact ⟨[], by simp, nofun⟩
  | advance desc step =>
    unfold Action.run
    rcases step t.clock t.sys.w with ⟨w, v | now⟩
    · exact ⟨[], by simp, nofun⟩
    · simp only
      split
      · exact ⟨[], by simp, nofun⟩
      · exact ⟨_, rfl, by simp [TObs.isSaid]⟩
  | call fn ic hf =>
    obtain ⟨l, g1, g2⟩ := CProg.flat_silent A E hf
      { t with bound := some (t.actOpts extra), icept := ic.or t.icept }
    refine ⟨l, ?_, g2⟩
    unfold Action.run
    rcases hx : fn.run A E { t with bound := some (t.actOpts extra), icept := ic.or t.icept }
      with ⟨t1, o⟩
    rw [hx] at g1
    cases o <;> exact g1

theorem spoken_logs (φ : LogFmt) {l : List TObs} (h : ∀ o ∈ l, o.isSaid = false) :
    ∀ x ∈ spoken φ l, x.fails = false := by
  intro x hx
  obtain ⟨o, ho, hm⟩ := List.mem_flatMap.1 hx
  have hs := h o ho
  cases o with
  | engine c op facts =>
    obtain ⟨f, -, hf⟩ := List.mem_filterMap.1 hm
    unfold Fact.line at hf
    cases hlf : logFact φ f with
    | none => rw [hlf] at hf; cases hf
    | some s => rw [hlf] at hf; cases hf; rfl
  | exec => cases hm
  | log => cases hs
  | fatal => cases hs
  | failNow => cases hs

/-- **C85.** A `Prepare()` whose action performs no other actions marks the test as failed iff the
action returned an error. -/
theorem C85_prepare_marks {A : App W R} {E : TEnv W} (φ : LogFmt) {t : TSt W R} (h : Course A E t)
    (a : Action W) (ha : a.Flat) :
    ∃ told, (t.prepare A E a).1.output φ = t.output φ ++ told ∧
      ((∃ x ∈ told, x.fails = true) ↔ ∃ e, (a.run A E [] t).2 = .done (some e)) := by
  obtain ⟨l, h1, h2⟩ := C85_prepare φ h a
  obtain ⟨l', h3, h4⟩ := Action.flat_silent A E ha [] t
  obtain rfl : l' = l := List.append_cancel_left (h3.symm.trans h1)
  have hs := spoken_logs φ h4
  refine ⟨_, by rw [h2, List.append_assoc], ?_⟩
  constructor
  · rintro ⟨x, hx, hf⟩
    rcases List.mem_append.1 hx with hx | hx
    · rcases List.mem_cons.1 hx with rfl | hx
      · cases hf
      · rw [hs x hx] at hf; cases hf
    · split at hx
      · rename_i e he; exact ⟨e, he⟩
      · cases hx
  · rintro ⟨e, he⟩
    refine ⟨.fatal e, ?_, rfl⟩
    rw [he]
    simp

/-- **C85.** An `Expect()` whose action performs no other actions marks the test as failed iff it
ends as failed. -/
theorem C85_expect_marks {A : App W R} {E : TEnv W} (φ : LogFmt) {t : TSt W R} (h : Course A E t)
    (S : PScope) (X : Expecting P) (k : Nat) (hk : k ≠ 0) (a : Action W) (ha : a.Flat)
    {t' : TSt W R} {calls : List ECall} {e : EEnd}
    (hx : t.expect A E S X k a = (t', calls, e)) (he : e ≠ .running) :
    ∃ told, t'.output φ = t.output φ ++ told ∧ ((∃ x ∈ told, x.fails = true) ↔ e = .failed) := by
  rcases C85_expect φ h S X k hk a hx he with ⟨v, -, rfl, ho⟩ |
    ⟨c, told, last, -, ho, hn, hy, hl⟩
  · exact ⟨[], by simpa using ho, by simp⟩
  · have ht : ∀ x ∈ told, x.fails = false := by
      cases hb : (X.build (a.scope S)).isOk with
      | false => rw [hn hb]; nofun
      | true =>
        obtain ⟨l, h1, rfl⟩ := hy hb
        obtain ⟨l', h3, h4⟩ := Action.flat_silent A E ha [.observer k] t
        obtain rfl : l' = l := List.append_cancel_left (h3.symm.trans h1)
        exact spoken_logs φ h4
    refine ⟨_, by rw [ho, List.append_assoc], ?_⟩
    have hm : (∃ x ∈ (Told.log ("--- expect " ++ a.caption ++ " " ++ c ++ " ---") :: told ++ last),
        x.fails = true) ↔ ∃ x ∈ last, x.fails = true := by
      constructor
      · rintro ⟨x, hx, hf⟩
        rcases List.mem_append.1 hx with hx | hx
        · rcases List.mem_cons.1 hx with rfl | hx
          · cases hf
          · rw [ht x hx] at hf; cases hf
        · exact ⟨x, hx, hf⟩
      · rintro ⟨x, hx, hf⟩
        exact ⟨x, List.mem_append_right _ hx, hf⟩
    refine hm.trans ?_
    cases e with
    | running => exact absurd rfl he
    | panicked v => subst hl; simp
    | passed =>
      obtain ⟨p, p', -, -, -, r, -, rfl⟩ := hl
      simp [Told.fails]
    | failed =>
      rcases hl with ⟨msg, -, rfl⟩ | ⟨r, -, rfl⟩ | ⟨p, p', -, -, -, r, -, rfl⟩ <;> simp [Told.fails]

/-! ## Instances -/

namespace Demo

/-- Texts of times, types and messages. -/
def testFmt : LogFmt := ⟨fun _ => "now", fun t => t.name, fun m => m.body⟩

/-- What is said in a call, by kind. -/
def saidKind : Told → Nat
  | .log _ => 1
  | .fatal _ => 2
  | .failNow => 3

/-- What a call of `Expect()` in the demo test tells, by kind; and its end. -/
def toldBy (a : Action Nat) (x : Expectation) : List Nat × EEnd :=
  let r := t0.expect app tenv (scope false) (x.impl ctx) 7 a
  ((r.1.output testFmt).map saidKind, r.2.2)

end Demo

/-- The beginning of a test without options of its own. -/
theorem Demo.t0_course : Course Demo.app Demo.tenv Demo.t0 := .begin 0 100 [] none rfl

set_option maxRecDepth 100000 in
example : Course Demo.app Demo.tenv Demo.t0 ∧
    (Expectation.type Demo.evtE).Honest (Demo.scope false) ∧
    Demo.toldBy (.dispatch (Demo.msgC "x")) (.type Demo.evtE) = (List.replicate 21 1, .passed) ∧
    Demo.toldBy (.dispatch (Demo.msgC "x")) (.not (.type Demo.evtE)) =
      (List.replicate 21 1 ++ [3], .failed) ∧
    Demo.toldBy (.dispatch (Demo.msgC "x")) (.type Demo.cmdC) = ([1, 2], .failed) ∧
    Demo.toldBy (.dispatch ⟨⟨.command, "Z"⟩, "", none⟩) (.type Demo.evtE) = ([1, 2], .failed) ∧
    Demo.toldBy (.call (.exec (Demo.msgC "x") fun _ => .panic (.user "oops")) none)
      (.type Demo.evtE) = (List.replicate 20 1, .panicked (.user "oops")) :=
  ⟨Demo.t0_course, by simp [Expectation.Honest], by decide +kernel⟩

set_option maxRecDepth 100000 in
/-- `Call()` of a function that executes a command and then prepares another action: the captions of
both actions, in order, and the facts of both. -/
example :
    let t := (Demo.t0.prepare Demo.app Demo.tenv
      (.call (.exec (Demo.msgC "x") fun _ => Demo.inner) none)).1
    (t.output Demo.testFmt).length = 39 ∧
    (t.did.filterMap fun | .log s => some s | _ => none) =
      ["--- calling user-defined function ---", "--- executing C command ---"] := by
  decide +kernel

end Verif
