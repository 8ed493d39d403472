import Verif.ExpectRefine

/-!
# `ToSatisfy` (C51, C52)
-/

namespace Verif

/-- Methods that mark the test as failed. -/
def SOp.fails : SOp → Bool
  | .error _ _ | .fail | .failNow | .fatal _ _ => true
  | _ => false

/-- Methods that mark the test as skipped. -/
def SOp.skips : SOp → Bool
  | .skip _ _ | .skipNow => true
  | _ => false

/-- Methods that stop the function. -/
def SOp.aborts : SOp → Bool
  | .failNow | .fatal _ _ | .skip _ _ | .skipNow => true
  | _ => false

/-- A method with the given property was called. -/
def calledSome (P : SOp → Bool) (l : List SEvent) : Prop := ∃ o st, SEvent.called o st ∈ l ∧ P o = true

/-- The cleanup functions called, in order. -/
def cleanings (l : List SEvent) : List Nat := l.filterMap fun
  | .cleaning i => some i
  | _ => none

/-- The cleanup functions registered, in order. -/
def registrations (l : List SEvent) : List Nat := l.filterMap fun
  | .registered i => some i
  | _ => none

theorem calledSome_append (P : SOp → Bool) (a b : List SEvent) :
    calledSome P (a ++ b) ↔ calledSome P a ∨ calledSome P b := by
  constructor
  · rintro ⟨o, st, ho, hp⟩
    rcases List.mem_append.1 ho with h | h
    · exact .inl ⟨o, st, h, hp⟩
    · exact .inr ⟨o, st, h, hp⟩
  · rintro (⟨o, st, ho, hp⟩ | ⟨o, st, ho, hp⟩)
    · exact ⟨o, st, by simp [ho], hp⟩
    · exact ⟨o, st, by simp [ho], hp⟩

/-- What the flags mean. -/
def SatT.Flags (t : SatT) : Prop :=
  (t.failed = true ↔ calledSome SOp.fails t.did) ∧ (t.skipped = true ↔ calledSome SOp.skips t.did)

theorem calledSome_one (P : SOp → Bool) (o : SOp) (st : CallStack) : calledSome P [.called o st] ↔ P o = true := by
  constructor
  · rintro ⟨x, y, hx, hp⟩
    simp at hx; rwa [← hx.1]
  · intro h; exact ⟨o, st, by simp, h⟩

theorem SOp.exec_did (t : SatT) (st : CallStack) (o : SOp) :
    (o.exec t st).1.did = t.did ∧ (o.exec t st).1.cleanup = t.cleanup ∧
    (o.exec t st).1.failed = (t.failed || o.fails) ∧ (o.exec t st).1.skipped = (t.skipped || o.skips) ∧
    ((o.exec t st).2 = .aborted ↔ o.aborts = true) := by
  cases o <;>
    simp [SOp.exec, SatT.log, SatT.fail, SatT.skip, SatT.explain, SOp.fails, SOp.skips, SOp.aborts] <;>
    (try (cases t.explanation <;> simp))

theorem SatT.Flags.note {t : SatT} (h : t.Flags) {e : SEvent} (he : ∀ o st, e ≠ .called o st) :
    (t.note e).Flags := by
  have : ∀ P, ¬ calledSome P [e] := by
    rintro P ⟨o, st, ho, _⟩
    simp at ho; exact he o st ho.symm
  constructor
  · show t.failed = true ↔ calledSome _ (t.did ++ [e])
    rw [calledSome_append, h.1]
    simp [this]
  · show t.skipped = true ↔ calledSome _ (t.did ++ [e])
    rw [calledSome_append, h.2]
    simp [this]

theorem SProg.exec_flags (p : SProg) : ∀ t : SatT, t.Flags → (p.exec t).1.Flags := by
  induction p with
  | ret => intro t h; exact h
  | panic v => intro t h; exact h
  | op o st k ih =>
    intro t h
    unfold SProg.exec
    rcases hx : o.exec (t.note (.called o st)) st with ⟨t', r⟩
    simp only
    apply ih
    obtain ⟨h1, -, h3, h4, -⟩ := SOp.exec_did (t.note (.called o st)) st o
    rw [hx] at h1 h3 h4
    simp only at h1 h3 h4
    have hd : t'.did = t.did ++ [.called o st] := h1
    constructor
    · rw [h3, hd, calledSome_append, calledSome_one, ← h.1]
      simp [SatT.note]
    · rw [h4, hd, calledSome_append, calledSome_one, ← h.2]
      simp [SatT.note]
  | cleanup fn k _ ih =>
    intro t h
    unfold SProg.exec
    apply ih
    exact h.note (by simp)

theorem SatT.close_flags (n : Nat) : ∀ t : SatT, t.Flags → (t.close n).1.Flags := by
  induction n with
  | zero => intro t h; exact h
  | succ n ih =>
    intro t h
    unfold SatT.close
    cases hc : t.cleanup[n]? with
    | none => exact h
    | some fn =>
      simp only
      have h1 := fn.exec_flags (t.note (.cleaning n)) (h.note (by simp))
      rcases hx : fn.exec (t.note (.cleaning n)) with ⟨t', v⟩
      rw [hx] at h1
      cases v with
      | some v => exact h1
      | none => exact ih t' h1

theorem satDone_flags (fn : SProg) : (satDone fn {}).1.Flags := by
  have h0 : (({} : SatT)).Flags := by
    constructor <;> simp [calledSome]
  have h1 := fn.exec_flags {} h0
  unfold satDone
  rcases hx : fn.exec {} with ⟨t, r⟩
  rw [hx] at h1
  simp only
  have h2 := SatT.close_flags t.cleanup.length t h1
  rcases hy : t.close t.cleanup.length with ⟨t', v⟩
  rw [hy] at h2
  cases v <;> exact h2

/-- **C51.**  The function is given all facts of the action, in order; and the expectation passes
iff the function (or a cleanup function) skipped, or nothing failed. -/
theorem C51_verdict (s : PScope) (fs : List Fact) (d : String) (fn : List Fact → SProg) :
    ∃ t crash, satDone (fn fs) {} = (t, crash) ∧
      (∀ v, crash = some v → (Expectation.satisfy d fn).verdict s fs = .crashed v) ∧
      (crash = none → ∃ b, (Expectation.satisfy d fn).verdict s fs = .decided b ∧
        (b = true ↔ calledSome SOp.skips t.did ∨ ¬ calledSome SOp.fails t.did)) := by
  have hf := satDone_flags (fn fs)
  rcases hd : satDone (fn fs) {} with ⟨t, crash⟩
  rw [hd] at hf
  refine ⟨t, crash, rfl, ?_, ?_⟩
  · rintro v rfl
    unfold Expectation.verdict Expectation.build judgeBuilt
    simp only [Pred.verdict, observe_satisfy, Pred.done, List.nil_append, hd]
  · rintro rfl
    refine ⟨t.ok, ?_, ?_⟩
    · unfold Expectation.verdict Expectation.build judgeBuilt
      simp only [Pred.verdict, observe_satisfy, Pred.done, List.nil_append, hd, Pred.ok]
    · rw [← hf.1, ← hf.2]
      simp [SatT.ok]

/-- A function without `recover()`: a panic raised by a method escapes it.  (The functions it
registers need not be like that.) -/
inductive SProg.Direct : SProg → Prop
  | ret : SProg.Direct .ret
  | panic (s : String) : SProg.Direct (.panic (.user s))
  | op (o : SOp) (st : CallStack) (k : SRes → SProg) : k .aborted = .panic .abort →
      (∀ b, SProg.Direct (k (.returned b))) → SProg.Direct (.op o st k)
  | cleanup (fn k : SProg) : SProg.Direct k → SProg.Direct (.cleanup fn k)

/-- Running a function extends the log and the list of cleanup functions, and calls no cleanup
functions. -/
theorem SProg.exec_ext (q : SProg) : ∀ u : SatT, ∃ l c, (q.exec u).1.did = u.did ++ l ∧
    (q.exec u).1.cleanup = u.cleanup ++ c ∧ cleanings l = [] ∧
    registrations l = List.range' u.cleanup.length c.length := by
  induction q with
  | ret => intro u; exact ⟨[], [], by simp [SProg.exec, cleanings, registrations]⟩
  | panic v => intro u; exact ⟨[], [], by simp [SProg.exec, cleanings, registrations]⟩
  | op o st k ih =>
    intro u
    unfold SProg.exec
    rcases hy : o.exec (u.note (.called o st)) st with ⟨u', r⟩
    obtain ⟨g1, g2, -⟩ := SOp.exec_did (u.note (.called o st)) st o
    rw [hy] at g1 g2
    simp only at g1 g2
    obtain ⟨l, c, hl, hc, h3, h4⟩ := ih r u'
    refine ⟨.called o st :: l, c, ?_, ?_, ?_, ?_⟩
    · simp only [hl, g1]; simp [SatT.note]
    · simp only [hc, g2]; simp [SatT.note]
    · simpa [cleanings] using h3
    · rw [g2] at h4
      simpa [registrations, SatT.note] using h4
  | cleanup fn k _ ih =>
    intro u
    unfold SProg.exec
    obtain ⟨l, c, hl, hc, h3, h4⟩ :=
      ih { u.note (.registered u.cleanup.length) with cleanup := u.cleanup ++ [fn] }
    refine ⟨.registered u.cleanup.length :: l, fn :: c, ?_, ?_, ?_, ?_⟩
    · rw [hl]; simp [SatT.note]
    · rw [hc]; simp
    · simpa [cleanings] using h3
    · have h4' : registrations l = List.range' (u.cleanup.length + 1) c.length := by
        simpa using h4
      show u.cleanup.length :: registrations l = _
      rw [h4', List.length_cons, List.range'_succ]

/-- **C51.**  After `FailNow()`, `Fatal()`, `Skip()` or `SkipNow()` a function that does not
recover does nothing any more: such a call is the last thing it does. -/
theorem C51_abort (p : SProg) (hp : p.Direct) (t : SatT) (pre post : List SEvent) (o : SOp)
    (st : CallStack) (ho : o.aborts = true)
    (h : (p.exec t).1.did = t.did ++ pre ++ .called o st :: post) :
    post = [] ∧ (p.exec t).2 = some .abort := by
  induction hp generalizing t pre with
  | ret => simp [SProg.exec] at h
  | panic s => simp [SProg.exec] at h
  | op o' st' k hk _ ih =>
    unfold SProg.exec at h ⊢
    rcases hx : o'.exec (t.note (.called o' st')) st' with ⟨t', r⟩
    rw [hx] at h
    simp only at h ⊢
    obtain ⟨h1, -, -, -, h5⟩ := SOp.exec_did (t.note (.called o' st')) st' o'
    rw [hx] at h1 h5
    have hd : t'.did = t.did ++ [.called o' st'] := h1
    cases r with
    | aborted =>
      rw [hk] at h ⊢
      simp only [SProg.exec, hd, List.append_assoc, List.append_cancel_left_eq] at h ⊢
      cases pre with
      | nil => simp at h; exact ⟨h.2, trivial⟩
      | cons a pre => simp at h
    | returned b =>
      have hno : o'.aborts ≠ true := fun h => by simpa using h5.2 h
      obtain ⟨l, c, hl, -⟩ := (k (.returned b)).exec_ext t'
      cases pre with
      | nil =>
        rw [hl, hd] at h
        simp at h
        rw [h.1.1] at hno
        exact absurd ho hno
      | cons a pre =>
        have ha : a = .called o' st' := by
          rw [hl, hd] at h
          simp at h
          exact h.1.symm
        exact ih b t' pre (by rw [h, hd, ha]; simp)
  | cleanup fn k _ ih =>
    unfold SProg.exec at h ⊢
    obtain ⟨l, c, hl, -⟩ := k.exec_ext
      { t.note (.registered t.cleanup.length) with cleanup := t.cleanup ++ [fn] }
    cases pre with
    | nil => rw [hl] at h; simp [SatT.note] at h
    | cons a pre =>
      have ha : a = .registered t.cleanup.length := by
        rw [hl] at h
        simp [SatT.note] at h
        exact h.1.symm
      exact ih _ pre (by rw [h, ha]; simp [SatT.note])

/-! ## Cleanup functions -/

/-- What is left of calling the cleanup functions `cs`, numbered from `i`, the last one first, if
none panics. -/
def cleanAll (i : Nat) (cs : List SProg) (t : SatT) : SatT :=
  (cs.zipIdx i).reverse.foldl (fun t c => (c.1.exec (t.note (.cleaning c.2))).1) t

theorem SatT.close_calm_aux (n : Nat) : ∀ (cs : List SProg), cs.length = n →
    (∀ c ∈ cs, ∀ t, (c.exec t).2 = none) →
    ∀ (rest : List SProg) (t : SatT), t.cleanup = cs ++ rest →
      t.close cs.length = (cleanAll 0 cs t, none) := by
  induction n with
  | zero =>
    intro cs hcs _ rest t _
    rw [List.length_eq_zero_iff] at hcs
    subst hcs; rfl
  | succ n ih =>
    intro cs hcs hc rest t ht
    rcases List.eq_nil_or_concat cs with rfl | ⟨cs, c, rfl⟩
    · simp at hcs
    simp only [List.concat_eq_append] at *
    rw [List.length_append, List.length_singleton]
    unfold SatT.close
    have hget : t.cleanup[cs.length]? = some c := by rw [ht]; simp
    rw [hget]
    simp only
    have hn := hc c (by simp) (t.note (.cleaning cs.length))
    obtain ⟨l, c', -, hcl, -⟩ := c.exec_ext (t.note (.cleaning cs.length))
    rcases hx : c.exec (t.note (.cleaning cs.length)) with ⟨t', v⟩
    rw [hx] at hn hcl
    simp only at hn hcl
    subst hn
    simp only
    rw [ih cs (by simpa using hcs) (fun c hc' => hc c (by simp [hc'])) ([c] ++ rest ++ c') t'
      (by rw [hcl]; show t.cleanup ++ c' = _; rw [ht]; simp)]
    unfold cleanAll
    simp [List.zipIdx_append, hx]

theorem SatT.close_calm (cs : List SProg) (hc : ∀ c ∈ cs, ∀ t, (c.exec t).2 = none)
    (rest : List SProg) (t : SatT) (ht : t.cleanup = cs ++ rest) :
    t.close cs.length = (cleanAll 0 cs t, none) :=
  SatT.close_calm_aux cs.length cs rfl hc rest t ht

/-- The calls of cleanup functions are a beginning of n-1, ..., 0. -/
theorem SatT.close_order (n : Nat) : ∀ (t : SatT), n ≤ t.cleanup.length → ∃ l k,
    (t.close n).1.did = t.did ++ l ∧ k ≤ n ∧ cleanings l = (List.range n).reverse.take k ∧
    ((t.close n).2 = none → k = n) := by
  induction n with
  | zero => intro t _; exact ⟨[], 0, by simp [SatT.close], by simp, by simp [cleanings], fun _ => rfl⟩
  | succ n ih =>
    intro t hn
    unfold SatT.close
    have hlt : n < t.cleanup.length := by omega
    rw [List.getElem?_eq_getElem hlt]
    simp only
    obtain ⟨l, c', hl, hcl, hcz, -⟩ := (t.cleanup[n]).exec_ext (t.note (.cleaning n))
    rcases hx : (t.cleanup[n]).exec (t.note (.cleaning n)) with ⟨t', v⟩
    rw [hx] at hl hcl
    simp only at hl hcl
    have hdid : t'.did = t.did ++ (.cleaning n :: l) := by rw [hl]; simp [SatT.note]
    have hc1 : ∀ m, cleanings (.cleaning n :: l ++ m) = n :: cleanings m := by
      intro m
      show n :: cleanings (l ++ m) = _
      unfold cleanings at hcz ⊢
      rw [List.filterMap_append, hcz]; rfl
    cases v with
    | some v =>
      refine ⟨.cleaning n :: l, 1, hdid, by omega, ?_, by simp⟩
      have := hc1 []
      rw [List.append_nil] at this
      rw [this, List.range_succ]
      simp [cleanings]
    | none =>
      obtain ⟨m, k, h1, h2, h3, h4⟩ := ih t' (by rw [hcl]; simp [SatT.note]; omega)
      refine ⟨.cleaning n :: l ++ m, k + 1, ?_, by omega, ?_, fun h => by rw [h4 h]⟩
      · simp only [h1, hdid, List.append_assoc]
      · rw [hc1, h3, List.range_succ]
        simp

/-- **C52.**  Whatever the function does, also if it aborts or panics, cleanup functions are
called in reverse order of registration, each at most once, after the function; if none of them
panics or aborts then all those that the function registered are called.  (Without the condition
that is false, `C52_fails`, and cleanup functions registered by cleanup functions are not called:
`C52_nested_fails`.) -/
theorem C52_cleanups_partial (fn : SProg) :
    ∃ l₁ l₂ n k, (satDone fn {}).1.did = l₁ ++ l₂ ∧
      (fn.exec {}).1.did = l₁ ∧ cleanings l₁ = [] ∧ registrations l₁ = List.range n ∧
      cleanings l₂ = (List.range n).reverse.take k ∧
      ((∀ c ∈ (fn.exec {}).1.cleanup, ∀ t, (c.exec t).2 = none) → k = n) := by
  obtain ⟨l, c, h1, h2, h3, h4⟩ := fn.exec_ext {}
  rcases hx : fn.exec {} with ⟨t, r⟩
  rw [hx] at h1 h2
  simp only [List.nil_append] at h1 h2
  obtain ⟨l₂, k, h5, h6, h7, h8⟩ := SatT.close_order t.cleanup.length t (Nat.le_refl _)
  refine ⟨l, l₂, c.length, k, ?_, h1, h3, by rw [h4, List.range_eq_range']; rfl, by rw [h7, h2], ?_⟩
  · unfold satDone
    rw [hx]
    simp only
    rcases hy : t.close t.cleanup.length with ⟨t', v⟩
    rw [hy] at h5
    simp only at h5
    cases v <;> simp only [h5, h1]
  · intro hc
    rw [h8, h2]
    have := SatT.close_calm t.cleanup hc [] t (by simp)
    rw [this]

/-- **C52.**  ... and what they do is done with what the function and the cleanup functions
before have left. -/
theorem C52_effects_partial (fn : SProg)
    (hc : ∀ c ∈ (fn.exec {}).1.cleanup, ∀ t, (c.exec t).2 = none) :
    (satDone fn {}).1 = cleanAll 0 (fn.exec {}).1.cleanup (fn.exec {}).1 := by
  rcases hx : fn.exec {} with ⟨t, r⟩
  rw [hx] at hc
  unfold satDone
  rw [hx]
  simp only
  rw [SatT.close_calm t.cleanup hc [] t (by simp)]

/-- **C51.**  Panics other than those of the package come out of the expectation, if no cleanup
function panics or aborts.  (A cleanup function that does replaces the panic: `C51_panic_fails`.) -/
theorem C51_panic_partial (fn : SProg)
    (hc : ∀ c ∈ (fn.exec {}).1.cleanup, ∀ t, (c.exec t).2 = none) (v : String) :
    (satDone fn {}).2 = some v ↔ (fn.exec {}).2 = some (.user v) := by
  rcases hx : fn.exec {} with ⟨t, r⟩
  rw [hx] at hc
  unfold satDone
  rw [hx]
  simp only
  rw [SatT.close_calm t.cleanup hc [] t (by simp)]
  simp only
  cases r with
  | none => simp [rethrow]
  | some p => cases p <;> simp [rethrow]

/-- How cleanup functions go, the last one first, until one of them panics or aborts. -/
inductive CleanRun (cs : List SProg) : Nat → SatT → SatT → Option SPanic → Prop
  | over (t : SatT) : CleanRun cs 0 t t none
  | panicked {i : Nat} {c : SProg} {t t' : SatT} {v : SPanic} : cs[i]? = some c →
      c.exec (t.note (.cleaning i)) = (t', some v) → CleanRun cs (i + 1) t t' (some v)
  | returned {i : Nat} {c : SProg} {t t' t'' : SatT} {r : Option SPanic} : cs[i]? = some c →
      c.exec (t.note (.cleaning i)) = (t', none) → CleanRun cs i t' t'' r → CleanRun cs (i + 1) t t'' r

theorem SatT.close_run (cs : List SProg) : ∀ (i : Nat) (t : SatT), i ≤ cs.length → cs <+: t.cleanup →
    CleanRun cs i t (t.close i).1 (t.close i).2
  | 0, t, _, _ => .over t
  | i + 1, t, hi, hp => by
    obtain ⟨more, hm⟩ := hp
    have hc : cs[i]? = some cs[i] := List.getElem?_eq_getElem (by omega)
    have ht : t.cleanup[i]? = some cs[i] := by
      rw [← hm, List.getElem?_append_left (by omega), hc]
    unfold SatT.close
    rw [ht]
    rcases hx : cs[i].exec (t.note (.cleaning i)) with ⟨t', _ | v⟩
    · simp only [hx]
      refine .returned hc hx (SatT.close_run cs i t' (by omega) ?_)
      obtain ⟨l, c, h1, h2, -⟩ := cs[i].exec_ext (t.note (.cleaning i))
      rw [hx] at h2
      exact ⟨more ++ c, by rw [h2]; show _ = t.cleanup ++ c; rw [← hm, List.append_assoc]⟩
    · simp only [hx]
      exact .panicked hc hx

/-- **C51.**  In general the panic that comes out is the last one that was raised: that of the cleanup function
that panicked, if one did, or else that of the function; it comes out unless it is an abort by the package. -/
theorem C51_out (fn : SProg) : ∃ r,
    CleanRun (fn.exec {}).1.cleanup (fn.exec {}).1.cleanup.length (fn.exec {}).1 (satDone fn {}).1 r ∧
    ∀ v, (satDone fn {}).2 = some v ↔ r = some (.user v) ∨ (r = none ∧ (fn.exec {}).2 = some (.user v)) := by
  rcases hx : fn.exec {} with ⟨t, p⟩
  have h := SatT.close_run t.cleanup t.cleanup.length t (Nat.le_refl _) (List.prefix_refl _)
  unfold satDone
  rw [hx]
  simp only
  rcases hy : t.close t.cleanup.length with ⟨t', r⟩
  rw [hy] at h
  refine ⟨r, ?_, fun v => ?_⟩
  · cases r <;> exact h
  · cases r with
    | none => cases p with
      | none => simp [rethrow]
      | some p => cases p <;> simp [rethrow]
    | some q => cases q <;> simp [rethrow]

/-- The second cleanup function panics while the function does, and the first one is not called. -/
example : (satDone (.cleanup (.do_ .fail .ret) (.cleanup (.panic (.user "late")) (.panic (.user "early")))) {}).2 =
    some "late" := rfl

/-- **C51** fails: a cleanup function that aborts swallows the panic of the function. -/
theorem C51_panic_fails : ∃ (fn : SProg) (v : String), (fn.exec {}).2 = some (.user v) ∧
    (satDone fn {}).2 = none :=
  ⟨.cleanup (.do_ .skipNow .ret) (.panic (.user "boom")), "boom", rfl, rfl⟩

/-- **C52** fails: cleanup functions registered before one that aborts are not called. -/
theorem C52_fails : ∃ fn : SProg, registrations (fn.exec {}).1.did = [0, 1] ∧
    cleanings (satDone fn {}).1.did = [1] :=
  ⟨.cleanup .ret (.cleanup (.do_ .failNow .ret) .ret), rfl, rfl⟩

/-- **C52** fails: a cleanup function registered by a cleanup function is not called. -/
theorem C52_nested_fails : ∃ fn : SProg, registrations (satDone fn {}).1.did = [0, 1] ∧
    cleanings (satDone fn {}).1.did = [0] ∧ (satDone fn {}).2 = none :=
  ⟨.cleanup (.cleanup .ret .ret) .ret, rfl, rfl, rfl⟩

namespace Demo

/-- Registers two cleanup functions, logs, fails and aborts. -/
def satFn : SProg :=
  .cleanup (.do_ (.log "first") .ret) (.cleanup (.do_ (.log "second") .ret)
    (.do_ (.error "bad") (.do_ .failNow (.do_ (.log "unreachable") .ret))))

theorem satFn_direct : satFn.Direct :=
  .cleanup _ _ (.cleanup _ _ (.op _ _ _ rfl fun _ => .op _ _ _ rfl fun _ => .op _ _ _ rfl fun _ => .ret))

theorem satFn_calm : ∀ c ∈ (satFn.exec {}).1.cleanup, ∀ t, (c.exec t).2 = none := by
  intro c hc t
  simp [satFn, SProg.exec, SProg.do_, SOp.exec, SatT.note, SatT.log, SatT.fail, SatT.explain] at hc
  rcases hc with rfl | rfl <;> rfl

example : (satFn.exec {}).1.did = ({} : SatT).did ++
    [.registered 0, .registered 1, .called (.error "bad") plainStack] ++
    .called .failNow plainStack :: [] := rfl
example : cleanings (satDone satFn {}).1.did = [1, 0] ∧
    (satDone satFn {}).1.messages = ["bad", "second", "first"] ∧ (satDone satFn {}).1.ok = false :=
  ⟨rfl, rfl, rfl⟩
example : (satDone (.do_ .fail (.do_ .skipNow .ret)) {}).1.ok = true := rfl
example : (satDone (.cleanup .ret (.panic (.user "x"))) {}).2 = some "x" := rfl

end Demo

end Verif
