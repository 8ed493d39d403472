import Verif.Props.SatConc

/-!
# C107: without goroutines, the concurrent model does what the sequential one does

So that what is proved about `satDone` (C51, C52, C84) is about the same code as C107.
-/

namespace Verif.Par

/-! ## Steps are determined by the goroutine -/

theorem stepOf_complete {s s' : St} {l : Label} (h : Step s l s') : ∃ g, stepOf s g = some (l, s') := by
  cases h with
  | @plain g o st f k fs h hm hc => exact ⟨g, by simp [stepOf, h, hm, hc]⟩
  | @readOp g o st f k fs h hm hc => exact ⟨g, by simp [stepOf, h, hm, hc]⟩
  | @rlock g o st k fs h hp hw hc => exact ⟨g, by simp [stepOf, h, hp, hw, hc]⟩
  | @read g o st k fs h hc => exact ⟨g, by simp [stepOf, h, hc]⟩
  | @runlock g r k fs h hc => exact ⟨g, by simp [stepOf, h, hc]⟩
  | @writeOp g o st f k fs h hm hc => exact ⟨g, by simp [stepOf, h, hm, hc]⟩
  | @cleanupOp g fn k fs h hc => exact ⟨g, by simp [stepOf, h, hc]⟩
  | @announce g w fs h hp hw hc => exact ⟨g, by simp [stepOf, h, hp, hw, hc]⟩
  | @acquire g w fs h hr hc => exact ⟨g, by simp [stepOf, h, hr, hc]⟩
  | @format g o st f k fs h hf hc => exact ⟨g, by simp [stepOf, h, hf, hc]⟩
  | @formatted g c r o st k fs h hr hc =>
    exact ⟨g, by cases c <;> simp [Code.result] at hr <;> simp [stepOf, h, hc, Code.result]⟩
  | @begin g o st f k fs h hf hc => exact ⟨g, by simp [stepOf, h, hf, hc]⟩
  | @access g o st upd next k fs h hc => exact ⟨g, by simp [stepOf, h, hc]⟩
  | @finish g o st r k fs h hc => exact ⟨g, by simp [stepOf, h, hc]⟩
  | @load g fn k fs h hc => exact ⟨g, by simp [stepOf, h, hc]⟩
  | @append g l fn k fs h hc => exact ⟨g, by simp [stepOf, h, hc]⟩
  | @unlock g c fs h hc => exact ⟨g, by simp [stepOf, h, hc]⟩
  | @go g fn k fs h hc => exact ⟨g, by simp [stepOf, h, hc]⟩
  | @crash g v h hc => exact ⟨g, by simp [stepOf, h, hc, Code.result]⟩
  | @ended g c r h hr hc =>
    exact ⟨g, by cases c <;> simp [Code.result] at hr <;> simp [stepOf, h, hc, Code.result, hr]⟩
  | @clean g i r fn h hf hc => exact ⟨g, by simp [stepOf, h, hf, hc]⟩
  | @cleaned g i r h hc => exact ⟨g, by simp [stepOf, h, hc, Code.result]⟩
  | @unclean g i r v h hc => exact ⟨g, by simp [stepOf, h, hc, Code.result]⟩
  | @over g r h hc => exact ⟨g, by simp [stepOf, h, hc]⟩

/-- There is goroutine 0 only. -/
def St.Only (s : St) : Prop := ∀ g, g ≠ 0 → s.threads g = none

theorem only_step {s s1 s2 : St} {l1 l2 : Label} (ho : s.Only) (h1 : Step s l1 s1) (h2 : Step s l2 s2) :
    l1 = l2 ∧ s1 = s2 := by
  obtain ⟨g1, e1⟩ := stepOf_complete h1
  obtain ⟨g2, e2⟩ := stepOf_complete h2
  have zero : ∀ {g l s'}, stepOf s g = some (l, s') → g = 0 := by
    intro g l s' h
    by_cases e : g = 0
    · exact e
    · unfold stepOf at h; rw [ho g e] at h; split at h <;> cases h
  rw [zero e1] at e1
  rw [zero e2, e1] at e2
  cases e2; exact ⟨rfl, rfl⟩

/-- Steps of goroutine 0, with no other there. -/
inductive Solo : St → List Label → St → Prop where
  | nil {s} : Solo s [] s
  | cons {s l s1 ls s2} : s.Only → Step s l s1 → Solo s1 ls s2 → Solo s (l :: ls) s2

theorem Solo.append {s s1 s2 : St} {l1 l2 : List Label} (h1 : Solo s l1 s1) (h2 : Solo s1 l2 s2) :
    Solo s (l1 ++ l2) s2 := by
  induction h1 with
  | nil => exact h2
  | cons ho hs _ ih => exact .cons ho hs (ih h2)

theorem Steps.solo {s0 s s' : St} {l1 l2 : List Label} (h1 : Steps s0 l1 s) (h2 : Solo s l2 s') :
    Steps s0 (l1 ++ l2) s' := by
  induction h2 generalizing l1 with
  | nil => simpa using h1
  | cons ho hs _ ih => simpa using ih (h1.snoc hs)

/-- Any run is the beginning of this one, if this one cannot go on. -/
theorem Solo.prefix {s s1 s2 : St} {l1 l2 : List Label} (h1 : Solo s l1 s1) (he : ∀ l s', ¬ Step s1 l s')
    (h2 : Steps s l2 s2) : ∃ l3, l1 = l2 ++ l3 ∧ Solo s2 l3 s1 := by
  induction h2 with
  | nil => exact ⟨l1, rfl, h1⟩
  | snoc _ hs ih =>
    obtain ⟨l3, e, h3⟩ := ih
    cases h3 with
    | nil => exact absurd hs (he _ _)
    | @cons _ l s1' ls _ ho hs' h3 =>
      obtain ⟨rfl, rfl⟩ := only_step ho hs hs'
      exact ⟨ls, by rw [e]; simp, h3⟩

/-! ## What they do -/

/-- The same code, for the concurrent model. -/
def embed : SProg → Code
  | .ret => .ret
  | .panic v => .panic v
  | .op o st k => .op o st .ret fun r => embed (k r)
  | .cleanup fn k => .cleanup (embed fn) (embed k)

/-- The fields that `St.core` has. -/
def SatT.strip (t : SatT) : SatT := { t with cleanup := [], did := [] }

/-- Goroutine 0 is here, alone, and the fields are those of `t`. -/
structure At (s : St) (p : Pos) (fs : List Frame) (t : SatT) : Prop where
  thread : s.threads 0 = some ⟨p, fs⟩
  only : s.Only
  core : s.core = SatT.strip t
  cleanup : s.cleanup = t.cleanup.map embed
  crashed : s.crashed = false

/-- And nobody has the lock. -/
structure Free (s : St) (p : Pos) (fs : List Frame) (t : SatT) : Prop extends At s p fs t where
  writer : s.writer = none
  pending : s.pending = none
  readers : s.readers = []

theorem set_only {s : St} {p : Pos} {fs : List Frame} (h : s.Only) : (s.set 0 p fs).Only := by
  intro g hg; simp only [St.set, if_neg hg]; exact h g hg

theorem set_zero (s : St) (p : Pos) (fs : List Frame) : (s.set 0 p fs).threads 0 = some ⟨p, fs⟩ := by
  simp [St.set]

theorem exec_strip (o : SOp) (st : CallStack) (t : SatT) :
    o.exec (SatT.strip t) st = (SatT.strip (o.exec t st).1, (o.exec t st).2) := by
  have ex : ∀ fn (t : SatT), (SatT.strip t).explain fn st = SatT.strip (t.explain fn st) := by
    intro fn t
    unfold SatT.explain
    cases h : t.explanation <;> simp [SatT.strip, h]
  have fl : ∀ fn (t : SatT), (SatT.strip t).fail fn st = SatT.strip (t.fail fn st) :=
    fun fn t => ex fn { t with failed := true }
  have sk : ∀ fn (t : SatT), (SatT.strip t).skip fn st = SatT.strip (t.skip fn st) :=
    fun fn t => ex fn { t with skipped := true }
  have lg : ∀ s (t : SatT), (SatT.strip t).log s = SatT.strip (t.log s) := fun _ _ => rfl
  cases o <;> simp only [SOp.exec, lg, fl, sk] <;> rfl

theorem exec_cleanup (o : SOp) (st : CallStack) (t : SatT) : (o.exec t st).1.cleanup = t.cleanup := by
  have ex : ∀ fn (t : SatT), (t.explain fn st).cleanup = t.cleanup := by
    intro fn t; unfold SatT.explain; split <;> rfl
  cases o <;> simp [SOp.exec, SatT.fail, SatT.skip, SatT.log, ex]

theorem solo_body {s : St} {o st k fs} {t t' : SatT} {r : SRes} (b : Body) (h : s.threads 0 = some ⟨.body o st b k, fs⟩)
    (ho : s.Only) (hc : s.crashed = false) (hb : b.run s.core = (SatT.strip t', r)) (hcl : s.cleanup = t.cleanup.map embed)
    (ht : t'.cleanup = t.cleanup) (hp : s.pending = none) (hr : s.readers = []) :
    ∃ ls s', Solo s ls s' ∧ Free s' (.code (k r)) fs t' := by
  induction b generalizing s with
  | done r' =>
    obtain ⟨hb1, rfl⟩ := Prod.mk.inj hb
    refine ⟨_, _, .cons ho (.finish h hc) .nil, ⟨⟨set_zero .., set_only ho, ?_, ?_, hc⟩, rfl, hp, hr⟩⟩
    · exact hb1
    · rw [ht]; exact hcl
  | step upd next ih =>
    obtain ⟨ls, s', h1, h2⟩ := ih s.core (s := { s with core := upd s.core }.set 0 (.body o st (next s.core) k) fs)
      (set_zero ..) (set_only ho) hc (by simp only [Body.run] at hb; exact hb) hcl hp hr
    exact ⟨_, s', .cons ho (.access h hc) h1, h2⟩

theorem solo_op {s : St} {o st k fs} {t : SatT} (h : Free s (.code (.op o st .ret k)) fs t) :
    ∃ ls s', Solo s ls s' ∧ Free s' (.code (k (o.exec t st).2)) fs (o.exec t st).1 := by
  have hcl := exec_cleanup o st t
  have hx := exec_strip o st t
  rw [← h.core] at hx
  cases hm : mode o with
  | none =>
    refine ⟨_, _, .cons h.only (.plain h.thread hm h.crashed) .nil, ?_⟩
    have e : o.exec t st = (t, .returned false) := by cases o <;> simp [mode] at hm <;> rfl
    rw [e]
    exact ⟨⟨set_zero .., set_only h.only, h.core, h.cleanup, h.crashed⟩, h.writer, h.pending, h.readers⟩
  | read =>
    have e : (o.exec t st).1 = t := by cases o <;> simp [mode] at hm <;> rfl
    refine ⟨_, _, .cons h.only (.readOp h.thread hm h.crashed) (.cons (set_only h.only)
      (.rlock (set_zero ..) h.pending h.writer h.crashed) (.cons (set_only (set_only h.only))
      (.read (set_zero ..) h.crashed) (.cons (set_only (set_only (set_only h.only)))
      (.runlock (set_zero ..) h.crashed) .nil))), ?_⟩
    rw [e]
    refine ⟨⟨?_, set_only (set_only (set_only (set_only h.only))), h.core, h.cleanup, h.crashed⟩, h.writer, h.pending,
      ?_⟩
    · rw [set_zero]
      show some (Thread.mk (.code (k (o.exec s.core st).2)) fs) = _
      rw [hx]
    · show List.erase (0 :: s.readers) 0 = []
      rw [h.readers]; rfl
  | write =>
    have hb := body_run o st s.core hm
    rw [hx] at hb
    have pre : ∃ ls s1, Solo s ls s1 ∧ s1.threads 0 = some ⟨.body o st (body st o) k, fs⟩ ∧ s1.Only ∧
        s1.crashed = false ∧ s1.core = s.core ∧ s1.cleanup = s.cleanup ∧ s1.pending = none ∧ s1.readers = [] := by
      cases hf : formats o with
      | false =>
        refine ⟨_, _, .cons h.only (.writeOp h.thread hm h.crashed) (.cons (set_only h.only)
          (.announce (set_zero ..) h.pending h.writer h.crashed) (.cons (set_only (set_only h.only))
          (.acquire (set_zero ..) h.readers h.crashed) (.cons (set_only (set_only (set_only h.only)))
          (.begin (set_zero ..) hf h.crashed) .nil))), set_zero ..,
          set_only (set_only (set_only (set_only h.only))), h.crashed, rfl, rfl, rfl, h.readers⟩
      | true =>
        refine ⟨_, _, .cons h.only (.writeOp h.thread hm h.crashed) (.cons (set_only h.only)
          (.announce (set_zero ..) h.pending h.writer h.crashed) (.cons (set_only (set_only h.only))
          (.acquire (set_zero ..) h.readers h.crashed) (.cons (set_only (set_only (set_only h.only)))
          (.format (set_zero ..) hf h.crashed) (.cons (set_only (set_only (set_only (set_only h.only))))
          (.formatted (set_zero ..) rfl h.crashed) .nil)))), set_zero ..,
          set_only (set_only (set_only (set_only (set_only h.only)))), h.crashed, rfl, rfl, rfl, h.readers⟩
    obtain ⟨ls, s1, p1, p2, p3, p4, p5, p6, p7, p8⟩ := pre
    obtain ⟨ls', s2, q1, q2⟩ := solo_body (t := t) (body st o) p2 p3 p4 (by rw [p5]; exact hb)
      (by rw [p6]; exact h.cleanup) hcl p7 p8
    exact ⟨_, s2, p1.append q1, q2⟩

theorem solo_cleanup {s : St} {fn k fs} {t : SatT} (h : Free s (.code (.cleanup (embed fn) k)) fs t) (d : List SEvent) :
    ∃ ls s', Solo s ls s' ∧ Free s' (.code k) fs { t with cleanup := t.cleanup ++ [fn], did := d } := by
  refine ⟨_, _, .cons h.only (.cleanupOp h.thread h.crashed) (.cons (set_only h.only)
    (.announce (set_zero ..) h.pending h.writer h.crashed) (.cons (set_only (set_only h.only))
    (.acquire (set_zero ..) h.readers h.crashed) (.cons (set_only (set_only (set_only h.only)))
    (.load (set_zero ..) h.crashed) (.cons (set_only (set_only (set_only (set_only h.only))))
    (.append (set_zero ..) h.crashed) (.cons (set_only (set_only (set_only (set_only (set_only h.only)))))
    (.unlock (set_zero ..) h.crashed) .nil))))),
    ⟨⟨set_zero .., set_only (set_only (set_only (set_only (set_only (set_only h.only))))), h.core, ?_, h.crashed⟩,
      rfl, rfl, h.readers⟩⟩
  show s.cleanup ++ [embed fn] = _
  rw [h.cleanup]; simp

/-- Code that ended with `r`. -/
def endCode : Option SPanic → Code
  | none => .ret
  | some v => .panic v

theorem endCode_result (r : Option SPanic) : (endCode r).result = some r := by cases r <;> rfl

theorem Free.note {s : St} {p fs} {t : SatT} (h : Free s p fs t) (e : SEvent) : Free s p fs (t.note e) :=
  ⟨⟨h.thread, h.only, h.core, h.cleanup, h.crashed⟩, h.writer, h.pending, h.readers⟩

theorem solo_exec (c : SProg) {s : St} {fs} {t : SatT} (h : Free s (.code (embed c)) fs t) :
    ∃ ls s', Solo s ls s' ∧ Free s' (.code (endCode (c.exec t).2)) fs (c.exec t).1 := by
  induction c generalizing s t with
  | ret => exact ⟨[], s, .nil, h⟩
  | panic v => exact ⟨[], s, .nil, h⟩
  | op o st k ih =>
    obtain ⟨l1, s1, h1, h2⟩ := solo_op (h.note (.called o st))
    obtain ⟨l2, s2, h3, h4⟩ := ih _ h2
    exact ⟨_, s2, h1.append h3, h4⟩
  | cleanup fn k _ ih =>
    obtain ⟨l1, s1, h1, h2⟩ := solo_cleanup h (t.did ++ [.registered t.cleanup.length])
    obtain ⟨l2, s2, h3, h4⟩ := ih h2
    exact ⟨_, s2, h1.append h3, h4⟩

theorem exec_grows (c : SProg) (t : SatT) : ∃ m, (c.exec t).1.cleanup = t.cleanup ++ m := by
  induction c generalizing t with
  | ret => exact ⟨[], by simp [SProg.exec]⟩
  | panic v => exact ⟨[], by simp [SProg.exec]⟩
  | op o st k ih =>
    obtain ⟨m, hm⟩ := ih (o.exec (t.note (.called o st)) st).2 (o.exec (t.note (.called o st)) st).1
    exact ⟨m, by simp only [SProg.exec]; rw [hm, exec_cleanup]; rfl⟩
  | cleanup fn k _ ih =>
    obtain ⟨m, hm⟩ := ih { t.note (.registered t.cleanup.length) with cleanup := t.cleanup ++ [fn] }
    exact ⟨fn :: m, by simp only [SProg.exec]; rw [hm]; simp⟩

theorem solo_close (i : Nat) {s : St} {t : SatT} {r : Option SPanic} (h : Free s (.closing i r) [] t)
    (hi : i ≤ t.cleanup.length) :
    ∃ ls s' , Solo s ls s' ∧
      Free s' (.over (match (t.close i).2 with | some v => rethrow (some v) | none => rethrow r)) [] (t.close i).1 := by
  induction i generalizing s t with
  | zero =>
    exact ⟨_, _, .cons h.only (.over h.thread h.crashed) .nil,
      ⟨⟨set_zero .., set_only h.only, h.core, h.cleanup, h.crashed⟩, h.writer, h.pending, h.readers⟩⟩
  | succ i ih =>
    have hlt : i < t.cleanup.length := hi
    have hf : t.cleanup[i]? = some t.cleanup[i] := List.getElem?_eq_getElem hlt
    have hf' : s.cleanup[i]? = some (embed t.cleanup[i]) := by rw [h.cleanup]; simp [hf]
    have h1 : Free (s.set 0 (.code (embed t.cleanup[i])) [.close i r]) (.code (embed t.cleanup[i])) [.close i r] t :=
      ⟨⟨set_zero .., set_only h.only, h.core, h.cleanup, h.crashed⟩, h.writer, h.pending, h.readers⟩
    obtain ⟨l2, s2, h2, h3⟩ := solo_exec _ (h1.note (.cleaning i))
    have h12 := Solo.cons h.only (.clean h.thread hf' h.crashed) h2
    simp only [SatT.close, hf]
    obtain ⟨m, hm⟩ := exec_grows t.cleanup[i] (t.note (.cleaning i))
    generalize hx : t.cleanup[i].exec (t.note (.cleaning i)) = x at h3 hm ⊢
    obtain ⟨t2, r2⟩ := x
    cases r2 with
    | some v =>
      exact ⟨_, _, h12.append (.cons h3.only (.unclean h3.thread h3.crashed) .nil),
        ⟨⟨set_zero .., set_only h3.only, h3.core, h3.cleanup, h3.crashed⟩, h3.writer, h3.pending, h3.readers⟩⟩
    | none =>
      have h4 : Free (s2.set 0 (.closing i r) []) (.closing i r) [] t2 :=
        ⟨⟨set_zero .., set_only h3.only, h3.core, h3.cleanup, h3.crashed⟩, h3.writer, h3.pending, h3.readers⟩
      obtain ⟨l5, s5, h5, h6⟩ := ih h4 (by
        rw [show t2.cleanup = t.cleanup ++ m from hm, List.length_append]; omega)
      exact ⟨_, s5, h12.append (.cons h3.only (.cleaned h3.thread h3.crashed) h5), h6⟩

theorem over_stuck {s : St} {x} (h0 : s.threads 0 = some ⟨.over x, []⟩) (ho : s.Only) (l : Label) (s' : St) :
    ¬ Step s l s' := by
  have key : ∀ {g p fs'}, s.threads g = some ⟨p, fs'⟩ → p = .over x := by
    intro g p fs' h
    by_cases e : g = 0
    · subst e; rw [h0] at h; cases h; rfl
    · rw [ho g e] at h; cases h
  intro h
  cases h <;> (have := key ‹_›; cases this)

theorem solo_done (c : SProg) : ∃ ls s, Solo (init (embed c)) ls s ∧
    Free s (.over (satDone c {}).2) [] (satDone c {}).1 := by
  have h0 : Free (init (embed c)) (.code (embed c)) [.done] {} := by
    refine ⟨⟨rfl, ?_, rfl, rfl, rfl⟩, rfl, rfl, rfl⟩
    intro g hg; simp [init, hg]
  obtain ⟨l1, s1, h1, h2⟩ := solo_exec c h0
  generalize hx : c.exec {} = x at h2
  obtain ⟨t1, r⟩ := x
  have h3 : Free (s1.set 0 (.closing s1.cleanup.length r) []) (.closing t1.cleanup.length r) [] t1 := by
    refine ⟨⟨?_, set_only h2.only, h2.core, h2.cleanup, h2.crashed⟩, h2.writer, h2.pending, h2.readers⟩
    rw [set_zero, h2.cleanup, List.length_map]
  obtain ⟨l4, s4, h4, h5⟩ := solo_close _ h3 (Nat.le_refl _)
  refine ⟨_, s4, h1.append (.cons h2.only (.ended h2.thread (endCode_result r) h2.crashed) h4), ?_⟩
  unfold satDone
  rw [hx]
  simp only
  generalize hy : t1.close t1.cleanup.length = y at h5 ⊢
  obtain ⟨t2, r2⟩ := y
  cases r2 <;> exact h5

/-- **C107 (one goroutine).**  A function that starts no goroutine makes every run end, in one way: as `satDone` says
(which C51, C52 and C84 are about). -/
theorem C107_alone (c : SProg) (ls : List Label) (s : St) (h : Steps (init (embed c)) ls s) :
    (∃ l s', Step s l s') ∨
    (s.threads 0 = some ⟨.over (satDone c {}).2, []⟩ ∧ s.core.ok = (satDone c {}).1.ok ∧
      s.core.messages = (satDone c {}).1.messages ∧ s.core.explanation = (satDone c {}).1.explanation) := by
  obtain ⟨l1, s1, h1, h2⟩ := solo_done c
  obtain ⟨l3, e, h3⟩ := h1.prefix (over_stuck h2.thread h2.only) h
  cases h3 with
  | nil => right; exact ⟨h2.thread, by rw [h2.core]; rfl, by rw [h2.core]; rfl, by rw [h2.core]; rfl⟩
  | cons ho hs _ => exact .inl ⟨_, _, hs⟩

/-- Such a function, that fails, registers a cleanup function that panics, and aborts. -/
example : ∃ ls s, Steps (init (embed (.do_ .fail (.cleanup (.panic (.user "x")) (.do_ .failNow .ret))))) ls s ∧
    s.threads 0 = some ⟨.over (some "x"), []⟩ := by
  obtain ⟨ls, s, h1, h2⟩ := solo_done (.do_ .fail (.cleanup (.panic (.user "x")) (.do_ .failNow .ret)))
  exact ⟨ls, s, by simpa using Steps.nil.solo h1, h2.thread⟩

end Verif.Par
