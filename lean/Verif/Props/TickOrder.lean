import Verif.Props.Reset
import Verif.Props.Expect
import Verif.Test
import Verif.Demo

/-!
# The order in which a tick visits the handlers

Go iterates over the map of controllers in an order of its own (`engine.go` 126).  C109: when this
order does not matter.
-/

namespace Verif

variable {W R : Type}

/-! ## Specification -/

/-- What a method of a projection does when nobody interferes: the state it leaves the world in,
the lines it logs, how it ends. -/
def Prog.effect {α : Type} : Prog W PrjOp α → W → W × List String × Except PanicVal α
  | .ret a, w => (w, [], .ok a)
  | .panic v, w => (w, [], .error v)
  | .get k, w => (k w).effect w
  | .set w k, _ => k.effect w
  | .op (.log t) k, w =>
    (((k none).effect w).1, t :: ((k none).effect w).2.1, ((k none).effect w).2.2)

/-- `Compact()` of the projections have nothing to do with one another: what one of them does
changes neither what another one logs and returns nor what it leaves behind; none of them panics,
none of them cancels the context. -/
structure Unrelated (A : App W R) (now : Time) : Prop where
  calm : ∀ h ∈ A.cfgs, h.htype = .projection → ∀ w,
    ∃ e, ((A.uc.prjCompact h now).effect w).2.2 = .ok e
  context : ∀ h ∈ A.cfgs, h.htype = .projection → ∀ w,
    A.uc.ctxErr ((A.uc.prjCompact h now).effect w).1 = A.uc.ctxErr w
  results : ∀ h ∈ A.cfgs, h.htype = .projection → ∀ h' ∈ A.cfgs, h'.htype = .projection → h ≠ h' →
    ∀ w, ((A.uc.prjCompact h' now).effect ((A.uc.prjCompact h now).effect w).1).2 =
      ((A.uc.prjCompact h' now).effect w).2
  world : ∀ h ∈ A.cfgs, h.htype = .projection → ∀ h' ∈ A.cfgs, h'.htype = .projection → h ≠ h' →
    ∀ w, ((A.uc.prjCompact h' now).effect ((A.uc.prjCompact h now).effect w).1).1 =
      ((A.uc.prjCompact h now).effect ((A.uc.prjCompact h' now).effect w).1).1

/-- Does the handler have timeouts to deliver in a tick with options `os`? -/
def delivers (A : App W R) (s : Sys W R) (os : List OpOption) (h : HConfig) : Bool :=
  decide (h.htype = .process) && takesPart os h &&
    (s.proc h.name).timeouts.any
      (fun e => decide (e.scheduledFor ≤ engineTime os (A.uc.wallClock s.w)))

/-- An observation of the visit of a tick to handler `h`. -/
def Obs.visits (h : HConfig) : Obs R → Prop
  | .fact (.tickSkipped h' _) => h' = h
  | .fact (.tickBegun h') => h' = h
  | .fact (.tickCompleted h' _) => h' = h
  | .fact (.prjCompactBegun h') => h' = h
  | .fact (.prjLog h' env _) => h' = h ∧ env = none
  | .fact (.prjCompactCompleted h' _) => h' = h
  | .call (.prjCompact h' _) => h' = h
  | _ => False

/-- The state without the record of the past. -/
def Sys.stored (s : Sys W R) : Sys W R := { s with trace := [] }

/-- What is reported at the end of a tick. -/
def tickEnd (maps : EnabledMaps) : Outcome (List EngErr) → List (Obs R)
  | .done errs => [.fact (.tickCycleCompleted maps errs)]
  | _ => []

/-- An outcome with errors put before those that it has. -/
def Outcome.after (errs : List EngErr) : Outcome (List EngErr) → Outcome (List EngErr)
  | .done es => .done (errs ++ es)
  | o => o

mutual

/-- The expectation says nothing but which messages are dispatched and recorded: there are
neither functions given to `ToSatisfy()` nor expectations written by the user in it. -/
def Expectation.Plain : Expectation → Prop
  | .message _ | .type _ | .matching _ _ _ _ | .nil => True
  | .composite _ es => Expectation.AllPlain es
  | .not e => e.Plain
  | .repeatedly _ _ f => ∀ i, (f i).Plain
  | .satisfy _ _ | .custom _ _ => False

def Expectation.AllPlain : List Expectation → Prop
  | [] => True
  | e :: es => e.Plain ∧ Expectation.AllPlain es

end

/-! ## The visits -/

theorem prjRun_effect {α : Type} (h : HConfig) (env : Option Env) (g : Prog W PrjOp α) :
    ∀ s : Sys W R, prjRun h env g s =
      ({ s with
          w := (g.effect s.w).1
          trace := s.trace ++ (g.effect s.w).2.1.map (fun t => .fact (.prjLog h env t)) },
        (g.effect s.w).2.2) := by
  induction g with
  | ret a => intro s; simp [prjRun, Prog.effect]
  | panic v => intro s; simp [prjRun, Prog.effect]
  | get k ih => intro s; unfold prjRun Prog.effect; exact ih s.w s
  | set w k ih => intro s; unfold prjRun Prog.effect; exact ih { s with w := w }
  | op o k ih =>
    intro s
    cases o with
    | log t =>
      unfold prjRun Prog.effect
      rw [ih none (s.notify (.prjLog h env t))]
      simp [Sys.notify, Sys.emit]

/-- Does a tick compact the projection? -/
def tkCompacts (oo : OpOpts) (s : Sys W R) (h : HConfig) : Prop :=
  skipHandler oo h = none ∧ h.htype = .projection ∧
    timeSub oo.now (s.lastCompact h.name) ≥ compactInterval

instance (oo : OpOpts) (s : Sys W R) (h : HConfig) : Decidable (tkCompacts oo s h) :=
  inferInstanceAs (Decidable (_ ∧ _ ∧ _))

/-- What is left of a visit but the past. -/
def tkUpd (A : App W R) (oo : OpOpts) (s : Sys W R) (h : HConfig) : Sys W R :=
  { s with
    w := if tkCompacts oo s h then ((A.uc.prjCompact h oo.now).effect s.w).1 else s.w
    lastCompact := if tkCompacts oo s h then upd s.lastCompact h.name oo.now else s.lastCompact
    proc := if skipHandler oo h = none ∧ h.htype = .process then upd s.proc h.name
        ⟨(s.proc h.name).inst,
          (s.proc h.name).timeouts.dropWhile (fun e => decide (e.scheduledFor ≤ oo.now))⟩
      else s.proc }

/-- The timeouts taken out. -/
def tkEnvs (oo : OpOpts) (s : Sys W R) (h : HConfig) : List Env :=
  if skipHandler oo h = none ∧ h.htype = .process then
    (s.proc h.name).timeouts.takeWhile (fun e => decide (e.scheduledFor ≤ oo.now))
  else []

/-- The error of the visit. -/
def tkErr (A : App W R) (oo : OpOpts) (s : Sys W R) (h : HConfig) : Option Err :=
  if tkCompacts oo s h then
    match ((A.uc.prjCompact h oo.now).effect s.w).2.2 with
    | .ok e => e
    | .error _ => none
  else none

/-- What is observed. -/
def tkBlock (A : App W R) (oo : OpOpts) (s : Sys W R) (h : HConfig) : List (Obs R) :=
  match skipHandler oo h with
  | some r => [.fact (.tickSkipped h r)]
  | none =>
    .fact (.tickBegun h) ::
      ((if tkCompacts oo s h then
        .fact (.prjCompactBegun h) :: .call (.prjCompact h oo.now) ::
          (((A.uc.prjCompact h oo.now).effect s.w).2.1.map (fun t => .fact (.prjLog h none t)) ++
            [.fact (.prjCompactCompleted h (tkErr A oo s h))])
      else []) ++ [.fact (.tickCompleted h (tkErr A oo s h))])

/-- The state after a visit. -/
def tkNext (A : App W R) (oo : OpOpts) (s : Sys W R) (h : HConfig) : Sys W R :=
  { tkUpd A oo s h with trace := s.trace ++ tkBlock A oo s h }

theorem tkBlock_visits (A : App W R) (oo : OpOpts) (s : Sys W R) (h : HConfig) :
    ∀ o ∈ tkBlock A oo s h, o.visits h := by
  intro o ho
  unfold tkBlock at ho
  split at ho
  · rw [List.mem_singleton.1 ho]; rfl
  · split at ho
    · simp only [List.cons_append, List.append_assoc, List.mem_cons, List.mem_append, List.mem_map,
        List.not_mem_nil, or_false, false_or] at ho
      rcases ho with rfl | rfl | rfl | ⟨t, -, rfl⟩ | rfl | rfl <;> simp [Obs.visits]
    · simp only [List.nil_append, List.mem_cons, List.not_mem_nil, or_false] at ho
      rcases ho with rfl | rfl <;> rfl

theorem tickAll_step {A : App W R} (oo : OpOpts) (u : Unrelated A oo.now) (h : HConfig)
    (hm : h ∈ A.cfgs) (hs : List HConfig) (q : List Env) (errs : List EngErr) (s : Sys W R)
    (hc : A.uc.ctxErr s.w = none) :
    tickAll A oo (h :: hs) q errs s =
      tickAll A oo hs (q ++ tkEnvs oo s h) (errs ++ tagErr h (tkErr A oo s h)) (tkNext A oo s h) ∧
    A.uc.ctxErr (tkNext A oo s h).w = none := by
  by_cases hsk : skipHandler oo h = none
  · by_cases hp : h.htype = .projection
    · by_cases hd : timeSub oo.now (s.lastCompact h.name) ≥ compactInterval
      · have hk : tkCompacts oo s h := ⟨hsk, hp, hd⟩
        obtain ⟨e, he⟩ := u.calm h hm hp s.w
        have hc' : A.uc.ctxErr ((A.uc.prjCompact h oo.now).effect s.w).1 = none :=
          (u.context h hm hp s.w).trans hc
        have hw : (tkNext A oo s h).w = ((A.uc.prjCompact h oo.now).effect s.w).1 := by
          simp [tkNext, tkUpd, hk]
        refine ⟨?_, by rw [hw]; exact hc'⟩
        rw [tickAll, hsk]
        simp only [ctlTick, hp, prjTick]
        rw [if_pos (show timeSub oo.now ((s.notify (.tickBegun h)).lastCompact h.name) ≥
          compactInterval from hd)]
        simp only [prjRun_effect]
        simp only [Sys.notify, Sys.emit, he, hc']
        congr 1
        · simp [tkEnvs, hp]
        · simp [tkErr, hk, he]
        · simp [tkNext, tkUpd, tkBlock, tkErr, hk, hsk, hp, he]
      · have hk : ¬ tkCompacts oo s h := fun k => hd k.2.2
        have hw : (tkNext A oo s h).w = s.w := by simp [tkNext, tkUpd, hk]
        refine ⟨?_, by rw [hw]; exact hc⟩
        rw [tickAll, hsk]
        simp only [ctlTick, hp, prjTick]
        rw [if_neg (show ¬ timeSub oo.now ((s.notify (.tickBegun h)).lastCompact h.name) ≥
          compactInterval from hd)]
        simp only [Sys.notify, Sys.emit, hc]
        congr 1
        · simp [tkEnvs, hp]
        · simp [tkErr, hk]
        · simp [tkNext, tkUpd, tkBlock, tkErr, hk, hsk, hp]
    · have hk : ¬ tkCompacts oo s h := fun k => hp k.2.1
      have hw : (tkNext A oo s h).w = s.w := by simp [tkNext, tkUpd, hk]
      refine ⟨?_, by rw [hw]; exact hc⟩
      rw [tickAll, hsk]
      cases ht : h.htype with
      | projection => exact (hp ht).elim
      | process =>
        simp only [ctlTick, ht, procTick, Sys.notify, Sys.emit, Sys.setProc, hc]
        congr 1
        · simp [tkEnvs, ht, hsk]
        · simp [tkErr, hk]
        · simp [tkNext, tkUpd, tkBlock, tkErr, hk, hsk, ht]
      | aggregate =>
        simp only [ctlTick, ht, Sys.notify, Sys.emit, hc]
        congr 1
        · simp [tkEnvs, ht]
        · simp [tkErr, hk]
        · simp [tkNext, tkUpd, tkBlock, tkErr, hk, hsk, ht]
      | integration =>
        simp only [ctlTick, ht, Sys.notify, Sys.emit, hc]
        congr 1
        · simp [tkEnvs, ht]
        · simp [tkErr, hk]
        · simp [tkNext, tkUpd, tkBlock, tkErr, hk, hsk, ht]
  · have hk : ¬ tkCompacts oo s h := fun k => hsk k.1
    have hw : (tkNext A oo s h).w = s.w := by simp [tkNext, tkUpd, hk]
    refine ⟨?_, by rw [hw]; exact hc⟩
    rw [tickAll]
    cases hr : skipHandler oo h with
    | none => exact (hsk hr).elim
    | some r =>
      simp only [Sys.notify, Sys.emit]
      congr 1
      · simp [tkEnvs, hr]
      · simp [tkErr, hk]; rfl
      · simp [tkNext, tkUpd, tkBlock, hk, hr]

/-- A visit does not depend on one to another handler. -/
theorem tk_other {A : App W R} (oo : OpOpts) (u : Unrelated A oo.now) {h h' : HConfig}
    (hm : h ∈ A.cfgs) (hm' : h' ∈ A.cfgs) (hn : h.name ≠ h'.name) (s : Sys W R) :
    (tkCompacts oo (tkNext A oo s h) h' ↔ tkCompacts oo s h') ∧
    tkEnvs oo (tkNext A oo s h) h' = tkEnvs oo s h' ∧
    tkErr A oo (tkNext A oo s h) h' = tkErr A oo s h' ∧
    tkBlock A oo (tkNext A oo s h) h' = tkBlock A oo s h' := by
  have hl : (tkNext A oo s h).lastCompact h'.name = s.lastCompact h'.name := by
    simp only [tkNext, tkUpd]
    split
    · simp [upd, Ne.symm hn]
    · rfl
  have hp : (tkNext A oo s h).proc h'.name = s.proc h'.name := by
    simp only [tkNext, tkUpd]
    split
    · simp [upd, Ne.symm hn]
    · rfl
  have hc : tkCompacts oo (tkNext A oo s h) h' ↔ tkCompacts oo s h' := by
    unfold tkCompacts; rw [hl]
  have he : tkCompacts oo s h' → ((A.uc.prjCompact h' oo.now).effect (tkNext A oo s h).w).2 =
      ((A.uc.prjCompact h' oo.now).effect s.w).2 := by
    intro k'
    simp only [tkNext, tkUpd]
    split
    · rename_i k
      exact u.results h hm k.2.1 h' hm' k'.2.1 (fun e => hn (by rw [e])) s.w
    · rfl
  have hr : tkErr A oo (tkNext A oo s h) h' = tkErr A oo s h' := by
    unfold tkErr
    by_cases k : tkCompacts oo s h'
    · rw [if_pos (hc.2 k), if_pos k, he k]
    · rw [if_neg (fun x => k (hc.1 x)), if_neg k]
  refine ⟨hc, by unfold tkEnvs; rw [hp], hr, ?_⟩
  unfold tkBlock
  rw [hr]
  by_cases k : tkCompacts oo s h'
  · rw [if_pos (hc.2 k), if_pos k, he k]
  · rw [if_neg (fun x => k (hc.1 x)), if_neg k]

theorem flatMap_congr_mem {α β : Type} {f g : α → List β} {l : List α} (h : ∀ x ∈ l, f x = g x) :
    l.flatMap f = l.flatMap g := by
  induction l with
  | nil => rfl
  | cons a l ih =>
    rw [List.flatMap_cons, List.flatMap_cons, h a (by simp), ih (fun x hx => h x (by simp [hx]))]

/-- All visits of a tick. -/
theorem tickAll_visits {A : App W R} (oo : OpOpts) (u : Unrelated A oo.now) (hs : List HConfig) :
    (∀ h ∈ hs, h ∈ A.cfgs) → (hs.map HConfig.name).Nodup →
    ∀ (q : List Env) (errs : List EngErr) (s : Sys W R), A.uc.ctxErr s.w = none →
    tickAll A oo hs q errs s =
      ({ hs.foldl (tkUpd A oo) s with trace := s.trace ++ hs.flatMap (tkBlock A oo s) },
        .ok (q ++ hs.flatMap (tkEnvs oo s), errs ++ hs.flatMap (fun h => tagErr h (tkErr A oo s h)),
          none)) := by
  induction hs with
  | nil => intro _ _ q errs s _; simp [tickAll]
  | cons h hs ih =>
    intro hm nd q errs s hc
    rw [List.map_cons, List.nodup_cons] at nd
    have hm1 : h ∈ A.cfgs := hm h (by simp)
    obtain ⟨h1, h2⟩ := tickAll_step oo u h hm1 hs q errs s hc
    rw [h1, ih (fun x hx => hm x (by simp [hx])) nd.2 _ _ _ h2]
    have ho : ∀ x ∈ hs, _ := fun x hx => tk_other oo u hm1 (hm x (by simp [hx]))
      (fun e => nd.1 (by rw [e]; exact List.mem_map_of_mem hx)) s
    have e1 : hs.flatMap (tkEnvs oo (tkNext A oo s h)) = hs.flatMap (tkEnvs oo s) :=
      flatMap_congr_mem fun x hx => (ho x hx).2.1
    have e2 : hs.flatMap (fun x => tagErr x (tkErr A oo (tkNext A oo s h) x)) =
        hs.flatMap (fun x => tagErr x (tkErr A oo s x)) :=
      flatMap_congr_mem fun x hx => by rw [(ho x hx).2.2.1]
    have e3 : hs.flatMap (tkBlock A oo (tkNext A oo s h)) = hs.flatMap (tkBlock A oo s) :=
      flatMap_congr_mem fun x hx => (ho x hx).2.2.2
    have e4 : ∀ (l : List HConfig) (t t' : Sys W R), t.stored = t'.stored →
        (l.foldl (tkUpd A oo) t).stored = (l.foldl (tkUpd A oo) t').stored := by
      intro l
      induction l with
      | nil => intro t t' h; exact h
      | cons x l ihl =>
        intro t t' h
        refine ihl _ _ ?_
        obtain ⟨w, n, a, p, lc, tr⟩ := t
        obtain ⟨w', n', a', p', lc', tr'⟩ := t'
        simp only [Sys.stored, Sys.mk.injEq, and_true] at h
        obtain ⟨rfl, rfl, rfl, rfl, rfl⟩ := h
        rfl
    have e5 := e4 hs (tkNext A oo s h) (tkUpd A oo s h) rfl
    rw [e1, e2, e3, List.flatMap_cons, List.flatMap_cons, List.flatMap_cons, List.foldl_cons,
      List.append_assoc, List.append_assoc]
    have e6 : (tkNext A oo s h).trace = s.trace ++ tkBlock A oo s h := rfl
    rw [e6, List.append_assoc]
    simp only [Sys.stored, Sys.mk.injEq, and_true] at e5
    obtain ⟨a1, a2, a3, a4, a5⟩ := e5
    dsimp only
    rw [a1, a2, a3, a4, a5]

/-- The order of visits does not matter for what they leave behind. -/
theorem tkUpd_comm {A : App W R} (oo : OpOpts) (u : Unrelated A oo.now) {h h' : HConfig}
    (hm : h ∈ A.cfgs) (hm' : h' ∈ A.cfgs) (hn : h.name ≠ h'.name) (s : Sys W R) :
    tkUpd A oo (tkUpd A oo s h) h' = tkUpd A oo (tkUpd A oo s h') h := by
  have c1 : tkCompacts oo (tkUpd A oo s h) h' ↔ tkCompacts oo s h' :=
    (tk_other oo u hm hm' hn s).1
  have c2 : tkCompacts oo (tkUpd A oo s h') h ↔ tkCompacts oo s h :=
    (tk_other oo u hm' hm (Ne.symm hn) s).1
  unfold tkUpd at c1 c2 ⊢
  simp only [c1, c2, Sys.mk.injEq, and_true, true_and]
  refine ⟨?_, ?_, ?_⟩
  · by_cases k : tkCompacts oo s h <;> by_cases k' : tkCompacts oo s h' <;>
      simp only [k, k', if_true, if_false]
    exact u.world h hm k.2.1 h' hm' k'.2.1 (fun e => hn (by rw [e])) s.w
  · split <;> split <;> try rfl
    all_goals
      funext x
      simp only [upd]
      by_cases x1 : x = h.name <;> by_cases x2 : x = h'.name <;> simp_all
  · by_cases k : tkCompacts oo s h <;> by_cases k' : tkCompacts oo s h' <;>
      simp only [k, k', if_true, if_false]
    funext x
    simp only [upd]
    by_cases x1 : x = h.name <;> by_cases x2 : x = h'.name <;> simp_all

theorem flatMap_filter_of {α β : Type} (p : α → Bool) (f : α → List β) (l : List α)
    (h : ∀ x ∈ l, p x = false → f x = []) : l.flatMap f = (l.filter p).flatMap f := by
  induction l with
  | nil => rfl
  | cons a l ih =>
    have ih := ih (fun x hx => h x (by simp [hx]))
    rw [List.flatMap_cons, List.filter_cons]
    split
    · rw [List.flatMap_cons, ih]
    · rename_i hp
      rw [h a (by simp) (by simpa using hp), ih]; rfl

/-! ## C109 -/

theorem tkEnvs_idle {A : App W R} {s : Sys W R} {os : List OpOption} {oo : OpOpts}
    (hoo : newOpOpts A s os = .ok oo) (t : Sys W R) (ht : t.proc = s.proc) (h : HConfig)
    (hd : delivers A s os h = false) : tkEnvs oo t h = [] := by
  unfold tkEnvs
  split
  · rename_i k
    have k1 : takesPart os h = true := by
      rw [takesPart_iff, ← newOpOpts_skip hoo]; exact k.1
    unfold delivers at hd
    rw [k.2, k1, ← newOpOpts_now hoo] at hd
    simp only [decide_true, Bool.and_true, Bool.true_and] at hd
    rw [ht]
    cases hl : (s.proc h.name).timeouts with
    | nil => rfl
    | cons e l =>
      rw [hl, List.any_cons, Bool.or_eq_false_iff] at hd
      rw [List.takeWhile_cons, hd.1]
      rfl
  · rfl

theorem inj_of_nodup_map {α β : Type} {f : α → β} {l : List α} (nd : (l.map f).Nodup) {x y : α}
    (hx : x ∈ l) (hy : y ∈ l) (e : f x = f y) : x = y := by
  induction l with
  | nil => cases hx
  | cons a l ih =>
    rw [List.map_cons, List.nodup_cons] at nd
    rcases List.mem_cons.1 hx with rfl | hx' <;> rcases List.mem_cons.1 hy with rfl | hy'
    · rfl
    · exact (nd.1 (by rw [e]; exact List.mem_map_of_mem hy')).elim
    · exact (nd.1 (by rw [← e]; exact List.mem_map_of_mem hx')).elim
    · exact ih nd.2 hx' hy'

/-- **C109.**  If `Compact()` methods have nothing to do with one another, the only thing that
matters about the order in which a tick visits the handlers is in which order those process handlers
are visited that have timeouts to deliver.  Whatever the order is otherwise, what the engine stores afterwards, the
world, and everything that is observed after the visits (`rest`: all messages dispatched with their
IDs, all calls of handlers) are the same; only the visits themselves, the observations of each of
which (`block`) are the same too, and the errors of compactions are in the order of the visits. -/
theorem C109_order {A : App W R} (wf : A.WF) (s : Sys W R) (fuel : Nat) (os : List OpOption)
    (hn : namesKnown A.cfgs os) (hc : A.uc.ctxErr s.w = none)
    (u : Unrelated A (engineTime os (A.uc.wallClock s.w))) (ds : List HConfig) :
    ∃ (c : CycleInfo) (block : HConfig → List (Obs R)) (errs : HConfig → List EngErr)
      (rest : List (Obs R)) (fin : Sys W R) (o : Outcome (List EngErr)),
      (∀ h, ∀ x ∈ block h, x.visits h) ∧
      ∀ order, order.Perm A.cfgs → order.filter (delivers A s os) = ds →
        let r := (Op.tick fuel order os).exec A s
        during s r.1 = .fact (.tickCycleBegun c) ::
          (order.flatMap block ++ rest ++ tickEnd c.maps (o.after (order.flatMap errs))) ∧
        r.2 = o.after (order.flatMap errs) ∧
        r.1.stored = fin := by
  obtain ⟨oo, hoo⟩ := newOpOpts_names (s := s) |>.2 hn
  rw [← newOpOpts_now hoo] at u
  refine ⟨oo.cycle A, ?_⟩
  cases hl : A.uc.lockErr s.w with
  | some e =>
    refine ⟨fun _ => [], fun _ => [], [], s.stored, .done [.lock e], by simp, ?_⟩
    intro order _ _
    have : (Op.tick fuel order os).exec A s = _ := rfl
    simp only [Op.exec, engTick, hoo]
    rw [show A.uc.lockErr (s.notify (.tickCycleBegun (oo.cycle A))).w = some e from hl]
    have e1 : order.flatMap (fun _ => ([] : List EngErr)) = [] := by simp
    have e2 : order.flatMap (fun _ => ([] : List (Obs R))) = [] := by simp
    rw [e1, e2]
    refine ⟨?_, rfl, rfl⟩
    apply during_seg
    simp [Sys.notify, Sys.emit, tickEnd, Outcome.after]
  | none =>
    let s1 := s.notify (.tickCycleBegun (oo.cycle A))
    let t : Sys W R := (A.cfgs.foldl (tkUpd A oo) s1).stored
    let d := dispatchLoop A oo fuel (ds.flatMap (tkEnvs oo s1)) [] t
    refine ⟨tkBlock A oo s1, fun h => tagErr h (tkErr A oo s1 h), d.1.trace, d.1.stored, d.2,
      tkBlock_visits A oo s1, ?_⟩
    intro order ho hf
    have hv := tickAll_visits oo u order (fun h hh => ho.mem_iff.1 hh)
      ((ho.map HConfig.name).nodup_iff.2 wf.names) [] [] s1 hc
    have hq : order.flatMap (tkEnvs oo s1) = ds.flatMap (tkEnvs oo s1) := by
      rw [← hf]
      exact flatMap_filter_of _ _ _ fun h _ hd => tkEnvs_idle hoo s1 rfl h hd
    have hw : order.foldl (tkUpd A oo) s1 = A.cfgs.foldl (tkUpd A oo) s1 := by
      refine ho.foldl_eq' ?_ s1
      intro x hx y hy z
      by_cases e : x = y
      · rw [e]
      · refine tkUpd_comm oo u (ho.mem_iff.1 hx) (ho.mem_iff.1 hy) ?_ z
        intro en
        exact e (inj_of_nodup_map wf.names (ho.mem_iff.1 hx) (ho.mem_iff.1 hy) en)
    rw [hq, hw] at hv
    have ht : ({ A.cfgs.foldl (tkUpd A oo) s1 with
        trace := s1.trace ++ order.flatMap (tkBlock A oo s1) } : Sys W R) =
        t.on (s1.trace ++ order.flatMap (tkBlock A oo s1)) := by
      simp [t, Sys.on, Sys.stored]
    have hk : engTickLocked A oo fuel order s1 =
        (d.1.on (s1.trace ++ order.flatMap (tkBlock A oo s1)),
          d.2.after (order.flatMap fun h => tagErr h (tkErr A oo s1 h))) := by
      unfold engTickLocked
      rw [hv]
      simp only [List.nil_append]
      rw [ht, dispatchLoop_on]
      rcases hd : dispatchLoop A oo fuel (ds.flatMap (tkEnvs oo s1)) [] t with ⟨s2, o⟩
      simp only [d, hd, lft]
      cases o <;> rfl
    simp only [Op.exec, engTick, hoo]
    rw [show A.uc.lockErr (s.notify (.tickCycleBegun (oo.cycle A))).w = none from hl]
    simp only
    rw [show engTickLocked A oo fuel order (s.notify (.tickCycleBegun (oo.cycle A))) = _ from hk]
    rcases hd : d with ⟨s2, o⟩
    cases o with
    | done e =>
      simp only [Outcome.after, tickEnd]
      refine ⟨?_, trivial, rfl⟩
      apply during_seg
      simp [s1, Sys.notify, Sys.emit, Sys.on, OpOpts.cycle]
    | panicked v =>
      simp only [Outcome.after, tickEnd]
      refine ⟨?_, trivial, rfl⟩
      apply during_seg
      simp [s1, Sys.notify, Sys.emit, Sys.on]
    | running =>
      simp only [Outcome.after, tickEnd]
      refine ⟨?_, trivial, rfl⟩
      apply during_seg
      simp [s1, Sys.notify, Sys.emit, Sys.on]

/-- If at most one process handler has timeouts to deliver, the order does not matter at all. -/
theorem C109_any {A : App W R} (wf : A.WF) (s : Sys W R) (fuel : Nat) (os : List OpOption)
    (hn : namesKnown A.cfgs os) (hc : A.uc.ctxErr s.w = none)
    (u : Unrelated A (engineTime os (A.uc.wallClock s.w)))
    (h1 : (A.cfgs.filter (delivers A s os)).length ≤ 1) :
    ∃ (c : CycleInfo) (block : HConfig → List (Obs R)) (errs : HConfig → List EngErr)
      (rest : List (Obs R)) (fin : Sys W R) (o : Outcome (List EngErr)),
      (∀ h, ∀ x ∈ block h, x.visits h) ∧
      ∀ order, order.Perm A.cfgs →
        let r := (Op.tick fuel order os).exec A s
        during s r.1 = .fact (.tickCycleBegun c) ::
          (order.flatMap block ++ rest ++ tickEnd c.maps (o.after (order.flatMap errs))) ∧
        r.2 = o.after (order.flatMap errs) ∧
        r.1.stored = fin := by
  obtain ⟨c, b, e, r, f, o, h, k⟩ :=
    C109_order wf s fuel os hn hc u (A.cfgs.filter (delivers A s os))
  refine ⟨c, b, e, r, f, o, h, fun order ho => k order ho ?_⟩
  have hp := ho.filter (delivers A s os)
  cases hl : A.cfgs.filter (delivers A s os) with
  | nil => rw [hl] at hp; exact hp.eq_nil
  | cons x l =>
    rw [hl] at hp h1
    cases l with
    | nil => exact List.perm_singleton.1 hp
    | cons y l => simp at h1

/-- After ticks that visit those handlers in the same order that have timeouts to deliver, the
engine behaves in the same way ever after. -/
theorem C109_later {A : App W R} (wf : A.WF) (s : Sys W R) (fuel : Nat) (os : List OpOption)
    (hn : namesKnown A.cfgs os) (hc : A.uc.ctxErr s.w = none)
    (u : Unrelated A (engineTime os (A.uc.wallClock s.w))) (o1 o2 : List HConfig)
    (h1 : o1.Perm A.cfgs) (h2 : o2.Perm A.cfgs)
    (hd : o1.filter (delivers A s os) = o2.filter (delivers A s os)) (es : List (Event W)) :
    behaviour A es ((Op.tick fuel o1 os).exec A s).1 =
      behaviour A es ((Op.tick fuel o2 os).exec A s).1 := by
  obtain ⟨c, b, e, r, f, o, -, k⟩ := C109_order wf s fuel os hn hc u _
  have k1 := (k o1 h1 rfl).2.2
  have k2 := (k o2 h2 hd.symm).2.2
  have on : ∀ t : Sys W R, t = t.stored.on t.trace := by
    intro t; simp [Sys.stored, Sys.on]
  rw [on ((Op.tick fuel o1 os).exec A s).1, on ((Op.tick fuel o2 os).exec A s).1, behaviour_on,
    behaviour_on, k1, k2]

/-! ## Verdicts -/

mutual

/-- The predicate is one of a plain expectation. -/
def Pred.Plain : Pred → Prop
  | .message _ | .type _ | .matching _ => True
  | .composite _ _ ps => Pred.AllPlain ps
  | .not p => p.Plain
  | .repeatedly _ ps => Pred.AllPlain ps
  | .satisfy _ | .custom _ _ => False

def Pred.AllPlain : List Pred → Prop
  | [] => True
  | p :: ps => p.Plain ∧ Pred.AllPlain ps

end

theorem repeatLoop_plain (desc : String) (b : Nat → List (String × Nat) × Except BuildErr Pred)
    (hb : ∀ i p, (b i).2 = .ok p → p.Plain) (n : Nat) : ∀ (i : Nat) (ps : List Pred),
    (repeatLoop desc b n i).2 = .ok ps → Pred.AllPlain ps := by
  induction n with
  | zero => intro i ps h; simp [repeatLoop] at h; subst h; simp [Pred.AllPlain]
  | succ n ih =>
    intro i ps h
    unfold repeatLoop at h
    rcases h1 : b i with ⟨l, r⟩
    rw [h1] at h
    cases r with
    | error e => cases h
    | ok p =>
      rcases h2 : repeatLoop desc b n (i + 1) with ⟨l', r'⟩
      simp only [h2] at h
      cases r' with
      | error e => cases h
      | ok ps' =>
        simp only [Except.ok.injEq] at h
        subst h
        unfold Pred.AllPlain
        exact ⟨hb i p (by rw [h1]), ih (i + 1) ps' (by rw [h2])⟩

mutual

theorem Expectation.Plain.build (s : PScope) : ∀ e : Expectation, e.Plain → ∀ p,
    (e.build s).2 = .ok p → p.Plain
  | .message m, _, p, hb => by
    unfold Expectation.build at hb
    simp only at hb
    split at hb
    · cases hb
    · cases hb; simp [Pred.Plain]
  | .type t, _, p, hb => by
    unfold Expectation.build at hb
    simp only at hb
    split at hb
    · cases hb
    · cases hb; simp [Pred.Plain]
  | .matching T fn loc ex, _, p, hb => by
    unfold Expectation.build at hb
    simp only at hb
    split at hb
    · cases hb; simp [Pred.Plain]
    · split at hb
      · cases hb
      · cases hb; simp [Pred.Plain]
  | .composite k es, h, p, hb => by
    unfold Expectation.Plain at h
    unfold Expectation.build at hb
    rcases h1 : Expectation.buildAll s es with ⟨l, r⟩
    rw [h1] at hb
    cases r with
    | error e => cases hb
    | ok ps =>
      cases hb
      unfold Pred.Plain
      exact Expectation.AllPlain.build s es h ps (by rw [h1])
  | .not e, h, p, hb => by
    unfold Expectation.Plain at h
    unfold Expectation.build at hb
    rcases h1 : e.build s with ⟨l, r⟩
    rw [h1] at hb
    cases r with
    | error e => cases hb
    | ok q =>
      cases hb
      unfold Pred.Plain
      exact Expectation.Plain.build s e h q (by rw [h1])
  | .repeatedly d n f, h, p, hb => by
    unfold Expectation.Plain at h
    unfold Expectation.build at hb
    split at hb
    · cases hb
    · rename_i l ps h1
      cases hb
      unfold Pred.Plain
      refine repeatLoop_plain d _ ?_ n 0 ps (by rw [h1])
      intro i q hq
      split at hq
      · cases hq
      · exact Expectation.Plain.build s (f i) (h i) q hq
  | .satisfy d fn, h, _, _ => by unfold Expectation.Plain at h; exact h.elim
  | .custom c mk, h, _, _ => by unfold Expectation.Plain at h; exact h.elim
  | .nil, _, p, hb => by unfold Expectation.build at hb; cases hb

theorem Expectation.AllPlain.build (s : PScope) : ∀ es : List Expectation,
    Expectation.AllPlain es → ∀ ps, (Expectation.buildAll s es).2 = .ok ps → Pred.AllPlain ps
  | [], _, ps, hb => by unfold Expectation.buildAll at hb; cases hb; simp [Pred.AllPlain]
  | e :: es, h, ps, hb => by
    unfold Expectation.AllPlain at h
    unfold Expectation.buildAll at hb
    rcases h1 : e.build s with ⟨l, r⟩
    rw [h1] at hb
    cases r with
    | error e => cases hb
    | ok q =>
      rcases h2 : Expectation.buildAll s es with ⟨l', r'⟩
      simp only [h2] at hb
      cases r' with
      | error e => cases hb
      | ok qs =>
        cases hb
        unfold Pred.AllPlain
        exact ⟨Expectation.Plain.build s e h.1 q (by rw [h1]),
          Expectation.AllPlain.build s es h.2 qs (by rw [h2])⟩

end

/-- A fact of which message predicates take no notice. -/
def Fact.ignored (f : Fact) : Prop := ∀ t : Tracker, t.notify f = (t, none)

mutual

theorem Pred.Plain.notify_ignored (s : PScope) (f : Fact) (hf : f.ignored) : ∀ p : Pred, p.Plain →
    p.notify s f = p
  | .message p, _ => by
    unfold Pred.notify MsgPred.notify; rw [hf]; split <;> rfl
  | .type p, _ => by
    unfold Pred.notify TypePred.notify; rw [hf]; split <;> rfl
  | .matching p, _ => by
    unfold Pred.notify MatchPred.notify; rw [hf]; split <;> rfl
  | .composite _ _ ps, h => by
    unfold Pred.Plain at h
    unfold Pred.notify; rw [Pred.AllPlain.notify_ignored s f hf ps h]
  | .not p, h => by
    unfold Pred.Plain at h
    unfold Pred.notify; rw [Pred.Plain.notify_ignored s f hf p h]
  | .repeatedly _ ps, h => by
    unfold Pred.Plain at h
    unfold Pred.notify; rw [Pred.AllPlain.notify_ignored s f hf ps h]
  | .satisfy _, h => by unfold Pred.Plain at h; exact h.elim
  | .custom _ _, h => by unfold Pred.Plain at h; exact h.elim

theorem Pred.AllPlain.notify_ignored (s : PScope) (f : Fact) (hf : f.ignored) :
    ∀ ps : List Pred, Pred.AllPlain ps → Pred.notifyAll s f ps = ps
  | [], _ => by unfold Pred.notifyAll; rfl
  | p :: ps, h => by
    unfold Pred.AllPlain at h
    unfold Pred.notifyAll
    rw [Pred.Plain.notify_ignored s f hf p h.1, Pred.AllPlain.notify_ignored s f hf ps h.2]

end

mutual

theorem Pred.Plain.notify (s : PScope) (f : Fact) : ∀ p : Pred, p.Plain → (p.notify s f).Plain
  | .message _, _ => by simp [Pred.notify, Pred.Plain]
  | .type _, _ => by simp [Pred.notify, Pred.Plain]
  | .matching _, _ => by simp [Pred.notify, Pred.Plain]
  | .composite _ _ ps, h => by
    unfold Pred.notify Pred.Plain; unfold Pred.Plain at h
    exact Pred.AllPlain.notify s f ps h
  | .not p, h => by
    unfold Pred.notify Pred.Plain; unfold Pred.Plain at h
    exact Pred.Plain.notify s f p h
  | .repeatedly _ ps, h => by
    unfold Pred.notify Pred.Plain; unfold Pred.Plain at h
    exact Pred.AllPlain.notify s f ps h
  | .satisfy _, h => by unfold Pred.Plain at h; exact h.elim
  | .custom _ _, h => by unfold Pred.Plain at h; exact h.elim

theorem Pred.AllPlain.notify (s : PScope) (f : Fact) : ∀ ps : List Pred, Pred.AllPlain ps →
    Pred.AllPlain (Pred.notifyAll s f ps)
  | [], _ => by simp [Pred.notifyAll, Pred.AllPlain]
  | p :: ps, h => by
    unfold Pred.notifyAll Pred.AllPlain; unfold Pred.AllPlain at h
    exact ⟨Pred.Plain.notify s f p h.1, Pred.AllPlain.notify s f ps h.2⟩

end

theorem Pred.Plain.observe (s : PScope) (fs : List Fact) : ∀ p : Pred, p.Plain →
    (p.observe s fs).Plain := by
  unfold Pred.observe
  induction fs with
  | nil => intro p h; exact h
  | cons f fs ih => intro p h; exact ih _ (h.notify s f)

theorem Pred.Plain.observe_ignored (s : PScope) (fs : List Fact) (hf : ∀ f ∈ fs, f.ignored) (p : Pred)
    (hp : p.Plain) : p.observe s fs = p := by
  unfold Pred.observe
  induction fs with
  | nil => rfl
  | cons f fs ih =>
    rw [List.foldl_cons, hp.notify_ignored s f (hf f (by simp))]
    exact ih (fun g hg => hf g (by simp [hg]))

theorem Pred.observe_append (s : PScope) (p : Pred) (a b : List Fact) :
    p.observe s (a ++ b) = (p.observe s a).observe s b := by
  simp [Pred.observe]

theorem visits_ignored (l : List (Obs R)) (hl : ∀ x ∈ l, ∃ h, x.visits h) :
    ∀ f ∈ factsOf l, f.ignored := by
  intro f hf t
  simp only [factsOf, List.mem_filterMap] at hf
  obtain ⟨x, hx, e⟩ := hf
  obtain ⟨h, hv⟩ := hl x hx
  cases x with
  | reset => cases e
  | call c => cases e
  | fact g =>
    cases e
    cases f <;> simp only [Obs.visits] at hv <;> rfl

/-- Let ticks visit those handlers in the same order that have timeouts to deliver.  No plain
expectation tells them apart: its predicates are the same afterwards, hence so are the verdict and
the report. -/
theorem C109_verdict {A : App W R} (wf : A.WF) (s : Sys W R) (fuel : Nat) (os : List OpOption)
    (hn : namesKnown A.cfgs os) (hc : A.uc.ctxErr s.w = none)
    (u : Unrelated A (engineTime os (A.uc.wallClock s.w))) (o1 o2 : List HConfig)
    (h1 : o1.Perm A.cfgs) (h2 : o2.Perm A.cfgs)
    (hd : o1.filter (delivers A s os) = o2.filter (delivers A s os))
    (S : PScope) (x : Expectation) (hx : x.Plain) :
    let f1 := factsOf (during s ((Op.tick fuel o1 os).exec A s).1)
    let f2 := factsOf (during s ((Op.tick fuel o2 os).exec A s).1)
    x.verdict S f1 = x.verdict S f2 ∧
    ∀ p ctx, (x.build S).2 = .ok p →
      (p.observe S f1).done.1.report ctx = (p.observe S f2).done.1.report ctx := by
  obtain ⟨c, b, e, r, f, o, hb, k⟩ := C109_order wf s fuel os hn hc u _
  have k1 := (k o1 h1 rfl).1
  have k2 := (k o2 h2 hd.symm).1
  dsimp only
  have key : ∀ p, (x.build S).2 = .ok p → ∀ order : List HConfig,
      p.observe S (factsOf (R := R) (.fact (.tickCycleBegun c) ::
        (order.flatMap b ++ r ++ tickEnd c.maps (o.after (order.flatMap e))))) =
      p.observe S (factsOf (R := R) (.fact (.tickCycleBegun c) :: r)) := by
    intro p hp order
    have pl := Expectation.Plain.build S x hx p hp
    have a1 : ∀ (f : Fact) (l : List (Obs R)), factsOf (.fact f :: l) = [f] ++ factsOf l := by
      intro f l; rfl
    have a2 : ∀ l l' : List (Obs R), factsOf (l ++ l') = factsOf l ++ factsOf l' := by
      intro l l'; simp [factsOf]
    rw [a1, a1, a2, a2, Pred.observe_append, Pred.observe_append, Pred.observe_append,
      Pred.observe_append]
    rw [Pred.Plain.observe_ignored S (factsOf (order.flatMap b))
      (visits_ignored _ (by
        intro y hy
        obtain ⟨h, _, hy⟩ := List.mem_flatMap.1 hy
        exact ⟨h, hb h y hy⟩)) _ (pl.observe S _)]
    refine Pred.Plain.observe_ignored S _ ?_ _ ((pl.observe S _).observe S _)
    intro f hf t
    cases ho : o.after (order.flatMap e) with
    | done es =>
      rw [ho] at hf
      simp only [tickEnd, factsOf, List.filterMap_cons, List.filterMap_nil,
        List.mem_singleton] at hf
      rw [hf]; rfl
    | panicked v => rw [ho] at hf; simp [tickEnd, factsOf] at hf
    | running => rw [ho] at hf; simp [tickEnd, factsOf] at hf
  rw [k1, k2]
  refine ⟨?_, fun p ctx hp => by rw [key p hp, key p hp]⟩
  unfold Expectation.verdict
  cases hp : (x.build S).2 with
  | error e => rfl
  | ok p => simp only [judgeBuilt, Pred.verdict, key p hp]

/-! ## Examples -/

namespace Demo

/-- The compactions of the demo (there is only one projection). -/
theorem app_unrelated (now : Time) : Unrelated app now where
  calm _ _ _ _ := ⟨none, rfl⟩
  context _ _ _ _ := rfl
  results _ _ _ _ _ _ _ _ := rfl
  world _ _ _ _ _ _ _ _ := rfl

/-- After two commands a timeout of each is due at time 10. -/
def pending : Sys Nat (List String) := runOps app (history.take 2) (Sys.init 0)

set_option maxRecDepth 100000 in
/-- Only the process handler has something to deliver in a tick at time 10; `C109_any` says that
ticks in whatever order do the same: `D` is executed, `F` recorded (the process has ended when the
second timeout comes). -/
example : app.cfgs.filter (delivers app pending [.currentTime 10]) = [proc] ∧
    (∀ order ∈ [[agg, proc, int, prj], [prj, int, proc, agg], [proc, prj, agg, int]],
      (createdIn (during pending ((Op.tick 20 order [.currentTime 10]).exec app pending).1)).map
        (fun e => (e.id, e.msg.type.name)) = [(11, "D"), (12, "F")]) := by
  decide +kernel

example := C109_any app_wf pending 20 [.currentTime 10] (by intro o; simp) rfl (app_unrelated _)
  (by decide +kernel)

/-- Two projections whose compactions add 2 to the world, log a line and fail. -/
def prj' : HConfig := { prj with name := "prj'" }

def compacting : App Nat (List String) :=
  { app with
    cfgs := [agg, proc, int, prj, prj']
    uc := { uc with
      prjCompact := fun h _ => .op (.log h.name) fun _ => .get fun w => .set (w + 2) (.ret (some h.name))
      ctxErr := fun _ => none } }

theorem compacting_wf : compacting.WF where
  names := by decide
  handlers := by
    intro h hh
    simp only [compacting, List.mem_cons, List.not_mem_nil, or_false] at hh
    rcases hh with rfl | rfl | rfl | rfl | rfl <;>
      exact ⟨by simp [agg, proc, int, prj, prj', cmdC, cmdD, evtE, evtF, tmoT],
        by simp [agg, proc, int, prj, prj', cmdC, cmdD, evtE, evtF, tmoT]⟩

theorem compacting_unrelated (now : Time) : Unrelated compacting now where
  calm h _ _ _ := ⟨some h.name, rfl⟩
  context _ _ _ _ := rfl
  results _ _ _ _ _ _ _ _ := rfl
  world _ _ _ _ _ _ _ _ := rfl

/-- The hypotheses can be met when compactions do things; the errors come in the order of visits. -/
example := C109_any compacting_wf (Sys.init 0) 20 [.currentTime (10 * compactInterval)]
  (by intro o; simp) rfl (compacting_unrelated _) (by decide +kernel)

set_option maxRecDepth 100000 in
example :
    ((Op.tick 20 [agg, proc, int, prj, prj'] [.currentTime (10 * compactInterval)]).exec compacting
      (Sys.init 0)).2 = .done [.handler "prj" .projection "prj", .handler "prj'" .projection "prj'"] ∧
    ((Op.tick 20 [prj', agg, proc, int, prj] [.currentTime (10 * compactInterval)]).exec compacting
      (Sys.init 0)).2 = .done [.handler "prj'" .projection "prj'", .handler "prj" .projection "prj"] ∧
    ((Op.tick 20 [prj', agg, proc, int, prj] [.currentTime (10 * compactInterval)]).exec compacting
      (Sys.init 0)).1.w = 4 := by
  decide +kernel

/-- The type of the timeouts of the second process of `twins`. -/
def tmoU : MType := ⟨.timeout, "U"⟩

def twin : HConfig :=
  { name := "twin", htype := .process, consumes := [evtE, tmoU], produces := [cmdD, tmoU] }

/-- Two processes react to `E`: `proc` schedules `T` for time 10, `twin` schedules `U` for time 5.
Whoever gets their timeout first executes `D` with their name (world 2 remembers that). -/
def twinsUc : UserCode Nat (List String) :=
  { uc with
    procHandle := fun h _ _ m _ =>
      match m.type.kind with
      | .timeout => .get fun w =>
        if w = 2 then .ret none else .set 2 (ops none [.execute ⟨cmdD, h.name, none⟩])
      | _ =>
        if h.name = "twin" then ops none [.schedule ⟨tmoU, m.body, none⟩ 5]
        else ops none [.schedule ⟨tmoT, m.body, none⟩ 10] }

def twins : App Nat (List String) := { app with cfgs := [agg, proc, twin, int, prj], uc := twinsUc }

theorem twins_wf : twins.WF where
  names := by decide
  handlers := by
    intro h hh
    simp only [twins, List.mem_cons, List.not_mem_nil, or_false] at hh
    rcases hh with rfl | rfl | rfl | rfl | rfl <;>
      exact ⟨by simp [agg, proc, twin, int, prj, cmdC, cmdD, evtE, evtF, tmoT, tmoU],
        by simp [agg, proc, twin, int, prj, cmdC, cmdD, evtE, evtF, tmoT, tmoU]⟩

theorem twins_unrelated (now : Time) : Unrelated twins now where
  calm _ _ _ _ := ⟨none, rfl⟩
  context _ _ _ _ := rfl
  results _ _ _ _ _ _ _ _ := rfl
  world _ _ _ _ _ _ _ _ := rfl

def both : Sys Nat (List String) :=
  ((Op.dispatch 20 (msgC "x") [.currentTime 1]).exec twins (Sys.init 0)).1

/-- The timeouts taken up in the cycle and the times they are for. -/
def taken (fs : List Fact) : List (String × Time) :=
  fs.filterMap fun
    | .dispatchBegun e =>
      if e.msg.type.kind = .timeout then some (e.msg.type.name, e.scheduledFor) else none
    | _ => none

/-- "The process `twin` executes `D`." -/
def twinFirst : Expectation := .message ⟨cmdD, "twin", none⟩

end Demo

open Demo in
set_option maxRecDepth 100000 in
/-- The order of the handlers with timeouts to deliver does matter: it is that of Go's maps, not that
of time.  There are an application, a state of an engine that runs it, and two orders of visits such
that a timeout scheduled for time 10 is delivered before one scheduled for time 5 with the first but
not with the second, and the expectation that a certain command is executed fails with the first but
not with the second. -/
theorem C109_matters : ∃ (A : App Nat (List String)) (s : Sys Nat (List String)) (os : List OpOption)
    (o1 o2 : List HConfig) (S : PScope) (x : Expectation),
    A.WF ∧ Reach A s ∧ (∀ now, Unrelated A now) ∧ o1.Perm A.cfgs ∧ o2.Perm A.cfgs ∧ x.Plain ∧
    let f1 := factsOf (during s ((Op.tick 20 o1 os).exec A s).1)
    let f2 := factsOf (during s ((Op.tick 20 o2 os).exec A s).1)
    taken f1 = [("T", 10), ("U", 5)] ∧ taken f2 = [("U", 5), ("T", 10)] ∧
    x.verdict S f1 = .decided false ∧ x.verdict S f2 = .decided true := by
  refine ⟨twins, both, [.currentTime 10], [agg, proc, twin, int, prj], [agg, twin, proc, int, prj],
    scope false, twinFirst, twins_wf, .step _ (.init 0) trivial, twins_unrelated, .refl _,
    .cons _ (.swap ..), by simp [twinFirst, Expectation.Plain], ?_⟩
  refine ⟨by decide +kernel, by decide +kernel, by decide +kernel, by decide +kernel⟩

end Verif
