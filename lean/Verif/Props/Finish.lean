import Verif.Props.Concurrent
import Verif.Props.ExecConc
import Verif.Props.EngineSerial

/-!
# C105: what goroutines have begun gets finished, whatever the scheduler does

Programs are trees, so each of them ends if it is run alone.  Here finitely many goroutines use one
engine, or the executor of one test: there is no infinite run, and no run comes to a standstill
before everything is done.
-/

namespace Verif

/-- States have a part for each of several parties, and a step is made by one of the first `n`. -/
def OneMoves {S T : Type} (R : T → T → Prop) (view : S → Nat → T) (n : Nat) (s' s : S) : Prop :=
  ∃ t, t < n ∧ R (view s' t) (view s t) ∧ ∀ u, u ≠ t → view s' u = view s u

/-- If none of the parties can move forever on its own, they cannot together. -/
theorem oneMoves_acc {S T : Type} {R : T → T → Prop} {view : S → Nat → T} :
    ∀ (n : Nat) (s : S), (∀ t, t < n → Acc R (view s t)) → Acc (OneMoves R view n) s
  | 0, s, _ => ⟨_, fun _ h => by obtain ⟨t, ht, _⟩ := h; omega⟩
  | n + 1, s, hs => by
    have key : ∀ x, Acc R x → ∀ s, view s n = x → (∀ t, t < n → Acc R (view s t)) →
        Acc (OneMoves R view (n + 1)) s := by
      intro x hx
      induction hx with
      | intro x _ ihx =>
        intro s hv hs
        have hacc := oneMoves_acc n s hs
        induction hacc with
        | intro s _ ihs =>
          refine ⟨_, fun s' h => ?_⟩
          obtain ⟨t, ht, hr, ho⟩ := h
          by_cases e : t = n
          · subst e
            refine ihx _ (hv ▸ hr) s' rfl fun u hu => ?_
            rw [ho u (by omega)]
            exact hs u hu
          · have ht' : t < n := by omega
            refine ihs s' ⟨t, ht', hr, ho⟩ (by rw [ho n (by omega), hv]) fun u hu => ?_
            by_cases eu : u = t
            · subst eu; exact (hs u hu).inv hr
            · rw [ho u eu]; exact hs u hu
    exact key _ (hs n (Nat.lt_succ_self n)) s rfl fun t ht => hs t (by omega)

/-- No infinite descent from an accessible element. -/
theorem acc_no_chain {S : Type} {R : S → S → Prop} {s : S} (h : Acc R s) :
    ¬ ∃ f : Nat → S, f 0 = s ∧ ∀ n, R (f (n + 1)) (f n) := by
  induction h with
  | intro s _ ih =>
    intro ⟨f, h0, hf⟩
    exact ih (f 1) (h0 ▸ hf 0) ⟨fun n => f (n + 1), rfl, fun n => hf (n + 1)⟩

end Verif

namespace Verif.Conc

variable {C : Type}

/-- What one step may make of a goroutine, whatever the others do. -/
inductive Moves : Thread C → Thread C → Prop where
  | call {b rest n} : Moves ⟨.waiting b, rest, n + 1⟩ ⟨.idle, .locked b :: rest, n⟩
  | callID {b k rest n} : Moves ⟨.waiting b, rest, n + 1⟩ ⟨.idle, .withID k :: rest, n⟩
  | skip {k rest n} : Moves ⟨.idle, rest, n + 1⟩ ⟨.idle, .withID k :: rest, n⟩
  | giveUp {b rest n} : Moves ⟨.idle, rest, n⟩ ⟨.waiting b, rest, n⟩
  | lock {b rest n} : Moves ⟨.inside b, rest, n⟩ ⟨.waiting b, rest, n⟩
  | touch {f k c rest n} : Moves ⟨.inside (k c), rest, n⟩ ⟨.inside (.touch f k), rest, n⟩
  | id {k i rest n} : Moves ⟨.inside (k i), rest, n⟩ ⟨.inside (.id k), rest, n⟩
  | resetIDs {k rest n} : Moves ⟨.inside k, rest, n⟩ ⟨.inside (.resetIDs k), rest, n⟩
  | unlock {b rest n} : Moves ⟨.idle, rest, n⟩ ⟨.inside b, rest, n⟩

theorem step_moves {s s' : St C} {l : Label C} (h : Step s l s') :
    ∃ t, Moves (s'.threads t) (s.threads t) ∧ ∀ u, u ≠ t → s'.threads u = s.threads u := by
  cases h with
  | @call t b rest n g =>
    refine ⟨t, ?_, fun u hu => if_neg hu⟩
    rw [g]; simp only [St.set, if_true]; exact .call
  | @callID t k rest n b g _ =>
    refine ⟨t, ?_, fun u hu => if_neg hu⟩
    rw [g]; simp only [St.set, if_true]; exact .callID
  | @callIDPanic t k rest n g _ =>
    refine ⟨t, ?_, fun u hu => if_neg hu⟩
    rw [g]; simp only [St.set, if_true]; exact .skip
  | @giveUp t b todo n g =>
    refine ⟨t, ?_, fun u hu => if_neg hu⟩
    rw [g]; simp only [St.set, if_true]; exact .giveUp
  | @lock t b todo n g _ =>
    refine ⟨t, ?_, fun u hu => if_neg hu⟩
    rw [g]; simp only [St.set, if_true]; exact .lock
  | @touch t f k todo n g =>
    refine ⟨t, ?_, fun u hu => if_neg hu⟩
    rw [g]; simp only [St.set, if_true]; exact .touch
  | @id t k todo n g =>
    refine ⟨t, ?_, fun u hu => if_neg hu⟩
    rw [g]; simp only [St.set, if_true]; exact .id
  | @resetIDs t k todo n g =>
    refine ⟨t, ?_, fun u hu => if_neg hu⟩
    rw [g]; simp only [St.set, if_true]; exact .resetIDs
  | @unlock t b todo n g _ =>
    refine ⟨t, ?_, fun u hu => if_neg hu⟩
    rw [g]; simp only [St.set, if_true]; exact .unlock

theorem Moves.not_idle {x' x : Thread C} (h : Moves x' x) (h1 : x.phase = .idle) (h2 : x.todo = []) :
    False := by
  cases h <;> first | (cases h1; done) | (cases h2; done)

/-- A goroutine that makes finitely many calls cannot move forever on its own. -/
theorem moves_acc (x : Thread C) : Acc Moves x := by
  obtain ⟨ph, todo, n⟩ := x
  have inside : ∀ (todo : List (Call C)), (∀ n, Acc Moves (⟨.idle, todo, n⟩ : Thread C)) →
      ∀ (b : Crit C) n, Acc Moves (⟨.inside b, todo, n⟩ : Thread C) := by
    intro todo hi b
    induction b with
    | done => exact fun n => ⟨_, fun y h => by cases h; exact hi _⟩
    | panic => exact fun n => ⟨_, fun y h => by cases h; exact hi _⟩
    | touch f k ih =>
      refine fun n => ⟨_, fun y h => ?_⟩
      cases h with
      | touch => exact ih _ _
      | unlock => exact hi _
    | id k ih =>
      refine fun n => ⟨_, fun y h => ?_⟩
      cases h with
      | id => exact ih _ _
      | unlock => exact hi _
    | resetIDs k ih =>
      refine fun n => ⟨_, fun y h => ?_⟩
      cases h with
      | resetIDs => exact ih _
      | unlock => exact hi _
  have waiting : ∀ (todo : List (Call C)), (∀ n, Acc Moves (⟨.idle, todo, n⟩ : Thread C)) →
      ∀ (b : Crit C) n, Acc Moves (⟨.waiting b, todo, n⟩ : Thread C) := by
    refine fun todo hi b n => ⟨_, fun y h => ?_⟩
    cases h with
    | giveUp => exact hi _
    | lock => exact inside todo hi _ _
  have idle : ∀ (todo : List (Call C)) n, Acc Moves (⟨.idle, todo, n⟩ : Thread C) := by
    intro todo
    induction todo with
    | nil => exact fun n => ⟨_, fun y h => nomatch h⟩
    | cons x rest ih =>
      refine fun n => ⟨_, fun y h => ?_⟩
      cases h with
      | call => exact waiting rest ih _ _
      | callID => exact waiting rest ih _ _
      | skip => exact ih _
  cases ph with
  | idle => exact idle _ _
  | waiting b => exact waiting todo (idle todo) _ _
  | inside b => exact inside todo (idle todo) _ _

/-- There is a step from the second state to the first one. -/
def After (s' s : St C) : Prop := ∃ l, Step s l s'

theorem init_done {c : C} {prog : Nat → List (Call C)} {N : Nat} (hN : ∀ t, N ≤ t → prog t = [])
    {ls : List (Label C)} {s : St C} (h : Steps (init c prog) ls s) (t : Nat) (ht : N ≤ t) :
    (s.threads t).phase = .idle ∧ (s.threads t).todo = [] := by
  induction h with
  | nil => exact ⟨rfl, hN t ht⟩
  | snoc _ hstep ih =>
    obtain ⟨u, hm, ho⟩ := step_moves hstep
    by_cases e : t = u
    · subst e
      exact (hm.not_idle ih.1 ih.2).elim
    · rw [ho t e]; exact ih

theorem steps_acc {c : C} {prog : Nat → List (Call C)} {N : Nat} (hN : ∀ t, N ≤ t → prog t = [])
    {ls : List (Label C)} {s : St C} (h : Steps (init c prog) ls s) : Acc After s := by
  have hacc := oneMoves_acc (R := Moves) (view := St.threads) N s fun t _ => moves_acc _
  induction hacc generalizing ls with
  | intro s _ ih =>
    refine ⟨_, fun s' ⟨l, hl⟩ => ?_⟩
    obtain ⟨t, hm, ho⟩ := step_moves hl
    refine ih s' ⟨t, ?_, hm, ho⟩ (h.snoc hl)
    refine Nat.lt_of_not_le fun hle => ?_
    obtain ⟨h1, h2⟩ := init_done hN h t hle
    exact hm.not_idle h1 h2

/-- The goroutine has nothing left to do: all its calls have returned, panicked or given up. -/
def Thread.over (x : Thread C) : Prop := x.phase = .idle ∧ x.todo = []

theorem Steps.append {s s' s'' : St C} {a b : List (Label C)} (h : Steps s a s') (g : Steps s' b s'') :
    Steps s (a ++ b) s'' := by
  induction g with
  | nil => rwa [List.append_nil]
  | snoc _ hl ih => rw [← List.append_assoc]; exact ih.snoc hl

/-- **C105.**  Finitely many goroutines that call `Dispatch()`, `Tick()` and `Reset()` of one engine, each
of which would end on its own, do not run forever, whoever makes the next step. -/
theorem C105_ends {c : C} {prog : Nat → List (Call C)} {N : Nat} (hN : ∀ t, N ≤ t → prog t = []) :
    ¬ ∃ f : Nat → St C, f 0 = init c prog ∧ ∀ n, ∃ l, Step (f n) l (f (n + 1)) :=
  acc_no_chain (R := After) (steps_acc hN .nil)

/-- **C105.**  Wherever they are, they can go on until all calls are over, without any of them having to
give up; and they do: a run that cannot go on is over. -/
theorem C105_done {c : C} {prog : Nat → List (Call C)} {N : Nat} (hN : ∀ t, N ≤ t → prog t = [])
    {ls : List (Label C)} {s : St C} (h : Steps (init c prog) ls s) :
    (∃ ls' s', Steps s ls' s' ∧ (∀ t, (s'.threads t).over) ∧ ∀ u i, .giveUp u i ∉ ls') ∧
    ((∀ l s', ¬ Step s l s') → ∀ t, (s.threads t).over) := by
  have live : ∀ {ls s}, Steps (init c prog) ls s → (∀ t, (s.threads t).over) ∨
      ∃ l s', Step s l s' ∧ ∀ u i, l ≠ .giveUp u i := by
    intro ls s h
    by_cases hd : ∀ t, (s.threads t).over
    · exact .inl hd
    · obtain ⟨t, ht⟩ := Classical.not_forall.1 hd
      refine .inr (C65_progress h t ?_)
      by_cases hp : (s.threads t).phase = .idle
      · exact .inr fun e => ht ⟨hp, e⟩
      · exact .inl hp
  refine ⟨?_, fun hs => ?_⟩
  · have hacc := steps_acc hN h
    induction hacc generalizing ls with
    | intro s _ ih =>
      rcases live h with hd | ⟨l, s', hl, hg⟩
      · exact ⟨[], s, .nil, hd, by simp⟩
      · obtain ⟨ls', s'', hs, hd, hn⟩ := ih s' ⟨l, hl⟩ (h.snoc hl)
        refine ⟨l :: ls', s'', (Steps.nil.snoc hl).append hs, hd, fun u i hm => ?_⟩
        rcases List.mem_cons.1 hm with e | hm
        · exact hg u i e.symm
        · exact hn u i hm
  · rcases live h with hd | ⟨l, s', hl, _⟩
    · exact hd
    · exact absurd hl (hs l s')

/-- Two goroutines that use the engine of an application meet the hypothesis, and have three calls to
make. -/
example : (∀ t, 2 ≤ t → (fun t => (Demo.ops t).map (callOf Demo.app)) t = []) ∧
    (((Demo.ops 0).map (callOf Demo.app)).length, ((Demo.ops 1).map (callOf Demo.app)).length) = (1, 2) := by
  refine ⟨fun t ht => ?_, rfl⟩
  match t, ht with
  | t + 2, _ => rfl

end Verif.Conc

namespace Verif.Exec

/-- What one step may make of a goroutine, whatever the others do. -/
inductive Moves (E : Env) : Thread → Thread → Prop where
  | exec {m k st} : Moves E ⟨.rlock m k, st⟩ ⟨.code (.exec m k), st⟩
  | rlock {m k st} : Moves E ⟨.check m k, st⟩ ⟨.rlock m k, st⟩
  | refuse {m k st} : Moves E ⟨.refused k, st⟩ ⟨.check m k, st⟩
  | refused {r k st} : Moves E ⟨.code (k r), st⟩ ⟨.refused k, st⟩
  | check {os m k st} : Moves E ⟨.select os m k, st⟩ ⟨.check m k, st⟩
  | intercepted {i os m k st} : Moves E ⟨.code (E.icept i m os), .exec k :: st⟩ ⟨.select os m k, st⟩
  | direct {os m k st} : Moves E ⟨.enter os m fun
      | .returned e => .ret e
      | .panicked v => .panic v, .exec k :: st⟩ ⟨.select os m k, st⟩
  | next {os m k st} : Moves E ⟨.enter os m k, st⟩ ⟨.code (.next os m k), st⟩
  | enter {os m k st} : Moves E ⟨.code (E.handler m), .engine k :: st⟩ ⟨.enter os m k, st⟩
  | giveUp {r os m k st} : Moves E ⟨.code (k r), st⟩ ⟨.enter os m k, st⟩
  | leave {c r k st} (hr : c.result = some r) : Moves E ⟨.code (k r), st⟩ ⟨.code c, .engine k :: st⟩
  | runlock {c r k st} (hr : c.result = some r) : Moves E ⟨.code (k r), st⟩ ⟨.code c, .exec k :: st⟩
  | call {os ic body k st} : Moves E ⟨.lock (.bind os ic body k), st⟩ ⟨.code (.call os ic body k), st⟩
  | restore {c r p k st} (hr : c.result = some r) :
    Moves E ⟨.lock (.restore p r.ofCall k), st⟩ ⟨.code c, .call (some p) k :: st⟩
  | finish {c r k st} (hr : c.result = some r) :
    Moves E ⟨.lock (.unbind r.ofCall k), st⟩ ⟨.code c, .call none k :: st⟩
  | announce {w st} : Moves E ⟨.pending w, st⟩ ⟨.lock w, st⟩
  | acquire {w st} : Moves E ⟨.locked w, st⟩ ⟨.pending w, st⟩
  | bind {os body k st} :
    Moves E ⟨.unlock (.inl body) (some (none, k)), st⟩ ⟨.locked (.bind os none body k), st⟩
  | bindI {os i body k st} :
    Moves E ⟨.unlock (.inr (.intercept i body k)) none, st⟩ ⟨.locked (.bind os (some i) body k), st⟩
  | intercept {p i body k st} :
    Moves E ⟨.unlock (.inl body) (some (some p, k)), st⟩ ⟨.locked (.intercept i body k), st⟩
  | reset {p r k st} : Moves E ⟨.unlock (.inr (.unbind r k)) none, st⟩ ⟨.locked (.restore p r k), st⟩
  | unbind {r k st} : Moves E ⟨.unlock (.inl (k r)) none, st⟩ ⟨.locked (.unbind r k), st⟩
  | unlockC {c st} : Moves E ⟨.code c, st⟩ ⟨.unlock (.inl c) none, st⟩
  | unlockF {c p k st} : Moves E ⟨.code c, .call p k :: st⟩ ⟨.unlock (.inl c) (some (p, k)), st⟩
  | unlockW {w st} : Moves E ⟨.lock w, st⟩ ⟨.unlock (.inr w) none, st⟩
  | unlockWF {w p k st} : Moves E ⟨.lock w, .call p k :: st⟩ ⟨.unlock (.inr w) (some (p, k)), st⟩

theorem step_moves {E : Env} {s s' : St} {l : Label} (h : Step E s l s') :
    Moves E (s'.threads l.actor) (s.threads l.actor) := by
  cases h with
  | @bind t os ic body k st g =>
    simp only [Label.actor]
    cases ic with
    | none => simp only [St.set, if_true]; rw [g]; exact .bind
    | some i => simp only [St.set, if_true]; rw [g]; exact .bindI
  | @unlock t n f st g =>
    simp only [Label.actor]
    rcases f with _ | ⟨p, k⟩ <;> cases n <;> simp only [St.set, if_true] <;> rw [g] <;> constructor
  | leave g hr => simp only [Label.actor]; rw [g]; simp only [St.set, if_true]; exact .leave hr
  | runlock g hr => simp only [Label.actor]; rw [g]; simp only [St.set, if_true]; exact .runlock hr
  | restore g hr => simp only [Label.actor]; rw [g]; simp only [St.set, if_true]; exact .restore hr
  | finish g hr => simp only [Label.actor]; rw [g]; simp only [St.set, if_true]; exact .finish hr
  | exec g | rlock g | refuse g | refused g | check g | intercepted g | direct g | next g | enter g
  | giveUp r g | call g | announce g | acquire g | intercept g | reset g | unbind g =>
    simp only [Label.actor]; rw [g]; simp only [St.set, if_true]; constructor

/-- Whatever the code on top of the stack returns or panics with, the goroutine cannot go on forever. -/
def Returns (E : Env) (st : List Frame) : Prop :=
  ∀ c : Code, c.result.isSome → Acc (Moves E) ⟨.code c, st⟩

theorem result_cases {c : Code} (h : c.result.isSome) : (∃ e, c = .ret e) ∨ ∃ v, c = .panic v := by
  cases c <;> first | exact .inl ⟨_, rfl⟩ | exact .inr ⟨_, rfl⟩ | cases h

theorem Returns.engine {E : Env} {k : Res → Code} {st : List Frame}
    (h : ∀ r, Acc (Moves E) ⟨.code (k r), st⟩) : Returns E (.engine k :: st) := by
  intro c hc
  refine ⟨_, fun y hy => ?_⟩
  cases hy with
  | leave => exact h _
  | exec | next | call => cases hc

theorem Returns.exec {E : Env} {k : Res → Code} {st : List Frame}
    (h : ∀ r, Acc (Moves E) ⟨.code (k r), st⟩) : Returns E (.exec k :: st) := by
  intro c hc
  refine ⟨_, fun y hy => ?_⟩
  cases hy with
  | runlock => exact h _
  | exec | next | call => cases hc

theorem enter_acc {E : Env} (hE : E.Tame) {os m : Nat} {k : Res → Code} {st : List Frame}
    (h : ∀ r, Acc (Moves E) ⟨.code (k r), st⟩) : Acc (Moves E) ⟨.enter os m k, st⟩ := by
  refine ⟨_, fun y hy => ?_⟩
  cases hy with
  | enter => exact Returns.engine h _ (hE.handler m)
  | giveUp => exact h _

/-- Interceptors come to an end. -/
theorem plain_acc {E : Env} (hE : E.Tame) {c : Code} (hc : c.Plain) {st : List Frame} (h : Returns E st) :
    Acc (Moves E) ⟨.code c, st⟩ := by
  induction hc with
  | ret => exact h _ rfl
  | panic => exact h _ rfl
  | next _ ih =>
    refine ⟨_, fun y hy => ?_⟩
    cases hy with
    | next => exact enter_acc hE ih
    | leave hr | runlock hr | restore hr | finish hr => cases hr

/-- Acquiring the lock for writing comes to an end if what follows does. -/
theorem lock_acc {E : Env} {w : Write} {st : List Frame} (h : Acc (Moves E) ⟨.locked w, st⟩) :
    Acc (Moves E) ⟨.lock w, st⟩ :=
  ⟨_, fun y hy => by cases hy; exact ⟨_, fun y hy => by cases hy; exact h⟩⟩

theorem unbind_acc {E : Env} {r : Res} {k : Res → Code} {st : List Frame}
    (h : ∀ r, Acc (Moves E) ⟨.code (k r), st⟩) : Acc (Moves E) ⟨.lock (.unbind r k), st⟩ :=
  lock_acc ⟨_, fun y hy => by cases hy; exact ⟨_, fun y hy => by cases hy; exact h r⟩⟩

theorem restore_acc {E : Env} {p : Option Nat} {r : Res} {k : Res → Code} {st : List Frame}
    (h : ∀ r, Acc (Moves E) ⟨.code (k r), st⟩) : Acc (Moves E) ⟨.lock (.restore p r k), st⟩ :=
  lock_acc ⟨_, fun y hy => by cases hy; exact ⟨_, fun y hy => by cases hy; exact unbind_acc h⟩⟩

theorem Returns.call {E : Env} {p : Option (Option Nat)} {k : Res → Code} {st : List Frame}
    (h : ∀ r, Acc (Moves E) ⟨.code (k r), st⟩) : Returns E (.call p k :: st) := by
  intro c hc
  refine ⟨_, fun y hy => ?_⟩
  cases hy with
  | restore => exact restore_acc h
  | finish => exact unbind_acc h
  | exec | next | call => cases hc

/-- Code comes to an end. -/
theorem code_acc {E : Env} (hE : E.Tame) (c : Code) : ∀ {st : List Frame}, Returns E st →
    Acc (Moves E) ⟨.code c, st⟩ := by
  induction c with
  | ret e => exact fun h => h _ rfl
  | panic v => exact fun h => h _ rfl
  | exec m k ih =>
    intro st h
    refine ⟨_, fun y hy => ?_⟩
    cases hy with
    | leave hr | runlock hr | restore hr | finish hr => cases hr
    | exec =>
    refine ⟨_, fun y hy => ?_⟩
    cases hy with
    | rlock =>
    refine ⟨_, fun y hy => ?_⟩
    cases hy with
    | refuse => exact ⟨_, fun y hy => by cases hy; exact ih _ h⟩
    | check =>
      refine ⟨_, fun y hy => ?_⟩
      cases hy with
      | intercepted => exact plain_acc hE (hE.icept _ _ _) (.exec fun r => ih r h)
      | direct =>
        refine enter_acc hE fun r => ?_
        cases r <;> exact Returns.exec (fun r => ih r h) _ rfl
  | next os m k ih =>
    intro st h
    refine ⟨_, fun y hy => ?_⟩
    cases hy with
    | leave hr | runlock hr | restore hr | finish hr => cases hr
    | next => exact enter_acc hE fun r => ih r h
  | call os ic body k ihb ih =>
    intro st h
    have hk : ∀ r, Acc (Moves E) ⟨.code (k r), st⟩ := fun r => ih r h
    refine ⟨_, fun y hy => ?_⟩
    cases hy with
    | leave hr | runlock hr | restore hr | finish hr => cases hr
    | call =>
    refine lock_acc ⟨_, fun y hy => ?_⟩
    cases hy with
    | bind => exact ⟨_, fun y hy => by cases hy; exact ihb (.call hk)⟩
    | bindI =>
      refine ⟨_, fun y hy => ?_⟩
      cases hy with
      | unlockW =>
      refine lock_acc ⟨_, fun y hy => ?_⟩
      cases hy with
      | intercept => exact ⟨_, fun y hy => by cases hy; exact ihb (.call hk)⟩

theorem Returns.nil {E : Env} : Returns E [] := by
  intro c hc
  refine ⟨_, fun y hy => ?_⟩
  cases hy <;> cases hc

theorem Moves.not_over {E : Env} {x' x : Thread} (h : Moves E x' x) : ¬ x.over := by
  rintro ⟨h1, c, h2, h3⟩
  cases h <;> first | (cases h1; done) | (cases h2; done) | (cases h2; cases h3; done)

/-- The parts of a goroutine's state that it may go on from without end, were there any: none. -/
theorem thread_acc {E : Env} (hE : E.Tame) {ic : Option Nat} {prog : Nat → Code} {ls : List Label} {s : St}
    (h : Steps E (init ic prog) ls s) (t : Nat) : Acc (Moves E) (s.threads t) := by
  induction h with
  | nil => exact code_acc hE _ .nil
  | snoc _ hstep ih =>
    rename_i l _ _
    by_cases e : l.actor = t
    · subst e; exact ih.inv (step_moves hstep)
    · rw [step_other hstep e]; exact ih

theorem over_stays {E : Env} {ic : Option Nat} {prog : Nat → Code} {ls : List Label} {s : St}
    (h : Steps E (init ic prog) ls s) {t : Nat} (ht : (prog t).result.isSome) : (s.threads t).over := by
  induction h with
  | nil => exact ⟨rfl, _, rfl, ht⟩
  | snoc _ hstep ih =>
    rename_i l _ _
    by_cases e : l.actor = t
    · subst e; exact ((step_moves hstep).not_over ih).elim
    · rw [step_other hstep e]; exact ih

/-- There is a step from the second state to the first one. -/
def After (E : Env) (s' s : St) : Prop := ∃ l, Step E s l s'

theorem steps_acc {E : Env} (hE : E.Tame) {ic : Option Nat} {prog : Nat → Code} {N : Nat}
    (hN : ∀ t, N ≤ t → (prog t).result.isSome) {ls : List Label} {s : St}
    (h : Steps E (init ic prog) ls s) : Acc (After E) s := by
  have hacc := oneMoves_acc (R := Moves E) (view := St.threads) N s fun t _ => thread_acc hE h t
  induction hacc generalizing ls with
  | intro s _ ih =>
    refine ⟨_, fun s' ⟨l, hl⟩ => ?_⟩
    refine ih s' ⟨l.actor, ?_, step_moves hl, fun u hu => step_other hl (Ne.symm hu)⟩ (h.snoc hl)
    exact Nat.lt_of_not_le fun hle => (step_moves hl).not_over (over_stays h (hN _ hle))

theorem Steps.append {E : Env} {s s' s'' : St} {a b : List Label} (h : Steps E s a s') (g : Steps E s' b s'') :
    Steps E s (a ++ b) s'' := by
  induction g with
  | nil => rwa [List.append_nil]
  | snoc _ hl ih => rw [← List.append_assoc]; exact ih.snoc hl

/-- Is this the first thing a `Call()` does? -/
def Write.isBind : Write → Bool
  | .bind .. => true
  | _ => false

/-- The goroutine has bound the executor and has yet to note that it must unbind it, or is about to
unbind it. -/
def Pos.owes : Pos → Prop
  | .unlock _ (some _) => True
  | .unlock (.inr w) none => w.isBind = false
  | .lock w | .pending w | .locked w => w.isBind = false
  | _ => False

/-- The goroutine is going to unbind the executor, as it has bound it. -/
def Thread.owes (x : Thread) : Prop := (∃ p k, Frame.call p k ∈ x.stack) ∨ x.pos.owes

theorem Moves.owes {E : Env} {x' x : Thread} (h : Moves E x' x) (ho : x.owes) :
    x'.owes ∨ ∃ r k st, x = ⟨.locked (.unbind r k), st⟩ := by
  cases h with
  | unbind => exact .inr ⟨_, _, _, rfl⟩
  | bind | intercept => exact .inl (.inr trivial)
  | bindI | reset => exact .inl (.inr rfl)
  | unlockF => exact .inl (.inl ⟨_, _, List.mem_cons_self ..⟩)
  | unlockWF => exact .inl (.inl ⟨_, _, List.mem_cons_self ..⟩)
  | restore | finish => exact .inl (.inr rfl)
  | leave | runlock =>
    rcases ho with ⟨p, k, hm⟩ | ho
    · rcases List.mem_cons.1 hm with e | hm
      · cases e
      · exact .inl (.inl ⟨p, k, hm⟩)
    · exact ho.elim
  | intercepted | direct | enter =>
    rcases ho with ⟨p, k, hm⟩ | ho
    · exact .inl (.inl ⟨p, k, List.mem_cons_of_mem _ hm⟩)
    · exact ho.elim
  | unlockC =>
    rcases ho with ⟨p, k, hm⟩ | ho
    · exact .inl (.inl ⟨p, k, hm⟩)
    · exact ho.elim
  | @unlockW w =>
    rcases ho with ⟨p, k, hm⟩ | ho
    · exact .inl (.inl ⟨p, k, hm⟩)
    · exact .inl (.inr ho)
  | announce | acquire =>
    rcases ho with ⟨p, k, hm⟩ | ho
    · exact .inl (.inl ⟨p, k, hm⟩)
    · exact .inl (.inr ho)
  | _ =>
    rcases ho with ⟨p, k, hm⟩ | ho
    · exact .inl (.inl ⟨p, k, hm⟩)
    · exact ho.elim

/-- The executor is bound only as long as somebody is going to unbind it. -/
theorem bound_owed {E : Env} {ic : Option Nat} {prog : Nat → Code} {ls : List Label} {s : St}
    (h : Steps E (init ic prog) ls s) (hb : s.bound ≠ none) : ∃ t, (s.threads t).owes := by
  induction h with
  | nil => exact absurd rfl hb
  | snoc _ hstep ih =>
    rename_i s' l _ _
    by_cases hb' : s'.bound = none
    · cases hstep with
      | @bind t os ic body k st g =>
        refine ⟨t, .inr ?_⟩
        cases ic <;> simp [St.set, Pos.owes, Write.isBind]
      | unbind => exact absurd rfl hb
      | _ => exact absurd hb' hb
    · obtain ⟨t, ht⟩ := ih hb'
      by_cases e : l.actor = t
      · subst e
        rcases (step_moves hstep).owes ht with ho | ⟨r, k, st, e⟩
        · exact ⟨_, ho⟩
        · cases hstep with
          | unbind => exact absurd rfl hb
          | _ => simp_all [Label.actor]
      · exact ⟨t, by rw [step_other hstep e]; exact ht⟩

theorem Thread.over.not_owes {x : Thread} (h : x.over) : ¬ x.owes := by
  obtain ⟨h1, c, h2, _⟩ := h
  rintro (⟨p, k, hm⟩ | ho)
  · rw [h1] at hm; cases hm
  · rw [h2] at ho; exact ho

/-- Nobody uses the executor: it is not bound, and neither its lock nor the mutex of the engine is held. -/
structure St.AtRest (s : St) : Prop where
  bound : s.bound = none
  readers : s.readers = []
  pending : s.pending = none
  writer : s.writer = none
  engine : s.engine = none

theorem over_atRest {E : Env} (hE : E.Tame) {ic : Option Nat} {prog : Nat → Code} {ls : List Label} {s : St}
    (h : Steps E (init ic prog) ls s) (ho : ∀ t, (s.threads t).over) : s.AtRest := by
  have inv := Inv.steps h
  refine ⟨?_, ?_, ?_, ?_, ?_⟩
  · refine Classical.byContradiction fun hb => ?_
    obtain ⟨t, ht⟩ := bound_owed h hb
    exact (ho t).not_owes ht
  · cases hr : s.readers with
    | nil => rfl
    | cons t rest =>
      have := inv.count t
      obtain ⟨h1, c, h2, _⟩ := ho t
      rw [hr] at this
      simp [Thread.reads, h1, h2, Pos.reads] at this
  · cases hp : s.pending with
    | none => rfl
    | some t =>
      have := (inv.pend t).1 hp
      obtain ⟨h1, c, h2, _⟩ := ho t
      rw [h2] at this; cases this
  · cases hp : s.writer with
    | none => rfl
    | some t =>
      have := (inv.writer t).1 hp
      obtain ⟨h1, c, h2, _⟩ := ho t
      rw [h2] at this; cases this
  · cases hp : s.engine with
    | none => rfl
    | some t =>
      obtain ⟨c, k, st, e, _⟩ := (Live.steps hE h).engine t hp
      have := (ho t).1
      rw [e] at this; cases this

/-- **C105.**  Finitely many goroutines that use the executor of a test, directly and by `Call()`, do not
run forever, whoever makes the next step; interceptors use the executor they are given only, and
handlers execute no commands but by their scopes. -/
theorem C105_calls_end {E : Env} (hE : E.Tame) {ic : Option Nat} {prog : Nat → Code} {N : Nat}
    (hN : ∀ t, N ≤ t → (prog t).result.isSome) :
    ¬ ∃ f : Nat → St, f 0 = init ic prog ∧ ∀ n, ∃ l, Step E (f n) l (f (n + 1)) :=
  acc_no_chain (R := After E) (steps_acc hE hN .nil)

/-- **C105.**  Wherever they are, they can go on until all are over, without the engine having to give
up; and they do: a run that cannot go on is over.  The executor is then not bound anymore, and nothing
is locked. -/
theorem C105_calls_done {E : Env} (hE : E.Tame) {ic : Option Nat} {prog : Nat → Code} {N : Nat}
    (hN : ∀ t, N ≤ t → (prog t).result.isSome) {ls : List Label} {s : St}
    (h : Steps E (init ic prog) ls s) :
    (∃ ls' s', Steps E s ls' s' ∧ (∀ t, (s'.threads t).over) ∧ s'.AtRest ∧ ∀ u, .giveUp u ∉ ls') ∧
    ((∀ l s', ¬ Step E s l s') → (∀ t, (s.threads t).over) ∧ s.AtRest) := by
  have live : ∀ {ls s}, Steps E (init ic prog) ls s → (∀ t, (s.threads t).over) ∨
      ∃ l s', Step E s l s' ∧ ∀ u, l ≠ .giveUp u := by
    intro ls s h
    by_cases hd : ∀ t, (s.threads t).over
    · exact .inl hd
    · obtain ⟨t, ht⟩ := Classical.not_forall.1 hd
      exact .inr (C86_progress hE h ht)
  refine ⟨?_, fun hs => ?_⟩
  · have hacc := steps_acc hE hN h
    induction hacc generalizing ls with
    | intro s _ ih =>
      rcases live h with hd | ⟨l, s', hl, hg⟩
      · exact ⟨[], s, .nil, hd, over_atRest hE h hd, by simp⟩
      · obtain ⟨ls', s'', hs, hd, hr, hn⟩ := ih s' ⟨l, hl⟩ (h.snoc hl)
        refine ⟨l :: ls', s'', (Steps.nil.snoc hl).append hs, hd, hr, fun u hm => ?_⟩
        rcases List.mem_cons.1 hm with e | hm
        · exact hg u e.symm
        · exact hn u hm
  · rcases live h with hd | ⟨l, s', hl, _⟩
    · exact ⟨hd, over_atRest hE h hd⟩
    · exact absurd hl (hs l s')

/-- Goroutine 1 comes to execute a command while goroutine 0 performs a `Call()`: the hypotheses hold,
and there is something left to do. -/
example : passOn.Tame ∧ (∀ t, 2 ≤ t → (duo (.ret none) (.exec 3 Code.ofRes) t).result.isSome) ∧
    ∃ ls s, Steps passOn (init none (duo (.ret none) (.exec 3 Code.ofRes))) ls s ∧
      ¬ (s.threads 0).over ∧ ¬ (s.threads 1).over ∧ s.bound = some 7 := by
  refine ⟨passOn_tame, fun t ht => ?_, _, _, duo_bound passOn _ _, fun h => (nomatch h.1), ?_, rfl⟩
  · match t, ht with
    | t + 2, _ => rfl
  · rintro ⟨_, c, h, hc⟩
    cases h
    cases hc

end Verif.Exec
