import Verif.Reword
import Verif.Props.AnyNames

/-!
# C127: nobody looks into messages

Let messages have other contents, but the same types, and be as valid as before.  Several contents may
become the same.  Handlers do with a message what they did when it had its old contents.  Then nothing
changes but the contents: the engine routes, delivers and keeps messages by their types.
-/

namespace Verif

variable {W R W' R' : Type}

/-! ## Specification -/

/-- An event of a history, with other contents of messages. -/
def Event.bd (v : Wording W R W' R') : Event W → Event W'
  | .world w => .world (v.world w)
  | .op o => .op (o.bd v.body)

/-- Expectations about types of messages. -/
inductive Expectation.Typed : Expectation → Prop where
  | type (t : MType) : Typed (.type t)
  | composite (k : CompKind) (es : List Expectation) (h : ∀ e ∈ es, Typed e) : Typed (.composite k es)
  | not (e : Expectation) (h : Typed e) : Typed (.not e)
  | repeatedly (d : String) (n : Nat) (fn : Nat → Expectation) (h : ∀ i, Typed (fn i)) :
      Typed (.repeatedly d n fn)

section
variable {A : App W R} {A' : App W' R'} {v : Wording W R W' R'}

/-! ## The engine -/

theorem factsOf_bd (l : List (Obs R)) : factsOf (l.map (Obs.bd v)) = (factsOf l).map (Fact.bd v.body) := by
  induction l with
  | nil => rfl
  | cons o l ih =>
    unfold factsOf at ih ⊢
    cases o with
    | call c => simpa [Obs.bd] using ih
    | reset => simpa [Obs.bd] using ih
    | fact x => simpa [Obs.bd] using ih

theorem during_bd (s s' : Sys W R) : during (s.bd v) (s'.bd v) = (during s s').map (Obs.bd v) := by
  unfold during Sys.bd
  simp only [List.length_map, List.map_drop]

/-- **C127.** An operation does the same, ends the same, notifies the same facts and calls the user's
code in the same order, but for the contents of messages. -/
theorem C127_operation (al : A.Rewords A' v) (op : Op) (s : Sys W R) :
    ((op.bd v.body).exec A' (s.bd v)).1 = (op.exec A s).1.bd v ∧
    ((op.bd v.body).exec A' (s.bd v)).2 = (op.exec A s).2.bd v.body ∧
    during (s.bd v) ((op.bd v.body).exec A' (s.bd v)).1 = (during s (op.exec A s).1).map (Obs.bd v) ∧
    factsOf (during (s.bd v) ((op.bd v.body).exec A' (s.bd v)).1) =
      (factsOf (during s (op.exec A s).1)).map (Fact.bd v.body) := by
  rw [exec_bd al]
  exact ⟨rfl, rfl, during_bd _ _, by rw [during_bd, factsOf_bd]⟩

/-- **C127.** The same for histories, in which the world may change between operations. -/
theorem C127_history (al : A.Rewords A' v) (es : List (Event W)) : ∀ s : Sys W R,
    behaviour A' (es.map (Event.bd v)) (s.bd v) =
      (behaviour A es s).map fun x => (x.1.map (Obs.bd v), x.2.1.bd v.body, v.world x.2.2) := by
  induction es with
  | nil => intro s; rfl
  | cons e es ih =>
    intro s
    cases e with
    | world w =>
      simp only [List.map_cons, Event.bd, behaviour]
      exact ih { s with w := w }
    | op o =>
      simp only [List.map_cons, Event.bd, behaviour, exec_bd al, ih]
      rw [during_bd]
      rfl

/-- **C127.** If the handlers do not look into messages either, then two histories that differ only in
what is in the messages show the same, but for what is in the messages. -/
theorem C127_sealed {v : Wording W R W R} (al : A.Rewords A v) (es₁ es₂ : List (Event W))
    (s₁ s₂ : Sys W R) (he : es₁.map (Event.bd v) = es₂.map (Event.bd v)) (hs : s₁.bd v = s₂.bd v) :
    (behaviour A es₁ s₁).map (fun x => (x.1.map (Obs.bd v), x.2.1.bd v.body, v.world x.2.2)) =
      (behaviour A es₂ s₂).map (fun x => (x.1.map (Obs.bd v), x.2.1.bd v.body, v.world x.2.2)) := by
  rw [← C127_history al, ← C127_history al, he, hs]

/-! ## Expectations -/

mutual
/-- Predicates about types of messages. -/
inductive Pred.Typed : Pred → Prop where
  | type (p : TypePred) : Pred.Typed (.type p)
  | composite (k : CompKind) (n : Nat) {ps : List Pred} (h : Pred.AllTyped ps) :
      Pred.Typed (.composite k n ps)
  | not {p : Pred} (h : Pred.Typed p) : Pred.Typed (.not p)
  | repeatedly (c : String) {ps : List Pred} (h : Pred.AllTyped ps) : Pred.Typed (.repeatedly c ps)
/-- The same for predicates in order. -/
inductive Pred.AllTyped : List Pred → Prop where
  | nil : Pred.AllTyped []
  | cons {p : Pred} {ps : List Pred} (h : Pred.Typed p) (hs : Pred.AllTyped ps) : Pred.AllTyped (p :: ps)
end

theorem Tracker.notify_bd (β : MType → String → String) (t : Tracker) (f : Fact) :
    t.notify (f.bd β) = ((t.notify f).1, (t.notify f).2.map (Env.bd β)) := by
  cases f <;> try rfl
  simp only [Fact.bd, Tracker.notify]
  split <;> rfl

mutual
theorem Pred.notify_bd {β : MType → String → String} (s : PScope) (f : Fact) :
    {p : Pred} → Pred.Typed p → p.notify s (f.bd β) = p.notify s f ∧ Pred.Typed (p.notify s f)
  | _, .type p => by
    have h : p.notify s (f.bd β) = p.notify s f := by
      unfold TypePred.notify
      simp only [Tracker.notify_bd]
      split
      · rfl
      · rcases p.tracker.notify f with ⟨t, _ | e⟩ <;> rfl
    unfold Pred.notify
    rw [h]
    exact ⟨rfl, .type _⟩
  | _, .composite k n h => by
    have := Pred.notifyAll_bd (β := β) s f h
    unfold Pred.notify
    rw [this.1]
    exact ⟨rfl, .composite k n this.2⟩
  | _, .not h => by
    have := Pred.notify_bd (β := β) s f h
    unfold Pred.notify
    rw [this.1]
    exact ⟨rfl, .not this.2⟩
  | _, .repeatedly c h => by
    have := Pred.notifyAll_bd (β := β) s f h
    unfold Pred.notify
    rw [this.1]
    exact ⟨rfl, .repeatedly c this.2⟩
theorem Pred.notifyAll_bd {β : MType → String → String} (s : PScope) (f : Fact) :
    {ps : List Pred} → Pred.AllTyped ps →
    Pred.notifyAll s (f.bd β) ps = Pred.notifyAll s f ps ∧ Pred.AllTyped (Pred.notifyAll s f ps)
  | _, .nil => by unfold Pred.notifyAll; exact ⟨rfl, .nil⟩
  | _, .cons h hs => by
    have h1 := Pred.notify_bd (β := β) s f h
    have h2 := Pred.notifyAll_bd (β := β) s f hs
    unfold Pred.notifyAll
    rw [h1.1, h2.1]
    exact ⟨rfl, .cons h1.2 h2.2⟩
end

theorem repeatLoop_typed (d : String) (b : Nat → List (String × Nat) × Except BuildErr Pred)
    (hb : ∀ i p, (b i).2 = .ok p → Pred.Typed p) : ∀ (n i : Nat) (ps : List Pred),
    (repeatLoop d b n i).2 = .ok ps → Pred.AllTyped ps
  | 0, i, ps, h => by
    unfold repeatLoop at h
    cases h
    exact .nil
  | n + 1, i, ps, h => by
    unfold repeatLoop at h
    have h1 := hb i
    rcases hx : b i with ⟨l, e | p⟩
    · simp only [hx] at h
      cases h
    · have h2 := repeatLoop_typed d b hb n (i + 1)
      rcases hy : repeatLoop d b n (i + 1) with ⟨l', e | qs⟩
      · simp only [hx, hy] at h
        cases h
      · simp only [hx, hy] at h
        cases h
        rw [hx] at h1
        rw [hy] at h2
        exact .cons (h1 p rfl) (h2 qs rfl)

theorem buildAll_typed (s : PScope) : ∀ (es : List Expectation),
    (∀ e ∈ es, ∀ p, (e.build s).2 = .ok p → Pred.Typed p) → ∀ ps,
    (Expectation.buildAll s es).2 = .ok ps → Pred.AllTyped ps
  | [], _, ps, h => by
    unfold Expectation.buildAll at h
    cases h
    exact .nil
  | e :: es, he, ps, h => by
    unfold Expectation.buildAll at h
    have h1 := he e (by simp)
    have h2 := buildAll_typed s es fun x hx => he x (by simp [hx])
    rcases hx : e.build s with ⟨l, x | p⟩
    · simp only [hx] at h
      cases h
    · rcases hy : Expectation.buildAll s es with ⟨l', x | qs⟩
      · simp only [hx, hy] at h
        cases h
      · simp only [hx, hy] at h
        cases h
        rw [hx] at h1
        rw [hy] at h2
        exact .cons (h1 p rfl) (h2 qs rfl)

theorem Expectation.Typed.built (s : PScope) {x : Expectation} (hx : x.Typed) :
    ∀ p, (x.build s).2 = .ok p → Pred.Typed p := by
  induction hx with
  | type t =>
    intro p h
    unfold Expectation.build at h
    cases hg : guardImpossible s t with
    | error e => simp only [hg] at h; cases h
    | ok _ => simp only [hg] at h; cases h; exact .type _
  | composite k es _ ih =>
    intro p h
    unfold Expectation.build at h
    have h1 := buildAll_typed s es ih
    rcases hx : Expectation.buildAll s es with ⟨l, x | ps⟩
    · simp only [hx] at h; cases h
    · simp only [hx] at h
      cases h
      rw [hx] at h1
      exact .composite _ _ (h1 ps rfl)
  | not e _ ih =>
    intro p h
    unfold Expectation.build at h
    rcases hx : e.build s with ⟨l, x | q⟩
    · simp only [hx] at h; cases h
    · simp only [hx] at h
      cases h
      rw [hx] at ih
      exact .not (ih q rfl)
  | repeatedly d n fn _ ih =>
    intro p h
    unfold Expectation.build at h
    have h1 := repeatLoop_typed d
      (fun i => if (fn i).isNil then ([], .error .nilExpectation) else (fn i).build s) (by
        intro i q hq
        split at hq
        · cases hq
        · exact ih i q hq) n 0
    rcases hx : repeatLoop d
      (fun i => if (fn i).isNil then ([], .error .nilExpectation) else (fn i).build s) n 0 with ⟨l, x | ps⟩
    · simp only [hx] at h; cases h
    · simp only [hx] at h
      cases h
      rw [hx] at h1
      exact .repeatedly _ (h1 ps rfl)

/-- **C127.** Expectations about types of messages do not look at contents: their verdicts and their
reports are the same. -/
theorem C127_types {x : Expectation} (hx : x.Typed) (β : MType → String → String) (S : PScope) (c : RCtx)
    (p : Pred) (hp : (x.build S).2 = .ok p) (fs : List Fact) :
    (p.observe S (fs.map (Fact.bd β))).ok = (p.observe S fs).ok ∧
    (p.observe S (fs.map (Fact.bd β))).report c = (p.observe S fs).report c ∧
    (p.observe S (fs.map (Fact.bd β))).done.1.ok = (p.observe S fs).done.1.ok ∧
    (p.observe S (fs.map (Fact.bd β))).done.1.report c = (p.observe S fs).done.1.report c := by
  have : ∀ (fs : List Fact) (p : Pred), p.Typed → p.observe S (fs.map (Fact.bd β)) = p.observe S fs := by
    intro fs
    unfold Pred.observe
    induction fs with
    | nil => intro p _; rfl
    | cons f fs ih =>
      intro p h
      have := Pred.notify_bd (β := β) S f h
      simp only [List.map_cons, List.foldl_cons, this.1]
      exact ih _ this.2
  rw [this fs p (hx.built S p hp)]
  exact ⟨rfl, rfl, rfl, rfl⟩

end

/-! ## Examples -/

theorem Demo.isort_bd (β : MType → String → String) (l : List Env) :
    Demo.isort (l.map (Env.bd β)) = (Demo.isort l).map (Env.bd β) := by
  have hi : ∀ (e : Env) (l : List Env),
      Demo.insert (e.bd β) (l.map (Env.bd β)) = (Demo.insert e l).map (Env.bd β) := by
    intro e l
    induction l with
    | nil => rfl
    | cons x l ih =>
      simp only [List.map_cons]
      unfold Demo.insert
      rw [show (e.bd β).scheduledFor = e.scheduledFor from rfl,
        show (x.bd β).scheduledFor = x.scheduledFor from rfl, ih]
      split <;> rfl
  induction l with
  | nil => rfl
  | cons x l ih =>
    simp only [List.map_cons, Demo.isort, ih, hi]

/-- An application that looks at contents of messages through `see` only, and otherwise hands them
on.  Aggregates are destroyed by their second command, processes schedule a timeout for every event,
and panic if they see `p`. -/
def Demo.reading (see : String → String) : App Unit Nat where
  cfgs := Demo.app.cfgs
  compactDuringHandling := false
  sort := Demo.sortImpl
  uc := {
    aggRoute := fun _ m w => (w, .ok (see m.body))
    aggNew := fun _ w => (w, .ok (some 0))
    aggApply := fun _ r _ w => (w, r + 1, none)
    aggHandle := fun _ _ r m =>
      if r = 1 then .do_ (.record ⟨Demo.evtE, m.body, none⟩) (.do_ .destroy (.ret ()))
      else .do_ (.record ⟨Demo.evtE, m.body, none⟩) (.ret ())
    procRoute := fun _ m w => (w, .ok (.ok (some (see m.body))))
    procNew := fun _ w => (w, .ok (some 0))
    procHandle := fun _ _ _ m _ =>
      if see m.body = "p" then .panic .unexpectedMessage
      else if m.type = Demo.tmoT then .do_ (.execute ⟨Demo.cmdD, m.body, none⟩) (.ret none)
      else .do_ (.schedule ⟨Demo.tmoT, m.body, none⟩ 5) (.ret none)
    intHandle := fun _ m => .do_ (.record ⟨Demo.evtF, m.body, none⟩) (.ret none)
    prjVersion := fun _ _ w => (w, .ok (.ok []))
    prjHandle := fun _ _ _ _ m _ => .do_ (.log (see m.body)) (.ret (.ok true))
    prjClose := fun _ _ w => (w, .ok none)
    prjCompact := fun _ _ => .ret none
    schedule := fun _ => []
    resetters := []
    ctxErr := fun _ => none
    lockErr := fun _ => none
    wallClock := fun _ => 0 }

/-- Put `f` of the contents in messages of all types. -/
def Demo.wording (f : String → String) : Wording Unit Nat Unit Nat := ⟨id, id, fun _ => f⟩

theorem Prog.Bd.do_ {O O' α : Type} {β : MType → String → String} {g : W → W'} {φ : O → O'} (o : O)
    {k : Prog W O α} {k' : Prog W' O' α} (h : Prog.Bd β g φ k k') {o' : O'} (ho : φ o = o') :
    Prog.Bd β g φ (Prog.do_ o k) (Prog.do_ o' k') := by
  subst ho
  refine .op o ?_
  intro p
  cases p with
  | none => exact h
  | some p => exact .panic p

theorem Demo.reading_rewords {f see see' : String → String} (hf : ∀ b, see' (f b) = see b) :
    (Demo.reading see).Rewords (Demo.reading see') (Demo.wording f) where
  cfgs := rfl
  compact := rfl
  sort := Demo.isort_bd _
  aggRoute _ m _ := by simp only [Demo.reading, Message.bd, Demo.wording, hf]; rfl
  aggNew _ _ := rfl
  aggApply _ _ _ _ := rfl
  aggHandle _ i r m := by
    simp only [Demo.reading, Demo.wording, id]
    split
    · exact .do_ (AggOp.record _) (.do_ AggOp.destroy (.ret ()) rfl) rfl
    · exact .do_ (AggOp.record _) (.ret ()) rfl
  procRoute _ m _ := by simp only [Demo.reading, Message.bd, Demo.wording, hf]; rfl
  procNew _ _ := rfl
  procHandle _ i r m _ := by
    simp only [Demo.reading, Demo.wording, Message.bd, hf]
    split
    · exact .panic .unexpectedMessage
    split
    · exact .do_ (ProcOp.execute _) (.ret none) rfl
    · exact .do_ (ProcOp.schedule _ _) (.ret none) rfl
  intHandle _ m := .do_ (IntOp.record _) (.ret none) rfl
  prjVersion _ _ _ := rfl
  prjHandle _ _ _ _ m _ := by
    simp only [Demo.reading, Demo.wording, Message.bd, hf]
    exact .do_ (PrjOp.log _) (.ret (Except.ok true)) rfl
  prjClose _ _ _ := rfl
  prjCompact _ _ := .ret none
  schedule _ := rfl
  resetters := trivial
  ctxErr _ := rfl
  lockErr _ := rfl
  wallClock _ := rfl

/-- `C127_history` applies: exchange two contents, and look at them the other way round. -/
example (es : List (Event Unit)) :
    behaviour (Demo.reading Demo.crossed) (es.map (Event.bd (Demo.wording Demo.crossed))) (Sys.init ()) =
      (behaviour (Demo.reading id) es (Sys.init ())).map
        fun x => (x.1.map (Obs.bd (Demo.wording Demo.crossed)),
          x.2.1.bd (Demo.wording Demo.crossed).body, x.2.2) :=
  C127_history (v := Demo.wording Demo.crossed) (Demo.reading_rewords Demo.crossed_crossed) es (Sys.init ())

/-- `C127_sealed` applies: to who does not look, commands with different contents are the same. -/
example (a b : String) : (behaviour (Demo.reading fun _ => "i") (Demo.opsOnly
      [.dispatch 20 (Demo.msgC a) [], .dispatch 20 (Demo.msgC b) []]) (Sys.init ())).map
        (fun x => (x.1.map (Obs.bd (Demo.wording fun _ => "")), x.2.1.bd (fun _ _ => ""), x.2.2)) =
    (behaviour (Demo.reading fun _ => "i") (Demo.opsOnly
      [.dispatch 20 (Demo.msgC b) [], .dispatch 20 (Demo.msgC b) []]) (Sys.init ())).map
        (fun x => (x.1.map (Obs.bd (Demo.wording fun _ => "")), x.2.1.bd (fun _ _ => ""), x.2.2)) :=
  C127_sealed (v := Demo.wording fun _ => "") (Demo.reading_rewords fun _ => rfl) _ _ _ _ rfl rfl

/-- Facts of a history, reduced to a few words and the contents. -/
def Demo.said : Fact → Option (String × String)
  | .aggEvent _ _ _ ev => some ("event", ev.msg.body)
  | .aggCreated _ i _ => some ("created", i)
  | .aggDestroyed _ i _ => some ("destroyed", i)
  | .procTimeout _ _ _ t => some ("timeout", t.msg.body)
  | .intEvent _ _ ev => some ("done", ev.msg.body)
  | _ => none

/-- How an operation ended. -/
def Demo.endOf {α : Type} : Outcome α → String
  | .done _ => "done"
  | .panicked (.enriched h i n m) => h ++ " " ++ i ++ " " ++ n ++ " " ++ m.body
  | .panicked _ => "panic"
  | .running => "running"

/-- Commands, and time passes. -/
def Demo.readingOps : List Op :=
  [.dispatch 20 (Demo.msgC "a") [], .dispatch 20 (Demo.msgC "p") [], .dispatch 20 (Demo.msgC "a") [],
   .tick 20 Demo.app.cfgs [.currentTime 9, .enableType .integration true]]

set_option maxRecDepth 100000 in
/-- What happens does depend on the contents if handlers look, and does not otherwise. -/
example : (behaviour (Demo.reading id) (Demo.opsOnly Demo.readingOps) (Sys.init ())).map
      (fun x => ((factsOf x.1).filterMap Demo.said, Demo.endOf x.2.1)) =
    [([("created", "a"), ("event", "a"), ("timeout", "a")], "done"),
     ([("created", "p"), ("event", "p")], "proc ProcessMessageHandler HandleEvent p"),
     ([("event", "a"), ("destroyed", "a"), ("timeout", "a")], "done"),
     ([("done", "a"), ("done", "a")], "done")] ∧
    (behaviour (Demo.reading fun _ => "i") (Demo.opsOnly Demo.readingOps) (Sys.init ())).map
      (fun x => ((factsOf x.1).filterMap Demo.said, Demo.endOf x.2.1)) =
    [([("created", "i"), ("event", "a"), ("timeout", "a")], "done"),
     ([("event", "p"), ("destroyed", "i"), ("timeout", "p")], "done"),
     ([("created", "i"), ("event", "a"), ("timeout", "a")], "done"),
     ([("done", "a"), ("done", "p"), ("done", "a")], "done")] := by decide +kernel

/-- `C127_types` applies. -/
example (β : MType → String → String) (c : RCtx) (fs : List Fact) (p : Pred)
    (hp : ((Expectation.composite .allOf [.type Demo.evtE, .not (.type Demo.evtF)]).build
      (Demo.scope false)).2 = .ok p) :
    (p.observe (Demo.scope false) (fs.map (Fact.bd β))).report c =
      (p.observe (Demo.scope false) fs).report c := by
  refine (C127_types (.composite _ _ ?_) β _ c p hp fs).2.1
  intro e he
  simp only [List.mem_cons, List.not_mem_nil, or_false] at he
  rcases he with rfl | rfl
  · exact .type _
  · exact .not _ (.type _)

/-- Such an expectation can be built. -/
example : ∃ p, ((Expectation.composite .allOf [.type Demo.evtE, .not (.type Demo.evtF)]).build
    (Demo.scope false)).2 = .ok p := ⟨_, rfl⟩

end Verif
