import Verif.Props.Observer
import Verif.Props.Instance

/-!
# C88: scopes do what handlers ask of them

A handler's method is a conversation with its scope.  The theorems say that the
facts reported while the method runs are the ones its requests call for, each
carrying what was asked, in the order of the requests, and nothing else; what
each request is answered; and how the method's end becomes the handling's.
-/

namespace Verif

variable {W R : Type}

/-! ## Specification -/

/-- `Talk calls alone p w xs w' res`: run from world `w`, program `p` makes the requests listed in
`xs`, each with the answer it got, and ends in world `w'` with result `res`.  Only requests that
make the engine call user code back (`calls`) change the world behind the program's back, if the
program is `alone`. -/
inductive Talk {O α : Type} (calls : O → Bool) (alone : Bool) :
    Prog W O α → W → List (O × Option PanicVal) → W → Except PanicVal α → Prop
  | ret (a : α) (w : W) : Talk calls alone (.ret a) w [] w (.ok a)
  | panic (v : PanicVal) (w : W) : Talk calls alone (.panic v) w [] w (.error v)
  | get {k : W → Prog W O α} {w w' xs res} :
      Talk calls alone (k w) w xs w' res → Talk calls alone (.get k) w xs w' res
  | set {k : Prog W O α} {w w1 w' xs res} :
      Talk calls alone k w1 xs w' res → Talk calls alone (.set w1 k) w xs w' res
  | op {o : O} {k : Option PanicVal → Prog W O α} {w w1 w' p xs res} :
      (calls o = false → w1 = w) → Talk calls alone (k p) w1 xs w' res →
      Talk calls alone (.op o k) w ((o, p) :: xs) w' res
  | other {p : Prog W O α} {w w1 w' xs res} :
      alone = false → Talk calls alone p w1 xs w' res → Talk calls alone p w xs w' res

/-- What a fact reported during a handler's method says was done. -/
inductive Said where
  | event (m : Message)
  | command (m : Message)
  | timeout (m : Message) (t : Time)
  | created | destroyed | ended | reverted
  | log (t : String)
  deriving DecidableEq, Repr

/-- Reading a fact so. -/
def Fact.said : Fact → Option Said
  | .aggEvent _ _ _ ev | .intEvent _ _ ev => some (.event ev.msg)
  | .procCommand _ _ _ c => some (.command c.msg)
  | .procTimeout _ _ _ c => some (.timeout c.msg c.scheduledFor)
  | .aggCreated .. => some .created
  | .aggDestroyed .. => some .destroyed
  | .aggReverted .. | .procReverted .. => some .reverted
  | .procEnded .. => some .ended
  | .aggLog _ _ _ t | .procLog _ _ _ t | .intLog _ _ t | .prjLog _ _ t => some (.log t)
  | _ => none

/-- May `h` produce `m` as a message of kind `k`? -/
def MayProduce (h : HConfig) (k : Kind) (m : Message) : Prop :=
  m.type ∈ h.produces ∧ m.type.kind = k ∧ m.invalid = none

instance (h : HConfig) (k : Kind) (m : Message) : Decidable (MayProduce h k m) := by
  unfold MayProduce; exact inferInstance

/-- The facts called for by an aggregate's requests, given whether the instance exists and
whether it was destroyed by this command. -/
def aggSays (h : HConfig) : Bool → Bool → List (AggOp R × Option PanicVal) → List Said
  | _, _, [] => []
  | ex, de, (.setRoot _, _) :: xs => aggSays h ex de xs
  | ex, de, (.log t, _) :: xs => .log t :: aggSays h ex de xs
  | ex, de, (.destroy, p) :: xs =>
    if ex && p.isNone then .destroyed :: aggSays h false true xs else aggSays h ex de xs
  | ex, de, (.record m, p) :: xs =>
    if MayProduce h .event m then
      (if ex then [] else [if de then .reverted else .created]) ++
        (if p.isNone then [.event m] else []) ++ aggSays h true (ex && de) xs
    else aggSays h ex de xs

/-- The facts called for by a process's requests, given whether it has been ended by this
message. -/
def procSays (h : HConfig) : Bool → List (ProcOp R × Option PanicVal) → List Said
  | _, [] => []
  | en, (.log t, _) :: xs => .log t :: procSays h en xs
  | en, (.setRoot _, _) :: xs => procSays h en xs
  | en, (.end_, _) :: xs => (if en then [] else [.ended]) ++ procSays h true xs
  | en, (.execute m, _) :: xs =>
    if MayProduce h .command m then
      (if en then [.reverted] else []) ++ .command m :: procSays h false xs
    else procSays h en xs
  | en, (.schedule m t, _) :: xs =>
    if MayProduce h .timeout m then
      (if en then [.reverted] else []) ++ .timeout m t :: procSays h false xs
    else procSays h en xs

/-- The facts called for by an integration's requests. -/
def intSays (h : HConfig) : List (IntOp × Option PanicVal) → List Said
  | [] => []
  | (.log t, _) :: xs => .log t :: intSays h xs
  | (.record m, _) :: xs =>
    if MayProduce h .event m then .event m :: intSays h xs else intSays h xs

/-- The facts called for by a projection's requests. -/
def prjSays (xs : List (PrjOp × Option PanicVal)) : List Said :=
  xs.map fun | (.log t, _) => .log t

/-- Is the process left ended by these requests? -/
def endsAs (h : HConfig) : Bool → List (ProcOp R × Option PanicVal) → Bool
  | en, [] => en
  | _, (.end_, _) :: xs => endsAs h true xs
  | en, (.execute m, _) :: xs => endsAs h (if MayProduce h .command m then false else en) xs
  | en, (.schedule m _, _) :: xs => endsAs h (if MayProduce h .timeout m then false else en) xs
  | en, _ :: xs => endsAs h en xs

/-- The root as these requests leave it. -/
def rootAs : R → List (ProcOp R × Option PanicVal) → R
  | r, [] => r
  | _, (.setRoot r, _) :: xs => rootAs r xs
  | r, _ :: xs => rootAs r xs

/-- A request to produce `m` that must be refused is answered by a panic naming the handler, its
method, the message being handled, and what was wrong with `m`. -/
def Refused (h : HConfig) (iface method : String) (env : Env) (k : Kind) (m : Message)
    (p : Option PanicVal) : Prop :=
  ∃ d, p = some (.behavior h.name iface method env.msg d) ∧ Describes h k m d

/-- How an aggregate's requests are answered. -/
def AggAnswer (uc : UserCode W R) (h : HConfig) (env : Env) : AggOp R × Option PanicVal → Prop
  | (.log _, p) => p = none
  | (.setRoot _, p) => p = none
  | (.destroy, p) => p = none ∨ ∃ w v, p = some v ∧ (uc.aggNew h w).2 = .error v
  | (.record m, p) =>
    if MayProduce h .event m then
      p = none ∨
      (∃ r w v, (uc.aggApply h r m w).2.2 = some v ∧
        p = some (enrich h "AggregateRoot" "ApplyEvent" m v)) ∨
      -- a nil root, which `New()` returned when the instance was destroyed
      ((∃ w, (uc.aggNew h w).2 = .ok none) ∧ p = some (.internal "nil pointer dereference"))
    else Refused h "AggregateMessageHandler" "HandleCommand" env .event m p

/-- How a process's requests are answered. -/
def ProcAnswer (h : HConfig) (env : Env) : ProcOp R × Option PanicVal → Prop
  | (.execute m, p) =>
    if MayProduce h .command m then p = none
    else Refused h "ProcessMessageHandler" (procMethod env) env .command m p
  | (.schedule m _, p) =>
    if MayProduce h .timeout m then p = none
    else Refused h "ProcessMessageHandler" (procMethod env) env .timeout m p
  | (_, p) => p = none

/-- How an integration's requests are answered. -/
def IntAnswer (h : HConfig) (env : Env) : IntOp × Option PanicVal → Prop
  | (.log _, p) => p = none
  | (.record m, p) =>
    if MayProduce h .event m then p = none
    else Refused h "IntegrationMessageHandler" "HandleCommand" env .event m p

/-- Exactly these facts were reported. -/
def Reports (seg : List (Obs R)) (said : List Said) : Prop :=
  (factsIn seg).map Fact.said = said.map some

/-- `AppliedTo uc h ex own root xs calls root'`: what an aggregate's requests do to the root of its instance,
which is `root` before (`none`: nil) and `root'` after.  `calls` are the calls of `ApplyEvent()`; `ex`: does the
instance exist; `own`: is the root the one that the handler was given. -/
inductive AppliedTo (uc : UserCode W R) (h : HConfig) : Bool → Bool → Option R →
    List (AggOp R × Option PanicVal) → List (R × Message) → Option R → Prop
  | nil (ex own root) : AppliedTo uc h ex own root [] [] root
  | log {ex own root t p xs calls root'} : AppliedTo uc h ex own root xs calls root' →
      AppliedTo uc h ex own root ((.log t, p) :: xs) calls root'
  /-- the handler changes the root it was given -/
  | change {ex root r p xs calls root'} : AppliedTo uc h ex true (some r) xs calls root' →
      AppliedTo uc h ex true root ((.setRoot r, p) :: xs) calls root'
  /-- the handler changes the root it was given, which is of no use anymore -/
  | changeOld {ex root r p xs calls root'} : AppliedTo uc h ex false root xs calls root' →
      AppliedTo uc h ex false root ((.setRoot r, p) :: xs) calls root'
  /-- there is nothing to destroy -/
  | destroyNone {own root p xs calls root'} : AppliedTo uc h false own root xs calls root' →
      AppliedTo uc h false own root ((.destroy, p) :: xs) calls root'
  /-- `New()` panics -/
  | destroyPanic {own root w v xs calls root'} : (uc.aggNew h w).2 = .error v →
      AppliedTo uc h true own root xs calls root' →
      AppliedTo uc h true own root ((.destroy, some v) :: xs) calls root'
  /-- a new root takes the place of the old one -/
  | destroy {own root w new xs calls root'} : (uc.aggNew h w).2 = .ok new →
      AppliedTo uc h false false new xs calls root' →
      AppliedTo uc h true own root ((.destroy, none) :: xs) calls root'
  /-- what must not be recorded is not applied -/
  | refused {ex own root m p xs calls root'} : ¬ MayProduce h .event m →
      AppliedTo uc h ex own root xs calls root' →
      AppliedTo uc h ex own root ((.record m, p) :: xs) calls root'
  /-- the event is applied, once -/
  | record {ex own r m p w xs calls root'} : MayProduce h .event m →
      ((uc.aggApply h r m w).2.2.isSome ↔ p.isSome) →
      AppliedTo uc h true own (some (uc.aggApply h r m w).2.1) xs calls root' →
      AppliedTo uc h ex own (some r) ((.record m, p) :: xs) ((r, m) :: calls) root'
  /-- there is no root that it could be applied to -/
  | recordNil {ex own m v xs calls root'} : MayProduce h .event m →
      AppliedTo uc h true own none xs calls root' →
      AppliedTo uc h ex own none ((.record m, some v) :: xs) calls root'

/-- The calls of `ApplyEvent()`. -/
def appliesIn (h : HConfig) (t : List (Obs R)) : List (R × Message) :=
  t.filterMap fun
    | .call (.aggApply h' r m) => if h' = h then some (r, m) else none
    | _ => none

/-- Do aggregates' requests make the engine call user code? -/
def AggOp.calls : AggOp R → Bool
  | .log _ => false
  | .setRoot _ => false
  | _ => true

/-! ## Machinery -/

theorem mayProduce_iff (h : HConfig) (k : Kind) (m : Message) :
    MayProduce h k m ↔ h.produces? k m = true ∧ m.invalid = none := by
  simp only [MayProduce, HConfig.produces?, Bool.and_eq_true, decide_eq_true_eq]
  constructor
  · rintro ⟨a, b, c⟩; exact ⟨⟨b, a⟩, c⟩
  · rintro ⟨⟨b, a⟩, c⟩; exact ⟨a, b, c⟩

theorem factsIn_append (a b : List (Obs R)) : factsIn (a ++ b) = factsIn a ++ factsIn b := by
  simp [factsIn]

theorem Reports.append {a b : List (Obs R)} {x y : List Said} (h1 : Reports a x)
    (h2 : Reports b y) : Reports (a ++ b) (x ++ y) := by
  simp only [Reports, factsIn_append, List.map_append] at *
  rw [h1, h2]

theorem Reports.nil : Reports ([] : List (Obs R)) [] := rfl

/-! ### Integrations -/

theorem intOp_says (h : HConfig) (now : Time) (env : Env) (o : IntOp) (s : Sys W R)
    (evs : List Env) : ∃ seg,
      (intOp h now env o s evs).1.trace = s.trace ++ seg ∧ (intOp h now env o s evs).1.w = s.w ∧
      (∀ xs y, Reports y (intSays h xs) →
        Reports (seg ++ y) (intSays h ((o, (intOp h now env o s evs).2.2) :: xs))) ∧
      IntAnswer h env (o, (intOp h now env o s evs).2.2) := by
  cases o with
  | log t => exact ⟨[_], rfl, rfl, fun xs y hy => .append (a := [_]) (x := [.log t]) rfl hy, rfl⟩
  | record m =>
    simp only [intOp]
    split
    · rename_i hp
      have hn : ¬ MayProduce h .event m := by rw [mayProduce_iff]; simp [hp]
      refine ⟨[], by simp, rfl, fun xs y hy => ?_, ?_⟩
      · simp only [intSays, if_neg hn]; exact hy
      · simp only [IntAnswer, if_neg hn]; exact ⟨_, rfl, undeclared_blames hp _⟩
    · split
      · rename_i hv
        have hn : ¬ MayProduce h .event m := by rw [mayProduce_iff]; simp [hv]
        refine ⟨[], by simp, rfl, fun xs y hy => ?_, ?_⟩
        · simp only [intSays, if_neg hn]; exact hy
        · simp only [IntAnswer, if_neg hn]; exact ⟨_, rfl, invalid_blames hv _ _ _ _⟩
      · rename_i hp _ hv
        have hn : MayProduce h .event m := by rw [mayProduce_iff]; exact ⟨by simpa using hp, hv⟩
        refine ⟨[_], rfl, rfl, fun xs y hy => ?_, ?_⟩
        · simp only [intSays, if_pos hn]
          exact .append (a := [_]) (x := [.event m]) rfl hy
        · simp only [IntAnswer, if_pos hn]

theorem intRun_says (h : HConfig) (now : Time) (env : Env) (p : Prog W IntOp (Option Err))
    (s : Sys W R) (evs : List Env) : ∃ seg xs,
      (intRun h now env p s evs).1.trace = s.trace ++ seg ∧
      Talk (fun _ => false) true p s.w xs (intRun h now env p s evs).1.w
        (intRun h now env p s evs).2.2 ∧
      Reports seg (intSays h xs) ∧ ∀ x ∈ xs, IntAnswer h env x := by
  induction p generalizing s evs with
  | ret a => exact ⟨[], [], by simp [intRun], .ret _ _, .nil, by simp⟩
  | panic v => exact ⟨[], [], by simp [intRun], .panic _ _, .nil, by simp⟩
  | get k ih =>
    obtain ⟨seg, xs, h1, h2, h3⟩ := ih s.w s evs
    exact ⟨seg, xs, h1, .get h2, h3⟩
  | set w k ih =>
    obtain ⟨seg, xs, h1, h2, h3⟩ := ih { s with w := w } evs
    exact ⟨seg, xs, h1, .set h2, h3⟩
  | op o k ih =>
    obtain ⟨sg, g1, g2, g3, g4⟩ := intOp_says h now env o s evs
    obtain ⟨seg, xs, h1, h2, h3, h4⟩ := ih (intOp h now env o s evs).2.2
      (intOp h now env o s evs).1 (intOp h now env o s evs).2.1
    refine ⟨sg ++ seg, (o, (intOp h now env o s evs).2.2) :: xs, ?_, ?_, g3 xs seg h3, ?_⟩
    · rw [← List.append_assoc, ← g1]; exact h1
    · exact .op (fun _ => g2) h2
    · intro x hx
      rcases List.mem_cons.1 hx with rfl | hx
      · exact g4
      · exact h4 x hx

/-! ### Processes -/

theorem procRevive_says (h : HConfig) (id : String) (env : Env) (s : Sys W R) (sc : ProcScope R) :
    ∃ seg, (procRevive h id env s sc).1.trace = s.trace ++ seg ∧
      (procRevive h id env s sc).1.w = s.w ∧ (procRevive h id env s sc).2.root = sc.root ∧
      (procRevive h id env s sc).2.ended = false ∧
      Reports seg (if sc.ended then [.reverted] else []) := by
  unfold procRevive
  split
  · exact ⟨[_], rfl, rfl, rfl, rfl, rfl⟩
  · rename_i he; exact ⟨[], by simp, rfl, rfl, by simpa using he, rfl⟩

theorem procOp_says (h : HConfig) (id : String) (now : Time) (env : Env) (o : ProcOp R)
    (s : Sys W R) (sc : ProcScope R) : ∃ seg,
      (procOp h id now env o s sc).1.trace = s.trace ++ seg ∧
      (procOp h id now env o s sc).1.w = s.w ∧
      (∀ xs y, Reports y (procSays h (procOp h id now env o s sc).2.1.ended xs) →
        Reports (seg ++ y) (procSays h sc.ended ((o, (procOp h id now env o s sc).2.2) :: xs))) ∧
      (∀ xs, rootAs (procOp h id now env o s sc).2.1.root xs =
        rootAs sc.root ((o, (procOp h id now env o s sc).2.2) :: xs)) ∧
      (∀ xs, endsAs h (procOp h id now env o s sc).2.1.ended xs =
        endsAs h sc.ended ((o, (procOp h id now env o s sc).2.2) :: xs)) ∧
      ProcAnswer h env (o, (procOp h id now env o s sc).2.2) := by
  cases o with
  | log t =>
    exact ⟨[_], rfl, rfl, fun xs y hy => .append (a := [_]) (x := [.log t]) rfl hy,
      fun _ => rfl, fun _ => rfl, rfl⟩
  | setRoot r => exact ⟨[], by simp [procOp], rfl, fun xs y hy => hy, fun _ => rfl, fun _ => rfl, rfl⟩
  | end_ =>
    simp only [procOp]
    split
    · rename_i he
      refine ⟨[], by simp, rfl, fun xs y hy => ?_, fun _ => rfl, fun _ => by rw [he]; rfl, rfl⟩
      simp only [procSays, he] at hy ⊢; exact hy
    · rename_i he
      refine ⟨[_], rfl, rfl, fun xs y hy => ?_, fun _ => rfl, fun _ => rfl, rfl⟩
      simp only [procSays, he] at hy ⊢
      exact .append (a := [_]) (x := [.ended]) rfl hy
  | execute m =>
    simp only [procOp]
    split
    · rename_i hp
      have hn : ¬ MayProduce h .command m := by rw [mayProduce_iff]; simp [hp]
      refine ⟨[], by simp, rfl, fun xs y hy => ?_, fun _ => rfl, fun _ => ?_, ?_⟩
      · simp only [procSays, if_neg hn]; exact hy
      · simp only [endsAs, if_neg hn]
      · simp only [ProcAnswer, if_neg hn]; exact ⟨_, rfl, undeclared_blames hp _⟩
    · split
      · rename_i hv
        have hn : ¬ MayProduce h .command m := by rw [mayProduce_iff]; simp [hv]
        refine ⟨[], by simp, rfl, fun xs y hy => ?_, fun _ => rfl, fun _ => ?_, ?_⟩
        · simp only [procSays, if_neg hn]; exact hy
        · simp only [endsAs, if_neg hn]
        · simp only [ProcAnswer, if_neg hn]; exact ⟨_, rfl, invalid_blames hv _ _ _ _⟩
      · rename_i hp _ hv
        have hn : MayProduce h .command m := by rw [mayProduce_iff]; exact ⟨by simpa using hp, hv⟩
        obtain ⟨seg, g1, g2, g3, g4, g5⟩ := procRevive_says h id env s sc
        refine ⟨seg ++ [.fact (.procCommand h id env (env.child
          ((procRevive h id env s sc).1.nextID + 1) m now ⟨h, .process, id⟩))], ?_, g2, fun xs y hy => ?_, fun _ => ?_, fun _ => ?_, ?_⟩
        rotate_left
        · simp only [procSays, if_pos hn]
          rw [List.append_assoc]
          refine .append g5 (.append (a := [_]) (x := [.command m]) rfl ?_)
          simpa only [procEmitCommand, g4] using hy
        · simp only [procEmitCommand, g3]; rfl
        · simp only [procEmitCommand, g4, endsAs, if_pos hn]
        · simp only [ProcAnswer, if_pos hn]
        · simp only [procEmitCommand, Sys.notify, Sys.emit, g1]
          rw [List.append_assoc]
  | schedule m t =>
    simp only [procOp]
    split
    · rename_i hp
      have hn : ¬ MayProduce h .timeout m := by rw [mayProduce_iff]; simp [hp]
      refine ⟨[], by simp, rfl, fun xs y hy => ?_, fun _ => rfl, fun _ => ?_, ?_⟩
      · simp only [procSays, if_neg hn]; exact hy
      · simp only [endsAs, if_neg hn]
      · simp only [ProcAnswer, if_neg hn]; exact ⟨_, rfl, undeclared_blames hp _⟩
    · split
      · rename_i hv
        have hn : ¬ MayProduce h .timeout m := by rw [mayProduce_iff]; simp [hv]
        refine ⟨[], by simp, rfl, fun xs y hy => ?_, fun _ => rfl, fun _ => ?_, ?_⟩
        · simp only [procSays, if_neg hn]; exact hy
        · simp only [endsAs, if_neg hn]
        · simp only [ProcAnswer, if_neg hn]; exact ⟨_, rfl, invalid_blames hv _ _ _ _⟩
      · rename_i hp _ hv
        have hn : MayProduce h .timeout m := by rw [mayProduce_iff]; exact ⟨by simpa using hp, hv⟩
        obtain ⟨seg, g1, g2, g3, g4, g5⟩ := procRevive_says h id env s sc
        have e1 : ∀ (s : Sys W R) (sc : ProcScope R),
            (procEmitTimeout h id now env m t s sc).2.ended = sc.ended := by
          intro s sc; simp only [procEmitTimeout]; split <;> rfl
        have e2 : ∀ (s : Sys W R) (sc : ProcScope R),
            (procEmitTimeout h id now env m t s sc).2.root = sc.root := by
          intro s sc; simp only [procEmitTimeout]; split <;> rfl
        refine ⟨seg ++ [.fact (.procTimeout h id env (env.childTimeout
          ((procRevive h id env s sc).1.nextID + 1) m now t ⟨h, .process, id⟩))], ?_, g2, fun xs y hy => ?_, fun _ => ?_, fun _ => ?_, ?_⟩
        rotate_left
        · simp only [procSays, if_pos hn]
          rw [List.append_assoc]
          refine .append g5 (.append (a := [_]) (x := [.timeout m t]) rfl ?_)
          simpa only [e1, g4] using hy
        · simp only [e2, g3]; rfl
        · simp only [e1, g4, endsAs, if_pos hn]
        · simp only [ProcAnswer, if_pos hn]
        · simp only [procEmitTimeout, Sys.notify, Sys.emit, g1]
          rw [List.append_assoc]

theorem procRun_says (h : HConfig) (id : String) (now : Time) (env : Env)
    (p : Prog W (ProcOp R) (Option Err)) (s : Sys W R) (sc : ProcScope R) : ∃ seg xs,
      (procRun h id now env p s sc).1.trace = s.trace ++ seg ∧
      Talk (fun _ => false) true p s.w xs (procRun h id now env p s sc).1.w
        (procRun h id now env p s sc).2.2 ∧
      Reports seg (procSays h sc.ended xs) ∧
      (procRun h id now env p s sc).2.1.root = rootAs sc.root xs ∧
      (procRun h id now env p s sc).2.1.ended = endsAs h sc.ended xs ∧
      ∀ x ∈ xs, ProcAnswer h env x := by
  induction p generalizing s sc with
  | ret a => exact ⟨[], [], by simp [procRun], .ret _ _, .nil, rfl, rfl, by simp⟩
  | panic v => exact ⟨[], [], by simp [procRun], .panic _ _, .nil, rfl, rfl, by simp⟩
  | get k ih =>
    obtain ⟨seg, xs, h1, h2, h3⟩ := ih s.w s sc
    exact ⟨seg, xs, h1, .get h2, h3⟩
  | set w k ih =>
    obtain ⟨seg, xs, h1, h2, h3⟩ := ih { s with w := w } sc
    exact ⟨seg, xs, h1, .set h2, h3⟩
  | op o k ih =>
    obtain ⟨sg, g1, g2, g3, g4, g5, g6⟩ := procOp_says h id now env o s sc
    obtain ⟨seg, xs, h1, h2, h3, h4, h5, h6⟩ := ih (procOp h id now env o s sc).2.2
      (procOp h id now env o s sc).1 (procOp h id now env o s sc).2.1
    refine ⟨sg ++ seg, (o, (procOp h id now env o s sc).2.2) :: xs, ?_, ?_, g3 xs seg h3,
      h4.trans (g4 xs), h5.trans (g5 xs), ?_⟩
    · rw [← List.append_assoc, ← g1]; exact h1
    · exact .op (fun _ => g2) h2
    · intro x hx
      rcases List.mem_cons.1 hx with rfl | hx
      · exact g6
      · exact h6 x hx

/-! ### Aggregates -/

/-- The scope has a root, or `New()` once returned nil. -/
def RootOr (uc : UserCode W R) (h : HConfig) (sc : AggScope R) : Prop :=
  sc.root.isSome ∨ ∃ w, (uc.aggNew h w).2 = .ok none

theorem aggRevive_says (h : HConfig) (id : String) (env : Env) (s : Sys W R) (sc : AggScope R) :
    ∃ seg, (aggRevive h id env s sc).1.trace = s.trace ++ seg ∧
      (aggRevive h id env s sc).2.root = sc.root ∧
      (aggRevive h id env s sc).2.exists_ = true ∧
      (aggRevive h id env s sc).2.destroyed = (sc.exists_ && sc.destroyed) ∧
      Reports seg (if sc.exists_ then [] else [if sc.destroyed then .reverted else .created]) := by
  unfold aggRevive
  split
  · rename_i he; exact ⟨[], by simp, rfl, he, by simp [he], rfl⟩
  · rename_i he
    cases hd : sc.destroyed
    · exact ⟨[_], rfl, rfl, rfl, by simp, rfl⟩
    · exact ⟨[_], rfl, rfl, rfl, by simp [he], rfl⟩

theorem aggApplyScope_says (A : App W R) (h : HConfig) (m : Message) (s : Sys W R)
    (sc : AggScope R) (hr : RootOr A.uc h sc) : ∃ seg,
      (aggApplyScope A h m s sc).1.trace = s.trace ++ seg ∧ factsIn seg = [] ∧
      RootOr A.uc h (aggApplyScope A h m s sc).2.1 ∧
      (aggApplyScope A h m s sc).2.1.exists_ = sc.exists_ ∧
      (aggApplyScope A h m s sc).2.1.destroyed = sc.destroyed ∧
      ∀ v, (aggApplyScope A h m s sc).2.2 = some v →
        (∃ r w u, (A.uc.aggApply h r m w).2.2 = some u ∧
          v = enrich h "AggregateRoot" "ApplyEvent" m u) ∨
        ((∃ w, (A.uc.aggNew h w).2 = .ok none) ∧ v = .internal "nil pointer dereference") := by
  unfold aggApplyScope
  split
  · rename_i hn
    refine ⟨[], by simp, rfl, hr, rfl, rfl, ?_⟩
    intro v hv
    refine .inr ⟨?_, (Option.some.inj hv).symm⟩
    rcases hr with hr | hr
    · rw [hn] at hr; cases hr
    · exact hr
  · rename_i r hn
    split
    · rename_i he; obtain ⟨rfl, _⟩ := user_eq he
      exact ⟨[_], rfl, rfl, .inl rfl, rfl, rfl, nofun⟩
    · rename_i v he; obtain ⟨rfl, hu⟩ := user_eq he
      refine ⟨[_], rfl, rfl, .inl rfl, rfl, rfl, ?_⟩
      intro v' hv
      exact .inl ⟨r, s.w, v, by rw [← hu], (Option.some.inj hv).symm⟩

theorem aggOp_says (A : App W R) (h : HConfig) (id : String) (now : Time) (env : Env) (o : AggOp R)
    (s : Sys W R) (sc : AggScope R) (hr : RootOr A.uc h sc) : ∃ seg,
      (aggOp A h id now env o s sc).1.trace = s.trace ++ seg ∧
      (o.calls = false → (aggOp A h id now env o s sc).1.w = s.w) ∧
      RootOr A.uc h (aggOp A h id now env o s sc).2.1 ∧
      (∀ xs y, Reports y (aggSays h (aggOp A h id now env o s sc).2.1.exists_
          (aggOp A h id now env o s sc).2.1.destroyed xs) →
        Reports (seg ++ y) (aggSays h sc.exists_ sc.destroyed
          ((o, (aggOp A h id now env o s sc).2.2) :: xs))) ∧
      AggAnswer A.uc h env (o, (aggOp A h id now env o s sc).2.2) := by
  cases o with
  | log t =>
    exact ⟨[_], rfl, fun _ => rfl, hr, fun xs y hy => .append (a := [_]) (x := [.log t]) rfl hy,
      rfl⟩
  | setRoot r =>
    simp only [aggOp]
    split
    · exact ⟨[], by simp, fun _ => trivial, .inl rfl, fun xs y hy => hy, rfl⟩
    · exact ⟨[], by simp, fun _ => trivial, hr, fun xs y hy => hy, rfl⟩
  | destroy =>
    simp only [aggOp, aggDestroy]
    split
    · rename_i he
      refine ⟨[], by simp, nofun, hr, fun xs y hy => ?_, .inl rfl⟩
      simp only [aggSays, he] at hy ⊢; exact hy
    · rename_i he
      have he : sc.exists_ = true := by simpa using he
      split
      · rename_i v hn; obtain ⟨rfl, hu⟩ := user_eq hn
        refine ⟨[_], rfl, nofun, hr, fun xs y hy => ?_, .inr ⟨s.w, v, rfl, hu.symm⟩⟩
        simp only [aggSays, he] at hy ⊢
        exact .append (a := [_]) (x := []) rfl hy
      · rename_i r hn; obtain ⟨rfl, hu⟩ := user_eq hn
        refine ⟨[_, _], by simp [Sys.notify, Sys.emit]; exact ⟨rfl, rfl⟩, nofun, ?_,
          fun xs y hy => ?_, .inl rfl⟩
        · cases r with
          | none => exact .inr ⟨s.w, hu.symm⟩
          | some r => exact .inl rfl
        · simp only [aggSays, he] at hy ⊢
          exact .append (a := [_, _]) (x := [.destroyed]) rfl hy
  | record m =>
    simp only [aggOp, aggRecord]
    split
    · rename_i hp
      have hn : ¬ MayProduce h .event m := by rw [mayProduce_iff]; simp [hp]
      refine ⟨[], by simp, nofun, hr, fun xs y hy => ?_, ?_⟩
      · simp only [aggSays, if_neg hn]; exact hy
      · simp only [AggAnswer, if_neg hn]; exact ⟨_, rfl, undeclared_blames hp _⟩
    · split
      · rename_i hv
        have hn : ¬ MayProduce h .event m := by rw [mayProduce_iff]; simp [hv]
        refine ⟨[], by simp, nofun, hr, fun xs y hy => ?_, ?_⟩
        · simp only [aggSays, if_neg hn]; exact hy
        · simp only [AggAnswer, if_neg hn]; exact ⟨_, rfl, invalid_blames hv _ _ _ _⟩
      · rename_i hp _ hv
        have hn : MayProduce h .event m := by rw [mayProduce_iff]; exact ⟨by simpa using hp, hv⟩
        obtain ⟨seg, g1, g2, g3, g4, g5⟩ := aggRevive_says h id env s sc
        obtain ⟨seg2, k1, k2, k3, k4, k5, k6⟩ := aggApplyScope_says A h m
          (aggRevive h id env s sc).1 (aggRevive h id env s sc).2
          (by unfold RootOr; rw [g2]; exact hr)
        have r2 : Reports seg2 [] := by simp [Reports, k2]
        simp only [AggAnswer, if_pos hn, aggSays]
        split
        · rename_i s2 sc2 v hv'
          rw [hv'] at k1 k3 k4 k5 k6
          replace k4 : sc2.exists_ = _ := k4
          replace k5 : sc2.destroyed = _ := k5
          refine ⟨seg ++ seg2, by rw [k1, g1, List.append_assoc], nofun, k3, fun xs y hy => ?_, ?_⟩
          · have := (g5.append r2).append hy
            simpa [k4, k5, g3, g4] using this
          · exact .inr ((k6 v rfl).imp (fun ⟨r, w, u, a, b⟩ => ⟨r, w, u, a, by rw [b]⟩)
              (fun ⟨a, b⟩ => ⟨a, by rw [b]⟩))
        · rename_i s2 sc2 hv'
          rw [hv'] at k1 k3 k4 k5 k6
          replace k4 : sc2.exists_ = _ := k4
          replace k5 : sc2.destroyed = _ := k5
          refine ⟨seg ++ seg2 ++ [.fact (.aggEvent h id env (env.child (s2.nextID + 1) m now
            ⟨h, .aggregate, id⟩))], ?_, nofun, ?_, fun xs y hy => ?_, .inl rfl⟩
          rotate_left
          · exact k3
          · have e : Reports (R := R) [.fact (.aggEvent h id env (env.child (s2.nextID + 1) m now
                ⟨h, .aggregate, id⟩))] [.event m] := rfl
            have := ((g5.append r2).append e).append hy
            simpa [aggEmit, k4, k5, g3, g4] using this
          · simp only [aggEmit, Sys.notify, Sys.emit]
            rw [show s2.trace = _ from k1, g1]
            simp only [List.append_assoc]

theorem appliesIn_append (h : HConfig) (a b : List (Obs R)) :
    appliesIn h (a ++ b) = appliesIn h a ++ appliesIn h b := by simp [appliesIn]

theorem aggRevive_root (h : HConfig) (id : String) (env : Env) (s : Sys W R) (sc : AggScope R) :
    ∃ seg, (aggRevive h id env s sc).1.trace = s.trace ++ seg ∧ appliesIn h seg = [] ∧
      (aggRevive h id env s sc).2.root = sc.root ∧
      (aggRevive h id env s sc).2.exists_ = true ∧
      (aggRevive h id env s sc).2.given = sc.given := by
  unfold aggRevive
  split
  · rename_i he; exact ⟨[], by simp, rfl, rfl, he, rfl⟩
  · cases hd : sc.destroyed
    · exact ⟨[_], rfl, rfl, rfl, rfl, rfl⟩
    · exact ⟨[_], rfl, rfl, rfl, rfl, rfl⟩

theorem aggOp_applied (A : App W R) (h : HConfig) (id : String) (now : Time) (env : Env) (o : AggOp R)
    (s : Sys W R) (sc : AggScope R) (xs : List (AggOp R × Option PanicVal)) (y : List (Obs R))
    (seg : List (Obs R)) (root' : Option R)
    (ht : (aggOp A h id now env o s sc).1.trace = s.trace ++ seg)
    (hy : AppliedTo A.uc h (aggOp A h id now env o s sc).2.1.exists_
      (aggOp A h id now env o s sc).2.1.given (aggOp A h id now env o s sc).2.1.root xs
      (appliesIn h y) root') :
    AppliedTo A.uc h sc.exists_ sc.given sc.root ((o, (aggOp A h id now env o s sc).2.2) :: xs)
      (appliesIn h (seg ++ y)) root' := by
  have none_ : ∀ {t : List (Obs R)}, s.trace ++ t = s.trace ++ seg → appliesIn h t = [] →
      appliesIn h (seg ++ y) = appliesIn h y := by
    intro t e e'
    rw [← List.append_cancel_left e, appliesIn_append, e', List.nil_append]
  obtain ⟨root, ex, destroyed, events, given⟩ := sc
  cases o with
  | log t =>
    rw [none_ (t := [_]) ht rfl]
    exact .log hy
  | setRoot r =>
    simp only [aggOp] at ht hy ⊢
    rw [none_ (t := []) (by simpa using ht) rfl]
    cases given
    · exact .changeOld hy
    · exact .change hy
  | destroy =>
    simp only [aggOp, aggDestroy] at ht hy ⊢
    cases ex
    · simp only [if_true] at ht hy ⊢
      rw [none_ (t := []) (by simpa using ht) rfl]
      exact .destroyNone hy
    · simp only [Bool.true_eq_false, if_false] at ht hy ⊢
      rcases hn : s.user (.aggNew h) (A.uc.aggNew h) with ⟨s1, v | r⟩
      · obtain ⟨rfl, hu⟩ := user_eq hn
        simp only [hn] at ht hy ⊢
        rw [none_ (t := [_]) ht rfl]
        exact .destroyPanic hu.symm hy
      · obtain ⟨rfl, hu⟩ := user_eq hn
        simp only [hn] at ht hy ⊢
        rw [none_ (t := [_, _]) (by simpa [Sys.notify, Sys.emit] using ht) rfl]
        exact .destroy hu.symm hy
  | record m =>
    simp only [aggOp, aggRecord] at ht hy ⊢
    cases hp : h.produces? .event m
    · have hn : ¬ MayProduce h .event m := by rw [mayProduce_iff]; simp [hp]
      simp only [hp, if_true] at ht hy ⊢
      rw [none_ (t := []) (by simpa using ht) rfl]
      exact .refused hn hy
    · simp only [hp, Bool.true_eq_false, if_false] at ht hy ⊢
      cases hv : m.invalid with
      | some e =>
        have hn : ¬ MayProduce h .event m := by rw [mayProduce_iff]; simp [hv]
        simp only [hv] at ht hy ⊢
        rw [none_ (t := []) (by simpa using ht) rfl]
        exact .refused hn hy
      | none =>
        have hn : MayProduce h .event m := by rw [mayProduce_iff]; exact ⟨hp, hv⟩
        simp only [hv] at ht hy ⊢
        obtain ⟨sg, g1, g2, g3, g4, g5⟩ := aggRevive_root h id env s
          ⟨root, ex, destroyed, events, given⟩
        generalize aggRevive h id env s ⟨root, ex, destroyed, events, given⟩ = z at *
        obtain ⟨s1, root1, ex1, destroyed1, events1, given1⟩ := z
        simp only at g1 g3 g4 g5
        subst g3 g4 g5
        simp only [aggApplyScope] at ht hy ⊢
        cases root1 with
        | none =>
          simp only at ht hy ⊢
          rw [none_ (t := sg) (by rw [← g1]; exact ht) g2]
          exact .recordNil hn hy
        | some r =>
          simp only at ht hy ⊢
          rcases hu : s1.user (.aggApply h r m) (A.uc.aggApply h r m) with ⟨s2, r', q⟩
          obtain ⟨rfl, e⟩ := user_eq hu
          have one : ∀ {t : List (Obs R)}, s.trace ++ sg ++ .call (.aggApply h r m) :: t =
              s.trace ++ seg → appliesIn h t = [] →
              appliesIn h (seg ++ y) = (r, m) :: appliesIn h y := by
            intro t e e'
            rw [List.append_assoc] at e
            rw [← List.append_cancel_left e, appliesIn_append, appliesIn_append, g2]
            simp only [appliesIn, List.filterMap_cons, if_true, List.nil_append,
              List.cons_append] at e' ⊢
            rw [e']; rfl
          have e1 : r' = (A.uc.aggApply h r m s1.w).2.1 := by rw [← e]
          have e2 : q = (A.uc.aggApply h r m s1.w).2.2 := by rw [← e]
          cases q with
          | none =>
            simp only [hu] at ht hy ⊢
            rw [one (t := [_]) (by simpa [aggEmit, Sys.notify, Sys.emit, g1] using ht) rfl]
            subst e1
            exact .record hn (by rw [← e2]) hy
          | some v =>
            simp only [hu] at ht hy ⊢
            rw [one (t := []) (by simpa [Sys.emit, g1] using ht) rfl]
            subst e1
            exact .record hn (by rw [← e2]; simp) hy

theorem aggRun_says (A : App W R) (h : HConfig) (id : String) (now : Time) (env : Env)
    (p : Prog W (AggOp R) Unit) (s : Sys W R) (sc : AggScope R) (hr : RootOr A.uc h sc) : ∃ seg xs,
      (aggRun A h id now env p s sc).1.trace = s.trace ++ seg ∧
      Talk AggOp.calls true p s.w xs (aggRun A h id now env p s sc).1.w
        (match (aggRun A h id now env p s sc).2.2 with
          | none => .ok ()
          | some v => .error v) ∧
      Reports seg (aggSays h sc.exists_ sc.destroyed xs) ∧
      (∀ x ∈ xs, AggAnswer A.uc h env x) ∧
      AppliedTo A.uc h sc.exists_ sc.given sc.root xs (appliesIn h seg)
        (aggRun A h id now env p s sc).2.1.root := by
  induction p generalizing s sc with
  | ret a => exact ⟨[], [], by simp [aggRun], .ret _ _, .nil, by simp, .nil ..⟩
  | panic v => exact ⟨[], [], by simp [aggRun], .panic _ _, .nil, by simp, .nil ..⟩
  | get k ih =>
    obtain ⟨seg, xs, h1, h2, h3⟩ := ih s.w s sc hr
    exact ⟨seg, xs, h1, .get h2, h3⟩
  | set w k ih =>
    obtain ⟨seg, xs, h1, h2, h3⟩ := ih { s with w := w } sc hr
    exact ⟨seg, xs, h1, .set h2, h3⟩
  | op o k ih =>
    obtain ⟨sg, g1, g2, g3, g4, g5⟩ := aggOp_says A h id now env o s sc hr
    obtain ⟨seg, xs, h1, h2, h3, h4, h5⟩ := ih (aggOp A h id now env o s sc).2.2
      (aggOp A h id now env o s sc).1 (aggOp A h id now env o s sc).2.1 g3
    refine ⟨sg ++ seg, (o, (aggOp A h id now env o s sc).2.2) :: xs, ?_, ?_, g4 xs seg h3, ?_,
      aggOp_applied A h id now env o s sc xs seg sg _ g1 h5⟩
    · rw [← List.append_assoc, ← g1]; exact h1
    · exact .op g2 h2
    · intro x hx
      rcases List.mem_cons.1 hx with rfl | hx
      · exact g5
      · exact h4 x hx

/-! ## Theorems -/

theorem during_of {s s' : Sys W R} {seg : List (Obs R)} (e : s'.trace = s.trace ++ seg) :
    during s s' = seg := by simp [during, e]

/-- Is this the call of a handler's method that is given a scope to talk to? -/
def Obs.invokes : Obs R → Bool
  | .call (.aggHandle ..) | .call (.procHandle ..) | .call (.intHandle ..)
  | .call (.prjHandle ..) => true
  | _ => false

/-- How a handling ends, given how the method did. -/
def EndsAs (h : HConfig) (iface method : String) (env : Env) (res : HRes) :
    Except PanicVal (Option Err) → Prop
  | .ok e => ∃ envs, res = .ok (envs, e)
  | .error v => res = .error (enrich h iface method env.msg v)

/-- **C88 (integrations).**  When an integration handles a message, either its method is not
called at all, or the facts reported from the moment it is called are the ones its requests call
for, every request is answered as it should be, and the handling ends as the method does. -/
theorem C88_integration (A : App W R) (h : HConfig) (ht : h.htype = .integration) (now : Time)
    (env : Env) (s s' : Sys W R) (res : HRes) (hs : ctlHandle A h now env s = (s', res)) :
    (∀ o ∈ during s s', o.invokes = false) ∨
    ∃ seg xs r, during s s' = .call (.intHandle h env.msg) :: seg ∧
      Talk (fun _ => false) true (A.uc.intHandle h env.msg) s.w xs s'.w r ∧
      Reports seg (intSays h xs) ∧ (∀ x ∈ xs, IntAnswer h env x) ∧
      EndsAs h "IntegrationMessageHandler" "HandleCommand" env res r := by
  simp only [ctlHandle, ht, intHandle] at hs
  split at hs
  · cases hs; simp [during]
  split at hs
  · cases hs; simp [during]
  obtain ⟨seg, xs, h1, h2, h3, h4⟩ := intRun_says h now env (A.uc.intHandle h env.msg)
    (s.emit (.call (.intHandle h env.msg))) []
  have key : ∀ {s1 : Sys W R}, s1.trace = (s.emit (.call (.intHandle h env.msg))).trace ++ seg →
      during s s1 = .call (.intHandle h env.msg) :: seg :=
    fun e => during_of (by rw [e]; simp [Sys.emit])
  split at hs <;> cases hs <;> rename_i he <;> rw [he] at h1 h2
  · exact .inr ⟨seg, xs, _, key h1, h2, h3, h4, rfl⟩
  · exact .inr ⟨seg, xs, _, key h1, h2, h3, h4, _, rfl⟩

/-- The last part of an aggregate's handling. -/
theorem aggInvoke_says (A : App W R) (h : HConfig) (id : String) (now : Time) (env : Env)
    (r : R) (ex : Bool) (s : Sys W R) : ∃ seg xs q root,
      (aggInvoke A h id now env r ex s).1.trace =
        s.trace ++ .call (.aggHandle h id r env.msg) :: seg ∧
      Talk AggOp.calls true (A.uc.aggHandle h id r env.msg) s.w xs
        (aggInvoke A h id now env r ex s).1.w q ∧
      Reports seg (aggSays h ex false xs) ∧ (∀ x ∈ xs, AggAnswer A.uc h env x) ∧
      EndsAs h "AggregateMessageHandler" "HandleCommand" env (aggInvoke A h id now env r ex s).2
        (q.map fun _ => none) ∧
      AppliedTo A.uc h ex true (some r) xs (appliesIn h seg) root := by
  obtain ⟨seg, xs, h1, h2, h3, h4, h5⟩ := aggRun_says A h id now env (A.uc.aggHandle h id r env.msg)
    (s.emit (.call (.aggHandle h id r env.msg))) ⟨some r, ex, false, [], true⟩ (.inl rfl)
  unfold aggInvoke
  split <;> rename_i he <;> rw [he] at h1 h2
  · exact ⟨seg, xs, _, _, by rw [h1]; simp [Sys.emit], h2, h3, h4, rfl, h5⟩
  · refine ⟨seg, xs, .ok (), _, ?_, ?_, h3, h4, ⟨_, rfl⟩, h5⟩
    · unfold aggCommit
      split <;> exact (show _ = _ from h1).trans (by simp [Sys.emit])
    · unfold aggCommit
      split <;> exact h2

/-- What an aggregate and the engine say to each other when it handles a message, and to which roots the
events are applied. -/
theorem aggregate_talk (A : App W R) (h : HConfig) (ht : h.htype = .aggregate) (now : Time)
    (env : Env) (s s' : Sys W R) (res : HRes) (hs : ctlHandle A h now env s = (s', res)) :
    (∀ o ∈ during s s', o.invokes = false) ∨
    ∃ pre ex id r seg w xs q root,
      during s s' = pre ++ .fact (if ex then .aggLoaded h id env else .aggNotFound h id env) ::
        .call (.aggHandle h id r env.msg) :: seg ∧ (∀ o ∈ pre, o.invokes = false) ∧
      Talk AggOp.calls true (A.uc.aggHandle h id r env.msg) w xs s'.w q ∧
      Reports seg (aggSays h ex false xs) ∧ (∀ x ∈ xs, AggAnswer A.uc h env x) ∧
      EndsAs h "AggregateMessageHandler" "HandleCommand" env res (q.map fun _ => none) ∧
      AppliedTo A.uc h ex true (some r) xs (appliesIn h seg) root := by
  simp only [ctlHandle, ht, aggHandle] at hs
  split at hs
  · cases hs; simp [during]
  split at hs
  · cases hs; simp [during]
  split at hs
  · rename_i he; obtain ⟨rfl, _⟩ := user_eq he
    cases hs; left; simp [during, Sys.emit, Obs.invokes]
  rename_i s1 id he; obtain ⟨rfl, _⟩ := user_eq he
  split at hs
  · cases hs; left; simp [during, Sys.emit, Obs.invokes]
  unfold aggWithID at hs
  split at hs
  · rename_i he; obtain ⟨rfl, _⟩ := user_eq he
    cases hs; left; simp [during, Sys.emit, Obs.invokes]
  · rename_i he; obtain ⟨rfl, _⟩ := user_eq he
    cases hs; left; simp [during, Sys.emit, Obs.invokes]
  rename_i s2 r he; obtain ⟨rfl, _⟩ := user_eq he
  split at hs
  · rename_i hist hh
    obtain ⟨ap, a1, a2, _⟩ := aggReplay_trace A h hist r
      ({ ({ s.emit (.call (.aggRoute h env.msg)) with
          w := (A.uc.aggRoute h env.msg s.w).1 } : Sys W R).emit (.call (.aggNew h)) with
          w := (A.uc.aggNew h (A.uc.aggRoute h env.msg s.w).1).1 } : Sys W R)
    have hpre : ∀ o ∈ (.call (.aggRoute h env.msg) :: .call (.aggNew h) :: ap : List (Obs R)),
        o.invokes = false := by
      intro o ho
      simp only [List.mem_cons] at ho
      rcases ho with rfl | rfl | ho
      · rfl
      · rfl
      · have := a2 o ho
        cases o with
        | call c => cases c <;> first | rfl | exact this.elim
        | fact f => rfl
        | reset => rfl
    split at hs
    · rename_i he
      rw [he] at a1
      cases hs
      left
      rw [during_of (seg := .call (.aggRoute h env.msg) :: .call (.aggNew h) :: ap)
        (by simpa [Sys.emit] using a1)]
      exact hpre
    · rename_i s3 r3 he
      rw [he] at a1
      obtain ⟨seg, xs, q, root, h1, h2, h3⟩ := aggInvoke_says A h id now env r3 true
        (s3.notify (.aggLoaded h id env))
      rw [hs] at h1 h2 h3
      refine .inr ⟨_, true, id, r3, seg, _, xs, q, root, during_of ?_, hpre, h2, h3⟩
      rw [show s'.trace = _ from h1]
      simp [Sys.notify, Sys.emit, show s3.trace = _ from a1]
  · rename_i hh
    obtain ⟨seg, xs, q, root, h1, h2, h3⟩ := aggInvoke_says A h id now env r false
      (Sys.notify ({ ({ s.emit (.call (.aggRoute h env.msg)) with
          w := (A.uc.aggRoute h env.msg s.w).1 } : Sys W R).emit (.call (.aggNew h)) with
          w := (A.uc.aggNew h (A.uc.aggRoute h env.msg s.w).1).1 } : Sys W R)
        (.aggNotFound h id env))
    rw [hs] at h1 h2 h3
    refine .inr ⟨[.call (.aggRoute h env.msg), .call (.aggNew h)], false, id, r, seg, _, xs, q, root,
      during_of ?_, by simp [Obs.invokes], h2, h3⟩
    rw [show s'.trace = _ from h1]
    simp [Sys.notify, Sys.emit]

/-- **C88 (aggregates).**  When an aggregate handles a message, either its method is not called at
all, or the facts reported from the moment it is called are the ones its requests call for. -/
theorem C88_aggregate (A : App W R) (h : HConfig) (ht : h.htype = .aggregate) (now : Time)
    (env : Env) (s s' : Sys W R) (res : HRes) (hs : ctlHandle A h now env s = (s', res)) :
    (∀ o ∈ during s s', o.invokes = false) ∨
    ∃ pre ex id r seg w xs q,
      during s s' = pre ++ .fact (if ex then .aggLoaded h id env else .aggNotFound h id env) ::
        .call (.aggHandle h id r env.msg) :: seg ∧ (∀ o ∈ pre, o.invokes = false) ∧
      Talk AggOp.calls true (A.uc.aggHandle h id r env.msg) w xs s'.w q ∧
      Reports seg (aggSays h ex false xs) ∧ (∀ x ∈ xs, AggAnswer A.uc h env x) ∧
      EndsAs h "AggregateMessageHandler" "HandleCommand" env res (q.map fun _ => none) := by
  rcases aggregate_talk A h ht now env s s' res hs with g | ⟨pre, ex, id, r, seg, w, xs, q, root, g1, g2, g3,
    g4, g5, g6, _⟩
  · exact .inl g
  · exact .inr ⟨pre, ex, id, r, seg, w, xs, q, g1, g2, g3, g4, g5, g6⟩

/-- What becomes of the root of a process instance (`none`: there is no instance). -/
def RootKept (h : HConfig) (ex : Bool) (r : R) (xs : List (ProcOp R × Option PanicVal))
    (q : Except PanicVal (Option Err)) (kept : Option R) : Prop :=
  match q with
  | .ok none => kept = if endsAs h false xs then none else some (rootAs r xs)
  -- the engine and the handler share the root of an instance that existed before
  | _ => kept = if ex then some (rootAs r xs) else none

theorem kept_alias (h : HConfig) (id : String) (r : R) (s s1 : Sys W R) (sc : ProcScope R)
    (ex : Bool) (hex : ex = ((s.proc h.name).inst id).isSome)
    (xs : List (ProcOp R × Option PanicVal)) (hp : s1.proc = s.proc) (hr : sc.root = rootAs r xs) :
    ((procAlias h id ex s1 sc.root).proc h.name).inst id =
      if ex then some (rootAs r xs) else none := by
  cases ex
  · simp only [procAlias, Bool.false_eq_true, if_false, hp]
    cases hi : (s.proc h.name).inst id with
    | none => rfl
    | some r => rw [hi] at hex; cases hex
  · simp [procAlias, Sys.setProc, upd, hr]

theorem procInvoke_says (A : App W R) (h : HConfig) (id : String) (now : Time) (env : Env)
    (r : R) (s : Sys W R) (ex : Bool) (hex : ex = ((s.proc h.name).inst id).isSome) : ∃ seg xs q,
      (procInvoke A h id now env r ex s).1.trace =
        s.trace ++ .call (.procHandle h id r env.msg (procSeenTime env)) :: seg ∧
      Talk (fun _ => false) true (A.uc.procHandle h id r env.msg (procSeenTime env)) s.w xs
        (procInvoke A h id now env r ex s).1.w q ∧
      Reports seg (procSays h false xs) ∧ (∀ x ∈ xs, ProcAnswer h env x) ∧
      EndsAs h "ProcessMessageHandler" (procMethod env) env (procInvoke A h id now env r ex s).2 q ∧
      RootKept h ex r xs q (((procInvoke A h id now env r ex s).1.proc h.name).inst id) := by
  obtain ⟨seg, xs, h1, h2, h3, h4, h5, h6⟩ := procRun_says h id now env
    (A.uc.procHandle h id r env.msg (procSeenTime env))
    (s.emit (.call (.procHandle h id r env.msg (procSeenTime env)))) ⟨r, false, [], [], []⟩
  obtain ⟨_, p1⟩ := procRun_seg h id now env (A.uc.procHandle h id r env.msg (procSeenTime env))
    (s.emit (.call (.procHandle h id r env.msg (procSeenTime env)))) ⟨r, false, [], [], []⟩
  have hp := p1.proc
  unfold procInvoke
  split <;> rename_i he <;> rw [he] at h1 h2 h4 h5 hp
  · rename_i s1 sc v
    refine ⟨seg, xs, .error v, ?_, ?_, h3, h6, rfl, ?_⟩
    · unfold procAlias
      split <;> exact (show _ = _ from h1).trans (by simp [Sys.emit])
    · unfold procAlias
      split <;> exact h2
    · exact kept_alias h id r s s1 sc ex hex xs hp h4
  · rename_i s1 sc e
    refine ⟨seg, xs, .ok (some e), ?_, ?_, h3, h6, ⟨_, rfl⟩, ?_⟩
    · unfold procAlias
      split <;> exact (show _ = _ from h1).trans (by simp [Sys.emit])
    · unfold procAlias
      split <;> exact h2
    · exact kept_alias h id r s s1 sc ex hex xs hp h4
  · rename_i s1 sc
    refine ⟨seg, xs, .ok none, ?_, ?_, h3, h6, ?_, ?_⟩
    · split
      · split <;> exact (show _ = _ from h1).trans (by simp [Sys.emit])
      · exact (show _ = _ from h1).trans (by simp [Sys.emit])
    · split
      · split <;> exact h2
      · exact h2
    · split <;> exact ⟨_, rfl⟩
    · replace h5 : sc.ended = endsAs h false xs := h5
      replace h4 : sc.root = rootAs r xs := h4
      replace hp : s1.proc = s.proc := hp
      simp only [RootKept, ← h5]
      split
      · cases ex
        · simp only [Bool.false_eq_true, if_false, hp]
          cases hi : (s.proc h.name).inst id with
          | none => rfl
          | some r => rw [hi] at hex; cases hex
        · simp [procDelete, Sys.setProc, upd]
      · simp [procUpdate, Sys.setProc, upd, h4]

/-- **C88 (processes).**  When a process handles a message, either its method is not called at
all, or: it is given the root of its instance, or a new one; the facts reported from the moment
it is called are the ones its requests call for; every request is answered as it should be; the
handling ends as the method does; and the root is kept as the method left it. -/
theorem C88_process (A : App W R) (h : HConfig) (ht : h.htype = .process) (now : Time)
    (env : Env) (s s' : Sys W R) (res : HRes) (hs : ctlHandle A h now env s = (s', res)) :
    (∀ o ∈ during s s', o.invokes = false) ∨
    ∃ pre ex id r t seg w xs q,
      during s s' = pre ++ .call (.procHandle h id r env.msg t) :: seg ∧
      (∀ o ∈ pre, o.invokes = false) ∧
      (t = if env.msg.type.kind = .timeout then env.scheduledFor else env.createdAt) ∧
      (ex = true → (s.proc h.name).inst id = some r) ∧
      (ex = false → (s.proc h.name).inst id = none ∧ ∃ w, (A.uc.procNew h w).2 = .ok (some r)) ∧
      Talk (fun _ => false) true (A.uc.procHandle h id r env.msg t) w xs s'.w q ∧
      Reports seg (procSays h false xs) ∧ (∀ x ∈ xs, ProcAnswer h env x) ∧
      EndsAs h "ProcessMessageHandler"
        (if env.msg.type.kind = .timeout then "HandleTimeout" else "HandleEvent") env res q ∧
      RootKept h ex r xs q ((s'.proc h.name).inst id) := by
  have hm : procMethod env =
      if env.msg.type.kind = .timeout then "HandleTimeout" else "HandleEvent" := by
    unfold procMethod; cases env.msg.type.kind <;> rfl
  have htm : procSeenTime env =
      if env.msg.type.kind = .timeout then env.scheduledFor else env.createdAt := by
    unfold procSeenTime; cases env.msg.type.kind <;> rfl
  -- once the instance is known
  have key : ∀ (s1 : Sys W R) (p : List (Obs R)) (id : String), s1.trace = s.trace ++ p →
      s1.proc = s.proc → (∀ o ∈ p, o.invokes = false) → procWithID A h id now env s1 = (s', res) →
      (∀ o ∈ during s s', o.invokes = false) ∨
      ∃ pre ex id r t seg w xs q,
        during s s' = pre ++ .call (.procHandle h id r env.msg t) :: seg ∧
        (∀ o ∈ pre, o.invokes = false) ∧
        (t = if env.msg.type.kind = .timeout then env.scheduledFor else env.createdAt) ∧
        (ex = true → (s.proc h.name).inst id = some r) ∧
        (ex = false → (s.proc h.name).inst id = none ∧ ∃ w, (A.uc.procNew h w).2 = .ok (some r)) ∧
        Talk (fun _ => false) true (A.uc.procHandle h id r env.msg t) w xs s'.w q ∧
        Reports seg (procSays h false xs) ∧ (∀ x ∈ xs, ProcAnswer h env x) ∧
        EndsAs h "ProcessMessageHandler"
          (if env.msg.type.kind = .timeout then "HandleTimeout" else "HandleEvent") env res q ∧
        RootKept h ex r xs q ((s'.proc h.name).inst id) := by
    intro s1 p id e1 e2 e3 hs
    unfold procWithID at hs
    split at hs
    · rename_i r hr
      obtain ⟨seg, xs, q, h1, h2, h3, h4, h5, h6⟩ := procInvoke_says A h id now env r
        (s1.notify (.procLoaded h id env)) true
        (by simp only [Sys.notify, Sys.emit]; rw [hr]; rfl)
      rw [hs] at h1 h2 h5 h6
      rw [hm] at h5
      refine .inr ⟨p ++ [.fact (.procLoaded h id env)], true, id, r, _, seg, _, xs, q,
        during_of ?_, ?_, htm, fun _ => by rw [← e2]; exact hr, nofun, h2, h3, h4, h5, h6⟩
      · rw [show s'.trace = _ from h1]
        simp [Sys.notify, Sys.emit, e1]
      · intro o ho
        rcases List.mem_append.1 ho with ho | ho
        · exact e3 o ho
        · rw [List.mem_singleton.1 ho]; rfl
    · rename_i hr
      split at hs
      · rename_i he; obtain ⟨rfl, _⟩ := user_eq he
        cases hs
        left
        rw [during_of (seg := p ++ [.fact (.procNotFound h id env), .call (.procNew h)])
          (by simp [Sys.notify, Sys.emit, e1])]
        intro o ho
        rcases List.mem_append.1 ho with ho | ho
        · exact e3 o ho
        · simp only [List.mem_cons, List.not_mem_nil, or_false] at ho
          rcases ho with rfl | rfl <;> rfl
      · rename_i he; obtain ⟨rfl, _⟩ := user_eq he
        cases hs
        left
        rw [during_of (seg := p ++ [.fact (.procNotFound h id env), .call (.procNew h),
            .fact (.procBegun h id env)])
          (by simp [Sys.notify, Sys.emit, e1])]
        intro o ho
        rcases List.mem_append.1 ho with ho | ho
        · exact e3 o ho
        · simp only [List.mem_cons, List.not_mem_nil, or_false] at ho
          rcases ho with rfl | rfl | rfl <;> rfl
      · rename_i s2 r he; obtain ⟨rfl, hn⟩ := user_eq he
        obtain ⟨seg, xs, q, h1, h2, h3, h4, h5, h6⟩ := procInvoke_says A h id now env r
          (Sys.notify ({ ((s1.notify (.procNotFound h id env)).emit (.call (.procNew h))) with
            w := (A.uc.procNew h (s1.notify (.procNotFound h id env)).w).1 } : Sys W R) (.procBegun h id env)) false
          (by simp only [Sys.notify, Sys.emit]; rw [hr]; rfl)
        rw [show procInvoke A h id now env r false _ = (s', res) from hs] at h1 h2 h5 h6
        rw [hm] at h5
        refine .inr ⟨p ++ [.fact (.procNotFound h id env), .call (.procNew h),
            .fact (.procBegun h id env)], false, id, r, _, seg, _, xs, q,
          during_of ?_, ?_, htm, nofun, fun _ => ⟨by rw [← e2]; exact hr, _, hn.symm⟩,
          h2, h3, h4, h5, h6⟩
        · rw [show s'.trace = _ from h1]
          simp [Sys.notify, Sys.emit, e1]
        · intro o ho
          rcases List.mem_append.1 ho with ho | ho
          · exact e3 o ho
          · simp only [List.mem_cons, List.not_mem_nil, or_false] at ho
            rcases ho with rfl | rfl | rfl <;> rfl
  simp only [ctlHandle, ht, procHandle] at hs
  split at hs
  · cases hs; simp [during]
  split at hs
  · cases hs; simp [during]
  · split at hs
    · rename_i he; obtain ⟨rfl, _⟩ := user_eq he
      cases hs; left; simp [during, Sys.emit, Obs.invokes]
    · rename_i he; obtain ⟨rfl, _⟩ := user_eq he
      cases hs; left; simp [during, Sys.emit, Obs.invokes]
    · rename_i he; obtain ⟨rfl, _⟩ := user_eq he
      cases hs; left; simp [during, Sys.notify, Sys.emit, Obs.invokes]
    · rename_i id he; obtain ⟨rfl, _⟩ := user_eq he
      split at hs
      · cases hs; left; simp [during, Sys.emit, Obs.invokes]
      · refine key _ [.call (.procRoute h env.msg)] id ?_ ?_ ?_ hs
        · rfl
        · rfl
        · simp [Obs.invokes]
  · split at hs
    · cases hs; simp [during]
    · split at hs
      · exact key s [] _ (by simp) rfl (by simp) hs
      · cases hs; left; simp [during, Sys.notify, Sys.emit, Obs.invokes]

/-! ### Projections -/

/-- What was logged while handling `env?` (`none`: while compacting). -/
def prjLogged (env? : Option Env) (seg : List (Obs R)) : List Said :=
  seg.filterMap fun
    | .fact (.prjLog _ e t) => if e = env? then some (.log t) else none
    | _ => none

theorem prjRun_says {α : Type} (h : HConfig) (env? : Option Env) (p : Prog W PrjOp α)
    (s : Sys W R) (alone : Bool) : ∃ seg xs,
      (prjRun h env? p s).1.trace = s.trace ++ seg ∧
      Talk (fun _ => false) alone p s.w xs (prjRun h env? p s).1.w (prjRun h env? p s).2 ∧
      Reports seg (prjSays xs) ∧ prjLogged env? seg = prjSays xs ∧
      (∀ e, e ≠ env? → prjLogged e seg = []) ∧ ∀ x ∈ xs, x.2 = none := by
  induction p generalizing s with
  | ret a => exact ⟨[], [], by simp [prjRun], .ret _ _, .nil, rfl, fun _ _ => rfl, by simp⟩
  | panic v => exact ⟨[], [], by simp [prjRun], .panic _ _, .nil, rfl, fun _ _ => rfl, by simp⟩
  | get k ih =>
    obtain ⟨seg, xs, h1, h2, h3⟩ := ih s.w s
    exact ⟨seg, xs, h1, .get h2, h3⟩
  | set w k ih =>
    obtain ⟨seg, xs, h1, h2, h3⟩ := ih { s with w := w }
    exact ⟨seg, xs, h1, .set h2, h3⟩
  | op o k ih =>
    cases o with
    | log t =>
      obtain ⟨seg, xs, h1, h2, h3, h4, h5, h6⟩ := ih none (s.notify (.prjLog h env? t))
      refine ⟨.fact (.prjLog h env? t) :: seg, (.log t, none) :: xs, ?_, .op (fun _ => rfl) h2,
        .append (a := [_]) (x := [.log t]) rfl h3, ?_, ?_, ?_⟩
      · simp only [prjRun, h1]; simp [Sys.notify, Sys.emit]
      · simp only [prjLogged, prjSays] at h4 ⊢
        simp [h4]
      · intro e he
        have := h5 e he
        simp only [prjLogged] at this ⊢
        simp [this, Ne.symm he]
      · intro x hx
        rcases List.mem_cons.1 hx with rfl | hx
        · rfl
        · exact h6 x hx

theorem prjLogged_append (e : Option Env) (a b : List (Obs R)) :
    prjLogged e (a ++ b) = prjLogged e a ++ prjLogged e b := by simp [prjLogged]

/-- What is known after `HandleEvent` and `Compact` ran side by side. -/
def ParSays (h : HConfig) (env : Env) (hp : Prog W PrjOp (Except Err Bool))
    (cp : Prog W PrjOp (Option Err)) (w : W) (seg : List (Obs R)) :
    Except PanicVal (Except Err Bool × Option Err) → Prop
  | .ok (r, ce) =>
    (∃ xs w1, Talk (fun _ => false) false hp w xs w1 (.ok r) ∧
      prjLogged (some env) seg = prjSays xs) ∧
    (∃ ys w2, Talk (fun _ => false) false cp w ys w2 (.ok ce) ∧ prjLogged none seg = prjSays ys)
  | .error v =>
    (∃ xs w1 u, Talk (fun _ => false) false hp w xs w1 (.error u) ∧
      prjLogged (some env) seg = prjSays xs ∧
      v = enrich h "ProjectionMessageHandler" "HandleEvent" env.msg u) ∨
    (∃ ys w1 u d, Talk (fun _ => false) false cp w ys w1 (.error u) ∧
      prjLogged none seg = prjSays ys ∧ v = .crash d)

theorem prjStep_says {α : Type} (h : HConfig) (env? : Option Env) (p : Prog W PrjOp α)
    (s : Sys W R) : ∃ sg,
      (prjStep h env? p s).2.trace = s.trace ++ sg ∧ (∀ o ∈ sg, ∃ t, o = .fact (.prjLog h env? t)) ∧
      ∀ xs w' res, Talk (fun _ => false) false (prjStep h env? p s).1 (prjStep h env? p s).2.w xs w' res →
        ∃ zs, Talk (fun _ => false) false p s.w zs w' res ∧
          ∀ seg, prjLogged env? seg = prjSays xs → prjLogged env? (sg ++ seg) = prjSays zs := by
  cases p with
  | ret a => exact ⟨[], by simp [prjStep], by simp, fun xs w' res ht => ⟨xs, ht, fun _ e => e⟩⟩
  | panic v => exact ⟨[], by simp [prjStep], by simp, fun xs w' res ht => ⟨xs, ht, fun _ e => e⟩⟩
  | get k => exact ⟨[], by simp [prjStep], by simp, fun xs w' res ht => ⟨xs, .get ht, fun _ e => e⟩⟩
  | set w k =>
    exact ⟨[], by simp [prjStep], by simp, fun xs w' res ht => ⟨xs, .set ht, fun _ e => e⟩⟩
  | op o k =>
    cases o with
    | log t =>
      refine ⟨[_], rfl, by simp, fun xs w' res ht => ⟨(.log t, none) :: xs, .op (fun _ => rfl) ht, ?_⟩⟩
      intro seg e
      simp only [prjLogged, prjSays] at e ⊢
      simp [e]

theorem prjLogged_other {h : HConfig} {e e' : Option Env} (he : e ≠ e') {sg : List (Obs R)}
    (hs : ∀ o ∈ sg, ∃ t, o = .fact (.prjLog h e t)) : prjLogged e' sg = [] := by
  rw [prjLogged, List.filterMap_eq_nil_iff]
  intro o ho
  obtain ⟨t, rfl⟩ := hs o ho
  simp [he]

theorem prjPar_says (h : HConfig) (env : Env) (bs : List Bool)
    (hp : Prog W PrjOp (Except Err Bool)) (cp : Prog W PrjOp (Option Err)) (s : Sys W R) :
    ∃ seg, (prjPar h env bs hp cp s).1.trace = s.trace ++ seg ∧
      ParSays h env hp cp s.w seg (prjPar h env bs hp cp s).2 := by
  induction bs generalizing hp cp s with
  | nil =>
    obtain ⟨sg, xs, g1, g2, g3, g4, g5, _⟩ := prjRun_says h (some env) hp s false
    unfold prjPar
    split
    · rename_i he
      rw [he] at g1 g2
      exact ⟨sg, g1, .inl ⟨xs, _, _, g2, g4, rfl⟩⟩
    · rename_i s1 r he
      rw [he] at g1 g2
      obtain ⟨sg2, ys, k1, k2, k3, k4, k5, _⟩ := prjRun_says h none cp s1 false
      have lh : prjLogged (some env) (sg ++ sg2) = prjSays xs := by
        rw [prjLogged_append, g4, k5 _ (by simp), List.append_nil]
      have lc : prjLogged none (sg ++ sg2) = prjSays ys := by
        rw [prjLogged_append, k4, g5 _ (by simp), List.nil_append]
      split <;> rename_i hc <;> rw [hc] at k1 k2
      · exact ⟨sg ++ sg2, by rw [show _ = _ from k1, show s1.trace = _ from g1, List.append_assoc],
          .inr ⟨ys, _, _, _, .other rfl k2, lc, rfl⟩⟩
      · exact ⟨sg ++ sg2, by rw [show _ = _ from k1, show s1.trace = _ from g1, List.append_assoc],
          ⟨xs, _, g2, lh⟩, ys, _, .other rfl k2, lc⟩
  | cons b bs ih =>
    have step1 : ∃ seg, (prjPar h env bs hp (prjStep h none cp s).1 (prjStep h none cp s).2).1.trace =
        s.trace ++ seg ∧ ParSays h env hp cp s.w seg
          (prjPar h env bs hp (prjStep h none cp s).1 (prjStep h none cp s).2).2 := by
      obtain ⟨sg, g1, g2, g3⟩ := prjStep_says h none cp s
      obtain ⟨seg, k1, k2⟩ := ih hp (prjStep h none cp s).1 (prjStep h none cp s).2
      have e0 : ∀ l, prjLogged (some env) seg = l → prjLogged (some env) (sg ++ seg) = l := by
        intro l hl
        rw [prjLogged_append, prjLogged_other (by simp) g2, List.nil_append, hl]
      refine ⟨sg ++ seg, by rw [k1, g1, List.append_assoc], ?_⟩
      generalize (prjPar h env bs hp (prjStep h none cp s).1 (prjStep h none cp s).2).2 = res at k2
      cases res with
      | ok x =>
        obtain ⟨⟨xs, w1, a, b⟩, ys, w2, c, d⟩ := k2
        obtain ⟨zs, z1, z2⟩ := g3 _ _ _ c
        exact ⟨⟨xs, w1, .other rfl a, e0 _ b⟩, zs, w2, z1, z2 _ d⟩
      | error v =>
        rcases k2 with ⟨xs, w1, u, a, b, c⟩ | ⟨ys, w1, u, d, a, b, c⟩
        · exact .inl ⟨xs, w1, u, .other rfl a, e0 _ b, c⟩
        · obtain ⟨zs, z1, z2⟩ := g3 _ _ _ a
          exact .inr ⟨zs, w1, u, d, z1, z2 _ b, c⟩
    have step2 : ∃ seg, (prjPar h env bs (prjStep h (some env) hp s).1 cp
          (prjStep h (some env) hp s).2).1.trace =
        s.trace ++ seg ∧ ParSays h env hp cp s.w seg
          (prjPar h env bs (prjStep h (some env) hp s).1 cp (prjStep h (some env) hp s).2).2 := by
      obtain ⟨sg, g1, g2, g3⟩ := prjStep_says h (some env) hp s
      obtain ⟨seg, k1, k2⟩ := ih (prjStep h (some env) hp s).1 cp (prjStep h (some env) hp s).2
      have e0 : ∀ l, prjLogged none seg = l → prjLogged none (sg ++ seg) = l := by
        intro l hl
        rw [prjLogged_append, prjLogged_other (by simp) g2, List.nil_append, hl]
      refine ⟨sg ++ seg, by rw [k1, g1, List.append_assoc], ?_⟩
      generalize (prjPar h env bs (prjStep h (some env) hp s).1 cp
        (prjStep h (some env) hp s).2).2 = res at k2
      cases res with
      | ok x =>
        obtain ⟨⟨xs, w1, a, b⟩, ys, w2, c, d⟩ := k2
        obtain ⟨zs, z1, z2⟩ := g3 _ _ _ a
        exact ⟨⟨zs, w1, z1, z2 _ b⟩, ys, w2, .other rfl c, e0 _ d⟩
      | error v =>
        rcases k2 with ⟨xs, w1, u, a, b, c⟩ | ⟨ys, w1, u, d, a, b, c⟩
        · obtain ⟨zs, z1, z2⟩ := g3 _ _ _ a
          exact .inl ⟨zs, w1, u, z1, z2 _ b, c⟩
        · exact .inr ⟨ys, w1, u, d, .other rfl a, e0 _ b, c⟩
    unfold prjPar
    split
    · exact ⟨[], by simp, .inr ⟨[], _, _, _, .panic _ s.w, rfl, rfl⟩⟩
    · exact ⟨[], by simp, .inl ⟨[], _, _, .panic _ s.w, rfl, rfl⟩⟩
    · split
      · exact step1
      · exact step2

theorem prjApply_says (A : App W R) (h : HConfig) (now : Time) (env : Env) (s s' : Sys W R)
    (res : Except PanicVal (Except Err Bool × Option Err)) (e : prjApply A h now env s = (s', res)) :
    (A.compactDuringHandling = true ∧ ∃ d, res = .error (.crash d)) ∨
    ∃ pre seg xs w' q, s'.trace = s.trace ++ pre ++ .call (.prjHandle h env.id [] [1] env.msg) :: seg ∧
      (∀ o ∈ pre, o.invokes = false) ∧
      Talk (fun _ => false) (!A.compactDuringHandling)
        (A.uc.prjHandle h env.id [] [1] env.msg env.createdAt) s.w xs w' q ∧
      prjLogged (some env) seg = prjSays xs ∧
      match res with
      | .ok (r, _) => q = .ok r
      | .error v => ∃ u, q = .error u ∧
          v = enrich h "ProjectionMessageHandler" "HandleEvent" env.msg u := by
  unfold prjApply at e
  split at e
  · rename_i hcd
    obtain ⟨seg, g1, g2⟩ := prjPar_says h env (A.uc.schedule s.w)
      (A.uc.prjHandle h env.id [] [1] env.msg env.createdAt) (A.uc.prjCompact h now)
      (((s.notify (.prjCompactBegun h)).emit (.call (.prjCompact h now))).emit
        (.call (.prjHandle h env.id [] [1] env.msg)))
    have hpre : ∀ o ∈ ([.fact (.prjCompactBegun h), .call (.prjCompact h now)] : List (Obs R)),
        o.invokes = false := by simp [Obs.invokes]
    split at e <;> rename_i hq <;> rw [hq] at g1 g2 <;> cases e
    · rcases g2 with ⟨xs, w1, u, a, b, c⟩ | ⟨ys, w1, u, d, a, b, c⟩
      · refine .inr ⟨_, seg, xs, w1, .error u, ?_, hpre, by rw [hcd]; exact a, b, u, rfl, c⟩
        rw [show s'.trace = _ from g1]; simp [Sys.notify, Sys.emit]
      · exact .inl ⟨hcd, d, by rw [c]⟩
    · rename_i s1 r ce
      obtain ⟨⟨xs, w1, a, b⟩, _⟩ := g2
      refine .inr ⟨_, seg ++ [.fact (.prjCompactCompleted h ce)], xs, w1, .ok r, ?_, hpre,
        by rw [hcd]; exact a, ?_, rfl⟩
      · simp only [Sys.notify, Sys.emit]
        rw [show s1.trace = _ from g1]; simp [Sys.notify, Sys.emit]
      · rw [prjLogged_append, b]; simp [prjLogged]
  · rename_i hcd
    have hcd : A.compactDuringHandling = false := by simpa using hcd
    obtain ⟨seg, xs, g1, g2, g3, g4, _⟩ := prjRun_says h (some env)
      (A.uc.prjHandle h env.id [] [1] env.msg env.createdAt)
      (s.emit (.call (.prjHandle h env.id [] [1] env.msg))) true
    split at e <;> rename_i hq <;> rw [hq] at g1 g2 <;> cases e
    · exact .inr ⟨[], seg, xs, _, _, by rw [show s'.trace = _ from g1]; simp [Sys.emit], by simp,
        by rw [hcd]; exact g2, g4, _, rfl, rfl⟩
    · exact .inr ⟨[], seg, xs, _, _, by rw [show s'.trace = _ from g1]; simp [Sys.emit], by simp,
        by rw [hcd]; exact g2, g4, rfl⟩

/-- **C88 (projections).**  When a projection handles an event, either its method is not called at
all, or what is logged for that event from the moment it is called is what the method asked to be
logged, and the handling ends as the method does, unless the application compacts projections
while they handle events and that compaction panics.  When the method succeeds, the outcome also
depends on the resource being closed and on that compaction. -/
theorem C88_projection (A : App W R) (h : HConfig) (ht : h.htype = .projection) (now : Time)
    (env : Env) (s s' : Sys W R) (res : HRes) (hs : ctlHandle A h now env s = (s', res)) :
    (∀ o ∈ during s s', o.invokes = false) ∨
    (A.compactDuringHandling = true ∧ ∃ d, res = .error (.crash d)) ∨
    ∃ pre seg w xs w' q,
      during s s' = pre ++ .call (.prjHandle h env.id [] [1] env.msg) :: seg ∧
      (∀ o ∈ pre, o.invokes = false) ∧
      Talk (fun _ => false) (!A.compactDuringHandling)
        (A.uc.prjHandle h env.id [] [1] env.msg env.createdAt) w xs w' q ∧
      prjLogged (some env) seg = prjSays xs ∧
      match q with
      | .error v =>
        res = .error (enrich h "ProjectionMessageHandler" "HandleEvent" env.msg v)
      | .ok (.error e) => res = .ok ([], some e)
      | .ok (.ok _) => True := by
  simp only [ctlHandle, ht, prjHandle] at hs
  split at hs
  · cases hs; simp [during]
  split at hs
  · cases hs; simp [during]
  split at hs
  · rename_i he; obtain ⟨rfl, _⟩ := user_eq he
    cases hs; left; simp [during, Sys.emit, Obs.invokes]
  · rename_i he; obtain ⟨rfl, _⟩ := user_eq he
    cases hs; left; simp [during, Sys.emit, Obs.invokes]
  · rename_i he; obtain ⟨rfl, _⟩ := user_eq he
    cases hs; left; simp [during, Sys.emit, Obs.invokes]
  rename_i s1 he
  have et : s1.trace = s.trace ++ [.call (.prjVersion h env.id)] := by
    obtain ⟨rfl, _⟩ := user_eq he; rfl
  right
  -- what follows the method
  have fin : ∀ (s2 : Sys W R) (r : Except Err Bool) (ce : Option Err),
      prjFinish A h env r ce s2 = (s', res) → ∃ sg, s'.trace = s2.trace ++ sg ∧
        prjLogged (some env) sg = [] ∧ ∀ e, r = .error e → res = .ok ([], some e) := by
    intro s2 r ce hf
    unfold prjFinish at hf
    split at hf
    · cases hf; exact ⟨[], by simp, rfl, fun e he => by cases he; rfl⟩
    · cases hf; exact ⟨[], by simp, rfl, nofun⟩
    · split at hf <;> rename_i he <;> obtain ⟨rfl, _⟩ := user_eq he <;> cases hf <;>
        exact ⟨[_], rfl, rfl, nofun⟩
  have hpre : ∀ pre : List (Obs R), (∀ o ∈ pre, o.invokes = false) →
      ∀ o ∈ .call (.prjVersion h env.id) :: pre, o.invokes = false := by
    intro pre hp o ho
    rcases List.mem_cons.1 ho with rfl | ho
    · rfl
    · exact hp o ho
  split at hs
  · rename_i s2 v hq
    cases hs
    rcases prjApply_says A h now env s1 _ _ hq with ⟨a, d, b⟩ | ⟨pre, seg, xs, w', q, a, b, c, d, e⟩
    · exact .inl ⟨a, d, by rw [Except.error.inj b]⟩
    · obtain ⟨u, rfl, rfl⟩ := e
      refine .inr ⟨_, seg, _, xs, w', .error u, during_of ?_, hpre pre b, c, d, rfl⟩
      rw [a, et]; simp
  · rename_i s2 r ce hq
    rcases prjApply_says A h now env s1 _ _ hq with ⟨_, d, b⟩ | ⟨pre, seg, xs, w', q, a, b, c, d, e⟩
    · cases b
    · cases e
      obtain ⟨sg, f1, f2, f3⟩ := fin _ _ _ hs
      refine .inr ⟨_, seg ++ sg, _, xs, w', .ok r, during_of ?_, hpre pre b, c, ?_, ?_⟩
      · rw [f1, a, et]; simp
      · rw [prjLogged_append, f2, d, List.append_nil]
      · cases r with
        | error e => exact f3 e rfl
        | ok b => trivial

/-! ## All histories -/

/-- What was observed while `h` handled `env`, which completed with error `err`, is explained by
the method of `h` that was called, if one was. -/
def AsAsked (A : App W R) (h : HConfig) (env : Env) (seg : List (Obs R)) (err : Option Err) :
    Prop :=
  (∀ o ∈ seg, o.invokes = false) ∨
  match h.htype with
  | .aggregate => ∃ pre ex id r post w xs w',
      seg = pre ++ .fact (if ex then .aggLoaded h id env else .aggNotFound h id env) ::
        .call (.aggHandle h id r env.msg) :: post ∧ (∀ o ∈ pre, o.invokes = false) ∧
      Talk AggOp.calls true (A.uc.aggHandle h id r env.msg) w xs w' (.ok ()) ∧
      Reports post (aggSays h ex false xs) ∧ (∀ x ∈ xs, AggAnswer A.uc h env x) ∧ err = none
  | .process => ∃ pre id r t post w xs w',
      seg = pre ++ .call (.procHandle h id r env.msg t) :: post ∧ (∀ o ∈ pre, o.invokes = false) ∧
      (t = if env.msg.type.kind = .timeout then env.scheduledFor else env.createdAt) ∧
      Talk (fun _ => false) true (A.uc.procHandle h id r env.msg t) w xs w' (.ok err) ∧
      Reports post (procSays h false xs) ∧ ∀ x ∈ xs, ProcAnswer h env x
  | .integration => ∃ post w xs w',
      seg = .call (.intHandle h env.msg) :: post ∧
      Talk (fun _ => false) true (A.uc.intHandle h env.msg) w xs w' (.ok err) ∧
      Reports post (intSays h xs) ∧ ∀ x ∈ xs, IntAnswer h env x
  | .projection => ∃ pre post w xs w' r,
      seg = pre ++ .call (.prjHandle h env.id [] [1] env.msg) :: post ∧ (∀ o ∈ pre, o.invokes = false) ∧
      Talk (fun _ => false) (!A.compactDuringHandling)
        (A.uc.prjHandle h env.id [] [1] env.msg env.createdAt) w xs w' (.ok r) ∧
      prjLogged (some env) post = prjSays xs ∧ ∀ e, r = .error e → err = some e

theorem Handling.asAsked {A : App W R} {h : HConfig} {now : Time} {env : Env} {s s' : Sys W R}
    {envs : List Env} {e : Option Err} {seg : List (Obs R)}
    (hh : Handling A h now env s s' (.ok (envs, e)) seg) : AsAsked A h env seg e := by
  have hd : during s s' = seg := during_of hh.trace
  unfold AsAsked
  cases ht : h.htype with
  | aggregate =>
    rcases C88_aggregate A h ht now env s s' _ hh.run with h1 |
      ⟨pre, ex, id, r, post, w, xs, q, h1, h2, h3, h4, h5, h6⟩ <;> rw [hd] at h1
    · exact .inl h1
    · cases q with
      | error v => cases h6
      | ok u => obtain ⟨_, h6⟩ := h6; cases h6; exact .inr ⟨pre, ex, id, r, post, w, xs, _, h1, h2, h3, h4, h5, rfl⟩
  | process =>
    rcases C88_process A h ht now env s s' _ hh.run with h1 |
      ⟨pre, ex, id, r, t, post, w, xs, q, h1, h2, h3, _, _, h4, h5, h6, h7, _⟩ <;> rw [hd] at h1
    · exact .inl h1
    · cases q with
      | error v => cases h7
      | ok u => obtain ⟨_, h7⟩ := h7; cases h7; exact .inr ⟨pre, id, r, t, post, w, xs, _, h1, h2, h3, h4, h5, h6⟩
  | integration =>
    rcases C88_integration A h ht now env s s' _ hh.run with h1 |
      ⟨post, xs, q, h1, h2, h3, h4, h5⟩ <;> rw [hd] at h1
    · exact .inl h1
    · cases q with
      | error v => cases h5
      | ok u => obtain ⟨_, h5⟩ := h5; cases h5; exact .inr ⟨post, _, xs, _, h1, h2, h3, h4⟩
  | projection =>
    rcases C88_projection A h ht now env s s' _ hh.run with h1 | ⟨_, d, h1⟩ |
      ⟨pre, post, w, xs, w', q, h1, h2, h3, h4, h5⟩
    · rw [hd] at h1; exact .inl h1
    · cases h1
    · rw [hd] at h1
      cases q with
      | error v => cases h5
      | ok r =>
        refine .inr ⟨pre, post, w, xs, w', r, h1, h2, h3, h4, ?_⟩
        rintro e rfl
        cases h5; rfl

theorem asAsked_refine (A : App W R) : Refine A
    (fun L _ => ∀ now h env seg err, .handled now h env seg err ∈ L → AsAsked A h env seg err)
    (fun _ _ _ => True) where
  frame _ _ _ _ h := h
  init _ := by simp
  reset _ _ _ := by simp
  ok L h now env s s' envs e seg _ hp hh := by
    intro now' h' env' seg' err' hm
    rcases List.mem_append.1 hm with hm | hm
    · exact hp _ _ _ _ _ hm
    · cases List.mem_singleton.1 hm; exact hh.asAsked
  panic _ _ _ _ _ _ _ _ _ hp _ := hp
  tick L h now s s' res seg _ _ hp _ := by
    intro now' h' env' seg' err' hm
    rcases List.mem_append.1 hm with hm | hm
    · exact hp _ _ _ _ _ hm
    · cases List.mem_singleton.1 hm
  obs _ _ _ _ _ _ _ _ _ _ _ _ _ _ _ := trivial
  tickObs _ _ _ _ _ _ := trivial
  plain _ _ _ _ := trivial
  resetter _ _ _ := trivial
  resetObs _ _ := trivial

/-- **C88 (histories).**  Every handling that was completed in any history is explained by what
the handler's method asked for. -/
theorem C88_history {A : App W R} (wf : A.WF) {s : Sys W R} (hs : Reach A s) (now : Time)
    (h : HConfig) (env : Env) (seg : List (Obs R)) (err : Option Err)
    (hm : .handled now h env seg err ∈ happenings s.trace) : AsAsked A h env seg err :=
  ((asAsked_refine A).reach wf hs).1 now h env seg err hm

namespace Demo

/-- Make requests one after the other, whatever the answers. -/
def stubborn {O α : Type} (a : α) : List O → Prog Nat O α
  | [] => .ret a
  | o :: os => .op o fun _ => stubborn a os

/-- Handlers that change their minds, ask for what they must not, and carry on. -/
def chatty : App Nat (List String) :=
  { app with uc := { uc with
      aggHandle := fun _ _ _ m => stubborn () [.record ⟨evtE, m.body, none⟩, .destroy, .log "gone",
        .record ⟨cmdD, "not an event", none⟩, .record ⟨evtE, "invalid", some "bad"⟩,
        .record ⟨evtE, "again", none⟩]
      procHandle := fun _ _ r m _ => stubborn none [.setRoot (r ++ [m.body]), .end_, .end_,
        .execute ⟨evtE, "not a command", none⟩, .schedule ⟨tmoT, m.body, none⟩ 10, .log "so far",
        .execute ⟨cmdD, m.body, none⟩]
      intHandle := fun _ m => .get fun w => .set (w + 5) (stubborn (some "oops")
        [.record ⟨evtE, "undeclared", none⟩, .log m.body, .record ⟨evtF, m.body, none⟩]) } }

/-- What the facts reported in one handling say was done. -/
def saidBy (h : HConfig) (env : Env) (s : Sys Nat (List String)) : List Said :=
  (factsIn (during s (ctlHandle chatty h 2 env s).1)).filterMap Fact.said

set_option maxRecDepth 100000 in
/-- One handling by each, with the facts their requests call for. -/
example :
    saidBy agg (Env.root 1 (msgC "x") 2) (Sys.init 0) =
      [.created, .event ⟨evtE, "x", none⟩, .destroyed, .log "gone", .reverted,
       .event ⟨evtE, "again", none⟩] ∧
    saidBy proc (Env.root 1 ⟨evtE, "x", none⟩ 2) (Sys.init 0) =
      [.ended, .reverted, .timeout ⟨tmoT, "x", none⟩ 10, .log "so far", .command ⟨cmdD, "x", none⟩] ∧
    saidBy int (Env.root 1 ⟨cmdD, "x", none⟩ 2) (Sys.init 0) =
      [.log "x", .event ⟨evtF, "x", none⟩] ∧
    (ctlHandle chatty int 2 (Env.root 1 ⟨cmdD, "x", none⟩ 2) (Sys.init 0)).1.w = 5 ∧
    ((ctlHandle chatty proc 2 (Env.root 1 ⟨evtE, "x", none⟩ 2) (Sys.init 0)).1.proc "proc").inst "p" =
      some ["x"] := by
  decide +kernel

set_option maxRecDepth 100000 in
/-- Thirteen of the handlings of the demo application called their handler's method, one (of a
timeout of an instance that has ended) did not, and there were four controller ticks. -/
example : app.WF ∧ Reach app final ∧
    (happenings final.trace).length = 18 ∧
    (happenings final.trace).countP (fun x => match x with
      | .handled _ _ _ seg _ => seg.any Obs.invokes
      | .ticked .. => false) = 13 ∧
    (happenings final.trace).countP (fun x => match x with
      | .handled _ _ _ seg _ => !seg.any Obs.invokes
      | .ticked .. => false) = 1 := by
  refine ⟨app_wf, final_reach, ?_⟩
  decide +kernel

end Demo

end Verif
