import Verif.User

/-!
# Vocabulary for specifications

Small functions on traces (lists of observations, oldest first).  They do not
mention the model of the engine; the properties are stated with them.
-/

namespace Verif

variable {R : Type}

/-- The message a fact announces as new: the message passed to `Dispatch()`, an
event recorded, a command executed or a timeout scheduled. -/
def Fact.created : Fact → Option Env
  | .dispatchCycleBegun e _ => some e
  | .aggEvent _ _ _ e => some e
  | .procCommand _ _ _ e => some e
  | .procTimeout _ _ _ e => some e
  | .intEvent _ _ e => some e
  | _ => none

/-- The message an observation announces as new. -/
def Obs.created : Obs R → Option Env
  | .fact f => f.created
  | _ => none

/-- All messages announced in a trace, in order. -/
def createdIn (t : List (Obs R)) : List Env := t.filterMap Obs.created

/-- The message produced by a handler that a fact announces, with the handler
and the message being handled according to the fact. -/
def Fact.produced : Fact → Option (HConfig × Env × Env)
  | .aggEvent h _ env e => some (h, env, e)
  | .procCommand h _ env e => some (h, env, e)
  | .procTimeout h _ env e => some (h, env, e)
  | .intEvent h env e => some (h, env, e)
  | _ => none

/-- Messages whose dispatch was begun, in order. -/
def dispatchedIn (t : List (Obs R)) : List Env :=
  t.filterMap fun
    | .fact (.dispatchBegun e) => some e
    | _ => none

/-- The part of a trace after the last reset. -/
def sinceReset (t : List (Obs R)) : List (Obs R) :=
  t.foldl (fun acc o => match o with | .reset => [] | o => acc ++ [o]) []

/-- Which handler is handling which message at the end of a trace, judging by the
facts. -/
def handlingNow (t : List (Obs R)) : Option (HConfig × Env) :=
  t.foldl (fun cur o => match o with
    | .fact (.handlingBegun h e) => some (h, e)
    | .fact (.handlingCompleted _ _ _) => none
    | .fact (.dispatchCycleBegun _ _) => none
    | .fact (.tickCycleBegun _) => none
    | _ => cur) none

/-- The engine time of the operation that was begun last. -/
def timeNow (t : List (Obs R)) : Option Time :=
  t.foldl (fun cur o => match o with
    | .fact (.dispatchCycleBegun _ c) => some c.now
    | .fact (.tickCycleBegun c) => some c.now
    | _ => cur) none

/-- The message being dispatched, if any. -/
def dispatchingNow (t : List (Obs R)) : Option Env :=
  t.foldl (fun cur o => match o with
    | .fact (.dispatchBegun e) => some e
    | .fact (.dispatchCompleted _ _) => none
    | .fact (.dispatchCycleBegun _ _) => none
    | .fact (.tickCycleBegun _) => none
    | _ => cur) none

/-- `P` relates every observation of the trace to what came before it. -/
def Always (P : List (Obs R) → Obs R → Prop) (t : List (Obs R)) : Prop :=
  ∀ pre o post, t = pre ++ o :: post → P pre o

/-- Commands executed by a process in (a part of) a trace. -/
def commandsIn (t : List (Obs R)) : List Env :=
  t.filterMap fun
    | .fact (.procCommand _ _ _ e) => some e
    | _ => none

/-- Timeouts scheduled by a process in (a part of) a trace. -/
def timeoutsIn (t : List (Obs R)) : List Env :=
  t.filterMap fun
    | .fact (.procTimeout _ _ _ e) => some e
    | _ => none

/-- Events recorded by an aggregate in (a part of) a trace. -/
def aggEventsIn (t : List (Obs R)) : List Env :=
  t.filterMap fun
    | .fact (.aggEvent _ _ _ e) => some e
    | _ => none

/-- Events recorded by an integration in (a part of) a trace. -/
def intEventsIn (t : List (Obs R)) : List Env :=
  t.filterMap fun
    | .fact (.intEvent _ _ e) => some e
    | _ => none

/-- Is the process instance ended after these facts, if it was `b` before? -/
def endedAfter (b : Bool) (t : List (Obs R)) : Bool :=
  t.foldl (fun b o => match o with
    | .fact (.procEnded _ _ _) => true
    | .fact (.procReverted _ _ _) => false
    | _ => b) b

/-- Does the aggregate instance exist after these facts, if `b` before? -/
def aggExistsAfter (b : Bool) (t : List (Obs R)) : Bool :=
  t.foldl (fun b o => match o with
    | .fact (.aggLoaded _ _ _) => true
    | .fact (.aggNotFound _ _ _) => false
    | .fact (.aggCreated _ _ _) => true
    | .fact (.aggReverted _ _ _) => true
    | .fact (.aggDestroyed _ _ _) => false
    | _ => b) b

/-- Is the aggregate instance destroyed within the current handling, if `b` before? -/
def destroyedAfter (b : Bool) (t : List (Obs R)) : Bool :=
  t.foldl (fun b o => match o with
    | .fact (.aggLoaded _ _ _) => false
    | .fact (.aggNotFound _ _ _) => false
    | .fact (.aggCreated _ _ _) => false
    | .fact (.aggReverted _ _ _) => false
    | .fact (.aggDestroyed _ _ _) => true
    | _ => b) b

/-- The aggregate instance a handling deals with. -/
def aggInstIn (t : List (Obs R)) : Option String :=
  t.findSome? fun
    | .fact (.aggLoaded _ id _) => some id
    | .fact (.aggNotFound _ id _) => some id
    | _ => none

/-- The process instance a handling deals with. -/
def procInstIn (t : List (Obs R)) : Option String :=
  t.findSome? fun
    | .fact (.procLoaded _ id _) => some id
    | .fact (.procNotFound _ id _) => some id
    | _ => none

/-- The messages a handling by `h` hands to the engine for dispatch, given what
was observed during the handling and its error.
* aggregates and integrations: the events recorded, even if there was an error;
* processes: nothing on error; otherwise the commands, followed (unless the
  instance was left ended) by the timeouts that are already due;
* projections: nothing. -/
def emission (h : HConfig) (now : Time) (seg : List (Obs R)) (err : Option Err) : List Env :=
  match h.htype with
  | .aggregate => aggEventsIn seg
  | .integration => intEventsIn seg
  | .projection => []
  | .process =>
    match err with
    | some _ => []
    | none =>
      commandsIn seg ++
        if endedAfter false seg then []
        else (timeoutsIn seg).filter (fun e => decide (e.scheduledFor ≤ now))

/-! ## Replaying events -/

/-- `r` is what becomes of root `r0` when `ApplyEvent()` is called with the given
messages in order (in whatever worlds), none of the calls panicking. -/
inductive Replays {W : Type} (uc : UserCode W R) (h : HConfig) : R → List Message → R → Prop
  | nil (r : R) : Replays uc h r [] r
  | cons {r r' r'' : R} {m : Message} {ms : List Message} (w : W)
      (ha : (uc.aggApply h r m w).2 = (r', none)) (hr : Replays uc h r' ms r'') :
      Replays uc h r (m :: ms) r''

/-- `r` is a root `New()` may return. -/
def NewRoot {W : Type} (uc : UserCode W R) (h : HConfig) (r : R) : Prop :=
  ∃ w, (uc.aggNew h w).2 = .ok (some r)

/-- The messages with which `ApplyEvent()` was called, in order. -/
def appliedIn (t : List (Obs R)) : List Message :=
  t.filterMap fun
    | .call (.aggApply _ _ m) => some m
    | _ => none

/-! ## Completed handlings -/

/-- What a specification of engine-held state needs to know about the past: the
completed handlings, each with everything observed during it and its error, and
the ticks of controllers. -/
inductive Happening (R : Type) where
  | handled (now : Time) (h : HConfig) (env : Env) (seg : List (Obs R)) (err : Option Err)
  | ticked (now : Time) (h : HConfig)
  deriving DecidableEq

/-- State of the scan that extracts happenings from a trace. -/
structure Scan (R : Type) where
  done : List (Happening R)
  /-- the handling in progress, with what was observed so far -/
  cur : Option (HConfig × Env × List (Obs R))
  time : Time

/-- One step of the scan.  A handling that was begun but never completed (because
user code panicked) is abandoned when the next operation begins. -/
def Scan.step (a : Scan R) (o : Obs R) : Scan R :=
  match o with
  | .reset => ⟨[], none, a.time⟩
  | .fact (.dispatchCycleBegun _ c) => ⟨a.done, none, c.now⟩
  | .fact (.tickCycleBegun c) => ⟨a.done, none, c.now⟩
  | .fact (.handlingBegun h e) => { a with cur := some (h, e, []) }
  | .fact (.handlingCompleted _ _ err) =>
    match a.cur with
    | some (h, e, seg) => ⟨a.done ++ [.handled a.time h e seg err], none, a.time⟩
    | none => a
  | .fact (.tickBegun h) => { a with done := a.done ++ [.ticked a.time h] }
  | o =>
    match a.cur with
    | some (h, e, seg) => { a with cur := some (h, e, seg ++ [o]) }
    | none => a

def scan (t : List (Obs R)) : Scan R := t.foldl Scan.step ⟨[], none, 0⟩

/-- The happenings since the last reset. -/
def happenings (t : List (Obs R)) : List (Happening R) := (scan t).done

/-- What was observed so far in the handling in progress. -/
def curSeg (t : List (Obs R)) : List (Obs R) :=
  match (scan t).cur with
  | some (_, _, seg) => seg
  | none => []

/-! ## Aggregates -/

/-- This happening is a completed command handling of aggregate instance `id` of the
handler called `name`. -/
def Happening.isAgg (name id : String) : Happening R → Prop
  | .handled _ h _ seg _ => h.htype = .aggregate ∧ h.name = name ∧ aggInstIn seg = some id
  | .ticked _ _ => False

/-- What was observed during a handling. -/
def Happening.seg : Happening R → List (Obs R)
  | .handled _ _ _ seg _ => seg
  | .ticked _ _ => []

instance (name id : String) (x : Happening R) : Decidable (x.isAgg name id) := by
  cases x <;> unfold Happening.isAgg <;> infer_instance

/-- The history of an aggregate instance, given what happened: the events recorded in
its completed handlings; `none` (nothing, not even an empty history) if the instance
never existed or the last completed handling left it destroyed. -/
def aggHistory (name id : String) (L : List (Happening R)) : Option (List Env) :=
  L.foldl (fun cur x =>
    if x.isAgg name id then
      if aggExistsAfter false x.seg then some (cur.getD [] ++ aggEventsIn x.seg) else none
    else cur) none

/-- `ApplyEvent()` never panics and `New()` never returns nil (nor panics). -/
structure UserCode.TotalRoots {W : Type} (uc : UserCode W R) : Prop where
  apply : ∀ h r m w, (uc.aggApply h r m w).2.2 = none
  new : ∀ h w, ∃ r, (uc.aggNew h w).2 = .ok (some r)

/-- Roots are values: `New()` always returns the same root and `ApplyEvent()` is a
function of root and event. -/
structure UserCode.PureRoots {W : Type} (uc : UserCode W R) (r0 : HConfig → R)
    (ap : HConfig → R → Message → R) : Prop where
  apply : ∀ h r m w, (uc.aggApply h r m w).2 = (ap h r m, none)
  new : ∀ h w, (uc.aggNew h w).2 = .ok (some (r0 h))

/-- The program does not perform any of these operations, whatever it learns. -/
def Prog.Avoids {W O α : Type} (bad : O → Prop) : Prog W O α → Prop
  | .ret _ => True
  | .panic _ => True
  | .op o k => ¬ bad o ∧ ∀ p, (k p).Avoids bad
  | .get k => ∀ w, (k w).Avoids bad
  | .set _ k => k.Avoids bad

/-- The handler changes the root itself, not by recording an event. -/
def AggOp.direct : AggOp R → Prop
  | .setRoot _ => True
  | _ => False

/-- Aggregates change their roots by recording events only. -/
def UserCode.EventsOnly {W : Type} (uc : UserCode W R) : Prop :=
  ∀ h id r m, (uc.aggHandle h id r m).Avoids AggOp.direct

/-- The root the handler has at hand after these observations, if it was `b` before. -/
def liveRoot (r0 : HConfig → R) (ap : HConfig → R → Message → R) (b : Option R)
    (t : List (Obs R)) : Option R :=
  t.foldl (fun b o => match o with
    | .call (.aggHandle _ _ r _) => some r
    | .call (.aggApply h r m) => some (ap h r m)
    | .fact (.aggDestroyed h _ _) => some (r0 h)
    | _ => b) b

/-- No destruction was reverted in this part of a trace. -/
def NoRevert (t : List (Obs R)) : Prop := ∀ h id env, .fact (.aggReverted h id env) ∉ t

/-! ## Processes -/

/-- This happening is a handling of process instance `id` of the handler called `name` that
completed without error. -/
def Happening.isProc (name id : String) : Happening R → Prop
  | .handled _ h _ seg err =>
    h.htype = .process ∧ h.name = name ∧ procInstIn seg = some id ∧ err = none
  | .ticked _ _ => False

instance (name id : String) (x : Happening R) : Decidable (x.isProc name id) := by
  cases x <;> unfold Happening.isProc <;> infer_instance

/-- Does the process instance exist, given what happened?  The last handling that completed
without error decides. -/
def procLive (name id : String) (L : List (Happening R)) : Bool :=
  L.foldl (fun cur x => if x.isProc name id then !endedAfter false x.seg else cur) false

/-- The message was produced by instance `id` (of some handler). -/
def Env.byInstance (e : Env) (id : String) : Bool :=
  match e.origin with
  | some o => decide (o.instanceID = id)
  | none => false

/-- The timeouts scheduled for after the engine time. -/
def futureIn (now : Time) (seg : List (Obs R)) : List Env :=
  (timeoutsIn seg).filter (fun e => decide (now < e.scheduledFor))

/-- How a happening changes the pending timeouts of the process handler called `name`:
a handling that completes without error removes those of the instance if it leaves it ended,
and adds those scheduled for later otherwise; a tick removes those that are due. -/
def Happening.pend (name : String) (cur : List Env) : Happening R → List Env
  | .handled now h _ seg err =>
    if h.htype = .process ∧ h.name = name ∧ err = none then
      match procInstIn seg with
      | none => cur
      | some id =>
        if endedAfter false seg then cur.filter (fun e => !e.byInstance id)
        else cur ++ futureIn now seg
    else cur
  | .ticked now h =>
    if h.htype = .process ∧ h.name = name then
      cur.filter (fun e => decide (now < e.scheduledFor))
    else cur

/-- The pending timeouts of the process handler called `name`, given what happened. -/
def pendingAfter (name : String) (L : List (Happening R)) : List Env :=
  L.foldl (fun cur x => x.pend name cur) []

/-! ## Operations -/

/-- The handler whose user code a call goes to. -/
def Call.handler : Call R → Option HConfig
  | .aggRoute h _ | .aggNew h | .aggApply h _ _ | .aggHandle h _ _ _ => some h
  | .procRoute h _ | .procNew h | .procHandle h _ _ _ _ => some h
  | .intHandle h _ => some h
  | .prjVersion h _ | .prjHandle h .. | .prjClose h _ | .prjCompact h _ => some h
  | .resetter _ => none

/-- The timeouts a happening leaves pending: those scheduled for later in a process handling that
completes without error and does not leave the instance ended. -/
def Happening.keeps : Happening R → List Env
  | .handled now h _ seg err =>
    if h.htype = .process ∧ err = none ∧ endedAfter false seg = false then futureIn now seg else []
  | .ticked _ _ => []

/-- What a happening hands to the engine for dispatch. -/
def Happening.emits : Happening R → List Env
  | .handled now h _ seg err => emission h now seg err
  | .ticked _ _ => []

/-- The engine time of a happening. -/
def Happening.time : Happening R → Time
  | .handled now _ _ _ _ => now
  | .ticked now _ => now

/-- The errors of handlers (in handlings and in ticks), in order of occurrence, each tagged
with the handler's name and type. -/
def errorsIn (t : List (Obs R)) : List EngErr :=
  t.filterMap fun
    | .fact (.handlingCompleted h _ (some e)) => some (.handler h.name h.htype e)
    | .fact (.tickCompleted h (some e)) => some (.handler h.name h.htype e)
    | _ => none

/-- The offers of messages to handlers, in order; an offer is a handling or a skip. -/
def offersIn (t : List (Obs R)) : List (Env × HConfig) :=
  t.filterMap fun
    | .fact (.handlingBegun h env) => some (env, h)
    | .fact (.handlingSkipped h env _) => some (env, h)
    | _ => none

/-- The handlers a message has to be offered to: for a timeout the handler that scheduled it,
otherwise those that consume its type, in registration order. -/
def consumers (cfgs : List HConfig) (e : Env) : List HConfig :=
  match e.msg.type.kind, e.origin with
  | .timeout, some o => [o.handler]
  | .timeout, none => []
  | _, _ => cfgs.filter (fun h => decide (e.msg.type ∈ h.consumes))

/-- What is open at a point of a trace. -/
inductive Frame where
  | cycle (env : Env)
  | tickCycle
  | message (env : Env)
  | handling (h : HConfig) (env : Env)
  | ticking (h : HConfig)
  deriving DecidableEq

/-- The handler and message a fact notified in the course of a handling is about. -/
def Fact.about : Fact → Option (HConfig × Env)
  | .aggLoaded h _ e | .aggNotFound h _ e | .aggCreated h _ e | .aggDestroyed h _ e
  | .aggReverted h _ e | .aggEvent h _ e _ | .aggLog h _ e _ => some (h, e)
  | .procLoaded h _ e | .procEventIgnored h e | .procTimeoutIgnored h _ e | .procNotFound h _ e
  | .procBegun h _ e | .procEnded h _ e | .procReverted h _ e | .procCommand h _ e _
  | .procTimeout h _ e _ | .procLog h _ e _ => some (h, e)
  | .intEvent h e _ | .intLog h e _ => some (h, e)
  | .prjLog h (some e) _ => some (h, e)
  | _ => none

/-- Is this handler handling a message or being ticked? -/
def Frame.runs (h : HConfig) : Frame → Bool
  | .handling h' _ => decide (h' = h)
  | .ticking h' => decide (h' = h)
  | _ => false

/-- Is an operation, and nothing inside it, open? -/
def Frame.isCycle : List Frame → Bool
  | [.cycle _] => true
  | [.tickCycle] => true
  | _ => false

/-- Close the innermost frame, which must be `f`. -/
def Frame.close (f : Frame) : List Frame → Option (List Frame)
  | f' :: st => if f' = f then some st else none
  | [] => none

/-- The effect of one observation on what is open (innermost first), or `none` if it must not
occur at that point. -/
def bracketStep (st : List Frame) : Obs R → Option (List Frame)
  | .reset => if st = [] then some [] else none
  | .call c =>
    match c.handler with
    | some h => if st.head?.any (Frame.runs h) then some st else none
    | none => if st = [] then some [] else none
  | .fact f =>
    match f with
    | .dispatchCycleBegun e _ => if st = [] then some [.cycle e] else none
    | .dispatchCycleCompleted e _ _ => if st = [.cycle e] then some [] else none
    | .tickCycleBegun _ => if st = [] then some [.tickCycle] else none
    | .tickCycleCompleted _ _ => if st = [.tickCycle] then some [] else none
    | .dispatchBegun e => if Frame.isCycle st then some (.message e :: st) else none
    | .dispatchCompleted e _ => (Frame.message e).close st
    | .handlingBegun h e =>
      if st.head? = some (.message e) then some (.handling h e :: st) else none
    | .handlingSkipped _ e _ => if st.head? = some (.message e) then some st else none
    | .handlingCompleted h e _ => (Frame.handling h e).close st
    | .tickBegun h => if st = [.tickCycle] then some (.ticking h :: st) else none
    | .tickSkipped _ _ => if st = [.tickCycle] then some st else none
    | .tickCompleted h _ => (Frame.ticking h).close st
    | .prjCompactBegun h => if st.head?.any (Frame.runs h) then some st else none
    | .prjCompactCompleted h _ => if st.head?.any (Frame.runs h) then some st else none
    | .prjLog h none _ => if st.head?.any (Frame.runs h) then some st else none
    | f =>
      match f.about with
      | some (h, e) => if st.head? = some (.handling h e) then some st else none
      | none => none

/-- Run the bracket checker over a trace. -/
def bracketRun : List Frame → List (Obs R) → Option (List Frame)
  | st, [] => some st
  | st, o :: t =>
    match bracketStep st o with
    | none => none
    | some st => bracketRun st t

theorem bracketRun_append (st : List Frame) (a b : List (Obs R)) :
    bracketRun st (a ++ b) = (bracketRun st a).bind (fun st => bracketRun st b) := by
  induction a generalizing st with
  | nil => rfl
  | cons o a ih =>
    simp only [List.cons_append, bracketRun]
    cases bracketStep st o with
    | none => rfl
    | some st => exact ih st

theorem scan_snoc (t : List (Obs R)) (o : Obs R) : scan (t ++ [o]) = (scan t).step o := by
  simp [scan]

section lemmas

@[simp] theorem createdIn_append (a b : List (Obs R)) :
    createdIn (a ++ b) = createdIn a ++ createdIn b := by simp [createdIn]
@[simp] theorem dispatchedIn_append (a b : List (Obs R)) :
    dispatchedIn (a ++ b) = dispatchedIn a ++ dispatchedIn b := by simp [dispatchedIn]
@[simp] theorem commandsIn_append (a b : List (Obs R)) :
    commandsIn (a ++ b) = commandsIn a ++ commandsIn b := by simp [commandsIn]
@[simp] theorem timeoutsIn_append (a b : List (Obs R)) :
    timeoutsIn (a ++ b) = timeoutsIn a ++ timeoutsIn b := by simp [timeoutsIn]
@[simp] theorem aggEventsIn_append (a b : List (Obs R)) :
    aggEventsIn (a ++ b) = aggEventsIn a ++ aggEventsIn b := by simp [aggEventsIn]
@[simp] theorem intEventsIn_append (a b : List (Obs R)) :
    intEventsIn (a ++ b) = intEventsIn a ++ intEventsIn b := by simp [intEventsIn]
@[simp] theorem endedAfter_append (b : Bool) (x y : List (Obs R)) :
    endedAfter b (x ++ y) = endedAfter (endedAfter b x) y := by simp [endedAfter]
@[simp] theorem aggExistsAfter_append (b : Bool) (x y : List (Obs R)) :
    aggExistsAfter b (x ++ y) = aggExistsAfter (aggExistsAfter b x) y := by simp [aggExistsAfter]

@[simp] theorem destroyedAfter_append (b : Bool) (x y : List (Obs R)) :
    destroyedAfter b (x ++ y) = destroyedAfter (destroyedAfter b x) y := by simp [destroyedAfter]

theorem sinceReset_snoc (t : List (Obs R)) (o : Obs R) (h : o ≠ .reset) :
    sinceReset (t ++ [o]) = sinceReset t ++ [o] := by
  cases o <;> simp_all [sinceReset]

@[simp] theorem sinceReset_reset (t : List (Obs R)) :
    sinceReset (t ++ [.reset]) = [] := by simp [sinceReset]

theorem sinceReset_append (t u : List (Obs R)) (h : ∀ o ∈ u, o ≠ .reset) :
    sinceReset (t ++ u) = sinceReset t ++ u := by
  induction u generalizing t with
  | nil => simp
  | cons o u ih =>
    have e : t ++ o :: u = (t ++ [o]) ++ u := by simp
    rw [e, ih _ (fun x hx => h x (by simp [hx])), sinceReset_snoc _ _ (h o (by simp)),
      List.append_assoc, List.singleton_append]

@[simp] theorem always_nil (P : List (Obs R) → Obs R → Prop) : Always P [] := by
  intro pre o post h; simp at h

theorem always_snoc (P : List (Obs R) → Obs R → Prop) (t : List (Obs R)) (o : Obs R) :
    Always P (t ++ [o]) ↔ Always P t ∧ P t o := by
  constructor
  · intro h
    refine ⟨fun pre x post e => h pre x (post ++ [o]) (by simp [e]), h t o [] rfl⟩
  · rintro ⟨h1, h2⟩ pre x post e
    rcases List.eq_nil_or_concat post with rfl | ⟨post, y, rfl⟩
    · have := List.append_inj' e (by simp)
      simp only [List.cons.injEq, and_true] at this
      rw [← this.1, ← this.2]; exact h2
    · have e' : t ++ [o] = (pre ++ x :: post) ++ [y] := by simpa using e
      have := List.append_inj' e' rfl
      exact h1 pre x post this.1

theorem always_append (X : List (Obs R) → Obs R → Prop) (t u : List (Obs R)) :
    Always X (t ++ u) ↔ Always X t ∧ ∀ a o b, u = a ++ o :: b → X (t ++ a) o := by
  constructor
  · intro h
    refine ⟨fun pre o post e => h pre o (post ++ u) (by simp [e]), ?_⟩
    rintro a o b rfl
    exact h (t ++ a) o b (by simp)
  · rintro ⟨h1, h2⟩ pre o post e
    rcases List.append_eq_append_iff.1 e with ⟨a', ha, hb⟩ | ⟨c', ha, hb⟩
    · rw [ha]; exact h2 a' o post hb
    · cases c' with
      | nil =>
        simp only [List.append_nil] at ha
        simp only [List.nil_append] at hb
        rw [← ha]
        have := h2 [] o post hb.symm
        simpa using this
      | cons x c =>
        simp only [List.cons_append, List.cons.injEq] at hb
        exact h1 pre o c (by rw [ha, hb.1])

theorem always_single (X : List (Obs R) → Obs R → Prop) (o : Obs R) :
    Always X [o] ↔ X [] o := by
  have := always_snoc X [] o
  simpa using this

end lemmas

/-! ## Refusals -/

/-- The description `d` of the refusal to produce `m` as a message of kind `k` tells which type of
message was at fault.  If the handler does produce messages of this type, the description ends
with what the message's own validation had to say. -/
def Describes (h : HConfig) (k : Kind) (m : Message) (d : String) : Prop :=
  (∃ a b, d = a ++ m.type.name ++ b) ∧
  (m.type ∈ h.produces → m.type.kind = k → ∃ a e, m.invalid = some e ∧ d = a ++ e)

end Verif
/-- Induction on a list from the right. -/
theorem List.reverseRecOn' {α : Type} {P : List α → Prop} (l : List α) (nil : P [])
    (append_singleton : ∀ l a, P l → P (l ++ [a])) : P l := by
  have : ∀ n (l : List α), l.length = n → P l := by
    intro n
    induction n with
    | zero => intro l hl; rw [List.length_eq_zero_iff.1 hl]; exact nil
    | succ n ih =>
      intro l hl
      rcases List.eq_nil_or_concat l with rfl | ⟨l, a, rfl⟩
      · exact nil
      · rw [List.concat_eq_append]; exact append_singleton l a (ih l (by simpa using hl))
  exact this _ l rfl
