import Verif.Frame
import Verif.Demo

/-!
# Properties of single handlings: panics, isolation, bad routing

C16, C17, C27.  A handling is one call of a controller with one message, made by the engine
between a `HandlingBegun` fact and a `HandlingCompleted` fact.
-/

namespace Verif

variable {W R : Type}

/-- Which instance the user's code routes the message to (timeouts go back to the instance
that scheduled them). -/
def routedTo (A : App W R) (h : HConfig) (env : Env) (w : W) : Option String :=
  match h.htype with
  | .aggregate =>
    match (A.uc.aggRoute h env.msg w).2 with
    | .ok id => some id
    | .error _ => none
  | .process =>
    match env.msg.type.kind with
    | .timeout => env.origin.map Origin.instanceID
    | _ =>
      match (A.uc.procRoute h env.msg w).2 with
      | .ok (.ok id) => id
      | _ => none
  | _ => none

/-! ## C16 -/

/-- **C16.** A handling that ends in a panic leaves every aggregate history, the set of live
process instances, the pending timeouts and the compaction clocks as they were.  Only the root
of the (already existing) process instance the message was routed to can differ. -/
theorem C16_panic_commits_nothing (A : App W R) (h : HConfig) (now : Time) (env : Env)
    (s s' : Sys W R) (v : PanicVal) (hp : ctlHandle A h now env s = (s', .error v)) :
    s'.agg = s.agg ∧ s'.lastCompact = s.lastCompact ∧
    (∀ n, (s'.proc n).timeouts = (s.proc n).timeouts) ∧
    (∀ n x, ((s'.proc n).inst x).isSome = ((s.proc n).inst x).isSome) ∧
    (∀ n x, (s'.proc n).inst x ≠ (s.proc n).inst x →
      n = h.name ∧ h.htype = .process ∧ ((s.proc n).inst x).isSome) := by
  obtain ⟨seg, h1, h2, h3, h4, h5, h6, h7, h8⟩ := ctlHandle_sum A h now env s
  rw [hp] at h1 h3 h4 h5 h6 h7 h8
  have hagg : s'.agg = s.agg := by
    by_cases ht : h.htype = .aggregate
    · exact (h4 ht).err v rfl
    · exact h7 ht
  refine ⟨hagg, h8, ?_⟩
  by_cases ht : h.htype = .process
  · have g := h5 ht
    obtain ⟨g1, g2, g3⟩ := g.err v rfl
    refine ⟨?_, ?_, ?_⟩
    · intro n
      by_cases hn : n = h.name
      · rw [hn]; exact g1
      · have := g.other n hn; simp only at this; rw [this]
    · intro n x
      by_cases hn : n = h.name
      · rw [hn]; exact g2 x
      · have := g.other n hn; simp only at this; rw [this]
    · intro n x hx
      by_cases hn : n = h.name
      · refine ⟨hn, ht, ?_⟩
        subst hn
        have := g2 x
        cases ha : (s.proc h.name).inst x with
        | some r => rfl
        | none =>
          cases hb : (s'.proc h.name).inst x with
          | none => rw [ha, hb] at hx; exact absurd rfl hx
          | some r => simp only at this; rw [ha, hb] at this; cases this
      · have := g.other n hn; simp only at this; rw [this] at hx; exact absurd rfl hx
  · have := h6 ht
    simp only at this
    rw [this]
    exact ⟨fun _ => rfl, fun _ _ => rfl, fun n x hx => absurd rfl hx⟩

namespace Demo

/-- A handler that changes its root, schedules a timeout, executes a command and panics. -/
def boomHandle (r : List String) (m : Message) : Prog Nat (ProcOp (List String)) (Option Err) :=
  if m.body = "boom" then
    Prog.do_ (.setRoot (r ++ ["changed"])) (Prog.do_ (.schedule ⟨tmoT, "t", none⟩ 50)
      (Prog.do_ (.execute ⟨cmdD, "d", none⟩) (.panic (.user "boom"))))
  else ops none [.setRoot (r ++ [m.body]), .schedule ⟨tmoT, m.body, none⟩ 10]

/-- The demo application with that handler. -/
def panicky : App Nat (List String) :=
  { app with uc := { uc with procHandle := fun _ _ r m _ => boomHandle r m } }

/-- After one ordinary command. -/
def boomBefore : Sys Nat (List String) :=
  runOps panicky [.dispatch 20 (msgC "x") [.currentTime 1]] (Sys.init 0)

/-- An event that makes the process panic. -/
def boomEnv : Env := Env.root 100 ⟨evtE, "boom", none⟩ 2

def boomAfter : Sys Nat (List String) × HRes := ctlHandle panicky proc 2 boomEnv boomBefore

/-- The hypothesis of C16 can be met, by a handling that had scheduled a timeout and changed
the root of a live instance. -/
example : (boomAfter.2 matches .error (.user "boom")) ∧
    (boomBefore.proc "proc").inst "p" = some ["x"] ∧
    (boomAfter.1.proc "proc").inst "p" = some ["x", "changed"] ∧
    (boomBefore.proc "proc").timeouts.length = 1 ∧ (boomAfter.1.proc "proc").timeouts.length = 1 ∧
    boomBefore.nextID + 2 = boomAfter.1.nextID := by
  decide +kernel

end Demo

/-! ## C17 -/

/-- State `s'` differs from `s` at most in the state `h` keeps about instance `id?`. -/
structure OnlyTouches (h : HConfig) (id? : Option String) (s s' : Sys W R) : Prop where
  /-- histories of other aggregates and other instances -/
  agg : ∀ n x, s'.agg n x ≠ s.agg n x → n = h.name ∧ h.htype = .aggregate ∧ id? = some x
  /-- other processes -/
  proc : ∀ n, s'.proc n ≠ s.proc n → n = h.name ∧ h.htype = .process
  /-- other instances of the same process -/
  inst : ∀ n x, (s'.proc n).inst x ≠ (s.proc n).inst x → id? = some x
  /-- the pending timeouts of other instances -/
  timeouts : ∀ n (e : Env), (s'.proc n).timeouts.count e ≠ (s.proc n).timeouts.count e →
    ∃ x, id? = some x ∧ e.origin.map Origin.instanceID = some x
  /-- compaction clocks -/
  last : s'.lastCompact = s.lastCompact

theorem OnlyTouches.ofProc {h : HConfig} {id : String} {s s' : Sys W R} (ht : h.htype = .process)
    (ha : s'.agg = s.agg) (hl : s'.lastCompact = s.lastCompact)
    (ho : ∀ n, n ≠ h.name → s'.proc n = s.proc n)
    (hf : ProcFrame id (s.proc h.name) (s'.proc h.name)) : OnlyTouches h (some id) s s' where
  agg n x hx := by rw [ha] at hx; exact absurd rfl hx
  proc n hx := ⟨Classical.byContradiction fun hn => hx (ho n hn), ht⟩
  inst n x hx := by
    by_cases hn : n = h.name
    · subst hn
      by_cases he : x = id
      · rw [he]
      · exact absurd (hf.1 x he) hx
    · rw [ho n hn] at hx; exact absurd rfl hx
  timeouts n e hx := by
    by_cases hn : n = h.name
    · subst hn
      by_cases he : e.origin.map Origin.instanceID = some id
      · exact ⟨id, rfl, he⟩
      · exact absurd (hf.2 e he) hx
    · rw [ho n hn] at hx; exact absurd rfl hx
  last := hl

theorem OnlyTouches.nothing {h : HConfig} {id? : Option String} {s s' : Sys W R}
    (ha : s'.agg = s.agg) (hp : s'.proc = s.proc) (hl : s'.lastCompact = s.lastCompact) :
    OnlyTouches h id? s s' where
  agg n x hx := by rw [ha] at hx; exact absurd rfl hx
  proc n hx := by rw [hp] at hx; exact absurd rfl hx
  inst n x hx := by rw [hp] at hx; exact absurd rfl hx
  timeouts n e hx := by rw [hp] at hx; exact absurd rfl hx
  last := hl

/-- **C17.** A handling, however it ends, changes engine-held state only of the handler that
handles the message, and only of the instance the message is routed to. -/
theorem C17_handling (A : App W R) (h : HConfig) (now : Time) (env : Env) (s : Sys W R) :
    OnlyTouches h (routedTo A h env s.w) s (ctlHandle A h now env s).1 := by
  obtain ⟨seg, h1, h2, h3, h4, h5, h6, h7, h8⟩ := ctlHandle_sum A h now env s
  cases ht : h.htype with
  | integration =>
    exact .nothing (h7 (by rw [ht]; nofun)) (h6 (by rw [ht]; nofun)) h8
  | projection =>
    exact .nothing (h7 (by rw [ht]; nofun)) (h6 (by rw [ht]; nofun)) h8
  | aggregate =>
    have hp := h6 (by rw [ht]; nofun)
    refine ⟨?_, fun n hx => by rw [hp] at hx; exact absurd rfl hx,
      fun n x hx => by rw [hp] at hx; exact absurd rfl hx,
      fun n e hx => by rw [hp] at hx; exact absurd rfl hx, h8⟩
    intro n x
    unfold routedTo ctlHandle aggHandle
    simp only [ht]
    split
    · intro hx; exact absurd rfl hx
    split
    · intro hx; exact absurd rfl hx
    split
    · rename_i he; obtain ⟨rfl, _⟩ := user_eq he
      intro hx; exact absurd rfl hx
    · rename_i id he; obtain ⟨rfl, hr⟩ := user_eq he
      rw [← hr]
      split
      · intro hx; exact absurd rfl hx
      · rcases aggWithID_agg A h id now env { s.emit (.call (.aggRoute h env.msg)) with
            w := (A.uc.aggRoute h env.msg s.w).1 } with h9 | ⟨v, h9⟩
        · intro hx; rw [h9] at hx; exact absurd rfl hx
        · intro hx
          rw [h9] at hx
          by_cases hn : n = h.name
          · refine ⟨hn, trivial, ?_⟩
            by_cases hi : x = id
            · rw [hi]
            · rw [hn, upd_same, upd_ne _ _ hi] at hx
              exact absurd rfl hx
          · rw [upd_ne _ _ hn] at hx
            exact absurd rfl hx
  | process =>
    have ha := h7 (by rw [ht]; nofun)
    revert ha h8
    unfold routedTo ctlHandle procHandle
    simp only [ht]
    split
    · intro h8 ha; exact .nothing ha rfl h8
    cases hk : env.msg.type.kind with
    | command => intro h8 ha; exact .nothing ha rfl h8
    | event =>
      simp only
      split
      · rename_i he; obtain ⟨rfl, _⟩ := user_eq he
        intro h8 ha; exact .nothing ha rfl h8
      · rename_i he; obtain ⟨rfl, _⟩ := user_eq he
        intro h8 ha; exact .nothing ha rfl h8
      · rename_i he; obtain ⟨rfl, _⟩ := user_eq he
        intro h8 ha; exact .nothing ha rfl h8
      · rename_i id he; obtain ⟨rfl, hr⟩ := user_eq he
        rw [← hr]
        split
        · intro h8 ha; exact .nothing ha rfl h8
        · intro h8 ha
          obtain ⟨f1, f2⟩ := procWithID_frame A h id now env
            { s.emit (.call (.procRoute h env.msg)) with w := (A.uc.procRoute h env.msg s.w).1 }
          exact .ofProc ht ha h8 f1 f2
    | timeout =>
      simp only
      split
      · intro h8 ha; exact .nothing ha rfl h8
      · rename_i o ho
        split
        · intro h8 ha
          obtain ⟨f1, f2⟩ := procWithID_frame A h o.instanceID now env s
          rw [ho]
          exact .ofProc ht ha h8 f1 f2
        · intro h8 ha; exact .nothing ha rfl h8

/-- Non-trivial case of C17: the process instance and its timeouts do change. -/
example : routedTo Demo.panicky Demo.proc Demo.boomEnv Demo.boomBefore.w = some "p" ∧
    (Demo.boomAfter.1.proc "proc").inst "p" ≠ (Demo.boomBefore.proc "proc").inst "p" := by
  decide +kernel

/-- What can be seen of the operation that led from `s` to `s'` explains every change. -/
structure Explained (A : App W R) (s s' : Sys W R) : Prop where
  prefix_ : ∃ seg, s'.trace = s.trace ++ seg
  agg : ∀ n x, s'.agg n x ≠ s.agg n x → ∃ h r m, h ∈ A.cfgs ∧ h.name = n ∧
    Obs.call (.aggHandle h x r m) ∈ during s s'
  inst : ∀ n x, (s'.proc n).inst x ≠ (s.proc n).inst x → ∃ h r m t, h ∈ A.cfgs ∧ h.name = n ∧
    Obs.call (.procHandle h x r m t) ∈ during s s'
  timeouts : ∀ n (e : Env), (s'.proc n).timeouts.count e ≠ (s.proc n).timeouts.count e →
    (∃ h x r m t, h ∈ A.cfgs ∧ h.name = n ∧ e.origin.map Origin.instanceID = some x ∧
      Obs.call (.procHandle h x r m t) ∈ during s s') ∨
    ∃ h, h ∈ A.cfgs ∧ h.name = n ∧ Obs.fact (.tickBegun h) ∈ during s s'
  last : ∀ n, s'.lastCompact n ≠ s.lastCompact n →
    ∃ h t, h ∈ A.cfgs ∧ h.name = n ∧ Obs.call (.prjCompact h t) ∈ during s s'

theorem during_left {a b c : Sys W R} (h1 : ∃ x, b.trace = a.trace ++ x)
    (h2 : ∃ x, c.trace = b.trace ++ x) {o : Obs R} (ho : o ∈ during a b) : o ∈ during a c := by
  obtain ⟨x, hx⟩ := h1
  obtain ⟨y, hy⟩ := h2
  rw [during_seg hx] at ho
  rw [during_seg (seg := x ++ y) (by rw [hy, hx, List.append_assoc])]
  exact List.mem_append_left _ ho

theorem during_right {a b c : Sys W R} (h1 : ∃ x, b.trace = a.trace ++ x)
    (h2 : ∃ x, c.trace = b.trace ++ x) {o : Obs R} (ho : o ∈ during b c) : o ∈ during a c := by
  obtain ⟨x, hx⟩ := h1
  obtain ⟨y, hy⟩ := h2
  rw [during_seg hy] at ho
  rw [during_seg (seg := x ++ y) (by rw [hy, hx, List.append_assoc])]
  exact List.mem_append_right _ ho

theorem Explained.nothing {A : App W R} {s s' : Sys W R} (hp : ∃ seg, s'.trace = s.trace ++ seg)
    (h1 : s'.agg = s.agg) (h2 : s'.proc = s.proc) (h3 : s'.lastCompact = s.lastCompact) :
    Explained A s s' where
  prefix_ := hp
  agg n x hx := by rw [h1] at hx; exact absurd rfl hx
  inst n x hx := by rw [h2] at hx; exact absurd rfl hx
  timeouts n e hx := by rw [h2] at hx; exact absurd rfl hx
  last n hx := by rw [h3] at hx; exact absurd rfl hx

theorem Explained.trans {A : App W R} {a b c : Sys W R} (x : Explained A a b)
    (y : Explained A b c) : Explained A a c where
  prefix_ := by
    obtain ⟨u, hu⟩ := x.prefix_
    obtain ⟨v, hv⟩ := y.prefix_
    exact ⟨u ++ v, by rw [hv, hu, List.append_assoc]⟩
  agg n i hx := by
    by_cases hc : c.agg n i = b.agg n i
    · rw [hc] at hx
      obtain ⟨h, r, m, k1, k2, k3⟩ := x.agg n i hx
      exact ⟨h, r, m, k1, k2, during_left x.prefix_ y.prefix_ k3⟩
    · obtain ⟨h, r, m, k1, k2, k3⟩ := y.agg n i hc
      exact ⟨h, r, m, k1, k2, during_right x.prefix_ y.prefix_ k3⟩
  inst n i hx := by
    by_cases hc : (c.proc n).inst i = (b.proc n).inst i
    · rw [hc] at hx
      obtain ⟨h, r, m, t, k1, k2, k3⟩ := x.inst n i hx
      exact ⟨h, r, m, t, k1, k2, during_left x.prefix_ y.prefix_ k3⟩
    · obtain ⟨h, r, m, t, k1, k2, k3⟩ := y.inst n i hc
      exact ⟨h, r, m, t, k1, k2, during_right x.prefix_ y.prefix_ k3⟩
  timeouts n e hx := by
    by_cases hc : (c.proc n).timeouts.count e = (b.proc n).timeouts.count e
    · rw [hc] at hx
      rcases x.timeouts n e hx with ⟨h, i, r, m, t, k1, k2, k3, k4⟩ | ⟨h, k1, k2, k3⟩
      · exact .inl ⟨h, i, r, m, t, k1, k2, k3, during_left x.prefix_ y.prefix_ k4⟩
      · exact .inr ⟨h, k1, k2, during_left x.prefix_ y.prefix_ k3⟩
    · rcases y.timeouts n e hc with ⟨h, i, r, m, t, k1, k2, k3, k4⟩ | ⟨h, k1, k2, k3⟩
      · exact .inl ⟨h, i, r, m, t, k1, k2, k3, during_right x.prefix_ y.prefix_ k4⟩
      · exact .inr ⟨h, k1, k2, during_right x.prefix_ y.prefix_ k3⟩
  last n hx := by
    by_cases hc : c.lastCompact n = b.lastCompact n
    · rw [hc] at hx
      obtain ⟨h, t, k1, k2, k3⟩ := x.last n hx
      exact ⟨h, t, k1, k2, during_left x.prefix_ y.prefix_ k3⟩
    · obtain ⟨h, t, k1, k2, k3⟩ := y.last n hc
      exact ⟨h, t, k1, k2, during_right x.prefix_ y.prefix_ k3⟩

theorem aggPre_none (h : HConfig) (pre : List (Obs R)) (hp : ∀ o ∈ pre, AggPre h o) :
    aggInstIn pre = none := by
  have := aggPre_inst h pre [] hp
  simpa [aggInstIn] using this

theorem explained_handle (A : App W R) (h : HConfig) (now : Time) (env : Env) (s : Sys W R)
    (hm : h ∈ A.cfgs) : Explained A s (ctlHandle A h now env s).1 := by
  obtain ⟨seg, h1, h2, h3, h4, h5, h6, h7, h8⟩ := ctlHandle_sum A h now env s
  have hd := during_seg h1
  cases ht : h.htype with
  | integration =>
    exact .nothing ⟨seg, h1⟩ (h7 (by rw [ht]; nofun)) (h6 (by rw [ht]; nofun)) h8
  | projection =>
    exact .nothing ⟨seg, h1⟩ (h7 (by rw [ht]; nofun)) (h6 (by rw [ht]; nofun)) h8
  | aggregate =>
    have hp := h6 (by rw [ht]; nofun)
    have g := h4 ht
    refine ⟨⟨seg, h1⟩, ?_, fun n x hx => by rw [hp] at hx; exact absurd rfl hx,
      fun n e hx => by rw [hp] at hx; exact absurd rfl hx,
      fun n hx => by rw [h8] at hx; exact absurd rfl hx⟩
    intro n x hx
    rw [hd]
    rcases hr : (ctlHandle A h now env s).2 with v | ⟨envs, e⟩
    · rw [g.err v hr] at hx; exact absurd rfl hx
    · obtain ⟨_, _, id, k1, k2⟩ := g.ok envs e hr
      rw [k2] at hx
      have hn : n = h.name :=
        Classical.byContradiction fun hn => hx (by rw [upd_ne _ _ hn])
      have hi : x = id :=
        Classical.byContradiction fun hi => hx (by rw [hn, upd_same, upd_ne _ _ hi])
      subst hi
      rcases g.shape with hsh | ⟨pre, id, r, post, hsh, hpre, _⟩
      · rw [aggPre_none h seg hsh] at k1; cases k1
      · have hid : id = x := by
          rw [hsh, aggPre_inst h pre _ hpre] at k1
          cases hex : (s.agg h.name id).isSome <;> rw [hex] at k1 <;>
            simpa [aggInstIn] using k1
        subst hid
        exact ⟨h, r, env.msg, hm, hn.symm, by rw [hsh]; simp⟩
  | process =>
    have ha := h7 (by rw [ht]; nofun)
    have hc : (ctlHandle A h now env s).1 = (procHandle A h now env s).1 := by
      unfold ctlHandle; rw [ht]
    rw [hc] at h1 h8 hd ha
    rw [hc]
    rcases procHandle_frame A h now env s with hp | ⟨id, r, t, seg', k1, k2, k3, k4⟩
    · exact .nothing ⟨seg, h1⟩ ha hp h8
    · rw [h1] at k1
      have := List.append_cancel_left k1
      subst this
      have hin : ∀ n x, ((procHandle A h now env s).1.proc n).inst x ≠ (s.proc n).inst x →
          n = h.name ∧ x = id := by
        intro n x hx
        have hn : n = h.name := Classical.byContradiction fun hn => hx (by rw [k3 n hn])
        exact ⟨hn, Classical.byContradiction fun hi => hx (by rw [hn, k4.1 x hi])⟩
      refine ⟨⟨seg, h1⟩, fun n x hx => by rw [ha] at hx; exact absurd rfl hx, ?_, ?_,
        fun n hx => by rw [h8] at hx; exact absurd rfl hx⟩
      · intro n x hx
        obtain ⟨hn, hi⟩ := hin n x hx
        rw [hd, hi]
        exact ⟨h, r, env.msg, t, hm, hn.symm, k2⟩
      · intro n e hx
        have hn : n = h.name := Classical.byContradiction fun hn => hx (by rw [k3 n hn])
        have hi : e.origin.map Origin.instanceID = some id :=
          Classical.byContradiction fun hi => hx (by rw [hn, k4.2 e hi])
        rw [hd]
        exact .inl ⟨h, id, r, env.msg, t, hm, hn.symm, hi, k2⟩

theorem explained_rel (A : App W R) : StepRel A (Explained A) where
  refl s := .nothing ⟨[], by simp⟩ rfl rfl rfl
  trans _ _ _ := .trans
  fact s f := .nothing ⟨[.fact f], rfl⟩ rfl rfl rfl
  takeID s := .nothing ⟨[], by simp⟩ rfl rfl rfl
  handle h now env s hm := explained_handle A h now env s hm
  tick h now s hm := by
    obtain ⟨seg, g⟩ := ctlTick_sum A h now (s.notify (.tickBegun h))
    have ht : (ctlTick A h now (s.notify (.tickBegun h))).1.trace =
        s.trace ++ .fact (.tickBegun h) :: seg := by
      rw [g.trace]; simp
    have hd := during_seg ht
    refine ⟨⟨_, ht⟩, ?_, ?_, ?_, ?_⟩
    · intro n x hx; rw [g.agg] at hx; exact absurd rfl hx
    · intro n x hx
      rw [g.proc] at hx
      split at hx
      · by_cases hn : n = h.name
        · rw [hn, upd_same] at hx; exact absurd rfl hx
        · rw [upd_ne _ _ hn] at hx; exact absurd rfl hx
      · exact absurd rfl hx
    · intro n e hx
      rw [g.proc] at hx
      split at hx
      · by_cases hn : n = h.name
        · rw [hd]; exact .inr ⟨h, hm, hn.symm, by simp⟩
        · rw [upd_ne _ _ hn] at hx; exact absurd rfl hx
      · exact absurd rfl hx
    · intro n hx
      rw [g.last] at hx
      split at hx
      · rename_i hc
        by_cases hn : n = h.name
        · rw [hd]
          refine ⟨h, now, hm, hn.symm, ?_⟩
          rcases g.shape with ⟨_, h1⟩ | ⟨_, _, logs, _, h1⟩
          · have h1 := h1 hc.1
            have h2 := hc.2
            omega
          · split at h1 <;> rw [h1] <;> simp
        · rw [upd_ne _ _ hn] at hx; exact absurd rfl hx
      · exact absurd rfl hx

/-- **C17, whole operations.** When an operation changes the history of an aggregate
instance, that handler's `HandleCommand` was called for that instance; when it changes a
process instance, that handler's `HandleEvent`/`HandleTimeout` was called for that instance;
when it changes the pending timeouts of an instance, the same holds or that process was
ticked; when it changes a compaction clock, that projection was compacted. -/
theorem C17_operation (A : App W R) (op : Op) (hop : op.ok A) (hr : op ≠ .reset) (s : Sys W R) :
    Explained A s (op.exec A s).1 :=
  (explained_rel A).exec op hop hr s

set_option maxRecDepth 100000 in
/-- Non-trivial case: a dispatch that changes an aggregate and a process. -/
example : ((Op.dispatch 20 (Demo.msgC "x") [.currentTime 1]).exec Demo.app (Sys.init 0)).1.agg
      "agg" "a" ≠ none ∧
    (((Op.dispatch 20 (Demo.msgC "x") [.currentTime 1]).exec Demo.app (Sys.init 0)).1.proc
      "proc").timeouts.length = 1 := by
  decide +kernel

end Verif
