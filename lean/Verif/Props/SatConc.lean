import Verif.SatConc
import Verif.Props.Satisfy

/-!
# C107: many goroutines may use one `SatisfyT`

`C107_serial` and `C107_verdict` say that calls take effect one at a time; `C107_cleanups` which cleanup functions
are called; `C107_progress`, `C107_bounded` and `C107_ends` that every run comes to its end;
`C107_format_fails` and `C107_elsewhere` show that what is excepted does go wrong.
-/

namespace Verif.Par

/-! ## Specification -/

/-- The calls of methods that were made, in the order in which they took effect, and their answers. -/
def dids : List Label → List (SOp × CallStack × SRes)
  | [] => []
  | .did _ o st r :: ls => (o, st, r) :: dids ls
  | _ :: ls => dids ls

/-- Making calls one after the other, from state `t` to state `t'`, gives these answers. -/
inductive Replay : SatT → List (SOp × CallStack × SRes) → SatT → Prop where
  | nil (t) : Replay t [] t
  | cons {t t1 t' o st r l} : o.exec t st = (t1, r) → Replay t1 l t' → Replay t ((o, st, r) :: l) t'

/-- The cleanup functions that were registered, in order. -/
def regs : List Label → List Code
  | [] => []
  | .registered _ fn :: ls => fn :: regs ls
  | _ :: ls => regs ls

/-- The cleanup functions that were called, in order. -/
def cleaned : List Label → List Code
  | [] => []
  | .cleaning fn :: ls => fn :: cleaned ls
  | _ :: ls => cleaned ls

/-- The text that a call adds to the report. -/
def text : SOp → Option String
  | .error s _ | .fatal s _ | .log s | .skip s _ => some s
  | _ => none

/-- Code that does not use `t` while its own arguments are being formatted; `q` says whether it is
being run by formatting. -/
def Code.Fit : Bool → Code → Prop
  | _, .ret | _, .panic _ => True
  | q, .op o _ f k => (q = true → mode o = .none) ∧ (formats o = true → f.Fit true) ∧ ∀ r, (k r).Fit q
  | q, .cleanup fn k => q = false ∧ fn.Fit false ∧ k.Fit q
  | q, .go fn k => fn.Fit false ∧ k.Fit q

/-- The goroutine has nothing to do anymore. -/
def Thread.finished (th : Thread) : Prop :=
  (∃ r, th = ⟨.over r, []⟩) ∨ th = ⟨.code .ret, []⟩

/-- So have all. -/
def St.allOver (s : St) : Prop := ∀ g th, s.threads g = some th → th.finished

/-! ## The lock -/

def Frame.isFmt : Frame → Bool
  | .fmt .. => true
  | _ => false

inductive Status where
  | idle | read | pend | write
  deriving DecidableEq

def Thread.status (th : Thread) : Status :=
  match th.pos with
  | .locked _ | .body .. | .append .. | .unlock _ => .write
  | .reading .. | .runlock .. => .read
  | .pending _ => .pend
  | _ => if th.stack.any Frame.isFmt then .write else .idle

def St.stat (s : St) (g : Nat) : Status :=
  match s.threads g with
  | some th => th.status
  | none => .idle

/-- Formatting is done by the innermost code. -/
def Thread.ok (th : Thread) : Prop :=
  match th.pos with
  | .code _ | .rlock .. | .lock _ => th.stack.tail.any Frame.isFmt = false
  | _ => th.stack.any Frame.isFmt = false

def Body.run : Body → SatT → SatT × SRes
  | .done r, t => (t, r)
  | .step upd next, t => (next t).run (upd t)

theorem body_run (o : SOp) (st : CallStack) (t : SatT) (hm : mode o = .write) :
    (body st o).run t = o.exec t st := by
  cases o <;> simp [mode] at hm <;>
    simp [body, logB, failB, skipB, helperB, explainB, Body.load, Body.store, Body.run, SOp.exec,
      SatT.log, SatT.fail, SatT.skip, SatT.explain] <;>
    (try cases t.explanation) <;> simp [Body.run]

/-- What is known of the fields if a goroutine that is here holds the lock. -/
def Pos.held (core t : SatT) : Pos → Prop
  | .body o st b _ => b.run core = o.exec t st
  | _ => core = t

def Pos.want : Pos → Prop
  | .locked (.op o ..) | .pending (.op o ..) | .lock (.op o ..) => mode o = .write
  | .reading o .. | .rlock o .. => mode o = .read
  | _ => True

def Frame.want : Frame → Prop
  | .fmt o .. => mode o = .write
  | _ => True

/-- The invariant; `t` are the fields as the calls that have taken effect leave them. -/
structure Inv (s : St) (t : SatT) : Prop where
  writer : ∀ g, s.writer = some g ↔ s.stat g = .write
  reader : ∀ g, g ∈ s.readers ↔ s.stat g = .read
  pend : ∀ g, s.pending = some g ↔ s.stat g = .pend
  nodup : s.readers.Nodup
  excl : s.writer ≠ none → s.readers = [] ∧ s.pending = none
  ok : ∀ g th, s.threads g = some th → th.ok
  fresh : ∀ g, s.next ≤ g → s.threads g = none
  idle : s.writer = none → s.core = t
  held : ∀ g th, s.threads g = some th → s.writer = some g → th.pos.held s.core t
  want : ∀ g th, s.threads g = some th → th.pos.want ∧ ∀ f ∈ th.stack, f.want

theorem stat_set (s : St) (g : Nat) (p : Pos) (fs : List Frame) (u : Nat) :
    (s.set g p fs).stat u = if u = g then (⟨p, fs⟩ : Thread).status else s.stat u := by
  unfold St.stat St.set
  by_cases h : u = g <;> simp [h]

theorem stat_eq {s : St} {g th} (h : s.threads g = some th) : s.stat g = th.status := by
  simp [St.stat, h]

/-- A step of goroutine `g`. -/
theorem Inv.upd {s : St} {t : SatT} (hi : Inv s t) {g : Nat} {th : Thread} {p' : Pos}
    {fs' : List Frame} (h : s.threads g = some th) (s1 : St) (ht : s1.threads = s.threads)
    (hn : s1.next = s.next) (t' : SatT)
    (hw : ∀ u, s1.writer = some u ↔ (if u = g then (⟨p', fs'⟩ : Thread).status else s.stat u) = .write)
    (hr : ∀ u, u ∈ s1.readers ↔ (if u = g then (⟨p', fs'⟩ : Thread).status else s.stat u) = .read)
    (hp : ∀ u, s1.pending = some u ↔ (if u = g then (⟨p', fs'⟩ : Thread).status else s.stat u) = .pend)
    (nodup : s1.readers.Nodup) (excl : s1.writer ≠ none → s1.readers = [] ∧ s1.pending = none)
    (hok : (⟨p', fs'⟩ : Thread).ok) (idle : s1.writer = none → s1.core = t')
    (held : s1.writer = some g → p'.held s1.core t')
    (others : ∀ u, u ≠ g → s1.writer = some u → s.writer = some u ∧ s1.core = s.core ∧ t' = t)
    (want : p'.want ∧ ∀ f ∈ fs', f.want) : Inv (s1.set g p' fs') t' := by
  have hlt : ¬ s.next ≤ g := fun hn => by rw [hi.fresh g hn] at h; cases h
  have st : ∀ u, (s1.set g p' fs').stat u =
      if u = g then (⟨p', fs'⟩ : Thread).status else s.stat u := by
    intro u; rw [stat_set]; split
    · rfl
    · simp only [St.stat, ht]
  constructor
  · intro u; rw [st]; exact hw u
  · intro u; rw [st]; exact hr u
  · intro u; rw [st]; exact hp u
  · exact nodup
  · exact excl
  · intro u th hu
    simp only [St.set] at hu
    split at hu
    · cases hu; exact hok
    · exact hi.ok u th (ht ▸ hu)
  · intro u hu
    simp only [St.set] at hu ⊢
    split
    · next e => exact absurd (hn ▸ e ▸ hu) hlt
    · rw [ht]; exact hi.fresh u (hn ▸ hu)
  · exact idle
  · intro u th hu hwr
    simp only [St.set] at hu hwr ⊢
    split at hu
    · next e => cases hu; exact held (e ▸ hwr)
    · next e =>
      obtain ⟨a, b, c⟩ := others u e hwr
      rw [b, c]
      exact hi.held u th (ht ▸ hu) a
  · intro u th hu
    simp only [St.set] at hu
    split at hu
    · cases hu; exact want
    · exact hi.want u th (ht ▸ hu)

/-- A step of goroutine `g` that leaves the lock alone. -/
theorem Inv.move {s : St} {t : SatT} (hi : Inv s t) {g : Nat} {th : Thread} {p' : Pos}
    {fs' : List Frame} (h : s.threads g = some th) (hst : (⟨p', fs'⟩ : Thread).status = th.status)
    (hok : (⟨p', fs'⟩ : Thread).ok) (held : s.writer = some g → p'.held s.core t)
    (want : p'.want ∧ ∀ f ∈ fs', f.want) : Inv (s.set g p' fs') t := by
  have hg := stat_eq h
  have e : ∀ u, (if u = g then (⟨p', fs'⟩ : Thread).status else s.stat u) = s.stat u := by
    intro u; split
    · next e => rw [e, hg, hst]
    · rfl
  exact hi.upd h s rfl rfl t (fun u => by rw [e]; exact hi.writer u) (fun u => by rw [e]; exact hi.reader u)
    (fun u => by rw [e]; exact hi.pend u) hi.nodup hi.excl hok hi.idle held (fun _ _ h => ⟨h, rfl, rfl⟩) want

theorem Inv.add {s : St} {t : SatT} (hi : Inv s t) {fn : Code} :
    Inv ({ s with next := s.next + 1 }.set s.next (.code fn) []) t := by
  have hn := hi.fresh s.next (Nat.le_refl _)
  have hs : s.stat s.next = .idle := by simp [St.stat, hn]
  have st : ∀ u, ({ s with next := s.next + 1 }.set s.next (.code fn) []).stat u = s.stat u := by
    intro u; rw [stat_set]; split
    · next e => rw [e, hs]; rfl
    · rfl
  constructor
  · intro u; rw [st]; exact hi.writer u
  · intro u; rw [st]; exact hi.reader u
  · intro u; rw [st]; exact hi.pend u
  · exact hi.nodup
  · exact hi.excl
  · intro u th hu
    simp only [St.set] at hu
    split at hu
    · cases hu; rfl
    · exact hi.ok u th hu
  · intro u hu
    simp only [St.set] at hu ⊢
    rw [if_neg (by omega)]
    exact hi.fresh u (by omega)
  · exact hi.idle
  · intro u th hu hw
    simp only [St.set] at hu hw ⊢
    split at hu
    · next e =>
      have := (hi.writer u).1 hw
      rw [e, hs] at this; cases this
    · exact hi.held u th hu hw
  · intro u th hu
    simp only [St.set] at hu
    split at hu
    · cases hu; exact ⟨trivial, nofun⟩
    · exact hi.want u th hu

/-- What a step adds to what was done. -/
def Effect (l : Label) (t t' : SatT) : Prop :=
  match l with
  | .did _ o st r => o.exec t st = (t', r)
  | _ => t' = t

theorem Inv.step {s s' : St} {t : SatT} {l : Label} (hi : Inv s t) (h : Step s l s') :
    ∃ t', Inv s' t' ∧ Effect l t t' := by
  cases h with
  | plain h hm hc =>
    rename_i g o st f k fs
    have h1 := hi.ok _ _ h; have h2 := hi.want _ _ h; have h3 := hi.held _ _ h
    refine ⟨t, hi.move h rfl h1 h3 ⟨trivial, h2.2⟩, ?_⟩
    cases o <;> simp [mode] at hm <;> rfl
  | readOp h hm hc =>
    have h1 := hi.ok _ _ h; have h2 := hi.want _ _ h; have h3 := hi.held _ _ h
    exact ⟨t, hi.move h rfl h1 h3 ⟨hm, h2.2⟩, rfl⟩
  | writeOp h hm hc =>
    have h1 := hi.ok _ _ h; have h2 := hi.want _ _ h; have h3 := hi.held _ _ h
    exact ⟨t, hi.move h rfl h1 h3 ⟨hm, h2.2⟩, rfl⟩
  | cleanupOp h hc =>
    have h1 := hi.ok _ _ h; have h2 := hi.want _ _ h; have h3 := hi.held _ _ h
    exact ⟨t, hi.move h rfl h1 h3 ⟨trivial, h2.2⟩, rfl⟩
  | @rlock g o st k fs h hp hw hc =>
    have h1 := hi.ok _ _ h; have h2 := hi.want _ _ h; have h4 := stat_eq h
    have nf : fs.any Frame.isFmt = false := by
      cases e : fs.any Frame.isFmt with
      | false => rfl
      | true =>
        have := (hi.writer g).2 (by rw [h4]; simp [Thread.status, e])
        rw [hw] at this; cases this
    have h5 : s.stat g = .idle := by rw [h4]; simp [Thread.status, nf]
    refine ⟨t, hi.upd h _ ?_ ?_ t ?_ ?_ ?_ ?_ ?_ ?_ ?_ ?_ ?_ ⟨h2.1, h2.2⟩, rfl⟩
    · rfl
    · rfl
    · intro u; have := hi.writer u; by_cases e : u = g <;> simp_all [Thread.status]
    · intro u; have := hi.reader u; by_cases e : u = g <;> simp_all [Thread.status]
    · intro u; have := hi.pend u; by_cases e : u = g <;> simp_all [Thread.status]
    · have := hi.reader g; rw [h5] at this
      exact List.nodup_cons.2 ⟨fun hm => by simpa using this.1 hm, hi.nodup⟩
    · intro hx; exact absurd hw hx
    · exact nf
    · exact hi.idle
    · intro hx; rw [hw] at hx; cases hx
    · intro u _ hx; rw [hw] at hx; cases hx
  | @read g o st k fs h hc =>
    have h1 := hi.ok _ _ h; have h2 := hi.want _ _ h; have h4 := stat_eq h
    have hw : s.writer = none := by
      cases e : s.writer with
      | none => rfl
      | some u =>
        have := (hi.excl (by simp [e])).1
        have k := (hi.reader g).2 (by rw [h4]; rfl)
        rw [this] at k; cases k
    refine ⟨t, hi.move h rfl h1 ?_ ⟨trivial, h2.2⟩, ?_⟩
    · intro hx; rw [hw] at hx; cases hx
    · rw [hi.idle hw]
      have h5 : mode o = .read := h2.1
      cases o <;> simp [mode] at h5 <;> rfl
  | @runlock g r k fs h hc =>
    have h1 := hi.ok _ _ h; have h2 := hi.want _ _ h; have h4 := stat_eq h
    have hw : s.writer = none := by
      cases e : s.writer with
      | none => rfl
      | some u =>
        have := (hi.excl (by simp [e])).1
        have k := (hi.reader g).2 (by rw [h4]; rfl)
        rw [this] at k; cases k
    have nf : fs.any Frame.isFmt = false := h1
    have hs : (⟨.code (k r), fs⟩ : Thread).status = .idle := by simp [Thread.status, nf]
    refine ⟨t, hi.upd h _ ?_ ?_ t ?_ ?_ ?_ ?_ ?_ ?_ ?_ ?_ ?_ ⟨trivial, h2.2⟩, rfl⟩
    · rfl
    · rfl
    · intro u; rw [hs]; have := hi.writer u; by_cases e : u = g <;> simp_all [Thread.status]
    · intro u
      have := hi.reader u
      rw [hs]
      simp only [hi.nodup.mem_erase_iff]
      by_cases e : u = g <;> simp_all [Thread.status]
    · intro u; rw [hs]; have := hi.pend u; by_cases e : u = g <;> simp_all [Thread.status]
    · exact hi.nodup.erase _
    · intro hx; exact absurd hw hx
    · cases fs with
      | nil => rfl
      | cons f fs => simp_all [Thread.ok]
    · exact hi.idle
    · intro hx; rw [hw] at hx; cases hx
    · intro u _ hx; rw [hw] at hx; cases hx
  | @announce g w fs h hp hw hc =>
    have h1 := hi.ok _ _ h; have h2 := hi.want _ _ h; have h4 := stat_eq h
    have nf : fs.any Frame.isFmt = false := by
      cases e : fs.any Frame.isFmt with
      | false => rfl
      | true =>
        have := (hi.writer g).2 (by rw [h4]; simp [Thread.status, e])
        rw [hw] at this; cases this
    have h5 : s.stat g = .idle := by rw [h4]; simp [Thread.status, nf]
    refine ⟨t, hi.upd h _ ?_ ?_ t ?_ ?_ ?_ ?_ ?_ ?_ ?_ ?_ ?_ ⟨?_, h2.2⟩, rfl⟩
    · rfl
    · rfl
    · intro u; have := hi.writer u; by_cases e : u = g <;> simp_all [Thread.status]
    · intro u; have := hi.reader u; by_cases e : u = g <;> simp_all [Thread.status]
    · intro u; have := hi.pend u; by_cases e : u = g <;> simp_all [Thread.status]
      exact fun hx => e hx.symm
    · exact hi.nodup
    · intro hx; exact absurd hw hx
    · exact nf
    · exact hi.idle
    · intro hx; rw [hw] at hx; cases hx
    · intro u _ hx; rw [hw] at hx; cases hx
    · cases w <;> exact h2.1
  | @acquire g w fs h hr hc =>
    have h1 := hi.ok _ _ h; have h2 := hi.want _ _ h; have h4 := stat_eq h
    have hp : s.pending = some g := (hi.pend g).2 (by rw [h4]; rfl)
    have hw : s.writer = none := by
      cases e : s.writer with
      | none => rfl
      | some u =>
        have := (hi.excl (by simp [e])).2
        rw [this] at hp; cases hp
    refine ⟨t, hi.upd h _ ?_ ?_ t ?_ ?_ ?_ ?_ ?_ ?_ ?_ ?_ ?_ ⟨?_, h2.2⟩, rfl⟩
    · rfl
    · rfl
    · intro u; have := hi.writer u; by_cases e : u = g <;> simp_all [Thread.status]
      exact fun hx => e hx.symm
    · intro u; have := hi.reader u; by_cases e : u = g <;> simp_all [Thread.status]
    · intro u; have := hi.pend u; by_cases e : u = g <;> simp_all [Thread.status]
      exact fun hx => e (this.2 hx).symm
    · exact hi.nodup
    · intro hx; exact ⟨hr, rfl⟩
    · exact h1
    · intro hx; cases hx
    · intro hx
      have := hi.idle hw
      cases w <;> exact this
    · intro u hu hx; cases hx; exact absurd rfl hu
    · cases w <;> exact h2.1
  | @format g o st f k fs h hf hc =>
    have h1 := hi.ok _ _ h; have h2 := hi.want _ _ h; have h3 := hi.held _ _ h
    refine ⟨t, hi.move h ?_ h1 h3 ⟨trivial, ?_⟩, rfl⟩
    · simp [Thread.status, Frame.isFmt]
    · intro f hf
      rcases List.mem_cons.1 hf with rfl | hf
      · exact h2.1
      · exact h2.2 f hf
  | @formatted g c r o st k fs h hr hc =>
    have h1 := hi.ok _ _ h; have h2 := hi.want _ _ h; have h3 := hi.held _ _ h
    refine ⟨t, hi.move h ?_ h1 ?_ ⟨trivial, fun f hf => h2.2 f (List.mem_cons_of_mem _ hf)⟩, rfl⟩
    · simp [Thread.status, Frame.isFmt]
    · intro hx
      have e : s.core = t := h3 hx
      rw [e]
      exact body_run o st t (h2.2 _ (List.mem_cons_self ..))
  | @begin g o st f k fs h hf hc =>
    have h1 := hi.ok _ _ h; have h2 := hi.want _ _ h; have h3 := hi.held _ _ h
    refine ⟨t, hi.move h rfl h1 ?_ ⟨trivial, h2.2⟩, rfl⟩
    intro hx
    have e : s.core = t := h3 hx
    rw [e]
    exact body_run o st t h2.1
  | @access g o st upd next k fs h hc =>
    have h1 := hi.ok _ _ h; have h2 := hi.want _ _ h; have h3 := hi.held _ _ h; have h4 := stat_eq h
    have hw : s.writer = some g := (hi.writer g).2 (by rw [h4]; rfl)
    have e : ∀ u, (if u = g then (⟨.body o st (next s.core) k, fs⟩ : Thread).status else s.stat u) =
        s.stat u := by
      intro u; split
      · next e => rw [e, h4]; rfl
      · rfl
    refine ⟨t, hi.upd h _ ?_ ?_ t ?_ ?_ ?_ hi.nodup hi.excl h1 ?_ ?_ ?_ ⟨trivial, h2.2⟩, rfl⟩
    · rfl
    · rfl
    · intro u; rw [e]; exact hi.writer u
    · intro u; rw [e]; exact hi.reader u
    · intro u; rw [e]; exact hi.pend u
    · intro hx; rw [show s.writer = none from hx] at hw; cases hw
    · intro _; exact h3 hw
    · intro u hu hx
      rw [show s.writer = some u from hx] at hw
      cases hw; exact absurd rfl hu
  | @finish g o st r k fs h hc =>
    have h1 := hi.ok _ _ h; have h2 := hi.want _ _ h; have h3 := hi.held _ _ h; have h4 := stat_eq h
    have hw : s.writer = some g := (hi.writer g).2 (by rw [h4]; rfl)
    have nf : fs.any Frame.isFmt = false := h1
    have hs : (⟨.code (k r), fs⟩ : Thread).status = .idle := by simp [Thread.status, nf]
    have := hi.excl (by simp [hw])
    refine ⟨s.core, hi.upd h _ ?_ ?_ _ ?_ ?_ ?_ hi.nodup ?_ ?_ ?_ ?_ ?_ ⟨trivial, h2.2⟩, (h3 hw).symm⟩
    · rfl
    · rfl
    · intro u; rw [hs]
      have := hi.writer u
      rw [hw] at this
      by_cases e : u = g
      · simp [e]
      · simp only [if_neg e]
        exact ⟨nofun, fun hx => absurd (Option.some.inj (this.2 hx)).symm e⟩
    · intro u; rw [hs]; have := hi.reader u; by_cases e : u = g <;> simp_all
    · intro u; rw [hs]; have := hi.pend u; by_cases e : u = g <;> simp_all
    · intro hx; exact absurd rfl hx
    · cases fs with
      | nil => rfl
      | cons f fs => simp_all [Thread.ok]
    · intro _; rfl
    · intro hx; cases hx
    · intro u hu hx; cases hx
  | @load g fn k fs h hc =>
    have h1 := hi.ok _ _ h; have h2 := hi.want _ _ h; have h3 := hi.held _ _ h
    exact ⟨t, hi.move h rfl h1 h3 ⟨trivial, h2.2⟩, rfl⟩
  | @append g l fn k fs h hc =>
    have h1 := hi.ok _ _ h; have h2 := hi.want _ _ h; have h3 := hi.held _ _ h; have h4 := stat_eq h
    have e : ∀ u, (if u = g then (⟨.unlock k, fs⟩ : Thread).status else s.stat u) = s.stat u := by
      intro u; split
      · next e => rw [e, h4]; rfl
      · rfl
    exact ⟨t, hi.upd (p' := .unlock k) (fs' := fs) h { s with cleanup := l ++ [fn] } rfl rfl t
      (fun u => by rw [e]; exact hi.writer u) (fun u => by rw [e]; exact hi.reader u) (fun u => by rw [e]; exact hi.pend u) hi.nodup hi.excl h1
      hi.idle h3 (fun u _ hx => ⟨hx, rfl, rfl⟩) ⟨trivial, h2.2⟩, rfl⟩
  | @unlock g c fs h hc =>
    have h1 := hi.ok _ _ h; have h2 := hi.want _ _ h; have h3 := hi.held _ _ h; have h4 := stat_eq h
    have hw : s.writer = some g := (hi.writer g).2 (by rw [h4]; rfl)
    have nf : fs.any Frame.isFmt = false := h1
    have hs : (⟨.code c, fs⟩ : Thread).status = .idle := by simp [Thread.status, nf]
    have := hi.excl (by simp [hw])
    refine ⟨t, hi.upd h _ ?_ ?_ _ ?_ ?_ ?_ hi.nodup ?_ ?_ ?_ ?_ ?_ ⟨trivial, h2.2⟩, rfl⟩
    · rfl
    · rfl
    · intro u; rw [hs]
      have := hi.writer u
      rw [hw] at this
      by_cases e : u = g
      · simp [e]
      · simp only [if_neg e]
        exact ⟨nofun, fun hx => absurd (Option.some.inj (this.2 hx)).symm e⟩
    · intro u; rw [hs]; have := hi.reader u; by_cases e : u = g <;> simp_all
    · intro u; rw [hs]; have := hi.pend u; by_cases e : u = g <;> simp_all
    · intro hx; exact absurd rfl hx
    · cases fs with
      | nil => rfl
      | cons f fs => simp_all [Thread.ok]
    · intro _; exact h3 hw
    · intro hx; cases hx
    · intro u hu hx; cases hx
  | @go g fn k fs h hc =>
    have hlt : ¬ s.next ≤ g := fun hn => by rw [hi.fresh g hn] at h; cases h
    have h' : ({ s with next := s.next + 1 }.set s.next (.code fn) []).threads g =
        some ⟨.code (.go fn k), fs⟩ := by
      simp only [St.set]; rw [if_neg (by omega)]; exact h
    have hi' := hi.add (fn := fn)
    have h1 := hi'.ok _ _ h'; have h2 := hi'.want _ _ h'; have h3 := hi'.held _ _ h'
    exact ⟨t, hi'.move h' rfl h1 h3 ⟨trivial, h2.2⟩, rfl⟩
  | @crash g v h hc =>
    exact ⟨t, ⟨hi.writer, hi.reader, hi.pend, hi.nodup, hi.excl, hi.ok, hi.fresh, hi.idle, hi.held, hi.want⟩,
      rfl⟩
  | @ended g c r h hr hc =>
    have h3 := hi.held _ _ h
    exact ⟨t, hi.move h rfl rfl h3 ⟨trivial, nofun⟩, rfl⟩
  | @clean g i r fn h hf hc =>
    have h3 := hi.held _ _ h
    exact ⟨t, hi.move h rfl rfl h3 ⟨trivial, fun f hf => by simp at hf; subst hf; trivial⟩, rfl⟩
  | @cleaned g i r h hc =>
    have h3 := hi.held _ _ h
    exact ⟨t, hi.move h rfl rfl h3 ⟨trivial, nofun⟩, rfl⟩
  | @unclean g i r v h hc =>
    have h3 := hi.held _ _ h
    exact ⟨t, hi.move h rfl rfl h3 ⟨trivial, nofun⟩, rfl⟩
  | @over g r h hc =>
    have h3 := hi.held _ _ h
    exact ⟨t, hi.move h rfl rfl h3 ⟨trivial, nofun⟩, rfl⟩

theorem dids_append (a b : List Label) : dids (a ++ b) = dids a ++ dids b := by
  induction a with
  | nil => rfl
  | cons l a ih => cases l <;> simp [dids, ih]

theorem regs_append (a b : List Label) : regs (a ++ b) = regs a ++ regs b := by
  induction a with
  | nil => rfl
  | cons l a ih => cases l <;> simp [regs, ih]

theorem cleaned_append (a b : List Label) : cleaned (a ++ b) = cleaned a ++ cleaned b := by
  induction a with
  | nil => rfl
  | cons l a ih => cases l <;> simp [cleaned, ih]

theorem Replay.snoc {t t1 t' : SatT} {l o st r} (h : Replay t l t1) (he : o.exec t1 st = (t', r)) :
    Replay t (l ++ [(o, st, r)]) t' := by
  induction h with
  | nil => exact .cons he (.nil _)
  | cons h _ ih => exact .cons h (ih he)

theorem init_inv (fn : Code) : Inv (init fn) {} := by
  have st : ∀ g, (init fn).stat g = .idle := by
    intro g; simp only [init, St.stat]; split
    · next h => split at h
                · cases h; rfl
                · cases h
    · rfl
  constructor
  · intro g; rw [st]; simp [init]
  · intro g; rw [st]; simp [init]
  · intro g; rw [st]; simp [init]
  · simp [init]
  · simp [init]
  · intro g th h; simp only [init] at h; split at h
    · cases h; rfl
    · cases h
  · intro g h; simp only [init] at h ⊢; rw [if_neg (by omega)]
  · intro _; rfl
  · intro g th _ h; simp [init] at h
  · intro g th h; simp only [init] at h; split at h
    · cases h; exact ⟨trivial, fun f hf => by simp at hf; subst hf; trivial⟩
    · cases h

theorem steps_inv {fn : Code} {ls : List Label} {s : St} (h : Steps (init fn) ls s) :
    ∃ t, Inv s t ∧ Replay {} (dids ls) t := by
  induction h with
  | nil => exact ⟨{}, init_inv fn, .nil _⟩
  | @snoc ls s' l s'' _ hs ih =>
    obtain ⟨t, hi, hr⟩ := ih
    obtain ⟨t', hi', he⟩ := hi.step hs
    refine ⟨t', hi', ?_⟩
    rw [dids_append]
    cases l with
    | did g o st r => exact hr.snoc he
    | _ => rw [show t' = t from he]; simpa [dids] using hr

theorem exec_flags (o : SOp) (st : CallStack) (t : SatT) :
    (o.exec t st).1.failed = (t.failed || o.fails) ∧ (o.exec t st).1.skipped = (t.skipped || o.skips) ∧
    (o.exec t st).1.messages = t.messages ++ (text o).toList := by
  have ex : ∀ (t : SatT) fn, (t.explain fn st).failed = t.failed ∧ (t.explain fn st).skipped = t.skipped ∧
      (t.explain fn st).messages = t.messages := by
    intro t fn; unfold SatT.explain; split <;> simp
  cases o <;> simp [SOp.exec, SOp.fails, SOp.skips, text, SatT.fail, SatT.skip, SatT.log, ex]

theorem Replay.flags {t t' : SatT} {l} (h : Replay t l t') :
    t'.failed = (t.failed || l.any (·.1.fails)) ∧ t'.skipped = (t.skipped || l.any (·.1.skips)) ∧
    t'.messages = t.messages ++ l.filterMap (text ·.1) := by
  induction h with
  | nil => simp
  | @cons t t1 t' o st r l he _ ih =>
    obtain ⟨e1, e2, e3⟩ := exec_flags o st t
    rw [he] at e1 e2 e3
    rw [ih.1, ih.2.1, ih.2.2, e1, e2, e3]
    refine ⟨by simp [Bool.or_assoc], by simp [Bool.or_assoc], ?_⟩
    cases e : text o <;> simp [e]

/-! ## Theorems -/

/-- **C107 (one at a time).**  Whatever the goroutines do, and in whatever order they make their steps: the calls
of methods that have taken effect are answered as if they had been made one after the other by a single
goroutine; and unless someone is in the middle of a call the fields of `SatisfyT` are as these calls leave
them. -/
theorem C107_serial (fn : Code) (ls : List Label) (s : St) (h : Steps (init fn) ls s) :
    ∃ t, Replay {} (dids ls) t ∧ (s.writer = none → s.core = t) := by
  obtain ⟨t, hi, hr⟩ := steps_inv h
  exact ⟨t, hr, hi.idle⟩

/-- **C107 (verdict).**  When all goroutines are done, the expectation is met if any of them has skipped, or none
has failed; and the report has the text of every call that adds one, in the order in which they took
effect. -/
theorem C107_verdict (fn : Code) (ls : List Label) (s : St) (h : Steps (init fn) ls s)
    (ho : s.allOver) :
    (s.core.ok = true ↔ (∃ x ∈ dids ls, x.1.skips = true) ∨ ∀ x ∈ dids ls, x.1.fails = false) ∧
    s.core.messages = (dids ls).filterMap (text ·.1) := by
  obtain ⟨t, hi, hr⟩ := steps_inv h
  have hw : s.writer = none := by
    cases e : s.writer with
    | none => rfl
    | some g =>
      have := (hi.writer g).1 e
      unfold St.stat at this
      split at this
      · rename_i th hg
        rcases ho g th hg with ⟨r, rfl⟩ | rfl <;> cases this
      · cases this
  rw [hi.idle hw]
  obtain ⟨e1, e2, e3⟩ := hr.flags
  refine ⟨?_, by simpa using e3⟩
  unfold SatT.ok
  rw [e1, e2]
  simp only [Bool.false_or, Bool.or_eq_true, List.any_eq_true, Bool.not_eq_true', List.any_eq_false,
    Bool.not_eq_true]

/-! ## Cleanup functions -/

/-- Labels that have to do with the end of `Done`. -/
def Label.ending : Label → Bool
  | .ended _ | .cleaning _ | .uncleaned _ | .over _ => true
  | _ => false

/-- The function has ended with `r`, and `i` cleanup functions are to be called yet. -/
def After (ls : List Label) (i : Nat) (r : Option SPanic) : Prop :=
  ∃ l1 l2, ls = l1 ++ .ended r :: l2 ∧ (∀ l ∈ l1, l.ending = false) ∧
    (∀ l ∈ l2, l.ending = true → ∃ fn, l = .cleaning fn) ∧ i ≤ (regs l1).length ∧
    cleaned l2 = ((regs l1).drop i).reverse

/-- `Done` has ended so. -/
def Over (ls : List Label) (x : Option String) : Prop :=
  ∃ ls' i r, After ls' i r ∧
    ((i = 0 ∧ x = rethrow r ∧ ∃ l2, ls = ls' ++ .over x :: l2 ∧ ∀ l ∈ l2, l.ending = false) ∨
      ∃ v l2, x = rethrow (some v) ∧ ls = ls' ++ .uncleaned v :: l2 ∧ ∀ l ∈ l2, l.ending = false)

/-- Where goroutine 0 is. -/
def Phase (ls : List Label) (th : Thread) : Prop :=
  match th.pos with
  | .closing i r => th.stack = [] ∧ After ls i r
  | .over x => th.stack = [] ∧ Over ls x
  | _ => (th.stack.getLast? = some .done ∧ ∀ l ∈ ls, l.ending = false) ∨
    ∃ i r, th.stack.getLast? = some (.close i r) ∧ After ls i r

theorem After.snoc {ls i r l} (h : After ls i r) (hl : l.ending = false) : After (ls ++ [l]) i r := by
  obtain ⟨l1, l2, e, h1, h2, h3, h4⟩ := h
  refine ⟨l1, l2 ++ [l], by simp [e], h1, ?_, h3, ?_⟩
  · intro l' hm he
    rcases List.mem_append.1 hm with hm | hm
    · exact h2 l' hm he
    · rw [List.mem_singleton.1 hm, hl] at he; cases he
  · rw [cleaned_append, h4]
    cases l <;> simp [cleaned] <;> cases hl

theorem Over.snoc {ls x l} (h : Over ls x) (hl : l.ending = false) : Over (ls ++ [l]) x := by
  have aux : ∀ l2 : List Label, (∀ l ∈ l2, l.ending = false) → ∀ l' ∈ l2 ++ [l], l'.ending = false := by
    intro l2 h2 l' hm
    rcases List.mem_append.1 hm with hm | hm
    · exact h2 l' hm
    · rw [List.mem_singleton.1 hm, hl]
  obtain ⟨ls', i, r, h1, ⟨h2, h3, l2, h4, h5⟩ | ⟨v, l2, h3, h4, h5⟩⟩ := h
  · exact ⟨ls', i, r, h1, .inl ⟨h2, h3, l2 ++ [l], by simp [h4], aux l2 h5⟩⟩
  · exact ⟨ls', i, r, h1, .inr ⟨v, l2 ++ [l], h3, by simp [h4], aux l2 h5⟩⟩

theorem Phase.snoc {ls th l} (h : Phase ls th) (hl : l.ending = false) : Phase (ls ++ [l]) th := by
  have aux : (∀ l ∈ ls, l.ending = false) → ∀ l' ∈ ls ++ [l], l'.ending = false := by
    intro h2 l' hm
    rcases List.mem_append.1 hm with hm | hm
    · exact h2 l' hm
    · rw [List.mem_singleton.1 hm, hl]
  have main : ∀ fs : List Frame, ((fs.getLast? = some .done ∧ ∀ l ∈ ls, l.ending = false) ∨
      ∃ i r, fs.getLast? = some (.close i r) ∧ After ls i r) →
      ((fs.getLast? = some .done ∧ ∀ l' ∈ ls ++ [l], l'.ending = false) ∨
      ∃ i r, fs.getLast? = some (.close i r) ∧ After (ls ++ [l]) i r) := by
    rintro fs (h | ⟨i, r, h1, h2⟩)
    · exact .inl ⟨h.1, aux h.2⟩
    · exact .inr ⟨i, r, h1, h2.snoc hl⟩
  obtain ⟨p, fs⟩ := th
  cases p <;> first | exact main fs h | exact ⟨h.1, h.2.snoc hl⟩

def Pos.ends : Pos → Bool
  | .closing .. | .over _ => true
  | _ => false

/-- The invariant about cleanup functions. -/
structure Clean (ls : List Label) (s : St) : Prop where
  first : ∃ th, s.threads 0 = some th ∧ Phase ls th
  others : ∀ g th, g ≠ 0 → s.threads g = some th →
    th.pos.ends = false ∧ ∀ f ∈ th.stack, f.isFmt = true
  regs : s.cleanup = regs ls
  app : ∀ g l fn k fs, s.threads g = some ⟨.append l fn k, fs⟩ → l = s.cleanup
  next : s.next ≠ 0

theorem Phase.last {ls : List Label} {p : Pos} {fs : List Frame} (hp : p.ends = false) :
    Phase ls ⟨p, fs⟩ ↔ (fs.getLast? = some .done ∧ ∀ l ∈ ls, l.ending = false) ∨
      ∃ i r, fs.getLast? = some (.close i r) ∧ After ls i r := by
  cases p <;> first | exact Iff.rfl | cases hp

/-- The stack of goroutine 0 has a frame at the bottom while it runs code. -/
theorem Clean.bottom {ls : List Label} {s : St} {p : Pos} {fs : List Frame} (hc : Clean ls s)
    (h : s.threads 0 = some ⟨p, fs⟩) (hp : p.ends = false) : ∃ f, fs.getLast? = some f ∧ f.isFmt = false := by
  obtain ⟨th, h1, h2⟩ := hc.first
  rw [h1] at h; cases h
  rcases (Phase.last hp).1 h2 with h | ⟨i, r, h, _⟩
  · exact ⟨_, h.1, rfl⟩
  · exact ⟨_, h, rfl⟩

/-- Where neither the end of `Done` nor the list of cleanup functions is concerned. -/
theorem Clean.move {ls : List Label} {s s1 : St} {g : Nat} {p p' : Pos} {fs fs' : List Frame} {l : Label}
    (hc : Clean ls s) (h : s.threads g = some ⟨p, fs⟩) (hp : p.ends = false) (hp' : p'.ends = false)
    (hfs : fs' = fs ∨ (∃ o st k, fs' = .fmt o st k :: fs) ∨ ∃ o st k, fs = .fmt o st k :: fs')
    (ht : s1.threads = s.threads) (hcl : s1.cleanup = s.cleanup) (hn : s1.next = s.next)
    (hl : l.ending = false) (hl' : Par.regs [l] = [])
    (hap : ∀ x fn k, p' = .append x fn k → x = s.cleanup) :
    Clean (ls ++ [l]) (s1.set g p' fs') := by
  have hth : ∀ u th, (s1.set g p' fs').threads u = some th →
      (u = g ∧ th = ⟨p', fs'⟩) ∨ (u ≠ g ∧ s.threads u = some th) := by
    intro u th hu
    simp only [St.set] at hu
    split at hu
    · next e => exact .inl ⟨e, (Option.some.inj hu).symm⟩
    · next e => exact .inr ⟨e, ht ▸ hu⟩
  constructor
  · by_cases e : g = 0
    · subst e
      refine ⟨⟨p', fs'⟩, by simp [St.set], ?_⟩
      obtain ⟨th, h1, h2⟩ := hc.first
      rw [h1] at h; cases h
      obtain ⟨f, hf1, hf2⟩ := hc.bottom h1 hp
      have hlast : fs'.getLast? = fs.getLast? := by
        rcases hfs with rfl | ⟨o, st, k, rfl⟩ | ⟨o, st, k, rfl⟩
        · rfl
        · cases fs with
          | nil => cases hf1
          | cons a b => rw [List.getLast?_cons_cons]
        · cases fs' with
          | nil => simp at hf1; subst hf1; cases hf2
          | cons a b => rw [List.getLast?_cons_cons]
      have := (Phase.last hp).1 (h2.snoc hl)
      rw [← hlast] at this
      exact (Phase.last hp').2 this
    · obtain ⟨th, h1, h2⟩ := hc.first
      refine ⟨th, ?_, h2.snoc hl⟩
      simp only [St.set]
      rw [if_neg (fun x => e x.symm), ht]; exact h1
  · intro u th hu hth'
    rcases hth u th hth' with ⟨rfl, rfl⟩ | ⟨_, k⟩
    · have := (hc.others u _ hu h).2
      refine ⟨hp', ?_⟩
      rcases hfs with rfl | ⟨o, st, k, rfl⟩ | ⟨o, st, k, rfl⟩
      · exact this
      · intro f hf
        rcases List.mem_cons.1 hf with rfl | hf
        · rfl
        · exact this f hf
      · exact fun f hf => this f (List.mem_cons_of_mem _ hf)
    · exact hc.others u th hu k
  · rw [regs_append, hl', List.append_nil]
    exact hcl.trans hc.regs
  · intro u x fn k fs'' hu
    show x = s1.cleanup
    rw [hcl]
    rcases hth u _ hu with ⟨rfl, e⟩ | ⟨_, k'⟩
    · cases e; exact hap _ _ _ rfl
    · exact hc.app u x fn k fs'' k'
  · show s1.next ≠ 0
    rw [hn]; exact hc.next

/-- A step of goroutine 0 towards the end. -/
theorem Clean.zero {ls : List Label} {s : St} {th : Thread} {p' : Pos} {fs' : List Frame} {l : Label}
    (hc : Clean ls s) (_ : s.threads 0 = some th) (hl' : Par.regs [l] = [])
    (hp : Phase (ls ++ [l]) ⟨p', fs'⟩) (hap : ∀ x fn k, p' ≠ .append x fn k) :
    Clean (ls ++ [l]) (s.set 0 p' fs') := by
  constructor
  · exact ⟨_, by simp [St.set], hp⟩
  · intro u th hu hth
    simp only [St.set] at hth
    rw [if_neg hu] at hth
    exact hc.others u th hu hth
  · rw [regs_append, hl', List.append_nil]; exact hc.regs
  · intro u x fn k fs hu
    simp only [St.set] at hu
    split at hu
    · cases hu; exact absurd rfl (hap _ _ _)
    · exact hc.app u x fn k fs hu
  · exact hc.next

theorem Clean.step {ls : List Label} {s s' : St} {t : SatT} {l : Label} (hc : Clean ls s) (hi : Inv s t)
    (h : Step s l s') : Clean (ls ++ [l]) s' := by
  have hfst : ∀ {g p fs}, s.threads g = some ⟨p, fs⟩ → (p.ends = true ∨ ∃ f ∈ fs, f.isFmt = false) →
      g = 0 := by
    intro g p fs h hx
    by_cases e : g = 0
    · exact e
    · obtain ⟨h1, h2⟩ := hc.others g _ e h
      rcases hx with hx | ⟨f, hf, hx⟩
      · rw [show p.ends = false from h1] at hx; cases hx
      · rw [h2 f hf] at hx; cases hx
  cases h with
  | plain h hm hcr => exact hc.move h rfl rfl (.inl rfl) rfl rfl rfl rfl rfl nofun
  | readOp h hm hcr => exact hc.move h rfl rfl (.inl rfl) rfl rfl rfl rfl rfl nofun
  | rlock h hp hw hcr => exact hc.move h rfl rfl (.inl rfl) rfl rfl rfl rfl rfl nofun
  | read h hcr => exact hc.move h rfl rfl (.inl rfl) rfl rfl rfl rfl rfl nofun
  | runlock h hcr => exact hc.move h rfl rfl (.inl rfl) rfl rfl rfl rfl rfl nofun
  | writeOp h hm hcr => exact hc.move h rfl rfl (.inl rfl) rfl rfl rfl rfl rfl nofun
  | cleanupOp h hcr => exact hc.move h rfl rfl (.inl rfl) rfl rfl rfl rfl rfl nofun
  | announce h hp hw hcr => exact hc.move h rfl rfl (.inl rfl) rfl rfl rfl rfl rfl nofun
  | acquire h hr hcr => exact hc.move h rfl rfl (.inl rfl) rfl rfl rfl rfl rfl nofun
  | format h hf hcr => exact hc.move h rfl rfl (.inr (.inl ⟨_, _, _, rfl⟩)) rfl rfl rfl rfl rfl nofun
  | formatted h hr hcr => exact hc.move h rfl rfl (.inr (.inr ⟨_, _, _, rfl⟩)) rfl rfl rfl rfl rfl nofun
  | begin h hf hcr => exact hc.move h rfl rfl (.inl rfl) rfl rfl rfl rfl rfl nofun
  | access h hcr => exact hc.move h rfl rfl (.inl rfl) rfl rfl rfl rfl rfl nofun
  | finish h hcr => exact hc.move h rfl rfl (.inl rfl) rfl rfl rfl rfl rfl nofun
  | load h hcr =>
    exact hc.move h rfl rfl (.inl rfl) rfl rfl rfl rfl rfl fun x fn k e => by cases e; rfl
  | unlock h hcr => exact hc.move h rfl rfl (.inl rfl) rfl rfl rfl rfl rfl nofun
  | @append g x fn k fs h hcr =>
    have hx := hc.app _ _ _ _ _ h
    have hw : s.writer = some g := (hi.writer g).2 (by rw [stat_eq h]; rfl)
    have hm := hc.move (p' := .unlock k) (s1 := s) (l := .tau g) h rfl rfl (.inl rfl) rfl rfl rfl rfl rfl nofun
    obtain ⟨th, t1, t2⟩ := hc.first
    constructor
    · by_cases e : g = 0
      · subst e
        rw [t1] at h; cases h
        exact ⟨⟨.unlock k, fs⟩, by simp [St.set],
          (Phase.last rfl).2 ((Phase.last rfl).1 (t2.snoc (l := .registered 0 fn) rfl))⟩
      · refine ⟨th, ?_, t2.snoc rfl⟩
        simp only [St.set]
        rw [if_neg (fun x => e x.symm)]; exact t1
    · exact hm.others
    · rw [regs_append]
      show x ++ [fn] = _
      rw [hx, hc.regs]; rfl
    · intro u x' fn' k' fs' hu
      simp only [St.set] at hu
      split at hu
      · cases hu
      · next e =>
        have := (hi.writer u).2 (by rw [stat_eq hu]; rfl)
        rw [hw] at this; cases this; exact absurd rfl e
    · exact hc.next
  | @go g fn k fs h hcr =>
    have hlt : ¬ s.next ≤ g := fun hn => by rw [hi.fresh g hn] at h; cases h
    have hm := hc.move (p' := .code k) (s1 := s) (l := .started g s.next) h rfl rfl (.inl rfl) rfl rfl rfl rfl
      rfl nofun
    have hth : ∀ u, ((({ s with next := s.next + 1 }.set s.next (.code fn) []).set g (.code k) fs).threads u) =
        if u = s.next then some ⟨.code fn, []⟩ else (s.set g (.code k) fs).threads u := by
      intro u
      simp only [St.set]
      by_cases e : u = g
      · subst e; rw [if_pos rfl, if_neg (by omega), if_pos rfl]
      · rw [if_neg e]
        split <;> rfl
    constructor
    · obtain ⟨th, t1, t2⟩ := hm.first
      refine ⟨th, ?_, t2⟩
      rw [hth, if_neg (fun e => hc.next e.symm)]; exact t1
    · intro u th hu hx
      rw [hth] at hx
      split at hx
      · cases hx; exact ⟨rfl, nofun⟩
      · exact hm.others u th hu hx
    · exact hm.regs
    · intro u x fn' k' fs' hu
      rw [hth] at hu
      split at hu
      · cases hu
      · exact hm.app u x fn' k' fs' hu
    · exact Nat.succ_ne_zero _
  | @crash g v h hcr =>
    obtain ⟨th, t1, t2⟩ := hc.first
    exact ⟨⟨th, t1, t2.snoc rfl⟩, hc.others, by
      rw [regs_append]; simpa [Par.regs] using hc.regs, hc.app, hc.next⟩
  | @ended g c r h hr hcr =>
    obtain rfl := hfst h (.inr ⟨.done, by simp, rfl⟩)
    refine hc.zero h rfl ⟨rfl, ?_⟩ nofun
    obtain ⟨th, t1, t2⟩ := hc.first
    rw [t1] at h; cases h
    rcases (Phase.last rfl).1 t2 with ⟨_, h2⟩ | ⟨i, r, h1, _⟩
    · exact ⟨ls, [], rfl, h2, nofun, by rw [hc.regs]; exact Nat.le_refl _,
        by rw [hc.regs, List.drop_length]; rfl⟩
    · cases h1
  | @clean g i r fn h hf hcr =>
    obtain rfl := hfst h (.inl rfl)
    refine hc.zero h rfl ((Phase.last rfl).2 (.inr ⟨i, r, rfl, ?_⟩)) nofun
    obtain ⟨th, t1, t2⟩ := hc.first
    rw [t1] at h; cases h
    obtain ⟨_, l1, l2, e, h1, h2, h3, h4⟩ := t2
    refine ⟨l1, l2 ++ [.cleaning fn], by simp [e], h1, ?_, by omega, ?_⟩
    · intro l hm he
      rcases List.mem_append.1 hm with hm | hm
      · exact h2 l hm he
      · exact ⟨fn, List.mem_singleton.1 hm⟩
    · have hlt : i < (Par.regs l1).length := by omega
      have hget : (Par.regs l1)[i] = fn := by
        rw [hc.regs, e, regs_append, List.getElem?_append_left hlt, List.getElem?_eq_getElem hlt] at hf
        exact Option.some.inj hf
      rw [cleaned_append, h4, List.drop_eq_getElem_cons hlt, hget]
      simp [Par.cleaned]
  | @cleaned g i r h hcr =>
    obtain rfl := hfst h (.inr ⟨.close i r, by simp, rfl⟩)
    refine hc.zero h rfl ⟨rfl, ?_⟩ nofun
    obtain ⟨th, t1, t2⟩ := hc.first
    rw [t1] at h; cases h
    rcases (Phase.last rfl).1 t2 with ⟨h1, _⟩ | ⟨i, r, h1, h2⟩
    · cases h1
    · cases h1; exact h2.snoc rfl
  | @unclean g i r v h hcr =>
    obtain rfl := hfst h (.inr ⟨.close i r, by simp, rfl⟩)
    refine hc.zero h rfl ⟨rfl, ?_⟩ nofun
    obtain ⟨th, t1, t2⟩ := hc.first
    rw [t1] at h; cases h
    rcases (Phase.last rfl).1 t2 with ⟨h1, _⟩ | ⟨i, r, h1, h2⟩
    · cases h1
    · cases h1; exact ⟨ls, i, r, h2, .inr ⟨v, [], rfl, rfl, nofun⟩⟩
  | @over g r h hcr =>
    obtain rfl := hfst h (.inl rfl)
    refine hc.zero h rfl ⟨rfl, ?_⟩ nofun
    obtain ⟨th, t1, t2⟩ := hc.first
    rw [t1] at h; cases h
    exact ⟨ls, 0, r, t2.2, .inl ⟨rfl, rfl, [], rfl, nofun⟩⟩

theorem steps_clean {fn : Code} {ls : List Label} {s : St} (h : Steps (init fn) ls s) : Clean ls s := by
  induction h with
  | nil =>
    refine ⟨⟨_, rfl, .inl ⟨rfl, nofun⟩⟩, ?_, rfl, ?_, by simp [init]⟩
    · intro g th hg h; simp [init, hg] at h
    · intro g l f k fs h; simp only [init] at h; split at h <;> cases h
  | snoc h hs ih =>
    obtain ⟨t, hi, _⟩ := steps_inv h
    exact ih.step hi hs

def Label.isEnded : Label → Bool
  | .ended _ => true
  | _ => false

theorem ended_split {l1 l2 m1 m2 : List Label} {a b : Label} (ha : a.isEnded = true)
    (h1 : ∀ l ∈ m1, l.isEnded = false) (h2 : ∀ l ∈ m2, l.isEnded = false)
    (e : l1 ++ a :: l2 = m1 ++ b :: m2) : l1 = m1 ∧ a = b ∧ l2 = m2 := by
  induction l1 generalizing m1 with
  | nil =>
    cases m1 with
    | nil => simp at e; exact ⟨rfl, e.1, e.2⟩
    | cons x m1 =>
      simp at e
      rw [← e.1] at h1
      rw [h1 a (by simp)] at ha; cases ha
  | cons x l1 ih =>
    cases m1 with
    | nil =>
      simp at e
      have := h2 a (by rw [← e.2]; simp)
      rw [this] at ha; cases ha
    | cons y m1 =>
      simp at e
      obtain ⟨rfl, h, h'⟩ := ih (fun l hl => h1 l (by simp [hl])) e.2
      exact ⟨by rw [e.1], h, h'⟩

theorem cleaned_none {l : List Label} (h : ∀ x ∈ l, x.ending = false) : cleaned l = [] := by
  induction l with
  | nil => rfl
  | cons x l ih =>
    have := h x (by simp)
    have ih := ih fun y hy => h y (by simp [hy])
    cases x <;> first | exact ih | cases this

theorem uncleaned_split {l1 l2 m1 m2 : List Label} {v w : SPanic}
    (h1 : ∀ l ∈ m1, ∀ u, l ≠ .uncleaned u) (h2 : ∀ l ∈ m2, ∀ u, l ≠ .uncleaned u)
    (e : l1 ++ .uncleaned v :: l2 = m1 ++ .uncleaned w :: m2) : v = w ∧ l2 = m2 := by
  induction l1 generalizing m1 with
  | nil =>
    cases m1 with
    | nil => simp at e; exact e
    | cons x m1 =>
      simp at e
      exact absurd e.1.symm (h1 x (by simp) v)
  | cons x l1 ih =>
    cases m1 with
    | nil =>
      simp at e
      exact absurd rfl (h2 (.uncleaned v) (by rw [← e.2]; simp) v)
    | cons y m1 =>
      simp at e
      exact ih (fun l hl => h1 l (by simp [hl])) e.2

/-- **C107 (cleanup functions).**  When the function given to `ToSatisfy()` ends, in whatever way, the cleanup
functions that any goroutine has registered by then are called, each once, the last one first, until one of
them panics; functions registered later are not called.  `Done` ends as the function did, or as the
cleanup function that panicked. -/
theorem C107_cleanups (fn : Code) (ls : List Label) (s : St) (h : Steps (init fn) ls s)
    (l1 l2 : List Label) (r : Option SPanic) (e : ls = l1 ++ .ended r :: l2) :
    cleaned l1 = [] ∧
    (∃ rest, (regs l1).reverse = cleaned l2 ++ rest ∧
      ∀ x, s.threads 0 = some ⟨.over x, []⟩ → (∀ v, .uncleaned v ∉ l2) → rest = [] ∧ x = rethrow r) ∧
    ∀ m1 v m2, l2 = m1 ++ .uncleaned v :: m2 →
      cleaned m2 = [] ∧ s.threads 0 = some ⟨.over (rethrow (some v)), []⟩ := by
  have hc := steps_clean h
  obtain ⟨th, t1, t2⟩ := hc.first
  have ne : ∀ {l : List Label}, (∀ x ∈ l, x.ending = false) → ∀ x ∈ l, x.isEnded = false := by
    intro l hl x hx
    have := hl x hx
    cases x <;> first | rfl | cases this
  have ne2 : ∀ {l : List Label}, (∀ x ∈ l, x.ending = true → ∃ fn, x = .cleaning fn) →
      ∀ x ∈ l, x.isEnded = false := by
    intro l hl x hx
    cases x with
    | ended r => obtain ⟨fn, h⟩ := hl _ hx rfl; cases h
    | _ => rfl
  have nu : ∀ {l : List Label}, (∀ x ∈ l, x.ending = false) → ∀ x ∈ l, ∀ u, x ≠ .uncleaned u := by
    intro l hl x hx u e
    have := hl x hx
    rw [e] at this; cases this
  have nu2 : ∀ {l : List Label}, (∀ x ∈ l, x.ending = true → ∃ fn, x = .cleaning fn) →
      ∀ x ∈ l, ∀ u, x ≠ .uncleaned u := by
    intro l hl x hx u e
    obtain ⟨fn, h⟩ := hl _ hx (by rw [e]; rfl)
    rw [e] at h; cases h
  have after : ∀ i r', After ls i r' → (∀ x, s.threads 0 ≠ some ⟨.over x, []⟩) →
      cleaned l1 = [] ∧
      (∃ rest, (regs l1).reverse = cleaned l2 ++ rest ∧
        ∀ x, s.threads 0 = some ⟨.over x, []⟩ → (∀ v, .uncleaned v ∉ l2) → rest = [] ∧ x = rethrow r) ∧
      ∀ m1 v m2, l2 = m1 ++ .uncleaned v :: m2 →
        cleaned m2 = [] ∧ s.threads 0 = some ⟨.over (rethrow (some v)), []⟩ := by
    rintro i r' ⟨m1, m2, e', a1, a2, a3, a4⟩ hno
    obtain ⟨rfl, b, rfl⟩ := ended_split rfl (ne a1) (ne2 a2) (e.symm.trans e')
    cases b
    refine ⟨cleaned_none a1, ⟨((regs l1).take i).reverse, ?_, fun x hx => absurd hx (hno x)⟩, ?_⟩
    · rw [a4, ← List.reverse_append, List.take_append_drop]
    · intro m1 v m2 h
      exact absurd rfl (nu2 a2 (.uncleaned v) (by rw [h]; simp) v)
  by_cases hov : ∃ x, th.pos = .over x
  · obtain ⟨x, hx⟩ := hov
    obtain ⟨p, fs⟩ := th
    simp only at hx; subst hx
    obtain ⟨rfl, ls', i, r', ⟨m1, m2, e', a1, a2, a3, a4⟩, hov⟩ := t2
    rcases hov with ⟨rfl, rfl, k2, k3, k4⟩ | ⟨v, k2, rfl, k3, k4⟩
    · obtain ⟨rfl, b, rfl⟩ := ended_split (b := .ended r') (m1 := m1) (m2 := m2 ++ .over (rethrow r') :: k2) rfl
        (ne a1) (fun l hl => by
          rcases List.mem_append.1 hl with hl | hl
          · exact ne2 a2 l hl
          · rcases List.mem_cons.1 hl with rfl | hl
            · rfl
            · exact ne k4 l hl) (e.symm.trans (by rw [k3, e']; simp))
      cases b
      refine ⟨cleaned_none a1, ⟨[], ?_, fun x hx _ => ?_⟩, ?_⟩
      · rw [cleaned_append, a4]
        simp [cleaned, cleaned_none k4]
      · rw [t1] at hx; cases hx; exact ⟨rfl, rfl⟩
      · intro n1 v n2 h
        have hm : Label.uncleaned v ∈ m2 ++ .over (rethrow r) :: k2 := by rw [h]; simp
        rcases List.mem_append.1 hm with hm | hm
        · exact absurd rfl (nu2 a2 _ hm v)
        · rcases List.mem_cons.1 hm with hm | hm
          · cases hm
          · exact absurd rfl (nu k4 _ hm v)
    · obtain ⟨rfl, b, rfl⟩ := ended_split (b := .ended r') (m1 := m1) (m2 := m2 ++ .uncleaned v :: k2) rfl (ne a1)
        (fun l hl => by
          rcases List.mem_append.1 hl with hl | hl
          · exact ne2 a2 l hl
          · rcases List.mem_cons.1 hl with rfl | hl
            · rfl
            · exact ne k4 l hl) (e.symm.trans (by rw [k3, e']; simp))
      cases b
      refine ⟨cleaned_none a1, ⟨((regs l1).take i).reverse, ?_, fun x hx hno => ?_⟩, ?_⟩
      · rw [cleaned_append, a4]
        simp only [cleaned, cleaned_none k4, List.append_nil]
        rw [← List.reverse_append, List.take_append_drop]
      · exact absurd (by simp) (hno v)
      · intro n1 w n2 h
        obtain ⟨rfl, rfl⟩ := uncleaned_split (nu2 a2) (nu k4) h.symm
        exact ⟨cleaned_none k4, t1⟩
  · have hno : ∀ x, s.threads 0 ≠ some ⟨.over x, []⟩ := by
      intro x hx; rw [t1] at hx; cases hx; exact hov ⟨x, rfl⟩
    by_cases hcl : ∃ i r, th.pos = .closing i r
    · obtain ⟨i, r', hx⟩ := hcl
      obtain ⟨p, fs⟩ := th
      simp only at hx; subst hx
      exact after i r' t2.2 hno
    · obtain ⟨p, fs⟩ := th
      have hp : p.ends = false := by
        cases p <;> first | rfl | exact absurd ⟨_, rfl⟩ hov | exact absurd ⟨_, _, rfl⟩ hcl
      rcases (Phase.last hp).1 t2 with ⟨_, h2⟩ | ⟨i, r', _, h2⟩
      · have := h2 (.ended r) (by rw [e]; simp)
        cases this
      · exact after i r' h2 hno

/-- `Done` does not end before the function has (so that `C107_cleanups` applies). -/
theorem C107_over (fn : Code) (ls : List Label) (s : St) (h : Steps (init fn) ls s) (x : Option String)
    (fs : List Frame) (hx : s.threads 0 = some ⟨.over x, fs⟩) : ∃ l1 r l2, ls = l1 ++ .ended r :: l2 := by
  obtain ⟨th, t1, t2⟩ := (steps_clean h).first
  rw [hx] at t1; cases t1
  obtain ⟨_, ls', i, r, ⟨l1, l2, e, _⟩, ⟨_, _, k2, hk, _⟩ | ⟨v, k2, _, hk, _⟩⟩ := t2
  · exact ⟨l1, r, l2 ++ .over x :: k2, by rw [hk, e]; simp⟩
  · exact ⟨l1, r, l2 ++ .uncleaned v :: k2, by rw [hk, e]; simp⟩

/-! ## Progress -/

def inFmt : List Frame → Bool
  | .fmt .. :: _ => true
  | _ => false

def Write.Fit : Write → Prop
  | .op o _ f k => (formats o = true → f.Fit true) ∧ ∀ r, (k r).Fit false
  | .cleanup fn k => fn.Fit false ∧ k.Fit false

def Pos.Fit (q : Bool) : Pos → Prop
  | .code c => c.Fit q
  | .rlock _ _ k | .reading _ _ k | .runlock _ k | .body _ _ _ k => q = false ∧ ∀ r, (k r).Fit false
  | .lock w | .pending w | .locked w => q = false ∧ w.Fit
  | .append _ fn k => q = false ∧ fn.Fit false ∧ k.Fit false
  | .unlock c => q = false ∧ c.Fit false
  | .closing .. | .over _ => True

def Frame.Fit : Frame → Prop
  | .fmt _ _ k => ∀ r, (k r).Fit false
  | _ => True

structure Thread.Fit (th : Thread) : Prop where
  pos : th.pos.Fit (inFmt th.stack)
  frames : ∀ f ∈ th.stack, f.Fit
  bottom : ∀ f ∈ th.stack.dropLast, f.isFmt = true

structure St.Fit (s : St) : Prop where
  threads : ∀ g th, s.threads g = some th → th.Fit
  cleanup : ∀ c ∈ s.cleanup, c.Fit false

theorem St.Fit.set {s s1 : St} {g : Nat} {p : Pos} {fs : List Frame} (h : s.Fit) (ht : s1.threads = s.threads)
    (hc : ∀ c ∈ s1.cleanup, c.Fit false) (hth : (⟨p, fs⟩ : Thread).Fit) : (s1.set g p fs).Fit := by
  refine ⟨fun u th hu => ?_, hc⟩
  simp only [St.set] at hu
  split at hu
  · cases hu; exact hth
  · exact h.threads u th (ht ▸ hu)

theorem not_inFmt {fs : List Frame} (h : fs.any Frame.isFmt = false) : inFmt fs = false := by
  cases fs with
  | nil => rfl
  | cons f fs => cases f <;> simp_all [inFmt, Frame.isFmt]

theorem St.Fit.step {s s' : St} {ls : List Label} {t : SatT} {l : Label} (hs : s.Fit) (hc : Clean ls s)
    (hi : Inv s t) (h : Step s l s') : s'.Fit := by
  cases h with
  | @plain g o st f k fs h hm hcr =>
    have := hs.threads _ _ h
    exact hs.set rfl hs.cleanup ⟨this.pos.2.2 _, this.frames, this.bottom⟩
  | @readOp g o st f k fs h hm hcr =>
    have := hs.threads _ _ h
    have q : inFmt fs = false := by
      cases e : inFmt fs with
      | false => rfl
      | true => have := this.pos.1 e; rw [hm] at this; cases this
    have p := this.pos.2.2
    simp only [q] at p
    exact hs.set rfl hs.cleanup ⟨⟨q, p⟩, this.frames, this.bottom⟩
  | @rlock g o st k fs h hp hw hcr =>
    have := hs.threads _ _ h
    exact hs.set rfl hs.cleanup ⟨this.pos, this.frames, this.bottom⟩
  | @read g o st k fs h hcr =>
    have := hs.threads _ _ h
    exact hs.set rfl hs.cleanup ⟨this.pos, this.frames, this.bottom⟩
  | @runlock g r k fs h hcr =>
    have := hs.threads _ _ h
    exact hs.set rfl hs.cleanup ⟨by rw [show inFmt fs = false from this.pos.1]; exact this.pos.2 _, this.frames,
      this.bottom⟩
  | @writeOp g o st f k fs h hm hcr =>
    have := hs.threads _ _ h
    have q : inFmt fs = false := by
      cases e : inFmt fs with
      | false => rfl
      | true => have := this.pos.1 e; rw [hm] at this; cases this
    have p := this.pos.2
    simp only [q] at p
    exact hs.set rfl hs.cleanup ⟨⟨q, p⟩, this.frames, this.bottom⟩
  | @cleanupOp g fn k fs h hcr =>
    have := hs.threads _ _ h
    have p := this.pos
    have q : inFmt fs = false := p.1
    simp only [q] at p
    exact hs.set rfl hs.cleanup ⟨⟨q, p.2⟩, this.frames, this.bottom⟩
  | announce h hp hw hcr =>
    have := hs.threads _ _ h
    exact hs.set rfl hs.cleanup ⟨this.pos, this.frames, this.bottom⟩
  | acquire h hr hcr =>
    have := hs.threads _ _ h
    exact hs.set rfl hs.cleanup ⟨this.pos, this.frames, this.bottom⟩
  | @format g o st f k fs h hf hcr =>
    have := hs.threads _ _ h
    refine hs.set rfl hs.cleanup ⟨this.pos.2.1 hf, ?_, ?_⟩
    · intro x hx
      rcases List.mem_cons.1 hx with rfl | hx
      · exact this.pos.2.2
      · exact this.frames x hx
    · intro x hx
      cases fs with
      | nil => cases hx
      | cons a b =>
        rcases List.mem_cons.1 hx with rfl | hx
        · rfl
        · exact this.bottom x hx
  | @formatted g c r o st k fs h hr hcr =>
    have := hs.threads _ _ h
    have ok := hi.ok _ _ h
    refine hs.set rfl hs.cleanup ⟨⟨not_inFmt ok, this.frames _ (List.mem_cons_self ..)⟩,
      fun x hx => this.frames x (List.mem_cons_of_mem _ hx), fun x hx => this.bottom x ?_⟩
    cases fs with
    | nil => cases hx
    | cons a b => exact List.mem_cons_of_mem _ hx
  | begin h hf hcr =>
    have := hs.threads _ _ h
    exact hs.set rfl hs.cleanup ⟨⟨this.pos.1, this.pos.2.2⟩, this.frames, this.bottom⟩
  | access h hcr =>
    have := hs.threads _ _ h
    exact hs.set rfl hs.cleanup ⟨this.pos, this.frames, this.bottom⟩
  | @finish g o st r k fs h hcr =>
    have := hs.threads _ _ h
    exact hs.set rfl hs.cleanup ⟨by rw [show inFmt fs = false from this.pos.1]; exact this.pos.2 _, this.frames,
      this.bottom⟩
  | load h hcr =>
    have := hs.threads _ _ h
    exact hs.set rfl hs.cleanup ⟨this.pos, this.frames, this.bottom⟩
  | @append g x fn k fs h hcr =>
    have := hs.threads _ _ h
    refine hs.set rfl ?_ ⟨⟨this.pos.1, this.pos.2.2⟩, this.frames, this.bottom⟩
    intro c hm
    rcases List.mem_append.1 hm with hm | hm
    · exact hs.cleanup c (hc.app _ _ _ _ _ h ▸ hm)
    · rw [List.mem_singleton.1 hm]; exact this.pos.2.1
  | @unlock g c fs h hcr =>
    have := hs.threads _ _ h
    exact hs.set rfl hs.cleanup ⟨by rw [show inFmt fs = false from this.pos.1]; exact this.pos.2, this.frames,
      this.bottom⟩
  | @go g fn k fs h hcr =>
    have := hs.threads _ _ h
    refine St.Fit.set (s := { s with next := s.next + 1 }.set s.next (.code fn) []) ?_ rfl hs.cleanup
      ⟨this.pos.2, this.frames, this.bottom⟩
    exact hs.set rfl hs.cleanup ⟨this.pos.1, nofun, nofun⟩
  | crash h hcr => exact ⟨hs.threads, hs.cleanup⟩
  | ended h hr hcr => exact hs.set rfl hs.cleanup ⟨trivial, nofun, nofun⟩
  | clean h hf hcr =>
    refine hs.set rfl hs.cleanup ⟨hs.cleanup _ (List.mem_of_getElem? hf), ?_, nofun⟩
    intro f hf
    rw [List.mem_singleton.1 hf]; trivial
  | cleaned h hcr => exact hs.set rfl hs.cleanup ⟨trivial, nofun, nofun⟩
  | unclean h hcr => exact hs.set rfl hs.cleanup ⟨trivial, nofun, nofun⟩
  | over h hcr => exact hs.set rfl hs.cleanup ⟨trivial, nofun, nofun⟩

theorem steps_fit {fn : Code} {ls : List Label} {s : St} (hf : fn.Fit false) (h : Steps (init fn) ls s) :
    s.Fit := by
  induction h with
  | nil =>
    refine ⟨fun g th h => ?_, nofun⟩
    simp only [init] at h
    split at h
    · cases h
      exact ⟨hf, fun f hf => by rw [List.mem_singleton.1 hf]; trivial, nofun⟩
    · cases h
  | snoc h hs ih =>
    obtain ⟨t, hi, _⟩ := steps_inv h
    exact ih.step (steps_clean h) hi hs

/-- Code that is not over can go on, unless it wants the lock. -/
theorem code_step {s : St} {g : Nat} {c : Code} {fs : List Frame} (h : s.threads g = some ⟨.code c, fs⟩)
    (hc : s.crashed = false) (hr : c.result = none) : ∃ l s', Step s l s' := by
  cases c with
  | ret => cases hr
  | panic v => cases hr
  | op o st f k =>
    cases hm : mode o with
    | none => exact ⟨_, _, .plain h hm hc⟩
    | read => exact ⟨_, _, .readOp h hm hc⟩
    | write => exact ⟨_, _, .writeOp h hm hc⟩
  | cleanup fn k => exact ⟨_, _, .cleanupOp h hc⟩
  | go fn k => exact ⟨_, _, .go h hc⟩

theorem write_step {s : St} {g : Nat} {w : Write} {fs : List Frame} (h : s.threads g = some ⟨.locked w, fs⟩)
    (hc : s.crashed = false) : ∃ l s', Step s l s' := by
  cases w with
  | op o st f k =>
    cases hf : formats o with
    | true => exact ⟨_, _, .format h hf hc⟩
    | false => exact ⟨_, _, .begin h hf hc⟩
  | cleanup fn k => exact ⟨_, _, .load h hc⟩

theorem body_step {s : St} {g : Nat} {o st b k} {fs : List Frame} (h : s.threads g = some ⟨.body o st b k, fs⟩)
    (hc : s.crashed = false) : ∃ l s', Step s l s' := by
  cases b with
  | done r => exact ⟨_, _, .finish h hc⟩
  | step u n => exact ⟨_, _, .access h hc⟩

/-- **C107 (no deadlock).**  If no code uses `t` while its own arguments are being formatted by one of `t`'s methods,
then, unless a panic has ended the program, some goroutine can go on until all are done. -/
theorem C107_progress (fn : Code) (hfit : fn.Fit false) (ls : List Label) (s : St)
    (h : Steps (init fn) ls s) (hc : s.crashed = false) : s.allOver ∨ ∃ l s', Step s l s' := by
  obtain ⟨t, hi, _⟩ := steps_inv h
  have hcl := steps_clean h
  have hf := steps_fit hfit h
  cases hw : s.writer with
  | some g =>
    right
    have hst := (hi.writer g).1 hw
    unfold St.stat at hst
    split at hst
    rotate_left
    · cases hst
    rename_i th hg
    obtain ⟨p, fs⟩ := th
    have h1 := hi.ok _ _ hg; have h2 := hf.threads _ _ hg
    have fmt : fs.any Frame.isFmt = true → fs.tail.any Frame.isFmt = false →
        ∃ o st k fs', fs = .fmt o st k :: fs' := by
      intro a b
      cases fs with
      | nil => cases a
      | cons f fs =>
        cases f with
        | fmt o st k => exact ⟨o, st, k, fs, rfl⟩
        | _ => rw [List.any_cons] at a; rw [List.tail_cons] at b; rw [b] at a; cases a
    cases p with
    | locked w => exact write_step hg hc
    | body o st b k => exact body_step hg hc
    | append l fn k => exact ⟨_, _, .append hg hc⟩
    | unlock c => exact ⟨_, _, .unlock hg hc⟩
    | reading o st k => cases hst
    | runlock r k => cases hst
    | pending w => cases hst
    | code c =>
      cases hr : c.result with
      | none => exact code_step hg hc hr
      | some r =>
        have : fs.any Frame.isFmt = true := by
          simp only [Thread.status] at hst
          split at hst
          · assumption
          · cases hst
        obtain ⟨o, st, k, fs', rfl⟩ := fmt this h1
        exact ⟨_, _, .formatted hg hr hc⟩
    | rlock o st k =>
      have : fs.any Frame.isFmt = true := by
        simp only [Thread.status] at hst
        split at hst
        · assumption
        · cases hst
      obtain ⟨o, st, k, fs', rfl⟩ := fmt this h1
      cases h2.pos.1
    | lock w =>
      have : fs.any Frame.isFmt = true := by
        simp only [Thread.status] at hst
        split at hst
        · assumption
        · cases hst
      obtain ⟨o, st, k, fs', rfl⟩ := fmt this h1
      cases h2.pos.1
    | closing i r => simp only [Thread.status, show fs.any Frame.isFmt = false from h1] at hst; cases hst
    | over r => simp only [Thread.status, show fs.any Frame.isFmt = false from h1] at hst; cases hst
  | none =>
    cases hp : s.pending with
    | some g =>
      right
      have hst := (hi.pend g).1 hp
      unfold St.stat at hst
      split at hst
      rotate_left
      · cases hst
      rename_i th hg
      obtain ⟨p, fs⟩ := th
      have : ∃ w, p = .pending w := by
        cases p <;> simp only [Thread.status] at hst <;> first | exact ⟨_, rfl⟩ | cases hst | (split at hst <;> cases hst)
      obtain ⟨w, rfl⟩ := this
      cases hrd : s.readers with
      | nil => exact ⟨_, _, .acquire hg hrd hc⟩
      | cons u us =>
        have hst := (hi.reader u).1 (by rw [hrd]; simp)
        unfold St.stat at hst
        split at hst
        rotate_left
        · cases hst
        rename_i th hu
        obtain ⟨p, fs'⟩ := th
        cases p <;> simp only [Thread.status] at hst <;>
          first | exact ⟨_, _, .read hu hc⟩ | exact ⟨_, _, .runlock hu hc⟩ | cases hst | (split at hst <;> cases hst)
    | none =>
      refine Classical.or_iff_not_imp_right.2 fun hno g th hg => ?_
      obtain ⟨p, fs⟩ := th
      have h1 := hi.ok _ _ hg; have h2 := hf.threads _ _ hg
      have nf : fs.any Frame.isFmt = false := by
        cases e : fs.any Frame.isFmt with
        | false => rfl
        | true =>
          have ne : (⟨p, fs⟩ : Thread).status ≠ .write := by
            intro hx
            have := (hi.writer g).2 (by rw [stat_eq hg]; exact hx)
            rw [hw] at this; cases this
          cases p <;> first
            | exact absurd (h1.symm.trans e) nofun
            | (exfalso; apply ne; simp only [Thread.status, e, if_true]; done)
      have one : fs = [] ∨ ∃ f, fs = [f] := by
        cases fs with
        | nil => exact .inl rfl
        | cons a b =>
          cases b with
          | nil => exact .inr ⟨a, rfl⟩
          | cons b c =>
            have := h2.bottom a (by simp)
            simp [this] at nf
      have first0 : g ≠ 0 → fs = [] ∧ p.ends = false := by
        intro e
        have := hcl.others g _ e hg
        refine ⟨?_, this.1⟩
        cases fs with
        | nil => rfl
        | cons a b =>
          have := this.2 a (by simp)
          simp [this] at nf
      cases p with
      | code c =>
        cases hr : c.result with
        | none => exact absurd (code_step hg hc hr) hno
        | some r =>
          rcases one with rfl | ⟨f, rfl⟩
          · cases c with
            | ret => exact .inr rfl
            | panic v => exact absurd ⟨_, _, .crash hg hc⟩ hno
            | _ => cases hr
          · cases f with
            | fmt o st k => simp [Frame.isFmt] at nf
            | done => exact absurd ⟨_, _, .ended hg hr hc⟩ hno
            | close i r =>
              cases c with
              | ret => exact absurd ⟨_, _, .cleaned hg hc⟩ hno
              | panic v => exact absurd ⟨_, _, .unclean hg hc⟩ hno
              | _ => cases hr
      | rlock o st k => exact absurd ⟨_, _, .rlock hg hp hw hc⟩ hno
      | reading o st k => exact absurd ⟨_, _, .read hg hc⟩ hno
      | runlock r k => exact absurd ⟨_, _, .runlock hg hc⟩ hno
      | lock w => exact absurd ⟨_, _, .announce hg hp hw hc⟩ hno
      | pending w =>
        have := (hi.pend g).2 (by rw [stat_eq hg]; rfl)
        rw [hp] at this; cases this
      | locked w => exact absurd (write_step hg hc) hno
      | body o st b k => exact absurd (body_step hg hc) hno
      | append l fn k => exact absurd ⟨_, _, .append hg hc⟩ hno
      | unlock c => exact absurd ⟨_, _, .unlock hg hc⟩ hno
      | closing i r =>
        by_cases e : g = 0
        · subst e
          obtain ⟨th, t1, t2⟩ := hcl.first
          rw [t1] at hg; cases hg
          obtain ⟨rfl, l1, l2, e, _, _, hle, _⟩ := t2
          cases i with
          | zero => exact absurd ⟨_, _, .over t1 hc⟩ hno
          | succ i =>
            have hlt : i < s.cleanup.length := by
              rw [hcl.regs, e, regs_append, List.length_append]; omega
            exact absurd ⟨_, _, .clean t1 (List.getElem?_eq_getElem hlt) hc⟩ hno
        · cases (first0 e).2
      | over r =>
        by_cases e : g = 0
        · subst e
          obtain ⟨th, t1, t2⟩ := hcl.first
          rw [t1] at hg; cases hg
          obtain ⟨rfl, _⟩ := t2
          exact .inl ⟨r, rfl⟩
        · cases (first0 e).2

/-! ## Termination -/

def Code.weight : Code → Nat
  | .ret | .panic _ => 1
  | .op _ _ f k =>
    20 + f.weight + ((k (.returned true)).weight + (k (.returned false)).weight + (k .aborted).weight)
  | .cleanup fn k => 20 + fn.weight + k.weight
  | .go fn k => 2 + fn.weight + k.weight

def total (k : SRes → Code) : Nat :=
  (k (.returned true)).weight + (k (.returned false)).weight + (k .aborted).weight

theorem le_total (k : SRes → Code) (r : SRes) : (k r).weight ≤ total k := by
  unfold total
  rcases r with (_ | _) | _ <;> omega

theorem result_weight {c : Code} {r} (h : c.result = some r) : c.weight = 1 := by
  cases c <;> first | rfl | cases h

/-- At most `n` accesses are left. -/
def Body.Within : Nat → Body → Prop
  | _, .done _ => True
  | 0, .step .. => False
  | n + 1, .step _ next => ∀ t, (next t).Within n

theorem body_within (st : CallStack) (o : SOp) : (body st o).Within 6 := by
  have ex : ∀ fn b n, Body.Within n b → (∀ n', n ≤ n' → Body.Within n' b) → (explainB fn st b).Within (n + 3) := by
    intro fn b n hb hmono t
    cases h : t.explanation with
    | some _ => simp only [h]; exact hmono (n + 2) (by omega)
    | none => simp only [h]; intro t _; exact hb
  have hd : ∀ r n, (Body.done r).Within n := by intro r n; cases n <;> trivial
  have hx : ∀ fn r, (explainB fn st (.done r)).Within 3 := fun fn r => ex fn _ 0 (hd _ _) fun _ _ => hd _ _
  have hx4 : ∀ fn r, (explainB fn st (.done r)).Within 5 := fun fn r => ex fn _ 2 (hd _ _) fun _ _ => hd _ _
  cases o with
  | error s f => intro _ _ _; exact hx _ _
  | fail => intro _; exact hx4 _ _
  | failNow => intro _; exact hx4 _ _
  | fatal s f => intro _ _ _; exact hx _ _
  | helper => intro _ _; exact hd _ _
  | log s => intro _ _; exact hd _ _
  | skip s f => intro _ _ _; exact hx _ _
  | skipNow => intro _; exact hx4 _ _
  | _ => exact hd _ _

def Write.weight : Write → Nat
  | .op _ _ f k => f.weight + total k
  | .cleanup fn k => fn.weight + k.weight

def Pos.weight (d : Nat) : Pos → Nat
  | .code c => c.weight
  | .rlock _ _ k => 5 + total k
  | .reading _ _ k => 4 + total k
  | .runlock r k => 1 + (k r).weight
  | .lock w => 15 + w.weight
  | .pending w => 14 + w.weight
  | .locked w => 13 + w.weight
  | .body _ _ _ k => 1 + d + total k
  | .append _ fn k => 10 + fn.weight + k.weight
  | .unlock c => 1 + c.weight
  | .closing .. | .over _ => 0

def Frame.weight : Frame → Nat
  | .fmt _ _ k => 12 + total k
  | _ => 0

def stackWeight : List Frame → Nat
  | [] => 0
  | f :: fs => f.weight + stackWeight fs

def mass : List Code → Nat
  | [] => 0
  | c :: cs => c.weight + 3 + mass cs

theorem mass_append (a b : List Code) : mass (a ++ b) = mass a + mass b := by
  induction a with
  | nil => simp [mass]
  | cons c a ih => simp [mass, ih]; omega

def weigh (d : Nat) : Option Thread → Nat
  | none => 0
  | some th => th.pos.weight d + stackWeight th.stack

/-- What is to be done yet for the cleanup functions. -/
def rest (cl : List Code) : Option Thread → Nat
  | none => 0
  | some th =>
    match th.pos with
    | .closing i _ => mass (cl.take i) + 1
    | .over _ => 0
    | _ =>
      match th.stack.getLast? with
      | some .done => mass cl + 2
      | some (.close i _) => mass (cl.take i) + 2
      | _ => 0

def sumTo (f : Nat → Nat) : Nat → Nat
  | 0 => 0
  | n + 1 => sumTo f n + f n

theorem sumTo_congr {f f' : Nat → Nat} {n : Nat} (h : ∀ i, i < n → f' i = f i) : sumTo f' n = sumTo f n := by
  induction n with
  | zero => rfl
  | succ n ih => simp only [sumTo]; rw [ih fun i hi => h i (by omega), h n (by omega)]

theorem sumTo_upd {f f' : Nat → Nat} {n g : Nat} (hg : g < n) (h : ∀ i, i ≠ g → f' i = f i) :
    sumTo f' n + f g = sumTo f n + f' g := by
  induction n with
  | zero => omega
  | succ n ih =>
    simp only [sumTo]
    by_cases e : g = n
    · subst e; rw [sumTo_congr fun i hi => h i (by omega)]; omega
    · rw [h n (fun x => e x.symm)]; have := ih (by omega); omega

/-- No more than `n` steps can follow. -/
def Weighs (s : St) (n : Nat) : Prop :=
  ∃ d : Nat → Nat,
    (∀ g o st b k fs, s.threads g = some ⟨.body o st b k, fs⟩ → b.Within (d g)) ∧
    n = sumTo (fun g => weigh (d g) (s.threads g)) s.next + rest s.cleanup (s.threads 0) +
      (if s.crashed then 0 else 1)

theorem Weighs.move {s s1 : St} {n g : Nat} {th : Thread} {p' : Pos} {fs' : List Frame} (hn : Weighs s n)
    (h : s.threads g = some th) (hlt : g < s.next) (ht : s1.threads = s.threads) (hnx : s1.next = s.next)
    (hcr : s1.crashed = s.crashed)
    (hd : ∀ d, (∀ o st b k fs, th = ⟨.body o st b k, fs⟩ → b.Within d) → ∃ d',
      (∀ o st b k, p' = .body o st b k → b.Within d') ∧
      weigh d' (some ⟨p', fs'⟩) + rest s1.cleanup ((s1.set g p' fs').threads 0) <
        weigh d (some th) + rest s.cleanup (s.threads 0)) :
    ∃ n', n' < n ∧ Weighs (s1.set g p' fs') n' := by
  obtain ⟨d, h1, rfl⟩ := hn
  obtain ⟨d', h2, h3⟩ := hd (d g) fun o st b k fs e => h1 g o st b k fs (e ▸ h)
  refine ⟨_, ?_, fun u => if u = g then d' else d u, ?_, rfl⟩
  · have := sumTo_upd (f := fun u => weigh (d u) (s.threads u))
      (f' := fun u => weigh (if u = g then d' else d u) ((s1.set g p' fs').threads u)) (n := s.next) hlt (by
        intro i hi
        simp only [St.set, if_neg hi, ht])
    have e1 : (s1.set g p' fs').threads g = some ⟨p', fs'⟩ := by simp [St.set]
    simp only [e1, h, if_true] at this
    have e2 : (s1.set g p' fs').next = s.next := hnx
    have e3 : (s1.set g p' fs').crashed = s.crashed := hcr
    have e4 : (s1.set g p' fs').cleanup = s1.cleanup := rfl
    rw [e2, e3, e4]
    dsimp only
    omega
  · intro u o st b k fs hu
    simp only [St.set] at hu
    split at hu
    · next e => cases hu; simp only [e, if_true]; exact h2 _ _ _ _ rfl
    · next e => simp only [if_neg e]; exact h1 u o st b k fs (ht ▸ hu)

/-- Nothing changes about the cleanup functions. -/
theorem rest_same {ls : List Label} {s s1 : St} {g : Nat} {p p' : Pos} {fs fs' : List Frame}
    (hc : Clean ls s) (h : s.threads g = some ⟨p, fs⟩) (hp : p.ends = false) (hp' : p'.ends = false)
    (hfs : fs' = fs ∨ (∃ o st k, fs' = .fmt o st k :: fs) ∨ ∃ o st k, fs = .fmt o st k :: fs')
    (ht : s1.threads = s.threads) (cl : List Code) :
    rest cl ((s1.set g p' fs').threads 0) = rest cl (s.threads 0) := by
  by_cases e : g = 0
  · subst e
    obtain ⟨f, hf1, hf2⟩ := hc.bottom h hp
    have hlast : fs'.getLast? = fs.getLast? := by
      rcases hfs with rfl | ⟨o, st, k, rfl⟩ | ⟨o, st, k, rfl⟩
      · rfl
      · cases fs with
        | nil => cases hf1
        | cons a b => rw [List.getLast?_cons_cons]
      · cases fs' with
        | nil => simp at hf1; subst hf1; cases hf2
        | cons a b => rw [List.getLast?_cons_cons]
    have r : ∀ (p : Pos) (fs : List Frame), p.ends = false → rest cl (some ⟨p, fs⟩) =
        match fs.getLast? with
        | some .done => mass cl + 2
        | some (.close i _) => mass (cl.take i) + 2
        | _ => 0 := by
      intro p fs hp; cases p <;> first | rfl | cases hp
    rw [h, r p fs hp]
    simp only [St.set, if_true]
    rw [r p' fs' hp', hlast]
  · simp only [St.set]
    rw [if_neg (fun x => e x.symm), ht]

theorem Weighs.step {s s' : St} {ls : List Label} {t : SatT} {l : Label} {n : Nat} (hn : Weighs s n)
    (hc : Clean ls s) (hi : Inv s t) (h : Step s l s') : ∃ n', n' < n ∧ Weighs s' n' := by
  have lt : ∀ {g th}, s.threads g = some th → g < s.next := by
    intro g th h
    apply Nat.lt_of_not_le
    intro hle; rw [hi.fresh g hle] at h; cases h
  have zero : ∀ {g p fs}, s.threads g = some ⟨p, fs⟩ → (p.ends = true ∨ ∃ f ∈ fs, f.isFmt = false) →
      g = 0 := by
    intro g p fs h hx
    by_cases e : g = 0
    · exact e
    · obtain ⟨h1, h2⟩ := hc.others g _ e h
      rcases hx with hx | ⟨f, hf, hx⟩
      · rw [show p.ends = false from h1] at hx; cases hx
      · rw [h2 f hf] at hx; cases hx
  -- steps that have nothing to do with cleanup functions
  have go1 : ∀ {g : Nat} {p p' : Pos} {fs fs' : List Frame} (s1 : St), s.threads g = some ⟨p, fs⟩ →
      p.ends = false → p'.ends = false →
      (fs' = fs ∨ (∃ o st k, fs' = .fmt o st k :: fs) ∨ ∃ o st k, fs = .fmt o st k :: fs') →
      s1.threads = s.threads → s1.next = s.next → s1.crashed = s.crashed → s1.cleanup = s.cleanup →
      (∀ d, (∀ o st b k, p = .body o st b k → b.Within d) → ∃ d',
        (∀ o st b k, p' = .body o st b k → b.Within d') ∧
        p'.weight d' + stackWeight fs' < p.weight d + stackWeight fs) →
      ∃ n', n' < n ∧ Weighs (s1.set g p' fs') n' := by
    intro g p p' fs fs' s1 h hp hp' hfs ht hnx hcr hcl hd
    refine hn.move h (lt h) ht hnx hcr fun d hb => ?_
    obtain ⟨d', k1, k2⟩ := hd d fun o st b k e => hb o st b k fs (by rw [e])
    refine ⟨d', k1, ?_⟩
    rw [hcl, rest_same hc h hp hp' hfs ht]
    simp only [weigh]
    omega
  cases h with
  | @plain g o st f k fs h hm hcr =>
    refine go1 s h rfl rfl (.inl rfl) rfl rfl rfl rfl fun d _ => ⟨0, nofun, ?_⟩
    have := le_total k (.returned false)
    simp only [Pos.weight, Code.weight, total] at this ⊢; omega
  | @readOp g o st f k fs h hm hcr =>
    refine go1 s h rfl rfl (.inl rfl) rfl rfl rfl rfl fun d _ => ⟨0, nofun, ?_⟩
    simp only [Pos.weight, Code.weight, total]; omega
  | @rlock g o st k fs h hp hw hcr =>
    refine go1 _ h rfl rfl (.inl rfl) rfl rfl rfl rfl fun d _ => ⟨0, nofun, ?_⟩
    simp only [Pos.weight]; omega
  | @read g o st k fs h hcr =>
    refine go1 _ h rfl rfl (.inl rfl) rfl rfl rfl rfl fun d _ => ⟨0, nofun, ?_⟩
    have := le_total k (o.exec s.core st).2
    simp only [Pos.weight]; omega
  | @runlock g r k fs h hcr =>
    refine go1 _ h rfl rfl (.inl rfl) rfl rfl rfl rfl fun d _ => ⟨0, nofun, ?_⟩
    simp only [Pos.weight]; omega
  | @writeOp g o st f k fs h hm hcr =>
    refine go1 _ h rfl rfl (.inl rfl) rfl rfl rfl rfl fun d _ => ⟨0, nofun, ?_⟩
    simp only [Pos.weight, Write.weight, Code.weight, total]; omega
  | @cleanupOp g fn k fs h hcr =>
    refine go1 _ h rfl rfl (.inl rfl) rfl rfl rfl rfl fun d _ => ⟨0, nofun, ?_⟩
    simp only [Pos.weight, Write.weight, Code.weight]; omega
  | @announce g w fs h hp hw hcr =>
    refine go1 _ h rfl rfl (.inl rfl) rfl rfl rfl rfl fun d _ => ⟨0, nofun, ?_⟩
    simp only [Pos.weight]; omega
  | @acquire g w fs h hr hcr =>
    refine go1 _ h rfl rfl (.inl rfl) rfl rfl rfl rfl fun d _ => ⟨0, nofun, ?_⟩
    simp only [Pos.weight]; omega
  | @format g o st f k fs h hf hcr =>
    refine go1 _ h rfl rfl (.inr (.inl ⟨_, _, _, rfl⟩)) rfl rfl rfl rfl fun d _ => ⟨0, nofun, ?_⟩
    simp only [Pos.weight, Write.weight, stackWeight, Frame.weight]; omega
  | @formatted g c r o st k fs h hr hcr =>
    refine go1 _ h rfl rfl (.inr (.inr ⟨_, _, _, rfl⟩)) rfl rfl rfl rfl fun d _ =>
      ⟨6, fun o st b k e => by cases e; exact body_within _ _, ?_⟩
    simp only [Pos.weight, stackWeight, Frame.weight, result_weight hr]; omega
  | @begin g o st f k fs h hf hcr =>
    refine go1 _ h rfl rfl (.inl rfl) rfl rfl rfl rfl fun d _ =>
      ⟨6, fun o st b k e => by cases e; exact body_within _ _, ?_⟩
    simp only [Pos.weight, Write.weight]; omega
  | @access g o st upd next k fs h hcr =>
    refine go1 _ h rfl rfl (.inl rfl) rfl rfl rfl rfl fun d hb => ?_
    have := hb _ _ _ _ rfl
    cases d with
    | zero => cases this
    | succ d =>
      refine ⟨d, fun o st b k e => by cases e; exact this _, ?_⟩
      simp only [Pos.weight]; omega
  | @finish g o st r k fs h hcr =>
    refine go1 _ h rfl rfl (.inl rfl) rfl rfl rfl rfl fun d _ => ⟨0, nofun, ?_⟩
    have := le_total k r
    simp only [Pos.weight]; omega
  | @load g fn k fs h hcr =>
    refine go1 _ h rfl rfl (.inl rfl) rfl rfl rfl rfl fun d _ => ⟨0, nofun, ?_⟩
    simp only [Pos.weight, Write.weight]; omega
  | @append g x fn k fs h hcr =>
    refine hn.move (s1 := { s with cleanup := x ++ [fn] }) h (lt h) rfl rfl rfl fun d _ => ⟨0, nofun, ?_⟩
    rw [rest_same (s1 := { s with cleanup := x ++ [fn] }) hc h rfl rfl (.inl rfl) rfl]
    have hx := hc.app _ _ _ _ _ h
    obtain ⟨th, t1, t2⟩ := hc.first
    have key : rest (x ++ [fn]) (s.threads 0) ≤ rest s.cleanup (s.threads 0) + (fn.weight + 3) := by
      rw [t1, hx]
      have hlen : ∀ i r, After ls i r → i ≤ s.cleanup.length := by
        rintro i r ⟨l1, l2, e, _, _, h3, _⟩
        rw [hc.regs, e, regs_append, List.length_append]; omega
      have last : (∀ i r, th.stack.getLast? = some (.close i r) → i ≤ s.cleanup.length) →
          (match th.stack.getLast? with
            | some .done => mass (s.cleanup ++ [fn]) + 2
            | some (.close i _) => mass ((s.cleanup ++ [fn]).take i) + 2
            | _ => 0) ≤
          (match th.stack.getLast? with
            | some .done => mass s.cleanup + 2
            | some (.close i _) => mass (s.cleanup.take i) + 2
            | _ => 0) + (fn.weight + 3) := by
        intro hle
        split
        · rw [mass_append]; simp only [mass]; omega
        · next i r e =>
          rw [List.take_append_of_le_length (hle i r e)]; omega
        · omega
      obtain ⟨p, fs⟩ := th
      by_cases hp : p.ends = false
      · have := (Phase.last hp).1 t2
        have := last fun i r e => by
          rcases this with ⟨h, _⟩ | ⟨i', r', h, ha⟩
          · simp only at e; rw [h] at e; cases e
          · simp only at e; rw [h] at e; cases e; exact hlen _ _ ha
        cases p <;> first | exact this | cases hp
      · cases p <;> first | exact absurd rfl hp | skip
        · rename_i i r
          simp only [rest]
          rw [List.take_append_of_le_length (hlen _ _ t2.2)]; omega
        · simp only [rest]; omega
    simp only [weigh, Pos.weight]
    show _ + rest (x ++ [fn]) _ < _
    omega
  | @unlock g c fs h hcr =>
    refine go1 _ h rfl rfl (.inl rfl) rfl rfl rfl rfl fun d _ => ⟨0, nofun, ?_⟩
    simp only [Pos.weight]; omega
  | @go g fn k fs h hcr =>
    have hlt := lt h
    have hnone := hi.fresh s.next (Nat.le_refl _)
    obtain ⟨d, h1, rfl⟩ := hn
    have hth : ∀ u, ((({ s with next := s.next + 1 }.set s.next (.code fn) []).set g (.code k) fs).threads u) =
        if u = s.next then some ⟨.code fn, []⟩ else (s.set g (.code k) fs).threads u := by
      intro u
      simp only [St.set]
      by_cases e : u = g
      · subst e; rw [if_pos rfl, if_neg (by omega), if_pos rfl]
      · rw [if_neg e]
        split <;> rfl
    refine ⟨_, ?_, d, ?_, rfl⟩
    · have := sumTo_upd (f := fun u => weigh (d u) (s.threads u))
        (f' := fun u => weigh (d u) ((s.set g (.code k) fs).threads u)) (n := s.next) hlt (by
          intro i hi; simp only [St.set, if_neg hi])
      have e1 : (s.set g (.code k) fs).threads g = some ⟨.code k, fs⟩ := by simp [St.set]
      have e6 : weigh (d g) (some ⟨.code (.go fn k), fs⟩) = 2 + fn.weight + k.weight + stackWeight fs := rfl
      have e7 : weigh (d g) (some ⟨.code k, fs⟩) = k.weight + stackWeight fs := rfl
      simp only [e1, h, e6, e7] at this
      have e2 : sumTo (fun u => weigh (d u) ((({ s with next := s.next + 1 }.set s.next (.code fn) []).set g
          (.code k) fs).threads u)) s.next = sumTo (fun u => weigh (d u) ((s.set g (.code k) fs).threads u))
          s.next := by
        apply sumTo_congr
        intro i hi
        rw [hth, if_neg (by omega)]
      have e3 : weigh (d s.next) ((({ s with next := s.next + 1 }.set s.next (.code fn) []).set g
          (.code k) fs).threads s.next) = fn.weight := by
        rw [hth, if_pos rfl]; simp [weigh, Pos.weight, stackWeight]
      have e4 := rest_same (s1 := s) (p' := .code k) (fs' := fs) hc h rfl rfl (.inl rfl) rfl s.cleanup
      have e5 : (({ s with next := s.next + 1 }.set s.next (.code fn) []).set g (.code k) fs).threads 0 =
          (s.set g (.code k) fs).threads 0 := by
        rw [hth, if_neg (fun e => hc.next e.symm)]
      show sumTo _ (s.next + 1) + rest s.cleanup _ + (if s.crashed then 0 else 1) < _
      rw [e5, e4]
      simp only [sumTo, e2, e3]
      omega
    · intro u o st b k' fs' hu
      rw [hth] at hu
      split at hu
      · cases hu
      · simp only [St.set] at hu
        split at hu
        · cases hu
        · exact h1 u o st b k' fs' hu
  | @crash g v h hcr =>
    obtain ⟨d, h1, rfl⟩ := hn
    refine ⟨_, ?_, d, h1, rfl⟩
    simp [hcr]
  | @ended g c r h hr hcr =>
    obtain rfl := zero h (.inr ⟨.done, by simp, rfl⟩)
    refine hn.move h (lt h) rfl rfl rfl fun d _ => ⟨0, nofun, ?_⟩
    rw [h]
    simp only [St.set, if_true, weigh, rest, Pos.weight, stackWeight, Frame.weight, List.getLast?_singleton,
      List.take_length]
    omega
  | @clean g i r fn h hf hcr =>
    obtain rfl := zero h (.inl rfl)
    refine hn.move h (lt h) rfl rfl rfl fun d _ => ⟨0, nofun, ?_⟩
    rw [h]
    have : s.cleanup.take (i + 1) = s.cleanup.take i ++ [fn] := by
      rw [List.take_add_one, hf]; rfl
    simp only [St.set, if_true, weigh, rest, Pos.weight, stackWeight, Frame.weight, List.getLast?_singleton,
      this, mass_append, mass]
    omega
  | @cleaned g i r h hcr =>
    obtain rfl := zero h (.inr ⟨.close i r, by simp, rfl⟩)
    refine hn.move h (lt h) rfl rfl rfl fun d _ => ⟨0, nofun, ?_⟩
    rw [h]
    simp only [St.set, if_true, weigh, rest, Pos.weight, stackWeight, Frame.weight, List.getLast?_singleton]
    omega
  | @unclean g i r v h hcr =>
    obtain rfl := zero h (.inr ⟨.close i r, by simp, rfl⟩)
    refine hn.move h (lt h) rfl rfl rfl fun d _ => ⟨0, nofun, ?_⟩
    rw [h]
    simp only [St.set, if_true, weigh, rest, Pos.weight, stackWeight, Frame.weight, List.getLast?_singleton]
    omega
  | @over g r h hcr =>
    obtain rfl := zero h (.inl rfl)
    refine hn.move h (lt h) rfl rfl rfl fun d _ => ⟨0, nofun, ?_⟩
    rw [h]
    simp only [St.set, if_true, weigh, rest, Pos.weight, stackWeight]
    omega

/-- **C107 (an end).**  Code that ends does so also if it uses `t`, and if goroutines make their steps in any order
whatsoever: there is a bound on the number of steps that can be made. -/
theorem C107_bounded (fn : Code) : ∃ N, ∀ ls s, Steps (init fn) ls s → ls.length ≤ N := by
  obtain ⟨N, hN⟩ : ∃ N, Weighs (init fn) N :=
    ⟨_, fun _ => 0, (fun g o st b k fs h => by simp only [init] at h; split at h <;> cases h), rfl⟩
  refine ⟨N, fun ls s h => ?_⟩
  suffices ∃ n, Weighs s n ∧ ls.length + n ≤ N by omega
  induction h with
  | nil => exact ⟨N, hN, by simp⟩
  | snoc h hs ih =>
    obtain ⟨n, h1, h2⟩ := ih
    obtain ⟨t, hi, _⟩ := steps_inv h
    obtain ⟨n', h3, h4⟩ := h1.step (steps_clean h) hi hs
    exact ⟨n', h4, by simp; omega⟩

/-- **C107 (outcome).**  Every run, however the goroutines are scheduled, can be continued to the end, where all
goroutines are done or a panic has ended the program; and there is no way to avoid it. -/
theorem C107_ends (fn : Code) (hfit : fn.Fit false) (ls : List Label) (s : St) (h : Steps (init fn) ls s) :
    ∃ ls' s', Steps (init fn) (ls ++ ls') s' ∧ (s'.crashed = true ∨ s'.allOver) := by
  obtain ⟨N, hN⟩ := C107_bounded fn
  suffices ∀ m ls s, Steps (init fn) ls s → N - ls.length ≤ m →
      ∃ ls' s', Steps (init fn) (ls ++ ls') s' ∧ (s'.crashed = true ∨ s'.allOver) from this _ ls s h (Nat.le_refl _)
  intro m
  induction m with
  | zero =>
    intro ls s h hle
    refine ⟨[], s, by simpa using h, ?_⟩
    cases hc : s.crashed with
    | true => exact .inl rfl
    | false =>
      rcases C107_progress fn hfit ls s h hc with ho | ⟨l, s', hs⟩
      · exact .inr ho
      · have := hN _ _ (h.snoc hs); simp at this; omega
  | succ m ih =>
    intro ls s h hle
    cases hc : s.crashed with
    | true => exact ⟨[], s, by simpa using h, .inl hc⟩
    | false =>
      rcases C107_progress fn hfit ls s h hc with ho | ⟨l, s', hs⟩
      · exact ⟨[], s, by simpa using h, .inr ho⟩
      · obtain ⟨ls', s'', h1, h2⟩ := ih (ls ++ [l]) s' (h.snoc hs) (by simp; omega)
        exact ⟨l :: ls', s'', by simpa using h1, h2⟩

/-! ## Cases -/

theorem stuck {s : St} {o st k fs} (h0 : s.threads 0 = some ⟨.rlock o st k, fs⟩)
    (ho : ∀ g, g ≠ 0 → s.threads g = none) (hw : s.writer ≠ none) (l : Label) (s' : St) : ¬ Step s l s' := by
  have key : ∀ {g p fs'}, s.threads g = some ⟨p, fs'⟩ → p = .rlock o st k := by
    intro g p fs' h
    by_cases e : g = 0
    · subst e; rw [h0] at h; cases h; rfl
    · rw [ho g e] at h; cases h
  intro h
  cases h <;> first
    | (have := key ‹_›; cases this; done)
    | (exact absurd ‹s.writer = none› hw)

/-- The step that goroutine `g` can make. -/
def stepOf (s : St) (g : Nat) : Option (Label × St) :=
  if s.crashed then none
  else
    match s.threads g with
    | none => none
    | some ⟨.code (.op o st f k), fs⟩ =>
      match mode o with
      | .none => some (.did g o st (.returned false), s.set g (.code (k (.returned false))) fs)
      | .read => some (.tau g, s.set g (.rlock o st k) fs)
      | .write => some (.tau g, s.set g (.lock (.op o st f k)) fs)
    | some ⟨.code (.cleanup fn k), fs⟩ => some (.tau g, s.set g (.lock (.cleanup fn k)) fs)
    | some ⟨.code (.go fn k), fs⟩ =>
      some (.started g s.next, (({ s with next := s.next + 1 }.set s.next (.code fn) []).set g (.code k) fs))
    | some ⟨.code c, fs⟩ =>
      match c.result, fs with
      | some _, .fmt o st k :: fs => some (.tau g, s.set g (.body o st (body st o) k) fs)
      | some r, [.done] => some (.ended r, s.set g (.closing s.cleanup.length r) [])
      | some none, [.close i r] => if c.result = some none then some (.tau g, s.set g (.closing i r) []) else none
      | some (some v), [.close _ _] => some (.uncleaned v, s.set g (.over (rethrow (some v))) [])
      | some (some v), [] => some (.crash g v, { s with crashed := true })
      | _, _ => none
    | some ⟨.rlock o st k, fs⟩ =>
      if s.pending = none ∧ s.writer = none then
        some (.tau g, { s with readers := g :: s.readers }.set g (.reading o st k) fs)
      else none
    | some ⟨.reading o st k, fs⟩ =>
      some (.did g o st (o.exec s.core st).2, s.set g (.runlock (o.exec s.core st).2 k) fs)
    | some ⟨.runlock r k, fs⟩ => some (.tau g, { s with readers := s.readers.erase g }.set g (.code (k r)) fs)
    | some ⟨.lock w, fs⟩ =>
      if s.pending = none ∧ s.writer = none then
        some (.tau g, { s with pending := some g }.set g (.pending w) fs)
      else none
    | some ⟨.pending w, fs⟩ =>
      if s.readers = [] then
        some (.tau g, { s with pending := none, writer := some g }.set g (.locked w) fs)
      else none
    | some ⟨.locked (.op o st f k), fs⟩ =>
      if formats o = true then some (.tau g, s.set g (.code f) (.fmt o st k :: fs))
      else some (.tau g, s.set g (.body o st (body st o) k) fs)
    | some ⟨.locked (.cleanup fn k), fs⟩ => some (.tau g, s.set g (.append s.cleanup fn k) fs)
    | some ⟨.body o st (.step upd next) k, fs⟩ =>
      some (.tau g, { s with core := upd s.core }.set g (.body o st (next s.core) k) fs)
    | some ⟨.body o st (.done r) k, fs⟩ => some (.did g o st r, { s with writer := none }.set g (.code (k r)) fs)
    | some ⟨.append l fn k, fs⟩ => some (.registered g fn, { s with cleanup := l ++ [fn] }.set g (.unlock k) fs)
    | some ⟨.unlock c, fs⟩ => some (.tau g, { s with writer := none }.set g (.code c) fs)
    | some ⟨.closing 0 r, []⟩ => some (.over (rethrow r), s.set g (.over (rethrow r)) [])
    | some ⟨.closing (i + 1) r, []⟩ =>
      match s.cleanup[i]? with
      | some fn => some (.cleaning fn, s.set g (.code fn) [.close i r])
      | none => none
    | some ⟨.closing _ _, _ :: _⟩ => none
    | some ⟨.over _, _⟩ => none

theorem stepOf_sound {s s' : St} {g : Nat} {l : Label} (h : stepOf s g = some (l, s')) : Step s l s' := by
  unfold stepOf at h
  split at h
  · cases h
  rename_i hc
  simp only [Bool.not_eq_true] at hc
  split at h
  · cases h
  · rename_i hg
    split at h <;> rename_i hm <;> cases h
    · exact .plain hg hm hc
    · exact .readOp hg hm hc
    · exact .writeOp hg hm hc
  · rename_i hg; cases h; exact .cleanupOp hg hc
  · rename_i hg; cases h; exact .go hg hc
  · rename_i c fs _ _ _ hg
    split at h
    · rename_i hr; cases h; exact .formatted hg hr hc
    · rename_i hr; cases h; exact .ended hg hr hc
    · rename_i hr
      simp only [hr, if_true] at h
      cases h
      cases c <;> cases hr
      exact .cleaned hg hc
    · rename_i hr
      cases h
      cases c <;> cases hr
      exact .unclean hg hc
    · rename_i hr
      cases h
      cases c <;> cases hr
      exact .crash hg hc
    · cases h
  · rename_i hg
    split at h
    · next e => cases h; exact .rlock hg e.1 e.2 hc
    · cases h
  · rename_i hg; cases h; exact .read hg hc
  · rename_i hg; cases h; exact .runlock hg hc
  · rename_i hg
    split at h
    · next e => cases h; exact .announce hg e.1 e.2 hc
    · cases h
  · rename_i hg
    split at h
    · next e => cases h; exact .acquire hg e hc
    · cases h
  · rename_i hg
    split at h
    · next e => cases h; exact .format hg e hc
    · next e => cases h; exact .begin hg (by simpa using e) hc
  · rename_i hg; cases h; exact .load hg hc
  · rename_i hg; cases h; exact .access hg hc
  · rename_i hg; cases h; exact .finish hg hc
  · rename_i hg; cases h; exact .append hg hc
  · rename_i hg; cases h; exact .unlock hg hc
  · rename_i hg; cases h; exact .over hg hc
  · rename_i hg
    split at h
    · next e => cases h; exact .clean hg e hc
    · cases h
  · cases h
  · cases h

/-- The steps that are made if goroutines are scheduled so. -/
def runOf : St → List Nat → Option (List Label × St)
  | s, [] => some ([], s)
  | s, g :: gs =>
    match stepOf s g with
    | none => none
    | some (l, s') =>
      match runOf s' gs with
      | none => none
      | some (ls, s'') => some (l :: ls, s'')

theorem runOf_sound {s0 s s' : St} {ls0 ls : List Label} {gs : List Nat} (h0 : Steps s0 ls0 s)
    (h : runOf s gs = some (ls, s')) : Steps s0 (ls0 ++ ls) s' := by
  induction gs generalizing s ls0 ls with
  | nil => simp only [runOf] at h; cases h; simpa using h0
  | cons g gs ih =>
    simp only [runOf] at h
    split at h
    · cases h
    · rename_i l s1 h1
      split at h
      · cases h
      · rename_i ls1 s2 h2
        cases h
        have := ih (h0.snoc (stepOf_sound h1)) h2
        simpa using this

/-- A run with a given schedule. -/
theorem run {fn : Code} (gs : List Nat) {P : List Label → St → Prop}
    (h : ∃ ls s, runOf (init fn) gs = some (ls, s) ∧ P ls s) : ∃ ls s, Steps (init fn) ls s ∧ P ls s := by
  obtain ⟨ls, s, h1, h2⟩ := h
  exact ⟨ls, s, by simpa using runOf_sound .nil h1, h2⟩

/-- A function that logs a value, formatting which calls `Failed()`. -/
def logsItself : Code :=
  .op (.log "x") plainStack (.op .failed plainStack .ret fun _ => .ret) fun _ => .ret

/-- What `C107_progress` assumes is needed: `Log()` formats its arguments while it holds the lock, so that a
value with a `String()` method that calls `Failed()` makes it wait for itself. -/
theorem C107_format_fails : ∃ ls s, Steps (init logsItself) ls s ∧ s.crashed = false ∧ ¬ s.allOver ∧
    ∀ l s', ¬ Step s l s' := by
  apply run [0, 0, 0, 0, 0]
  refine ⟨_, _, rfl, rfl, ?_, stuck rfl ?_ nofun⟩
  · intro h
    rcases h 0 _ rfl with ⟨r, e⟩ | e <;> cases e
  · intro g hg
    simp [St.set, init, hg]

/-- A function that starts a goroutine which calls `FailNow()`. -/
def failsElsewhere : Code :=
  .go (.op .failNow plainStack .ret fun r => match r with | .aborted => .panic .abort | _ => .ret) .ret

/-- `FailNow()` and the like stop the goroutine by a panic, which only `Done` recovers from: called on another
goroutine they end the program. -/
theorem C107_elsewhere : ∃ ls s, Steps (init failsElsewhere) ls s ∧ s.crashed = true :=
  run [0, 1, 1, 1, 1, 1, 1, 1, 1, 1, 1] ⟨_, _, rfl, rfl⟩

/-- Two goroutines: one fails; the other one, which is `Done`'s, has registered a cleanup function, and asks
whether there was a failure. -/
def twoUse : Code :=
  .cleanup (.op .helper plainStack .ret fun _ => .ret)
    (.go (.op .fail plainStack .ret fun _ => .ret)
      (.op .failed plainStack .ret fun r =>
        match r with | .returned true => .op (.log "seen") plainStack .ret fun _ => .ret | _ => .ret))

example : twoUse.Fit false := by
  refine ⟨rfl, ⟨nofun, nofun, fun _ => trivial⟩, ⟨nofun, nofun, fun _ => trivial⟩, nofun, nofun, fun r => ?_⟩
  rcases r with (_ | _) | _
  · trivial
  · exact ⟨nofun, fun _ => trivial, fun _ => trivial⟩
  · trivial

/-- The failure may be seen, so that the conclusions of `C107_serial`, `C107_verdict` and `C107_cleanups` say
something about this run. -/
example : ∃ ls s, Steps (init twoUse) ls s ∧
    (s.crashed = false ∧ (s.threads 0).map (·.pos) = some (.over none) ∧ (s.threads 1).map (·.pos) = some (.code .ret) ∧
    dids ls = [(.fail, plainStack, .returned false), (.failed, plainStack, .returned true),
      (.log "seen", plainStack, .returned false), (.helper, plainStack, .returned false)] ∧
    regs ls = [.op .helper plainStack .ret fun _ => .ret] ∧
    cleaned ls = [.op .helper plainStack .ret fun _ => .ret] ∧
    s.core.messages = ["seen"] ∧ s.core.ok = false) :=
  run ([0, 0, 0, 0, 0, 0, 0, 0] ++ [1, 1, 1, 1, 1, 1, 1, 1, 1] ++ [0, 0, 0, 0, 0, 0, 0, 0, 0, 0, 0] ++
    [0, 0, 0, 0, 0, 0, 0, 0, 0, 0, 0]) ⟨_, _, rfl, rfl, rfl, rfl, rfl, rfl, rfl, rfl, rfl⟩

end Verif.Par
