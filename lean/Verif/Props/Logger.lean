import Verif.Logger
import Verif.Props.Ident

/-!
# Log lines (C68)
-/

namespace Verif

/-! ## Specification -/

/-- What a log line says. -/
structure LogEntry where
  message : Option Nat
  causation : Option Nat
  correlation : Option Nat
  /-- direction, kind of handler and error: single characters -/
  direction : Char
  kind : Char
  failed : Char
  text : List Char
  deriving DecidableEq, Repr

/-- Read an ID: `--` stands for none. -/
def readID : List Char → Option Nat
  | ['-', '-'] => none
  | ds => some (numberOf ds)

/-- Read a column: its icon, a space, the ID, two spaces. -/
def readColumn (icon : Char) : List Char → Option (Option Nat × List Char)
  | c :: ' ' :: l =>
    if c = icon then
      match l.dropWhile (· ≠ ' ') with
      | ' ' :: ' ' :: rest => some (readID (l.takeWhile (· ≠ ' ')), rest)
      | _ => none
    else none
  | _ => none

/-- Read a line. -/
def readLog (l : List Char) : Option LogEntry := do
  let (m, l) ← readColumn '=' l
  let (ca, l) ← readColumn '∵' l
  let (co, l) ← readColumn '⋲' l
  match l with
  | d :: ' ' :: k :: ' ' :: f :: ' ' :: ' ' :: text => some ⟨m, ca, co, d, k, f, text⟩
  | _ => none

/-- The envelopes a fact carries; the one of a message that was produced comes last. -/
def Fact.envelopes : Fact → List Env
  | .dispatchCycleBegun e _ | .dispatchCycleCompleted e _ _ | .dispatchBegun e
  | .dispatchCompleted e _ | .handlingBegun _ e | .handlingCompleted _ e _
  | .handlingSkipped _ e _ | .aggLoaded _ _ e | .aggNotFound _ _ e | .aggCreated _ _ e
  | .aggDestroyed _ _ e | .aggReverted _ _ e | .aggLog _ _ e _ | .procLoaded _ _ e
  | .procEventIgnored _ e | .procTimeoutIgnored _ _ e | .procNotFound _ _ e | .procBegun _ _ e
  | .procEnded _ _ e | .procReverted _ _ e | .procLog _ _ e _ | .intLog _ e _ => [e]
  | .aggEvent _ _ e p | .procCommand _ _ e p | .procTimeout _ _ e p | .intEvent _ e p => [e, p]
  | .prjLog _ e _ => e.toList
  | .tickCycleBegun _ | .tickCycleCompleted _ _ | .tickBegun _ | .tickCompleted _ _
  | .tickSkipped _ _ | .prjCompactBegun _ | .prjCompactCompleted _ _ => []

/-- The handler a fact is about. -/
def Fact.handler : Fact → Option HConfig
  | .dispatchCycleBegun .. | .dispatchCycleCompleted .. | .dispatchBegun ..
  | .dispatchCompleted .. | .tickCycleBegun .. | .tickCycleCompleted .. => none
  | .handlingBegun h _ | .handlingCompleted h _ _ | .handlingSkipped h _ _ | .tickBegun h
  | .tickCompleted h _ | .tickSkipped h _ | .aggLoaded h _ _ | .aggNotFound h _ _
  | .aggCreated h _ _ | .aggDestroyed h _ _ | .aggReverted h _ _ | .aggEvent h _ _ _
  | .aggLog h _ _ _ | .procLoaded h _ _ | .procEventIgnored h _ | .procTimeoutIgnored h _ _
  | .procNotFound h _ _ | .procBegun h _ _ | .procEnded h _ _ | .procReverted h _ _
  | .procCommand h _ _ _ | .procTimeout h _ _ _ | .procLog h _ _ _ | .intEvent h _ _
  | .intLog h _ _ | .prjCompactBegun h | .prjCompactCompleted h _ | .prjLog h _ _ => some h

/-- The instance a fact is about. -/
def Fact.instance? : Fact → Option String
  | .aggLoaded _ id _ | .aggNotFound _ id _ | .aggCreated _ id _ | .aggDestroyed _ id _
  | .aggReverted _ id _ | .aggEvent _ id _ _ | .aggLog _ id _ _ | .procLoaded _ id _
  | .procTimeoutIgnored _ id _ | .procNotFound _ id _ | .procBegun _ id _ | .procEnded _ id _
  | .procReverted _ id _ | .procCommand _ id _ _ | .procTimeout _ id _ _ | .procLog _ id _ _ =>
    some id
  | _ => none

/-- The error of a handler that a fact reports. -/
def Fact.failure : Fact → Option Err
  | .handlingCompleted _ _ e | .tickCompleted _ e | .prjCompactCompleted _ e => e
  | _ => none

/-- The type of handler a fact is about, as far as its own type tells. -/
def Fact.family : Fact → Option HandlerType
  | .aggLoaded .. | .aggNotFound .. | .aggCreated .. | .aggDestroyed .. | .aggReverted ..
  | .aggEvent .. | .aggLog .. => some .aggregate
  | .procLoaded .. | .procEventIgnored .. | .procTimeoutIgnored .. | .procNotFound ..
  | .procBegun .. | .procEnded .. | .procReverted .. | .procCommand .. | .procTimeout ..
  | .procLog .. => some .process
  | .intEvent .. | .intLog .. => some .integration
  | .prjCompactBegun .. | .prjCompactCompleted .. | .prjLog .. => some .projection
  | _ => none

/-- The fact is about a handler of the right type, and the handler has a name. -/
def Fact.sane (f : Fact) : Prop :=
  ∀ h, f.handler = some h → h.name ≠ "" ∧ ∀ t, f.family = some t → h.htype = t

/-- The facts nothing is logged for: beginnings and ends that went well, and the ends of whole
cycles. -/
def Fact.silent : Fact → Bool
  | .dispatchCycleCompleted .. | .dispatchCompleted .. | .handlingBegun .. | .tickCycleCompleted ..
  | .tickBegun .. | .tickSkipped .. | .prjCompactBegun .. => true
  | .handlingCompleted _ _ e | .tickCompleted _ e => e.isNone
  | _ => false

/-- The sign for a handler type. -/
def kindSign : Option HandlerType → Char
  | none => '⚙'
  | some .aggregate => '∴'
  | some .process => '≡'
  | some .integration => '⨝'
  | some .projection => 'Σ'

/-- The arrow: up for a message that was produced, down for a message that came in, hollow if
handling it failed; nothing without a message. -/
def Fact.arrow (f : Fact) : Char :=
  match f.envelopes with
  | [] => ' '
  | [_] => if f.failure.isSome then '▽' else '▼'
  | _ => '▲'

/-- The first words: the name of the handler and the instance. -/
def Fact.words (f : Fact) : List Char :=
  match f.handler, f.instance? with
  | none, _ => []
  | some h, none => h.name.toList
  | some h, some id => (h.name ++ " " ++ id).toList

/-! ## Lines -/

theorem takeWhile_all {p : Char → Bool} (a : List Char) (c : Char) (b : List Char)
    (h : ∀ x ∈ a, p x = true) (hc : p c = false) :
    (a ++ c :: b).takeWhile p = a ∧ (a ++ c :: b).dropWhile p = c :: b := by
  induction a with
  | nil => simp [hc]
  | cons x a ih =>
    have hx := h x (by simp)
    have := ih (fun y hy => h y (by simp [hy]))
    simp [hx, this.1, this.2]

theorem decimal_digits (n : Nat) : ∀ c ∈ decimal n, c ≠ ' ' ∧ c ≠ '-' := by
  intro c hc
  obtain ⟨d, hd, rfl⟩ := List.mem_map.1 hc
  have h := digitChar_toNat (decimalDigits_lt n d hd)
  constructor
  · intro e; rw [e] at h; have : (' ' : Char).toNat = 32 := rfl; omega
  · intro e; rw [e] at h; have : ('-' : Char).toNat = 45 := rfl; omega

theorem numberOf_zero (l : List Char) : numberOf ('0' :: l) = numberOf l := by
  unfold numberOf
  rfl

theorem decimal_ne (n : Nat) : decimal n ≠ [] := by
  unfold decimal decimalDigits
  split <;> simp

theorem formatMessageID_ok (o : Option Nat) :
    formatMessageID o ≠ [] ∧ (∀ c ∈ formatMessageID o, c ≠ ' ') ∧ readID (formatMessageID o) = o := by
  cases o with
  | none => exact ⟨nofun, by decide, rfl⟩
  | some n =>
    have hd := decimal_digits n
    have hn : numberOf (decimal n) = n := numberOf_digits n
    have rd : ∀ l : List Char, (∀ c ∈ l, c ≠ ' ' ∧ c ≠ '-') → readID l = some (numberOf l) := by
      intro l hl
      unfold readID
      split
      · exact absurd rfl (hl '-' (by simp)).2
      · rfl
    unfold formatMessageID
    simp only
    split
    · refine ⟨nofun, ?_, ?_⟩
      · intro c hc
        rcases List.mem_cons.1 hc with rfl | hc
        · decide
        · exact (hd c hc).1
      · rw [rd _ (by
          intro c hc
          rcases List.mem_cons.1 hc with rfl | hc
          · decide
          · exact hd c hc), numberOf_zero, hn]
    · exact ⟨decimal_ne n, fun c hc => (hd c hc).1, by rw [rd _ hd, hn]⟩

theorem readColumn_ok (icon : Char) (o : Option Nat) (rest : List Char) :
    readColumn icon (icon :: ' ' :: (formatMessageID o ++ ' ' :: ' ' :: rest)) = some (o, rest) := by
  obtain ⟨_, h2, h3⟩ := formatMessageID_ok o
  obtain ⟨t, d⟩ := takeWhile_all (p := (· ≠ ' ')) (formatMessageID o) ' ' (' ' :: rest)
    (by intro x hx; simpa using h2 x hx) (by simp)
  unfold readColumn
  simp only [↓reduceIte, t, d, h3]

theorem logText_pos (texts : List String) (i : Nat) (hi : i > 0) :
    logText i texts = (texts.filter (· ≠ "")).flatMap (fun t => " ● ".toList ++ t.toList) := by
  induction texts generalizing i with
  | nil => rfl
  | cons t ts ih =>
    unfold logText
    by_cases h : t = ""
    · simp only [h, ↓reduceIte]; rw [ih i hi]; rfl
    · rw [if_neg h, ih (i + 1) (by omega), if_pos hi]
      simp [h, iconText]

theorem logText_first (t : String) (ts : List String) (h : t ≠ "") :
    logText 0 (t :: ts) =
      ' ' :: (t.toList ++ (ts.filter (· ≠ "")).flatMap (fun t => " ● ".toList ++ t.toList)) := by
  unfold logText
  rw [if_neg h, logText_pos _ _ (by omega)]
  simp

/-- Segments after the first. -/
def tailText (ts : List String) : List Char :=
  (ts.filter (· ≠ "")).flatMap (fun t => " ● ".toList ++ t.toList)

theorem readLog_line (env : Option Env) (a b c : String) (d k f : Char) (t : String)
    (ts : List String) (ha : iconText a = [d]) (hb : iconText b = [k]) (hc : iconText c = [f])
    (ht : t ≠ "") :
    readLog (logEnv env [a, b, c] (t :: ts)) =
      some ⟨env.map (·.id), env.map (·.causation), env.map (·.correlation), d, k, f,
        t.toList ++ tailText ts⟩ := by
  have e : logEnv env [a, b, c] (t :: ts) =
      '=' :: ' ' :: (formatMessageID (env.map (·.id)) ++ ' ' :: ' ' ::
        ('∵' :: ' ' :: (formatMessageID (env.map (·.causation)) ++ ' ' :: ' ' ::
          ('⋲' :: ' ' :: (formatMessageID (env.map (·.correlation)) ++ ' ' :: ' ' ::
            (d :: ' ' :: k :: ' ' :: f :: ' ' :: ' ' :: (t.toList ++ tailText ts))))))) := by
    unfold logEnv logString
    rw [logText_first _ _ ht]
    simp only [logIDs, logIcons, ha, hb, hc, if_neg (formatMessageID_ok _).1]
    simp [iconText, tailText]
  rw [e]
  unfold readLog
  simp only [readColumn_ok, Option.bind_eq_bind, Option.bind_some]

theorem tailText_rest (ts : List String) : tailText ts = [] ∨ " ● ".toList <+: tailText ts := by
  unfold tailText
  cases ts.filter (· ≠ "") with
  | nil => exact .inl rfl
  | cons t ts => 
    refine .inr ⟨t.toList ++ ts.flatMap (fun t => " ● ".toList ++ t.toList), ?_⟩
    simp only [List.flatMap_cons, List.append_assoc]

theorem name_instance_ne (a b : String) : a ++ " " ++ b ≠ "" := by
  intro h
  have := congrArg String.toList h
  simp at this

theorem iconText_type (t : HandlerType) : iconText (handlerTypeIcon t) = [kindSign (some t)] := by
  cases t <;> rfl

/-! ## Properties -/

/-- **C68** Nothing is logged for silent facts, and every other fact makes one line.  From the line
one can read the IDs of the fact's last envelope (no IDs if it has none), the direction of the
message, the type of the handler, whether the handler failed; the text begins with the handler's
name and the instance, if the fact is about them. -/
theorem C68_line (φ : LogFmt) (f : Fact) (hφ : ∀ t, φ.type t ≠ "")
    (hf : f.sane) :
    if f.silent then logFact φ f = none
    else ∃ l e, logFact φ f = some l ∧ readLog l = some e ∧
      e.message = f.envelopes.getLast?.map (·.id) ∧
      e.causation = f.envelopes.getLast?.map (·.causation) ∧
      e.correlation = f.envelopes.getLast?.map (·.correlation) ∧
      e.direction = f.arrow ∧
      e.kind = kindSign (f.handler.map (·.htype)) ∧
      e.failed = (if f.failure.isSome then '✖' else ' ') ∧
      ∃ rest, e.text = f.words ++ rest ∧
        (f.handler.isSome → rest = [] ∨ " ● ".toList <+: rest) := by
  have key : ∀ (env : Option Env) (a b c : String) (d k x : Char) (t : String)
      (ts : List String), logFact φ f = some (logEnv env [a, b, c] (t :: ts)) →
      iconText a = [d] → iconText b = [k] → iconText c = [x] → t ≠ "" →
      env = f.envelopes.getLast? → d = f.arrow → k = kindSign (f.handler.map (·.htype)) →
      x = (if f.failure.isSome then '✖' else ' ') →
      (∃ r, t.toList = f.words ++ r ∧ (f.handler.isSome → r = [])) →
      ∃ l e, logFact φ f = some l ∧ readLog l = some e ∧
        e.message = f.envelopes.getLast?.map (·.id) ∧
        e.causation = f.envelopes.getLast?.map (·.causation) ∧
        e.correlation = f.envelopes.getLast?.map (·.correlation) ∧
        e.direction = f.arrow ∧
        e.kind = kindSign (f.handler.map (·.htype)) ∧
        e.failed = (if f.failure.isSome then '✖' else ' ') ∧
        ∃ rest, e.text = f.words ++ rest ∧
          (f.handler.isSome → rest = [] ∨ " ● ".toList <+: rest) := by
    intro env a b c d k x t ts hl ha hb hc ht he hd hk hx ⟨r, hr, hr0⟩
    refine ⟨_, _, hl, readLog_line env a b c d k x t ts ha hb hc ht, ?_⟩
    subst he hd hk hx
    refine ⟨rfl, rfl, rfl, rfl, rfl, rfl, r ++ tailText ts, ?_, ?_⟩
    · simp only [hr, List.append_assoc]
    · intro h
      rw [hr0 h]
      exact tailText_rest ts
  have ty : ∀ (h : HConfig) (t : HandlerType), f.handler = some h → f.family = some t →
      h.htype = t := fun h t h1 h2 => (hf h h1).2 t h2
  have nm : ∀ h : HConfig, f.handler = some h → h.name ≠ "" := fun h h1 => (hf h h1).1
  cases f with
  | dispatchCycleBegun env now =>
    exact key _ _ _ _ _ _ _ _ _ rfl rfl rfl rfl (by decide) rfl rfl rfl rfl
      ⟨_, rfl, fun h => nomatch h⟩
  | dispatchBegun env =>
    exact key _ _ _ _ _ _ _ _ _ rfl rfl rfl rfl (hφ _) rfl rfl rfl rfl
      ⟨_, rfl, fun h => nomatch h⟩
  | tickCycleBegun now =>
    exact key _ _ _ _ _ _ _ _ _ rfl rfl rfl rfl (by decide) rfl rfl rfl rfl
      ⟨_, rfl, fun h => nomatch h⟩
  | handlingCompleted h env err =>
    cases err with
    | none => exact rfl
    | some e =>
      exact key _ _ _ _ _ _ _ _ _ rfl rfl (iconText_type _) rfl (nm h rfl) rfl rfl rfl rfl
        ⟨[], (List.append_nil _).symm, fun _ => rfl⟩
  | handlingSkipped h env r =>
    exact key _ _ _ _ _ _ _ _ _ rfl rfl (iconText_type _) rfl (nm h rfl) rfl rfl rfl rfl
      ⟨[], (List.append_nil _).symm, fun _ => rfl⟩
  | tickCompleted h err =>
    cases err with
    | none => exact rfl
    | some e =>
      exact key _ _ _ _ _ _ _ _ _ rfl rfl (iconText_type _) rfl (nm h rfl) rfl rfl rfl rfl
        ⟨[], (List.append_nil _).symm, fun _ => rfl⟩
  | prjCompactCompleted h err =>
    cases err with
    | none =>
      exact key _ _ _ _ _ _ _ _ _ rfl rfl rfl rfl (nm h rfl) rfl rfl
        (by simp only [Fact.handler, Option.map_some, ty h _ rfl rfl]; rfl) rfl
        ⟨[], (List.append_nil _).symm, fun _ => rfl⟩
    | some e =>
      exact key _ _ _ _ _ _ _ _ _ rfl rfl rfl rfl (nm h rfl) rfl rfl
        (by simp only [Fact.handler, Option.map_some, ty h _ rfl rfl]; rfl) rfl
        ⟨[], (List.append_nil _).symm, fun _ => rfl⟩
  | prjLog h env s =>
    cases env with
    | none =>
      exact key _ _ _ _ _ _ _ _ _ rfl rfl rfl rfl (nm h rfl) rfl rfl
        (by simp only [Fact.handler, Option.map_some, ty h _ rfl rfl]; rfl) rfl
        ⟨[], (List.append_nil _).symm, fun _ => rfl⟩
    | some env =>
      exact key _ "▼" _ _ '▼' _ _ _ _ rfl rfl rfl rfl (nm h rfl) rfl rfl
        (by simp only [Fact.handler, Option.map_some, ty h _ rfl rfl]; rfl) rfl
        ⟨[], (List.append_nil _).symm, fun _ => rfl⟩
  | procEventIgnored h env =>
    exact key _ _ _ _ _ _ _ _ _ rfl rfl rfl rfl (nm h rfl) rfl rfl
      (by simp only [Fact.handler, Option.map_some, ty h _ rfl rfl]; rfl) rfl
      ⟨[], (List.append_nil _).symm, fun _ => rfl⟩
  | intEvent h env ev =>
    exact key _ _ _ _ _ _ _ _ _ rfl rfl rfl rfl (nm h rfl) rfl rfl
      (by simp only [Fact.handler, Option.map_some, ty h _ rfl rfl]; rfl) rfl
      ⟨[], (List.append_nil _).symm, fun _ => rfl⟩
  | intLog h env s =>
    exact key _ _ _ _ _ _ _ _ _ rfl rfl rfl rfl (nm h rfl) rfl rfl
      (by simp only [Fact.handler, Option.map_some, ty h _ rfl rfl]; rfl) rfl
      ⟨[], (List.append_nil _).symm, fun _ => rfl⟩
  | _ =>
    first
    | exact rfl
    | exact key _ _ _ _ _ _ _ _ _ rfl rfl rfl rfl (name_instance_ne _ _) rfl rfl
        (by simp only [Fact.handler, Option.map_some, ty _ _ rfl rfl]; rfl) rfl
        ⟨[], (List.append_nil _).symm, fun _ => rfl⟩

/-- **C68** The text is made of the segments that are not empty, with the separator between them. -/
theorem C68_join (ids : List (String × List Char)) (icons : List String) (text : List String) :
    ∃ before, (∀ text', ∃ after, logString ids icons text' = before ++ after) ∧
      logString ids icons text = before ++
        match text.filter (· ≠ "") with
        | [] => []
        | ts => ' ' :: [' ', '●', ' '].intercalate (ts.map String.toList) := by
  refine ⟨logIDs ids ++ logIcons icons, fun _ => ⟨_, rfl⟩, ?_⟩
  unfold logString
  congr 1
  induction text with
  | nil => rfl
  | cons t ts ih =>
    by_cases h : t = ""
    · have e : logText 0 (t :: ts) = logText 0 ts := by conv => lhs; unfold logText; simp [h]
      rw [e, ih]
      simp [h]
    · rw [logText_first _ _ h]
      have hf : (t :: ts).filter (· ≠ "") = t :: ts.filter (· ≠ "") := by simp [h]
      rw [hf]
      simp only
      generalize ts.filter (· ≠ "") = us
      congr 1
      clear ih hf h
      induction us generalizing t with
      | nil => simp [List.intercalate]
      | cons u us ihu =>
        have := ihu u
        simp only [List.map_cons, List.intercalate_cons_cons] at this ⊢
        rw [← this]
        simp

theorem lookup_perm {a b : List (String × Bool)} (h : a.Perm b) (nd : (a.map (·.1)).Nodup)
    (n : String) : a.lookup n = b.lookup n := by
  induction h with
  | nil => rfl
  | cons x _ ih =>
    obtain ⟨k, v⟩ := x
    simp only [List.map_cons, List.nodup_cons] at nd
    simp only [List.lookup_cons]
    rw [ih nd.2]
  | swap x y l =>
    obtain ⟨k, v⟩ := x
    obtain ⟨k', v'⟩ := y
    simp only [List.map_cons, List.nodup_cons, List.mem_cons, not_or] at nd
    simp only [List.lookup_cons]
    by_cases h1 : n = k
    · by_cases h2 : n = k'
      · exact absurd (h2.symm.trans h1) nd.1.1
      · simp [h1, beq_eq_false_iff_ne.2 (fun e => h2 (h1.trans e) : k ≠ k')]
    · simp [beq_eq_false_iff_ne.2 h1]
  | trans h1 _ ih1 ih2 =>
    rw [ih1 nd, ih2 ((h1.map _).nodup_iff.1 nd)]

theorem sorted_names (l : List String) :
    (l.mergeSort (fun a b => decide (a ≤ b))).Pairwise (· ≤ ·) := by
  have tr : ∀ a b c : String, decide (a ≤ b) = true → decide (b ≤ c) = true →
      decide (a ≤ c) = true := by
    intro a b c; simp only [decide_eq_true_eq]; exact String.le_trans
  have tt : ∀ a b : String, (decide (a ≤ b) || decide (b ≤ a)) = true := by
    intro a b; simpa using String.le_total a b
  have := List.pairwise_mergeSort tr tt l
  simpa only [decide_eq_true_eq] using this

/-- **C68** The list of enabled handlers does not depend on the iteration order of the map. -/
theorem C68_enabled_order (byType : HandlerType → Bool) (a b : List (String × Bool)) (h : a.Perm b)
    (nd : (a.map (·.1)).Nodup) : formatEnabledHandlers byType a = formatEnabledHandlers byType b := by
  have hs : (a.map (·.1)).mergeSort (fun a b => decide (a ≤ b)) =
      (b.map (·.1)).mergeSort (fun a b => decide (a ≤ b)) :=
    List.Perm.eq_of_pairwise (fun _ _ _ _ h1 h2 => String.le_antisymm h1 h2)
      (sorted_names _) (sorted_names _)
      ((List.mergeSort_perm _ _).trans ((h.map _).trans (List.mergeSort_perm _ _).symm))
  have hl : isEnabled a = isEnabled b := by
    funext n
    unfold isEnabled
    rw [lookup_perm h nd n]
  unfold formatEnabledHandlers
  simp only [hs, hl]

theorem foldl_text {α : Type} (g : α → String) (xs : List α) (s : String) :
    (xs.foldl (fun s x => s ++ g x) s).toList = s.toList ++ xs.flatMap (fun x => (g x).toList) := by
  induction xs generalizing s with
  | nil => simp
  | cons x xs ih => simp [ih, List.append_assoc]

/-- **C68** The list names the enabled handler types and then every handler that was enabled or
disabled by name, once, in alphabetical order and with its sign. -/
theorem C68_enabled_names (byType : HandlerType → Bool) (byName : List (String × Bool))
    (nd : (byName.map (·.1)).Nodup) :
    ∃ entries : List (String × Bool), entries.Perm byName ∧
      entries.Pairwise (fun x y => x.1 < y.1) ∧
      (formatEnabledHandlers byType byName).toList = "enabled:".toList ++
        (if byType .aggregate then " +aggregates".toList else []) ++
        (if byType .process then " +processes".toList else []) ++
        (if byType .integration then " +integrations".toList else []) ++
        (if byType .projection then " +projections".toList else []) ++
        entries.flatMap (fun x => ' ' :: (if x.2 then '+' else '-') :: x.1.toList) := by
  let names := (byName.map (·.1)).mergeSort (fun a b => decide (a ≤ b))
  have hp : names.Perm (byName.map (·.1)) := List.mergeSort_perm _ _
  have hnd : names.Nodup := hp.nodup_iff.2 nd
  refine ⟨names.map (fun n => (n, isEnabled byName n)), ?_, ?_, ?_⟩
  · have h1 := hp.map (fun n => (n, isEnabled byName n))
    refine h1.trans ?_
    rw [List.map_map]
    have : ∀ (l pre : List (String × Bool)), pre ++ l = byName →
        l.map ((fun n => (n, isEnabled byName n)) ∘ (·.1)) = l := by
      intro l
      induction l with
      | nil => intro _ _; rfl
      | cons x l ih =>
        intro pre e
        obtain ⟨k, v⟩ := x
        rw [List.map_cons, ih (pre ++ [(k, v)]) (by simp [e])]
        have hk : isEnabled byName k = v := by
          unfold isEnabled
          rw [← lookup_perm (a := (k, v) :: (pre ++ l)) (b := byName)
            (by rw [← e]; exact List.perm_middle.symm)
            (by
              have : ((k, v) :: (pre ++ l)).Perm byName := by
                rw [← e]; exact List.perm_middle.symm
              exact (this.map _).nodup_iff.2 nd)]
          simp
        simp only [Function.comp_apply, hk]
    rw [this byName [] rfl]
  · have h1 := sorted_names (byName.map (·.1))
    have h2 : names.Pairwise (fun a b => a < b) := by
      have := List.Pairwise.and h1 hnd
      refine this.imp ?_
      intro a b hab
      rcases Classical.em (a < b) with h | h
      · exact h
      · exact absurd (String.le_antisymm hab.1 (String.not_lt.1 h)) hab.2
    exact List.pairwise_map.2 h2
  · unfold formatEnabledHandlers
    simp only
    have g : (fun (s n : String) => if isEnabled byName n = true then s ++ " +" ++ n
        else s ++ " -" ++ n) =
        fun s n => s ++ ((if isEnabled byName n then " +" else " -") ++ n) := by
      funext s n
      split <;> simp [String.append_assoc]
    rw [g, String.toList_append, foldl_text]
    rw [List.flatMap_map]
    have e2 : ∀ n : String, ((if isEnabled byName n then " +" else " -") ++ n).toList =
        ' ' :: (if isEnabled byName n then '+' else '-') :: n.toList := by
      intro n; split <;> simp
    simp only [e2]
    rw [← List.append_assoc]
    congr 1
    simp only [logTypes, List.foldl_cons, List.foldl_nil, handlerTypePlural]
    cases byType .aggregate <;> cases byType .process <;> cases byType .integration <;>
      cases byType .projection <;> rfl


/-- **C68** The line about a failure ends with the error. -/
theorem C68_error (φ : LogFmt) (f : Fact) (e : Err) (l : List Char)
    (hf : f.failure = some e) (hl : logFact φ f = some l) : e.toList <:+ l := by
  have key : ∀ (env : Option Env) (icons : List String) (t u : String),
      u.toList <:+ logEnv env icons [t, u] := by
    intro env icons t u
    unfold logEnv logString
    refine List.IsSuffix.trans ?_ (List.suffix_append _ _)
    by_cases hu : u = ""
    · subst hu; exact List.nil_suffix
    · by_cases ht : t = ""
      · simp only [logText, ht, hu, ↓reduceIte, List.append_nil]
        exact List.suffix_append _ _
      · simp only [logText, ht, hu, ↓reduceIte, List.append_nil]
        rw [← List.append_assoc]
        exact List.suffix_append _ _
  cases f with
  | handlingCompleted h env err =>
    subst hf; cases hl; exact key _ _ _ _
  | tickCompleted h err =>
    subst hf; cases hl; exact key _ _ _ _
  | prjCompactCompleted h err =>
    subst hf; cases hl
    refine List.IsSuffix.trans ?_ (key _ _ _ _)
    rw [String.toList_append]
    exact List.suffix_append _ _
  | _ => exact nomatch hf

/-- **C68** The line about a message that was produced ends with its type and its description. -/
theorem C68_produced (φ : LogFmt) (f : Fact) (cause p : Env) (l : List Char)
    (hφ : ∀ t, φ.type t ≠ "") (hd : φ.desc p.msg ≠ "")
    (hf : f.envelopes = [cause, p]) (hl : logFact φ f = some l) :
    (" ● ".toList ++ (φ.type p.msg.type).toList ++ " ● ".toList ++ (φ.desc p.msg).toList) <:+ l := by
  have key : ∀ (env : Option Env) (icons : List String) (t u : String), u ≠ "" →
      (" ● ".toList ++ (φ.type p.msg.type).toList ++ " ● ".toList ++ (φ.desc p.msg).toList) <:+
        logEnv env icons [t, u, φ.type p.msg.type, φ.desc p.msg] := by
    intro env icons t u hu
    unfold logEnv logString
    refine List.IsSuffix.trans ?_ (List.suffix_append _ _)
    have e : ∀ i, i > 0 → logText i [φ.type p.msg.type, φ.desc p.msg] =
        " ● ".toList ++ (φ.type p.msg.type).toList ++ " ● ".toList ++ (φ.desc p.msg).toList := by
      intro i hi
      rw [logText_pos _ _ hi]
      simp [hφ, hd]
    have e2 : ∀ i, logText i [u, φ.type p.msg.type, φ.desc p.msg] =
        (' ' :: (if i > 0 then iconText "●" ++ [' '] else []) ++ u.toList) ++
          logText (i + 1) [φ.type p.msg.type, φ.desc p.msg] := by
      intro i
      conv => lhs; unfold logText
      rw [if_neg hu]
    by_cases ht : t = ""
    · have e3 : logText 0 [t, u, φ.type p.msg.type, φ.desc p.msg] =
          logText 0 [u, φ.type p.msg.type, φ.desc p.msg] := by
        conv => lhs; unfold logText
        rw [if_pos ht]
      rw [e3, e2, e 1 (by omega)]
      exact List.suffix_append _ _
    · have e3 : logText 0 [t, u, φ.type p.msg.type, φ.desc p.msg] =
          (' ' :: (if 0 > 0 then iconText "●" ++ [' '] else []) ++ t.toList) ++
            logText 1 [u, φ.type p.msg.type, φ.desc p.msg] := by
        conv => lhs; unfold logText
        rw [if_neg ht]
      rw [e3, e2, e 2 (by omega), ← List.append_assoc]
      exact List.suffix_append _ _
  have ne : ∀ s : String, "scheduled a timeout for " ++ s ≠ "" := by
    intro s h
    have := congrArg String.toList h
    simp at this
  cases f with
  | aggEvent h id env ev => cases hf; cases hl; exact key _ _ _ _ (by decide)
  | procCommand h id env cmd => cases hf; cases hl; exact key _ _ _ _ (by decide)
  | procTimeout h id env tmo => cases hf; cases hl; exact key _ _ _ _ (ne _)
  | intEvent h env ev => cases hf; cases hl; exact key _ _ _ _ (by decide)
  | prjLog h env s => cases env <;> exact nomatch hf
  | _ => exact nomatch hf

/-! ## Instances -/

namespace Demo

/-- Some formatting. -/
def logFmt : LogFmt := ⟨fun _ => "2006-01-02T15:04:05+07:00", fun t => t.name ++ "!", fun m => m.body⟩

/-- A process that executes a command with ID 12 because of event 7. -/
def logCmd : Fact :=
  .procCommand ⟨"shop", .process, false, [], []⟩ "s1" ⟨7, 3, 3, ⟨⟨.event, "E"⟩, "e", none⟩, 0, 0, none⟩
    ⟨12, 7, 3, ⟨⟨.command, "C"⟩, "c", none⟩, 0, 0, none⟩

end Demo

example : Demo.logCmd.sane ∧ (∀ t, Demo.logFmt.type t ≠ "") ∧ Demo.logCmd.silent = false := by
  refine ⟨?_, ?_, rfl⟩
  · intro h e; cases e; exact ⟨by decide, fun t e => by cases e; rfl⟩
  · intro t h
    have := congrArg String.toList h
    simp [Demo.logFmt] at this

set_option maxRecDepth 100000 in
example : (logFact Demo.logFmt Demo.logCmd).map String.ofList =
    some "= 12  ∵ 07  ⋲ 03  ▲ ≡    shop s1 ● executed a command ● C! ● c" := by
  decide +kernel

set_option maxRecDepth 100000 in
example : (logFact Demo.logFmt Demo.logCmd).bind readLog = some
    ⟨some 12, some 7, some 3, '▲', '≡', ' ', "shop s1 ● executed a command ● C! ● c".toList⟩ := by
  decide +kernel

set_option maxRecDepth 100000 in
example : String.ofList (logEnv none ["", "Σ", "✖"] ["prj", "", "compaction failed: x"]) =
    "= --  ∵ --  ⋲ --    Σ ✖  prj ● compaction failed: x" := by
  decide +kernel

/-- Beside `C68_enabled_order` and `C68_enabled_names`: the example of `logger_test.go` 104. -/
example : formatEnabledHandlers (fun t => t == .aggregate || t == .process)
    [("<enabled>", true), ("<disabled>", false)] =
    "enabled: +aggregates +processes -<disabled> +<enabled>" := by
  have h : ["<enabled>", "<disabled>"].mergeSort (fun a b => decide (a ≤ b)) =
      ["<disabled>", "<enabled>"] := by
    simp [List.mergeSort, List.MergeSort.Internal.splitInTwo]
  simp only [formatEnabledHandlers, List.map_cons, List.map_nil, h]
  decide +kernel

end Verif
