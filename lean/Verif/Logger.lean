import Verif.Basic
import Verif.Ident

/-!
# The log of facts

`/repo/fact/logger.go`, `/repo/fact/internal/logging/write.go`, `icon.go`.

Texts are lists of characters.  What the code takes from other packages is a parameter (`LogFmt`):
RFC 3339 times, message types with their symbols, message descriptions.  Log messages of handlers
are texts in the model, so `fmt.Sprintf(f.LogFormat, f.LogArguments...)` is the text itself.  IDs
are numbers in the model and are shown in decimal (`Verif.Ident`); since they have no `%`, using
them as a format in `WithLabel` changes nothing.
-/

namespace Verif

/-- Formatting provided by other packages (used in `logger.go` 88-548). -/
structure LogFmt where
  /-- `t.Format(time.RFC3339)` -/
  time : Time → String
  /-- `mt.String() + mt.Kind().Symbol()` -/
  type : MType → String
  /-- `m.MessageDescription()` -/
  desc : Message → String

/-- `Icon.WriteTo` (`icon.go` 104-113). -/
def iconText (i : String) : List Char := if i = "" then [' '] else i.toList

/-- `mustWrite` for the ID columns (`write.go` 39-42) and `IconWithLabel.WriteTo`
(`icon.go` 133-141). -/
def logIDs : List (String × List Char) → List Char
  | [] => []
  | (i, l) :: rest =>
    iconText i ++ ' ' :: (if l = [] then ['-'] else l) ++ ' ' :: ' ' :: logIDs rest

/-- `mustWrite` for the icons (`write.go` 44-47). -/
def logIcons : List String → List Char
  | [] => []
  | i :: rest => iconText i ++ ' ' :: logIcons rest

/-- `mustWrite` for the text (`write.go` 49-64), `i` being the number of segments written. -/
def logText (i : Nat) : List String → List Char
  | [] => []
  | v :: rest =>
    if v = "" then logText i rest
    else ' ' :: (if i > 0 then iconText "●" ++ [' '] else []) ++ v.toList ++ logText (i + 1) rest

/-- `logging.String` (`write.go` 11-19). -/
def logString (ids : List (String × List Char)) (icons : List String) (text : List String) :
    List Char :=
  logIDs ids ++ logIcons icons ++ logText 0 text

/-- The decimal digits of a number (for `id.go` 15-18). -/
def decimal (n : Nat) : List Char := (decimalDigits n).map digitChar

/-- `formatMessageID` (`logger.go` 551-557): `%02s` pads with zeros up to two characters. -/
def formatMessageID : Option Nat → List Char
  | none => ['-', '-']
  | some n => if (decimal n).length < 2 then '0' :: decimal n else decimal n

/-- `(*Logger).log` (`logger.go` 522-549).  The empty envelope of the tick facts has empty IDs,
like no envelope. -/
def logEnv (env : Option Env) (icons : List String) (text : List String) : List Char :=
  logString
    [("=", formatMessageID (env.map (·.id))),
     ("∵", formatMessageID (env.map (·.causation))),
     ("⋲", formatMessageID (env.map (·.correlation)))]
    icons text

/-- `HandlerTypeIcon` (`icon.go` 170-183). -/
def handlerTypeIcon : HandlerType → String
  | .aggregate => "∴"
  | .process => "≡"
  | .integration => "⨝"
  | .projection => "Σ"

/-- `HandlerType.String` (configkit) (used in `logger.go` 570-598). -/
def handlerTypeName : HandlerType → String
  | .aggregate => "aggregate"
  | .process => "process"
  | .integration => "integration"
  | .projection => "projection"

/-- The text for a reason (`handlingSkipped`, `logger.go` 135-146). -/
def skipText (h : HConfig) : SkipReason → String
  | .typeDisabled =>
    "handler skipped because " ++ handlerTypeName h.htype ++ " handlers are disabled"
  | .individuallyDisabled =>
    "handler skipped because it is disabled during this tick of the test engine"
  | .disabledByConfiguration =>
    "handler skipped because it is disabled by its Configure() method"

/-- `handlerTypePlurals` (`logger.go` 563-568). -/
def handlerTypePlural : HandlerType → String
  | .aggregate => "aggregates"
  | .process => "processes"
  | .integration => "integrations"
  | .projection => "projections"

/-- `configkit.HandlerTypes` (used in `logger.go` 576). -/
def logTypes : List HandlerType := [.aggregate, .process, .integration, .projection]

/-- `byName[n]` (`logger.go` 588-592). -/
def isEnabled (byName : List (String × Bool)) (n : String) : Bool :=
  (byName.lookup n).getD false

/-- `formatEnabledHandlers` (`logger.go` 570-598).  `byName` lists the entries of the map in
iteration order. -/
def formatEnabledHandlers (byType : HandlerType → Bool) (byName : List (String × Bool)) : String :=
  let s := logTypes.foldl (fun s t => if byType t then s ++ " +" ++ handlerTypePlural t else s) ""
  let sorted := (byName.map (·.1)).mergeSort (fun a b => decide (a ≤ b))
  "enabled:" ++ sorted.foldl
    (fun s n => if isEnabled byName n then s ++ " +" ++ n else s ++ " -" ++ n) s

/-- `(*Logger).Notify` (`logger.go` 29-86) and the functions it calls (`logger.go` 88-518): the line
passed to the log function, if any. -/
def logFact (φ : LogFmt) : Fact → Option (List Char)
  | .dispatchCycleBegun env c =>
    some (logEnv env ["▼", "⚙", ""] ["dispatching", φ.time c.now, formatEnabledHandlers c.enables c.names])
  | .dispatchCycleCompleted _ _ _ => none
  | .dispatchBegun env =>
    some (logEnv env ["▼", "⚙", ""] [φ.type env.msg.type, φ.desc env.msg])
  | .dispatchCompleted _ _ => none
  | .handlingBegun _ _ => none
  | .handlingCompleted _ _ none => none
  | .handlingCompleted h env (some e) =>
    some (logEnv env ["▽", handlerTypeIcon h.htype, "✖"] [h.name, e])
  | .handlingSkipped h env r =>
    some (logEnv env ["▼", handlerTypeIcon h.htype, ""] [h.name, skipText h r])
  | .tickCycleBegun c =>
    some (logEnv none ["", "⚙", ""] ["ticking", φ.time c.now, formatEnabledHandlers c.enables c.names])
  | .tickCycleCompleted _ _ => none
  | .tickBegun _ => none
  | .tickCompleted _ none => none
  | .tickCompleted h (some e) =>
    some (logEnv none ["", handlerTypeIcon h.htype, "✖"] [h.name, e])
  | .tickSkipped _ _ => none
  | .aggLoaded h id env =>
    some (logEnv env ["▼", "∴", ""] [h.name ++ " " ++ id, "loaded an existing instance"])
  | .aggNotFound h id env =>
    some (logEnv env ["▼", "∴", ""] [h.name ++ " " ++ id, "instance does not yet exist"])
  | .aggCreated h id env =>
    some (logEnv env ["▼", "∴", ""] [h.name ++ " " ++ id, "instance created"])
  | .aggDestroyed h id env =>
    some (logEnv env ["▼", "∴", ""] [h.name ++ " " ++ id, "instance destroyed"])
  | .aggReverted h id env =>
    some (logEnv env ["▼", "∴", ""] [h.name ++ " " ++ id, "destruction of instance reverted"])
  | .aggEvent h id _ ev =>
    some (logEnv ev ["▲", "∴", ""]
      [h.name ++ " " ++ id, "recorded an event", φ.type ev.msg.type, φ.desc ev.msg])
  | .aggLog h id env s => some (logEnv env ["▼", "∴", ""] [h.name ++ " " ++ id, s])
  | .procLoaded h id env =>
    some (logEnv env ["▼", "≡", ""] [h.name ++ " " ++ id, "loaded an existing instance"])
  | .procEventIgnored h env =>
    some (logEnv env ["▼", "≡", ""]
      [h.name, "event ignored because it was not routed to any instance"])
  | .procTimeoutIgnored h id env =>
    some (logEnv env ["▼", "≡", ""]
      [h.name ++ " " ++ id, "timeout ignored because the target instance no longer exists"])
  | .procNotFound h id env =>
    some (logEnv env ["▼", "≡", ""] [h.name ++ " " ++ id, "instance does not yet exist"])
  | .procBegun h id env =>
    some (logEnv env ["▼", "≡", ""] [h.name ++ " " ++ id, "instance begun"])
  | .procEnded h id env =>
    some (logEnv env ["▼", "≡", ""] [h.name ++ " " ++ id, "instance ended"])
  | .procReverted h id env =>
    some (logEnv env ["▼", "≡", ""] [h.name ++ " " ++ id, "reverted ending process instance"])
  | .procCommand h id _ cmd =>
    some (logEnv cmd ["▲", "≡", ""]
      [h.name ++ " " ++ id, "executed a command", φ.type cmd.msg.type, φ.desc cmd.msg])
  | .procTimeout h id _ tmo =>
    some (logEnv tmo ["▲", "≡", ""]
      [h.name ++ " " ++ id, "scheduled a timeout for " ++ φ.time tmo.scheduledFor,
       φ.type tmo.msg.type, φ.desc tmo.msg])
  | .procLog h id env s => some (logEnv env ["▼", "≡", ""] [h.name ++ " " ++ id, s])
  | .intEvent h _ ev =>
    some (logEnv ev ["▲", "⨝", ""]
      [h.name, "recorded an event", φ.type ev.msg.type, φ.desc ev.msg])
  | .intLog h env s => some (logEnv env ["▼", "⨝", ""] [h.name, s])
  | .prjCompactBegun _ => none
  | .prjCompactCompleted h none => some (logEnv none ["", "Σ", ""] [h.name, "compacted"])
  | .prjCompactCompleted h (some e) =>
    some (logEnv none ["", "Σ", "✖"] [h.name, "compaction failed: " ++ e])
  | .prjLog h env s =>
    some (logEnv env [if env.isSome then "▼" else "", "Σ", ""] [h.name, s])

end Verif
