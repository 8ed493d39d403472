import Verif.Basic

/-!
# Inflection of report texts

`/repo/internal/inflect/inflect.go`.  Strings are lists of characters here.
-/

namespace Verif.Inflect

/-- `strings.ReplaceAll(s, k, v)` for non-empty `k`: replaces the occurrences of `k` from left to
right.  `skip` characters of an occurrence are still to be dropped (used in `inflect.go` 50). -/
def replaceGo (k v : List Char) : Nat → List Char → List Char
  | _, [] => []
  | n + 1, _ :: cs => replaceGo k v n cs
  | 0, c :: cs =>
    if k.isPrefixOf (c :: cs) then v ++ replaceGo k v (k.length - 1) cs
    else c :: replaceGo k v 0 cs

/-- `strings.ReplaceAll`, used in `inflect.go` 50-51. -/
def replace (k v s : List Char) : List Char := replaceGo k v 0 s

/-- A word character of Go regular expressions (`\w`, ASCII only) (for `inflect.go` 82). -/
def isWord (c : Char) : Bool :=
  ('a' ≤ c && c ≤ 'z') || ('A' ≤ c && c ≤ 'Z') || ('0' ≤ c && c ≤ '9') || c == '_'

/-- There is no word character here (end of the text, or another character) (for `inflect.go` 82).
-/
def noWord : Option Char → Bool
  | none => true
  | some c => !isWord c

/-- `replaceAll` (`inflect.go` 81-83) for a `k` that begins and ends with a word character:
replaces the occurrences of `k` at word boundaries, from left to right.  `prev` is the
character before. -/
def replaceWordGo (k v : List Char) : Option Char → Nat → List Char → List Char
  | _, _, [] => []
  | _, n + 1, c :: cs => replaceWordGo k v (some c) n cs
  | prev, 0, c :: cs =>
    if k.isPrefixOf (c :: cs) && noWord prev && noWord ((c :: cs).drop k.length).head? then
      v ++ replaceWordGo k v (some c) (k.length - 1) cs
    else c :: replaceWordGo k v (some c) 0 cs

/-- `inflect.go` 81-83. -/
def replaceWord (k v s : List Char) : List Char := replaceWordGo k v none 0 s

/-- `substitutions` (`inflect.go` 12-36), in the order of the source text. -/
def substitutions : Kind → List (String × String)
  | .command =>
    [("<message>", "command"), ("<messages>", "commands"), ("<produce>", "execute"),
     ("<produced>", "executed"), ("<producing>", "executing"),
     ("<dispatcher>", "dogma.CommandExecutor")]
  | .event =>
    [("<message>", "event"), ("<messages>", "events"), ("<produce>", "record"),
     ("<produced>", "recorded"), ("<producing>", "recording"),
     ("<dispatcher>", "dogma.EventRecorder")]
  | .timeout =>
    [("<message>", "timeout"), ("<messages>", "timeouts"), ("<produce>", "schedule"),
     ("<produced>", "scheduled"), ("<producing>", "scheduling")]

/-- `corrections` (`inflect.go` 38-45). -/
def corrections : List (String × String) :=
  [("an command", "a command"), ("a event", "an event"), ("an timeout", "a timeout"),
   ("1 commands", "1 command"), ("1 events", "1 event"), ("1 timeouts", "1 timeout")]

/-- `strings.ToUpper`, for the ASCII texts of the tables (used in `inflect.go` 51). -/
def upper (s : List Char) : List Char := s.map Char.toUpper

/-- One round of the first loop of `Sprint` (`inflect.go` 49-52). -/
def substitute (s : List Char) (e : String × String) : List Char :=
  replace (upper e.1.toList) (upper e.2.toList) (replace e.1.toList e.2.toList s)

/-- One round of the second loop of `Sprint` (`inflect.go` 54-57). -/
def correct (s : List Char) (e : String × String) : List Char :=
  replaceWord (upper e.1.toList) (upper e.2.toList) (replaceWord e.1.toList e.2.toList s)

/-- `Sprint` (`inflect.go` 48-60), given the orders in which the two maps are iterated. -/
def sprintWith (subs corrs : List (String × String)) (s : List Char) : List Char :=
  corrs.foldl correct (subs.foldl substitute s)

/-- `Sprint`, iterating the maps in the order of the source text (`inflect.go` 48-60). -/
def sprint (k : Kind) (s : String) : String :=
  String.ofList (sprintWith (substitutions k) corrections s.toList)

end Verif.Inflect
