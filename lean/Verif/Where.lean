import Verif.Ident
import Verif.Satisfy
import Verif.Expect

/-!
# What locations and panics say

`/repo/location/location.go` 30-87 (`Location.String`, `FileLine`, `isNamedFunc`) and the methods `String` of
`/repo/engine/internal/panicx/unexpectedbehavior.go` 40-49 and `unexpectedmessage.go` 36-45.  The functions of
the standard library that they use are modelled as documented: `path.Base` (the same as `filepath.Base` on Unix), `strings.Contains`, and the matching
of the regular expression `\.func\d+(\.\d+)*$`.  What `%T` prints is an arbitrary string.
-/

namespace Verif

/-- `FileLine` (`location.go` 61-71); `none` is `ok == false`. -/
def Location.fileLine (l : Location) : Option String :=
  if l.file = "" then none
  else some (pathBase l.file ++ ":" ++ String.ofList ((decimalDigits l.line).map digitChar))

/-- `\d+(\.\d+)*` matches all of the text (as used in `location.go` 73); `seen` is whether there is a digit just
before. -/
def isNumbering (seen : Bool) : List Char → Bool
  | [] => seen
  | c :: s =>
    if '0' ≤ c ∧ c ≤ '9' then isNumbering true s
    else c == '.' && seen && isNumbering false s

/-- Some suffix is as described (as used in `location.go` 79, 82). -/
def anySuffix (p : List Char → Bool) : List Char → Bool
  | [] => p []
  | c :: s => p (c :: s) || anySuffix p s

/-- `closurePattern.MatchString` (`location.go` 73). -/
def isClosureName (s : List Char) : Bool :=
  anySuffix (fun t => ".func".toList.isPrefixOf t && isNumbering false (t.drop 5)) s

/-- `isNamedFunc` (`location.go` 75-86). -/
def Location.isNamedFunc (l : Location) : Bool :=
  if l.func = "" then false
  else if anySuffix (fun t => "glob..".toList.isPrefixOf t) l.func.toList then false
  else if isClosureName l.func.toList then false
  else true

/-- `Location.String` (`location.go` 30-55). -/
def Location.text (l : Location) : String :=
  match l.fileLine with
  | some fl => if l.isNamedFunc then fl ++ " [" ++ l.func ++ "(...)]" else fl
  | none => if l.func ≠ "" then l.func ++ "(...)" else "<unknown>"

/-- `UnexpectedBehavior.String` (`unexpectedbehavior.go` 40-49); `impl` is what `%T` prints for the
implementation. -/
def behaviorText (h : HConfig) (impl method desc : String) : String :=
  "the '" ++ h.name ++ "' " ++ h.htype.str ++ " message handler behaved unexpectedly in " ++ impl ++ "." ++
    method ++ "(): " ++ desc

/-- `UnexpectedMessage.String` (`unexpectedmessage.go` 36-45). -/
def unexpectedText (h : HConfig) (impl method : String) (m : Message) : String :=
  "the '" ++ h.name ++ "' " ++ h.htype.str ++ " message handler did not expect " ++ impl ++ "." ++ method ++
    "() to be called with a message of type " ++ m.type.name

/-- The text of the error that stands for a handler's error (`/repo/engine/engine.go` 150-155, 278-283). -/
def handlerErrText (name : String) (t : HandlerType) (e : Err) : String := name ++ " " ++ t.str ++ ": " ++ e

end Verif
