import Verif.Protocol
import Verif.Logger

/-!
# What a test tells the `TestingT`

`/repo/test.go` 68-72, 87-179.  A test has a logger among the observers of all its engine operations
(observer 0 of the model, see `Verif.Test`); it calls `Log()` with the line that `Verif.Logger` makes
of a fact, if any.  `Helper()` is left out: it tells nothing.
-/

namespace Verif

/-- Calls of methods of the `TestingT` (`interface.go` 7-14). -/
inductive Told where
  | log (s : String)
  | fatal (e : TErr)
  | failNow
  deriving DecidableEq

/-- The text of an error (`action.dispatch.go` 81-85, `action.advancetime.go` 93-96); `join` gives the
text of errors of the engine, which a library joins. -/
def TErr.text (join : List EngErr → String) : TErr → String
  | .engine es => join es
  | .unrecognised t => Inflect.sprint t.kind
      ("cannot <produce> <message>, " ++ t.name ++ " is a not a recognized message type")
  | .reversed desc => "adjusting the clock " ++ desc ++ " would reverse time"
  | .user e => e
  | .expectation msg => msg

/-- The line of a fact (`test.go` 68-72 and `fact/logger.go` 29-86). -/
def Fact.line (φ : LogFmt) (f : Fact) : Option Told := (logFact φ f).map fun s => .log (String.ofList s)

/-- What the `TestingT` is told when something on the record happens (`test.go` 68-72, 90-92, 110-115,
125-128, 171-175). -/
def TObs.tells (φ : LogFmt) (o : TObs) : List Told :=
  match o with
  | .engine .. => (o.told 0).filterMap (Fact.line φ)
  | .exec .. => []
  | .log s => [.log s]
  | .fatal e => [.fatal e]
  | .failNow => [.failNow]

/-- All that the `TestingT` has been told (the methods are called as things happen). -/
def TSt.output {W R : Type} (φ : LogFmt) (t : TSt W R) : List Told := t.did.flatMap (TObs.tells φ)

end Verif
