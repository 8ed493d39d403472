/-!
# Message IDs

`/repo/envelope/id.go`: `MessageIDGenerator`.  (`Verif.Engine` numbers messages by natural
numbers instead; `C73_repeats` says when that is the same.)
-/

namespace Verif

/-- A decimal digit as a character (for `id.go` 15-18). -/
def digitChar (d : Nat) : Char := Char.ofNat (48 + d)

/-- Decimal digits, most significant first (for `id.go` 15-18). -/
def decimalDigits (n : Nat) : List Nat :=
  if n < 10 then [n] else decimalDigits (n / 10) ++ [n % 10]

/-- `strconv.FormatUint(n, 10)`. -/
def formatUint (n : UInt64) : String := String.ofList ((decimalDigits n.toNat).map digitChar)

/-- `MessageIDGenerator` (`id.go` 9-11). -/
structure IDGen where
  messageID : UInt64

/-- `Next` (`id.go` 14-19). -/
def IDGen.next (g : IDGen) : IDGen × String :=
  let g := ⟨g.messageID + 1⟩
  (g, formatUint g.messageID)

/-- `Reset` (`id.go` 22-24). -/
def IDGen.reset (_ : IDGen) : IDGen := ⟨0⟩

/-- The IDs handed out by `n` calls of `Next` (`id.go` 14-20). -/
def IDGen.take : Nat → IDGen → List String
  | 0, _ => []
  | n + 1, g => g.next.2 :: IDGen.take n g.next.1

end Verif
