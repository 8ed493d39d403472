import Verif.Basic

/-!
# Differences between messages

`/repo/internal/report/diff.go`.  What the diff library finds out is a parameter: a list of parts.
-/

namespace Verif

/-- `diffmatchpatch.Operation` (`internal/report/diff.go` 18-27). -/
inductive DiffType where
  | insert
  | delete
  | equal
  deriving DecidableEq, Repr

/-- What one round of the loop of `WriteDiff` writes (`internal/report/diff.go` 15-28). -/
def DiffType.write : DiffType → String → String
  | .insert, s => "{+" ++ s ++ "+}"
  | .delete, s => "[-" ++ s ++ "-]"
  | .equal, s => s

/-- `WriteDiff` (`internal/report/diff.go` 11-29), given the result of `DiffMain`. -/
def writeDiff (d : List (DiffType × String)) : String :=
  d.foldl (fun w x => w ++ x.1.write x.2) ""

end Verif
