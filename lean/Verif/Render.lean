import Verif.Expect

/-!
# Rendering of reports

`/repo/report.go` 101-190.  Texts are lists of characters.

The library `iago/indent` is not part of the repository.  Its writer is taken to put the prefix
before each line, also blank ones (as the expected reports of the repository's tests show), and
`indent.String` to do the same to a text.  Counting of bytes and errors of the underlying writer
are left out.
-/

namespace Verif

/-- The indenting writer: the prefix goes before the first character of every line (used in
`report.go` 132-176). -/
def indentGo (pre : List Char) : Bool → List Char → List Char
  | _, [] => []
  | start, c :: cs => (if start then pre else []) ++ c :: indentGo pre (c == '\n') cs

/-- `indent.String`, used in `report.go` 139, 155. -/
def indentText (pre s : List Char) : List Char := indentGo pre true s

/-- `unicode.IsSpace` (for `report.go` 156). -/
def isSpace (c : Char) : Bool :=
  c.val ∈ [9, 10, 11, 12, 13, 32, 0x85, 0xA0, 0x1680, 0x2028, 0x2029, 0x202f, 0x205f, 0x3000] ||
    (0x2000 ≤ c.val && c.val ≤ 0x200a)

/-- `strings.TrimSpace` (used in `report.go` 156). -/
def trimSpace (s : List Char) : List Char :=
  ((s.dropWhile isSpace).reverse.dropWhile isSpace).reverse

/-- `sectionsIndent`, `sectionContentIndent`, `subReportsIndent` (`report.go` 196-200). -/
def sectionsIndent : List Char := "  | ".toList
/-- `report.go` 196-200. -/
def sectionContentIndent : List Char := "    ".toList
/-- `report.go` 196-200. -/
def subReportsIndent : List Char := "    ".toList

/-- The loop over the sections (`report.go` 149-166). -/
def renderSections : List (String × String) → List Char
  | [] => []
  | s :: rest =>
    Inflect.upper s.1.toList ++ '\n' :: indentText sectionContentIndent (trimSpace s.2.toList) ++
      '\n' :: (if rest = [] then [] else ['\n']) ++ renderSections rest

/-- The first line (`report.go` 106-121). -/
def renderHead (ok : Bool) (criteria outcome : String) : List Char :=
  (if ok then "✓ " else "✗ ").toList ++ criteria.toList ++
    (if outcome ≠ "" then " (".toList ++ outcome.toList ++ [')'] else []) ++ ['\n']

/-- Explanation and sections (`report.go` 123-167). -/
def renderBody (explanation : String) (sections : List (String × String)) : List Char :=
  let sections := sections.filter (fun s => s.2 ≠ "")
  if sections ≠ [] ∨ explanation ≠ "" then
    '\n' :: indentText sectionsIndent
      ((if explanation ≠ "" then
          "EXPLANATION\n".toList ++ indentText sectionContentIndent explanation.toList ++
            '\n' :: (if sections ≠ [] then ['\n'] else [])
        else []) ++ renderSections sections)
  else []

mutual
/-- `Report.WriteTo` (`report.go` 102-177). -/
def Report.render : Report → List Char
  | ⟨_, ok, criteria, outcome, explanation, sections, subReports⟩ =>
    renderHead ok criteria outcome ++ renderBody explanation sections ++
      indentText subReportsIndent (Report.renderAll subReports)
/-- The loop over the sub-reports (`report.go` 169-174). -/
def Report.renderAll : List Report → List Char
  | [] => []
  | r :: rs => r.render ++ Report.renderAll rs
end

end Verif
