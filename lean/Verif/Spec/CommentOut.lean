/-
What property C87 says: lines that are commented out.
-/
import Verif.Spec.Permute
import Verif.Spec.Place

namespace Viml.Spec

/-- The lines with a double quote before each. -/
def commentOut (W : List Str) : List Str := W.map ('"' :: ·)

/-- An error but for its offset: file name, line, column and message. -/
def errPlace : ApiErr → Option (Str × Nat × Nat × Str)
  | .parse fn _ l c m => some (fn, l, c, m)
  | .other => none

/-- The statements without the offsets of positions; lines and columns are kept. -/
def noOffset (ss : List Ast.Stmt) : List Ast.Stmt := Ast.Stmt.onPosL (fun p => ⟨0, p.line, p.column, p.filename⟩) ss

/-- A comment for each line, on lines `n`, `n + 1`, …; its text is the line. -/
def lineComments (fn : Str) : Nat → List Str → List Ast.Stmt
  | _, [] => []
  | n, l :: ls => .comment ⟨0, n, 1, fn⟩ l :: lineComments fn (n + 1) ls

end Viml.Spec
