/-
What property C66 says: blanks, tabs and colons before a command.
-/
import Verif.Spec.Insert

namespace Viml.Spec

/-- A text of blanks, tabs and colons. -/
def Blank (w : Str) : Prop := ∀ c ∈ w, c = ' ' ∨ c = '\t' ∨ c = ':'

/-- The logical line that starts with the line `l`, if the lines `B` follow, starts with `#!`. -/
def Shebang (l : Str) (B : List Str) : Prop := ∃ t, (logicalLines (l :: B)).head? = some (cs!"#!" ++ t)

/-- The position in the lines `A ++ (w ++ l) :: B` of what is at `q` in the lines `A ++ l :: B`; the reader does not count
the offset of characters on continuation lines, it is 0. -/
def indentBy (A : List Str) (w : Str) (l : Str) (B : List Str) (q : Ast.Pos) : Ast.Pos :=
  if q.line ≤ A.length then q
  else if q.line = A.length + 1 then { q with offset := q.offset + bytes w, column := q.column + bytes w }
  else { q with offset := if onContLine (l :: B) (q.line - A.length) q.column then 0 else q.offset + bytes w }

/-- An error of the lines `A ++ l :: B`, if it is no error of `A`, as an error of the lines `A ++ (w ++ l) :: B`. -/
def errIndent (A : List Str) (w : Str) : ApiErr → ApiErr
  | .parse fn o l c m => .parse fn (o + w.length) l (if l = A.length + 1 then c + bytes w else c) m
  | .other => .other

end Viml.Spec
