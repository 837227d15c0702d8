/-
What property C61 says: two scripts one after the other.
-/
import Verif.Spec.Relabel
import Verif.Spec.File
import Verif.Spec.Order
import Verif.Spec.Input

namespace Viml.Spec

/-- Column `col` of line `n` is a character of a continuation line. -/
def onContLine (lines : List Str) (n col : Nat) : Bool :=
  2 ≤ n && (lines[n - 1]?).any fun l => (afterBackslash l).isSome && col ≤ bytes l

/-- The position in the lines `A ++ B` of what is at `q` in the lines `B`: the lines and bytes of `A` are added.  The
reader does not count the offset of characters on continuation lines; it is 0. -/
def shift (A B : List Str) (q : Ast.Pos) : Ast.Pos :=
  ⟨if onContLine B q.line q.column then 0 else q.offset + (fileBytes A).length, q.line + A.length, q.column, q.filename⟩

/-- `n` is the name of a user command among the statements `ss` or in one of them. -/
def UserCmd (ss : List Ast.Stmt) (n : Str) : Prop :=
  ∃ x ea, PartS ss x ∧ exArgOf x = some ea ∧ ea.cmd = some (userCommand n)

/-- The line `"`: a comment without text. -/
def commentLine : Str := cs!"\""

/-- `A` is a whole script with the statements of `f`: a comment line after it is a comment. -/
def Complete (nv : Bool) (fn : Str) (A : List Str) (f : Ast.File) : Prop :=
  parseFileLines nv fn (A ++ [commentLine]) =
    some ⟨some ⟨f.start, f.body ++ [.comment ⟨(fileBytes A).length, A.length + 1, 1, fn⟩ []]⟩, none⟩

/-- The number of characters that are read from the lines: those of the logical lines, and the line ends. -/
def readLen (lines : List Str) : Nat := ((logicalLines lines).map fun l => l.length + 1).sum

/-- An error of the lines `B` as an error of the lines `A ++ B`.  The offset of an error counts characters. -/
def errBehind (A : List Str) : ApiErr → ApiErr
  | .parse fn o l c m => .parse fn (o + readLen A) (l + A.length) c m
  | .other => .other

/-- What is said about the lines `A ++ B` if `x` is said about `B`; `f` is the tree of `A`. -/
def behind (A B : List Str) (f : Ast.File) (x : ApiRes Ast.File) : ApiRes Ast.File :=
  ⟨x.node.map fun g => ⟨if A = [] then g.start else f.start, f.body ++ Ast.Stmt.onPosL (shift A B) g.body⟩,
    x.err.map (errBehind A)⟩

end Viml.Spec
