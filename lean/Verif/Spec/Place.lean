/-
What property C84 says: places between statements, seen in the tree.
-/
import Verif.Spec.Insert
import Verif.Spec.Order

namespace Viml.Spec

/-- The line of a command of the statement starts at `p`: the command itself or the end command of the block. -/
def RecordAt (s : Ast.Stmt) (p : Ast.Pos) : Prop :=
  (∃ ea, exArgOf s = some ea ∧ ea.linepos = p) ∨ ∃ e, endOf s = some e ∧ e.ea.linepos = p

/-- The line of a command among the statements or in one of them starts at `p`. -/
def CommandAt (ss : List Ast.Stmt) (p : Ast.Pos) : Prop := ∃ s, PartS ss s ∧ RecordAt s p

end Viml.Spec
