/-
C38: what follows an expression.
-/
import Verif.Lemmas.Cut
import Verif.Props.Grammar
import Verif.Props.Error

namespace Viml.Props
open Viml Viml.Spec

/-- C38.  What follows the first logical line is ignored: whether some lines are read as an expression, and which, does not
depend on the lines after them, if the first of these is no continuation line. -/
theorem C38_ignored (A B B' : List Str) (a : Ast.Expr) (hA : A ≠ []) (hB : ∀ l, B.head? = some l → afterBackslash l = none)
    (hB' : ∀ l, B'.head? = some l → afterBackslash l = none) :
    parseExprLines (A ++ B) = some ⟨some a, none⟩ ↔ parseExprLines (A ++ B') = some ⟨some a, none⟩ := by
  rw [C51_lines, C51_lines]
  exact ⟨cut_gram hA hB hB', cut_gram hA hB' hB⟩

/-- `1 2` is read as `1`, whatever comes on the next line. -/
example (B : List Str) (hB : ∀ l, B.head? = some l → afterBackslash l = none) :
    parseExprLines (cs!"1 2" :: B) = some ⟨some (.basicLit ⟨0, 1, 1, []⟩ .NUMBER cs!"1"), none⟩ :=
  (C38_ignored [cs!"1 2"] [] B _ (by simp) (by simp) hB).1 rfl

end Viml.Props
