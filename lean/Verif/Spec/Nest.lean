/-
Names of user commands in two lists of statements, and blocks with another body.
-/
import Verif.Spec.Concat

namespace Viml.Spec

/-- No user command of `b` has the name of one of `a` with something added. -/
def NamesApart (a b : List Ast.Stmt) : Prop := ∀ n s, s ≠ [] → UserCmd a n → ¬ UserCmd b (n ++ s)

/-- The block with the statements `ws` as its body. -/
def withBody (ws : List Ast.Stmt) : Ast.Stmt → Ast.Stmt
  | .function p ea _ n is ds at_ e => .function p ea ws n is ds at_ e
  | .while_ p ea _ x e => .while_ p ea ws x e
  | .for_ p ea _ l ls rest x e => .for_ p ea ws l ls rest x e
  | .if_ p ea _ x eis els e => .if_ p ea ws x eis els e
  | .try_ p ea _ cs fin e => .try_ p ea ws cs fin e
  | s => s

end Viml.Spec
