/-
What property C67 says: the layout of a script.
-/
import Verif.Spec.Indent

namespace Viml.Ast

mutual
/-- The statement without the comments in it. -/
def Stmt.plain : Stmt → Stmt
  | .function q ea b n ps da a e => .function q ea (plainL b) n ps da a e
  | .if_ q ea b c ei el e => .if_ q ea (plainL b) c (plainL ei) (plainO el) e
  | .elseIf q ea b c => .elseIf q ea (plainL b) c
  | .else_ q ea b => .else_ q ea (plainL b)
  | .while_ q ea b c e => .while_ q ea (plainL b) c e
  | .for_ q ea b l ls rs r e => .for_ q ea (plainL b) l ls rs r e
  | .try_ q ea b cs fi e => .try_ q ea (plainL b) (plainL cs) (plainO fi) e
  | .catch_ q ea b p => .catch_ q ea (plainL b) p
  | .finally_ q ea b => .finally_ q ea (plainL b)
  | s => s
/-- The statements without comments. -/
def Stmt.plainL : List Stmt → List Stmt
  | [] => []
  | .comment _ _ :: ss => plainL ss
  | s :: ss => s.plain :: plainL ss
def Stmt.plainO : Option Stmt → Option Stmt
  | none => none
  | some s => some s.plain
end

end Viml.Ast

namespace Viml.Spec

/-- Statements with all positions the same. -/
def noPos (ss : List Ast.Stmt) : List Ast.Stmt := Ast.Stmt.onPosL (fun _ => ⟨0, 0, 0, []⟩) ss

/-- The message of an error, if it has one. -/
def messageOf : ApiErr → Option Str
  | .parse _ _ _ _ m => some m
  | .other => none

/-- What is said about a file but for positions: the statements, seen with `f`, or the message. -/
def outline (f : List Ast.Stmt → List Ast.Stmt) (r : Option (ApiRes Ast.File)) :
    Option (Option (List Ast.Stmt) × Option (Option Str)) :=
  r.map fun x => (x.node.map fun t => noPos (f t.body), x.err.map messageOf)

/-- The lines of two files that differ in their layout: lines for which `P` holds are inserted between statements, blanks,
tabs and colons are put before commands, lines are continued. -/
inductive Layout (nv : Bool) (fn : Str) (P : Str → Prop) : List Str → List Str → Prop
  | insert {A W B} : Between nv fn A → (∀ l ∈ W, P l) → (∀ l, B.head? = some l → afterBackslash l = none) →
      Layout nv fn P (A ++ B) (A ++ W ++ B)
  | indent {A w l B} : Between nv fn A → Blank w → afterBackslash l = none → ¬ Shebang l B →
      Layout nv fn P (A ++ l :: B) (A ++ (w ++ l) :: B)
  | join {ls ls'} : logicalLines ls = logicalLines ls' → Layout nv fn P ls ls'
  | symm {ls ls'} : Layout nv fn P ls ls' → Layout nv fn P ls' ls
  | trans {ls ls' ls''} : Layout nv fn P ls ls' → Layout nv fn P ls' ls'' → Layout nv fn P ls ls''

end Viml.Spec
