/-
Source order: the positions of a tree in the order in which their text is written.  Nothing here refers to
the parser.
-/
import Verif.Spec.Stmt

namespace Viml.Spec

/-- `a` is a place before `b`. -/
def PosLt (a b : Ast.Pos) : Prop := a.line < b.line ∨ a.line = b.line ∧ a.column < b.column

/-- `a` is `b` or a place before it. -/
def PosLe (a b : Ast.Pos) : Prop := a.line < b.line ∨ a.line = b.line ∧ a.column ≤ b.column

mutual

/-- The positions of an expression as written: the position of an operator stands between its operands, that of
a bracket before what it encloses.  The position of a name with braces is that of its first part, and the
position of a part in braces is that of its expression or of blanks before it; both are listed only if `all`.
The position of a heredoc is not listed: it is that of its command. -/
def places (all : Bool) : Ast.Expr → List Ast.Pos
  | .ternary q c a b => places all c ++ [q] ++ places all a ++ places all b
  | .binary l q _ x => places all l ++ [q] ++ places all x
  | .unary q _ e => [q] ++ places all e
  | .subscript q l x => places all l ++ [q] ++ places all x
  | .slice l q lo hi => places all l ++ [q] ++ placesO all lo ++ placesO all hi
  | .method l f q as => places all l ++ places all f ++ [q] ++ placesL all as
  | .call f q as => places all f ++ [q] ++ placesL all as
  | .dot l q i => places all l ++ [q, i.pos]
  | .basicLit q _ _ => [q]
  | .list q vs => [q] ++ placesL all vs
  | .dict q kvs => [q] ++ placesP all kvs
  | .curlyName q ps => (if all then [q] else []) ++ placesL all ps
  | .curlyNameLit q _ => [q]
  | .curlyNameExpr q e => (if all then [q] else []) ++ places all e
  | .ident i => [i.pos]
  | .lambda q ps e => [q] ++ ps.map (·.pos) ++ places all e
  | .paren q e => [q] ++ places all e
  | .heredoc _ fs _ b => placesL all fs ++ placesL all b

def placesO (all : Bool) : Option Ast.Expr → List Ast.Pos
  | none => []
  | some e => places all e

def placesL (all : Bool) : List Ast.Expr → List Ast.Pos
  | [] => []
  | e :: es => places all e ++ placesL all es

def placesP (all : Bool) : List (Ast.Expr × Ast.Expr) → List Ast.Pos
  | [] => []
  | (k, v) :: kvs => places all k ++ places all v ++ placesP all kvs

end

/-- Parameters of a function with their default values, which belong to the last of them; `...` has none. -/
def paramPlaces : List Ast.Ident → List Ast.Expr → List Ast.Pos
  | [], ds => placesL true ds
  | i :: is, ds =>
    if ((i :: is).filter (·.name ≠ cs!"...")).length ≤ ds.length then
      match ds with
      | [] => i.pos :: paramPlaces is []
      | d :: ds => i.pos :: (places true d ++ paramPlaces is ds)
    else i.pos :: paramPlaces is ds

/-- The positions of a command up to its arguments; `q` is the position of its node. -/
def cmdPlaces (q : Ast.Pos) (ea : Ast.ExArg) : List Ast.Pos := [ea.linepos, q, ea.cmdpos] ++ ea.argpos.toList

/-- The positions of a statement up to its body. -/
def headPlaces : Ast.Stmt → List Ast.Pos
  | .comment q _ => [q]
  | .function q ea _ n is ds _ _ => cmdPlaces q ea ++ places true n ++ paramPlaces is ds
  | s => (exArgOf s).toList.flatMap (cmdPlaces (stmtPos s)) ++ placesL true (exprsOf s)

mutual

/-- `Written s l`: `l` are the positions of the statement `s` as written. -/
inductive Written : Ast.Stmt → List Ast.Pos → Prop
  | mk {s l} : WrittenL (subStmts s) l →
      Written s (headPlaces s ++ l ++ (endOf s).toList.flatMap fun e => cmdPlaces e.pos e.ea)

/-- `WrittenL ss l`: `l` are the positions of the statements `ss` as written, one statement after the other.
A comment before a heredoc may be the one that follows the end marker on the line of the command. -/
inductive WrittenL : List Ast.Stmt → List Ast.Pos → Prop
  | nil : WrittenL [] []
  | cons {s l ss l'} : Written s l → WrittenL ss l' → WrittenL (s :: ss) (l ++ l')
  | heredoc {q t p ea op a as x o fs m b ss l'} : WrittenL ss l' →
      WrittenL (.comment q t :: .let_ p ea op a as x (.heredoc o fs m b) :: ss)
        (cmdPlaces p ea ++ placesL true (a.toList ++ as ++ x.toList) ++ placesL true fs ++ [q] ++ placesL true b ++ l')

end

/-- `Part e x`: `x` is a node of the tree `e`. -/
inductive Part : Ast.Expr → Ast.Expr → Prop
  | refl {e} : Part e e
  | sub {e x y} : x ∈ subs e ++ keys e → Part x y → Part e y

/-- `PartS ss s`: `s` is one of the statements `ss` or stands in one of them. -/
inductive PartS : List Ast.Stmt → Ast.Stmt → Prop
  | mem {ss s} : s ∈ ss → PartS ss s
  | sub {ss s x} : s ∈ ss → PartS (subStmts s) x → PartS ss x

/-- All positions of a statement and its expressions are in `l`. -/
def Listed (l : List Ast.Pos) (s : Ast.Stmt) : Prop :=
  (∀ q ∈ stmtOwnPos s, q ∈ l) ∧ ∀ e ∈ exprsOf s, ∀ q ∈ places true e, q ∈ l

/-- `Pos()` of an expression node (ast/node.go:404-570). -/
def nodePos : Ast.Expr → Ast.Pos
  | .ternary q .. | .binary _ q _ _ | .unary q _ _ | .subscript q .. | .slice _ q _ _ | .method _ _ q _ | .call _ q _
  | .dot _ q _ | .basicLit q .. | .list q _ | .dict q _ | .curlyName q _ | .curlyNameLit q _ | .curlyNameExpr q _
  | .lambda q .. | .paren q _ | .heredoc q .. => q
  | .ident i => i.pos

/-- Nodes that start with the text whose position they have. -/
def isPrefix : Ast.Expr → Bool
  | .unary .. | .basicLit .. | .list .. | .dict .. | .curlyName .. | .curlyNameLit .. | .curlyNameExpr ..
  | .lambda .. | .paren .. | .ident .. => true
  | _ => false

end Viml.Spec
