/-
What property C65 says: blank lines and comment lines between statements.
-/
import Verif.Spec.Concat

namespace Viml.Spec

/-- The place behind the lines `A` is between statements, possibly inside of blocks: a line that is no command is reported
there. -/
def Between (nv : Bool) (fn : Str) (A : List Str) : Prop :=
  ∃ n o, parseFileLines nv fn (A ++ [cs!"xyzzy"]) =
    some ⟨n, some (.parse fn o (A.length + 1) 1 cs!"E492: Not an editor command: xyzzy")⟩

/-- The blanks, tabs and colons at the start of a line. -/
def lead : Str → Str
  | c :: l => if c = ' ' ∨ c = '\t' ∨ c = ':' then c :: lead l else []
  | [] => []

/-- The line without these. -/
def afterLead (l : Str) : Str := l.drop (lead l).length

/-- A line with nothing else, or with a comment. -/
def Quiet (l : Str) : Prop := afterLead l = [] ∨ ∃ t, afterLead l = '"' :: t

/-- The comment of the line `l` behind the lines `A`, if there is one. -/
def commentAt (fn : Str) (A : List Str) (l : Str) : List Ast.Stmt :=
  match afterLead l with
  | '"' :: t => [.comment ⟨(fileBytes A).length + bytes (lead l), A.length + 1, bytes (lead l) + 1, fn⟩ t]
  | _ => []

/-- The comments of the lines `W` behind the lines `A`. -/
def commentsAt (fn : Str) (A : List Str) : List Str → List Ast.Stmt
  | [] => []
  | l :: W => commentAt fn A l ++ commentsAt fn (A ++ [l]) W

/-- The position in the lines `A ++ W ++ B` of what is at `q` in the lines `A ++ B`. -/
def spread (A W B : List Str) (q : Ast.Pos) : Ast.Pos :=
  if q.line ≤ A.length then q else
    ⟨if onContLine B (q.line - A.length) q.column then 0 else q.offset + (fileBytes W).length, q.line + W.length, q.column,
      q.filename⟩

/-- An error of the lines `A ++ B`, if it is no error of `A`, as an error of the lines `A ++ W ++ B`. -/
def errSpread (W : List Str) : ApiErr → ApiErr
  | .parse fn o l c m => .parse fn (o + readLen W) (l + W.length) c m
  | .other => .other

mutual

/-- The statements `ws` are inserted at one place among the statements or in one of them. -/
inductive Into (ws : List Ast.Stmt) : List Ast.Stmt → List Ast.Stmt → Prop
  | here (a b) : Into ws (a ++ b) (a ++ ws ++ b)
  | sub (a b) {s s'} : IntoS ws s s' → Into ws (a ++ s :: b) (a ++ s' :: b)

/-- The statements `ws` are inserted at one place in a block. -/
inductive IntoS (ws : List Ast.Stmt) : Ast.Stmt → Ast.Stmt → Prop
  | function {p ea n is ds at_ e a b} : Into ws a b → IntoS ws (.function p ea a n is ds at_ e) (.function p ea b n is ds at_ e)
  | while_ {p ea x e a b} : Into ws a b → IntoS ws (.while_ p ea a x e) (.while_ p ea b x e)
  | for_ {p ea l ls rest x e a b} : Into ws a b → IntoS ws (.for_ p ea a l ls rest x e) (.for_ p ea b l ls rest x e)
  | if_ {p ea x eis els e a b} : Into ws a b → IntoS ws (.if_ p ea a x eis els e) (.if_ p ea b x eis els e)
  | elseIfs {p ea ss x els e a b s s'} : IntoS ws s s' →
      IntoS ws (.if_ p ea ss x (a ++ s :: b) els e) (.if_ p ea ss x (a ++ s' :: b) els e)
  | elsePart {p ea ss x eis e s s'} : IntoS ws s s' →
      IntoS ws (.if_ p ea ss x eis (some s) e) (.if_ p ea ss x eis (some s') e)
  | elseIf {p ea x a b} : Into ws a b → IntoS ws (.elseIf p ea a x) (.elseIf p ea b x)
  | else_ {p ea a b} : Into ws a b → IntoS ws (.else_ p ea a) (.else_ p ea b)
  | try_ {p ea cs fin e a b} : Into ws a b → IntoS ws (.try_ p ea a cs fin e) (.try_ p ea b cs fin e)
  | catches {p ea ss fin e a b s s'} : IntoS ws s s' →
      IntoS ws (.try_ p ea ss (a ++ s :: b) fin e) (.try_ p ea ss (a ++ s' :: b) fin e)
  | finallyPart {p ea ss cs e s s'} : IntoS ws s s' →
      IntoS ws (.try_ p ea ss cs (some s) e) (.try_ p ea ss cs (some s') e)
  | catch_ {p ea pat a b} : Into ws a b → IntoS ws (.catch_ p ea a pat) (.catch_ p ea b pat)
  | finally_ {p ea a b} : Into ws a b → IntoS ws (.finally_ p ea a) (.finally_ p ea b)

end

end Viml.Spec
