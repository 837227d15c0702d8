/-
What property C70 says: an expression as the argument of a command.
-/
import Verif.Spec.Phrase
import Verif.Spec.File
import Verif.Spec.Concat

namespace Viml.Spec

/-- Commands with an expression as argument, or with a list of expressions. -/
def exprCmds : List Str := [cs!"eval", cs!"throw", cs!"echo", cs!"echon", cs!"echomsg", cs!"echoerr", cs!"execute"]

/-- Other commands that contain an expression, and the ends of blocks. -/
def wordCmds : List Str := exprCmds ++ [cs!"let", cs!"const", cs!"call", cs!"return", cs!"if", cs!"while", cs!"for", cs!"endif",
  cs!"endwhile", cs!"endfor", cs!"function", cs!"endfunction", cs!"elseif"]

/-- The record of the command `c` without range, modifiers and bang at `q`, with arguments at `a`. -/
def record (c : Cmd) (q a : Ast.Pos) : Ast.ExArg := { linepos := q, cmdpos := q, argpos := some a, cmd := some c }

/-- The statement of the command `c` with the expression `e`. -/
def exprStmt (c : Cmd) (q : Ast.Pos) (ea : Ast.ExArg) (e : Ast.Expr) : Ast.Stmt :=
  if c.name = cs!"eval" then .eval q ea e
  else if c.name = cs!"throw" then .throw q ea e
  else if c.name = cs!"execute" then .execute q ea [e]
  else .echoCmd q c.name ea [e]

/-- The lines with the command `k` and the expressions `ys`. -/
def holdLines (k : Str) (ys : List (Str × Ast.Expr)) : List Str := ys.map fun y => k ++ ' ' :: y.1

/-- The `:elseif`s (written `k`) with the expressions `ys` behind the lines `A`. -/
def elseIfs (fn k : Str) (d : Cmd) : List Str → List (Str × Ast.Expr) → List Ast.Stmt
  | _, [] => []
  | A, (l, e) :: ys =>
    .elseIf (shift A [k ++ ' ' :: l] (posAt fn 0))
      ((record d (posAt fn 0) (posAt fn (bytes k + 1))).onPos (shift A [k ++ ' ' :: l])) []
      ((e.onPos (moveTo fn (bytes k + 1))).onPos (shift A [k ++ ' ' :: l])) :: elseIfs fn k d (A ++ [k ++ ' ' :: l]) ys

/-- The command `m` that ends a block behind the lines `A`. -/
def endAt (fn : Str) (A : List Str) (m : Str) (d : Cmd) : Ast.EndCmd :=
  ⟨shift A [m] (posAt fn 0), (record d (posAt fn 0) (posAt fn (bytes m))).onPos (shift A [m])⟩

/-- The file with the line `l` only is accepted with the statement `s`, and `l` is a whole script. -/
def Only (nv : Bool) (fn l : Str) (s : Ast.Stmt) : Prop :=
  parseFileLines nv fn [l] = some ⟨some ⟨posAt fn 0, [s]⟩, none⟩ ∧ Complete nv fn [l] ⟨posAt fn 0, [s]⟩

/-- The line `p ++ l` gives the error at the place `(off, line, col)` of `l`. -/
def errorAt (nv : Bool) (fn p l : Str) (off line col : Nat) (msg : Str) : Prop :=
  parseFileLines nv fn [p ++ l] =
    some ⟨none, some (.parse fn (off + p.length) line (if line = 1 then col + bytes p else col) msg)⟩

/-- The line `p ++ l` behind the lines `A` gives the error at the place `(off, line, col)` of `l`. -/
def errorBehind (nv : Bool) (fn : Str) (A : List Str) (p l : Str) (off line col : Nat) (msg : Str) : Prop :=
  parseFileLines nv fn (A ++ [p ++ l]) = some ⟨none, some
    (.parse fn (off + p.length + readLen A) (line + A.length) (if line = 1 then col + bytes p else col) msg)⟩

end Viml.Spec
