/-
Package ast: the public tree.

Simplifications.  Fields whose Go type is a pointer or interface are non-optional where the exporter
always stores a non-nil value.  `ElseIf`, `Else`, `Catch` and `Finally` are constructors of `Stmt`
(in Go they are statement types too); the fields that hold them have the narrower Go type only
implicitly.  The end nodes (`EndIf`, ...) are not statements of a body in Go either and are stored
as `EndCmd`.
-/
import Verif.Model.Tok
import Verif.Model.Stmt

namespace Viml
namespace Ast

/-- `ast.Pos`, ast/pos.go:6-13 -/
structure Pos where
  offset : Nat
  line : Nat
  column : Nat
  filename : Str
deriving DecidableEq, Repr, Inhabited

/-- `ast.Ident`, ast/node.go:534-537 -/
structure Ident where
  pos : Pos
  name : Str
deriving DecidableEq, Repr, Inhabited

/-- `ast.ExArg`, ast/exarg.go:4-29 (fields never set by the parser omitted, as in `Viml.ExArg`). -/
structure ExArg where
  forceit : Bool := false
  doEcmdCmd : Str := []
  append : Nat := 0
  usefilter : Bool := false
  amount : Nat := 0
  forceBin : Nat := 0
  readEdit : Nat := 0
  forceFf : Str := []
  forceEnc : Str := []
  badChar : Str := []
  linepos : Pos := default
  cmdpos : Pos := default
  argpos : Option Pos := none
  cmd : Option Cmd := none
  modifiers : List Modifier := []
  range : List Str := []
deriving DecidableEq, Repr, Inhabited

/-- Expression nodes, ast/node.go:397-568 -/
inductive Expr
  | ternary (pos : Pos) (cond left right : Expr)
  | binary (left : Expr) (opPos : Pos) (op : Tok) (right : Expr)
  | unary (opPos : Pos) (op : Tok) (x : Expr)
  | subscript (lbrack : Pos) (left right : Expr)
  | slice (x : Expr) (lbrack : Pos) (low high : Option Expr)
  | method (left meth : Expr) (lparen : Pos) (args : List Expr)
  | call (fn : Expr) (lparen : Pos) (args : List Expr)
  | dot (left : Expr) (dot : Pos) (right : Ident)
  | basicLit (pos : Pos) (kind : Tok) (value : Str)
  | list (lsquare : Pos) (values : List Expr)
  | dict (lcurly : Pos) (entries : List (Expr × Expr))
  | curlyName (pos : Pos) (parts : List Expr)
  | curlyNameLit (pos : Pos) (value : Str)
  | curlyNameExpr (pos : Pos) (value : Expr)
  | ident (i : Ident)
  | lambda (lcurly : Pos) (params : List Ident) (expr : Expr)
  | paren (lparen : Pos) (x : Expr)
  | heredoc (opPos : Pos) (flags : List Expr) (endMarker : Str) (body : List Expr)
deriving Repr, Inhabited

/-- An end command (`EndFunction`, `EndIf`, `EndWhile`, `EndFor`, `EndTry`), ast/node.go -/
structure EndCmd where
  pos : Pos
  ea : ExArg
deriving DecidableEq, Repr, Inhabited

/-- Statement nodes, ast/node.go:43-390 -/
inductive Stmt
  | comment (quote : Pos) (text : Str)
  | excmd (pos : Pos) (ea : ExArg) (command : Str)
  | function (pos : Pos) (ea : ExArg) (body : List Stmt) (name : Expr) (params : List Ident)
      (defaultArgs : List Expr) (attr : FuncAttr) (endFunction : EndCmd)
  | delFunction (pos : Pos) (ea : ExArg) (name : Expr)
  | return_ (pos : Pos) (ea : ExArg) (result : Option Expr)
  | exCall (pos : Pos) (ea : ExArg) (fn : Expr) (lparen : Pos) (args : List Expr)
  | let_ (pos : Pos) (ea : ExArg) (op : Str) (left : Option Expr) (list : List Expr)
      (rest : Option Expr) (right : Expr)
  | unLet (pos : Pos) (ea : ExArg) (list : List Expr)
  | lockVar (pos : Pos) (ea : ExArg) (depth : Nat) (list : List Expr)
  | unLockVar (pos : Pos) (ea : ExArg) (depth : Nat) (list : List Expr)
  | if_ (pos : Pos) (ea : ExArg) (body : List Stmt) (cond : Expr) (elseIfs : List Stmt)
      (els : Option Stmt) (endIf : EndCmd)
  | elseIf (pos : Pos) (ea : ExArg) (body : List Stmt) (cond : Expr)
  | else_ (pos : Pos) (ea : ExArg) (body : List Stmt)
  | while_ (pos : Pos) (ea : ExArg) (body : List Stmt) (cond : Expr) (endWhile : EndCmd)
  | for_ (pos : Pos) (ea : ExArg) (body : List Stmt) (left : Option Expr) (list : List Expr)
      (rest : Option Expr) (right : Expr) (endFor : EndCmd)
  | continue_ (pos : Pos) (ea : ExArg)
  | break_ (pos : Pos) (ea : ExArg)
  | try_ (pos : Pos) (ea : ExArg) (body : List Stmt) (catches : List Stmt) (fin : Option Stmt)
      (endTry : EndCmd)
  | catch_ (pos : Pos) (ea : ExArg) (body : List Stmt) (pattern : Str)
  | finally_ (pos : Pos) (ea : ExArg) (body : List Stmt)
  | throw (pos : Pos) (ea : ExArg) (expr : Expr)
  | eval (pos : Pos) (ea : ExArg) (expr : Expr)
  | echoCmd (start : Pos) (cmdName : Str) (ea : ExArg) (exprs : List Expr)
  | echohl (pos : Pos) (ea : ExArg) (name : Str)
  | execute (pos : Pos) (ea : ExArg) (exprs : List Expr)
deriving Repr, Inhabited

/-- `ast.File`, ast/node.go:35-38 -/
structure File where
  start : Pos
  body : List Stmt
deriving Repr, Inhabited

end Ast
end Viml
