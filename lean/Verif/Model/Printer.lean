/-
Package printer: source text of expressions.  `none` is a Go panic.
-/
import Verif.Model.Ast

namespace Viml
namespace Print

/-- `opprec` of a binary operator, printer/opprec.go:15-56 -/
def binPrec : Tok → Option Nat
  | .OROR => some 2
  | .ANDAND => some 3
  | .EQEQ | .EQEQCI | .EQEQCS | .NEQ | .NEQCI | .NEQCS | .GT | .GTCI | .GTCS
  | .GTEQ | .GTEQCI | .GTEQCS | .LT | .LTCI | .LTCS | .LTEQ | .LTEQCI | .LTEQCS
  | .MATCHCS | .NOMATCH | .NOMATCHCI | .NOMATCHCS | .IS | .ISCI | .ISCS
  | .ISNOT | .ISNOTCI | .ISNOTCS => some 4
  | .PLUS | .MINUS | .DOT => some 5
  | .STAR | .SLASH | .PERCENT => some 6
  | _ => none

/-- `opprec` of a unary operator, printer/opprec.go:57-63 -/
def unPrec : Tok → Option Nat
  | .NOT | .MINUS | .PLUS => some 7
  | _ => none

/-- `_, hasParens := x.X.(*ast.ParenExpr)` -/
def isParen : Ast.Expr → Bool
  | .paren .. => true
  | _ => false

/-- `expr1`, `binaryExpr`, `unaryExpr`, printer/expr.go:14-85.  When parentheses are needed the Go
code prints `(`, calls `expr1(x, 0)` on the same node and prints `)`; every precedence is at least 2,
so that call takes the branch without parentheses, which is unfolded here. -/
def expr1 : Ast.Expr → Nat → Option Str
  | .binary l _ op r, prec1 => do
    let prec ← binPrec op
    let a ← expr1 l prec
    let b ← expr1 r (prec + 1)
    let s := a ++ [' '] ++ op.str ++ [' '] ++ b
    some (if prec < prec1 then Tok.POPEN.str ++ s ++ Tok.PCLOSE.str else s)
  | .unary _ op x, prec1 => do
    let prec ← unPrec op
    let a ← expr1 x prec
    let s := op.str ++ a
    some (if prec < prec1 then Tok.POPEN.str ++ s ++ Tok.PCLOSE.str else s)
  | .subscript _ l r, _ => do
    let a ← expr1 l 8
    let b ← expr1 r 0
    some (a ++ Tok.SQOPEN.str ++ b ++ Tok.SQCLOSE.str)
  | .basicLit _ _ v, _ => some v
  | .ident i, _ => some i.name
  | .paren _ x, _ => do
    let a ← expr1 x 0
    some (if isParen x then a else Tok.POPEN.str ++ a ++ Tok.PCLOSE.str)
  | _, _ => none

/-- Result of `Fprint`: panic, error or the bytes written (`output.Write` errors not modelled). -/
inductive Out
  | panic
  | err
  | text (s : Str)
deriving DecidableEq, Repr, Inhabited

/-- `Fprint` on an expression, printer/printer.go:27-37, 64-76 -/
def fprintExpr (e : Ast.Expr) : Out :=
  match expr1 e 0 with
  | none => .panic
  | some s => .text s

/-- `Fprint` on a file or statement: not implemented, printer/printer.go:78-84 -/
def fprintStmt (_ : Ast.Stmt) : Out := .err
def fprintFile (_ : Ast.File) : Out := .err

end Print
end Viml
