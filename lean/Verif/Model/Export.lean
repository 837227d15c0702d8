/-
go/export.go: conversion of internal nodes to the public tree.  `none` is a Go panic (failed type
assertion or nil dereference).
-/
import Verif.Model.Ast
import Verif.Model.VimLParser

namespace Viml
namespace Export

/-- `newPos`, go/export.go:496-506 -/
def pos (fn : Str) (q : Pos) : Ast.Pos := ⟨q.offset, q.lnum, q.col, fn⟩

/-- `newExArg` and `newCmd`, go/export.go:508-547 -/
def exArg (fn : Str) (ea : ExArg) : Ast.ExArg where
  forceit := ea.forceit
  doEcmdCmd := ea.doEcmdCmd
  append := ea.append
  usefilter := ea.usefilter
  amount := ea.amount
  forceBin := ea.forceBin
  readEdit := ea.readEdit
  forceFf := ea.forceFf
  forceEnc := ea.forceEnc
  badChar := ea.badChar
  linepos := pos fn ea.linepos
  cmdpos := pos fn ea.cmdpos
  argpos := ea.argpos.map (pos fn)
  cmd := ea.cmd
  modifiers := ea.modifiers
  range := ea.range

/-- `newIdents`, go/export.go:562-573 -/
def idents (fn : Str) (l : List (Pos × Str)) : List Ast.Ident := l.map fun x => ⟨pos fn x.1, x.2⟩

/-- `newExprs` on a list of `NODE_STRING` nodes, go/export.go:575-586 and 382-386 -/
def strs (fn : Str) (l : List (Pos × Str)) : List Ast.Expr :=
  l.map fun x => .basicLit (pos fn x.1) .STRING x.2

/-- `node.(ast.CurlyNamePart)` succeeds on `*CurlyNameLit` and `*CurlyNameExpr` only,
go/export.go:420-429 -/
def isCurlyPart : Ast.Expr → Bool
  | .curlyNameLit .. => true
  | .curlyNameExpr .. => true
  | _ => false

/-- Nodes whose payload is a string, go/export.go:376-386, 408-418, 431-449, 465-470 -/
def atom (q : Ast.Pos) (v : Str) : AtomTy → Ast.Expr
  | .number => .basicLit q .NUMBER v
  | .string => .basicLit q .STRING v
  | .blob => .basicLit q .BLOB v
  | .option => .basicLit q .OPTION v
  | .identifier => .ident ⟨q, v⟩
  | .env => .basicLit q .ENV v
  | .reg => .basicLit q .REG v
  | .curlynamepart => .curlyNameLit q v

mutual

/-- `newAstNode` on expression nodes, go/export.go:308-488 -/
def expr (fn : Str) : VExpr → Option Ast.Expr
  | .ternary q c l r => do
    let c ← expr fn c
    let l ← expr fn l
    let r ← expr fn r
    some (.ternary (pos fn q) c l r)
  | .binary q t l r => do
    let l ← expr fn l
    let r ← expr fn r
    some (.binary l (pos fn q) (binTok t) r)
  | .unary q t l => do
    let l ← expr fn l
    some (.unary (pos fn q) (unTok t) l)
  | .subscript q l r => do
    let l ← expr fn l
    let r ← expr fn r
    some (.subscript (pos fn q) l r)
  | .slice q l lo hi => do
    let l ← expr fn l
    let lo ← exprOpt fn lo
    let hi ← exprOpt fn hi
    some (.slice l (pos fn q) lo hi)
  -- `n.right.left`, `n.right.rlist` (go/export.go:354-360): the right node is always a call node;
  -- other node types, where the fields would be nil or unrelated, are treated as a panic
  | .method q l (.call _ f as) => do
    let l ← expr fn l
    let f ← expr fn f
    let as ← exprs fn as
    some (.method l f (pos fn q) as)
  | .method _ _ _ => none
  | .call q f as => do
    let f ← expr fn f
    let as ← exprs fn as
    some (.call f (pos fn q) as)
  | .dot q l rq n => do
    let l ← expr fn l
    some (.dot l (pos fn q) ⟨pos fn rq, n⟩)
  | .atom q t v => some (atom (pos fn q) v t)
  | .list q vs => do
    let vs ← exprs fn vs
    some (.list (pos fn q) vs)
  | .dict q kvs => do
    let kvs ← pairs fn kvs
    some (.dict (pos fn q) kvs)
  | .curlyname q ps => do
    let ps ← exprs fn ps
    if ps.all isCurlyPart then some (.curlyName (pos fn q) ps) else none
  | .curlyexpr q e => do
    let e ← expr fn e
    some (.curlyNameExpr (pos fn q) e)
  | .lambda q ps e => do
    let e ← expr fn e
    some (.lambda (pos fn q) (idents fn ps) e)
  | .paren q e => do
    let e ← expr fn e
    some (.paren (pos fn q) e)
  | .heredoc q rl op b => some (.heredoc (pos fn q) (strs fn rl) op (strs fn b))

/-- `newExprNode` on an optional node, go/export.go:491-494 (nil stays nil) -/
def exprOpt (fn : Str) : Option VExpr → Option (Option Ast.Expr)
  | none => some none
  | some e => do
    let e ← expr fn e
    some (some e)

/-- `newExprs`, `newValues`, go/export.go:575-595 -/
def exprs (fn : Str) : List VExpr → Option (List Ast.Expr)
  | [] => some []
  | e :: es => do
    let e ← expr fn e
    let es ← exprs fn es
    some (e :: es)

/-- Dictionary entries, go/export.go:394-406 -/
def pairs (fn : Str) : List (VExpr × VExpr) → Option (List (Ast.Expr × Ast.Expr))
  | [] => some []
  | (k, v) :: kvs => do
    let k ← expr fn k
    let v ← expr fn v
    let kvs ← pairs fn kvs
    some ((k, v) :: kvs)

end

/-- `newAstNode(n.endX, filename).(*ast.EndX)`: the assertion fails on nil -/
def endCmd (fn : Str) : Option EndNode → Option Ast.EndCmd
  | none => none
  | some e => some ⟨pos fn e.pos, exArg fn e.ea⟩

def isElseIf : Ast.Stmt → Bool
  | .elseIf .. => true
  | _ => false
def isElse : Ast.Stmt → Bool
  | .else_ .. => true
  | _ => false
def isCatch : Ast.Stmt → Bool
  | .catch_ .. => true
  | _ => false
def isFinally : Ast.Stmt → Bool
  | .finally_ .. => true
  | _ => false

/-- `node.(*ast.ElseIf)` etc. on an optional node -/
def optIs (f : Ast.Stmt → Bool) : Option Ast.Stmt → Bool
  | none => true
  | some s => f s

mutual

/-- `newAstNode` on statement nodes, go/export.go:25-306 -/
def stmt (fn : Str) : VStmt → Option Ast.Stmt
  | .comment q s => some (.comment (pos fn q) s)
  | .excmd q ea s => some (.excmd (pos fn q) (exArg fn ea) s)
  | .function q ea body l rl da at_ e => do
    let body ← stmts fn body
    let l ← expr fn l
    let da ← exprs fn da
    let e ← endCmd fn e
    some (.function (pos fn q) (exArg fn ea) body l (idents fn rl) da at_ e)
  | .delfunction q ea l => do
    let l ← expr fn l
    some (.delFunction (pos fn q) (exArg fn ea) l)
  | .return_ q ea l => do
    let l ← exprOpt fn l
    some (.return_ (pos fn q) (exArg fn ea) l)
  -- `newAstNode(n.left, filename).(*ast.CallExpr)`
  | .excall q ea (.call cq f as) => do
    let f ← expr fn f
    let as ← exprs fn as
    some (.exCall (pos fn q) (exArg fn ea) f (pos fn cq) as)
  | .excall _ _ _ => none
  | .let_ q ea op lhs r => do
    let l ← exprOpt fn lhs.left
    let ls ← exprs fn lhs.list
    let rest ← exprOpt fn lhs.rest
    let r ← expr fn r
    some (.let_ (pos fn q) (exArg fn ea) op l ls rest r)
  -- `case NODE_LET, NODE_CONST`
  | .const_ q ea op lhs r => do
    let l ← exprOpt fn lhs.left
    let ls ← exprs fn lhs.list
    let rest ← exprOpt fn lhs.rest
    let r ← expr fn r
    some (.let_ (pos fn q) (exArg fn ea) op l ls rest r)
  | .unlet q ea l => do
    let l ← exprs fn l
    some (.unLet (pos fn q) (exArg fn ea) l)
  | .lockvar q ea d l => do
    let l ← exprs fn l
    some (.lockVar (pos fn q) (exArg fn ea) d l)
  | .unlockvar q ea d l => do
    let l ← exprs fn l
    some (.unLockVar (pos fn q) (exArg fn ea) d l)
  | .if_ q ea body c eis el e => do
    let eis ← stmts fn eis
    let el ← stmtOpt fn el
    let body ← stmts fn body
    let c ← expr fn c
    let e ← endCmd fn e
    if eis.all isElseIf && optIs isElse el then
      some (.if_ (pos fn q) (exArg fn ea) body c eis el e)
    else none
  | .elseif q ea body c => do
    let body ← stmts fn body
    let c ← expr fn c
    some (.elseIf (pos fn q) (exArg fn ea) body c)
  | .else_ q ea body => do
    let body ← stmts fn body
    some (.else_ (pos fn q) (exArg fn ea) body)
  | .while_ q ea body c e => do
    let body ← stmts fn body
    let c ← expr fn c
    let e ← endCmd fn e
    some (.while_ (pos fn q) (exArg fn ea) body c e)
  | .for_ q ea body lhs r e => do
    let body ← stmts fn body
    let l ← exprOpt fn lhs.left
    let ls ← exprs fn lhs.list
    let rest ← exprOpt fn lhs.rest
    let r ← expr fn r
    let e ← endCmd fn e
    some (.for_ (pos fn q) (exArg fn ea) body l ls rest r e)
  | .continue_ q ea => some (.continue_ (pos fn q) (exArg fn ea))
  | .break_ q ea => some (.break_ (pos fn q) (exArg fn ea))
  | .try_ q ea body cs fi e => do
    let cs ← stmts fn cs
    let fi ← stmtOpt fn fi
    let body ← stmts fn body
    let e ← endCmd fn e
    if cs.all isCatch && optIs isFinally fi then
      some (.try_ (pos fn q) (exArg fn ea) body cs fi e)
    else none
  | .catch_ q ea body p => do
    let body ← stmts fn body
    some (.catch_ (pos fn q) (exArg fn ea) body p)
  | .finally_ q ea body => do
    let body ← stmts fn body
    some (.finally_ (pos fn q) (exArg fn ea) body)
  | .throw q ea e => do
    let e ← expr fn e
    some (.throw (pos fn q) (exArg fn ea) e)
  | .eval q ea e => do
    let e ← expr fn e
    some (.eval (pos fn q) (exArg fn ea) e)
  -- `CmdName: n.ea.cmd.name` dereferences `cmd`
  | .echo _ q ea l => do
    let l ← exprs fn l
    let cmd ← ea.cmd
    some (.echoCmd (pos fn q) cmd.name (exArg fn ea) l)
  | .echohl q ea s => some (.echohl (pos fn q) (exArg fn ea) s)
  | .execute q ea l => do
    let l ← exprs fn l
    some (.execute (pos fn q) (exArg fn ea) l)

/-- `newBody`, go/export.go:549-560 -/
def stmts (fn : Str) : List VStmt → Option (List Ast.Stmt)
  | [] => some []
  | s :: ss => do
    let s ← stmt fn s
    let ss ← stmts fn ss
    some (s :: ss)

def stmtOpt (fn : Str) : Option VStmt → Option (Option Ast.Stmt)
  | none => some none
  | some s => do
    let s ← stmt fn s
    some (some s)

end

/-- `newAstNode` on the top node, go/export.go:40-41 -/
def file (fn : Str) (f : VFile) : Option Ast.File := do
  let body ← stmts fn f.body
  some ⟨pos fn f.pos, body⟩

end Export
end Viml
