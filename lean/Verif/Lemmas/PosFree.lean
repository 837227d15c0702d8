/-
The compiler and the printer do not look at positions.
-/
import Verif.Spec.Relabel
import Verif.Model.Compiler
import Verif.Model.Printer

namespace Viml
open Ast

theorem onPosL_length {m : Ast.Pos → Ast.Pos} : ∀ l : List Ast.Expr, (Expr.onPosL m l).length = l.length
  | [] => rfl
  | _ :: l => by rw [Expr.onPosL, List.length_cons, List.length_cons, onPosL_length l]
theorem onPosP_length {m : Ast.Pos → Ast.Pos} : ∀ l : List (Ast.Expr × Ast.Expr), (Expr.onPosP m l).length = l.length
  | [] => rfl
  | (_, _) :: l => by rw [Expr.onPosP, List.length_cons, List.length_cons, onPosP_length l]
theorem onPos_names {m : Ast.Pos → Ast.Pos} (ps : List Ast.Ident) :
    (ps.map (Ident.onPos m)).map (·.name) = ps.map (·.name) := by
  rw [List.map_map]; rfl

mutual
theorem comp_expr (m : Ast.Pos → Ast.Pos) : ∀ e : Ast.Expr, Comp.expr (e.onPos m) = Comp.expr e
  | .ternary q c l r => by rw [Expr.onPos, Comp.expr, Comp.expr, comp_expr m c, comp_expr m l, comp_expr m r]
  | .binary l q t r => by rw [Expr.onPos, Comp.expr, Comp.expr, comp_expr m l, comp_expr m r]
  | .unary q t x => by rw [Expr.onPos, Comp.expr, Comp.expr, comp_expr m x]
  | .subscript q l r => by rw [Expr.onPos, Comp.expr, Comp.expr, comp_expr m l, comp_expr m r]
  | .slice x q lo hi => by
    rw [Expr.onPos, Comp.expr, Comp.expr, comp_expr m x, comp_exprNil m lo, comp_exprNil m hi]
  | .method l f q as => by
    rw [Expr.onPos, Comp.expr, Comp.expr, comp_expr m l, comp_expr m f, comp_exprs m as]
  | .call f q as => by
    rw [Expr.onPos, Comp.expr, Comp.expr, comp_expr m f, comp_exprs m as, onPosL_length]
  | .dot l q i => by rw [Expr.onPos, Comp.expr, Comp.expr, comp_expr m l]; rfl
  | .basicLit q k v => rfl
  | .list q vs => by rw [Expr.onPos, Comp.expr, Comp.expr, comp_exprs m vs, onPosL_length]
  | .dict q kvs => by rw [Expr.onPos, Comp.expr, Comp.expr, comp_pairs m kvs, onPosP_length]
  | .curlyName q ps => by rw [Expr.onPos, Comp.expr, Comp.expr, comp_exprs m ps]
  | .curlyNameLit q v => rfl
  | .curlyNameExpr q e => by rw [Expr.onPos, Comp.expr, Comp.expr, comp_expr m e]
  | .ident i => rfl
  | .lambda q ps e => by rw [Expr.onPos, Comp.expr, Comp.expr, comp_expr m e, onPos_names]
  | .paren q e => by rw [Expr.onPos, Comp.expr, Comp.expr, comp_expr m e]
  | .heredoc q fl mk b => by
    rw [Expr.onPos, Comp.expr, Comp.expr, comp_exprs m fl, comp_exprs m b, onPosL_length, onPosL_length]
theorem comp_exprNil (m : Ast.Pos → Ast.Pos) : ∀ o : Option Ast.Expr,
    Comp.exprNil (Expr.onPosO m o) = Comp.exprNil o
  | none => rfl
  | some e => by rw [Expr.onPosO, Comp.exprNil, Comp.exprNil, comp_expr m e]
theorem comp_exprs (m : Ast.Pos → Ast.Pos) : ∀ l : List Ast.Expr, Comp.exprs (Expr.onPosL m l) = Comp.exprs l
  | [] => rfl
  | e :: l => by rw [Expr.onPosL, Comp.exprs, Comp.exprs, comp_expr m e, comp_exprs m l]
theorem comp_pairs (m : Ast.Pos → Ast.Pos) : ∀ l : List (Ast.Expr × Ast.Expr),
    Comp.pairs (Expr.onPosP m l) = Comp.pairs l
  | [] => rfl
  | (a, b) :: l => by rw [Expr.onPosP, Comp.pairs, Comp.pairs, comp_expr m a, comp_expr m b, comp_pairs m l]
end

theorem comp_lhs (m : Ast.Pos → Ast.Pos) (l : Option Ast.Expr) (ls : List Ast.Expr) (r : Option Ast.Expr) :
    Comp.lhsStr (Expr.onPosO m l) (Expr.onPosL m ls) (Expr.onPosO m r) = Comp.lhsStr l ls r := by
  cases l <;> cases r <;> simp only [Expr.onPosO, Comp.lhsStr, comp_expr, comp_exprs]

theorem comp_cmdName (m : Ast.Pos → Ast.Pos) (ea : Ast.ExArg) : Comp.cmdName (ea.onPos m) = Comp.cmdName ea := rfl

theorem comp_simple (m : Ast.Pos → Ast.Pos) (ea : Ast.ExArg) (s : Str) :
    Comp.simple (ea.onPos m) s = Comp.simple ea s := rfl

theorem comp_lock (m : Ast.Pos → Ast.Pos) (c : Str) (d : Nat) (l : List Ast.Expr) :
    Comp.lockStr c d (Expr.onPosL m l) = Comp.lockStr c d l := by
  rw [Comp.lockStr, Comp.lockStr, comp_exprs]

theorem comp_head (m : Ast.Pos → Ast.Pos) (n : Ast.Expr) (ps : List Ast.Ident) (ds : List Ast.Expr) :
    Comp.funcHead (n.onPos m) (ps.map (Ident.onPos m)) (Expr.onPosL m ds) = Comp.funcHead n ps ds := by
  rw [Comp.funcHead, Comp.funcHead, comp_expr, onPos_names, comp_exprs, List.length_map]

mutual
theorem comp_stmt (m : Ast.Pos → Ast.Pos) : ∀ s : Ast.Stmt, Comp.stmt (s.onPos m) = Comp.stmt s
  | .comment q s => rfl
  | .excmd q ea s => rfl
  | .function q ea b n ps da a e => by
    rw [Stmt.onPos, Comp.stmt, Comp.stmt, comp_head, comp_stmts m b]
  | .delFunction q ea n => by rw [Stmt.onPos, Comp.stmt, Comp.stmt, comp_simple, comp_expr]
  | .return_ q ea none => rfl
  | .return_ q ea (some e) => by rw [Stmt.onPos, Expr.onPosO, Comp.stmt, Comp.stmt, comp_simple, comp_expr]
  | .exCall q ea f p as => by
    rw [Stmt.onPos, Comp.stmt, Comp.stmt, comp_simple, ← comp_expr m (.call f p as), Expr.onPos]
  | .let_ q ea op l ls rs r => by rw [Stmt.onPos, Comp.stmt, Comp.stmt, comp_cmdName, comp_lhs, comp_expr]
  | .unLet q ea l => by rw [Stmt.onPos, Comp.stmt, Comp.stmt, comp_simple, comp_exprs]
  | .lockVar q ea d l => by simp only [Stmt.onPos, Comp.stmt, comp_cmdName, comp_lock]
  | .unLockVar q ea d l => by simp only [Stmt.onPos, Comp.stmt, comp_cmdName, comp_lock]
  | .if_ q ea b c ei el e => by
    rw [Stmt.onPos, Comp.stmt, Comp.stmt, comp_cmdName, comp_expr, comp_stmts m b, comp_elseIfs m ei, comp_else m el]
  | .elseIf q ea b c => by rw [Stmt.onPos, Comp.stmt, Comp.stmt]
  | .else_ q ea b => by rw [Stmt.onPos, Comp.stmt, Comp.stmt]
  | .while_ q ea b c e => by
    rw [Stmt.onPos, Comp.stmt, Comp.stmt, comp_cmdName, comp_expr, comp_stmts m b]
  | .for_ q ea b l ls rs r e => by
    rw [Stmt.onPos, Comp.stmt, Comp.stmt, comp_cmdName, comp_lhs, comp_expr, comp_stmts m b]
  | .continue_ q ea => rfl
  | .break_ q ea => rfl
  | .try_ q ea b cs fi e => by
    rw [Stmt.onPos, Comp.stmt, Comp.stmt, comp_cmdName, comp_stmts m b, comp_catches m cs, comp_finally m fi]
  | .catch_ q ea b p => by rw [Stmt.onPos, Comp.stmt, Comp.stmt]
  | .finally_ q ea b => by rw [Stmt.onPos, Comp.stmt, Comp.stmt]
  | .throw q ea e => by rw [Stmt.onPos, Comp.stmt, Comp.stmt, comp_simple, comp_expr]
  | .eval q ea e => by rw [Stmt.onPos, Comp.stmt, Comp.stmt, comp_simple, comp_expr]
  | .echoCmd q n ea l => by rw [Stmt.onPos, Comp.stmt, Comp.stmt, comp_simple, comp_exprs]
  | .echohl q ea n => rfl
  | .execute q ea l => by rw [Stmt.onPos, Comp.stmt, Comp.stmt, comp_simple, comp_exprs]
theorem comp_stmts (m : Ast.Pos → Ast.Pos) : ∀ l : List Ast.Stmt, Comp.stmts (Stmt.onPosL m l) = Comp.stmts l
  | [] => rfl
  | s :: l => by rw [Stmt.onPosL, Comp.stmts, Comp.stmts, comp_stmt m s, comp_stmts m l]
theorem comp_elseIfs (m : Ast.Pos → Ast.Pos) : ∀ l : List Ast.Stmt,
    Comp.elseIfs (Stmt.onPosL m l) = Comp.elseIfs l
  | [] => rfl
  | s :: l => by
    cases s
    case elseIf q ea b c =>
      rw [Stmt.onPosL, Stmt.onPos, Comp.elseIfs, Comp.elseIfs, comp_cmdName, comp_expr, comp_stmts m b, comp_elseIfs m l]
    all_goals rfl
theorem comp_else (m : Ast.Pos → Ast.Pos) : ∀ o : Option Ast.Stmt, Comp.elseOpt (Stmt.onPosO m o) = Comp.elseOpt o
  | none => rfl
  | some s => by
    cases s
    case else_ q ea b => rw [Stmt.onPosO, Stmt.onPos, Comp.elseOpt, Comp.elseOpt, comp_cmdName, comp_stmts m b]
    all_goals rfl
theorem comp_catches (m : Ast.Pos → Ast.Pos) : ∀ l : List Ast.Stmt,
    Comp.catches (Stmt.onPosL m l) = Comp.catches l
  | [] => rfl
  | s :: l => by
    cases s
    case catch_ q ea b c =>
      rw [Stmt.onPosL, Stmt.onPos, Comp.catches, Comp.catches, comp_cmdName, comp_stmts m b, comp_catches m l]
    all_goals rfl
theorem comp_finally (m : Ast.Pos → Ast.Pos) : ∀ o : Option Ast.Stmt,
    Comp.finallyOpt (Stmt.onPosO m o) = Comp.finallyOpt o
  | none => rfl
  | some s => by
    cases s
    case finally_ q ea b =>
      rw [Stmt.onPosO, Stmt.onPos, Comp.finallyOpt, Comp.finallyOpt, comp_cmdName, comp_stmts m b]
    all_goals rfl
end

theorem isParen_onPos (m : Ast.Pos → Ast.Pos) (e : Ast.Expr) : Print.isParen (e.onPos m) = Print.isParen e := by
  cases e <;> rfl

theorem print_expr (m : Ast.Pos → Ast.Pos) : ∀ (e : Ast.Expr) (k : Nat),
    Print.expr1 (e.onPos m) k = Print.expr1 e k
  | .binary l q t r, k => by
    simp only [Expr.onPos, Print.expr1, print_expr m l, print_expr m r]
  | .unary q t x, k => by simp only [Expr.onPos, Print.expr1, print_expr m x]
  | .subscript q l r, k => by simp only [Expr.onPos, Print.expr1, print_expr m l, print_expr m r]
  | .paren q x, k => by simp only [Expr.onPos, Print.expr1, print_expr m x, isParen_onPos]
  | .ternary .., _ => rfl
  | .slice .., _ => rfl
  | .method .., _ => rfl
  | .call .., _ => rfl
  | .dot .., _ => rfl
  | .basicLit .., _ => rfl
  | .list .., _ => rfl
  | .dict .., _ => rfl
  | .curlyName .., _ => rfl
  | .curlyNameLit .., _ => rfl
  | .curlyNameExpr .., _ => rfl
  | .ident _, _ => rfl
  | .lambda .., _ => rfl
  | .heredoc .., _ => rfl

end Viml
