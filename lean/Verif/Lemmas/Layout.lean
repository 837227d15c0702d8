/-
Trees without positions and comments.
-/
import Verif.Spec.Layout
import Verif.Lemmas.CarryFile

namespace Viml
open Ast

section
variable (g m : Ast.Pos → Ast.Pos)

theorem onPos_ident (i : Ident) : (i.onPos m).onPos g = i.onPos (g ∘ m) := rfl
theorem onPos_exarg (ea : Ast.ExArg) : (ea.onPos m).onPos g = ea.onPos (g ∘ m) := by
  simp [Ast.ExArg.onPos]
theorem onPos_endcmd (e : EndCmd) : (e.onPos m).onPos g = e.onPos (g ∘ m) := by
  simp [EndCmd.onPos, onPos_exarg]

mutual
theorem onPos_expr : ∀ e : Expr, (e.onPos m).onPos g = e.onPos (g ∘ m)
  | .ternary .. | .binary .. | .unary .. | .subscript .. | .slice .. | .method .. | .call .. | .dot .. | .basicLit .. | .list .. |
    .dict .. | .curlyName .. | .curlyNameLit .. | .curlyNameExpr .. | .ident .. | .lambda .. | .paren .. | .heredoc .. => by
    simp [Expr.onPos, onPos_expr, onPos_exprO, onPos_exprL, onPos_exprP, onPos_ident]
theorem onPos_exprO : ∀ e : Option Expr, Expr.onPosO g (Expr.onPosO m e) = Expr.onPosO (g ∘ m) e
  | none => rfl
  | some e => by simp only [Expr.onPosO, onPos_expr e]
theorem onPos_exprL : ∀ e : List Expr, Expr.onPosL g (Expr.onPosL m e) = Expr.onPosL (g ∘ m) e
  | [] => rfl
  | e :: l => by simp only [Expr.onPosL, onPos_expr e, onPos_exprL l]
theorem onPos_exprP : ∀ e : List (Expr × Expr), Expr.onPosP g (Expr.onPosP m e) = Expr.onPosP (g ∘ m) e
  | [] => rfl
  | (k, v) :: l => by simp only [Expr.onPosP, onPos_expr k, onPos_expr v, onPos_exprP l]
end

mutual
theorem onPos_stmt : ∀ e : Stmt, (e.onPos m).onPos g = e.onPos (g ∘ m)
  | .comment .. | .excmd .. | .function .. | .delFunction .. | .return_ .. | .exCall .. | .let_ .. | .unLet .. | .lockVar .. |
    .unLockVar .. | .if_ .. | .elseIf .. | .else_ .. | .while_ .. | .for_ .. | .continue_ .. | .break_ .. | .try_ .. | .catch_ .. |
    .finally_ .. | .throw .. | .eval .. | .echoCmd .. | .echohl .. | .execute .. => by
    simp [Stmt.onPos, onPos_stmtO, onPos_stmtL, onPos_expr, onPos_exprO, onPos_exprL, onPos_ident, onPos_exarg, onPos_endcmd]
theorem onPos_stmtO : ∀ e : Option Stmt, Stmt.onPosO g (Stmt.onPosO m e) = Stmt.onPosO (g ∘ m) e
  | none => rfl
  | some e => by simp only [Stmt.onPosO, onPos_stmt e]
theorem onPos_stmtL : ∀ e : List Stmt, Stmt.onPosL g (Stmt.onPosL m e) = Stmt.onPosL (g ∘ m) e
  | [] => rfl
  | e :: l => by simp only [Stmt.onPosL, onPos_stmt e, onPos_stmtL l]
end

mutual
theorem plain_stmt : ∀ e : Stmt, (e.onPos m).plain = e.plain.onPos m
  | .comment .. | .excmd .. | .function .. | .delFunction .. | .return_ .. | .exCall .. | .let_ .. | .unLet .. | .lockVar .. |
    .unLockVar .. | .if_ .. | .elseIf .. | .else_ .. | .while_ .. | .for_ .. | .continue_ .. | .break_ .. | .try_ .. | .catch_ .. |
    .finally_ .. | .throw .. | .eval .. | .echoCmd .. | .echohl .. | .execute .. => by
    simp [Stmt.onPos, Stmt.plain, plain_stmtO, plain_stmtL]
theorem plain_stmtO : ∀ e : Option Stmt, Stmt.plainO (Stmt.onPosO m e) = Stmt.onPosO m (Stmt.plainO e)
  | none => rfl
  | some e => by simp only [Stmt.onPosO, Stmt.plainO, plain_stmt e]
theorem plain_stmtL : ∀ e : List Stmt, Stmt.plainL (Stmt.onPosL m e) = Stmt.onPosL m (Stmt.plainL e)
  | [] => rfl
  | e :: l => by
    have h := plain_stmt e
    have hl := plain_stmtL l
    cases e <;> simp_all [Stmt.onPosL, Stmt.onPos, Stmt.plainL]
end

theorem noPos_onPos (ss : List Stmt) : Spec.noPos (Stmt.onPosL m ss) = Spec.noPos ss := onPos_stmtL _ m ss

end

theorem plainL_append : ∀ a b : List Stmt, Stmt.plainL (a ++ b) = Stmt.plainL a ++ Stmt.plainL b
  | [], _ => rfl
  | e :: a, b => by
    have := plainL_append a b
    cases e <;> simp_all [Stmt.plainL]

theorem plainL_cons (s : Stmt) (b : List Stmt) (h : ∀ q t, s ≠ .comment q t) : Stmt.plainL (s :: b) = s.plain :: Stmt.plainL b := by
  cases s <;> first | rfl | exact absurd rfl (h _ _)

mutual

theorem into_plain {ws a b : List Stmt} (h : Stmt.plainL ws = []) : Spec.Into ws a b → Stmt.plainL a = Stmt.plainL b
  | .here a b => by rw [plainL_append, plainL_append, plainL_append, h, List.append_nil]
  | .sub a b i => by
    have := intoS_plain h i
    rw [plainL_append, plainL_append, plainL_cons _ _ this.1, plainL_cons _ _ this.2.1, this.2.2]

theorem intoS_plain {ws : List Stmt} {a b : Stmt} (h : Stmt.plainL ws = []) : Spec.IntoS ws a b →
    (∀ q t, a ≠ .comment q t) ∧ (∀ q t, b ≠ .comment q t) ∧ a.plain = b.plain
  | .function i | .while_ i | .for_ i | .if_ i | .elseIf i | .else_ i | .try_ i | .catch_ i | .finally_ i => by
    have := into_plain h i
    refine ⟨fun _ _ e => (by cases e), fun _ _ e => (by cases e), ?_⟩
    simp only [Stmt.plain, this]
  | .elseIfs i | .catches i => by
    have := intoS_plain h i
    refine ⟨fun _ _ e => (by cases e), fun _ _ e => (by cases e), ?_⟩
    simp only [Stmt.plain, plainL_append, plainL_cons _ _ this.1, plainL_cons _ _ this.2.1, this.2.2]
  | .elsePart i | .finallyPart i => by
    have := intoS_plain h i
    refine ⟨fun _ _ e => (by cases e), fun _ _ e => (by cases e), ?_⟩
    simp only [Stmt.plain, Stmt.plainO, this.2.2]

end

theorem plain_comments (fn : Str) : ∀ (W A : List Str), Stmt.plainL (Spec.commentsAt fn A W) = []
  | [], _ => rfl
  | l :: W, A => by
    rw [Spec.commentsAt, plainL_append, plain_comments fn W]
    unfold Spec.commentAt
    split <;> rfl

end Viml
