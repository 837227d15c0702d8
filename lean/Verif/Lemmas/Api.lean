/-
Positions of the reader in terms of the lines of the file.
-/
import Verif.Lemmas.ExprAst
import Verif.Props.Input
import Verif.Model.Api

namespace Viml
open Spec

theorem posOK_src {lines : List Str} {q : Pos} (h : PosOK (mkEnv lines) q) :
    SrcPos lines q.lnum q.col := by
  rcases h with ⟨c, hc, rfl⟩ | rfl
  · left
    cases hcc : c.c with
    | none =>
      obtain ⟨l, h0, h1, h2, _⟩ := Props.C02_line_end lines c hc hcc
      exact ⟨c.pos.lnum - 1, l, [], by simpa using h1, by omega, h2⟩
    | some ch =>
      obtain ⟨p, _, _, h1, h2⟩ := Props.C02_line_col lines c hc ch hcc
      exact ⟨p.n, p.pre, p.c :: p.post, p.ok, h1, h2⟩
  · exact Or.inr ⟨rfl, rfl⟩

theorem Spec.Real.src {lines : List Str} {fn : Str} {q : Ast.Pos}
    (h : Real (mkEnv lines) fn q) : SrcPos lines q.line q.column ∧ q.filename = fn := by
  obtain ⟨r, hs, rfl⟩ := h
  exact ⟨posOK_src (Suf.posOf hs), rfl⟩

/-- What `parse_expr1` does anywhere in the input. -/
theorem parseExpr1_good (lines : List Str) (fn : Str) {r : List Cell}
    (hs : r <:+ (mkEnv lines).buf) :
    (∃ e r', parseExpr1.run (mkEnv lines) r = .ok e r' ∧ SAdv r r' ∧ Good (mkEnv lines) fn 1 r e r') ∨
    (∃ msg q, parseExpr1.run (mkEnv lines) r = .fail (.err msg q) ∧ PosOK (mkEnv lines) q) := by
  have h := parseExpr1_spec (mkEnv_ok lines) (good_closed (fn := fn) (mkEnv_ok lines)) hs
  unfold wp at h
  unfold Prog.run
  cases hr : parseExpr1.runWith tokGet (mkEnv lines) r with
  | ok e r' =>
    rw [hr] at h
    exact Or.inl ⟨e, r', rfl, h.adv, h.p⟩
  | fail e =>
    rw [hr] at h
    cases e with
    | err msg q => exact Or.inr ⟨msg, q, rfl, h⟩
    | _ => exact h.elim

theorem parseExprLines_good (lines : List Str) :
    (∃ a, parseExprLines lines = some ⟨some a, none⟩ ∧ 1 ≤ level a ∧
      AllE (OkE (mkEnv lines) []) (litKey (mkEnv lines) []) a) ∨
    (∃ msg q, parseExprLines lines = some ⟨none, some (.parse [] q.i q.lnum q.col msg)⟩ ∧
      PosOK (mkEnv lines) q) := by
  unfold parseExprLines
  rcases parseExpr1_good lines [] (Suf.self _) with ⟨e, r', h1, _, a, h2, h3, h4⟩ | ⟨msg, q, h1, h2⟩
  · left; exact ⟨a, by simp [h1, h2], h3, h4⟩
  · right; exact ⟨msg, q, by simp [h1, recoverFail], h2⟩

theorem parseExprLines_all {lines : List Str} {a : Ast.Expr} {er : Option ApiErr}
    (h : parseExprLines lines = some ⟨some a, er⟩) :
    er = none ∧ 1 ≤ level a ∧ AllE (OkE (mkEnv lines) []) (litKey (mkEnv lines) []) a := by
  rcases parseExprLines_good lines with ⟨a', h1, h2⟩ | ⟨msg, q, h1, _⟩
  · rw [h1] at h; cases h; exact ⟨rfl, h2⟩
  · rw [h1] at h; cases h

theorem Spec.AllE.imp {P Q K : Ast.Expr → Prop} (hPQ : ∀ e, P e → Q e)
    {e : Ast.Expr} (h : AllE P K e) : AllE Q K e := by
  induction h with
  | mk e h1 _ _ ih1 ih2 => exact .mk e (hPQ e h1) ih1 ih2

/-- If the exceptional keys satisfy the property too, it holds of every node. -/
theorem Spec.AllE.noKeys {P K : Ast.Expr → Prop} (hK : ∀ e, K e → AllE P (fun _ => False) e)
    {e : Ast.Expr} (h : AllE P K e) : AllE P (fun _ => False) e := by
  induction h with
  | mk e h1 _ _ ih1 ih2 =>
    refine .mk e h1 ih1 fun k hk _ => ?_
    by_cases hKk : K k
    · exact hK k hKk
    · exact ih2 k hk hKk

theorem Spec.AllE.top {P K : Ast.Expr → Prop} {e : Ast.Expr} (h : AllE P K e) : P e := by
  cases h; assumption

/-- Keys of a literal dictionary are single nodes. -/
theorem litKey_leaf {env : Env} {fn : Str} {P : Ast.Expr → Prop}
    (hP : ∀ q v, Real env fn q → P (.basicLit q .STRING v)) {e : Ast.Expr} (h : litKey env fn e) :
    AllE P (fun _ => False) e := by
  cases e <;> simp only [litKey] at h
  obtain ⟨rfl, s, r, r1, rfl, hne, hs, hr, rfl, _⟩ := h
  refine .mk _ (hP _ _ ?_) (by simp [subs]) (by simp [keys])
  exact ⟨r.tail, List.IsSuffix.trans (List.tail_suffix r) hs, rfl⟩

end Viml
