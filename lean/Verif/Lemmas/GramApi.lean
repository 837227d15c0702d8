/-
The expression parser and the grammar: the two directions together.
-/
import Verif.Lemmas.GramComplete
import Verif.Lemmas.Api

namespace Viml
open Prog Spec

section
variable {env : Env} {fn : Str}

/-- What `parse_expr1` returns is derived by the grammar. -/
theorem parseExpr1_gram (he : EnvOK env) {r r' : List Cell} (hs : Suf env r) {v : VExpr}
    (h : parseExpr1.run env r = .ok v r') : ∃ a, Export.expr fn v = some a ∧ Gram env fn 1 r a r' := by
  have hw := parseExpr1_specL he (gram_closed (fn := fn) he) hs
  unfold wp at hw
  unfold Prog.run at h
  rw [h] at hw
  exact der1 hw

/-- `parse_expr1` reads every expression of the grammar. -/
theorem gram_parseExpr1 (he : EnvOK env) {r r' : List Cell} (hs : Suf env r) {a : Ast.Expr}
    (h : Gram env fn 1 r a r') : ∃ v, parseExpr1.run env r = .ok v r' ∧ Export.expr fn v = some a := by
  obtain ⟨v, h1, h2⟩ := (gram_run he h).qr hs
  exact ⟨v, h2.run _ (Nat.lt_succ_self _), h1⟩

/-- A phrase has one reading. -/
theorem gram_unique (he : EnvOK env) {k : Nat} {r r1 r2 : List Cell} (hs : Suf env r) {a b : Ast.Expr}
    (h1 : Gram env fn k r a r1) (h2 : Gram env fn k r b r2) : a = b ∧ r1 = r2 := by
  obtain ⟨_, _, v, x1, x2⟩ := gram_run he h1 hs
  obtain ⟨_, _, w, y1, y2⟩ := gram_run he h2 hs
  have h3 := (x2 _ (Nat.le_refl _)).run
  rw [(y2 _ (Nat.le_refl _)).run] at h3
  cases h3
  rw [x1] at y1
  cases y1
  exact ⟨rfl, rfl⟩

theorem parseExprLines_gram (lines : List Str) (a : Ast.Expr) :
    parseExprLines lines = some ⟨some a, none⟩ ↔ ∃ r', Gram (mkEnv lines) [] 1 (mkEnv lines).buf a r' := by
  constructor
  · intro h
    unfold parseExprLines at h
    cases hr : parseExpr1.run (mkEnv lines) (mkEnv lines).buf with
    | ok v r' =>
      obtain ⟨b, h1, h2⟩ := parseExpr1_gram (fn := []) (mkEnv_ok lines) (Suf.self _) hr
      simp only [hr, h1] at h
      cases h
      exact ⟨r', h2⟩
    | fail e =>
      simp only [hr] at h
      obtain ⟨_, _, h⟩ := Option.map_eq_some_iff.1 h
      cases h
  · rintro ⟨r', h⟩
    obtain ⟨v, h1, h2⟩ := gram_parseExpr1 (mkEnv_ok lines) (Suf.self _) h
    simp only [parseExprLines, h1, h2]

end
end Viml
