/-
The text of some lines, followed by other lines.
-/
import Verif.Lemmas.Concat

namespace Viml
open Spec

/-- Lines `A` followed by the cells `q` in `env'` instead of by the lines `B`. -/
def cut (fn : Str) (A B : List Str) (q : List Cell) (env' : Env) : Carry (mkEnv (A ++ B)) env' fn where
  q0 := (mkEnv B).buf.map (moveCell A B (mkEnv A).buf.length)
  q := q
  f := id
  m := id
  bd := False
  char _ := rfl
  pos _ := rfl
  eof h := h.elim

variable {A B B' : List Str}

theorem cut_in (fn : Str) (hA : A ≠ []) (hB : ∀ l, B.head? = some l → afterBackslash l = none) (q : List Cell) (env' : Env) :
    (cut fn A B q env').In (mkEnv (A ++ B)).buf := by
  rw [mkEnv_append hB]
  have : ∃ i p, (mkEnv A).buf = i ++ [⟨none, p⟩] := by
    rcases buildCells_last A with h | ⟨i, p, h⟩
    · exact absurd h hA
    · refine ⟨reindex 0 i, ?_⟩
      simp only [mkEnv, h, reindex_append, reindex]
      exact ⟨_, rfl⟩
  obtain ⟨i, p, e⟩ := this
  show (cut fn A B q env').In ((mkEnv A).buf ++ (cut fn A B q env').q0)
  rw [e]
  clear e
  induction i with
  | nil => exact .eol rfl
  | cons c i ih => exact .cons ih

theorem cut_tr (fn : Str) (hB : ∀ l, B.head? = some l → afterBackslash l = none) (q : List Cell) (env' : Env) :
    (cut fn A B q env').tr (mkEnv (A ++ B)).buf = (mkEnv A).buf ++ q := by
  rw [mkEnv_append hB]
  simp [Carry.tr, cut]

theorem cut_gram {a : Ast.Expr} (hA : A ≠ []) (hB : ∀ l, B.head? = some l → afterBackslash l = none)
    (hB' : ∀ l, B'.head? = some l → afterBackslash l = none) :
    (∃ r', Gram (mkEnv (A ++ B)) [] 1 (mkEnv (A ++ B)).buf a r') → ∃ r', Gram (mkEnv (A ++ B')) [] 1 (mkEnv (A ++ B')).buf a r' := by
  rintro ⟨r', h⟩
  have := (Carry.gram h (cut_in [] hA hB ((mkEnv B').buf.map (moveCell A B' (mkEnv A).buf.length)) (mkEnv (A ++ B')))).2
  rw [cut_tr [] hB, ← mkEnv_append hB', show a.onPos (cut [] A B _ _).m = a from expr_id a] at this
  exact ⟨_, this⟩

end Viml
