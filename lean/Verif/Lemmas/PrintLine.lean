/-
The printer writes one line.
-/
import Verif.Lemmas.CompFile
import Verif.Lemmas.Print

namespace Viml
open Spec Print

theorem expr1_nl {env : Env} {fn : Str} (hn : NoNL env) {e : Ast.Expr} (h : AllE (OkE env fn) (litKey env fn) e) :
    ∀ {d : Nat} {s : Str}, Print.expr1 e d = some s → '\n' ∉ s := by
  have hp : ∀ {b : Bool} {s : Str}, '\n' ∉ s → '\n' ∉ (if b then Tok.POPEN.str ++ s ++ Tok.PCLOSE.str else s) := by
    intro b s h
    cases b <;> simp [h, tok_nl]
  induction h with
  | mk e hok _ _ ih1 _ =>
    have ht : ∀ x ∈ ownText e, '\n' ∉ x.2 := fun x hx => hn.textAt (hok.text x hx)
    intro d s hs
    cases e with
    | binary l q op r =>
      simp only [subs, List.forall_mem_cons] at ih1
      simp only [Print.expr1, Option.bind_eq_bind, Option.bind_eq_some_iff, Option.some.injEq] at hs
      obtain ⟨p, _, a, ha, b, hb, rfl⟩ := hs
      have := hp (b := decide (p < d)) (s := a ++ [' '] ++ op.str ++ [' '] ++ b)
        (by simp [ih1.1 ha, ih1.2.1 hb, tok_nl])
      simpa using this
    | unary q op x =>
      simp only [subs, List.forall_mem_cons] at ih1
      simp only [Print.expr1, Option.bind_eq_bind, Option.bind_eq_some_iff, Option.some.injEq] at hs
      obtain ⟨p, _, a, ha, rfl⟩ := hs
      have := hp (b := decide (p < d)) (s := op.str ++ a) (by simp [ih1.1 ha, tok_nl])
      simpa using this
    | subscript q l r =>
      simp only [subs, List.forall_mem_cons] at ih1
      simp only [Print.expr1, Option.bind_eq_bind, Option.bind_eq_some_iff, Option.some.injEq] at hs
      obtain ⟨a, ha, b, hb, rfl⟩ := hs
      simp [ih1.1 ha, ih1.2.1 hb, tok_nl]
    | basicLit q k v => simp only [Print.expr1, Option.some.injEq] at hs; subst hs; exact ht (q, v) (by simp [ownText])
    | ident i => simp only [Print.expr1, Option.some.injEq] at hs; subst hs; exact ht (i.pos, i.name) (by simp [ownText])
    | paren q x =>
      simp only [subs, List.forall_mem_cons] at ih1
      simp only [Print.expr1, Option.bind_eq_bind, Option.bind_eq_some_iff, Option.some.injEq] at hs
      obtain ⟨a, ha, rfl⟩ := hs
      have := hp (b := !isParen x) (ih1.1 ha)
      cases hx : isParen x <;> simpa [hx] using this
    | _ => simp [Print.expr1] at hs

theorem fprintExpr_nl {env : Env} {fn : Str} (hn : NoNL env) {e : Ast.Expr} (h : AllE (OkE env fn) (litKey env fn) e)
    {s : Str} (hs : fprintExpr e = .text s) : '\n' ∉ s := by
  unfold fprintExpr at hs
  split at hs
  · cases hs
  · cases hs; exact expr1_nl hn h ‹_›

end Viml
