/-
In the grammar of expressions, texts of names with braces are separated by braces.  Used by C73.
-/
import Verif.Lemmas.ReadableExpr
import Verif.Spec.Grammar

namespace Viml.Readable
open Viml Viml.Spec

variable {env : Env} {fn : Str}

theorem ev {P : Ast.Expr → Prop} {e : Ast.Expr} (h : P e) (h1 : ∀ x ∈ subs e, Everywhere P x)
    (h2 : ∀ x ∈ keys e, Everywhere P x) : Everywhere P e := .mk e h h1 fun k hk _ => h2 k hk

theorem no_keys {P : Ast.Expr → Prop} : ∀ x ∈ ([] : List Ast.Expr), Everywhere P x := fun _ h => absurd h (by simp)

theorem evs_cons {P : Ast.Expr → Prop} {x : Ast.Expr} {l : List Ast.Expr} (h : Everywhere P x) (h' : ∀ y ∈ l, Everywhere P y) :
    ∀ y ∈ x :: l, Everywhere P y := by
  intro y hy
  rcases List.mem_cons.1 hy with rfl | hy
  · exact h
  · exact h' y hy

theorem reads_head {r r' : List Cell} {c : Char} {v : Str} (h : Reads r (c :: v) r') : headSym r = .ch c := by
  obtain ⟨pre, rfl, h⟩ := h
  cases pre with
  | nil => cases h
  | cons d pre =>
    simp only [List.map_cons, List.cons.injEq] at h
    simp [headSym, Cell.sym, h.1]

/-- No part of a name that is not a text. -/
theorem parts_after {r ps r'} (h : NameParts env fn r ps r') (hn : (headSym r).is isnamec = false) :
    ps = [] ∨ ∃ q e ps', ps = .curlyNameExpr q e :: ps' := by
  cases h with
  | nil => exact .inl rfl
  | @text _ v _ _ _ h1 h2 _ _ =>
    exfalso
    cases v with
    | nil => exact h2.1 rfl
    | cons c v =>
      rw [reads_head h1] at hn
      have := h2.2 c (by simp)
      simp [Sym.is, this] at hn
  | expr => exact .inr ⟨_, _, _, rfl⟩

theorem eparts : ∀ {r ps r'}, NameParts env fn r ps r' → EParts ps
  | _, _, _, .nil _ _ => .nil
  | _, _, _, .expr _ _ _ _ h => .brace (eparts h)
  | _, _, _, .text _ h2 h3 h => by
    have ih := eparts h
    rcases parts_after h h3 with rfl | ⟨q, e, ps', rfl⟩
    · exact .one h2
    · cases ih with
      | brace ih => exact .text h2 ih

mutual

theorem partsGram : ∀ {k r e r'}, Gram env fn k r e r' → Everywhere curlyOK e
  | _, _, _, _, .ternary h1 _ h2 _ h3 =>
    ev trivial (evs_cons (partsGram h1) (evs_cons (partsGram h2) (evs_cons (partsGram h3) no_keys))) no_keys
  | _, _, _, _, .noTernary h _ => partsGram h
  | _, _, _, _, .chain _ _ h _ => partsChain h
  | _, _, _, _, .compare h1 _ _ h2 => ev trivial (evs_cons (partsGram h1) (evs_cons (partsGram h2) no_keys)) no_keys
  | _, _, _, _, .noCompare h _ => partsGram h
  | _, _, _, _, .unary _ _ h => ev trivial (evs_cons (partsGram h) no_keys) no_keys
  | _, _, _, _, .noUnary h => partsGram h
  | _, _, _, _, .postfix h _ => partsChain h
  | _, _, _, _, .lit _ _ => ev trivial no_keys no_keys
  | _, _, _, _, .dstring _ _ _ => ev trivial no_keys no_keys
  | _, _, _, _, .sstring _ _ _ _ => ev trivial no_keys no_keys
  | _, _, _, _, .list _ h => ev trivial (partsArgs h) no_keys
  | _, _, _, _, .paren _ h _ => ev trivial (evs_cons (partsGram h) no_keys) no_keys
  | _, _, _, _, .dict _ _ h => ev trivial (partsPairs h).2 (partsPairs h).1
  | _, _, _, _, .litdict _ _ h => ev trivial (partsPairs h).2 (partsPairs h).1
  | _, _, _, _, .lambda _ _ h _ => ev trivial (evs_cons (partsGram h) no_keys) no_keys
  | _, _, _, _, @Gram.name _ _ r r1 ps r' _ _ h hn => by
    have h1 := partsName h
    have h2 := eparts h
    unfold nameNode
    split
    · exact ev trivial no_keys no_keys
    · rename_i hne
      exact ev (.inl ⟨h2, hn, fun q v e => hne q v e⟩) h1 no_keys
  | _, _, _, _, @Gram.sid _ _ r r1 v r2 ps r' _ _ hv h => by
    have h1 := partsName h
    have h2 := eparts h
    cases ps with
    | nil => exact ev trivial no_keys no_keys
    | cons p ps =>
      simp only [nameNode]
      exact ev (.inr ⟨_, v, _, rfl, hv, h2, by simp⟩) (evs_cons (ev trivial no_keys no_keys) h1) no_keys

theorem partsChain : ∀ {k r e r'}, Chain env fn k r e r' → Everywhere curlyOK e
  | _, _, _, _, .one _ h => partsGram h
  | _, _, _, _, .op _ h1 _ _ h2 => ev trivial (evs_cons (partsChain h1) (evs_cons (partsGram h2) no_keys)) no_keys
  | _, _, _, _, .subscript h1 _ _ h2 _ => ev trivial (evs_cons (partsChain h1) (evs_cons (partsGram h2) no_keys)) no_keys
  | _, _, _, _, .slice h1 _ _ h2 _ h3 _ => ev trivial (evs_cons (partsChain h1) (by
      intro x hx
      rcases List.mem_append.1 hx with hx | hx
      · exact partsOpt h2 x (Option.mem_toList.1 hx)
      · exact partsOpt h3 x (Option.mem_toList.1 hx))) no_keys
  | _, _, _, _, .method h1 _ h2 _ h3 _ => ev trivial (evs_cons (partsChain h1) (evs_cons (partsGram h2) (partsArgs h3))) no_keys
  | _, _, _, _, .call h1 _ h2 _ => ev trivial (evs_cons (partsChain h1) (partsArgs h2)) no_keys
  | _, _, _, _, .dot h1 _ _ _ _ => ev trivial (evs_cons (partsChain h1) no_keys) no_keys

theorem partsOpt : ∀ {r o r'}, Opt env fn r o r' → ∀ e ∈ o, Everywhere curlyOK e
  | _, _, _, .none => fun _ h => absurd h (by simp)
  | _, _, _, .some h => fun _ he => by cases he; exact partsGram h

theorem partsArgs : ∀ {c r l r'}, Args env fn c r l r' → ∀ e ∈ l, Everywhere curlyOK e
  | _, _, _, _, .nil _ => no_keys
  | _, _, _, _, .last h _ => evs_cons (partsGram h) no_keys
  | _, _, _, _, .cons h _ h' => evs_cons (partsGram h) (partsArgs h')

theorem partsKey : ∀ {b r e r'}, Key env fn b r e r' → Everywhere curlyOK e
  | _, _, _, _, .expr h => partsGram h
  | _, _, _, _, .lit h => by
    obtain ⟨_, r1, v, _, _, _, rfl⟩ := h
    exact ev trivial no_keys no_keys

theorem partsPairs : ∀ {b r l r'}, Pairs env fn b r l r' → (∀ e ∈ l.map (·.1), Everywhere curlyOK e) ∧
    ∀ e ∈ l.map (·.2), Everywhere curlyOK e
  | _, _, _, _, .nil _ => ⟨no_keys, no_keys⟩
  | _, _, _, _, .last h1 _ h2 _ => ⟨evs_cons (partsKey h1) no_keys, evs_cons (partsGram h2) no_keys⟩
  | _, _, _, _, .cons h1 _ h2 _ h3 => ⟨evs_cons (partsKey h1) (partsPairs h3).1, evs_cons (partsGram h2) (partsPairs h3).2⟩

theorem partsName : ∀ {r ps r'}, NameParts env fn r ps r' → ∀ e ∈ ps, Everywhere curlyOK e
  | _, _, _, .nil _ _ => no_keys
  | _, _, _, .text _ _ _ h => evs_cons (ev trivial no_keys no_keys) (partsName h)
  | _, _, _, .expr _ h _ _ h' => evs_cons (ev trivial (evs_cons (partsGram h) no_keys) no_keys) (partsName h')

end

end Viml.Readable
