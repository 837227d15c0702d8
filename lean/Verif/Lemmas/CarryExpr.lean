/-
Expressions are carried over to another place.
-/
import Verif.Lemmas.Carry
import Verif.Lemmas.LeafRun
import Verif.Lemmas.PrintRun

namespace Viml
open Spec

/-! ### Text that is not blank -/

/-- The line at `r` is not blank. -/
def Solid (r : List Cell) : Prop := ∃ v r', Reads r v r' ∧ ∃ c ∈ v, iswhite c = false

theorem Solid.not_blank {r r' : List Cell} {w : Str} {e : Cell} (h : Solid r) (h1 : Reads r w (e :: r'))
    (h2 : ∀ c ∈ w, iswhite c = true) (h3 : e.c = none) : False := by
  obtain ⟨v, r2, hv, c, hc, hw⟩ := h
  induction v generalizing r w with
  | nil => cases hc
  | cons x v ih =>
    obtain ⟨q, r3, rfl, a1⟩ := hv.cons_inv
    cases w with
    | nil => cases h1.nil_inv; cases h3
    | cons y w =>
      obtain ⟨q', r4, a2, a3⟩ := h1.cons_inv
      cases a2
      rcases List.mem_cons.1 hc with rfl | hc
      · rw [h2 _ (by simp)] at hw; cases hw
      · exact ih a3 (fun z hz => h2 z (by simp [hz])) a1 hc

theorem Solid.blanks {r r1 : List Cell} {w : Str} (h : Reads r w r1) (h1 : Solid r1) : Solid r := by
  obtain ⟨v, r2, ⟨p, rfl, h2⟩, c, hc, hw⟩ := h1
  obtain ⟨p', rfl, h3⟩ := h
  exact ⟨w ++ v, r2, ⟨p' ++ p, by simp, by simp [h2, h3]⟩, c, by simp [hc], hw⟩

theorem Spec.Lexeme.solid {ty : TT} {v : Str} {r : List Cell} (h : Lexeme ty v r) : ∃ c ∈ v, iswhite c = false := by
  cases h
  case dec h1 _ _ _ =>
    cases v with
    | nil => exact absurd rfl h1.1
    | cons c v => exact ⟨c, by simp, white_of (f := isdigit) (by decide) (h1.2 c (by simp))⟩
  case float d f h1 _ _ _ =>
    cases d with
    | nil => exact absurd rfl h1.1
    | cons c v => exact ⟨c, by simp, white_of (f := isdigit) (by decide) (h1.2 c (by simp))⟩
  case exp d f e h1 _ _ _ =>
    cases d with
    | nil => exact absurd rfl h1.1
    | cons c v => exact ⟨c, by simp, white_of (f := isdigit) (by decide) (h1.2 c (by simp))⟩
  case ident c s h1 _ _ _ => exact ⟨c, by simp, white_of (f := iswordc1) (by decide) h1⟩
  case cmp k _ _ _ _ => cases k <;> exact ⟨_, List.mem_cons_self, by decide⟩
  case cmpCase k m _ => cases k <;> exact ⟨_, List.mem_cons_self, by decide⟩
  all_goals exact ⟨_, List.mem_cons_self, by decide⟩

section
variable {env : Env} {fn : Str} {r r' : List Cell}

theorem Solid.of_lex {t : Token} (h : Lex env r t r') (h1 : t.ty ≠ .eol) (h2 : t.ty ≠ .eof) : Solid r := by
  cases h with
  | eof => exact absurd rfl h2
  | eol => exact absurd rfl h1
  | text w r r1 ty v r' a1 a2 a3 a4 => exact Solid.blanks a1 ⟨v, r', a3, a4.solid⟩

theorem Solid.lex {t : Token} (h : Solid r) (h1 : Lex env r t r') : t.ty ≠ .eol := by
  cases h1 with
  | eof => simp
  | eol w r c r' a1 a2 a3 => exact absurd a3 fun a3 => h.not_blank a1 a2 a3
  | text w r r1 ty v r' a1 a2 a3 a4 =>
    rintro rfl
    cases a4

theorem Solid.of_mark {ty : TT} {q : Ast.Pos} (h : Mark env fn r ty q r') (h1 : ty ≠ .eol := by simp)
    (h2 : ty ≠ .eof := by simp) : Solid r := by
  obtain ⟨t, h, rfl, _⟩ := h
  exact .of_lex h h1 h2

theorem Solid.of_blanks {r1 : List Cell} {c : Char} {v : Str} (h : Blanks r r1) (h1 : Reads r1 (c :: v) r')
    (hc : iswhite c = false) : Solid r := by
  obtain ⟨w, h, _⟩ := h
  exact Solid.blanks h ⟨_, _, h1, c, by simp, hc⟩

theorem Spec.IsOp.ne_eol {ty k op} (h : IsOp ty k op) : ty ≠ .eol := by cases h <;> simp
theorem Spec.IsUn.ne_eol {ty op} (h : IsUn ty op) : ty ≠ .eol ∧ ty ≠ .eof := by cases h <;> simp
theorem Spec.IsLit.ne_eol {ty k} (h : IsLit ty k) : ty ≠ .eol ∧ ty ≠ .eof := by cases h <;> simp

theorem Solid.of_sid {r1 r2 : List Cell} {v : Str} (h : Blanks r r1) (h1 : Reads r1 v r2)
    (h2 : equalci v ['<', 'S', 'I', 'D', '>'] = true) : Solid r := by
  cases v with
  | nil => cases h2
  | cons c v =>
    have : c = '<' := by
      simp only [equalci, List.map_cons, beq_iff_eq, List.cons.injEq] at h2
      exact lowerC_lt h2.1
    exact .of_blanks h h1 (by rw [this]; decide)

theorem NameStart.solid (h : NameStart env fn r) : Solid r := by
  obtain ⟨t, r1, h, h1⟩ := h
  refine .of_lex h ?_ ?_ <;> rcases h1 with h1 | ⟨k, m, h1, _⟩ | ⟨h1, _⟩ | ⟨h1, _⟩ <;> rw [h1] <;> simp

mutual
theorem gram_solid : ∀ {k r e r'}, Gram env fn k r e r' → Solid r
  | _, _, _, _, .ternary h1 _ _ _ _ => gram_solid h1
  | _, _, _, _, .noTernary h _ => gram_solid h
  | _, _, _, _, .chain _ _ h _ => chain_solid h
  | _, _, _, _, .compare h1 _ _ _ => gram_solid h1
  | _, _, _, _, .noCompare h _ => gram_solid h
  | _, _, _, _, .unary h1 h2 _ => .of_lex h1 h2.ne_eol.1 h2.ne_eol.2
  | _, _, _, _, .noUnary h => gram_solid h
  | _, _, _, _, .postfix h _ => chain_solid h
  | _, _, _, _, .lit h1 h2 => .of_lex h1 h2.ne_eol.1 h2.ne_eol.2
  | _, _, _, _, .dstring h1 _ h2 => .of_blanks h1 h2 (by decide)
  | _, _, _, _, .sstring h1 _ h2 _ => .of_blanks h1 h2 (by decide)
  | _, _, _, _, .list h1 _ => .of_mark h1
  | _, _, _, _, .paren h1 _ _ => .of_mark h1
  | _, _, _, _, .dict h1 _ _ => .of_mark h1
  | _, _, _, _, .litdict h1 _ _ => .of_mark h1
  | _, _, _, _, .lambda h1 _ _ _ => h1.elim (fun h => .of_mark h) (fun h => .of_mark h)
  | _, _, _, _, .name _ h _ _ => NameStart.solid h
  | _, _, _, _, .sid h1 h2 h3 _ => .of_sid h1 h2 h3
theorem chain_solid : ∀ {k r e r'}, Chain env fn k r e r' → Solid r
  | _, _, _, _, .one _ h => gram_solid h
  | _, _, _, _, .op _ h1 _ _ _ => chain_solid h1
  | _, _, _, _, .subscript h1 _ _ _ _ => chain_solid h1
  | _, _, _, _, .slice h1 _ _ _ _ _ _ => chain_solid h1
  | _, _, _, _, .method h1 _ _ _ _ _ => chain_solid h1
  | _, _, _, _, .call h1 _ _ _ => chain_solid h1
  | _, _, _, _, .dot h1 _ _ _ _ => chain_solid h1
end

theorem litWord_solid {k : Ast.Expr} (h : LitWord env fn r k r') : Solid r := by
  obtain ⟨_, r1, v, h1, h2, ⟨h3, h4⟩, _⟩ := h
  cases v with
  | nil => exact absurd rfl h3
  | cons c v => exact .of_blanks h1 h2 (white_of (f := fun c => isalnum c || c == '_' || c == '-') (by decide) (h4 c (by simp)))

theorem key_solid {lit : Bool} {k : Ast.Expr} (h : Key env fn lit r k r') : Solid r := by
  cases h with
  | expr h => exact gram_solid h
  | lit h => exact litWord_solid h

theorem pairs_solid {lit : Bool} {kvs} (h : Pairs env fn lit r kvs r') : Solid r := by
  cases h with
  | nil h => exact .of_mark h
  | last h => exact key_solid h
  | cons h => exact key_solid h

/-- What stands after the brace of a name is not blank. -/
theorem name_solid {r1 : List Cell} {t : Token} {r2 : List Cell} {ps : List Ast.Expr} (h1 : Blanks r r1)
    (h2 : NameParts env fn r1 ps r') (h3 : Lex env r t r2) (h4 : t.ty = .copen) (h5 : ps ≠ []) : Solid r2 := by
  have key : ∀ {c : Char} {v : Str} {q : List Cell}, Reads r1 (c :: v) q → iswhite c = false →
      c = '{' ∧ (v = [] → q = r2) := by
    intro c v q hr hc
    obtain ⟨w', hb, hw'⟩ := h1
    cases h3 with
    | eof => cases h4
    | eol => cases h4
    | text w r ra ty v' r2 a1 a2 a3 a4 =>
      have hv : v' = ['{'] := by
        simp only at h4
        subst h4
        cases a4
        rfl
      subst hv
      obtain ⟨q1, x1, e1, b1⟩ := a3.cons_inv
      cases b1.nil_inv
      obtain ⟨q2, x2, e2, b2⟩ := hr.cons_inv
      have e3 := spanS_of_reads a1 a2 (by subst e1; rfl)
      have e4 := spanS_of_reads hb hw' (by subst e2; exact hc)
      rw [e3] at e4
      cases e4
      rw [e1] at e2
      cases e2
      exact ⟨rfl, fun hv => by subst hv; exact b2.nil_inv.symm⟩
  cases h2 with
  | nil => exact absurd rfl h5
  | text a1 a2 a3 a4 =>
    rename_i v _ _
    cases v with
    | nil => exact absurd rfl a2.1
    | cons c v =>
      have hc := a2.2 c (by simp)
      obtain ⟨e, _⟩ := key a1 (white_of (f := isnamec) (by decide) hc)
      subst e
      exact absurd hc (by decide)
  | expr a1 a2 _ _ _ =>
    rw [← (key a1 (by decide)).2 rfl]
    exact gram_solid a2

end

/-! ### Trees with other positions -/

section
open Ast
variable {m : Ast.Pos → Ast.Pos}

theorem onPos_dotBase (e : Ast.Expr) : dotBase (e.onPos m) ↔ dotBase e := by
  cases e <;> simp only [Expr.onPos, dotBase]

theorem onPosL_append (a b : List Ast.Expr) : Expr.onPosL m (a ++ b) = Expr.onPosL m a ++ Expr.onPosL m b := by
  induction a with
  | nil => rfl
  | cons x a ih => simp only [List.cons_append, Expr.onPosL, ih]

theorem onPosL_length (a : List Ast.Expr) : (Expr.onPosL m a).length = a.length := by
  induction a with
  | nil => rfl
  | cons x a ih => simp only [Expr.onPosL, List.length_cons, ih]

theorem onPosL_ne (a : List Ast.Expr) (h : a ≠ []) : Expr.onPosL m a ≠ [] := by
  cases a with
  | nil => exact absurd rfl h
  | cons => simp [Expr.onPosL]

theorem onPos_name (q : Ast.Pos) (ps : List Ast.Expr) : (nameNode q ps).onPos m = nameNode (m q) (Expr.onPosL m ps) := by
  match ps with
  | [] => rfl
  | [e] => cases e <;> simp only [nameNode, Expr.onPos, Expr.onPosL, Ident.onPos]
  | a :: b :: ps => simp [nameNode, Expr.onPos, Expr.onPosL]
end

namespace Carry
variable {env env' : Env} {fn : Str} {κ : Carry env env' fn} {r r' : List Cell}

theorem lexT {t : Token} (h : κ.In r) (hl : Lex env r t r') (ht : t.ty ≠ .eol) :
    ∃ t', κ.In r' ∧ Lex env' (κ.tr r) t' (κ.tr r') ∧ t'.ty = t.ty ∧ t'.value = t.value ∧
      pubPos fn t'.pos = κ.m (pubPos fn t.pos) := by
  obtain ⟨t', h1, h2, h3, h4, _, h5⟩ := lex h hl
  exact ⟨t', h5 ht, h1, h2, h3, h4⟩

theorem mark {ty : TT} {q : Ast.Pos} (h : κ.In r) (hm : Mark env fn r ty q r') (ht : ty ≠ .eol := by simp) :
    κ.In r' ∧ Mark env' fn (κ.tr r) ty (κ.m q) (κ.tr r') := by
  obtain ⟨t, h1, rfl, rfl⟩ := hm
  obtain ⟨t', i, a1, a2, a3, a4⟩ := lexT h h1 ht
  exact ⟨i, t', a1, a2, a4.symm⟩

theorem next_ {p : TT → Prop} (h : κ.In r) (hn : Next env r p) : Next env' (κ.tr r) p := by
  obtain ⟨t, r1, h1, h2⟩ := hn
  obtain ⟨t', a1, a2, _⟩ := lex h h1
  exact ⟨t', _, a1, by rw [a2]; exact h2⟩

theorem member {v : Str} (h : κ.In r) (hm : Member r v r') : κ.In r' ∧ Member (κ.tr r) v (κ.tr r') := by
  obtain ⟨h1, h2, h3⟩ := hm
  obtain ⟨i, h4⟩ := reads h h1
  exact ⟨i, h4, h2, by rw [head i]; exact h3⟩

theorem member_back {v : Str} {t : List Cell} (h : κ.In r) (hm : Member (κ.tr r) v t) : ∃ r', Member r v r' := by
  obtain ⟨h1, h2, h3⟩ := hm
  obtain ⟨r', h4, i, rfl⟩ := reads_back h h1
  exact ⟨r', h4, h2, by rw [← head i]; exact h3⟩

theorem noPostfix {e : Ast.Expr} (h : κ.In r) (hn : NoPostfix env e r) : NoPostfix env' (e.onPos κ.m) (κ.tr r) := by
  obtain ⟨t, r1, h1, h2, h3, h4⟩ := hn
  obtain ⟨t', a1, a2, _, _, _, i⟩ := lex h h1
  refine ⟨t', _, a1, by rw [a2]; exact h2, by rw [a2]; exact h3, fun hw => ?_⟩
  rw [head h] at hw
  obtain ⟨h5, h6⟩ := h4 hw
  rw [a2]
  refine ⟨h5, ?_⟩
  rintro ⟨e1, e2, v, x, e3⟩
  obtain ⟨y, e4⟩ := member_back (i (by rw [e1]; simp)) e3
  exact h6 ⟨e1, (onPos_dotBase e).1 e2, v, y, e4⟩

theorem notLambda (h : κ.In r) (hs : Solid r ∨ κ.bd) (hn : NotLambda env r) : NotLambda env' (κ.tr r) := by
  obtain ⟨t, r1, h1, h2, h3⟩ := hn
  obtain ⟨t', a1, a2, _, _, i0, i⟩ := lex h h1
  have i : κ.In r1 := by
    rcases hs with hs | hb
    · exact i (hs.lex h1)
    · rcases i0 with i0 | rfl
      · exact i0
      · rw [(κ.eof hb).1]; exact .eof hb
  refine ⟨t', _, a1, by rw [a2]; exact h2, ?_⟩
  rw [a2]
  rcases h3 with h3 | h3 | ⟨t2, r2, h3, h4⟩
  · exact .inl h3
  · exact .inr (.inl h3)
  · obtain ⟨t2', b1, b2, _⟩ := lex i h3
    exact .inr (.inr ⟨t2', _, b1, by rw [b2]; exact h4⟩)

theorem lamParams {used : List Str} {ps : List Ast.Ident} (hl : LamParams env fn used r ps r') :
    κ.In r → κ.In r' ∧ LamParams env' fn used (κ.tr r) (ps.map (Ast.Ident.onPos κ.m)) (κ.tr r') := by
  induction hl with
  | none h1 =>
    intro h
    obtain ⟨i, a⟩ := mark h h1
    exact ⟨i, .none a⟩
  | dots h1 h2 h3 =>
    intro h
    obtain ⟨t', i, a1, a2, a3, a4⟩ := lexT h h1 (by rw [h2]; simp)
    obtain ⟨i2, b⟩ := mark i h3
    refine ⟨i2, ?_⟩
    simp only [List.map_cons, List.map_nil, Ast.Ident.onPos, ← a4, ← a3]
    exact .dots a1 (by rw [a2, h2]) b
  | last h1 h2 h3 h4 h5 =>
    intro h
    obtain ⟨t', i, a1, a2, a3, a4⟩ := lexT h h1 (by rw [h2]; simp)
    obtain ⟨i2, b⟩ := mark i h5
    refine ⟨i2, ?_⟩
    simp only [List.map_cons, List.map_nil, Ast.Ident.onPos, ← a4, ← a3]
    exact .last a1 (by rw [a2, h2]) (by rw [a3]; exact h3) (by rw [a3]; exact h4) b
  | cons h1 h2 h3 h4 h5 h6 _ ih =>
    intro h
    obtain ⟨t', i, a1, a2, a3, a4⟩ := lexT h h1 (by rw [h2]; simp)
    obtain ⟨i2, b⟩ := mark i h6
    obtain ⟨i3, b2⟩ := ih i2
    refine ⟨i3, ?_⟩
    simp only [List.map_cons, Ast.Ident.onPos, ← a4, ← a3]
    rw [← a3] at b2
    exact .cons a1 (by rw [a2, h2]) (by rw [a3]; exact h3) (by rw [a3]; exact h4) (by rw [head i]; exact h5) b b2

theorem litWord {k : Ast.Expr} (h : κ.In r) (hk : LitWord env fn r k r') :
    κ.In r' ∧ LitWord env' fn (κ.tr r) (k.onPos κ.m) (κ.tr r') := by
  obtain ⟨h0, r1, v, h1, h2, h3, rfl⟩ := hk
  obtain ⟨i1, a1⟩ := blanks h h1
  obtain ⟨i2, a2⟩ := reads i1 h2
  refine ⟨i2, next_ h h0, κ.tr r1, v, a1, a2, h3, ?_⟩
  cases v with
  | nil => exact absurd rfl h3.1
  | cons c v =>
    obtain ⟨q, x, rfl, _⟩ := h2.cons_inv
    obtain ⟨i3, e⟩ := next i1 (x := c) rfl
    rw [← e, pub i3, Ast.Expr.onPos]

theorem nameStart (h : κ.In r) {r1 : List Cell} {ps : List Ast.Expr} (hb : Blanks r r1)
    (hp : NameParts env fn r1 ps r') (hne : ps ≠ []) (hn : NameStart env fn r) : NameStart env' fn (κ.tr r) := by
  obtain ⟨t, r2, h1, h2⟩ := hn
  have ht : t.ty ≠ .eol := by
    rcases h2 with h2 | ⟨k, m, h2, _⟩ | ⟨h2, _⟩ | ⟨h2, _⟩ <;> rw [h2] <;> simp
  obtain ⟨t', i, a1, a2, _⟩ := lexT h h1 ht
  refine ⟨t', _, a1, ?_⟩
  rw [a2]
  rcases h2 with h2 | h2 | ⟨h2, h3⟩ | ⟨h2, h3, k, r3, q, r4, h4, h5⟩
  · exact .inl h2
  · exact .inr (.inl h2)
  · exact .inr (.inr (.inl ⟨h2, notLambda i (.inl (name_solid hb hp h1 h2 hne)) h3⟩))
  · obtain ⟨i3, b1⟩ := litWord i h4
    obtain ⟨i4, b2⟩ := mark i3 h5
    exact .inr (.inr (.inr ⟨h2, notLambda i (.inl (litWord_solid h4)) h3, _, _, _, _, b1, b2⟩))

open Ast (Expr.onPos Expr.onPosL Expr.onPosO Expr.onPosP Ident.onPos)

mutual

theorem gram : ∀ {k r e r'}, Gram env fn k r e r' → κ.In r →
    κ.In r' ∧ Gram env' fn k (κ.tr r) (e.onPos κ.m) (κ.tr r')
  | _, _, _, _, .ternary h1 h2 h3 h4 h5, h => by
    obtain ⟨i1, a1⟩ := gram h1 h
    obtain ⟨i2, a2⟩ := mark i1 h2
    obtain ⟨i3, a3⟩ := gram h3 i2
    obtain ⟨i4, a4⟩ := mark i3 h4
    obtain ⟨i5, a5⟩ := gram h5 i4
    refine ⟨i5, ?_⟩
    rw [Expr.onPos]
    exact .ternary a1 a2 a3 a4 a5
  | _, _, _, _, .noTernary h1 h2, h => by
    obtain ⟨i1, a1⟩ := gram h1 h
    exact ⟨i1, .noTernary a1 (next_ i1 h2)⟩
  | _, _, _, _, .chain h1 h2 h3 h4, h => by
    obtain ⟨i1, a1⟩ := chain h3 h
    exact ⟨i1, .chain h1 h2 a1 (next_ i1 h4)⟩
  | _, _, _, _, .compare h1 h2 h3 h4, h => by
    obtain ⟨i1, a1⟩ := gram h1 h
    obtain ⟨t', i2, a2, b1, b2, b3⟩ := lexT i1 h2 h3.ne_eol
    obtain ⟨i3, a3⟩ := gram h4 i2
    refine ⟨i3, ?_⟩
    rw [Expr.onPos, ← b3]
    exact .compare a1 a2 (by rw [b1]; exact h3) a3
  | _, _, _, _, .noCompare h1 h2, h => by
    obtain ⟨i1, a1⟩ := gram h1 h
    exact ⟨i1, .noCompare a1 (next_ i1 h2)⟩
  | _, _, _, _, .unary h1 h2 h3, h => by
    obtain ⟨t', i1, a1, b1, b2, b3⟩ := lexT h h1 h2.ne_eol.1
    obtain ⟨i2, a2⟩ := gram h3 i1
    refine ⟨i2, ?_⟩
    rw [Expr.onPos, ← b3]
    exact .unary a1 (by rw [b1]; exact h2) a2
  | _, _, _, _, .noUnary h1, h => by
    obtain ⟨i1, a1⟩ := gram h1 h
    exact ⟨i1, .noUnary a1⟩
  | _, _, _, _, .postfix h1 h2, h => by
    obtain ⟨i1, a1⟩ := chain h1 h
    exact ⟨i1, .postfix a1 (noPostfix i1 h2)⟩
  | _, _, _, _, .lit h1 h2, h => by
    obtain ⟨t', i1, a1, b1, b2, b3⟩ := lexT h h1 h2.ne_eol.1
    refine ⟨i1, ?_⟩
    rw [Expr.onPos, ← b3, ← b2]
    exact .lit a1 (by rw [b1]; exact h2)
  | _, _, _, _, .dstring h1 h2 h3, h => by
    obtain ⟨i1, a1⟩ := blanks h h1
    obtain ⟨i2, a2⟩ := reads i1 h3
    refine ⟨i2, ?_⟩
    rw [Expr.onPos, ← pub i1]
    exact .dstring a1 h2 a2
  | _, _, _, _, .sstring h1 h2 h3 h4, h => by
    obtain ⟨i1, a1⟩ := blanks h h1
    obtain ⟨i2, a2⟩ := reads i1 h3
    refine ⟨i2, ?_⟩
    rw [Expr.onPos, ← pub i1]
    exact .sstring a1 h2 a2 (by rw [head i2]; exact h4)
  | _, _, _, _, .list h1 h2, h => by
    obtain ⟨i1, a1⟩ := mark h h1
    obtain ⟨i2, a2⟩ := args h2 (by simp) i1
    refine ⟨i2, ?_⟩
    rw [Expr.onPos]
    exact .list a1 a2
  | _, _, _, _, .paren h1 h2 h3, h => by
    obtain ⟨i1, a1⟩ := mark h h1
    obtain ⟨i2, a2⟩ := gram h2 i1
    obtain ⟨i3, a3⟩ := mark i2 h3
    refine ⟨i3, ?_⟩
    rw [Expr.onPos]
    exact .paren a1 a2 a3
  | _, _, _, _, .dict h1 h2 h3, h => by
    obtain ⟨i1, a1⟩ := mark h h1
    obtain ⟨i2, a2⟩ := pairs h3 i1
    refine ⟨i2, ?_⟩
    rw [Expr.onPos]
    exact .dict a1 (notLambda i1 (.inl (pairs_solid h3)) h2) a2
  | _, _, _, _, .litdict h1 h2 h3, h => by
    obtain ⟨i1, a1⟩ := mark h h1
    obtain ⟨i2, a2⟩ := pairs h3 i1
    refine ⟨i2, ?_⟩
    rw [Expr.onPos]
    exact .litdict a1 (notLambda i1 (.inl (pairs_solid h3)) h2) a2
  | _, r, _, _, .lambda (r1 := r1) (q := q) h1 h2 h3 h4, h => by
    have key : κ.In r1 ∧ (Mark env' fn (κ.tr r) .copen (κ.m q) (κ.tr r1) ∨
        Mark env' fn (κ.tr r) .litcopen (κ.m q) (κ.tr r1)) := by
      rcases h1 with h1 | h1
      · obtain ⟨i, a⟩ := mark h h1
        exact ⟨i, .inl a⟩
      · obtain ⟨i, a⟩ := mark h h1
        exact ⟨i, .inr a⟩
    obtain ⟨i1, a1⟩ := key
    obtain ⟨i2, a2⟩ := lamParams h2 i1
    obtain ⟨i3, a3⟩ := gram h3 i2
    obtain ⟨i4, a4⟩ := mark i3 h4
    refine ⟨i4, ?_⟩
    rw [Expr.onPos]
    exact .lambda a1 a2 a3 a4
  | _, _, _, _, .name h1 h2 h3 h4, h => by
    obtain ⟨i1, a1⟩ := blanks h h1
    obtain ⟨i2, a2⟩ := parts h3 i1
    refine ⟨i2, ?_⟩
    rw [onPos_name, ← pub i1]
    exact .name a1 (nameStart h h1 h3 h4 h2) a2 (onPosL_ne _ h4)
  | _, _, _, _, .sid h1 h2 h3 h4, h => by
    obtain ⟨i1, a1⟩ := blanks h h1
    obtain ⟨i2, a2⟩ := reads i1 h2
    obtain ⟨i3, a3⟩ := parts h4 i2
    refine ⟨i3, ?_⟩
    rw [onPos_name, Expr.onPosL, Expr.onPos, ← pub i1]
    exact .sid a1 a2 h3 a3

theorem chain : ∀ {k r e r'}, Chain env fn k r e r' → κ.In r →
    κ.In r' ∧ Chain env' fn k (κ.tr r) (e.onPos κ.m) (κ.tr r')
  | _, _, _, _, .one h1 h2, h => by
    obtain ⟨i1, a1⟩ := gram h2 h
    exact ⟨i1, .one h1 a1⟩
  | _, _, _, _, .op h1 h2 h3 h4 h5, h => by
    obtain ⟨i1, a1⟩ := chain h2 h
    obtain ⟨t', i2, a2, b1, b2, b3⟩ := lexT i1 h3 h4.ne_eol
    obtain ⟨i3, a3⟩ := gram h5 i2
    refine ⟨i3, ?_⟩
    rw [Expr.onPos, ← b3]
    exact .op h1 a1 a2 (by rw [b1]; exact h4) a3
  | _, _, _, _, .subscript h1 h2 h3 h4 h5, h => by
    obtain ⟨i1, a1⟩ := chain h1 h
    obtain ⟨i2, a2⟩ := mark i1 h3
    obtain ⟨i3, a3⟩ := gram h4 i2
    obtain ⟨i4, a4⟩ := mark i3 h5
    refine ⟨i4, ?_⟩
    rw [Expr.onPos]
    exact .subscript a1 (by rw [head i1]; exact h2) a2 a3 a4
  | _, _, _, _, .slice h1 h2 h3 h4 h5 h6 h7, h => by
    obtain ⟨i1, a1⟩ := chain h1 h
    obtain ⟨i2, a2⟩ := mark i1 h3
    obtain ⟨i3, a3⟩ := opt h4 i2
    obtain ⟨i4, a4⟩ := mark i3 h5
    obtain ⟨i5, a5⟩ := opt h6 i4
    obtain ⟨i6, a6⟩ := mark i5 h7
    refine ⟨i6, ?_⟩
    rw [Expr.onPos]
    exact .slice a1 (by rw [head i1]; exact h2) a2 a3 a4 a5 a6
  | _, _, _, _, .method h1 h2 h3 h4 h5 h6, h => by
    obtain ⟨i1, a1⟩ := chain h1 h
    obtain ⟨i2, a2⟩ := mark i1 h2
    obtain ⟨i3, a3⟩ := gram h3 i2
    obtain ⟨i4, a4⟩ := mark i3 h4
    obtain ⟨i5, a5⟩ := args h5 (by simp) i4
    refine ⟨i5, ?_⟩
    rw [Expr.onPos]
    exact .method a1 a2 a3 a4 a5 (by rw [onPosL_length]; exact h6)
  | _, _, _, _, .call h1 h2 h3 h4, h => by
    obtain ⟨i1, a1⟩ := chain h1 h
    obtain ⟨i2, a2⟩ := mark i1 h2
    obtain ⟨i3, a3⟩ := args h3 (by simp) i2
    refine ⟨i3, ?_⟩
    rw [Expr.onPos]
    exact .call a1 a2 a3 (by rw [onPosL_length]; exact h4)
  | _, _, _, _, .dot h1 h2 h3 h4 h5, h => by
    obtain ⟨i1, a1⟩ := chain h1 h
    obtain ⟨i2, a2⟩ := mark i1 h4
    obtain ⟨i3, a3⟩ := member i2 h5
    refine ⟨i3, ?_⟩
    rw [Expr.onPos, Ident.onPos, ← pub i2]
    exact .dot a1 (by rw [head i1]; exact h2) ((onPos_dotBase _).2 h3) a2 a3

theorem opt : ∀ {r o r'}, Opt env fn r o r' → κ.In r → κ.In r' ∧ Opt env' fn (κ.tr r) (Expr.onPosO κ.m o) (κ.tr r')
  | _, _, _, .none, h => ⟨h, .none⟩
  | _, _, _, .some h1, h => by
    obtain ⟨i1, a1⟩ := gram h1 h
    exact ⟨i1, .some a1⟩

theorem args : ∀ {c r es r'}, Args env fn c r es r' → c ≠ .eol → κ.In r →
    κ.In r' ∧ Args env' fn c (κ.tr r) (Expr.onPosL κ.m es) (κ.tr r')
  | _, _, _, _, .nil h1, hc, h => by
    obtain ⟨i1, a1⟩ := mark h h1 hc
    exact ⟨i1, .nil a1⟩
  | _, _, _, _, .last h1 h2, hc, h => by
    obtain ⟨i1, a1⟩ := gram h1 h
    obtain ⟨i2, a2⟩ := mark i1 h2 hc
    exact ⟨i2, .last a1 a2⟩
  | _, _, _, _, .cons h1 h2 h3, hc, h => by
    obtain ⟨i1, a1⟩ := gram h1 h
    obtain ⟨i2, a2⟩ := mark i1 h2
    obtain ⟨i3, a3⟩ := args h3 hc i2
    exact ⟨i3, .cons a1 a2 a3⟩

theorem key : ∀ {lit r k r'}, Key env fn lit r k r' → κ.In r →
    κ.In r' ∧ Key env' fn lit (κ.tr r) (k.onPos κ.m) (κ.tr r')
  | _, _, _, _, .expr h1, h => by
    obtain ⟨i1, a1⟩ := gram h1 h
    exact ⟨i1, .expr a1⟩
  | _, _, _, _, .lit h1, h => by
    obtain ⟨i1, a1⟩ := litWord h h1
    exact ⟨i1, .lit a1⟩

theorem pairs : ∀ {lit r kvs r'}, Pairs env fn lit r kvs r' → κ.In r →
    κ.In r' ∧ Pairs env' fn lit (κ.tr r) (Expr.onPosP κ.m kvs) (κ.tr r')
  | _, _, _, _, .nil h1, h => by
    obtain ⟨i1, a1⟩ := mark h h1
    exact ⟨i1, .nil a1⟩
  | _, _, _, _, .last h1 h2 h3 h4, h => by
    obtain ⟨i1, a1⟩ := key h1 h
    obtain ⟨i2, a2⟩ := mark i1 h2
    obtain ⟨i3, a3⟩ := gram h3 i2
    obtain ⟨i4, a4⟩ := mark i3 h4
    exact ⟨i4, .last a1 a2 a3 a4⟩
  | _, _, _, _, .cons h1 h2 h3 h4 h5, h => by
    obtain ⟨i1, a1⟩ := key h1 h
    obtain ⟨i2, a2⟩ := mark i1 h2
    obtain ⟨i3, a3⟩ := gram h3 i2
    obtain ⟨i4, a4⟩ := mark i3 h4
    obtain ⟨i5, a5⟩ := pairs h5 i4
    exact ⟨i5, .cons a1 a2 a3 a4 a5⟩

theorem parts : ∀ {r ps r'}, NameParts env fn r ps r' → κ.In r →
    κ.In r' ∧ NameParts env' fn (κ.tr r) (Expr.onPosL κ.m ps) (κ.tr r')
  | _, _, _, .nil h1 h2, h => ⟨h, .nil (by rw [head h]; exact h1) (by rw [head h]; exact h2)⟩
  | _, _, _, .text h1 h2 h3 h4, h => by
    obtain ⟨i1, a1⟩ := reads h h1
    obtain ⟨i2, a2⟩ := parts h4 i1
    refine ⟨i2, ?_⟩
    rw [Expr.onPosL, Expr.onPos, ← pub h]
    exact .text a1 h2 (by rw [head i1]; exact h3) a2
  | _, _, _, .expr h1 h2 h3 h4 h5, h => by
    obtain ⟨i1, a1⟩ := reads h h1
    obtain ⟨i2, a2⟩ := gram h2 i1
    obtain ⟨i3, a3⟩ := blanks i2 h3
    obtain ⟨i4, a4⟩ := reads i3 h4
    obtain ⟨i5, a5⟩ := parts h5 i4
    refine ⟨i5, ?_⟩
    rw [Expr.onPosL, Expr.onPos, ← pub i1]
    exact .expr a1 a2 a3 a4 a5

end

end Carry

end Viml
