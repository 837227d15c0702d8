/-
Lemmas for C76: every node of a tree takes at least one cell of the text.
-/
import Verif.Lemmas.OrderFile
import Verif.Spec.Walk

namespace Viml
open Spec Ast

/-- The trees of the nodes `ns` have at most `k` nodes. -/
def Fit (k : Nat) (ns : List Node) : Prop := ∃ l, PreorderAll parts ns l ∧ l.length ≤ k

theorem preorderAll_append {ch : Node → List Node} : ∀ {a b l l'}, PreorderAll ch a l → PreorderAll ch b l' →
    PreorderAll ch (a ++ b) (l ++ l')
  | [], _, _, _, .nil, h => h
  | _ :: _, _, _, _, .cons h1 h2, h => by
    rw [List.append_assoc]
    exact .cons h1 (preorderAll_append h2 h)

theorem Fit.nil (k : Nat) : Fit k [] := ⟨[], .nil, Nat.zero_le _⟩

theorem Fit.append {i j a b} (h : Fit i a) (h' : Fit j b) : Fit (i + j) (a ++ b) := by
  obtain ⟨l, h1, h2⟩ := h
  obtain ⟨l', h3, h4⟩ := h'
  exact ⟨l ++ l', preorderAll_append h1 h3, by rw [List.length_append]; omega⟩

theorem Fit.mono {i j a} (h : Fit i a) (hj : i ≤ j) : Fit j a := by
  obtain ⟨l, h1, h2⟩ := h
  exact ⟨l, h1, by omega⟩

theorem Fit.node {k n} (h : Fit k (parts n)) : Fit (k + 1) [n] := by
  obtain ⟨l, h1, h2⟩ := h
  exact ⟨_, .cons (.mk h1) .nil, by simpa using h2⟩

theorem Fit.leaf {n} (h : parts n = []) : Fit 1 [n] := Fit.node (k := 0) (by rw [h]; exact .nil _)

/-- The trees of the nodes `ns` have at most as many nodes as there are cells from `r` to `r'`. -/
def Takes (r : List Cell) (ns : List Node) (r' : List Cell) : Prop :=
  r'.length ≤ r.length ∧ Fit (r.length - r'.length) ns

section
variable {r r0 r1 r2 r' r'' : List Cell} {a b : List Node} {n : Node}

theorem Takes.nil (h : r' <:+ r) : Takes r [] r' := ⟨h.length_le, .nil _⟩

theorem Takes.append (h : Takes r a r1) (h' : Takes r1 b r') : Takes r (a ++ b) r' :=
  ⟨Nat.le_trans h'.1 h.1, (h.2.append h'.2).mono (by have := h.1; have := h'.1; omega)⟩

theorem Takes.left (h : Takes r a r') (h0 : r <:+ r0) : Takes r0 a r' :=
  ⟨Nat.le_trans h.1 h0.length_le, h.2.mono (by have := h0.length_le; omega)⟩

theorem Takes.right (h : Takes r a r') (h0 : r'' <:+ r') : Takes r a r'' :=
  ⟨Nat.le_trans h0.length_le h.1, h.2.mono (by have := h0.length_le; omega)⟩

/-- A node with some text of its own between its parts. -/
theorem Takes.mid (h : Takes r a r1) (h1 : r2.length < r1.length) (h2 : Takes r2 b r') (hn : parts n = a ++ b) :
    Takes r [n] r' := by
  refine ⟨?_, (Fit.node (k := (r.length - r1.length) + (r2.length - r'.length)) ?_).mono ?_⟩
  · have := h.1; have := h2.1; omega
  · rw [hn]; exact h.2.append h2.2
  · have := h.1; have := h2.1; omega

/-- A node with some text before its parts. -/
theorem Takes.pre (h1 : r2.length < r.length) (h2 : Takes r2 a r') (hn : parts n = a) : Takes r [n] r' :=
  Takes.mid (.nil (List.suffix_refl r)) h1 h2 (by rw [hn]; rfl)

theorem Takes.leaf (h1 : r'.length < r.length) (hn : parts n = []) : Takes r [n] r' :=
  .pre h1 (.nil (List.suffix_refl _)) hn

end

section
variable {env : Env} {fn : Str} {nv : Bool}

theorem equalci_len {v : Str} (h : equalci v ['<', 'S', 'I', 'D', '>'] = true) : v.length = 5 := by
  have := congrArg List.length (eq_of_beq h)
  simpa using this

theorem Spec.Reads.shorter {r v r'} (h : Reads r v r') (hv : v ≠ []) : r'.length < r.length := by
  have := h.len
  have := List.length_pos_iff.2 hv
  omega

theorem Spec.Lex.shorter {r t r'} (h : Lex env r t r') (ht : t.ty ≠ .eof) : r'.length < r.length := by
  cases h with
  | eof => exact absurd rfl ht
  | eol w _ c _ h _ _ =>
    have := h.len
    simp only [List.length_cons] at this
    omega
  | text w _ r1 ty v _ h1 _ h2 h3 =>
    have := h1.len
    have := h2.shorter h3.ne_nil
    omega

theorem Spec.Mark.shorter {r ty q r'} (h : Mark env fn r ty q r') (ht : ty ≠ .eof) : r'.length < r.length := by
  obtain ⟨t, h1, rfl, _⟩ := h
  exact h1.shorter ht

theorem lamParams_takes {used r ps r'} (h : LamParams env fn used r ps r') :
    Takes r (ps.map fun i => .expr (.ident i)) r' := by
  induction h with
  | none h => exact .nil h.suf
  | dots h1 h2 h3 => exact (Takes.leaf (h1.shorter (by rw [h2]; simp)) rfl).right h3.suf
  | last h1 h2 h3 h4 h5 => exact (Takes.leaf (h1.shorter (by rw [h2]; simp)) rfl).right h5.suf
  | cons h1 h2 h3 h4 h5 h6 _ ih => exact (Takes.leaf (h1.shorter (by rw [h2]; simp)) rfl).append (ih.left h6.suf)

/-- What the parts of a name take: more than there are nodes if there is an expression among them. -/
def TakesName (r : List Cell) (ps : List Expr) (r' : List Cell) : Prop :=
  ∃ k, Fit k (ps.map .expr) ∧ k + r'.length ≤ r.length ∧
    (k + r'.length < r.length ∨ ps = [] ∨ (∃ q v, ps = [.curlyNameLit q v]) ∧ (headSym r).is isnamec = true)

theorem nameNode_takes {r x ps r'} {q : Ast.Pos} (h0 : x <:+ r) (h : TakesName x ps r') (hp : ps ≠ []) :
    Takes r [.expr (nameNode q ps)] r' := by
  obtain ⟨k, h1, h2, h3⟩ := h
  refine Takes.left ?_ h0
  refine ⟨by omega, ?_⟩
  unfold nameNode
  split
  · refine (Fit.leaf rfl).mono ?_
    have : k ≠ 0 := by
      rintro rfl
      obtain ⟨l, h4, h5⟩ := h1
      cases h4 with
      | cons h6 _ => cases h6; simp at h5
    omega
  · rename_i h6
    refine (Fit.node (n := .expr (.curlyName q ps)) (k := k) h1).mono ?_
    rcases h3 with h3 | h3 | ⟨⟨q, v, rfl⟩, _⟩
    · omega
    · exact absurd h3 hp
    · exact absurd rfl (h6 _ _)

theorem head_of_reads {r v r'} {f : Char → Bool} (h : Reads r v r') (hv : Many1 f v) : (headSym r).is f = true := by
  obtain ⟨p, rfl, hp⟩ := h
  obtain ⟨h1, h2⟩ := hv
  cases v with
  | nil => exact absurd rfl h1
  | cons c v =>
    cases p with
    | nil => cases hp
    | cons d p =>
      simp only [List.map_cons, List.cons.injEq] at hp
      simp [headSym, Cell.sym, hp.1, Sym.is, h2 c (by simp)]

mutual

theorem gram_takes : ∀ {k r e r'}, Gram env fn k r e r' → Takes r [.expr e] r'
  | _, _, _, _, .ternary h1 h2 h3 h4 h5 =>
    .mid (gram_takes h1) (h2.shorter (by simp)) ((gram_takes h3).append ((gram_takes h5).left h4.suf)) rfl
  | _, _, _, _, .noTernary h _ => gram_takes h
  | _, _, _, _, .chain _ _ h _ => chain_takes h
  | _, _, _, _, .compare h1 h2 h3 h4 => .mid (gram_takes h1) (h2.shorter h3.ne_eof) (gram_takes h4) rfl
  | _, _, _, _, .noCompare h _ => gram_takes h
  | _, _, _, _, .unary h1 h2 h3 => .pre (h1.shorter h2.ne_eof) (gram_takes h3) rfl
  | _, _, _, _, .noUnary h => gram_takes h
  | _, _, _, _, .postfix h _ => chain_takes h
  | _, _, _, _, .lit h1 h2 => .leaf (h1.shorter h2.ne_eof) rfl
  | _, _, _, _, .dstring h1 _ h2 => (Takes.leaf (h2.shorter (by simp)) rfl).left h1.suf
  | _, _, _, _, .sstring h1 _ h2 _ => (Takes.leaf (h2.shorter (by simp)) rfl).left h1.suf
  | _, _, _, _, .list h1 h2 => .pre (h1.shorter (by simp)) (args_takes h2) rfl
  | _, _, _, _, .paren h1 h2 h3 => .pre (h1.shorter (by simp)) ((gram_takes h2).right h3.suf) rfl
  | _, _, _, _, .dict h1 _ h2 => .pre (h1.shorter (by simp)) (pairs_takes h2) rfl
  | _, _, _, _, .litdict h1 _ h2 => .pre (h1.shorter (by simp)) (pairs_takes h2) rfl
  | _, _, _, _, .lambda h1 h2 h3 h4 =>
    .pre (h1.elim (fun h => h.shorter (by simp)) (fun h => h.shorter (by simp)))
      ((lamParams_takes h2).append ((gram_takes h3).right h4.suf)) (by simp [parts, exprParts, Function.comp_def])
  | _, _, _, _, .name h1 _ h2 h3 => nameNode_takes h1.suf (names_takes h2) h3
  | _, _, _, _, .sid h1 h2 h3 h4 => by
    refine nameNode_takes h1.suf ?_ (by simp)
    obtain ⟨k, t1, t2, t3⟩ := names_takes h4
    have h5 := h2.len
    have h6 := equalci_len h3
    exact ⟨1 + k, (Fit.leaf rfl).append t1, by omega, .inl (by omega)⟩

theorem chain_takes : ∀ {k r e r'}, Chain env fn k r e r' → Takes r [.expr e] r'
  | _, _, _, _, .one _ h => gram_takes h
  | _, _, _, _, .op _ h1 h2 h3 h4 => .mid (chain_takes h1) (h2.shorter h3.ne_eof) (gram_takes h4) rfl
  | _, _, _, _, .subscript h1 _ h2 h3 h4 =>
    .mid (chain_takes h1) (h2.shorter (by simp)) ((gram_takes h3).right h4.suf) rfl
  | _, _, _, _, .slice h1 _ h2 h3 h4 h5 h6 =>
    .mid (chain_takes h1) (h2.shorter (by simp)) ((opt_takes h3).append (((opt_takes h5).left h4.suf).right h6.suf))
      (by simp [parts, exprParts])
  | _, _, _, _, .method h1 h2 h3 h4 h5 _ =>
    .mid ((chain_takes h1).append ((gram_takes h3).left h2.suf)) (h4.shorter (by simp)) (args_takes h5) rfl
  | _, _, _, _, .call h1 h2 h3 _ => .mid (chain_takes h1) (h2.shorter (by simp)) (args_takes h3) rfl
  | _, _, _, _, .dot h1 _ _ h2 h3 => .mid (chain_takes h1) (h2.shorter (by simp)) (.leaf (h3.1.shorter h3.2.1.1) rfl) rfl

theorem opt_takes : ∀ {r o r'}, Opt env fn r o r' → Takes r (o.toList.map .expr) r'
  | _, _, _, .none => .nil (List.suffix_refl _)
  | _, _, _, .some h => gram_takes h

theorem args_takes : ∀ {c r es r'}, Args env fn c r es r' → Takes r (es.map .expr) r'
  | _, _, _, _, .nil h => .nil h.suf
  | _, _, _, _, .last h1 h2 => (gram_takes h1).right h2.suf
  | _, _, _, _, .cons h1 h2 h3 => (gram_takes h1).append ((args_takes h3).left h2.suf)

theorem pairs_takes : ∀ {lit r kvs r'}, Pairs env fn lit r kvs r' →
    Takes r ((kvs.flatMap fun kv => [kv.1, kv.2]).map .expr) r'
  | _, _, _, _, .nil h => .nil h.suf
  | _, _, _, _, .last h1 h2 h3 h4 => (key_takes h1).append (((gram_takes h3).left h2.suf).right h4.suf)
  | _, _, _, _, .cons h1 h2 h3 h4 h5 =>
    (key_takes h1).append (((gram_takes h3).left h2.suf).append ((pairs_takes h5).left h4.suf))

theorem key_takes : ∀ {lit r k r1}, Key env fn lit r k r1 → Takes r [.expr k] r1
  | _, _, _, _, .expr h => gram_takes h
  | _, _, _, _, .lit h => by
    obtain ⟨_, x, v, h1, h2, h3, rfl⟩ := h
    exact (Takes.leaf (h2.shorter h3.1) rfl).left h1.suf

theorem names_takes : ∀ {r ps r'}, NameParts env fn r ps r' → TakesName r ps r'
  | _, _, _, .nil _ _ => ⟨0, .nil _, by simp, .inr (.inl rfl)⟩
  | _, _, _, .text h1 h2 h3 h4 => by
    obtain ⟨k, t1, t2, t3⟩ := names_takes h4
    have h5 := h1.shorter h2.1
    refine ⟨1 + k, (Fit.leaf rfl).append t1, by omega, ?_⟩
    rcases t3 with t3 | rfl | ⟨_, t3⟩
    · exact .inl (by omega)
    · exact .inr (.inr ⟨⟨_, _, rfl⟩, head_of_reads h1 h2⟩)
    · rw [h3] at t3; cases t3
  | _, _, _, .expr h1 h2 h3 h4 h5 => by
    obtain ⟨k, t1, t2, _⟩ := names_takes h5
    have t3 := gram_takes h2
    have h6 := h1.len
    have h7 := h4.len
    have h8 := h3.suf.length_le
    have h9 := t3.1
    simp only [List.length_cons, List.length_nil] at h6 h7
    exact ⟨_ + 1 + k, (Fit.node (n := .expr (.curlyNameExpr _ _)) t3.2).append t1, by omega, .inl (by omega)⟩

end
end
end Viml
