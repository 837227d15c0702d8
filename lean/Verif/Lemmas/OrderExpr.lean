/-
The positions of a tree of the expression grammar are in source order.
-/
import Verif.Spec.Grammar
import Verif.Spec.Order
import Verif.Spec.File
import Verif.Lemmas.Lex

namespace Viml
open Spec

section
variable {env : Env} {fn : Str} {s : Bool}

/-- The positions `l` are those of places between `r` and `r'`, one after the other; different ones if `s`. -/
inductive Track (env : Env) (fn : Str) (s : Bool) : List Cell → List Ast.Pos → List Cell → Prop
  | nil {r r'} : r' <:+ r → Track env fn s r [] r'
  | cons {r x l r'} : x <:+ r → (s = true → x ≠ []) → Track env fn s (if s then x.tail else x) l r' →
      Track env fn s r (here env fn x :: l) r'

theorem Track.left {r0 r l r'} (h : Track env fn s r l r') (h0 : r <:+ r0) : Track env fn s r0 l r' := by
  cases h with
  | nil h => exact .nil (h.trans h0)
  | cons h1 h2 h3 => exact .cons (h1.trans h0) h2 h3

theorem Track.right {r l r' r''} (h : Track env fn s r l r') (h0 : r'' <:+ r') : Track env fn s r l r'' := by
  induction h with
  | nil h => exact .nil (h0.trans h)
  | cons h1 h2 _ ih => exact .cons h1 h2 (ih h0)

theorem Track.append {r l r1 l' r'} (h : Track env fn s r l r1) (h' : Track env fn s r1 l' r') :
    Track env fn s r (l ++ l') r' := by
  induction h with
  | nil h => exact h'.left h
  | cons h1 h2 _ ih => exact .cons h1 h2 (ih h')

theorem step_suffix (x : List Cell) : (if s = true then x.tail else x) <:+ x := by
  cases s
  · exact List.suffix_refl _
  · exact List.tail_suffix _

theorem Track.suffix {r l r'} (h : Track env fn s r l r') : r' <:+ r := by
  induction h with
  | nil h => exact h
  | cons h1 _ _ ih => exact (ih.trans (step_suffix _)).trans h1

theorem Track.refl (r : List Cell) : Track env fn s r [] r := .nil (List.suffix_refl _)

theorem Spec.Reads.suf {r v r'} (h : Reads r v r') : r' <:+ r := by
  obtain ⟨p, h, _⟩ := h
  exact ⟨p, h.symm⟩

/-- After some text the reader is past its first cell. -/
theorem Spec.Reads.past {r v r'} (h : Reads r v r') (hv : v ≠ []) : r ≠ [] ∧ r' <:+ r.tail := by
  obtain ⟨p, rfl, h⟩ := h
  cases p with
  | nil => cases v <;> simp_all
  | cons c p => exact ⟨by simp, ⟨p, rfl⟩⟩

theorem Spec.Blanks.suf {r r'} (h : Blanks r r') : r' <:+ r := by
  obtain ⟨w, h, _⟩ := h
  exact h.suf

/-- The place of a text. -/
theorem Track.text {r0 r v r'} (h0 : r <:+ r0) (h : Reads r v r') (hv : v ≠ []) :
    Track env fn s r0 [here env fn r] r' := by
  obtain ⟨h1, h2⟩ := h.past hv
  refine .cons h0 (fun _ => h1) (.nil ?_)
  cases s
  · exact h.suf
  · exact h2

/-- The place of a token. -/
theorem Track.lex {r t r'} (h : Lex env r t r') (ht : t.ty ≠ .eof) : Track env fn s r [pubPos fn t.pos] r' := by
  cases h with
  | eof => exact absurd rfl ht
  | eol w r c r' hr hw hc =>
    refine Track.cons (x := c :: r') hr.suf (fun _ => by simp) (.nil ?_)
    cases s
    · exact List.suffix_cons _ _
    · exact List.suffix_refl _
  | text w r r1 ty v r' h1 h2 h3 h4 => exact Track.text h1.suf h3 h4.ne_nil

theorem Track.mark {r ty q r'} (h : Mark env fn r ty q r') (ht : ty ≠ .eof) : Track env fn s r [q] r' := by
  obtain ⟨t, h1, rfl, rfl⟩ := h
  exact Track.lex h1 ht

theorem Spec.Mark.suf {r ty q r'} (h : Mark env fn r ty q r') : r' <:+ r := by
  obtain ⟨t, h1, _, _⟩ := h
  cases h1 with
  | eof w r h => exact h.suf
  | eol w r c r' h => exact (List.suffix_cons _ _).trans h.suf
  | text w r r1 ty v r' h1 h2 h3 h4 => exact h3.suf.trans h1.suf

theorem Spec.IsOp.ne_eof {ty k op} (h : IsOp ty k op) : ty ≠ .eof := by
  cases h <;> simp

theorem Spec.IsUn.ne_eof {ty op} (h : IsUn ty op) : ty ≠ .eof := by
  cases h <;> simp

theorem Spec.IsLit.ne_eof {ty k} (h : IsLit ty k) : ty ≠ .eof := by
  cases h <;> simp

theorem lamParams_track {used r ps r'} (h : LamParams env fn used r ps r') :
    Track env fn s r (ps.map (·.pos)) r' := by
  induction h with
  | none h => exact .nil h.suf
  | dots h1 h2 h3 => exact (Track.lex h1 (by rw [h2]; simp)).right h3.suf
  | last h1 h2 h3 h4 h5 => exact (Track.lex h1 (by rw [h2]; simp)).right h5.suf
  | cons h1 h2 h3 h4 h5 h6 _ ih => exact (Track.lex h1 (by rw [h2]; simp)).append (ih.left h6.suf)

/-- A bare word as a key and the colon after it. -/
theorem litWord_track {r k r1 q r2} (h : LitWord env fn r k r1) (hc : Mark env fn r1 .colon q r2) (all : Bool) :
    Track env fn s r (places all k) r2 := by
  obtain ⟨_, x, v, h1, h2, ⟨h3, _⟩, rfl⟩ := h
  obtain ⟨h4, h5⟩ := h2.past h3
  have hr1 : r1 ≠ [] := by
    rintro rfl
    obtain ⟨t, h, ht, _⟩ := hc
    cases h with
    | eof => cases ht
    | eol w r c r' h => have := h.suf; simp at this
    | text w r x ty v r' a1 a2 a3 a4 =>
      have := a1.suf
      simp only [List.suffix_nil] at this
      subst this
      exact (a3.past a4.ne_nil).1 rfl
  have hne : x.tail ≠ [] := by
    intro h; rw [h] at h5; simp at h5; exact hr1 h5
  rw [places]
  refine .cons ((List.tail_suffix _).trans h1.suf) (fun _ => hne) (.nil ?_)
  have hm : r2 <:+ r1 := hc.suf
  cases s
  · exact hm.trans h5
  · show r2 <:+ x.tail.tail
    have h6 : r2 <:+ r1.tail := by
      have := Track.mark (s := true) hc (by simp)
      cases this with
      | cons a1 a2 a3 =>
        have a4 := a3.suffix
        obtain ⟨p, rfl⟩ := a1
        cases p with
        | nil => exact a4
        | cons c p => exact a4.trans ((List.tail_suffix _).trans ⟨p, rfl⟩)
    obtain ⟨p, hp⟩ := h5
    cases p with
    | nil => rw [← hp]; exact h6
    | cons c p => rw [← hp]; exact hm.trans ⟨p, rfl⟩

theorem nameNode_places (all : Bool) (q : Ast.Pos) (ps : List Ast.Expr) :
    places all (nameNode q ps) = (if all then [q] else []) ++ placesL all ps ∨
      ∃ q' v, ps = [.curlyNameLit q' v] ∧ places all (nameNode q ps) = [q] := by
  unfold nameNode
  split
  · exact .inr ⟨_, _, rfl, by rw [places]⟩
  · exact .inl (by rw [places])

theorem nameNode_track {r x ps r'} (h0 : x <:+ r) (h : Track env fn s x (placesL (!s) ps) r')
    (hl : ∀ q v, ps = [.curlyNameLit q v] → q = here env fn x) :
    Track env fn s r (places (!s) (nameNode (here env fn x) ps)) r' := by
  rcases nameNode_places (!s) (here env fn x) ps with h1 | ⟨q', v, rfl, h1⟩
  · rw [h1]
    cases s
    · exact .cons h0 (by simp) h
    · exact h.left h0
  · rw [h1]
    have := hl q' v rfl
    subst this
    simp only [placesL, places, List.append_nil] at h
    exact h.left h0

mutual

theorem gram_track : ∀ {k r e r'}, Gram env fn k r e r' → Track env fn s r (places (!s) e) r'
  | _, _, _, _, .ternary h1 h2 h3 h4 h5 => by
    rw [places]
    exact (((gram_track h1).append (.mark h2 (by simp))).append (gram_track h3)).append
      ((gram_track h5).left h4.suf)
  | _, _, _, _, .noTernary h _ => gram_track h
  | _, _, _, _, .chain _ _ h _ => chain_track h
  | _, _, _, _, .compare h1 h2 h3 h4 => by
    rw [places]
    exact ((gram_track h1).append (.lex h2 h3.ne_eof)).append (gram_track h4)
  | _, _, _, _, .noCompare h _ => gram_track h
  | _, _, _, _, .unary h1 h2 h3 => by
    rw [places]
    exact (Track.lex h1 h2.ne_eof).append (gram_track h3)
  | _, _, _, _, .noUnary h => gram_track h
  | _, _, _, _, .postfix h _ => chain_track h
  | _, _, _, _, .lit h1 h2 => by
    rw [places]
    exact Track.lex h1 h2.ne_eof
  | _, _, _, _, .dstring h1 _ h2 => by
    rw [places]
    exact Track.text h1.suf h2 (by simp)
  | _, _, _, _, .sstring h1 _ h2 _ => by
    rw [places]
    exact Track.text h1.suf h2 (by simp)
  | _, _, _, _, .list h1 h2 => by
    rw [places]
    exact (Track.mark h1 (by simp)).append (args_track h2)
  | _, _, _, _, .paren h1 h2 h3 => by
    rw [places]
    exact ((Track.mark h1 (by simp)).append (gram_track h2)).right h3.suf
  | _, _, _, _, .dict h1 _ h2 => by
    rw [places]
    exact (Track.mark h1 (by simp)).append (pairs_track h2)
  | _, _, _, _, .litdict h1 _ h2 => by
    rw [places]
    exact (Track.mark h1 (by simp)).append (pairs_track h2)
  | _, _, _, _, .lambda h1 h2 h3 h4 => by
    rw [places]
    exact (((h1.elim (fun h => Track.mark h (by simp)) (fun h => Track.mark h (by simp))).append
      (lamParams_track h2)).append (gram_track h3)).right h4.suf
  | _, _, _, _, .name h1 _ h2 _ => by
    refine nameNode_track h1.suf (parts_track h2) ?_
    rintro q v rfl
    cases h2
    rfl
  | _, _, _, _, .sid (ps := ps) h1 h2 h3 h4 => by
    refine nameNode_track h1.suf ?_ ?_
    · rw [placesL, places]
      refine (Track.text (List.suffix_refl _) h2 ?_).append (parts_track h4)
      rintro rfl
      cases h3
    · rintro q v h
      cases h
      rfl

theorem chain_track : ∀ {k r e r'}, Chain env fn k r e r' → Track env fn s r (places (!s) e) r'
  | _, _, _, _, .one _ h => gram_track h
  | _, _, _, _, .op _ h1 h2 h3 h4 => by
    rw [places]
    exact ((chain_track h1).append (.lex h2 h3.ne_eof)).append (gram_track h4)
  | _, _, _, _, .subscript h1 _ h2 h3 h4 => by
    rw [places]
    exact (((chain_track h1).append (.mark h2 (by simp))).append (gram_track h3)).right h4.suf
  | _, _, _, _, .slice h1 _ h2 h3 h4 h5 h6 => by
    rw [places]
    exact ((((chain_track h1).append (.mark h2 (by simp))).append (opt_track h3)).append
      ((opt_track h5).left h4.suf)).right h6.suf
  | _, _, _, _, .method h1 h2 h3 h4 h5 _ => by
    rw [places]
    exact (((chain_track h1).append ((gram_track h3).left h2.suf)).append (.mark h4 (by simp))).append
      (args_track h5)
  | _, _, _, _, .call h1 h2 h3 _ => by
    rw [places]
    exact ((chain_track h1).append (.mark h2 (by simp))).append (args_track h3)
  | _, _, _, _, .dot h1 _ _ h2 h3 => by
    rw [places]
    exact (chain_track h1).append ((Track.mark h2 (by simp)).append (Track.text (List.suffix_refl _) h3.1 h3.2.1.1))

theorem opt_track : ∀ {r o r'}, Opt env fn r o r' → Track env fn s r (placesO (!s) o) r'
  | _, _, _, .none => by rw [placesO]; exact .refl _
  | _, _, _, .some h => by rw [placesO]; exact gram_track h

theorem args_track : ∀ {c r es r'}, Args env fn c r es r' → Track env fn s r (placesL (!s) es) r'
  | _, _, _, _, .nil h => by rw [placesL]; exact .nil h.suf
  | _, _, _, _, .last h1 h2 => by
    rw [placesL, placesL, List.append_nil]
    exact (gram_track h1).right h2.suf
  | _, _, _, _, .cons h1 h2 h3 => by
    rw [placesL]
    exact (gram_track h1).append ((args_track h3).left h2.suf)

theorem pairs_track : ∀ {lit r kvs r'}, Pairs env fn lit r kvs r' → Track env fn s r (placesP (!s) kvs) r'
  | _, _, _, _, .nil h => by rw [placesP]; exact .nil h.suf
  | _, _, _, _, .last h1 h2 h3 h4 => by
    rw [placesP, placesP, List.append_nil]
    exact ((key_track h1 h2).append (gram_track h3)).right h4.suf
  | _, _, _, _, .cons h1 h2 h3 h4 h5 => by
    rw [placesP]
    exact ((key_track h1 h2).append (gram_track h3)).append ((pairs_track h5).left h4.suf)

theorem key_track : ∀ {lit r k r1}, Key env fn lit r k r1 → ∀ {q r2}, Mark env fn r1 .colon q r2 →
    Track env fn s r (places (!s) k) r2
  | _, _, _, _, .expr h, _, _, hc => (gram_track h).right hc.suf
  | _, _, _, _, .lit h, _, _, hc => litWord_track h hc _

theorem parts_track : ∀ {r ps r'}, NameParts env fn r ps r' → Track env fn s r (placesL (!s) ps) r'
  | _, _, _, .nil _ _ => by rw [placesL]; exact .refl _
  | _, _, _, .text h1 h2 _ h3 => by
    rw [placesL, places]
    exact (Track.text (List.suffix_refl _) h1 h2.1).append (parts_track h3)
  | _, _, _, .expr h1 h2 h3 h4 h5 => by
    rw [placesL, places]
    have h6 := ((gram_track h2).right (h4.suf.trans h3.suf)).append (parts_track h5)
    cases s
    · exact Track.cons h1.suf (by simp) (h6)
    · exact h6.left h1.suf

end

end

end Viml
