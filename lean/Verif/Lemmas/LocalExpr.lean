/-
Errors of expressions in the first lines of a file (`Local.lean`).
-/
import Verif.Lemmas.Local

namespace Viml
open Spec Ast

variable {env env' : Env} {fn : Str} {κ : Cutter env env' fn} {r r' : List Cell}

theorem blobOdd_cut (κ : Cutter env env' fn) {s : Str} (i : κ.In r) (h : BlobOdd s r) : BlobOdd s (κ.tr r) := by
  induction h with
  | stop a b r h1 h2 h3 h4 => exact .stop a b _ (ft κ i h1) (by rw [Carry.after i h1]; exact h2) h3 h4
  | pair a b s r h1 h2 _ ih => exact .pair a b s _ h1 h2 (ih i)
  | dot s r h1 _ ih => exact .dot s _ (by rw [Carry.nextSym i]; exact h1) (ih i)

theorem ctLexErr (κ : Cutter env env' fn) {m q} (h : LexErr env r m q) (i : κ.In r) : LexErr env' (κ.tr r) m q := by
  cases h with
  | char w _ r1 c h1 h2 h3 h4 =>
    obtain ⟨j, c1⟩ := fw κ i h1
    rw [← κ.posOf j]
    exact .char w _ _ c c1 h2 (ft κ j h3) h4
  | blob w _ r1 z s r2 a b h1 h2 h3 h4 h5 h6 h7 h8 =>
    obtain ⟨j, c1⟩ := fw κ i h1
    obtain ⟨j2, c4⟩ := fw κ j h4
    rw [← κ.posOf j2]
    exact .blob w _ _ z s _ a b c1 h2 h3 c4 (by rw [Carry.nextSym j2]; exact h5) (blobOdd_cut κ j2 h6)
      (ft κ j2 h7) (by rw [Carry.after j2 h7]; exact h8)

instance {m q} : Fe κ (LexErr env r m q) r (LexErr env' (κ.tr r) m q) q := ⟨fun i h => .inl (ctLexErr κ h i)⟩

theorem ctWant (κ : Cutter env env' fn) : ∀ {r p m q}, Want env r p m q → κ.In r →
    Want env' (κ.tr r) p m q ∨ κ.Out q
  | _, _, _, _, .lex h1, i => by
    refine Or.elim (fe κ (by assumption) h1) (fun c1 => ?_) Or.inr
    carried (.lex c1)
  | _, _, _, _, .token h1 h2, i => by
    obtain ⟨c1, j1⟩ := κ.lexFw (by assumption) h1
    try (refine (fun j1 => ?_) (j1 ?_); rotate_left; (· no_eol))
    carried (.token c1 h2)

instance {r p m q} : Fe κ (Want env r p m q) r
    (Want env' (κ.tr r) p m q) q := ⟨fun i h => ctWant κ h i⟩

instance {used : List Str} {v : Str} : Fw κ (LamParam env used r v r') r r' (LamParam env' used (κ.tr r) v (κ.tr r')) := ⟨by
  rintro i ⟨t, h1, h2⟩
  obtain ⟨c1, j⟩ := κ.lexFw i h1
  exact ⟨j (by rw [h2.1]; simp), _, c1, h2⟩⟩

theorem ctLamErr (κ : Cutter env env' fn) : ∀ {used r m q}, LamErr env used r m q → κ.In r →
    LamErr env' used (κ.tr r) m q ∨ κ.Out q
  | _, _, _, _, .lex h1, i => by
    refine Or.elim (fe κ (by assumption) h1) (fun c1 => ?_) Or.inr
    carried (.lex c1)
  | _, _, _, _, .illegal h1 h2 h3, i => by
    obtain ⟨c1, j1⟩ := κ.lexFw (by assumption) h1
    try (refine (fun j1 => ?_) (j1 ?_); rotate_left; (· no_eol))
    carried (.illegal c1 h2 h3)
  | _, _, _, _, .twice h1 h2 h3 h4, i => by
    obtain ⟨c1, j1⟩ := κ.lexFw (by assumption) h1
    try (refine (fun j1 => ?_) (j1 ?_); rotate_left; (· no_eol))
    carried (.twice c1 h2 h3 h4)
  | _, _, _, _, .white h1 h2 h3, i => by
    obtain ⟨_, c1⟩ := fw κ (by assumption) h1
    have c2 := ft κ (by assumption) h2
    have c3 := ft κ (by assumption) h3
    carried (.white c1 c2 c3)
  | _, _, _, _, .afterLex h1 h2, i => by
    obtain ⟨_, c1⟩ := fw κ (by assumption) h1
    refine Or.elim (fe κ (by assumption) h2) (fun c2 => ?_) Or.inr
    carried (.afterLex c1 c2)
  | _, _, _, _, .after h1 h2 h3 h4, i => by
    obtain ⟨_, c1⟩ := fw κ (by assumption) h1
    obtain ⟨c2, j2⟩ := κ.lexFw (by assumption) h2
    try (refine (fun j2 => ?_) (j2 ?_); rotate_left; (· no_eol))
    carried (.after c1 c2 h3 h4)
  | _, _, _, _, .more h1 h2 h3 h4 h5, i => by
    obtain ⟨_, c1⟩ := fw κ (by assumption) h1
    have c2 := ft κ (by assumption) h2
    obtain ⟨c3, j3⟩ := κ.lexFw (by assumption) h3
    try (refine (fun j3 => ?_) (j3 ?_); rotate_left; (· no_eol))
    refine Or.elim (ctLamErr κ h5 (by assumption)) (fun c5 => ?_) Or.inr
    carried (.more c1 c2 c3 h4 c5)
  | _, _, _, _, .dots h1 h2 h3, i => by
    obtain ⟨c1, j1⟩ := κ.lexFw (by assumption) h1
    try (refine (fun j1 => ?_) (j1 ?_); rotate_left; (· no_eol))
    refine Or.elim (fe κ (by assumption) h3) (fun c3 => ?_) Or.inr
    carried (.dots c1 h2 c3)

instance {used r m q} : Fe κ (LamErr env used r m q) r
    (LamErr env' used (κ.tr r) m q) q := ⟨fun i h => ctLamErr κ h i⟩

theorem ctStrays (κ : Cutter env env' fn) : ∀ {used r}, Strays env used r → κ.In r → Strays env' used (κ.tr r)
  | _, _, .stop h1 h2 h3 h4 h5, i => by
    obtain ⟨_, c1⟩ := fw κ (by assumption) h1
    have c2 := ft κ (by assumption) h2
    obtain ⟨c3, j3⟩ := κ.lexFw (by assumption) h3
    have j3 := j3 (by no_eol)
    exact .stop c1 c2 c3 h4 (ft κ j3 h5)
  | _, _, .more h1 h2 h3 h4 h5, i => by
    obtain ⟨_, c1⟩ := fw κ (by assumption) h1
    have c2 := ft κ (by assumption) h2
    obtain ⟨c3, j3⟩ := κ.lexFw (by assumption) h3
    have j3 := j3 (by no_eol)
    exact .more c1 c2 c3 h4 (ctStrays κ h5 j3)

instance {used : List Str} : Ft κ (Strays env used r) r (Strays env' used (κ.tr r)) := ⟨fun i h => ctStrays κ h i⟩

instance : Ft κ (LooksLambda env r) r (LooksLambda env' (κ.tr r)) := ⟨by
  rintro i ⟨t, r1, h1, h2, h3⟩
  obtain ⟨c1, j⟩ := κ.lexFw i h1
  exact ⟨_, _, c1, h2, ft κ (j (by rcases h2 with h2 | h2 <;> simp [h2])) h3⟩⟩

instance {lit : Bool} : Fw κ (Brace env r lit r') r r' (Brace env' (κ.tr r) lit (κ.tr r')) := ⟨by
  rintro i ⟨t, h1, h2⟩
  obtain ⟨c1, j⟩ := κ.lexFw i h1
  exact ⟨j (by rw [h2]; cases lit <;> simp), _, c1, h2⟩⟩

theorem ctLitErr (κ : Cutter env env' fn) : ∀ {r m q}, LitErr env r m q → κ.In r →
    LitErr env' (κ.tr r) m q ∨ κ.Out q
  | _, _, _, .start h1 h2, i => by
    obtain ⟨j, c1⟩ := fw κ i h1
    have c2 := ft κ j h2
    refine .inl ?_
    rw [← κ.posOf j, ← Carry.head j]
    exact .start c1 c2
  | _, _, _, .stop h1 h2 h3 h4, i => by
    obtain ⟨_, c1⟩ := fw κ (by assumption) h1
    obtain ⟨_, c2⟩ := fw κ (by assumption) h2
    have c4 := ft κ (by assumption) h4
    carried (.stop c1 c2 h3 c4)

instance {r m q} : Fe κ (LitErr env r m q) r
    (LitErr env' (κ.tr r) m q) q := ⟨fun i h => ctLitErr κ h i⟩

instance {lit : Bool} : Fw κ (WholeKey env fn lit r r') r r' (WholeKey env' fn lit (κ.tr r) (κ.tr r')) := ⟨by
  rintro i ⟨k, h1, h2⟩
  obtain ⟨j, c1⟩ := fw κ i h1
  refine ⟨j, _, c1, fun h => ?_⟩
  obtain ⟨c, h3, h4⟩ := h2 h
  exact ⟨c, ft κ j h3, h4⟩⟩

theorem ctCounted (κ : Cutter env env' fn) : ∀ {n r q}, Counted env fn n r q → κ.In r →
    Counted env' fn n (κ.tr r) q ∨ κ.Out q
  | _, _, _, .last h1 h2 h3, i => by
    obtain ⟨_, c1⟩ := fw κ (by assumption) h1
    obtain ⟨c2, j2⟩ := κ.lexFw (by assumption) h2
    try (refine (fun j2 => ?_) (j2 ?_); rotate_left; (· no_eol))
    carried (.last c1 c2 h3)
  | _, _, _, .comma h1 h2 h3 h4, i => by
    obtain ⟨_, c1⟩ := fw κ (by assumption) h1
    obtain ⟨c2, j2⟩ := κ.lexFw (by assumption) h2
    try (refine (fun j2 => ?_) (j2 ?_); rotate_left; (· no_eol))
    have c4 := ft κ (by assumption) h4
    carried (.comma c1 c2 h3 c4)
  | _, _, _, .more h1 h2 h3 h4, i => by
    obtain ⟨_, c1⟩ := fw κ (by assumption) h1
    obtain ⟨c2, j2⟩ := κ.lexFw (by assumption) h2
    try (refine (fun j2 => ?_) (j2 ?_); rotate_left; (· no_eol))
    refine Or.elim (ctCounted κ h4 (by assumption)) (fun c4 => ?_) Or.inr
    carried (.more c1 c2 h3 c4)

instance {n r q} : Fe κ (Counted env fn n r q) r
    (Counted env' fn n (κ.tr r) q) q := ⟨fun i h => ctCounted κ h i⟩

theorem operand_cut (κ : Cutter env env' fn) {ty : TT} (i : ty ≠ .eol → κ.In r) (h : Operand ty (κ.tr r)) : Operand ty r := by
  rcases h with h | h | h | h | h | h | h | h | ⟨h, v, s, h1, h2⟩
  · exact .inl h
  · exact .inr (.inl h)
  · exact .inr (.inr (.inl h))
  · exact .inr (.inr (.inr (.inl h)))
  · exact .inr (.inr (.inr (.inr (.inl h))))
  · exact .inr (.inr (.inr (.inr (.inr (.inl h)))))
  · exact .inr (.inr (.inr (.inr (.inr (.inr (.inl h))))))
  · exact .inr (.inr (.inr (.inr (.inr (.inr (.inr (.inl h)))))))
  · obtain ⟨r', h3, _⟩ := Carry.reads_back (i (by simp [h])) h1
    exact .inr (.inr (.inr (.inr (.inr (.inr (.inr (.inr ⟨h, v, r', h3, h2⟩)))))))

theorem noUnary_cut (κ : Cutter env env' fn) (i : κ.In r) (h : ∀ t r1 op, Lex env r t r1 → ¬ IsUn t.ty op) :
    ∀ t r1 op, Lex env' (κ.tr r) t r1 → ¬ IsUn t.ty op := by
  intro t r1 op hl hu
  cases hl with
  | eof => cases hu
  | eol => cases hu
  | text w _ s1 ty v _ h1 h2 h3 h4 =>
    obtain ⟨a, h5, i1, rfl⟩ := Carry.reads_back i h1
    obtain ⟨b, h6, i2, rfl⟩ := Carry.reads_back i1 h3
    exact h _ _ _ (.text w _ _ ty v _ h5 h2 h6 (Carry.lexeme_back i2 h4)) hu

mutual

theorem ctGErr (κ : Cutter env env' fn) : ∀ {k r m q}, GErr env fn k r m q → κ.In r →
    GErr env' fn k (κ.tr r) m q ∨ κ.Out q
  | _, _, _, _, .first h1 h2 h3 h4, i => by
    refine Or.elim (ctGErr κ h4 (by assumption)) (fun c4 => ?_) Or.inr
    carried (.first h1 h2 h3 c4)
  | _, _, _, _, .noOp1 h1 h2, i => by
    obtain ⟨_, c1⟩ := fw κ (by assumption) h1
    refine Or.elim (fe κ (by assumption) h2) (fun c2 => ?_) Or.inr
    carried (.noOp1 c1 c2)
  | _, _, _, _, .thenPart h1 h2 h3, i => by
    obtain ⟨_, c1⟩ := fw κ (by assumption) h1
    obtain ⟨_, c2⟩ := Carry.mark (κ := κ.κ) (by assumption) h2
    refine Or.elim (ctGErr κ h3 (by assumption)) (fun c3 => ?_) Or.inr
    carried (.thenPart c1 c2 c3)
  | _, _, _, _, .colon h1 h2 h3 h4, i => by
    obtain ⟨_, c1⟩ := fw κ (by assumption) h1
    obtain ⟨_, c2⟩ := Carry.mark (κ := κ.κ) (by assumption) h2
    obtain ⟨_, c3⟩ := fw κ (by assumption) h3
    refine Or.elim (fe κ (by assumption) h4) (fun c4 => ?_) Or.inr
    carried (.colon c1 c2 c3 c4)
  | _, _, _, _, .elsePart h1 h2 h3 h4 h5, i => by
    obtain ⟨_, c1⟩ := fw κ (by assumption) h1
    obtain ⟨_, c2⟩ := Carry.mark (κ := κ.κ) (by assumption) h2
    obtain ⟨_, c3⟩ := fw κ (by assumption) h3
    obtain ⟨_, c4⟩ := Carry.mark (κ := κ.κ) (by assumption) h4
    refine Or.elim (ctGErr κ h5 (by assumption)) (fun c5 => ?_) Or.inr
    carried (.elsePart c1 c2 c3 c4 c5)
  | _, _, _, _, .noOp h1 h2 h3, i => by
    obtain ⟨_, c2⟩ := fw κ (by assumption) h2
    refine Or.elim (fe κ (by assumption) h3) (fun c3 => ?_) Or.inr
    carried (.noOp h1 c2 c3)
  | _, _, _, _, .right h1 h2 h3 h4 h5, i => by
    obtain ⟨_, c2⟩ := fw κ (by assumption) h2
    obtain ⟨c3, j3⟩ := κ.lexFw (by assumption) h3
    try (refine (fun j3 => ?_) (j3 ?_); rotate_left; (· no_eol))
    refine Or.elim (ctGErr κ h5 (by assumption)) (fun c5 => ?_) Or.inr
    carried (.right h1 c2 c3 h4 c5)
  | _, _, _, _, .noOp4 h1 h2, i => by
    obtain ⟨_, c1⟩ := fw κ (by assumption) h1
    refine Or.elim (fe κ (by assumption) h2) (fun c2 => ?_) Or.inr
    carried (.noOp4 c1 c2)
  | _, _, _, _, .right4 h1 h2 h3 h4, i => by
    obtain ⟨_, c1⟩ := fw κ (by assumption) h1
    obtain ⟨c2, j2⟩ := κ.lexFw (by assumption) h2
    try (refine (fun j2 => ?_) (j2 ?_); rotate_left; (· no_eol))
    refine Or.elim (ctGErr κ h4 (by assumption)) (fun c4 => ?_) Or.inr
    carried (.right4 c1 c2 h3 c4)
  | _, _, _, _, .unary h1 h2 h3, i => by
    obtain ⟨c1, j1⟩ := κ.lexFw (by assumption) h1
    try (refine (fun j1 => ?_) (j1 ?_); rotate_left; (· no_eol))
    refine Or.elim (ctGErr κ h3 (by assumption)) (fun c3 => ?_) Or.inr
    carried (.unary c1 h2 c3)
  | _, _, _, _, .noUnary h1 h2, i => by
    refine Or.elim (ctGErr κ h2 i) (fun c2 => ?_) Or.inr
    carried (.noUnary (noUnary_cut κ i h1) c2)
  | _, _, _, _, .subscript h1 h2 h3 h4, i => by
    obtain ⟨_, c1⟩ := fw κ (by assumption) h1
    have c2 := ft κ (by assumption) h2
    obtain ⟨_, c3⟩ := Carry.mark (κ := κ.κ) (by assumption) h3
    refine Or.elim (ctSubErr κ h4 (by assumption)) (fun c4 => ?_) Or.inr
    carried (.subscript c1 c2 c3 c4)
  | _, _, _, _, .call h1 h2 h3, i => by
    obtain ⟨_, c1⟩ := fw κ (by assumption) h1
    obtain ⟨_, c2⟩ := Carry.mark (κ := κ.κ) (by assumption) h2
    refine Or.elim (ctCallErr κ h3 (by assumption)) (fun c3 => ?_) Or.inr
    carried (.call c1 c2 c3)
  | _, _, _, _, .callee h1 h2 h3, i => by
    obtain ⟨_, c1⟩ := fw κ (by assumption) h1
    obtain ⟨_, c2⟩ := Carry.mark (κ := κ.κ) (by assumption) h2
    refine Or.elim (ctGErr κ h3 (by assumption)) (fun c3 => ?_) Or.inr
    carried (.callee c1 c2 c3)
  | _, _, _, _, .noCallLex h1 h2 h3 h4, i => by
    obtain ⟨_, c1⟩ := fw κ (by assumption) h1
    obtain ⟨_, c2⟩ := Carry.mark (κ := κ.κ) (by assumption) h2
    obtain ⟨_, c3⟩ := fw κ (by assumption) h3
    refine Or.elim (fe κ (by assumption) h4) (fun c4 => ?_) Or.inr
    carried (.noCallLex c1 c2 c3 c4)
  | _, _, _, _, .noCall h1 h2 h3 h4 h5, i => by
    obtain ⟨_, c1⟩ := fw κ (by assumption) h1
    obtain ⟨_, c2⟩ := Carry.mark (κ := κ.κ) (by assumption) h2
    obtain ⟨_, c3⟩ := fw κ (by assumption) h3
    obtain ⟨c4, j4⟩ := κ.lexFw (by assumption) h4
    try (refine (fun j4 => ?_) (j4 ?_); rotate_left; (· no_eol))
    carried (.noCall c1 c2 c3 c4 h5)
  | _, _, _, _, .method h1 h2 h3 h4 h5, i => by
    obtain ⟨_, c1⟩ := fw κ (by assumption) h1
    obtain ⟨_, c2⟩ := Carry.mark (κ := κ.κ) (by assumption) h2
    obtain ⟨_, c3⟩ := fw κ (by assumption) h3
    obtain ⟨_, c4⟩ := Carry.mark (κ := κ.κ) (by assumption) h4
    refine Or.elim (ctCallErr κ h5 (by assumption)) (fun c5 => ?_) Or.inr
    carried (.method c1 c2 c3 c4 c5)
  | _, _, _, _, .lex h1, i => by
    refine Or.elim (fe κ (by assumption) h1) (fun c1 => ?_) Or.inr
    carried (.lex c1)
  | _, _, _, _, .operand h1 h2, i => by
    obtain ⟨c1, j⟩ := κ.lexFw i h1
    carried (.operand c1 fun h => h2 (operand_cut κ j h))
  | _, _, _, _, .dstring h1 h2 h3 h4, i => by
    obtain ⟨_, c1⟩ := fw κ (by assumption) h1
    obtain ⟨_, c3⟩ := fw κ (by assumption) h3
    have c4 := ft κ (by assumption) h4
    carried (.dstring c1 h2 c3 c4)
  | _, _, _, _, .escape h1 h2 h3 h4, i => by
    obtain ⟨_, c1⟩ := fw κ (by assumption) h1
    obtain ⟨_, c3⟩ := fw κ (by assumption) h3
    have c4 := ft κ (by assumption) h4
    carried (.escape c1 h2 c3 c4)
  | _, _, _, _, .sstring h1 h2 h3 h4, i => by
    obtain ⟨_, c1⟩ := fw κ (by assumption) h1
    obtain ⟨_, c3⟩ := fw κ (by assumption) h3
    have c4 := ft κ (by assumption) h4
    carried (.sstring c1 h2 c3 c4)
  | _, _, _, _, .list h1 h2, i => by
    obtain ⟨_, c1⟩ := Carry.mark (κ := κ.κ) (by assumption) h1
    refine Or.elim (ctArgsErr κ h2 (by assumption)) (fun c2 => ?_) Or.inr
    carried (.list c1 c2)
  | _, _, _, _, .paren h1 h2, i => by
    obtain ⟨_, c1⟩ := Carry.mark (κ := κ.κ) (by assumption) h1
    refine Or.elim (ctGErr κ h2 (by assumption)) (fun c2 => ?_) Or.inr
    carried (.paren c1 c2)
  | _, _, _, _, .parenEnd h1 h2 h3, i => by
    obtain ⟨_, c1⟩ := Carry.mark (κ := κ.κ) (by assumption) h1
    obtain ⟨_, c2⟩ := fw κ (by assumption) h2
    refine Or.elim (fe κ (by assumption) h3) (fun c3 => ?_) Or.inr
    carried (.parenEnd c1 c2 c3)
  | _, _, _, _, .name h1 h2 h3, i => by
    have c1 := ft κ (by assumption) h1
    obtain ⟨_, c2⟩ := fw κ (by assumption) h2
    refine Or.elim (ctNameErr κ h3 (by assumption)) (fun c3 => ?_) Or.inr
    carried (.name c1 c2 c3)
  | _, _, _, _, .sid h1 h2 h3 h4, i => by
    obtain ⟨_, c1⟩ := fw κ (by assumption) h1
    obtain ⟨_, c2⟩ := fw κ (by assumption) h2
    refine Or.elim (ctNameErr κ h4 (by assumption)) (fun c4 => ?_) Or.inr
    carried (.sid c1 c2 h3 c4)
  | _, _, _, _, .brace h1 h2, i => by
    obtain ⟨_, c1⟩ := fw κ (by assumption) h1
    refine Or.elim (ctBraceErr κ h2 (by assumption)) (fun c2 => ?_) Or.inr
    carried (.brace c1 c2)
  | _, _, _, _, .curly h1 h2 h3 h4 h5 h6, i => by
    obtain ⟨_, c1⟩ := fw κ (by assumption) h1
    have c2 := ft κ (by assumption) h2
    obtain ⟨_, c3⟩ := fw κ (by assumption) h3
    obtain ⟨_, c4⟩ := Carry.mark (κ := κ.κ) (by assumption) h4
    obtain ⟨_, c5⟩ := fw κ (by assumption) h5
    refine Or.elim (ctNameErr κ h6 (by assumption)) (fun c6 => ?_) Or.inr
    carried (.curly c1 c2 c3 c4 c5 c6)

theorem ctSubErr (κ : Cutter env env' fn) : ∀ {r m q}, SubErr env fn r m q → κ.In r →
    SubErr env' fn (κ.tr r) m q ∨ κ.Out q
  | _, _, _, .lex h1, i => by
    refine Or.elim (fe κ (by assumption) h1) (fun c1 => ?_) Or.inr
    carried (.lex c1)
  | _, _, _, .upper h1 h2, i => by
    obtain ⟨_, c1⟩ := Carry.mark (κ := κ.κ) (by assumption) h1
    refine Or.elim (ctUpperErr κ h2 (by assumption)) (fun c2 => ?_) Or.inr
    carried (.upper c1 c2)
  | _, _, _, .index h1 h2, i => by
    have c1 := ft κ (by assumption) h1
    refine Or.elim (ctGErr κ h2 (by assumption)) (fun c2 => ?_) Or.inr
    carried (.index c1 c2)
  | _, _, _, .close h1 h2, i => by
    obtain ⟨_, c1⟩ := fw κ (by assumption) h1
    refine Or.elim (fe κ (by assumption) h2) (fun c2 => ?_) Or.inr
    carried (.close c1 c2)
  | _, _, _, .both h1 h2 h3, i => by
    obtain ⟨_, c1⟩ := fw κ (by assumption) h1
    obtain ⟨_, c2⟩ := Carry.mark (κ := κ.κ) (by assumption) h2
    refine Or.elim (ctUpperErr κ h3 (by assumption)) (fun c3 => ?_) Or.inr
    carried (.both c1 c2 c3)

theorem ctUpperErr (κ : Cutter env env' fn) : ∀ {r m q}, UpperErr env fn r m q → κ.In r →
    UpperErr env' fn (κ.tr r) m q ∨ κ.Out q
  | _, _, _, .lex h1, i => by
    refine Or.elim (fe κ (by assumption) h1) (fun c1 => ?_) Or.inr
    carried (.lex c1)
  | _, _, _, .expr h1 h2, i => by
    have c1 := ft κ (by assumption) h1
    refine Or.elim (ctGErr κ h2 (by assumption)) (fun c2 => ?_) Or.inr
    carried (.expr c1 c2)
  | _, _, _, .close h1 h2, i => by
    obtain ⟨_, c1⟩ := fw κ (by assumption) h1
    refine Or.elim (fe κ (by assumption) h2) (fun c2 => ?_) Or.inr
    carried (.close c1 c2)

theorem ctCallErr (κ : Cutter env env' fn) : ∀ {r m q}, CallErr env fn r m q → κ.In r →
    CallErr env' fn (κ.tr r) m q ∨ κ.Out q
  | _, _, _, .args h1, i => by
    refine Or.elim (ctArgsErr κ h1 (by assumption)) (fun c1 => ?_) Or.inr
    carried (.args c1)
  | _, _, _, .tooMany h1 h2, i => by
    refine Or.elim (fe κ (by assumption) h1) (fun c1 => ?_) Or.inr
    carried (.tooMany c1 h2)

theorem ctArgsErr (κ : Cutter env env' fn) : ∀ {c r m q}, ArgsErr env fn c r m q → κ.In r →
    ArgsErr env' fn c (κ.tr r) m q ∨ κ.Out q
  | _, _, _, _, .lex h1, i => by
    refine Or.elim (fe κ (by assumption) h1) (fun c1 => ?_) Or.inr
    carried (.lex c1)
  | _, _, _, _, .item h1 h2, i => by
    have c1 := ft κ (by assumption) h1
    refine Or.elim (ctItemErr κ h2 (by assumption)) (fun c2 => ?_) Or.inr
    carried (.item c1 c2)

theorem ctItemErr (κ : Cutter env env' fn) : ∀ {c r m q}, ItemErr env fn c r m q → κ.In r →
    ItemErr env' fn c (κ.tr r) m q ∨ κ.Out q
  | _, _, _, _, .expr h1, i => by
    refine Or.elim (ctGErr κ h1 (by assumption)) (fun c1 => ?_) Or.inr
    carried (.expr c1)
  | _, _, _, _, .close h1 h2, i => by
    obtain ⟨_, c1⟩ := fw κ (by assumption) h1
    refine Or.elim (fe κ (by assumption) h2) (fun c2 => ?_) Or.inr
    carried (.close c1 c2)
  | _, _, _, _, .more h1 h2 h3, i => by
    obtain ⟨_, c1⟩ := fw κ (by assumption) h1
    obtain ⟨_, c2⟩ := Carry.mark (κ := κ.κ) (by assumption) h2
    refine Or.elim (ctArgsErr κ h3 (by assumption)) (fun c3 => ?_) Or.inr
    carried (.more c1 c2 c3)

theorem ctNameErr (κ : Cutter env env' fn) : ∀ {r m q}, NameErr env fn r m q → κ.In r →
    NameErr env' fn (κ.tr r) m q ∨ κ.Out q
  | _, _, _, .text h1 h2 h3 h4, i => by
    obtain ⟨_, c1⟩ := fw κ (by assumption) h1
    have c3 := ft κ (by assumption) h3
    refine Or.elim (ctNameErr κ h4 (by assumption)) (fun c4 => ?_) Or.inr
    carried (.text c1 h2 c3 c4)
  | _, _, _, .expr h1 h2, i => by
    obtain ⟨_, c1⟩ := fw κ (by assumption) h1
    refine Or.elim (ctGErr κ h2 (by assumption)) (fun c2 => ?_) Or.inr
    carried (.expr c1 c2)
  | _, _, _, .close h1 h2 h3 h4, i => by
    obtain ⟨_, c1⟩ := fw κ (by assumption) h1
    obtain ⟨_, c2⟩ := fw κ (by assumption) h2
    obtain ⟨j, c3⟩ := fw κ (by assumption) h3
    have c4 := ft κ (by assumption) h4
    refine .inl ?_
    rw [← κ.posOf j, ← Carry.head j]
    exact .close c1 c2 c3 c4
  | _, _, _, .more h1 h2 h3 h4 h5, i => by
    obtain ⟨_, c1⟩ := fw κ (by assumption) h1
    obtain ⟨_, c2⟩ := fw κ (by assumption) h2
    obtain ⟨_, c3⟩ := fw κ (by assumption) h3
    obtain ⟨_, c4⟩ := fw κ (by assumption) h4
    refine Or.elim (ctNameErr κ h5 (by assumption)) (fun c5 => ?_) Or.inr
    carried (.more c1 c2 c3 c4 c5)

theorem ctBraceErr (κ : Cutter env env' fn) : ∀ {lit r m q}, BraceErr env fn lit r m q → κ.In r →
    BraceErr env' fn lit (κ.tr r) m q ∨ κ.Out q
  | _, _, _, _, .lex h1, i => by
    refine Or.elim (fe κ (by assumption) h1) (fun c1 => ?_) Or.inr
    carried (.lex c1)
  | _, _, _, _, .lex2 h1 h2 h3 h4 h5, i => by
    rcases κ.lexTo i h1 with j | rfl
    · refine Or.elim (fe κ j h5) (fun c5 => ?_) Or.inr
      carried (.lex2 (κ.lexFw i h1).1 h2 h3 h4 c5)
    · exact .inr (lexErr_at List.suffix_rfl h5)
  | _, _, _, _, .params h1 h2, i => by
    have c1 := ft κ (by assumption) h1
    refine Or.elim (fe κ (by assumption) h2) (fun c2 => ?_) Or.inr
    carried (.params c1 c2)
  | _, _, _, _, .body h1 h2, i => by
    obtain ⟨_, c1⟩ := fw κ (by assumption) h1
    refine Or.elim (ctGErr κ h2 (by assumption)) (fun c2 => ?_) Or.inr
    carried (.body c1 c2)
  | _, _, _, _, .close h1 h2 h3, i => by
    obtain ⟨_, c1⟩ := fw κ (by assumption) h1
    obtain ⟨_, c2⟩ := fw κ (by assumption) h2
    refine Or.elim (fe κ (by assumption) h3) (fun c3 => ?_) Or.inr
    carried (.close c1 c2 c3)
  | _, _, _, _, .pairs h1 h2, i => by
    have c1 := ft κ (by assumption) h1
    refine Or.elim (ctPairsErr κ h2 (by assumption)) (fun c2 => ?_) Or.inr
    carried (.pairs c1 c2)

theorem ctPairsErr (κ : Cutter env env' fn) : ∀ {lit first r m q}, PairsErr env fn lit first r m q → κ.In r →
    PairsErr env' fn lit first (κ.tr r) m q ∨ κ.Out q
  | _, _, _, _, _, .lex h1, i => by
    refine Or.elim (fe κ (by assumption) h1) (fun c1 => ?_) Or.inr
    carried (.lex c1)
  | _, _, _, _, _, .pair h1 h2, i => by
    have c1 := ft κ (by assumption) h1
    refine Or.elim (ctPairErr κ h2 (by assumption)) (fun c2 => ?_) Or.inr
    carried (.pair c1 c2)

theorem ctPairErr (κ : Cutter env env' fn) : ∀ {lit first r m q}, PairErr env fn lit first r m q → κ.In r →
    PairErr env' fn lit first (κ.tr r) m q ∨ κ.Out q
  | _, _, _, _, _, .key h1, i => by
    refine Or.elim (ctGErr κ h1 (by assumption)) (fun c1 => ?_) Or.inr
    carried (.key c1)
  | _, _, _, _, _, .litKey h1, i => by
    refine Or.elim (fe κ (by assumption) h1) (fun c1 => ?_) Or.inr
    carried (.litKey c1)
  | _, _, _, _, _, .colon h1 h2, i => by
    obtain ⟨_, c1⟩ := fw κ (by assumption) h1
    refine Or.elim (fe κ (by assumption) h2) (fun c2 => ?_) Or.inr
    carried (.colon c1 c2)
  | _, _, _, _, _, .value h1 h2 h3, i => by
    obtain ⟨_, c1⟩ := fw κ (by assumption) h1
    obtain ⟨_, c2⟩ := Carry.mark (κ := κ.κ) (by assumption) h2
    refine Or.elim (ctGErr κ h3 (by assumption)) (fun c3 => ?_) Or.inr
    carried (.value c1 c2 c3)
  | _, _, _, _, _, .close h1 h2 h3 h4, i => by
    obtain ⟨_, c1⟩ := fw κ (by assumption) h1
    obtain ⟨_, c2⟩ := Carry.mark (κ := κ.κ) (by assumption) h2
    obtain ⟨_, c3⟩ := fw κ (by assumption) h3
    refine Or.elim (fe κ (by assumption) h4) (fun c4 => ?_) Or.inr
    carried (.close c1 c2 c3 c4)
  | _, _, _, _, _, .more h1 h2 h3 h4 h5, i => by
    obtain ⟨_, c1⟩ := fw κ (by assumption) h1
    obtain ⟨_, c2⟩ := Carry.mark (κ := κ.κ) (by assumption) h2
    obtain ⟨_, c3⟩ := fw κ (by assumption) h3
    obtain ⟨_, c4⟩ := Carry.mark (κ := κ.κ) (by assumption) h4
    refine Or.elim (ctPairsErr κ h5 (by assumption)) (fun c5 => ?_) Or.inr
    carried (.more c1 c2 c3 c4 c5)

end

instance {k r m q} : Fe κ (GErr env fn k r m q) r
    (GErr env' fn k (κ.tr r) m q) q := ⟨fun i h => ctGErr κ h i⟩
instance {r m q} : Fe κ (SubErr env fn r m q) r
    (SubErr env' fn (κ.tr r) m q) q := ⟨fun i h => ctSubErr κ h i⟩
instance {r m q} : Fe κ (UpperErr env fn r m q) r
    (UpperErr env' fn (κ.tr r) m q) q := ⟨fun i h => ctUpperErr κ h i⟩
instance {r m q} : Fe κ (CallErr env fn r m q) r
    (CallErr env' fn (κ.tr r) m q) q := ⟨fun i h => ctCallErr κ h i⟩
instance {c r m q} : Fe κ (ArgsErr env fn c r m q) r
    (ArgsErr env' fn c (κ.tr r) m q) q := ⟨fun i h => ctArgsErr κ h i⟩
instance {c r m q} : Fe κ (ItemErr env fn c r m q) r
    (ItemErr env' fn c (κ.tr r) m q) q := ⟨fun i h => ctItemErr κ h i⟩
instance {r m q} : Fe κ (NameErr env fn r m q) r
    (NameErr env' fn (κ.tr r) m q) q := ⟨fun i h => ctNameErr κ h i⟩
instance {lit r m q} : Fe κ (BraceErr env fn lit r m q) r
    (BraceErr env' fn lit (κ.tr r) m q) q := ⟨fun i h => ctBraceErr κ h i⟩
instance {lit first r m q} : Fe κ (PairsErr env fn lit first r m q) r
    (PairsErr env' fn lit first (κ.tr r) m q) q := ⟨fun i h => ctPairsErr κ h i⟩
instance {lit first r m q} : Fe κ (PairErr env fn lit first r m q) r
    (PairErr env' fn lit first (κ.tr r) m q) q := ⟨fun i h => ctPairErr κ h i⟩

end Viml
