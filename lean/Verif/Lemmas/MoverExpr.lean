/-
Moving the errors of expressions (`Mover.lean`).
-/
import Verif.Lemmas.Mover

namespace Viml
open Spec Ast

variable {env env' : Env} {fn : Str} {μ : Mover env env' fn} {r r' : List Cell}

theorem blobOdd_mv (μ : Mover env env' fn) {s : Str} (h : BlobOdd s r) : BlobOdd s (μ.tr r) := by
  induction h with
  | stop a b r h1 h2 h3 h4 => exact .stop a b _ (mv μ h1) (by rw [μ.tail]; exact mv μ h2) h3 h4
  | pair a b s r h1 h2 _ ih => exact .pair a b s _ h1 h2 ih
  | dot s r h1 _ ih => exact .dot s _ (by rw [Carry.nextSym (μ.all r)]; exact h1) ih

theorem mvLexErr (μ : Mover env env' fn) {m q} (h : LexErr env r m q) : LexErr env' (μ.tr r) m (μ.mp q) := by
  cases h with
  | char w _ r1 c h1 h2 h3 h4 => rw [← Mover.posOf]; exact .char w _ _ c (mv μ h1) h2 (mv μ h3) h4
  | blob w _ r1 z s r2 a b h1 h2 h3 h4 h5 h6 h7 h8 =>
    rw [← Mover.posOf]
    exact .blob w _ _ z s _ a b (mv μ h1) h2 h3 (mv μ h4) (by rw [Carry.nextSym (μ.all r2)]; exact h5) (blobOdd_mv μ h6)
      (mv μ h7) (by rw [μ.tail]; exact mv μ h8)

instance {m q} : Mv μ (LexErr env r m q) (LexErr env' (μ.tr r) m (μ.mp q)) := ⟨mvLexErr μ⟩

theorem mvWant (μ : Mover env env' fn) : ∀ {r p m q}, Want env r p m q →
    Want env' (μ.tr r) p m (μ.mp q)
  | _, _, _, _, .lex h1 => .lex (mv μ h1)
  | _, _, _, _, .token h1 h2 => .token (mv μ h1) (mv μ h2)

instance {r p m q} : Mv μ (Want env r p m q)
    (Want env' (μ.tr r) p m (μ.mp q)) := ⟨mvWant μ⟩

instance {used : List Str} {v : Str} : Mv μ (LamParam env used r v r') (LamParam env' used (μ.tr r) v (μ.tr r')) := ⟨by
  rintro ⟨t, h1, h2⟩
  exact ⟨_, mv μ h1, h2⟩⟩

theorem mvLamErr (μ : Mover env env' fn) : ∀ {used r m q}, LamErr env used r m q →
    LamErr env' used (μ.tr r) m (μ.mp q)
  | _, _, _, _, .lex h1 => .lex (mv μ h1)
  | _, _, _, _, .illegal h1 h2 h3 => .illegal (mv μ h1) (mv μ h2) (mv μ h3)
  | _, _, _, _, .twice h1 h2 h3 h4 => .twice (mv μ h1) (mv μ h2) (mv μ h3) (mv μ h4)
  | _, _, _, _, .white h1 h2 h3 => by moved (.white (mv μ h1) (mv μ h2) (mv μ h3))
  | _, _, _, _, .afterLex h1 h2 => .afterLex (mv μ h1) (mv μ h2)
  | _, _, _, _, .after h1 h2 h3 h4 => .after (mv μ h1) (mv μ h2) (mv μ h3) (mv μ h4)
  | _, _, _, _, .more h1 h2 h3 h4 h5 => .more (mv μ h1) (mv μ h2) (mv μ h3) (mv μ h4) (mvLamErr μ h5)
  | _, _, _, _, .dots h1 h2 h3 => .dots (mv μ h1) (mv μ h2) (mv μ h3)

instance {used r m q} : Mv μ (LamErr env used r m q)
    (LamErr env' used (μ.tr r) m (μ.mp q)) := ⟨mvLamErr μ⟩

theorem mvStrays (μ : Mover env env' fn) : ∀ {used r}, Strays env used r →
    Strays env' used (μ.tr r)
  | _, _, .stop h1 h2 h3 h4 h5 => .stop (mv μ h1) (mv μ h2) (mv μ h3) (mv μ h4) (mv μ h5)
  | _, _, .more h1 h2 h3 h4 h5 => .more (mv μ h1) (mv μ h2) (mv μ h3) (mv μ h4) (mvStrays μ h5)

instance {used r} : Mv μ (Strays env used r)
    (Strays env' used (μ.tr r)) := ⟨mvStrays μ⟩

instance : Mv μ (LooksLambda env r) (LooksLambda env' (μ.tr r)) := ⟨by
  rintro ⟨t, r1, h1, h2, h3⟩
  exact ⟨_, _, mv μ h1, h2, mv μ h3⟩⟩

instance {lit : Bool} : Mv μ (Brace env r lit r') (Brace env' (μ.tr r) lit (μ.tr r')) := ⟨by
  rintro ⟨t, h1, h2⟩
  exact ⟨_, mv μ h1, h2⟩⟩

theorem mvLitErr (μ : Mover env env' fn) : ∀ {r m q}, LitErr env r m q →
    LitErr env' (μ.tr r) m (μ.mp q)
  | _, _, _, .start h1 h2 => by
    rw [← Mover.posOf, ← Carry.head (μ.all _)]
    exact .start (mv μ h1) (mv μ h2)
  | _, _, _, .stop h1 h2 h3 h4 => by moved (.stop (mv μ h1) (mv μ h2) (mv μ h3) (mv μ h4))

instance {r m q} : Mv μ (LitErr env r m q)
    (LitErr env' (μ.tr r) m (μ.mp q)) := ⟨mvLitErr μ⟩

instance {lit : Bool} : Mv μ (WholeKey env fn lit r r') (WholeKey env' fn lit (μ.tr r) (μ.tr r')) := ⟨by
  rintro ⟨k, h1, h2⟩
  refine ⟨_, mv μ h1, fun h => ?_⟩
  obtain ⟨c, h3, h4⟩ := h2 h
  exact ⟨c, mv μ h3, h4⟩⟩

theorem mvCounted (μ : Mover env env' fn) : ∀ {n r q}, Counted env fn n r q →
    Counted env' fn n (μ.tr r) (μ.mp q)
  | _, _, _, .last h1 h2 h3 => .last (mv μ h1) (mv μ h2) (mv μ h3)
  | _, _, _, .comma h1 h2 h3 h4 => .comma (mv μ h1) (mv μ h2) (mv μ h3) (mv μ h4)
  | _, _, _, .more h1 h2 h3 h4 => .more (mv μ h1) (mv μ h2) (mv μ h3) (mvCounted μ h4)

instance {n r q} : Mv μ (Counted env fn n r q)
    (Counted env' fn n (μ.tr r) (μ.mp q)) := ⟨mvCounted μ⟩

theorem operand_back (μ : Mover env env' fn) {ty : TT} (h : Operand ty (μ.tr r)) : Operand ty r := by
  rcases h with h | h | h | h | h | h | h | h | ⟨h, v, s, h1, h2⟩
  · exact .inl h
  · exact .inr (.inl h)
  · exact .inr (.inr (.inl h))
  · exact .inr (.inr (.inr (.inl h)))
  · exact .inr (.inr (.inr (.inr (.inl h))))
  · exact .inr (.inr (.inr (.inr (.inr (.inl h)))))
  · exact .inr (.inr (.inr (.inr (.inr (.inr (.inl h))))))
  · exact .inr (.inr (.inr (.inr (.inr (.inr (.inr (.inl h)))))))
  · obtain ⟨r', h3, _⟩ := reads_back μ h1
    exact .inr (.inr (.inr (.inr (.inr (.inr (.inr (.inr ⟨h, v, r', h3, h2⟩)))))))

theorem noUnary_mv (μ : Mover env env' fn) (h : ∀ t r1 op, Lex env r t r1 → ¬ IsUn t.ty op) :
    ∀ t r1 op, Lex env' (μ.tr r) t r1 → ¬ IsUn t.ty op := by
  intro t r1 op hl hu
  obtain ⟨t0, r0, h1, h2, _⟩ := lex_back μ hl
  exact h t0 r0 op h1 (h2 ▸ hu)

mutual

theorem mvGErr (μ : Mover env env' fn) : ∀ {k r m q}, GErr env fn k r m q →
    GErr env' fn k (μ.tr r) m (μ.mp q)
  | _, _, _, _, .first h1 h2 h3 h4 => .first (mv μ h1) (mv μ h2) (mv μ h3) (mvGErr μ h4)
  | _, _, _, _, .noOp1 h1 h2 => .noOp1 (mv μ h1) (mv μ h2)
  | _, _, _, _, .thenPart h1 h2 h3 => .thenPart (mv μ h1) (mv μ h2) (mvGErr μ h3)
  | _, _, _, _, .colon h1 h2 h3 h4 => .colon (mv μ h1) (mv μ h2) (mv μ h3) (mv μ h4)
  | _, _, _, _, .elsePart h1 h2 h3 h4 h5 => .elsePart (mv μ h1) (mv μ h2) (mv μ h3) (mv μ h4) (mvGErr μ h5)
  | _, _, _, _, .noOp h1 h2 h3 => .noOp (mv μ h1) (mv μ h2) (mv μ h3)
  | _, _, _, _, .right h1 h2 h3 h4 h5 => .right (mv μ h1) (mv μ h2) (mv μ h3) (mv μ h4) (mvGErr μ h5)
  | _, _, _, _, .noOp4 h1 h2 => .noOp4 (mv μ h1) (mv μ h2)
  | _, _, _, _, .right4 h1 h2 h3 h4 => .right4 (mv μ h1) (mv μ h2) (mv μ h3) (mvGErr μ h4)
  | _, _, _, _, .unary h1 h2 h3 => .unary (mv μ h1) (mv μ h2) (mvGErr μ h3)
  | _, _, _, _, .noUnary h1 h2 => .noUnary (noUnary_mv μ h1) (mvGErr μ h2)
  | _, _, _, _, .subscript h1 h2 h3 h4 => .subscript (mv μ h1) (mv μ h2) (mv μ h3) (mvSubErr μ h4)
  | _, _, _, _, .call h1 h2 h3 => .call (mv μ h1) (mv μ h2) (mvCallErr μ h3)
  | _, _, _, _, .callee h1 h2 h3 => .callee (mv μ h1) (mv μ h2) (mvGErr μ h3)
  | _, _, _, _, .noCallLex h1 h2 h3 h4 => .noCallLex (mv μ h1) (mv μ h2) (mv μ h3) (mv μ h4)
  | _, _, _, _, .noCall h1 h2 h3 h4 h5 => .noCall (mv μ h1) (mv μ h2) (mv μ h3) (mv μ h4) (mv μ h5)
  | _, _, _, _, .method h1 h2 h3 h4 h5 => .method (mv μ h1) (mv μ h2) (mv μ h3) (mv μ h4) (mvCallErr μ h5)
  | _, _, _, _, .lex h1 => .lex (mv μ h1)
  | _, _, _, _, .operand h1 h2 => .operand (mv μ h1) fun h => h2 (operand_back μ h)
  | _, _, _, _, .dstring h1 h2 h3 h4 => by moved (.dstring (mv μ h1) (mv μ h2) (mv μ h3) (mv μ h4))
  | _, _, _, _, .escape h1 h2 h3 h4 => by moved (.escape (mv μ h1) (mv μ h2) (mv μ h3) (mv μ h4))
  | _, _, _, _, .sstring h1 h2 h3 h4 => by moved (.sstring (mv μ h1) (mv μ h2) (mv μ h3) (mv μ h4))
  | _, _, _, _, .list h1 h2 => .list (mv μ h1) (mvArgsErr μ h2)
  | _, _, _, _, .paren h1 h2 => .paren (mv μ h1) (mvGErr μ h2)
  | _, _, _, _, .parenEnd h1 h2 h3 => .parenEnd (mv μ h1) (mv μ h2) (mv μ h3)
  | _, _, _, _, .name h1 h2 h3 => .name (mv μ h1) (mv μ h2) (mvNameErr μ h3)
  | _, _, _, _, .sid h1 h2 h3 h4 => .sid (mv μ h1) (mv μ h2) (mv μ h3) (mvNameErr μ h4)
  | _, _, _, _, .brace h1 h2 => .brace (mv μ h1) (mvBraceErr μ h2)
  | _, _, _, _, .curly h1 h2 h3 h4 h5 h6 => .curly (mv μ h1) (mv μ h2) (mv μ h3) (mv μ h4) (mv μ h5) (mvNameErr μ h6)

theorem mvSubErr (μ : Mover env env' fn) : ∀ {r m q}, SubErr env fn r m q →
    SubErr env' fn (μ.tr r) m (μ.mp q)
  | _, _, _, .lex h1 => .lex (mv μ h1)
  | _, _, _, .upper h1 h2 => .upper (mv μ h1) (mvUpperErr μ h2)
  | _, _, _, .index h1 h2 => .index (mv μ h1) (mvGErr μ h2)
  | _, _, _, .close h1 h2 => .close (mv μ h1) (mv μ h2)
  | _, _, _, .both h1 h2 h3 => .both (mv μ h1) (mv μ h2) (mvUpperErr μ h3)

theorem mvUpperErr (μ : Mover env env' fn) : ∀ {r m q}, UpperErr env fn r m q →
    UpperErr env' fn (μ.tr r) m (μ.mp q)
  | _, _, _, .lex h1 => .lex (mv μ h1)
  | _, _, _, .expr h1 h2 => .expr (mv μ h1) (mvGErr μ h2)
  | _, _, _, .close h1 h2 => .close (mv μ h1) (mv μ h2)

theorem mvCallErr (μ : Mover env env' fn) : ∀ {r m q}, CallErr env fn r m q →
    CallErr env' fn (μ.tr r) m (μ.mp q)
  | _, _, _, .args h1 => .args (mvArgsErr μ h1)
  | _, _, _, .tooMany h1 h2 => .tooMany (mv μ h1) (mv μ h2)

theorem mvArgsErr (μ : Mover env env' fn) : ∀ {c r m q}, ArgsErr env fn c r m q →
    ArgsErr env' fn c (μ.tr r) m (μ.mp q)
  | _, _, _, _, .lex h1 => .lex (mv μ h1)
  | _, _, _, _, .item h1 h2 => .item (mv μ h1) (mvItemErr μ h2)

theorem mvItemErr (μ : Mover env env' fn) : ∀ {c r m q}, ItemErr env fn c r m q →
    ItemErr env' fn c (μ.tr r) m (μ.mp q)
  | _, _, _, _, .expr h1 => .expr (mvGErr μ h1)
  | _, _, _, _, .close h1 h2 => .close (mv μ h1) (mv μ h2)
  | _, _, _, _, .more h1 h2 h3 => .more (mv μ h1) (mv μ h2) (mvArgsErr μ h3)

theorem mvNameErr (μ : Mover env env' fn) : ∀ {r m q}, NameErr env fn r m q →
    NameErr env' fn (μ.tr r) m (μ.mp q)
  | _, _, _, .text h1 h2 h3 h4 => .text (mv μ h1) (mv μ h2) (mv μ h3) (mvNameErr μ h4)
  | _, _, _, .expr h1 h2 => .expr (mv μ h1) (mvGErr μ h2)
  | _, _, _, .close h1 h2 h3 h4 => by
    rw [← Mover.posOf, ← Carry.head (μ.all _)]
    exact .close (mv μ h1) (mv μ h2) (mv μ h3) (mv μ h4)
  | _, _, _, .more h1 h2 h3 h4 h5 => .more (mv μ h1) (mv μ h2) (mv μ h3) (mv μ h4) (mvNameErr μ h5)

theorem mvBraceErr (μ : Mover env env' fn) : ∀ {lit r m q}, BraceErr env fn lit r m q →
    BraceErr env' fn lit (μ.tr r) m (μ.mp q)
  | _, _, _, _, .lex h1 => .lex (mv μ h1)
  | _, _, _, _, .lex2 h1 h2 h3 h4 h5 => .lex2 (mv μ h1) (mv μ h2) (mv μ h3) (mv μ h4) (mv μ h5)
  | _, _, _, _, .params h1 h2 => .params (mv μ h1) (mv μ h2)
  | _, _, _, _, .body h1 h2 => .body (mv μ h1) (mvGErr μ h2)
  | _, _, _, _, .close h1 h2 h3 => .close (mv μ h1) (mv μ h2) (mv μ h3)
  | _, _, _, _, .pairs h1 h2 => .pairs (mv μ h1) (mvPairsErr μ h2)

theorem mvPairsErr (μ : Mover env env' fn) : ∀ {lit first r m q}, PairsErr env fn lit first r m q →
    PairsErr env' fn lit first (μ.tr r) m (μ.mp q)
  | _, _, _, _, _, .lex h1 => .lex (mv μ h1)
  | _, _, _, _, _, .pair h1 h2 => .pair (mv μ h1) (mvPairErr μ h2)

theorem mvPairErr (μ : Mover env env' fn) : ∀ {lit first r m q}, PairErr env fn lit first r m q →
    PairErr env' fn lit first (μ.tr r) m (μ.mp q)
  | _, _, _, _, _, .key h1 => .key (mvGErr μ h1)
  | _, _, _, _, _, .litKey h1 => .litKey (mv μ h1)
  | _, _, _, _, _, .colon h1 h2 => .colon (mv μ h1) (mv μ h2)
  | _, _, _, _, _, .value h1 h2 h3 => .value (mv μ h1) (mv μ h2) (mvGErr μ h3)
  | _, _, _, _, _, .close h1 h2 h3 h4 => .close (mv μ h1) (mv μ h2) (mv μ h3) (mv μ h4)
  | _, _, _, _, _, .more h1 h2 h3 h4 h5 => .more (mv μ h1) (mv μ h2) (mv μ h3) (mv μ h4) (mvPairsErr μ h5)

end

instance {k r m q} : Mv μ (GErr env fn k r m q)
    (GErr env' fn k (μ.tr r) m (μ.mp q)) := ⟨mvGErr μ⟩
instance {r m q} : Mv μ (SubErr env fn r m q)
    (SubErr env' fn (μ.tr r) m (μ.mp q)) := ⟨mvSubErr μ⟩
instance {r m q} : Mv μ (UpperErr env fn r m q)
    (UpperErr env' fn (μ.tr r) m (μ.mp q)) := ⟨mvUpperErr μ⟩
instance {r m q} : Mv μ (CallErr env fn r m q)
    (CallErr env' fn (μ.tr r) m (μ.mp q)) := ⟨mvCallErr μ⟩
instance {c r m q} : Mv μ (ArgsErr env fn c r m q)
    (ArgsErr env' fn c (μ.tr r) m (μ.mp q)) := ⟨mvArgsErr μ⟩
instance {c r m q} : Mv μ (ItemErr env fn c r m q)
    (ItemErr env' fn c (μ.tr r) m (μ.mp q)) := ⟨mvItemErr μ⟩
instance {r m q} : Mv μ (NameErr env fn r m q)
    (NameErr env' fn (μ.tr r) m (μ.mp q)) := ⟨mvNameErr μ⟩
instance {lit r m q} : Mv μ (BraceErr env fn lit r m q)
    (BraceErr env' fn lit (μ.tr r) m (μ.mp q)) := ⟨mvBraceErr μ⟩
instance {lit first r m q} : Mv μ (PairsErr env fn lit first r m q)
    (PairsErr env' fn lit first (μ.tr r) m (μ.mp q)) := ⟨mvPairsErr μ⟩
instance {lit first r m q} : Mv μ (PairErr env fn lit first r m q)
    (PairErr env' fn lit first (μ.tr r) m (μ.mp q)) := ⟨mvPairErr μ⟩
end Viml
