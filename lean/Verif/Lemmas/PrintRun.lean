/-
The parser on printed text: trees whose operands are at the right level are read back from their text.
-/
import Verif.Lemmas.LeafRun

namespace Viml
open Prog Spec

/-- Trees with their text, without any implicit parentheses, indexed by the level. -/
inductive Prn : Nat → Ast.Expr → Str → Prop
  | lit (q : Ast.Pos) (k : Tok) (v : Str) : Literal k v → Prn 9 (.basicLit q k v) v
  | ident (i : Ast.Ident) : NameShape i.name → Prn 9 (.ident i) i.name
  | paren {k : Nat} {x : Ast.Expr} {s : Str} (q : Ast.Pos) : Prn k x s → 1 ≤ k →
      Prn 9 (.paren q x) (['('] ++ s ++ [')'])
  | subscript {k k' : Nat} {l r : Ast.Expr} {a b : Str} (q : Ast.Pos) : Prn k l a → 8 ≤ k → Prn k' r b → 1 ≤ k' →
      Prn 8 (.subscript q l r) (a ++ ['['] ++ b ++ [']'])
  | unary {k : Nat} {x : Ast.Expr} {s : Str} (q : Ast.Pos) (op : Tok) : UnOp op → Prn k x s → 7 ≤ k →
      Prn 7 (.unary q op x) (op.str ++ s)
  | binary {k k' : Nat} {l r : Ast.Expr} {a b : Str} (q : Ast.Pos) (op : Tok) : 2 ≤ opLevel op → Prn k l a →
      leftLevel op ≤ k → Prn k' r b → opLevel op + 1 ≤ k' →
      Prn (opLevel op) (.binary l q op r) (a ++ [' '] ++ op.str ++ [' '] ++ b)

/-- What may follow an expression read at level `k`. -/
inductive Fol : Nat → List Cell → Prop
  | fin {k : Nat} {r : List Cell} : (headSym r).is (fun _ => true) = false → Fol k r
  | pclose {k : Nat} {r : List Cell} : headSym r = .ch ')' → Fol k r
  | sqclose {k : Nat} {r : List Cell} : headSym r = .ch ']' → Fol k r
  | sub {r : List Cell} : headSym r = .ch '[' → Fol 9 r
  | op {k : Nat} {r r1 : List Cell} {v : Str} {ty : TT} : Reads r (' ' :: v) r1 → Lexeme ty v r1 →
      2 ≤ ttLevel ty → ttLevel ty < k → Fol k r

theorem Fol.mono {j : Nat} {r : List Cell} (h : Fol j r) (hj : j ≤ 8) : Fol (j + 1) r := by
  cases h with
  | fin h => exact .fin h
  | pclose h => exact .pclose h
  | sqclose h => exact .sqclose h
  | sub h => omega
  | op h1 h2 h3 h4 => exact .op h1 h2 h3 (by omega)

theorem Fol.safe {k : Nat} {r : List Cell} (h : Fol k r) : Safe r := by
  intro c hc
  cases h with
  | fin h => rw [hc] at h; cases h
  | pclose h => rw [h] at hc; cases hc; simp
  | sqclose h => rw [h] at hc; cases hc; simp
  | sub h => rw [h] at hc; cases hc; simp
  | op h => rw [headSym_of_reads h] at hc; cases hc; simp

section
variable {env : Env} {fn : Str}

theorem tok_ch (he : EnvOK env) {r : List Cell} (hs : Suf env r) {c : Char} {ty : TT} (h : headSym r = .ch c)
    (hl : Lexeme ty [c] r.tail) : tokGet env r = .ok ⟨ty, [c], posOf env r⟩ r.tail :=
  tok_of he hs (Reads.nil r) (by simp) (headSym_reads h) hl

theorem Fol.tok (he : EnvOK env) {k : Nat} (hk : 1 ≤ k) (h8 : k ≤ 8) {r : List Cell} (hs : Suf env r) (h : Fol k r) :
    ∃ t r1, tokGet env r = .ok t r1 ∧ Stop k (headSym r) t.ty := by
  cases h with
  | fin h =>
    cases hh : headSym r with
    | ch c => rw [hh] at h; cases h
    | eof =>
      obtain rfl := headSym_eof hh
      exact ⟨_, _, (tokGet_iff he hs _ _).2 (.eof [] [] (Reads.nil _) (by simp)), by simp [Stop, ttLevel]; omega⟩
    | eol =>
      obtain ⟨c, r1, rfl, hc⟩ := headSym_eol hh
      exact ⟨_, _, (tokGet_iff he hs _ _).2 (.eol [] _ c r1 (Reads.nil _) (by simp) hc), by simp [Stop, ttLevel]; omega⟩
  | pclose h => exact ⟨_, _, tok_ch he hs h (.pclose _), by simp [Stop, ttLevel]; omega⟩
  | sqclose h => exact ⟨_, _, tok_ch he hs h (.sqclose _), by simp [Stop, ttLevel]; omega⟩
  | sub h => omega
  | @op _ _ r1 v ty h1 h2 h3 h4 =>
    obtain ⟨q, r0, rfl, h5⟩ := h1.cons_inv
    have h6 : Reads (⟨some ' ', q⟩ :: r0) [' '] r0 := Reads.one rfl
    refine ⟨_, _, tok_of he hs h6 (by simp [iswhite]) h5 h2, h4, ?_, ?_, ?_, fun _ => .inl rfl⟩ <;>
      (rintro rfl; exact absurd h3 (by decide))

/-- Every binary operator is read as a token of its level. -/
theorem binOp_lexeme {op : Tok} (h : 2 ≤ opLevel op) {r : List Cell} (hr : headSym r = .ch ' ') :
    ∃ ty bt, Lexeme ty op.str r ∧ ttLevel ty = opLevel op ∧ binTok bt = op ∧
      (if opLevel op = 4 then opsCmp ty = some bt else opsAt (opLevel op) ty = some bt) := by
  have hne : ∀ c, c ≠ ' ' → headSym r ≠ .ch c := by
    intro c hc h; rw [hr] at h; cases h; exact hc rfl
  have hw : (headSym r).is iswordc = false := by rw [hr]; rfl
  have hc : ∀ k, Lexeme (.cmp k .plain) (cmpText k) r := fun k =>
    .cmp k r (hne _ (by decide)) (hne _ (by decide)) (fun _ => hne _ (by decide)) fun _ => hw
  have hi : ∀ k, Lexeme (.cmp k .ci) (cmpText k ++ caseText .ci) r := fun k => .cmpCase k .ci r (by decide)
  have hcs : ∀ k, Lexeme (.cmp k .cs) (cmpText k ++ caseText .cs) r := fun k => .cmpCase k .cs r (by decide)
  cases op <;> try exact absurd h (by decide)
  case OROR => exact ⟨_, .or_, .oror r, rfl, rfl, rfl⟩
  case ANDAND => exact ⟨_, .and_, .andand r, rfl, rfl, rfl⟩
  case PLUS => exact ⟨_, .add, .plus r, rfl, rfl, rfl⟩
  case MINUS => exact ⟨_, .subtract, .minus r (hne _ (by decide)), rfl, rfl, rfl⟩
  case DOT => exact ⟨_, .concat, .dot r (hne _ (by decide)), rfl, rfl, rfl⟩
  case STAR => exact ⟨_, .multiply, .star r, rfl, rfl, rfl⟩
  case SLASH => exact ⟨_, .divide, .slash r, rfl, rfl, rfl⟩
  case PERCENT => exact ⟨_, .remainder, .percent r, rfl, rfl, rfl⟩
  case EQEQ => exact ⟨_, .cmp .equal .plain, hc .equal, rfl, rfl, rfl⟩
  case EQEQCI => exact ⟨_, .cmp .equal .ci, hi .equal, rfl, rfl, rfl⟩
  case EQEQCS => exact ⟨_, .cmp .equal .cs, hcs .equal, rfl, rfl, rfl⟩
  case NEQ => exact ⟨_, .cmp .nequal .plain, hc .nequal, rfl, rfl, rfl⟩
  case NEQCI => exact ⟨_, .cmp .nequal .ci, hi .nequal, rfl, rfl, rfl⟩
  case NEQCS => exact ⟨_, .cmp .nequal .cs, hcs .nequal, rfl, rfl, rfl⟩
  case GT => exact ⟨_, .cmp .greater .plain, hc .greater, rfl, rfl, rfl⟩
  case GTCI => exact ⟨_, .cmp .greater .ci, hi .greater, rfl, rfl, rfl⟩
  case GTCS => exact ⟨_, .cmp .greater .cs, hcs .greater, rfl, rfl, rfl⟩
  case GTEQ => exact ⟨_, .cmp .gequal .plain, hc .gequal, rfl, rfl, rfl⟩
  case GTEQCI => exact ⟨_, .cmp .gequal .ci, hi .gequal, rfl, rfl, rfl⟩
  case GTEQCS => exact ⟨_, .cmp .gequal .cs, hcs .gequal, rfl, rfl, rfl⟩
  case LT => exact ⟨_, .cmp .smaller .plain, hc .smaller, rfl, rfl, rfl⟩
  case LTCI => exact ⟨_, .cmp .smaller .ci, hi .smaller, rfl, rfl, rfl⟩
  case LTCS => exact ⟨_, .cmp .smaller .cs, hcs .smaller, rfl, rfl, rfl⟩
  case LTEQ => exact ⟨_, .cmp .sequal .plain, hc .sequal, rfl, rfl, rfl⟩
  case LTEQCI => exact ⟨_, .cmp .sequal .ci, hi .sequal, rfl, rfl, rfl⟩
  case LTEQCS => exact ⟨_, .cmp .sequal .cs, hcs .sequal, rfl, rfl, rfl⟩
  case MATCH => exact ⟨_, .cmp .match_ .plain, hc .match_, rfl, rfl, rfl⟩
  case MATCHCI => exact ⟨_, .cmp .match_ .ci, hi .match_, rfl, rfl, rfl⟩
  case MATCHCS => exact ⟨_, .cmp .match_ .cs, hcs .match_, rfl, rfl, rfl⟩
  case NOMATCH => exact ⟨_, .cmp .nomatch .plain, hc .nomatch, rfl, rfl, rfl⟩
  case NOMATCHCI => exact ⟨_, .cmp .nomatch .ci, hi .nomatch, rfl, rfl, rfl⟩
  case NOMATCHCS => exact ⟨_, .cmp .nomatch .cs, hcs .nomatch, rfl, rfl, rfl⟩
  case IS => exact ⟨_, .cmp .is_ .plain, hc .is_, rfl, rfl, rfl⟩
  case ISCI => exact ⟨_, .cmp .is_ .ci, hi .is_, rfl, rfl, rfl⟩
  case ISCS => exact ⟨_, .cmp .is_ .cs, hcs .is_, rfl, rfl, rfl⟩
  case ISNOT => exact ⟨_, .cmp .isnot .plain, hc .isnot, rfl, rfl, rfl⟩
  case ISNOTCI => exact ⟨_, .cmp .isnot .ci, hi .isnot, rfl, rfl, rfl⟩
  case ISNOTCS => exact ⟨_, .cmp .isnot .cs, hcs .isnot, rfl, rfl, rfl⟩

/-- The parsed tree is the given one up to positions. -/
def Exp (fn : Str) (v : VExpr) (e : Ast.Expr) : Prop := ∃ a, Export.expr fn v = some a ∧ SameTree e a

/-- The parser at every level up to `k` reads the tree `e` between `r` and `r'`. -/
structure PRes (env : Env) (fn : Str) (n k : Nat) (e : Ast.Expr) (r r' : List Cell) : Prop where
  first : Fol 9 r' → ∃ t r1, tokGet env r = .ok t r1 ∧ t.ty ≠ .colon ∧ (8 ≤ k → opsUnary t.ty = none)
  full : ∀ j, 1 ≤ j → j ≤ k → Fol j r' → ∃ v, Runs env (parseExpr1F n) j r v r' ∧ Exp fn v e
  part : ∀ j, IsLoop j → j ≤ k → Fol (j + 1) r' → ∃ v, Partly env (parseExpr1F n) j r v r' ∧ Exp fn v e

theorem Fol.mono' {j k : Nat} {r : List Cell} (h : Fol j r) (hk : j ≤ k) (h9 : k ≤ 9) : Fol k r := by
  induction hk with
  | refl => exact h
  | @step m hm ih => exact (ih (by omega)).mono (by omega)

theorem PRes.build (he : EnvOK env) {n k : Nat} {e : Ast.Expr} {r r' : List Cell} (hs : Suf env r') (hk : k ≤ 9)
    (first : Fol 9 r' → ∃ t r1, tokGet env r = .ok t r1 ∧ t.ty ≠ .colon ∧ (8 ≤ k → opsUnary t.ty = none))
    (h1 : ¬ IsLoop k → Fol k r' → ∃ v, Runs env (parseExpr1F n) k r v r' ∧ Exp fn v e)
    (h2 : IsLoop k → Fol (k + 1) r' → ∃ v, Partly env (parseExpr1F n) k r v r' ∧ Exp fn v e) :
    PRes env fn n k e r r' := by
  have key : ∀ d j, j + d = k → 1 ≤ j →
      (Fol j r' → ∃ v, Runs env (parseExpr1F n) j r v r' ∧ Exp fn v e) ∧
      (IsLoop j → Fol (j + 1) r' → ∃ v, Partly env (parseExpr1F n) j r v r' ∧ Exp fn v e) := by
    have close : ∀ j, IsLoop j →
        (Fol (j + 1) r' → ∃ v, Partly env (parseExpr1F n) j r v r' ∧ Exp fn v e) →
        Fol j r' → ∃ v, Runs env (parseExpr1F n) j r v r' ∧ Exp fn v e := by
      intro j hj h hf
      have hj8 : 1 ≤ j ∧ j ≤ 8 := by rcases hj with rfl | rfl | rfl | rfl | rfl <;> decide
      obtain ⟨v, hv, hx⟩ := h (hf.mono hj8.2)
      obtain ⟨t, r1, ht, hst⟩ := hf.tok he hj8.1 hj8.2 hs
      exact ⟨v, hv.runs hj ht hst, hx⟩
    intro d
    induction d with
    | zero =>
      intro j hj h1j
      have hj : j = k := by omega
      subst j
      refine ⟨?_, h2⟩
      by_cases hl : IsLoop k
      · exact close k hl (h2 hl)
      · exact h1 hl
    | succ d ih =>
      intro j hj h1j
      have ih' := ih (j + 1) (by omega) (by omega)
      have hp : IsLoop j → Fol (j + 1) r' → ∃ v, Partly env (parseExpr1F n) j r v r' ∧ Exp fn v e := by
        intro hl hf
        obtain ⟨v, hv, hx⟩ := ih'.1 hf
        exact ⟨v, hv.partly hl, hx⟩
      refine ⟨fun hf => ?_, hp⟩
      by_cases hl : IsLoop j
      · exact close j hl (hp hl) hf
      · have hj8 : j ≤ 8 := by omega
        obtain ⟨v, hv, hx⟩ := ih'.1 (hf.mono hj8)
        obtain ⟨t, r1, ht, hst⟩ := hf.tok he h1j hj8 hs
        have : j = 1 ∨ j = 4 ∨ j = 7 := by
          unfold IsLoop at hl; omega
        rcases this with rfl | rfl | rfl
        · exact ⟨v, hv.up1 ht hst.2.1, hx⟩
        · exact ⟨v, hv.up4 ht hst, hx⟩
        · obtain ⟨t, r1, ht, _, h8⟩ := first (hf.mono' (by omega) (by omega))
          exact ⟨v, hv.up7 ht (h8 (by omega)), hx⟩
  exact ⟨first, fun j h1j hjk => (key (k - j) j (by omega) h1j).1,
    fun j hl hjk => (key (k - j) j (by omega) (by rcases hl with rfl | rfl | rfl | rfl | rfl <;> decide)).2 hl⟩

theorem exp_atom {q : Pos} {a : AtomTy} {v : Str} {k : Tok} {q' : Ast.Pos}
    (h : ∀ q, Export.atom q v a = .basicLit q k v) : Exp fn (.atom q a v) (.basicLit q' k v) :=
  ⟨_, expr_atom q a v, by rw [h]; exact .basicLit _ _ _ _⟩

theorem Prn.ne_nil {k : Nat} {e : Ast.Expr} {s : Str} (h : Prn k e s) : k ≤ 9 ∧ 1 ≤ k := by
  cases h <;> try (constructor <;> decide)
  rename_i op h2 _ _ _ _
  exact ⟨by cases op <;> simp [opLevel], by omega⟩

theorem unOp_lexeme {op : Tok} (h : UnOp op) {r : List Cell} (h1 : headSym r ≠ .ch '=') (h2 : headSym r ≠ .ch '~')
    (h3 : headSym r ≠ .ch '>') : ∃ ty ut, Lexeme ty op.str r ∧ opsUnary ty = some ut ∧ unTok ut = op := by
  rcases h with rfl | rfl | rfl
  · exact ⟨_, .not_, .not_ r h1 h2, rfl, rfl⟩
  · exact ⟨_, .minus, .minus r h3, rfl, rfl⟩
  · exact ⟨_, .plus, .plus r, rfl, rfl⟩

theorem white_of {f : Char → Bool} {c : Char} (hf : f ' ' = false ∧ f '\t' = false) (h : f c = true) : iswhite c = false := by
  cases hw : iswhite c with
  | false => rfl
  | true =>
    simp only [iswhite, Bool.or_eq_true, beq_iff_eq] at hw
    rcases hw with rfl | rfl
    · rw [hf.1] at h; cases h
    · rw [hf.2] at h; cases h

/-- The first character of printed text. -/
theorem Prn.head {k : Nat} {e : Ast.Expr} {s : Str} (h : Prn k e s) :
    ∃ c t, s = c :: t ∧ c ≠ '=' ∧ c ≠ '~' ∧ c ≠ '>' ∧ iswhite c = false := by
  induction h with
  | lit q k v h =>
    cases k <;> try exact h.elim
    case NUMBER =>
      have hd : ∀ {d : Str}, Many1 isdigit d → ∃ c t, d = c :: t ∧ c ≠ '=' ∧ c ≠ '~' ∧ c ≠ '>' ∧ iswhite c = false := by
        intro d h
        match d, h with
        | c :: t, h =>
          have := h.2 c (by simp)
          refine ⟨c, t, rfl, ?_, ?_, ?_, white_of (by decide) this⟩ <;> (rintro rfl; exact absurd this (by decide))
      have happ : ∀ {d t : Str}, Many1 isdigit d → ∃ c t', d ++ t = c :: t' ∧ c ≠ '=' ∧ c ≠ '~' ∧ c ≠ '>' ∧ iswhite c = false := by
        intro d t h
        obtain ⟨c, t', rfl, h'⟩ := hd h
        exact ⟨c, t' ++ t, rfl, h'⟩
      cases h with
      | hex x d => exact ⟨'0', _, rfl, by decide⟩
      | bin x d => exact ⟨'0', _, rfl, by decide⟩
      | dec d h => exact hd h
      | float d f h => exact happ h
      | exp d f e h =>
        rw [List.append_assoc]
        exact happ h
    case BLOB =>
      obtain ⟨z, s, _, rfl, _⟩ := h
      exact ⟨'0', _, rfl, by decide⟩
    case OPTION =>
      obtain ⟨pre, s, hp, _, rfl⟩ := h
      rcases hp with rfl | rfl | rfl <;> exact ⟨'&', _, rfl, by decide⟩
    case ENV =>
      obtain ⟨s, rfl, _⟩ := h
      exact ⟨'$', _, rfl, by decide⟩
    case REG =>
      obtain ⟨c, rfl⟩ := h
      exact ⟨'@', _, rfl, by decide⟩
    case STRING =>
      rcases h with ⟨s, _, rfl⟩ | ⟨s, _, rfl⟩
      · exact ⟨'"', _, rfl, by decide⟩
      · exact ⟨'\'', _, rfl, by decide⟩
  | ident i h =>
    obtain ⟨c, s, h1, h2⟩ := nameShape_head h
    refine ⟨c, s, h1, ?_⟩
    rcases h2 with h2 | rfl
    · refine ⟨?_, ?_, ?_, white_of (by decide) h2⟩ <;> (rintro rfl; exact absurd h2 (by decide))
    · decide
  | paren => exact ⟨'(', _, rfl, by decide⟩
  | subscript q _ _ _ _ ih =>
    obtain ⟨c, t, rfl, h⟩ := ih
    exact ⟨c, _, rfl, h⟩
  | unary q op h =>
    rcases h with rfl | rfl | rfl
    · exact ⟨'!', _, rfl, by decide⟩
    · exact ⟨'-', _, rfl, by decide⟩
    · exact ⟨'+', _, rfl, by decide⟩
  | binary q op _ _ _ _ _ ih =>
    obtain ⟨c, t, rfl, h⟩ := ih
    exact ⟨c, _, rfl, h⟩

theorem opsAt_body {rec : Prog VExpr} {j : Nat} (hj : j = 2 ∨ j = 3 ∨ j = 5 ∨ j = 6) :
    lvlBody rec j = binBody (lvl rec (j + 1)) (opsAt j) := by
  rcases hj with rfl | rfl | rfl | rfl <;> rfl

theorem rec_run {n : Nat} {r r' : List Cell} {v : VExpr} (h : Runs env (parseExpr1F n) 1 r v r') :
    (parseExpr1F (n + 1)).runWith tokGet env r = .ok v r' := h.run

/-- Printed text is read back as the tree it was printed from. -/
theorem prn_run (he : EnvOK env) {k : Nat} {e : Ast.Expr} {s : Str} (h : Prn k e s) :
    ∀ {n : Nat} {r r1 r' : List Cell} {w : Str}, Suf env r → Reads r w r1 → (∀ c ∈ w, iswhite c = true) →
      Reads r1 s r' → r.length ≤ n → PRes env fn n k e r r' := by
  induction h with
  | lit q k v h =>
    intro n r r1 r' w hs h1 hw h2 hn
    have hs' := h2.adv.suf (h1.adv.suf hs)
    by_cases hk : k = .STRING
    · subst hk
      refine PRes.build he hs' (by omega) (fun hf => ?_) (fun _ hf => ?_) (fun hl => ?_)
      · obtain ⟨_, t, r2, ht, hty⟩ := expr9_string he (rec := parseExpr1F n) hs h1 hw h2 h hf.safe.ne
        refine ⟨t, r2, ht, ?_, fun _ => ?_⟩ <;> rcases hty with h | h <;> rw [h] <;> decide
      · obtain ⟨hx, _⟩ := expr9_string he (rec := parseExpr1F n) hs h1 hw h2 h hf.safe.ne
        exact ⟨_, hx, exp_atom fun _ => rfl⟩
      · unfold IsLoop at hl; omega
    · refine PRes.build he hs' (by omega) (fun hf => ?_) (fun _ hf => ?_) (fun hl => ?_)
      · obtain ⟨ty, a, hl, ha, _⟩ := literal_lexeme h hk hf.safe
        refine ⟨_, _, tok_of he hs h1 hw h2 hl, ?_⟩
        cases ty <;> simp [atomTok] at ha <;> simp [opsUnary]
      · obtain ⟨ty, a, hl, ha, hx⟩ := literal_lexeme h hk hf.safe
        exact ⟨_, expr9_atom (tok_of he hs h1 hw h2 hl) ha, exp_atom hx⟩
      · unfold IsLoop at hl; omega
  | ident i h =>
    intro n r r1 r' w hs h1 hw h2 hn
    have hs' := h2.adv.suf (h1.adv.suf hs)
    refine PRes.build he hs' (by omega) (fun hf => ?_) (fun _ hf => ?_) (fun hl => ?_)
    · obtain ⟨_, t, r2, ht, hu, hc⟩ := expr9_name he (rec := parseExpr1F n) hs h1 hw h2 h hf.safe.is hf.safe.ne
        hf.safe.ne
      exact ⟨t, r2, ht, hc, fun _ => hu⟩
    · obtain ⟨hx, _⟩ := expr9_name he (rec := parseExpr1F n) hs h1 hw h2 h hf.safe.is hf.safe.ne hf.safe.ne
      exact ⟨_, hx, _, expr_atom _ _ _, .ident _ _ _⟩
    · unfold IsLoop at hl; omega
  | @paren k x s q _ hk ih =>
    intro n r r1 r' w hs h1 hw h2 hn
    have hs1 := h1.adv.suf hs
    have hs' := h2.adv.suf hs1
    rw [List.append_assoc] at h2
    obtain ⟨r2, h3, h4⟩ := Spec.Reads.split h2
    obtain ⟨r3, h5, h6⟩ := Spec.Reads.split h4
    have hs2 := h3.adv.suf hs1
    have hs3 := h5.adv.suf hs2
    have ht := tok_of he hs h1 hw h3 (.popen r2)
    refine PRes.build he hs' (by omega) (fun hf => ?_) (fun _ hf => ?_) (fun hl => ?_)
    · exact ⟨_, _, ht, by simp, fun _ => rfl⟩
    · obtain ⟨n, rfl⟩ : ∃ m, n = m + 1 := ⟨n - 1, by
        have := (h3.sadv (by simp)).lt; have := h1.adv.length; omega⟩
      have hlen : r2.length ≤ n := by
        have := (h3.sadv (by simp)).lt
        have := h1.adv.length
        omega
      have hf3 : Fol 1 r3 := .pclose (headSym_of_reads h6)
      obtain ⟨v, hv, a, ha, hsame⟩ := (ih hs2 (Reads.nil r2) (by simp) h5 hlen).full 1 (by omega) hk hf3
      have htc := tok_of he hs3 (Reads.nil r3) (by simp) h6 (.pclose r')
      refine ⟨.paren (posOf env r1) v, ?_, .paren (Export.pos fn (posOf env r1)) a, by simp [Export.expr, ha],
        .paren _ _ hsame⟩
      show (expr9 (parseExpr1F (n + 1))).runWith tokGet env r = _
      unfold expr9
      rw [run_ok (tell_run r), run_ok (by rw [tokget_run]; exact ht)]
      simp only
      rw [run_ok (rec_run hv), run_ok (by rw [tokget_run]; exact htc), if_neg (by simp)]
      rfl
    · unfold IsLoop at hl; omega
  | @subscript k k' l x a b q _ hk _ hk' ihl ihr =>
    intro n r r1 r' w hs h1 hw h2 hn
    have hs1 := h1.adv.suf hs
    have hs' := h2.adv.suf hs1
    rw [List.append_assoc, List.append_assoc] at h2
    obtain ⟨r2, h3, h4⟩ := Spec.Reads.split h2
    obtain ⟨r3, h5, h6⟩ := Spec.Reads.split h4
    obtain ⟨r4, h7, h8⟩ := Spec.Reads.split h6
    have hs2 := h3.adv.suf hs1
    have hs3 := h5.adv.suf hs2
    have hs4 := h7.adv.suf hs3
    have hf2 : Fol 9 r2 := .sub (headSym_of_reads h5)
    have hL := ihl hs h1 hw h3 hn
    refine PRes.build he hs' (by omega) (fun hf => ?_) (fun hl => ?_) (fun hl hf => ?_)
    · obtain ⟨t, r5, ht, hc, hu⟩ := hL.first hf2
      exact ⟨t, r5, ht, hc, fun _ => hu hk⟩
    · exact absurd (by unfold IsLoop; omega) hl
    · obtain ⟨n, rfl⟩ : ∃ m, n = m + 1 := ⟨n - 1, by
        have := (h5.sadv (by simp)).lt; have := h3.adv.length; have := h1.adv.length; omega⟩
      obtain ⟨vl, hvl, al, hal, hsl⟩ := hL.part 8 hl hk hf2
      have ht := tok_of he hs2 (Reads.nil r2) (by simp) h5 (.sqopen r3)
      have hlen : r3.length ≤ n := by
        have := (h5.sadv (by simp)).lt; have := h3.adv.length; have := h1.adv.length; omega
      have hf4 : Fol 1 r4 := .sqclose (headSym_of_reads h8)
      have hR := ihr hs3 (Reads.nil r3) (by simp) h7 hlen
      obtain ⟨vr, hvr, ar, har, hsr⟩ := hR.full 1 (by omega) hk' hf4
      have htc := tok_of he hs4 (Reads.nil r4) (by simp) h8 (.sqclose r')
      obtain ⟨t0, r0, ht0, hc0, _⟩ := hR.first (hf4.mono' (by omega) (by omega))
      refine ⟨.subscript (posOf env r2) vl vr, ?_, .subscript (Export.pos fn (posOf env r2)) al ar,
        by simp [Export.expr, hal, har], .subscript _ _ hsl hsr⟩
      refine hvl.step (body8_sub ht (by rw [headSym_of_reads h5]; rfl) rfl
        (parseSubscript_run ht0 hc0 (rec_run hvr) htc rfl)) ?_
      have := (h5.sadv (by simp)).lt; have := h7.adv.length; have := h8.adv.length; omega
  | @unary k x s q op hop hx hk ih =>
    intro n r r1 r' w hs h1 hw h2 hn
    have hs1 := h1.adv.suf hs
    have hs' := h2.adv.suf hs1
    obtain ⟨r2, h3, h4⟩ := Spec.Reads.split h2
    have hs2 := h3.adv.suf hs1
    obtain ⟨c, t, rfl, hc1, hc2, hc3, _⟩ := hx.head
    have hh := headSym_of_reads h4
    have hne : ∀ {y : Char}, c ≠ y → headSym r2 ≠ .ch y := by
      intro y hy h; rw [hh] at h; cases h; exact hy rfl
    obtain ⟨ty, ut, hl, ho, hut⟩ := unOp_lexeme hop (hne hc1) (hne hc2) (hne hc3)
    have ht := tok_of he hs h1 hw h3 hl
    have hlt : r2.length < r.length := by
      have : op.str ≠ [] := by rcases hop with rfl | rfl | rfl <;> decide
      have := (h3.sadv this).lt; have := h1.adv.length; omega
    refine PRes.build he hs' (by omega) (fun hf => ?_) (fun _ hf => ?_) (fun hl => ?_)
    · refine ⟨_, _, ht, ?_, by omega⟩
      rintro rfl
      cases ho
    · obtain ⟨v, hv, a, ha, hsame⟩ := (ih (n := n) hs2 (Reads.nil r2) (by simp) h4 (by omega)).full 7 (by omega) hk hf
      exact ⟨_, Runs.unary ht ho hlt hv, .unary (Export.pos fn (posOf env r1)) op a,
        by simp [Export.expr, ha, hut], .unary _ _ _ hsame⟩
    · unfold IsLoop at hl; omega
  | @binary k k' l x a b q op h2op hl hk hx hk' ihl ihr =>
    intro n r r1 r' w hs h1 hw h2 hn
    have hs1 := h1.adv.suf hs
    have hs' := h2.adv.suf hs1
    have hop9 : opLevel op ≤ 6 := by cases op <;> simp [opLevel]
    rw [List.append_assoc, List.append_assoc, List.append_assoc] at h2
    obtain ⟨r2, h3, h4⟩ := Spec.Reads.split h2
    obtain ⟨r3, h5, h6⟩ := Spec.Reads.split h4
    obtain ⟨r4, h7, h8⟩ := Spec.Reads.split h6
    obtain ⟨r5, h9, h10⟩ := Spec.Reads.split h8
    have hs2 := h3.adv.suf hs1
    have hs4 := h7.adv.suf (h5.adv.suf hs2)
    obtain ⟨ty, bt, hlx, hlv, hbt, hops⟩ := binOp_lexeme h2op (headSym_of_reads h9)
    have ht := tok_of he hs2 h5 (by simp [iswhite]) h7 hlx
    have hf2 : Fol (opLevel op + 1) r2 := .op (h5.append h7) hlx (by omega) (by omega)
    have hL := ihl hs h1 hw h3 hn
    have hlen : r4.length < r2.length := by
      have := (h5.sadv (by simp)).lt; have := h7.adv.length; omega
    have hR := ihr (n := n) hs4 h9 (by simp [iswhite]) h10 (by
      have := h3.adv.length; have := h1.adv.length; omega)
    have hk9 := hx.ne_nil.1
    have exp : ∀ {vl vr : VExpr}, Exp fn vl l → Exp fn vr x → Exp fn (.binary (posOf env r3) bt vl vr) (.binary l q op x) := by
      rintro vl vr ⟨al, hal, hsl⟩ ⟨ar, har, hsr⟩
      exact ⟨.binary al (Export.pos fn (posOf env r3)) op ar, by simp [Export.expr, hal, har, hbt],
        .binary _ _ _ hsl hsr⟩
    refine PRes.build he hs' (by omega) (fun hf => ?_) (fun hnl hf => ?_) (fun hloop hf => ?_)
    · obtain ⟨t, r5, ht, hc, hu⟩ := hL.first (hf2.mono' (by omega) (by omega))
      exact ⟨t, r5, ht, hc, by omega⟩
    · have h4 : opLevel op = 4 := by
        unfold IsLoop at hnl
        revert hnl h2op
        cases op <;> simp [opLevel]
      rw [if_pos h4] at hops
      rw [h4] at hf hf2 hk' ⊢
      have hl5 : 5 ≤ k := by simpa [leftLevel, h4] using hk
      obtain ⟨vl, hvl, hxl⟩ := hL.full 5 (by omega) hl5 hf2
      obtain ⟨vr, hvr, hxr⟩ := hR.full 5 (by omega) hk' (hf.mono (by omega))
      exact ⟨_, hvl.cmp ht hops hvr, exp hxl hxr⟩
    · have h4 : opLevel op ≠ 4 := by unfold IsLoop at hloop; omega
      rw [if_neg h4] at hops
      have hlk : opLevel op ≤ k := by simpa [leftLevel, h4] using hk
      obtain ⟨vl, hvl, hxl⟩ := hL.part (opLevel op) hloop hlk hf2
      obtain ⟨vr, hvr, hxr⟩ := hR.full (opLevel op + 1) (by omega) hk' hf
      refine ⟨_, hvl.step ?_ ?_, exp hxl hxr⟩
      · rw [opsAt_body (by unfold IsLoop at hloop; omega)]
        exact binBody_op ht hops hvr.run
      · have := h8.adv.length; omega

end
end Viml
