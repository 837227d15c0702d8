/-
Larger expressions put together from phrases.
-/
import Verif.Lemmas.Phrase

namespace Viml
open Spec

/-- Numbers of bytes of texts. -/
macro "count" : tactic => `(tactic| (simp only [bytes_append, bytes_cons, bytes_nil, List.append_assoc, List.cons_append,
  List.nil_append, List.append_nil, show Char.utf8Size '(' = 1 from rfl, show Char.utf8Size ')' = 1 from rfl,
  show Char.utf8Size ' ' = 1 from rfl, show Char.utf8Size '[' = 1 from rfl, show Char.utf8Size ']' = 1 from rfl,
  show Char.utf8Size '{' = 1 from rfl, show Char.utf8Size '}' = 1 from rfl, show Char.utf8Size ',' = 1 from rfl,
  show Char.utf8Size ':' = 1 from rfl, show Char.utf8Size '?' = 1 from rfl, show Char.utf8Size '-' = 1 from rfl,
  show Char.utf8Size '>' = 1 from rfl, show Char.utf8Size '\'' = 1 from rfl]; try omega))

section
variable {env : Env} {fn : Str} {r r' r'' : List Cell}

theorem IsOp.level_unique {ty : TT} {k j : Nat} {op op' : Tok} (h : IsOp ty k op) (h1 : IsOp ty j op') : j = k := by
  cases h <;> cases h1 <;> rfl

/-- A phrase of a tighter level is one of a looser level if no operator of the levels between follows. -/
theorem gram_down {t : Token} {e : Ast.Expr} (ht : Lex env r' t r'') : ∀ (n k j : Nat), k = j + n → 1 ≤ j → k ≤ 9 →
    Gram env fn k r e r' → (j = 1 → 1 < k → t.ty ≠ .question) → (∀ i, j ≤ i → i < k → ∀ op, ¬ IsOp t.ty i op) →
    (k = 9 → j ≤ 8 → NoPostfix env e r') → Gram env fn j r e r'
  | 0, k, j, hk, _, _, h, _, _, _ => by
    have : k = j := by omega
    rw [← this]; exact h
  | n + 1, k, j, hk, h1, h9, h, hq, ho, hp => by
    have ih := gram_down ht n k (j + 1) (by omega) (by omega) h9 h (by omega) (fun i hi => ho i (by omega))
      (fun e1 e2 => hp e1 (by omega))
    have hn : Next env r' (fun ty => ∀ op, ¬ IsOp ty j op) := ⟨t, _, ht, ho j (by omega) (by omega)⟩
    have hj : j = 1 ∨ j = 2 ∨ j = 3 ∨ j = 4 ∨ j = 5 ∨ j = 6 ∨ j = 7 ∨ j = 8 := by omega
    rcases hj with rfl | rfl | rfl | rfl | rfl | rfl | rfl | rfl
    · exact .noTernary ih ⟨t, _, ht, hq rfl (by omega)⟩
    · exact .chain (by simp [Repeats]) (by simp) (.one (by simp [Repeats]) ih) hn
    · exact .chain (by simp [Repeats]) (by simp) (.one (by simp [Repeats]) ih) hn
    · exact .noCompare ih hn
    · exact .chain (by simp [Repeats]) (by simp) (.one (by simp [Repeats]) ih) hn
    · exact .chain (by simp [Repeats]) (by simp) (.one (by simp [Repeats]) ih) hn
    · exact .noUnary ih
    · exact .postfix (.one (by simp [Repeats]) ih) (hp (by omega) (by omega))

/-! ### White space before a phrase -/

theorem blanks_lead {s : List Cell} (w : Blanks s r) (h : Blanks r r') : Blanks s r' := by
  obtain ⟨a, h1, h2⟩ := w
  obtain ⟨b, h3, h4⟩ := h
  exact ⟨a ++ b, h1.append h3, fun c hc => (List.mem_append.1 hc).elim (h2 c) (h4 c)⟩

theorem lex_lead {t : Token} {s : List Cell} (w : Blanks s r) (h : Lex env r t r') : Lex env s t r' := by
  cases h with
  | eof a _ h1 h2 =>
    obtain ⟨b, h3, h4⟩ := blanks_lead w ⟨a, h1, h2⟩
    exact .eof b _ h3 h4
  | eol a _ c _ h1 h2 h5 =>
    obtain ⟨b, h3, h4⟩ := blanks_lead w ⟨a, h1, h2⟩
    exact .eol b _ c _ h3 h4 h5
  | text a _ r1 ty v _ h1 h2 h5 h6 =>
    obtain ⟨b, h3, h4⟩ := blanks_lead w ⟨a, h1, h2⟩
    exact .text b _ _ ty v _ h3 h4 h5 h6

theorem mark_lead {ty : TT} {q : Ast.Pos} {s : List Cell} (w : Blanks s r) (h : Mark env fn r ty q r') : Mark env fn s ty q r' := by
  obtain ⟨t, h1, h2⟩ := h
  exact ⟨t, lex_lead w h1, h2⟩

theorem nameStart_lead {s : List Cell} (w : Blanks s r) (h : NameStart env fn r) : NameStart env fn s := by
  obtain ⟨t, r1, h1, h2⟩ := h
  exact ⟨t, r1, lex_lead w h1, h2⟩

mutual
theorem gram_lead : ∀ {k r e r'}, Gram env fn k r e r' → ∀ {s}, Blanks s r → Gram env fn k s e r'
  | _, _, _, _, .ternary h1 h2 h3 h4 h5, _, w => .ternary (gram_lead h1 w) h2 h3 h4 h5
  | _, _, _, _, .noTernary h h1, _, w => .noTernary (gram_lead h w) h1
  | _, _, _, _, .chain h1 h2 h h3, _, w => .chain h1 h2 (chain_lead h w) h3
  | _, _, _, _, .compare h1 h2 h3 h4, _, w => .compare (gram_lead h1 w) h2 h3 h4
  | _, _, _, _, .noCompare h h1, _, w => .noCompare (gram_lead h w) h1
  | _, _, _, _, .unary h1 h2 h3, _, w => .unary (lex_lead w h1) h2 h3
  | _, _, _, _, .noUnary h, _, w => .noUnary (gram_lead h w)
  | _, _, _, _, .postfix h h1, _, w => .postfix (chain_lead h w) h1
  | _, _, _, _, .lit h1 h2, _, w => .lit (lex_lead w h1) h2
  | _, _, _, _, .dstring h1 h2 h3, _, w => .dstring (blanks_lead w h1) h2 h3
  | _, _, _, _, .sstring h1 h2 h3 h4, _, w => .sstring (blanks_lead w h1) h2 h3 h4
  | _, _, _, _, .list h1 h2, _, w => .list (mark_lead w h1) h2
  | _, _, _, _, .paren h1 h2 h3, _, w => .paren (mark_lead w h1) h2 h3
  | _, _, _, _, .dict h1 h2 h3, _, w => .dict (mark_lead w h1) h2 h3
  | _, _, _, _, .litdict h1 h2 h3, _, w => .litdict (mark_lead w h1) h2 h3
  | _, _, _, _, .lambda h1 h2 h3 h4, _, w => .lambda (h1.imp (mark_lead w) (mark_lead w)) h2 h3 h4
  | _, _, _, _, .name h1 h2 h3 h4, _, w => .name (blanks_lead w h1) (nameStart_lead w h2) h3 h4
  | _, _, _, _, .sid h1 h2 h3 h4, _, w => .sid (blanks_lead w h1) h2 h3 h4
theorem chain_lead : ∀ {k r e r'}, Chain env fn k r e r' → ∀ {s}, Blanks s r → Chain env fn k s e r'
  | _, _, _, _, .one h1 h, _, w => .one h1 (gram_lead h w)
  | _, _, _, _, .op h1 h2 h3 h4 h5, _, w => .op h1 (chain_lead h2 w) h3 h4 h5
  | _, _, _, _, .subscript h1 h2 h3 h4 h5, _, w => .subscript (chain_lead h1 w) h2 h3 h4 h5
  | _, _, _, _, .slice h1 h2 h3 h4 h5 h6 h7, _, w => .slice (chain_lead h1 w) h2 h3 h4 h5 h6 h7
  | _, _, _, _, .method h1 h2 h3 h4 h5 h6, _, w => .method (chain_lead h1 w) h2 h3 h4 h5 h6
  | _, _, _, _, .call h1 h2 h3 h4, _, w => .call (chain_lead h1 w) h2 h3 h4
  | _, _, _, _, .dot h1 h2 h3 h4 h5, _, w => .dot (chain_lead h1 w) h2 h3 h4 h5
end

theorem args_lead {c es} {s : List Cell} (w : Blanks s r) (h : Args env fn c r es r') : Args env fn c s es r' := by
  cases h with
  | nil h => exact .nil (mark_lead w h)
  | last h h1 => exact .last (gram_lead h w) h1
  | cons h h1 h2 => exact .cons (gram_lead h w) h1 h2

theorem pairs_lead {kvs} {s : List Cell} (w : Blanks s r) (h : Pairs env fn false r kvs r') : Pairs env fn false s kvs r' := by
  cases h with
  | nil h => exact .nil (mark_lead w h)
  | last h h1 h2 h3 => cases h with | expr h => exact .last (.expr (gram_lead h w)) h1 h2 h3
  | cons h h1 h2 h3 h4 => cases h with | expr h => exact .cons (.expr (gram_lead h w)) h1 h2 h3 h4

/-- One blank. -/
theorem blank_lineAt (u v : Str) : Blanks (lineAt u (' ' :: v)) (lineAt (u ++ [' ']) v) :=
  ⟨[' '], cut_reads [' '] u v, by decide⟩

theorem lex_lineEnd (u : Str) : Lex env (lineAt u []) ⟨.eol, ['<', 'E', 'O', 'L', '>'], posn u⟩ [] :=
  .eol [] _ _ [] ⟨[], rfl, rfl⟩ (by simp) rfl

/-- A closing token ends every phrase. -/
theorem gram_close {t : Token} {e : Ast.Expr} {k : Nat} (ht : Lex env r' t r'') (hc : Closing t.ty) (h : Gram env fn k r e r')
    (h1 : 1 ≤ k) (h9 : k ≤ 9) : Gram env fn 1 r e r' := by
  refine gram_down ht (k - 1) k 1 (by omega) (Nat.le_refl _) h9 h ?_ (fun _ _ _ _ => Hang.closing_op hc) ?_
  · intro _ _
    rcases hc with e | e | e | e | e | e | e | e <;> rw [e] <;> simp
  · intro _ _
    refine ⟨t, _, ht, ?_, ?_, fun _ => ⟨?_, ?_⟩⟩
    · rcases hc with e | e | e | e | e | e | e | e <;> rw [e] <;> simp
    · rcases hc with e | e | e | e | e | e | e | e <;> rw [e] <;> simp
    · rcases hc with e | e | e | e | e | e | e | e <;> rw [e] <;> simp
    · rintro ⟨h, _⟩
      rcases hc with e | e | e | e | e | e | e | e <;> rw [e] at h <;> cases h

/-- A phrase of any level that takes the whole line. -/
theorem phrase_of_gram {l : Str} {e : Ast.Expr} {k : Nat} (h : Gram (mkEnv [l]) [] k (lineAt [] l) e (lineAt l []))
    (h1 : 1 ≤ k) (h9 : k ≤ 9) : Phrase l e := by
  refine ⟨lineAt l [], [], _, ?_, ⟨[], rfl, rfl⟩, by simp, rfl⟩
  rw [cut_buf]
  exact gram_close (lex_lineEnd l) (by simp [Closing]) h h1 h9

theorem not_op {ty : TT} {i : Nat} {op : Tok} (h : opLevel op = 0) : ¬ IsOp ty i op := by
  intro h1
  cases h1 <;> first | cases h | (rename_i h2 _; rw [h] at h2; cases h2)

theorem lex1 {u b : Str} {c : Char} {ty : TT} (h : Lexeme ty [c] (lineAt (u ++ [c]) b)) :
    Lex env (lineAt u (c :: b)) ⟨ty, [c], posn u⟩ (lineAt (u ++ [c]) b) := by
  have := mark_cut (env := env) (u := u) (w := []) (v := [c]) (b := b) (ty := ty) (by simp) (by simpa using h)
  simp only [List.nil_append, List.append_nil] at this
  exact this

/-- One token that is one character. -/
theorem mark1 {u b : Str} {c : Char} {ty : TT} (h : Lexeme ty [c] (lineAt (u ++ [c]) b)) :
    Mark env fn (lineAt u (c :: b)) ty (posAt fn (bytes u)) (lineAt (u ++ [c]) b) :=
  ⟨_, lex1 h, rfl, rfl⟩

end

section
variable {env : Env} {fn : Str} {l : Str} {e : Ast.Expr}

/-- A phrase and a closing bracket. -/
theorem Spec.Phrase.mark1 (h : Phrase l e) (hp : Plain l) {a b : Str} {c : Char} {ty : TT} (hc : c ∈ closers)
    (ht : Lexeme ty [c] (lineAt (a ++ l ++ [c]) b)) (hty : Closing ty) :
    ∃ r', Gram env fn 1 (lineAt a (l ++ (c :: b))) (e.onPos (moveTo fn (bytes a))) r' ∧
      Mark env fn r' ty (posAt fn (bytes (a ++ l))) (lineAt (a ++ l ++ [c]) b) := by
  have := h.mark (env := env) (fn := fn) (a := a) (b := b) (w := []) (v := [c]) (ty := ty) (by simp) hp ⟨c, hc, [], rfl⟩
    (by simpa using ht) hty
  simpa using this

/-- A phrase in parentheses, after white space. -/
theorem Spec.Phrase.paren (h : Phrase l e) (hp : Plain l) (a : Str) {w : Str} (hw : ∀ c ∈ w, iswhite c = true) (b : Str) :
    Gram env fn 9 (lineAt a (w ++ '(' :: (l ++ (')' :: b))))
      (.paren (posAt fn (bytes (a ++ w))) (e.onPos (moveTo fn (bytes (a ++ w) + 1))))
      (lineAt (a ++ w ++ ['('] ++ l ++ [')']) b) := by
  obtain ⟨r', h1, h2⟩ := h.mark1 (env := env) (fn := fn) hp (a := a ++ w ++ ['(']) (b := b) (c := ')') (by decide) (.pclose _)
    (by simp [Closing])
  have e1 : bytes (a ++ w ++ ['(']) = bytes (a ++ w) + 1 := by count
  rw [e1] at h1
  have h0 := mark_cut (env := env) (u := a) (w := w) (v := ['(']) (b := l ++ (')' :: b)) hw (.popen _)
  simp only [List.append_assoc, List.cons_append, List.nil_append] at h0 h1 h2 ⊢
  exact .paren ⟨_, h0, rfl, rfl⟩ h1 h2

/-- What stands behind a phrase in parentheses, after a blank. -/
theorem paren_next {t : Token} {e : Ast.Expr} {k : Nat} {r r' r'' : List Cell} (h : Gram env fn 9 r e r') (ht : Lex env r' t r'')
    (hw : (headSym r').is iswhite = true) (h1 : t.ty ≠ .popen) (h2 : t.ty ≠ .arrow)
    (ho : ∀ i, k ≤ i → ∀ op, ¬ IsOp t.ty i op) (hk : 1 < k) (hk9 : k ≤ 9) : Gram env fn k r e r' := by
  refine gram_down ht (9 - k) 9 k (by omega) (by omega) (Nat.le_refl _) h (by omega) (fun i hi _ => ho i hi) ?_
  intro _ _
  refine ⟨t, _, ht, h1, h2, fun h => ?_⟩
  rw [hw] at h
  cases h

end

section
variable {l l1 l2 : Str} {e e1 e2 : Ast.Expr}

theorem phrase_paren (h : Phrase l e) (hp : Plain l) :
    Phrase (cs!"(" ++ l ++ cs!")") (.paren (posAt [] 0) (e.onPos (moveTo [] 1))) := by
  refine phrase_of_gram (k := 9) ?_ (by omega) (by omega)
  have := h.paren (env := mkEnv [cs!"(" ++ l ++ cs!")"]) (fn := []) hp [] (w := []) (by simp) []
  simp only [List.cons_append, List.nil_append] at this ⊢
  exact this

theorem phrase_unary {op : Tok} (h : Phrase l e) (hp : Plain l) (ho : op = .NOT ∨ op = .MINUS ∨ op = .PLUS) :
    Phrase (op.str ++ cs!"(" ++ l ++ cs!")") (.unary (posAt [] 0) op (.paren (posAt [] 1) (e.onPos (moveTo [] 2)))) := by
  have key : ∃ c ty, op.str = [c] ∧ IsUn ty op ∧ runeLen c = 1 ∧ ∀ r, headSym r = .ch '(' → Lexeme ty [c] r := by
    rcases ho with rfl | rfl | rfl
    · exact ⟨'!', .not_, rfl, .not_, rfl, fun r h => .not_ r (by simp [h]) (by simp [h])⟩
    · exact ⟨'-', .minus, rfl, .minus, rfl, fun r h => .minus r (by simp [h])⟩
    · exact ⟨'+', .plus, rfl, .plus, rfl, fun r h => .plus r⟩
  obtain ⟨c, ty, hs, hu, hb, hl⟩ := key
  have hb : bytes [c] = 1 := by rw [← runeLen_bytes, hb]
  rw [hs]
  generalize hL : [c] ++ cs!"(" ++ l ++ cs!")" = L
  have h1 := h.paren (env := mkEnv [L]) (fn := []) hp [c] (w := []) (by simp) []
  refine phrase_of_gram (k := 7) ?_ (by omega) (by omega)
  obtain ⟨t, m1, m2, m3⟩ := Viml.mark1 (env := mkEnv [L]) (fn := []) (u := []) (b := '(' :: (l ++ [')'])) (c := c)
    (ty := ty) (hl _ rfl)
  have e0 : posAt [] 0 = pubPos [] t.pos := m3
  rw [e0]
  rw [List.append_nil, hb] at h1
  have hL2 : L = c :: '(' :: (l ++ [')']) := by rw [← hL]; simp
  rw [show lineAt [] L = lineAt [] (c :: '(' :: (l ++ [')'])) by rw [hL2]]
  refine .unary m1 (by rw [m2]; exact hu) ?_
  simp only [List.cons_append, List.nil_append] at h1 ⊢
  rw [← hL2] at h1
  exact gram_down (lex_lineEnd _) 2 9 7 rfl (by omega) (by omega) h1 (by omega)
    (fun i _ _ op => Hang.closing_op (by simp [Closing]))
    (fun _ _ => ⟨_, _, lex_lineEnd _, by simp, by simp, by simp⟩)

/-- The token of a binary operator. -/
theorem op_token {op : Tok} (h : 2 ≤ opLevel op) : ∃ ty, IsOp ty (opLevel op) op ∧ ty ≠ .popen ∧ ty ≠ .arrow ∧
    ∀ r, headSym r = .ch ' ' → Lexeme ty op.str r := by
  have cmp : ∀ (k : CmpK) (m : CaseM), opLevel op = 4 → op.str = cmpText k ++ caseText m → ∃ ty, IsOp ty (opLevel op) op ∧
      ty ≠ .popen ∧ ty ≠ .arrow ∧ ∀ r, headSym r = .ch ' ' → Lexeme ty op.str r := by
    intro k m h4 hs
    refine ⟨.cmp k m, by rw [h4]; exact .cmp k m op h4 hs, by simp, by simp, fun r hr => ?_⟩
    rw [hs]
    by_cases hm : m = .plain
    · subst hm
      simp only [caseText, List.append_nil]
      exact .cmp k r (by simp [hr]) (by simp [hr]) (by simp [hr]) (by rw [hr]; intro _; rfl)
    · exact .cmpCase k m r hm
  cases op
  case OROR => exact ⟨_, .oror, by simp, by simp, fun r _ => .oror r⟩
  case ANDAND => exact ⟨_, .andand, by simp, by simp, fun r _ => .andand r⟩
  case EQEQ => exact cmp .equal .plain rfl rfl
  case EQEQCI => exact cmp .equal .ci rfl rfl
  case EQEQCS => exact cmp .equal .cs rfl rfl
  case NEQ => exact cmp .nequal .plain rfl rfl
  case NEQCI => exact cmp .nequal .ci rfl rfl
  case NEQCS => exact cmp .nequal .cs rfl rfl
  case GT => exact cmp .greater .plain rfl rfl
  case GTCI => exact cmp .greater .ci rfl rfl
  case GTCS => exact cmp .greater .cs rfl rfl
  case GTEQ => exact cmp .gequal .plain rfl rfl
  case GTEQCI => exact cmp .gequal .ci rfl rfl
  case GTEQCS => exact cmp .gequal .cs rfl rfl
  case LT => exact cmp .smaller .plain rfl rfl
  case LTCI => exact cmp .smaller .ci rfl rfl
  case LTCS => exact cmp .smaller .cs rfl rfl
  case LTEQ => exact cmp .sequal .plain rfl rfl
  case LTEQCI => exact cmp .sequal .ci rfl rfl
  case LTEQCS => exact cmp .sequal .cs rfl rfl
  case MATCH => exact cmp .match_ .plain rfl rfl
  case MATCHCI => exact cmp .match_ .ci rfl rfl
  case MATCHCS => exact cmp .match_ .cs rfl rfl
  case NOMATCH => exact cmp .nomatch .plain rfl rfl
  case NOMATCHCI => exact cmp .nomatch .ci rfl rfl
  case NOMATCHCS => exact cmp .nomatch .cs rfl rfl
  case IS => exact cmp .is_ .plain rfl rfl
  case ISCI => exact cmp .is_ .ci rfl rfl
  case ISCS => exact cmp .is_ .cs rfl rfl
  case ISNOT => exact cmp .isnot .plain rfl rfl
  case ISNOTCI => exact cmp .isnot .ci rfl rfl
  case ISNOTCS => exact cmp .isnot .cs rfl rfl
  case PLUS => exact ⟨_, .plus, by simp, by simp, fun r _ => .plus r⟩
  case MINUS => exact ⟨_, .minus, by simp, by simp, fun r h => .minus r (by simp [h])⟩
  case DOT => exact ⟨_, .dot, by simp, by simp, fun r h => .dot r (by simp [h])⟩
  case STAR => exact ⟨_, .star, by simp, by simp, fun r _ => .star r⟩
  case SLASH => exact ⟨_, .slash, by simp, by simp, fun r _ => .slash r⟩
  case PERCENT => exact ⟨_, .percent, by simp, by simp, fun r _ => .percent r⟩
  all_goals (exfalso; revert h; decide)

theorem phrase_binary {op : Tok} (h1 : Phrase l1 e1) (hp1 : Plain l1) (h2 : Phrase l2 e2) (hp2 : Plain l2) (ho : 2 ≤ opLevel op) :
    Phrase (cs!"(" ++ l1 ++ cs!") " ++ op.str ++ cs!" (" ++ l2 ++ cs!")")
      (.binary (.paren (posAt [] 0) (e1.onPos (moveTo [] 1))) (posAt [] (bytes l1 + 3)) op
        (.paren (posAt [] (bytes l1 + bytes op.str + 4)) (e2.onPos (moveTo [] (bytes l1 + bytes op.str + 5))))) := by
  obtain ⟨ty, o1, o2, o3, o4⟩ := op_token ho
  generalize hL : cs!"(" ++ l1 ++ cs!") " ++ op.str ++ cs!" (" ++ l2 ++ cs!")" = L
  have g1 := h1.paren (env := mkEnv [L]) (fn := []) hp1 [] (w := []) (by simp) (' ' :: (op.str ++ (' ' :: '(' :: (l2 ++ [')']))))
  have tok := mark_cut (env := mkEnv [L]) (u := '(' :: (l1 ++ [')'])) (w := [' ']) (v := op.str)
    (b := ' ' :: '(' :: (l2 ++ [')'])) (ty := ty) (by decide) (o4 _ rfl)
  have g2 := h2.paren (env := mkEnv [L]) (fn := []) hp2 (cs!"(" ++ l1 ++ cs!") " ++ op.str) (w := [' ']) (by decide) []
  have lv : opLevel op ≤ 6 := by cases op <;> decide
  have b1 : bytes (cs!"(" ++ l1 ++ cs!") " ++ op.str ++ [' ']) = bytes l1 + bytes op.str + 4 := by count
  rw [b1] at g2
  simp only [List.append_assoc, List.cons_append, List.nil_append] at g1 g2 tok
  have hL2 : '(' :: (l1 ++ (')' :: ' ' :: (op.str ++ (' ' :: '(' :: (l2 ++ [')']))))) = L := by rw [← hL]; simp
  have g1' := paren_next (k := opLevel op + 1) g1 tok rfl o2 o3
    (fun i hi op' h' => by have := IsOp.level_unique o1 h'; omega) (by omega) (by omega)
  rw [hL2] at g1' g2
  have e0 : bytes ('(' :: (l1 ++ [')', ' '])) = bytes l1 + 3 := by count
  have g2' : Gram (mkEnv [L]) [] (opLevel op + 1) _ _ _ :=
    gram_down (lex_lineEnd _) (8 - opLevel op) 9 (opLevel op + 1) (by omega) (by omega) (by omega) g2 (by omega)
      (fun i _ _ op => Hang.closing_op (by simp [Closing]))
      (fun _ _ => ⟨_, _, lex_lineEnd _, by simp, by simp, by simp⟩)
  have tp : pubPos [] (posn ('(' :: (l1 ++ [')', ' ']))) = posAt [] (bytes l1 + 3) := by rw [pub_posn, e0]
  rw [← tp]
  by_cases h4 : opLevel op = 4
  · rw [h4] at g1' g2' o1
    exact phrase_of_gram (k := 4) (.compare g1' tok o1 g2') (by omega) (by omega)
  · have hr : Repeats (opLevel op) := by unfold Repeats; omega
    refine phrase_of_gram (k := opLevel op) (.chain hr (by omega) (.op hr (.one hr g1') tok o1 g2') ?_) (by omega) (by omega)
    exact ⟨_, _, lex_lineEnd _, fun op => Hang.closing_op (by simp [Closing])⟩

theorem phrase_ternary {l3 : Str} {e3 : Ast.Expr} (h1 : Phrase l1 e1) (hp1 : Plain l1) (h2 : Phrase l2 e2) (hp2 : Plain l2)
    (h3 : Phrase l3 e3) :
    Phrase (cs!"(" ++ l1 ++ cs!") ? " ++ l2 ++ cs!" : " ++ l3)
      (.ternary (posAt [] (bytes l1 + 3)) (.paren (posAt [] 0) (e1.onPos (moveTo [] 1)))
        (e2.onPos (moveTo [] (bytes l1 + 5))) (e3.onPos (moveTo [] (bytes l1 + bytes l2 + 8)))) := by
  generalize hL : cs!"(" ++ l1 ++ cs!") ? " ++ l2 ++ cs!" : " ++ l3 = L
  have g1 := h1.paren (env := mkEnv [L]) (fn := []) hp1 [] (w := []) (by simp) (' ' :: '?' :: ' ' :: (l2 ++ (' ' :: ':' :: ' ' :: l3)))
  have tok := mark_cut (env := mkEnv [L]) (u := '(' :: (l1 ++ [')'])) (w := [' ']) (v := ['?'])
    (b := ' ' :: (l2 ++ (' ' :: ':' :: ' ' :: l3))) (ty := .question) (by decide) (.question _)
  have w1 := blank_lineAt ('(' :: (l1 ++ [')', ' ', '?'])) (l2 ++ (' ' :: ':' :: ' ' :: l3))
  obtain ⟨x, g2, m2⟩ := h2.mark (env := mkEnv [L]) (fn := []) (a := '(' :: (l1 ++ [')', ' ', '?', ' '])) (b := ' ' :: l3)
    (w := [' ']) (v := [':']) (ty := .colon) (by decide) hp2 ⟨' ', by decide, [':'], rfl⟩ (.colon _) (by simp [Closing])
  have w2 := blank_lineAt ('(' :: (l1 ++ (')' :: ' ' :: '?' :: ' ' :: (l2 ++ [' ', ':'])))) l3
  obtain ⟨y, v, g3, m3, hv⟩ := h3.last (env := mkEnv [L]) (fn := []) ('(' :: (l1 ++ (')' :: ' ' :: '?' :: ' ' :: (l2 ++ [' ', ':', ' ']))))
  have hL2 : '(' :: (l1 ++ (')' :: ' ' :: '?' :: ' ' :: (l2 ++ (' ' :: ':' :: ' ' :: l3)))) = L := by rw [← hL]; simp
  have b2 : bytes ('(' :: (l1 ++ [')', ' ', '?', ' '])) = bytes l1 + 5 := by count
  have b3 : bytes ('(' :: (l1 ++ (')' :: ' ' :: '?' :: ' ' :: (l2 ++ [' ', ':', ' '])))) = bytes l1 + bytes l2 + 8 := by count
  rw [b2] at g2
  rw [b3] at g3
  simp only [List.append_assoc, List.cons_append, List.nil_append] at g1 tok w1 g2 m2 w2 g3 m3
  rw [hL2] at m3
  have g1' := paren_next (k := 2) g1 tok rfl (by simp) (by simp) (fun i _ op h => by cases h) (by omega) (by omega)
  have e0 : bytes ('(' :: (l1 ++ [')', ' '])) = bytes l1 + 3 := by count
  have hq : Mark (mkEnv [L]) [] _ .question (posAt [] (bytes l1 + 3)) _ := ⟨_, tok, rfl, by rw [pub_posn, e0]⟩
  refine ⟨y, v, _, ?_, m3, hv, rfl⟩
  rw [cut_buf, show lineAt [] L = lineAt [] ('(' :: (l1 ++ (')' :: ' ' :: '?' :: ' ' :: (l2 ++ (' ' :: ':' :: ' ' :: l3)))))
    by rw [hL2]]
  exact .ternary g1' hq (gram_lead g2 w1) m2 (gram_lead g3 w2)

/-- Phrases with `, ` between them up to a closing bracket. -/
theorem phrase_args {env : Env} {fn : Str} {c : Char} {ty : TT} (hc : c ∈ closers) (ht : ∀ r, Lexeme ty [c] r) (hty : Closing ty) :
    ∀ (xs : List (Str × Ast.Expr)) (a b : Str), (∀ x ∈ xs, Phrase x.1 x.2 ∧ Plain x.1) →
    Args env fn ty (lineAt a (commas xs ++ c :: b)) (movedAll fn (bytes a) xs) (lineAt (a ++ commas xs ++ [c]) b)
  | [], a, b, _ => by
    simp only [commas, movedAll, List.nil_append, List.append_nil]
    exact .nil (Viml.mark1 (ht _))
  | [x], a, b, h => by
    obtain ⟨h1, h2⟩ := h x (by simp)
    obtain ⟨r, g, m⟩ := h1.mark1 (env := env) (fn := fn) h2 (a := a) (b := b) hc (ht _) hty
    exact .last g m
  | x :: y :: xs, a, b, h => by
    obtain ⟨h1, h2⟩ := h x (by simp)
    obtain ⟨r, g, m⟩ := h1.mark1 (env := env) (fn := fn) h2 (a := a) (b := ' ' :: (commas (y :: xs) ++ c :: b)) (c := ',')
      (by decide) (.comma _) (by simp [Closing])
    have ih := phrase_args (env := env) (fn := fn) hc ht hty (y :: xs) (a ++ x.1 ++ [',', ' ']) b (fun z hz => h z (by simp [hz]))
    have w := blank_lineAt (a ++ x.1 ++ [',']) (commas (y :: xs) ++ c :: b)
    have e0 : bytes (a ++ x.1 ++ [',', ' ']) = bytes a + bytes x.1 + 2 := by count
    rw [e0] at ih
    simp only [commas, movedAll, List.append_assoc, List.cons_append, List.nil_append] at g m ih w ⊢
    exact .cons g m (args_lead w ih)

theorem phrase_list {xs : List (Str × Ast.Expr)} (h : ∀ x ∈ xs, Phrase x.1 x.2 ∧ Plain x.1) :
    Phrase (cs!"[" ++ commas xs ++ cs!"]") (.list (posAt [] 0) (movedAll [] 1 xs)) := by
  refine phrase_of_gram (k := 9) ?_ (by omega) (by omega)
  have := phrase_args (env := mkEnv [cs!"[" ++ commas xs ++ cs!"]"]) (fn := []) (c := ']') (ty := .sqclose) (by decide)
    (fun r => .sqclose r) (by simp [Closing]) xs ['['] [] h
  simp only [List.cons_append, List.nil_append] at this ⊢
  exact .list (Viml.mark1 (u := []) (.sqopen _)) this

/-- A name before an opening parenthesis. -/
theorem name_gram {env : Env} {fn f : Str} (hf : PlainName f) (a b : Str) (hb : b.head? = some '(') :
    Gram env fn 9 (lineAt a (f ++ b)) (.ident ⟨posAt fn (bytes a), f⟩) (lineAt (a ++ f) b) := by
  obtain ⟨⟨c, s, rfl, h1, h2⟩, h3⟩ := hf
  have hh : headSym (lineAt (a ++ c :: s) b) = .ch '(' := by
    cases b with
    | nil => cases hb
    | cons d b => cases hb; rfl
  have ht := mark_cut (env := env) (u := a) (w := []) (v := c :: s) (b := b) (ty := .identifier) (by simp)
    (.ident c s _ h1 h2 (by simp only [List.append_nil]; rw [hh]; rfl) h3)
  simp only [List.append_nil, List.nil_append] at ht
  have hr := cut_reads (c :: s) a b
  have hc : isnamec c = true := by
    simp only [iswordc1, Bool.or_eq_true] at h1
    simp only [isnamec, iswordc, isalnum, Bool.or_eq_true]
    rcases h1 with h1 | h1
    · simp [h1]
    · simp [h1]
  have hp : NameParts env fn (lineAt a (c :: s ++ b)) [.curlyNameLit (pubPos fn (posOf env (lineAt a (c :: s ++ b)))) (c :: s)]
      (lineAt (a ++ c :: s) b) := by
    refine .text hr ⟨by simp, ?_⟩ (by rw [hh]; rfl) (.nil (by rw [hh]; rfl) (by simp [hh]))
    intro x hx
    rcases List.mem_cons.1 hx with rfl | hx
    · exact hc
    · exact h2 x hx
  have := Gram.name (env := env) (fn := fn) ⟨[], Reads.nil _, by simp⟩ ⟨_, _, ht, .inl rfl⟩ hp (by simp)
  rw [pub_cut] at this
  exact this

theorem phrase_call {f : Str} {xs : List (Str × Ast.Expr)} (hf : PlainName f) (h : ∀ x ∈ xs, Phrase x.1 x.2 ∧ Plain x.1)
    (hn : xs.length ≤ 20) :
    Phrase (f ++ cs!"(" ++ commas xs ++ cs!")")
      (.call (.ident ⟨posAt [] 0, f⟩) (posAt [] (bytes f)) (movedAll [] (bytes f + 1) xs)) := by
  generalize hL : f ++ cs!"(" ++ commas xs ++ cs!")" = L
  refine phrase_of_gram (k := 8) ?_ (by omega) (by omega)
  have h1 := name_gram (env := mkEnv [L]) (fn := []) hf [] ('(' :: (commas xs ++ [')'])) rfl
  have h2 := phrase_args (env := mkEnv [L]) (fn := []) (c := ')') (ty := .pclose) (by decide)
    (fun r => .pclose r) (by simp [Closing]) xs (f ++ ['(']) [] h
  have h3 := Viml.mark1 (env := mkEnv [L]) (fn := []) (u := f) (b := commas xs ++ [')']) (.popen _)
  have e0 : bytes (f ++ ['(']) = bytes f + 1 := by count
  have len : ∀ (xs : List (Str × Ast.Expr)) n, (movedAll [] n xs).length = xs.length := by
    intro xs
    induction xs with
    | nil => intro _; rfl
    | cons x xs ih => intro _; simp [movedAll, ih]
  rw [e0] at h2
  have hL2 : f ++ '(' :: (commas xs ++ [')']) = L := by rw [← hL]; simp
  simp only [List.append_assoc, List.cons_append, List.nil_append] at h1 h2 h3
  rw [hL2] at h1 h2
  refine .postfix (.call (.one (by simp [Repeats]) h1) h3 h2 (by rw [len]; exact hn)) ?_
  exact ⟨_, _, lex_lineEnd _, by simp, by simp, by simp⟩

theorem phrase_index (h1 : Phrase l1 e1) (hp1 : Plain l1) (h2 : Phrase l2 e2) (hp2 : Plain l2) :
    Phrase (cs!"(" ++ l1 ++ cs!")[" ++ l2 ++ cs!"]") (.subscript (posAt [] (bytes l1 + 2))
      (.paren (posAt [] 0) (e1.onPos (moveTo [] 1))) (e2.onPos (moveTo [] (bytes l1 + 3)))) := by
  generalize hL : cs!"(" ++ l1 ++ cs!")[" ++ l2 ++ cs!"]" = L
  refine phrase_of_gram (k := 8) ?_ (by omega) (by omega)
  have g1 := h1.paren (env := mkEnv [L]) (fn := []) hp1 [] (w := []) (by simp) ('[' :: (l2 ++ [']']))
  have m1 := Viml.mark1 (env := mkEnv [L]) (fn := []) (u := '(' :: (l1 ++ [')'])) (b := l2 ++ [']']) (.sqopen _)
  obtain ⟨r, g2, m2⟩ := h2.mark1 (env := mkEnv [L]) (fn := []) hp2 (a := '(' :: (l1 ++ [')', '['])) (b := []) (c := ']')
    (by decide) (.sqclose _) (by simp [Closing])
  have e0 : bytes ('(' :: (l1 ++ [')'])) = bytes l1 + 2 := by count
  have e1 : bytes ('(' :: (l1 ++ [')', '['])) = bytes l1 + 3 := by count
  rw [e0] at m1
  rw [e1] at g2
  have hL2 : '(' :: (l1 ++ ')' :: '[' :: (l2 ++ [']'])) = L := by rw [← hL]; simp
  simp only [List.append_assoc, List.cons_append, List.nil_append] at g1 m1 g2 m2
  rw [hL2] at g1 m2
  refine .postfix (.subscript (.one (by simp [Repeats]) g1) rfl m1 g2 m2) ?_
  exact ⟨_, _, lex_lineEnd _, by simp, by simp, by simp⟩

theorem phrase_entries {env : Env} {fn : Str} : ∀ (xs : List (Str × Str × Ast.Expr)) (a b : Str),
    (∀ x ∈ xs, '\'' ∉ x.1 ∧ Phrase x.2.1 x.2.2 ∧ Plain x.2.1) →
    Pairs env fn false (lineAt a (entries xs ++ '}' :: b)) (movedEntries fn (bytes a) xs) (lineAt (a ++ entries xs ++ ['}']) b)
  | [], a, b, _ => by
    simp only [entries, movedEntries, List.nil_append, List.append_nil]
    exact .nil (Viml.mark1 (.cclose _))
  | x :: xs, a, b, h => by
    obtain ⟨h0, h1, h2⟩ := h x (by simp)
    have body : SBody x.1 := by
      have : ∀ s : Str, '\'' ∉ s.reverse → SBody s.reverse := by
        intro s
        induction s with
        | nil => intro _; exact .nil
        | cons c s ih =>
          intro hs
          rw [List.reverse_cons] at hs ⊢
          exact .char (ih (fun e => hs (by simp [e]))) (fun e => hs (by simp [e]))
      have := this x.1.reverse
      rw [List.reverse_reverse] at this
      exact this h0
    have key : ∀ z : Str, Key env fn false (lineAt a ('\'' :: (x.1 ++ '\'' :: ':' :: z)))
        (.basicLit (posAt fn (bytes a)) .STRING (cs!"'" ++ x.1 ++ cs!"'")) (lineAt (a ++ cs!"'" ++ x.1 ++ cs!"'") (':' :: z)) := by
      intro z
      have hr := cut_reads (['\''] ++ x.1 ++ ['\'']) a (':' :: z)
      have g := Gram.sstring (env := env) (fn := fn) ⟨[], Reads.nil _, by simp⟩ body hr (by simp [lineAt, headSym, Cell.sym])
      rw [pub_cut] at g
      simp only [List.append_assoc, List.cons_append, List.nil_append] at g ⊢
      exact .expr (gram_close (k := 9) (lex1 (.colon _)) (by simp [Closing]) g (by omega) (by omega))
    have col : ∀ z : Str, Mark env fn (lineAt (a ++ cs!"'" ++ x.1 ++ cs!"'") (':' :: z)) .colon
        (posAt fn (bytes (a ++ cs!"'" ++ x.1 ++ cs!"'"))) (lineAt (a ++ cs!"'" ++ x.1 ++ cs!"'" ++ [':']) z) :=
      fun z => Viml.mark1 (.colon _)
    have w := fun z => blank_lineAt (a ++ cs!"'" ++ x.1 ++ cs!"'" ++ [':']) z
    have e0 : bytes (a ++ cs!"'" ++ x.1 ++ cs!"': ") = bytes a + bytes x.1 + 4 := by count
    cases xs with
    | nil =>
      obtain ⟨r, g, m⟩ := h1.mark1 (env := env) (fn := fn) h2 (a := a ++ cs!"'" ++ x.1 ++ cs!"': ") (b := b) (c := '}')
        (by decide) (.cclose _) (by simp [Closing])
      rw [e0] at g
      have k1 := key (' ' :: (x.2.1 ++ '}' :: b))
      have c1 := col (' ' :: (x.2.1 ++ '}' :: b))
      have w1 := w (x.2.1 ++ '}' :: b)
      simp only [entries, movedEntries, List.append_assoc, List.cons_append, List.nil_append] at g m k1 c1 w1 ⊢
      exact .last k1 c1 (gram_lead g w1) m
    | cons y xs =>
      obtain ⟨r, g, m⟩ := h1.mark1 (env := env) (fn := fn) h2 (a := a ++ cs!"'" ++ x.1 ++ cs!"': ")
        (b := ' ' :: (entries (y :: xs) ++ '}' :: b)) (c := ',') (by decide) (.comma _) (by simp [Closing])
      have ih := phrase_entries (env := env) (fn := fn) (y :: xs) (a ++ cs!"'" ++ x.1 ++ cs!"': " ++ x.2.1 ++ cs!", ") b
        (fun z hz => h z (by simp [hz]))
      have w2 := blank_lineAt (a ++ cs!"'" ++ x.1 ++ cs!"': " ++ x.2.1 ++ [',']) (entries (y :: xs) ++ '}' :: b)
      have e1 : bytes (a ++ cs!"'" ++ x.1 ++ cs!"': " ++ x.2.1 ++ cs!", ") = bytes a + bytes x.1 + 4 + bytes x.2.1 + 2 := by count
      rw [e0] at g
      rw [e1] at ih
      have k1 := key (' ' :: (x.2.1 ++ ',' :: ' ' :: (entries (y :: xs) ++ '}' :: b)))
      have c1 := col (' ' :: (x.2.1 ++ ',' :: ' ' :: (entries (y :: xs) ++ '}' :: b)))
      have w1 := w (x.2.1 ++ ',' :: ' ' :: (entries (y :: xs) ++ '}' :: b))
      rw [entries, movedEntries]
      simp only [List.append_assoc, List.cons_append, List.nil_append] at g m k1 c1 w1 ih w2 ⊢
      exact .cons k1 c1 (gram_lead g w1) m (pairs_lead w2 ih)
      simp

theorem phrase_dict {xs : List (Str × Str × Ast.Expr)} (h : ∀ x ∈ xs, '\'' ∉ x.1 ∧ Phrase x.2.1 x.2.2 ∧ Plain x.2.1) :
    Phrase (cs!"{" ++ entries xs ++ cs!"}") (.dict (posAt [] 0) (movedEntries [] 1 xs)) := by
  generalize hL : cs!"{" ++ entries xs ++ cs!"}" = L
  refine phrase_of_gram (k := 9) ?_ (by omega) (by omega)
  have g := phrase_entries (env := mkEnv [L]) (fn := []) xs ['{'] [] h
  have m := Viml.mark1 (env := mkEnv [L]) (fn := []) (u := []) (b := entries xs ++ ['}']) (.copen _)
  have n : NotLambda (mkEnv [L]) (lineAt ['{'] (entries xs ++ ['}'])) := by
    cases xs with
    | nil =>
      refine ⟨⟨.cclose, ['}'], posn ['{']⟩, _, mark_cut (u := ['{']) (w := []) (v := ['}']) (b := []) (by simp) (.cclose _),
        by simp, .inr (.inr ⟨_, _, lex_lineEnd _, by simp⟩)⟩
    | cons x xs =>
      have : ∃ z, entries (x :: xs) ++ ['}'] = '\'' :: z := by
        cases xs with
        | nil => exact ⟨_, rfl⟩
        | cons y xs => exact ⟨_, by rw [entries]; rfl; simp⟩
      obtain ⟨z, hz⟩ := this
      rw [hz]
      exact ⟨⟨.squote, ['\''], posn ['{']⟩, _, mark_cut (u := ['{']) (w := []) (v := ['\'']) (b := z) (by simp) (.squote _),
        by simp, .inl rfl⟩
  have hL2 : '{' :: (entries xs ++ ['}']) = L := by rw [← hL]; simp
  simp only [List.cons_append, List.nil_append] at g m n
  rw [hL2] at g m
  exact .dict m n g

theorem phrase_lambda {x : Str} (hx : isargname x = true) (hw : x ≠ cs!"is" ∧ x ≠ cs!"isnot") (h : Phrase l e) (hp : Plain l) :
    Phrase (cs!"{" ++ x ++ cs!" -> " ++ l ++ cs!"}")
      (.lambda (posAt [] 0) [⟨posAt [] 1, x⟩] (e.onPos (moveTo [] (bytes x + 5)))) := by
  generalize hL : cs!"{" ++ x ++ cs!" -> " ++ l ++ cs!"}" = L
  refine phrase_of_gram (k := 9) ?_ (by omega) (by omega)
  have m := Viml.mark1 (env := mkEnv [L]) (fn := []) (u := []) (b := x ++ ' ' :: '-' :: '>' :: ' ' :: (l ++ ['}'])) (.copen _)
  obtain ⟨c, s, rfl, h1, h2⟩ : ∃ c s, x = c :: s ∧ iswordc1 c = true ∧ ∀ y ∈ s, iswordc y = true := by
    cases x with
    | nil => cases hx
    | cons c s =>
      simp only [isargname, Bool.and_eq_true, List.all_eq_true] at hx
      exact ⟨c, s, rfl, hx.1, hx.2⟩
  have hnw : ¬ isWord (c :: s) := by
    have hall : ∀ y ∈ c :: s, iswordc y = true := by
      intro y hy
      rcases List.mem_cons.1 hy with rfl | hy
      · simp only [iswordc1, Bool.or_eq_true] at h1
        simp only [iswordc, isalnum, Bool.or_eq_true]
        rcases h1 with h1 | h1 <;> simp [h1]
      · exact h2 y hy
    rintro ⟨o, t, ho, he, ht⟩
    cases t with
    | nil =>
      rw [List.append_nil] at he
      rcases ho with rfl | rfl
      · exact hw.1 he
      · exact hw.2 he
    | cons d t =>
      have := hall d (by rw [he]; simp)
      rw [ht d rfl] at this
      cases this
  have t := mark_cut (env := mkEnv [L]) (u := ['{']) (w := []) (v := c :: s) (b := ' ' :: '-' :: '>' :: ' ' :: (l ++ ['}']))
    (ty := .identifier) (by simp) (.ident c s _ h1 (fun y hy => by simp [isnamec, h2 y hy]) rfl hnw)
  have ar := mark_cut (env := mkEnv [L]) (u := '{' :: c :: s) (w := [' ']) (v := ['-', '>']) (b := ' ' :: (l ++ ['}']))
    (by decide) (.arrow _)
  have w := blank_lineAt ('{' :: c :: (s ++ cs!" ->")) (l ++ ['}'])
  obtain ⟨r, g, m2⟩ := h.mark1 (env := mkEnv [L]) (fn := []) hp (a := '{' :: c :: (s ++ cs!" -> ")) (b := []) (c := '}')
    (by decide) (.cclose _) (by simp [Closing])
  have e0 : bytes ('{' :: c :: (s ++ cs!" -> ")) = bytes (c :: s) + 5 := by count
  rw [e0] at g
  have hL2 : '{' :: c :: (s ++ ' ' :: '-' :: '>' :: ' ' :: (l ++ ['}'])) = L := by rw [← hL]; simp
  simp only [List.append_assoc, List.cons_append, List.nil_append] at m t ar w g m2
  rw [hL2] at m m2
  exact .lambda (.inl m) (.last t rfl hx (by simp) ⟨_, ar, rfl, rfl⟩) (gram_lead g w) m2

end

end Viml
