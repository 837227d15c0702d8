/-
The S-expression of an expression determines it: expressions with the same tree of words are equal up to
positions and parentheses.  Used by C73.
-/
import Verif.Lemmas.ReadableExpr
import Verif.Lemmas.Api

namespace Viml.Readable
open Viml Viml.Spec

/-! ### Parentheses around an expression -/

/-- An expression without the parentheses around it. -/
def up : Ast.Expr → Ast.Expr
  | .paren _ x => up x
  | e => e

def notParen : Ast.Expr → Prop
  | .paren .. => False
  | _ => True

theorem tx_up : ∀ e, tx (up e) = tx e
  | .paren _ x => by simp only [up, tx]; exact tx_up x
  | .ternary .. | .binary .. | .unary .. | .subscript .. | .slice .. | .method .. | .call .. | .dot .. | .basicLit .. | .list ..
  | .dict .. | .curlyName .. | .curlyNameLit .. | .curlyNameExpr .. | .ident .. | .lambda .. | .heredoc .. => rfl

theorem bare_up : ∀ e, bare (up e) = bare e
  | .paren _ x => by simp only [up, bare]; exact bare_up x
  | .ternary .. | .binary .. | .unary .. | .subscript .. | .slice .. | .method .. | .call .. | .dot .. | .basicLit .. | .list ..
  | .dict .. | .curlyName .. | .curlyNameLit .. | .curlyNameExpr .. | .ident .. | .lambda .. | .heredoc .. => rfl

theorem notParen_up : ∀ e, notParen (up e)
  | .paren _ x => by simp only [up]; exact notParen_up x
  | .ternary .. | .binary .. | .unary .. | .subscript .. | .slice .. | .method .. | .call .. | .dot .. | .basicLit .. | .list ..
  | .dict .. | .curlyName .. | .curlyNameLit .. | .curlyNameExpr .. | .ident .. | .lambda .. | .heredoc .. => trivial

theorem q_up : ∀ e, Everywhere Q e → 1 ≤ level e → Everywhere Q (up e) ∧ 1 ≤ level (up e)
  | .paren _ x, h, _ => by simp only [up]; exact q_up x (sub h (by simp [subs])) (self h).prec
  | .ternary .., h, h' | .binary .., h, h' | .unary .., h, h' | .subscript .., h, h' | .slice .., h, h' | .method .., h, h'
  | .call .., h, h' | .dot .., h, h' | .basicLit .., h, h' | .list .., h, h' | .dict .., h, h' | .curlyName .., h, h'
  | .curlyNameLit .., h, h' | .curlyNameExpr .., h, h' | .ident .., h, h' | .lambda .., h, h' | .heredoc .., h, h' => ⟨h, h'⟩

theorem isName_up (n : Str) : ∀ e, isName n (up e) → isName n e
  | .paren _ x, h => by simp only [up] at h; exact isName_up n x h
  | .ternary .., h | .binary .., h | .unary .., h | .subscript .., h | .slice .., h | .method .., h
  | .call .., h | .dot .., h | .basicLit .., h | .list .., h | .dict .., h | .curlyName .., h
  | .curlyNameLit .., h | .curlyNameExpr .., h | .ident .., h | .lambda .., h | .heredoc .., h => h

theorem word_of' {x : Ast.Expr} {w : Str} (h : Everywhere Q x) (hl : 1 ≤ level x) (hn : notParen x) (e : tx x = .word w) :
    (isName w x ∧ NameShape w) ∨ ∃ k, LitShape k w ∧ w ≠ ['@'] := by
  cases x <;> simp only [tx, T.word.injEq, reduceCtorEq] at e <;> first | (simp [level] at hl; done) | skip
  case basicLit q k v => subst e; exact .inr ⟨k, (self h).shape, (self h).clear⟩
  case ident i => subst e; exact .inl ⟨rfl, (self h).shape⟩
  case paren => exact hn.elim

/-- What is a word is a name or a literal. -/
theorem word_of {e : Ast.Expr} {w : Str} (h : Everywhere Q e) (hl : 1 ≤ level e) (e' : tx e = .word w) :
    (isName w e ∧ NameShape w) ∨ ∃ k, LitShape k w ∧ w ≠ ['@'] := by
  obtain ⟨h1, h2⟩ := q_up e h hl
  rcases word_of' h1 h2 (notParen_up e) (by rw [tx_up, e']) with ⟨h3, h4⟩ | h3
  · exact .inl ⟨isName_up w e h3, h4⟩
  · exact .inr h3

/-! ### Kinds of nodes -/

def allOps : List Tok := [.OROR, .ANDAND, .EQEQ, .EQEQCI, .EQEQCS, .NEQ, .NEQCI, .NEQCS, .GT, .GTCI, .GTCS,
  .GTEQ, .GTEQCI, .GTEQCS, .LT, .LTCI, .LTCS, .LTEQ, .LTEQCI, .LTEQCS,
  .MATCH, .MATCHCI, .MATCHCS, .NOMATCH, .NOMATCHCI, .NOMATCHCS,
  .IS, .ISCI, .ISCS, .ISNOT, .ISNOTCI, .ISNOTCS, .PLUS, .MINUS, .DOT, .STAR, .SLASH, .PERCENT]

def binWords : List Str := allOps.map opName

def unWords : List Str := [cs!"!", cs!"-", cs!"+"]

def keyWords : List Str := [cs!"?:", cs!"subscript", cs!"slice", cs!"method", cs!"dot", cs!"list", cs!"dict", cs!"lambda"]

def nodeTag (w : Str) (n : Nat) : Nat :=
  if w = cs!"?:" then 4 else if w = cs!"subscript" then 5 else if w = cs!"slice" then 6 else if w = cs!"method" then 7
  else if w = cs!"dot" then 8 else if w = cs!"list" then 9 else if w = cs!"dict" then 10 else if w = cs!"lambda" then 11
  else if w ∈ unWords ∧ n = 1 then 12 else if w ∈ binWords ∧ n = 2 then 13 else 14

def tagT : T → Nat
  | .word s => if (wordKind s).isSome then 1 else 0
  | .cat _ => 2
  | .brace _ => 3
  | .node (.word w :: l) => nodeTag w l.length
  | .node _ => 14

def tag : Ast.Expr → Nat
  | .ternary .. => 4
  | .binary .. => 13
  | .unary .. => 12
  | .subscript .. => 5
  | .slice .. => 6
  | .method .. => 7
  | .call .. => 14
  | .dot .. => 8
  | .basicLit .. => 1
  | .list .. => 9
  | .dict .. => 10
  | .curlyName .. => 2
  | .ident .. => 0
  | .lambda .. => 11
  | _ => 20

theorem binTag : ∀ op : Tok, 2 ≤ opLevel op → nodeTag (opName op) 2 = 13 := by
  intro op; cases op <;> decide

theorem opName_inj : ∀ a b : Tok, 2 ≤ opLevel a → 2 ≤ opLevel b → opName a = opName b → a = b := by
  have key : ∀ a : Tok, 2 ≤ opLevel a → allOps.find? (fun b => opName b == opName a) = some a := by
    intro a; cases a <;> decide
  intro a b ha hb e
  have h1 := key a ha
  rw [e, key b hb] at h1
  exact (Option.some.inj h1).symm

def nameB (k : Str) : Bool := (k.head?.any iswordc1 && k.all isnamec) || equalci k ['<', 'S', 'I', 'D', '>']

theorem NameShape.bool {k : Str} (h : NameShape k) : nameB k = true := by
  rcases h with ⟨c, s, rfl, h1, h2⟩ | h
  · simp only [nameB, List.head?_cons, Option.any_some, h1, List.all_cons, wordc1_namec h1, Bool.true_and, Bool.or_eq_true,
      List.all_eq_true]
    exact .inl h2
  · simp [nameB, h]

theorem keys_names : ∀ k ∈ keyWords ++ unWords ++ binWords, nameB k = true → k ∈ headWords := by decide

theorem keys_lits : ∀ k ∈ keyWords ++ unWords ++ binWords, wordKind k = none ∨ k = cs!"&&" := by decide

theorem nodeTag_call {w : Str} (n : Nat) (h : w ∉ keyWords ++ unWords ++ binWords) : nodeTag w n = 14 := by
  simp only [List.mem_append, not_or] at h
  obtain ⟨⟨h1, h2⟩, h3⟩ := h
  simp only [keyWords, List.mem_cons, List.not_mem_nil, or_false, not_or] at h1
  simp [nodeTag, h1, h2, h3]

/-- The kind of a node is seen from its S-expression. -/
theorem tag_tx {e : Ast.Expr} (h : Everywhere Q e) (hl : 1 ≤ level e) (hn : notParen e) : tagT (tx e) = tag e := by
  cases e <;> first | (simp [level] at hl; done) | exact hn.elim | (simp only [tx, tagT, tag]; done) | skip
  case ternary => rfl
  case binary l q op r =>
    simp only [tx, tagT, tag, List.length_cons, List.length_nil]
    exact binTag op (self h).prec.1
  case unary q op x =>
    simp only [tx, tagT, tag, List.length_cons, List.length_nil]
    rcases (self h).prec.1 with rfl | rfl | rfl <;> decide
  case subscript => rfl
  case slice => rfl
  case method => rfl
  case dot => rfl
  case list => rfl
  case dict => rfl
  case lambda => rfl
  case basicLit q k v =>
    simp only [tx, tagT, tag, (lit_word (k := k) (self h).shape (self h).clear).2.1, Option.isSome_some, if_true]
  case ident i =>
    simp only [tx, tagT, tag, (name_word (self h).shape).2, Option.isSome_none, Bool.false_eq_true, if_false]
  case call f q as =>
    have hf : Everywhere Q f := sub h (by simp [subs])
    have hlf : 1 ≤ level f := by have := (self h).prec.1; omega
    have hc : ∀ n ∈ headWords, ¬ isName n f := (self h).clear
    simp only [tx, tag]
    cases ht : tx f with
    | word w =>
      simp only [tagT]
      refine nodeTag_call _ fun hw => ?_
      rcases word_of hf hlf ht with ⟨h1, h2⟩ | ⟨k, h1, h2⟩
      · exact hc w (keys_names w hw (NameShape.bool h2)) h1
      · obtain ⟨_, h3, h4⟩ := lit_word h1 h2
        rcases keys_lits w hw with h5 | h5
        · rw [h5] at h3; cases h3
        · exact h4 h5
    | cat => rfl
    | brace => rfl
    | node => rfl

/-! ### Injectivity -/

theorem txs_length : ∀ l, (txs l).length = l.length
  | [] => rfl
  | e :: es => by simp [txs, txs_length es]

/-- Statement of the main theorem, for the second expression without parentheses. -/
theorem tag_eq {a b : Ast.Expr} (ha : Everywhere Q a) (hla : 1 ≤ level a) (hna : notParen a) (hb : Everywhere Q b)
    (hlb : 1 ≤ level b) (hnb : notParen b) (e : tx a = tx b) : tag a = tag b := by
  rw [← tag_tx ha hla hna, ← tag_tx hb hlb hnb, e]

mutual

theorem inj : ∀ a : Ast.Expr, Everywhere Q a → 1 ≤ level a → ∀ b, Everywhere Q b → 1 ≤ level b → notParen b → tx a = tx b →
    bare a = bare b
  | .paren _ x, ha, _, b, hb, hlb, hn, e => by
    simp only [tx] at e
    simp only [bare]
    exact inj x (sub ha (by simp [subs])) (self ha).prec b hb hlb hn e
  | .ternary q c l r, ha, hla, b, hb, hlb, hn, e => by
    have ht := tag_eq ha hla trivial hb hlb hn e
    cases b <;> first | (simp [tag] at ht; done) | skip
    case ternary q' c' l' r' =>
      obtain ⟨p1, p2, p3⟩ := (self ha).prec
      obtain ⟨p1', p2', p3'⟩ := (self hb).prec
      simp only [tx, T.node.injEq, List.cons.injEq, true_and, and_true] at e
      simp only [bare]
      rw [injU c (sub ha (by simp [subs])) (by omega) c' (sub hb (by simp [subs])) (by omega) e.1,
        injU l (sub ha (by simp [subs])) p2 l' (sub hb (by simp [subs])) p2' e.2.1,
        injU r (sub ha (by simp [subs])) p3 r' (sub hb (by simp [subs])) p3' e.2.2]
  | .binary l q op r, ha, hla, b, hb, hlb, hn, e => by
    have ht := tag_eq ha hla trivial hb hlb hn e
    cases b <;> first | (simp [tag] at ht; done) | skip
    case binary l' q' op' r' =>
      obtain ⟨p1, p2, p3⟩ := (self ha).prec
      obtain ⟨p1', p2', p3'⟩ := (self hb).prec
      have h1 : 1 ≤ leftLevel op := by unfold leftLevel; split <;> omega
      have h2 : 1 ≤ leftLevel op' := by unfold leftLevel; split <;> omega
      simp only [tx, T.node.injEq, List.cons.injEq, T.word.injEq, and_true] at e
      simp only [bare]
      rw [opName_inj op op' p1 p1' e.1,
        injU l (sub ha (by simp [subs])) (by omega) l' (sub hb (by simp [subs])) (by omega) e.2.1,
        injU r (sub ha (by simp [subs])) (by omega) r' (sub hb (by simp [subs])) (by omega) e.2.2]
  | .unary q op x, ha, hla, b, hb, hlb, hn, e => by
    have ht := tag_eq ha hla trivial hb hlb hn e
    cases b <;> first | (simp [tag] at ht; done) | skip
    case unary q' op' x' =>
      obtain ⟨p1, p2⟩ := (self ha).prec
      obtain ⟨p1', p2'⟩ := (self hb).prec
      simp only [tx, T.node.injEq, List.cons.injEq, T.word.injEq, and_true] at e
      have ho : op = op' := by
        have e1 := e.1
        rcases p1 with rfl | rfl | rfl <;> rcases p1' with rfl | rfl | rfl <;> first | rfl | exact absurd e1 (by decide)
      simp only [bare]
      rw [ho, injU x (sub ha (by simp [subs])) (by omega) x' (sub hb (by simp [subs])) (by omega) e.2]
  | .subscript q l r, ha, hla, b, hb, hlb, hn, e => by
    have ht := tag_eq ha hla trivial hb hlb hn e
    cases b <;> first | (simp [tag] at ht; done) | skip
    case subscript q' l' r' =>
      obtain ⟨p1, p2⟩ := (self ha).prec
      obtain ⟨p1', p2'⟩ := (self hb).prec
      simp only [tx, T.node.injEq, List.cons.injEq, true_and, and_true] at e
      simp only [bare]
      rw [injU l (sub ha (by simp [subs])) (by omega) l' (sub hb (by simp [subs])) (by omega) e.1,
        injU r (sub ha (by simp [subs])) p2 r' (sub hb (by simp [subs])) p2' e.2]
  | .slice x q lo hi, ha, hla, b, hb, hlb, hn, e => by
    have ht := tag_eq ha hla trivial hb hlb hn e
    cases b <;> first | (simp [tag] at ht; done) | skip
    case slice x' q' lo' hi' =>
      obtain ⟨p1, p2, p3⟩ := (self ha).prec
      obtain ⟨p1', p2', p3'⟩ := (self hb).prec
      obtain ⟨c1, c2⟩ := (self ha).clear
      obtain ⟨c1', c2'⟩ := (self hb).clear
      simp only [tx, T.node.injEq, List.cons.injEq, true_and, and_true] at e
      simp only [bare]
      rw [injU x (sub ha (by simp [subs])) (by omega) x' (sub hb (by simp [subs])) (by omega) e.1,
        injNil lo (fun e he => sub ha (by simp [subs, he])) p2 c1 lo' (fun e he => sub hb (by simp [subs, he])) p2' c1' e.2.1,
        injNil hi (fun e he => sub ha (by simp [subs, he])) p3 c2 hi' (fun e he => sub hb (by simp [subs, he])) p3' c2' e.2.2]
  | .method l m q as, ha, hla, b, hb, hlb, hn, e => by
    have ht := tag_eq ha hla trivial hb hlb hn e
    cases b <;> first | (simp [tag] at ht; done) | skip
    case method l' m' q' as' =>
      obtain ⟨p1, p2, p3⟩ := (self ha).prec
      obtain ⟨p1', p2', p3'⟩ := (self hb).prec
      simp only [tx, T.node.injEq, List.cons.injEq, true_and, and_true] at e
      simp only [bare]
      rw [injU l (sub ha (by simp [subs])) (by omega) l' (sub hb (by simp [subs])) (by omega) e.1,
        injU m (sub ha (by simp [subs])) (by omega) m' (sub hb (by simp [subs])) (by omega) e.2.1,
        injL as (fun e he => sub ha (by simp [subs, he])) p3 as' (fun e he => sub hb (by simp [subs, he])) p3' e.2.2]
  | .call f q as, ha, hla, b, hb, hlb, hn, e => by
    have ht := tag_eq ha hla trivial hb hlb hn e
    cases b <;> first | (simp [tag] at ht; done) | skip
    case call f' q' as' =>
      obtain ⟨p1, p3⟩ := (self ha).prec
      obtain ⟨p1', p3'⟩ := (self hb).prec
      simp only [tx, T.node.injEq, List.cons.injEq] at e
      simp only [bare]
      rw [injU f (sub ha (by simp [subs])) (by omega) f' (sub hb (by simp [subs])) (by omega) e.1,
        injL as (fun e he => sub ha (by simp [subs, he])) p3 as' (fun e he => sub hb (by simp [subs, he])) p3' e.2]
  | .dot l q i, ha, hla, b, hb, hlb, hn, e => by
    have ht := tag_eq ha hla trivial hb hlb hn e
    cases b <;> first | (simp [tag] at ht; done) | skip
    case dot l' q' i' =>
      obtain ⟨p1, p2⟩ := (self ha).prec
      obtain ⟨p1', p2'⟩ := (self hb).prec
      simp only [tx, T.node.injEq, List.cons.injEq, true_and, and_true, T.word.injEq] at e
      simp only [bare]
      rw [injU l (sub ha (by simp [subs])) (by omega) l' (sub hb (by simp [subs])) (by omega) e.1, e.2]
  | .basicLit q k v, ha, hla, b, hb, hlb, hn, e => by
    have ht := tag_eq ha hla trivial hb hlb hn e
    cases b <;> first | (simp [tag] at ht; done) | skip
    case basicLit q' k' v' =>
      simp only [tx, T.word.injEq] at e
      subst e
      have h1 := (lit_word (k := k) (self ha).shape (self ha).clear).2.1
      have h2 := (lit_word (k := k') (self hb).shape (self hb).clear).2.1
      rw [h1] at h2
      cases h2
      simp only [bare]
  | .list q vs, ha, hla, b, hb, hlb, hn, e => by
    have ht := tag_eq ha hla trivial hb hlb hn e
    cases b <;> first | (simp [tag] at ht; done) | skip
    case list q' vs' =>
      simp only [tx, T.node.injEq, List.cons.injEq, true_and] at e
      simp only [bare]
      rw [injL vs (fun e he => sub ha (by simp [subs, he])) (self ha).prec vs' (fun e he => sub hb (by simp [subs, he])) (self hb).prec e]
  | .dict q kvs, ha, hla, b, hb, hlb, hn, e => by
    have ht := tag_eq ha hla trivial hb hlb hn e
    cases b <;> first | (simp [tag] at ht; done) | skip
    case dict q' kvs' =>
      have p : ∀ kv ∈ kvs, 1 ≤ level kv.1 ∧ 1 ≤ level kv.2 := (self ha).prec
      have p' : ∀ kv ∈ kvs', 1 ≤ level kv.1 ∧ 1 ≤ level kv.2 := (self hb).prec
      simp only [tx, T.node.injEq, List.cons.injEq, true_and] at e
      simp only [bare]
      rw [injP kvs (fun e he => key ha (List.mem_map_of_mem he)) (fun e he => sub ha (List.mem_map_of_mem he)) p
        kvs' (fun e he => key hb (List.mem_map_of_mem he)) (fun e he => sub hb (List.mem_map_of_mem he)) p' e]
  | .curlyName q ps, ha, hla, b, hb, hlb, hn, e => by
    have ht := tag_eq ha hla trivial hb hlb hn e
    cases b <;> first | (simp [tag] at ht; done) | skip
    case curlyName q' ps' =>
      simp only [tx, T.cat.injEq] at e
      simp only [bare]
      rw [injC ps (fun e he => sub ha (by simp [subs, he])) (self ha).prec.2 ps' (fun e he => sub hb (by simp [subs, he]))
        (self hb).prec.2 e]
  | .ident i, ha, hla, b, hb, hlb, hn, e => by
    have ht := tag_eq ha hla trivial hb hlb hn e
    cases b <;> first | (simp [tag] at ht; done) | skip
    case ident i' =>
      simp only [tx, T.word.injEq] at e
      simp only [bare, e]
  | .lambda q ps x, ha, hla, b, hb, hlb, hn, e => by
    have ht := tag_eq ha hla trivial hb hlb hn e
    cases b <;> first | (simp [tag] at ht; done) | skip
    case lambda q' ps' x' =>
      simp only [tx, T.node.injEq, List.cons.injEq, true_and, and_true] at e
      have h1 : ps.map (·.name) = ps'.map (·.name) := by
        have := congrArg (List.map fun t => match t with | T.word s => s | _ => []) e.1
        simpa [Function.comp_def] using this
      have h2 : ∀ ps : List Ast.Ident, (ps.map fun i => (⟨⟨0, 0, 0, []⟩, i.name⟩ : Ast.Ident)) =
          (ps.map (·.name)).map fun n => ⟨⟨0, 0, 0, []⟩, n⟩ := by intro ps; simp [Function.comp_def]
      simp only [bare]
      rw [injU x (sub ha (by simp [subs])) (self ha).prec x' (sub hb (by simp [subs])) (self hb).prec e.2, h2, h2, h1]
  | .curlyNameLit .., _, h, _, _, _, _, _ => absurd h (by simp [level])
  | .curlyNameExpr .., _, h, _, _, _, _, _ => absurd h (by simp [level])
  | .heredoc .., _, h, _, _, _, _, _ => absurd h (by simp [level])

theorem injU : ∀ a : Ast.Expr, Everywhere Q a → 1 ≤ level a → ∀ b, Everywhere Q b → 1 ≤ level b → tx a = tx b → bare a = bare b :=
  fun a ha hla b hb hlb e => by
    obtain ⟨h1, h2⟩ := q_up b hb hlb
    rw [← bare_up b]
    exact inj a ha hla (up b) h1 h2 (notParen_up b) (by rw [tx_up, e])

theorem injNil : ∀ a : Option Ast.Expr, (∀ e, a = some e → Everywhere Q e) → (∀ e, a = some e → 1 ≤ level e) →
    (∀ e, a = some e → ¬ isName cs!"nil" e) → ∀ b : Option Ast.Expr, (∀ e, b = some e → Everywhere Q e) →
    (∀ e, b = some e → 1 ≤ level e) → (∀ e, b = some e → ¬ isName cs!"nil" e) → txNil a = txNil b → bareO a = bareO b
  | none, _, _, _, none, _, _, _, _ => rfl
  | none, _, _, _, some y, h, h', h'', e => by
    simp only [txNil] at e
    rcases word_of (h y rfl) (h' y rfl) e.symm with ⟨h1, _⟩ | ⟨k, h1, h2⟩
    · exact absurd h1 (h'' y rfl)
    · exact absurd (lit_word h1 h2).2.1 (by simp [wordKind, show isdigit 'n' = false from rfl])
  | some x, h, h', h'', none, _, _, _, e => by
    simp only [txNil] at e
    rcases word_of (h x rfl) (h' x rfl) e with ⟨h1, _⟩ | ⟨k, h1, h2⟩
    · exact absurd h1 (h'' x rfl)
    · exact absurd (lit_word h1 h2).2.1 (by simp [wordKind, show isdigit 'n' = false from rfl])
  | some x, ha, hla, _, some y, hb, hlb, _, e => by
    simp only [txNil] at e
    simp only [bareO]
    rw [injU x (ha x rfl) (hla x rfl) y (hb y rfl) (hlb y rfl) e]

theorem injL : ∀ a : List Ast.Expr, (∀ e ∈ a, Everywhere Q e) → (∀ e ∈ a, 1 ≤ level e) → ∀ b : List Ast.Expr,
    (∀ e ∈ b, Everywhere Q e) → (∀ e ∈ b, 1 ≤ level e) → txs a = txs b → bareL a = bareL b
  | [], _, _, [], _, _, _ => rfl
  | [], _, _, _ :: _, _, _, e => by simp [txs] at e
  | _ :: _, _, _, [], _, _, e => by simp [txs] at e
  | x :: a, ha, hla, y :: b, hb, hlb, e => by
    simp only [txs, List.cons.injEq] at e
    simp only [bareL]
    rw [injU x (ha x (by simp)) (hla x (by simp)) y (hb y (by simp)) (hlb y (by simp)) e.1,
      injL a (fun e he => ha e (by simp [he])) (fun e he => hla e (by simp [he])) b (fun e he => hb e (by simp [he]))
        (fun e he => hlb e (by simp [he])) e.2]

theorem injP : ∀ a : List (Ast.Expr × Ast.Expr), (∀ kv ∈ a, Everywhere Q kv.1) → (∀ kv ∈ a, Everywhere Q kv.2) →
    (∀ kv ∈ a, 1 ≤ level kv.1 ∧ 1 ≤ level kv.2) → ∀ b : List (Ast.Expr × Ast.Expr), (∀ kv ∈ b, Everywhere Q kv.1) →
    (∀ kv ∈ b, Everywhere Q kv.2) → (∀ kv ∈ b, 1 ≤ level kv.1 ∧ 1 ≤ level kv.2) → txPairs a = txPairs b → bareP a = bareP b
  | [], _, _, _, [], _, _, _, _ => rfl
  | [], _, _, _, _ :: _, _, _, _, e => by simp [txPairs] at e
  | _ :: _, _, _, _, [], _, _, _, e => by simp [txPairs] at e
  | (k, v) :: a, h1, h2, h3, (k', v') :: b, h1', h2', h3', e => by
    simp only [txPairs, List.cons.injEq, T.node.injEq, and_true] at e
    simp only [bareP]
    rw [injU k (h1 (k, v) (by simp)) (h3 (k, v) (by simp)).1 k' (h1' (k', v') (by simp)) (h3' (k', v') (by simp)).1 e.1.1,
      injU v (h2 (k, v) (by simp)) (h3 (k, v) (by simp)).2 v' (h2' (k', v') (by simp)) (h3' (k', v') (by simp)).2 e.1.2,
      injP a (fun e he => h1 e (by simp [he])) (fun e he => h2 e (by simp [he])) (fun e he => h3 e (by simp [he])) b
        (fun e he => h1' e (by simp [he])) (fun e he => h2' e (by simp [he])) (fun e he => h3' e (by simp [he])) e.2]

theorem injC : ∀ a : List Ast.Expr, (∀ e ∈ a, Everywhere Q e) →
    (∀ p ∈ a, (∃ q v, p = .curlyNameLit q v) ∨ ∃ q e, p = .curlyNameExpr q e) → ∀ b : List Ast.Expr,
    (∀ e ∈ b, Everywhere Q e) → (∀ p ∈ b, (∃ q v, p = .curlyNameLit q v) ∨ ∃ q e, p = .curlyNameExpr q e) → txs a = txs b →
    bareL a = bareL b
  | [], _, _, [], _, _, _ => rfl
  | [], _, _, _ :: _, _, _, e => by simp [txs] at e
  | _ :: _, _, _, [], _, _, e => by simp [txs] at e
  | .curlyNameLit q v :: a, ha, hla, y :: b, hb, hlb, e => by
    simp only [txs, List.cons.injEq] at e
    have ih := injC a (fun e he => ha e (by simp [he])) (fun e he => hla e (by simp [he])) b (fun e he => hb e (by simp [he]))
        (fun e he => hlb e (by simp [he])) e.2
    rcases hlb y (by simp) with ⟨q', v', rfl⟩ | ⟨q', x, rfl⟩
    · simp only [tx, T.word.injEq] at e
      simp only [bareL, bare, e.1, ih]
    · simp only [tx, reduceCtorEq, false_and] at e
  | .curlyNameExpr q x :: a, ha, hla, y :: b, hb, hlb, e => by
    simp only [txs, List.cons.injEq] at e
    have ih := injC a (fun e he => ha e (by simp [he])) (fun e he => hla e (by simp [he])) b (fun e he => hb e (by simp [he]))
        (fun e he => hlb e (by simp [he])) e.2
    rcases hlb y (by simp) with ⟨q', v', rfl⟩ | ⟨q', z, rfl⟩
    · simp only [tx, reduceCtorEq, false_and] at e
    · simp only [tx, T.brace.injEq] at e
      have h1 := ha _ (List.mem_cons_self ..)
      have h2 := hb _ (List.mem_cons_self ..)
      simp only [bareL, bare, ih]
      rw [injU x (sub h1 (by simp [subs])) (self h1).prec z (sub h2 (by simp [subs])) (self h2).prec e.1]
  | .ternary .. :: _, _, h, _, _, _, _ | .binary .. :: _, _, h, _, _, _, _ | .unary .. :: _, _, h, _, _, _, _
  | .subscript .. :: _, _, h, _, _, _, _ | .slice .. :: _, _, h, _, _, _, _ | .method .. :: _, _, h, _, _, _, _
  | .call .. :: _, _, h, _, _, _, _ | .dot .. :: _, _, h, _, _, _, _ | .basicLit .. :: _, _, h, _, _, _, _
  | .list .. :: _, _, h, _, _, _, _ | .dict .. :: _, _, h, _, _, _, _ | .curlyName .. :: _, _, h, _, _, _, _
  | .ident .. :: _, _, h, _, _, _, _ | .lambda .. :: _, _, h, _, _, _, _ | .paren .. :: _, _, h, _, _, _, _
  | .heredoc .. :: _, _, h, _, _, _, _ => by
    have := h _ (List.mem_cons_self ..)
    simp at this

end

theorem all_noHere {e : Ast.Expr} (h : Everywhere Q e) : Everywhere noHere e :=
  h.imp fun e h => by
    have := h.prec
    cases e <;> simp_all [noHere, precOK]

end Viml.Readable
