/-
The S-expression of an expression determines it, up to positions and parentheses.  Used by C73.
-/
import Verif.Lemmas.Readable

namespace Viml.Readable
open Viml Viml.Spec

/-! ### Expressions as S-expressions -/

mutual

def tx : Ast.Expr → T
  | .ternary _ c l r => .node [.word cs!"?:", tx c, tx l, tx r]
  | .binary l _ op r => .node [.word (opName op), tx l, tx r]
  | .unary _ op x => .node [.word op.str, tx x]
  | .subscript _ l r => .node [.word cs!"subscript", tx l, tx r]
  | .slice x _ lo hi => .node [.word cs!"slice", tx x, txNil lo, txNil hi]
  | .method l m _ as => .node [.word cs!"method", tx l, .node (tx m :: txs as)]
  | .call f _ as => .node (tx f :: txs as)
  | .dot l _ i => .node [.word cs!"dot", tx l, .word i.name]
  | .basicLit _ _ v => .word v
  | .list _ vs => .node (.word cs!"list" :: txs vs)
  | .dict _ kvs => .node (.word cs!"dict" :: txPairs kvs)
  | .curlyName _ ps => .cat (txs ps)
  | .curlyNameLit _ v => .word v
  | .curlyNameExpr _ e => .brace (tx e)
  | .ident i => .word i.name
  | .lambda _ ps e => .node [.word cs!"lambda", .node (ps.map fun i => .word i.name), tx e]
  | .paren _ x => tx x
  | .heredoc .. => .word []

def txNil : Option Ast.Expr → T
  | none => .word cs!"nil"
  | some e => tx e

def txs : List Ast.Expr → List T
  | [] => []
  | e :: es => tx e :: txs es

def txPairs : List (Ast.Expr × Ast.Expr) → List T
  | [] => []
  | (k, v) :: kvs => .node [tx k, tx v] :: txPairs kvs

end

theorem texts_congr : ∀ {l : List T} {l' : List SX}, l.map T.text = l'.map SX.text → T.texts l = SX.texts l'
  | [], [], _ => rfl
  | [x], [y], h => by simpa [T.texts, SX.texts] using h
  | x :: z :: l, y :: w :: l', h => by
    obtain ⟨h1, h2⟩ := List.cons.inj h
    have := texts_congr (l := z :: l) (l' := w :: l') h2
    simp only [T.texts, SX.texts, h1, this]
  | [], _ :: _, h => by cases h
  | _ :: _, [], h => by cases h
  | [_], _ :: _ :: _, h => by simp at h
  | _ :: _ :: _, [_], h => by simp at h

theorem node_congr {l : List T} {l' : List SX} (h : l.map T.text = l'.map SX.text) : (T.node l).text = (SX.list l').text := by
  simp only [T.text, SX.text, texts_congr h]

theorem sub {P : Ast.Expr → Prop} {e x : Ast.Expr} (h : Everywhere P e) (hx : x ∈ subs e) : Everywhere P x := by
  cases h with
  | mk _ _ h _ => exact h x hx

theorem key {P : Ast.Expr → Prop} {e x : Ast.Expr} (h : Everywhere P e) (hx : x ∈ keys e) : Everywhere P x := by
  cases h with
  | mk _ _ _ h => exact h x hx id

theorem self {P : Ast.Expr → Prop} {e : Ast.Expr} (h : Everywhere P e) : P e := by
  cases h with
  | mk _ h _ _ => exact h

/-- No heredoc. -/
def noHere : Ast.Expr → Prop
  | .heredoc .. => False
  | _ => True

mutual

theorem text_tx : ∀ e : Ast.Expr, Everywhere noHere e → (tx e).text = (sx e).text
  | .ternary _ c l r, h => by
    simp only [tx, sx]
    exact node_congr (by simp [text_tx c (sub h (by simp [subs])), text_tx l (sub h (by simp [subs])),
      text_tx r (sub h (by simp [subs])), T.text, SX.text])
  | .binary l _ op r, h => by
    simp only [tx, sx]
    exact node_congr (by simp [text_tx l (sub h (by simp [subs])), text_tx r (sub h (by simp [subs])), T.text, SX.text])
  | .unary _ op x, h => by
    simp only [tx, sx]
    exact node_congr (by simp [text_tx x (sub h (by simp [subs])), T.text, SX.text])
  | .subscript _ l r, h => by
    simp only [tx, sx]
    exact node_congr (by simp [text_tx l (sub h (by simp [subs])), text_tx r (sub h (by simp [subs])), T.text, SX.text])
  | .slice x _ lo hi, h => by
    simp only [tx, sx]
    exact node_congr (by simp [text_tx x (sub h (by simp [subs])), text_txNil lo (fun e he => sub h (by simp [subs, he])),
      text_txNil hi (fun e he => sub h (by simp [subs, he])), T.text, SX.text])
  | .method l m _ as, h => by
    simp only [tx, sx]
    have h1 : (T.node (tx m :: txs as)).text = (SX.list (sx m :: sxs as)).text :=
      node_congr (by simp [text_tx m (sub h (by simp [subs])), text_txs as (fun e he => sub h (by simp [subs, he]))])
    exact node_congr (by rw [List.map_cons, List.map_cons, List.map_cons, h1]
                         simp [text_tx l (sub h (by simp [subs])), T.text, SX.text])
  | .call f _ as, h => by
    simp only [tx, sx]
    exact node_congr (by simp [text_tx f (sub h (by simp [subs])), text_txs as (fun e he => sub h (by simp [subs, he]))])
  | .dot l _ i, h => by
    simp only [tx, sx]
    exact node_congr (by simp [text_tx l (sub h (by simp [subs])), T.text, SX.text])
  | .basicLit .., _ => by simp only [tx, sx, T.text, SX.text]
  | .list _ vs, h => by
    simp only [tx, sx]
    exact node_congr (by simp [text_txs vs (fun e he => sub h (by simp [subs, he])), T.text, SX.text])
  | .dict _ kvs, h => by
    simp only [tx, sx]
    exact node_congr (by simp [text_txPairs kvs (fun e he => key h (List.mem_map_of_mem he))
      (fun e he => sub h (List.mem_map_of_mem he)), T.text, SX.text])
  | .curlyName _ ps, h => by
    simp only [tx, sx, T.text, SX.text]
    exact text_cat ps (fun e he => sub h (by simp [subs, he]))
  | .curlyNameLit .., _ => by simp only [tx, sx, T.text, SX.text]
  | .curlyNameExpr _ e, h => by simp only [tx, sx, T.text, SX.text, text_tx e (sub h (by simp [subs]))]
  | .ident _, _ => by simp only [tx, sx, T.text, SX.text]
  | .lambda _ ps e, h => by
    simp only [tx, sx]
    have h1 : (T.node (ps.map fun i => T.word i.name)).text = (SX.list (ps.map fun i => SX.atom i.name)).text :=
      node_congr (by simp [T.text, SX.text, Function.comp_def])
    exact node_congr (by rw [List.map_cons, List.map_cons, h1]
                         simp [text_tx e (sub h (by simp [subs])), T.text, SX.text])
  | .paren _ x, h => by
    simp only [tx, sx]
    exact text_tx x (sub h (by simp [subs]))
  | .heredoc .., h => (self h).elim

theorem text_txNil : ∀ o : Option Ast.Expr, (∀ e, o = some e → Everywhere noHere e) → (txNil o).text = (sxNil o).text
  | none, _ => by simp only [txNil, sxNil, T.text, SX.text]
  | some e, h => by
    simp only [txNil, sxNil]
    exact text_tx e (h e rfl)

theorem text_txs : ∀ l : List Ast.Expr, (∀ e ∈ l, Everywhere noHere e) → (txs l).map T.text = (sxs l).map SX.text
  | [], _ => rfl
  | e :: es, h => by
    simp only [txs, sxs, List.map_cons, text_tx e (h e (by simp)), text_txs es (fun e he => h e (by simp [he]))]

theorem text_txPairs : ∀ l : List (Ast.Expr × Ast.Expr), (∀ kv ∈ l, Everywhere noHere kv.1) →
    (∀ kv ∈ l, Everywhere noHere kv.2) → (txPairs l).map T.text = (sxPairs l).map SX.text
  | [], _, _ => rfl
  | (k, v) :: kvs, h1, h2 => by
    have h3 : (T.node [tx k, tx v]).text = (SX.list [sx k, sx v]).text :=
      node_congr (by simp [text_tx k (h1 (k, v) (by simp)), text_tx v (h2 (k, v) (by simp))])
    simp only [txPairs, sxPairs, List.map_cons, h3, text_txPairs kvs (fun e he => h1 e (by simp [he]))
      (fun e he => h2 e (by simp [he]))]

theorem text_cat : ∀ l : List Ast.Expr, (∀ e ∈ l, Everywhere noHere e) → T.catText (txs l) = sxCat l
  | [], _ => rfl
  | e :: es, h => by
    simp only [txs, sxCat, T.catText, text_tx e (h e (by simp)), text_cat es (fun e he => h e (by simp [he]))]

end

/-! ### Words -/

/-- Characters of literals and names. -/
def litc (c : Char) : Bool := isnamec c || c == '.' || c == '+' || c == '-' || c == '&' || c == '$'

theorem litc_plain {c : Char} (h : litc c = true) : plainc c = true := by
  cases h3 : plainc c
  · exfalso
    simp only [plainc, Bool.not_eq_false', Bool.or_eq_true, beq_iff_eq] at h3
    rcases h3 with ((((((rfl | rfl) | rfl) | rfl) | rfl) | rfl) | rfl) | rfl <;> exact absurd h (by decide)
  · rfl

theorem Word.lit {v : Str} (h1 : v ≠ []) (h2 : ∀ c ∈ v, litc c = true) : Word v := by
  refine .plain h1 (fun c hc => litc_plain (h2 c hc)) ?_
  rintro t rfl
  exact absurd (h2 '<' (by simp)) (by decide)

theorem namec_litc {c : Char} (h : isnamec c = true) : litc c = true := by simp [litc, h]

theorem wordc_namec {c : Char} (h : iswordc c = true) : isnamec c = true := by simp [isnamec, h]

theorem wordc1_namec {c : Char} (h : iswordc1 c = true) : isnamec c = true := by
  simp only [iswordc1, Bool.or_eq_true] at h
  rcases h with h | h <;> simp [isnamec, iswordc, isalnum, h]

theorem digit_namec {c : Char} (h : isdigit c = true) : isnamec c = true := by simp [isnamec, iswordc, isalnum, h]

theorem xdigit_namec {c : Char} (h : isxdigit c = true) : isnamec c = true := by
  simp only [isxdigit, Bool.or_eq_true, Bool.and_eq_true, decide_eq_true_eq] at h
  rcases h with (h | h) | h
  · exact digit_namec h
  · have : isUpperC c = true := by simp only [isUpperC, Bool.and_eq_true, decide_eq_true_eq]; omega
    simp [isnamec, iswordc, isalnum, isalpha, this]
  · have : isLowerC c = true := by simp only [isLowerC, Bool.and_eq_true, decide_eq_true_eq]; omega
    simp [isnamec, iswordc, isalnum, isalpha, this]

/-- The kind of literal a word is, by its first characters. -/
def wordKind : Str → Option Tok
  | [] => none
  | c :: t => if c = '"' ∨ c = '\'' then some .STRING else if c = '@' then some .REG else if c = '$' then some .ENV
    else if c = '&' then some .OPTION
    else if isdigit c then (if t.head? = some 'z' ∨ t.head? = some 'Z' then some .BLOB else some .NUMBER) else none

theorem wordKind_digit {c : Char} {t : Str} (h : isdigit c = true) : wordKind (c :: t) =
    if t.head? = some 'z' ∨ t.head? = some 'Z' then some .BLOB else some .NUMBER := by
  have h1 : ¬ (c = '"' ∨ c = '\'') := by rintro (rfl | rfl) <;> exact absurd h (by decide)
  have h2 : c ≠ '@' := by rintro rfl; exact absurd h (by decide)
  have h3 : c ≠ '$' := by rintro rfl; exact absurd h (by decide)
  have h4 : c ≠ '&' := by rintro rfl; exact absurd h (by decide)
  simp [wordKind, h1, h2, h3, h4, h]

theorem wordKind_name {c : Char} {t : Str} (h : iswordc1 c = true) : wordKind (c :: t) = none := by
  have h1 : ¬ (c = '"' ∨ c = '\'') := by rintro (rfl | rfl) <;> exact absurd h (by decide)
  have h2 : c ≠ '@' := by rintro rfl; exact absurd h (by decide)
  have h3 : c ≠ '$' := by rintro rfl; exact absurd h (by decide)
  have h4 : c ≠ '&' := by rintro rfl; exact absurd h (by decide)
  have h5 : isdigit c = false := by
    cases h5 : isdigit c
    · rfl
    · exfalso
      simp only [isdigit, Bool.and_eq_true, decide_eq_true_eq] at h5
      simp only [iswordc1, isalpha, isUpperC, isLowerC, Bool.or_eq_true, Bool.and_eq_true, decide_eq_true_eq, beq_iff_eq] at h
      rcases h with (h | h) | h
      · omega
      · omega
      · subst h; exact absurd h5 (by decide)
  simp [wordKind, h1, h2, h3, h4, h5]

theorem digits_litc {v : Str} (h : Many1 isdigit v) : ∀ c ∈ v, litc c = true := fun c hc => namec_litc (digit_namec (h.2 c hc))

theorem expo_litc {v : Str} (h : Exponent v) : ∀ c ∈ v, litc c = true := by
  obtain ⟨e, sgn, d, h1, h2, h3, rfl⟩ := h
  intro c hc
  simp only [List.mem_cons, List.mem_append] at hc
  rcases hc with rfl | hc | hc
  · rcases h1 with rfl | rfl <;> decide
  · rcases h2 with rfl | rfl | rfl
    · cases hc
    · cases List.mem_singleton.1 hc; decide
    · cases List.mem_singleton.1 hc; decide
  · exact digits_litc h3 c hc

/-- Numbers start with a digit, not followed by `z`. -/
theorem number_kind {d : Str} (h : Many1 isdigit d) (u : Str) (hu : u = [] ∨ ∃ w, u = '.' :: w) :
    wordKind (d ++ u) = some .NUMBER := by
  obtain ⟨c, t, rfl⟩ : ∃ c t, d = c :: t := by
    cases d with
    | nil => exact absurd rfl h.1
    | cons c t => exact ⟨c, t, rfl⟩
  rw [List.cons_append, wordKind_digit (h.2 c (by simp)), if_neg]
  cases t with
  | nil => rcases hu with rfl | ⟨w, rfl⟩ <;> simp
  | cons x t =>
    have := h.2 x (by simp)
    rintro (e | e) <;> (simp only [List.cons_append, List.head?_cons, Option.some.injEq] at e; subst e; exact absurd this (by decide))

theorem Number.word {v : Str} (h : Number v) : Word v ∧ wordKind v = some .NUMBER := by
  cases h with
  | hex x d h1 h2 =>
    refine ⟨.lit (by simp) ?_, ?_⟩
    · intro c hc
      simp only [List.mem_cons] at hc
      rcases hc with rfl | rfl | hc
      · decide
      · rcases h1 with rfl | rfl <;> decide
      · exact namec_litc (xdigit_namec (h2.2 c hc))
    · rcases h1 with rfl | rfl <;> rfl
  | bin x d h1 h2 =>
    refine ⟨.lit (by simp) ?_, ?_⟩
    · intro c hc
      simp only [List.mem_cons] at hc
      rcases hc with rfl | rfl | hc
      · decide
      · rcases h1 with rfl | rfl <;> decide
      · have := h2.2 c hc
        simp only [Bool.or_eq_true, beq_iff_eq] at this
        rcases this with rfl | rfl <;> decide
    · rcases h1 with rfl | rfl <;> rfl
  | dec _ h => exact ⟨.lit h.1 (digits_litc h), by simpa using number_kind h [] (.inl rfl)⟩
  | float d f h1 h2 =>
    refine ⟨.lit (by simp) ?_, number_kind h1 _ (.inr ⟨_, rfl⟩)⟩
    intro c hc
    simp only [List.mem_append, List.mem_cons] at hc
    rcases hc with hc | rfl | hc
    · exact digits_litc h1 c hc
    · decide
    · exact digits_litc h2 c hc
  | exp d f e h1 h2 h3 =>
    refine ⟨.lit (by simp) ?_, ?_⟩
    · intro c hc
      simp only [List.mem_append, List.mem_cons] at hc
      rcases hc with (hc | rfl | hc) | hc
      · exact digits_litc h1 c hc
      · decide
      · exact digits_litc h2 c hc
      · exact expo_litc h3 c hc
    · rw [List.append_assoc]
      exact number_kind h1 _ (.inr ⟨_, rfl⟩)

theorem BlobBody.litc {v : Str} (h : BlobBody v) : ∀ c ∈ v, litc c = true := by
  induction h with
  | nil => intro c hc; cases hc
  | pair s a b _ h1 h2 ih =>
    intro c hc
    simp only [List.mem_append, List.mem_cons, List.not_mem_nil, or_false] at hc
    rcases hc with hc | rfl | rfl
    · exact ih c hc
    · exact namec_litc (xdigit_namec h1)
    · exact namec_litc (xdigit_namec h2)
  | dot s _ ih =>
    intro c hc
    simp only [List.mem_append, List.mem_singleton] at hc
    rcases hc with hc | rfl
    · exact ih c hc
    · decide

/-- Literals are words, and their kind is seen from their text. -/
theorem lit_word {k : Tok} {v : Str} (h : LitShape k v) (hr : v ≠ ['@']) : Word v ∧ wordKind v = some k ∧ v ≠ cs!"&&" := by
  cases k <;> first | exact h.elim | skip
  case NUMBER =>
    obtain ⟨h1, h2⟩ := Number.word h
    exact ⟨h1, h2, by rintro rfl; exact absurd h2 (by decide)⟩
  case BLOB =>
    obtain ⟨z, b, hz, hb, rfl⟩ := h
    refine ⟨.lit (by simp) ?_, ?_, by simp⟩
    · intro c hc
      simp only [List.mem_cons] at hc
      rcases hc with rfl | rfl | hc
      · decide
      · rcases hz with rfl | rfl <;> decide
      · exact BlobBody.litc hb c hc
    · rcases hz with rfl | rfl <;> rfl
  case OPTION =>
    obtain ⟨pre, s, hp, hs, rfl⟩ := h
    have hp' : ∀ c ∈ pre, litc c = true := by rcases hp with rfl | rfl | rfl <;> decide
    refine ⟨.lit ?_ ?_, ?_, ?_⟩
    · rcases hp with rfl | rfl | rfl <;> simp
    · intro c hc
      rcases List.mem_append.1 hc with hc | hc
      · exact hp' c hc
      · exact namec_litc (wordc_namec (hs c hc))
    · rcases hp with rfl | rfl | rfl <;> rfl
    · rcases hp with rfl | rfl | rfl
      · intro e
        have : s = ['&'] := by simpa using e
        subst this
        exact absurd (hs '&' (by simp)) (by decide)
      · simp
      · simp
  case ENV =>
    obtain ⟨s, rfl, hs⟩ := h
    refine ⟨.lit (by simp) ?_, rfl, by simp⟩
    intro c hc
    simp only [List.mem_cons] at hc
    rcases hc with rfl | hc
    · decide
    · exact namec_litc (wordc_namec (hs c hc))
  case REG =>
    rcases h with rfl | ⟨c, rfl⟩
    · exact absurd rfl hr
    · exact ⟨.reg c, rfl, by simp⟩
  case STRING =>
    refine ⟨.str h, ?_, ?_⟩
    · rcases h with ⟨s, _, rfl⟩ | ⟨s, _, rfl⟩ <;> rfl
    · rcases h with ⟨s, _, rfl⟩ | ⟨s, _, rfl⟩ <;> simp

theorem name_word {v : Str} (h : NameShape v) : Word v ∧ wordKind v = none := by
  rcases h with ⟨c, s, rfl, h1, h2⟩ | h
  · refine ⟨.lit (by simp) ?_, wordKind_name h1⟩
    intro x hx
    simp only [List.mem_cons] at hx
    rcases hx with rfl | hx
    · exact namec_litc (wordc1_namec h1)
    · exact namec_litc (h2 x hx)
  · obtain ⟨h1, h2, t, rfl⟩ := Sid.spec h
    exact ⟨.plain (by simp) h2 (fun _ _ => by omega), rfl⟩

theorem member_word {v : Str} (h : Many1 iswordc v) : Word v :=
  .lit h.1 fun c hc => namec_litc (wordc_namec (h.2 c hc))

theorem param_word {ps : List Str} (h : Params ps) : ∀ v ∈ ps, Word v := by
  obtain ⟨names, dots, rfl, h1, _, h2⟩ := h
  intro v hv
  rcases List.mem_append.1 hv with hv | hv
  · obtain ⟨c, s, rfl, h3, h4⟩ := h2 v hv
    refine .lit (by simp) ?_
    intro x hx
    simp only [List.mem_cons] at hx
    rcases hx with rfl | hx
    · exact namec_litc (wordc1_namec h3)
    · exact namec_litc (wordc_namec (h4 x hx))
  · rcases h1 with rfl | rfl
    · cases hv
    · cases List.mem_singleton.1 hv
      exact .lit (by simp) (by decide)

/-- A word, checked. -/
def wordB (s : Str) : Bool := !s.isEmpty && s.all plainc && (s.head? != some '<' || s.length ≤ 5)

theorem Word.of_bool {s : Str} (h : wordB s = true) : Word s := by
  simp only [wordB, Bool.and_eq_true, Bool.or_eq_true, List.all_eq_true, bne_iff_ne, decide_eq_true_eq] at h
  refine .plain ?_ h.1.2 ?_
  · rintro rfl; exact absurd h.1.1 (by decide)
  · rintro t rfl
    rcases h.2 with h | h
    · exact absurd rfl h
    · exact h

theorem op_wordB : ∀ op : Tok, 2 ≤ opLevel op → wordB (opName op) = true := by
  intro op; cases op <;> decide

theorem op_word {op : Tok} (h : 2 ≤ opLevel op) : Word (opName op) := .of_bool (op_wordB op h)

theorem unop_word {op : Tok} (h : op = .NOT ∨ op = .MINUS ∨ op = .PLUS) : Word op.str := by
  rcases h with rfl | rfl | rfl <;> exact .of_bool (by decide)

/-! ### Parsed expressions have well-formed S-expressions -/

/-- Parts of a name: texts are separated by braces. -/
inductive EParts : List Ast.Expr → Prop
  | nil : EParts []
  | one {q v} : Many1 isnamec v → EParts [.curlyNameLit q v]
  | brace {q e ps} : EParts ps → EParts (.curlyNameExpr q e :: ps)
  | text {q v q' e ps} : Many1 isnamec v → EParts ps → EParts (.curlyNameLit q v :: .curlyNameExpr q' e :: ps)

/-- A name with braces. -/
def curlyOK : Ast.Expr → Prop
  | .curlyName _ ps => (EParts ps ∧ ps ≠ [] ∧ ∀ q v, ps ≠ [.curlyNameLit q v]) ∨
      ∃ q v ps', ps = .curlyNameLit q v :: ps' ∧ Sid v ∧ EParts ps' ∧ ps' ≠ []
  | _ => True

/-- What is used of the nodes of parsed expressions. -/
structure Q (e : Ast.Expr) : Prop where
  shape : shapeOK e
  prec : precOK e
  params : paramsOK e
  parts : curlyOK e
  clear : clear e

theorem key_word {s : Str} (h : wordB s = true) : WF (.word s) := .word (.of_bool h)

theorem wf_node {l : List T} (h : ∀ x ∈ l, WF x) : WF (.node l) := .node h

theorem wf_cons {x : T} {l : List T} (h : WF x) (h' : ∀ y ∈ l, WF y) : ∀ y ∈ x :: l, WF y := by
  intro y hy
  rcases List.mem_cons.1 hy with rfl | hy
  · exact h
  · exact h' y hy

theorem wf_nil : ∀ y ∈ ([] : List T), WF y := fun _ h => absurd h (by simp)

mutual

theorem wf_tx : ∀ e : Ast.Expr, Everywhere Q e → 1 ≤ level e → WF (tx e)
  | .ternary _ c l r, h, _ => by
    obtain ⟨p1, p2, p3⟩ := (self h).prec
    simp only [tx]
    exact .node (wf_cons (key_word (by decide)) (wf_cons (wf_tx c (sub h (by simp [subs])) (by omega))
      (wf_cons (wf_tx l (sub h (by simp [subs])) p2) (wf_cons (wf_tx r (sub h (by simp [subs])) p3) wf_nil))))
  | .binary l _ op r, h, _ => by
    obtain ⟨p1, p2, p3⟩ := (self h).prec
    have : 1 ≤ leftLevel op := by unfold leftLevel; split <;> omega
    simp only [tx]
    exact .node (wf_cons (.word (op_word p1)) (wf_cons (wf_tx l (sub h (by simp [subs])) (by omega))
      (wf_cons (wf_tx r (sub h (by simp [subs])) (by omega)) wf_nil)))
  | .unary _ op x, h, _ => by
    obtain ⟨p1, p2⟩ := (self h).prec
    simp only [tx]
    exact .node (wf_cons (.word (unop_word p1)) (wf_cons (wf_tx x (sub h (by simp [subs])) (by omega)) wf_nil))
  | .subscript _ l r, h, _ => by
    obtain ⟨p1, p2⟩ := (self h).prec
    simp only [tx]
    exact .node (wf_cons (key_word (by decide)) (wf_cons (wf_tx l (sub h (by simp [subs])) (by omega))
      (wf_cons (wf_tx r (sub h (by simp [subs])) p2) wf_nil)))
  | .slice x _ lo hi, h, _ => by
    obtain ⟨p1, p2, p3⟩ := (self h).prec
    simp only [tx]
    exact .node (wf_cons (key_word (by decide)) (wf_cons (wf_tx x (sub h (by simp [subs])) (by omega))
      (wf_cons (wf_txNil lo (fun e he => sub h (by simp [subs, he])) p2)
        (wf_cons (wf_txNil hi (fun e he => sub h (by simp [subs, he])) p3) wf_nil))))
  | .method l m _ as, h, _ => by
    obtain ⟨p1, p2, p3⟩ := (self h).prec
    simp only [tx]
    exact .node (wf_cons (key_word (by decide)) (wf_cons (wf_tx l (sub h (by simp [subs])) (by omega))
      (wf_cons (.node (wf_cons (wf_tx m (sub h (by simp [subs])) (by omega))
        (wf_txs as (fun e he => sub h (by simp [subs, he])) p3))) wf_nil)))
  | .call f _ as, h, _ => by
    obtain ⟨p1, p3⟩ := (self h).prec
    simp only [tx]
    exact .node (wf_cons (wf_tx f (sub h (by simp [subs])) (by omega))
        (wf_txs as (fun e he => sub h (by simp [subs, he])) p3))
  | .dot l _ i, h, _ => by
    obtain ⟨p1, p2⟩ := (self h).prec
    simp only [tx]
    exact .node (wf_cons (key_word (by decide)) (wf_cons (wf_tx l (sub h (by simp [subs])) (by omega))
      (wf_cons (.word (member_word (self h).shape)) wf_nil)))
  | .basicLit _ k v, h, _ => by
    simp only [tx]
    exact .word (lit_word (k := k) (self h).shape (self h).clear).1
  | .list _ vs, h, _ => by
    simp only [tx]
    exact .node (wf_cons (key_word (by decide)) (wf_txs vs (fun e he => sub h (by simp [subs, he])) (self h).prec))
  | .dict _ kvs, h, _ => by
    have hp : ∀ kv ∈ kvs, 1 ≤ level kv.1 ∧ 1 ≤ level kv.2 := (self h).prec
    simp only [tx]
    exact .node (wf_cons (key_word (by decide)) (wf_txPairs kvs (fun e he => key h (List.mem_map_of_mem he))
      (fun e he => sub h (List.mem_map_of_mem he)) hp))
  | .curlyName _ ps, h, _ => by
    simp only [tx]
    have hsub : ∀ p ∈ ps, Everywhere Q p := fun e he => sub h (by simp [subs, he])
    rcases (self h).parts with ⟨h1, h2, h3⟩ | ⟨q, v, ps', rfl, h1, h2, h3⟩
    · have h4 := wf_parts ps h1 hsub
      cases h1 with
      | nil => exact absurd rfl h2
      | one => exact absurd rfl (h3 _ _)
      | brace =>
        simp only [txs, tx] at h4 ⊢
        cases h4 with
        | more h4 => exact .cat h4
      | text =>
        simp only [txs, tx] at h4 ⊢
        cases h4 with
        | more h4 => exact .cat h4
    · simp only [txs, tx]
      refine .sid h1 (wf_parts ps' h2 (fun e he => hsub e (by simp [he]))) ?_
      cases ps' with
      | nil => exact absurd rfl h3
      | cons => simp [txs]
  | .curlyNameLit .., _, h => absurd h (by simp [level])
  | .curlyNameExpr .., _, h => absurd h (by simp [level])
  | .ident i, h, _ => by
    simp only [tx]
    exact .word (name_word (self h).shape).1
  | .lambda _ ps e, h, _ => by
    have hp : Params (ps.map (·.name)) := (self h).params
    simp only [tx]
    refine .node (wf_cons (key_word (by decide)) (wf_cons (.node ?_) (wf_cons (wf_tx e (sub h (by simp [subs])) (self h).prec) wf_nil)))
    intro y hy
    obtain ⟨i, hi, rfl⟩ := List.mem_map.1 hy
    exact .word (param_word hp _ (List.mem_map_of_mem hi))
  | .paren _ x, h, _ => by
    simp only [tx]
    exact wf_tx x (sub h (by simp [subs])) (self h).prec
  | .heredoc .., _, h => absurd h (by simp [level])

theorem wf_txNil : ∀ o : Option Ast.Expr, (∀ e, o = some e → Everywhere Q e) → (∀ e, o = some e → 1 ≤ level e) → WF (txNil o)
  | none, _, _ => by simp only [txNil]; exact key_word (by decide)
  | some e, h, h' => by
    simp only [txNil]
    exact wf_tx e (h e rfl) (h' e rfl)

theorem wf_txs : ∀ l : List Ast.Expr, (∀ e ∈ l, Everywhere Q e) → (∀ e ∈ l, 1 ≤ level e) → ∀ y ∈ txs l, WF y
  | [], _, _ => by simp only [txs]; exact wf_nil
  | e :: es, h, h' => by
    simp only [txs]
    exact wf_cons (wf_tx e (h e (by simp)) (h' e (by simp))) (wf_txs es (fun e he => h e (by simp [he])) (fun e he => h' e (by simp [he])))

theorem wf_txPairs : ∀ l : List (Ast.Expr × Ast.Expr), (∀ kv ∈ l, Everywhere Q kv.1) →
    (∀ kv ∈ l, Everywhere Q kv.2) → (∀ kv ∈ l, 1 ≤ level kv.1 ∧ 1 ≤ level kv.2) → ∀ y ∈ txPairs l, WF y
  | [], _, _, _ => by simp only [txPairs]; exact wf_nil
  | (k, v) :: kvs, h1, h2, h3 => by
    simp only [txPairs]
    exact wf_cons (.node (wf_cons (wf_tx k (h1 (k, v) (by simp)) (h3 (k, v) (by simp)).1)
        (wf_cons (wf_tx v (h2 (k, v) (by simp)) (h3 (k, v) (by simp)).2) wf_nil)))
      (wf_txPairs kvs (fun e he => h1 e (by simp [he])) (fun e he => h2 e (by simp [he])) (fun e he => h3 e (by simp [he])))

theorem wf_parts : ∀ ps : List Ast.Expr, EParts ps → (∀ p ∈ ps, Everywhere Q p) → Parts' (txs ps)
  | [], _, _ => by simp only [txs]; exact .nil
  | [.curlyNameLit q v], h, _ => by
    cases h with
    | one h => simp only [txs, tx]; exact .one h
  | .curlyNameExpr q e :: ps, h, h' => by
    cases h with
    | brace h =>
      have he := h' _ (List.mem_cons_self ..)
      simp only [txs, tx]
      exact .more (.brace (wf_tx e (sub he (by simp [subs])) (self he).prec) (wf_parts ps h (fun p hp => h' p (by simp [hp]))))
  | .curlyNameLit q v :: .curlyNameExpr q' e :: ps, h, h' => by
    cases h with
    | text h1 h =>
      have he := h' (.curlyNameExpr q' e) (by simp)
      simp only [txs, tx]
      exact .more (.text h1 (wf_tx e (sub he (by simp [subs])) (self he).prec) (wf_parts ps h (fun p hp => h' p (by simp [hp]))))

end

end Viml.Readable
