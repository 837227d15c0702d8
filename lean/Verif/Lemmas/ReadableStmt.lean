/-
The first line of a statement determines it, up to its body, positions and parentheses.  Used by C74.
-/
import Verif.Lemmas.ReadableLines
import Verif.Lemmas.ReadableInj

namespace Viml.Readable
open Viml Viml.Spec

/-! ### Reading expressions -/

/-- What is used of the expressions of a statement. -/
def GE (e : Ast.Expr) : Prop := Everywhere Q e ∧ 1 ≤ level e

theorem rdE {a b : Ast.Expr} (ha : GE a) (hb : GE b) {r r' : Str} (hr : Stop r) (hr' : Stop r')
    (h : (sx a).text ++ r = (sx b).text ++ r') : bare a = bare b ∧ r = r' := by
  rw [← text_tx a (all_noHere ha.1), ← text_tx b (all_noHere hb.1)] at h
  obtain ⟨h1, h2⟩ := read (wf_tx a ha.1 ha.2) (wf_tx b hb.1 hb.2) hr hr' h
  exact ⟨injU a ha.1 ha.2 b hb.1 hb.2 h1, h2⟩

theorem stop_nil : Stop [] := .inl rfl
theorem stop_blank (r : Str) : Stop (' ' :: r) := .inr ⟨_, _, rfl, .inl rfl⟩
theorem stop_close (r : Str) : Stop (')' :: r) := .inr ⟨_, _, rfl, .inr (.inl rfl)⟩

theorem words_texts : ∀ l : List T, words (l.map T.text) = T.texts l
  | [] => rfl
  | [x] => by simp [words, T.texts]
  | x :: y :: l => by
    have := words_texts (y :: l)
    simp only [words, List.map_cons, T.texts, List.intercalate] at this ⊢
    rw [← this]
    simp

theorem sxWords_texts {l : List Ast.Expr} (h : ∀ e ∈ l, GE e) : sxWords l = T.texts (txs l) := by
  rw [sxWords, ← text_txs l fun e he => all_noHere (h e he).1, words_texts]

theorem wfs {l : List Ast.Expr} (h : ∀ e ∈ l, GE e) : ∀ y ∈ txs l, WF y :=
  wf_txs l (fun e he => (h e he).1) fun e he => (h e he).2

theorem injs {a b : List Ast.Expr} (ha : ∀ e ∈ a, GE e) (hb : ∀ e ∈ b, GE e) (h : txs a = txs b) : bareL a = bareL b :=
  injL a (fun e he => (ha e he).1) (fun e he => (ha e he).2) b (fun e he => (hb e he).1) (fun e he => (hb e he).2) h

theorem rdT {l l' : List T} (h : ∀ x ∈ l, WF x) (h' : ∀ x ∈ l', WF x) {r r' : Str}
    (e : T.texts l ++ ')' :: r = T.texts l' ++ ')' :: r') : l = l' ∧ r = r' :=
  texts_unique h (fun x hx => read (h x hx)) h' e

theorem rdL {a b : List Ast.Expr} (ha : ∀ e ∈ a, GE e) (hb : ∀ e ∈ b, GE e) {r r' : Str}
    (h : sxWords a ++ ')' :: r = sxWords b ++ ')' :: r') : bareL a = bareL b ∧ r = r' := by
  rw [sxWords_texts ha, sxWords_texts hb] at h
  obtain ⟨h1, h2⟩ := rdT (wfs ha) (wfs hb) h
  exact ⟨injs ha hb h1, h2⟩

/-! ### Depths -/

theorem isNumber_up : ∀ e, isNumber (up e) → isNumber e
  | .paren _ x, h => by simp only [up] at h; exact isNumber_up x h
  | .ternary .., h | .binary .., h | .unary .., h | .subscript .., h | .slice .., h | .method .., h
  | .call .., h | .dot .., h | .basicLit .., h | .list .., h | .dict .., h | .curlyName .., h
  | .curlyNameLit .., h | .curlyNameExpr .., h | .ident .., h | .lambda .., h | .heredoc .., h => h

theorem number_of {e : Ast.Expr} {w : Str} (h : GE e) (e' : tx e = .word w) (hw : wordKind w = some .NUMBER) : isNumber e := by
  obtain ⟨h1, h2⟩ := q_up e h.1 h.2
  have h3 := notParen_up e
  rw [← tx_up] at e'
  refine isNumber_up e ?_
  revert e' h1 h2 h3
  generalize up e = x
  intro e' h1 h2 h3
  cases x <;> simp only [tx, T.word.injEq, reduceCtorEq] at e' <;> first | (simp [level] at h2; done) | skip
  case basicLit q k v =>
    subst e'
    have := (lit_word (self h1).shape (self h1).clear).2.1
    rw [hw] at this
    cases this
    rfl
  case ident i =>
    subst e'
    have := (name_word (self h1).shape).2
    rw [hw] at this
    cases this
  case paren => exact h3.elim

theorem digits_word (d : Nat) : Word (Nat.toDigits 10 d) ∧ wordKind (Nat.toDigits 10 d) = some .NUMBER := by
  have h1 : ∀ c ∈ Nat.toDigits 10 d, isdigit c = true := by
    intro c hc
    have := Nat.isDigit_of_mem_toDigits (by omega) (by omega) hc
    simp only [Char.isDigit, Bool.and_eq_true, decide_eq_true_eq] at this
    simp only [isdigit, Bool.and_eq_true, decide_eq_true_eq]
    exact this
  have h2 : Nat.toDigits 10 d ≠ [] := Nat.toDigits_ne_nil
  refine ⟨.lit h2 (digits_litc ⟨h2, h1⟩), ?_⟩
  cases h3 : Nat.toDigits 10 d with
  | nil => exact absurd h3 h2
  | cons c t =>
    rw [h3] at h1
    rw [wordKind_digit (h1 c (by simp)), if_neg]
    have : ∀ x, t.head? = some x → isdigit x = true := by
      intro x hx
      refine h1 x (List.mem_cons_of_mem _ ?_)
      cases t with
      | nil => cases hx
      | cons y t => cases hx; simp
    rintro (h | h)
    · exact absurd (this _ h) (by decide)
    · exact absurd (this _ h) (by decide)

/-- The depth and the targets of `:lockvar`. -/
def depthT (d : Nat) (ls : List Ast.Expr) : List T := if d = 0 then txs ls else .word (Nat.toDigits 10 d) :: txs ls

theorem depth_texts {d : Nat} {ls : List Ast.Expr} (h : ∀ e ∈ ls, GE e) (hn : ls ≠ []) :
    depthWord d ++ sxWords ls = T.texts (depthT d ls) ∧ ∀ y ∈ depthT d ls, WF y := by
  rw [sxWords_texts h]
  unfold depthWord depthT
  split
  · exact ⟨rfl, wfs h⟩
  · cases ls with
    | nil => exact absurd rfl hn
    | cons e ls => exact ⟨by simp [txs, T.texts, T.text], wf_cons (.word (digits_word d).1) (wfs h)⟩

theorem depth_inj {d d' : Nat} {ls ls' : List Ast.Expr} (h : ∀ e ∈ ls, GE e) (h' : ∀ e ∈ ls', GE e)
    (hc : d = 0 → ∀ e, ls.head? = some e → ¬ isNumber e) (hc' : d' = 0 → ∀ e, ls'.head? = some e → ¬ isNumber e)
    (e : depthT d ls = depthT d' ls') : d = d' ∧ bareL ls = bareL ls' := by
  have no : ∀ {ls ls' : List Ast.Expr} {d' : Nat}, (∀ e ∈ ls, GE e) → (∀ e, ls.head? = some e → ¬ isNumber e) →
      txs ls = .word (Nat.toDigits 10 d') :: txs ls' → False := by
    intro ls ls' d' h hc e
    cases ls with
    | nil => cases e
    | cons x ls => exact hc x rfl (number_of (h x (by simp)) (List.cons.inj e).1 (digits_word d').2)
  unfold depthT at e
  split at e <;> rename_i h1 <;> split at e <;> rename_i h2
  · exact ⟨h1.trans h2.symm, injs h h' e⟩
  · exact (no h (hc h1) e).elim
  · exact (no h' (hc' h2) e.symm).elim
  · obtain ⟨e1, e2⟩ := List.cons.inj e
    refine ⟨?_, injs h h' e2⟩
    have := congrArg (fun x => Nat.ofDigitChars 10 x 0) (T.word.inj e1)
    simpa [Nat.ofDigitChars_toDigits] using this

/-! ### Targets -/

/-- A left-hand side. -/
def lhsT : Option Ast.Expr → List Ast.Expr → Option Ast.Expr → T
  | some e, _, _ => tx e
  | none, ls, none => .node (txs ls)
  | none, ls, some r => .node (txs ls ++ [.word cs!".", tx r])

theorem texts_append : ∀ (l : List T) (x y : T), l ≠ [] → T.texts (l ++ [x, y]) = T.texts l ++ ' ' :: x.text ++ ' ' :: y.text
  | [], _, _, h => absurd rfl h
  | [z], x, y, _ => by simp [T.texts]
  | z :: z' :: l, x, y, _ => by
    have := texts_append (z' :: l) x y (by simp)
    simp only [List.cons_append, T.texts, List.append_assoc] at this ⊢
    rw [this]

theorem lhs_texts {l : Option Ast.Expr} {ls : List Ast.Expr} {x : Option Ast.Expr} (hs : LhsShape l ls x)
    (h : ∀ e ∈ l.toList ++ ls ++ x.toList, GE e) : lhsText l ls x = (lhsT l ls x).text ∧ WF (lhsT l ls x) := by
  rcases hs with ⟨e, rfl, rfl, rfl, _⟩ | ⟨rfl, hn, _⟩
  · have := h e (by simp)
    exact ⟨(text_tx e (all_noHere this.1)).symm, wf_tx e this.1 this.2⟩
  · have hls : ∀ e ∈ ls, GE e := fun e he => h e (by simp [he])
    have hne : txs ls ≠ [] := by cases ls <;> simp_all [txs]
    cases x with
    | none => exact ⟨by simp [lhsText, lhsT, sxWords_texts hls, T.text], .node (wfs hls)⟩
    | some r =>
      have hr := h r (by simp)
      refine ⟨?_, .node ?_⟩
      · simp [lhsText, lhsT, sxWords_texts hls, T.text, texts_append _ _ _ hne, text_tx r (all_noHere hr.1)]
      · intro y hy
        rcases List.mem_append.1 hy with hy | hy
        · exact wfs hls y hy
        · exact wf_cons (key_word (by decide)) (wf_cons (wf_tx r hr.1 hr.2) wf_nil) y hy

/-- A target that is written as a list starts with one of three words. -/
theorem target_node {e : Ast.Expr} {l : List T} (h : target e) (e' : tx e = .node l) :
    ∃ w t, l = .word w :: t ∧ w ∈ [cs!"subscript", cs!"slice", cs!"dot"] := by
  cases e <;> simp only [target] at h <;> simp only [tx, T.node.injEq, reduceCtorEq] at e' <;> subst e' <;>
    exact ⟨_, _, rfl, by simp⟩

theorem lits_kind : ∀ w ∈ [cs!"subscript", cs!"slice", cs!"dot", cs!"."], wordKind w = none := by decide

theorem lhs_single {e : Ast.Expr} {ls : List Ast.Expr} {l : List T} (ht : target e) (hls : ∀ e ∈ ls, GE e)
    (hn : ls ≠ []) (hc : clearTargets ls) (e' : tx e = .node (txs ls ++ l)) : False := by
  obtain ⟨w, t, h1, h2⟩ := target_node ht e'
  cases ls with
  | nil => exact hn rfl
  | cons x ls =>
    simp only [txs, List.cons_append, List.cons.injEq] at h1
    rcases word_of (hls x (by simp)).1 (hls x (by simp)).2 h1.1 with ⟨h3, _⟩ | ⟨k, h3, h4⟩
    · exact hc x rfl w h2 h3
    · have := (lit_word h3 h4).2.1
      rw [lits_kind w (by simp at h2 ⊢; rcases h2 with h | h | h <;> simp [h])] at this
      cases this

theorem no_dot : ∀ {ls : List Ast.Expr}, (∀ e ∈ ls, GE e) → .word cs!"." ∉ txs ls
  | [], _ => by simp [txs]
  | x :: ls, h => by
    simp only [txs, List.mem_cons, not_or]
    refine ⟨?_, no_dot fun e he => h e (by simp [he])⟩
    intro e
    rcases word_of (h x (by simp)).1 (h x (by simp)).2 e.symm with ⟨_, h3⟩ | ⟨k, h3, h4⟩
    · have := NameShape.bool h3
      exact absurd this (by decide)
    · have := (lit_word h3 h4).2.1
      rw [lits_kind _ (by simp)] at this
      cases this

theorem lhs_inj {l l' : Option Ast.Expr} {ls ls' : List Ast.Expr} {x x' : Option Ast.Expr} (hs : LhsShape l ls x)
    (hs' : LhsShape l' ls' x') (h : ∀ e ∈ l.toList ++ ls ++ x.toList, GE e)
    (h' : ∀ e ∈ l'.toList ++ ls' ++ x'.toList, GE e) (hc : clearTargets ls) (hc' : clearTargets ls')
    (e : lhsT l ls x = lhsT l' ls' x') : bareO l = bareO l' ∧ bareL ls = bareL ls' ∧ bareO x = bareO x' := by
  have hls : ∀ e ∈ ls, GE e := fun e he => h e (by simp [he])
  have hls' : ∀ e ∈ ls', GE e := fun e he => h' e (by simp [he])
  rcases hs with ⟨a, rfl, rfl, rfl, ht⟩ | ⟨rfl, hn, _, _⟩ <;> rcases hs' with ⟨b, rfl, rfl, rfl, ht'⟩ | ⟨rfl, hn', _, _⟩
  · have ha := h a (by simp)
    have hb := h' b (by simp)
    exact ⟨by simp [bareO, injU a ha.1 ha.2 b hb.1 hb.2 e], rfl, rfl⟩
  · exfalso
    cases x' with
    | none => exact lhs_single (l := []) ht hls' hn' hc' (by simpa [lhsT] using e)
    | some r => exact lhs_single ht hls' hn' hc' e
  · exfalso
    cases x with
    | none => exact lhs_single (l := []) ht' hls hn hc (by simpa [lhsT] using e.symm)
    | some r => exact lhs_single ht' hls hn hc e.symm
  · cases x with
    | none =>
      cases x' with
      | none => exact ⟨rfl, injs hls hls' (T.node.inj e), rfl⟩
      | some r' =>
        have := T.node.inj e
        exact absurd (by rw [this]; simp) (no_dot hls)
    | some r =>
      cases x' with
      | none =>
        have := T.node.inj e
        exact absurd (by rw [← this]; simp) (no_dot hls')
      | some r' =>
        obtain ⟨e1, e2⟩ := List.append_inj' (T.node.inj e) rfl
        simp only [List.cons.injEq, and_true, true_and] at e2
        have ha := h r (by simp)
        have hb := h' r' (by simp)
        exact ⟨rfl, injs hls hls' e1, by simp [bareO, injU r ha.1 ha.2 r' hb.1 hb.2 e2]⟩

/-! ### Signatures -/

/-- Parameters without default, with default, and perhaps `...`. -/
def SigS (ps : List Ast.Ident) (da : List Ast.Expr) : Prop :=
  (∀ i ∈ ps, Word i.name) ∧ ∃ a b d, ps = a ++ b ++ d ∧ b.length = da.length ∧
    (d = [] ∨ d.map (·.name) = [cs!"..."]) ∧ ∀ i ∈ a ++ b, i.name ≠ cs!"..." ∧ i.name ≠ cs!"."

/-- Parameters with default values. -/
def defT : List Ast.Ident → List Ast.Expr → List T
  | i :: b, e :: da => .node [.word i.name, tx e] :: defT b da
  | _, _ => []

def sigT (a b : List Ast.Ident) (da : List Ast.Expr) (d : List Ast.Ident) : List T :=
  a.map (fun i => .word i.name) ++ defT b da ++ if d = [] then [] else [.word cs!".", .word cs!"..."]

theorem words_append_dots : ∀ l : List Str, words (l ++ [cs!". ..."]) = words (l ++ [cs!".", cs!"..."])
  | [] => rfl
  | [x] => by simp [words, List.intercalate]
  | x :: y :: l => by
    have := words_append_dots (y :: l)
    simp only [words, List.intercalate, List.cons_append, List.intersperse, List.flatten_cons] at this ⊢
    rw [this]

theorem defT_texts : ∀ (b : List Ast.Ident) (da : List Ast.Expr), (∀ e ∈ da, GE e) →
    List.zipWith (fun p v => cs!"(" ++ p ++ cs!" " ++ v ++ cs!")") (b.map (·.name)) ((sxs da).map SX.text) =
      (defT b da).map T.text
  | [], _, _ => by simp [defT]
  | _ :: _, [], _ => by simp [defT, sxs]
  | i :: b, e :: da, h => by
    have h1 := defT_texts b da fun e he => h e (by simp [he])
    simp only [List.map_cons, sxs, List.zipWith_cons_cons, defT, h1]
    simp [T.text, T.texts, text_tx e (all_noHere (h e (by simp)).1)]

theorem sxs_length : ∀ l : List Ast.Expr, (sxs l).length = l.length
  | [] => rfl
  | _ :: l => by simp [sxs, sxs_length l]

theorem paramWords_split (a b : List Ast.Ident) (da : List Ast.Expr) (h : b.length = da.length) (hd : ∀ e ∈ da, GE e) :
    paramWords ((a ++ b).map (·.name)) ((sxs da).map SX.text) =
      (a.map (fun i => T.word i.name) ++ defT b da).map T.text := by
  rw [List.map_append (f := T.text), ← defT_texts b da hd]
  simp [paramWords, sxs_length, h, T.text, Function.comp_def]

theorem sig_texts {ps : List Ast.Ident} {da : List Ast.Expr} {a b d : List Ast.Ident} (hp : ps = a ++ b ++ d)
    (hb : b.length = da.length) (hd : d = [] ∨ d.map (·.name) = [cs!"..."])
    (hn : ∀ i ∈ a ++ b, i.name ≠ cs!"..." ∧ i.name ≠ cs!".") (h : ∀ e ∈ da, GE e) :
    words (sigWords ps da) = T.texts (sigT a b da d) := by
  subst hp
  have h1 := paramWords_split a b da hb h
  rw [sigWords, sigT]
  rcases hd with rfl | hd
  · rw [if_neg, if_pos rfl, List.append_nil, List.append_nil, h1, words_texts]
    rw [List.append_nil]
    intro e
    obtain ⟨i, h2, h3⟩ := List.mem_map.1 (List.mem_of_getLast? e)
    exact (hn i h2).1 h3
  · have hd' : d ≠ [] := by rintro rfl; cases hd
    have e1 : (a ++ b ++ d).map (·.name) = (a ++ b).map (·.name) ++ [cs!"..."] := by rw [List.map_append, hd]
    rw [e1, if_pos (by simp), if_neg hd', List.dropLast_concat, h1, words_append_dots, ← words_texts]
    simp [T.text]

theorem defT_wf : ∀ (b : List Ast.Ident) (da : List Ast.Expr), (∀ i ∈ b, Word i.name) → (∀ e ∈ da, GE e) → ∀ x ∈ defT b da, WF x
  | [], _, _, _ => wf_nil
  | _ :: _, [], _, _ => wf_nil
  | i :: b, e :: da, h, h' =>
    wf_cons (.node (wf_cons (.word (h i (by simp))) (wf_cons (wf_tx e (h' e (by simp)).1 (h' e (by simp)).2) wf_nil)))
      (defT_wf b da (fun i hi => h i (by simp [hi])) fun e he => h' e (by simp [he]))

theorem sig_wf {a b d : List Ast.Ident} {da : List Ast.Expr} (h : ∀ i ∈ a ++ b ++ d, Word i.name) (h' : ∀ e ∈ da, GE e) :
    ∀ x ∈ sigT a b da d, WF x := by
  intro x hx
  simp only [sigT, List.mem_append, List.mem_map] at hx
  rcases hx with (⟨i, hi, rfl⟩ | hx) | hx
  · exact .word (h i (by simp [hi]))
  · exact defT_wf b da (fun i hi => h i (by simp [hi])) h' x hx
  · split at hx
    · cases hx
    · exact wf_cons (key_word (by decide)) (wf_cons (key_word (by decide)) wf_nil) x hx

/-- Positions of parameters do not matter. -/
def plainP (ps : List Ast.Ident) : List Ast.Ident := ps.map fun i => ⟨⟨0, 0, 0, []⟩, i.name⟩

theorem defT_inj : ∀ (b b' : List Ast.Ident) (da da' : List Ast.Expr), b.length = da.length → b'.length = da'.length →
    (∀ e ∈ da, GE e) → (∀ e ∈ da', GE e) → ∀ t t' : List T, (∀ l u, t ≠ .node l :: u) → (∀ l u, t' ≠ .node l :: u) →
    defT b da ++ t = defT b' da' ++ t' → plainP b = plainP b' ∧ bareL da = bareL da' ∧ t = t'
  | [], [], [], [], _, _, _, _, t, t', _, _, e => ⟨rfl, rfl, e⟩
  | [], _ :: _, [], _ :: _, _, _, _, _, t, t', ht, _, e => (ht _ _ e).elim
  | _ :: _, [], _ :: _, [], _, _, _, _, t, t', _, ht, e => (ht _ _ e.symm).elim
  | i :: b, i' :: b', v :: da, v' :: da', hb, hb', h, h', t, t', ht, ht', e => by
    simp only [defT, List.cons_append, List.cons.injEq, T.node.injEq, T.word.injEq, and_true] at e
    obtain ⟨h1, h2, h3⟩ := defT_inj b b' da da' (by simpa using hb) (by simpa using hb') (fun e he => h e (by simp [he]))
      (fun e he => h' e (by simp [he])) t t' ht ht' e.2
    have hv := h v (by simp)
    have hv' := h' v' (by simp)
    have h4 := injU v hv.1 hv.2 v' hv'.1 hv'.2 e.1.2
    refine ⟨?_, by simp [bareL, h2, h4], h3⟩
    simp only [plainP, List.map_cons, List.cons.injEq] at h1 ⊢
    exact ⟨by rw [e.1.1], h1⟩
  | [], _, _ :: _, _, hb, _, _, _, _, _, _, _, _ => by simp at hb
  | _ :: _, _, [], _, hb, _, _, _, _, _, _, _, _ => by simp at hb
  | _, [], _, _ :: _, _, hb, _, _, _, _, _, _, _ => by simp at hb
  | _, _ :: _, _, [], _, hb, _, _, _, _, _, _, _ => by simp at hb

theorem names_inj : ∀ (a a' : List Ast.Ident) (t t' : List T), (∀ i ∈ a, i.name ≠ cs!".") → (∀ i ∈ a', i.name ≠ cs!".") →
    (∀ w u, t = .word w :: u → w = cs!".") → (∀ w u, t' = .word w :: u → w = cs!".") →
    a.map (fun i => T.word i.name) ++ t = a'.map (fun i => T.word i.name) ++ t' → plainP a = plainP a' ∧ t = t'
  | [], [], t, t', _, _, _, _, e => ⟨rfl, e⟩
  | [], i :: a', t, t', _, h', ht, _, e => (h' i (by simp) (ht _ _ e)).elim
  | i :: a, [], t, t', h, _, _, ht, e => (h i (by simp) (ht _ _ e.symm)).elim
  | i :: a, i' :: a', t, t', h, h', ht, ht', e => by
    simp only [List.map_cons, List.cons_append, List.cons.injEq, T.word.injEq] at e
    obtain ⟨h1, h2⟩ := names_inj a a' t t' (fun i hi => h i (by simp [hi])) (fun i hi => h' i (by simp [hi])) ht ht' e.2
    refine ⟨?_, h2⟩
    simp only [plainP, List.map_cons, List.cons.injEq] at h1 ⊢
    exact ⟨by rw [e.1], h1⟩

theorem plainP_append (a b : List Ast.Ident) : plainP (a ++ b) = plainP a ++ plainP b := by simp [plainP]

theorem sig_inj {ps ps' : List Ast.Ident} {da da' : List Ast.Expr} (h : SigS ps da) (h' : SigS ps' da')
    (hd : ∀ e ∈ da, GE e) (hd' : ∀ e ∈ da', GE e) (e : words (sigWords ps da) = words (sigWords ps' da')) :
    plainP ps = plainP ps' ∧ bareL da = bareL da' := by
  obtain ⟨hw, a, b, d, rfl, h1, h2, h3⟩ := h
  obtain ⟨hw', a', b', d', rfl, h1', h2', h3'⟩ := h'
  rw [sig_texts rfl h1 h2 h3 hd, sig_texts rfl h1' h2' h3' hd'] at e
  have e1 := (rdT (r := []) (r' := []) (sig_wf hw hd) (sig_wf hw' hd') (by rw [e])).1
  rw [sigT, sigT, List.append_assoc, List.append_assoc] at e1
  have tail : ∀ (b : List Ast.Ident) (da : List Ast.Expr) (d : List Ast.Ident) w u,
      (defT b da ++ if d = [] then [] else [T.word cs!".", .word cs!"..."]) = .word w :: u → w = cs!"." := by
    intro b da d w u e
    cases b with
    | nil =>
      simp only [defT, List.nil_append] at e
      split at e
      · cases e
      · cases e; rfl
    | cons i b =>
      cases da with
      | nil =>
        simp only [defT, List.nil_append] at e
        split at e
        · cases e
        · cases e; rfl
      | cons v da => cases e
  have nt : ∀ (d : List Ast.Ident) l u, (if d = [] then [] else [T.word cs!".", .word cs!"..."]) ≠ .node l :: u := by
    intro d l u
    split <;> simp
  obtain ⟨p1, e2⟩ := names_inj a a' _ _ (fun i hi => (h3 i (by simp [hi])).2) (fun i hi => (h3' i (by simp [hi])).2)
    (tail b da d) (tail b' da' d') e1
  obtain ⟨p2, p3, e3⟩ := defT_inj b b' da da' h1 h1' hd hd' _ _ (nt d) (nt d') e2
  refine ⟨?_, p3⟩
  have p4 : plainP d = plainP d' := by
    have one : ∀ d : List Ast.Ident, d.map (·.name) = [cs!"..."] → plainP d = [⟨⟨0, 0, 0, []⟩, cs!"..."⟩] := by
      intro d h
      cases d with
      | nil => cases h
      | cons i d =>
        simp only [List.map_cons, List.cons.injEq, List.map_eq_nil_iff] at h
        simp [plainP, h]
    rcases h2 with rfl | h2 <;> rcases h2' with rfl | h2'
    · rfl
    · have : d' ≠ [] := by rintro rfl; cases h2'
      simp [this] at e3
    · have : d ≠ [] := by rintro rfl; cases h2
      simp [this] at e3
    · rw [one d h2, one d' h2']
  simp only [plainP_append, p1, p2, p4]

end Viml.Readable
