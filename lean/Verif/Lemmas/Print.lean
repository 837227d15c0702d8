/-
The printer: which trees it prints, where it puts parentheses, and reading its output back.
-/
import Verif.Lemmas.PrintRun
import Verif.Lemmas.Api
import Verif.Model.Printer

namespace Viml
open Spec Print

theorem binPrec_some {op : Tok} {p : Nat} (h : binPrec op = some p) : p = opLevel op ∧ BinOp op := by
  cases op <;> simp [binPrec] at h <;> subst h <;> exact ⟨rfl, by decide, by decide, by decide⟩

theorem binPrec_of {op : Tok} (h : BinOp op) : binPrec op = some (opLevel op) := by
  obtain ⟨h1, h2, h3⟩ := h
  cases op <;> first | rfl | exact absurd h1 (by decide) | contradiction

theorem unPrec_some {op : Tok} {p : Nat} (h : unPrec op = some p) : p = 7 ∧ UnOp op := by
  cases op <;> simp [unPrec] at h <;> subst h <;> exact ⟨rfl, by simp [UnOp]⟩

theorem unPrec_of {op : Tok} (h : UnOp op) : unPrec op = some 7 := by
  rcases h with rfl | rfl | rfl <;> rfl

theorem printable_of : ∀ (e : Ast.Expr) (p : Nat) {s : Str}, Print.expr1 e p = some s → InFragment e
  | .binary l q op r, p, s, h => by
    simp only [Print.expr1, Option.bind_eq_bind, Option.bind_eq_some_iff] at h
    obtain ⟨prec, hp, a, ha, b, hb, _⟩ := h
    exact .binary l q op r (binPrec_some hp).2 (printable_of l _ ha) (printable_of r _ hb)
  | .unary q op x, p, s, h => by
    simp only [Print.expr1, Option.bind_eq_bind, Option.bind_eq_some_iff] at h
    obtain ⟨prec, hp, a, ha, _⟩ := h
    exact .unary q op x (unPrec_some hp).2 (printable_of x _ ha)
  | .subscript q l r, p, s, h => by
    simp only [Print.expr1, Option.bind_eq_bind, Option.bind_eq_some_iff] at h
    obtain ⟨a, ha, b, hb, _⟩ := h
    exact .subscript q l r (printable_of l _ ha) (printable_of r _ hb)
  | .basicLit q k v, _, _, _ => .basicLit q k v
  | .ident i, _, _, _ => .ident i
  | .paren q x, p, s, h => by
    simp only [Print.expr1, Option.bind_eq_bind, Option.bind_eq_some_iff] at h
    obtain ⟨a, ha, _⟩ := h
    exact .paren q x (printable_of x _ ha)
  | .ternary .., p, s, h => by simp [Print.expr1] at h
  | .slice .., p, s, h => by simp [Print.expr1] at h
  | .method .., p, s, h => by simp [Print.expr1] at h
  | .call .., p, s, h => by simp [Print.expr1] at h
  | .dot .., p, s, h => by simp [Print.expr1] at h
  | .list .., p, s, h => by simp [Print.expr1] at h
  | .dict .., p, s, h => by simp [Print.expr1] at h
  | .curlyName .., p, s, h => by simp [Print.expr1] at h
  | .curlyNameLit .., p, s, h => by simp [Print.expr1] at h
  | .curlyNameExpr .., p, s, h => by simp [Print.expr1] at h
  | .lambda .., p, s, h => by simp [Print.expr1] at h
  | .heredoc .., p, s, h => by simp [Print.expr1] at h

theorem printable_print {e : Ast.Expr} (h : InFragment e) : ∀ p, ∃ s, Print.expr1 e p = some s := by
  induction h with
  | binary l q op r ho _ _ ihl ihr =>
    intro p
    obtain ⟨a, ha⟩ := ihl (opLevel op)
    obtain ⟨b, hb⟩ := ihr (opLevel op + 1)
    exact Option.isSome_iff_exists.1 (by simp only [Print.expr1, binPrec_of ho, ha, hb, Option.bind_eq_bind, Option.bind_some]; rfl)
  | unary q op x ho _ ih =>
    intro p
    obtain ⟨a, ha⟩ := ih 7
    exact Option.isSome_iff_exists.1 (by simp only [Print.expr1, unPrec_of ho, ha, Option.bind_eq_bind, Option.bind_some]; rfl)
  | subscript q l r _ _ ihl ihr =>
    intro p
    obtain ⟨a, ha⟩ := ihl 8
    obtain ⟨b, hb⟩ := ihr 0
    exact Option.isSome_iff_exists.1 (by simp only [Print.expr1, ha, hb, Option.bind_eq_bind, Option.bind_some]; rfl)
  | basicLit q k v => intro p; exact Option.isSome_iff_exists.1 (by simp only [Print.expr1]; rfl)
  | ident i => intro p; exact Option.isSome_iff_exists.1 (by simp only [Print.expr1]; rfl)
  | paren q x _ ih =>
    intro p
    obtain ⟨a, ha⟩ := ih 0
    exact Option.isSome_iff_exists.1 (by simp only [Print.expr1, ha, Option.bind_eq_bind, Option.bind_some]; rfl)

/-- Positions of parentheses the printer adds are irrelevant. -/
def noPos : Ast.Pos := ⟨0, 0, 0, []⟩

/-- The tree with the parentheses that the printer writes. -/
def fixParens : Ast.Expr → Nat → Ast.Expr
  | .binary l q op r, p =>
    if opLevel op < p then .paren noPos (.binary (fixParens l (opLevel op)) q op (fixParens r (opLevel op + 1)))
    else .binary (fixParens l (opLevel op)) q op (fixParens r (opLevel op + 1))
  | .unary q op x, p =>
    if 7 < p then .paren noPos (.unary q op (fixParens x 7)) else .unary q op (fixParens x 7)
  | .subscript q l r, _ => .subscript q (fixParens l 8) (fixParens r 0)
  | .paren q x, _ => if isParen x then fixParens x 0 else .paren q (fixParens x 0)
  | e, _ => e

theorem isParen_fix {x : Ast.Expr} (h : isParen x = false) : isParen (fixParens x 0) = false := by
  cases x <;> simp [fixParens, isParen] at h ⊢

theorem paren_fix : ∀ (y : Ast.Expr) (q : Ast.Pos) (p : Nat), ∃ q' z, fixParens (.paren q y) p = .paren q' z
  | y, q, p => by
    simp only [fixParens]
    split
    · rename_i hp
      match y, hp with
      | .paren q' z, _ => exact paren_fix z q' 0
    · exact ⟨_, _, rfl⟩

/-- The fixed tree is printed as the tree itself, at any place. -/
theorem fix_print {e : Ast.Expr} (h : InFragment e) : ∀ p, Print.expr1 (fixParens e p) p = Print.expr1 e p := by
  induction h with
  | binary l q op r ho _ _ ihl ihr =>
    intro p
    simp only [fixParens]
    split
    · rename_i hlt
      simp only [Print.expr1, isParen, binPrec_of ho, ihl, ihr, Option.bind_eq_bind, Option.bind_some, if_pos hlt]
      cases Print.expr1 l (opLevel op) <;> cases Print.expr1 r (opLevel op + 1) <;> simp
    · simp only [Print.expr1, binPrec_of ho, ihl, ihr, Option.bind_eq_bind, Option.bind_some]
  | unary q op x ho _ ih =>
    intro p
    simp only [fixParens]
    split
    · rename_i hlt
      simp only [Print.expr1, isParen, unPrec_of ho, ih, Option.bind_eq_bind, Option.bind_some, if_pos hlt]
      cases Print.expr1 x 7 <;> simp
    · simp only [Print.expr1, unPrec_of ho, ih, Option.bind_eq_bind, Option.bind_some]
  | subscript q l r _ _ ihl ihr => intro p; simp only [fixParens, Print.expr1, ihl, ihr]
  | basicLit q k v => intro p; simp only [fixParens]
  | ident i => intro p; simp only [fixParens]
  | paren q x _ ih =>
    intro p
    simp only [fixParens]
    split
    · rename_i hp
      have h0 := ih 0
      match x, hp, h0 with
      | .paren q' y, _, h0 =>
        obtain ⟨q2, z, hz⟩ := paren_fix y q' 0
        have e1 : Print.expr1 (.paren q2 z) p = Print.expr1 (.paren q2 z) 0 := by simp only [Print.expr1]
        rw [hz, e1, ← hz, h0]
        generalize hw : Ast.Expr.paren q' y = w
        have hp : isParen w = true := by subst hw; rfl
        simp only [Print.expr1, hp, if_true]
        cases Print.expr1 w 0 <;> simp
    · rename_i hp
      simp only [Print.expr1, isParen_fix (by simpa using hp), ih]
      simp [hp]

theorem sameTree_isParen {e a : Ast.Expr} (h : SameTree e a) : isParen e = isParen a := by
  cases h <;> rfl

/-- Positions do not matter for printing. -/
theorem sameTree_print {e a : Ast.Expr} (h : SameTree e a) : ∀ p, Print.expr1 e p = Print.expr1 a p := by
  induction h with
  | binary q q' op _ _ ihl ihr => intro p; simp only [Print.expr1, ihl, ihr]
  | unary q q' op _ ih => intro p; simp only [Print.expr1, ih]
  | subscript q q' _ _ ihl ihr => intro p; simp only [Print.expr1, ihl, ihr]
  | basicLit q q' k v => intro p; simp only [Print.expr1]
  | ident q q' n => intro p; simp only [Print.expr1]
  | paren q q' h ih => intro p; simp only [Print.expr1, ih, sameTree_isParen h]

theorem modParens_fix {e : Ast.Expr} (h : InFragment e) : ∀ p, ModParens e (fixParens e p) := by
  induction h with
  | binary l q op r ho _ _ ihl ihr =>
    intro p
    simp only [fixParens]
    split
    · exact .right _ (.binary _ _ _ (ihl _) (ihr _))
    · exact .binary _ _ _ (ihl _) (ihr _)
  | unary q op x ho _ ih =>
    intro p
    simp only [fixParens]
    split
    · exact .right _ (.unary _ _ _ (ih _))
    · exact .unary _ _ _ (ih _)
  | subscript q l r _ _ ihl ihr => intro p; exact .subscript _ _ (ihl _) (ihr _)
  | basicLit q k v => intro p; exact .basicLit _ _ _ _
  | ident i => intro p; exact .ident _ _ _
  | paren q x _ ih =>
    intro p
    simp only [fixParens]
    split
    · exact .left _ (ih 0)
    · exact .left _ (.right _ (ih 0))

theorem Spec.Everywhere.sub {P : Ast.Expr → Prop} {e x : Ast.Expr} (h : Everywhere P e) (hx : x ∈ subs e) :
    Everywhere P x := by
  cases h with | mk _ _ h _ => exact h x hx

theorem Spec.Everywhere.self {P : Ast.Expr → Prop} {e : Ast.Expr} (h : Everywhere P e) : P e := Spec.AllE.top h

theorem onceParen_fix {e : Ast.Expr} (h : InFragment e) :
    ∀ p, Everywhere precOK e → p ≤ level e → OnceParen e (fixParens e p) := by
  induction h with
  | binary l q op r ho _ _ ihl ihr =>
    intro p hp hl
    obtain ⟨_, h1, h2⟩ := hp.self
    simp only [level] at hl
    simp only [fixParens, if_neg (Nat.not_lt.2 hl)]
    have : opLevel op ≤ leftLevel op := by unfold leftLevel; split <;> omega
    exact .binary _ _ _ (ihl _ (hp.sub (by simp [subs])) (by omega)) (ihr _ (hp.sub (by simp [subs])) h2)
  | unary q op x ho _ ih =>
    intro p hp hl
    simp only [level] at hl
    simp only [fixParens, if_neg (Nat.not_lt.2 hl)]
    exact .unary _ _ _ (ih _ (hp.sub (by simp [subs])) hp.self.2)
  | subscript q l r _ _ ihl ihr =>
    intro p hp hl
    exact .subscript _ _ (ihl _ (hp.sub (by simp [subs])) hp.self.1) (ihr _ (hp.sub (by simp [subs])) (Nat.zero_le _))
  | basicLit q k v => intro p _ _; exact .basicLit _ _ _ _
  | ident i => intro p _ _; exact .ident _ _ _
  | paren q x _ ih =>
    intro p hp hl
    have := ih 0 (hp.sub (by simp [subs])) (Nat.zero_le _)
    simp only [fixParens]
    split
    · rename_i h
      match x, h, this with
      | .paren q' y, _, this => exact .twice _ _ this
    · rename_i h
      exact .paren _ _ (fun p y hy => h (by subst hy; rfl)) this

theorem Spec.OnceParen.trans {e t a : Ast.Expr} (h : OnceParen e t) : SameTree t a → OnceParen e a := by
  intro h2
  induction h generalizing a with
  | binary q q' op _ _ ihl ihr => cases h2 with | binary _ _ _ h h' => exact .binary _ _ _ (ihl h) (ihr h')
  | unary q q' op _ ih => cases h2 with | unary _ _ _ h => exact .unary _ _ _ (ih h)
  | subscript q q' _ _ ihl ihr => cases h2 with | subscript _ _ h h' => exact .subscript _ _ (ihl h) (ihr h')
  | basicLit q q' k v => cases h2; exact .basicLit _ _ _ _
  | ident q q' n => cases h2; exact .ident _ _ _
  | paren q q' hn _ ih => cases h2 with | paren _ _ h => exact .paren _ _ hn (ih h)
  | twice q p _ ih => exact .twice _ _ (ih h2)

theorem Spec.ModParens.trans {e t a : Ast.Expr} (h : ModParens e t) : SameTree t a → ModParens e a := by
  intro h2
  induction h generalizing a with
  | binary q q' op _ _ ihl ihr => cases h2 with | binary _ _ _ h h' => exact .binary _ _ _ (ihl h) (ihr h')
  | unary q q' op _ ih => cases h2 with | unary _ _ _ h => exact .unary _ _ _ (ih h)
  | subscript q q' _ _ ihl ihr => cases h2 with | subscript _ _ h h' => exact .subscript _ _ (ihl h) (ihr h')
  | basicLit q q' k v => cases h2; exact .basicLit _ _ _ _
  | ident q q' n => cases h2; exact .ident _ _ _
  | left q _ ih => exact .left _ (ih h2)
  | right q _ ih => cases h2 with | paren _ _ h => exact .right _ (ih h)

def isCmp : Ast.Expr → Prop
  | .binary _ _ op _ => opLevel op = 4
  | _ => False

/-- The printed text is a text of the fixed tree. -/
theorem prn_print {e : Ast.Expr} (h : InFragment e) : ∀ {p s}, Everywhere leafOK e → Everywhere cmpOK e → p ≤ 8 →
    Print.expr1 e p = some s → ∃ k, Prn k (fixParens e p) s ∧ p ≤ k ∧ 1 ≤ k ∧ (k = 4 → isCmp e) := by
  induction h with
  | binary l q op r ho _ _ ihl ihr =>
    intro p s hl hc hp h
    simp only [Print.expr1, binPrec_of ho, Option.bind_eq_bind, Option.bind_some, Option.bind_eq_some_iff] at h
    obtain ⟨a, ha, b, hb, h⟩ := h
    have ho6 : opLevel op ≤ 6 := by cases op <;> decide
    obtain ⟨kl, pl, gl, _, cl⟩ := ihl (hl.sub (by simp [subs])) (hc.sub (by simp [subs])) (by omega) ha
    obtain ⟨kr, pr, gr, _, _⟩ := ihr (hl.sub (by simp [subs])) (hc.sub (by simp [subs])) (by omega) hb
    have hll : leftLevel op ≤ kl := by
      unfold leftLevel
      split
      · rename_i h4
        have : kl ≠ 4 := by
          intro h
          have h1 := cl h
          have h2 := hc.self
          cases l <;> simp only [isCmp] at h1
          exact h2 ⟨h4, h1⟩
        omega
      · exact gl
    have hB := Prn.binary q op ho.1 pl hll pr gr
    simp only [fixParens]
    split at h <;> rename_i hlt
    · rw [if_pos hlt]
      simp only [Option.some.injEq] at h
      subst h
      exact ⟨9, .paren noPos hB (by have := ho.1; omega), by omega, by omega, by omega⟩
    · rw [if_neg hlt]
      simp only [Option.some.injEq] at h
      subst h
      exact ⟨_, hB, by omega, by have := ho.1; omega, id⟩
  | unary q op x ho _ ih =>
    intro p s hl hc hp h
    simp only [Print.expr1, unPrec_of ho, Option.bind_eq_bind, Option.bind_some, Option.bind_eq_some_iff] at h
    obtain ⟨a, ha, h⟩ := h
    obtain ⟨k, pk, gk, _, _⟩ := ih (hl.sub (by simp [subs])) (hc.sub (by simp [subs])) (by omega) ha
    have hU := Prn.unary q op ho pk gk
    simp only [fixParens]
    split at h <;> rename_i hlt
    · rw [if_pos hlt]
      simp only [Option.some.injEq] at h
      subst h
      exact ⟨9, .paren noPos hU (by omega), by omega, by omega, by omega⟩
    · rw [if_neg hlt]
      simp only [Option.some.injEq] at h
      subst h
      exact ⟨_, hU, by omega, by omega, by omega⟩
  | subscript q l r _ _ ihl ihr =>
    intro p s hl hc hp h
    simp only [Print.expr1, Option.bind_eq_bind, Option.bind_eq_some_iff, Option.some.injEq] at h
    obtain ⟨a, ha, b, hb, rfl⟩ := h
    obtain ⟨kl, pl, gl, _, _⟩ := ihl (hl.sub (by simp [subs])) (hc.sub (by simp [subs])) (by omega) ha
    obtain ⟨kr, pr, _, gr, _⟩ := ihr (hl.sub (by simp [subs])) (hc.sub (by simp [subs])) (by omega) hb
    exact ⟨8, .subscript q pl gl pr gr, by omega, by omega, by omega⟩
  | basicLit q k v =>
    intro p s hl hc hp h
    simp only [Print.expr1, Option.some.injEq] at h
    subst h
    exact ⟨9, .lit _ _ _ hl.self, by omega, by omega, by omega⟩
  | ident i =>
    intro p s hl hc hp h
    simp only [Print.expr1, Option.some.injEq] at h
    subst h
    exact ⟨9, .ident _ hl.self, by omega, by omega, by omega⟩
  | paren q x _ ih =>
    intro p s hl hc hp h
    simp only [Print.expr1, Option.bind_eq_bind, Option.bind_eq_some_iff, Option.some.injEq] at h
    obtain ⟨a, ha, h⟩ := h
    obtain ⟨k, pk, _, gk, _⟩ := ih (hl.sub (by simp [subs])) (hc.sub (by simp [subs])) (by omega) ha
    simp only [fixParens]
    split at h <;> rename_i hx
    · rw [if_pos hx]
      subst h
      have : k = 9 := by
        match x, hx, pk with
        | .paren q' y, _, pk =>
          obtain ⟨q2, z, hz⟩ := paren_fix y q' 0
          rw [hz] at pk
          cases pk; rfl
      exact ⟨k, pk, by omega, by omega, by omega⟩
    · rw [if_neg hx]
      subst h
      exact ⟨9, .paren q pk gk, by omega, by omega, by omega⟩

theorem reads_line : ∀ (s : Str) (r : List Cell), r.map Cell.c = s.map some ++ [none] →
    ∃ r', Reads r s r' ∧ headSym r' = .eol
  | [], r, h => by
    match r, h with
    | [⟨none, q⟩], _ => exact ⟨_, .nil _, rfl⟩
  | c :: s, r, h => by
    match r, h with
    | ⟨some d, q⟩ :: r, h =>
      simp only [List.map_cons, List.cons_append, List.cons.injEq, Option.some.injEq] at h
      obtain ⟨hd, hr⟩ := h
      obtain ⟨r', h1, h2⟩ := reads_line s r hr
      exact ⟨r', .cons (by simp [hd]) h1, h2⟩

/-- Text of a tree, given to the parser, yields the tree. -/
theorem prn_parse {k : Nat} {e : Ast.Expr} {s : Str} (h : Prn k e s) :
    ∃ a, parseExprLines [s] = some ⟨some a, none⟩ ∧ SameTree e a := by
  have hb : (mkEnv [s]).buf.map Cell.c = s.map some ++ [none] := by
    simp [mkEnv, reindex_text, buildCells_text, logicalLines, joinFrom]
  obtain ⟨r', hr, he⟩ := reads_line s _ hb
  have h9 := h.ne_nil
  obtain ⟨v, h1, a, h2, h3⟩ := (prn_run (fn := []) (mkEnv_ok [s]) h (n := (mkEnv [s]).buf.length) (r := (mkEnv [s]).buf)
    List.suffix_rfl (.nil _) (by simp) hr (Nat.le_refl _)).full 1 (Nat.le_refl _) h9.2 (.fin (by rw [he]; rfl))
  refine ⟨a, ?_, h3⟩
  have h4 : parseExpr1.run (mkEnv [s]) (mkEnv [s]).buf = .ok v r' := h1.run
  simp only [parseExprLines, h4, h2]

/-! ### Trees of the parser -/

theorem blobRun_bytes {s : Str} {r : List Cell} (h : BlobRun s r) : s.getLast? ≠ some '.' → Bytes s := by
  induction h with
  | stop r _ _ _ => intro _; exact .nil
  | pair a b s r ha hb _ ih =>
    intro hl
    refine .pair a b s ha hb (ih ?_)
    cases s with
    | nil => simp
    | cons c s => simpa using hl
  | dot s r hx hr ih =>
    intro hl
    cases s with
    | nil => simp at hl
    | cons c s =>
      have hb := ih (by simpa using hl)
      cases hb with
      | pair a b s ha hb h => exact .dot _ _ _ ha hb h
      | dot a b s ha hb h => exact absurd (show isxdigit '.' = true from hx) (by decide)

theorem literal_of {env : Env} {fn : Str} {q : Ast.Pos} {k : Tok} {v : Str} (hs : LitShape k v)
    (hw : wholeLeaf (.basicLit q k v)) (ho : k ≠ .STRING → LexAt env fn q v) : Literal k v := by
  cases k <;> try exact hs
  case BLOB =>
    obtain ⟨r, r', ty, _, _, hl⟩ := ho (by decide)
    obtain ⟨z, b, hz, _, rfl⟩ := hs
    have key : nextSym b r' ≠ .ch '.' ∧ BlobRun b r' := by
      generalize hv : '0' :: z :: b = v at hl
      have hd : ∀ d : Str, Many1 isdigit d → ∀ t, '0' :: z :: b = d ++ t → ∃ t', t = z :: t' := by
        intro d hd t e
        match d, hd with
        | [a], _ => simp at e; exact ⟨_, e.2.symm⟩
        | a :: a' :: d, hd =>
          simp at e
          have := hd.2 a' (by simp)
          rcases hz with rfl | rfl <;> (rw [← e.2.1] at this; exact absurd this (by decide))
        | [], hd => exact absurd rfl hd.1
      have hdot : z ≠ '.' := by rcases hz with rfl | rfl <;> decide
      cases hl with
      | blob z' s r _ h1 h2 => simp at hv; rw [hv.2]; exact ⟨h1, h2⟩
      | hex x d r hx => simp at hv; rcases hx with rfl | rfl <;> rcases hz with rfl | rfl <;> simp at hv
      | bin x d r hx => simp at hv; rcases hx with rfl | rfl <;> rcases hz with rfl | rfl <;> simp at hv
      | dec d r h1 => obtain ⟨t, ht⟩ := hd _ h1 [] (by simpa using hv); simp at ht
      | float d f r h1 => obtain ⟨t, ht⟩ := hd _ h1 _ hv; simp at ht; exact absurd ht.1.symm hdot
      | exp d f e r h1 =>
        rw [List.append_assoc] at hv
        obtain ⟨t, ht⟩ := hd _ h1 _ hv; simp at ht; exact absurd ht.1.symm hdot
      | ident c s r h => simp at hv; rw [← hv.1] at h; exact absurd h (by decide)
      | cmp k r => cases k <;> simp [cmpText] at hv
      | cmpCase k m r => cases k <;> simp [cmpText] at hv
      | _ => simp at hv
    refine ⟨z, b, hz, rfl, blobRun_bytes key.2 ?_, ?_⟩
    · have := hw.2 rfl
      cases b with
      | nil => simp
      | cons c b => simpa using this
    · cases b with
      | nil => simp
      | cons c b =>
        intro h
        simp at h
        exact key.1 (by rw [h]; rfl)
  case REG =>
    rcases hs with rfl | h
    · exact absurd rfl (hw.1 rfl)
    · exact h

theorem Spec.Everywhere.and {P Q : Ast.Expr → Prop} {e : Ast.Expr} (h : Everywhere P e) :
    Everywhere Q e → Everywhere (fun x => P x ∧ Q x) e := by
  unfold Everywhere at *
  induction h with
  | mk e h1 _ _ ih1 ih2 =>
    intro h
    cases h with
    | mk _ g1 g2 g3 =>
      exact .mk e ⟨h1, g1⟩ (fun x hx => ih1 x hx (g2 x hx)) fun k hk hf => ih2 k hk hf (g3 k hk hf)

theorem precOK_cmpOK (e : Ast.Expr) (h : precOK e) : cmpOK e := by
  match e, h with
  | .binary (.binary _ _ op' _) _ op _, h =>
    rintro ⟨h1, h2⟩
    have := h.2.1
    simp only [leftLevel, h1, level, h2] at this
    exact absurd this (by decide)
  | .binary (.ternary ..) .., _ | .binary (.unary ..) .., _ | .binary (.subscript ..) .., _
  | .binary (.slice ..) .., _ | .binary (.method ..) .., _ | .binary (.call ..) .., _
  | .binary (.dot ..) .., _ | .binary (.basicLit ..) .., _ | .binary (.list ..) .., _
  | .binary (.dict ..) .., _ | .binary (.curlyName ..) .., _ | .binary (.curlyNameLit ..) .., _
  | .binary (.curlyNameExpr ..) .., _ | .binary (.ident ..) .., _ | .binary (.lambda ..) .., _
  | .binary (.paren ..) .., _ | .binary (.heredoc ..) .., _ => trivial
  | .ternary .., _ | .unary .., _ | .subscript .., _ | .slice .., _ | .method .., _ | .call .., _
  | .dot .., _ | .basicLit .., _ | .list .., _ | .dict .., _ | .curlyName .., _ | .curlyNameLit .., _
  | .curlyNameExpr .., _ | .ident .., _ | .lambda .., _ | .paren .., _ | .heredoc .., _ => trivial

theorem sBody_cons {s : Str} {c : Char} (hc : c ≠ '\'') (h : SBody s) : SBody (c :: s) := by
  induction h with
  | nil => exact .char .nil hc
  | char _ h ih => exact .char ih h
  | quote _ ih => exact .quote ih

theorem plain_sBody : ∀ s : Str, (∀ c ∈ s, (isalnum c || c == '_' || c == '-') = true) → SBody s
  | [], _ => .nil
  | c :: s, h => sBody_cons (by rintro rfl; exact absurd (h '\'' (by simp)) (by decide))
      (plain_sBody s fun x hx => h x (by simp [hx]))

/-- Trees of the parser have well-formed leaves, unless these are cut off, and operands at the right levels. -/
theorem parsed_ok {env : Env} {fn : Str} {e : Ast.Expr} (h : AllE (OkE env fn) (litKey env fn) e)
    (hw : Everywhere wholeLeaf e) : Everywhere leafOK e ∧ Everywhere cmpOK e ∧ Everywhere precOK e := by
  have hp : Everywhere precOK e :=
    Spec.AllE.noKeys (fun e he => litKey_leaf (fun q v _ => trivial) he) (h.imp fun e he => he.prec)
  have h1 : Everywhere (fun x => ∀ q k v, x = .basicLit q k v → wholeLeaf x → Literal k v) e := by
    refine Spec.AllE.noKeys (K := litKey env fn) (fun e he => ?_) (h.imp fun e he q k v hx hw => ?_)
    · cases e <;> simp only [litKey] at he
      rename_i q k v
      obtain ⟨rfl, s, r, r1, rfl, hne, hs, hr, rfl, hc⟩ := he
      refine .mk _ ?_ (by simp [subs]) (by simp [keys])
      intro q k v hx _
      cases hx
      exact .inr ⟨s, plain_sBody s hc, rfl⟩
    · subst hx; exact literal_of he.shape hw he.opr
  have h2 : Everywhere (fun x => ∀ i, x = .ident i → NameShape i.name) e := by
    refine Spec.AllE.noKeys (K := litKey env fn) (fun e he => ?_) (h.imp fun e he i hx => ?_)
    · exact litKey_leaf (fun q v _ => fun i hi => nomatch hi) he
    · subst hx; exact he.shape
  refine ⟨((h1.and h2).and hw).imp fun x hx => ?_, hp.imp precOK_cmpOK, hp⟩
  obtain ⟨⟨g1, g2⟩, g3⟩ := hx
  cases x <;> first | trivial | exact g1 _ _ _ rfl g3 | exact g2 _ rfl

end Viml
