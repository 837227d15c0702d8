/-
Soundness of the expression parser for the grammar of `Spec/Grammar.lean`: every tree it returns is the
tree of the text it has read.
-/
import Verif.Lemmas.ExprAst
import Verif.Spec.Grammar

namespace Viml
open Prog Spec

section
variable {env : Env} {fn : Str}

theorem Tk.lex (he : EnvOK env) {r : List Cell} (hs : Suf env r) {ty : TT} {t : Token} {r' : List Cell}
    (h : Tk env r ty t r') : Lex env r t r' := (tokGet_iff he hs t r').1 h.1

theorem Tk.mark (he : EnvOK env) {r : List Cell} (hs : Suf env r) {ty : TT} {t : Token} {r' : List Cell}
    (h : Tk env r ty t r') : Mark env fn r ty (pubPos fn t.pos) r' := ⟨t, h.lex he hs, h.2, rfl⟩

theorem head_span_not (f : Char → Bool) (r : List Cell) : (headSym (spanS f r).2).is f = false := by
  cases h : headSym (spanS f r).2 with
  | eof => rfl
  | eol => rfl
  | ch c => exact spanS_stop f r c h

/-! ### A name followed by a comma is a whole phrase -/

/-- If what is read starts with a name that is followed by a comma, it is that name. -/
def NoComma (env : Env) (r r' : List Cell) : Prop :=
  ∀ t1 r1 t2 r2, tokGet env r = .ok t1 r1 → t1.ty = .identifier → tokGet env r1 = .ok t2 r2 →
    t2.ty = .comma → r' = r1

theorem NoComma.start {r r1 r' : List Cell} {t : Token} (h : tokGet env r = .ok t r1) (ht : t.ty ≠ .identifier) :
    NoComma env r r' := by
  intro t1 r1 t2 r2 h1 h2
  rw [h] at h1; cases h1
  exact absurd h2 ht

theorem NoComma.tk {r r1 r' : List Cell} {t : Token} {ty : TT} (h : Tk env r ty t r1)
    (ht : ty ≠ .identifier := by decide) : NoComma env r r' := NoComma.start h.1 (h.2 ▸ ht)

theorem NoComma.step {r r1 r2 r' : List Cell} {t : Token} (h0 : NoComma env r r1) (h : tokGet env r1 = .ok t r2)
    (ht : t.ty ≠ .comma) : NoComma env r r' := by
  intro t1 q1 t2 q2 h1 h2 h3 h4
  have := h0 t1 q1 t2 q2 h1 h2 h3 h4
  subst this
  rw [h] at h3; cases h3
  exact absurd h4 ht

theorem NoComma.stepTk {r r1 r2 r' : List Cell} {t : Token} {ty : TT} (h0 : NoComma env r r1)
    (h : Tk env r1 ty t r2) (ht : ty ≠ .comma := by decide) : NoComma env r r' :=
  h0.step h.1 (h.2 ▸ ht)

/-- Blanks space does not matter for reading a token. -/
theorem Blanks.skip {r r1 : List Cell} (h : Blanks r r1) (h1 : (headSym r1).is iswhite = false) :
    (spanS iswhite r).2 = r1 := by
  obtain ⟨w, h2, h3⟩ := h
  rw [spanS_of_reads h2 h3 h1]

theorem NoComma.quote (he : EnvOK env) {r r1 r' r2 : List Cell} {w : Str} {c : Char} {s : Str} {ty : TT}
    (hs : Suf env r) (h1 : Reads r w r1) (hw : ∀ c ∈ w, iswhite c = true) (h2 : Reads r1 (c :: s) r2)
    (hl : ∀ r, Lexeme ty [c] r) (hty : ty ≠ .identifier) : NoComma env r r' := by
  obtain ⟨h3, _⟩ := (Reads.split (a := [c]) h2).choose_spec
  exact NoComma.start ((tokGet_iff he hs _ _).2 (.text w r r1 ty [c] _ h1 hw h3 (hl _))) hty

/-- The text of an identifier token is a maximal name. -/
theorem ident_text (he : EnvOK env) {r r' : List Cell} (hs : Suf env r) {t : Token}
    (h : Tk env r .identifier t r') : ∃ r1, Blanks r r1 ∧ (spanS iswhite r).2 = r1 ∧ Reads r1 t.value r' ∧
      spanS isnamec r1 = (t.value, r') ∧ (headSym r1).is iswordc1 = true ∧ (headSym r').is isnamec = false := by
  have hl := h.lex he hs
  have hty := h.2
  cases hl with
  | eof => cases hty
  | eol => cases hty
  | text w _ r1 ty v _ k1 k2 k3 k4 =>
    simp only at hty
    subst hty
    cases k4 with
    | ident c s _ h1 h2 h3 h4 =>
      have hh : headSym r1 = .ch c := headSym_of_reads k3
      refine ⟨r1, ⟨w, k1, k2⟩, ?_, k3, ?_, by rw [hh]; exact h1, h3⟩
      · refine Blanks.skip ⟨w, k1, k2⟩ ?_
        rw [hh]
        show iswhite c = false
        cases hw : iswhite c with
        | false => rfl
        | true =>
          exfalso
          have : c = ' ' ∨ c = '\t' := by simpa [iswhite] using hw
          rcases this with rfl | rfl <;> exact absurd h1 (by decide)
      · refine spanS_of_reads k3 ?_ h3
        intro x hx
        rcases List.mem_cons.1 hx with rfl | hx
        · exact iswordc1_namec h1
        · exact h2 x hx

theorem comma_head (he : EnvOK env) {r r' : List Cell} (hs : Suf env r) {t : Token} {ty : TT} {v : Str}
    (h : Tk env r ty t r') (hv : ∀ w, Shape ty w → w = v) (h1 : ty ≠ .eof) (h2 : ty ≠ .eol) :
    Reads (spanS iswhite r).2 v r' := by
  obtain ⟨_, h3, h4⟩ := tok_skip he hs h h1 h2
  rwa [hv _ h4] at h3

theorem NoComma.ident (he : EnvOK env) {Q : ERel} {r r1 r' : List Cell} {w : Str} {ps : List VExpr} (hs : Suf env r)
    (h1 : Reads r w r1) (hw : ∀ c ∈ w, iswhite c = true) (hp : IdParts env Q r1 ps r') (hst : IdStart r1) :
    NoComma env r r' := by
  intro t1 q1 t2 q2 h2 h3 h4 h5
  obtain ⟨x, _, k2, k3, k4, k5, k6⟩ := ident_text he hs ⟨h2, h3⟩
  have hx : (headSym r1).is iswhite = false := by
    rcases hst with h | h | h | h
    · obtain ⟨c, hc, hf⟩ := Sym.is_ch h
      rw [hc]
      show iswhite c = false
      cases hw : iswhite c with
      | false => rfl
      | true =>
        exfalso
        have : c = ' ' ∨ c = '\t' := by simpa [iswhite] using hw
        rcases this with rfl | rfl <;> exact absurd hf (by decide)
    · rw [h.1]; rfl
    · rw [h]; rfl
    · rw [h.1]; rfl
  have e1 : r1 = x := by rw [← k2]; exact (Blanks.skip ⟨w, h1, hw⟩ hx).symm
  subst e1
  have hsq : Suf env q1 := k3.adv.suf (h1.adv.suf hs)
  obtain ⟨c, hc, hf⟩ := Sym.is_ch k5
  cases hp with
  | sid hh _ _ => rw [hh] at hc; cases hc; exact absurd hf (by decide)
  | plain _ hp =>
    cases hp with
    | nil hh _ => rw [hc] at hh; exact absurd (iswordc1_namec hf) (by simpa [Sym.is] using hh)
    | expr hh _ _ _ => rw [hh] at hc; cases hc; exact absurd hf (by decide)
    | name hh hp =>
      rw [k4] at hp
      simp only at hp
      cases hp with
      | nil => rfl
      | name hh _ => rw [k6] at hh; cases hh
      | expr hh _ _ _ =>
        have h6 := comma_head he hsq ⟨h4, h5⟩ (v := [',']) (fun w h => h) (by decide) (by decide)
        have : (spanS iswhite q1).2 = q1 := Blanks.skip ⟨[], Reads.nil _, by simp⟩ (by rw [hh]; rfl)
        rw [this] at h6
        have := headSym_of_reads h6
        rw [hh] at this; cases this

/-! ### The predicate -/

/-- The expression converts to a public tree that is derived by the grammar from the text read. -/
def GP (env : Env) (fn : Str) (k : Nat) : ERel := fun r e r' =>
  (∃ a, Export.expr fn e = some a ∧ (Repeats k → Chain env fn k r a r') ∧ (¬ Repeats k → Gram env fn k r a r')) ∧
  NoComma env r r'

local notation "D" => Der env (GP env fn)

theorem GP.chain {k : Nat} {r : List Cell} {e : VExpr} {r' : List Cell} (h : GP env fn k r e r') (hk : Repeats k) :
    ∃ a, Export.expr fn e = some a ∧ Chain env fn k r a r' := by
  obtain ⟨⟨a, h1, h2, _⟩, _⟩ := h; exact ⟨a, h1, h2 hk⟩

theorem GP.gram {k : Nat} {r : List Cell} {e : VExpr} {r' : List Cell} (h : GP env fn k r e r') (hk : ¬ Repeats k) :
    ∃ a, Export.expr fn e = some a ∧ Gram env fn k r a r' := by
  obtain ⟨⟨a, h1, _, h2⟩, _⟩ := h; exact ⟨a, h1, h2 hk⟩

theorem GP.ofGram {k : Nat} {r : List Cell} {e : VExpr} {r' : List Cell} {a : Ast.Expr} (hk : ¬ Repeats k)
    (h1 : Export.expr fn e = some a) (h2 : Gram env fn k r a r') (h3 : NoComma env r r') : GP env fn k r e r' :=
  ⟨⟨a, h1, fun h => absurd h hk, fun _ => h2⟩, h3⟩

theorem GP.ofChain {k : Nat} {r : List Cell} {e : VExpr} {r' : List Cell} {a : Ast.Expr} (hk : Repeats k)
    (h1 : Export.expr fn e = some a) (h2 : Chain env fn k r a r') (h3 : NoComma env r r') : GP env fn k r e r' :=
  ⟨⟨a, h1, fun _ => h2, fun h => absurd hk h⟩, h3⟩

theorem der1 {r : List Cell} {e : VExpr} {r' : List Cell} (h : D 1 r e r') :
    ∃ a, Export.expr fn e = some a ∧ Gram env fn 1 r a r' := h.p.gram (by unfold Repeats; omega)

theorem items_gram (he : EnvOK env) {close : TT} {r : List Cell} {vs : List VExpr} {r' : List Cell} (hs : Suf env r)
    (h : Items env (D 1) close r vs r') :
    ∃ as, Export.exprs fn vs = some as ∧ as.length = vs.length ∧ Args env fn close r as r' := by
  induction h with
  | nil ht => exact ⟨[], rfl, rfl, .nil (ht.mark he hs)⟩
  | last hq ht =>
    obtain ⟨a, h1, h2⟩ := der1 hq
    exact ⟨[a], by simp [Export.exprs, h1], rfl, .last h2 (ht.mark he hq.suf')⟩
  | cons hq ht _ ih =>
    obtain ⟨a, h1, h2⟩ := der1 hq
    obtain ⟨as, k1, k2, k3⟩ := ih ((ht.sadv he hq.suf').suf hq.suf')
    exact ⟨a :: as, by simp [Export.exprs, h1, k1], by simp [k2], .cons h2 (ht.mark he hq.suf') k3⟩

theorem litkey_gram (he : EnvOK env) {r : List Cell} (hs : Suf env r) {k : VExpr} {r' : List Cell}
    (h : LitKey env r k r') :
    ∃ a, Export.expr fn k = some a ∧ LitWord env fn r a r' := by
  obtain ⟨⟨t, q, ht⟩, w, r1, v, h1, h2, h3, h4, h5, rfl⟩ := h
  exact ⟨_, expr_atom _ _ _, ⟨t, q, (tokGet_iff he hs _ _).1 ht, trivial⟩, r1, v, ⟨w, h1, h2⟩, h3, ⟨h4, h5⟩, rfl⟩

theorem ditems_gram (he : EnvOK env) {lit : Bool} {K : ERel}
    (hK : ∀ r k r', Suf env r → K r k r' → SAdv r r' ∧ ∃ a, Export.expr fn k = some a ∧ Key env fn lit r a r')
    {r : List Cell} {kvs : List (VExpr × VExpr)} {r' : List Cell} (hs : Suf env r)
    (h : DItems env K (D 1) r kvs r') :
    ∃ as, Export.pairs fn kvs = some as ∧ Pairs env fn lit r as r' := by
  induction h with
  | nil ht => exact ⟨[], rfl, .nil (ht.mark he hs)⟩
  | last hk hc hq ht =>
    obtain ⟨a0, a, h1, h2⟩ := hK _ _ _ hs hk
    obtain ⟨b, k1, k2⟩ := der1 hq
    exact ⟨[(a, b)], by simp [Export.pairs, h1, k1], .last h2 (hc.mark he (a0.suf hs)) k2 (ht.mark he hq.suf')⟩
  | cons hk hc hq ht _ ih =>
    obtain ⟨a0, a, h1, h2⟩ := hK _ _ _ hs hk
    obtain ⟨b, k1, k2⟩ := der1 hq
    obtain ⟨as, j1, j2⟩ := ih ((ht.sadv he hq.suf').suf hq.suf')
    exact ⟨(a, b) :: as, by simp [Export.pairs, h1, k1, j1],
      .cons h2 (hc.mark he (a0.suf hs)) k2 (ht.mark he hq.suf') j2⟩

theorem parts_gram {r : List Cell} {ps : List VExpr} {r' : List Cell} (h : Parts env (D 1) r ps r') :
    ∃ as, Export.exprs fn ps = some as ∧ NameParts env fn r as r' ∧ (∀ a ∈ as, Export.isCurlyPart a = true) := by
  induction h with
  | nil h1 h2 => exact ⟨[], rfl, .nil h1 h2, by simp⟩
  | @name r ps r' hh _ ih =>
    obtain ⟨as, k1, k2, k3⟩ := ih
    obtain ⟨c, hc, hf⟩ := Sym.is_ch hh
    exact ⟨.curlyNameLit (Export.pos fn (posOf env r)) (spanS isnamec r).1 :: as,
      by simp [Export.exprs, Export.expr, Export.atom, k1],
      .text (spanS_reads _ _) (spanS_many1 ⟨hc, trivial⟩ hf) (head_span_not _ _) k2,
      by rw [List.forall_mem_cons]; exact ⟨rfl, k3⟩⟩
  | @expr r e r1 ps r' hh hq hc _ ih =>
    obtain ⟨as, k1, k2, k3⟩ := ih
    obtain ⟨a, h1, h2⟩ := der1 hq
    exact ⟨.curlyNameExpr (Export.pos fn (posOf env r.tail)) a :: as,
      by simp [Export.exprs, Export.expr, h1, k1],
      .expr (headSym_reads hh) h2 ⟨_, spanS_reads _ _, spanS_all _ _⟩ (headSym_reads hc) k2,
      by rw [List.forall_mem_cons]; exact ⟨rfl, k3⟩⟩

theorem lamPs_gram (he : EnvOK env) {named : List Str} {r : List Cell} {ps : List (Pos × Str)} {r' : List Cell}
    (hs : Suf env r) (h : LamPs env named r ps r') : LamParams env fn named r (Export.idents fn ps) r' := by
  induction h with
  | done ht => exact .none (ht.mark he hs)
  | dots ht ht' => exact .dots (ht.lex he hs) ht.2 (ht'.mark he ((ht.sadv he hs).suf hs))
  | last ht h1 h2 ht' => exact .last (ht.lex he hs) ht.2 h1 h2 (ht'.mark he ((ht.sadv he hs).suf hs))
  | cons ht h1 h2 h3 ht' _ ih =>
    have hs1 := (ht.sadv he hs).suf hs
    exact .cons (ht.lex he hs) ht.2 h1 h2 h3 (ht'.mark he hs1) (ih ((ht'.sadv he hs1).suf hs1))

/-! ### Operators -/

theorem isOp_of_ops {k : Nat} {ty : TT} {op : BinTy} (h : opsAt k ty = some op) : IsOp ty k (binTok op) := by
  unfold opsAt at h
  split at h
  all_goals first
    | (cases ty <;> simp [opsOr, opsAnd, opsAdd, opsMul] at h <;> subst h <;> constructor)
    | simp at h

theorem isOp_of_cmp {ty : TT} {op : BinTy} (h : opsCmp ty = some op) : IsOp ty 4 (binTok op) := by
  have h4 := opsCmp_level h
  cases ty <;> simp [opsCmp] at h
  rename_i k m
  subst h
  exact .cmp k m _ h4 (by cases k <;> cases m <;> rfl)

theorem ops_of_isOp {k : Nat} {ty : TT} {op : Tok} (h : IsOp ty k op) (hk : k ≠ 4) :
    ∃ b, opsAt k ty = some b ∧ binTok b = op := by
  cases h <;> first | exact absurd rfl hk | exact ⟨_, rfl, rfl⟩

theorem cmp_of_isOp {ty : TT} {op : Tok} (h : IsOp ty 4 op) : ∃ b, opsCmp ty = some b ∧ binTok b = op := by
  cases h with
  | cmp k m op h1 h2 =>
    refine ⟨_, rfl, ?_⟩
    have key : ∀ k ∈ [CmpK.equal, .nequal, .greater, .gequal, .smaller, .sequal, .match_, .nomatch, .is_, .isnot],
        ∀ m ∈ [CaseM.plain, .ci, .cs], ∀ op ∈ [Tok.EQEQ, .EQEQCI, .EQEQCS, .NEQ, .NEQCI, .NEQCS, .GT, .GTCI,
          .GTCS, .GTEQ, .GTEQCI, .GTEQCS, .LT, .LTCI, .LTCS, .LTEQ, .LTEQCI, .LTEQCS, .MATCH, .MATCHCI,
          .MATCHCS, .NOMATCH, .NOMATCHCI, .NOMATCHCS, .IS, .ISCI, .ISCS, .ISNOT, .ISNOTCI, .ISNOTCS],
        op.str = cmpText k ++ caseText m → binTok (.cmp k m) = op := by decide +kernel
    refine key k (by cases k <;> simp) m (by cases m <;> simp) op ?_ h2
    cases op <;> simp [opLevel] at h1 <;> simp

theorem isUn_of {ty : TT} {op : UnTy} (h : opsUnary ty = some op) : IsUn ty (unTok op) := by
  cases ty <;> simp [opsUnary] at h <;> subst h <;> constructor

theorem un_of_is {ty : TT} {op : Tok} (h : IsUn ty op) : ∃ b, opsUnary ty = some b ∧ unTok b = op := by
  cases h <;> exact ⟨_, rfl, rfl⟩

/-! ### What follows a phrase -/

theorem dotLeft_of {e : VExpr} {a : Ast.Expr} (h : dotBase a) (ha : Export.expr fn e = some a) :
    dotLeft e = true := by
  cases e
  case atom q t v =>
    simp only [Export.expr, Option.some.injEq] at ha
    subst ha
    cases t <;> simp [Export.atom, dotBase] at h
    rfl
  case method q l c =>
    cases c
    case call =>
      simp only [Export.expr, Option.bind_eq_bind, Option.bind_eq_some_iff] at ha
      obtain ⟨_, _, _, _, _, _, ha⟩ := ha
      cases ha; exact h.elim
    all_goals simp [Export.expr] at ha
  all_goals first
    | rfl
    | (simp only [Export.expr, Option.bind_eq_bind, Option.bind_eq_some_iff, Option.some.injEq] at ha
       first
        | (obtain ⟨_, _, _, _, _, _, ha⟩ := ha; cases ha; exact h.elim)
        | (obtain ⟨_, _, _, _, ha⟩ := ha; cases ha; exact h.elim)
        | (obtain ⟨_, _, ha⟩ := ha; cases ha; exact h.elim)
        | (cases ha; exact h.elim))

theorem member_span {r : List Cell} (h : (headSym r).is iswordc = true)
    (h2 : (headSym (spanS iswordc r).2).is isnamec = false) :
    Member r (spanS iswordc r).1 (spanS iswordc r).2 := by
  obtain ⟨c, hc, hf⟩ := Sym.is_ch h
  exact ⟨spanS_reads _ _, spanS_many1 ⟨hc, trivial⟩ hf, h2⟩

theorem iswordc_namec {c : Char} (h : iswordc c = true) : isnamec c = true := by
  simp [isnamec, h]

theorem Spec.Member.span {r r' : List Cell} {v : Str} (h : Member r v r') :
    spanS iswordc r = (v, r') ∧ (headSym r).is iswordc = true := by
  obtain ⟨h1, h2, h3⟩ := h
  refine ⟨spanS_of_reads h1 h2.2 ?_, headSym_many1 h2 h1⟩
  cases hh : headSym r' with
  | eof => rfl
  | eol => rfl
  | ch c =>
    rw [hh] at h3
    cases hw : iswordc c with
    | false => exact hw
    | true => exact absurd (iswordc_namec hw) (by simpa [Sym.is] using h3)

theorem StopAt.noPostfix (he : EnvOK env) {e : VExpr} {a : Ast.Expr} {r' : List Cell} (hs : Suf env r')
    (ha : Export.expr fn e = some a) (h : StopAt env 8 e r') : NoPostfix env a r' := by
  obtain ⟨t, r2, h1, h2, h3, h4⟩ := h
  refine ⟨t, r2, (tokGet_iff he hs _ _).1 h1, h3, h2, fun hw => ⟨(h4 hw).1, ?_⟩⟩
  rintro ⟨hd, hb, v, r'', hm⟩
  obtain ⟨k1, k2⟩ := Member.span hm
  have := (h4 hw).2 hd (dotLeft_of hb ha) k2
  rw [k1, hm.2.2] at this
  cases this

theorem StopAt.next (he : EnvOK env) {k : Nat} {e : VExpr} {r' : List Cell} (hs : Suf env r') (hk : Repeats k)
    (h8 : k ≠ 8) (h : StopAt env k e r') : Next env r' (fun ty => ∀ op, ¬ IsOp ty k op) := by
  have h' : ∃ t r2, tokGet env r' = .ok t r2 ∧ opsAt k t.ty = none := by
    have hk' : k = 2 ∨ k = 3 ∨ k = 5 ∨ k = 6 := by unfold Repeats at hk; omega
    unfold StopAt at h
    rwa [if_neg h8, if_pos hk'] at h
  obtain ⟨t, r2, h1, h2⟩ := h'
  refine ⟨t, r2, (tokGet_iff he hs _ _).1 h1, fun op ho => ?_⟩
  have : k ≠ 4 := by unfold Repeats at hk; omega
  obtain ⟨b, hb, _⟩ := ops_of_isOp ho this
  rw [h2] at hb; cases hb

theorem gram_level {k : Nat} {r : List Cell} {e : Ast.Expr} {r' : List Cell} (h : Gram env fn k r e r') :
    1 ≤ k ∧ k ≤ 9 := by
  cases h <;> first | omega | (unfold Repeats at *; omega)

/-- A complete phrase is derived at its level. -/
theorem Fin'.gram (he : EnvOK env) {k : Nat} {r : List Cell} {e : VExpr} {r' : List Cell}
    (h : Fin' env (GP env fn) k r e r') : ∃ a, Export.expr fn e = some a ∧ Gram env fn k r a r' := by
  by_cases hk : Repeats k
  · obtain ⟨a, h1, h2⟩ := h.p.chain hk
    refine ⟨a, h1, ?_⟩
    by_cases h8 : k = 8
    · subst h8
      exact .postfix h2 (h.stop.noPostfix he h.suf' h1)
    · exact .chain hk h8 h2 (h.stop.next he h.suf' hk h8)
  · exact h.p.gram hk

/-! ### Braces -/

theorem notLambda_of (he : EnvOK env) {r : List Cell} (hs : Suf env r) (h : NoLam env r)
    (h' : ∀ t1 r1 t2 r2, tokGet env r = .ok t1 r1 → t1.ty = .identifier → isargname t1.value = true →
      tokGet env r1 = .ok t2 r2 → t2.ty = .comma → False) : NotLambda env r := by
  obtain ⟨t1, r1, h1, h2, h3⟩ := h
  refine ⟨t1, r1, (tokGet_iff he hs _ _).1 h1, h2, ?_⟩
  rcases h3 with h3 | h3 | ⟨t2, r2, h4, h5, h6⟩
  · exact Or.inl h3
  · exact Or.inr (Or.inl h3)
  · have hs1 : Suf env r1 := (tokGet_at he hs h1).suf hs
    refine Or.inr (Or.inr ⟨t2, r2, (tokGet_iff he hs1 _ _).1 h4, ?_⟩)
    rintro ⟨k1 | k1, k2 | k2⟩
    · exact (h5 k2).1 k1
    · exact h' _ _ _ _ h1 k1 ((h6 k2).2 k1) h4 k2
    · exact (h5 k2).2 k1
    · exact (h6 k2).1 k1

theorem litkey_nocomma (he : EnvOK env) {r r2 r3 : List Cell} {k : VExpr} {ty : TT} {t : Token} {c : Char}
    (hs : Suf env r) (hk : LitKey env r k r2) (ht : Tk env r2 ty t r3) (hv : ∀ w, Shape ty w → w = [c])
    (h1 : ty ≠ .eof) (h2 : ty ≠ .eol) (hty : ty ≠ .comma) (hc : isLitKeyC c = false) :
    ∀ t1 r1 t2 r2, tokGet env r = .ok t1 r1 → t1.ty = .identifier → isargname t1.value = true →
      tokGet env r1 = .ok t2 r2 → t2.ty = .comma → False := by
  intro t1 q1 t2 q2 k1 k2 k3 k4 k5
  obtain ⟨x, _, j2, j3, j4, j5, j6⟩ := ident_text he hs ⟨k1, k2⟩
  have a2 := LitKey.adv hk
  obtain ⟨_, w, y, v, l1, l2, l3, l4, l5, _⟩ := hk
  have hy : (headSym y).is iswhite = false := by
    have := headSym_many1 ⟨l4, l5⟩ l3
    obtain ⟨d, hd, hf⟩ := Sym.is_ch this
    rw [hd]
    show iswhite d = false
    cases hw : iswhite d with
    | false => rfl
    | true =>
      exfalso
      have : d = ' ' ∨ d = '\t' := by simpa [iswhite] using hw
      rcases this with rfl | rfl <;> exact absurd hf (by decide)
  have e1 : y = x := by rw [← j2]; exact (Blanks.skip ⟨w, l1, l2⟩ hy).symm
  subst e1
  have stop : ∀ {q q' : List Cell} {d : Char}, Reads (spanS iswhite q).2 [d] q' → isLitKeyC d = false →
      (headSym q).is isLitKeyC = false := by
    intro q q' d h1 h2
    by_cases hw : (headSym q).is iswhite = true
    · obtain ⟨d', hd, hf⟩ := Sym.is_ch hw
      rw [hd]
      have : d' = ' ' ∨ d' = '\t' := by simpa [iswhite] using hf
      rcases this with rfl | rfl <;> decide
    · have e : (spanS iswhite q).2 = q := Blanks.skip ⟨[], Reads.nil _, by simp⟩ (by simpa using hw)
      rw [e] at h1
      rw [headSym_of_reads h1]; exact h2
  have s1 := spanS_of_reads l3 l5 (stop (comma_head he (a2.suf hs) ht hv h1 h2) hc)
  have hsq : Suf env q1 := (tokGet_at he hs k1).suf hs
  have hall : ∀ c ∈ t1.value, isLitKeyC c = true := by
    obtain ⟨c, s, e, g1, g2⟩ := isargname_spec k3
    rw [e]
    intro z hz
    have : iswordc z = true := by
      rcases List.mem_cons.1 hz with rfl | hz
      · simp [iswordc1] at g1
        simp only [iswordc, isalnum, Bool.or_eq_true, beq_iff_eq]
        exact g1.imp_left Or.inr
      · exact g2 z hz
    simp [iswordc] at this
    simp only [isLitKeyC, Bool.or_eq_true, beq_iff_eq]
    exact Or.inl this
  have s2 := spanS_of_reads j3 hall
    (stop (comma_head he hsq ⟨k4, k5⟩ (v := [',']) (fun w h => h) (by decide) (by decide)) (by decide))
  rw [s1] at s2
  have e2 : r2 = q1 := congrArg Prod.snd s2
  subst e2
  have := ht.1
  rw [k4] at this
  cases this
  exact hty (ht.2.symm.trans k5)

theorem ident_export {q : Pos} {ps : List VExpr} {as : List Ast.Expr} (h : Export.exprs fn ps = some as)
    (h2 : ∀ a ∈ as, Export.isCurlyPart a = true) :
    Export.expr fn (identNode q ps) = some (nameNode (pubPos fn q) as) := by
  unfold identNode
  split
  · simp [Export.exprs, Export.expr, Export.atom] at h
    subst h
    simp only [Export.expr, Export.atom]; rfl
  · rename_i hn
    have e : nameNode (pubPos fn q) as = .curlyName (pubPos fn q) as := by
      unfold nameNode
      split
      · exfalso
        cases ps with
        | nil => cases h
        | cons p ps =>
          simp only [Export.exprs, Option.bind_eq_bind, Option.bind_eq_some_iff] at h
          obtain ⟨b, hb, bs, hbs, h⟩ := h
          cases h
          cases ps with
          | cons =>
            simp only [Export.exprs, Option.bind_eq_bind, Option.bind_eq_some_iff] at hbs
            obtain ⟨_, _, _, _, h⟩ := hbs
            cases h
          | nil =>
            cases p
            case atom q t v =>
              cases t <;> simp [Export.expr, Export.atom] at hb
              exact hn _ _ rfl
            case method q l c =>
              cases c
              case call =>
                simp only [Export.expr, Option.bind_eq_bind, Option.bind_eq_some_iff] at hb
                obtain ⟨_, _, _, _, _, _, hb⟩ := hb
                cases hb
              all_goals simp [Export.expr] at hb
            case curlyname =>
              simp only [Export.expr, Option.bind_eq_bind, Option.bind_eq_some_iff] at hb
              obtain ⟨_, _, hb⟩ := hb
              split at hb <;> cases hb
            all_goals
              simp only [Export.expr, Option.bind_eq_bind, Option.bind_eq_some_iff, Option.some.injEq] at hb
              first
                | (obtain ⟨_, _, _, _, _, _, hb⟩ := hb; cases hb)
                | (obtain ⟨_, _, _, _, hb⟩ := hb; cases hb)
                | (obtain ⟨_, _, hb⟩ := hb; cases hb)
                | cases hb
      · rfl
    rw [e]
    simp [Export.expr, h]; exact ⟨h2, rfl⟩

local macro "nr" : tactic => `(tactic| (unfold Repeats; omega))

theorem opt_gram {o : Option VExpr} {q q' : List Cell} (h : o = none ∧ q' = q ∨ ∃ x, o = some x ∧ D 1 q x q') :
    ∃ o', Export.exprOpt fn o = some o' ∧ Opt env fn q o' q' := by
  rcases h with ⟨rfl, rfl⟩ | ⟨x, rfl, hx⟩
  · exact ⟨none, rfl, .none⟩
  · obtain ⟨b, b1, b2⟩ := der1 hx
    exact ⟨some b, by simp [Export.exprOpt, b1], .some b2⟩

/-- A brace at the start of a name: the position of what follows. -/
theorem brace_rest (he : EnvOK env) {r r1 r2 : List Cell} {w : Str} {t : Token} {ty : TT} {v : Str} (hs : Suf env r)
    (h1 : Reads r w r1) (hw : ∀ c ∈ w, iswhite c = true) (hn : (headSym r1).is iswhite = false)
    (ht : Tk env r ty t r2) (hv : ∀ w, Shape ty w → w = v) (h2 : ty ≠ .eof) (h3 : ty ≠ .eol) :
    Reads r1 v r2 := by
  have := comma_head he hs ht hv h2 h3
  rwa [Blanks.skip ⟨w, h1, hw⟩ hn] at this

theorem idStart_nw {r : List Cell} (h : IdStart r) : (headSym r).is iswhite = false := by
  rcases h with h | h | h | h
  · obtain ⟨c, hc, hf⟩ := Sym.is_ch h
    rw [hc]
    show iswhite c = false
    cases hw : iswhite c with
    | false => rfl
    | true =>
      exfalso
      have : c = ' ' ∨ c = '\t' := by simpa [iswhite] using hw
      rcases this with rfl | rfl <;> exact absurd hf (by decide)
  · rw [h.1]; rfl
  · rw [h]; rfl
  · rw [h.1]; rfl

theorem nameStart_of (he : EnvOK env) {r r1 r' : List Cell} {w : Str} {ps : List VExpr} (hs : Suf env r)
    (h1 : Reads r w r1) (hw : ∀ c ∈ w, iswhite c = true) (hp : Parts env (D 1) r1 ps r') (hne : ps ≠ [])
    (hst : IdStart r1) (hh : IdHead env r) : NameStart env fn r := by
  have hnw := idStart_nw hst
  obtain ⟨t, q, k1, k2⟩ := hh
  have hsq : Suf env q := (tokGet_at he hs k1).suf hs
  refine ⟨t, q, (tokGet_iff he hs _ _).1 k1, ?_⟩
  rcases k2 with k2 | k2 | ⟨k2, k3⟩ | ⟨k2, k3⟩ | ⟨k2, k3, k, r2, t', r3, k4, k5⟩
  · exact Or.inl k2
  · refine Or.inr (Or.inl ?_)
    cases hty : t.ty <;> rw [hty] at k2 <;> simp [isIsToken] at k2
    rename_i k m
    refine ⟨k, m, rfl, ?_⟩
    cases k <;> cases m <;> simp at k2 <;> simp
  · exfalso
    have hr := brace_rest he hs h1 hw hnw ⟨k1, k2⟩ (v := ['<']) (fun w h => h) (by decide) (by decide)
    have hd := headSym_of_reads hr
    cases hp with
    | nil => exact hne rfl
    | name g => rw [hd] at g; exact absurd g (by decide)
    | expr g => rw [hd] at g; cases g
  · refine Or.inr (Or.inr (Or.inl ⟨k2, notLambda_of he hsq k3 ?_⟩))
    have hr := brace_rest he hs h1 hw hnw ⟨k1, k2⟩ (v := ['{']) (fun w h => h) (by decide) (by decide)
    have hd := headSym_of_reads hr
    intro t1 q1 t2 q2 j1 j2 _ j3 j4
    cases hp with
    | nil => exact hne rfl
    | name g => rw [hd] at g; exact absurd g (by decide)
    | expr g gq gc =>
      have e : r1.tail = q := by
        obtain ⟨_, _, rfl, h⟩ := hr.cons_inv
        exact h.nil_inv
      rw [e] at gq
      have e2 := gq.p.2 _ _ _ _ j1 j2 j3 j4
      subst e2
      have := headSym_of_reads (comma_head he gq.suf' ⟨j3, j4⟩ (v := [',']) (fun w h => h) (by decide) (by decide))
      rw [gc] at this; cases this
  · obtain ⟨a, _, ha⟩ := litkey_gram (fn := fn) he hsq k4
    exact Or.inr (Or.inr (Or.inr ⟨k2, notLambda_of he hsq k3 (litkey_nocomma he hsq k4 k5 (c := '}') (fun w h => h)
      (by decide) (by decide) (by decide) (by decide)), a, r2, _, r3, ha,
      k5.mark he ((LitKey.adv k4).suf hsq)⟩))

/-- Every expression the parser returns is derived by the grammar. -/
theorem gram_closed (he : EnvOK env) : ClosedL env (GP env fn) where
  up := by
    intro k r e r' hk h hl
    obtain ⟨a, h1, h2⟩ := h.gram he
    have hlv := gram_level h2
    have hnc := h.p.2
    by_cases hr : Repeats k
    · exact .ofChain hr h1 (.one hr h2) hnc
    · have : k = 1 ∨ k = 4 ∨ k = 7 := by unfold Repeats at hr; omega
      rcases this with rfl | rfl | rfl
      · obtain ⟨t, r2, g1, g2⟩ := hl
        exact .ofGram hr h1 (.noTernary h2 ⟨t, r2, (tokGet_iff he h.suf' _ _).1 g1, g2⟩) hnc
      · obtain ⟨t, r2, g1, g2⟩ := hl
        refine .ofGram hr h1 (.noCompare h2 ⟨t, r2, (tokGet_iff he h.suf' _ _).1 g1, fun op ho => ?_⟩) hnc
        obtain ⟨b, hb, _⟩ := cmp_of_isOp ho
        rw [g2] at hb; cases hb
      · exact .ofGram hr h1 (.noUnary h2) hnc
  atom := by
    intro r ty t r' a hs ht h
    refine .ofGram (by nr) (expr_atom _ _ _) ?_ (.start ht.1 ?_)
    · cases ty <;> simp [atomTok] at h <;> subst h <;>
        exact .lit (ht.lex he hs) (ht.2 ▸ by constructor)
    · rw [ht.2]; rintro rfl; cases h
  dstring := by
    intro r w r1 s r' hs h1 h2 h3 h4
    exact .ofGram (by nr) (expr_atom _ _ _) (.dstring ⟨w, h1, h2⟩ h3 h4)
      (.quote he hs h1 h2 h4 (ty := .dquote) .dquote (by decide))
  sstring := by
    intro r w r1 s r' hs h1 h2 h3 h4 h5
    exact .ofGram (by nr) (expr_atom _ _ _) (.sstring ⟨w, h1, h2⟩ h3 h4 h5)
      (.quote he hs h1 h2 h4 (ty := .squote) .squote (by decide))
  list := by
    intro r t r1 vs r' hs ht h
    obtain ⟨as, k1, _, k3⟩ := items_gram he ((ht.sadv he hs).suf hs) h
    exact .ofGram (a := .list (pubPos fn t.pos) as) (by nr) (by simp [Export.expr, k1]; rfl)
      (.list (ht.mark he hs) k3) (.tk ht)
  paren := by
    intro r t r1 e r2 t' r' hs ht h ht'
    obtain ⟨a, a1, a2⟩ := der1 h
    exact .ofGram (a := .paren (pubPos fn t.pos) a) (by nr) (by simp [Export.expr, a1]; rfl)
      (.paren (ht.mark he hs) a2 (ht'.mark he h.suf')) (.tk ht)
  dict := by
    intro r t r1 kvs r' hs ht hnl h
    have hs1 := (ht.sadv he hs).suf hs
    obtain ⟨as, k1, k2⟩ := ditems_gram he (lit := false)
      (fun r k r' _ h => ⟨h.adv, by obtain ⟨a, a1, a2⟩ := der1 h; exact ⟨a, a1, .expr a2⟩⟩) hs1 h
    refine .ofGram (a := .dict (pubPos fn t.pos) as) (by nr) (by simp [Export.expr, k1]; rfl)
      (.dict (ht.mark he hs) (notLambda_of he hs1 hnl ?_) k2) (.tk ht)
    intro t1 q1 t2 q2 j1 j2 _ j3 j4
    have key : ∀ {k : VExpr} {x y : List Cell} {t : Token}, D 1 r1 k x → Tk env x .colon t y → False := by
      intro k x y t h1 h2
      have := h1.p.2 _ _ _ _ j1 j2 j3 j4
      subst this
      have := h2.1
      rw [j3] at this; cases this
      rw [h2.2] at j4; cases j4
    cases h with
    | nil g => have := g.1; rw [j1] at this; cases this; rw [g.2] at j2; cases j2
    | last g1 g2 => exact key g1 g2
    | cons g1 g2 => exact key g1 g2
  litdict := by
    intro r t r1 kvs r' hs ht hnl h
    have hs1 := (ht.sadv he hs).suf hs
    obtain ⟨as, k1, k2⟩ := ditems_gram he (lit := true)
      (fun r k r' hs h => ⟨LitKey.adv h, by obtain ⟨a, a1, a2⟩ := litkey_gram he hs h; exact ⟨a, a1, .lit a2⟩⟩) hs1 h
    refine .ofGram (a := .dict (pubPos fn t.pos) as) (by nr) (by simp [Export.expr, k1]; rfl)
      (.litdict (ht.mark he hs) (notLambda_of he hs1 hnl ?_) k2) (.tk ht)
    cases h with
    | nil g =>
      intro t1 q1 t2 q2 j1 j2 _ j3 j4
      have := g.1; rw [j1] at this; cases this; rw [g.2] at j2; cases j2
    | last g1 g2 =>
      exact litkey_nocomma he hs1 g1 g2 (c := ':') (fun w h => h) (by decide) (by decide) (by decide) (by decide)
    | cons g1 g2 =>
      exact litkey_nocomma he hs1 g1 g2 (c := ':') (fun w h => h) (by decide) (by decide) (by decide) (by decide)
  lambda := by
    intro r t r1 ps r2 e r3 t' r' hs ht hp h ht'
    obtain ⟨a, a1, a2⟩ := der1 h
    have hs1 : Suf env r1 := by
      rcases ht with ht | ht <;> exact (ht.sadv he hs).suf hs
    exact .ofGram (a := .lambda (pubPos fn t.pos) (Export.idents fn ps) a) (by nr) (by simp [Export.expr, a1]; rfl)
      (.lambda (ht.imp (·.mark he hs) (·.mark he hs)) (lamPs_gram he hs1 hp) a2 (ht'.mark he h.suf'))
      (by rcases ht with ht | ht <;> exact .tk ht)
  ident := by
    intro r w r1 ps r' hs h1 h2 h hne hst hh
    have hnc := NoComma.ident he hs h1 h2 h hst
    cases h with
    | plain hn hp =>
      obtain ⟨as, k1, k2, k3⟩ := parts_gram hp
      refine .ofGram (by nr) (ident_export k1 k3)
        (.name ⟨w, h1, h2⟩ (nameStart_of he hs h1 h2 hp hne hst hh) k2 ?_) hnc
      rintro rfl
      cases ps with
      | nil => exact hne rfl
      | cons =>
        simp only [Export.exprs, Option.bind_eq_bind, Option.bind_eq_some_iff] at k1
        obtain ⟨_, _, _, _, k1⟩ := k1
        cases k1
    | sid g1 g2 hp =>
      obtain ⟨as, k1, k2, k3⟩ := parts_gram hp
      refine .ofGram (by nr) (ident_export (as := .curlyNameLit (pubPos fn (posOf env r1)) (getnS 5 r1).1 :: as)
        (by simp [Export.exprs, Export.expr, Export.atom, k1]; rfl)
        (by rw [List.forall_mem_cons]; exact ⟨rfl, k3⟩)) (.sid ⟨w, h1, h2⟩ (getnS_reads _ _) g2 k2) hnc
  subscript := by
    intro r l r1 t r2 x r3 t' r' hl hw ht hx ht'
    obtain ⟨a, a1, a2⟩ := hl.p.chain (by nr)
    obtain ⟨b, b1, b2⟩ := der1 hx
    exact .ofChain (a := .subscript (pubPos fn t.pos) a b) (by nr) (by simp [Export.expr, a1, b1]; rfl)
      (.subscript a2 hw (ht.mark he hl.suf') b2 (ht'.mark he hx.suf')) (hl.p.2.stepTk ht)
  slice := by
    intro r l r1 t r2 lo r3 t' r4 hi r5 t'' r' hl hw ht hlo ht' hhi ht''
    obtain ⟨a, a1, a2⟩ := hl.p.chain (by nr)
    obtain ⟨lo', l1, l2⟩ := opt_gram hlo
    obtain ⟨hi', i1, i2⟩ := opt_gram hhi
    have s2 := (ht.sadv he hl.suf').suf hl.suf'
    have s3 : Suf env r3 := by
      rcases hlo with ⟨_, rfl⟩ | ⟨_, _, h⟩
      · exact s2
      · exact h.suf'
    have s4 := (ht'.sadv he s3).suf s3
    have s5 : Suf env r5 := by
      rcases hhi with ⟨_, rfl⟩ | ⟨_, _, h⟩
      · exact s4
      · exact h.suf'
    exact .ofChain (a := .slice a (pubPos fn t.pos) lo' hi') (by nr) (by simp [Export.expr, a1, l1, i1]; rfl)
      (.slice a2 hw (ht.mark he hl.suf') l2 (ht'.mark he s3) i2 (ht''.mark he s5)) (hl.p.2.stepTk ht)
  method := by
    intro r l r1 t r2 f r3 t' r4 as r' hl ht hf ht' h hn
    obtain ⟨a, a1, a2⟩ := hl.p.chain (by nr)
    obtain ⟨b, b1, b2⟩ := hf.p.gram (by nr)
    obtain ⟨cs, k1, k2, k3⟩ := items_gram he ((ht'.sadv he hf.suf').suf hf.suf') h
    exact .ofChain (a := .method a b (pubPos fn t'.pos) cs) (by nr) (by simp [Export.expr, a1, b1, k1]; rfl)
      (.method a2 (ht.mark he hl.suf') b2 (ht'.mark he hf.suf') k3 (by omega)) (hl.p.2.stepTk ht)
  call := by
    intro r l r1 t r2 as r' hl ht h hn
    obtain ⟨a, a1, a2⟩ := hl.p.chain (by nr)
    obtain ⟨cs, k1, k2, k3⟩ := items_gram he ((ht.sadv he hl.suf').suf hl.suf') h
    exact .ofChain (a := .call a (pubPos fn t.pos) cs) (by nr) (by simp [Export.expr, a1, k1]; rfl)
      (.call a2 (ht.mark he hl.suf') k3 (by omega)) (hl.p.2.stepTk ht)
  dot := by
    intro r l r1 t r2 hl hw ht hd h1 h2
    obtain ⟨a, a1, a2⟩ := hl.p.chain (by nr)
    exact .ofChain (a := .dot a (pubPos fn t.pos) ⟨pubPos fn (posOf env r2), (spanS iswordc r2).1⟩) (by nr)
      (by simp [Export.expr, a1]; exact ⟨rfl, rfl⟩)
      (.dot a2 hw (dotBase_of hd a1) (ht.mark he hl.suf') (member_span h1 h2)) (hl.p.2.stepTk ht)
  unary := by
    intro r ty t r1 op e r' hs ht hop h
    obtain ⟨a, a1, a2⟩ := h.p.gram (by nr)
    exact .ofGram (a := .unary (pubPos fn t.pos) (unTok op) a) (by nr) (by simp [Export.expr, a1]; rfl)
      (.unary (ht.lex he hs) (ht.2 ▸ isUn_of hop) a2) (.start ht.1 (by rw [ht.2]; rintro rfl; cases hop))
  binary := by
    intro k r l r1 ty t r2 op x r' hop hl ht hx
    have hk : Repeats k := by
      unfold opsAt at hop
      split at hop <;> first | (unfold Repeats; omega) | cases hop
    obtain ⟨a, a1, a2⟩ := hl.p.chain hk
    obtain ⟨b, b1, b2⟩ := hx.gram he
    have hio := isOp_of_ops hop
    exact .ofChain (a := .binary a (pubPos fn t.pos) (binTok op) b) hk (by simp [Export.expr, a1, b1]; rfl)
      (.op hk a2 (ht.lex he hl.suf') (ht.2 ▸ hio) b2)
      (hl.p.2.step ht.1 (by rw [ht.2]; rintro rfl; cases hio))
  compare := by
    intro r l r1 ty t r2 op x r' hop hl ht hx
    obtain ⟨a, a1, a2⟩ := hl.gram he
    obtain ⟨b, b1, b2⟩ := hx.gram he
    have hio := isOp_of_cmp hop
    exact .ofGram (a := .binary a (pubPos fn t.pos) (binTok op) b) (by nr) (by simp [Export.expr, a1, b1]; rfl)
      (.compare a2 (ht.lex he hl.suf') (ht.2 ▸ hio) b2) (hl.p.2.step ht.1 (by rw [ht.2]; rintro rfl; cases hop))
  ternary := by
    intro r c r1 t r2 a r3 t' r4 b r' hc ht ha ht' hb
    obtain ⟨c', c1, c2⟩ := hc.gram he
    obtain ⟨a', a1, a2⟩ := der1 ha
    obtain ⟨b', b1, b2⟩ := der1 hb
    exact .ofGram (a := .ternary (pubPos fn t.pos) c' a' b') (by nr) (by simp [Export.expr, a1, b1, c1]; rfl)
      (.ternary c2 (ht.mark he hc.suf') a2 (ht'.mark he ha.suf') b2) (hc.p.2.stepTk ht)

end
end Viml
