/-
What holds of the public tree of every expression the parser returns.
-/
import Verif.Lemmas.ExprSound
import Verif.Lemmas.Lex
import Verif.Model.Export

namespace Viml
open Prog Spec

/-- All node properties at once. -/
structure OkE (env : Env) (fn : Str) (e : Ast.Expr) : Prop where
  opr : opOK env fn e
  pos : ∀ q ∈ ownPos e, Real env fn q
  text : ∀ x ∈ ownText e, TextAt env fn x.1 x.2
  open_ : openOK env fn e
  shape : shapeOK e
  prec : precOK e
  args : argsOK e
  params : paramsOK e

/-- The expression converts to a public tree of level at least `k` all of whose nodes are right. -/
def Good (env : Env) (fn : Str) (k : Nat) : ERel := fun _ e _ =>
  ∃ a, Export.expr fn e = some a ∧ k ≤ level a ∧ AllE (OkE env fn) (litKey env fn) a

section
variable {env : Env} {fn : Str}

local notation "D" => Der env (Good env fn)
local notation "Al" => AllE (OkE env fn) (litKey env fn)

theorem expr_atom (q : Pos) (t : AtomTy) (v : Str) :
    Export.expr fn (.atom q t v) = some (Export.atom (Export.pos fn q) v t) := by
  simp only [Export.expr]

theorem pubPos_eq (q : Pos) : Export.pos fn q = pubPos fn q := rfl

theorem Spec.At.real {q : Ast.Pos} {r : List Cell} (h : At env fn q r) : Real env fn q := ⟨r, h⟩

theorem Spec.TextAt.real {q : Ast.Pos} {v : Str} (h : TextAt env fn q v) : Real env fn q := by
  obtain ⟨r, _, h, _⟩ := h; exact ⟨r, h⟩

theorem at_of {r : List Cell} (hs : Suf env r) : At env fn (Export.pos fn (posOf env r)) r :=
  ⟨hs, rfl⟩

theorem textAt_of {r r' : List Cell} {v : Str} (hs : Suf env r) (h : Reads r v r') :
    TextAt env fn (Export.pos fn (posOf env r)) v := ⟨r, r', at_of hs, h⟩

/-- A token stands at its position. -/
theorem Tk.text (he : EnvOK env) {r : List Cell} (hs : Suf env r) {ty : TT} {t : Token}
    {r' : List Cell} (h : Tk env r ty t r') (h1 : ty ≠ .eof := by decide)
    (h2 : ty ≠ .eol := by decide) : TextAt env fn (Export.pos fn t.pos) t.value := by
  obtain ⟨w, r1, k1, _, k3, k4, _⟩ := (h.at he hs).at_pos (h.2 ▸ h1) (h.2 ▸ h2)
  rw [k3]
  exact textAt_of (k1.adv.suf hs) k4

/-- So does the whole token. -/
theorem Tk.lexAt (he : EnvOK env) {r : List Cell} (hs : Suf env r) {ty : TT} {t : Token}
    {r' : List Cell} (h : Tk env r ty t r') (h1 : ty ≠ .eof := by decide)
    (h2 : ty ≠ .eol := by decide) : LexAt env fn (Export.pos fn t.pos) t.value := by
  have hl := (tokGet_iff he hs t r').1 h.1
  cases hl with
  | eof => exact absurd h.2.symm h1
  | eol => exact absurd h.2.symm h2
  | text w _ r1 ty v _ k1 _ k3 k4 => exact ⟨r1, r', ty, at_of (k1.adv.suf hs), k3, k4⟩

theorem Tk.shape (he : EnvOK env) {r : List Cell} (hs : Suf env r) {ty : TT} {t : Token}
    {r' : List Cell} (h : Tk env r ty t r') (h1 : ty ≠ .eof := by decide)
    (h2 : ty ≠ .eol := by decide) : Shape ty t.value := by
  have := (h.at he hs).shape (h.2 ▸ h1) (h.2 ▸ h2)
  rwa [h.2] at this

/-- Text of a token with a fixed spelling. -/
theorem Tk.textIs (he : EnvOK env) {r : List Cell} (hs : Suf env r) {ty : TT} {t : Token}
    {r' : List Cell} (h : Tk env r ty t r') {v : Str} (hv : ∀ w, Shape ty w → w = v)
    (h1 : ty ≠ .eof := by decide) (h2 : ty ≠ .eol := by decide) :
    TextAt env fn (Export.pos fn t.pos) v := by
  have := Tk.text (fn := fn) he hs h h1 h2
  rwa [hv _ (h.shape he hs h1 h2)] at this

theorem Spec.TextAt.take {q : Ast.Pos} {v w : Str} (h : TextAt env fn q (v ++ w)) : TextAt env fn q v := by
  obtain ⟨r, r', h1, pre, h2, h3⟩ := h
  rw [List.map_append] at h3
  obtain ⟨a, b, rfl, h4, h5⟩ := List.map_eq_append_iff.mp h3
  exact ⟨r, b ++ r', h1, a, by rw [h2, List.append_assoc], h4⟩

/-- A node with its children. -/
theorem Spec.AllE.node {e : Ast.Expr} (h : OkE env fn e) (h1 : ∀ x ∈ subs e, Al x)
    (h2 : ∀ x ∈ keys e, ¬ litKey env fn x → Al x) : Al e := ⟨e, h, h1, h2⟩

theorem items_good {close : TT} {r : List Cell} {vs : List VExpr}
    {r' : List Cell} (h : Items env (D 1) close r vs r') :
    ∃ as, Export.exprs fn vs = some as ∧ as.length = vs.length ∧ ∀ a ∈ as, 1 ≤ level a ∧ Al a := by
  induction h with
  | nil _ => exact ⟨[], rfl, rfl, by simp⟩
  | last hq _ =>
    obtain ⟨a, h1, h2, h3⟩ := hq.p
    exact ⟨[a], by simp [Export.exprs, h1], rfl, by simpa using ⟨h2, h3⟩⟩
  | cons hq _ _ ih =>
    obtain ⟨a, h1, h2, h3⟩ := hq.p
    obtain ⟨as, k1, k2, k3⟩ := ih
    exact ⟨a :: as, by simp [Export.exprs, h1, k1], by simp [k2], by simpa using ⟨⟨h2, h3⟩, k3⟩⟩

theorem ditems_good (he : EnvOK env) {K : ERel}
    (hK : ∀ r k r', Suf env r → K r k r' → SAdv r r' ∧ ∃ a, Export.expr fn k = some a ∧ 1 ≤ level a ∧
      (litKey env fn a ∨ Al a))
    {r : List Cell} {kvs : List (VExpr × VExpr)} {r' : List Cell} (hs : Suf env r)
    (h : DItems env K (D 1) r kvs r') :
    ∃ as, Export.pairs fn kvs = some as ∧ ∀ a ∈ as, 1 ≤ level a.1 ∧ 1 ≤ level a.2 ∧
      (litKey env fn a.1 ∨ Al a.1) ∧ Al a.2 := by
  induction h with
  | nil _ => exact ⟨[], rfl, by simp⟩
  | last hk _ hq _ =>
    obtain ⟨_, a, h1, h2, h3⟩ := hK _ _ _ hs hk
    obtain ⟨b, k1, k2, k3⟩ := hq.p
    exact ⟨[(a, b)], by simp [Export.pairs, h1, k1], by simpa using ⟨h2, k2, h3, k3⟩⟩
  | cons hk hc hq ht _ ih =>
    obtain ⟨_, a, h1, h2, h3⟩ := hK _ _ _ hs hk
    obtain ⟨b, k1, k2, k3⟩ := hq.p
    obtain ⟨as, j1, j2⟩ := ih ((ht.sadv he hq.suf').suf hq.suf')
    exact ⟨(a, b) :: as, by simp [Export.pairs, h1, k1, j1], by 
      rw [List.forall_mem_cons]; exact ⟨⟨h2, k2, h3, k3⟩, j2⟩⟩

/-- Parts of a name in the public tree. -/
def PartOK (env : Env) (fn : Str) (a : Ast.Expr) : Prop :=
  ((∃ q v, a = .curlyNameLit q v) ∨ ∃ q e, a = .curlyNameExpr q e) ∧
    AllE (OkE env fn) (litKey env fn) a

theorem PartOK.isPart {a : Ast.Expr} (h : PartOK env fn a) : Export.isCurlyPart a = true := by
  rcases h.1 with ⟨q, v, rfl⟩ | ⟨q, v, rfl⟩ <;> rfl

theorem part_lit {r r' : List Cell} {v : Str} (hs : Suf env r) (h : Reads r v r')
    (hv : Many1 isnamec v ∨ equalci v ['<', 'S', 'I', 'D', '>'] = true) :
    PartOK env fn (.curlyNameLit (Export.pos fn (posOf env r)) v) := by
  refine ⟨Or.inl ⟨_, _, rfl⟩, AllE.node ?_ (by simp [subs]) (by simp [keys])⟩
  have ht := textAt_of (fn := fn) hs h
  exact ⟨trivial, by simpa [ownPos] using ht.real, by simpa [ownText] using ht, trivial, hv, trivial, trivial,
    trivial⟩

theorem parts_good {r : List Cell} {ps : List VExpr} {r' : List Cell} (hs : Suf env r)
    (h : Parts env (D 1) r ps r') :
    ∃ as, Export.exprs fn ps = some as ∧ (ps ≠ [] → as ≠ []) ∧ ∀ a ∈ as, PartOK env fn a := by
  induction h with
  | nil _ _ => exact ⟨[], rfl, by simp, by simp⟩
  | name hh _ ih =>
    rename_i r ps r' _
    obtain ⟨as, k1, k2, k3⟩ := ih ((spanS_sadv hh).suf hs)
    obtain ⟨c, hc, hf⟩ := Sym.is_ch hh
    refine ⟨.curlyNameLit (Export.pos fn (posOf env r)) (spanS isnamec r).1 :: as,
      by simp [Export.exprs, Export.expr, Export.atom, k1], by simp, ?_⟩
    rw [List.forall_mem_cons]
    exact ⟨part_lit hs (spanS_reads _ _) (Or.inl (spanS_many1 ⟨hc, trivial⟩ hf)), k3⟩
  | expr hh hq hc _ ih =>
    rename_i r e r1 ps r' _
    have a1 := (headSym_sadv hh).suf hs
    have a2 := (headSym_sadv hc).suf ((spanS_adv iswhite r1).suf hq.suf')
    obtain ⟨as, k1, k2, k3⟩ := ih a2
    obtain ⟨a, h1, h2, h3⟩ := hq.p
    refine ⟨.curlyNameExpr (Export.pos fn (posOf env r.tail)) a :: as,
      by simp [Export.exprs, Export.expr, h1, k1], by simp, ?_⟩
    rw [List.forall_mem_cons]
    refine ⟨⟨Or.inr ⟨_, _, rfl⟩, AllE.node ?_ (by simpa [subs] using h3) (by simp [keys])⟩, k3⟩
    exact ⟨trivial, by simpa [ownPos] using (at_of (fn := fn) a1).real, by simp [ownText], trivial, trivial, h2,
      trivial, trivial⟩

theorem idparts_good {r : List Cell} {ps : List VExpr} {r' : List Cell} (hs : Suf env r)
    (h : IdParts env (D 1) r ps r') :
    ∃ as, Export.exprs fn ps = some as ∧ (ps ≠ [] → as ≠ []) ∧ ∀ a ∈ as, PartOK env fn a := by
  cases h with
  | plain _ h => exact parts_good hs h
  | sid hh hq h =>
    obtain ⟨as, k1, k2, k3⟩ := parts_good (((getnS_adv 5 r)).suf hs) h
    refine ⟨.curlyNameLit (Export.pos fn (posOf env r)) (getnS 5 r).1 :: as,
      by simp [Export.exprs, Export.expr, Export.atom, k1], by simp, ?_⟩
    rw [List.forall_mem_cons]
    exact ⟨part_lit hs (getnS_reads _ _) (Or.inr hq), k3⟩

/-- The only part of a plain name. -/
theorem idparts_single {r : List Cell} {ps : List VExpr} {r' : List Cell} (hs : Suf env r)
    (hst : IdStart r) (h : IdParts env (D 1) r ps r') {q : Pos} {v : Str}
    (hp : ps = [.atom q .curlynamepart v]) :
    TextAt env fn (Export.pos fn (posOf env r)) v ∧ NameShape v := by
  cases h with
  | plain hn h =>
    cases h with
    | nil => simp at hp
    | name hh h =>
      simp only [List.cons.injEq, VExpr.atom.injEq, true_and] at hp
      obtain ⟨⟨_, rfl⟩, rfl⟩ := hp
      refine ⟨textAt_of hs (spanS_reads _ _), Or.inl ?_⟩
      rcases hst with h1 | h1 | h1 | h1
      · obtain ⟨c, hc, hf⟩ := Sym.is_ch h1
        obtain ⟨d, rr, rfl, hd⟩ := headSym_ch hc
        have hn : isnamec c = true := by
          have : (headSym (d :: rr)).is isnamec = true := hh
          rw [hc] at this
          exact this
        refine ⟨c, (spanS isnamec rr).1, ?_, hf, spanS_all _ _⟩
        simp [spanS, hd, hn]
      · exfalso
        obtain ⟨hc, h2, _⟩ := h1
        obtain ⟨d, rr, rfl, hd⟩ := headSym_ch hc
        have e1 : (spanS isnamec (d :: rr)).2 = rr := by
          obtain ⟨d', rr', h3, hd'⟩ := headSym_ch h2
          simp only [List.tail_cons] at h3
          subst h3
          simp [spanS, hd, hd', show isnamec '#' = true from rfl, show isnamec '{' = false from rfl]
        rw [e1] at h
        cases h with
        | nil _ h3 => exact h3 (by exact h2)
      · rw [h1] at hh; exact absurd hh (by decide)
      · exact absurd h1 hn
    | expr hh hq hc h => simp at hp
  | sid hh hq h =>
    simp only [List.cons.injEq, VExpr.atom.injEq, true_and] at hp
    obtain ⟨⟨_, rfl⟩, rfl⟩ := hp
    exact ⟨textAt_of hs (getnS_reads _ _), Or.inr hq⟩

/-- Names of lambda parameters. -/
theorem lamPs_good (he : EnvOK env) {named : List Str} {r : List Cell} {ps : List (Pos × Str)}
    {r' : List Cell} (hs : Suf env r) (h : LamPs env named r ps r') :
    (∀ x ∈ ps, TextAt env fn (Export.pos fn x.1) x.2) ∧
    ∃ names dots, ps.map (·.2) = names ++ dots ∧ (dots = [] ∨ dots = [['.', '.', '.']]) ∧
      names.Nodup ∧ (∀ n ∈ names, n ∉ named) ∧ ∀ n ∈ names, isargname n = true := by
  induction h with
  | done ht => exact ⟨by simp, [], [], rfl, Or.inl rfl, .nil, by simp, by simp⟩
  | dots ht ht' =>
    rename_i t _ _ _
    have : t.value = ['.', '.', '.'] := ht.shape he hs
    refine ⟨by simpa using ht.text he hs, [], [t.value], rfl, Or.inr (by rw [this]), .nil, by simp, by simp⟩
  | last ht h1 h2 ht' =>
    rename_i t _ _ _
    exact ⟨by simpa using ht.text he hs, [t.value], [], rfl, Or.inl rfl, by simp, by simpa using h2,
      by simpa using h1⟩
  | cons ht h1 h2 hnw ht' _ ih =>
    rename_i t _ _ _ _ _ _
    have a1 := ht.sadv he hs
    have a2 := a1.trans (ht'.sadv he (a1.suf hs))
    obtain ⟨i1, names, dots, i2, i3, i4, i5, i6⟩ := ih (a2.suf hs)
    refine ⟨?_, t.value :: names, dots, by simp [i2], i3, ?_, ?_, ?_⟩
    · rw [List.forall_mem_cons]; exact ⟨ht.text he hs, i1⟩
    · rw [List.nodup_cons]
      exact ⟨fun h => i5 _ h (by simp), i4⟩
    · rw [List.forall_mem_cons]
      exact ⟨h2, fun n hn h => i5 n hn (by simp [h])⟩
    · rw [List.forall_mem_cons]; exact ⟨h1, i6⟩

theorem isargname_spec {s : Str} (h : isargname s = true) :
    ∃ c t, s = c :: t ∧ iswordc1 c = true ∧ ∀ x ∈ t, iswordc x = true := by
  cases s with
  | nil => simp [isargname] at h
  | cons c t =>
    simp only [isargname, Bool.and_eq_true, List.all_eq_true] at h
    exact ⟨c, t, rfl, h.1, h.2⟩

theorem litkey_good {r : List Cell} {k : VExpr} {r' : List Cell} (hs : Suf env r)
    (h : LitKey env r k r') : SAdv r r' ∧ ∃ a, Export.expr fn k = some a ∧ 1 ≤ level a ∧
      (litKey env fn a ∨ Al a) := by
  refine ⟨LitKey.adv h, ?_⟩
  obtain ⟨_, w, r1, v, h1, _, h2, h3, h4, rfl⟩ := h
  refine ⟨_, expr_atom _ _ _, ?_, Or.inl ?_⟩
  · simp [Export.atom, level]
  · exact ⟨rfl, v, r1, r', rfl, h3, h1.adv.suf hs, h2, rfl, fun c hc => h4 c hc⟩

/-- A literal node. -/
theorem lit_good {r r' : List Cell} {v : Str} {k : Tok} (hs : Suf env r) (h : Reads r v r')
    (hk : LitShape k v) (hl : k ≠ .STRING → LexAt env fn (Export.pos fn (posOf env r)) v) :
    Al (.basicLit (Export.pos fn (posOf env r)) k v) := by
  have ht := textAt_of (fn := fn) hs h
  exact AllE.mk _ ⟨hl, by simpa [ownPos] using ht.real, by simpa [ownText] using ht, trivial, hk, trivial,
    trivial, trivial⟩ (by simp [subs]) (by simp [keys])

theorem dotBase_of {e : VExpr} {a : Ast.Expr} (h : dotLeft e = true)
    (ha : Export.expr fn e = some a) : dotBase a := by
  cases e <;> simp [dotLeft] at h
  case atom q t v =>
    cases t <;> simp at h
    simp only [Export.expr, Option.some.injEq] at ha
    subst ha; trivial
  all_goals
    simp only [Export.expr, Option.bind_eq_bind, Option.bind_eq_some_iff] at ha
  case curlyname =>
    obtain ⟨_, _, ha⟩ := ha
    split at ha <;> simp at ha
    subst ha; trivial
  case call => obtain ⟨_, _, _, _, ha⟩ := ha; cases ha; trivial
  case dict => obtain ⟨_, _, ha⟩ := ha; cases ha; trivial
  case subscript => obtain ⟨_, _, _, _, ha⟩ := ha; cases ha; trivial
  case dot => obtain ⟨_, _, ha⟩ := ha; cases ha; trivial

theorem opsAt_level {k : Nat} {ty : TT} {op : BinTy} (h : opsAt k ty = some op) :
    opLevel (binTok op) = k ∧ k ≠ 4 ∧ 2 ≤ k := by
  unfold opsAt at h
  split at h
  all_goals first
    | (cases ty <;> simp [opsOr, opsAnd, opsAdd, opsMul] at h <;> subst h <;> decide)
    | simp at h

theorem opsCmp_level {ty : TT} {op : BinTy} (h : opsCmp ty = some op) :
    opLevel (binTok op) = 4 := by
  cases ty <;> simp [opsCmp] at h
  rename_i k m
  subst h
  cases k <;> cases m <;> rfl

theorem opsAt_text {k : Nat} {ty : TT} {op : BinTy} (h : opsAt k ty = some op) :
    (ty ≠ .eof ∧ ty ≠ .eol) ∧ ∀ w, Shape ty w → w = (binTok op).str ∨ binTok op = .DOT ∧ w = ['.', '.'] := by
  unfold opsAt at h
  split at h
  all_goals first
    | (cases ty <;> simp [opsOr, opsAnd, opsAdd, opsMul] at h <;> subst h <;>
        simp [Shape, binTok, Tok.str])
    | simp at h

theorem opsCmp_text {ty : TT} {op : BinTy} (h : opsCmp ty = some op) :
    (ty ≠ .eof ∧ ty ≠ .eol) ∧ ∀ w, Shape ty w → w = (binTok op).str ∨ binTok op = .DOT ∧ w = ['.', '.'] := by
  cases ty <;> simp [opsCmp] at h
  rename_i k m
  subst h
  refine ⟨⟨nofun, nofun⟩, ?_⟩
  rintro w rfl
  exact Or.inl (by cases k <;> cases m <;> rfl)

theorem opsUnary_text {ty : TT} {op : UnTy} (h : opsUnary ty = some op) :
    (ty ≠ .eof ∧ ty ≠ .eol) ∧ ∀ w, Shape ty w → w = (unTok op).str := by
  cases ty <;> simp [opsUnary] at h <;> subst h <;> simp [Shape, unTok, Tok.str]

theorem binary_good (he : EnvOK env) {k l n : Nat} {ty : TT} {op : BinTy} {r r1 r2 r' : List Cell}
    {e x : VExpr} {t : Token} (hlv : opLevel (binTok op) = k) (h2 : 2 ≤ k)
    (hl : leftLevel (binTok op) = l) (hn : k + 1 = n)
    (htx : (ty ≠ .eof ∧ ty ≠ .eol) ∧ ∀ w, Shape ty w → w = (binTok op).str ∨ binTok op = .DOT ∧ w = ['.', '.'])
    (h : D l r e r1) (ht : Tk env r1 ty t r2) (hx : D n r2 x r') :
    Good env fn k r (.binary t.pos op e x) r' := by
  obtain ⟨a, a1, a2, a3⟩ := h.p
  obtain ⟨b, b1, b2, b3⟩ := hx.p
  have hsp := htx.2 _ (ht.shape he h.suf' htx.1.1 htx.1.2)
  have opr : opOK env fn (.binary a (Export.pos fn t.pos) (binTok op) b) :=
    ⟨_, ht.lexAt he h.suf' htx.1.1 htx.1.2, hsp⟩
  have txt := ht.text (fn := fn) he h.suf' htx.1.1 htx.1.2
  obtain ⟨v, hv⟩ : ∃ v, t.value = (binTok op).str ++ v := by
    rcases hsp with h | ⟨h1, h2⟩
    · exact ⟨[], by simpa using h⟩
    · exact ⟨['.'], by rw [h1, h2]; rfl⟩
  rw [hv] at txt
  refine ⟨.binary a (Export.pos fn t.pos) (binTok op) b, by simp [Export.expr, a1, b1], by simp [level, hlv],
    AllE.mk _ ⟨opr, by simpa [ownPos] using txt.real, by simpa [ownText] using txt.take, trivial, trivial, ?_, trivial,
      trivial⟩ (by simpa [subs] using ⟨a3, b3⟩) (by simp [keys])⟩
  refine ⟨by omega, by omega, by omega⟩

theorem level_le (e : Ast.Expr) : level e ≤ 9 := by
  cases e <;> simp only [level] <;> try omega
  rename_i op _
  cases op <;> simp [opLevel]

/-- Every tree the expression parser returns is good. -/
theorem good_closed (he : EnvOK env) : Closed env (Good env fn) where
  up := by
    rintro k r e r' hk ⟨_, _, a, h1, h2, h3⟩
    exact ⟨a, h1, by omega, h3⟩
  atom := by
    intro r ty t r' a hs ht h
    cases ty <;> simp [atomTok] at h <;> subst h
    all_goals
      obtain ⟨w, r1, k1, _, k3, k4, _⟩ := (ht.at he hs).at_pos (by rw [ht.2]; decide) (by rw [ht.2]; decide)
      have hl := ht.lexAt (fn := fn) he hs
      rw [k3] at hl ⊢
      exact ⟨_, expr_atom _ _ _, by simp [Export.atom, level],
        lit_good (k1.adv.suf hs) k4 (show LitShape _ _ from ht.shape he hs) fun _ => hl⟩
  dstring := by
    intro r w r1 s r' hs h1 _ h2 h3
    exact ⟨_, expr_atom _ _ _, by simp [Export.atom, level],
      lit_good (k := .STRING) (h1.adv.suf hs) h3 (Or.inl ⟨s, h2, rfl⟩) (fun h => absurd rfl h)⟩
  sstring := by
    intro r w r1 s r' hs h1 _ h2 h3 _
    exact ⟨_, expr_atom _ _ _, by simp [Export.atom, level],
      lit_good (k := .STRING) (h1.adv.suf hs) h3 (Or.inr ⟨s, h2, rfl⟩) (fun h => absurd rfl h)⟩
  list := by
    intro r t r1 vs r' hs ht h
    obtain ⟨as, k1, _, k3⟩ := items_good h
    have txt := Tk.textIs (fn := fn) he hs ht (v := ['[']) (fun w h => h)
    exact ⟨.list (Export.pos fn t.pos) as, by simp [Export.expr, k1], by simp [level],
      AllE.mk _ ⟨trivial, by simpa [ownPos] using txt.real, by simpa [ownText] using txt, trivial, trivial,
        fun a ha => (k3 a ha).1, trivial, trivial⟩ (fun a ha => (k3 a ha).2) (by simp [keys])⟩
  paren := by
    intro r t r1 e r2 t' r' hs ht h _
    obtain ⟨a, a1, a2, a3⟩ := h.p
    have txt := Tk.textIs (fn := fn) he hs ht (v := ['(']) (fun w h => h)
    exact ⟨.paren (Export.pos fn t.pos) a, by simp [Export.expr, a1], by simp [level],
      AllE.mk _ ⟨trivial, by simpa [ownPos] using txt.real, by simpa [ownText] using txt, trivial, trivial,
        a2, trivial, trivial⟩ (by simpa [subs] using a3) (by simp [keys])⟩
  dict := by
    intro r t r1 kvs r' hs ht h
    obtain ⟨as, k1, k2⟩ := ditems_good he
      (fun r k r' _ h => ⟨h.adv, by obtain ⟨a, a1, a2, a3⟩ := h.p; exact ⟨a, a1, a2, Or.inr a3⟩⟩)
      ((ht.sadv he hs).suf hs) h
    have txt := Tk.textIs (fn := fn) he hs ht (v := ['{']) (fun w h => h)
    refine ⟨.dict (Export.pos fn t.pos) as, by simp [Export.expr, k1], by simp [level],
      AllE.mk _ ⟨trivial, by simpa [ownPos] using txt.real, by simp [ownText], Or.inl txt, trivial,
        fun a ha => ⟨(k2 a ha).1, (k2 a ha).2.1⟩, trivial, trivial⟩ ?_ ?_⟩
    · intro x hx
      obtain ⟨kv, h1, rfl⟩ := List.mem_map.mp hx
      exact (k2 kv h1).2.2.2
    · intro x hx hn
      obtain ⟨kv, h1, rfl⟩ := List.mem_map.mp hx
      exact (k2 kv h1).2.2.1.resolve_left hn
  litdict := by
    intro r t r1 kvs r' hs ht h
    obtain ⟨as, k1, k2⟩ := ditems_good he (fun r k r' hs h => litkey_good hs h)
      ((ht.sadv he hs).suf hs) h
    have txt := Tk.textIs (fn := fn) he hs ht (v := ['#', '{']) (fun w h => h)
    refine ⟨.dict (Export.pos fn t.pos) as, by simp [Export.expr, k1], by simp [level],
      AllE.mk _ ⟨trivial, by simpa [ownPos] using txt.real, by simp [ownText], Or.inr txt, trivial,
        fun a ha => ⟨(k2 a ha).1, (k2 a ha).2.1⟩, trivial, trivial⟩ ?_ ?_⟩
    · intro x hx
      obtain ⟨kv, h1, rfl⟩ := List.mem_map.mp hx
      exact (k2 kv h1).2.2.2
    · intro x hx hn
      obtain ⟨kv, h1, rfl⟩ := List.mem_map.mp hx
      exact (k2 kv h1).2.2.1.resolve_left hn
  lambda := by
    intro r t r1 ps r2 e r3 t' r' hs ht hp h _
    obtain ⟨a, a1, a2, a3⟩ := h.p
    have hs1 : Suf env r1 := by
      rcases ht with ht | ht <;> exact (ht.sadv he hs).suf hs
    have txt : TextAt env fn (Export.pos fn t.pos) ['{'] ∨ TextAt env fn (Export.pos fn t.pos) ['#', '{'] :=
      ht.imp (fun ht => Tk.textIs (ty := .copen) he hs ht (fun w h => h))
        (fun ht => Tk.textIs (ty := .litcopen) he hs ht (fun w h => h))
    have hr : Real env fn (Export.pos fn t.pos) := txt.elim (·.real) (·.real)
    obtain ⟨p1, names, dots, p2, p3, p4, _, p6⟩ := lamPs_good (fn := fn) he hs1 hp
    refine ⟨.lambda (Export.pos fn t.pos) (Export.idents fn ps) a, by simp [Export.expr, a1], by simp [level],
      AllE.mk _ ⟨trivial, ?_, ?_, txt, trivial, a2, trivial, ?_⟩ (by simpa [subs] using a3) (by simp [keys])⟩
    · simp only [ownPos, Export.idents, List.map_map]
      rw [List.forall_mem_cons]
      refine ⟨hr, ?_⟩
      intro q hq
      obtain ⟨x, hx, rfl⟩ := List.mem_map.mp hq
      exact (p1 x hx).real
    · simp only [ownText, Export.idents, List.map_map]
      intro q hq
      obtain ⟨x, hx, rfl⟩ := List.mem_map.mp hq
      exact p1 x hx
    · refine ⟨names, dots, ?_, p3, p4, fun n hn => isargname_spec (p6 n hn)⟩
      rw [← p2]
      simp [Export.idents, Function.comp_def]
  ident := by
    intro r w r1 ps r' hs h1 _ h hne hst
    have hs1 := h1.adv.suf hs
    obtain ⟨as, k1, k2, k3⟩ := idparts_good (fn := fn) hs1 h
    unfold identNode
    split
    · rename_i v
      obtain ⟨t1, t2⟩ := idparts_single (fn := fn) hs1 hst h rfl
      exact ⟨.ident ⟨Export.pos fn (posOf env r1), v⟩, by simp only [Export.expr, Export.atom], by simp [level],
        AllE.mk _ ⟨trivial, by simpa [ownPos] using t1.real, by simpa [ownText] using t1, trivial, t2, trivial,
          trivial, trivial⟩ (by simp [subs]) (by simp [keys])⟩
    · refine ⟨.curlyName (Export.pos fn (posOf env r1)) as, ?_, by simp [level],
        AllE.mk _ ⟨trivial, by simpa [ownPos] using (at_of (fn := fn) hs1).real, by simp [ownText], trivial, trivial,
          ⟨k2 hne, fun a ha => (k3 a ha).1⟩, trivial, trivial⟩ (fun a ha => (k3 a ha).2) (by simp [keys])⟩
      simpa [Export.expr, k1] using fun a ha => (k3 a ha).isPart
  subscript := by
    intro r l r1 t r2 x r3 t' r' hl _ ht hx _
    obtain ⟨a, a1, a2, a3⟩ := hl.p
    obtain ⟨b, b1, b2, b3⟩ := hx.p
    have txt := Tk.textIs (fn := fn) he hl.suf' ht (v := ['[']) (fun w h => h)
    exact ⟨.subscript (Export.pos fn t.pos) a b, by simp [Export.expr, a1, b1], by simp [level],
      AllE.mk _ ⟨trivial, by simpa [ownPos] using txt.real, by simpa [ownText] using txt, trivial, trivial,
        ⟨a2, b2⟩, trivial, trivial⟩ (by simpa [subs] using ⟨a3, b3⟩) (by simp [keys])⟩
  slice := by
    intro r l r1 t r2 lo r3 t' r4 hi r5 t'' r' hl _ ht hlo _ hhi _
    obtain ⟨a, a1, a2, a3⟩ := hl.p
    have opt : ∀ {o : Option VExpr} {q q' : List Cell}, (o = none ∧ q' = q ∨ ∃ x, o = some x ∧ D 1 q x q') →
        ∃ o', Export.exprOpt fn o = some o' ∧ ∀ e, o' = some e → 1 ≤ level e ∧ Al e := by
      rintro o q q' (⟨rfl, _⟩ | ⟨x, rfl, hx⟩)
      · exact ⟨none, rfl, by simp⟩
      · obtain ⟨b, b1, b2, b3⟩ := hx.p
        exact ⟨some b, by simp [Export.exprOpt, b1], by rintro e ⟨rfl⟩; exact ⟨b2, b3⟩⟩
    obtain ⟨lo', l1, l2⟩ := opt hlo
    obtain ⟨hi', i1, i2⟩ := opt hhi
    have txt := Tk.textIs (fn := fn) he hl.suf' ht (v := ['[']) (fun w h => h)
    refine ⟨.slice a (Export.pos fn t.pos) lo' hi', by simp [Export.expr, a1, l1, i1], by simp [level],
      AllE.mk _ ⟨trivial, by simpa [ownPos] using txt.real, by simpa [ownText] using txt, trivial, trivial,
        ⟨a2, fun e h => (l2 e h).1, fun e h => (i2 e h).1⟩, trivial, trivial⟩ ?_ (by simp [keys])⟩
    intro x hx
    simp only [subs, List.mem_cons, List.mem_append, Option.mem_toList] at hx
    rcases hx with rfl | hx | hx
    · exact a3
    · exact (l2 _ hx).2
    · exact (i2 _ hx).2
  method := by
    intro r l r1 t r2 f r3 t' r4 as r' hl _ hf ht' h hn
    obtain ⟨a, a1, a2, a3⟩ := hl.p
    obtain ⟨b, b1, b2, b3⟩ := hf.p
    obtain ⟨cs, k1, k2, k3⟩ := items_good h
    have txt := Tk.textIs (fn := fn) he hf.suf' ht' (v := ['(']) (fun w h => h)
    refine ⟨.method a b (Export.pos fn t'.pos) cs, by simp [Export.expr, a1, b1, k1], by simp [level],
      AllE.mk _ ⟨trivial, by simpa [ownPos] using txt.real, by simpa [ownText] using txt, trivial, trivial,
        ⟨a2, ?_, fun x hx => (k3 x hx).1⟩, by simp only [argsOK]; omega, trivial⟩ ?_ (by simp [keys])⟩
    · exact Nat.le_antisymm (level_le b) b2
    · simp only [subs]
      rw [List.forall_mem_cons, List.forall_mem_cons]
      exact ⟨a3, b3, fun x hx => (k3 x hx).2⟩
  call := by
    intro r l r1 t r2 as r' hl ht h hn
    obtain ⟨a, a1, a2, a3⟩ := hl.p
    obtain ⟨cs, k1, k2, k3⟩ := items_good h
    have txt := Tk.textIs (fn := fn) he hl.suf' ht (v := ['(']) (fun w h => h)
    refine ⟨.call a (Export.pos fn t.pos) cs, by simp [Export.expr, a1, k1], by simp [level],
      AllE.mk _ ⟨trivial, by simpa [ownPos] using txt.real, by simpa [ownText] using txt, trivial, trivial,
        ⟨a2, fun x hx => (k3 x hx).1⟩, by simp only [argsOK]; omega, trivial⟩ ?_ (by simp [keys])⟩
    simp only [subs]
    rw [List.forall_mem_cons]
    exact ⟨a3, fun x hx => (k3 x hx).2⟩
  dot := by
    intro r l r1 t r2 hl _ ht hd hw _
    obtain ⟨a, a1, a2, a3⟩ := hl.p
    have hs2 := (ht.sadv he hl.suf').suf hl.suf'
    have txt := Tk.textIs (fn := fn) he hl.suf' ht (v := ['.']) (fun w h => h)
    have txt2 := textAt_of (fn := fn) hs2 (spanS_reads iswordc r2)
    obtain ⟨c, hc, hf⟩ := Sym.is_ch hw
    exact ⟨.dot a (Export.pos fn t.pos) ⟨Export.pos fn (posOf env r2), (spanS iswordc r2).1⟩,
      by simp [Export.expr, a1], by simp [level],
      AllE.mk _ ⟨trivial, by simpa [ownPos] using ⟨txt.real, txt2.real⟩, by simpa [ownText] using ⟨txt, txt2⟩, trivial,
        spanS_many1 ⟨hc, trivial⟩ hf, ⟨a2, dotBase_of hd a1⟩, trivial, trivial⟩ (by simpa [subs] using a3)
        (by simp [keys])⟩
  unary := by
    intro r ty t r1 op e r' hs ht hop h
    obtain ⟨a, a1, a2, a3⟩ := h.p
    obtain ⟨⟨n1, n2⟩, hx⟩ := opsUnary_text hop
    have txt := Tk.textIs (fn := fn) he hs ht hx n1 n2
    have opr := ht.lexAt (fn := fn) he hs n1 n2
    rw [hx _ (ht.shape he hs n1 n2)] at opr
    exact ⟨.unary (Export.pos fn t.pos) (unTok op) a, by simp [Export.expr, a1], by simp [level],
      AllE.mk _ ⟨opr, by simpa [ownPos] using txt.real, by simpa [ownText] using txt, trivial, trivial,
        ⟨by cases op <;> simp [unTok], a2⟩, trivial, trivial⟩ (by simpa [subs] using a3) (by simp [keys])⟩
  binary := by
    intro k r l r1 ty t r2 op x r' hop hl ht hx
    obtain ⟨o1, o2, o3⟩ := opsAt_level hop
    exact binary_good he o1 o3 (by simp [leftLevel, o1, o2]) rfl (opsAt_text hop) hl ht hx
  compare := by
    intro r l r1 ty t r2 op x r' hop hl ht hx
    have o1 := opsCmp_level hop
    exact binary_good he o1 (by omega) (by simp [leftLevel, o1]) rfl (opsCmp_text hop) hl ht hx
  ternary := by
    intro r c r1 t r2 a r3 t' r4 b r' hc ht ha _ hb
    obtain ⟨c', c1, c2, c3⟩ := hc.p
    obtain ⟨a', a1, a2, a3⟩ := ha.p
    obtain ⟨b', b1, b2, b3⟩ := hb.p
    have txt := Tk.textIs (fn := fn) he hc.suf' ht (v := ['?']) (fun w h => h)
    exact ⟨.ternary (Export.pos fn t.pos) c' a' b', by simp [Export.expr, a1, b1, c1], by simp [level],
      AllE.mk _ ⟨trivial, by simpa [ownPos] using txt.real, by simpa [ownText] using txt, trivial, trivial,
        ⟨c2, a2, b2⟩, trivial, trivial⟩ (by simpa [subs] using ⟨c3, a3, b3⟩) (by simp [keys])⟩

end

end Viml
