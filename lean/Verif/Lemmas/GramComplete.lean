/-
Completeness of the expression parser for the grammar of `Spec/Grammar.lean`, by induction on the derivation.
-/
import Verif.Lemmas.GramRun

namespace Viml
open Prog Spec

section
variable {env : Env} {fn : Str}

local notation "run(" m "," r ")" => Prog.runWith tokGet env m r

theorem Spec.Mark.tk (he : EnvOK env) {r r' : List Cell} {ty : TT} {q : Ast.Pos} (hs : Suf env r)
    (h : Mark env fn r ty q r') : ∃ t, Tk env r ty t r' ∧ q = pubPos fn t.pos := by
  obtain ⟨t, h1, h2, h3⟩ := h
  exact ⟨t, ⟨(tokGet_iff he hs _ _).2 h1, h2⟩, h3⟩

theorem FirstTok.mono {j k : Nat} {ty : TT} (h : FirstTok k ty) (hjk : j ≤ k) : FirstTok j ty :=
  ⟨h.1, h.2.1, h.2.2.1, h.2.2.2.1, fun h8 => h.2.2.2.2 (by omega)⟩

/-- The expression parser of level `k` reads what the grammar derives. -/
def GR (env : Env) (fn : Str) (k : Nat) (r : List Cell) (e : Ast.Expr) (r' : List Cell) : Prop :=
  Suf env r → SAdv r r' ∧ (∃ t r1, tokGet env r = .ok t r1 ∧ FirstTok k t.ty) ∧
    ∃ v, Export.expr fn v = some e ∧ ∀ n, r.length ≤ n → Runs env (parseExpr1F n) k r v r'

/-- The same before the loop of the level ends. -/
def CR (env : Env) (fn : Str) (k : Nat) (r : List Cell) (e : Ast.Expr) (r' : List Cell) : Prop :=
  Suf env r → SAdv r r' ∧ (∃ t r1, tokGet env r = .ok t r1 ∧ FirstTok k t.ty) ∧
    ∃ v, Export.expr fn v = some e ∧ ∀ n, r.length ≤ n → Partly env (parseExpr1F n) k r v r'

def OR (env : Env) (fn : Str) (r : List Cell) (o : Option Ast.Expr) (r' : List Cell) : Prop :=
  Suf env r → Adv r r' ∧ ∃ v, Export.exprOpt fn v = some o ∧ (v = none ∧ r' = r ∨ ∃ x, v = some x ∧ QR env r x r')

def AR (env : Env) (fn : Str) (c : TT) (r : List Cell) (es : List Ast.Expr) (r' : List Cell) : Prop :=
  c ≠ .eof → c ≠ .eol → Suf env r → SAdv r r' ∧ ∃ vs, Export.exprs fn vs = some es ∧ vs.length = es.length ∧
    Items env (QR env) c r vs r'

def KR (env : Env) (fn : Str) (lit : Bool) (r : List Cell) (e : Ast.Expr) (r' : List Cell) : Prop :=
  Suf env r → ∃ v, Export.expr fn v = some e ∧ KeyR env lit r v r'

def PR (env : Env) (fn : Str) (lit : Bool) (r : List Cell) (kvs : List (Ast.Expr × Ast.Expr)) (r' : List Cell) : Prop :=
  Suf env r → SAdv r r' ∧ ∃ vs, Export.pairs fn vs = some kvs ∧ DItems env (KeyR env lit) (QR env) r vs r'

def NR (env : Env) (fn : Str) (r : List Cell) (ps : List Ast.Expr) (r' : List Cell) : Prop :=
  Suf env r → Adv r r' ∧ (ps ≠ [] → SAdv r r') ∧ ∃ vs, Export.exprs fn vs = some ps ∧ Parts env (QR env) r vs r' ∧
    ∀ a ∈ ps, Export.isCurlyPart a = true

theorem GR.qr {r : List Cell} {e : Ast.Expr} {r' : List Cell} (hs : Suf env r) (h : GR env fn 1 r e r') :
    ∃ v, Export.expr fn v = some e ∧ QR env r v r' := by
  obtain ⟨h1, h2, v, h3, h4⟩ := h hs
  refine ⟨v, h3, hs, h1, h2, fun n hn => ?_⟩
  obtain ⟨m, rfl⟩ : ∃ m, n = m + 1 := ⟨n - 1, by omega⟩
  exact rec_run (h4 m (by omega))

/-! ### Levels with operators -/

theorem GR.ternary (he : EnvOK env) {r c r1 q r2 a r3 q' r4 b r'} (hc : GR env fn 2 r c r1)
    (hq : Mark env fn r1 .question q r2) (ha : GR env fn 1 r2 a r3) (hq' : Mark env fn r3 .colon q' r4)
    (hb : GR env fn 1 r4 b r') : GR env fn 1 r (.ternary q c a b) r' := by
  intro hs
  obtain ⟨a1, ⟨t, s, f1, f2⟩, v, x1, x2⟩ := hc hs
  have s1 := a1.suf hs
  obtain ⟨t1, ht1, rfl⟩ := hq.tk he s1
  have a2 := ht1.sadv he s1
  have s2 := a2.suf s1
  obtain ⟨va, y1, y2⟩ := ha.qr s2
  have s3 := y2.suf'
  obtain ⟨t2, ht2, rfl⟩ := hq'.tk he s3
  have a4 := ht2.sadv he s3
  have s4 := a4.suf s3
  obtain ⟨vb, z1, z2⟩ := hb.qr s4
  refine ⟨(((a1.trans a2).trans y2.adv).trans a4).trans z2.adv, ⟨t, s, f1, f2.mono (by omega)⟩,
    .ternary t1.pos v va vb, by simp [Export.expr, x1, y1, z1]; rfl, fun n hn => ?_⟩
  show run(expr1 (parseExpr1F n), r) = _
  have l2 : r2.length < n := by have := a1.lt; have := a2.lt; omega
  have l4 : r4.length < n := by have := y2.adv.lt; have := a4.lt; omega
  unfold expr1
  rw [run_ok (show run(expr2 (parseExpr1F n), r) = _ from (x2 n hn).run), run_ok (tell_run _),
    run_ok (tk_run ht1.1), if_pos ht1.2, run_ok (y2.run n l2), run_ok (tk_run ht2.1), if_neg (by simp [ht2.2]),
    run_ok (z2.run n l4)]
  rfl

theorem GR.noTernary (he : EnvOK env) {r e r'} (h : GR env fn 2 r e r') (hn : Next env r' (· ≠ .question)) :
    GR env fn 1 r e r' := by
  intro hs
  obtain ⟨a1, ⟨t, s, f1, f2⟩, v, x1, x2⟩ := h hs
  obtain ⟨t', r2, h1, h2⟩ := hn
  exact ⟨a1, ⟨t, s, f1, f2.mono (by omega)⟩, v, x1,
    fun n hn => (x2 n hn).up1 ((tokGet_iff he (a1.suf hs) _ _).2 h1) h2⟩

theorem CR.stop {k : Nat} (hk : Repeats k) {r e r'} (h : CR env fn k r e r')
    (hb : Suf env r' → ∀ v, Export.expr fn v = some e → ∀ rec, run(lvlBody rec k v, r') = .ok (.inr v) r') :
    GR env fn k r e r' := by
  intro hs
  obtain ⟨a1, f, v, x1, x2⟩ := h hs
  refine ⟨a1, f, v, x1, fun n hn => ?_⟩
  obtain ⟨m, h1, h2⟩ := x2 n hn
  obtain ⟨m, rfl⟩ : ∃ j, m = j + 1 := ⟨m - 1, by omega⟩
  rw [loopN_inr (hb (a1.suf hs) v x1 _)] at h2
  unfold Runs
  rw [if_neg (by unfold Repeats at hk; omega)]
  exact h2

theorem GR.chain (he : EnvOK env) {k r e r'} (hk : Repeats k) (h8 : k ≠ 8) (h : CR env fn k r e r')
    (hn : Next env r' (fun ty => ∀ op, ¬ IsOp ty k op)) : GR env fn k r e r' := by
  refine h.stop hk fun hs v _ rec => ?_
  obtain ⟨t', r2, h1, h2⟩ := hn
  rw [opsAt_body (by unfold Repeats at hk; omega)]
  refine binBody_stop ((tokGet_iff he hs _ _).2 h1) ?_
  cases ho : opsAt k t'.ty with
  | none => rfl
  | some b => exact absurd (isOp_of_ops ho) (h2 _)

theorem GR.postfix (he : EnvOK env) {r e r'} (h : CR env fn 8 r e r') (hn : NoPostfix env e r') :
    GR env fn 8 r e r' := by
  refine h.stop (by unfold Repeats; omega) fun hs v hv rec => ?_
  obtain ⟨t, r2, h1, h2, h3, h4⟩ := hn
  refine body8_end (rec := rec) ((tokGet_iff he hs _ _).2 h1) h2 h3 fun hw => ⟨(h4 hw).1, ?_⟩
  rintro ⟨k1, k2, k3⟩
  exact (h4 hw).2 ⟨k1, dotBase_of k2 hv, k3⟩

theorem CR.one {k r e r'} (hk : Repeats k) (h : GR env fn (k + 1) r e r') : CR env fn k r e r' := by
  intro hs
  obtain ⟨a1, ⟨t, s, f1, f2⟩, v, x1, x2⟩ := h hs
  exact ⟨a1, ⟨t, s, f1, f2.mono (by omega)⟩, v, x1, fun n hn => (x2 n hn).partly hk⟩

theorem CR.op (he : EnvOK env) {k r l r1 t r2 op x r'} (hk : Repeats k) (hl : CR env fn k r l r1)
    (ht : Lex env r1 t r2) (ho : IsOp t.ty k op) (hx : GR env fn (k + 1) r2 x r') :
    CR env fn k r (.binary l (pubPos fn t.pos) op x) r' := by
  intro hs
  obtain ⟨a1, f, v, x1, x2⟩ := hl hs
  have s1 := a1.suf hs
  have ht := (tokGet_iff he s1 _ _).2 ht
  obtain ⟨b, hb, rfl⟩ := ops_of_isOp ho (by unfold Repeats at hk; omega)
  have a2 : SAdv r1 r2 := (tokGet_at he s1 ht).sadv (by rintro h; rw [h] at ho; cases ho) (by rintro h; rw [h] at ho; cases ho)
  have s2 := a2.suf s1
  obtain ⟨a3, _, vx, y1, y2⟩ := hx s2
  refine ⟨(a1.trans a2).trans a3, f, .binary t.pos b v vx, by simp [Export.expr, x1, y1]; rfl, fun n hn => ?_⟩
  refine (x2 n hn).step ?_ (by have := a2.lt; have := a3.lt; omega)
  have h8 : k ≠ 8 := by rintro rfl; simp [opsAt] at hb
  rw [opsAt_body (by unfold Repeats at hk; omega)]
  exact binBody_op ht hb (y2 n (by have := a1.lt; have := a2.lt; omega)).run

theorem GR.compare (he : EnvOK env) {r l r1 t r2 op x r'} (hl : GR env fn 5 r l r1)
    (ht : Lex env r1 t r2) (ho : IsOp t.ty 4 op) (hx : GR env fn 5 r2 x r') :
    GR env fn 4 r (.binary l (pubPos fn t.pos) op x) r' := by
  intro hs
  obtain ⟨a1, ⟨t0, s, f1, f2⟩, v, x1, x2⟩ := hl hs
  have s1 := a1.suf hs
  have ht := (tokGet_iff he s1 _ _).2 ht
  obtain ⟨b, hb, rfl⟩ := cmp_of_isOp ho
  have a2 : SAdv r1 r2 := (tokGet_at he s1 ht).sadv (by rintro h; rw [h] at ho; cases ho) (by rintro h; rw [h] at ho; cases ho)
  have s2 := a2.suf s1
  obtain ⟨a3, _, vx, y1, y2⟩ := hx s2
  exact ⟨(a1.trans a2).trans a3, ⟨t0, s, f1, f2.mono (by omega)⟩, .binary t.pos b v vx,
    by simp [Export.expr, x1, y1]; rfl,
    fun n hn => (x2 n hn).cmp ht hb (y2 n (by have := a1.lt; have := a2.lt; omega))⟩

theorem GR.noCompare (he : EnvOK env) {r e r'} (h : GR env fn 5 r e r')
    (hn : Next env r' (fun ty => ∀ op, ¬ IsOp ty 4 op)) : GR env fn 4 r e r' := by
  intro hs
  obtain ⟨a1, ⟨t, s, f1, f2⟩, v, x1, x2⟩ := h hs
  obtain ⟨t', r2, h1, h2⟩ := hn
  refine ⟨a1, ⟨t, s, f1, f2.mono (by omega)⟩, v, x1, fun n hn => ?_⟩
  have ho : opsCmp t'.ty = none := by
    cases ho : opsCmp t'.ty with
    | none => rfl
    | some b => exact absurd (isOp_of_cmp ho) (h2 _)
  show run(expr4 (parseExpr1F n), r) = _
  unfold expr4
  rw [run_ok (show run(expr5 (parseExpr1F n), r) = _ from (x2 n hn).run), run_ok (tell_run _),
    run_ok (tk_run ((tokGet_iff he (a1.suf hs) _ _).2 h1)), ho]
  simp only
  rw [run_ok (seekSet_run _ _)]
  rfl

theorem isUn_first {ty : TT} {op : Tok} (h : IsUn ty op) : FirstTok 7 ty := by
  cases h <;> exact ⟨by simp, by simp, by simp, by simp, by omega⟩

theorem isLit_first {ty : TT} {k : Tok} (h : IsLit ty k) : FirstTok 9 ty := by
  cases h <;> exact ⟨by simp, by simp, by simp, by simp, fun _ => rfl⟩

theorem isLit_atom {ty : TT} {k : Tok} (h : IsLit ty k) (q : Ast.Pos) (v : Str) :
    ∃ a, atomTok ty = some a ∧ Export.atom q v a = .basicLit q k v := by
  cases h <;> exact ⟨_, rfl, rfl⟩

theorem GR.unary (he : EnvOK env) {r t r1 op e r'} (ht : Lex env r t r1) (ho : IsUn t.ty op)
    (h : GR env fn 7 r1 e r') : GR env fn 7 r (.unary (pubPos fn t.pos) op e) r' := by
  intro hs
  have ht := (tokGet_iff he hs _ _).2 ht
  obtain ⟨b, hb, rfl⟩ := un_of_is ho
  have a1 : SAdv r r1 := (tokGet_at he hs ht).sadv (by rintro h; rw [h] at ho; cases ho) (by rintro h; rw [h] at ho; cases ho)
  obtain ⟨a2, _, v, x1, x2⟩ := h (a1.suf hs)
  exact ⟨a1.trans a2, ⟨t, r1, ht, isUn_first ho⟩,
    .unary t.pos b v, by simp [Export.expr, x1]; rfl,
    fun n hn => .unary ht hb a1.lt (x2 n (by have := a1.lt; omega))⟩

theorem GR.noUnary {r e r'} (h : GR env fn 8 r e r') : GR env fn 7 r e r' := by
  intro hs
  obtain ⟨a1, ⟨t, s, f1, f2⟩, v, x1, x2⟩ := h hs
  exact ⟨a1, ⟨t, s, f1, f2.mono (by omega)⟩, v, x1, fun n hn => (x2 n hn).up7 f1 (f2.2.2.2.2 (by omega))⟩

/-! ### Level 8 -/

theorem CR.step8 (he : EnvOK env) {r l r1 r2 r' e ty q} (hl : CR env fn 8 r l r1) (hq : Mark env fn r1 ty q r2)
    (h1 : ty ≠ .eof) (h2 : ty ≠ .eol)
    (h : ∀ v t, Suf env r1 → Suf env r2 → Export.expr fn v = some l → Tk env r1 ty t r2 → q = pubPos fn t.pos →
      Adv r2 r' ∧ ∃ v', Export.expr fn v' = some e ∧
        ∀ n, r2.length < n → run(body8 (parseExpr1F n) v, r1) = .ok (.inl v') r') :
    CR env fn 8 r e r' := by
  intro hs
  obtain ⟨a1, f, v, x1, x2⟩ := hl hs
  have s1 := a1.suf hs
  obtain ⟨t, ht, hqt⟩ := hq.tk he s1
  have a2 := ht.sadv he s1 h1 h2
  obtain ⟨a3, v', y1, y2⟩ := h v t s1 (a2.suf s1) x1 ht hqt
  refine ⟨a1.trans (a2.trans_adv a3), f, v', y1, fun n hn => (x2 n hn).step (y2 n ?_) ?_⟩
  · have := a1.lt; have := a2.lt; omega
  · have := a2.lt; have := a3.length; omega

theorem CR.subscript (he : EnvOK env) {r l r1 q r2 x r3 q' r'} (hl : CR env fn 8 r l r1)
    (hw : (headSym r1).is iswhite = false) (hq : Mark env fn r1 .sqopen q r2) (hx : GR env fn 1 r2 x r3)
    (hq' : Mark env fn r3 .sqclose q' r') : CR env fn 8 r (.subscript q l x) r' := by
  refine hl.step8 he hq (by decide) (by decide) fun v t s1 s2 hv ht hqt => ?_
  subst hqt
  obtain ⟨vx, x1, x2⟩ := hx.qr s2
  obtain ⟨t', ht', _⟩ := hq'.tk he x2.suf'
  obtain ⟨t0, r0, f1, f2⟩ := x2.first
  exact ⟨(x2.adv.trans (ht'.sadv he x2.suf')).adv, .subscript t.pos v vx, by simp [Export.expr, hv, x1]; rfl,
    fun n hn => body8_sub ht.1 hw ht.2 (parseSubscript_run f1 f2.1 (x2.run n hn) ht'.1 ht'.2)⟩

theorem CR.slice (he : EnvOK env) {r l r1 q r2 lo r3 q' r4 hi r5 q'' r'} (hl : CR env fn 8 r l r1)
    (hw : (headSym r1).is iswhite = false) (hq : Mark env fn r1 .sqopen q r2) (hlo : OR env fn r2 lo r3)
    (hq' : Mark env fn r3 .colon q' r4) (hhi : OR env fn r4 hi r5) (hq'' : Mark env fn r5 .sqclose q'' r') :
    CR env fn 8 r (.slice l q lo hi) r' := by
  refine hl.step8 he hq (by decide) (by decide) fun v t s1 s2 hv ht hqt => ?_
  subst hqt
  obtain ⟨a3, vlo, x1, x2⟩ := hlo s2
  have s3 := a3.suf s2
  obtain ⟨t', ht', _⟩ := hq'.tk he s3
  have a4 := ht'.sadv he s3
  have s4 := a4.suf s3
  obtain ⟨a5, vhi, y1, y2⟩ := hhi s4
  have s5 := a5.suf s4
  obtain ⟨t'', ht'', _⟩ := hq''.tk he s5
  exact ⟨((a3.trans a4.adv).trans a5).trans (ht''.sadv he s5).adv, .slice t.pos v vlo vhi,
    by simp [Export.expr, hv, x1, y1]; rfl,
    fun n hn => body8_sub ht.1 hw ht.2 (parseSlice_run he s2 hn x2 ht' y2 ht'')⟩

theorem CR.call (he : EnvOK env) {r l r1 q r2 as r'} (hl : CR env fn 8 r l r1) (hq : Mark env fn r1 .popen q r2)
    (ha : AR env fn .pclose r2 as r') (hn : as.length ≤ 20) : CR env fn 8 r (.call l q as) r' := by
  refine hl.step8 he hq (by decide) (by decide) fun v t s1 s2 hv ht hqt => ?_
  subst hqt
  obtain ⟨a3, vs, x1, x2, x3⟩ := ha (by decide) (by decide) s2
  exact ⟨a3.adv, .call t.pos v vs, by simp [Export.expr, hv, x1]; rfl,
    fun n hn => body8_call ht (parseRlist_run he x3 hn (by omega))⟩

theorem CR.method (he : EnvOK env) {r l r1 q r2 f r3 q' r4 as r'} (hl : CR env fn 8 r l r1)
    (hq : Mark env fn r1 .arrow q r2) (hf : GR env fn 9 r2 f r3) (hq' : Mark env fn r3 .popen q' r4)
    (ha : AR env fn .pclose r4 as r') (hn : as.length ≤ 20) : CR env fn 8 r (.method l f q' as) r' := by
  refine hl.step8 he hq (by decide) (by decide) fun v t s1 s2 hv ht hqt => ?_
  obtain ⟨a3, _, vf, y1, y2⟩ := hf s2
  have s3 := a3.suf s2
  obtain ⟨t', ht', rfl⟩ := hq'.tk he s3
  have a4 := ht'.sadv he s3
  obtain ⟨a5, vs, x1, x2, x3⟩ := ha (by decide) (by decide) (a4.suf s3)
  refine ⟨((a3.trans a4).trans a5).adv, .method t'.pos v (.call t'.pos vf vs), by simp [Export.expr, hv, x1, y1]; rfl,
    fun n hn => body8_method ht (y2 n (by omega)).run ht' (parseRlist_run he x3 ?_ (by omega))⟩
  have := a3.lt; have := a4.lt; omega

theorem CR.dot (he : EnvOK env) {r l r1 q r2 v r'} (hl : CR env fn 8 r l r1) (hw : (headSym r1).is iswhite = false)
    (hd : dotBase l) (hq : Mark env fn r1 .dot q r2) (hm : Member r2 v r') :
    CR env fn 8 r (.dot l q ⟨pubPos fn (posOf env r2), v⟩) r' := by
  refine hl.step8 he hq (by decide) (by decide) fun e t s1 s2 hv ht hqt => ?_
  subst hqt
  exact ⟨hm.1.adv, .dot t.pos e (posOf env r2) v, by simp [Export.expr, hv]; exact ⟨rfl, rfl⟩,
    fun n hn => body8_dot ht hw (dotLeft_of hd hv) hm⟩

/-! ### Items -/

theorem OR.none {r} : OR env fn r none r := fun _ => ⟨Adv.refl _, Option.none, rfl, Or.inl ⟨rfl, rfl⟩⟩

theorem OR.some {r e r'} (h : GR env fn 1 r e r') : OR env fn r (some e) r' := by
  intro hs
  obtain ⟨v, x1, x2⟩ := h.qr hs
  exact ⟨x2.adv.adv, Option.some v, by simp [Export.exprOpt, x1], Or.inr ⟨v, rfl, x2⟩⟩

theorem AR.nil (he : EnvOK env) {c r q r'} (h : Mark env fn r c q r') : AR env fn c r [] r' := by
  intro h1 h2 hs
  obtain ⟨t, ht, _⟩ := h.tk he hs
  exact ⟨ht.sadv he hs h1 h2, [], rfl, rfl, .nil ht⟩

theorem AR.last (he : EnvOK env) {c r e r1 q r'} (h : GR env fn 1 r e r1) (hq : Mark env fn r1 c q r') :
    AR env fn c r [e] r' := by
  intro h1 h2 hs
  obtain ⟨v, x1, x2⟩ := h.qr hs
  obtain ⟨t, ht, _⟩ := hq.tk he x2.suf'
  exact ⟨x2.adv.trans (ht.sadv he x2.suf' h1 h2), [v], by simp [Export.exprs, x1], rfl, .last x2 ht⟩

theorem AR.cons (he : EnvOK env) {c r e r1 q r2 es r'} (h : GR env fn 1 r e r1) (hq : Mark env fn r1 .comma q r2)
    (ha : AR env fn c r2 es r') : AR env fn c r (e :: es) r' := by
  intro h1 h2 hs
  obtain ⟨v, x1, x2⟩ := h.qr hs
  obtain ⟨t, ht, _⟩ := hq.tk he x2.suf'
  have a2 := ht.sadv he x2.suf'
  obtain ⟨a3, vs, y1, y2, y3⟩ := ha h1 h2 (a2.suf x2.suf')
  exact ⟨(x2.adv.trans a2).trans a3, v :: vs, by simp [Export.exprs, x1, y1], by simp [y2], .cons x2 ht y3⟩

theorem litWord_key (he : EnvOK env) {r e r'} (hs : Suf env r) (h : LitWord env fn r e r') :
    ∃ v, Export.expr fn v = some e ∧ LitKey env r v r' := by
  obtain ⟨⟨t, r2, ht, _⟩, r1, v, ⟨w, h1, hw⟩, h2, h3, rfl⟩ := h
  exact ⟨_, expr_atom _ _ _, ⟨t, r2, (tokGet_iff he hs _ _).2 ht⟩, w, r1, v, h1, hw, h2, h3.1, h3.2, rfl⟩

theorem KR.expr {r e r'} (h : GR env fn 1 r e r') : KR env fn false r e r' := fun hs => h.qr hs

theorem KR.lit (he : EnvOK env) {r e r'} (h : LitWord env fn r e r') : KR env fn true r e r' :=
  fun hs => litWord_key he hs h

theorem PR.nil (he : EnvOK env) {lit r q r'} (h : Mark env fn r .cclose q r') : PR env fn lit r [] r' := by
  intro hs
  obtain ⟨t, ht, _⟩ := h.tk he hs
  exact ⟨ht.sadv he hs, [], rfl, .nil ht⟩

theorem PR.last (he : EnvOK env) {lit r k r1 q r2 v r3 q' r'} (hk : KR env fn lit r k r1)
    (hq : Mark env fn r1 .colon q r2) (hv : GR env fn 1 r2 v r3) (hq' : Mark env fn r3 .cclose q' r') :
    PR env fn lit r [(k, v)] r' := by
  intro hs
  obtain ⟨vk, x1, x2⟩ := hk hs
  have s1 := x2.adv.suf hs
  obtain ⟨t, ht, _⟩ := hq.tk he s1
  have a2 := ht.sadv he s1
  obtain ⟨vv, y1, y2⟩ := hv.qr (a2.suf s1)
  obtain ⟨t', ht', _⟩ := hq'.tk he y2.suf'
  exact ⟨((x2.adv.trans a2).trans y2.adv).trans (ht'.sadv he y2.suf'), [(vk, vv)], by simp [Export.pairs, x1, y1],
    .last x2 ht y2 ht'⟩

theorem PR.cons (he : EnvOK env) {lit r k r1 q r2 v r3 q' r4 kvs r'} (hk : KR env fn lit r k r1)
    (hq : Mark env fn r1 .colon q r2) (hv : GR env fn 1 r2 v r3) (hq' : Mark env fn r3 .comma q' r4)
    (h : PR env fn lit r4 kvs r') : PR env fn lit r ((k, v) :: kvs) r' := by
  intro hs
  obtain ⟨vk, x1, x2⟩ := hk hs
  have s1 := x2.adv.suf hs
  obtain ⟨t, ht, _⟩ := hq.tk he s1
  have a2 := ht.sadv he s1
  obtain ⟨vv, y1, y2⟩ := hv.qr (a2.suf s1)
  obtain ⟨t', ht', _⟩ := hq'.tk he y2.suf'
  have a4 := ht'.sadv he y2.suf'
  obtain ⟨a5, vs, z1, z2⟩ := h (a4.suf y2.suf')
  exact ⟨(((x2.adv.trans a2).trans y2.adv).trans a4).trans a5, (vk, vv) :: vs, by simp [Export.pairs, x1, y1, z1],
    .cons x2 ht y2 ht' z2⟩

theorem NR.nil {r} (h1 : (headSym r).is isnamec = false) (h2 : headSym r ≠ .ch '{') : NR env fn r [] r :=
  fun _ => ⟨Adv.refl _, fun h => absurd rfl h, [], rfl, .nil h1 h2, by simp⟩

theorem NR.text {r v r1 ps r'} (h1 : Reads r v r1) (h2 : Many1 isnamec v) (h3 : (headSym r1).is isnamec = false)
    (h : NR env fn r1 ps r') : NR env fn r (.curlyNameLit (pubPos fn (posOf env r)) v :: ps) r' := by
  intro hs
  obtain ⟨a1, _, vs, x1, x2, x3⟩ := h (h1.adv.suf hs)
  have a := h1.sadv h2.1
  have e := spanS_of_reads h1 h2.2 h3
  refine ⟨a.adv.trans a1, fun _ => a.trans_adv a1, .atom (posOf env r) .curlynamepart v :: vs,
    by simp [Export.exprs, Export.expr, Export.atom, x1]; rfl, ?_, by rw [List.forall_mem_cons]; exact ⟨rfl, x3⟩⟩
  have := Parts.name (env := env) (Q := QR env) (r := r) (ps := vs) (r' := r') (headSym_many1 h2 h1)
    (by rw [e]; exact x2)
  rwa [e] at this

theorem reads_one {r r' : List Cell} {c : Char} (h : Reads r [c] r') : headSym r = .ch c ∧ r.tail = r' := by
  obtain ⟨_, _, rfl, h'⟩ := h.cons_inv
  exact ⟨rfl, h'.nil_inv⟩

theorem NR.expr {r r1 e r2 r3 r4 ps r'} (h1 : Reads r ['{'] r1) (hx : GR env fn 1 r1 e r2) (h2 : Blanks r2 r3)
    (h3 : Reads r3 ['}'] r4) (h : NR env fn r4 ps r') :
    NR env fn r (.curlyNameExpr (pubPos fn (posOf env r1)) e :: ps) r' := by
  intro hs
  have s1 := h1.adv.suf hs
  obtain ⟨v, x1, x2⟩ := hx.qr s1
  obtain ⟨k1, rfl⟩ := reads_one h1
  obtain ⟨k2, rfl⟩ := reads_one h3
  have e2 : (spanS iswhite r2).2 = r3 := Blanks.skip h2 (by rw [k2]; rfl)
  obtain ⟨w, w1, w2⟩ := h2
  have s4 := h3.adv.suf (w1.adv.suf x2.suf')
  obtain ⟨a1, _, vs, y1, y2, y3⟩ := h s4
  have a := (((h1.adv.trans_sadv x2.adv).trans_adv w1.adv).trans_adv h3.adv).trans_adv a1
  exact ⟨a.adv, fun _ => a, .curlyexpr (posOf env r.tail) v :: vs, by simp [Export.exprs, Export.expr, x1, y1]; rfl,
    .expr k1 x2 (by rw [e2]; exact k2) (by rw [e2]; exact y2), by rw [List.forall_mem_cons]; exact ⟨rfl, y3⟩⟩

/-! ### Level 9 -/

theorem GR.nine {r e r'} (h : Suf env r → SAdv r r' ∧ (∃ t r1, tokGet env r = .ok t r1 ∧ FirstTok 9 t.ty) ∧
    ∃ v, Export.expr fn v = some e ∧ ∀ n, r.length ≤ n → run(expr9 (parseExpr1F n), r) = .ok v r') :
    GR env fn 9 r e r' := h

theorem GR.lit (he : EnvOK env) {r t r' k} (ht : Lex env r t r') (hk : IsLit t.ty k) :
    GR env fn 9 r (.basicLit (pubPos fn t.pos) k t.value) r' := by
  refine .nine fun hs => ?_
  have ht := (tokGet_iff he hs _ _).2 ht
  have a : SAdv r r' := (tokGet_at he hs ht).sadv (by rintro h; rw [h] at hk; cases hk) (by rintro h; rw [h] at hk; cases hk)
  obtain ⟨b, h1, h2⟩ := isLit_atom hk (pubPos fn t.pos) t.value
  exact ⟨a, ⟨t, r', ht, isLit_first hk⟩, .atom t.pos b t.value,
    by rw [← h2]; rfl, fun n _ => expr9_atom ht h1⟩

theorem GR.dstring (he : EnvOK env) {r r1 s r'} (h : Blanks r r1) (hb : DBody s) (h2 : Reads r1 (['"'] ++ s ++ ['"']) r') :
    GR env fn 9 r (.basicLit (pubPos fn (posOf env r1)) .STRING (['"'] ++ s ++ ['"'])) r' := by
  refine .nine fun hs => ?_
  obtain ⟨w, h1, hw⟩ := h
  obtain ⟨r2, h4, h5⟩ := Spec.Reads.split (show Reads r1 (['"'] ++ (s ++ ['"'])) r' by simpa using h2)
  have ht := tok_of he hs h1 hw h4 (.dquote r2)
  refine ⟨h1.adv.trans_sadv (h2.sadv (by simp)), ⟨_, _, ht, by simp, by simp, by simp, by simp, fun _ => rfl⟩,
    .atom (posOf env r1) .string _, expr_atom _ _ _, fun n _ => ?_⟩
  unfold expr9
  rw [run_ok (tell_run r), run_ok (tk_run ht)]
  simp only
  rw [run_ok (seekSet_run _ _), run_ok (getDstring_run h1 hw h2 hb)]
  rfl

theorem GR.sstring (he : EnvOK env) {r r1 s r'} (h : Blanks r r1) (hb : SBody s)
    (h2 : Reads r1 (['\''] ++ s ++ ['\'']) r') (hr : headSym r' ≠ .ch '\'') :
    GR env fn 9 r (.basicLit (pubPos fn (posOf env r1)) .STRING (['\''] ++ s ++ ['\''])) r' := by
  refine .nine fun hs => ?_
  obtain ⟨w, h1, hw⟩ := h
  obtain ⟨r2, h4, h5⟩ := Spec.Reads.split (show Reads r1 (['\''] ++ (s ++ ['\''])) r' by simpa using h2)
  have ht := tok_of he hs h1 hw h4 (.squote r2)
  refine ⟨h1.adv.trans_sadv (h2.sadv (by simp)), ⟨_, _, ht, by simp, by simp, by simp, by simp, fun _ => rfl⟩,
    .atom (posOf env r1) .string _, expr_atom _ _ _, fun n _ => ?_⟩
  unfold expr9
  rw [run_ok (tell_run r), run_ok (tk_run ht)]
  simp only
  rw [run_ok (seekSet_run _ _), run_ok (getSstring_run h1 hw h2 hb hr)]
  rfl

theorem GR.open9 (he : EnvOK env) {r q r1 ty r' e} (hq : Mark env fn r ty q r1) (hf : FirstTok 9 ty)
    (h1 : ty ≠ .eof) (h2 : ty ≠ .eol)
    (h : ∀ t, Tk env r ty t r1 → q = pubPos fn t.pos → Suf env r → Suf env r1 → Adv r1 r' ∧
      ∃ v, Export.expr fn v = some e ∧ ∀ n, r1.length < n → r.length ≤ n → run(expr9 (parseExpr1F n), r) = .ok v r') :
    GR env fn 9 r e r' := by
  refine .nine fun hs => ?_
  obtain ⟨t, ht, hqt⟩ := hq.tk he hs
  have a := ht.sadv he hs h1 h2
  obtain ⟨a2, v, x1, x2⟩ := h t ht hqt hs (a.suf hs)
  exact ⟨a.trans_adv a2, ⟨t, r1, ht.1, ht.2 ▸ hf⟩, v, x1, fun n hn => x2 n (by have := a.lt; omega) hn⟩

theorem firstTok {ty : TT} (h1 : ty ≠ .colon := by decide) (h2 : ty ≠ .pclose := by decide) (h3 : ty ≠ .sqclose := by decide)
    (h4 : ty ≠ .cclose := by decide) (h5 : opsUnary ty = none := by rfl) : FirstTok 9 ty := ⟨h1, h2, h3, h4, fun _ => h5⟩

theorem GR.list (he : EnvOK env) {r q r1 vs r'} (hq : Mark env fn r .sqopen q r1) (h : AR env fn .sqclose r1 vs r') :
    GR env fn 9 r (.list q vs) r' := by
  refine .open9 he hq firstTok (by decide) (by decide) fun t ht hqt hs s1 => ?_
  subst hqt
  obtain ⟨a, es, x1, _, x3⟩ := h (by decide) (by decide) s1
  refine ⟨a.adv, .list t.pos es, by simp [Export.expr, x1]; rfl, fun n hn _ => ?_⟩
  unfold expr9
  rw [run_ok (tell_run r), run_ok (tk_run ht.1), ht.2]
  exact parseListItems_run he x3 hn

theorem GR.paren (he : EnvOK env) {r q r1 e r2 q' r'} (hq : Mark env fn r .popen q r1) (h : GR env fn 1 r1 e r2)
    (hq' : Mark env fn r2 .pclose q' r') : GR env fn 9 r (.paren q e) r' := by
  refine .open9 he hq firstTok (by decide) (by decide) fun t ht hqt hs s1 => ?_
  subst hqt
  obtain ⟨v, x1, x2⟩ := h.qr s1
  obtain ⟨t', ht', _⟩ := hq'.tk he x2.suf'
  refine ⟨(x2.adv.trans (ht'.sadv he x2.suf')).adv, .paren t.pos v, by simp [Export.expr, x1]; rfl, fun n hn _ => ?_⟩
  unfold expr9
  rw [run_ok (tell_run r), run_ok (tk_run ht.1), ht.2]
  simp only
  rw [run_ok (x2.run n hn), run_ok (tk_run ht'.1), if_neg (by simp [ht'.2])]
  rfl

/-- Both kinds of brace lead to the same place. -/
theorem expr9_brace {rec : Prog VExpr} {r r1 : List Cell} {t : Token} (h : tokGet env r = .ok t r1)
    (ht : t.ty = .copen ∨ t.ty = .litcopen) : run(expr9 rec, r) = run(parseBrace rec r t, r1) := by
  unfold expr9
  rw [run_ok (tell_run r), run_ok (tk_run h)]
  rcases ht with ht | ht <;> rw [ht]

theorem GR.dict (he : EnvOK env) {r q r1 kvs r'} (hq : Mark env fn r .copen q r1) (hn : NotLambda env r1)
    (h : PR env fn false r1 kvs r') : GR env fn 9 r (.dict q kvs) r' := by
  refine .open9 he hq firstTok (by decide) (by decide) fun t ht hqt hs s1 => ?_
  subst hqt
  obtain ⟨a, es, x1, x3⟩ := h s1
  refine ⟨a.adv, .dict t.pos es, by simp [Export.expr, x1]; rfl, fun n hn' _ => ?_⟩
  rw [expr9_brace ht.1 (Or.inl ht.2)]
  refine parseBrace_dict he s1 hn ?_
  rw [ht.2]
  exact parseDict_run he x3 s1 hn'

theorem GR.litdict (he : EnvOK env) {r q r1 kvs r'} (hq : Mark env fn r .litcopen q r1) (hn : NotLambda env r1)
    (h : PR env fn true r1 kvs r') : GR env fn 9 r (.dict q kvs) r' := by
  refine .open9 he hq firstTok (by decide) (by decide) fun t ht hqt hs s1 => ?_
  subst hqt
  obtain ⟨a, es, x1, x3⟩ := h s1
  refine ⟨a.adv, .dict t.pos es, by simp [Export.expr, x1]; rfl, fun n hn' _ => ?_⟩
  rw [expr9_brace ht.1 (Or.inr ht.2)]
  refine parseBrace_dict he s1 hn ?_
  rw [ht.2]
  exact parseDict_run he x3 s1 hn'

theorem lamParams_ps (he : EnvOK env) {used r ps r'} (h : LamParams env fn used r ps r') : Suf env r →
    SAdv r r' ∧ ∃ vs, Export.idents fn vs = ps ∧ LamPs env used r vs r' := by
  induction h with
  | none hq =>
    intro hs
    obtain ⟨t, ht, _⟩ := hq.tk he hs
    exact ⟨ht.sadv he hs, [], rfl, .done ht⟩
  | dots h1 h2 hq =>
    intro hs
    have ht : Tk env _ _ _ _ := ⟨(tokGet_iff he hs _ _).2 h1, h2⟩
    have a := ht.sadv he hs
    obtain ⟨t, ht', _⟩ := hq.tk he (a.suf hs)
    exact ⟨a.trans (ht'.sadv he (a.suf hs)), [_], rfl, .dots ht ht'⟩
  | last h1 h2 h3 h4 hq =>
    intro hs
    have ht : Tk env _ _ _ _ := ⟨(tokGet_iff he hs _ _).2 h1, h2⟩
    have a := ht.sadv he hs
    obtain ⟨t, ht', _⟩ := hq.tk he (a.suf hs)
    exact ⟨a.trans (ht'.sadv he (a.suf hs)), [_], rfl, .last ht h3 h4 ht'⟩
  | cons h1 h2 h3 h4 h5 hq _ ih =>
    intro hs
    have ht : Tk env _ _ _ _ := ⟨(tokGet_iff he hs _ _).2 h1, h2⟩
    have a := ht.sadv he hs
    obtain ⟨t, ht', _⟩ := hq.tk he (a.suf hs)
    have a2 := a.trans (ht'.sadv he (a.suf hs))
    obtain ⟨a3, vs, x1, x2⟩ := ih (a2.suf hs)
    exact ⟨a2.trans a3, _ :: vs, by rw [← x1]; rfl, .cons ht h3 h4 h5 ht' x2⟩

theorem GR.lambda (he : EnvOK env) {r q r1 ps r2 e r3 q' r'}
    (hq : Mark env fn r .copen q r1 ∨ Mark env fn r .litcopen q r1) (hp : LamParams env fn [] r1 ps r2)
    (h : GR env fn 1 r2 e r3) (hq' : Mark env fn r3 .cclose q' r') : GR env fn 9 r (.lambda q ps e) r' := by
  have key : ∀ t, tokGet env r = .ok t r1 → (t.ty = .copen ∨ t.ty = .litcopen) → q = pubPos fn t.pos → Suf env r →
      Suf env r1 → Adv r1 r' ∧ ∃ v, Export.expr fn v = some (.lambda q ps e) ∧
        ∀ n, r1.length < n → r.length ≤ n → run(expr9 (parseExpr1F n), r) = .ok v r' := by
    intro t ht hty hqt hs s1
    subst hqt
    obtain ⟨a2, vs, x1, x2⟩ := lamParams_ps he hp s1
    obtain ⟨v, y1, y2⟩ := h.qr (a2.suf s1)
    obtain ⟨t', ht', _⟩ := hq'.tk he y2.suf'
    refine ⟨((a2.trans y2.adv).trans (ht'.sadv he y2.suf')).adv, .lambda t.pos vs v,
      by simp [Export.expr, x1, y1]; rfl, fun n hn _ => ?_⟩
    rw [expr9_brace ht hty]
    exact parseBrace_lambda he s1 x2 y2 ht' (by have := a2.lt; omega)
  rcases hq with hq | hq
  · exact .open9 he hq firstTok (by decide) (by decide) fun t ht => key t ht.1 (Or.inl ht.2)
  · exact .open9 he hq firstTok (by decide) (by decide) fun t ht => key t ht.1 (Or.inr ht.2)

theorem namec_white {c : Char} (h : isnamec c = true) : iswhite c = false := white_of (by decide) h

theorem parts_head {r : List Cell} {ps : List VExpr} {r' : List Cell} (h : Parts env (QR env) r ps r') (hne : ps ≠ []) :
    (headSym r).is isnamec = true ∨ headSym r = .ch '{' := by
  cases h with
  | nil => exact absurd rfl hne
  | name h => exact Or.inl h
  | expr h => exact Or.inr h

theorem exprs_ne {vs : List VExpr} {as : List Ast.Expr} (h : Export.exprs fn vs = some as) (hne : as ≠ []) : vs ≠ [] := by
  rintro rfl
  cases h
  exact hne rfl

theorem GR.name (he : EnvOK env) {r r1 ps r'} (hb : Blanks r r1) (hst : NameStart env fn r) (hp : NR env fn r1 ps r')
    (hne : ps ≠ []) : GR env fn 9 r (nameNode (pubPos fn (posOf env r1)) ps) r' := by
  refine .nine fun hs => ?_
  have s1 : Suf env r1 := by obtain ⟨w, h, _⟩ := hb; exact h.adv.suf hs
  obtain ⟨_, a, vs, x1, x2, x3⟩ := hp s1
  have hh := parts_head x2 (exprs_ne x1 hne)
  have hnw : (headSym r1).is iswhite = false := by
    rcases hh with h | h
    · obtain ⟨c, hc, hf⟩ := Sym.is_ch h
      rw [hc]; exact namec_white hf
    · rw [h]; rfl
  have hlt : headSym r1 ≠ .ch '<' := by
    rcases hh with h | h
    · intro hc; rw [hc] at h; exact absurd h (by decide)
    · rw [h]; simp
  have hid : ∀ n, r.length ≤ n → run(parseIdentifier (parseExpr1F n), r) = .ok (identNode (posOf env r1) vs) r' :=
    fun n hn => parseIdentifier_parts hb hnw (.plain (fun h => hlt h.1) x2) hn
  have ha : SAdv r r' := by obtain ⟨w, h, _⟩ := hb; exact h.adv.trans_sadv (a hne)
  obtain ⟨t, q, ht, hc⟩ := hst
  have ht := (tokGet_iff he hs _ _).2 ht
  have sq : Suf env q := (tokGet_at he hs ht).suf hs
  refine ⟨ha, ⟨t, q, ht, ?_⟩, identNode (posOf env r1) vs, ident_export x1 x3, fun n hn => ?_⟩
  · rcases hc with h | ⟨k, m, h, _, _⟩ | ⟨h, _⟩ | ⟨h, _⟩ <;> rw [h] <;>
      exact ⟨by simp, by simp, by simp, by simp, fun _ => rfl⟩
  · rcases hc with h | ⟨k, m, h, h1, h2⟩ | ⟨h, h1⟩ | ⟨h, h1, k, r2, q3, r3, h2, h3⟩
    · unfold expr9
      rw [run_ok (tell_run r), run_ok (tk_run ht), h]
      exact (run_ok (seekSet_run _ _)).trans (hid n hn)
    · unfold expr9
      rw [run_ok (tell_run r), run_ok (tk_run ht), h]
      rcases h1 with rfl | rfl <;> cases m <;>
        first | exact absurd rfl h2 | exact (run_ok (seekSet_run _ _)).trans (hid n hn)
    · rw [expr9_brace ht (Or.inl h)]
      have al : SAdv r q := Tk.sadv he hs ⟨ht, h⟩
      refine parseBrace_dict he sq h1 ?_
      rw [h]
      obtain ⟨w, hw1, hw2⟩ := hb
      have hr := brace_rest he hs hw1 hw2 hnw ⟨ht, h⟩ (v := ['{']) (fun w h => h) (by decide) (by decide)
      obtain ⟨hd, htl⟩ := reads_one hr
      cases x2 with
      | nil => exact absurd rfl (exprs_ne x1 hne)
      | name g => rw [hd] at g; exact absurd g (by decide)
      | @expr _ e r2 ps _ g gq gc _ =>
        rw [htl] at gq
        have htc := tok_of he gq.suf' (spanS_reads iswhite r2) (spanS_all iswhite r2) (headSym_reads gc) (.cclose _)
        exact parseDict_name (lit := false) he sq (by have := al.lt; omega) gq ⟨htc, rfl⟩ (hid n hn)
    · rw [expr9_brace ht (Or.inr h)]
      have al : SAdv r q := Tk.sadv he hs ⟨ht, h⟩
      refine parseBrace_dict he sq h1 ?_
      rw [h]
      obtain ⟨v, _, hk⟩ := litWord_key he sq h2
      obtain ⟨t3, ht3, _⟩ := h3.tk he ((LitKey.adv hk).suf sq)
      exact parseDict_name (lit := true) he sq (by have := al.lt; omega) hk ht3 (hid n hn)

theorem sid_tok (he : EnvOK env) {r r1 r' : List Cell} (hs : Suf env r) {w v : Str} (h1 : Reads r w r1)
    (hw : ∀ c ∈ w, iswhite c = true) (h2 : Reads r1 v r') (h : equalci v cs!"<SID>" = true) :
    ∃ t r2, tokGet env r = .ok t r2 ∧ t.ty = .cmp .smaller .plain ∧ equalci (getnS 4 r2).1 cs!"SID>" = true := by
  obtain ⟨s, rfl, h4, hl⟩ := sid_cons h
  obtain ⟨r2, h3, h5⟩ := Spec.Reads.split (show Reads r1 (['<'] ++ s) r' from h2)
  have h6 : getnS 4 r2 = (s, r') := by
    have := getnS_of_reads h5
    rwa [hl] at this
  have hlow : ∀ x, headSym r2 = .ch x → lowerC x = 's' := by
    match s, h4, h5 with
    | y :: s, h4, h5 =>
      intro x hx
      rw [headSym_of_reads h5] at hx
      cases hx
      have h7 : (y :: s).map lowerC = (cs!"SID>").map lowerC := by simpa [equalci] using h4
      exact (List.cons.inj h7).1.trans (by decide)
  have hne : ∀ x, lowerC x ≠ 's' → headSym r2 ≠ .ch x := fun x hx h => hx (hlow x h)
  have ht := tok_of he hs h1 hw h3 (.cmp .smaller r2 (hne _ (by decide)) (hne _ (by decide))
    (fun _ => hne _ (by decide)) (by simp))
  exact ⟨_, _, ht, rfl, by rw [h6]; exact h4⟩

theorem GR.sid (he : EnvOK env) {r r1 v r2 ps r'} (hb : Blanks r r1) (h1 : Reads r1 v r2)
    (hv : equalci v ['<', 'S', 'I', 'D', '>'] = true) (hp : NR env fn r2 ps r') :
    GR env fn 9 r (nameNode (pubPos fn (posOf env r1)) (.curlyNameLit (pubPos fn (posOf env r1)) v :: ps)) r' := by
  refine .nine fun hs => ?_
  obtain ⟨w, w1, w2⟩ := hb
  have s1 := w1.adv.suf hs
  obtain ⟨a, _, vs, x1, x2, x3⟩ := hp (h1.adv.suf s1)
  obtain ⟨s, rfl, h4, hl⟩ := sid_cons hv
  have hg : getnS 5 r1 = ('<' :: s, r2) := by
    have := getnS_of_reads h1
    rwa [show ('<' :: s).length = 5 by simp [hl]] at this
  have hd : headSym r1 = .ch '<' := headSym_of_reads h1
  obtain ⟨t, q, ht, hty, hsid⟩ := sid_tok he hs w1 w2 h1 hv
  have hparts := IdParts.sid (env := env) (Q := QR env) (r := r1) (ps := vs) (r' := r') hd (by rw [hg]; exact hv)
    (by rw [hg]; exact x2)
  rw [hg] at hparts
  refine ⟨w1.adv.trans_sadv ((h1.sadv (by simp)).trans_adv a), ⟨t, q, ht, by rw [hty]; exact firstTok⟩,
    identNode (posOf env r1) (.atom (posOf env r1) .curlynamepart ('<' :: s) :: vs),
    ident_export (by simp [Export.exprs, Export.expr, Export.atom, x1]; rfl)
      (by rw [List.forall_mem_cons]; exact ⟨rfl, x3⟩), fun n hn => ?_⟩
  have hid := parseIdentifier_parts (n := n) ⟨w, w1, w2⟩ (by rw [hd]; rfl) hparts hn
  unfold expr9
  rw [run_ok (tell_run r), run_ok (tk_run ht), hty]
  simp only
  rw [run_ok (run_peekn 4 q), if_pos hsid, run_ok (seekSet_run _ _)]
  exact hid

mutual

/-- The parser reads what the grammar derives. -/
theorem gram_run (he : EnvOK env) : ∀ {k r e r'}, Gram env fn k r e r' → GR env fn k r e r'
  | _, _, _, _, .ternary hc q ha q' hb => .ternary he (gram_run he hc) q (gram_run he ha) q' (gram_run he hb)
  | _, _, _, _, .noTernary h n => .noTernary he (gram_run he h) n
  | _, _, _, _, .chain hk h8 h n => .chain he hk h8 (chain_run he h) n
  | _, _, _, _, .compare hl t o hx => .compare he (gram_run he hl) t o (gram_run he hx)
  | _, _, _, _, .noCompare h n => .noCompare he (gram_run he h) n
  | _, _, _, _, .unary t o h => .unary he t o (gram_run he h)
  | _, _, _, _, .noUnary h => .noUnary (gram_run he h)
  | _, _, _, _, .postfix h n => .postfix he (chain_run he h) n
  | _, _, _, _, .lit t k => .lit he t k
  | _, _, _, _, .dstring b d r => .dstring he b d r
  | _, _, _, _, .sstring b d r n => .sstring he b d r n
  | _, _, _, _, .list q h => .list he q (args_run he h)
  | _, _, _, _, .paren q h q' => .paren he q (gram_run he h) q'
  | _, _, _, _, .dict q n h => .dict he q n (pairs_run he h)
  | _, _, _, _, .litdict q n h => .litdict he q n (pairs_run he h)
  | _, _, _, _, .lambda q p h q' => .lambda he q p (gram_run he h) q'
  | _, _, _, _, .name b s h n => .name he b s (parts_run he h) n
  | _, _, _, _, .sid b r v h => .sid he b r v (parts_run he h)

theorem chain_run (he : EnvOK env) : ∀ {k r e r'}, Chain env fn k r e r' → CR env fn k r e r'
  | _, _, _, _, .one hk h => .one hk (gram_run he h)
  | _, _, _, _, .op hk hl t o hx => .op he hk (chain_run he hl) t o (gram_run he hx)
  | _, _, _, _, .subscript hl w q hx q' => .subscript he (chain_run he hl) w q (gram_run he hx) q'
  | _, _, _, _, .slice hl w q lo q' hi q'' => .slice he (chain_run he hl) w q (opt_run he lo) q' (opt_run he hi) q''
  | _, _, _, _, .method hl q f q' as n => .method he (chain_run he hl) q (gram_run he f) q' (args_run he as) n
  | _, _, _, _, .call hl q as n => .call he (chain_run he hl) q (args_run he as) n
  | _, _, _, _, .dot hl w d q m => .dot he (chain_run he hl) w d q m

theorem opt_run (he : EnvOK env) : ∀ {r o r'}, Opt env fn r o r' → OR env fn r o r'
  | _, _, _, .none => .none
  | _, _, _, .some h => .some (gram_run he h)

theorem args_run (he : EnvOK env) : ∀ {c r es r'}, Args env fn c r es r' → AR env fn c r es r'
  | _, _, _, _, .nil q => .nil he q
  | _, _, _, _, .last h q => .last he (gram_run he h) q
  | _, _, _, _, .cons h q a => .cons he (gram_run he h) q (args_run he a)

theorem key_run (he : EnvOK env) : ∀ {lit r e r'}, Key env fn lit r e r' → KR env fn lit r e r'
  | _, _, _, _, .expr h => .expr (gram_run he h)
  | _, _, _, _, .lit h => .lit he h

theorem pairs_run (he : EnvOK env) : ∀ {lit r kvs r'}, Pairs env fn lit r kvs r' → PR env fn lit r kvs r'
  | _, _, _, _, .nil q => .nil he q
  | _, _, _, _, .last k q v q' => .last he (key_run he k) q (gram_run he v) q'
  | _, _, _, _, .cons k q v q' h => .cons he (key_run he k) q (gram_run he v) q' (pairs_run he h)

theorem parts_run (he : EnvOK env) : ∀ {r ps r'}, NameParts env fn r ps r' → NR env fn r ps r'
  | _, _, _, .nil h1 h2 => .nil h1 h2
  | _, _, _, .text a b c h => .text a b c (parts_run he h)
  | _, _, _, .expr a h b c h' => .expr a (gram_run he h) b c (parts_run he h')

end

end
end Viml
