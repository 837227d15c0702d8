/-
Completeness of the expression parser for the grammar of `Spec/Grammar.lean`: it reads every expression of the
grammar and returns its tree.
-/
import Verif.Lemmas.PrintRun
import Verif.Lemmas.GramSound

namespace Viml
open Prog Spec

section
variable {env : Env} {fn : Str}

local notation "run(" m "," r ")" => Prog.runWith tokGet env m r

theorem tk_run {r r' : List Cell} {t : Token} (h : tokGet env r = .ok t r') : run(tokget, r) = .ok t r' := by
  rw [tokget_run, h]

/-- What the first token of an expression of level `k` is not. -/
def FirstTok (k : Nat) (ty : TT) : Prop :=
  ty ≠ .colon ∧ ty ≠ .pclose ∧ ty ≠ .sqclose ∧ ty ≠ .cclose ∧ (8 ≤ k → opsUnary ty = none)

/-- `parse_expr1` reads `v` with every sufficient step bound. -/
structure QR (env : Env) (r : List Cell) (v : VExpr) (r' : List Cell) : Prop where
  suf : Suf env r
  adv : SAdv r r'
  first : ∃ t r1, tokGet env r = .ok t r1 ∧ FirstTok 1 t.ty
  run : ∀ n, r.length < n → (parseExpr1F n).runWith tokGet env r = .ok v r'

theorem QR.suf' {r r' : List Cell} {v : VExpr} (h : QR env r v r') : Suf env r' := h.adv.suf h.suf

/-! ### Lists -/

def listBody (rec : Prog VExpr) (q : Pos) (vs : List VExpr) : Prog (List VExpr ⊕ VExpr) := do
  let e ← rec
  let vs := vs ++ [e]
  let t ← tokpeek
  if t.ty = .comma then
    let _ ← tokget
    let t2 ← tokpeek
    if t2.ty = .sqclose then
      let _ ← tokget
      pure (.inr (.list q vs))
    else pure (.inl vs)
  else if t.ty = .sqclose then
    let _ ← tokget
    pure (.inr (.list q vs))
  else unexpected t

theorem listLoop_run (he : EnvOK env) {n : Nat} {q : Pos} {r : List Cell} {vs : List VExpr} {r' : List Cell}
    (h : Items env (QR env) .sqclose r vs r') : vs ≠ [] → ∀ (acc : List VExpr) (m : Nat), r.length < m → r.length < n →
      run(loopN (listBody (parseExpr1F n) q) m acc, r) = .ok (.list q (acc ++ vs)) r' := by
  induction h with
  | nil => intro h; exact absurd rfl h
  | last hq ht =>
    intro _ acc m hm hn
    obtain ⟨m, rfl⟩ : ∃ k, m = k + 1 := ⟨m - 1, by omega⟩
    refine loopN_inr ?_
    unfold listBody
    rw [run_ok (hq.run _ hn), run_ok (tokpeek_run ht.1), if_neg (by rw [ht.2]; decide), if_pos ht.2,
      run_ok (tk_run ht.1)]
    rfl
  | @cons r e r1 t r2 es r' hq ht h ih =>
    intro _ acc m hm hn
    obtain ⟨m, rfl⟩ : ∃ k, m = k + 1 := ⟨m - 1, by omega⟩
    have a1 := hq.adv
    have a2 := a1.trans (ht.sadv he hq.suf')
    by_cases hes : es = []
    · subst hes
      refine loopN_inr ?_
      cases h with
      | nil ht2 =>
        unfold listBody
        rw [run_ok (hq.run _ hn), run_ok (tokpeek_run ht.1), if_pos ht.2, run_ok (tk_run ht.1),
          run_ok (tokpeek_run ht2.1), if_pos ht2.2, run_ok (tk_run ht2.1)]
        rfl
    · have hf : ∃ t r1, tokGet env r2 = .ok t r1 ∧ FirstTok 1 t.ty := by
        cases h with
        | nil => exact absurd rfl hes
        | last hq => exact hq.first
        | cons hq => exact hq.first
      obtain ⟨t2, q2, ht2, hf2⟩ := hf
      have hb : run(listBody (parseExpr1F n) q acc, r) = .ok (.inl (acc ++ [e])) r2 := by
        unfold listBody
        rw [run_ok (hq.run _ hn), run_ok (tokpeek_run ht.1), if_pos ht.2, run_ok (tk_run ht.1),
          run_ok (tokpeek_run ht2), if_neg hf2.2.2.1]
        rfl
      rw [loopN_inl hb, ih hes (acc ++ [e]) m (by have := a2.lt; omega) (by have := a2.lt; omega)]
      simp

theorem parseListItems_run (he : EnvOK env) {n : Nat} {q : Pos} {r : List Cell} {vs : List VExpr} {r' : List Cell}
    (h : Items env (QR env) .sqclose r vs r') (hn : r.length < n) :
    run(parseListItems (parseExpr1F n) q, r) = .ok (.list q vs) r' := by
  by_cases hvs : vs = []
  · subst hvs
    cases h with
    | nil ht =>
      unfold parseListItems
      rw [run_ok (tokpeek_run ht.1), if_pos ht.2, run_ok (tk_run ht.1)]
      rfl
  · have hf : ∃ t r1, tokGet env r = .ok t r1 ∧ FirstTok 1 t.ty := by
      cases h with
      | nil => exact absurd rfl hvs
      | last hq => exact hq.first
      | cons hq => exact hq.first
    obtain ⟨t2, q2, ht2, hf2⟩ := hf
    unfold parseListItems
    rw [run_ok (tokpeek_run ht2), if_neg hf2.2.2.1]
    exact listLoop_run he h hvs [] _ (by omega) hn

/-! ### Arguments -/

def argBody (rec : Prog VExpr) (rl : List VExpr) : Prog (List VExpr ⊕ (List VExpr × Token)) := do
  let e ← rec
  let rl := rl ++ [e]
  let t ← tokget
  if t.ty = .comma then
    let t2 ← tokpeek
    if t2.ty = .pclose then
      let _ ← tokget
      pure (.inr (rl, t))
    else pure (.inl rl)
  else if t.ty = .pclose then pure (.inr (rl, t))
  else unexpected t

theorem argLoop_run (he : EnvOK env) {n : Nat} {r : List Cell} {vs : List VExpr} {r' : List Cell}
    (h : Items env (QR env) .pclose r vs r') : vs ≠ [] → ∀ (acc : List VExpr) (m : Nat), r.length < m → r.length < n →
      ∃ t, run(loopN (argBody (parseExpr1F n)) m acc, r) = .ok (acc ++ vs, t) r' := by
  induction h with
  | nil => intro h; exact absurd rfl h
  | @last r e r1 t r' hq ht =>
    intro _ acc m hm hn
    obtain ⟨m, rfl⟩ : ∃ k, m = k + 1 := ⟨m - 1, by omega⟩
    refine ⟨t, loopN_inr ?_⟩
    unfold argBody
    rw [run_ok (hq.run _ hn), run_ok (tk_run ht.1), if_neg (by rw [ht.2]; decide), if_pos ht.2]
    rfl
  | @cons r e r1 t r2 es r' hq ht h ih =>
    intro _ acc m hm hn
    obtain ⟨m, rfl⟩ : ∃ k, m = k + 1 := ⟨m - 1, by omega⟩
    have a2 := hq.adv.trans (ht.sadv he hq.suf')
    by_cases hes : es = []
    · subst hes
      refine ⟨t, loopN_inr ?_⟩
      cases h with
      | nil ht2 =>
        unfold argBody
        rw [run_ok (hq.run _ hn), run_ok (tk_run ht.1), if_pos ht.2,
          run_ok (tokpeek_run ht2.1), if_pos ht2.2, run_ok (tk_run ht2.1)]
        rfl
    · have hf : ∃ t r1, tokGet env r2 = .ok t r1 ∧ FirstTok 1 t.ty := by
        cases h with
        | nil => exact absurd rfl hes
        | last hq => exact hq.first
        | cons hq => exact hq.first
      obtain ⟨t2, q2, ht2, hf2⟩ := hf
      have hb : run(argBody (parseExpr1F n) acc, r) = .ok (.inl (acc ++ [e])) r2 := by
        unfold argBody
        rw [run_ok (hq.run _ hn), run_ok (tk_run ht.1), if_pos ht.2,
          run_ok (tokpeek_run ht2), if_neg hf2.2.1]
        rfl
      obtain ⟨t', h'⟩ := ih hes (acc ++ [e]) m (by have := a2.lt; omega) (by have := a2.lt; omega)
      exact ⟨t', by rw [loopN_inl hb, h']; simp⟩

theorem parseRlist_run (he : EnvOK env) {n : Nat} {r : List Cell} {vs : List VExpr} {r' : List Cell}
    (h : Items env (QR env) .pclose r vs r') (hn : r.length < n) (hlen : vs.length ≤ 20) :
    run(parseRlist (parseExpr1F n), r) = .ok vs r' := by
  by_cases hvs : vs = []
  · subst hvs
    cases h with
    | nil ht =>
      unfold parseRlist
      rw [run_ok (tokpeek_run ht.1), run_ok (tokpeek_run ht.1), if_pos ht.2, run_ok (tk_run ht.1)]
      rfl
  · have hf : ∃ t r1, tokGet env r = .ok t r1 ∧ FirstTok 1 t.ty := by
      cases h with
      | nil => exact absurd rfl hvs
      | last hq => exact hq.first
      | cons hq => exact hq.first
    obtain ⟨t2, q2, ht2, hf2⟩ := hf
    obtain ⟨t', h'⟩ := argLoop_run he h hvs [] (r.length + 1) (by omega) hn
    unfold parseRlist
    rw [run_ok (tokpeek_run ht2), run_ok (tokpeek_run ht2), if_neg hf2.2.1]
    refine (run_ok (m := loop (argBody (parseExpr1F n)) []) h').trans ?_
    simp only [List.nil_append]
    rw [if_neg (by omega)]
    rfl

/-! ### Postfix operators -/

theorem expectSqclose_run {r r' : List Cell} {t : Token} (h : Tk env r .sqclose t r') :
    run(expectSqclose, r) = .ok () r' := by
  unfold expectSqclose
  rw [run_ok (tk_run h.1), if_neg (by simp [h.2])]
  rfl

theorem sliceEnd_run {n : Nat} {q : Pos} {left : VExpr} {lo hi : Option VExpr} {r r1 r' : List Cell} {t : Token}
    (hn : r.length < n) (hhi : hi = none ∧ r1 = r ∨ ∃ x, hi = some x ∧ QR env r x r1)
    (ht : Tk env r1 .sqclose t r') :
    run(sliceEnd (parseExpr1F n) q left lo, r) = .ok (.slice q left lo hi) r' := by
  unfold sliceEnd
  rcases hhi with ⟨rfl, rfl⟩ | ⟨x, rfl, hx⟩
  · rw [run_ok (tokpeek_run ht.1), if_neg (by simp [ht.2])]
    rw [run_ok (run_pure _ _), run_ok (expectSqclose_run ht)]
    rfl
  · obtain ⟨t2, q2, ht2, hf2⟩ := hx.first
    rw [run_ok (tokpeek_run ht2), if_pos hf2.2.2.1, run_ok (hx.run _ hn), run_ok (run_pure _ _),
      run_ok (expectSqclose_run ht)]
    rfl

theorem parseSlice_run (he : EnvOK env) {n : Nat} {q : Pos} {left : VExpr} {lo hi : Option VExpr}
    {r r1 r2 r3 r' : List Cell} {t t' : Token} (hs : Suf env r) (hn : r.length < n)
    (hlo : lo = none ∧ r1 = r ∨ ∃ x, lo = some x ∧ QR env r x r1) (ht : Tk env r1 .colon t r2)
    (hhi : hi = none ∧ r3 = r2 ∨ ∃ x, hi = some x ∧ QR env r2 x r3) (ht' : Tk env r3 .sqclose t' r') :
    run(parseSubscript (parseExpr1F n) q left, r) = .ok (.slice q left lo hi) r' := by
  unfold parseSubscript
  rcases hlo with ⟨rfl, rfl⟩ | ⟨x, rfl, hx⟩
  · rw [run_ok (tokpeek_run ht.1), if_pos ht.2, run_ok (tk_run ht.1)]
    exact sliceEnd_run (by have := (ht.sadv he hs).lt; omega) hhi ht'
  · obtain ⟨t2, q2, ht2, hf2⟩ := hx.first
    rw [run_ok (tokpeek_run ht2), if_neg hf2.1, run_ok (hx.run _ hn), run_ok (tokpeek_run ht.1), if_pos ht.2,
      run_ok (tk_run ht.1)]
    exact sliceEnd_run (by have := hx.adv.lt; have := (ht.sadv he hx.suf').lt; omega) hhi ht'

theorem body8_method {rec : Prog VExpr} {left f : VExpr} {as : List VExpr} {t t' : Token} {r r1 r2 r3 r4 : List Cell}
    (ht : Tk env r .arrow t r1) (hf : run(expr9 rec, r1) = .ok f r2) (ht' : Tk env r2 .popen t' r3)
    (hl : run(parseRlist rec, r3) = .ok as r4) :
    run(body8 rec left, r) = .ok (.inl (.method t'.pos left (.call t'.pos f as))) r4 := by
  unfold body8
  rw [run_ok (tell_run r), run_ok (peek_run' r), run_ok (tk_run ht.1), if_neg (by simp [ht.2]), if_pos ht.2,
    run_ok hf, run_ok (tk_run ht'.1), if_neg (by simp [ht'.2]), run_ok hl]
  rfl

theorem body8_call {rec : Prog VExpr} {left : VExpr} {as : List VExpr} {t : Token} {r r1 r2 : List Cell}
    (ht : Tk env r .popen t r1) (hl : run(parseRlist rec, r1) = .ok as r2) :
    run(body8 rec left, r) = .ok (.inl (.call t.pos left as)) r2 := by
  unfold body8
  rw [run_ok (tell_run r), run_ok (peek_run' r), run_ok (tk_run ht.1), if_neg (by simp [ht.2]),
    if_neg (by rw [ht.2]; decide), if_pos ht.2, run_ok hl]
  rfl

theorem readWord_run (r : List Cell) : run(readWord, r) = .ok (spanS iswordc r).1 (spanS iswordc r).2 := by
  unfold readWord
  rw [run_readWhile]

theorem parseDot_some {left : VExpr} {t : Token} {r r' : List Cell} {v : Str} (hd : dotLeft left = true)
    (h : Member r v r') : run(parseDot t left, r) = .ok (some (.dot t.pos left (posOf env r) v)) r' := by
  obtain ⟨h1, h2⟩ := Member.span h
  unfold parseDot
  rw [if_neg (by simp [hd]), run_ok (p0_run r), if_neg (by simp [h2]), run_ok (getpos_run r),
    run_ok (readWord_run r), h1, run_ok (p0_run r'), if_neg (by simp [h.2.2])]
  rfl

theorem parseDot_none {left : VExpr} {t : Token} {r : List Cell}
    (h : dotLeft left = true → ¬ ∃ v r', Member r v r') : ∃ r', run(parseDot t left, r) = .ok none r' := by
  unfold parseDot
  by_cases hd : dotLeft left = true
  · rw [if_neg (by simp [hd]), run_ok (p0_run r)]
    by_cases hw : (headSym r).is iswordc = true
    · rw [if_neg (by simp [hw]), run_ok (getpos_run r), run_ok (readWord_run r), run_ok (p0_run _), if_pos]
      · exact ⟨_, rfl⟩
      · cases hn : (headSym (spanS iswordc r).2).is isnamec with
        | true => rfl
        | false => exact absurd ⟨_, _, member_span hw hn⟩ (h hd)
    · rw [if_pos (by simpa using hw)]
      exact ⟨_, rfl⟩
  · rw [if_pos (by simpa using hd)]
    exact ⟨_, rfl⟩

theorem body8_dot {rec : Prog VExpr} {left : VExpr} {t : Token} {r r1 r2 : List Cell} {v : Str}
    (ht : Tk env r .dot t r1) (h : (headSym r).is iswhite = false) (hd : dotLeft left = true) (hm : Member r1 v r2) :
    run(body8 rec left, r) = .ok (.inl (.dot t.pos left (posOf env r1) v)) r2 := by
  unfold body8
  rw [run_ok (tell_run r), run_ok (peek_run' r), run_ok (tk_run ht.1), if_neg (by simp [ht.2]),
    if_neg (by rw [ht.2]; decide), if_neg (by rw [ht.2]; decide), if_pos (by simp [h, ht.2]),
    run_ok (parseDot_some hd hm)]
  rfl

theorem body8_end {rec : Prog VExpr} {left : VExpr} {t : Token} {r r1 : List Cell}
    (ht : tokGet env r = .ok t r1) (h1 : t.ty ≠ .popen) (h2 : t.ty ≠ .arrow)
    (h3 : (headSym r).is iswhite = false → t.ty ≠ .sqopen ∧
      ¬ (t.ty = .dot ∧ dotLeft left = true ∧ ∃ v r', Member r1 v r')) :
    run(body8 rec left, r) = .ok (.inr left) r := by
  by_cases hw : (headSym r).is iswhite = true
  · exact body8_stop ht h2 h1 (Or.inl hw)
  · have hw : (headSym r).is iswhite = false := by simpa using hw
    by_cases hd : t.ty = .dot
    · unfold body8
      obtain ⟨r', hp⟩ := parseDot_none (env := env) (left := left) (t := t) (r := r1)
        fun h hx => (h3 hw).2 ⟨hd, h, hx⟩
      rw [run_ok (tell_run r), run_ok (peek_run' r), run_ok (tk_run ht), if_neg (by simp [hd]),
        if_neg h2, if_neg h1, if_pos (by simp [hw, hd]), run_ok hp, run_ok (seekSet_run _ _)]
      rfl
    · exact body8_stop ht h2 h1 (Or.inr ⟨(h3 hw).1, hd⟩)

/-! ### Lambdas -/

def lamBody (st : Token × List Str × List (Pos × Str)) :
    Prog ((Token × List Str × List (Pos × Str)) ⊕ LambdaEnd) := do
  let (t, named, rl) := st
  if t.ty = .arrow then pure (.inr (.arrow rl))
  else if t.ty = .identifier then
    if !isargname t.value then errAt (cs!"E125: Illegal argument: " ++ t.value) t.pos
    else if named.contains t.value then
      errAt (cs!"E853: Duplicate argument name: " ++ t.value) t.pos
    else
      let named := t.value :: named
      if ← pand (pSat 0 iswhite) (do return (← tokpeek).ty = .comma) then
        errHere cs!"E475: Invalid argument: White space is not allowed before comma"
      else
        let t2 ← tokget
        let rl := rl ++ [(t.pos, t.value)]
        if t2.ty = .comma then
          let t3 ← tokpeek
          if t3.ty = .arrow then
            let _ ← tokget
            pure (.inr (.arrow rl))
          else
            let t4 ← tokget
            pure (.inl (t4, named, rl))
        else if t2.ty = .arrow then pure (.inr (.arrow rl))
        else errAt (cs!"unexpected token: " ++ t2.value ++ cs!", type: " ++ natStr t2.ty.num) t2.pos
  else if t.ty = .dotdotdot then
    let rl := rl ++ [(t.pos, t.value)]
    let t2 ← tokpeek
    if t2.ty = .arrow then
      let _ ← tokget
      pure (.inr (.arrow rl))
    else unexpected t2
  else pure (.inr .fallback)

theorem lambdaParams_eq (t : Token) : lambdaParams t = loop lamBody (t, [], []) := rfl

/-- The check for white space before a comma. -/
theorem whiteComma_run {r r' : List Cell} {t : Token} (h : tokGet env r = .ok t r') :
    run(pand (pSat 0 iswhite) (do return (← tokpeek).ty = .comma), r) =
      .ok ((headSym r).is iswhite && decide (t.ty = .comma)) r := by
  have h1 : run(pSat 0 iswhite, r) = .ok ((headSym r).is iswhite) r := by
    unfold pSat
    rw [run_ok (p0_run r)]
    rfl
  rw [run_pand _ _ _ _ h1]
  cases (headSym r).is iswhite with
  | false => rfl
  | true =>
    rw [if_pos rfl, run_ok (tokpeek_run h)]
    rfl

theorem lamLoop_run (he : EnvOK env) {named : List Str} {r : List Cell} {ps : List (Pos × Str)} {r' : List Cell}
    (h : LamPs env named r ps r') : Suf env r → ∀ (t : Token) (r1 : List Cell) (rl : List (Pos × Str)) (m : Nat),
      tokGet env r = .ok t r1 → r1.length < m →
      run(loopN lamBody m (t, named, rl), r1) = .ok (.arrow (rl ++ ps)) r' := by
  induction h with
  | done ht =>
    intro hs t r1 rl m h1 hm
    obtain ⟨m, rfl⟩ : ∃ k, m = k + 1 := ⟨m - 1, by omega⟩
    rw [ht.1] at h1
    cases h1
    refine loopN_inr ?_
    unfold lamBody
    simp only
    rw [if_pos ht.2, List.append_nil]
    rfl
  | dots ht ht' =>
    intro hs t r1 rl m h1 hm
    obtain ⟨m, rfl⟩ : ∃ k, m = k + 1 := ⟨m - 1, by omega⟩
    rw [ht.1] at h1
    cases h1
    refine loopN_inr ?_
    unfold lamBody
    simp only
    rw [if_neg (by rw [ht.2]; decide), if_neg (by rw [ht.2]; decide), if_pos ht.2, run_ok (tokpeek_run ht'.1),
      if_pos ht'.2, run_ok (tk_run ht'.1)]
    rfl
  | last ht g1 g2 ht' =>
    intro hs t r1 rl m h1 hm
    obtain ⟨m, rfl⟩ : ∃ k, m = k + 1 := ⟨m - 1, by omega⟩
    rw [ht.1] at h1
    cases h1
    refine loopN_inr ?_
    unfold lamBody
    simp only
    rw [if_neg (by rw [ht.2]; decide), if_pos ht.2, if_neg (by simp [g1]), if_neg (by simpa using g2),
      run_ok (whiteComma_run ht'.1), if_neg (by simp [ht'.2]), run_ok (tk_run ht'.1),
      if_neg (by rw [ht'.2]; decide), if_pos ht'.2]
    rfl
  | @cons named r t r1 t' r2 ps r' ht g1 g2 g3 ht' h ih =>
    intro hs t0 q1 rl m h1 hm
    obtain ⟨m, rfl⟩ : ∃ k, m = k + 1 := ⟨m - 1, by omega⟩
    rw [ht.1] at h1
    cases h1
    have hs1 := (ht.sadv he hs).suf hs
    have a2 := ht'.sadv he hs1
    have hs2 := a2.suf hs1
    have start : ∀ {x}, run(lamBody (t, named, rl), r1) = x ↔ run((do
        let t3 ← tokpeek
        if t3.ty = .arrow then
          let _ ← tokget
          pure (.inr (.arrow (rl ++ [(t.pos, t.value)])))
        else
          let t4 ← tokget
          pure (.inl (t4, t.value :: named, rl ++ [(t.pos, t.value)]))), r2) = x := by
      intro x
      unfold lamBody
      simp only
      rw [if_neg (by rw [ht.2]; decide), if_pos ht.2, if_neg (by simp [g1]), if_neg (by simpa using g2),
        run_ok (whiteComma_run ht'.1), if_neg (by simp [g3]), run_ok (tk_run ht'.1), if_pos ht'.2]
    have hf : (∃ t3 r3, Tk env r2 .arrow t3 r3 ∧ ps = [] ∧ r' = r3) ∨
        ∃ t3 r3, tokGet env r2 = .ok t3 r3 ∧ t3.ty ≠ .arrow := by
      cases h with
      | done h => exact Or.inl ⟨_, _, h, rfl, rfl⟩
      | dots h => exact Or.inr ⟨_, _, h.1, by rw [h.2]; decide⟩
      | last h => exact Or.inr ⟨_, _, h.1, by rw [h.2]; decide⟩
      | cons h => exact Or.inr ⟨_, _, h.1, by rw [h.2]; decide⟩
    rcases hf with ⟨t3, r3, k1, rfl, rfl⟩ | ⟨t3, r3, k1, k2⟩
    · refine loopN_inr (start.2 ?_)
      rw [run_ok (tokpeek_run k1.1), if_pos k1.2, run_ok (tk_run k1.1)]
      rfl
    · have hb : run(lamBody (t, named, rl), r1) = .ok (.inl (t3, t.value :: named, rl ++ [(t.pos, t.value)])) r3 := by
        refine start.2 ?_
        rw [run_ok (tokpeek_run k1), if_neg k2, run_ok (tk_run k1)]
        rfl
      rw [loopN_inl hb, ih hs2 t3 r3 _ m k1 (by
        have := a2.lt; have := (tokGet_at he hs2 k1).suffix.length_le; omega)]
      simp

/-! ### Dictionaries -/

def litKeyBody (s : Str) : Prog (Str ⊕ Str) := do
  let c ← p 0
  match c with
  | .eof => errHere cs!"unexpectd EOL"
  | .eol => errHere cs!"unexpectd EOL"
  | .ch ch =>
    if isLitKeyC ch then
      seekCur 1
      pure (.inl (s ++ [ch]))
    else pure (.inr s)

theorem litKeyLoop_run {v : Str} : ∀ {r r' : List Cell} {c : Char} (acc : Str) (m : Nat), Reads r v r' →
    (∀ c ∈ v, isLitKeyC c = true) → headSym r' = .ch c → isLitKeyC c = false → r.length < m →
    run(loopN litKeyBody m acc, r) = .ok (acc ++ v) r' := by
  induction v with
  | nil =>
    intro r r' c acc m h1 _ h3 h4 hm
    obtain rfl := h1.nil_inv
    obtain ⟨m, rfl⟩ : ∃ k, m = k + 1 := ⟨m - 1, by omega⟩
    refine loopN_inr ?_
    unfold litKeyBody
    rw [run_ok (p0_run r), h3]
    simp only
    rw [if_neg (by simp [h4]), List.append_nil]
    rfl
  | cons d v ih =>
    intro r r' c acc m h1 h2 h3 h4 hm
    obtain ⟨q, r2, rfl, h5⟩ := h1.cons_inv
    obtain ⟨m, rfl⟩ : ∃ k, m = k + 1 := ⟨m - 1, by omega⟩
    have hb : run(litKeyBody acc, ⟨some d, q⟩ :: r2) = .ok (.inl (acc ++ [d])) r2 := by
      unfold litKeyBody
      rw [run_ok (p0_run _)]
      show run(if isLitKeyC d = true then _ else _, _) = _
      rw [if_pos (h2 d (by simp))]
      rfl
    rw [loopN_inl hb, ih (acc ++ [d]) m h5 (fun c hc => h2 c (by simp [hc])) h3 h4 (by simp at hm; omega)]
    simp

theorem after_head {q q' : List Cell} {d : Char} (h1 : Reads (spanS iswhite q).2 [d] q') (h2 : isLitKeyC d = false) :
    ∃ c, headSym q = .ch c ∧ isLitKeyC c = false := by
  by_cases hw : (headSym q).is iswhite = true
  · obtain ⟨d', hd, hf⟩ := Sym.is_ch hw
    refine ⟨d', hd, ?_⟩
    have : d' = ' ' ∨ d' = '\t' := by simpa [iswhite] using hf
    rcases this with rfl | rfl <;> decide
  · have e : (spanS iswhite q).2 = q := Blanks.skip ⟨[], Reads.nil _, by simp⟩ (by simpa using hw)
    rw [e] at h1
    exact ⟨d, headSym_of_reads h1, h2⟩

theorem litKeyC_white {c : Char} (h : isLitKeyC c = true) : iswhite c = false := white_of (by decide) h

theorem litKey_run (he : EnvOK env) {r r' r2 : List Cell} {k : VExpr} {t : Token} (hs : Suf env r) (h : LitKey env r k r')
    (ht : Tk env r' .colon t r2 ∨ Tk env r' .cclose t r2) : run(parseDictLiteralKey, r) = .ok k r' := by
  have hs' := (LitKey.adv h).suf hs
  obtain ⟨_, w, r1, v, h1, hw, h3, h4, h5, rfl⟩ := h
  have hh : ∃ c, headSym r' = .ch c ∧ isLitKeyC c = false := by
    rcases ht with ht | ht
    · exact after_head (comma_head he hs' ht (v := [':']) (fun w h => h) (by decide) (by decide)) (by decide)
    · exact after_head (comma_head he hs' ht (v := ['}']) (fun w h => h) (by decide) (by decide)) (by decide)
  obtain ⟨c', hc', hl⟩ := hh
  cases v with
  | nil => exact absurd rfl h4
  | cons c v =>
    obtain ⟨q, r3, rfl, h6⟩ := h3.cons_inv
    have hc := h5 c (by simp)
    unfold parseDictLiteralKey
    rw [run_ok (skipWhite_run h1 hw (show iswhite c = false from litKeyC_white hc)), run_ok (peek_run' _)]
    show run(if (!isLitKeyC c) = true then _ else _, _) = _
    rw [if_neg (by simp [hc]), run_ok (show run(seekCur 1, ⟨some c, q⟩ :: r3) = .ok () r3 from rfl),
      run_ok (getpos_run r3)]
    show run(loop litKeyBody [c] >>= _, _) = _
    rw [run_ok (m := loop litKeyBody [c])
      (litKeyLoop_run [c] _ h6 (fun c hc => h5 c (by simp [hc])) hc' hl (by omega))]
    rfl

/-- A key: for `#{}` a bare word. -/
def KeyR (env : Env) (lit : Bool) : ERel := if lit then LitKey env else QR env

theorem KeyR.adv {lit : Bool} {r : List Cell} {k : VExpr} {r' : List Cell} (h : KeyR env lit r k r') : SAdv r r' := by
  cases lit with
  | true => exact LitKey.adv h
  | false => exact QR.adv h

theorem KeyR.first (he : EnvOK env) {lit : Bool} {r : List Cell} (hs : Suf env r) {k : VExpr} {r' : List Cell}
    (h : KeyR env lit r k r') : ∃ t r1, tokGet env r = .ok t r1 ∧ t.ty ≠ .cclose := by
  cases lit with
  | false => obtain ⟨t, r1, h1, h2⟩ := QR.first h; exact ⟨t, r1, h1, h2.2.2.2.1⟩
  | true =>
    obtain ⟨⟨t, r1, ht⟩, w, y, v, l1, l2, l3, l4, l5, _⟩ := (show LitKey env r k r' from h)
    refine ⟨t, r1, ht, fun hc => ?_⟩
    have hl := headSym_many1 (f := isLitKeyC) ⟨l4, l5⟩ l3
    obtain ⟨d, hd, hf⟩ := Sym.is_ch hl
    have := comma_head he hs ⟨ht, hc⟩ (v := ['}']) (fun w h => h) (by decide) (by decide)
    rw [Blanks.skip ⟨w, l1, l2⟩ (by rw [hd]; exact litKeyC_white hf)] at this
    have := headSym_of_reads this
    rw [hd] at this
    cases this
    exact absurd hf (by decide)

def dictCont (rec : Prog VExpr) (start : List Cell) (q : Pos) (kvs : List (VExpr × VExpr)) (key : VExpr) :
    Prog (List (VExpr × VExpr) ⊕ VExpr) := do
  let t ← tokget
  if t.ty = .cclose then
    if !kvs.isEmpty then unexpected t
    else
      seekSet start
      let e ← parseIdentifier rec
      pure (.inr e)
  else if t.ty ≠ .colon then unexpected t
  else
    let val ← rec
    let kvs := kvs ++ [(key, val)]
    let t ← tokget
    if t.ty = .comma then
      let t2 ← tokpeek
      if t2.ty = .cclose then
        let _ ← tokget
        pure (.inr (.dict q kvs))
      else pure (.inl kvs)
    else if t.ty = .cclose then pure (.inr (.dict q kvs))
    else unexpected t

def dictBody (rec : Prog VExpr) (lit : Bool) (start : List Cell) (q : Pos) (kvs : List (VExpr × VExpr)) :
    Prog (List (VExpr × VExpr) ⊕ VExpr) :=
  if lit then parseDictLiteralKey >>= dictCont rec start q kvs else rec >>= dictCont rec start q kvs

theorem dictBody_run (he : EnvOK env) {lit : Bool} {n : Nat} {start : List Cell} {q : Pos}
    {acc : List (VExpr × VExpr)} {r r' r2 : List Cell} {k : VExpr} {t : Token} (hs : Suf env r)
    (hn : r.length < n) (h : KeyR env lit r k r') (ht : Tk env r' .colon t r2 ∨ Tk env r' .cclose t r2) :
    run(dictBody (parseExpr1F n) lit start q acc, r) = run(dictCont (parseExpr1F n) start q acc k, r') := by
  cases lit with
  | true => exact run_ok (litKey_run he hs h ht)
  | false => exact run_ok (QR.run h n hn)

theorem dictBody_pair (he : EnvOK env) {lit : Bool} {n : Nat} {start : List Cell} {q : Pos}
    {acc : List (VExpr × VExpr)} {r r1 r2 r3 : List Cell} {k v : VExpr} {t : Token} (hs : Suf env r) (hn : r.length < n)
    (hk : KeyR env lit r k r1) (ht : Tk env r1 .colon t r2) (hv : QR env r2 v r3) {x} :
    run(dictBody (parseExpr1F n) lit start q acc, r) = x ↔ run((do
      let t ← tokget
      if t.ty = .comma then
        let t2 ← tokpeek
        if t2.ty = .cclose then
          let _ ← tokget
          pure (.inr (.dict q (acc ++ [(k, v)])))
        else pure (.inl (acc ++ [(k, v)]))
      else if t.ty = .cclose then pure (.inr (.dict q (acc ++ [(k, v)])))
      else unexpected t), r3) = x := by
  have h2 : r2.length < n := by
    have := hk.adv.lt; have := (ht.sadv he (hk.adv.suf hs)).lt; omega
  rw [dictBody_run he hs hn hk (Or.inl ht)]
  unfold dictCont
  rw [run_ok (tk_run ht.1), if_neg (by rw [ht.2]; decide),
    if_neg (by simp [ht.2]), run_ok (hv.run _ h2)]

theorem dictLoop_run (he : EnvOK env) {lit : Bool} {n : Nat} {start : List Cell} {q : Pos} {r : List Cell}
    {kvs : List (VExpr × VExpr)} {r' : List Cell} (h : DItems env (KeyR env lit) (QR env) r kvs r') :
    kvs ≠ [] → Suf env r → ∀ (acc : List (VExpr × VExpr)) (m : Nat), r.length < m → r.length < n →
      run(loopN (dictBody (parseExpr1F n) lit start q) m acc, r) = .ok (.dict q (acc ++ kvs)) r' := by
  induction h with
  | nil => intro h; exact absurd rfl h
  | last hk ht hv ht' =>
    intro _ hs acc m hm hn
    obtain ⟨m, rfl⟩ : ∃ k, m = k + 1 := ⟨m - 1, by omega⟩
    refine loopN_inr ((dictBody_pair he hs hn hk ht hv).2 ?_)
    rw [run_ok (tk_run ht'.1), if_neg (by rw [ht'.2]; decide), if_pos ht'.2]
    rfl
  | @cons r k r1 t r2 v r3 t' r4 kvs r' hk ht hv ht' h ih =>
    intro _ hs acc m hm hn
    obtain ⟨m, rfl⟩ : ∃ k, m = k + 1 := ⟨m - 1, by omega⟩
    have a1 := hk.adv
    have a3 := (a1.trans (ht.sadv he (a1.suf hs))).trans hv.adv
    have a4 := a3.trans (ht'.sadv he hv.suf')
    have hs4 := a4.suf hs
    by_cases hes : kvs = []
    · subst hes
      refine loopN_inr ((dictBody_pair he hs hn hk ht hv).2 ?_)
      cases h with
      | nil ht2 =>
        rw [run_ok (tk_run ht'.1), if_pos ht'.2, run_ok (tokpeek_run ht2.1), if_pos ht2.2, run_ok (tk_run ht2.1)]
        rfl
    · have hf : ∃ t r1, tokGet env r4 = .ok t r1 ∧ t.ty ≠ .cclose := by
        cases h with
        | nil => exact absurd rfl hes
        | last hk => exact hk.first he hs4
        | cons hk => exact hk.first he hs4
      obtain ⟨t2, q2, ht2, hf2⟩ := hf
      have hb : run(dictBody (parseExpr1F n) lit start q acc, r) = .ok (.inl (acc ++ [(k, v)])) r4 := by
        refine (dictBody_pair he hs hn hk ht hv).2 ?_
        rw [run_ok (tk_run ht'.1), if_pos ht'.2, run_ok (tokpeek_run ht2), if_neg hf2]
        rfl
      rw [loopN_inl hb, ih hes hs4 (acc ++ [(k, v)]) m (by have := a4.lt; omega) (by have := a4.lt; omega)]
      simp

theorem parseDict_run (he : EnvOK env) {lit : Bool} {n : Nat} {start : List Cell} {q : Pos} {r : List Cell}
    {kvs : List (VExpr × VExpr)} {r' : List Cell} (h : DItems env (KeyR env lit) (QR env) r kvs r') (hs : Suf env r)
    (hn : r.length < n) : run(parseDict (parseExpr1F n) lit start q, r) = .ok (.dict q kvs) r' := by
  by_cases hvs : kvs = []
  · subst hvs
    cases h with
    | nil ht =>
      unfold parseDict
      rw [run_ok (tokpeek_run ht.1), if_pos ht.2, run_ok (tk_run ht.1)]
      rfl
  · have hf : ∃ t r1, tokGet env r = .ok t r1 ∧ t.ty ≠ .cclose := by
      cases h with
      | nil => exact absurd rfl hvs
      | last hk => exact hk.first he hs
      | cons hk => exact hk.first he hs
    obtain ⟨t2, q2, ht2, hf2⟩ := hf
    unfold parseDict
    rw [run_ok (tokpeek_run ht2), if_neg hf2]
    exact dictLoop_run he h hvs hs [] _ (by omega) hn

/-- A brace that starts a name. -/
theorem parseDict_name (he : EnvOK env) {lit : Bool} {n : Nat} {start : List Cell} {q : Pos} {r r1 r2 : List Cell}
    {k e : VExpr} {t : Token} {r' : List Cell} (hs : Suf env r) (hn : r.length < n) (hk : KeyR env lit r k r1)
    (ht : Tk env r1 .cclose t r2) (hid : run(parseIdentifier (parseExpr1F n), start) = .ok e r') :
    run(parseDict (parseExpr1F n) lit start q, r) = .ok e r' := by
  obtain ⟨t2, q2, ht2, hf2⟩ := hk.first he hs
  unfold parseDict
  rw [run_ok (tokpeek_run ht2), if_neg hf2]
  refine loopN_inr (body := dictBody (parseExpr1F n) lit start q) ?_
  rw [dictBody_run he hs hn hk (Or.inr ht)]
  unfold dictCont
  rw [run_ok (tk_run ht.1), if_pos ht.2, if_neg (by simp),
    run_ok (seekSet_run _ _), run_ok hid]
  rfl

/-! ### Braces -/

theorem parseBrace_lambda (he : EnvOK env) {n : Nat} {start : List Cell} {t t' : Token} {r r1 r2 r' : List Cell}
    {ps : List (Pos × Str)} {e : VExpr} (hs : Suf env r) (h : LamPs env [] r ps r1) (hq : QR env r1 e r2)
    (ht : Tk env r2 .cclose t' r') (hn : r1.length < n) :
    run(parseBrace (parseExpr1F n) start t, r) = .ok (.lambda t.pos ps e) r' := by
  obtain ⟨t1, q1, h1, h2⟩ : ∃ t1 q1, tokGet env r = .ok t1 q1 ∧ (t1.ty = .arrow ∨
      (t1.ty ≠ .arrow ∧ t1.ty ≠ .squote ∧ t1.ty ≠ .dquote ∧ ∃ t2 q2, tokGet env q1 = .ok t2 q2 ∧
        (t2.ty = .arrow ∨ t2.ty = .comma))) := by
    cases h with
    | done h => exact ⟨_, _, h.1, Or.inl h.2⟩
    | dots h h' => exact ⟨_, _, h.1, Or.inr ⟨by rw [h.2]; decide, by rw [h.2]; decide, by rw [h.2]; decide, _, _, h'.1, Or.inl h'.2⟩⟩
    | last h _ _ h' => exact ⟨_, _, h.1, Or.inr ⟨by rw [h.2]; decide, by rw [h.2]; decide, by rw [h.2]; decide, _, _, h'.1, Or.inl h'.2⟩⟩
    | cons h _ _ _ h' => exact ⟨_, _, h.1, Or.inr ⟨by rw [h.2]; decide, by rw [h.2]; decide, by rw [h.2]; decide, _, _, h'.1, Or.inr h'.2⟩⟩
  have hl : run(lambdaParams t1, q1) = .ok (.arrow ps) r1 := lamLoop_run he h hs t1 q1 [] _ h1 (by omega)
  unfold parseBrace
  rw [run_ok (tell_run r), run_ok (tk_run h1)]
  rcases h2 with h2 | ⟨k1, k2, k3, t2, q2, k4, k5⟩
  · rw [if_pos h2, run_ok (run_pure _ _)]
    show run(ite _ _ _, _) = _
    rw [if_pos rfl, run_ok hl]
    simp only
    rw [run_ok (hq.run _ hn), run_ok (tk_run ht.1), if_neg (by simp [ht.2])]
    rfl
  · rw [if_neg k1, if_neg (by simp [k2, k3]), run_ok (tokpeek_run k4), run_ok (run_pure _ _)]
    show run(ite _ _ _, _) = _
    rw [if_pos (by simpa using k5), run_ok hl]
    simp only
    rw [run_ok (hq.run _ hn), run_ok (tk_run ht.1), if_neg (by simp [ht.2])]
    rfl

theorem parseBrace_dict (he : EnvOK env) {n : Nat} {start : List Cell} {t : Token} {r r' : List Cell}
    {e : VExpr} (hs : Suf env r) (h : NotLambda env r)
    (hd : run(parseDict (parseExpr1F n) (t.ty == .litcopen) start t.pos, r) = .ok e r') :
    run(parseBrace (parseExpr1F n) start t, r) = .ok e r' := by
  obtain ⟨t1, q1, h1, h2, h3⟩ := h
  have h1 := (tokGet_iff he hs _ _).2 h1
  have hs1 : Suf env q1 := (tokGet_at he hs h1).suf hs
  unfold parseBrace
  rw [run_ok (tell_run r), run_ok (tk_run h1), if_neg h2]
  by_cases hq : t1.ty = .squote ∨ t1.ty = .dquote
  · rw [if_pos hq, run_ok (run_pure _ _)]
    show run(ite _ _ _, _) = _
    rw [if_neg (by simp), run_ok (seekSet_run _ _)]
    exact hd
  · obtain ⟨t2, q2, k1, k2⟩ : ∃ t2 r2, Lex env q1 t2 r2 ∧
      ¬ ((t1.ty = .identifier ∨ t1.ty = .dotdotdot) ∧ (t2.ty = .arrow ∨ t2.ty = .comma)) := by
      rcases h3 with h | h | h
      · exact absurd (Or.inl h) hq
      · exact absurd (Or.inr h) hq
      · exact h
    have k1 := (tokGet_iff he hs1 _ _).2 k1
    rw [if_neg hq, run_ok (tokpeek_run k1), run_ok (run_pure _ _)]
    show run(ite _ _ _, _) = _
    by_cases hl : t2.ty = .arrow ∨ t2.ty = .comma
    · have hn1 : t1.ty ≠ .identifier := fun h => k2 ⟨Or.inl h, hl⟩
      have hn2 : t1.ty ≠ .dotdotdot := fun h => k2 ⟨Or.inr h, hl⟩
      have hf : run(lambdaParams t1, q1) = .ok .fallback q1 := by
        refine loopN_inr (body := lamBody) ?_
        unfold lamBody
        simp only
        rw [if_neg h2, if_neg hn1, if_neg hn2]
        rfl
      rw [if_pos (by simpa using hl), run_ok hf]
      simp only
      rw [run_ok (seekSet_run _ _)]
      exact hd
    · rw [if_neg (by simpa using hl), run_ok (seekSet_run _ _)]
      exact hd

/-! ### Names -/

theorem curlyBody_expr {n : Nat} {parts : List VExpr} {r r1 : List Cell} {e : VExpr} (h : headSym r = .ch '{')
    (hq : QR env r.tail e r1) (hc : headSym (spanS iswhite r1).2 = .ch '}') (hn : r.length ≤ n) :
    run(curlyBody (parseExpr1F n) parts, r) =
      .ok (.inl (parts ++ [.curlyexpr (posOf env r.tail) e])) (spanS iswhite r1).2.tail := by
  obtain ⟨c, r2, rfl, hc1⟩ := headSym_ch h
  unfold curlyBody
  rw [run_ok (peek_run' _), h, if_neg (by decide), if_pos rfl,
    run_ok (show run(get, c :: r2) = .ok c.sym r2 from rfl), run_ok (getpos_run r2),
    run_ok (show run(parseExpr1F n, r2) = .ok e r1 from hq.run n (by simp at hn ⊢; omega)),
    run_ok (show run(skipWhite, r1) = .ok () (spanS iswhite r1).2 from rfl),
    run_ok (p0_run _), hc, if_neg (by simp)]
  obtain ⟨d, r3, hd, _⟩ := headSym_ch hc
  rw [hd]
  rfl

theorem partsLoop_run {n : Nat} {r : List Cell} {ps : List VExpr} {r' : List Cell}
    (h : Parts env (QR env) r ps r') : ∀ (acc : List VExpr) (m : Nat), r.length < m → r.length ≤ n →
      run(loopN (curlyBody (parseExpr1F n)) m acc, r) = .ok (acc ++ ps) r' := by
  induction h with
  | nil h1 h2 =>
    intro acc m hm hn
    obtain ⟨m, rfl⟩ : ∃ k, m = k + 1 := ⟨m - 1, by omega⟩
    rw [loopN_inr (curlyBody_stop h1 h2)]
    simp
  | @name r ps r' hh _ ih =>
    intro acc m hm hn
    obtain ⟨m, rfl⟩ : ∃ k, m = k + 1 := ⟨m - 1, by omega⟩
    obtain ⟨c, hc, hf⟩ := Sym.is_ch hh
    have a := spanS_sadv hh
    rw [loopN_inl (curlyBody_name (spanS_many1 ⟨hc, trivial⟩ hf) (spanS_reads _ _) (head_span_not _ _)),
      ih _ m (by have := a.lt; omega) (by have := a.lt; omega)]
    simp
  | @expr r e r1 ps r' hh hq hc _ ih =>
    intro acc m hm hn
    obtain ⟨m, rfl⟩ : ∃ k, m = k + 1 := ⟨m - 1, by omega⟩
    have a : (spanS iswhite r1).2.tail.length < r.length := by
      have := (headSym_sadv hh).lt; have := hq.adv.lt; have := (spanS_adv iswhite r1).length
      have := (headSym_sadv hc).lt; omega
    rw [loopN_inl (curlyBody_expr hh hq hc hn), ih _ m (by omega) (by omega)]
    simp

theorem identNode_run {q : Pos} {parts : List VExpr} {r : List Cell} :
    run((match parts with
      | [.atom _ .curlynamepart v] => pure (.atom q .identifier v)
      | _ => pure (.curlyname q parts) : Prog VExpr), r) = .ok (identNode q parts) r := by
  unfold identNode
  split
  · rfl
  · split
    · next h => exact absurd rfl (h _ _)
    · rfl

theorem parseIdentifier_parts {n : Nat} {r r1 r' : List Cell} {ps : List VExpr} (hw : Blanks r r1)
    (hnw : (headSym r1).is iswhite = false) (h : IdParts env (QR env) r1 ps r') (hn : r.length ≤ n) :
    run(parseIdentifier (parseExpr1F n), r) = .ok (identNode (posOf env r1) ps) r' := by
  obtain ⟨w, h1, h2⟩ := hw
  have hn1 : r1.length ≤ n := by have := h1.adv.length; omega
  unfold parseIdentifier
  rw [run_ok (skipWhite_run h1 h2 hnw), run_ok (getpos_run r1)]
  have key : run(parseCurlyParts (parseExpr1F n), r1) = .ok ps r' := by
    unfold parseCurlyParts
    rw [run_ok (peek_run' r1), run_ok (getpos_run r1), run_ok (run_peekn 5 r1)]
    cases h with
    | plain hne hp =>
      rw [if_neg hne, run_ok (show run((pure [] : Prog (List VExpr)), r1) = .ok [] r1 from rfl)]
      exact partsLoop_run hp [] _ (by omega) hn1
    | sid g1 g2 hp =>
      rw [if_pos ⟨g1, g2⟩, run_ok (run_getn 5 r1), run_ok (run_pure _ _)]
      exact partsLoop_run hp [_] _ (by omega) (by have := (getnS_adv 5 r1).length; omega)
  rw [run_ok key]
  exact identNode_run

end
end Viml
