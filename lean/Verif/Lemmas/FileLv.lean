/-
Assignment targets: the parser reads exactly those of the grammar.
-/
import Verif.Lemmas.FileRaw

namespace Viml
open Prog Spec

section
variable {env : Env} {fn : Str} {r r' : List Cell}

local notation "run(" m "," r ")" => Prog.runWith tokGet env m r
local notation "D" => Der env (GP env fn)

/-! ### Names -/

/-- Nodes of names, with the parts they are made of; otherwise what the expression grammar says. -/
def LP (env : Env) (fn : Str) (k : Nat) : ERel := fun r v r' =>
  if k = 9 then ∃ w r1 ps, Reads r w r1 ∧ (∀ c ∈ w, iswhite c = true) ∧ IdParts env (Der env (GP env fn) 1) r1 ps r' ∧
    ps ≠ [] ∧ IdStart r1 ∧ v = identNode (posOf env r1) ps
  else GP env fn k r v r'

theorem LP_one : Der env (LP env fn) 1 = Der env (GP env fn) 1 := by
  funext r v r'
  refine propext ⟨fun h => ⟨h.adv, h.suf, ?_⟩, fun h => ⟨h.adv, h.suf, ?_⟩⟩
  · simpa [LP] using h.p
  · simpa [LP] using h.p

theorem recOK (he : EnvOK env) (N : Nat) : RecOK env (GP env fn) N parseExpr1 :=
  fun _ hs _ => parseExpr1_specL he (gram_closed he) hs

theorem ident_sound (he : EnvOK env) (hs : Suf env r) (hi : IdStart (spanS iswhite r).2) {v : VExpr}
    (h : Ok env (parseIdentifier parseExpr1) r v r') : ∃ w r1 ps, Reads r w r1 ∧ (∀ c ∈ w, iswhite c = true) ∧
      IdParts env (D 1) r1 ps r' ∧ ps ≠ [] ∧ IdStart r1 ∧ v = identNode (posOf env r1) ps := by
  have hr : RecOK env (LP env fn) r.length parseExpr1 := by
    intro r0 h1 h2
    rw [LP_one]
    exact recOK he r.length r0 h1 h2
  have := h.wp (parseIdentifier_spec he hr hs (Nat.le_refl _) hi (by
    intro w r1 ps r' a1 a2 a3 a4 a5
    rw [LP_one] at a3
    simp only [LP, if_true]
    exact ⟨w, r1, ps, a1, a2, a3, a4, a5, rfl⟩))
  simpa [LP] using this.p

theorem idParts_start (he : EnvOK env) (hs : Suf env r) {w : Str} {r1 : List Cell} {ps : List VExpr} {t : Token} {r2 : List Cell}
    (h1 : Reads r w r1) (h2 : ∀ c ∈ w, iswhite c = true) (h3 : IdParts env (D 1) r1 ps r') (h4 : ps ≠ []) (h5 : IdStart r1)
    (ht : tokGet env r = .ok t r2) (hty : t.ty = .identifier ∨ t.ty = .copen ∨ t.ty = .cmp .smaller .plain) :
    ∃ a, Export.expr fn (identNode (posOf env r1) ps) = some a ∧ LvStart env fn r a r' := by
  cases h3 with
  | plain hn hp =>
    obtain ⟨as, k1, k2, k3⟩ := parts_gram hp
    refine ⟨_, ident_export k1 k3, .name ⟨w, h1, h2⟩ ⟨t, r2, (tokGet_iff he hs _ _).1 ht, ?_⟩ k2 ?_⟩
    · rcases hty with h | h | h
      · exact .inl h
      · exact .inr h
      · exfalso
        have hr := brace_rest he hs h1 h2 (idStart_nw h5) ⟨ht, h⟩ (v := ['<']) (fun w h => h) (by decide) (by decide)
        have hd := headSym_of_reads hr
        cases hp with
        | nil => exact h4 rfl
        | name g => rw [hd] at g; exact absurd g (by decide)
        | expr g => rw [hd] at g; cases g
    · rintro rfl
      cases ps with
      | nil => exact h4 rfl
      | cons =>
        simp only [Export.exprs, Option.bind_eq_bind, Option.bind_eq_some_iff] at k1
        obtain ⟨_, _, _, _, k1⟩ := k1
        cases k1
  | sid g1 g2 hp =>
    obtain ⟨as, k1, k2, k3⟩ := parts_gram hp
    exact ⟨_, ident_export (as := .curlyNameLit (pubPos fn (posOf env r1)) (getnS 5 r1).1 :: as)
      (by simp [Export.exprs, Export.expr, Export.atom, k1]; rfl)
      (by rw [List.forall_mem_cons]; exact ⟨rfl, k3⟩), .sid ⟨w, h1, h2⟩ (getnS_reads _ _) g2 k2⟩

theorem QR.run1 {r r' : List Cell} {v : VExpr} (h : QR env r v r') : run(parseExpr1, r) = .ok v r' :=
  h.run _ (Nat.lt_succ_self _)

theorem curlyBody_expr1 {parts : List VExpr} {r r1 : List Cell} {e : VExpr} (h : headSym r = .ch '{')
    (hq : QR env r.tail e r1) (hc : headSym (spanS iswhite r1).2 = .ch '}') :
    run(curlyBody parseExpr1 parts, r) =
      .ok (.inl (parts ++ [.curlyexpr (posOf env r.tail) e])) (spanS iswhite r1).2.tail := by
  obtain ⟨c, r2, rfl, hc1⟩ := headSym_ch h
  unfold curlyBody
  rw [run_ok (peek_run' _), h, if_neg (by decide), if_pos rfl,
    run_ok (show run(get, c :: r2) = .ok c.sym r2 from rfl), run_ok (getpos_run r2),
    run_ok (show run(parseExpr1, r2) = .ok e r1 from hq.run1),
    run_ok (show run(skipWhite, r1) = .ok () (spanS iswhite r1).2 from rfl),
    run_ok (p0_run _), hc, if_neg (by simp)]
  obtain ⟨d, r3, hd, _⟩ := headSym_ch hc
  rw [hd]
  rfl

theorem partsLoop_run1 {r : List Cell} {ps : List VExpr} {r' : List Cell}
    (h : Parts env (QR env) r ps r') : ∀ (acc : List VExpr) (m : Nat), r.length < m →
      run(loopN (curlyBody parseExpr1) m acc, r) = .ok (acc ++ ps) r' := by
  induction h with
  | nil h1 h2 =>
    intro acc m hm
    obtain ⟨m, rfl⟩ : ∃ k, m = k + 1 := ⟨m - 1, by omega⟩
    rw [loopN_inr (curlyBody_stop h1 h2)]
    simp
  | @name r ps r' hh _ ih =>
    intro acc m hm
    obtain ⟨m, rfl⟩ : ∃ k, m = k + 1 := ⟨m - 1, by omega⟩
    obtain ⟨c, hc, hf⟩ := Sym.is_ch hh
    have a := spanS_sadv hh
    rw [loopN_inl (curlyBody_name (spanS_many1 ⟨hc, trivial⟩ hf) (spanS_reads _ _) (head_span_not _ _)),
      ih _ m (by have := a.lt; omega)]
    simp
  | @expr r e r1 ps r' hh hq hc _ ih =>
    intro acc m hm
    obtain ⟨m, rfl⟩ : ∃ k, m = k + 1 := ⟨m - 1, by omega⟩
    have a : (spanS iswhite r1).2.tail.length < r.length := by
      have := (headSym_sadv hh).lt; have := hq.adv.lt; have := (spanS_adv iswhite r1).length
      have := (headSym_sadv hc).lt; omega
    rw [loopN_inl (curlyBody_expr1 hh hq hc), ih _ m (by omega)]
    simp

theorem parseIdentifier_parts1 {r r1 r' : List Cell} {ps : List VExpr} (hw : Blanks r r1)
    (hnw : (headSym r1).is iswhite = false) (h : IdParts env (QR env) r1 ps r') :
    run(parseIdentifier parseExpr1, r) = .ok (identNode (posOf env r1) ps) r' := by
  obtain ⟨w, h1, h2⟩ := hw
  unfold parseIdentifier
  rw [run_ok (skipWhite_run h1 h2 hnw), run_ok (getpos_run r1)]
  have key : run(parseCurlyParts parseExpr1, r1) = .ok ps r' := by
    unfold parseCurlyParts
    rw [run_ok (peek_run' r1), run_ok (getpos_run r1), run_ok (run_peekn 5 r1)]
    cases h with
    | plain hne hp =>
      rw [if_neg hne, run_ok (show run((pure [] : Prog (List VExpr)), r1) = .ok [] r1 from rfl)]
      exact partsLoop_run1 hp [] _ (by omega)
    | sid g1 g2 hp =>
      rw [if_pos ⟨g1, g2⟩, run_ok (run_getn 5 r1), run_ok (run_pure _ _)]
      exact partsLoop_run1 hp [_] _ (by omega)
  rw [run_ok key]
  exact identNode_run

/-! ### The first part -/

theorem lv9_sound (he : EnvOK env) (hs : Suf env r) {v : VExpr} (h : Ok env lv9 r v r') :
    ∃ a, Export.expr fn v = some a ∧ LvStart env fn r a r' := by
  unfold lv9 at h
  rw [bind_tell, bind_tokget] at h
  obtain ⟨t, r1, ht, h⟩ := h
  have lit : ∀ {a k}, (IsLit t.ty k) → (k = .OPTION ∨ k = .ENV ∨ k = .REG) →
      (Export.expr fn (.atom t.pos a t.value) = some (.basicLit (pubPos fn t.pos) k t.value)) →
      Ok env (pure (.atom t.pos a t.value)) r1 v r' → ∃ a, Export.expr fn v = some a ∧ LvStart env fn r a r' := by
    intro a k h1 h2 h3 h4
    obtain ⟨rfl, rfl⟩ := ok_pure.1 h4
    exact ⟨_, h3, .lit ((tokGet_iff he hs _ _).1 ht) h1 h2⟩
  have name : (t.ty = .identifier ∨ t.ty = .copen ∨ t.ty = .cmp .smaller .plain) → IdStart (spanS iswhite r).2 →
      Ok env (parseIdentifier parseExpr1) r v r' → ∃ a, Export.expr fn v = some a ∧ LvStart env fn r a r' := by
    intro h1 h2 h3
    obtain ⟨w, r1, ps, k1, k2, k3, k4, k5, rfl⟩ := ident_sound (fn := fn) he hs h2 h3
    exact idParts_start he hs k1 k2 k3 k4 k5 ht h1
  split at h
  · rename_i hty
    rw [bind_seekSet] at h
    refine name (.inr (.inl hty)) ?_ h
    obtain ⟨_, h2, h3⟩ := tok_skip he hs ⟨ht, hty⟩
    simp only [Shape] at h3
    rw [h3] at h2
    exact Or.inr (Or.inr (Or.inl (Starts.of_reads h2).1))
  · rename_i hty
    exact lit (by rw [hty]; exact .option) (.inl rfl) rfl h
  · rename_i hty
    rw [bind_seekSet] at h
    exact name (.inl hty) (ident_start_identifier he hs ⟨ht, hty⟩) h
  · rename_i hty
    rw [bind_peekn, ok_ite] at h
    rcases h with ⟨h1, h⟩ | ⟨_, h⟩
    · rw [bind_seekSet] at h
      exact name (.inr (.inr hty)) (ident_start_sid he hs ⟨ht, hty⟩ h1) h
    · exact (ok_errAt.1 h).elim
  · rename_i hty
    exact lit (by rw [hty]; exact .env) (.inr (.inl rfl)) rfl h
  · rename_i hty
    exact lit (by rw [hty]; exact .reg) (.inr (.inr rfl)) rfl h
  · exact (ok_errAt.1 h).elim

theorem lv9_complete (he : EnvOK env) (hs : Suf env r) {a : Ast.Expr} (h : LvStart env fn r a r') :
    SAdv r r' ∧ ∃ v, Export.expr fn v = some a ∧ Ok env lv9 r v r' := by
  cases h with
  | @lit t _ k ht hk hc =>
    have ht' := (tokGet_iff he hs _ _).2 ht
    have hty : (t.ty = .option ∧ k = .OPTION) ∨ (t.ty = .env ∧ k = .ENV) ∨ (t.ty = .reg ∧ k = .REG) := by
      revert hk
      generalize t.ty = ty
      intro hk
      cases hk <;> simp_all
    have hok : ∀ v, (match t.ty with
      | .option => v = .atom t.pos .option t.value
      | .env => v = .atom t.pos .env t.value
      | .reg => v = .atom t.pos .reg t.value
      | _ => False) → Ok env lv9 r v r' := by
      intro v hv
      unfold lv9
      rw [bind_tell, bind_tokget]
      refine ⟨t, r', ht', ?_⟩
      rcases hty with ⟨h, _⟩ | ⟨h, _⟩ | ⟨h, _⟩ <;> rw [h] at hv ⊢ <;> exact ok_pure.2 ⟨hv, rfl⟩
    rcases hty with ⟨h, rfl⟩ | ⟨h, rfl⟩ | ⟨h, rfl⟩
    · exact ⟨Tk.sadv he hs ⟨ht', h⟩, .atom t.pos .option t.value, rfl, hok _ (by rw [h])⟩
    · exact ⟨Tk.sadv he hs ⟨ht', h⟩, .atom t.pos .env t.value, rfl, hok _ (by rw [h])⟩
    · exact ⟨Tk.sadv he hs ⟨ht', h⟩, .atom t.pos .reg t.value, rfl, hok _ (by rw [h])⟩
  | @name r1 ps _ hb hn hp hne =>
    have s1 : Suf env r1 := by obtain ⟨w, h, _⟩ := hb; exact h.adv.suf hs
    obtain ⟨_, a, vs, x1, x2, x3⟩ := parts_run he hp s1
    have hh := parts_head x2 (exprs_ne x1 hne)
    have hnw : (headSym r1).is iswhite = false := by
      rcases hh with h | h
      · obtain ⟨c, hc, hf⟩ := Sym.is_ch h
        rw [hc]; exact namec_white hf
      · rw [h]; rfl
    have hlt : headSym r1 ≠ .ch '<' := by
      rcases hh with h | h
      · intro hc; rw [hc] at h; exact absurd h (by decide)
      · rw [h]; simp
    have hid : run(parseIdentifier parseExpr1, r) = .ok (identNode (posOf env r1) vs) r' :=
      parseIdentifier_parts1 hb hnw (.plain (fun h => hlt h.1) x2)
    have ha : SAdv r r' := by obtain ⟨w, h, _⟩ := hb; exact h.adv.trans_sadv (a hne)
    obtain ⟨t, q, ht, hc⟩ := hn
    have ht := (tokGet_iff he hs _ _).2 ht
    refine ⟨ha, _, ident_export x1 x3, ?_⟩
    unfold lv9
    rw [bind_tell, bind_tokget]
    refine ⟨t, q, ht, ?_⟩
    rcases hc with h | h <;> rw [h] <;> exact bind_seekSet.2 hid
  | @sid r1 v r2 ps _ hb h1 hv hp =>
    obtain ⟨w, w1, w2⟩ := hb
    have s1 := w1.adv.suf hs
    obtain ⟨a, _, vs, x1, x2, x3⟩ := parts_run he hp (h1.adv.suf s1)
    obtain ⟨s, rfl, h4, hl⟩ := sid_cons hv
    have hg : getnS 5 r1 = ('<' :: s, r2) := by
      have := getnS_of_reads h1
      rwa [show ('<' :: s).length = 5 by simp [hl]] at this
    have hd : headSym r1 = .ch '<' := headSym_of_reads h1
    obtain ⟨t, q, ht, hty, hsid⟩ := sid_tok he hs w1 w2 h1 hv
    have hparts := IdParts.sid (env := env) (Q := QR env) (r := r1) (ps := vs) (r' := r') hd (by rw [hg]; exact hv)
      (by rw [hg]; exact x2)
    rw [hg] at hparts
    have hid := parseIdentifier_parts1 ⟨w, w1, w2⟩ (by rw [hd]; rfl) hparts
    have hx : Export.exprs fn (.atom (posOf env r1) .curlynamepart ('<' :: s) :: vs) = some (.curlyNameLit (pubPos fn (posOf env r1)) ('<' :: s) :: ps) := by
      simp [Export.exprs, Export.expr, Export.atom, x1]; rfl
    refine ⟨w1.adv.trans_sadv ((h1.sadv (by simp)).trans_adv a), _, ident_export hx
      (by rw [List.forall_mem_cons]; exact ⟨rfl, x3⟩), ?_⟩
    unfold lv9
    rw [bind_tell, bind_tokget]
    refine ⟨t, q, ht, ?_⟩
    rw [hty]
    show Ok env (_ >>= _) _ _ _
    rw [bind_peekn, if_pos hsid, bind_seekSet]
    exact hid

/-! ### Subscripts and members -/

/-- One round of `parse_lv8`. -/
def lvBody (left : VExpr) : Prog (VExpr ⊕ VExpr) := do
    let s ← tell
    let c ← peek
    let t ← tokget
    if (!c.is iswhite && t.ty == .sqopen) = true then
      let e ← parseSubscript parseExpr1 t.pos left
      pure (.inl e)
    else if (!c.is iswhite && t.ty == .dot) = true then
      let r ← parseDot t left
      match r with
      | none =>
        seekSet s
        pure (.inr left)
      | some e => pure (.inl e)
    else
      seekSet s
      pure (.inr left)

theorem lv8_eq : lv8 = (lv9 >>= fun left => loop lvBody left) := rfl

theorem Spec.LvChain.adv (he : EnvOK env) {a : Ast.Expr} (h : LvChain env fn r a r') (hs : Suf env r) : SAdv r r' := by
  induction h with
  | start h => exact (lv9_complete he hs h).1
  | subscript _ _ hq hx hq' ih =>
    have a1 := ih
    have s1 := a1.suf hs
    obtain ⟨t, ht, _⟩ := hq.tk he s1
    have a2 := ht.sadv he s1
    have a3 := gram_sadv he (a2.suf s1) hx
    have s3 := a3.suf (a2.suf s1)
    obtain ⟨t', ht', _⟩ := hq'.tk he s3
    exact a1.trans (a2.trans (a3.trans (ht'.sadv he s3)))
  | slice _ _ hq hlo hq' hhi hq'' ih =>
    have a1 := ih
    have s1 := a1.suf hs
    obtain ⟨t, ht, _⟩ := hq.tk he s1
    have a2 := ht.sadv he s1
    have s2 := a2.suf s1
    obtain ⟨a3, _⟩ := opt_run he hlo s2
    have s3 := a3.suf s2
    obtain ⟨t', ht', _⟩ := hq'.tk he s3
    have a4 := ht'.sadv he s3
    have s4 := a4.suf s3
    obtain ⟨a5, _⟩ := opt_run he hhi s4
    have s5 := a5.suf s4
    obtain ⟨t'', ht'', _⟩ := hq''.tk he s5
    exact a1.trans (a2.trans (a3.trans_sadv (a4.trans (a5.trans_sadv (ht''.sadv he s5)))))
  | dot _ _ _ hq hm ih =>
    have a1 := ih
    have s1 := a1.suf hs
    obtain ⟨t, ht, _⟩ := hq.tk he s1
    exact a1.trans ((ht.sadv he s1).trans_adv hm.1.adv)

theorem lv8_sound (he : EnvOK env) (hs : Suf env r) {v : VExpr} (h : Ok env lv8 r v r') :
    ∃ a, Export.expr fn v = some a ∧ Lv env fn r a r' := by
  rw [lv8_eq, ok_bind] at h
  obtain ⟨l0, r1, h1, h2⟩ := h
  obtain ⟨a0, k1, k2⟩ := lv9_sound (fn := fn) he hs h1
  refine loop_ind (P := fun l rc => ∀ a, Export.expr fn l = some a → LvChain env fn r a rc →
    ∃ a', Export.expr fn v = some a' ∧ Lv env fn r a' r') ?_ ?_ h2 a0 k1 (.start k2)
  · intro l rc h a ha hc
    have sc := (hc.adv he hs).suf hs
    unfold lvBody at h
    rw [bind_tell, bind_peek, bind_tokget] at h
    obtain ⟨t, r2, ht, h⟩ := h
    have lx := (tokGet_iff he sc _ _).1 ht
    rw [ok_ite] at h
    rcases h with ⟨_, h⟩ | ⟨g1, h⟩
    · rw [ok_bind] at h
      obtain ⟨_, _, _, h⟩ := h
      cases (ok_pure.1 h).1
    · rw [ok_ite] at h
      rcases h with ⟨g2, h⟩ | ⟨g2, h⟩
      · rw [ok_bind] at h
        obtain ⟨o, r3, h3, h⟩ := h
        have h4 := h3.wp parseDot_spec
        cases o with
        | some e => cases (ok_pure.1 h).1
        | none =>
          rw [bind_seekSet] at h
          obtain ⟨h5, rfl⟩ := ok_pure.1 h
          cases h5
          refine ⟨a, ha, hc, t, r2, lx, fun hw => ⟨?_, ?_⟩⟩
          · intro k; apply g1; simp [hw, k]
          · rintro ⟨_, k2, w, r4, k3⟩
            obtain ⟨j1, j2⟩ := Member.span k3
            have := h4 (dotLeft_of k2 ha) j2
            rw [j1] at this
            exact absurd this (by simp [k3.2.2])
      · rw [bind_seekSet] at h
        obtain ⟨h5, rfl⟩ := ok_pure.1 h
        cases h5
        refine ⟨a, ha, hc, t, r2, lx, fun hw => ⟨?_, ?_⟩⟩
        · intro k; apply g1; simp [hw, k]
        · rintro ⟨k, _⟩; apply g2; simp [hw, k]
  · intro l rc l1 rc1 h ih a ha hc
    have sc := (hc.adv he hs).suf hs
    unfold lvBody at h
    rw [bind_tell, bind_peek, bind_tokget] at h
    obtain ⟨t, r2, ht, h⟩ := h
    have lx := (tokGet_iff he sc _ _).1 ht
    have s2 : Suf env r2 := (tokGet_at he sc ht).suf sc
    rw [ok_ite] at h
    rcases h with ⟨g1, h⟩ | ⟨g1, h⟩
    · simp only [Bool.and_eq_true, Bool.not_eq_true', beq_iff_eq] at g1
      rw [ok_bind] at h
      obtain ⟨e, r3, h3, h⟩ := h
      obtain ⟨h5, rfl⟩ := ok_pure.1 h
      cases h5
      have hm : Mark env fn rc .sqopen (pubPos fn t.pos) r2 := ⟨t, lx, g1.2, rfl⟩
      have h4 := h3.wp (parseSubscript_spec (P := GP env fn) he (recOK he (r2.length + 1)) s2 (Nat.lt_succ_self _))
      cases h4 with
      | sub hx ht' =>
        obtain ⟨b, b1, b2⟩ := der1 hx
        exact ih (.subscript (pubPos fn t.pos) a b) (by simp [Export.expr, ha, b1]; rfl)
          (.subscript hc g1.1 hm b2 (ht'.mark he hx.suf'))
      | @slice lo r3 t' r4 hi r5 t'' _ hlo ht' hhi ht'' =>
        obtain ⟨lo', l1, l2⟩ := opt_gram hlo
        obtain ⟨hi', i1, i2⟩ := opt_gram hhi
        have s3 : Suf env r3 := by
          rcases hlo with ⟨_, rfl⟩ | ⟨_, _, h⟩
          · exact s2
          · exact h.suf'
        have s4 := (ht'.sadv he s3).suf s3
        have s5 : Suf env r5 := by
          rcases hhi with ⟨_, rfl⟩ | ⟨_, _, h⟩
          · exact s4
          · exact h.suf'
        exact ih (.slice a (pubPos fn t.pos) lo' hi') (by simp [Export.expr, ha, l1, i1]; rfl)
          (.slice hc g1.1 hm l2 (ht'.mark he s3) i2 (ht''.mark he s5))
    · rw [ok_ite] at h
      rcases h with ⟨g2, h⟩ | ⟨g2, h⟩
      · simp only [Bool.and_eq_true, Bool.not_eq_true', beq_iff_eq] at g2
        rw [ok_bind] at h
        obtain ⟨o, r3, h3, h⟩ := h
        have h4 := h3.wp parseDot_spec
        cases o with
        | none =>
          rw [bind_seekSet] at h
          cases (ok_pure.1 h).1
        | some e =>
          obtain ⟨h5, rfl⟩ := ok_pure.1 h
          cases h5
          obtain ⟨j1, j2, j3, rfl, rfl⟩ := h4
          exact ih (.dot a (pubPos fn t.pos) ⟨pubPos fn (posOf env r2), (spanS iswordc r2).1⟩)
            (by simp [Export.expr, ha]; exact ⟨rfl, rfl⟩)
            (.dot hc g2.1 (dotBase_of j1 ha) ⟨t, lx, g2.2, rfl⟩ (member_span j2 j3))
      · rw [bind_seekSet] at h
        cases (ok_pure.1 h).1

theorem sliceEnd_run1 {q : Pos} {left : VExpr} {lo hi : Option VExpr} {r r1 r' : List Cell} {t : Token}
    (hhi : hi = none ∧ r1 = r ∨ ∃ x, hi = some x ∧ QR env r x r1)
    (ht : Tk env r1 .sqclose t r') :
    run(sliceEnd parseExpr1 q left lo, r) = .ok (.slice q left lo hi) r' := by
  unfold sliceEnd
  rcases hhi with ⟨rfl, rfl⟩ | ⟨x, rfl, hx⟩
  · rw [run_ok (tokpeek_run ht.1), if_neg (by simp [ht.2])]
    rw [run_ok (run_pure _ _), run_ok (expectSqclose_run ht)]
    rfl
  · obtain ⟨t2, q2, ht2, hf2⟩ := hx.first
    rw [run_ok (tokpeek_run ht2), if_pos hf2.2.2.1, run_ok hx.run1, run_ok (run_pure _ _),
      run_ok (expectSqclose_run ht)]
    rfl

theorem parseSlice_run1 {q : Pos} {left : VExpr} {lo hi : Option VExpr}
    {r r1 r2 r3 r' : List Cell} {t t' : Token}
    (hlo : lo = none ∧ r1 = r ∨ ∃ x, lo = some x ∧ QR env r x r1) (ht : Tk env r1 .colon t r2)
    (hhi : hi = none ∧ r3 = r2 ∨ ∃ x, hi = some x ∧ QR env r2 x r3) (ht' : Tk env r3 .sqclose t' r') :
    run(parseSubscript parseExpr1 q left, r) = .ok (.slice q left lo hi) r' := by
  unfold parseSubscript
  rcases hlo with ⟨rfl, rfl⟩ | ⟨x, rfl, hx⟩
  · rw [run_ok (tokpeek_run ht.1), if_pos ht.2, run_ok (tk_run ht.1)]
    exact sliceEnd_run1 hhi ht'
  · obtain ⟨t2, q2, ht2, hf2⟩ := hx.first
    rw [run_ok (tokpeek_run ht2), if_neg hf2.1, run_ok hx.run1, run_ok (tokpeek_run ht.1), if_pos ht.2,
      run_ok (tk_run ht.1)]
    exact sliceEnd_run1 hhi ht'

theorem lvBody_sub {l e : VExpr} {t : Token} {r1 : List Cell} (ht : Tk env r .sqopen t r1)
    (hw : (headSym r).is iswhite = false) (h : run(parseSubscript parseExpr1 t.pos l, r1) = .ok e r') :
    Ok env (lvBody l) r (.inl e) r' := by
  unfold lvBody
  rw [bind_tell, bind_peek, bind_tokget]
  refine ⟨t, r1, ht.1, ?_⟩
  rw [if_pos (by simp [hw, ht.2]), ok_bind]
  exact ⟨e, r', h, ok_pure.2 ⟨rfl, rfl⟩⟩

theorem chain_complete (he : EnvOK env) (hs : Suf env r) {a : Ast.Expr} {r1 : List Cell} (h : LvChain env fn r a r1) :
    ∃ v, Export.expr fn v = some a ∧ ∀ w r', Ok env (loop lvBody v) r1 w r' → Ok env lv8 r w r' := by
  induction h with
  | start h =>
    obtain ⟨_, v, h1, h2⟩ := lv9_complete he hs h
    refine ⟨v, h1, fun w r' h3 => ?_⟩
    rw [lv8_eq, ok_bind]
    exact ⟨v, _, h2, h3⟩
  | subscript hc hw hq hx hq' ih =>
    obtain ⟨v, v1, v2⟩ := ih
    have s1 := (hc.adv he hs).suf hs
    obtain ⟨t, ht, rfl⟩ := hq.tk he s1
    have a2 := ht.sadv he s1
    have s2 := a2.suf s1
    obtain ⟨vx, x1, x2⟩ := (gram_run he hx).qr s2
    obtain ⟨t', ht', _⟩ := hq'.tk he x2.suf'
    obtain ⟨t0, r0, f1, f2⟩ := x2.first
    refine ⟨.subscript t.pos v vx, by simp [Export.expr, v1, x1]; rfl, fun w r' h3 => v2 w r' ?_⟩
    refine loop_more (lvBody_sub ht hw (parseSubscript_run f1 f2.1 x2.run1 ht'.1 ht'.2)) ?_ h3
    exact (a2.trans (x2.adv.trans (ht'.sadv he x2.suf'))).lt
  | slice hc hw hq hlo hq' hhi hq'' ih =>
    obtain ⟨v, v1, v2⟩ := ih
    have s1 := (hc.adv he hs).suf hs
    obtain ⟨t, ht, rfl⟩ := hq.tk he s1
    have a2 := ht.sadv he s1
    have s2 := a2.suf s1
    obtain ⟨a3, vlo, x1, x2⟩ := opt_run he hlo s2
    have s3 := a3.suf s2
    obtain ⟨t', ht', _⟩ := hq'.tk he s3
    have a4 := ht'.sadv he s3
    have s4 := a4.suf s3
    obtain ⟨a5, vhi, y1, y2⟩ := opt_run he hhi s4
    have s5 := a5.suf s4
    obtain ⟨t'', ht'', _⟩ := hq''.tk he s5
    refine ⟨.slice t.pos v vlo vhi, by simp [Export.expr, v1, x1, y1]; rfl, fun w r' h3 => v2 w r' ?_⟩
    refine loop_more (lvBody_sub ht hw (parseSlice_run1 x2 ht' y2 ht'')) ?_ h3
    exact (a2.trans (a3.trans_sadv (a4.trans (a5.trans_sadv (ht''.sadv he s5))))).lt
  | dot hc hw hd hq hm ih =>
    obtain ⟨v, v1, v2⟩ := ih
    have s1 := (hc.adv he hs).suf hs
    obtain ⟨t, ht, rfl⟩ := hq.tk he s1
    rename_i r2 m _
    refine ⟨.dot t.pos v (posOf env r2) m, by simp [Export.expr, v1]; exact ⟨rfl, rfl⟩, fun w r' h3 => v2 w r' ?_⟩
    refine loop_more ?_ ?_ h3
    · unfold lvBody
      rw [bind_tell, bind_peek, bind_tokget]
      refine ⟨t, _, ht.1, ?_⟩
      rw [if_neg (by simp [ht.2]), if_pos (by simp [hw, ht.2]), ok_bind]
      exact ⟨_, _, parseDot_some (dotLeft_of hd v1) hm, ok_pure.2 ⟨rfl, rfl⟩⟩
    · exact ((ht.sadv he s1).trans_adv hm.1.adv).lt

theorem lv8_complete (he : EnvOK env) (hs : Suf env r) {a : Ast.Expr} (h : Lv env fn r a r') :
    ∃ v, Export.expr fn v = some a ∧ Ok env lv8 r v r' := by
  obtain ⟨hc, t, r2, lx, hn⟩ := h
  obtain ⟨v, v1, v2⟩ := chain_complete he hs hc
  refine ⟨v, v1, v2 v r' (loop_done ?_)⟩
  have s1 := (hc.adv he hs).suf hs
  have ht := (tokGet_iff he s1 _ _).2 lx
  unfold lvBody
  rw [bind_tell, bind_peek, bind_tokget]
  refine ⟨t, r2, ht, ?_⟩
  by_cases hw : (headSym r').is iswhite = true
  · rw [if_neg (by simp [hw]), if_neg (by simp [hw]), bind_seekSet]
    exact ok_pure.2 ⟨rfl, rfl⟩
  · have hw : (headSym r').is iswhite = false := by simpa using hw
    rw [if_neg (by simp [hw, (hn hw).1])]
    by_cases hd : t.ty = .dot
    · rw [if_pos (by simp [hw, hd]), ok_bind]
      obtain ⟨r3, h3⟩ := parseDot_none (env := env) (t := t) (left := v) (r := r2)
        fun k1 k2 => (hn hw).2 ⟨hd, dotBase_of k1 v1, k2⟩
      refine ⟨none, r3, h3, ?_⟩
      simp only [bind_seekSet]
      exact ok_pure.2 ⟨rfl, rfl⟩
    · rw [if_neg (by simp [hd]), bind_seekSet]
      exact ok_pure.2 ⟨rfl, rfl⟩

theorem Spec.Lv.adv (he : EnvOK env) {a : Ast.Expr} (h : Lv env fn r a r') (hs : Suf env r) : SAdv r r' := h.1.adv he hs

/-! ### What can be assigned to -/

theorem isVarBody_iff {s : Str} : isVarBody s = true ↔
    ∃ c t, s = c :: t ∧ (isalpha c = true ∨ c = '_') ∧ ∀ x ∈ t, varChar x = true := by
  refine ⟨isVarBody_spec, ?_⟩
  rintro ⟨c, t, rfl, h1, h2⟩
  simp only [isVarBody, iswordc1, iswordc, Bool.and_eq_true, Bool.or_eq_true, beq_iff_eq, List.all_eq_true]
  refine ⟨h1, fun x hx => ?_⟩
  simpa [varChar, or_assoc] using h2 x hx

theorem isvarname_iff {v : Str} : isvarname v = true ↔ VarName v := by
  refine ⟨isvarname_spec, ?_⟩
  rintro (⟨s, rfl, hs⟩ | ⟨pre, c, t, rfl, rfl | ⟨s, rfl, hs⟩, h1, h2⟩)
  · simp [isvarname, isScopeC, hs]
  · have hb := isVarBody_iff.2 ⟨c, t, rfl, h1, h2⟩
    cases t with
    | nil => exact hb
    | cons d t =>
      simp only [List.nil_append, isvarname]
      rw [if_neg]
      · exact hb
      · simp only [Bool.and_eq_true, beq_iff_eq]
        rintro ⟨_, rfl⟩
        exact absurd (h2 ':' (by simp)) (by decide)
  · have hb := isVarBody_iff.2 ⟨c, t, rfl, h1, h2⟩
    simp only [List.cons_append, List.nil_append, isvarname]
    rw [if_pos (by simp [isScopeC, hs])]
    simp [hb]

theorem lvalueFunc_iff {e : VExpr} {a : Ast.Expr} (ha : Export.expr fn e = some a) :
    isLvalueFunc e = true ↔ funcTarget a := by
  refine ⟨fun h => funcTarget_of h ha, fun h => ?_⟩
  cases e
  case atom q t v =>
    simp only [Export.expr, Option.some.injEq] at ha
    subst ha
    cases t <;> simp [Export.atom, funcTarget] at h <;> rfl
  case curlyname => rfl
  case subscript => rfl
  case dot => rfl
  case method q l x =>
    exfalso
    cases x <;> simp only [Export.expr, Option.bind_eq_bind, Option.bind_eq_some_iff] at ha
    all_goals first
      | (obtain ⟨_, _, _, _, _, _, ha⟩ := ha; cases ha; exact h)
      | (obtain ⟨_, _, _, _, ha⟩ := ha; cases ha; exact h)
      | (obtain ⟨_, _, ha⟩ := ha; cases ha; exact h)
      | cases ha
  all_goals
    exfalso
    simp only [Export.expr, Option.bind_eq_bind, Option.bind_eq_some_iff, Option.some.injEq] at ha
    first
      | (subst ha; exact h)
      | (obtain ⟨_, _, _, _, _, _, ha⟩ := ha; cases ha; exact h)
      | (obtain ⟨_, _, _, _, ha⟩ := ha; cases ha; exact h)
      | (obtain ⟨_, _, ha⟩ := ha; cases ha; exact h)

theorem lvalue_iff {e : VExpr} {a : Ast.Expr} (ha : Export.expr fn e = some a) :
    (isLvalue e = true ∧ badVarname e = none) ↔ target a := by
  refine ⟨fun h => target_of h.1 h.2 ha, fun h => ?_⟩
  have key : (∃ q l lo hi, e = .slice q l lo hi) ∨ isLvalueFunc e = true := by
    cases a
    case slice =>
      left
      cases e
      case slice => exact ⟨_, _, _, _, rfl⟩
      case atom q t v => cases t <;> simp [Export.expr, Export.atom] at ha
      case method q l x => cases x <;> simp [Export.expr, Option.bind_eq_some_iff] at ha
      case curlyname =>
        simp only [Export.expr, Option.bind_eq_bind, Option.bind_eq_some_iff] at ha
        obtain ⟨_, _, ha⟩ := ha
        split at ha <;> cases ha
      all_goals simp [Export.expr, Option.bind_eq_some_iff] at ha
    all_goals first
      | exact h.elim
      | (right; exact (lvalueFunc_iff ha).2 (by first | exact h | trivial))
  rcases key with ⟨q, l, lo, hi, rfl⟩ | hf
  · exact ⟨rfl, rfl⟩
  refine ⟨by cases e <;> first | exact hf | rfl, ?_⟩
  cases e
  case atom q t v =>
    cases t
    case identifier =>
      simp only [Export.expr, Export.atom, Option.some.injEq] at ha
      subst ha
      simp only [badVarname]
      rw [if_pos (isvarname_iff.2 h)]
    all_goals rfl
  all_goals rfl

theorem func_sound (he : EnvOK env) (hs : Suf env r) {v : VExpr} (h : Ok env parseLvalueFunc r v r') :
    ∃ a, Export.expr fn v = some a ∧ FuncName env fn r a r' := by
  unfold parseLvalueFunc at h
  rw [ok_bind] at h
  obtain ⟨e, r1, h1, h⟩ := h
  rw [ok_ite] at h
  rcases h with ⟨h2, h⟩ | ⟨_, h⟩
  · obtain ⟨rfl, rfl⟩ := ok_pure.1 h
    obtain ⟨a, k1, k2⟩ := lv8_sound (fn := fn) he hs h1
    exact ⟨a, k1, k2, (lvalueFunc_iff k1).1 h2⟩
  · exact (ok_errAt.1 h).elim

theorem func_complete (he : EnvOK env) (hs : Suf env r) {a : Ast.Expr} (h : FuncName env fn r a r') :
    ∃ v, Export.expr fn v = some a ∧ Ok env parseLvalueFunc r v r' := by
  obtain ⟨v, k1, k2⟩ := lv8_complete he hs h.1
  refine ⟨v, k1, ?_⟩
  unfold parseLvalueFunc
  rw [ok_bind]
  refine ⟨v, r', k2, ?_⟩
  rw [if_pos ((lvalueFunc_iff k1).2 h.2)]
  exact ok_pure.2 ⟨rfl, rfl⟩

theorem lvalue_sound (he : EnvOK env) (hs : Suf env r) {v : VExpr} (h : Ok env parseLvalue r v r') :
    ∃ a, Export.expr fn v = some a ∧ Target env fn r a r' := by
  unfold parseLvalue at h
  rw [ok_bind] at h
  obtain ⟨e, r1, h1, h⟩ := h
  split at h
  · exact (ok_errAt.1 h).elim
  · rename_i hb
    rw [ok_ite] at h
    rcases h with ⟨h2, h⟩ | ⟨_, h⟩
    · obtain ⟨rfl, rfl⟩ := ok_pure.1 h
      obtain ⟨a, k1, k2⟩ := lv8_sound (fn := fn) he hs h1
      exact ⟨a, k1, k2, (lvalue_iff k1).1 ⟨h2, hb⟩⟩
    · exact (ok_errAt.1 h).elim

theorem lvalue_complete (he : EnvOK env) (hs : Suf env r) {a : Ast.Expr} (h : Target env fn r a r') :
    ∃ v, Export.expr fn v = some a ∧ Ok env parseLvalue r v r' := by
  obtain ⟨v, k1, k2⟩ := lv8_complete he hs h.1
  refine ⟨v, k1, ?_⟩
  obtain ⟨j1, j2⟩ := (lvalue_iff k1).2 h.2
  unfold parseLvalue
  rw [ok_bind]
  refine ⟨v, r', k2, ?_⟩
  rw [j2]
  simp only
  rw [if_pos j1]
  exact ok_pure.2 ⟨rfl, rfl⟩

theorem const_sound (he : EnvOK env) (hs : Suf env r) {v : VExpr} (h : Ok env parseConstlvalue r v r') :
    ∃ a, Export.expr fn v = some a ∧ ConstTarget env fn r a r' := by
  unfold parseConstlvalue at h
  rw [ok_bind] at h
  obtain ⟨e, r1, h1, h⟩ := h
  obtain ⟨a, k1, k2⟩ := lv8_sound (fn := fn) he hs h1
  split at h
  · exact (ok_errAt.1 h).elim
  · rename_i hb
    split at h <;> try exact (ok_errAt.1 h).elim
    · obtain ⟨rfl, rfl⟩ := ok_pure.1 h
      refine ⟨a, k1, ⟨k2, (lvalue_iff k1).1 ⟨rfl, hb⟩⟩, .inl ?_⟩
      simp only [Export.expr, Export.atom, Option.some.injEq] at k1
      exact ⟨_, k1.symm⟩
    · obtain ⟨rfl, rfl⟩ := ok_pure.1 h
      refine ⟨a, k1, ⟨k2, (lvalue_iff k1).1 ⟨rfl, hb⟩⟩, .inr ?_⟩
      simp only [Export.expr, Option.bind_eq_bind, Option.bind_eq_some_iff] at k1
      obtain ⟨_, _, ha⟩ := k1
      split at ha <;> cases ha
      exact ⟨_, _, rfl⟩

theorem expr_curly {e : VExpr} {q : Ast.Pos} {ps : List Ast.Expr} (ha : Export.expr fn e = some (.curlyName q ps)) :
    ∃ q' ps', e = .curlyname q' ps' := by
  cases e
  case curlyname => exact ⟨_, _, rfl⟩
  case atom q t v => cases t <;> simp [Export.expr, Export.atom] at ha
  case method q l r => cases r <;> simp [Export.expr, Option.bind_eq_some_iff] at ha
  all_goals simp [Export.expr, Option.bind_eq_some_iff] at ha

theorem const_complete (he : EnvOK env) (hs : Suf env r) {a : Ast.Expr} (h : ConstTarget env fn r a r') :
    ∃ v, Export.expr fn v = some a ∧ Ok env parseConstlvalue r v r' := by
  obtain ⟨v, k1, k2⟩ := lv8_complete he hs h.1.1
  refine ⟨v, k1, ?_⟩
  obtain ⟨j1, j2⟩ := (lvalue_iff k1).2 h.1.2
  unfold parseConstlvalue
  rw [ok_bind]
  refine ⟨v, r', k2, ?_⟩
  rw [j2]
  rcases h.2 with ⟨i, rfl⟩ | ⟨q, ps, rfl⟩
  · obtain ⟨q, rfl⟩ := expr_ident k1
    exact ok_pure.2 ⟨rfl, rfl⟩
  · obtain ⟨q', ps', rfl⟩ := expr_curly k1
    exact ok_pure.2 ⟨rfl, rfl⟩

end
end Viml
