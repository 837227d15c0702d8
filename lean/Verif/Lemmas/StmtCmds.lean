/-
Soundness of the parsers of `:let`, of the block commands and of the remaining commands, and of the
command dispatcher.
-/
import Verif.Lemmas.StmtHandlers

namespace Viml
open Prog Spec

section
variable {env : Env} {P : Nat → ERel} {T : Env → List Cell → Res Token}

/-! ### Heredocs and :let -/

theorem Spec.White.append {a b : Str} (h1 : White a) (h2 : White b) : White (a ++ b) := by
  intro c hc
  rcases List.mem_append.1 hc with hc | hc
  · exact h1 c hc
  · exact h2 c hc

theorem Spec.HHead.white {r r1 r' : List Cell} {w op : Str} {fs : List (Pos × Str)}
    (h1 : Reads r w r1) (hw : White w) (h : HHead env r1 fs op r') : HHead env r fs op r' := by
  cases h with
  | marker a b c d e f => exact .marker (h1.append a) (hw.append b) c d e f
  | flag a b c d e f g => exact .flag (h1.append a) (hw.append b) c d e f g

theorem heredocHead_spec {r : List Cell} {F : Fail → Prop} :
    wp T env heredocHead r (fun x r' => Adv r r' ∧ (x.2 ≠ [] → HHead env r x.1 x.2 r')) F := by
  unfold heredocHead
  refine wp_loop (fun rl r1 => Adv r r1 ∧ ∀ fs op r', HHead env r1 fs op r' → HHead env r (rl ++ fs) op r')
    ⟨Adv.refl r, fun _ _ _ h => h⟩ ?_
  rintro rl r1 ⟨h1, h2⟩
  refine wp_bind (wp_skipWhite (wp_bind (wp_getpos (wp_bind (wp_readWhile ?_)))))
  have hw := spanS_reads iswhite r1
  have hwa := spanS_all iswhite r1
  generalize (spanS iswhite r1).1 = w at *
  generalize (spanS iswhite r1).2 = r2 at *
  have h3 := h1.trans hw.adv
  have hlw := hw.adv.length
  have hr := spanS_reads iswordc r2
  have hall := spanS_all iswordc r2
  have hstop := spanS_stop_is iswordc r2
  have h4 := h3.trans hr.adv
  cases hk : (spanS iswordc r2).1 with
  | nil => exact wp_pure ⟨h4, fun h => absurd rfl h⟩
  | cons c k =>
    rw [hk] at hr hall
    have head : ∀ d, (c :: k).head? = some d → islower d = islower c := by
      intro d hd
      simp only [List.head?_cons, Option.some.injEq] at hd
      rw [hd]
    refine wp_ite (fun hc => ?_) (fun hc => ?_)
    · refine wp_pure ⟨h4, fun _ => ?_⟩
      have := h2 [] _ _ (.marker hw hwa hr ⟨by simp, hall⟩ hstop (fun d hd => by
        rw [head d hd]; simpa using hc))
      rwa [List.append_nil] at this
    · refine wp_pure ⟨?_, h4, ?_⟩
      · have := (hr.sadv (by simp)).lt
        omega
      · intro fs op r' hh
        rw [List.append_assoc]
        exact h2 _ _ _ (.flag hw hwa hr ⟨by simp, hall⟩ hstop (fun d hd => by
          rw [head d hd]; simpa using hc) hh)

theorem heredocBody_spec (he : EnvOK env) {op : Str} {r : List Cell} (hs : Suf env r) :
    wp T env (heredocBody op) r (fun body r' => HLines env op r body r' ∧ r' <:+ r) (SErr env) := by
  unfold heredocBody
  refine wp_loop (fun body r1 => r1 <:+ r ∧ ∀ b r', HLines env op r1 b r' → HLines env op r (body ++ b) r')
    ⟨List.suffix_rfl, fun _ _ h => h⟩ ?_
  rintro body r1 ⟨h1, h2⟩
  have hs1 := hs.of_suffix h1
  refine wp_bind (wp_peek ?_)
  refine wp_ite (fun _ => wp_errHere (err_pos hs1)) (fun hne => ?_)
  have hr1 : r1 ≠ [] := by rintro rfl; exact hne rfl
  refine wp_bind (wp_getpos (wp_bind (wp_getline ?_)))
  obtain ⟨e, r2, e1, e2, e3⟩ := line_eol he hs1 hr1
  have hsf : (e :: r2) <:+ r1 := e3.adv.suffix
  refine wp_ite (fun h => ?_) (fun h => ?_)
  · refine wp_pure ⟨?_, ?_⟩
    · have := h2 [] (e :: r2) (.done (h ▸ e3) (Or.inl (by simp [headSym, Cell.sym, e2])))
      rw [e1]
      rwa [List.append_nil] at this
    · rw [e1]; exact hsf.trans h1
  · refine wp_bind (wp_get (wp_pure ?_))
    rw [e1]
    refine ⟨?_, ((List.suffix_cons e r2).trans hsf).trans h1, ?_⟩
    · have := hsf.length_le
      simp at this ⊢
      omega
    · intro b r' hb
      rw [List.append_assoc]
      exact h2 _ _ (.cons e3 e2 h hb)

theorem parseHeredoc_spec (he : EnvOK env) {ea : ExArg} {r0 rb r1 r : List Cell} {w : Str} {st : PState}
    (hs : Suf env r0) (ha : Adv r0 rb) (hrb : ArgOn env ea rb) (hr : Reads rb cs!"=<<" r1)
    (hw : Reads r1 w r) (hwa : White w) :
    wp T env (parseHeredoc ea st) r (fun x r' => r' <:+ r0 ∧ HereOK env ea x.1 ∧
      (x.2 = st ∨ ∃ n, x.2 = st.add n ∧ Simple env P st n)) (SErr env) := by
  unfold parseHeredoc
  have har := (ha.trans hr.adv).trans hw.adv
  refine wp_call heredocHead_spec ?_
  rintro ⟨rl, op⟩ r2 ⟨h1, h2⟩
  have a2 := har.trans h1
  refine wp_ite (fun _ => wp_errHere (err_pos (a2.suf hs))) (fun hop => ?_)
  have hh := (h2 hop).white hw hwa
  refine wp_call (parseTrail_spec (P := P) he (a2.suf hs)) ?_
  rintro st' r3 ⟨ht, hst⟩
  refine wp_call (heredocBody_spec he ((a2.suf hs).of_suffix ht.suffix)) ?_
  rintro body r4 ⟨hb, hsf⟩
  exact wp_pure ⟨(hsf.trans ht.suffix).trans a2.suffix, .mk hrb ⟨r1, r2, r3, hr, hh, ht, hb⟩, hst⟩

theorem isOpAssign_mem {s : Str} (h : isOpAssign s = true) : s ∈ letOps := by
  unfold isOpAssign at h
  simp only [Bool.or_eq_true, beq_iff_eq] at h
  rcases h with (((((rfl | rfl) | rfl) | rfl) | rfl) | rfl) | rfl <;> decide

/-- Peeking `n` characters and then consuming what was seen. -/
theorem getn_peek {n : Nat} {r : List Cell} {s : Str} (h : (getnS n r).1 = s) :
    Reads r s (getnS s.length r).2 := by
  have h1 := getnS_reads n r
  rw [h] at h1
  have h2 := (Starts.of_reads h1)
  have h3 := h2.getn
  rw [h3]
  exact h2.reads

theorem cmdLet_spec (he : EnvOK env) (hP : Closed env P) {ea : ExArg} {cmd : Cmd} {r0 r : List Cell}
    {st : PState} (hi : HIn env ea .let_ r0 r st) :
    wp tokGet env (cmdLet ea cmd st) r (HOut env P r0 st) (SErr env) := by
  unfold cmdLet
  refine wp_bind (wp_tell (wp_bind (wp_skipWhite (wp_bind (wp_peek ?_)))))
  have h1 := hi.adv.trans (spanS_adv iswhite r)
  have ha1 := hi.arg.adv (spanS_adv iswhite r)
  generalize (spanS iswhite r).2 = r1 at *
  refine wp_ite (fun _ => wp_bind (wp_seekSet (cmdCommon_out he hi rfl))) (fun _ => ?_)
  refine wp_call (parseLhs_spec (C := fun _ => True) he hP (h1.suf hi.suf0)
    (wp_mono (parseLvalue_spec he hP (h1.suf hi.suf0)) (fun _ _ h => ⟨h, trivial⟩))) ?_
  rintro lhs r2 ⟨hlhs, _, h2⟩
  refine wp_bind (wp_skipWhite (wp_bind (wp_peekn (wp_bind (wp_peekn ?_)))))
  have h3 := (h1.trans h2).trans (spanS_adv iswhite r2)
  have harg := (ha1.adv h2).adv (spanS_adv iswhite r2)
  generalize (spanS iswhite r2).2 = r3 at *
  have hs1 : Reads r3 (getnS 1 r3).1 (getnS 1 r3).2 := getnS_reads 1 r3
  generalize (getnS 1 r3).1 = s1 at hs1 ⊢
  wp_join (fun s2 r' => r' = r3 ∧ Reads r3 s2 (getnS s2.length r3).2)
  · intro jp hjp
    exact wp_ite (fun _ => wp_bind (wp_peekn (hjp _ _ ⟨rfl, getn_peek rfl⟩)))
      (fun _ => wp_bind (wp_pure (hjp _ _ ⟨rfl, getn_peek rfl⟩)))
  · rintro s2 _ ⟨rfl, hs2⟩
    refine wp_ite (fun _ => wp_bind (wp_seekSet (cmdCommon_out he hi rfl))) (fun hc => ?_)
    refine wp_ite (fun hop => ?_) (fun h4 => ?_)
    · refine wp_bind (wp_getn ?_)
      have h5 := h3.trans hs2.adv
      refine wp_call (expr_spec he hP (h5.suf hi.suf0)) ?_
      intro e r6 hx
      exact wp_pure (.add (.let_ hi.eaOK hi.cmd hlhs (isOpAssign_mem hop) harg hs2 hx.der)
        (h5.trans hx.der.adv.1))
    refine wp_ite (fun hop => ?_) (fun h5 => ?_)
    · subst hop
      refine wp_bind (wp_getn (wp_bind (wp_skipWhite ?_)))
      refine wp_call (parseHeredoc_spec (P := P) he hi.suf0 h3 harg hs2 (spanS_reads _ _) (spanS_all _ _)) ?_
      rintro ⟨e, st'⟩ r6 ⟨hsf, hh, hst⟩
      have hm : IsMulti (.let_ ea.cmdpos ea cs!"=<<" lhs e) := by
        simp only at hh
        cases hh
        exact trivial
      refine wp_pure ?_
      have hn : ∀ st', Simple env P st' (.let_ ea.cmdpos ea cs!"=<<" lhs e) := fun st' =>
        .heredoc hi.eaOK hi.cmd hlhs hh
      rcases hst with hst | ⟨n, hst, hsn⟩
      · simp only at hst
        subst hst
        exact .multi (hn _) hsf hm
      · simp only at hst
        subst hst
        refine ⟨⟨[], (Steps.add hsn).trans (Steps.add (hn _)), by simp⟩,
          Or.inr ⟨hsf, [n, .let_ ea.cmdpos ea cs!"=<<" lhs e], _, ?_, ?_, hm⟩⟩
        · simp only [PState.add, List.append_assoc]
          rfl
        · simp
    refine wp_ite (fun hop => ?_) (fun h6 => ?_)
    · subst hop
      refine wp_bind (wp_getn ?_)
      have h5 := h3.trans hs1.adv
      refine wp_call (expr_spec he hP (h5.suf hi.suf0)) ?_
      intro e r6 hx
      exact wp_pure (.add (.let_ hi.eaOK hi.cmd hlhs (by decide) harg hs1 hx.der)
        (h5.trans hx.der.adv.1))
    · exfalso
      simp only [Bool.not_eq_true] at h4
      simp [h4, h5, h6] at hc

theorem cmdConst_spec (he : EnvOK env) (hP : Closed env P) {ea : ExArg} {cmd : Cmd}
    {r0 r : List Cell} {st : PState} (hi : HIn env ea .const_ r0 r st) :
    wp tokGet env (cmdConst ea cmd st) r (HOut env P r0 st) (SErr env) := by
  unfold cmdConst
  refine wp_bind (wp_tell (wp_bind (wp_skipWhite (wp_bind (wp_peek ?_)))))
  have h1 := hi.adv.trans (spanS_adv iswhite r)
  have ha1 := hi.arg.adv (spanS_adv iswhite r)
  generalize (spanS iswhite r).2 = r1 at *
  refine wp_ite (fun _ => wp_bind (wp_seekSet (cmdCommon_out he hi rfl))) (fun _ => ?_)
  refine wp_call (parseLhs_spec (C := fun e => constTarget e = true) he hP (h1.suf hi.suf0)
    (parseConstlvalue_spec he hP (h1.suf hi.suf0))) ?_
  rintro lhs r2 ⟨hlhs, hct, h2⟩
  refine wp_bind (wp_skipWhite (wp_bind (wp_peekn ?_)))
  have h3 := (h1.trans h2).trans (spanS_adv iswhite r2)
  have harg := (ha1.adv h2).adv (spanS_adv iswhite r2)
  generalize (spanS iswhite r2).2 = r3 at *
  refine wp_ite (fun _ => wp_bind (wp_seekSet (cmdCommon_out he hi rfl))) (fun hop => ?_)
  simp only [ne_eq, not_or, Decidable.not_not] at hop
  have hr := getnS_reads 1 r3
  rw [hop.2] at hr ⊢
  refine wp_bind (wp_getn ?_)
  have h5 := h3.trans (getnS_adv 1 _)
  refine wp_call (expr_spec he hP (h5.suf hi.suf0)) ?_
  intro e r6 hx
  exact wp_pure (.add (.const_ hi.eaOK hi.cmd hlhs hct harg hr hx.der) (h5.trans hx.der.adv.1))

theorem parseDepth_spec {ea : ExArg} {r : List Cell} (hr : ArgIs env ea r) :
    wp T env parseDepth r (fun d r' => DepthOK env ea d ∧ Adv r r') (SErr env) := by
  unfold parseDepth
  refine wp_bind (wp_skipWhite (wp_bind (wp_peekn ?_)))
  have h1 := spanS_reads iswhite r
  have hw := spanS_all iswhite r
  have hs := hr.1
  generalize (spanS iswhite r).2 = r1 at *
  generalize (spanS iswhite r).1 = w at *
  refine wp_ite (fun h => ?_) (fun h => wp_pure ⟨⟨r, w, [], r1, hr, by rwa [List.append_nil], hw, by simp,
    by rw [peek1_is] at h; simpa using h, rfl⟩, h1.adv⟩)
  refine wp_bind (wp_readWhile ?_)
  have hr1 := spanS_reads isdigit r1
  have hst := spanS_stop_is isdigit r1
  refine str2nr_spec (h1.adv.suf hs) hr1 ⟨?_, spanS_all isdigit r1⟩
    ⟨⟨r, w, _, _, hr, h1.append hr1, hw, spanS_all isdigit r1, hst, rfl⟩, h1.adv.trans hr1.adv⟩
  rw [peek1_is] at h
  intro hn
  have := spanS_stop_is isdigit r1
  rw [hn] at hr1
  rw [hr1.unnil, h] at this
  simp at this

theorem cmdUnlet_spec (he : EnvOK env) (hP : Closed env P) {ea : ExArg} {r0 r : List Cell}
    {st : PState} (hi : HIn env ea .unlet r0 r st) :
    wp tokGet env (cmdUnlet ea st) r (HOut env P r0 st) (SErr env) := by
  unfold cmdUnlet
  refine wp_call (parseLvaluelist_spec he hP hi.suf) ?_
  rintro l r1 ⟨hl, h1⟩
  exact wp_pure (.add (.unlet hi.eaOK hi.cmd hl) (hi.adv.trans h1))

theorem cmdLockvar_spec (he : EnvOK env) (hP : Closed env P) {ea : ExArg} {r0 r : List Cell}
    {st : PState} (hi : HIn env ea .lockvar r0 r st) :
    wp tokGet env (cmdLockvar ea st) r (HOut env P r0 st) (SErr env) := by
  unfold cmdLockvar
  refine wp_call (parseDepth_spec (hi.raw (by simp))) ?_
  rintro d r1 ⟨hd, h1⟩
  refine wp_call (parseLvaluelist_spec he hP (h1.suf hi.suf)) ?_
  rintro l r2 ⟨hl, h2⟩
  exact wp_pure (.add (.lockvar hi.eaOK hi.cmd hd hl) ((hi.adv.trans h1).trans h2))

theorem cmdUnlockvar_spec (he : EnvOK env) (hP : Closed env P) {ea : ExArg} {r0 r : List Cell}
    {st : PState} (hi : HIn env ea .unlockvar r0 r st) :
    wp tokGet env (cmdUnlockvar ea st) r (HOut env P r0 st) (SErr env) := by
  unfold cmdUnlockvar
  refine wp_call (parseDepth_spec (hi.raw (by simp))) ?_
  rintro d r1 ⟨hd, h1⟩
  refine wp_call (parseLvaluelist_spec he hP (h1.suf hi.suf)) ?_
  rintro l r2 ⟨hl, h2⟩
  exact wp_pure (.add (.unlockvar hi.eaOK hi.cmd hd hl) ((hi.adv.trans h1).trans h2))

theorem cmdDelfunction_spec (he : EnvOK env) (hP : Closed env P) {ea : ExArg} {r0 r : List Cell}
    {st : PState} (hi : HIn env ea .delfunction r0 r st) :
    wp tokGet env (cmdDelfunction ea st) r (HOut env P r0 st) (SErr env) := by
  unfold cmdDelfunction
  refine wp_call (parseLvalueFunc_spec he hP hi.suf) ?_
  rintro e r1 ⟨hx, hlf⟩
  exact wp_pure (.add (.delfunction hi.eaOK hi.cmd (hx.derE hP (by omega)) hlf) (hi.adv.trans hx.der.adv.1))

theorem cmdReturn_spec (he : EnvOK env) (hP : Closed env P) {ea : ExArg} {r0 r : List Cell}
    {st : PState} (hi : HIn env ea .return_ r0 r st) :
    wp tokGet env (cmdReturn ea st) r (HOut env P r0 st) (SErr env) := by
  unfold cmdReturn
  refine wp_ite (fun _ => wp_errAt hi.pos) (fun hc => ?_)
  simp only [Bool.not_eq_true', Bool.not_eq_false] at hc
  refine wp_bind (wp_skipWhite (wp_bind (wp_peek ?_)))
  have h1 := hi.adv.trans (spanS_adv iswhite r)
  refine wp_ite (fun _ => ?_) (fun _ => wp_pure (.add (.return_ hi.eaOK hi.cmd hc (by simp)) h1))
  refine wp_call (expr_spec he hP (h1.suf hi.suf0)) ?_
  intro e r6 hx
  refine wp_pure (.add (.return_ hi.eaOK hi.cmd hc ?_) (h1.trans hx.der.adv.1))
  intro y hy
  simp only [Option.some.injEq] at hy
  exact hy ▸ hx.derE hP (by omega)

theorem cmdCall_spec (he : EnvOK env) (hP : Closed env P) {ea : ExArg} {r0 r : List Cell}
    {st : PState} (hi : HIn env ea .call r0 r st) :
    wp tokGet env (cmdCall ea st) r (HOut env P r0 st) (SErr env) := by
  unfold cmdCall
  refine wp_bind (wp_skipWhite (wp_bind (wp_peek ?_)))
  have h1 := hi.adv.trans (spanS_adv iswhite r)
  refine wp_ite (fun _ => wp_errHere (err_pos (h1.suf hi.suf0))) (fun _ => ?_)
  refine wp_call (expr_spec he hP (h1.suf hi.suf0)) ?_
  intro e r6 hx
  refine wp_ite (fun _ => wp_errAt hx.pos) (fun hc => ?_)
  cases e <;> first | exact absurd rfl hc | skip
  exact wp_pure (.add (.excall hi.eaOK hi.cmd (hx.derE hP (by omega))) (h1.trans hx.der.adv.1))

/-! ### Blocks -/

theorem popCtx_spec {st : PState} {e : Option EndNode} (h : st.stack ≠ []) {r : List Cell}
    {F : Fail → Prop} :
    wp T env (popCtx st e) r (fun s r' => st.pop e = some s ∧ r' = r) F := by
  obtain ⟨s, hs⟩ := pop_some h e
  unfold popCtx
  rw [hs]
  exact wp_pure ⟨rfl, rfl⟩

theorem stack_ne_of {st : PState} (ho : st.OK) {f : Head → Bool} (hf : f .toplevel = false)
    (h : f st.cur.head = true) : st.stack ≠ [] := by
  refine ho.stack_ne ?_
  cases hh : st.cur.head <;> first | rfl | skip
  rw [hh, hf] at h
  simp at h

theorem cmdIf_spec (he : EnvOK env) (hP : Closed env P) {ea : ExArg} {r0 r : List Cell}
    {st : PState} (hi : HIn env ea .if_ r0 r st) :
    wp tokGet env (cmdIf ea st) r (HOut env P r0 st) (SErr env) := by
  unfold cmdIf
  refine wp_call (expr_spec he hP hi.suf) ?_
  intro e r1 hx
  exact wp_pure (.one (.opens (.if_ hi.eaOK hi.cmd (hx.derE hP (by omega)))) (hi.adv.trans hx.der.adv.1))

theorem cmdWhile_spec (he : EnvOK env) (hP : Closed env P) {ea : ExArg} {r0 r : List Cell}
    {st : PState} (hi : HIn env ea .while_ r0 r st) :
    wp tokGet env (cmdWhile ea st) r (HOut env P r0 st) (SErr env) := by
  unfold cmdWhile
  refine wp_call (expr_spec he hP hi.suf) ?_
  intro e r1 hx
  exact wp_pure (.one (.opens (.while_ hi.eaOK hi.cmd (hx.derE hP (by omega)))) (hi.adv.trans hx.der.adv.1))

theorem cmdFor_spec (he : EnvOK env) (hP : Closed env P) {ea : ExArg} {r0 r : List Cell}
    {st : PState} (hi : HIn env ea .for_ r0 r st) :
    wp tokGet env (cmdFor ea st) r (HOut env P r0 st) (SErr env) := by
  unfold cmdFor
  refine wp_call (parseLhs_spec (C := fun _ => True) he hP hi.suf
    (wp_mono (parseLvalue_spec he hP hi.suf) (fun _ _ h => ⟨h, trivial⟩))) ?_
  rintro lhs r1 ⟨hl, _, h1⟩
  refine wp_bind (wp_skipWhite (wp_bind (wp_getpos (wp_bind (wp_readWhile ?_)))))
  have h2 := (hi.adv.trans h1).trans (spanS_adv iswhite r1)
  have h3 := h2.trans (spanS_adv isalpha _)
  refine wp_ite (fun _ => wp_errAt (h2.suf hi.suf0).posOf) (fun _ => ?_)
  refine wp_call (expr_spec he hP (h3.suf hi.suf0)) ?_
  intro e r4 hx
  exact wp_pure (.one (.opens (.for_ hi.eaOK hi.cmd hl (hx.derE hP (by omega)))) (h3.trans hx.der.adv.1))

theorem cmdTry_spec {ea : ExArg} {r0 r : List Cell}
    {st : PState} (hi : HIn env ea .try_ r0 r st) {F : Fail → Prop} :
    wp T env (cmdTry ea st) r (HOut env P r0 st) F :=
  wp_pure (.one (.opens (.try_ hi.eaOK hi.cmd)) hi.adv)

/-- Before a part of a block the preceding part is closed. -/
def Back (par sib : Head → Bool) (st st1 : PState) : Prop :=
  par st.cur.head = true ∧ st1 = st ∨ sib st.cur.head = true ∧ st.pop none = some st1

theorem Back.step {par sib : Head → Bool} {st st1 : PState} (h : Back par sib st st1) {hd : Head} {b : Blk}
    (hm : Mids env P hd b par sib) : Step env P st (some b) (st1.push hd) := by
  rcases h with ⟨h, rfl⟩ | ⟨h, h'⟩
  · exact .mid1 hm h
  · exact .mid2 hm h h'

theorem back_wp {α : Type} {par sib : Head → Bool} {st : PState} (ho : st.OK) (hf : sib .toplevel = false)
    {r : List Cell} {Q : α → List Cell → Prop} {F : Fail → Prop} {jp : PState → Prog α}
    (hc : par st.cur.head = true ∨ sib st.cur.head = true)
    (hjp : ∀ x r', (Back par sib st x ∧ r' = r) → wp T env (jp x) r' Q F) :
    wp T env (if (!par st.cur.head) = true then (do let y ← popCtx st none; jp y)
      else (do let y ← pure st; jp y)) r Q F := by
  refine wp_ite (fun h => ?_) (fun h => ?_)
  · have hs : sib st.cur.head = true := hc.resolve_left (by simpa using h)
    refine wp_call (popCtx_spec (stack_ne_of ho hf hs)) ?_
    rintro s r' ⟨h1, rfl⟩
    exact hjp _ _ ⟨Or.inr ⟨hs, h1⟩, rfl⟩
  · exact wp_bind (wp_pure (hjp _ _ ⟨Or.inl ⟨by simpa using h, rfl⟩, rfl⟩))

theorem cond_or {a b : Bool} (h : ¬ (!a && !b) = true) : a = true ∨ b = true := by
  cases a <;> cases b <;> simp_all

theorem cmdElseif_spec (he : EnvOK env) (hP : Closed env P) {ea : ExArg} {r0 r : List Cell}
    {st : PState} (hi : HIn env ea .elseif r0 r st) :
    wp tokGet env (cmdElseif ea st) r (HOut env P r0 st) (SErr env) := by
  unfold cmdElseif
  refine wp_ite (fun _ => wp_errAt hi.pos) (fun hc => ?_)
  wp_join (fun x r' => Back Head.isIf Head.isElseif st x ∧ r' = r)
  · intro jp hjp
    exact back_wp hi.ok rfl (cond_or hc) hjp
  · rintro st1 r' ⟨hb, rfl⟩
    refine wp_call (expr_spec he hP hi.suf) ?_
    intro e r1 hx
    exact wp_pure (.one (hb.step (.elseif hi.eaOK hi.cmd (hx.derE hP (by omega)))) (hi.adv.trans hx.der.adv.1))

theorem cmdElse_spec {ea : ExArg} {r0 r : List Cell}
    {st : PState} (hi : HIn env ea .else_ r0 r st) :
    wp T env (cmdElse ea st) r (HOut env P r0 st) (SErr env) := by
  unfold cmdElse
  refine wp_ite (fun _ => wp_errAt hi.pos) (fun hc => ?_)
  wp_join (fun x r' => Back Head.isIf Head.isElseif st x ∧ r' = r)
  · intro jp hjp
    exact back_wp hi.ok rfl (cond_or hc) hjp
  · rintro st1 r' ⟨hb, rfl⟩
    exact wp_pure (.one (hb.step (.else_ hi.eaOK hi.cmd)) hi.adv)

theorem cmdCatch_spec {ea : ExArg} {r0 r : List Cell}
    {st : PState} (hi : HIn env ea .catch_ r0 r st) :
    wp T env (cmdCatch ea st) r (HOut env P r0 st) (SErr env) := by
  unfold cmdCatch
  refine wp_ite (fun _ => wp_errAt hi.pos) (fun _ => ?_)
  refine wp_ite (fun _ => wp_errAt hi.pos) (fun hc => ?_)
  wp_join (fun x r' => Back Head.isTry Head.isCatch st x ∧ r' = r)
  · intro jp hjp
    exact back_wp hi.ok rfl (cond_or hc) hjp
  · rintro st1 r' ⟨hb, rfl⟩
    refine wp_bind (wp_skipWhite (wp_bind (wp_peek ?_)))
    have h1 := hi.adv.trans (spanS_adv iswhite r')
    have hw := spanS_reads iswhite r'
    have hwa := spanS_all iswhite r'
    generalize (spanS iswhite r').2 = r1 at *
    refine wp_ite (fun hh => ?_) (fun hh => ?_)
    · refine wp_bind (wp_get ?_)
      cases hd : headSym r1 with
      | eol => rw [hd] at hh; simp [endsSym] at hh
      | eof => rw [hd] at hh; simp [endsSym] at hh
      | ch c =>
        have h2 := h1.trans (headSym_sadv hd).1
        refine wp_call (parsePattern_spec (h2.suf hi.suf0)) ?_
        rintro ⟨x, y⟩ r2 ⟨hx, hy⟩
        refine wp_pure (.one (hb.step (.catch_ hi.eaOK hi.cmd ?_)) (h2.trans hx.adv))
        refine ⟨r', _, r1, hi.raw (by simp), hw, hwa, Or.inr ⟨r2, c, ?_⟩⟩
        have hall := (headSym_reads hd).append hx
        simp only at hall hy
        rcases hy with rfl | ⟨rfl, hy⟩
        · exact Or.inl hall
        · refine Or.inr ⟨?_, hy⟩
          rwa [List.append_nil] at hall
    · simp only [Bool.not_eq_true', Bool.not_eq_false] at hh
      exact wp_pure (.one (hb.step (.catch_ hi.eaOK hi.cmd ⟨r', _, r1, hi.raw (by simp), hw, hwa,
        Or.inl ⟨rfl, endsSym_iff.1 hh⟩⟩)) h1)

theorem cmdFinally_spec {ea : ExArg} {r0 r : List Cell}
    {st : PState} (hi : HIn env ea .finally_ r0 r st) :
    wp T env (cmdFinally ea st) r (HOut env P r0 st) (SErr env) := by
  unfold cmdFinally
  refine wp_ite (fun _ => wp_errAt hi.pos) (fun hc => ?_)
  wp_join (fun x r' => Back Head.isTry Head.isCatch st x ∧ r' = r)
  · intro jp hjp
    exact back_wp hi.ok rfl (cond_or hc) hjp
  · rintro st1 r' ⟨hb, rfl⟩
    exact wp_pure (.one (hb.step (.finally_ hi.eaOK hi.cmd)) hi.adv)

/-- Closing a block after its last part has been closed. -/
theorem back_end {par sib : Head → Bool} {st st1 : PState} (hb : Back par sib st st1)
    {e : EndNode} {b : Blk} (hm : Ends env e b par sib) (hne : st1.stack ≠ []) {r0 r : List Cell}
    (ha : Adv r0 r) {F : Fail → Prop} :
    wp T env (popCtx st1 (some e)) r (HOut env P r0 st) F := by
  refine wp_mono (popCtx_spec hne) ?_
  rintro s r' ⟨hs, rfl⟩
  rcases hb with ⟨h, rfl⟩ | ⟨h, h'⟩
  · exact .one (.end1 hm h hs) ha
  · exact .one (.end2 hm h h' hs) ha

theorem Back.if_stack {st st1 : PState} (ho : st.OK)
    (hb : Back Head.isIf (fun h => h.isElseif || h.isElse) st st1) : st1.stack ≠ [] := by
  rcases hb with ⟨h, rfl⟩ | ⟨h, h'⟩
  · exact stack_ne_of ho rfl h
  · obtain ⟨f, fs, e1, e2⟩ := ho.if_below (by simpa using h)
    obtain ⟨f', fs', e1', e2', _⟩ := pop_head h'
    rw [e1] at e1'
    simp only [List.cons.injEq] at e1'
    refine stack_ne_of (ho.pop h') (f := Head.isIf) rfl ?_
    rw [e2', ← e1'.1]; exact e2

theorem Back.try_stack {st st1 : PState} (ho : st.OK)
    (hb : Back Head.isTry (fun h => h.isCatch || h.isFinally) st st1) : st1.stack ≠ [] := by
  rcases hb with ⟨h, rfl⟩ | ⟨h, h'⟩
  · exact stack_ne_of ho rfl h
  · obtain ⟨f, fs, e1, e2⟩ := ho.try_below (by simpa using h)
    obtain ⟨f', fs', e1', e2', _⟩ := pop_head h'
    rw [e1] at e1'
    simp only [List.cons.injEq] at e1'
    refine stack_ne_of (ho.pop h') (f := Head.isTry) rfl ?_
    rw [e2', ← e1'.1]; exact e2

theorem cond_or3 {a b c : Bool} (h : ¬ (!a && !b && !c) = true) : a = true ∨ (b || c) = true := by
  cases a <;> cases b <;> cases c <;> simp_all

theorem cmdEndif_spec {ea : ExArg} {r0 r : List Cell}
    {st : PState} (hi : HIn env ea .endif r0 r st) :
    wp T env (cmdEndif ea st) r (HOut env P r0 st) (SErr env) := by
  unfold cmdEndif
  refine wp_ite (fun _ => wp_errAt hi.pos) (fun hc => ?_)
  wp_join (fun x r' => Back Head.isIf (fun h => h.isElseif || h.isElse) st x ∧ r' = r)
  · intro jp hjp
    exact back_wp hi.ok rfl (cond_or3 hc) hjp
  · rintro st1 r' ⟨hb, rfl⟩
    exact back_end hb (.endif hi.eaOK hi.cmd) (hb.if_stack hi.ok) hi.adv

theorem cmdEndtry_spec {ea : ExArg} {r0 r : List Cell}
    {st : PState} (hi : HIn env ea .endtry r0 r st) :
    wp T env (cmdEndtry ea st) r (HOut env P r0 st) (SErr env) := by
  unfold cmdEndtry
  refine wp_ite (fun _ => wp_errAt hi.pos) (fun hc => ?_)
  wp_join (fun x r' => Back Head.isTry (fun h => h.isCatch || h.isFinally) st x ∧ r' = r)
  · intro jp hjp
    exact back_wp hi.ok rfl (cond_or3 hc) hjp
  · rintro st1 r' ⟨hb, rfl⟩
    exact back_end hb (.endtry hi.eaOK hi.cmd) (hb.try_stack hi.ok) hi.adv

theorem cmdEndwhile_spec {ea : ExArg} {r0 r : List Cell}
    {st : PState} (hi : HIn env ea .endwhile r0 r st) :
    wp T env (cmdEndwhile ea st) r (HOut env P r0 st) (SErr env) := by
  unfold cmdEndwhile
  refine wp_ite (fun _ => wp_errAt hi.pos) (fun hc => ?_)
  simp only [Bool.not_eq_true', Bool.not_eq_false] at hc
  exact back_end (Or.inl ⟨hc, rfl⟩) (.endwhile hi.eaOK hi.cmd) (stack_ne_of hi.ok rfl hc) hi.adv

theorem cmdEndfor_spec {ea : ExArg} {r0 r : List Cell}
    {st : PState} (hi : HIn env ea .endfor r0 r st) :
    wp T env (cmdEndfor ea st) r (HOut env P r0 st) (SErr env) := by
  unfold cmdEndfor
  refine wp_ite (fun _ => wp_errAt hi.pos) (fun hc => ?_)
  simp only [Bool.not_eq_true', Bool.not_eq_false] at hc
  exact back_end (Or.inl ⟨hc, rfl⟩) (.endfor hi.eaOK hi.cmd) (stack_ne_of hi.ok rfl hc) hi.adv

theorem check_spec {c : Bool} {m : Str} {q : Pos} (hq : PosOK env q) {r : List Cell} :
    wp T env (if c = true then errAt m q else pure ()) r (fun _ r' => c = false ∧ r' = r) (SErr env) :=
  wp_ite (fun _ => wp_errAt hq) (fun h => wp_pure ⟨by simpa using h, rfl⟩)

theorem cmdEndfunction_spec {ea : ExArg} {r0 r : List Cell}
    {st : PState} (hi : HIn env ea .endfunction r0 r st) :
    wp T env (cmdEndfunction ea st) r (HOut env P r0 st) (SErr env) := by
  unfold cmdEndfunction checkMissingEndif checkMissingEndtry checkMissingEndwhile checkMissingEndfor
  refine wp_call (check_spec hi.pos) ?_
  rintro _ _ ⟨_, rfl⟩
  refine wp_call (check_spec hi.pos) ?_
  rintro _ _ ⟨_, rfl⟩
  refine wp_call (check_spec hi.pos) ?_
  rintro _ _ ⟨_, rfl⟩
  refine wp_call (check_spec hi.pos) ?_
  rintro _ _ ⟨_, rfl⟩
  refine wp_ite (fun _ => wp_errAt hi.pos) (fun hc => ?_)
  simp only [Bool.not_eq_true', Bool.not_eq_false] at hc
  refine wp_bind (wp_getline ?_)
  exact back_end (Or.inl ⟨hc, rfl⟩) (.endfunction hi.eaOK hi.cmd) (stack_ne_of hi.ok rfl hc)
    (hi.adv.trans (spanS_adv _ _))

theorem cmdContinue_spec {ea : ExArg} {r0 r : List Cell}
    {st : PState} (hi : HIn env ea .continue_ r0 r st) :
    wp T env (cmdContinue ea st) r (HOut env P r0 st) (SErr env) := by
  unfold cmdContinue
  refine wp_ite (fun _ => wp_errAt hi.pos) (fun hc => ?_)
  exact wp_pure (.add (.continue_ hi.eaOK hi.cmd (cond_or hc)) hi.adv)

theorem cmdBreak_spec {ea : ExArg} {r0 r : List Cell}
    {st : PState} (hi : HIn env ea .break_ r0 r st) :
    wp T env (cmdBreak ea st) r (HOut env P r0 st) (SErr env) := by
  unfold cmdBreak
  refine wp_ite (fun _ => wp_errAt hi.pos) (fun hc => ?_)
  exact wp_pure (.add (.break_ hi.eaOK hi.cmd (cond_or hc)) hi.adv)

theorem cmdThrow_spec (he : EnvOK env) (hP : Closed env P) {ea : ExArg} {r0 r : List Cell}
    {st : PState} (hi : HIn env ea .throw r0 r st) :
    wp tokGet env (cmdThrow ea st) r (HOut env P r0 st) (SErr env) := by
  unfold cmdThrow
  refine wp_call (expr_spec he hP hi.suf) ?_
  intro e r1 hx
  exact wp_pure (.add (.throw hi.eaOK hi.cmd (hx.derE hP (by omega))) (hi.adv.trans hx.der.adv.1))

theorem cmdEval_spec (he : EnvOK env) (hP : Closed env P) {ea : ExArg} {r0 r : List Cell}
    {st : PState} (hi : HIn env ea .eval r0 r st) :
    wp tokGet env (cmdEval ea st) r (HOut env P r0 st) (SErr env) := by
  unfold cmdEval
  refine wp_call (expr_spec he hP hi.suf) ?_
  intro e r1 hx
  exact wp_pure (.add (.eval hi.eaOK hi.cmd (hx.derE hP (by omega))) (hi.adv.trans hx.der.adv.1))

theorem cmdEcho_spec (he : EnvOK env) (hP : Closed env P) {ea : ExArg} {ty : EchoTy} {r0 r : List Cell}
    {st : PState} (hi : HIn env ea (echoH ty) r0 r st) :
    wp tokGet env (cmdEcho ty ea st) r (HOut env P r0 st) (SErr env) := by
  unfold cmdEcho
  refine wp_call (parseExprlist_spec he hP hi.suf) ?_
  rintro l r1 ⟨hl, h1⟩
  exact wp_pure (.add (.echo hi.eaOK hi.cmd hl) (hi.adv.trans h1))

theorem cmdExecute_spec (he : EnvOK env) (hP : Closed env P) {ea : ExArg} {r0 r : List Cell}
    {st : PState} (hi : HIn env ea .execute r0 r st) :
    wp tokGet env (cmdExecute ea st) r (HOut env P r0 st) (SErr env) := by
  unfold cmdExecute
  refine wp_call (parseExprlist_spec he hP hi.suf) ?_
  rintro l r1 ⟨hl, h1⟩
  exact wp_pure (.add (.execute hi.eaOK hi.cmd hl) (hi.adv.trans h1))

theorem cmdEchohl_spec {ea : ExArg} {r0 r : List Cell}
    {st : PState} (hi : HIn env ea .echohl r0 r st) :
    wp T env (cmdEchohl ea st) r (HOut env P r0 st) (SErr env) := by
  unfold cmdEchohl
  refine wp_call (P := fun s r' => Reads r s r' ∧ AtStop r') ?_ ?_
  · refine wp_loop (fun s r' => Reads r s r') (Spec.Reads.nil r) ?_
    intro s r1 h1
    refine wp_bind (wp_peek ?_)
    refine wp_ite (fun hst => wp_pure ⟨h1, endsSym_iff.1 hst⟩) (fun hh => ?_)
    refine wp_bind (wp_get (wp_pure ?_))
    cases hd : headSym r1 with
    | ch c => exact ⟨(headSym_sadv hd).lt, h1.append (headSym_reads hd)⟩
    | eol => rw [hd] at hh; simp [endsSym] at hh
    | eof => rw [hd] at hh; simp [endsSym] at hh
  · rintro s r1 ⟨h1, hst⟩
    exact wp_pure (.add (.echohl hi.eaOK hi.cmd (hi.raw (by simp)) h1 hst) (hi.adv.trans h1.adv))

/-! ### Dispatch -/

theorem dispatch_builtin : ∀ c ∈ builtinCommands, (dispatch c.parser).isSome = true := by
  decide +kernel

theorem dispatch_neovim : ∀ c ∈ neovimAdditionalCommands, (dispatch c.parser).isSome = true := by
  decide +kernel

theorem dispatch_known {c : Cmd} (h : Known c) : ∃ hd, dispatch c.parser = some hd := by
  rcases h with h | h | ⟨_, h⟩
  · exact Option.isSome_iff_exists.1 (dispatch_builtin c h)
  · exact Option.isSome_iff_exists.1 (dispatch_neovim c h)
  · rw [h]
    exact ⟨.common, (by decide +kernel : dispatch cs!"parse_cmd_usercmd" = some .common)⟩

/-- Commands with a parser of their own have no prefixes to their arguments. -/
theorem plain_args {c : Cmd} {h : Handler} (hk : Known c) (hd : dispatch c.parser = some h)
    (hn : h ≠ .common) : c.has .ARGOPT = false ∧ c.name ∉ [cs!"write", cs!"update"] ∧
      c.name ≠ cs!"read" ∧ c.name ∉ [cs!"<", cs!">"] ∧ c.has .EDITCMD = false := by
  have h1 : ∀ c ∈ builtinCommands ++ neovimAdditionalCommands, dispatch c.parser ≠ some .common →
      c.has .ARGOPT = false ∧ c.name ∉ [cs!"write", cs!"update"] ∧
      c.name ≠ cs!"read" ∧ c.name ∉ [cs!"<", cs!">"] ∧ c.has .EDITCMD = false := by
    decide +kernel
  have hn' : dispatch c.parser ≠ some .common := by
    rw [hd]
    simpa using hn
  rcases hk with h | h | ⟨_, h⟩
  · exact h1 c (List.mem_append_left _ h) hn'
  · exact h1 c (List.mem_append_right _ h) hn'
  · rw [h] at hn'
    exact absurd (by decide +kernel : dispatch cs!"parse_cmd_usercmd" = some .common) hn'

/-- No command of the tables is parsed by `parse_cmd_modifier_range`. -/
theorem no_modifierRange {c : Cmd} (h : Known c) : dispatch c.parser ≠ some .modifierRange := by
  have h1 : ∀ c ∈ builtinCommands ++ neovimAdditionalCommands, dispatch c.parser ≠ some .modifierRange := by
    decide +kernel
  rcases h with h | h | ⟨_, h⟩
  · exact h1 c (List.mem_append_left _ h)
  · exact h1 c (List.mem_append_right _ h)
  · rw [h]
    exact (by decide +kernel : dispatch cs!"parse_cmd_usercmd" ≠ some .modifierRange)

theorem runHandler_spec (he : EnvOK env) (hP : Closed env P) {ea : ExArg} {cmd : Cmd} {h : Handler}
    {r0 r : List Cell} {st : PState} (hi : HIn env ea h r0 r st) :
    wp tokGet env (runHandler h ea cmd st) r (HOut env P r0 st) (SErr env) := by
  cases h <;> unfold runHandler <;> simp only
  case append => exact cmdAppend_spec he hi
  case break_ => exact cmdBreak_spec hi
  case call => exact cmdCall_spec he hP hi
  case catch_ => exact cmdCatch_spec hi
  case common => exact cmdCommon_out he hi rfl
  case continue_ => exact cmdContinue_spec hi
  case delfunction => exact cmdDelfunction_spec he hP hi
  case echo => exact cmdEcho_spec (ty := .echo) he hP hi
  case echoerr => exact cmdEcho_spec (ty := .echoerr) he hP hi
  case echohl => exact cmdEchohl_spec hi
  case echomsg => exact cmdEcho_spec (ty := .echomsg) he hP hi
  case echon => exact cmdEcho_spec (ty := .echon) he hP hi
  case else_ => exact cmdElse_spec hi
  case elseif => exact cmdElseif_spec he hP hi
  case endfor => exact cmdEndfor_spec hi
  case endfunction => exact cmdEndfunction_spec hi
  case endif => exact cmdEndif_spec hi
  case endtry => exact cmdEndtry_spec hi
  case endwhile => exact cmdEndwhile_spec hi
  case execute => exact cmdExecute_spec he hP hi
  case finally_ => exact cmdFinally_spec hi
  case finish => exact cmdFinish_spec he hi
  case for_ => exact cmdFor_spec he hP hi
  case function => exact cmdFunction_spec he hP hi
  case if_ => exact cmdIf_spec he hP hi
  case let_ => exact cmdLet_spec he hP hi
  case const_ => exact cmdConst_spec he hP hi
  case loadkeymap => exact cmdLoadkeymap_spec he hi
  case lockvar => exact cmdLockvar_spec he hP hi
  case lua => exact cmdLua_spec he hi
  case modifierRange =>
    obtain ⟨c, _, hk, hd⟩ := hi.cmd
    exact absurd hd (no_modifierRange hk)
  case return_ => exact cmdReturn_spec he hP hi
  case throw => exact cmdThrow_spec he hP hi
  case eval => exact cmdEval_spec he hP hi
  case try_ => exact cmdTry_spec hi
  case unlet => exact cmdUnlet_spec he hP hi
  case unlockvar => exact cmdUnlockvar_spec he hP hi
  case while_ => exact cmdWhile_spec he hP hi
  case wincmd => exact cmdWincmd_spec he hi
  case «syntax» => exact cmdSyntax_spec he hi

theorem parseCommandArgs_spec (he : EnvOK env) (hP : Closed env P) {ea : ExArg} {cmd : Cmd}
    {r0 rc r : List Cell} {st : PState} (hea : EaAt env r0 rc ea) (hk : Known cmd)
    (hname : ∃ t, Reads rc t r ∧ t ≠ [] ∧ t <+: cmd.name ∧ cmd.minlen ≤ t.length) (ho : st.OK) :
    wp tokGet env (parseCommandArgs ea cmd st) r (HOut env P r0 st) (SErr env) := by
  unfold parseCommandArgs
  obtain ⟨t, ht, htn, htp, htl⟩ := hname
  have ha : Adv r0 r := hea.adv.trans ht.adv
  refine wp_call parseBang_spec ?_
  intro fi r1 h1
  refine wp_ite (fun _ => wp_errAt hea.posOK) (fun _ => ?_)
  refine wp_call (P := fun _ r' => ∃ w, Reads r1 w r' ∧ White w) ?_ ?_
  · exact wp_ite (fun _ => wp_skipWhite ⟨_, spanS_reads _ _, spanS_all _ _⟩)
      (fun _ => wp_pure ⟨[], Reads.nil _, by intro c hc; simp at hc⟩)
  rintro _ r2 ⟨w, h2, hw⟩
  have a2 := (ha.trans h1.adv).trans h2.adv
  refine wp_bind (wp_getpos ?_)
  have hea2 : EaAt env r0 rc { ea with cmd := some cmd, forceit := fi, argpos := some (posOf env r2) } := by
    refine ⟨hea.suf, hea.ne, hea.line, hea.mods, hea.cmd, by simp, ?_⟩
    intro c hc
    simp only [Option.some.injEq] at hc
    subst hc
    refine ⟨r2, rfl, t, _, w, (ht.append h1).append h2, htn, htp, htl, ?_, ?_, hw⟩
    · cases fi
      · exact Or.inl rfl
      · exact Or.inr rfl
    · intro h
      simp only at h
      rw [h]; rfl
  have hc2 : ({ ea with cmd := some cmd, forceit := fi, argpos := some (posOf env r2) } : ExArg).cmd = some cmd := rfl
  have hq2 : ({ ea with cmd := some cmd, forceit := fi, argpos := some (posOf env r2) } : ExArg).argpos =
    some (posOf env r2) := rfl
  generalize ({ ea with cmd := some cmd, forceit := fi, argpos := some (posOf env r2) } : ExArg) = ea2 at hea2 hc2 hq2
  wp_join (fun ea' r' => Same ea2 ea' ∧ Adv r2 r' ∧ (cmd.has .ARGOPT = false → r' = r2))
  · intro jp hjp
    refine wp_ite (fun hf => ?_) (fun _ => wp_bind (wp_pure (hjp _ _ ⟨.refl _, Adv.refl _, fun _ => rfl⟩)))
    refine wp_call (parseArgopt_spec he (a2.suf hea.suf)) ?_
    rintro ea3 r3 h3
    exact hjp _ _ ⟨h3.1, h3.2, fun h => by rw [h] at hf; cases hf⟩
  rintro ea3 r3 ⟨s3, h3, e3⟩
  have a3 := a2.trans h3
  refine wp_call (parseWrite_spec he (a3.suf hea.suf) (s3.cmdpos ▸ hea2.posOK)) ?_
  rintro ea4 r4 ⟨s4, h4, e4⟩
  refine wp_call parseRead_spec ?_
  rintro ea5 r5 ⟨s5, h5, e5⟩
  refine wp_call parseShift_spec ?_
  rintro ea6 r6 ⟨s6, h6, e6⟩
  wp_join (fun ea' r' => Same ea6 ea' ∧ Adv r6 r' ∧ (cmd.has .EDITCMD = false → r' = r6))
  · intro jp hjp
    refine wp_ite (fun hf => ?_) (fun _ => wp_bind (wp_pure (hjp _ _ ⟨.refl _, Adv.refl _, fun _ => rfl⟩)))
    refine wp_call parseArgcmd_spec ?_
    rintro ea3 r3 h3
    exact hjp _ _ ⟨h3.1, h3.2, fun h => by rw [h] at hf; cases hf⟩
  rintro ea7 r7 ⟨s7, h7, e7⟩
  have s := (((s3.trans s4).trans s5).trans s6).trans s7
  have a := (((a3.trans h4).trans h5).trans h6).trans h7
  obtain ⟨h, hh⟩ := dispatch_known hk
  rw [hh]
  refine runHandler_spec he hP ⟨⟨rc, hea2.same s⟩, ⟨cmd, s.cmd.trans hc2, hk, hh⟩, a,
    ⟨r2, a2.suf hea.suf, s.arg.trans hq2, ((((h3.trans h4).trans h5).trans h6).trans h7)⟩, ?_, ho⟩
  intro hne
  obtain ⟨p1, p2, p3, p4, p5⟩ := plain_args hk hh hne
  rw [show r7 = r2 from (e7 p5).trans ((e6 p4).trans ((e5 p3).trans ((e4 p2).trans (e3 p1))))]
  exact ⟨a2.suf hea.suf, s.arg.trans hq2⟩

theorem Steps.cache {st : PState} {c : List (Str × Option Cmd)} (h : CacheOK st.neovim c) :
    Steps env P st [] { st with cache := c } := Steps.one (.cache st c h)

theorem parseCommand_spec (he : EnvOK env) (hP : Closed env P) {ea : ExArg}
    {r0 rm r : List Cell} {st : PState} (hs : Suf env r0) (hne : r0 ≠ [])
    (hl : ea.linepos = posOf env r0) (hm : Mods r0 ea.modifiers rm) (h1 : Adv r0 rm)
    (hrg : ∃ v, Reads rm v r ∧ RangeText v ea.range) (hc : ea.cmd = none) (harg : ea.argpos = none) (ho : st.OK) :
    wp tokGet env (parseCommand ea st) r (HOut env P r0 st) (SErr env) := by
  unfold parseCommand
  refine wp_bind (wp_skipWhiteAndColon (wp_bind (wp_getpos (wp_bind (wp_peekn ?_)))))
  obtain ⟨v, h2, hv⟩ := hrg
  have h3 := spanS_reads (fun c => iswhite c || c == ':') r
  have h3w := spanS_all (fun c => iswhite c || c == ':') r
  generalize (spanS (fun c => iswhite c || c == ':') r).1 = w at *
  generalize (spanS (fun c => iswhite c || c == ':') r).2 = r3 at *
  have a3 := (h1.trans h2.adv).trans h3.adv
  have hea : EaAt env r0 r3 { ea with cmdpos := posOf env r3 } := by
    refine ⟨hs, hne, hl, ⟨rm, r, v, w, hm, h1, h2, hv, h3, ?_⟩, rfl, fun _ => harg, ?_⟩
    · intro c hcw
      simpa using h3w c hcw
    · intro c hcc
      simp only [hc] at hcc
      cases hcc
  refine wp_ite (fun hst => ?_) (fun _ => ?_)
  · refine wp_ite (fun hb => ?_) (fun _ => ?_)
    · have hst' : AtStop r3 := by
        rcases hst with h | h
        · exact Or.inl (peek1_nil h)
        · exact Or.inr (Or.inr (peek1_eq h))
      refine cmdModifierRange_spec he hea a3 hst' (fun s r' hl => ?_)
      refine .bare ⟨r0, r3, hea⟩ hc ?_ hl
      simp only [Bool.or_eq_true, Bool.not_eq_true'] at hb
      rcases hb with hb | hb
      · left; intro h; rw [h] at hb; simp at hb
      · right; intro h; rw [h] at hb; simp at hb
    · exact wp_pure ⟨⟨[], .nil st, by simp⟩, Or.inl a3⟩
  refine wp_call (findCommand_spec ho.cache) ?_
  rintro ⟨cmd, cache⟩ r4 ⟨hcache, h4, hk⟩
  simp only at hcache hk
  have hstep : Steps env P st [] { st with cache := cache } := Steps.cache hcache
  have ho' := hstep.ok ho
  cases cmd with
  | none =>
    simp only
    refine wp_bind (wp_setpos (wp_bind (wp_peekline (wp_errAt ?_))))
    exact (a3.suf hs).posOf
  | some cmd =>
    refine wp_mono (parseCommandArgs_spec he hP hea (hk cmd rfl).1 (hk cmd rfl).2 ho') ?_
    rintro st' r' ⟨⟨bs, hb1, hb2⟩, hline⟩
    exact ⟨⟨bs, hstep.trans hb1, hb2⟩, hline⟩

/-- Result of one command read at `r`: steps with at most one block command; the rest of the input
is shorter; unless a node was added that may span several lines, only one line end or bar was passed. -/
structure OneOut (env : Env) (P : Nat → ERel) (r : List Cell) (st st' : PState) (r' : List Cell) : Prop where
  steps : ∃ bs, Steps env P st bs st' ∧ bs.length ≤ 1
  suffix : r' <:+ r
  lt : r'.length < r.length
  line : (∃ r1, Adv r r1 ∧ r' = r1.tail) ∨ Multi st st'

theorem Multi.add {st st' : PState} (h : Multi st st') (n : VStmt) : Multi st (st'.add n) := by
  obtain ⟨l, m, h1, h2, h3⟩ := h
  refine ⟨l ++ [n], m, ?_, List.mem_append_left _ h2, h3⟩
  rw [← List.append_assoc, ← h1]
  rfl

theorem tail_lt {r : List Cell} (h : r ≠ []) : r.tail.length < r.length := by
  cases r with
  | nil => exact absurd rfl h
  | cons c r => simp

theorem OneOut.tail (he : EnvOK env) {r r1 : List Cell} (hs : Suf env r) (hne : r ≠ []) {st st' : PState}
    (h : Steps env P st [] st') (ha : Adv r r1) : OneOut env P r st st' r1.tail := by
  refine ⟨⟨[], h, by simp⟩, (List.tail_suffix _).trans ha.suffix, ?_, Or.inl ⟨r1, ha, rfl⟩⟩
  have := tail_lt (Adv.ne_nil he hs hne ha)
  have := ha.length
  omega

theorem parseOneCmd_spec (he : EnvOK env) (hP : Closed env P) {r : List Cell} {st : PState}
    (hs : Suf env r) (hne : r ≠ []) (ho : st.OK) :
    wp tokGet env (parseOneCmd st) r (OneOut env P r st) (SErr env) := by
  unfold parseOneCmd
  refine wp_bind (wp_peekn ?_)
  refine wp_ite (fun _ => ?_) (fun _ => ?_)
  · refine wp_bind (wp_getline (wp_bind (wp_get (wp_pure ?_))))
    exact .tail he hs hne (.nil st) (spanS_adv _ _)
  refine wp_bind (wp_skipWhiteAndColon (wp_bind (wp_peekn ?_)))
  have h1 := spanS_adv (fun c => iswhite c || c == ':') r
  generalize (spanS (fun c => iswhite c || c == ':') r).2 = r1 at *
  have hs1 := h1.suf hs
  have hne1 := Adv.ne_nil he hs hne h1
  refine wp_ite (fun _ => wp_bind (wp_get (wp_pure (.tail he hs hne (.nil st) h1)))) (fun _ => ?_)
  refine wp_ite (fun h => ?_) (fun _ => ?_)
  · refine wp_call (comment_spec (P := P) hs1 (peek1_eq h)) ?_
    rintro st' r2 ⟨n, rfl, hn, ⟨_, h2⟩, _⟩
    exact wp_bind (wp_get (wp_pure (.tail he hs hne (.add hn) (h1.trans h2.adv))))
  refine wp_bind (wp_getpos ?_)
  refine wp_call (parseModifiers_spec hs1) ?_
  rintro ms rm ⟨hm, h2⟩
  refine wp_call (parseRange_spec he (h2.suf hs1)) ?_
  intro rg rr h3
  refine wp_call (parseCommand_spec he hP hs1 hne1 rfl hm h2 h3 rfl rfl ho) ?_
  rintro st1 r4 ⟨⟨bs, hb1, hb2⟩, hline⟩
  have hs4 : Suf env r4 := by
    rcases hline with h | ⟨h, _⟩
    · exact h.suf hs1
    · exact hs1.of_suffix h
  refine wp_mono (parseTrail_spec (P := P) he hs4) ?_
  rintro st2 r5 ⟨ht, hst⟩
  have hsf4 : r4 <:+ r1 := by
    rcases hline with h | ⟨h, _⟩
    · exact h.suffix
    · exact h
  refine ⟨⟨bs, ?_, hb2⟩, (ht.suffix.trans hsf4).trans h1.suffix, ?_, ?_⟩
  · rcases hst with rfl | ⟨n, rfl, hn⟩
    · exact hb1
    · have := hb1.trans (Steps.add hn)
      rwa [List.append_nil] at this
  · have := hsf4.length_le
    have := h1.length
    rcases ht.lt with rfl | h
    · exact List.length_pos_iff.2 hne
    · omega
  · rcases hline with h | ⟨_, h⟩
    · left
      have h' := h1.trans h
      rcases ht.adv with ⟨_, rfl⟩ | ⟨r6, ha, _, rfl⟩
      · exact absurd rfl (Adv.ne_nil he hs hne h')
      · exact ⟨_, h'.trans ha, rfl⟩
    · right
      rcases hst with rfl | ⟨n, rfl, hn⟩
      · exact h
      · exact h.add n

theorem parseCmds_spec (he : EnvOK env) (hP : Closed env P) {r : List Cell} {st : PState}
    (hs : Suf env r) (ho : st.OK) :
    wp tokGet env (parseCmds st) r (fun st' r' => r' = [] ∧ ∃ bs, Steps env P st bs st') (SErr env) := by
  unfold parseCmds
  refine wp_loop (fun st' r' => Suf env r' ∧ ∃ bs, Steps env P st bs st') ⟨hs, [], .nil st⟩ ?_
  rintro st1 r1 ⟨hs1, bs, h1⟩
  refine wp_bind (wp_peek ?_)
  refine wp_ite (fun h => wp_pure ⟨headSym_eof h, bs, h1⟩) (fun h => ?_)
  refine wp_call (parseOneCmd_spec he hP hs1 ?_ (h1.ok ho)) ?_
  · rintro rfl; exact h rfl
  rintro st2 r2 ho2
  obtain ⟨bs2, h2, _⟩ := ho2.steps
  exact wp_pure ⟨ho2.lt, hs1.of_suffix ho2.suffix, bs ++ bs2, h1.trans h2⟩

/-- State of the parser before the first command. -/
def initState (nv : Bool) : PState :=
  { neovim := nv, cur := { head := .toplevel }, stack := [], cache := [] }

theorem initState_ok (nv : Bool) : (initState nv).OK :=
  ⟨⟨rfl, trivial⟩, by intro x hx; cases hx⟩

/-- A parsed file: the result of a sequence of steps that ends with no block open. -/
def FileOut (env : Env) (P : Nat → ERel) (nv : Bool) (f : VFile) : Prop :=
  ∃ bs st, Steps env P (initState nv) bs st ∧ st.cur.head = .toplevel ∧ st.stack = [] ∧
    f = ⟨posOf env env.buf, st.cur.body⟩

theorem parseToplevel_spec (he : EnvOK env) (hP : Closed env P) {nv : Bool} :
    wp tokGet env (parseToplevel nv) env.buf (fun f r' => r' = [] ∧ FileOut env P nv f) (SErr env) := by
  unfold parseToplevel checkMissingEndfunction checkMissingEndif checkMissingEndtry checkMissingEndwhile
    checkMissingEndfor
  refine wp_bind (wp_getpos ?_)
  refine wp_call (parseCmds_spec he hP (Suf.self env) (initState_ok nv)) ?_
  rintro st r ⟨rfl, bs, hst⟩
  refine wp_bind (wp_getpos ?_)
  have hq := (Suf.nil env).posOf
  refine wp_call (check_spec hq) ?_
  rintro _ _ ⟨c1, rfl⟩
  refine wp_call (check_spec hq) ?_
  rintro _ _ ⟨c2, rfl⟩
  refine wp_call (check_spec hq) ?_
  rintro _ _ ⟨c3, rfl⟩
  refine wp_call (check_spec hq) ?_
  rintro _ _ ⟨c4, rfl⟩
  refine wp_call (check_spec hq) ?_
  rintro _ _ ⟨c5, rfl⟩
  have ht : st.cur.head = .toplevel := by
    cases hh : st.cur.head <;> rw [hh] at c1 c2 c3 c4 c5 <;>
      simp [Head.isFunction, Head.isIf, Head.isElseif, Head.isElse, Head.isTry, Head.isCatch,
        Head.isFinally, Head.isWhile, Head.isFor] at c1 c2 c3 c4 c5 ⊢
  have hstk : st.stack = [] := by
    have := (hst.ok (initState_ok nv)).stack.1
    rw [ht] at this
    exact this
  refine wp_pure ⟨rfl, bs, st, hst, ht, hstk, ?_⟩
  rw [hstk]
  rfl

end

end Viml
