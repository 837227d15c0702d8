/-
Every expression the parser returns is derivable from the formation rules (`Closed`), the parser
never runs past the line, never crashes and never exhausts its step bound.
-/
import Verif.Lemmas.ExprGrammar

namespace Viml
open Prog Spec

section
variable {env : Env} {P : Nat → ERel}

/-- Specification of the recursive `parse_expr1` on inputs shorter than `N`. -/
def RecOK (env : Env) (P : Nat → ERel) (N : Nat) (rec : Prog VExpr) : Prop :=
  ∀ r, Suf env r → r.length < N → wp tokGet env rec r (fun e r' => Der env P 1 r e r') (ErrOK env)

theorem unexpected_spec {α : Type} {r0 r : List Cell} {t : Token} {r' : List Cell} (hs : Suf env r0)
    (ht : TokAt env r0 t r') {Q : α → List Cell → Prop} :
    wp tokGet env (unexpected t : Prog α) r Q (ErrOK env) := wp_errAt (ht.posOK hs)

theorem TokAt.sadv' {r : List Cell} {t : Token} {r' : List Cell} (h : TokAt env r t r')
    {ty : TT} (e : t.ty = ty) (h1 : ty ≠ .eof := by decide) (h2 : ty ≠ .eol := by decide) :
    SAdv r r' := h.sadv (e ▸ h1) (e ▸ h2)

theorem parseRlist_spec (he : EnvOK env) {N : Nat} {rec : Prog VExpr} (hrec : RecOK env P N rec)
    {r : List Cell} (hs : Suf env r) (hN : r.length < N) :
    wp tokGet env (parseRlist rec) r
      (fun as r' => Items env (Der env P 1) .pclose r as r' ∧ as.length ≤ 20) (ErrOK env) := by
  unfold parseRlist
  refine wp_tokpeek he hs fun t0 q0 ht0 ha0 => wp_tokpeek he hs fun t1 q1 ht1 ha1 => ?_
  wp_join (fun (x : List VExpr × Token) r' =>
    Items env (Der env P 1) .pclose r x.1 r' ∧ PosOK env x.2.pos)
  · intro jp hjp
    apply wp_ite
    · intro hc
      refine wp_tok he hs fun t r' ht ha _ => wp_bind (wp_pure (hjp _ _ ⟨?_, ha0.posOK hs⟩))
      rw [ht] at ht1
      cases ht1
      exact .nil ⟨ht, hc⟩
    · intro _
      refine wp_bind (wp_mono ?_ hjp)
      refine wp_loop (fun vs rc => Suf env rc ∧ rc.length < N ∧
        ∀ es r', Items env (Der env P 1) .pclose rc es r' →
          Items env (Der env P 1) .pclose r (vs ++ es) r') ⟨hs, hN, fun es r' h => h⟩ ?_
      rintro vs rc ⟨hsc, hNc, hI⟩
      refine wp_call (hrec rc hsc hNc) ?_
      intro e r1 h1
      refine wp_tok he h1.suf' fun t r2 ht ha hs2 => ?_
      apply wp_ite
      · intro hc
        have adv := ha.sadv' hc
        refine wp_tokpeek he hs2 fun t2 q2 ht2 ha2 => ?_
        apply wp_ite
        · intro hc2
          refine wp_tok he hs2 fun t3 r3 ht3 ha3 hs3 => wp_pure ⟨?_, ha.posOK h1.suf'⟩
          rw [ht3] at ht2
          cases ht2
          exact hI _ _ (.cons h1 ⟨ht, hc⟩ (.nil ⟨ht3, hc2⟩))
        · intro _
          refine wp_pure ⟨(h1.adv.trans adv).lt, hs2, ?_, ?_⟩
          · have := (h1.adv.trans adv).lt; omega
          · intro es r' h
            have := hI _ _ (.cons h1 ⟨ht, hc⟩ h)
            simpa using this
      · intro _
        apply wp_ite
        · intro hc
          exact wp_pure ⟨hI _ _ (.last h1 ⟨ht, hc⟩), ha.posOK h1.suf'⟩
        · intro _
          exact unexpected_spec h1.suf' ha
  · rintro ⟨as, tk⟩ r' ⟨h1, h2⟩
    simp only
    apply wp_ite
    · intro _; exact wp_errAt h2
    · intro hl; exact wp_pure ⟨h1, by omega⟩

theorem Suf.tail {r : List Cell} (h : Suf env r) : Suf env r.tail :=
  h.of_suffix (List.tail_suffix r)

theorem parseCurlyParts_spec (_he : EnvOK env) {N : Nat} {rec : Prog VExpr} (hrec : RecOK env P N rec)
    {r : List Cell} (hs : Suf env r) (hN : r.length ≤ N) :
    wp tokGet env (parseCurlyParts rec) r (fun ps r' => IdParts env (Der env P 1) r ps r')
      (ErrOK env) := by
  unfold parseCurlyParts
  refine wp_bind (wp_peek (wp_bind (wp_getpos (wp_bind (wp_peekn ?_)))))
  wp_join (fun start r1 => Adv r r1 ∧
      ∀ ps r', Parts env (Der env P 1) r1 ps r' → IdParts env (Der env P 1) r (start ++ ps) r')
  · intro jp hjp
    apply wp_ite
    · rintro ⟨h1, h2⟩
      exact wp_bind (wp_getn (wp_bind (wp_pure (hjp _ _ ⟨getnS_adv 5 r, fun ps r' h => .sid h1 h2 h⟩))))
    · intro hn
      exact wp_bind (wp_pure (hjp _ _ ⟨Adv.refl r, fun ps r' h => .plain hn h⟩))
  · rintro start r1 ⟨ha, hI⟩
    refine wp_loop (fun vs rc => Adv r1 rc ∧
        ∀ ps r', Parts env (Der env P 1) rc ps r' → IdParts env (Der env P 1) r (vs ++ ps) r')
      ⟨Adv.refl _, hI⟩ ?_
    rintro vs rc ⟨hac, hI⟩
    have hsc : Suf env rc := (ha.trans hac).suf hs
    have hlc := (ha.trans hac).length
    refine wp_bind (wp_peek ?_)
    apply wp_ite
    · intro hn
      refine wp_bind (wp_getpos (wp_bind (wp_readWhile (wp_pure ⟨(spanS_sadv hn).lt, ?_, ?_⟩))))
      · exact hac.trans (spanS_adv _ _)
      · intro ps r' h
        have := hI _ _ (.name hn h)
        simpa using this
    · intro hn
      apply wp_ite
      · intro hb
        have a1 := headSym_sadv hb
        refine wp_bind (wp_get (wp_bind (wp_getpos ?_)))
        refine wp_call (hrec _ hsc.tail (by have := a1.lt; omega)) ?_
        intro e r2 h2
        refine wp_bind (wp_skipWhite ?_)
        have hs3 : Suf env (spanS iswhite r2).2 := (spanS_adv _ _).suf h2.suf'
        refine wp_bind (wp_p (k := 0) ?_ ?_)
        · cases (spanS iswhite r2).2 <;> simp
        rw [symAt_zero]
        apply wp_ite
        · intro _
          exact wp_errHere hs3.posOf
        · intro hb2
          have hb2 : headSym (spanS iswhite r2).2 = .ch '}' := by simpa using hb2
          have a3 := headSym_sadv hb2
          refine wp_bind (wp_seekCur (by have := a3.lt; omega) (wp_pure ?_))
          rw [List.drop_one]
          have a4 : SAdv rc (spanS iswhite r2).2.tail :=
            a1.trans (h2.adv.trans_adv ((spanS_adv iswhite r2).trans a3.1))
          refine ⟨a4.lt, hac.trans a4.1, ?_⟩
          intro ps r' h
          have := hI _ _ (.expr hb h2 hb2 h)
          simpa using this
      · intro hb
        refine wp_pure ?_
        have := hI _ _ (.nil (by simpa using hn) hb)
        simpa using this

theorem iswordc1_namec {c : Char} (h : iswordc1 c = true) : isnamec c = true := by
  simp only [iswordc1, isnamec, iswordc, isalnum, Bool.or_eq_true] at h ⊢
  rcases h with h | h <;> simp [h]

theorem IdParts.ne_nil {Q : ERel} {r : List Cell} {ps : List VExpr} {r' : List Cell}
    (h : IdParts env Q r ps r') (hi : IdStart r) : ps ≠ [] := by
  cases h with
  | sid h1 h2 h3 => simp
  | plain hn h =>
    cases h with
    | name h1 h2 => simp
    | expr h1 h2 h3 h4 => simp
    | nil h1 h2 =>
      rcases hi with h | h | h | h
      · obtain ⟨c, hc, hf⟩ := Sym.is_ch h
        rw [hc] at h1
        simp [Sym.is, iswordc1_namec hf] at h1
      · rw [h.1] at h1; simp [Sym.is, isnamec] at h1
      · exact absurd h h2
      · exact absurd h hn

/-- `parse_identifier` is called only where an identifier starts. -/
theorem parseIdentifier_spec (he : EnvOK env) {N : Nat} {rec : Prog VExpr}
    (hrec : RecOK env P N rec) {r : List Cell} (hs : Suf env r) (hN : r.length ≤ N)
    (hi : IdStart (spanS iswhite r).2) (hP : ∀ {w r1 ps r'}, Reads r w r1 →
      (∀ c ∈ w, iswhite c = true) → IdParts env (Der env P 1) r1 ps r' → ps ≠ [] → IdStart r1 →
      P 9 r (identNode (posOf env r1) ps) r') :
    wp tokGet env (parseIdentifier rec) r (fun e r' => Der env P 9 r e r') (ErrOK env) := by
  unfold parseIdentifier
  refine wp_bind (wp_skipWhite (wp_bind (wp_getpos ?_)))
  have a1 := spanS_adv iswhite r
  refine wp_call (parseCurlyParts_spec he hrec (a1.suf hs) (by have := a1.length; omega)) ?_
  intro ps r' hps
  have hne := hps.ne_nil hi
  have hd : Der env P 9 r (identNode (posOf env (spanS iswhite r).2) ps) r' :=
    ⟨a1.trans_sadv (hps.sadv hne), hs,
      hP (spanS_reads iswhite r) (spanS_all iswhite r) hps hne hi⟩
  unfold identNode at hd
  split
  · exact wp_pure hd
  · rename_i hn
    split at hd
    · rename_i q v
      exact absurd rfl (hn q v)
    · exact wp_pure hd

theorem p0_safe (r : List Cell) : r = [] ∨ 0 < r.length := by cases r <;> simp

theorem seek1 {r : List Cell} {c : Char} (h : headSym r = .ch c) : 1 ≤ r.length := by
  have := (headSym_sadv h).lt; omega

theorem getDstring_spec {r r1 : List Cell} (hs : Suf env r) (hr1 : r1 = (spanS iswhite r).2) :
    wp tokGet env getDstring r (fun s r' => DBody s ∧ Reads r1 (cs!"\"" ++ s ++ cs!"\"") r')
      (ErrOK env) := by
  unfold getDstring
  refine wp_bind (wp_skipWhite ?_)
  rw [← hr1]
  have hs1 : Suf env r1 := hr1 ▸ (spanS_adv iswhite r).suf hs
  refine wp_bind (wp_p (p0_safe _) ?_)
  rw [symAt_zero]
  apply wp_ite
  · intro _; exact wp_errHere hs1.posOf
  intro hq
  have hq : headSym r1 = .ch '"' := by simpa using hq
  refine wp_bind (wp_seekCur (seek1 hq) ?_)
  rw [List.drop_one]
  have h1 := headSym_reads hq
  refine wp_loop (fun s rc => DBody s ∧ Reads r1 (cs!"\"" ++ s) rc) ⟨.nil, by simpa using h1⟩ ?_
  rintro s rc ⟨hb, hrd⟩
  have hsc := hrd.adv.suf hs1
  refine wp_bind (wp_p (p0_safe _) ?_)
  rw [symAt_zero]
  cases hh : headSym rc with
  | eof => exact wp_errHere hsc.posOf
  | eol => exact wp_errHere hsc.posOf
  | ch c =>
    have h2 := headSym_reads hh
    apply wp_ite
    · rintro rfl
      refine wp_bind (wp_seekCur (seek1 hh) (wp_pure ?_))
      rw [List.drop_one]
      exact ⟨hb, hrd.append h2⟩
    intro n1; apply wp_ite
    · rintro rfl
      refine wp_bind (wp_seekCur (seek1 hh) ?_)
      rw [List.drop_one]
      have hsc2 := h2.adv.suf hsc
      refine wp_bind (wp_p (p0_safe _) ?_)
      rw [symAt_zero]
      cases hh2 : headSym rc.tail with
      | eof => exact wp_errHere hsc2.posOf
      | eol => exact wp_errHere hsc2.posOf
      | ch d =>
        refine wp_bind (wp_seekCur (seek1 hh2) (wp_pure ?_))
        rw [List.drop_one]
        have h3 := headSym_reads hh2
        refine ⟨((h2.append h3).sadv (by simp)).lt, .esc hb, ?_⟩
        have := hrd.append (h2.append h3)
        simpa using this
    · intro n2
      refine wp_bind (wp_seekCur (seek1 hh) (wp_pure ?_))
      rw [List.drop_one]
      refine ⟨(h2.sadv (by simp)).lt, .char hb n1 n2, ?_⟩
      have := hrd.append h2
      simpa using this

theorem getSstring_spec {r r1 : List Cell} (hs : Suf env r) (hr1 : r1 = (spanS iswhite r).2) :
    wp tokGet env getSstring r (fun s r' => SBody s ∧ Reads r1 (cs!"'" ++ s ++ cs!"'") r' ∧
      headSym r' ≠ .ch '\'') (ErrOK env) := by
  unfold getSstring
  refine wp_bind (wp_skipWhite ?_)
  rw [← hr1]
  have hs1 : Suf env r1 := hr1 ▸ (spanS_adv iswhite r).suf hs
  refine wp_bind (wp_p (p0_safe _) ?_)
  rw [symAt_zero]
  apply wp_ite
  · intro _; exact wp_errHere hs1.posOf
  intro hq
  have hq : headSym r1 = .ch '\'' := by simpa using hq
  refine wp_bind (wp_seekCur (seek1 hq) ?_)
  rw [List.drop_one]
  have h1 := headSym_reads hq
  refine wp_loop (fun s rc => SBody s ∧ Reads r1 (cs!"'" ++ s) rc) ⟨.nil, by simpa using h1⟩ ?_
  rintro s rc ⟨hb, hrd⟩
  have hsc := hrd.adv.suf hs1
  refine wp_bind (wp_p (p0_safe _) ?_)
  rw [symAt_zero]
  cases hh : headSym rc with
  | eof => exact wp_errHere hsc.posOf
  | eol => exact wp_errHere hsc.posOf
  | ch c =>
    have h2 := headSym_reads hh
    apply wp_ite
    · rintro rfl
      refine wp_bind (wp_seekCur (seek1 hh) ?_)
      rw [List.drop_one]
      refine wp_bind (wp_p (p0_safe _) ?_)
      rw [symAt_zero]
      apply wp_ite
      · intro hh2
        refine wp_bind (wp_seekCur (seek1 hh2) (wp_pure ?_))
        rw [List.drop_one]
        have h3 := headSym_reads hh2
        refine ⟨((h2.append h3).sadv (by simp)).lt, .quote hb, ?_⟩
        have := hrd.append (h2.append h3)
        simpa using this
      · intro hn
        exact wp_pure ⟨hb, hrd.append h2, hn⟩
    · intro n1
      refine wp_bind (wp_seekCur (seek1 hh) (wp_pure ?_))
      rw [List.drop_one]
      refine ⟨(h2.sadv (by simp)).lt, .char hb n1, ?_⟩
      have := hrd.append h2
      simpa using this

theorem parseDictLiteralKey_spec {r : List Cell} (hs : Suf env r) (htk : ∃ t r1, tokGet env r = .ok t r1) :
    wp tokGet env parseDictLiteralKey r (fun k r' => LitKey env r k r') (ErrOK env) := by
  unfold parseDictLiteralKey
  refine wp_bind (wp_skipWhite (wp_bind (wp_peek ?_)))
  have hw := spanS_reads iswhite r
  have hwa := spanS_all iswhite r
  generalize (spanS iswhite r).1 = w at *
  generalize (spanS iswhite r).2 = r1 at *
  have hs1 := hw.adv.suf hs
  apply wp_ite
  · intro _; exact wp_errHere hs1.posOf
  intro hc
  have hc : (headSym r1).is isLitKeyC = true := by simpa using hc
  obtain ⟨c, hh, hc⟩ := Sym.is_ch hc
  rw [hh]
  refine wp_bind (wp_seekCur (seek1 hh) ?_)
  rw [List.drop_one]
  refine wp_bind (wp_getpos ?_)
  have h1 := headSym_reads hh
  refine wp_call (P := fun s r' => s ≠ [] ∧ (∀ c ∈ s, isLitKeyC c = true) ∧ Reads r1 s r') ?_ ?_
  · refine wp_loop (fun s r' => s ≠ [] ∧ (∀ c ∈ s, isLitKeyC c = true) ∧ Reads r1 s r')
      ⟨by simp [Sym.str], by simp [Sym.str, hc], h1⟩ ?_
    rintro s rc ⟨hne, hall, hrd⟩
    have hsc := hrd.adv.suf hs1
    refine wp_bind (wp_p (p0_safe _) ?_)
    rw [symAt_zero]
    cases hh : headSym rc with
    | eof => exact wp_errHere hsc.posOf
    | eol => exact wp_errHere hsc.posOf
    | ch d =>
      have h2 := headSym_reads hh
      apply wp_ite
      · intro hd
        refine wp_bind (wp_seekCur (seek1 hh) (wp_pure ?_))
        rw [List.drop_one]
        refine ⟨(h2.sadv (by simp)).lt, by simp, ?_, hrd.append h2⟩
        intro x hx
        rcases List.mem_append.1 hx with h | h
        · exact hall x h
        · simp only [List.mem_singleton] at h; subst h; exact hd
      · intro _; exact wp_pure ⟨hne, hall, hrd⟩
  · rintro s r' ⟨hne, hall, hrd⟩
    exact wp_pure ⟨htk, w, r1, s, hw, hwa, hrd, hne, hall, rfl⟩

theorem parseListItems_spec (he : EnvOK env) (hP : ClosedL env P) {N : Nat} {rec : Prog VExpr}
    (hrec : RecOK env P N rec) {r0 r : List Cell} {t0 : Token} (hs0 : Suf env r0)
    (h0 : Tk env r0 .sqopen t0 r) (hN : r.length < N) :
    wp tokGet env (parseListItems rec t0.pos) r (fun e r' => Der env P 9 r0 e r') (ErrOK env) := by
  have a0 := h0.sadv he hs0
  have hs := a0.suf hs0
  have fin : ∀ vs r', Items env (Der env P 1) .sqclose r vs r' →
      Der env P 9 r0 (.list t0.pos vs) r' := fun vs r' h =>
    ⟨a0.trans (Items.adv he (hs := hs) (h := h)), hs0, hP.list hs0 h0 h⟩
  unfold parseListItems
  refine wp_tokpeek he hs fun t1 q1 ht1 ha1 => ?_
  apply wp_ite
  · intro hc
    refine wp_tok he hs fun t r' ht ha _ => wp_pure (fin _ _ ?_)
    rw [ht] at ht1
    cases ht1
    exact .nil ⟨ht, hc⟩
  · intro _
    refine wp_loop (fun vs rc => Suf env rc ∧ rc.length < N ∧
      ∀ es r', Items env (Der env P 1) .sqclose rc es r' →
        Items env (Der env P 1) .sqclose r (vs ++ es) r') ⟨hs, hN, fun es r' h => h⟩ ?_
    rintro vs rc ⟨hsc, hNc, hI⟩
    refine wp_call (hrec rc hsc hNc) ?_
    intro e r1 h1
    refine wp_tokpeek he h1.suf' fun t r2 ht ha => ?_
    apply wp_ite
    · intro hc
      refine wp_tok he h1.suf' fun t' r2' ht' ha' hs2 => ?_
      rw [ht'] at ht; cases ht
      have adv := ha.sadv' hc
      refine wp_tokpeek he hs2 fun t2 q2 ht2 ha2 => ?_
      apply wp_ite
      · intro hc2
        refine wp_tok he hs2 fun t3 r3 ht3 ha3 hs3 => wp_pure (fin _ _ ?_)
        rw [ht3] at ht2
        cases ht2
        exact hI _ _ (.cons h1 ⟨ht', hc⟩ (.nil ⟨ht3, hc2⟩))
      · intro _
        refine wp_pure ⟨(h1.adv.trans adv).lt, hs2, ?_, ?_⟩
        · have := (h1.adv.trans adv).lt; omega
        · intro es r' h
          have := hI _ _ (.cons h1 ⟨ht', hc⟩ h)
          simpa using this
    · intro _
      apply wp_ite
      · intro hc
        refine wp_tok he h1.suf' fun t' r2' ht' ha' hs2 => ?_
        rw [ht'] at ht; cases ht
        exact wp_pure (fin _ _ (hI _ _ (.last h1 ⟨ht', hc⟩)))
      · intro _
        exact unexpected_spec h1.suf' ha

/-- The relation for dictionary keys. -/
def KeyRel (env : Env) (P : Nat → ERel) (lit : Bool) : ERel :=
  if lit then LitKey env else Der env P 1

theorem KeyRel.adv {lit : Bool} {r : List Cell} {k : VExpr} {r' : List Cell}
    (h : KeyRel env P lit r k r') : SAdv r r' := by
  cases lit with
  | true => exact LitKey.adv h
  | false => exact Der.adv h

/-- White space skipped before a token. -/
theorem tok_skip (he : EnvOK env) {r : List Cell} (hs : Suf env r) {ty : TT} {t : Token}
    {r' : List Cell} (h : Tk env r ty t r') (h1 : ty ≠ .eof := by decide)
    (h2 : ty ≠ .eol := by decide) :
    t.pos = posOf env (spanS iswhite r).2 ∧ Reads (spanS iswhite r).2 t.value r' ∧ Shape ty t.value := by
  have ha := h.at he hs
  have hty := h.2
  cases ha with
  | eof => exact absurd hty.symm h1
  | eol => exact absurd hty.symm h2
  | text w r r1 ty' v r' k1 k2 k3 k4 k5 k6 =>
    have hr1 : (spanS iswhite r).2 = r1 := by
      obtain ⟨pre, rfl, hpre⟩ := k1
      clear hs h hty
      induction pre generalizing w with
      | nil =>
        have hh : headSym r1 = .ch (v.head k4) := by
          cases v with
          | nil => exact absurd rfl k4
          | cons d v => exact (Starts.of_reads k3).1
        obtain ⟨c, r2, rfl, hc⟩ := headSym_ch hh
        have := k6 (v.head k4) (by rw [List.head?_eq_some_head k4])
        simp [spanS, hc, this]
      | cons c pre ih =>
        cases w with
        | nil => simp at hpre
        | cons d w =>
          simp only [List.map_cons, List.cons.injEq] at hpre
          have hw := k2 d (by simp)
          have := ih w (fun c hc => k2 c (by simp [hc])) hpre.2
          simp [spanS, hpre.1, hw, this]
    simp only at hty
    subst hty
    rw [hr1]
    exact ⟨rfl, k3, k5⟩

theorem parseDict_spec (he : EnvOK env) (hP : ClosedL env P) {N : Nat} {rec : Prog VExpr}
    (hrec : RecOK env P N rec) {r0 r : List Cell} {t0 : Token} (hs0 : Suf env r0) (lit : Bool)
    (h0 : Tk env r0 (if lit then .litcopen else .copen) t0 r) (hN : r0.length ≤ N)
    (hnl : NoLam env r) :
    wp tokGet env (parseDict rec lit r0 t0.pos) r (fun e r' => Der env P 9 r0 e r') (ErrOK env) := by
  have a0 : SAdv r0 r := by cases lit <;> exact h0.sadv he hs0
  have hs := a0.suf hs0
  have fin : ∀ vs r', DItems env (KeyRel env P lit) (Der env P 1) r vs r' →
      Der env P 9 r0 (.dict t0.pos vs) r' := fun vs r' h =>
    ⟨a0.trans (DItems.adv he (fun _ _ _ => KeyRel.adv) hs h), hs0, by
      cases lit with
      | true => exact hP.litdict hs0 h0 hnl h
      | false => exact hP.dict hs0 h0 hnl h⟩
  have hid : IdStart (spanS iswhite r0).2 := by
    cases lit with
    | true =>
      obtain ⟨_, h2, h3⟩ := tok_skip he hs0 h0
      simp only [Shape] at h3
      rw [h3] at h2
      exact Or.inr (Or.inl (Starts.of_reads h2))
    | false =>
      obtain ⟨_, h2, h3⟩ := tok_skip he hs0 h0
      simp only [Shape] at h3
      rw [h3] at h2
      exact Or.inr (Or.inr (Or.inl (Starts.of_reads h2).1))
  have hNr : r.length < N := by have := a0.lt; omega
  unfold parseDict
  refine wp_tokpeek he hs fun t1 q1 ht1 ha1 => ?_
  apply wp_ite
  · intro hc
    refine wp_tok he hs fun t r' ht ha _ => wp_pure (fin _ _ ?_)
    rw [ht] at ht1
    cases ht1
    exact .nil ⟨ht, hc⟩
  · intro _
    refine wp_loop (fun vs rc => Suf env rc ∧ rc.length < N ∧
      (∃ t r1, tokGet env rc = .ok t r1) ∧ (vs = [] → rc = r) ∧
      ∀ es r', DItems env (KeyRel env P lit) (Der env P 1) rc es r' →
        DItems env (KeyRel env P lit) (Der env P 1) r (vs ++ es) r')
      ⟨hs, hNr, ⟨t1, q1, ht1⟩, fun _ => rfl, fun es r' h => h⟩ ?_
    rintro vs rc ⟨hsc, hNc, htk, hrc, hI⟩
    wp_join (fun k r' => KeyRel env P lit rc k r')
    · intro jp hjp
      cases lit with
      | true => exact wp_call (parseDictLiteralKey_spec hsc htk) hjp
      | false => exact wp_call (hrec rc hsc hNc) hjp
    intro k r1 h1
    have a1 := h1.adv
    have hs1 := a1.suf hsc
    refine wp_tok he hs1 fun t r2 ht ha hs2 => ?_
    apply wp_ite
    · intro hc
      apply wp_ite
      · intro _; exact unexpected_spec hs1 ha
      · intro hemp
        have hvs : vs = [] := by simpa using hemp
        have hhead : IdHead env r0 := by
          refine ⟨t0, r, h0.1, ?_⟩
          cases lit with
          | false => exact Or.inr (Or.inr (Or.inr (Or.inl ⟨h0.2, hnl⟩)))
          | true =>
            have e1 := hrc hvs
            subst e1
            exact Or.inr (Or.inr (Or.inr (Or.inr ⟨h0.2, hnl, k, r1, t, r2, h1, ht, hc⟩)))
        refine wp_bind (wp_seekSet (wp_call (parseIdentifier_spec he hrec hs0 hN hid
          fun a1 a2 a3 a4 a5 => hP.ident hs0 a1 a2 a3 a4 a5 hhead) ?_))
        intro e r' h
        exact wp_pure h
    intro _; apply wp_ite
    · intro _; exact unexpected_spec hs1 ha
    intro hcolon
    have hcolon : t.ty = .colon := by simpa using hcolon
    have a2 := a1.trans (ha.sadv' hcolon)
    refine wp_call (hrec r2 hs2 (by have := a2.lt; omega)) ?_
    intro v r3 h3
    have a3 := a2.trans h3.adv
    refine wp_tok he h3.suf' fun t' r4 ht' ha' hs4 => ?_
    apply wp_ite
    · intro hc
      have a4 := a3.trans (ha'.sadv' hc)
      refine wp_tokpeek he hs4 fun t2 q2 ht2 ha2 => ?_
      apply wp_ite
      · intro hc2
        refine wp_tok he hs4 fun t3 r3 ht3 ha3 hs3 => wp_pure (fin _ _ ?_)
        rw [ht3] at ht2
        cases ht2
        exact hI _ _ (.cons h1 ⟨ht, hcolon⟩ h3 ⟨ht', hc⟩ (.nil ⟨ht3, hc2⟩))
      · intro _
        refine wp_pure ⟨a4.lt, hs4, ?_, ⟨t2, q2, ht2⟩, by simp, ?_⟩
        · have := a4.lt; omega
        · intro es r' h
          have := hI _ _ (.cons h1 ⟨ht, hcolon⟩ h3 ⟨ht', hc⟩ h)
          simpa using this
    · intro _
      apply wp_ite
      · intro hc
        exact wp_pure (fin _ _ (hI _ _ (.last h1 ⟨ht, hcolon⟩ h3 ⟨ht', hc⟩)))
      · intro _
        exact unexpected_spec h3.suf' ha'

/-- `NoLam` after its first token. -/
def NoLamSt (env : Env) (t1 : Token) (r1 : List Cell) : Prop :=
  t1.ty ≠ .arrow ∧ (t1.ty = .squote ∨ t1.ty = .dquote ∨ ∃ t2 r2, tokGet env r1 = .ok t2 r2 ∧
      (t2.ty = .arrow → t1.ty ≠ .identifier ∧ t1.ty ≠ .dotdotdot) ∧
      (t2.ty = .comma → t1.ty ≠ .dotdotdot ∧ (t1.ty = .identifier → isargname t1.value = true)))

theorem lambdaParams_spec (he : EnvOK env) {r0 r : List Cell} {t0 : Token} (hs0 : Suf env r0)
    (h0 : tokGet env r0 = .ok t0 r)
    (hfb : t0.ty ≠ .arrow → t0.ty ≠ .identifier → t0.ty ≠ .dotdotdot → NoLamSt env t0 r) :
    wp tokGet env (lambdaParams t0) r (fun x r' => match x with
      | .arrow rl => LamPs env [] r0 rl r'
      | .fallback => NoLamSt env t0 r) (ErrOK env) := by
  unfold lambdaParams
  refine wp_loop (fun (st : Token × List Str × List (Pos × Str)) rn => ∃ rc, Suf env rc ∧
      tokGet env rc = .ok st.1 rn ∧ (st.1 = t0 ∧ rn = r ∨ NoLamSt env t0 r) ∧
      ∀ ps r', LamPs env st.2.1 rc ps r' → LamPs env [] r0 (st.2.2 ++ ps) r')
    ⟨r0, hs0, h0, Or.inl ⟨rfl, rfl⟩, fun ps r' h => h⟩ ?_
  rintro ⟨t, named, rl⟩ rn ⟨rc, hsc, ht, hst, hI⟩
  simp only at ht hI hst ⊢
  have ha := tokGet_at he hsc ht
  have hsn := ha.suf hsc
  apply wp_ite
  · intro hty
    refine wp_pure ?_
    have := hI _ _ (.done ⟨ht, hty⟩)
    simpa using this
  intro hnar; apply wp_ite
  · intro hty
    apply wp_ite
    · intro _; exact wp_errAt (ha.posOK hsc)
    intro harg
    have harg : isargname t.value = true := by simpa using harg
    apply wp_ite
    · intro _; exact wp_errAt (ha.posOK hsc)
    intro hnm
    have hnm : t.value ∉ named := by simpa using hnm
    refine wp_call (P := fun b r' => r' = rn ∧ (b = false → (headSym rn).is iswhite = true →
      ∀ t2 r2, tokGet env rn = .ok t2 r2 → t2.ty ≠ .comma)) ?_ ?_
    · refine wp_pand (wp_pSat (p0_safe _) ?_)
      rw [symAt_zero]
      split
      · refine wp_tokpeek he hsn fun t q ht ha => wp_pure ⟨rfl, ?_⟩
        intro h _ t2 r2 ht2
        rw [ht] at ht2
        cases ht2
        simpa using h
      · rename_i h
        exact ⟨rfl, fun _ hw => absurd hw h⟩
    rintro b r' ⟨rfl, hb⟩
    apply wp_ite
    · intro _; exact wp_errHere hsn.posOf
    intro hbf
    have hbf := hb (by simpa using hbf)
    refine wp_tok he hsn fun t2 r2 ht2 ha2 hs2 => ?_
    apply wp_ite
    · intro hc
      have hnw : (headSym r').is iswhite = false := by
        cases hw : (headSym r').is iswhite with
        | false => rfl
        | true => exact absurd hc (hbf hw t2 r2 ht2)
      have hnl : NoLamSt env t0 r := by
        rcases hst with ⟨rfl, rfl⟩ | h
        · refine ⟨hnar, Or.inr (Or.inr ⟨t2, r2, ht2, ?_, ?_⟩)⟩
          · intro h; rw [hc] at h; cases h
          · intro _; rw [hty]; exact ⟨by decide, fun _ => harg⟩
        · exact h
      refine wp_tokpeek he hs2 fun t3 r3 ht3 ha3 => ?_
      apply wp_ite
      · intro har
        refine wp_tok he hs2 fun t3' r3' ht3' ha3' hs3' => wp_pure ?_
        rw [ht3'] at ht3; cases ht3
        exact hI _ _ (.cons ⟨ht, hty⟩ harg hnm hnw ⟨ht2, hc⟩ (.done ⟨ht3', har⟩))
      · intro _
        refine wp_tok he hs2 fun t4 r4 ht4 ha4 hs4 => wp_pure ⟨?_, r2, hs2, ht4, Or.inr hnl, ?_⟩
        · have h1 := (ha2.sadv' hc).lt
          have h2 := ha4.suffix.length_le
          omega
        · intro ps r' h
          have := hI _ _ (.cons ⟨ht, hty⟩ harg hnm hnw ⟨ht2, hc⟩ h)
          simpa using this
    intro _; apply wp_ite
    · intro har
      exact wp_pure (hI _ _ (.last ⟨ht, hty⟩ harg hnm ⟨ht2, har⟩))
    · intro _
      exact wp_errAt (ha2.posOK hsn)
  intro hnid; apply wp_ite
  · intro hty
    refine wp_tokpeek he hsn fun t2 r2 ht2 ha2 => ?_
    apply wp_ite
    · intro har
      refine wp_tok he hsn fun t3 r3 ht3 ha3 hs3 => wp_pure ?_
      rw [ht3] at ht2; cases ht2
      exact hI _ _ (.dots ⟨ht, hty⟩ ⟨ht3, har⟩)
    · intro _; exact unexpected_spec hsn ha2
  · intro hnd
    refine wp_pure ?_
    rcases hst with ⟨rfl, rfl⟩ | h
    · exact hfb hnar hnid hnd
    · exact h

theorem parseBrace_spec (he : EnvOK env) (hP : ClosedL env P) {N : Nat} {rec : Prog VExpr}
    (hrec : RecOK env P N rec) {r0 r : List Cell} {t0 : Token} (hs0 : Suf env r0)
    (ht0 : tokGet env r0 = .ok t0 r) (hty : t0.ty = .copen ∨ t0.ty = .litcopen)
    (hN : r0.length ≤ N) :
    wp tokGet env (parseBrace rec r0 t0) r (fun e r' => Der env P 9 r0 e r') (ErrOK env) := by
  have a0 : SAdv r0 r := by
    rcases hty with h | h
    · exact (tokGet_at he hs0 ht0).sadv' h
    · exact (tokGet_at he hs0 ht0).sadv' h
  have hs := a0.suf hs0
  have dict : NoLam env r → wp tokGet env (parseDict rec (t0.ty == .litcopen) r0 t0.pos) r
      (fun e r' => Der env P 9 r0 e r') (ErrOK env) := by
    intro hnl
    refine parseDict_spec he hP hrec hs0 _ ⟨ht0, ?_⟩ hN hnl
    rcases hty with h | h <;> rw [h] <;> rfl
  unfold parseBrace
  refine wp_bind (wp_tell (wp_tok he hs fun t1 r1 ht1 ha1 hs1 => ?_))
  wp_join (fun (b : Bool) r' => r' = r1 ∧ (b = false → NoLamSt env t1 r1) ∧
      (t1.ty ≠ .arrow → t1.ty ≠ .identifier → t1.ty ≠ .dotdotdot → NoLamSt env t1 r1))
  · intro jp hjp
    apply wp_ite
    · intro h; exact wp_bind (wp_pure (hjp _ _ ⟨rfl, by simp, fun h' => absurd h h'⟩))
    intro hna; apply wp_ite
    · intro h
      have : NoLamSt env t1 r1 := ⟨hna, by
        rcases h with h | h
        · exact Or.inl h
        · exact Or.inr (Or.inl h)⟩
      exact wp_bind (wp_pure (hjp _ _ ⟨rfl, fun _ => this, fun _ _ _ => this⟩))
    intro _
    refine wp_tokpeek he hs1 fun t2 r2 ht2 ha2 => wp_bind (wp_pure (hjp _ _ ⟨rfl, ?_, ?_⟩))
    · intro h
      simp only [Bool.or_eq_false_iff, beq_eq_false_iff_ne] at h
      exact ⟨hna, Or.inr (Or.inr ⟨t2, r2, ht2, fun h' => absurd h' h.1, fun h' => absurd h' h.2⟩)⟩
    · intro _ h2 h3
      exact ⟨hna, Or.inr (Or.inr ⟨t2, r2, ht2, fun _ => ⟨h2, h3⟩, fun _ => ⟨h3, fun h => absurd h h2⟩⟩)⟩
  · rintro lambda r' ⟨rfl, hb1, hb2⟩
    apply wp_ite
    · intro _
      refine wp_call (lambdaParams_spec he hs ht1 hb2) ?_
      rintro x r2 hx
      cases x with
      | fallback => exact wp_bind (wp_seekSet (dict ⟨t1, r', ht1, hx⟩))
      | arrow rl =>
        simp only at hx
        have a2 := LamPs.sadv he hs hx
        have hs2 := a2.suf hs
        refine wp_call (hrec r2 hs2 (by have := a0.lt; have := a2.lt; omega)) ?_
        intro e r3 h3
        refine wp_tok he h3.suf' fun t4 r4 ht4 ha4 hs4 => ?_
        apply wp_ite
        · intro _; exact unexpected_spec h3.suf' ha4
        · intro hc
          have hc : t4.ty = .cclose := by simpa using hc
          refine wp_pure ⟨((a0.trans a2).trans h3.adv).trans (ha4.sadv' hc), hs0, ?_⟩
          refine hP.lambda hs0 ?_ hx h3 ⟨ht4, hc⟩
          rcases hty with h | h
          · exact Or.inl ⟨ht0, h⟩
          · exact Or.inr ⟨ht0, h⟩
    · intro h
      exact wp_bind (wp_seekSet (dict ⟨t1, r', ht1, hb1 (by simpa using h)⟩))

theorem equalci_sid {r : List Cell} {w : List Cell} (h : headSym r = .ch '<')
    (h2 : equalci (getnS 4 r.tail).1 cs!"SID>" = true) (hw : w = r) :
    equalci (getnS 5 w).1 cs!"<SID>" = true := by
  subst hw
  obtain ⟨c, r', rfl, hc⟩ := headSym_ch h
  simp only [List.tail_cons, equalci, beq_iff_eq] at h2 ⊢
  simp [getnS, hc, h2]

theorem ident_start_identifier (he : EnvOK env) {r : List Cell} (hs : Suf env r) {t : Token}
    {r' : List Cell} (h : Tk env r .identifier t r') : IdStart (spanS iswhite r).2 := by
  obtain ⟨_, h2, c, s, h3, h4, _⟩ := tok_skip he hs h
  rw [h3] at h2
  left
  rw [(Starts.of_reads h2).1]
  exact h4

theorem ident_start_is (he : EnvOK env) {r : List Cell} (hs : Suf env r) {t : Token} {ty : TT}
    {r' : List Cell} (h : Tk env r ty t r') (hi : isIsToken ty = true) :
    IdStart (spanS iswhite r).2 := by
  have h1 : ty ≠ .eof := by rintro rfl; simp [isIsToken] at hi
  have h2 : ty ≠ .eol := by rintro rfl; simp [isIsToken] at hi
  obtain ⟨_, h4, h3⟩ := tok_skip he hs h h1 h2
  left
  unfold isIsToken at hi
  split at hi
  all_goals first
    | (simp only [Shape, cmpText, caseText] at h3
       rw [h3] at h4
       rw [(Starts.of_reads h4).1]; rfl)
    | simp at hi

theorem ident_start_sid (he : EnvOK env) {r : List Cell} (hs : Suf env r) {t : Token}
    {r' : List Cell} (h : Tk env r (.cmp .smaller .plain) t r')
    (h2 : equalci (getnS 4 r').1 cs!"SID>" = true) : IdStart (spanS iswhite r).2 := by
  obtain ⟨_, h3, h4⟩ := tok_skip he hs h
  simp only [Shape, cmpText, caseText, List.append_nil] at h4
  rw [h4] at h3
  have hst := (Starts.of_reads h3).1
  have : r' = (spanS iswhite r).2.tail := by
    obtain ⟨pre, e, hp⟩ := h3
    cases pre with
    | nil => simp at hp
    | cons x pre =>
      cases pre with
      | nil => rw [e]; rfl
      | cons y pre => simp at hp
  subst this
  exact Or.inr (Or.inr (Or.inr ⟨hst, equalci_sid hst h2 rfl⟩))

theorem expr9_spec (he : EnvOK env) (hP : ClosedL env P) {N : Nat} {rec : Prog VExpr}
    (hrec : RecOK env P N rec) {r : List Cell} (hs : Suf env r) (hN : r.length ≤ N) :
    wp tokGet env (expr9 rec) r (fun e r' => Der env P 9 r e r') (ErrOK env) := by
  unfold expr9
  refine wp_bind (wp_tell (wp_tok he hs fun t r1 ht ha hs1 => ?_))
  have atom : ∀ a, atomTok t.ty = some a → t.ty ≠ .eof → t.ty ≠ .eol →
      Der env P 9 r (.atom t.pos a t.value) r1 := fun a h h1 h2 =>
    ⟨ha.sadv h1 h2, hs, hP.atom hs ⟨ht, rfl⟩ h⟩
  have ident : IdStart (spanS iswhite r).2 → IdHead env r →
      wp tokGet env (parseIdentifier rec) r (fun e r' => Der env P 9 r e r') (ErrOK env) :=
    fun hi hh => parseIdentifier_spec he hrec hs hN hi fun a1 a2 a3 a4 a5 => hP.ident hs a1 a2 a3 a4 a5 hh
  split
  · rename_i hty; exact wp_pure (atom _ (by rw [hty]; rfl) (by simp [hty]) (by simp [hty]))
  · rename_i hty; exact wp_pure (atom _ (by rw [hty]; rfl) (by simp [hty]) (by simp [hty]))
  · rename_i hty
    refine wp_bind (wp_seekSet (wp_call (getDstring_spec hs rfl) ?_))
    rintro s r' ⟨hb, hrd⟩
    have hpos := (tok_skip he hs ⟨ht, hty⟩).1
    refine wp_pure ⟨(spanS_adv iswhite r).trans_sadv (hrd.sadv (by simp)), hs, ?_⟩
    rw [hpos]
    exact hP.dstring hs (spanS_reads iswhite r) (spanS_all iswhite r) hb hrd
  · rename_i hty
    refine wp_bind (wp_seekSet (wp_call (getSstring_spec hs rfl) ?_))
    rintro s r' ⟨hb, hrd, hq⟩
    have hpos := (tok_skip he hs ⟨ht, hty⟩).1
    refine wp_pure ⟨(spanS_adv iswhite r).trans_sadv (hrd.sadv (by simp)), hs, ?_⟩
    rw [hpos]
    exact hP.sstring hs (spanS_reads iswhite r) (spanS_all iswhite r) hb hrd hq
  · rename_i hty
    exact parseListItems_spec he hP hrec hs ⟨ht, hty⟩ (by have := (ha.sadv' hty).lt; omega)
  · rename_i hty; exact parseBrace_spec he hP hrec hs ht (Or.inl hty) hN
  · rename_i hty; exact parseBrace_spec he hP hrec hs ht (Or.inr hty) hN
  · rename_i hty
    have a1 := ha.sadv' hty
    refine wp_call (hrec r1 hs1 (by have := a1.lt; omega)) ?_
    intro e r2 h2
    refine wp_tok he h2.suf' fun t2 r3 ht3 ha3 hs3 => ?_
    apply wp_ite
    · intro _; exact unexpected_spec h2.suf' ha3
    · intro hc
      have hc : t2.ty = .pclose := by simpa using hc
      exact wp_pure ⟨(a1.trans h2.adv).trans (ha3.sadv' hc), hs,
        hP.paren hs ⟨ht, hty⟩ h2 ⟨ht3, hc⟩⟩
  · rename_i hty; exact wp_pure (atom _ (by rw [hty]; rfl) (by simp [hty]) (by simp [hty]))
  · rename_i hty
    exact wp_bind (wp_seekSet (ident (ident_start_identifier he hs ⟨ht, hty⟩) ⟨t, r1, ht, Or.inl hty⟩))
  · rename_i hty; exact wp_pure (atom _ (by rw [hty]; rfl) (by simp [hty]) (by simp [hty]))
  · rename_i hty; exact wp_pure (atom _ (by rw [hty]; rfl) (by simp [hty]) (by simp [hty]))
  · rename_i hty
    refine wp_bind (wp_peekn ?_)
    apply wp_ite
    · intro hsid
      exact wp_bind (wp_seekSet (ident (ident_start_sid he hs ⟨ht, hty⟩ hsid)
        ⟨t, r1, ht, Or.inr (Or.inr (Or.inl ⟨hty, hsid⟩))⟩))
    · intro _; exact unexpected_spec hs ha
  · apply wp_ite
    · intro hi
      exact wp_bind (wp_seekSet (ident (ident_start_is he hs ⟨ht, rfl⟩ hi)
        ⟨t, r1, ht, Or.inr (Or.inl hi)⟩))
    · intro _; exact unexpected_spec hs ha

theorem expectSqclose_spec (he : EnvOK env) {r : List Cell} (hs : Suf env r) :
    wp tokGet env expectSqclose r (fun _ r' => ∃ t, Tk env r .sqclose t r') (ErrOK env) := by
  unfold expectSqclose
  refine wp_tok he hs fun t r' ht ha hs' => ?_
  apply wp_ite
  · intro _; exact unexpected_spec hs ha
  · intro hc; exact wp_pure ⟨t, ht, by simpa using hc⟩

/-- The part of a subscript after `[`. -/
inductive SubEnd (env : Env) (Q : ERel) (q : Pos) (l : VExpr) : List Cell → VExpr → List Cell → Prop
  | sub {r x r1 t r'} : Q r x r1 → Tk env r1 .sqclose t r' → SubEnd env Q q l r (.subscript q l x) r'
  | slice {r lo r1 t r2 hi r3 t' r'} : (lo = none ∧ r1 = r ∨ ∃ x, lo = some x ∧ Q r x r1) →
      Tk env r1 .colon t r2 → (hi = none ∧ r3 = r2 ∨ ∃ x, hi = some x ∧ Q r2 x r3) →
      Tk env r3 .sqclose t' r' → SubEnd env Q q l r (.slice q l lo hi) r'

theorem SubEnd.sadv (he : EnvOK env) {q : Pos} {l e : VExpr} {r r' : List Cell} (hs : Suf env r)
    (h : SubEnd env (Der env P 1) q l r e r') : SAdv r r' := by
  cases h with
  | sub h1 h2 => exact h1.adv.trans (h2.sadv he h1.suf')
  | @slice lo r1 t r2 hi r3 t' _ h1 h2 h3 h4 =>
    have a1 : Adv r r1 := by
      rcases h1 with ⟨_, rfl⟩ | ⟨x, _, h⟩
      · exact Adv.refl _
      · exact h.adv.1
    have a2 := a1.trans_sadv (h2.sadv he (a1.suf hs))
    have a3 : Adv r2 r3 := by
      rcases h3 with ⟨_, rfl⟩ | ⟨x, _, h⟩
      · exact Adv.refl _
      · exact h.adv.1
    have a4 := a2.trans_adv a3
    exact a4.trans (h4.sadv he (a4.suf hs))

theorem sliceEnd_spec (he : EnvOK env) {N : Nat} {rec : Prog VExpr} (hrec : RecOK env P N rec)
    {q : Pos} {l : VExpr} {lo : Option VExpr} {r : List Cell} (hs : Suf env r) (hN : r.length < N) :
    wp tokGet env (sliceEnd rec q l lo) r (fun e r' => ∃ hi r3 t', e = .slice q l lo hi ∧
      (hi = none ∧ r3 = r ∨ ∃ x, hi = some x ∧ Der env P 1 r x r3) ∧ Tk env r3 .sqclose t' r')
      (ErrOK env) := by
  unfold sliceEnd
  refine wp_tokpeek he hs fun t r1 ht ha => ?_
  wp_join (fun (hi : Option VExpr) r3 => (hi = none ∧ r3 = r ∨ ∃ x, hi = some x ∧ Der env P 1 r x r3))
  · intro jp hjp
    apply wp_ite
    · intro _
      refine wp_call (hrec r hs hN) ?_
      intro e r' h
      exact wp_bind (wp_pure (hjp _ _ (Or.inr ⟨e, rfl, h⟩)))
    · intro _
      exact wp_bind (wp_pure (hjp _ _ (Or.inl ⟨rfl, rfl⟩)))
  · intro hi r3 h
    have hs3 : Suf env r3 := by
      rcases h with ⟨_, rfl⟩ | ⟨x, _, h⟩
      · exact hs
      · exact h.suf'
    refine wp_call (expectSqclose_spec he hs3) ?_
    rintro _ r' ⟨t, ht⟩
    exact wp_pure ⟨hi, r3, t, rfl, h, ht⟩

theorem parseSubscript_spec (he : EnvOK env) {N : Nat} {rec : Prog VExpr} (hrec : RecOK env P N rec)
    {q : Pos} {l : VExpr} {r : List Cell} (hs : Suf env r) (hN : r.length < N) :
    wp tokGet env (parseSubscript rec q l) r (fun e r' => SubEnd env (Der env P 1) q l r e r')
      (ErrOK env) := by
  unfold parseSubscript
  refine wp_tokpeek he hs fun t r1 ht ha => ?_
  apply wp_ite
  · intro hc
    refine wp_tok he hs fun t' r1' ht' ha' hs1 => ?_
    rw [ht'] at ht; cases ht
    refine wp_mono (sliceEnd_spec he hrec hs1 (by have := (ha.sadv' hc).lt; omega)) ?_
    rintro e r' ⟨hi, r3, t2, rfl, h3, h4⟩
    exact .slice (Or.inl ⟨rfl, rfl⟩) ⟨ht', hc⟩ h3 h4
  · intro _
    refine wp_call (hrec r hs hN) ?_
    intro x r2 h2
    have hN2 : r2.length < N := by have := h2.adv.lt; omega
    refine wp_tokpeek he h2.suf' fun t r1 ht ha => ?_
    apply wp_ite
    · intro hc
      refine wp_tok he h2.suf' fun t' r1' ht' ha' hs1 => ?_
      rw [ht'] at ht; cases ht
      refine wp_mono (sliceEnd_spec he hrec hs1 (by have := (ha.sadv' hc).lt; omega)) ?_
      rintro e r' ⟨hi, r3, t2, rfl, h3, h4⟩
      exact .slice (Or.inr ⟨x, rfl, h2⟩) ⟨ht', hc⟩ h3 h4
    · intro _
      refine wp_call (expectSqclose_spec he h2.suf') ?_
      rintro _ r' ⟨t, ht⟩
      exact wp_pure (.sub h2 ht)

theorem parseDot_spec {r : List Cell} {t : Token} {l : VExpr} :
    wp tokGet env (parseDot t l) r (fun o r' => match o with
      | none => dotLeft l = true → (headSym r).is iswordc = true →
          (headSym (spanS iswordc r).2).is isnamec = true
      | some e => dotLeft l = true ∧ (headSym r).is iswordc = true ∧
          (headSym (spanS iswordc r).2).is isnamec = false ∧
          e = .dot t.pos l (posOf env r) (spanS iswordc r).1 ∧ r' = (spanS iswordc r).2)
      (ErrOK env) := by
  unfold parseDot
  apply wp_ite
  · intro h; exact wp_pure fun h' => absurd h' (by simpa using h)
  intro hl
  have hl : dotLeft l = true := by simpa using hl
  refine wp_bind (wp_p (p0_safe _) ?_)
  rw [symAt_zero]
  apply wp_ite
  · intro h; exact wp_pure fun _ h' => absurd h' (by simpa using h)
  intro hw
  have hw : (headSym r).is iswordc = true := by simpa using hw
  refine wp_bind (wp_getpos (wp_bind (wp_readWhile (wp_bind (wp_p (p0_safe _) ?_)))))
  rw [symAt_zero]
  apply wp_ite
  · intro h; exact wp_pure fun _ _ => h
  intro hn
  exact wp_pure ⟨hl, hw, by simpa using hn, rfl, rfl⟩

theorem postfix_sub (he : EnvOK env) (hP : ClosedL env P) {r l r1 : _} {t : Token} {r2 : List Cell}
    {e : VExpr} {r' : List Cell} (h1 : Der env P 8 r l r1) (hw : (headSym r1).is iswhite = false)
    (ht : Tk env r1 .sqopen t r2) (h : SubEnd env (Der env P 1) t.pos l r2 e r') :
    Der env P 8 r e r' := by
  have a2 := ht.sadv he h1.suf'
  refine ⟨(h1.adv.trans a2).trans (h.sadv he (a2.suf h1.suf')), h1.suf, ?_⟩
  cases h with
  | sub h2 h3 => exact hP.subscript h1 hw ht h2 h3
  | slice h2 h3 h4 h5 => exact hP.slice h1 hw ht h2 h3 h4 h5

theorem postfix_dot (he : EnvOK env) (hP : ClosedL env P) {r l r1 : _} {t : Token} {r2 : List Cell}
    (h1 : Der env P 8 r l r1) (hw : (headSym r1).is iswhite = false)
    (ht : Tk env r1 .dot t r2) (hl : dotLeft l = true) (hc : (headSym r2).is iswordc = true)
    (hn : (headSym (spanS iswordc r2).2).is isnamec = false) :
    Der env P 8 r (.dot t.pos l (posOf env r2) (spanS iswordc r2).1) (spanS iswordc r2).2 :=
  ⟨(h1.adv.trans (ht.sadv he h1.suf')).trans_adv (spanS_adv _ _), h1.suf,
    hP.dot h1 hw ht hl hc hn⟩

theorem Der.up (hP : Closed env P) {k : Nat} {r : List Cell} {e : VExpr} {r' : List Cell}
    (hk : 1 ≤ k) (h : Der env P (k + 1) r e r') : Der env P k r e r' := ⟨h.adv, h.suf, hP.up hk h⟩

theorem Fin'.up (hP : ClosedL env P) {k : Nat} {r : List Cell} {e : VExpr} {r' : List Cell}
    (hk : 1 ≤ k) (h : Fin' env P (k + 1) r e r') (hl : Look env k r') : Der env P k r e r' :=
  ⟨h.adv, h.suf, hP.up hk h hl⟩

theorem Der.fin {k : Nat} {r : List Cell} {e : VExpr} {r' : List Cell} (h : Der env P k r e r')
    (hk : ¬ k = 8 ∧ ¬ (k = 2 ∨ k = 3 ∨ k = 5 ∨ k = 6)) : Fin' env P k r e r' :=
  ⟨h, by unfold StopAt; rw [if_neg hk.1, if_neg hk.2]; trivial⟩

theorem look_skip {k : Nat} {r' : List Cell} (hk : ¬ k = 1 ∧ ¬ k = 4) : Look env k r' := by
  unfold Look; rw [if_neg hk.1, if_neg hk.2]; trivial

theorem expr8_spec (he : EnvOK env) (hP : ClosedL env P) {N : Nat} {rec : Prog VExpr}
    (hrec : RecOK env P N rec) {r : List Cell} (hs : Suf env r) (hN : r.length ≤ N) :
    wp tokGet env (expr8 rec) r (fun e r' => Fin' env P 8 r e r') (ErrOK env) := by
  unfold expr8
  refine wp_call (expr9_spec he hP hrec hs hN) ?_
  intro left r1 h1
  refine wp_loop (fun l rc => Der env P 8 r l rc)
    ((h1.fin (by omega)).up hP (by omega) (look_skip (by omega))) ?_
  intro l rc hl
  have hsc := hl.suf'
  have hNc : rc.length < N := by have := hl.adv.lt; omega
  refine wp_bind (wp_tell (wp_bind (wp_peek (wp_tok he hsc fun t r2 ht ha hs2 => ?_))))
  apply wp_ite
  · intro hc
    simp only [Bool.and_eq_true, Bool.not_eq_true', beq_iff_eq] at hc
    have a2 := ha.sadv' hc.2
    refine wp_call (parseSubscript_spec he hrec hs2 (by have := a2.lt; omega)) ?_
    intro e r' h
    refine wp_pure ⟨?_, postfix_sub he hP hl hc.1 ⟨ht, hc.2⟩ h⟩
    exact (a2.trans (h.sadv he hs2)).lt
  intro hnsq; apply wp_ite
  · intro hty
    have a2 := ha.sadv' hty
    refine wp_call (expr9_spec he hP hrec hs2 (by have := a2.lt; omega)) ?_
    intro f r3 h3
    refine wp_tok he h3.suf' fun t2 r4 ht2 ha2 hs4 => ?_
    apply wp_ite
    · intro _; exact wp_errAt (ha2.posOK h3.suf')
    intro hp
    have hp : t2.ty = .popen := by simpa using hp
    have a4 := (a2.trans h3.adv).trans (ha2.sadv' hp)
    refine wp_call (parseRlist_spec he hrec hs4 (by have := a4.lt; omega)) ?_
    rintro as r' ⟨h5, h6⟩
    have a5 := a4.trans (Items.adv he (hs := hs4) (h := h5))
    exact wp_pure ⟨a5.lt, hl.adv.trans a5, hs, hP.method hl ⟨ht, hty⟩ h3 ⟨ht2, hp⟩ h5 h6⟩
  intro hnar; apply wp_ite
  · intro hty
    have a2 := ha.sadv' hty
    refine wp_call (parseRlist_spec he hrec hs2 (by have := a2.lt; omega)) ?_
    rintro as r' ⟨h5, h6⟩
    have a5 := a2.trans (Items.adv he (hs := hs2) (h := h5))
    exact wp_pure ⟨a5.lt, hl.adv.trans a5, hs, hP.call hl ⟨ht, hty⟩ h5 h6⟩
  intro hnp
  have stop : (∀ (_ : (headSym rc).is iswhite = false) (_ : t.ty = .dot), dotLeft l = true →
      (headSym r2).is iswordc = true → (headSym (spanS iswordc r2).2).is isnamec = true) →
      StopAt env 8 l rc := by
    intro h
    unfold StopAt
    rw [if_pos rfl]
    refine ⟨t, r2, ht, hnar, hnp, fun hw => ⟨?_, h hw⟩⟩
    intro h; exact hnsq (by simp [hw, h])
  apply wp_ite
  · intro hc
    simp only [Bool.and_eq_true, Bool.not_eq_true', beq_iff_eq] at hc
    refine wp_call parseDot_spec ?_
    intro o r' ho
    cases o with
    | none => exact wp_bind (wp_seekSet (wp_pure ⟨hl, stop fun _ _ => ho⟩))
    | some e =>
      obtain ⟨h1, h2, h3, rfl, rfl⟩ := ho
      refine wp_pure ⟨?_, postfix_dot he hP hl hc.1 ⟨ht, hc.2⟩ h1 h2 h3⟩
      exact ((ha.sadv' hc.2).trans_adv (spanS_adv _ _)).lt
  · intro hnd
    exact wp_bind (wp_seekSet (wp_pure ⟨hl, stop fun hw hd => absurd (by simp [hw, hd]) hnd⟩))

theorem expr7_spec (he : EnvOK env) (hP : ClosedL env P) {N : Nat} {rec : Prog VExpr}
    (hrec : RecOK env P N rec) {r : List Cell} (hs : Suf env r) (hN : r.length ≤ N) :
    wp tokGet env (expr7 rec) r (fun e r' => Der env P 7 r e r') (ErrOK env) := by
  have key : ∀ n r, Suf env r → r.length ≤ N → r.length < n →
      wp tokGet env (expr7N rec n) r (fun e r' => Der env P 7 r e r') (ErrOK env) := by
    intro n
    induction n with
    | zero => intro r _ _ h; omega
    | succ n ih =>
      intro r hs hN hn
      unfold expr7N
      refine wp_bind (wp_tell (wp_tok he hs fun t r1 ht ha hs1 => ?_))
      cases hop : opsUnary t.ty with
      | none =>
        simp only
        refine wp_bind (wp_seekSet (wp_mono (expr8_spec he hP hrec hs hN) ?_))
        intro e r' h
        exact h.up hP (by omega) (look_skip (by omega))
      | some op =>
        simp only
        have a1 : SAdv r r1 := by
          refine ha.sadv ?_ ?_
          · intro h; rw [h] at hop; simp [opsUnary] at hop
          · intro h; rw [h] at hop; simp [opsUnary] at hop
        have := a1.lt
        refine wp_call (ih r1 hs1 (by omega) (by omega)) ?_
        intro e r' h
        exact wp_pure ⟨a1.trans h.adv, hs, hP.unary hs ⟨ht, rfl⟩ hop h⟩
  exact key (r.length + 1) r hs hN (Nat.lt_succ_self _)

theorem opsAt_tok {k : Nat} {ty : TT} {op : BinTy} (h : opsAt k ty = some op) :
    ty ≠ .eof ∧ ty ≠ .eol := by
  constructor
  · rintro rfl
    unfold opsAt at h
    split at h <;> simp [opsOr, opsAnd, opsAdd, opsMul] at h
  · rintro rfl
    unfold opsAt at h
    split at h <;> simp [opsOr, opsAnd, opsAdd, opsMul] at h

theorem binLoop_spec (he : EnvOK env) (hP : ClosedL env P) {k N : Nat} {next : Prog VExpr}
    (hk : k = 2 ∨ k = 3 ∨ k = 5 ∨ k = 6)
    (hnext : ∀ r, Suf env r → r.length ≤ N →
      wp tokGet env next r (fun e r' => Fin' env P (k + 1) r e r') (ErrOK env))
    {r : List Cell} (hs : Suf env r) (hN : r.length ≤ N) :
    wp tokGet env (binLoop next (opsAt k)) r (fun e r' => Fin' env P k r e r') (ErrOK env) := by
  unfold binLoop
  refine wp_call (hnext r hs hN) ?_
  intro left r1 h1
  refine wp_loop (fun l rc => Der env P k r l rc)
    (h1.up hP (by omega) (look_skip (by omega))) ?_
  intro l rc hl
  refine wp_bind (wp_tell (wp_tok he hl.suf' fun t r2 ht ha hs2 => ?_))
  cases hop : opsAt k t.ty with
  | none =>
    refine wp_bind (wp_seekSet (wp_pure ⟨hl, ?_⟩))
    unfold StopAt
    rw [if_neg (by omega), if_pos hk]
    exact ⟨t, r2, ht, hop⟩
  | some op =>
    simp only
    have a2 := ha.sadv (opsAt_tok hop).1 (opsAt_tok hop).2
    refine wp_call (hnext r2 hs2 (by have := a2.lt; have := hl.adv.lt; omega)) ?_
    intro x r3 h3
    exact wp_pure ⟨(a2.trans h3.adv).lt, hl.adv.trans (a2.trans h3.adv), hs,
      hP.binary hop hl ⟨ht, rfl⟩ h3⟩

theorem expr6_spec (he : EnvOK env) (hP : ClosedL env P) {N : Nat} {rec : Prog VExpr}
    (hrec : RecOK env P N rec) {r : List Cell} (hs : Suf env r) (hN : r.length ≤ N) :
    wp tokGet env (expr6 rec) r (fun e r' => Fin' env P 6 r e r') (ErrOK env) :=
  binLoop_spec (k := 6) he hP (by omega)
    (fun _ hs hN => wp_mono (expr7_spec he hP hrec hs hN) fun _ _ h => h.fin (by omega)) hs hN

theorem expr5_spec (he : EnvOK env) (hP : ClosedL env P) {N : Nat} {rec : Prog VExpr}
    (hrec : RecOK env P N rec) {r : List Cell} (hs : Suf env r) (hN : r.length ≤ N) :
    wp tokGet env (expr5 rec) r (fun e r' => Fin' env P 5 r e r') (ErrOK env) :=
  binLoop_spec (k := 5) he hP (by omega) (fun _ hs hN => expr6_spec he hP hrec hs hN) hs hN

theorem expr4_spec (he : EnvOK env) (hP : ClosedL env P) {N : Nat} {rec : Prog VExpr}
    (hrec : RecOK env P N rec) {r : List Cell} (hs : Suf env r) (hN : r.length ≤ N) :
    wp tokGet env (expr4 rec) r (fun e r' => Der env P 4 r e r') (ErrOK env) := by
  unfold expr4
  refine wp_call (expr5_spec he hP hrec hs hN) ?_
  intro l r1 h1
  refine wp_bind (wp_tell (wp_tok he h1.suf' fun t r2 ht ha hs2 => ?_))
  cases hop : opsCmp t.ty with
  | none => exact wp_bind (wp_seekSet (wp_pure (h1.up hP (by omega) ⟨t, r2, ht, hop⟩)))
  | some op =>
    simp only
    have a2 : SAdv r1 r2 := by
      refine ha.sadv ?_ ?_
      · intro h; rw [h] at hop; simp [opsCmp] at hop
      · intro h; rw [h] at hop; simp [opsCmp] at hop
    refine wp_call (expr5_spec he hP hrec hs2 (by have := a2.lt; have := h1.adv.lt; omega)) ?_
    intro x r3 h3
    exact wp_pure ⟨h1.adv.trans (a2.trans h3.adv), hs, hP.compare hop h1 ⟨ht, rfl⟩ h3⟩

theorem expr3_spec (he : EnvOK env) (hP : ClosedL env P) {N : Nat} {rec : Prog VExpr}
    (hrec : RecOK env P N rec) {r : List Cell} (hs : Suf env r) (hN : r.length ≤ N) :
    wp tokGet env (expr3 rec) r (fun e r' => Fin' env P 3 r e r') (ErrOK env) :=
  binLoop_spec (k := 3) he hP (by omega)
    (fun _ hs hN => wp_mono (expr4_spec he hP hrec hs hN) fun _ _ h => h.fin (by omega)) hs hN

theorem expr2_spec (he : EnvOK env) (hP : ClosedL env P) {N : Nat} {rec : Prog VExpr}
    (hrec : RecOK env P N rec) {r : List Cell} (hs : Suf env r) (hN : r.length ≤ N) :
    wp tokGet env (expr2 rec) r (fun e r' => Fin' env P 2 r e r') (ErrOK env) :=
  binLoop_spec (k := 2) he hP (by omega) (fun _ hs hN => expr3_spec he hP hrec hs hN) hs hN

theorem expr1_spec (he : EnvOK env) (hP : ClosedL env P) {N : Nat} {rec : Prog VExpr}
    (hrec : RecOK env P N rec) {r : List Cell} (hs : Suf env r) (hN : r.length ≤ N) :
    wp tokGet env (expr1 rec) r (fun e r' => Der env P 1 r e r') (ErrOK env) := by
  unfold expr1
  refine wp_call (expr2_spec he hP hrec hs hN) ?_
  intro c r1 h1
  refine wp_bind (wp_tell (wp_tok he h1.suf' fun t r2 ht ha hs2 => ?_))
  apply wp_ite
  · intro hty
    have a2 := h1.adv.trans (ha.sadv' hty)
    refine wp_call (hrec r2 hs2 (by have := a2.lt; omega)) ?_
    intro a r3 h3
    have a3 := a2.trans h3.adv
    refine wp_tok he h3.suf' fun t2 r4 ht2 ha2 hs4 => ?_
    apply wp_ite
    · intro _; exact unexpected_spec h3.suf' ha2
    intro hc
    have hc : t2.ty = .colon := by simpa using hc
    have a4 := a3.trans (ha2.sadv' hc)
    refine wp_call (hrec r4 hs4 (by have := a4.lt; omega)) ?_
    intro b r5 h5
    exact wp_pure ⟨a4.trans h5.adv, hs, hP.ternary h1 ⟨ht, hty⟩ h3 ⟨ht2, hc⟩ h5⟩
  · intro hn
    exact wp_bind (wp_seekSet (wp_pure (h1.up hP (by omega) ⟨t, r2, ht, hn⟩)))

theorem parseExpr1F_spec (he : EnvOK env) (hP : ClosedL env P) (n : Nat) :
    RecOK env P n (parseExpr1F n) := by
  induction n with
  | zero => intro r _ h; omega
  | succ n ih =>
    intro r hs hn
    exact expr1_spec he hP ih hs (by omega)

/-- Soundness of the expression parser. -/
theorem parseExpr1_specL (he : EnvOK env) (hP : ClosedL env P) {r : List Cell} (hs : Suf env r) :
    wp tokGet env parseExpr1 r (fun e r' => Der env P 1 r e r') (ErrOK env) :=
  parseExpr1F_spec he hP (r.length + 1) r hs (Nat.lt_succ_self _)

theorem parseExpr1_spec (he : EnvOK env) (hP : Closed env P) {r : List Cell} (hs : Suf env r) :
    wp tokGet env parseExpr1 r (fun e r' => Der env P 1 r e r') (ErrOK env) :=
  parseExpr1_specL he hP.toL hs

theorem parseExpr1_rec (he : EnvOK env) (hP : Closed env P) (N : Nat) : RecOK env P N parseExpr1 :=
  fun _ hs _ => parseExpr1_spec he hP hs

/-! ### Left-hand sides -/

theorem lv9_spec (he : EnvOK env) (hP : Closed env P) {r : List Cell} (hs : Suf env r) :
    wp tokGet env lv9 r (fun e r' => Der env P 9 r e r') (ErrOK env) := by
  unfold lv9
  refine wp_bind (wp_tell (wp_tok he hs fun t r1 ht ha hs1 => ?_))
  have atom : ∀ a, atomTok t.ty = some a → t.ty ≠ .eof → t.ty ≠ .eol →
      Der env P 9 r (.atom t.pos a t.value) r1 := fun a h h1 h2 =>
    ⟨ha.sadv h1 h2, hs, hP.atom hs ⟨ht, rfl⟩ h⟩
  have ident : IdStart (spanS iswhite r).2 →
      wp tokGet env (parseIdentifier parseExpr1) r (fun e r' => Der env P 9 r e r') (ErrOK env) :=
    fun hi => parseIdentifier_spec he (parseExpr1_rec he hP r.length) hs (Nat.le_refl _) hi
      fun a1 a2 a3 a4 a5 => hP.ident hs a1 a2 a3 a4 a5
  split
  · rename_i hty
    refine wp_bind (wp_seekSet (ident ?_))
    obtain ⟨_, h2, h3⟩ := tok_skip he hs ⟨ht, hty⟩
    simp only [Shape] at h3
    rw [h3] at h2
    exact Or.inr (Or.inr (Or.inl (Starts.of_reads h2).1))
  · rename_i hty; exact wp_pure (atom _ (by rw [hty]; rfl) (by simp [hty]) (by simp [hty]))
  · rename_i hty
    exact wp_bind (wp_seekSet (ident (ident_start_identifier he hs ⟨ht, hty⟩)))
  · rename_i hty
    refine wp_bind (wp_peekn ?_)
    apply wp_ite
    · intro hsid
      exact wp_bind (wp_seekSet (ident (ident_start_sid he hs ⟨ht, hty⟩ hsid)))
    · intro _; exact unexpected_spec hs ha
  · rename_i hty; exact wp_pure (atom _ (by rw [hty]; rfl) (by simp [hty]) (by simp [hty]))
  · rename_i hty; exact wp_pure (atom _ (by rw [hty]; rfl) (by simp [hty]) (by simp [hty]))
  · exact unexpected_spec hs ha

theorem lv8_spec (he : EnvOK env) (hP : Closed env P) {r : List Cell} (hs : Suf env r) :
    wp tokGet env lv8 r (fun e r' => Der env P 8 r e r') (ErrOK env) := by
  unfold lv8
  refine wp_call (lv9_spec he hP hs) ?_
  intro left r1 h1
  refine wp_loop (fun l rc => Der env P 8 r l rc) (h1.up hP (by omega)) ?_
  intro l rc hl
  have hsc := hl.suf'
  refine wp_bind (wp_tell (wp_bind (wp_peek (wp_tok he hsc fun t r2 ht ha hs2 => ?_))))
  apply wp_ite
  · intro hc
    simp only [Bool.and_eq_true, Bool.not_eq_true', beq_iff_eq] at hc
    have a2 := ha.sadv' hc.2
    refine wp_call (parseSubscript_spec he (parseExpr1_rec he hP (r2.length + 1)) hs2 (Nat.lt_succ_self _)) ?_
    intro e r' h
    refine wp_pure ⟨?_, postfix_sub he hP.toL hl hc.1 ⟨ht, hc.2⟩ h⟩
    exact (a2.trans (h.sadv he hs2)).lt
  intro _; apply wp_ite
  · intro hc
    simp only [Bool.and_eq_true, Bool.not_eq_true', beq_iff_eq] at hc
    refine wp_call parseDot_spec ?_
    intro o r' ho
    cases o with
    | none => exact wp_bind (wp_seekSet (wp_pure hl))
    | some e =>
      obtain ⟨h1, h2, h3, rfl, rfl⟩ := ho
      refine wp_pure ⟨?_, postfix_dot he hP.toL hl hc.1 ⟨ht, hc.2⟩ h1 h2 h3⟩
      exact ((ha.sadv' hc.2).trans_adv (spanS_adv _ _)).lt
  · intro _
    exact wp_bind (wp_seekSet (wp_pure hl))

end

end Viml
