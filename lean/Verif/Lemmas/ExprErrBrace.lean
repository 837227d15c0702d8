/-
Where the expression parser fails, continued: lambdas, dictionaries and names after a brace.
-/
import Verif.Lemmas.ExprErrLeaf

namespace Viml
open Prog Spec

section
variable {env : Env} {fn : Str} {α β σ : Type} {r : List Cell} {msg : Str} {q : Pos}

/-- A loop each round of which consumes input returns where a relation says that satisfies the equation of the loop. -/
theorem ok_loop_iff {body : σ → Prog (σ ⊕ β)} {D R : σ → List Cell → Prop} {Q : β → List Cell → Prop}
    (hdec : ∀ s r s1 r1, D s r → Ok env (body s) r (.inl s1) r1 → r1.length < r.length ∧ D s1 r1)
    (hstep : ∀ s r, D s r → (R s r ↔ (∃ b r', Ok env (body s) r (.inr b) r' ∧ Q b r') ∨
      ∃ s1 r1, Ok env (body s) r (.inl s1) r1 ∧ R s1 r1)) {s : σ} (hd : D s r) :
    (∃ b r', Ok env (loop body s) r b r' ∧ Q b r') ↔ R s r := by
  suffices key : ∀ (n : Nat) (s : σ) (r : List Cell), r.length < n → D s r →
      ((∃ b r', Ok env (loopN body n s) r b r' ∧ Q b r') ↔ R s r) from key _ s r (Nat.lt_succ_self _) hd
  intro n
  induction n with
  | zero => intro s r h; omega
  | succ n ih =>
    intro s r hn hd
    rw [hstep s r hd]
    constructor
    · rintro ⟨b, r', h, hq⟩
      rw [loopN, ok_bind] at h
      obtain ⟨x, r1, h1, h2⟩ := h
      cases x with
      | inl s1 =>
        obtain ⟨hl, hd1⟩ := hdec _ _ _ _ hd h1
        exact .inr ⟨s1, r1, h1, (ih s1 r1 (by omega) hd1).1 ⟨b, r', h2, hq⟩⟩
      | inr b' =>
        obtain ⟨rfl, rfl⟩ := ok_pure.1 h2
        exact .inl ⟨_, _, h1, hq⟩
    · rintro (⟨b, r', h1, hq⟩ | ⟨s1, r1, h1, h2⟩)
      · refine ⟨b, r', ?_, hq⟩
        rw [loopN, ok_bind]
        exact ⟨_, _, h1, rfl⟩
      · obtain ⟨hl, hd1⟩ := hdec _ _ _ _ hd h1
        obtain ⟨b, r', h3, hq⟩ := (ih s1 r1 (by omega) hd1).2 h2
        refine ⟨b, r', ?_, hq⟩
        rw [loopN, ok_bind]
        exact ⟨_, _, h1, h3⟩

/-- There is a token or an error. -/
theorem lex_total (he : EnvOK env) (hs : Suf env r) : (∃ m q, LexErr env r m q) ∨ ∃ t r1, Lex env r t r1 := by
  cases h : tokGet env r with
  | ok t r1 => exact .inr ⟨t, r1, (tokGet_iff he hs _ _).1 h⟩
  | fail e =>
    obtain ⟨m, q, _, h⟩ := (tokErr_iff he hs e).1 h
    exact .inl ⟨m, q, h⟩

theorem Spec.LexErr.det (he : EnvOK env) (hs : Suf env r) {m' : Str} {q' : Pos} (h : LexErr env r msg q)
    (h' : LexErr env r m' q') : m' = msg ∧ q' = q := by
  have h := lexErr_run he hs h
  rw [lexErr_run he hs h'] at h
  cases h
  exact ⟨rfl, rfl⟩

/-! ### Parameters -/

/-- The rest of a round after a parameter. -/
def lamAfter (named : List Str) (rl : List (Pos × Str)) :
    Prog ((Token × List Str × List (Pos × Str)) ⊕ LambdaEnd) :=
  pand (pSat 0 iswhite) (do return (← tokpeek).ty = .comma) >>= fun b =>
    if b then errHere cs!"E475: Invalid argument: White space is not allowed before comma"
    else tokget >>= fun t2 =>
      if t2.ty = .comma then tokpeek >>= fun t3 =>
        if t3.ty = .arrow then tokget >>= fun _ => pure (.inr (.arrow rl))
        else tokget >>= fun t4 => pure (.inl (t4, named, rl))
      else if t2.ty = .arrow then pure (.inr (.arrow rl))
      else errAt (cs!"unexpected token: " ++ t2.value ++ cs!", type: " ++ natStr t2.ty.num) t2.pos

theorem lamBody_eq (t : Token) (named : List Str) (rl : List (Pos × Str)) : lamBody (t, named, rl) =
    if t.ty = .arrow then pure (.inr (.arrow rl))
    else if t.ty = .identifier then
      if (!isargname t.value) = true then errAt (cs!"E125: Illegal argument: " ++ t.value) t.pos
      else if named.contains t.value = true then errAt (cs!"E853: Duplicate argument name: " ++ t.value) t.pos
      else lamAfter (t.value :: named) (rl ++ [(t.pos, t.value)])
    else if t.ty = .dotdotdot then tokpeek >>= fun t2 =>
      if t2.ty = .arrow then tokget >>= fun _ => pure (.inr (.arrow (rl ++ [(t.pos, t.value)]))) else unexpected t2
    else pure (.inr .fallback) := rfl

theorem bind_white (he : EnvOK env) (hs : Suf env r) {t : Token} {r1 : List Cell} (h : Lex env r t r1)
    {f : Bool → Prog β} : (pand (pSat 0 iswhite) (do return (← tokpeek).ty = .comma) >>= f).runWith tokGet env r =
      (f ((headSym r).is iswhite && decide (t.ty = .comma))).runWith tokGet env r :=
  run_ok (whiteComma_run ((tokGet_iff he hs _ _).2 h))

theorem lamAfter_lex (he : EnvOK env) (hs : Suf env r) {m : Str} {p : Pos} (h : LexErr env r m p) {named : List Str}
    {rl : List (Pos × Str)} : Bad env (lamAfter named rl) r m p := by
  unfold lamAfter
  rw [bad_bind]
  by_cases hw : (headSym r).is iswhite = true
  · left
    unfold pand
    refine bad_bind.2 (.inr ⟨true, r, ?_, ?_⟩)
    · unfold pSat
      rw [bind_p0, hw]; rfl
    · rw [if_pos rfl, badb_tokpeek he hs]
      exact .inl h
  · right
    refine ⟨false, r, ?_, ?_⟩
    · unfold pand
      refine ok_bind.2 ⟨false, r, ?_, rfl⟩
      unfold pSat
      rw [bind_p0, Bool.eq_false_iff.2 hw]; rfl
    · rw [if_neg (by simp), badb_tokget he hs]
      exact .inl h

theorem lamAfter_bad (he : EnvOK env) (hs : Suf env r) {named : List Str} {rl : List (Pos × Str)} :
    Bad env (lamAfter named rl) r msg q ↔ LexErr env r msg q ∨ ∃ t r1, Lex env r t r1 ∧
      ((headSym r).is iswhite = true ∧ t.ty = .comma ∧
          msg = cs!"E475: Invalid argument: White space is not allowed before comma" ∧ q = posOf env r ∨
        t.ty ≠ .comma ∧ t.ty ≠ .arrow ∧
          msg = cs!"unexpected token: " ++ t.value ++ cs!", type: " ++ natStr t.ty.num ∧ q = t.pos ∨
        (headSym r).is iswhite = false ∧ t.ty = .comma ∧ LexErr env r1 msg q) := by
  rcases lex_total he hs with ⟨m, p, h⟩ | ⟨t, r1, ht⟩
  · have h1 := lamAfter_lex he hs h (named := named) (rl := rl)
    constructor
    · intro h2
      obtain ⟨rfl, rfl⟩ := h2.det h1
      exact .inl h
    · rintro (h2 | ⟨t, r1, h2, _⟩)
      · exact lamAfter_lex he hs h2
      · exact (h.no he hs h2).elim
  · have hs1 := ht.suf he hs
    have e : (LexErr env r msg q ∨ ∃ t r1, Lex env r t r1 ∧
      ((headSym r).is iswhite = true ∧ t.ty = .comma ∧
          msg = cs!"E475: Invalid argument: White space is not allowed before comma" ∧ q = posOf env r ∨
        t.ty ≠ .comma ∧ t.ty ≠ .arrow ∧
          msg = cs!"unexpected token: " ++ t.value ++ cs!", type: " ++ natStr t.ty.num ∧ q = t.pos ∨
        (headSym r).is iswhite = false ∧ t.ty = .comma ∧ LexErr env r1 msg q)) ↔ 
      ((headSym r).is iswhite = true ∧ t.ty = .comma ∧
          msg = cs!"E475: Invalid argument: White space is not allowed before comma" ∧ q = posOf env r ∨
        t.ty ≠ .comma ∧ t.ty ≠ .arrow ∧
          msg = cs!"unexpected token: " ++ t.value ++ cs!", type: " ++ natStr t.ty.num ∧ q = t.pos ∨
        (headSym r).is iswhite = false ∧ t.ty = .comma ∧ LexErr env r1 msg q) := by
      constructor
      · rintro (h2 | ⟨t', r1', h2, h3⟩)
        · exact (h2.no he hs ht).elim
        · obtain ⟨rfl, rfl⟩ := ht.det he hs h2
          exact h3
      · intro h; exact .inr ⟨t, r1, ht, h⟩
    rw [e]
    unfold lamAfter
    unfold Bad
    rw [bind_white he hs ht]
    by_cases hc : t.ty = .comma
    · cases hw : (headSym r).is iswhite with
      | true =>
        rw [if_pos (by simp [hc])]
        simp only [hc, ne_eq, not_true_eq_false, false_and, true_and, Bool.true_eq_false, or_false]
        exact bad_errHere
      | false =>
        rw [if_neg (by simp)]
        simp only [hc, ne_eq, not_true_eq_false, false_and, true_and, false_or, Bool.false_eq_true]
        show Bad env _ _ _ _ ↔ _
        rw [badb_take he hs ht, if_pos hc, badb_tokpeek he hs1]
        constructor
        · rintro (h | ⟨t3, r3, h3, h⟩)
          · exact h
          · rw [bad_ite, badb_take he hs1 h3, badb_take he hs1 h3] at h
            rcases h with ⟨_, h⟩ | ⟨_, h⟩ <;> cases h
        · exact .inl
    · rw [if_neg (by simp [hc])]
      simp only [hc, ne_eq, not_false_eq_true, false_and, and_false, true_and, false_or, or_false]
      show Bad env _ _ _ _ ↔ _
      rw [badb_take he hs ht, if_neg hc, bad_ite, bad_pure, bad_errAt]
      simp

theorem lamAfter_ok (he : EnvOK env) (hs : Suf env r) {named : List Str} {rl : List (Pos × Str)}
    {o : (Token × List Str × List (Pos × Str)) ⊕ LambdaEnd} {r' : List Cell} :
    Ok env (lamAfter named rl) r o r' ↔ ∃ t r1, Lex env r t r1 ∧
      (t.ty = .arrow ∧ o = .inr (.arrow rl) ∧ r' = r1 ∨
        (headSym r).is iswhite = false ∧ t.ty = .comma ∧ ∃ t3, Lex env r1 t3 r' ∧
          (t3.ty = .arrow ∧ o = .inr (.arrow rl) ∨ t3.ty ≠ .arrow ∧ o = .inl (t3, named, rl))) := by
  rcases lex_total he hs with ⟨m, p, h⟩ | ⟨t, r1, ht⟩
  · constructor
    · intro h2; exact ((lamAfter_lex he hs h).no h2).elim
    · rintro ⟨t, r1, h2, _⟩; exact (h.no he hs h2).elim
  · have hs1 := ht.suf he hs
    constructor
    · intro h
      refine ⟨t, r1, ht, ?_⟩
      unfold lamAfter Ok at h
      rw [bind_white he hs ht] at h
      by_cases hc : t.ty = .comma
      · cases hw : (headSym r).is iswhite with
        | true =>
          rw [hw, if_pos (by simp [hc])] at h
          exact (ok_errHere.1 h).elim
        | false =>
          rw [hw, if_neg (by simp)] at h
          have h := (bind_take he hs ht).1 h
          rw [if_pos hc] at h
          obtain ⟨t3, r3, h3, h⟩ := (bind_tokpeek' he hs1).1 h
          rw [ok_ite, bind_take he hs1 h3, bind_take he hs1 h3] at h
          refine .inr ⟨rfl, hc, t3, ?_⟩
          rcases h with ⟨k, h⟩ | ⟨k, h⟩
          · obtain ⟨rfl, rfl⟩ := ok_pure.1 h
            exact ⟨h3, .inl ⟨k, rfl⟩⟩
          · obtain ⟨rfl, rfl⟩ := ok_pure.1 h
            exact ⟨h3, .inr ⟨k, rfl⟩⟩
      · rw [if_neg (by simp [hc])] at h
        have h := (bind_take he hs ht).1 h
        rw [if_neg hc, ok_ite] at h
        rcases h with ⟨k, h⟩ | ⟨_, h⟩
        · exact .inl ⟨k, ok_pure.1 h⟩
        · cases h
    · rintro ⟨t', r1', h1, h2⟩
      obtain ⟨rfl, rfl⟩ := ht.det he hs h1
      unfold lamAfter Ok
      rw [bind_white he hs ht]
      rcases h2 with ⟨ha, rfl, rfl⟩ | ⟨hw, hc, t3, h3, h4⟩
      · rw [if_neg (by simp [ha])]
        refine (bind_take he hs ht).2 ?_
        rw [if_neg (by simp [ha]), if_pos ha]; rfl
      · rw [if_neg (by simp [hw])]
        refine (bind_take he hs ht).2 ?_
        rw [if_pos hc, bind_look he hs1 h3]
        rcases h4 with ⟨k, rfl⟩ | ⟨k, rfl⟩
        · rw [if_pos k, bind_take he hs1 h3]; rfl
        · rw [if_neg k, bind_take he hs1 h3]; rfl

/-- The parameters are wrong, where the first token `t` has been read. -/
def LamAt (env : Env) (used : List Str) (t : Token) (r : List Cell) (msg : Str) (q : Pos) : Prop :=
  t.ty = .identifier ∧ (isargname t.value = false ∧ msg = cs!"E125: Illegal argument: " ++ t.value ∧ q = t.pos ∨
    isargname t.value = true ∧ (t.value ∈ used ∧ msg = cs!"E853: Duplicate argument name: " ++ t.value ∧ q = t.pos ∨
      t.value ∉ used ∧ (LexErr env r msg q ∨ ∃ t2 r1, Lex env r t2 r1 ∧
      ((headSym r).is iswhite = true ∧ t2.ty = .comma ∧
          msg = cs!"E475: Invalid argument: White space is not allowed before comma" ∧ q = posOf env r ∨
        t2.ty ≠ .comma ∧ t2.ty ≠ .arrow ∧
          msg = cs!"unexpected token: " ++ t2.value ++ cs!", type: " ++ natStr t2.ty.num ∧ q = t2.pos ∨
        (headSym r).is iswhite = false ∧ t2.ty = .comma ∧ LamErr env (t.value :: used) r1 msg q)))) ∨
  t.ty = .dotdotdot ∧ Want env r (· = .arrow) msg q

theorem lamErr_iff {used : List Str} : LamErr env used r msg q ↔
    LexErr env r msg q ∨ ∃ t r1, Lex env r t r1 ∧ LamAt env used t r1 msg q := by
  constructor
  · intro h
    cases h with
    | lex h => exact .inl h
    | illegal h1 h2 h3 => exact .inr ⟨_, _, h1, .inl ⟨h2, .inl ⟨h3, rfl, rfl⟩⟩⟩
    | twice h1 h2 h3 h4 => exact .inr ⟨_, _, h1, .inl ⟨h2, .inr ⟨h3, .inl ⟨h4, rfl, rfl⟩⟩⟩⟩
    | white h1 h2 h3 =>
      obtain ⟨t, k1, k2, rfl, k3, k4⟩ := h1
      obtain ⟨t2, r2, k5, k6⟩ := h3
      exact .inr ⟨_, _, k1, .inl ⟨k2, .inr ⟨k3, .inr ⟨k4, .inr ⟨t2, r2, k5, .inl ⟨h2, k6, rfl, rfl⟩⟩⟩⟩⟩⟩
    | afterLex h1 h2 =>
      obtain ⟨t, k1, k2, rfl, k3, k4⟩ := h1
      exact .inr ⟨_, _, k1, .inl ⟨k2, .inr ⟨k3, .inr ⟨k4, .inl h2⟩⟩⟩⟩
    | after h1 h2 h3 h4 =>
      obtain ⟨t, k1, k2, rfl, k3, k4⟩ := h1
      exact .inr ⟨_, _, k1, .inl ⟨k2, .inr ⟨k3, .inr ⟨k4, .inr ⟨_, _, h2, .inr (.inl ⟨h3, h4, rfl, rfl⟩)⟩⟩⟩⟩⟩
    | more h1 h2 h3 h4 h5 =>
      obtain ⟨t, k1, k2, rfl, k3, k4⟩ := h1
      exact .inr ⟨_, _, k1, .inl ⟨k2, .inr ⟨k3, .inr ⟨k4, .inr ⟨_, _, h3, .inr (.inr ⟨h2, h4, h5⟩)⟩⟩⟩⟩⟩
    | dots h1 h2 h3 => exact .inr ⟨_, _, h1, .inr ⟨h2, h3⟩⟩
  · rintro (h | ⟨t, r1, h1, ⟨h2, h⟩ | ⟨h2, h3⟩⟩)
    · exact .lex h
    · rcases h with ⟨h3, rfl, rfl⟩ | ⟨h3, ⟨h4, rfl, rfl⟩ | ⟨h4, h⟩⟩
      · exact .illegal h1 h2 h3
      · exact .twice h1 h2 h3 h4
      · have hp : LamParam env used r t.value r1 := ⟨t, h1, h2, rfl, h3, h4⟩
        rcases h with h | ⟨t2, r2, k1, ⟨k2, k3, rfl, rfl⟩ | ⟨k2, k3, rfl, rfl⟩ | ⟨k2, k3, k4⟩⟩
        · exact .afterLex hp h
        · exact .white hp k2 ⟨t2, r2, k1, k3⟩
        · exact .after hp k1 k2 k3
        · exact .more hp k2 k1 k3 k4
    · exact .dots h1 h2 h3

theorem lamBody_bad (he : EnvOK env) (hs : Suf env r) {t : Token} {named : List Str} {rl : List (Pos × Str)} :
    Bad env (lamBody (t, named, rl)) r msg q ↔
      t.ty = .identifier ∧ (isargname t.value = false ∧ msg = cs!"E125: Illegal argument: " ++ t.value ∧ q = t.pos ∨
        isargname t.value = true ∧ (t.value ∈ named ∧ msg = cs!"E853: Duplicate argument name: " ++ t.value ∧ q = t.pos ∨
          t.value ∉ named ∧ Bad env (lamAfter (t.value :: named) (rl ++ [(t.pos, t.value)])) r msg q)) ∨
      t.ty = .dotdotdot ∧ Want env r (· = .arrow) msg q := by
  have hd : Bad env (tokpeek >>= fun t2 => if t2.ty = .arrow then tokget >>= fun _ =>
      pure (.inr (.arrow (rl ++ [(t.pos, t.value)]))) else unexpected t2 :
      Prog ((Token × List Str × List (Pos × Str)) ⊕ LambdaEnd)) r msg q ↔ Want env r (· = .arrow) msg q := by
    rw [badb_tokpeek he hs, want_iff]
    refine or_congr Iff.rfl (exists_congr fun t2 => exists_congr fun r2 => and_congr_right fun h2 => ?_)
    rw [bad_ite, badb_take he hs h2, bad_pure, bad_unexpected, and_false, false_or]
  rw [lamBody_eq, bad_ite, bad_pure, bad_ite, bad_ite, bad_ite, bad_ite, bad_errAt, bad_errAt, bad_pure, hd]
  by_cases h1 : t.ty = .arrow
  · simp [h1]
  · by_cases h2 : t.ty = .identifier
    · simp [h2]
    · by_cases h3 : t.ty = .dotdotdot
      · simp [h3]
      · simp [h1, h2, h3]

theorem lamBody_ok (he : EnvOK env) (hs : Suf env r) {t : Token} {named : List Str} {rl : List (Pos × Str)}
    {o : (Token × List Str × List (Pos × Str)) ⊕ LambdaEnd} {r' : List Cell} :
    Ok env (lamBody (t, named, rl)) r o r' ↔
      t.ty = .arrow ∧ o = .inr (.arrow rl) ∧ r' = r ∨
      t.ty = .identifier ∧ isargname t.value = true ∧ t.value ∉ named ∧
        Ok env (lamAfter (t.value :: named) (rl ++ [(t.pos, t.value)])) r o r' ∨
      t.ty = .dotdotdot ∧ (∃ t2, Lex env r t2 r' ∧ t2.ty = .arrow ∧ o = .inr (.arrow (rl ++ [(t.pos, t.value)]))) ∨
      (t.ty ≠ .arrow ∧ t.ty ≠ .identifier ∧ t.ty ≠ .dotdotdot) ∧ o = .inr .fallback ∧ r' = r := by
  have hd : Ok env (tokpeek >>= fun t2 => if t2.ty = .arrow then tokget >>= fun _ =>
      pure (.inr (.arrow (rl ++ [(t.pos, t.value)]))) else unexpected t2 :
      Prog ((Token × List Str × List (Pos × Str)) ⊕ LambdaEnd)) r o r' ↔
      ∃ t2, Lex env r t2 r' ∧ t2.ty = .arrow ∧ o = .inr (.arrow (rl ++ [(t.pos, t.value)])) := by
    rw [bind_tokpeek' he hs]
    constructor
    · rintro ⟨t2, r2, h2, h⟩
      rw [ok_ite, bind_take he hs h2] at h
      rcases h with ⟨k, h⟩ | ⟨_, h⟩
      · obtain ⟨rfl, rfl⟩ := ok_pure.1 h
        exact ⟨t2, h2, k, rfl⟩
      · cases h
    · rintro ⟨t2, h2, k, rfl⟩
      refine ⟨t2, r', h2, ?_⟩
      rw [if_pos k, bind_take he hs h2]; rfl
  rw [lamBody_eq, ok_ite, ok_pure, ok_ite, ok_ite, ok_ite, ok_ite, ok_errAt, ok_errAt, ok_pure, hd]
  by_cases h1 : t.ty = .arrow
  · simp [h1]
  · by_cases h2 : t.ty = .identifier
    · simp [h2]
    · by_cases h3 : t.ty = .dotdotdot
      · simp [h3]
      · simp [h1, h2, h3]

theorem lamBody_dec (he : EnvOK env) (hs : Suf env r) {st s1 : Token × List Str × List (Pos × Str)} {r1 : List Cell}
    (h : Ok env (lamBody st) r (.inl s1) r1) : r1.length < r.length ∧ Suf env r1 := by
  obtain ⟨t, named, rl⟩ := st
  rcases (lamBody_ok he hs).1 h with ⟨_, h, _⟩ | ⟨_, _, _, h⟩ | ⟨_, _, _, _, h⟩ | ⟨_, h, _⟩
  · cases h
  · obtain ⟨t2, r2, h2, ⟨_, h, _⟩ | ⟨_, hc, t3, h3, _⟩⟩ := (lamAfter_ok he hs).1 h
    · cases h
    · have := h2.lt he hs hc
      have hs2 := h2.suf he hs
      have := h3.le he hs2
      exact ⟨by omega, h3.suf he hs2⟩
  · cases h
  · cases h

theorem lamLoop_bad (he : EnvOK env) (hs : Suf env r) {st : Token × List Str × List (Pos × Str)} :
    Bad env (loop lamBody st) r msg q ↔ LamAt env st.2.1 st.1 r msg q := by
  refine bad_loop_iff (D := fun _ r => Suf env r) (B := fun st r => LamAt env st.2.1 st.1 r msg q)
    (fun s r s1 r1 hs h => lamBody_dec he hs h) ?_ hs
  rintro ⟨t, named, rl⟩ r hs
  rw [lamBody_bad he hs, lamAfter_bad he hs]
  simp only
  unfold LamAt
  constructor
  · rintro (⟨h1, h⟩ | h)
    · rcases h with h | ⟨h2, h | ⟨h3, h | ⟨t2, r2, h4, h | h | ⟨h5, h6, h⟩⟩⟩⟩
      · exact .inl (.inl ⟨h1, .inl h⟩)
      · exact .inl (.inl ⟨h1, .inr ⟨h2, .inl h⟩⟩)
      · exact .inl (.inl ⟨h1, .inr ⟨h2, .inr ⟨h3, .inl h⟩⟩⟩)
      · exact .inl (.inl ⟨h1, .inr ⟨h2, .inr ⟨h3, .inr ⟨t2, r2, h4, .inl h⟩⟩⟩⟩)
      · exact .inl (.inl ⟨h1, .inr ⟨h2, .inr ⟨h3, .inr ⟨t2, r2, h4, .inr (.inl h)⟩⟩⟩⟩)
      · rcases lamErr_iff.1 h with h | ⟨t3, r3, h7, h8⟩
        · exact .inl (.inl ⟨h1, .inr ⟨h2, .inr ⟨h3, .inr ⟨t2, r2, h4, .inr (.inr ⟨h5, h6, h⟩)⟩⟩⟩⟩)
        · refine .inr ⟨(t3, t.value :: named, rl ++ [(t.pos, t.value)]), r3, ?_, h8⟩
          refine (lamBody_ok he hs).2 (.inr (.inl ⟨h1, h2, h3, ?_⟩))
          refine (lamAfter_ok he hs).2 ⟨t2, r2, h4, .inr ⟨h5, h6, t3, h7, .inr ⟨?_, rfl⟩⟩⟩
          rcases h8 with ⟨k, _⟩ | ⟨k, _⟩ <;> rw [k] <;> decide
    · exact .inl (.inr h)
  · rintro ((⟨h1, h⟩ | h) | ⟨⟨t4, named4, rl4⟩, r4, h, hB⟩)
    · rcases h with h | ⟨h2, h | ⟨h3, h | ⟨t2, r2, h4, h | h | ⟨h5, h6, h⟩⟩⟩⟩
      · exact .inl ⟨h1, .inl h⟩
      · exact .inl ⟨h1, .inr ⟨h2, .inl h⟩⟩
      · exact .inl ⟨h1, .inr ⟨h2, .inr ⟨h3, .inl h⟩⟩⟩
      · exact .inl ⟨h1, .inr ⟨h2, .inr ⟨h3, .inr ⟨t2, r2, h4, .inl h⟩⟩⟩⟩
      · exact .inl ⟨h1, .inr ⟨h2, .inr ⟨h3, .inr ⟨t2, r2, h4, .inr (.inl h)⟩⟩⟩⟩
      · exact .inl ⟨h1, .inr ⟨h2, .inr ⟨h3, .inr ⟨t2, r2, h4, .inr (.inr ⟨h5, h6, .lex h⟩)⟩⟩⟩⟩
    · exact .inr h
    · rcases (lamBody_ok he hs).1 h with ⟨_, h, _⟩ | ⟨h1, h2, h3, h⟩ | ⟨_, _, _, _, h⟩ | ⟨_, h, _⟩
      · cases h
      · obtain ⟨t2, r2, h4, ⟨_, h, _⟩ | ⟨h5, h6, t3, h7, ⟨_, h⟩ | ⟨_, h⟩⟩⟩ := (lamAfter_ok he hs).1 h
        · cases h
        · cases h
        · cases h
          exact .inl ⟨h1, .inr ⟨h2, .inr ⟨h3, .inr ⟨t2, r2, h4, .inr (.inr ⟨h5, h6, lamErr_iff.2 (.inr ⟨_, _, h7, hB⟩)⟩)⟩⟩⟩⟩
      · cases h
      · cases h

/-- The parameters end at `r'`, where the first token `t` has been read. -/
def LamTo (env : Env) (fn : Str) (used : List Str) (t : Token) (r r' : List Cell) : Prop :=
  t.ty = .arrow ∧ r' = r ∨
  t.ty = .dotdotdot ∧ (∃ t2, Lex env r t2 r' ∧ t2.ty = .arrow) ∨
  t.ty = .identifier ∧ isargname t.value = true ∧ t.value ∉ used ∧
    ((∃ t2, Lex env r t2 r' ∧ t2.ty = .arrow) ∨ (headSym r).is iswhite = false ∧ ∃ t2 r2, Lex env r t2 r2 ∧ t2.ty = .comma ∧
      ∃ ps, LamParams env fn (t.value :: used) r2 ps r')

theorem lamParams_iff {used : List Str} {r' : List Cell} : (∃ ps, LamParams env fn used r ps r') ↔
    ∃ t r1, Lex env r t r1 ∧ LamTo env fn used t r1 r' := by
  constructor
  · rintro ⟨ps, h⟩
    cases h with
    | none h => obtain ⟨t, h1, h2, _⟩ := h; exact ⟨t, r', h1, .inl ⟨h2, rfl⟩⟩
    | dots h1 h2 h3 => obtain ⟨t, k1, k2, _⟩ := h3; exact ⟨_, _, h1, .inr (.inl ⟨h2, t, k1, k2⟩)⟩
    | last h1 h2 h3 h4 h5 =>
      obtain ⟨t, k1, k2, _⟩ := h5
      exact ⟨_, _, h1, .inr (.inr ⟨h2, h3, h4, .inl ⟨t, k1, k2⟩⟩)⟩
    | cons h1 h2 h3 h4 h5 h6 h7 =>
      obtain ⟨t, k1, k2, _⟩ := h6
      exact ⟨_, _, h1, .inr (.inr ⟨h2, h3, h4, .inr ⟨h5, t, _, k1, k2, _, h7⟩⟩)⟩
  · rintro ⟨t, r1, h, ⟨h1, rfl⟩ | ⟨h1, t2, h2, h3⟩ | ⟨h1, h2, h3, ⟨t2, h4, h5⟩ | ⟨h4, t2, r2, h5, h6, ps, h7⟩⟩⟩
    · exact ⟨_, .none ⟨t, h, h1, rfl⟩⟩
    · exact ⟨_, .dots h h1 ⟨t2, h2, h3, rfl⟩⟩
    · exact ⟨_, .last h h1 h2 h3 ⟨t2, h4, h5, rfl⟩⟩
    · exact ⟨_, .cons h h1 h2 h3 h4 ⟨t2, h5, h6, rfl⟩ h7⟩

theorem lamLoop_arrow (he : EnvOK env) (hs : Suf env r) {st : Token × List Str × List (Pos × Str)} {r' : List Cell} :
    (∃ rl, Ok env (loop lamBody st) r (.arrow rl) r') ↔ LamTo env fn st.2.1 st.1 r r' := by
  have key := ok_loop_iff (env := env) (r := r) (s := st) (body := lamBody) (D := fun _ r => Suf env r)
    (Q := fun b r1 => (∃ rl, b = .arrow rl) ∧ r1 = r') (R := fun st r => LamTo env fn st.2.1 st.1 r r')
    (fun s r s1 r1 hs h => lamBody_dec he hs h) ?_ hs
  · rw [← key]
    constructor
    · rintro ⟨rl, h⟩; exact ⟨_, _, h, ⟨rl, rfl⟩, rfl⟩
    · rintro ⟨_, _, h, ⟨rl, rfl⟩, rfl⟩; exact ⟨rl, h⟩
  · rintro ⟨t, named, rl⟩ r hs
    simp only
    constructor
    · rintro (⟨h1, rfl⟩ | ⟨h1, t2, h2, h3⟩ | ⟨h1, h2, h3, ⟨t2, h4, h5⟩ | ⟨h4, t2, r2, h5, h6, hp⟩⟩)
      · exact .inl ⟨_, _, (lamBody_ok he hs).2 (.inl ⟨h1, rfl, rfl⟩), ⟨_, rfl⟩, rfl⟩
      · exact .inl ⟨_, _, (lamBody_ok he hs).2 (.inr (.inr (.inl ⟨h1, t2, h2, h3, rfl⟩))), ⟨_, rfl⟩, rfl⟩
      · exact .inl ⟨_, _, (lamBody_ok he hs).2 (.inr (.inl ⟨h1, h2, h3, (lamAfter_ok he hs).2
          ⟨t2, _, h4, .inl ⟨h5, rfl, rfl⟩⟩⟩)), ⟨_, rfl⟩, rfl⟩
      · obtain ⟨t3, r3, h7, h8⟩ := lamParams_iff.1 hp
        by_cases ha : t3.ty = .arrow
        · rcases h8 with ⟨_, rfl⟩ | ⟨k, _⟩ | ⟨k, _⟩
          · exact .inl ⟨_, _, (lamBody_ok he hs).2 (.inr (.inl ⟨h1, h2, h3, (lamAfter_ok he hs).2
              ⟨t2, _, h5, .inr ⟨h4, h6, t3, h7, .inl ⟨ha, rfl⟩⟩⟩⟩)), ⟨_, rfl⟩, rfl⟩
          · rw [ha] at k; cases k
          · rw [ha] at k; cases k
        · exact .inr ⟨_, _, (lamBody_ok he hs).2 (.inr (.inl ⟨h1, h2, h3, (lamAfter_ok he hs).2
              ⟨t2, _, h5, .inr ⟨h4, h6, t3, h7, .inr ⟨ha, rfl⟩⟩⟩⟩)), h8⟩
    · rintro (⟨b, r1, h, ⟨rl1, rfl⟩, rfl⟩ | ⟨⟨t4, named4, rl4⟩, r4, h, hB⟩)
      · rcases (lamBody_ok he hs).1 h with ⟨h1, _, rfl⟩ | ⟨h1, h2, h3, h⟩ | ⟨h1, t2, h2, h3, _⟩ | ⟨_, h, _⟩
        · exact .inl ⟨h1, rfl⟩
        · obtain ⟨t2, r2, h4, ⟨h5, _, rfl⟩ | ⟨h5, h6, t3, h7, ⟨h8, h⟩ | ⟨_, h⟩⟩⟩ := (lamAfter_ok he hs).1 h
          · exact .inr (.inr ⟨h1, h2, h3, .inl ⟨t2, h4, h5⟩⟩)
          · exact .inr (.inr ⟨h1, h2, h3, .inr ⟨h5, t2, r2, h4, h6, lamParams_iff.2 ⟨t3, _, h7, .inl ⟨h8, rfl⟩⟩⟩⟩)
          · cases h
        · exact .inr (.inl ⟨h1, t2, h2, h3⟩)
        · cases h
      · rcases (lamBody_ok he hs).1 h with ⟨_, h, _⟩ | ⟨h1, h2, h3, h⟩ | ⟨_, _, _, _, h⟩ | ⟨_, h, _⟩
        · cases h
        · obtain ⟨t2, r2, h4, ⟨_, h, _⟩ | ⟨h5, h6, t3, h7, ⟨_, h⟩ | ⟨_, h⟩⟩⟩ := (lamAfter_ok he hs).1 h
          · cases h
          · cases h
          · cases h
            exact .inr (.inr ⟨h1, h2, h3, .inr ⟨h5, t2, r2, h4, h6, lamParams_iff.2 ⟨_, _, h7, hB⟩⟩⟩)
        · cases h
        · cases h

/-- The parameters are none after all, where the first token `t` has been read. -/
def StrayAt (env : Env) (used : List Str) (t : Token) (r : List Cell) : Prop :=
  (t.ty ≠ .arrow ∧ t.ty ≠ .identifier ∧ t.ty ≠ .dotdotdot) ∨
  t.ty = .identifier ∧ isargname t.value = true ∧ t.value ∉ used ∧ (headSym r).is iswhite = false ∧
    ∃ t2 r2, Lex env r t2 r2 ∧ t2.ty = .comma ∧
      (Next env r2 (fun ty => ty ≠ .arrow ∧ ty ≠ .identifier ∧ ty ≠ .dotdotdot) ∨ Strays env (t.value :: used) r2)

theorem strays_iff {used : List Str} :
    Next env r (fun ty => ty ≠ .arrow ∧ ty ≠ .identifier ∧ ty ≠ .dotdotdot) ∨ Strays env used r ↔
      ∃ t r1, Lex env r t r1 ∧ StrayAt env used t r1 := by
  constructor
  · rintro (⟨t, r1, h1, h2⟩ | h)
    · exact ⟨t, r1, h1, .inl h2⟩
    · cases h with
      | stop h1 h2 h3 h4 h5 =>
        obtain ⟨t, k1, k2, rfl, k3, k4⟩ := h1
        exact ⟨_, _, k1, .inr ⟨k2, k3, k4, h2, _, _, h3, h4, .inl h5⟩⟩
      | more h1 h2 h3 h4 h5 =>
        obtain ⟨t, k1, k2, rfl, k3, k4⟩ := h1
        exact ⟨_, _, k1, .inr ⟨k2, k3, k4, h2, _, _, h3, h4, .inr h5⟩⟩
  · rintro ⟨t, r1, h, h1 | ⟨h1, h2, h3, h4, t2, r2, h5, h6, h7 | h7⟩⟩
    · exact .inl ⟨t, r1, h, h1⟩
    · exact .inr (.stop ⟨t, h, h1, rfl, h2, h3⟩ h4 h5 h6 h7)
    · exact .inr (.more ⟨t, h, h1, rfl, h2, h3⟩ h4 h5 h6 h7)

theorem lamLoop_fallback (he : EnvOK env) (hs : Suf env r) {st : Token × List Str × List (Pos × Str)} :
    (∃ r', Ok env (loop lamBody st) r .fallback r') ↔ StrayAt env st.2.1 st.1 r := by
  have key := ok_loop_iff (env := env) (r := r) (s := st) (body := lamBody) (D := fun _ r => Suf env r)
    (Q := fun b _ => b = .fallback) (R := fun st r => StrayAt env st.2.1 st.1 r)
    (fun s r s1 r1 hs h => lamBody_dec he hs h) ?_ hs
  · rw [← key]
    constructor
    · rintro ⟨r', h⟩; exact ⟨_, _, h, rfl⟩
    · rintro ⟨_, r', h, rfl⟩; exact ⟨r', h⟩
  · rintro ⟨t, named, rl⟩ r hs
    simp only
    constructor
    · rintro (h1 | ⟨h1, h2, h3, h4, t2, r2, h5, h6, h⟩)
      · exact .inl ⟨_, _, (lamBody_ok he hs).2 (.inr (.inr (.inr ⟨h1, rfl, rfl⟩))), rfl⟩
      · obtain ⟨t3, r3, h7, h8⟩ := strays_iff.1 h
        refine .inr ⟨_, _, (lamBody_ok he hs).2 (.inr (.inl ⟨h1, h2, h3, (lamAfter_ok he hs).2
              ⟨t2, _, h5, .inr ⟨h4, h6, t3, h7, .inr ⟨?_, rfl⟩⟩⟩⟩)), h8⟩
        rcases h8 with k | ⟨k, _⟩
        · exact k.1
        · rw [k]; decide
    · rintro (⟨b, r1, h, rfl⟩ | ⟨⟨t4, named4, rl4⟩, r4, h, hB⟩)
      · rcases (lamBody_ok he hs).1 h with ⟨_, h, _⟩ | ⟨h1, h2, h3, h⟩ | ⟨h1, t2, h2, h3, h⟩ | ⟨h, _⟩
        · cases h
        · obtain ⟨t2, r2, h4, ⟨_, h, _⟩ | ⟨h5, h6, t3, h7, ⟨h8, h⟩ | ⟨_, h⟩⟩⟩ := (lamAfter_ok he hs).1 h
          · cases h
          · cases h
          · cases h
        · cases h
        · exact .inl h
      · rcases (lamBody_ok he hs).1 h with ⟨_, h, _⟩ | ⟨h1, h2, h3, h⟩ | ⟨_, _, _, _, h⟩ | ⟨_, h, _⟩
        · cases h
        · obtain ⟨t2, r2, h4, ⟨_, h, _⟩ | ⟨h5, h6, t3, h7, ⟨_, h⟩ | ⟨_, h⟩⟩⟩ := (lamAfter_ok he hs).1 h
          · cases h
          · cases h
          · cases h
            exact .inr ⟨h1, h2, h3, h5, t2, r2, h4, h6, strays_iff.2 ⟨_, _, h7, hB⟩⟩
        · cases h
        · cases h

/-! ### Dictionaries -/

variable {n : Nat} {rec : Prog VExpr}

/-- The key of a pair is wrong. -/
def KeyErr (env : Env) (fn : Str) (lit : Bool) (r : List Cell) (msg : Str) (q : Pos) : Prop :=
  if lit = true then LitErr env r msg q else GErr env fn 1 r msg q

theorem wholeKey_adv (he : EnvOK env) (hs : Suf env r) {lit : Bool} {r1 : List Cell} (h : WholeKey env fn lit r r1) :
    Suf env r1 ∧ r1.length < r.length := by
  obtain ⟨k, h, _⟩ := h
  cases h with
  | expr h =>
    have ha := h.sadv he hs
    exact ⟨ha.suf hs, ha.lt⟩
  | lit h =>
    obtain ⟨_, r2, v, ⟨w, h1, _⟩, h2, h3, _⟩ := h
    have l1 := h1.adv.suffix.length_le
    have l2 := many1_lt h3 h2
    exact ⟨h2.adv.suffix.trans (h1.adv.suffix.trans hs), by omega⟩

theorem key_bad (H : RecB env fn n rec) (hs : Suf env r) (hn : r.length < n) {lit : Bool} :
    Bad env (if lit then parseDictLiteralKey else rec) r msg q ↔ KeyErr env fn lit r msg q := by
  unfold KeyErr
  cases lit with
  | true => rw [if_pos rfl, if_pos rfl]; exact parseDictLiteralKey_bad
  | false => rw [if_neg (by simp), if_neg (by simp)]; exact H.bad hs hn

theorem key_ok (H : RecB env fn n rec) (hs : Suf env r) (hn : r.length < n) (hx : Next env r (fun _ => True)) {lit : Bool}
    {r1 : List Cell} :
    (∃ k, Ok env (if lit then parseDictLiteralKey else rec) r k r1) ↔ WholeKey env fn lit r r1 := by
  cases lit with
  | true => rw [if_pos rfl]; exact parseDictLiteralKey_ok hx
  | false =>
    rw [if_neg (by simp), H.ok hs hn]
    constructor
    · rintro ⟨e, h⟩; exact ⟨e, .expr h, by simp⟩
    · rintro ⟨e, h, _⟩
      cases h with
      | expr h => exact ⟨e, h⟩

theorem dictBody_eq {lit : Bool} {start : List Cell} {p : Pos} {kvs : List (VExpr × VExpr)} :
    dictBody rec lit start p kvs = (if lit then parseDictLiteralKey else rec) >>= dictCont rec start p kvs := by
  unfold dictBody
  cases lit <;> rfl

/-- What can go wrong after a key. -/
theorem dictCont_bad (H : RecB env fn n rec) (he : EnvOK env) {start : List Cell} {p : Pos}
    {kvs : List (VExpr × VExpr)} {key : VExpr} (hs : Suf env r) (hn : r.length < n) :
    Bad env (dictCont rec start p kvs key) r msg q ↔
      Want env r (fun ty => ty = .colon ∨ kvs.isEmpty = true ∧ ty = .cclose) msg q ∨
      ∃ t r2, Lex env r t r2 ∧ (t.ty = .cclose ∧ kvs.isEmpty = true ∧ Bad env (parseIdentifier rec) start msg q ∨
        t.ty = .colon ∧ (GErr env fn 1 r2 msg q ∨ ∃ e r3, Gram env fn 1 r2 e r3 ∧
          (Want env r3 (fun ty => ty = .comma ∨ ty = .cclose) msg q ∨
            ∃ t r4, Lex env r3 t r4 ∧ t.ty = .comma ∧ LexErr env r4 msg q))) := by
  have hval : ∀ {t r2}, Lex env r t r2 → (Bad env (rec >>= fun val => tokget >>= fun t =>
      if t.ty = .comma then tokpeek >>= fun t2 =>
        if t2.ty = .cclose then tokget >>= fun _ => pure (.inr (.dict p (kvs ++ [(key, val)])))
        else pure (.inl (kvs ++ [(key, val)]))
      else if t.ty = .cclose then pure (.inr (.dict p (kvs ++ [(key, val)])))
      else unexpected t : Prog (List (VExpr × VExpr) ⊕ VExpr)) r2 msg q ↔
      GErr env fn 1 r2 msg q ∨ ∃ e r3, Gram env fn 1 r2 e r3 ∧
          (Want env r3 (fun ty => ty = .comma ∨ ty = .cclose) msg q ∨
            ∃ t r4, Lex env r3 t r4 ∧ t.ty = .comma ∧ LexErr env r4 msg q)) := by
    intro t r2 ht
    have hs2 := ht.suf he hs
    refine H.bind he hs2 (by have := ht.le he hs; omega) fun v r3 hs3 _ => ?_
    rw [badb_tokget he hs3, ← sep_iff]
    refine or_congr Iff.rfl (exists_congr fun t => exists_congr fun r4 => and_congr_right fun ht4 => ?_)
    have hs4 := ht4.suf he hs3
    rw [bad_ite, badb_tokpeek he hs4]
    refine or_congr (and_congr_right fun _ => ?_) (and_congr_right fun _ => ?_)
    · constructor
      · rintro (h | ⟨t2, r3, h, h1⟩)
        · exact h
        · rw [bad_ite] at h1
          rcases h1 with ⟨_, h1⟩ | ⟨_, h1⟩
          · rw [badb_take he hs4 h] at h1; cases h1
          · cases h1
      · exact .inl
    · rw [bad_ite, bad_pure, bad_unexpected, and_false, false_or]
  have hid : Bad env (seekSet start >>= fun _ => parseIdentifier rec >>= fun e => pure (.inr e) :
      Prog (List (VExpr × VExpr) ⊕ VExpr)) = fun _ => Bad env (parseIdentifier rec) start := by
    funext r msg q
    refine propext ?_
    rw [badb_seekSet, bad_bind]
    constructor
    · rintro (h | ⟨_, _, _, h⟩)
      · exact h
      · cases h
    · exact .inl
  unfold dictCont
  rw [badb_tokget he hs, want_iff]
  constructor
  · rintro (h | ⟨t, r2, ht, h⟩)
    · exact .inl (.inl h)
    · rw [bad_ite, bad_ite, bad_ite, bad_unexpected, hid] at h
      rcases h with ⟨hc, ⟨hk, h⟩ | ⟨hk, h⟩⟩ | ⟨hc, ⟨hk, h⟩ | ⟨hk, h⟩⟩
      · refine .inl (.inr ⟨t, r2, ht, ?_, h⟩)
        rw [hc]
        have hk : kvs.isEmpty = false := by simpa using hk
        simp [hk]
      · exact .inr ⟨t, r2, ht, .inl ⟨hc, by simpa using hk, h⟩⟩
      · exact .inl (.inr ⟨t, r2, ht, by simp [hc, hk], h⟩)
      · exact .inr ⟨t, r2, ht, .inr ⟨Classical.not_not.1 hk, (hval ht).1 h⟩⟩
  · rintro ((h | ⟨t, r2, ht, h1, h2⟩) | ⟨t, r2, ht, ⟨hc, hk, h⟩ | ⟨hc, h⟩⟩)
    · exact .inl h
    · refine .inr ⟨t, r2, ht, ?_⟩
      simp only [not_or] at h1
      rw [bad_ite, bad_ite, bad_ite, bad_unexpected]
      by_cases hc : t.ty = .cclose
      · refine .inl ⟨hc, .inl ⟨?_, h2⟩⟩
        have := h1.2
        simp only [hc, and_true] at this
        simpa using this
      · exact .inr ⟨hc, .inl ⟨h1.1, h2⟩⟩
    · refine .inr ⟨t, r2, ht, ?_⟩
      rw [if_pos hc, if_neg (by simp [hk]), hid]
      exact h
    · refine .inr ⟨t, r2, ht, ?_⟩
      rw [if_neg (by rw [hc]; decide), if_neg (by simp [hc])]
      exact (hval ht).2 h

theorem dictBody_inl (H : RecB env fn n rec) (he : EnvOK env) {lit : Bool} {start : List Cell} {p : Pos}
    {kvs kvs1 : List (VExpr × VExpr)} {r' : List Cell} (hs : Suf env r) (hn : r.length < n)
    (hx : Next env r (fun _ => True)) (h : Ok env (dictBody rec lit start p kvs) r (.inl kvs1) r') :
      kvs1.isEmpty = false ∧ ∃ r1 t r2 v r3 t2, WholeKey env fn lit r r1 ∧ Lex env r1 t r2 ∧ t.ty = .colon ∧
        Gram env fn 1 r2 v r3 ∧ Lex env r3 t2 r' ∧ t2.ty = .comma ∧ Next env r' (· ≠ .cclose) := by
  rw [dictBody_eq, ok_bind] at h
  obtain ⟨k, r1, h1, h⟩ := h
  have h1 := (key_ok H hs hn hx).1 ⟨k, h1⟩
  obtain ⟨hs1, hl1⟩ := wholeKey_adv he hs h1
  unfold dictCont at h
  obtain ⟨t, r2, ht, h⟩ := (bind_tokget' he hs1).1 h
  have hs2 := ht.suf he hs1
  rw [ok_ite, ok_ite, ok_ite] at h
  rcases h with ⟨hc, ⟨hk, h⟩ | ⟨hk, h⟩⟩ | ⟨hc, ⟨hk, h⟩ | ⟨hk, h⟩⟩
  · cases h
  · rw [bind_seekSet, ok_bind] at h
    obtain ⟨_, _, _, h⟩ := h
    cases h
  · cases h
  · rw [ok_bind] at h
    obtain ⟨v, r3, h3, h⟩ := h
    obtain ⟨e, h3⟩ := (H.ok hs2 (by have := ht.le he hs1; omega)).1 ⟨v, h3⟩
    have hs3 := h3.suf he hs2
    obtain ⟨t2, r4, ht2, h⟩ := (bind_tokget' he hs3).1 h
    rw [ok_ite, ok_ite] at h
    have hs4 := ht2.suf he hs3
    rcases h with ⟨hc2, h⟩ | ⟨_, ⟨_, h⟩ | ⟨_, h⟩⟩
    · obtain ⟨t3, r5, ht3, h⟩ := (bind_tokpeek' he hs4).1 h
      rw [ok_ite, bind_take he hs4 ht3] at h
      rcases h with ⟨_, h⟩ | ⟨hx3, h⟩
      · cases h
      · obtain ⟨h4, rfl⟩ := ok_pure.1 h
        cases h4
        exact ⟨by simp, r1, t, r2, e, r3, t2, h1, ht, Classical.not_not.1 hk, h3, ht2, hc2, t3, r5, ht3, hx3⟩
    · cases h
    · cases h

theorem dictBody_inl_of (H : RecB env fn n rec) (he : EnvOK env) {lit : Bool} {start : List Cell} {p : Pos}
    {kvs : List (VExpr × VExpr)} {r' r1 r2 r3 : List Cell} {t t2 : Token} {v : Ast.Expr} (hs : Suf env r)
    (hn : r.length < n) (hx : Next env r (fun _ => True)) (h1 : WholeKey env fn lit r r1) (ht : Lex env r1 t r2)
    (hc : t.ty = .colon) (h3 : Gram env fn 1 r2 v r3) (ht2 : Lex env r3 t2 r') (hc2 : t2.ty = .comma)
    (hx3 : Next env r' (· ≠ .cclose)) : ∃ kvs1, Ok env (dictBody rec lit start p kvs) r (.inl kvs1) r' := by
  obtain ⟨k, hk⟩ := (key_ok H hs hn hx).2 h1
  obtain ⟨hs1, hl1⟩ := wholeKey_adv he hs h1
  have hs2 := ht.suf he hs1
  obtain ⟨e, he3⟩ := (H.ok hs2 (by have := ht.le he hs1; omega)).2 ⟨v, h3⟩
  have hs3 := h3.suf he hs2
  have hs4 := ht2.suf he hs3
  obtain ⟨t3, r5, ht3, hx3⟩ := hx3
  refine ⟨kvs ++ [(k, e)], ?_⟩
  rw [dictBody_eq, ok_bind]
  refine ⟨k, r1, hk, ?_⟩
  unfold dictCont
  rw [bind_take he hs1 ht, if_neg (by rw [hc]; decide), if_neg (by simp [hc]), ok_bind]
  refine ⟨e, r3, he3, ?_⟩
  rw [bind_take he hs3 ht2, if_pos hc2, bind_look he hs4 ht3, if_neg hx3]
  rfl

theorem pairsErr_iff {lit first : Bool} : PairsErr env fn lit first r msg q ↔
    LexErr env r msg q ∨ Next env r (· ≠ .cclose) ∧ PairErr env fn lit first r msg q := by
  constructor
  · intro h
    cases h with
    | lex h => exact .inl h
    | pair h1 h2 => exact .inr ⟨h1, h2⟩
  · rintro (h | ⟨h1, h2⟩)
    · exact .lex h
    · exact .pair h1 h2

theorem pairErr_iff {lit first : Bool} : PairErr env fn lit first r msg q ↔ KeyErr env fn lit r msg q ∨
    ∃ r1, WholeKey env fn lit r r1 ∧ (Want env r1 (fun ty => ty = .colon ∨ first = true ∧ ty = .cclose) msg q ∨
      ∃ t r2, Lex env r1 t r2 ∧ t.ty = .colon ∧ (GErr env fn 1 r2 msg q ∨ ∃ e r3, Gram env fn 1 r2 e r3 ∧
          (Want env r3 (fun ty => ty = .comma ∨ ty = .cclose) msg q ∨
            ∃ t r4, Lex env r3 t r4 ∧ t.ty = .comma ∧ PairsErr env fn lit false r4 msg q))) := by
  constructor
  · intro h
    cases h with
    | key h => exact .inl h
    | litKey h => exact .inl h
    | colon h1 h2 => exact .inr ⟨_, h1, .inl h2⟩
    | value h1 h2 h3 =>
      obtain ⟨t, k1, k2, _⟩ := h2
      exact .inr ⟨_, h1, .inr ⟨t, _, k1, k2, .inl h3⟩⟩
    | close h1 h2 h3 h4 =>
      obtain ⟨t, k1, k2, _⟩ := h2
      exact .inr ⟨_, h1, .inr ⟨t, _, k1, k2, .inr ⟨_, _, h3, .inl h4⟩⟩⟩
    | more h1 h2 h3 h4 h5 =>
      obtain ⟨t, k1, k2, _⟩ := h2
      obtain ⟨t', k3, k4, _⟩ := h4
      exact .inr ⟨_, h1, .inr ⟨t, _, k1, k2, .inr ⟨_, _, h3, .inr ⟨t', _, k3, k4, h5⟩⟩⟩⟩
  · rintro (h | ⟨r1, h1, h2 | ⟨t, r2, k1, k2, h3 | ⟨e, r3, h3, h4 | ⟨t', r4, k3, k4, h5⟩⟩⟩⟩)
    · cases lit with
      | true => exact .litKey h
      | false => exact .key h
    · exact .colon h1 h2
    · exact .value h1 ⟨t, k1, k2, rfl⟩ h3
    · exact .close h1 ⟨t, k1, k2, rfl⟩ h3 h4
    · exact .more h1 ⟨t, k1, k2, rfl⟩ h3 ⟨t', k3, k4, rfl⟩ h5

/-- The braces are those of a name, and the name is wrong. -/
def CurlyBad (env : Env) (fn : Str) (rec : Prog VExpr) (lit : Bool) (start r : List Cell) (msg : Str) (q : Pos) : Prop :=
  ∃ r1 t r2, WholeKey env fn lit r r1 ∧ Lex env r1 t r2 ∧ t.ty = .cclose ∧ Bad env (parseIdentifier rec) start msg q

theorem dictLoop_bad (H : RecB env fn n rec) (he : EnvOK env) {lit : Bool} {start : List Cell} {p : Pos}
    {kvs : List (VExpr × VExpr)} (hs : Suf env r) (hn : r.length < n) (hx : Next env r (fun _ => True)) :
    Bad env (loop (dictBody rec lit start p) kvs) r msg q ↔ PairErr env fn lit kvs.isEmpty r msg q ∨
      kvs.isEmpty = true ∧ CurlyBad env fn rec lit start r msg q := by
  refine bad_loop_iff (D := fun _ r => Suf env r ∧ r.length < n ∧ Next env r (fun _ => True))
    (B := fun (kvs : List (VExpr × VExpr)) r => PairErr env fn lit kvs.isEmpty r msg q ∨
      kvs.isEmpty = true ∧ CurlyBad env fn rec lit start r msg q) ?_ ?_ ⟨hs, hn, hx⟩
  · rintro kvs r kvs1 r' ⟨hs, hn, hx⟩ h
    obtain ⟨_, r1, t, r2, v, r3, t2, h1, h2, h3, h4, h5, h6, t3, r5, h7, _⟩ := dictBody_inl H he hs hn hx h
    obtain ⟨hs1, l1⟩ := wholeKey_adv he hs h1
    have hs2 := h2.suf he hs1
    have l2 := h2.le he hs1
    have l3 := (h4.sadv he hs2).lt
    have hs3 := h4.suf he hs2
    have l4 := h5.le he hs3
    exact ⟨by omega, h5.suf he hs3, by omega, t3, r5, h7, trivial⟩
  · rintro kvs r ⟨hs, hn, hx⟩
    rw [pairErr_iff, dictBody_eq, bad_bind, key_bad H hs hn, ← dictBody_eq]
    constructor
    · rintro ((h | ⟨r1, h1, h⟩) | ⟨hk, r1, t, r2, h1, h2, h3, h⟩)
      · exact .inl (.inl h)
      · obtain ⟨hs1, l1⟩ := wholeKey_adv he hs h1
        obtain ⟨k, hk⟩ := (key_ok H hs hn hx).2 h1
        rcases h with h | ⟨t, r2, h2, h3, h | ⟨e, r3, h4, h | ⟨t2, r4, h5, h6, h⟩⟩⟩
        · exact .inl (.inr ⟨k, r1, hk, (dictCont_bad H he hs1 (by omega)).2 (.inl h)⟩)
        · exact .inl (.inr ⟨k, r1, hk, (dictCont_bad H he hs1 (by omega)).2 (.inr ⟨t, r2, h2, .inr ⟨h3, .inl h⟩⟩)⟩)
        · exact .inl (.inr ⟨k, r1, hk, (dictCont_bad H he hs1 (by omega)).2 (.inr ⟨t, r2, h2, .inr ⟨h3, .inr ⟨e, r3, h4, .inl h⟩⟩⟩)⟩)
        · rcases pairsErr_iff.1 h with h | ⟨h7, h⟩
          · exact .inl (.inr ⟨k, r1, hk, (dictCont_bad H he hs1 (by omega)).2 (.inr ⟨t, r2, h2, .inr ⟨h3, .inr ⟨e, r3, h4, .inr ⟨t2, r4, h5, h6, h⟩⟩⟩⟩)⟩)
          · obtain ⟨kvs1, h8⟩ := dictBody_inl_of (start := start) (p := p) (kvs := kvs) H he hs hn hx h1 h2 h3 h4 h5 h6 h7
            obtain ⟨h9, _⟩ := dictBody_inl H he hs hn hx h8
            exact .inr ⟨kvs1, r4, h8, .inl (by rw [h9]; exact h)⟩
      · obtain ⟨hs1, l1⟩ := wholeKey_adv he hs h1
        obtain ⟨k, hk'⟩ := (key_ok H hs hn hx).2 h1
        exact .inl (.inr ⟨k, r1, hk', (dictCont_bad H he hs1 (by omega)).2 (.inr ⟨t, r2, h2, .inl ⟨h3, hk, h⟩⟩)⟩)
    · rintro ((h | ⟨k, r1, hk, h⟩) | ⟨kvs1, r', h, hB⟩)
      · exact .inl (.inl h)
      · have h1 := (key_ok H hs hn hx).1 ⟨k, hk⟩
        obtain ⟨hs1, l1⟩ := wholeKey_adv he hs h1
        rcases (dictCont_bad H he hs1 (by omega)).1 h with h | ⟨t, r2, h2, ⟨h3, h4, h⟩ | ⟨h3, h | ⟨e, r3, h4, h | ⟨t2, r4, h5, h6, h⟩⟩⟩⟩
        · exact .inl (.inr ⟨r1, h1, .inl h⟩)
        · exact .inr ⟨h4, r1, t, r2, h1, h2, h3, h⟩
        · exact .inl (.inr ⟨r1, h1, .inr ⟨t, r2, h2, h3, .inl h⟩⟩)
        · exact .inl (.inr ⟨r1, h1, .inr ⟨t, r2, h2, h3, .inr ⟨e, r3, h4, .inl h⟩⟩⟩)
        · exact .inl (.inr ⟨r1, h1, .inr ⟨t, r2, h2, h3, .inr ⟨e, r3, h4, .inr ⟨t2, r4, h5, h6, .lex h⟩⟩⟩⟩)
      · obtain ⟨h0, r1, t, r2, v, r3, t2, h1, h2, h3, h4, h5, h6, h7⟩ := dictBody_inl H he hs hn hx h
        rcases hB with hB | ⟨hB, _⟩
        · rw [h0] at hB
          exact .inl (.inr ⟨r1, h1, .inr ⟨t, r2, h2, h3, .inr ⟨v, r3, h4, .inr ⟨t2, r', h5, h6, .pair h7 hB⟩⟩⟩⟩)
        · rw [h0] at hB; cases hB

theorem parseDict_bad (H : RecB env fn n rec) (he : EnvOK env) {lit : Bool} {start : List Cell} {p : Pos}
    (hs : Suf env r) (hn : r.length < n) : Bad env (parseDict rec lit start p) r msg q ↔
      PairsErr env fn lit true r msg q ∨ Next env r (· ≠ .cclose) ∧ CurlyBad env fn rec lit start r msg q := by
  have heq : parseDict rec lit start p = tokpeek >>= fun t => if t.ty = .cclose then tokget >>= fun _ => pure (.dict p [])
      else loop (dictBody rec lit start p) [] := by
    unfold parseDict
    refine congrArg _ (funext fun t => ?_)
    by_cases h : t.ty = .cclose
    · rw [if_pos h, if_pos h]
    · rw [if_neg h, if_neg h]
      refine congrArg (fun b => loop b []) (funext fun kvs => ?_)
      rw [dictBody_eq]
      cases lit <;> rfl
  rw [heq, badb_tokpeek he hs, pairsErr_iff, or_assoc]
  refine or_congr Iff.rfl ?_
  rw [← and_or_left]
  constructor
  · rintro ⟨t, r1, ht, h⟩
    rw [bad_ite, badb_take he hs ht] at h
    rcases h with ⟨_, h⟩ | ⟨hc, h⟩
    · cases h
    · refine ⟨⟨t, r1, ht, hc⟩, ?_⟩
      rcases (dictLoop_bad H he hs hn ⟨t, r1, ht, trivial⟩).1 h with h | ⟨_, h⟩
      · exact .inl h
      · exact .inr h
  · rintro ⟨⟨t, r1, ht, hc⟩, h⟩
    refine ⟨t, r1, ht, ?_⟩
    rw [if_neg hc]
    refine (dictLoop_bad H he hs hn ⟨t, r1, ht, trivial⟩).2 ?_
    rcases h with h | h
    · exact .inl h
    · exact .inr ⟨rfl, h⟩

/-! ### Braces -/

/-- What is done with a brace that may start a lambda. -/
def lamPath (rec : Prog VExpr) (lit : Bool) (start save : List Cell) (p : Pos) (t1 : Token) : Prog VExpr :=
  lambdaParams t1 >>= fun x => match x with
    | .arrow rl => rec >>= fun e => tokget >>= fun t2 => if t2.ty ≠ .cclose then unexpected t2 else pure (.lambda p rl e)
    | .fallback => seekSet save >>= fun _ => parseDict rec lit start p

theorem lamTo_adv (he : EnvOK env) (hs : Suf env r) {used : List Str} {t : Token} {r' : List Cell}
    (h : LamTo env fn used t r r') : Suf env r' ∧ r'.length ≤ r.length := by
  have hp : ∀ {used ps r r'}, Suf env r → LamParams env fn used r ps r' → Suf env r' ∧ r'.length ≤ r.length := by
    intro used ps r r' hs h
    induction h with
    | none h => obtain ⟨t, h, _⟩ := h; exact ⟨h.suf he hs, h.le he hs⟩
    | dots h1 h2 h3 =>
      obtain ⟨t, h, _⟩ := h3
      have hs1 := h1.suf he hs
      have := h1.le he hs
      have := h.le he hs1
      exact ⟨h.suf he hs1, by omega⟩
    | last h1 _ _ _ h3 =>
      obtain ⟨t, h, _⟩ := h3
      have hs1 := h1.suf he hs
      have := h1.le he hs
      have := h.le he hs1
      exact ⟨h.suf he hs1, by omega⟩
    | cons h1 _ _ _ _ h3 _ ih =>
      obtain ⟨t, h, _⟩ := h3
      have hs1 := h1.suf he hs
      have := h1.le he hs
      have := h.le he hs1
      obtain ⟨k1, k2⟩ := ih (h.suf he hs1)
      exact ⟨k1, by omega⟩
  rcases h with ⟨_, rfl⟩ | ⟨_, t2, h, _⟩ | ⟨_, _, _, ⟨t2, h, _⟩ | ⟨_, t2, r2, h, _, ps, h2⟩⟩
  · exact ⟨hs, Nat.le_refl _⟩
  · exact ⟨h.suf he hs, h.le he hs⟩
  · exact ⟨h.suf he hs, h.le he hs⟩
  · have := h.le he hs
    obtain ⟨k1, k2⟩ := hp (h.suf he hs) h2
    exact ⟨k1, by omega⟩

theorem lamPath_bad (H : RecB env fn n rec) (he : EnvOK env) {lit : Bool} {start save : List Cell} {p : Pos} {t1 : Token}
    (hs : Suf env r) (hn : r.length < n) : Bad env (lamPath rec lit start save p t1) r msg q ↔
      LamAt env [] t1 r msg q ∨ (∃ r2, LamTo env fn [] t1 r r2 ∧ (GErr env fn 1 r2 msg q ∨ ∃ e r3, Gram env fn 1 r2 e r3 ∧
        Want env r3 (· = .cclose) msg q)) ∨ StrayAt env [] t1 r ∧ Bad env (parseDict rec lit start p) save msg q := by
  have hrest : ∀ {rl r2}, Suf env r2 → r2.length < n → (Bad env (rec >>= fun e => tokget >>= fun t2 =>
      if t2.ty ≠ .cclose then unexpected t2 else pure (.lambda p rl e) : Prog VExpr) r2 msg q ↔
      GErr env fn 1 r2 msg q ∨ ∃ e r3, Gram env fn 1 r2 e r3 ∧ Want env r3 (· = .cclose) msg q) := by
    intro rl r2 hs2 hn2
    refine H.bind he hs2 hn2 fun v r3 hs3 _ => ?_
    rw [badb_tokget he hs3, want_iff]
    refine or_congr Iff.rfl (exists_congr fun t => exists_congr fun r4 => and_congr_right fun ht => ?_)
    rw [bad_ite, bad_unexpected, bad_pure, and_false, or_false]
  have hl : lambdaParams t1 = loop lamBody (t1, [], []) := lambdaParams_eq t1
  unfold lamPath
  rw [hl, bad_bind, lamLoop_bad he hs]
  refine or_congr Iff.rfl ?_
  constructor
  · rintro ⟨x, r2, h1, h2⟩
    cases x with
    | arrow rl =>
      have h3 := (lamLoop_arrow (fn := fn) he hs).1 ⟨rl, h1⟩
      obtain ⟨hs2, l2⟩ := lamTo_adv he hs h3
      exact .inl ⟨r2, h3, (hrest hs2 (by omega)).1 h2⟩
    | fallback =>
      exact .inr ⟨(lamLoop_fallback he hs).1 ⟨r2, h1⟩, h2⟩
  · rintro (⟨r2, h1, h2⟩ | ⟨h1, h2⟩)
    · obtain ⟨hs2, l2⟩ := lamTo_adv he hs h1
      obtain ⟨rl, h3⟩ := (lamLoop_arrow (fn := fn) he hs (st := (t1, [], []))).2 h1
      exact ⟨_, r2, h3, (hrest hs2 (by omega)).2 h2⟩
    · obtain ⟨r2, h3⟩ := (lamLoop_fallback he hs (st := (t1, [], []))).2 h1
      exact ⟨_, r2, h3, h2⟩

theorem parseBrace_eq (start : List Cell) (t : Token) : parseBrace rec start t = tell >>= fun save => tokget >>= fun t1 =>
    if t1.ty = .arrow then lamPath rec (t.ty == .litcopen) start save t.pos t1
    else if t1.ty = .squote ∨ t1.ty = .dquote then seekSet save >>= fun _ => parseDict rec (t.ty == .litcopen) start t.pos
    else tokpeek >>= fun t2 => if (t2.ty == .arrow || t2.ty == .comma) = true then
        lamPath rec (t.ty == .litcopen) start save t.pos t1
      else seekSet save >>= fun _ => parseDict rec (t.ty == .litcopen) start t.pos := by
  unfold parseBrace
  refine congrArg (tell >>= ·) (funext fun save => congrArg (tokget >>= ·) (funext fun t1 => ?_))
  by_cases h1 : t1.ty = .arrow
  · rw [if_pos h1, if_pos h1]; rfl
  · rw [if_neg h1, if_neg h1]
    by_cases h2 : t1.ty = .squote ∨ t1.ty = .dquote
    · rw [if_pos h2, if_pos h2]; rfl
    · rw [if_neg h2, if_neg h2]
      refine congrArg (tokpeek >>= ·) (funext fun t2 => ?_)
      rfl

theorem wholeKey_next (he : EnvOK env) (hs : Suf env r) {lit : Bool} {r1 : List Cell} (h : WholeKey env fn lit r r1) :
    Next env r (· ≠ .cclose) := by
  obtain ⟨k, h, _⟩ := h
  cases h with
  | expr h =>
    obtain ⟨t, r1, h1, h2⟩ := h.first he hs
    exact ⟨t, r1, h1, h2.2.2.2.1⟩
  | lit h =>
    obtain ⟨⟨t, r1, ht, _⟩, y, v, l1, l2, l3, _⟩ := h
    refine ⟨t, r1, ht, fun hc => ?_⟩
    have hl := headSym_many1 (f := isLitKeyC) l3 l2
    obtain ⟨d, hd, hf⟩ := Sym.is_ch hl
    have := comma_head he hs ⟨(tokGet_iff he hs _ _).2 ht, hc⟩ (v := ['}']) (fun w h => h) (by decide) (by decide)
    rw [Blanks.skip l1 (by rw [hd]; exact litKeyC_white hf)] at this
    have := headSym_of_reads this
    rw [hd] at this
    cases this
    exact absurd hf (by decide)

theorem parseBrace_bad (H : RecB env fn n rec) (he : EnvOK env) {start : List Cell} {t : Token}
    (hs : Suf env r) (hn : r.length < n) : Bad env (parseBrace rec start t) r msg q ↔
      BraceErr env fn (t.ty == .litcopen) r msg q ∨
      (NotLambda env r ∨ Strays env [] r) ∧ CurlyBad env fn rec (t.ty == .litcopen) start r msg q := by
  have hdict : ∀ {p : Pos}, NotLambda env r ∨ Strays env [] r →
      (Bad env (parseDict rec (t.ty == .litcopen) start p) r msg q →
        BraceErr env fn (t.ty == .litcopen) r msg q ∨
        (NotLambda env r ∨ Strays env [] r) ∧ CurlyBad env fn rec (t.ty == .litcopen) start r msg q) := by
    intro p hx h
    rcases (parseDict_bad H he hs hn).1 h with h | ⟨_, h⟩
    · exact .inl (.pairs hx h)
    · exact .inr ⟨hx, h⟩
  have hdict' : ∀ {p : Pos}, PairsErr env fn (t.ty == .litcopen) true r msg q ∨
      CurlyBad env fn rec (t.ty == .litcopen) start r msg q →
      Bad env (parseDict rec (t.ty == .litcopen) start p) r msg q := by
    rintro p (h | h)
    · exact (parseDict_bad H he hs hn).2 (.inl h)
    · obtain ⟨r1, t, r2, h1, _⟩ := id h
      exact (parseDict_bad H he hs hn).2 (.inr ⟨wholeKey_next he hs h1, h⟩)
  rw [parseBrace_eq, badb_tell]
  rcases lex_total he hs with ⟨m, p, hlex⟩ | ⟨t1, r1, ht⟩
  · have hb : ∀ {f : Token → Prog VExpr}, Bad env (tokget >>= f) r m p := fun {f} => (badb_tokget he hs).2 (.inl hlex)
    have hno : ∀ {t r1}, ¬ Lex env r t r1 := fun h => hlex.no he hs h
    constructor
    · intro h
      obtain ⟨rfl, rfl⟩ := h.det hb
      exact .inl (.lex hlex)
    · rintro (h | ⟨h, _⟩)
      · cases h with
        | lex h => obtain ⟨rfl, rfl⟩ := hlex.det he hs h; exact hb
        | lex2 h => exact (hno h).elim
        | params h => obtain ⟨t, r1, h, _⟩ := h; exact (hno h).elim
        | body h => obtain ⟨t, r1, h, _⟩ := lamParams_iff.1 ⟨_, h⟩; exact (hno h).elim
        | close h => obtain ⟨t, r1, h, _⟩ := lamParams_iff.1 ⟨_, h⟩; exact (hno h).elim
        | pairs h =>
          rcases h with ⟨t, r1, h, _⟩ | h
          · exact (hno h).elim
          · obtain ⟨t, r1, h, _⟩ := strays_iff.1 (.inr h); exact (hno h).elim
      · rcases h with ⟨t, r1, h, _⟩ | h
        · exact (hno h).elim
        · obtain ⟨t, r1, h, _⟩ := strays_iff.1 (.inr h); exact (hno h).elim
  · have hs1 := ht.suf he hs
    have hn1 : r1.length < n := by have := ht.le he hs; omega
    have hdet : ∀ {t' r1'}, Lex env r t' r1' → t1 = t' ∧ r1 = r1' := fun h => ht.det he hs h
    rw [badb_take he hs ht]
    -- what the specification says, in terms of the first token
    have hspec : BraceErr env fn (t.ty == .litcopen) r msg q ∨
        (NotLambda env r ∨ Strays env [] r) ∧ CurlyBad env fn rec (t.ty == .litcopen) start r msg q ↔
        (t1.ty ≠ .arrow ∧ t1.ty ≠ .squote ∧ t1.ty ≠ .dquote ∧ LexErr env r1 msg q) ∨
        ((t1.ty = .identifier ∨ t1.ty = .dotdotdot) ∧ Next env r1 (fun ty => ty = .arrow ∨ ty = .comma) ∧
          LamAt env [] t1 r1 msg q) ∨
        (∃ r2, LamTo env fn [] t1 r1 r2 ∧ (GErr env fn 1 r2 msg q ∨ ∃ e r3, Gram env fn 1 r2 e r3 ∧
          Want env r3 (· = .cclose) msg q)) ∨
        (NotLambda env r ∨ Strays env [] r) ∧ Bad env (parseDict rec (t.ty == .litcopen) start t.pos) r msg q := by
      constructor
      · rintro (h | ⟨hx, h⟩)
        · cases h with
          | lex h => exact (h.no he hs ht).elim
          | lex2 h1 h2 h3 h4 h5 => obtain ⟨rfl, rfl⟩ := hdet h1; exact .inl ⟨h2, h3, h4, h5⟩
          | params h1 h2 =>
            obtain ⟨t', r', k1, k2, k3⟩ := h1
            obtain ⟨rfl, rfl⟩ := hdet k1
            rcases lamErr_iff.1 h2 with h | ⟨t', r', k4, k5⟩
            · exact (h.no he hs ht).elim
            · obtain ⟨rfl, rfl⟩ := hdet k4
              exact .inr (.inl ⟨k2, k3, k5⟩)
          | body h1 h2 =>
            obtain ⟨t', r', k1, k2⟩ := lamParams_iff.1 ⟨_, h1⟩
            obtain ⟨rfl, rfl⟩ := hdet k1
            exact .inr (.inr (.inl ⟨_, k2, .inl h2⟩))
          | close h1 h2 h3 =>
            obtain ⟨t', r', k1, k2⟩ := lamParams_iff.1 ⟨_, h1⟩
            obtain ⟨rfl, rfl⟩ := hdet k1
            exact .inr (.inr (.inl ⟨_, k2, .inr ⟨_, _, h2, h3⟩⟩))
          | pairs hx h => exact .inr (.inr (.inr ⟨hx, hdict' (.inl h)⟩))
        · exact .inr (.inr (.inr ⟨hx, hdict' (.inr h)⟩))
      · rintro (⟨h1, h2, h3, h4⟩ | ⟨h1, h2, h3⟩ | ⟨r2, h1, h2⟩ | ⟨hx, h⟩)
        · exact .inl (.lex2 ht h1 h2 h3 h4)
        · exact .inl (.params ⟨t1, r1, ht, h1, h2⟩ (lamErr_iff.2 (.inr ⟨t1, r1, ht, h3⟩)))
        · obtain ⟨ps, h3⟩ := lamParams_iff.2 ⟨t1, r1, ht, h1⟩
          rcases h2 with h2 | ⟨e, r3, h2, h4⟩
          · exact .inl (.body h3 h2)
          · exact .inl (.close h3 h2 h4)
        · exact hdict hx h
    rw [hspec]
    have hnl : NotLambda env r ↔ t1.ty ≠ .arrow ∧ (t1.ty = .squote ∨ t1.ty = .dquote ∨ ∃ t2 r2, Lex env r1 t2 r2 ∧
        ¬ ((t1.ty = .identifier ∨ t1.ty = .dotdotdot) ∧ (t2.ty = .arrow ∨ t2.ty = .comma))) := by
      constructor
      · rintro ⟨t', r', h1, h2, h3⟩
        obtain ⟨rfl, rfl⟩ := hdet h1
        exact ⟨h2, h3⟩
      · rintro ⟨h2, h3⟩; exact ⟨t1, r1, ht, h2, h3⟩
    have hst : Strays env [] r → StrayAt env [] t1 r1 ∧ t1.ty = .identifier ∧ Next env r1 (· = .comma) := by
      intro h
      obtain ⟨t', r', k1, k2⟩ := strays_iff.1 (.inr h)
      obtain ⟨rfl, rfl⟩ := hdet k1
      refine ⟨k2, ?_⟩
      cases h with
      | stop h1 _ h3 h4 =>
        obtain ⟨t', k1, k2, _⟩ := h1
        obtain ⟨rfl, rfl⟩ := hdet k1
        exact ⟨k2, _, _, h3, h4⟩
      | more h1 _ h3 h4 =>
        obtain ⟨t', k1, k2, _⟩ := h1
        obtain ⟨rfl, rfl⟩ := hdet k1
        exact ⟨k2, _, _, h3, h4⟩
    by_cases ha : t1.ty = .arrow
    · rw [if_pos ha, lamPath_bad H he hs1 hn1]
      constructor
      · rintro (h | h | ⟨h, _⟩)
        · rcases h with ⟨k, _⟩ | ⟨k, _⟩ <;> rw [ha] at k <;> cases k
        · exact .inr (.inr (.inl h))
        · rcases h with ⟨k, _⟩ | ⟨k, _⟩
          · exact absurd ha k
          · rw [ha] at k; cases k
      · rintro (⟨k, _⟩ | ⟨k, _⟩ | h | ⟨h, _⟩)
        · exact absurd ha k
        · rcases k with k | k <;> rw [ha] at k <;> cases k
        · exact .inr (.inl h)
        · rcases h with h | h
          · exact absurd ha (hnl.1 h).1
          · have := (hst h).2.1; rw [ha] at this; cases this
    · rw [if_neg ha]
      by_cases hq : t1.ty = .squote ∨ t1.ty = .dquote
      · rw [if_pos hq, badb_seekSet]
        have hni : t1.ty ≠ .identifier ∧ t1.ty ≠ .dotdotdot := by rcases hq with h | h <;> rw [h] <;> decide
        constructor
        · intro h
          refine .inr (.inr (.inr ⟨.inl (hnl.2 ⟨ha, ?_⟩), h⟩))
          rcases hq with h | h
          · exact .inl h
          · exact .inr (.inl h)
        · rintro (⟨_, k1, k2, _⟩ | ⟨k, _⟩ | ⟨r2, h, _⟩ | ⟨_, h⟩)
          · rcases hq with h | h
            · exact absurd h k1
            · exact absurd h k2
          · rcases k with k | k
            · exact absurd k hni.1
            · exact absurd k hni.2
          · rcases h with ⟨k, _⟩ | ⟨k, _⟩ | ⟨k, _⟩
            · exact absurd k ha
            · exact absurd k hni.2
            · exact absurd k hni.1
          · exact h
      · rw [if_neg hq]
        rcases lex_total he hs1 with ⟨m, p, hlex⟩ | ⟨t2, r2, ht2⟩
        · have hno : ∀ {t r2}, ¬ Lex env r1 t r2 := fun h => hlex.no he hs1 h
          constructor
          · intro h
            obtain ⟨rfl, rfl⟩ := h.det ((badb_tokpeek he hs1).2 (.inl hlex))
            simp only [not_or] at hq
            exact .inl ⟨ha, hq.1, hq.2, hlex⟩
          · rintro (⟨_, _, _, h⟩ | ⟨_, ⟨t, r2, h, _⟩, _⟩ | ⟨r2, h, _⟩ | ⟨h, _⟩)
            · exact (badb_tokpeek he hs1).2 (.inl h)
            · exact (hno h).elim
            · rcases h with ⟨k, _⟩ | ⟨_, t2, h, _⟩ | ⟨_, _, _, ⟨t2, h, _⟩ | ⟨_, t2, r3, h, _⟩⟩
              · exact absurd k ha
              · exact (hno h).elim
              · exact (hno h).elim
              · exact (hno h).elim
            · rcases h with h | h
              · rcases (hnl.1 h).2 with h | h | ⟨t2, r2, h, _⟩
                · exact absurd (.inl h) hq
                · exact absurd (.inr h) hq
                · exact (hno h).elim
              · obtain ⟨_, _, t2, r2, h, _⟩ := hst h
                exact (hno h).elim
        · rw [badb_look he hs1 ht2]
          have hdet2 : ∀ {t' r'}, Lex env r1 t' r' → t2 = t' ∧ r2 = r' := fun h => ht2.det he hs1 h
          by_cases hl : t2.ty = .arrow ∨ t2.ty = .comma
          · rw [if_pos (by simpa using hl), lamPath_bad H he hs1 hn1]
            constructor
            · rintro (h | h | ⟨h, h2⟩)
              · refine .inr (.inl ⟨?_, ⟨t2, r2, ht2, hl⟩, h⟩)
                rcases h with ⟨k, _⟩ | ⟨k, _⟩
                · exact .inl k
                · exact .inr k
              · exact .inr (.inr (.inl h))
              · refine .inr (.inr (.inr ⟨?_, h2⟩))
                rcases strays_iff.2 ⟨t1, r1, ht, h⟩ with ⟨t', r', k1, k2, k3, k4⟩ | h
                · obtain ⟨rfl, rfl⟩ := hdet k1
                  exact .inl (hnl.2 ⟨ha, .inr (.inr ⟨t2, r2, ht2, by simp [k3, k4]⟩)⟩)
                · exact .inr h
            · rintro (⟨_, _, _, h⟩ | ⟨_, _, h⟩ | h | ⟨h, h2⟩)
              · exact (h.no he hs1 ht2).elim
              · exact .inl h
              · exact .inr (.inl h)
              · refine .inr (.inr ⟨?_, h2⟩)
                rcases h with h | h
                · rcases (hnl.1 h).2 with h | h | ⟨t', r', h, hk⟩
                  · exact absurd (.inl h) hq
                  · exact absurd (.inr h) hq
                  · obtain ⟨rfl, rfl⟩ := hdet2 h
                    refine .inl ⟨ha, fun k => hk ⟨.inl k, hl⟩, fun k => hk ⟨.inr k, hl⟩⟩
                · exact (hst h).1
          · rw [if_neg (by simpa using hl), badb_seekSet]
            constructor
            · intro h
              exact .inr (.inr (.inr ⟨.inl (hnl.2 ⟨ha, .inr (.inr ⟨t2, r2, ht2, fun k => hl k.2⟩)⟩), h⟩))
            · rintro (⟨_, _, _, h⟩ | ⟨_, ⟨t', r', h, hk⟩, _⟩ | ⟨r3, h, _⟩ | ⟨_, h⟩)
              · exact (h.no he hs1 ht2).elim
              · obtain ⟨rfl, rfl⟩ := hdet2 h
                exact absurd hk hl
              · exfalso
                rcases h with ⟨k, _⟩ | ⟨_, t', h, hk⟩ | ⟨_, _, _, ⟨t', h, hk⟩ | ⟨_, t', r3, h, hk, _⟩⟩
                · exact absurd k ha
                · obtain ⟨rfl, rfl⟩ := hdet2 h
                  exact hl (.inl hk)
                · obtain ⟨rfl, rfl⟩ := hdet2 h
                  exact hl (.inl hk)
                · obtain ⟨rfl, rfl⟩ := hdet2 h
                  exact hl (.inr hk)
              · exact h

end
end Viml
