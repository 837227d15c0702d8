/-
Where the expression parser fails: the levels of operators, and the whole expression.
-/
import Verif.Lemmas.ExprErr9
import Verif.Lemmas.FileRaw

namespace Viml
open Prog Spec

section
variable {env : Env} {fn : Str} {r : List Cell} {msg : Str} {q : Pos} {n : Nat} {rec : Prog VExpr}

local notation "D" => Der env (GP env fn)

/-! ### Rounds of the loops -/

theorem body8_step (he : EnvOK env) (hrec : RecOK env (GP env fn) n rec) {l l' : VExpr} {rc r' : List Cell}
    (hN : r.length ≤ n) (hl : D 8 r l rc) (h : Ok env (body8 rec l) rc (.inl l') r') : D 8 r l' r' := by
  have hP := gram_closed (fn := fn) he
  have hs := hl.suf
  have hsc := hl.suf'
  have hNc : rc.length < n := by have := hl.adv.lt; omega
  refine Ok.wp (F := ErrOK env) (Q := fun s r' => ∀ l', s = .inl l' → D 8 r l' r') h ?_ l' rfl
  unfold body8
  refine wp_bind (wp_tell (wp_bind (wp_peek (wp_tok he hsc fun t r2 ht ha hs2 => ?_))))
  apply wp_ite
  · intro hc
    simp only [Bool.and_eq_true, Bool.not_eq_true', beq_iff_eq] at hc
    have a2 := ha.sadv' hc.2
    refine wp_call (parseSubscript_spec he hrec hs2 (by have := a2.lt; omega)) ?_
    intro e r' h
    refine wp_pure ?_
    rintro _ ⟨⟩
    exact postfix_sub he hP hl hc.1 ⟨ht, hc.2⟩ h
  intro hnsq; apply wp_ite
  · intro hty
    have a2 := ha.sadv' hty
    refine wp_call (expr9_spec he hP hrec hs2 (by have := a2.lt; omega)) ?_
    intro f r3 h3
    refine wp_tok he h3.suf' fun t2 r4 ht2 ha2 hs4 => ?_
    apply wp_ite
    · intro _; exact wp_errAt (ha2.posOK h3.suf')
    intro hp
    have hp : t2.ty = .popen := by simpa using hp
    have a4 := (a2.trans h3.adv).trans (ha2.sadv' hp)
    refine wp_call (parseRlist_spec he hrec hs4 (by have := a4.lt; omega)) ?_
    rintro as r' ⟨h5, h6⟩
    have a5 := a4.trans (Items.adv he (hs := hs4) (h := h5))
    refine wp_pure ?_
    rintro _ ⟨⟩
    exact ⟨hl.adv.trans a5, hs, hP.method hl ⟨ht, hty⟩ h3 ⟨ht2, hp⟩ h5 h6⟩
  intro hnar; apply wp_ite
  · intro hty
    have a2 := ha.sadv' hty
    refine wp_call (parseRlist_spec he hrec hs2 (by have := a2.lt; omega)) ?_
    rintro as r' ⟨h5, h6⟩
    have a5 := a2.trans (Items.adv he (hs := hs2) (h := h5))
    refine wp_pure ?_
    rintro _ ⟨⟩
    exact ⟨hl.adv.trans a5, hs, hP.call hl ⟨ht, hty⟩ h5 h6⟩
  intro hnp
  apply wp_ite
  · intro hc
    simp only [Bool.and_eq_true, Bool.not_eq_true', beq_iff_eq] at hc
    refine wp_call parseDot_spec ?_
    intro o r' ho
    cases o with
    | none => exact wp_bind (wp_seekSet (wp_pure (by rintro _ ⟨⟩)))
    | some e =>
      obtain ⟨h1, h2, h3, rfl, rfl⟩ := ho
      refine wp_pure ?_
      rintro _ ⟨⟩
      exact postfix_dot he hP hl hc.1 ⟨ht, hc.2⟩ h1 h2 h3
  · intro hnd
    exact wp_bind (wp_seekSet (wp_pure (by rintro _ ⟨⟩)))

theorem parseDot_bad {t : Token} {l : VExpr} : ¬ Bad env (parseDot t l) r msg q := by
  unfold parseDot
  intro h
  rw [bad_ite] at h
  rcases h with ⟨_, h⟩ | ⟨_, h⟩
  · cases h
  rw [badb_p0, bad_ite] at h
  rcases h with ⟨_, h⟩ | ⟨_, h⟩
  · cases h
  rw [badb_getpos, readWord, badb_readWhile] at h
  obtain ⟨v, r1, _, h⟩ := h
  rw [badb_p0, bad_ite] at h
  rcases h with ⟨_, h⟩ | ⟨_, h⟩
  · cases h
  · cases h

/-- What is wrong after an operand at level 8. -/
def PostErr (env : Env) (fn : Str) (r : List Cell) (msg : Str) (q : Pos) : Prop :=
  LexErr env r msg q ∨ ∃ t r2, Lex env r t r2 ∧
    ((headSym r).is iswhite = false ∧ t.ty = .sqopen ∧ SubErr env fn r2 msg q ∨
     t.ty = .arrow ∧ (GErr env fn 9 r2 msg q ∨ ∃ f r3, Gram env fn 9 r2 f r3 ∧ (LexErr env r3 msg q ∨
      ∃ t2 r4, Lex env r3 t2 r4 ∧ (t2.ty ≠ .popen ∧ msg = cs!"E107: Missing parentheses: lambda" ∧ q = t2.pos ∨
        t2.ty = .popen ∧ CallErr env fn r4 msg q))) ∨
     t.ty = .popen ∧ CallErr env fn r2 msg q)

/-- A parser of level `k` reads and fails as the specification says. -/
structure LevB (env : Env) (fn : Str) (n k : Nat) (m : Prog VExpr) : Prop where
  ok : ∀ {r r1}, Suf env r → r.length ≤ n → ((∃ v, Ok env m r v r1) ↔ ∃ e, Gram env fn k r e r1)
  bad : ∀ {r msg q}, Suf env r → r.length ≤ n → (Bad env m r msg q ↔ GErr env fn k r msg q)

theorem LevB.bind {k : Nat} {m : Prog VExpr} {β : Type} (H : LevB env fn n k m) (he : EnvOK env) (hs : Suf env r)
    (hn : r.length ≤ n) {f : VExpr → Prog β} {B : List Cell → Prop}
    (hf : ∀ v r1, Suf env r1 → r1.length < r.length → (Bad env (f v) r1 msg q ↔ B r1)) :
    Bad env (m >>= f) r msg q ↔ GErr env fn k r msg q ∨ ∃ e r1, Gram env fn k r e r1 ∧ B r1 := by
  rw [bad_bind, H.bad hs hn]
  refine or_congr Iff.rfl ?_
  constructor
  · rintro ⟨v, r1, h1, h2⟩
    obtain ⟨e, h3⟩ := (H.ok hs hn).1 ⟨v, h1⟩
    have ha := h3.sadv he hs
    exact ⟨e, r1, h3, (hf v r1 (ha.suf hs) ha.lt).1 h2⟩
  · rintro ⟨e, r1, h1, h2⟩
    have ha := h1.sadv he hs
    obtain ⟨v, h3⟩ := (H.ok hs hn).2 ⟨e, h1⟩
    exact ⟨v, r1, h3, (hf v r1 (ha.suf hs) ha.lt).2 h2⟩

theorem bad_then_pure {α β : Type} {m : Prog α} {f : α → β} :
    Bad env (m >>= fun e => pure (f e)) r msg q ↔ Bad env m r msg q := by
  rw [bad_bind]
  constructor
  · rintro (h | ⟨_, _, _, h⟩)
    · exact h
    · cases h
  · exact .inl

theorem body8_bad (H : RecB env fn n rec) (H9 : LevB env fn n 9 (expr9 rec)) (he : EnvOK env) {l : VExpr}
    (hs : Suf env r) (hn : r.length < n) : Bad env (body8 rec l) r msg q ↔ PostErr env fn r msg q := by
  unfold body8 PostErr
  rw [badb_tell, badb_peek, badb_tokget he hs]
  refine or_congr Iff.rfl (exists_congr fun t => exists_congr fun r2 => and_congr_right fun ht => ?_)
  have hs2 := ht.suf he hs
  have hle := ht.le he hs
  have hn2 : r2.length < n := by omega
  by_cases hc : (headSym r).is iswhite = false ∧ t.ty = .sqopen
  · rw [if_pos (by simp [hc]), bad_then_pure, parseSubscript_bad H he hs2 hn2]
    constructor
    · intro h; exact .inl ⟨hc.1, hc.2, h⟩
    · rintro (⟨_, _, h⟩ | ⟨h, _⟩ | ⟨h, _⟩)
      · exact h
      · rw [hc.2] at h; cases h
      · rw [hc.2] at h; cases h
  · rw [if_neg (by simpa using hc)]
    by_cases ha : t.ty = .arrow
    · rw [if_pos ha, H9.bind he hs2 (by omega) (B := fun r3 => LexErr env r3 msg q ∨
        ∃ t2 r4, Lex env r3 t2 r4 ∧ (t2.ty ≠ .popen ∧ msg = cs!"E107: Missing parentheses: lambda" ∧ q = t2.pos ∨
        t2.ty = .popen ∧ CallErr env fn r4 msg q)) fun v r3 hs3 hl3 => by
          rw [badb_tokget he hs3]
          refine or_congr Iff.rfl (exists_congr fun t2 => exists_congr fun r4 => and_congr_right fun ht2 => ?_)
          have hs4 := ht2.suf he hs3
          have := ht2.le he hs3
          rw [bad_ite, bad_errAt, bad_then_pure, parseRlist_bad H he hs4 (by omega), Classical.not_not]]
      constructor
      · intro h; exact .inr (.inl ⟨ha, h⟩)
      · rintro (⟨k1, k2, _⟩ | ⟨_, h⟩ | ⟨h, _⟩)
        · exact absurd ⟨k1, k2⟩ hc
        · exact h
        · rw [ha] at h; cases h
    · rw [if_neg ha]
      by_cases hp : t.ty = .popen
      · rw [if_pos hp, bad_then_pure, parseRlist_bad H he hs2 hn2]
        constructor
        · intro h; exact .inr (.inr ⟨hp, h⟩)
        · rintro (⟨k1, k2, _⟩ | ⟨h, _⟩ | ⟨_, h⟩)
          · exact absurd ⟨k1, k2⟩ hc
          · exact absurd h ha
          · exact h
      · rw [if_neg hp]
        constructor
        · intro h
          exfalso
          rw [bad_ite] at h
          rcases h with ⟨_, h⟩ | ⟨_, h⟩
          · rcases bad_bind.1 h with h | ⟨o, r3, _, h⟩
            · exact parseDot_bad h
            · cases o with
              | none => simp only at h; rw [badb_seekSet] at h; cases h
              | some e => cases h
          · rw [badb_seekSet] at h; cases h
        · rintro (⟨k1, k2, _⟩ | ⟨h, _⟩ | ⟨h, _⟩)
          · exact absurd ⟨k1, k2⟩ hc
          · exact absurd h ha
          · exact absurd h hp

theorem binBody_bad {k : Nat} {next : Prog VExpr} (hk : k = 2 ∨ k = 3 ∨ k = 5 ∨ k = 6) (H : LevB env fn n (k + 1) next)
    (he : EnvOK env) {l : VExpr} (hs : Suf env r) (hn : r.length ≤ n) :
    Bad env (binBody next (opsAt k) l) r msg q ↔ LexErr env r msg q ∨
      ∃ t r2 op, Lex env r t r2 ∧ IsOp t.ty k op ∧ GErr env fn (k + 1) r2 msg q := by
  unfold binBody
  rw [badb_tell, badb_tokget he hs]
  refine or_congr Iff.rfl (exists_congr fun t => exists_congr fun r2 => ?_)
  constructor
  · rintro ⟨ht, h⟩
    have hs2 := ht.suf he hs
    have := ht.le he hs
    cases ho : opsAt k t.ty with
    | none => rw [ho] at h; simp only at h; rw [badb_seekSet] at h; cases h
    | some op =>
      rw [ho] at h
      rcases bad_bind.1 h with h | ⟨_, _, _, h⟩
      · exact ⟨_, ht, isOp_of_ops ho, (H.bad hs2 (by omega)).1 h⟩
      · cases h
  · rintro ⟨op, ht, ho, h⟩
    have hs2 := ht.suf he hs
    have := ht.le he hs
    obtain ⟨b, hb, _⟩ := ops_of_isOp ho (by omega)
    refine ⟨ht, ?_⟩
    rw [hb]
    exact bad_bind.2 (.inl ((H.bad hs2 (by omega)).2 h))

theorem binBody_step {k : Nat} {next : Prog VExpr} (he : EnvOK env)
    (hnext : ∀ r, Suf env r → r.length ≤ n →
      wp tokGet env next r (fun e r' => Fin' env (GP env fn) (k + 1) r e r') (ErrOK env))
    {l l' : VExpr} {rc r' : List Cell} (hN : r.length ≤ n) (hl : D k r l rc)
    (h : Ok env (binBody next (opsAt k) l) rc (.inl l') r') : D k r l' r' := by
  have hP := gram_closed (fn := fn) he
  have hs := hl.suf
  refine Ok.wp (F := ErrOK env) (Q := fun s r' => ∀ l', s = .inl l' → D k r l' r') h ?_ l' rfl
  unfold binBody
  refine wp_bind (wp_tell (wp_tok he hl.suf' fun t r2 ht ha hs2 => ?_))
  cases hop : opsAt k t.ty with
  | none => exact wp_bind (wp_seekSet (wp_pure (by rintro _ ⟨⟩)))
  | some op =>
    simp only
    have a2 := ha.sadv (opsAt_tok hop).1 (opsAt_tok hop).2
    refine wp_call (hnext r2 hs2 (by have := a2.lt; have := hl.adv.lt; omega)) ?_
    intro x r3 h3
    refine wp_pure ?_
    rintro _ ⟨⟩
    exact ⟨hl.adv.trans (a2.trans h3.adv), hs, hP.binary hop hl ⟨ht, rfl⟩ h3⟩

/-! ### Levels -/

/-- A level that is a loop fails in its first operand or in a round that it reaches. -/
theorem loop_level {k : Nat} (hk : IsLoop k) (he : EnvOK env) (H : LevB env fn n (k + 1) (lvl (parseExpr1F n) (k + 1)))
    {B : List Cell → Prop} (hfirst : ∀ v r1, Ok env (lvl (parseExpr1F n) (k + 1)) r v r1 → D k r v r1)
    (hstep : ∀ l rc l' r', D k r l rc → Ok env (lvlBody (parseExpr1F n) k l) rc (.inl l') r' → D k r l' r')
    (hbad : ∀ l rc, Suf env rc → rc.length < n → (Bad env (lvlBody (parseExpr1F n) k l) rc msg q ↔ B rc))
    (hs : Suf env r) (hn : r.length ≤ n) :
    Bad env (lvl (parseExpr1F n) k) r msg q ↔ GErr env fn (k + 1) r msg q ∨ ∃ l rc, Chain env fn k r l rc ∧ B rc := by
  have hrep : Repeats k := hk
  constructor
  · intro h
    rw [lvl_loop hk, bad_bind, H.bad hs hn] at h
    rcases h with h | ⟨v, r1, h1, h2⟩
    · exact .inl h
    · obtain ⟨l, rc, h3, h4⟩ := bad_loop_reach (P := fun l rc => D k r l rc) (fun l rc l' r' => hstep l rc l' r')
        (hfirst v r1 h1) h2
      obtain ⟨a, _, h5⟩ := h3.p.chain hrep
      exact .inr ⟨a, rc, h5, (hbad l rc h3.suf' (by have := h3.adv.lt; omega)).1 h4⟩
  · rintro (h | ⟨l, rc, h1, h2⟩)
    · rw [lvl_loop hk, bad_bind, H.bad hs hn]
      exact .inl h
    · obtain ⟨a, _, v, _, hp⟩ := chain_run he h1 hs
      obtain ⟨m, hm, h3⟩ := hp n hn
      have h4 := (hbad v rc (a.suf hs) (by have := a.lt; omega)).2 h2
      show _ = _
      rw [h3]
      cases m with
      | zero => omega
      | succ m => exact bad_bind.2 (.inl h4)

theorem recOK' (he : EnvOK env) (n : Nat) : RecOK env (GP env fn) n (parseExpr1F n) :=
  parseExpr1F_spec he (gram_closed he) n

theorem lvl_spec (he : EnvOK env) {k : Nat} (h1 : 1 ≤ k) (h9 : k ≤ 9) (hs : Suf env r) (hn : r.length ≤ n) :
    wp tokGet env (lvl (parseExpr1F n) k) r (fun e r' => Fin' env (GP env fn) k r e r') (ErrOK env) := by
  have hP := gram_closed (fn := fn) he
  have hr := recOK' (fn := fn) he n
  have : k = 1 ∨ k = 2 ∨ k = 3 ∨ k = 4 ∨ k = 5 ∨ k = 6 ∨ k = 7 ∨ k = 8 ∨ k = 9 := by omega
  rcases this with rfl | rfl | rfl | rfl | rfl | rfl | rfl | rfl | rfl
  · exact wp_mono (expr1_spec he hP hr hs hn) fun _ _ h => h.fin (by omega)
  · exact expr2_spec he hP hr hs hn
  · exact expr3_spec he hP hr hs hn
  · exact wp_mono (expr4_spec he hP hr hs hn) fun _ _ h => h.fin (by omega)
  · exact expr5_spec he hP hr hs hn
  · exact expr6_spec he hP hr hs hn
  · exact wp_mono (expr7_spec he hP hr hs hn) fun _ _ h => h.fin (by omega)
  · exact expr8_spec he hP hr hs hn
  · exact wp_mono (expr9_spec he hP hr hs hn) fun _ _ h => h.fin (by omega)

theorem lvl_ok (he : EnvOK env) {k : Nat} (h1 : 1 ≤ k) (h9 : k ≤ 9) (hs : Suf env r) (hn : r.length ≤ n) {r1 : List Cell} :
    (∃ v, Ok env (lvl (parseExpr1F n) k) r v r1) ↔ ∃ e, Gram env fn k r e r1 := by
  constructor
  · rintro ⟨v, h⟩
    obtain ⟨a, _, h2⟩ := (h.wp (lvl_spec (fn := fn) he h1 h9 hs hn)).gram he
    exact ⟨a, h2⟩
  · rintro ⟨e, h⟩
    obtain ⟨_, _, v, _, h2⟩ := gram_run he h hs
    exact ⟨v, (h2 n hn).run⟩

theorem level9 (H : RecB env fn n (parseExpr1F n)) (he : EnvOK env) : LevB env fn n 9 (lvl (parseExpr1F n) 9) :=
  ⟨fun hs hn => lvl_ok he (k := 9) (by omega) (by omega) hs hn, expr9_bad H he⟩

theorem level8 (H : RecB env fn n (parseExpr1F n)) (he : EnvOK env) : LevB env fn n 8 (lvl (parseExpr1F n) 8) := by
  refine ⟨fun hs hn => lvl_ok he (k := 8) (by omega) (by omega) hs hn, fun {r msg q} hs hn => ?_⟩
  have H9 := level9 H he
  rw [loop_level (k := 8) (B := fun r => PostErr env fn r msg q) (by unfold IsLoop; omega) he H9 ?_ ?_ ?_ hs hn]
  · constructor
    · rintro (h | ⟨l, rc, h1, h | ⟨t, r2, ht, ⟨hw, hty, h⟩ | ⟨hty, h | ⟨f, r3, h2, h | ⟨t2, r4, ht2, ⟨h3, rfl, rfl⟩ | ⟨h3, h⟩⟩⟩⟩ | ⟨hty, h⟩⟩⟩)
      · exact .first (by omega) (by omega) (by omega) h
      · exact .noOp (by unfold Repeats; omega) h1 h
      · exact .subscript (q0 := pubPos fn t.pos) h1 hw ⟨t, ht, hty, rfl⟩ h
      · exact .callee (q0 := pubPos fn t.pos) h1 ⟨t, ht, hty, rfl⟩ h
      · exact .noCallLex (q0 := pubPos fn t.pos) h1 ⟨t, ht, hty, rfl⟩ h2 h
      · exact .noCall (q0 := pubPos fn t.pos) h1 ⟨t, ht, hty, rfl⟩ h2 ht2 h3
      · exact .method (q0 := pubPos fn t.pos) (q1 := pubPos fn t2.pos) h1 ⟨t, ht, hty, rfl⟩ h2 ⟨t2, ht2, h3, rfl⟩ h
      · exact .call (q0 := pubPos fn t.pos) h1 ⟨t, ht, hty, rfl⟩ h
    · intro h
      cases h with
      | first _ _ _ h => exact .inl h
      | noOp _ h1 h => exact .inr ⟨_, _, h1, .inl h⟩
      | right _ _ _ ho _ => obtain ⟨b, hb, _⟩ := ops_of_isOp ho (by omega); cases hb
      | subscript h1 hw h2 h =>
        obtain ⟨t, ht, hty, _⟩ := h2
        exact .inr ⟨_, _, h1, .inr ⟨t, _, ht, .inl ⟨hw, hty, h⟩⟩⟩
      | call h1 h2 h =>
        obtain ⟨t, ht, hty, _⟩ := h2
        exact .inr ⟨_, _, h1, .inr ⟨t, _, ht, .inr (.inr ⟨hty, h⟩)⟩⟩
      | callee h1 h2 h =>
        obtain ⟨t, ht, hty, _⟩ := h2
        exact .inr ⟨_, _, h1, .inr ⟨t, _, ht, .inr (.inl ⟨hty, .inl h⟩)⟩⟩
      | noCallLex h1 h2 h3 h =>
        obtain ⟨t, ht, hty, _⟩ := h2
        exact .inr ⟨_, _, h1, .inr ⟨t, _, ht, .inr (.inl ⟨hty, .inr ⟨_, _, h3, .inl h⟩⟩)⟩⟩
      | noCall h1 h2 h3 h4 h =>
        obtain ⟨t, ht, hty, _⟩ := h2
        exact .inr ⟨_, _, h1, .inr ⟨t, _, ht, .inr (.inl ⟨hty, .inr ⟨_, _, h3, .inr ⟨_, _, h4, .inl ⟨h, rfl, rfl⟩⟩⟩⟩)⟩⟩
      | method h1 h2 h3 h4 h =>
        obtain ⟨t, ht, hty, _⟩ := h2
        obtain ⟨t2, ht2, hty2, _⟩ := h4
        exact .inr ⟨_, _, h1, .inr ⟨t, _, ht, .inr (.inl ⟨hty, .inr ⟨_, _, h3, .inr ⟨t2, _, ht2, .inr ⟨hty2, h⟩⟩⟩⟩)⟩⟩
  · intro v r1 h
    exact (h.wp (lvl_spec (fn := fn) he (by omega) (by omega) hs hn)).up (gram_closed he) (by omega) (look_skip (by omega))
  · intro l rc l' r' hl h
    exact body8_step he (recOK' he n) hn hl h
  · intro l rc hs hn
    exact body8_bad H H9 he hs hn

theorem level7 (H : RecB env fn n (parseExpr1F n)) (he : EnvOK env) : LevB env fn n 7 (lvl (parseExpr1F n) 7) := by
  refine ⟨fun hs hn => lvl_ok he (k := 7) (by omega) (by omega) hs hn, fun {r msg q} hs hn => ?_⟩
  have H8 := level8 H he
  have H9 := level9 H he
  suffices key : ∀ m (r : List Cell), Suf env r → r.length ≤ n → r.length < m →
      (Bad env (expr7N (parseExpr1F n) m) r msg q ↔ GErr env fn 7 r msg q) from
    key (r.length + 1) r hs hn (Nat.lt_succ_self _)
  intro m
  induction m with
  | zero => intro r _ _ h; omega
  | succ m ih =>
    intro r hs hn hm
    unfold expr7N
    rw [badb_tell]
    rcases lex_total he hs with ⟨m', p, hlex⟩ | ⟨t, r1, ht⟩
    · have h8 : GErr env fn 8 r m' p := .first (by omega) (by omega) (by omega) (.lex hlex)
      constructor
      · intro h
        obtain ⟨rfl, rfl⟩ := h.det ((badb_tokget he hs).2 (.inl hlex))
        exact .noUnary (fun t r1 op h => (hlex.no he hs h).elim) h8
      · intro h
        cases h with
        | first _ _ h => exact absurd rfl h
        | noOp h => unfold Repeats at h; omega
        | right h => unfold Repeats at h; omega
        | unary h => exact (hlex.no he hs h).elim
        | noUnary _ h =>
          obtain ⟨rfl, rfl⟩ := ((H8.bad hs hn).2 h).det ((H8.bad hs hn).2 h8)
          exact (badb_tokget he hs).2 (.inl hlex)
    · rw [badb_take he hs ht]
      have hs1 := ht.suf he hs
      cases ho : opsUnary t.ty with
      | none =>
        simp only
        rw [badb_seekSet]
        have hno : ∀ t r1 op, Lex env r t r1 → ¬ IsUn t.ty op := by
          intro t' r1' op h1 h2
          obtain ⟨rfl, rfl⟩ := ht.det he hs h1
          obtain ⟨b, hb, _⟩ := un_of_is h2
          rw [ho] at hb; cases hb
        refine (H8.bad hs hn).trans ⟨fun h => .noUnary hno h, fun h => ?_⟩
        cases h with
        | first _ _ h => exact absurd rfl h
        | noOp h => unfold Repeats at h; omega
        | right h => unfold Repeats at h; omega
        | unary h1 h2 => exact absurd h2 (hno _ _ _ h1)
        | noUnary _ h => exact h
      | some op =>
        simp only
        have hl := ht.lt he hs rfl (by intro h; rw [h] at ho; cases ho) (by intro h; rw [h] at ho; cases ho)
        rw [bad_then_pure, ih r1 hs1 (by omega) (by omega)]
        constructor
        · intro h; exact .unary ht (isUn_of ho) h
        · intro h
          cases h with
          | first _ _ h => exact absurd rfl h
          | noOp h => unfold Repeats at h; omega
          | right h => unfold Repeats at h; omega
          | unary h1 h2 h => obtain ⟨rfl, rfl⟩ := ht.det he hs h1; exact h
          | noUnary h _ => exact absurd (isUn_of ho) (h _ _ _ ht)

theorem levelBin (he : EnvOK env) {k : Nat} (hk : k = 2 ∨ k = 3 ∨ k = 5 ∨ k = 6)
    (H : LevB env fn n (k + 1) (lvl (parseExpr1F n) (k + 1)))
    (hbody : ∀ l, lvlBody (parseExpr1F n) k l = binBody (lvl (parseExpr1F n) (k + 1)) (opsAt k) l) :
    LevB env fn n k (lvl (parseExpr1F n) k) := by
  refine ⟨fun hs hn => lvl_ok he (k := k) (by omega) (by omega) hs hn, fun {r msg q} hs hn => ?_⟩
  have hrep : Repeats k := by unfold Repeats; omega
  rw [loop_level (k := k) (B := fun r => LexErr env r msg q ∨
      ∃ t r2 op, Lex env r t r2 ∧ IsOp t.ty k op ∧ GErr env fn (k + 1) r2 msg q) (by unfold IsLoop; omega) he H ?_ ?_ ?_ hs hn]
  · constructor
    · rintro (h | ⟨l, rc, h1, h | ⟨t, r2, op, ht, ho, h⟩⟩)
      · exact .first (by omega) (by omega) (by omega) h
      · exact .noOp hrep h1 h
      · exact .right hrep h1 ht ho h
    · intro h
      cases h with
      | first _ _ _ h => exact .inl h
      | noOp _ h1 h => exact .inr ⟨_, _, h1, .inl h⟩
      | right _ h1 h2 h3 h => exact .inr ⟨_, _, h1, .inr ⟨_, _, _, h2, h3, h⟩⟩
      | _ => omega
  · intro v r1 h
    exact (h.wp (lvl_spec (fn := fn) he (by omega) (by omega) hs hn)).up (gram_closed he) (by omega) (look_skip (by omega))
  · intro l rc l' r' hl h
    rw [hbody] at h
    exact binBody_step he (fun r hs hn => lvl_spec (fn := fn) he (by omega) (by omega) hs hn) hn hl h
  · intro l rc hs hn
    rw [hbody]
    exact binBody_bad hk H he hs (by omega)

theorem level4 (he : EnvOK env) (H : LevB env fn n 5 (lvl (parseExpr1F n) 5)) :
    LevB env fn n 4 (lvl (parseExpr1F n) 4) := by
  refine ⟨fun hs hn => lvl_ok he (k := 4) (by omega) (by omega) hs hn, fun {r msg q} hs hn => ?_⟩
  show Bad env (expr4 (parseExpr1F n)) r msg q ↔ _
  unfold expr4
  rw [LevB.bind (show LevB env fn n 5 (expr5 (parseExpr1F n)) from H) he hs hn (B := fun r1 => LexErr env r1 msg q ∨
    ∃ t r2 op, Lex env r1 t r2 ∧ IsOp t.ty 4 op ∧ GErr env fn 5 r2 msg q) fun v r1 hs1 hl1 => ?_]
  · constructor
    · rintro (h | ⟨e, r1, h1, h | ⟨t, r2, op, ht, ho, h⟩⟩)
      · exact .first (by omega) (by omega) (by omega) h
      · exact .noOp4 h1 h
      · exact .right4 h1 ht ho h
    · intro h
      cases h with
      | first _ _ _ h => exact .inl h
      | noOp h => unfold Repeats at h; omega
      | right h => unfold Repeats at h; omega
      | noOp4 h1 h => exact .inr ⟨_, _, h1, .inl h⟩
      | right4 h1 h2 h3 h => exact .inr ⟨_, _, h1, .inr ⟨_, _, _, h2, h3, h⟩⟩
  · rw [badb_tell, badb_tokget he hs1]
    refine or_congr Iff.rfl (exists_congr fun t => exists_congr fun r2 => ?_)
    constructor
    · rintro ⟨ht, h⟩
      have := ht.le he hs1
      cases ho : opsCmp t.ty with
      | none => rw [ho] at h; simp only at h; rw [badb_seekSet] at h; cases h
      | some op =>
        rw [ho] at h
        exact ⟨_, ht, isOp_of_cmp ho, (H.bad (ht.suf he hs1) (by omega)).1 (bad_then_pure.1 h)⟩
    · rintro ⟨op, ht, ho, h⟩
      have := ht.le he hs1
      obtain ⟨b, hb, _⟩ := cmp_of_isOp ho
      refine ⟨ht, ?_⟩
      rw [hb]
      exact bad_then_pure.2 ((H.bad (ht.suf he hs1) (by omega)).2 h)

theorem level1 (H : RecB env fn n (parseExpr1F n)) (he : EnvOK env) (H2 : LevB env fn n 2 (lvl (parseExpr1F n) 2)) :
    LevB env fn n 1 (lvl (parseExpr1F n) 1) := by
  refine ⟨fun hs hn => lvl_ok he (k := 1) (by omega) (by omega) hs hn, fun {r msg q} hs hn => ?_⟩
  show Bad env (expr1 (parseExpr1F n)) r msg q ↔ _
  unfold expr1
  rw [LevB.bind (show LevB env fn n 2 (expr2 (parseExpr1F n)) from H2) he hs hn (B := fun r1 => LexErr env r1 msg q ∨
    ∃ t r2, Lex env r1 t r2 ∧ t.ty = .question ∧ (GErr env fn 1 r2 msg q ∨ ∃ a r3, Gram env fn 1 r2 a r3 ∧
      (LexErr env r3 msg q ∨ ∃ t2 r4, Lex env r3 t2 r4 ∧ (t2.ty ≠ .colon ∧ msg = cs!"unexpected token: " ++ t2.value ∧ q = t2.pos ∨
        t2.ty = .colon ∧ GErr env fn 1 r4 msg q)))) fun v r1 hs1 hl1 => ?_]
  · constructor
    · rintro (h | ⟨e, r1, h1, h | ⟨t, r2, ht, hty, h | ⟨a, r3, h2, h | ⟨t2, r4, ht2, ⟨h3, rfl, rfl⟩ | ⟨h3, h⟩⟩⟩⟩⟩)
      · exact .first (by omega) (by omega) (by omega) h
      · exact .noOp1 h1 h
      · exact .thenPart (q0 := pubPos fn t.pos) h1 ⟨t, ht, hty, rfl⟩ h
      · exact .colon (q0 := pubPos fn t.pos) h1 ⟨t, ht, hty, rfl⟩ h2 (.lex h)
      · exact .colon (q0 := pubPos fn t.pos) h1 ⟨t, ht, hty, rfl⟩ h2 (.token ht2 h3)
      · exact .elsePart (q0 := pubPos fn t.pos) (q1 := pubPos fn t2.pos) h1 ⟨t, ht, hty, rfl⟩ h2 ⟨t2, ht2, h3, rfl⟩ h
    · intro h
      cases h with
      | first _ _ _ h => exact .inl h
      | noOp h => unfold Repeats at h; omega
      | right h => unfold Repeats at h; omega
      | noOp1 h1 h => exact .inr ⟨_, _, h1, .inl h⟩
      | thenPart h1 h2 h =>
        obtain ⟨t, ht, hty, _⟩ := h2
        exact .inr ⟨_, _, h1, .inr ⟨t, _, ht, hty, .inl h⟩⟩
      | colon h1 h2 h3 h =>
        obtain ⟨t, ht, hty, _⟩ := h2
        rcases want_iff.1 h with h | ⟨t2, r4, h, h4, h5⟩
        · exact .inr ⟨_, _, h1, .inr ⟨t, _, ht, hty, .inr ⟨_, _, h3, .inl h⟩⟩⟩
        · exact .inr ⟨_, _, h1, .inr ⟨t, _, ht, hty, .inr ⟨_, _, h3, .inr ⟨t2, r4, h, .inl ⟨h4, h5⟩⟩⟩⟩⟩
      | elsePart h1 h2 h3 h4 h =>
        obtain ⟨t, ht, hty, _⟩ := h2
        obtain ⟨t2, ht2, hty2, _⟩ := h4
        exact .inr ⟨_, _, h1, .inr ⟨t, _, ht, hty, .inr ⟨_, _, h3, .inr ⟨t2, _, ht2, .inr ⟨hty2, h⟩⟩⟩⟩⟩
  · rw [badb_tell, badb_tokget he hs1]
    refine or_congr Iff.rfl (exists_congr fun t => exists_congr fun r2 => and_congr_right fun ht => ?_)
    by_cases hty : t.ty = .question
    · have hlt := ht.lt he hs1 hty
      have hs2 := ht.suf he hs1
      rw [if_pos hty, RecB.bind H he hs2 (by omega) fun v2 r3 hs3 hl3 => ?_, and_iff_right hty]
      rw [badb_tokget he hs3]
      refine or_congr Iff.rfl (exists_congr fun t2 => exists_congr fun r4 => and_congr_right fun ht2 => ?_)
      have := ht2.le he hs3
      rw [bad_ite, bad_unexpected, Classical.not_not, bad_then_pure, H.bad (ht2.suf he hs3) (by omega)]
    · rw [if_neg hty, badb_seekSet, bad_pure]
      exact ⟨False.elim, fun h => absurd h.1 hty⟩

/-- The expression parser fails as the specification says. -/
theorem parseExpr1F_bad (fn : Str) (he : EnvOK env) (n : Nat) : RecB env fn n (parseExpr1F n) := by
  induction n with
  | zero => exact ⟨fun _ h => by omega, fun _ h => by omega⟩
  | succ n ih =>
    have H7 := level7 ih he
    have H6 := levelBin he (k := 6) (by omega) H7 fun _ => rfl
    have H5 := levelBin he (k := 5) (by omega) H6 fun _ => rfl
    have H4 := level4 he H5
    have H3 := levelBin he (k := 3) (by omega) H4 fun _ => rfl
    have H2 := levelBin he (k := 2) (by omega) H3 fun _ => rfl
    have H1 := level1 ih he H2
    exact ⟨fun hs hn => H1.ok hs (by omega), fun hs hn => H1.bad hs (by omega)⟩

/-- The same for the parser without a bound. -/
theorem parseExpr1_bad (he : EnvOK env) (hs : Suf env r) :
    Bad env parseExpr1 r msg q ↔ GErr env fn 1 r msg q :=
  (parseExpr1F_bad fn he (r.length + 1)).bad hs (Nat.lt_succ_self _)

end
end Viml
