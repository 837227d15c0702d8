/-
Where the expression parser fails, continued: operands.
-/
import Verif.Lemmas.ExprErrBrace

namespace Viml
open Prog Spec

section
variable {env : Env} {fn : Str} {r : List Cell} {msg : Str} {q : Pos} {n : Nat} {rec : Prog VExpr}

/-- The part of `expr9` after the first token. -/
def operandP (rec : Prog VExpr) (start : List Cell) (t : Token) : Prog VExpr :=
  match t.ty with
  | .number => pure (.atom t.pos .number t.value)
  | .blob => pure (.atom t.pos .blob t.value)
  | .dquote => seekSet start >>= fun _ => getDstring >>= fun s => pure (.atom t.pos .string (cs!"\"" ++ s ++ cs!"\""))
  | .squote => seekSet start >>= fun _ => getSstring >>= fun s => pure (.atom t.pos .string (cs!"'" ++ s ++ cs!"'"))
  | .sqopen => parseListItems rec t.pos
  | .copen => parseBrace rec start t
  | .litcopen => parseBrace rec start t
  | .popen => rec >>= fun e => tokget >>= fun t2 => if t2.ty ≠ .pclose then unexpected t2 else pure (.paren t.pos e)
  | .option => pure (.atom t.pos .option t.value)
  | .identifier => seekSet start >>= fun _ => parseIdentifier rec
  | .env => pure (.atom t.pos .env t.value)
  | .reg => pure (.atom t.pos .reg t.value)
  | .cmp .smaller .plain => peekn 4 >>= fun s =>
    if equalci s cs!"SID>" then seekSet start >>= fun _ => parseIdentifier rec else unexpected t
  | ty => if isIsToken ty then seekSet start >>= fun _ => parseIdentifier rec else unexpected t

theorem expr9_eq (rec : Prog VExpr) : expr9 rec = tell >>= fun start => tokget >>= fun t => operandP rec start t := rfl

theorem isWord_iff {ty : TT} : IsWord ty ↔ ty = .identifier ∨ isIsToken ty = true := by
  unfold IsWord
  constructor
  · rintro (h | ⟨k, c, rfl, h1, h2⟩)
    · exact .inl h
    · right
      rcases h1 with rfl | rfl <;> cases c <;> first | rfl | exact absurd rfl h2
  · rintro (h | h)
    · exact .inl h
    · cases ty <;> simp only [isIsToken, Bool.false_eq_true] at h
      rename_i k c
      cases k <;> cases c <;> simp only [Bool.false_eq_true] at h
      · exact .inr ⟨_, _, rfl, .inl rfl, by decide⟩
      · exact .inr ⟨_, _, rfl, .inl rfl, by decide⟩
      · exact .inr ⟨_, _, rfl, .inr rfl, by decide⟩
      · exact .inr ⟨_, _, rfl, .inr rfl, by decide⟩

theorem sid4_iff : equalci (getnS 4 r).1 cs!"SID>" = true ↔ ∃ v r', Reads r v r' ∧ equalci v cs!"SID>" = true := by
  constructor
  · intro h; exact ⟨_, _, getnS_reads 4 r, h⟩
  · rintro ⟨v, r', h1, h2⟩
    have hl : v.length = 4 := by
      have h3 : v.map lowerC = (cs!"SID>").map lowerC := by simpa [equalci] using h2
      have := congrArg List.length h3
      simpa using this
    have h3 := getnS_of_reads h1
    rw [hl] at h3
    rw [h3]
    exact h2

theorem sid_lex (he : EnvOK env) (hs : Suf env r) {r1 r2 : List Cell} {v : Str} (hb : Blanks r r1) (h : Reads r1 v r2)
    (hv : equalci v cs!"<SID>" = true) : ∃ t r', Lex env r t r' ∧ t.ty = .cmp .smaller .plain ∧
      equalci (getnS 4 r').1 cs!"SID>" = true := by
  obtain ⟨w, h1, hw⟩ := hb
  obtain ⟨s, rfl, h4, hl⟩ := sid_cons hv
  obtain ⟨r3, h3, h5⟩ := Spec.Reads.split (show Reads r1 (['<'] ++ s) r2 from h)
  have h6 : getnS 4 r3 = (s, r2) := by
    have := getnS_of_reads h5
    rwa [hl] at this
  have hlow : ∀ x, headSym r3 = .ch x → lowerC x = 's' := by
    match s, h4, h5 with
    | y :: s, h4, h5 =>
      intro x hx
      rw [headSym_of_reads h5] at hx
      cases hx
      have h7 : (y :: s).map lowerC = (cs!"SID>").map lowerC := by simpa [equalci] using h4
      exact (List.cons.inj h7).1.trans (by decide)
  have hne : ∀ x, lowerC x ≠ 's' → headSym r3 ≠ .ch x := fun x hx h => hx (hlow x h)
  have ht := tok_of he hs h1 hw h3 (.cmp .smaller r3 (hne _ (by decide)) (hne _ (by decide))
    (fun _ => hne _ (by decide)) (by simp))
  exact ⟨_, _, (tokGet_iff he hs _ _).1 ht, rfl, by rw [h6]; exact h4⟩

/-- Where the text of a token starts. -/
theorem lex_skip (he : EnvOK env) (hs : Suf env r) {t : Token} {r1 : List Cell} {ty : TT} (ht : Lex env r t r1)
    (hty : t.ty = ty) (h1 : ty ≠ .eof := by decide) (h2 : ty ≠ .eol := by decide) :
    ∃ r0, Skip r r0 ∧ Reads r0 t.value r1 ∧ Shape ty t.value := by
  obtain ⟨_, k1, k2⟩ := tok_skip he hs ⟨(tokGet_iff he hs _ _).2 ht, hty⟩ h1 h2
  exact ⟨_, ⟨_, span_iff.2 rfl⟩, k1, k2⟩

/-- A name that starts with a brace. -/
theorem curly_bad (H : RecB env fn n rec) (he : EnvOK env) (hs : Suf env r) (hn : r.length ≤ n) {t : Token} {r1 : List Cell}
    (ht : Lex env r t r1) (hty : t.ty = .copen ∨ t.ty = .litcopen) : Bad env (parseIdentifier rec) r msg q ↔
      ∃ r0, Blanks r r0 ∧ NameErr env fn r0 msg q := by
  rw [parseIdentifier_bad H he hs hn]
  constructor
  · rintro ⟨r0, h1, ⟨v, r2, h2, h3, h⟩ | h⟩
    · obtain ⟨t', r', k1, k2, _⟩ := sid_lex he hs h1.blanks h2 h3
      obtain ⟨rfl, rfl⟩ := ht.det he hs k1
      rcases hty with h | h <;> rw [h] at k2 <;> cases k2
    · exact ⟨r0, h1.blanks, h⟩
  · rintro ⟨r0, h1, h⟩
    exact ⟨r0, h1.toSkip h.stop, .inr h⟩

theorem word_bad (H : RecB env fn n rec) (he : EnvOK env) (hs : Suf env r) (hn : r.length ≤ n) {t : Token} {r1 : List Cell}
    (ht : Lex env r t r1) (hty : IsWord t.ty) : Bad env (parseIdentifier rec) r msg q ↔
      ∃ r0, Blanks r r0 ∧ NameErr env fn r0 msg q := by
  rw [parseIdentifier_bad H he hs hn]
  constructor
  · rintro ⟨r0, h1, ⟨v, r2, h2, h3, h⟩ | h⟩
    · obtain ⟨t', r', k1, k2, _⟩ := sid_lex he hs h1.blanks h2 h3
      obtain ⟨rfl, rfl⟩ := ht.det he hs k1
      rw [k2] at hty
      rcases hty with h | ⟨k, c, h, h', _⟩
      · cases h
      · cases h
        rcases h' with h | h <;> cases h
    · exact ⟨r0, h1.blanks, h⟩
  · rintro ⟨r0, h1, h⟩
    exact ⟨r0, h1.toSkip h.stop, .inr h⟩

theorem sidName_bad (H : RecB env fn n rec) (he : EnvOK env) (hs : Suf env r) (hn : r.length ≤ n) {t : Token} {r1 : List Cell}
    (ht : Lex env r t r1) (hty : t.ty = .cmp .smaller .plain) : Bad env (parseIdentifier rec) r msg q ↔
      ∃ r0 v r2, Blanks r r0 ∧ Reads r0 v r2 ∧ equalci v cs!"<SID>" = true ∧ NameErr env fn r2 msg q := by
  rw [parseIdentifier_bad H he hs hn]
  constructor
  · rintro ⟨r0, h1, ⟨v, r2, h2, h3, h⟩ | h⟩
    · exact ⟨r0, v, r2, h1.blanks, h2, h3, h⟩
    · exfalso
      obtain ⟨r0', k1, k2, k3⟩ := lex_skip he hs ht hty
      obtain rfl := k1.det h1
      simp only [Shape, cmpText, caseText, List.append_nil] at k3
      rw [k3] at k2
      have h4 := headSym_of_reads k2
      rcases h.head with h5 | h5
      · rw [h4] at h5; revert h5; decide
      · rw [h4] at h5; revert h5; decide
  · rintro ⟨r0, v, r2, h1, h2, h3, h⟩
    refine ⟨r0, h1.toSkip ?_, .inl ⟨v, r2, h2, h3, h⟩⟩
    obtain ⟨s, rfl, _⟩ := sid_cons h3
    rw [headSym_of_reads h2]
    decide

theorem operandP_none {start : List Cell} {t : Token} (h : ¬ Operand t.ty r) :
    Bad env (operandP rec start t) r msg q ↔ msg = cs!"unexpected token: " ++ t.value ∧ q = t.pos := by
  have hw : ¬ IsWord t.ty := fun k => h (.inr (.inl k))
  have hl : ∀ k, ¬ IsLit t.ty k := fun k x => h (.inl ⟨k, x⟩)
  have h' : ¬ (t.ty = .dquote ∨ t.ty = .squote ∨ t.ty = .sqopen ∨ t.ty = .copen ∨ t.ty = .litcopen ∨ t.ty = .popen) := by
    rintro (k | k | k | k | k | k) <;> exact h (by simp [Operand, k])
  unfold operandP
  split
  · rename_i hty; exact absurd (by rw [hty]; exact .number) (hl .NUMBER)
  · rename_i hty; exact absurd (by rw [hty]; exact .blob) (hl .BLOB)
  · rename_i hty; exact absurd (by simp [hty]) h'
  · rename_i hty; exact absurd (by simp [hty]) h'
  · rename_i hty; exact absurd (by simp [hty]) h'
  · rename_i hty; exact absurd (by simp [hty]) h'
  · rename_i hty; exact absurd (by simp [hty]) h'
  · rename_i hty; exact absurd (by simp [hty]) h'
  · rename_i hty; exact absurd (by rw [hty]; exact .option) (hl .OPTION)
  · rename_i hty; exact absurd (.inl hty) hw
  · rename_i hty; exact absurd (by rw [hty]; exact .env) (hl .ENV)
  · rename_i hty; exact absurd (by rw [hty]; exact .reg) (hl .REG)
  · rename_i hty
    rw [badb_peekn, if_neg, bad_unexpected]
    intro h4
    exact h (by simp only [Operand]; exact .inr (.inr (.inr (.inr (.inr (.inr (.inr (.inr ⟨hty, sid4_iff.1 h4⟩))))))))
  · rw [if_neg, bad_unexpected]
    intro h4
    exact hw (isWord_iff.2 (.inr h4))

theorem expr9_bad (H : RecB env fn n rec) (he : EnvOK env) (hs : Suf env r) (hn : r.length ≤ n) :
    Bad env (expr9 rec) r msg q ↔ GErr env fn 9 r msg q := by
  rw [expr9_eq, badb_tell]
  have hbr : ∀ {lit t r1}, Brace env r lit r1 → Lex env r t r1 → (t.ty == .litcopen) = lit := by
    rintro lit t r1 ⟨t', h1, h2⟩ h3
    obtain ⟨rfl, _⟩ := h1.det he hs h3
    cases lit <;> simp [h2]
  constructor
  · rw [badb_tokget he hs]
    rintro (h | ⟨t, r1, ht, h⟩)
    · exact .lex h
    refine (Classical.em (Operand t.ty r1)).elim (fun hop => ?_) fun hop => ?_
    rotate_left
    · obtain ⟨rfl, rfl⟩ := (operandP_none hop).1 h
      exact .operand ht hop
    have hs1 := ht.suf he hs
    have hbrace : ∀ lit : Bool, t.ty = (if lit then .litcopen else .copen) → Bad env (parseBrace rec r t) r1 msg q →
        GErr env fn 9 r msg q := by
      intro lit hty h
      have hty' : t.ty = .copen ∨ t.ty = .litcopen := by cases lit <;> simp [hty]
      have hlt : r1.length < n := by
        have := ht.lt he hs hty (by cases lit <;> decide) (by cases lit <;> decide)
        omega
      have hb : Brace env r lit r1 := ⟨t, ht, hty⟩
      rcases (parseBrace_bad H he hs1 hlt).1 h with h | ⟨hx, r2, t2, r3, k1, k2, k3, k4⟩
      · rw [hbr hb ht] at h
        exact .brace hb h
      · rw [hbr hb ht] at k1
        obtain ⟨r0, k5, k6⟩ := (curly_bad H he hs hn ht hty').1 k4
        exact .curly (q0 := pubPos fn t2.pos) hb hx k1 ⟨t2, k2, k3, rfl⟩ k5 k6
    have hword : IsWord t.ty → GErr env fn 9 r msg q := by
      intro hw
      have h1 : Bad env (parseIdentifier rec) r msg q := by
        rcases isWord_iff.1 hw with h2 | h2
        · unfold operandP at h; rw [h2] at h; exact h
        · rcases hw with h3 | ⟨k, c, h3, hk, hc⟩
          · rw [h3] at h2; cases h2
          · unfold operandP at h
            rw [h3] at h
            rcases hk with rfl | rfl <;> cases c <;> first | exact h | exact absurd rfl hc
      obtain ⟨r0, h2, h3⟩ := (word_bad H he hs hn ht hw).1 h1
      exact .name ⟨t, r1, ht, hw⟩ h2 h3
    rcases hop with ⟨k, hl⟩ | hw | hty | hty | hty | hty | hty | hty | ⟨hty, hsid⟩
    · exfalso
      unfold operandP at h
      generalize t.ty = ty at hl h
      cases hl <;> cases h
    · exact hword hw
    · unfold operandP at h
      rw [hty] at h
      obtain ⟨r0, k1, k2, k3⟩ := lex_skip he hs ht hty
      simp only [Shape] at k3
      rw [k3] at k2
      rcases bad_bind.1 (badb_seekSet.1 h) with h | ⟨s, r2, _, h⟩
      · obtain ⟨s, r2, hd, ⟨h1, h2, rfl, rfl⟩ | ⟨h1, h2, rfl, rfl⟩⟩ := (getDstring_bad k1 (headSym_of_reads k2)).1 h
        · exact .dstring k1.blanks hd h1 h2
        · exact .escape k1.blanks hd h1 h2
      · cases h
    · unfold operandP at h
      rw [hty] at h
      obtain ⟨r0, k1, k2, k3⟩ := lex_skip he hs ht hty
      simp only [Shape] at k3
      rw [k3] at k2
      rcases bad_bind.1 (badb_seekSet.1 h) with h | ⟨s, r2, _, h⟩
      · obtain ⟨s, r2, hd, h1, h2, rfl, rfl⟩ := (getSstring_bad k1 (headSym_of_reads k2)).1 h
        exact .sstring k1.blanks hd h1 h2
      · cases h
    · unfold operandP at h
      rw [hty] at h
      have := ht.lt he hs hty
      exact .list (q0 := pubPos fn t.pos) ⟨t, ht, hty, rfl⟩ ((parseListItems_bad H he hs1 (by omega)).1 h)
    · refine hbrace false hty ?_
      unfold operandP at h
      rw [hty] at h
      exact h
    · refine hbrace true hty ?_
      unfold operandP at h
      rw [hty] at h
      exact h
    · unfold operandP at h
      rw [hty] at h
      have := ht.lt he hs hty
      rcases (H.bind (B := fun r1 => Want env r1 (· = .pclose) msg q) he hs1 (by omega) fun v r2 hs2 _ => by
        rw [badb_tokget he hs2, want_iff]
        refine or_congr Iff.rfl (exists_congr fun t => exists_congr fun r4 => and_congr_right fun ht => ?_)
        rw [bad_ite, bad_unexpected, bad_pure, and_false, or_false]).1 h with h | ⟨e, r2, h1, h2⟩
      · exact .paren (q0 := pubPos fn t.pos) ⟨t, ht, hty, rfl⟩ h
      · exact .parenEnd (q0 := pubPos fn t.pos) ⟨t, ht, hty, rfl⟩ h1 h2
    · unfold operandP at h
      rw [hty] at h
      simp only at h
      rw [badb_peekn, if_pos (sid4_iff.2 hsid), badb_seekSet] at h
      obtain ⟨r0, v, r2, h1, h2, h3, h4⟩ := (sidName_bad H he hs hn ht hty).1 h
      exact .sid h1 h2 h3 h4
  · have hbrace : ∀ {t r1}, Lex env r t r1 → t.ty = .copen ∨ t.ty = .litcopen → Bad env (parseBrace rec r t) r1 msg q →
        Bad env (operandP rec r t) r1 msg q := by
      intro t r1 ht hty h
      unfold operandP
      rcases hty with hty | hty <;> rw [hty] <;> exact h
    have htb : ∀ {lit r1}, Brace env r lit r1 → ∃ t, Lex env r t r1 ∧ (t.ty = .copen ∨ t.ty = .litcopen) ∧
        r1.length < n ∧ Suf env r1 := by
      rintro lit r1 ⟨t, ht, hty⟩
      refine ⟨t, ht, by cases lit <;> simp [hty], ?_, ht.suf he hs⟩
      have := ht.lt he hs hty (by cases lit <;> decide) (by cases lit <;> decide)
      omega
    intro h
    cases h with
    | first _ h => omega
    | noOp h => unfold Repeats at h; omega
    | right h => unfold Repeats at h; omega
    | lex h => exact (badb_tokget he hs).2 (.inl h)
    | operand ht hop =>
      rw [badb_take he hs ht]
      exact (operandP_none hop).2 ⟨rfl, rfl⟩
    | dstring h1 h2 h3 h4 =>
      obtain ⟨w, k1, k2⟩ := id h1
      obtain ⟨r2, k3, _⟩ := Spec.Reads.split (show Reads _ (['"'] ++ _) _ from h3)
      have ht := (tokGet_iff he hs _ _).1 (tok_of he hs k1 k2 k3 (.dquote r2))
      rw [badb_take he hs ht]
      refine badb_seekSet.2 (bad_bind.2 (.inl ?_))
      refine (getDstring_bad (h1.toSkip ?_) (headSym_of_reads h3)).2 ⟨_, _, h2, .inl ⟨h3, h4, rfl, rfl⟩⟩
      rw [headSym_of_reads h3]; decide
    | escape h1 h2 h3 h4 =>
      obtain ⟨w, k1, k2⟩ := id h1
      obtain ⟨r2, k3, _⟩ := Spec.Reads.split (show Reads _ (['"'] ++ _) _ from h3)
      have ht := (tokGet_iff he hs _ _).1 (tok_of he hs k1 k2 k3 (.dquote r2))
      rw [badb_take he hs ht]
      refine badb_seekSet.2 (bad_bind.2 (.inl ?_))
      refine (getDstring_bad (h1.toSkip ?_) (headSym_of_reads h3)).2 ⟨_, _, h2, .inr ⟨h3, h4, rfl, rfl⟩⟩
      rw [headSym_of_reads h3]; decide
    | sstring h1 h2 h3 h4 =>
      obtain ⟨w, k1, k2⟩ := id h1
      obtain ⟨r2, k3, _⟩ := Spec.Reads.split (show Reads _ (['\''] ++ _) _ from h3)
      have ht := (tokGet_iff he hs _ _).1 (tok_of he hs k1 k2 k3 (.squote r2))
      rw [badb_take he hs ht]
      refine badb_seekSet.2 (bad_bind.2 (.inl ?_))
      refine (getSstring_bad (h1.toSkip ?_) (headSym_of_reads h3)).2 ⟨_, _, h2, h3, h4, rfl, rfl⟩
      rw [headSym_of_reads h3]; decide
    | list h1 h2 =>
      obtain ⟨t, ht, hty, _⟩ := h1
      rw [badb_take he hs ht]
      have := ht.lt he hs hty
      unfold operandP
      rw [hty]
      exact (parseListItems_bad H he (ht.suf he hs) (by omega)).2 h2
    | paren h1 h2 =>
      obtain ⟨t, ht, hty, _⟩ := h1
      rw [badb_take he hs ht]
      have := ht.lt he hs hty
      unfold operandP
      rw [hty]
      exact bad_bind.2 (.inl ((H.bad (ht.suf he hs) (by omega)).2 h2))
    | parenEnd h1 h2 h3 =>
      obtain ⟨t, ht, hty, _⟩ := h1
      rw [badb_take he hs ht]
      have := ht.lt he hs hty
      have hs1 := ht.suf he hs
      unfold operandP
      rw [hty]
      obtain ⟨v, k1⟩ := (H.ok hs1 (by omega)).2 ⟨_, h2⟩
      refine bad_bind.2 (.inr ⟨v, _, k1, ?_⟩)
      rw [badb_tokget he (h2.suf he hs1)]
      rcases want_iff.1 h3 with h3 | ⟨t, r2, h3, h4, h5⟩
      · exact .inl h3
      · refine .inr ⟨t, r2, h3, ?_⟩
        rw [if_pos h4, bad_unexpected]
        exact h5
    | name h1 h2 h3 =>
      obtain ⟨t, r1, ht, hw⟩ := h1
      rw [badb_take he hs ht]
      have h4 := (word_bad H he hs hn ht hw).2 ⟨_, h2, h3⟩
      rcases hw with h | ⟨k, c, h, hk, hc⟩
      · unfold operandP; rw [h]; exact h4
      · unfold operandP
        rw [h]
        rcases hk with rfl | rfl <;> cases c <;> first | exact h4 | exact absurd rfl hc
    | sid h1 h2 h3 h4 =>
      obtain ⟨t, r1, ht, hty, h5⟩ := sid_lex he hs h1 h2 h3
      rw [badb_take he hs ht]
      unfold operandP
      rw [hty]
      simp only
      rw [badb_peekn, if_pos h5, badb_seekSet]
      exact (sidName_bad H he hs hn ht hty).2 ⟨_, _, _, h1, h2, h3, h4⟩
    | brace h1 h2 =>
      obtain ⟨t, ht, hty, hlt, hs1⟩ := htb h1
      rw [badb_take he hs ht]
      refine hbrace ht hty ((parseBrace_bad H he hs1 hlt).2 (.inl ?_))
      rw [hbr h1 ht]; exact h2
    | curly h1 h2 h3 h4 h5 h6 =>
      obtain ⟨t, ht, hty, hlt, hs1⟩ := htb h1
      rw [badb_take he hs ht]
      obtain ⟨t2, h4, h7, _⟩ := h4
      refine hbrace ht hty ((parseBrace_bad H he hs1 hlt).2 (.inr ⟨h2, _, t2, _, ?_, h4, h7, ?_⟩))
      · rw [hbr h1 ht]; exact h3
      · exact (curly_bad H he hs hn ht hty).2 ⟨_, h5, h6⟩

end
end Viml
