/-
Failing runs of programs as propositions: what it means that a program fails with an error, primitive by primitive,
and rules for loops.
-/
import Verif.Lemmas.RunIff
import Verif.Spec.ExprError

namespace Viml
open Prog Spec

/-- `m` run at `r` fails with the message `msg` at the position `q`. -/
def Bad {α : Type} (env : Env) (m : Prog α) (r : List Cell) (msg : Str) (q : Pos) : Prop :=
  m.runWith tokGet env r = .fail (.err msg q)

section
variable {env : Env} {α β σ : Type} {r : List Cell} {msg : Str} {q : Pos}

theorem bad_pure {a : α} : Bad env (pure a) r msg q ↔ False := by
  constructor
  · intro h; cases h
  · exact False.elim

theorem bad_bind {m : Prog α} {f : α → Prog β} :
    Bad env (m >>= f) r msg q ↔ Bad env m r msg q ∨ ∃ a r1, Ok env m r a r1 ∧ Bad env (f a) r1 msg q := by
  unfold Bad Ok
  rw [runWith_bind]
  cases h : m.runWith tokGet env r with
  | ok a r1 =>
    constructor
    · intro h2; exact .inr ⟨a, r1, rfl, h2⟩
    · rintro (h1 | ⟨a', r1', h1, h2⟩)
      · cases h1
      · cases h1; exact h2
  | fail e =>
    constructor
    · intro h2; cases h2; exact .inl rfl
    · rintro (h1 | ⟨_, _, h1, _⟩)
      · cases h1; rfl
      · cases h1

theorem bad_ite {c : Prop} [Decidable c] {m n : Prog α} :
    Bad env (if c then m else n) r msg q ↔ c ∧ Bad env m r msg q ∨ ¬ c ∧ Bad env n r msg q := by
  by_cases h : c
  · simp [h]
  · simp [h]

theorem bad_errAt {m : Str} {p : Pos} : Bad env (errAt m p : Prog α) r msg q ↔ msg = m ∧ q = p := by
  show (Res.fail (Fail.err m p) : Res α) = _ ↔ _
  constructor
  · intro h; cases h; exact ⟨rfl, rfl⟩
  · rintro ⟨rfl, rfl⟩; rfl

theorem bad_errHere {m : Str} : Bad env (errHere m : Prog α) r msg q ↔ msg = m ∧ q = posOf env r := by
  unfold Bad
  rw [run_errHere]
  constructor
  · intro h; cases h; exact ⟨rfl, rfl⟩
  · rintro ⟨rfl, rfl⟩; rfl

theorem bad_unexpected {t : Token} :
    Bad env (unexpected t : Prog α) r msg q ↔ msg = cs!"unexpected token: " ++ t.value ∧ q = t.pos := bad_errAt

/-! ### Steps of a program -/

theorem badb_tell {f : List Cell → Prog β} : Bad env (tell >>= f) r msg q ↔ Bad env (f r) r msg q := Iff.rfl
theorem badb_seekSet {s : List Cell} {f : Unit → Prog β} :
    Bad env (seekSet s >>= f) r msg q ↔ Bad env (f ()) s msg q := Iff.rfl
theorem badb_getpos {f : Pos → Prog β} : Bad env (getpos >>= f) r msg q ↔ Bad env (f (posOf env r)) r msg q := by
  cases r <;> exact Iff.rfl
theorem badb_peek {f : Sym → Prog β} : Bad env (peek >>= f) r msg q ↔ Bad env (f (headSym r)) r msg q := by
  cases r <;> exact Iff.rfl
theorem badb_p0 {f : Sym → Prog β} : Bad env (p 0 >>= f) r msg q ↔ Bad env (f (headSym r)) r msg q := by
  cases r <;> exact Iff.rfl
theorem badb_get {f : Sym → Prog β} : Bad env (get >>= f) r msg q ↔ Bad env (f (headSym r)) r.tail msg q := by
  cases r <;> exact Iff.rfl
theorem badb_getn {n : Nat} {f : Str → Prog β} :
    Bad env (getn n >>= f) r msg q ↔ Bad env (f (getnS n r).1) (getnS n r).2 msg q := Iff.rfl
theorem badb_peekn {n : Nat} {f : Str → Prog β} :
    Bad env (peekn n >>= f) r msg q ↔ Bad env (f (getnS n r).1) r msg q := Iff.rfl
theorem badb_seek1 {f : Unit → Prog β} {c : Char} (h : headSym r = .ch c) :
    Bad env (seekCur 1 >>= f) r msg q ↔ Bad env (f ()) r.tail msg q := by
  cases r with
  | nil => simp [headSym] at h
  | cons a r =>
    unfold Bad
    rw [runWith_bind]
    have : (seekCur 1).runWith tokGet env (a :: r) = .ok () r := by
      unfold seekCur
      show (if 1 ≤ (a :: r).length then Prog.seek ((a :: r).drop 1) (pure ()) else .fail .crash : Prog Unit).runWith
        tokGet env (a :: r) = _
      rw [if_pos (by simp)]
      rfl
    rw [this]
    exact Iff.rfl
theorem badb_pure {a : α} {f : α → Prog β} : Bad env (pure a >>= f) r msg q ↔ Bad env (f a) r msg q := Iff.rfl
theorem badb_readWhile {g : Char → Bool} {f : Str → Prog β} :
    Bad env (readWhile g >>= f) r msg q ↔ ∃ v r1, Span g r v r1 ∧ Bad env (f v) r1 msg q := by
  rw [bad_bind]
  constructor
  · rintro (h | ⟨a, r1, h1, h2⟩)
    · cases h
    · exact ⟨a, r1, ok_readWhile.1 h1, h2⟩
  · rintro ⟨a, r1, h1, h2⟩
    exact .inr ⟨a, r1, ok_readWhile.2 h1, h2⟩
theorem badb_skipWhite {f : Unit → Prog β} :
    Bad env (skipWhite >>= f) r msg q ↔ ∃ r1, Skip r r1 ∧ Bad env (f ()) r1 msg q := by
  rw [bad_bind]
  constructor
  · rintro (h | ⟨a, r1, h1, h2⟩)
    · cases h
    · exact ⟨r1, ok_skipWhite.1 h1, h2⟩
  · rintro ⟨r1, h1, h2⟩
    exact .inr ⟨(), r1, ok_skipWhite.2 h1, h2⟩
theorem badb_bind {m : Prog α} {f : α → Prog σ} {g : σ → Prog β} :
    Bad env (m >>= f >>= g) r msg q ↔ Bad env (m >>= fun a => f a >>= g) r msg q := by
  unfold Bad
  rw [runWith_bind, runWith_bind, runWith_bind]
  cases m.runWith tokGet env r with
  | ok a r1 => simp only; rw [runWith_bind]
  | fail e => rfl
theorem badb_ite {c : Prop} [Decidable c] {m n : Prog α} {f : α → Prog β} :
    Bad env ((if c then m else n) >>= f) r msg q ↔
      c ∧ Bad env (m >>= f) r msg q ∨ ¬ c ∧ Bad env (n >>= f) r msg q := by
  by_cases h : c
  · simp [h]
  · simp [h]

/-! ### Tokens -/

theorem badb_tokget (he : EnvOK env) (hs : Suf env r) {f : Token → Prog β} :
    Bad env (tokget >>= f) r msg q ↔
      LexErr env r msg q ∨ ∃ t r1, Lex env r t r1 ∧ Bad env (f t) r1 msg q := by
  rw [bad_bind]
  refine or_congr ?_ ?_
  · unfold Bad
    rw [tokget_run, tokErr_iff he hs]
    constructor
    · rintro ⟨_, _, h, h1⟩; cases h; exact h1
    · intro h; exact ⟨_, _, rfl, h⟩
  · simp only [ok_tokget, tokGet_iff he hs]

theorem badb_tokpeek (he : EnvOK env) (hs : Suf env r) {f : Token → Prog β} :
    Bad env (tokpeek >>= f) r msg q ↔
      LexErr env r msg q ∨ ∃ t r1, Lex env r t r1 ∧ Bad env (f t) r msg q := by
  unfold tokpeek
  rw [badb_bind, badb_tell, badb_bind, badb_tokget he hs]
  exact Iff.rfl

theorem Spec.Lex.at (he : EnvOK env) (hs : Suf env r) {t : Token} {r1 : List Cell} (h : Lex env r t r1) :
    TokAt env r t r1 := tokGet_at he hs ((tokGet_iff he hs _ _).2 h)
theorem Spec.Lex.suf (he : EnvOK env) (hs : Suf env r) {t : Token} {r1 : List Cell} (h : Lex env r t r1) :
    Suf env r1 := (h.at he hs).suf hs
theorem Spec.Lex.le (he : EnvOK env) (hs : Suf env r) {t : Token} {r1 : List Cell} (h : Lex env r t r1) :
    r1.length ≤ r.length := (h.at he hs).suffix.length_le
theorem Spec.Lex.lt (he : EnvOK env) (hs : Suf env r) {t : Token} {r1 : List Cell} (h : Lex env r t r1) {ty : TT}
    (e : t.ty = ty) (h1 : ty ≠ .eof := by decide) (h2 : ty ≠ .eol := by decide) : r1.length < r.length :=
  ((h.at he hs).sadv' e h1 h2).lt

theorem want_iff {p : TT → Prop} : Want env r p msg q ↔ LexErr env r msg q ∨
    ∃ t r', Lex env r t r' ∧ ¬ p t.ty ∧ msg = cs!"unexpected token: " ++ t.value ∧ q = t.pos := by
  constructor
  · rintro (h | ⟨h1, h2⟩)
    · exact .inl h
    · exact .inr ⟨_, _, h1, h2, rfl, rfl⟩
  · rintro (h | ⟨t, r', h1, h2, rfl, rfl⟩)
    · exact .lex h
    · exact .token h1 h2

theorem Spec.Lex.det {t t' : Token} {r1 r1' : List Cell} (he : EnvOK env) (hs : Suf env r) (h : Lex env r t r1)
    (h' : Lex env r t' r1') : t = t' ∧ r1 = r1' := by
  have h := (tokGet_iff he hs _ _).2 h
  rw [(tokGet_iff he hs _ _).2 h'] at h
  cases h
  exact ⟨rfl, rfl⟩

theorem Spec.LexErr.no {t : Token} {r1 : List Cell} (he : EnvOK env) (hs : Suf env r) (h : LexErr env r msg q)
    (h' : Lex env r t r1) : False := by
  have h := lexErr_run he hs h
  rw [(tokGet_iff he hs _ _).2 h'] at h
  cases h

/-! ### Loops -/

theorem bad_loop {body : σ → Prog (σ ⊕ β)} {s : σ} :
    Bad env (loop body s) r msg q ↔ Bad env (loopN body (r.length + 1) s) r msg q := Iff.rfl

/-- A loop each round of which consumes input fails where a relation says that satisfies the equation of the loop. -/
theorem bad_loopN_iff {body : σ → Prog (σ ⊕ β)} {D B : σ → List Cell → Prop}
    (hdec : ∀ s r s1 r1, D s r → Ok env (body s) r (.inl s1) r1 → r1.length < r.length ∧ D s1 r1)
    (hstep : ∀ s r, D s r → (B s r ↔ Bad env (body s) r msg q ∨
      ∃ s1 r1, Ok env (body s) r (.inl s1) r1 ∧ B s1 r1)) :
    ∀ (n : Nat) (s : σ) (r : List Cell), r.length < n → D s r → (Bad env (loopN body n s) r msg q ↔ B s r) := by
  intro n
  induction n with
  | zero => intro s r h; omega
  | succ n ih =>
    intro s r hn hd
    rw [loopN, bad_bind, hstep s r hd]
    refine or_congr Iff.rfl ?_
    constructor
    · rintro ⟨x, r1, h1, h2⟩
      cases x with
      | inl s1 =>
        obtain ⟨hl, hd1⟩ := hdec _ _ _ _ hd h1
        exact ⟨s1, r1, h1, (ih s1 r1 (by omega) hd1).1 h2⟩
      | inr b => exact absurd h2 (by intro h; cases h)
    · rintro ⟨s1, r1, h1, h2⟩
      obtain ⟨hl, hd1⟩ := hdec _ _ _ _ hd h1
      exact ⟨.inl s1, r1, h1, (ih s1 r1 (by omega) hd1).2 h2⟩

theorem bad_loop_iff {body : σ → Prog (σ ⊕ β)} {D B : σ → List Cell → Prop}
    (hdec : ∀ s r s1 r1, D s r → Ok env (body s) r (.inl s1) r1 → r1.length < r.length ∧ D s1 r1)
    (hstep : ∀ s r, D s r → (B s r ↔ Bad env (body s) r msg q ∨
      ∃ s1 r1, Ok env (body s) r (.inl s1) r1 ∧ B s1 r1)) {s : σ} (hd : D s r) :
    Bad env (loop body s) r msg q ↔ B s r :=
  bad_loopN_iff hdec hstep _ s r (Nat.lt_succ_self _) hd

/-- A loop that fails does so in a state that it reaches. -/
theorem bad_loop_reach {body : σ → Prog (σ ⊕ β)} {P : σ → List Cell → Prop}
    (hP : ∀ s r s1 r1, P s r → Ok env (body s) r (.inl s1) r1 → P s1 r1) {s : σ} (h0 : P s r)
    (h : Bad env (loop body s) r msg q) : ∃ s1 r1, P s1 r1 ∧ Bad env (body s1) r1 msg q := by
  rw [bad_loop] at h
  generalize r.length + 1 = n at h
  induction n generalizing s r with
  | zero => cases h
  | succ n ih =>
    rw [loopN, bad_bind] at h
    rcases h with h | ⟨x, r1, h1, h2⟩
    · exact ⟨s, r, h0, h⟩
    · cases x with
      | inl s1 => exact ih (hP _ _ _ _ h0 h1) h2
      | inr b => cases h2

end
end Viml
