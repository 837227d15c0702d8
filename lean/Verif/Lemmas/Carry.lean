/-
Carrying the text of a file over to another place.

A part of a buffer that ends with a whole line is followed by other text, and its positions are
changed.  What the grammar says about the part does not depend on what follows it, so it stays true,
with the positions changed (`Carry.reads` and so on; `CarryExpr.lean`, `CarryFile.lean`).
-/
import Verif.Spec.File
import Verif.Spec.Relabel
import Verif.Lemmas.Lex

namespace Viml
open Spec

/-- The cells before the rest `q0` are followed by `q` instead, and `f` changes the cells.  `bd` if the rest is empty; it
is followed by nothing then. -/
structure Carry (env env' : Env) (fn : Str) where
  q0 : List Cell
  q : List Cell
  f : Cell → Cell
  m : Ast.Pos → Ast.Pos
  bd : Prop
  char : ∀ c, (f c).c = c.c
  pos : ∀ c, pubPos fn (f c).pos = m (pubPos fn c.pos)
  eof : bd → q0 = [] ∧ q = [] ∧ pubPos fn env'.eof = m (pubPos fn env.eof)

namespace Carry
variable {env env' : Env} {fn : Str} (κ : Carry env env' fn)

/-- `r` is before the rest, and the line before the rest is complete. -/
inductive In : List Cell → Prop
  | eof : κ.bd → In []
  | eol {c : Cell} : c.c = none → In (c :: κ.q0)
  | cons {c : Cell} {r : List Cell} : In r → In (c :: r)

/-- `r` is before the rest or at its start. -/
def To (r : List Cell) : Prop := κ.In r ∨ r = κ.q0

/-- `r` is before the rest or at its start, and the latter is not the end of the file. -/
def Up (r : List Cell) : Prop := κ.In r ∨ r = κ.q0 ∧ r ≠ []

/-- The place `r` is carried to. -/
def tr (r : List Cell) : List Cell := (r.take (r.length - κ.q0.length)).map κ.f ++ κ.q

variable {κ} {r r' : List Cell} {c : Cell}

theorem In.some (h : κ.In (c :: r)) (hc : c.c ≠ none) : κ.In r := by
  cases h with
  | eol h => exact absurd h hc
  | cons h => exact h

theorem In.to (h : κ.In r) : κ.To r := .inl h

theorem In.up (h : κ.In r) : κ.Up r := .inl h

theorem Up.to (h : κ.Up r) : κ.To r := h.imp id (·.1)

theorem In.tail (h : κ.In (c :: r)) : κ.To r := by
  cases h with
  | eol h => exact .inr rfl
  | cons h => exact .inl h

theorem In.length (h : κ.In r) : κ.q0.length ≤ r.length := by
  induction h with
  | eof h => rw [(κ.eof h).1]; exact Nat.le_refl _
  | eol => simp
  | cons _ ih => simp only [List.length_cons]; omega

theorem To.length (h : κ.To r) : κ.q0.length ≤ r.length := by
  rcases h with h | rfl
  · exact h.length
  · exact Nat.le_refl _

theorem In.lt (h : κ.In r) : κ.q0.length < r.length ∨ κ.bd := by
  induction h with
  | eof h => exact .inr h
  | eol => simp
  | cons h ih => left; have := h.length; simp only [List.length_cons]; omega

theorem tr_cons (h : κ.To r) : κ.tr (c :: r) = κ.f c :: κ.tr r := by
  unfold tr
  have := h.length
  rw [List.length_cons, show r.length + 1 - κ.q0.length = (r.length - κ.q0.length) + 1 by omega]
  rfl

theorem tr_end : κ.tr κ.q0 = κ.q := by simp [tr]

theorem tr_nil (h : κ.bd) : κ.tr [] = [] := by
  obtain ⟨h1, h2, _⟩ := κ.eof h
  simp [tr, h1, h2]

theorem tr_length (h : κ.To r) : (κ.tr r).length + κ.q0.length = r.length + κ.q.length := by
  have := h.length
  simp only [tr, List.length_append, List.length_map, List.length_take]
  omega

theorem head (h : κ.In r) : headSym (κ.tr r) = headSym r := by
  cases r with
  | nil => cases h with | eof h => rw [tr_nil h]
  | cons c r =>
    rw [tr_cons h.tail]
    simp [headSym, Cell.sym, κ.char]

theorem here (h : κ.In r) : Spec.here env' fn (κ.tr r) = κ.m (Spec.here env fn r) := by
  cases r with
  | nil => cases h with | eof h => rw [tr_nil h]; exact (κ.eof h).2.2
  | cons c r =>
    rw [tr_cons h.tail]
    exact κ.pos c

theorem pub (h : κ.In r) : pubPos fn (posOf env' (κ.tr r)) = κ.m (pubPos fn (posOf env r)) := here h

theorem end_ {e : Cell} (h : κ.In (e :: r)) (he : e.c = none) :
    κ.To r ∧ κ.tr (e :: r) = κ.f e :: κ.tr r ∧ (κ.f e).c = none :=
  ⟨h.tail, tr_cons h.tail, by rw [κ.char, he]⟩

/-! ### Text -/

theorem reads {v : Str} (h : κ.In r) (hr : Reads r v r') : κ.In r' ∧ Reads (κ.tr r) v (κ.tr r') := by
  induction v generalizing r with
  | nil => cases hr.nil_inv; exact ⟨h, ⟨[], rfl, rfl⟩⟩
  | cons x v ih =>
    obtain ⟨q, r1, rfl, h1⟩ := hr.cons_inv
    obtain ⟨i, p, e1, e2⟩ := ih (h.some (by simp)) h1
    refine ⟨i, κ.f ⟨Option.some x, q⟩ :: p, ?_, ?_⟩
    · rw [tr_cons h.tail, e1]; rfl
    · simp [κ.char, e2]

theorem reads_back {v : Str} {t : List Cell} (h : κ.In r) (hr : Reads (κ.tr r) v t) :
    ∃ r', Reads r v r' ∧ κ.In r' ∧ t = κ.tr r' := by
  induction v generalizing r with
  | nil => cases hr.nil_inv; exact ⟨r, ⟨[], rfl, rfl⟩, h, rfl⟩
  | cons x v ih =>
    obtain ⟨q, r1, e, h1⟩ := hr.cons_inv
    cases r with
    | nil => cases h with | eof h => rw [tr_nil h] at e; cases e
    | cons c r =>
      rw [tr_cons h.tail] at e
      injection e with e1 e2
      have hc : c.c = Option.some x := by rw [← κ.char c, e1]
      obtain ⟨r', a1, a2, a3⟩ := ih (h.some (by simp [hc])) (e2 ▸ h1)
      obtain ⟨p, a4, a5⟩ := a1
      exact ⟨r', ⟨c :: p, by rw [a4]; rfl, by simp [hc, a5]⟩, a2, a3⟩

theorem is (h : κ.In r) (g : Char → Bool) : (headSym (κ.tr r)).is g = (headSym r).is g := by rw [head h]
theorem atEnd (h : κ.In r) : AtEnd (κ.tr r) ↔ AtEnd r := by unfold AtEnd; rw [head h]
theorem atStop (h : κ.In r) : AtStop (κ.tr r) ↔ AtStop r := by unfold AtStop; rw [atEnd h, head h]

theorem starts (h : κ.In r) (v : Str) : StartsWith (κ.tr r) v ↔ StartsWith r v := by
  constructor
  · rintro ⟨t, ht⟩
    obtain ⟨r', h1, _⟩ := reads_back h ht
    exact ⟨r', h1⟩
  · rintro ⟨t, ht⟩
    exact ⟨_, (reads h ht).2⟩

theorem span {g : Char → Bool} {v : Str} (h : κ.In r) (hs : Span g r v r') : κ.In r' ∧ Span g (κ.tr r) v (κ.tr r') := by
  obtain ⟨h1, h2, h3⟩ := hs
  obtain ⟨i, h4⟩ := reads h h1
  exact ⟨i, h4, h2, by rw [head i]; exact h3⟩

theorem skip (h : κ.In r) (hs : Skip r r') : κ.In r' ∧ Skip (κ.tr r) (κ.tr r') := by
  obtain ⟨w, hs⟩ := hs
  obtain ⟨i, h1⟩ := span h hs
  exact ⟨i, w, h1⟩

theorem skipC (h : κ.In r) (hs : SkipC r r') : κ.In r' ∧ SkipC (κ.tr r) (κ.tr r') := by
  obtain ⟨w, hs⟩ := hs
  obtain ⟨i, h1⟩ := span h hs
  exact ⟨i, w, h1⟩

theorem rest {l : Str} (h : κ.In r) (hs : RestOf r l r') : κ.In r' ∧ RestOf (κ.tr r) l (κ.tr r') := by
  obtain ⟨i, h1⟩ := reads h hs.1
  exact ⟨i, h1, (atEnd i).2 hs.2⟩

theorem blanks (h : κ.In r) (hs : Blanks r r') : κ.In r' ∧ Blanks (κ.tr r) (κ.tr r') := by
  obtain ⟨w, h1, h2⟩ := hs
  obtain ⟨i, h3⟩ := reads h h1
  exact ⟨i, w, h3, h2⟩

theorem lineIs {l : Str} (h : κ.In r) (hs : LineIs r l) : LineIs (κ.tr r) l := by
  obtain ⟨e, h1, h2⟩ := hs
  obtain ⟨i, h3⟩ := reads h h1
  exact ⟨_, h3, (atEnd i).2 h2⟩

/-- The place after a character. -/
theorem next {x : Char} (h : κ.In r) (hx : headSym r = .ch x) : κ.In r.tail ∧ κ.tr r.tail = (κ.tr r).tail := by
  cases r with
  | nil => cases hx
  | cons c r =>
    have hc : c.c ≠ none := by
      intro e
      simp [headSym, Cell.sym, e] at hx
    exact ⟨h.some hc, by rw [tr_cons h.tail]; rfl⟩

theorem getn (n : Nat) (h : κ.In r) : (getnS n (κ.tr r)).1 = (getnS n r).1 := by
  induction n generalizing r with
  | zero => rfl
  | succ n ih =>
    cases r with
    | nil => cases h with | eof h => rw [tr_nil h]
    | cons c r =>
      rw [tr_cons h.tail]
      simp only [getnS, κ.char]
      cases hc : c.c with
      | none => rfl
      | some x => simp only [ih (h.some (by simp [hc]))]

/-! ### Tokens -/

theorem nextSym (h : κ.In r) (s : Str) : Spec.nextSym s (κ.tr r) = Spec.nextSym s r := by
  cases s with
  | nil => exact head h
  | cons => rfl

theorem blobRun {s : Str} (h : κ.In r) (hs : BlobRun s r) : BlobRun s (κ.tr r) := by
  induction hs with
  | stop r h1 h2 h3 => exact .stop _ (by rw [getn 2 h]; exact h1) (by rw [getn 2 h]; exact h2) (by rw [getn 2 h]; exact h3)
  | pair a b s r h1 h2 _ ih => exact .pair a b s _ h1 h2 (ih h)
  | dot s r h1 _ ih => exact .dot s _ (by rw [nextSym h]; exact h1) (ih h)

theorem after {x : Char} (h : κ.In r) (hx : headSym r = .ch x) : headSym (κ.tr r).tail = headSym r.tail := by
  obtain ⟨i, e⟩ := next h hx
  rw [← e, head i]

theorem expStart (h : κ.In r) : ExpStart (κ.tr r) ↔ ExpStart r := by
  unfold ExpStart
  rw [head h]
  refine and_congr_right fun h1 => ?_
  have h2 : ∃ x, headSym r = .ch x := h1.elim (fun h => ⟨_, h⟩) (fun h => ⟨_, h⟩)
  obtain ⟨x, hx⟩ := h2
  obtain ⟨i, e⟩ := next h hx
  rw [← e, head i]
  refine or_congr Iff.rfl (and_congr_right fun h3 => ?_)
  have h4 : ∃ x, headSym r.tail = .ch x := h3.elim (fun h => ⟨_, h⟩) (fun h => ⟨_, h⟩)
  obtain ⟨y, hy⟩ := h4
  rw [after i hy]

theorem zeroPrefix (h : κ.In r) : ZeroPrefix (κ.tr r) ↔ ZeroPrefix r := by
  unfold ZeroPrefix
  rw [head h]
  have key : ∀ {P : Sym → Prop} {x y : Char}, (headSym r = .ch x ∨ headSym r = .ch y) ∧ P (headSym (κ.tr r).tail) ↔
      (headSym r = .ch x ∨ headSym r = .ch y) ∧ P (headSym r.tail) := by
    intro P x y
    refine and_congr_right fun h1 => ?_
    rcases h1 with h1 | h1 <;> rw [after h h1]
  exact or_congr (key (P := fun s => s.is isxdigit = true))
    (or_congr (key (P := fun s => s = .ch '0' ∨ s = .ch '1')) (key (P := fun s => s ≠ .ch '.')))

theorem lexeme {ty : TT} {v : Str} (h : κ.In r) (hl : Lexeme ty v r) : Lexeme ty v (κ.tr r) := by
  cases hl
  case dec h1 h2 h3 h4 =>
    refine .dec _ _ h1 (by rw [head h]; exact h2) ?_ (fun e => by rw [zeroPrefix h]; exact h4 e)
    rintro ⟨e1, e2⟩
    rw [head h] at e1
    rw [after h e1] at e2
    exact h3 ⟨e1, e2⟩
  case float h1 h2 h3 h4 => exact .float _ _ _ h1 h2 (by rw [head h]; exact h3) (by rw [expStart h]; exact h4)
  case blob h1 h2 h3 => exact .blob _ _ _ h1 (by rw [nextSym h]; exact h2) (blobRun h h3)
  case bin h1 h2 h3 => exact .bin _ _ _ h1 h2 (by rw [head h]; exact h3)
  case exp h1 h2 h3 h4 => exact .exp _ _ _ _ h1 h2 h3 (by rw [head h]; exact h4)
  case option h1 h2 h3 h4 =>
    exact .option _ _ h1 (by rw [head h]; exact h2) (by rw [head h]; exact h3) (by rw [head h]; exact h4)
  case optScope h1 h2 h3 => exact .optScope _ _ _ h1 h2 (by rw [head h]; exact h3)
  case reg => exact .reg _ _
  case regEnd h1 => exact .regEnd _ (by rw [head h]; exact h1)
  all_goals constructor <;> first | assumption | (rw [head h]; assumption)

theorem lex {t : Token} (h : κ.In r) (hl : Lex env r t r') :
    ∃ t', Lex env' (κ.tr r) t' (κ.tr r') ∧ t'.ty = t.ty ∧ t'.value = t.value ∧ pubPos fn t'.pos = κ.m (pubPos fn t.pos) ∧
      κ.To r' ∧ (t.ty ≠ .eol → κ.In r') := by
  cases hl with
  | eof w r h1 h2 =>
    obtain ⟨i, h3⟩ := reads h h1
    have hb : κ.bd := by cases i with | eof h => exact h
    rw [tr_nil hb] at h3 ⊢
    exact ⟨_, .eof w _ h3 h2, rfl, rfl, (κ.eof hb).2.2, .inl i, fun _ => i⟩
  | eol w r c r' h1 h2 h3 =>
    obtain ⟨i, h4⟩ := reads h h1
    obtain ⟨i1, e1, e2⟩ := end_ i h3
    rw [e1] at h4
    exact ⟨_, .eol w _ _ _ h4 h2 e2, rfl, rfl, κ.pos c, i1, fun h => absurd rfl h⟩
  | text w r r1 ty v r' h1 h2 h3 h4 =>
    obtain ⟨i, h5⟩ := reads h h1
    obtain ⟨i1, h6⟩ := reads i h3
    exact ⟨_, .text w _ _ ty v _ h5 h2 h6 (lexeme i1 h4), rfl, rfl, pub i, .inl i1, fun _ => i1⟩

end Carry

end Viml
