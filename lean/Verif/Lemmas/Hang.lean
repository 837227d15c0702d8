/-
An expression is followed by a closing bracket or comma instead of the end of its line.

`Carry` (Carry.lean) moves whole lines.  Here the end of the line can go away, too: the text of one line is followed by
an end of line, or by text that starts with a character of `stoppers`.  No token and no phrase is continued by these,
except `@` (a register is named by any character behind it) and a digit behind the last pair of digits of a blob (it is an
error unless it is the last character of the line).
-/
import Verif.Spec.Phrase
import Verif.Lemmas.CarryExpr
import Verif.Lemmas.Suffix
import Verif.Lemmas.Mods

namespace Viml
open Spec

/-- Characters that continue nothing. -/
def closers : List Char := [' ', ')', ']', '}', ',']

/-- The same with the bar, which continues a bar only, and with the start of a comment. -/
def stoppers : List Char := '|' :: '"' :: closers

/-- The tokens that may follow. -/
def Closing (ty : TT) : Prop :=
  ty = .pclose ∨ ty = .sqclose ∨ ty = .cclose ∨ ty = .comma ∨ ty = .colon ∨ ty = .or_ ∨ ty = .dquote ∨ ty = .eol

/-- The end of line `e0` and what follows it, `q0`, is replaced by `q`. -/
structure Hang (env env' : Env) (fn fn' : Str) where
  e0 : Cell
  q0 : List Cell
  q : List Cell
  f : Cell → Cell
  m : Ast.Pos → Ast.Pos
  t : Token
  t' : List Cell
  nl : e0.c = none
  char : ∀ c, (f c).c = c.c
  pos : ∀ c, pubPos fn' (f c).pos = m (pubPos fn c.pos)
  pend : pubPos fn' (posOf env' q) = m (pubPos fn e0.pos)
  head_q : headSym q = .eol ∨ ∃ c ∈ stoppers, headSym q = .ch c
  tok : Lex env' q t t'
  closing : Closing t.ty

namespace Hang
variable {env env' : Env} {fn fn' : Str} (κ : Hang env env' fn fn')

/-- `r` is on the line; if the end of the line goes away, the line does not end with `@` or `0z` and an odd number of
digits, nor with a bar if a bar follows. -/
inductive In : List Cell → Prop
  | stop : In (κ.e0 :: κ.q0)
  | cons {c : Cell} {r : List Cell} {x : Char} : c.c = some x →
      (headSym κ.q = .eol ∨ (r = κ.e0 :: κ.q0 → x ≠ '@' ∧ (headSym κ.q = .ch '|' → x ≠ '|')) ∧ (x = '0' → ∀ t, Reads r t (κ.e0 :: κ.q0) → ¬ OddBlob t)) →
      In r → In (c :: r)

/-- The place `r` is carried to. -/
def tr (r : List Cell) : List Cell := (r.take (r.length - (κ.q0.length + 1))).map κ.f ++ κ.q

variable {κ} {r r' : List Cell} {c : Cell}

theorem In.some {x : Char} (h : κ.In (c :: r)) (hc : c.c = Option.some x) : κ.In r := by
  cases h with
  | stop => rw [κ.nl] at hc; cases hc
  | cons _ _ h => exact h

theorem In.inv {x : Char} {q : Pos} (h : κ.In (⟨Option.some x, q⟩ :: r)) :
    headSym κ.q = .eol ∨
      (r = κ.e0 :: κ.q0 → x ≠ '@' ∧ (headSym κ.q = .ch '|' → x ≠ '|')) ∧ (x = '0' → ∀ t, Reads r t (κ.e0 :: κ.q0) → ¬ OddBlob t) := by
  generalize hc : (⟨Option.some x, q⟩ : Cell) :: r = y at h
  cases h with
  | stop =>
    injection hc with h1 h2
    have := κ.nl
    rw [← h1] at this
    cases this
  | cons h1 h2 h3 =>
    injection hc with e1 e2
    subst e1 e2
    cases h1
    exact h2

theorem In.length (h : κ.In r) : κ.q0.length + 1 ≤ r.length := by
  induction h with
  | stop => simp
  | cons _ _ _ ih => simp only [List.length_cons]; omega

theorem In.eol (h : κ.In r) (hn : ∀ x, headSym r ≠ .ch x) : r = κ.e0 :: κ.q0 := by
  cases h with
  | stop => rfl
  | @cons c r x h1 =>
    refine absurd ?_ (hn x)
    simp [headSym, Cell.sym, h1]

theorem tr_cons (h : κ.In r) : κ.tr (c :: r) = κ.f c :: κ.tr r := by
  unfold tr
  have := h.length
  rw [List.length_cons, show r.length + 1 - (κ.q0.length + 1) = (r.length - (κ.q0.length + 1)) + 1 by omega]
  rfl

theorem tr_end : κ.tr (κ.e0 :: κ.q0) = κ.q := by simp [tr]

theorem head (h : κ.In r) : headSym (κ.tr r) = headSym r ∨ r = κ.e0 :: κ.q0 := by
  cases h with
  | stop => exact .inr rfl
  | cons h1 _ h =>
    rw [tr_cons h]
    simp [headSym, Cell.sym, κ.char]

theorem head_end : headSym (κ.e0 :: κ.q0) = .eol := by simp [headSym, Cell.sym, κ.nl]

/-- A character that continues something is there only if it was there before. -/
theorem head_back {x : Char} (h : κ.In r) (hx : headSym (κ.tr r) = .ch x) (hc : x ∉ stoppers := by decide) :
    headSym r = .ch x := by
  rcases head h with h1 | rfl
  · rw [← h1]; exact hx
  · rw [tr_end] at hx
    rcases κ.head_q with e | ⟨c, h1, e⟩
    · rw [e] at hx; cases hx
    · rw [e] at hx
      cases hx
      exact absurd h1 hc

theorem ne_ch {x : Char} (h : κ.In r) (hx : headSym r ≠ .ch x) (hc : x ∉ stoppers := by decide) :
    headSym (κ.tr r) ≠ .ch x := fun e => hx (head_back h e hc)

theorem is_false {g : Char → Bool} (h : κ.In r) (hs : (headSym r).is g = false)
    (hg : ∀ c ∈ stoppers, g c = false := by decide) : (headSym (κ.tr r)).is g = false := by
  rcases head h with h1 | rfl
  · rw [h1]; exact hs
  · rw [tr_end]
    rcases κ.head_q with e | ⟨c, h1, e⟩
    · rw [e]; rfl
    · rw [e]; exact hg _ h1

theorem is_back {g : Char → Bool} (h : κ.In r) (hs : (headSym (κ.tr r)).is g = true)
    (hg : ∀ c ∈ stoppers, g c = false := by decide) : (headSym r).is g = true := by
  cases hb : (headSym r).is g with
  | true => rfl
  | false => rw [is_false h hb hg] at hs; cases hs

theorem here (h : κ.In r) : Spec.here env' fn' (κ.tr r) = κ.m (Spec.here env fn r) := by
  cases h with
  | stop => rw [tr_end]; exact κ.pend
  | cons h1 _ h =>
    rw [tr_cons h]
    exact κ.pos _

theorem pub (h : κ.In r) : pubPos fn' (posOf env' (κ.tr r)) = κ.m (pubPos fn (posOf env r)) := here h

/-! ### Text -/

theorem reads {v : Str} (h : κ.In r) (hr : Reads r v r') : κ.In r' ∧ Reads (κ.tr r) v (κ.tr r') := by
  induction v generalizing r with
  | nil => cases hr.nil_inv; exact ⟨h, ⟨[], rfl, rfl⟩⟩
  | cons x v ih =>
    obtain ⟨q, r1, rfl, h1⟩ := hr.cons_inv
    have h0 := h.some rfl
    obtain ⟨i, p, e1, e2⟩ := ih h0 h1
    refine ⟨i, κ.f ⟨Option.some x, q⟩ :: p, ?_, ?_⟩
    · rw [tr_cons h0, e1]; rfl
    · simp [κ.char, e2]

theorem reads_back {v : Str} {t : List Cell} (h : κ.In r) (hr : Reads (κ.tr r) v t) (hv : ∀ c ∈ v, c ∉ stoppers) :
    ∃ r', Reads r v r' ∧ κ.In r' ∧ t = κ.tr r' := by
  induction v generalizing r with
  | nil => cases hr.nil_inv; exact ⟨r, ⟨[], rfl, rfl⟩, h, rfl⟩
  | cons x v ih =>
    obtain ⟨q, r1, e, h1⟩ := hr.cons_inv
    have hx : headSym r = .ch x := head_back h (by rw [e]; rfl) (hv x (by simp))
    cases h with
    | stop => rw [head_end] at hx; cases hx
    | @cons c r y hc _ h =>
      rw [tr_cons h] at e
      injection e with e1 e2
      have hc : c.c = Option.some x := by rw [← κ.char c, e1]
      obtain ⟨r', a1, a2, a3⟩ := ih h (e2 ▸ h1) (fun c hc => hv c (by simp [hc]))
      obtain ⟨p, a4, a5⟩ := a1
      exact ⟨r', ⟨c :: p, by rw [a4]; rfl, by simp [hc, a5]⟩, a2, a3⟩

theorem blanks (h : κ.In r) (hs : Blanks r r') : κ.In r' ∧ Blanks (κ.tr r) (κ.tr r') := by
  obtain ⟨w, h1, h2⟩ := hs
  obtain ⟨i, h3⟩ := reads h h1
  exact ⟨i, w, h3, h2⟩

/-- The place after a character. -/
theorem next {x : Char} (h : κ.In r) (hx : headSym r = .ch x) : κ.In r.tail ∧ κ.tr r.tail = (κ.tr r).tail := by
  cases h with
  | stop => rw [head_end] at hx; cases hx
  | cons h1 _ h => exact ⟨h, by rw [tr_cons h]; rfl⟩

/-! ### Tokens -/

theorem expStart (h : κ.In r) (he : ExpStart (κ.tr r)) : ExpStart r := by
  obtain ⟨h1, h2⟩ := he
  have h1 : headSym r = .ch 'e' ∨ headSym r = .ch 'E' := h1.imp (fun e => head_back h e) (fun e => head_back h e)
  have hx : ∃ x, headSym r = .ch x := h1.elim (fun h => ⟨_, h⟩) (fun h => ⟨_, h⟩)
  obtain ⟨x, hx⟩ := hx
  obtain ⟨i, e⟩ := next h hx
  rw [← e] at h2
  refine ⟨h1, h2.imp (fun h => is_back i h) fun ⟨h3, h4⟩ => ?_⟩
  have h3 : headSym r.tail = .ch '+' ∨ headSym r.tail = .ch '-' := h3.imp (fun e => head_back i e) (fun e => head_back i e)
  have hy : ∃ x, headSym r.tail = .ch x := h3.elim (fun h => ⟨_, h⟩) (fun h => ⟨_, h⟩)
  obtain ⟨y, hy⟩ := hy
  obtain ⟨i2, e2⟩ := next i hy
  rw [← e2] at h4
  exact ⟨h3, is_back i2 h4⟩

theorem zeroPrefix (h : κ.In r) (hz : ZeroPrefix (κ.tr r)) : ZeroPrefix r := by
  have key : ∀ {x : Char}, headSym (κ.tr r) = .ch x → x ∉ stoppers →
      headSym r = .ch x ∧ κ.In r.tail ∧ κ.tr r.tail = (κ.tr r).tail := fun e hc => by
    have := head_back h e hc
    exact ⟨this, next h this⟩
  rcases hz with ⟨h1, h2⟩ | ⟨h1, h2⟩ | ⟨h1, h2⟩
  · left
    rcases h1 with h1 | h1
    · obtain ⟨a, i, e⟩ := key h1 (by decide)
      exact ⟨.inl a, is_back i (by rw [e]; exact h2)⟩
    · obtain ⟨a, i, e⟩ := key h1 (by decide)
      exact ⟨.inr a, is_back i (by rw [e]; exact h2)⟩
  · right; left
    rcases h1 with h1 | h1
    · obtain ⟨a, i, e⟩ := key h1 (by decide)
      rw [← e] at h2
      exact ⟨.inl a, h2.imp (fun h => head_back i h) (fun h => head_back i h)⟩
    · obtain ⟨a, i, e⟩ := key h1 (by decide)
      rw [← e] at h2
      exact ⟨.inr a, h2.imp (fun h => head_back i h) (fun h => head_back i h)⟩
  · right; right
    have aux : κ.In r.tail → κ.tr r.tail = (κ.tr r).tail → headSym r.tail ≠ .ch '.' := by
      intro i e e2
      refine h2 ?_
      rw [← e]
      rcases head i with h3 | h3
      · rw [h3]; exact e2
      · rw [h3, head_end] at e2; cases e2
    rcases h1 with h1 | h1
    · obtain ⟨a, i, e⟩ := key h1 (by decide)
      exact ⟨.inl a, aux i e⟩
    · obtain ⟨a, i, e⟩ := key h1 (by decide)
      exact ⟨.inr a, aux i e⟩

/-! If an end of line follows, too, nothing changes. -/

theorem head_eol (he : headSym κ.q = .eol) (h : κ.In r) : headSym (κ.tr r) = headSym r := by
  rcases head h with h | rfl
  · exact h
  · rw [tr_end, he, head_end]

theorem getn (he : headSym κ.q = .eol) (n : Nat) (h : κ.In r) : (getnS n (κ.tr r)).1 = (getnS n r).1 := by
  induction n generalizing r with
  | zero => rfl
  | succ n ih =>
    cases h with
    | stop =>
      rw [tr_end]
      cases hq : κ.q with
      | nil => rw [hq] at he; cases he
      | cons c q =>
        have : c.c = none := by
          cases hc : c.c with
          | none => rfl
          | some x => rw [hq] at he; simp [headSym, Cell.sym, hc] at he
        simp only [getnS, this, κ.nl]
    | cons hc _ h => rw [tr_cons h]; simp only [getnS, κ.char, hc, ih h]

theorem nextSym (he : headSym κ.q = .eol) (h : κ.In r) (s : Str) : Spec.nextSym s (κ.tr r) = Spec.nextSym s r := by
  cases s with
  | nil => exact head_eol he h
  | cons => rfl

theorem blobRun (he : headSym κ.q = .eol) {s : Str} (h : κ.In r) (hs : BlobRun s r) : BlobRun s (κ.tr r) := by
  induction hs with
  | stop r h1 h2 h3 =>
    exact .stop _ (by rw [getn he 2 h]; exact h1) (by rw [getn he 2 h]; exact h2) (by rw [getn he 2 h]; exact h3)
  | pair a b s r h1 h2 _ ih => exact .pair a b s _ h1 h2 (ih h)
  | dot s r h1 _ ih => exact .dot s _ (by rw [nextSym he h]; exact h1) (ih h)

/-! The digits of a blob. -/

theorem next_dot {s : Str} (h : κ.In r) (hs : Spec.nextSym s r ≠ .ch '.') : Spec.nextSym s (κ.tr r) ≠ .ch '.' := by
  cases s with
  | nil => exact ne_ch h hs
  | cons => exact hs

theorem blobRun_text {s : Str} (h : BlobRun s r) :
    (∀ c ∈ s, isxdigit c = true ∨ c = '.') ∧ s.countP isxdigit % 2 = 0 := by
  induction h with
  | stop => simp
  | pair a b s r h1 h2 _ ih =>
    refine ⟨?_, ?_⟩
    · intro c hc
      simp only [List.mem_cons] at hc
      rcases hc with rfl | rfl | hc
      · exact .inl h1
      · exact .inl h2
      · exact ih.1 c hc
    · simp only [List.countP_cons, h1, h2, if_true]
      have := ih.2
      omega
  | dot s r _ _ ih =>
    refine ⟨?_, ?_⟩
    · intro c hc
      simp only [List.mem_cons] at hc
      rcases hc with rfl | hc
      · exact .inr rfl
      · exact ih.1 c hc
    · have hdot : isxdigit '.' = false := by decide
      simp only [List.countP_cons, hdot]
      simpa using ih.2

theorem not_pair {a : Char} {s : Str} (ha : isxdigit a = false) (hd : a = '.' → ∀ b, s = [b] → isxdigit b = false) :
    isHexPair (a :: s) = false ∧ isDotHex (a :: s) = false ∧ isHexNonHex (a :: s) = false := by
  match s with
  | [] => exact ⟨rfl, rfl, rfl⟩
  | [b] =>
    refine ⟨by simp [isHexPair, ha], ?_, by simp [isHexNonHex, ha]⟩
    simp only [isDotHex]
    by_cases h : a = '.'
    · rw [hd h b rfl]; simp
    · simp [h]
  | _ :: _ :: _ => exact ⟨rfl, rfl, rfl⟩

theorem getn_q (κ : Hang env env' fn fn') (n : Nat) : (getnS n κ.q).1 = [] ∨ ∃ c ∈ stoppers, ∃ s, (getnS n κ.q).1 = c :: s := by
  cases n with
  | zero => exact .inl rfl
  | succ n =>
    cases hq : κ.q with
    | nil => exact .inl rfl
    | cons d q =>
      cases hd : d.c with
      | none => left; simp [getnS, hd]
      | some x =>
        right
        have hx : headSym κ.q = .ch x := by rw [hq]; simp [headSym, Cell.sym, hd]
        rcases κ.head_q with e | ⟨c, hc, e⟩
        · rw [e] at hx; cases hx
        · rw [e] at hx
          cases hx
          exact ⟨x, hc, _, by simp only [getnS, hd]; rfl⟩

theorem blobRun' {s : Str} (h : κ.In r) (hx : ∀ x q, r = ⟨some x, q⟩ :: κ.e0 :: κ.q0 → isxdigit x = false) (hs : BlobRun s r) :
    BlobRun s (κ.tr r) := by
  have hcl : ∀ c ∈ stoppers, isxdigit c = false := by decide
  have hcd : ∀ c ∈ stoppers, c ≠ '.' := by decide
  induction hs with
  | stop r h1 h2 h3 =>
    have key : isHexPair (getnS 2 (κ.tr r)).1 = false ∧ isDotHex (getnS 2 (κ.tr r)).1 = false ∧
        isHexNonHex (getnS 2 (κ.tr r)).1 = false := by
      cases h with
      | stop =>
        rw [tr_end]
        rcases getn_q κ 2 with e | ⟨c, hc, s, e⟩
        · rw [e]; exact ⟨rfl, rfl, rfl⟩
        · rw [e]; exact not_pair (hcl c hc) (fun e => absurd e (hcd c hc))
      | @cons d r1 x hd _ i =>
        rw [tr_cons i]
        simp only [getnS, κ.char, hd] at h1 h2 h3 ⊢
        cases i with
        | stop =>
          have hx' : isxdigit x = false := by
            refine hx x d.pos ?_
            obtain ⟨dc, dp⟩ := d
            simp only at hd
            rw [hd]
          rw [tr_end]
          refine not_pair hx' fun _ b e => ?_
          have e' : (getnS 1 κ.q).1 = [b] := e
          rcases getn_q κ 1 with e2 | ⟨c, hc, s, e2⟩
          · rw [e2] at e'; cases e'
          · rw [e2] at e'; cases e'; exact hcl _ hc
        | cons hd2 _ i2 =>
          rw [tr_cons i2]
          simp only [getnS, κ.char, hd2] at h1 h2 h3 ⊢
          exact ⟨h1, h2, h3⟩
    exact .stop _ key.1 key.2.1 key.2.2
  | pair a b s r h1 h2 _ ih => exact .pair a b s _ h1 h2 (ih h hx)
  | dot s r h1 _ ih =>
    refine .dot s _ ?_ (ih h hx)
    cases s with
    | cons => exact h1
    | nil =>
      rcases head h with e | rfl
      · simp only [Spec.nextSym, e]; exact h1
      · simp only [Spec.nextSym, head_end] at h1; cases h1

theorem lexeme {ty : TT} {v : Str} {r1 : List Cell} (h1 : κ.In r1) (hr : Reads r1 v r) (hl : Lexeme ty v r) :
    Lexeme ty v (κ.tr r) := by
  have h := (reads h1 hr).1
  cases hl
  case dec a1 a2 a3 a4 =>
    refine .dec _ _ a1 (is_false h a2) ?_ (fun e hz => a4 e (zeroPrefix h hz))
    rintro ⟨e1, e2⟩
    have e3 := head_back h e1
    obtain ⟨i, e⟩ := next h e3
    exact a3 ⟨e3, is_back i (by rw [e]; exact e2)⟩
  case float a1 a2 a3 a4 => exact .float _ _ _ a1 a2 (is_false h a3) (fun e => a4 (expStart h e))
  case blob a1 a2 a3 =>
    obtain ⟨q1, x1, rfl, b1⟩ := hr.cons_inv
    obtain ⟨q2, x2, rfl, b2⟩ := b1.cons_inv
    rename_i z s
    rcases h1.inv with he | he
    · exact .blob _ _ _ a1 (by rw [nextSym he h]; exact a2) (blobRun he h a3)
    · refine .blob _ _ _ a1 (next_dot h a2) (blobRun' h ?_ a3)
      intro x q e
      subst e
      cases hx : isxdigit x with
      | false => rfl
      | true =>
        exfalso
        obtain ⟨p, e3, e4⟩ := b2
        refine he.2 rfl (z :: (s ++ [x])) ⟨⟨some z, q2⟩ :: (p ++ [⟨some x, q⟩]), by rw [e3]; simp, ?_⟩ ⟨z, s ++ [x], rfl, a1, ?_, ?_⟩
        · simp [e4]
        · intro c hc
          rcases List.mem_append.1 hc with hc | hc
          · exact (blobRun_text a3).1 c hc
          · rw [List.mem_singleton.1 hc]; exact .inl hx
        · have := (blobRun_text a3).2
          rw [List.countP_append, List.countP_singleton, hx]
          simp only [if_true]
          omega
  case bin a1 a2 a3 => exact .bin _ _ _ a1 a2 (is_false h a3)
  case hex a1 a2 a3 => exact .hex _ _ _ a1 a2 (is_false h a3)
  case exp a1 a2 a3 a4 => exact .exp _ _ _ _ a1 a2 a3 (is_false h a4)
  case ident a1 a2 a3 a4 => exact .ident _ _ _ a1 a2 (is_false h (by assumption)) (by assumption)
  case env a1 a2 => exact .env _ _ a1 (is_false h a2)
  case option a1 a2 a3 a4 =>
    exact .option _ _ a1 (is_false h a2) (fun e => ne_ch h (a3 e)) (fun e => ne_ch h (a4 e))
  case optScope a1 a2 a3 => exact .optScope _ _ _ a1 a2 (is_false h a3)
  case reg => exact .reg _ _
  case regEnd a1 =>
    have e := h.eol (by
      intro x e
      rw [e] at a1
      cases a1)
    obtain ⟨q1, x1, rfl, b1⟩ := hr.cons_inv
    cases b1.nil_inv
    rcases h1.inv with he | he
    · exact .regEnd _ (by rw [e, tr_end, he]; rfl)
    · exact absurd rfl (he.1 e).1
  case cmp a1 a2 a3 a4 =>
    exact .cmp _ _ (ne_ch h a1) (ne_ch h a2) (fun e => ne_ch h (a3 e)) (fun e => is_false h (a4 e))
  case or_ a1 =>
    refine .or_ _ fun e => ?_
    rcases head h with e1 | rfl
    · exact a1 (e1 ▸ e)
    · rw [tr_end] at e
      obtain ⟨q1, x1, rfl, b1⟩ := hr.cons_inv
      cases b1.nil_inv
      rcases h1.inv with he | he
      · rw [he] at e; cases e
      · exact (he.1 rfl).2 e rfl
  all_goals constructor <;> first | assumption | exact ne_ch h (by assumption)

theorem lex {t : Token} (h : κ.In r) (hl : Lex env r t r') :
    (t.ty = .eol ∧ Blanks r (κ.e0 :: κ.q0) ∧ ∃ t' r'', Lex env' (κ.tr r) t' r'' ∧ Closing t'.ty ∧ t'.ty = κ.t.ty) ∨
    (t.ty ≠ .eol ∧ κ.In r' ∧ ∃ t', Lex env' (κ.tr r) t' (κ.tr r') ∧ t'.ty = t.ty ∧ t'.value = t.value ∧
      pubPos fn' t'.pos = κ.m (pubPos fn t.pos)) := by
  cases hl with
  | eof w r h1 h2 =>
    obtain ⟨i, h3⟩ := reads h h1
    cases i
  | eol w r c r' h1 h2 h3 =>
    obtain ⟨i, h4⟩ := reads h h1
    have e : c :: r' = κ.e0 :: κ.q0 := i.eol (by intro x e; simp [headSym, Cell.sym, h3] at e)
    rw [e] at h1 h4
    rw [tr_end] at h4
    refine .inl ⟨rfl, ⟨w, h1, h2⟩, ?_⟩
    have hc := κ.closing
    have tok := κ.tok
    generalize κ.t = t0 at hc tok
    generalize κ.t' = t1 at tok
    cases tok with
    | eof => simp [Closing] at hc
    | eol w' _ c0 x a1 a2 a3 =>
      obtain ⟨p1, e1, e2⟩ := h4
      obtain ⟨p2, e3, e4⟩ := a1
      refine ⟨_, t1, .eol (w ++ w') _ _ _ ⟨p1 ++ p2, by rw [e1, e3]; simp, by simp [e2, e4]⟩ ?_ a3, hc, rfl⟩
      intro c hc
      rcases List.mem_append.1 hc with hc | hc
      · exact h2 c hc
      · exact a2 c hc
    | text w' _ r1 ty v x a1 a2 a3 a4 =>
      obtain ⟨p1, e1, e2⟩ := h4
      obtain ⟨p2, e3, e4⟩ := a1
      refine ⟨_, _, .text (w ++ w') _ _ ty v _ ⟨p1 ++ p2, by rw [e1, e3]; simp, by simp [e2, e4]⟩ ?_ a3 a4, hc, rfl⟩
      intro c hc
      rcases List.mem_append.1 hc with hc | hc
      · exact h2 c hc
      · exact a2 c hc
  | text w r r1 ty v r' h1 h2 h3 h4 =>
    obtain ⟨i, h5⟩ := reads h h1
    obtain ⟨i1, h6⟩ := reads i h3
    refine .inr ⟨?_, i1, _, .text w _ _ ty v _ h5 h2 h6 (lexeme i h3 h4), rfl, rfl, pub i⟩
    rintro rfl
    cases h4

/-! ### Expressions -/

theorem lexT {t : Token} (h : κ.In r) (hl : Lex env r t r') (ht : t.ty ≠ .eol) :
    ∃ t', κ.In r' ∧ Lex env' (κ.tr r) t' (κ.tr r') ∧ t'.ty = t.ty ∧ t'.value = t.value ∧
      pubPos fn' t'.pos = κ.m (pubPos fn t.pos) := by
  rcases lex h hl with ⟨h1, _⟩ | ⟨_, h1, t', h2, h3, h4, h5⟩
  · exact absurd h1 ht
  · exact ⟨t', h1, h2, h3, h4, h5⟩

theorem mark {ty : TT} {q : Ast.Pos} (h : κ.In r) (hm : Mark env fn r ty q r') (ht : ty ≠ .eol := by simp) :
    κ.In r' ∧ Mark env' fn' (κ.tr r) ty (κ.m q) (κ.tr r') := by
  obtain ⟨t, h1, rfl, rfl⟩ := hm
  obtain ⟨t', i, a1, a2, a3, a4⟩ := lexT h h1 ht
  exact ⟨i, t', a1, a2, a4.symm⟩

theorem next_ {p : TT → Prop} (h : κ.In r) (hn : Next env r p) (hp : ∀ ty, Closing ty → p ty) : Next env' (κ.tr r) p := by
  obtain ⟨t, r1, h1, h2⟩ := hn
  rcases lex h h1 with ⟨_, _, t', r'', a1, a2, _⟩ | ⟨_, _, t', a1, a2, _⟩
  · exact ⟨t', _, a1, hp _ a2⟩
  · exact ⟨t', _, a1, by rw [a2]; exact h2⟩

theorem closing_op {ty : TT} {k : Nat} {op : Tok} (h : Closing ty) : ¬ IsOp ty k op := by
  rcases h with rfl | rfl | rfl | rfl | rfl | rfl | rfl | rfl <;> (intro h; cases h)

theorem member {v : Str} (h : κ.In r) (hm : Member r v r') : κ.In r' ∧ Member (κ.tr r) v (κ.tr r') := by
  obtain ⟨h1, h2, h3⟩ := hm
  obtain ⟨i, h4⟩ := reads h h1
  exact ⟨i, h4, h2, is_false i h3⟩

theorem member_back {v : Str} {t : List Cell} (h : κ.In r) (hm : Member (κ.tr r) v t) : ∃ r', Member r v r' := by
  obtain ⟨h1, h2, h3⟩ := hm
  have hv : ∀ c ∈ v, c ∉ stoppers := by
    intro c hc hm
    have := h2.2 c hc
    have key : ∀ c ∈ stoppers, iswordc c = false := by decide
    rw [key c hm] at this
    cases this
  obtain ⟨r', h4, i, rfl⟩ := reads_back h h1 hv
  refine ⟨r', h4, h2, ?_⟩
  rcases head i with e | rfl
  · rw [← e]; exact h3
  · rw [head_end]; rfl

theorem noPostfix {e : Ast.Expr} (h : κ.In r) (hn : NoPostfix env e r) : NoPostfix env' (e.onPos κ.m) (κ.tr r) := by
  obtain ⟨t, r1, h1, h2, h3, h4⟩ := hn
  rcases lex h h1 with ⟨_, _, t', r'', a1, a2, _⟩ | ⟨_, i, t', a1, a2, _⟩
  · refine ⟨t', _, a1, ?_, ?_, fun _ => ⟨?_, ?_⟩⟩
    · rcases a2 with a | a | a | a | a | a | a | a <;> rw [a] <;> simp
    · rcases a2 with a | a | a | a | a | a | a | a <;> rw [a] <;> simp
    · rcases a2 with a | a | a | a | a | a | a | a <;> rw [a] <;> simp
    · rintro ⟨e1, _⟩
      rcases a2 with a | a | a | a | a | a | a | a <;> rw [a] at e1 <;> cases e1
  · refine ⟨t', _, a1, by rw [a2]; exact h2, by rw [a2]; exact h3, fun hw => ?_⟩
    have hw : (headSym r).is iswhite = false := by
      rcases head h with e | rfl
      · rw [← e]; exact hw
      · rw [head_end]; rfl
    obtain ⟨h5, h6⟩ := h4 hw
    rw [a2]
    refine ⟨h5, ?_⟩
    rintro ⟨e1, e2, v, x, e3⟩
    obtain ⟨y, e4⟩ := member_back i e3
    exact h6 ⟨e1, (onPos_dotBase e).1 e2, v, y, e4⟩

/-- There is a closing brace on the line behind `r`. -/
def Brace (κ : Hang env env' fn fn') (r : List Cell) : Prop := ∃ y, y <:+ r ∧ headSym y = .ch '}' ∧ κ.In y

theorem Brace.of_suf (h : r' <:+ r) (hb : Brace κ r') : Brace κ r := by
  obtain ⟨y, h1, h2⟩ := hb
  exact ⟨y, h1.trans h, h2⟩

theorem Brace.not_in {v : Str} (hb : Brace κ r) (h : Reads r v (κ.e0 :: κ.q0)) : '}' ∈ v := by
  obtain ⟨y, h1, h2, h3⟩ := hb
  induction v generalizing r with
  | nil =>
    cases h.nil_inv
    have := h3.length
    have e : y = κ.e0 :: κ.q0 := h1.eq_of_length_le (by simpa using this)
    rw [e, head_end] at h2
    cases h2
  | cons a v ih =>
    obtain ⟨q, r1, rfl, h4⟩ := h.cons_inv
    rcases List.suffix_cons_iff.1 h1 with rfl | h1
    · simp [headSym, Cell.sym] at h2
      simp [h2]
    · simp [ih h4 h1]

theorem Brace.of_mark {q : Ast.Pos} (h : κ.In r) (hm : Mark env fn r .cclose q r') : Brace κ r := by
  obtain ⟨t, h1, h2, _⟩ := hm
  cases h1 with
  | eof => cases h2
  | eol => cases h2
  | text w r r1 ty v r' a1 a2 a3 a4 =>
    simp only at h2
    subst h2
    cases a4
    refine ⟨r1, a1.suf, ?_, (reads h a1).1⟩
    obtain ⟨q1, x1, rfl, _⟩ := a3.cons_inv
    rfl

theorem notLambda (h : κ.In r) (hb : Brace κ r) (hn : NotLambda env r) : NotLambda env' (κ.tr r) := by
  obtain ⟨t, r1, h1, h2, h3⟩ := hn
  rcases lex h h1 with ⟨_, ⟨w, a0, a3⟩, _⟩ | ⟨_, i, t', a1, a2, _⟩
  · have := a3 _ (hb.not_in a0)
    cases this
  · refine ⟨t', _, a1, by rw [a2]; exact h2, ?_⟩
    rw [a2]
    rcases h3 with h3 | h3 | ⟨t2, r2, h3, h4⟩
    · exact .inl h3
    · exact .inr (.inl h3)
    · right; right
      rcases lex i h3 with ⟨_, ⟨w, b0, b3⟩, t2', r'', b1, b2⟩ | ⟨_, _, t2', b1, b2, _⟩
      · refine ⟨t2', _, b1, ?_⟩
        rintro ⟨c1, _⟩
        have key : ∃ u, Reads r u (κ.e0 :: κ.q0) ∧ '}' ∉ u := by
          obtain ⟨p3, e5, e6⟩ := b0
          cases h1 with
          | eof => simp at c1
          | eol => simp at c1
          | text w' r ra ty v _ d1 d2 d3 d4 =>
            obtain ⟨p1, rfl, e2⟩ := d1
            obtain ⟨p2, rfl, e4⟩ := d3
            refine ⟨w' ++ v ++ w, ⟨p1 ++ p2 ++ p3, by rw [e5]; simp, by simp [e2, e4, e6]⟩, ?_⟩
            intro hm
            simp only [List.mem_append] at hm
            rcases hm with (hm | hm) | hm
            · exact absurd (d2 _ hm) (by decide)
            · simp only at c1
              rcases c1 with rfl | rfl
              · cases d4 with
                | ident c s r f1 f2 f3 f4 =>
                  rcases List.mem_cons.1 hm with rfl | hm
                  · exact absurd f1 (by decide)
                  · exact absurd (f2 _ hm) (by decide)
              · cases d4
                exact absurd hm (by decide)
            · exact absurd (b3 _ hm) (by decide)
        obtain ⟨u, u1, u2⟩ := key
        exact u2 (hb.not_in u1)
      · exact ⟨t2', _, b1, by rw [b2]; exact h4⟩

theorem white_mark {ty : TT} {q : Ast.Pos} (h : κ.In r) (hm : Mark env fn r ty q r')
    (hw : (headSym r).is iswhite = false) (ht : ty ≠ .eol := by simp) : (headSym (κ.tr r)).is iswhite = false := by
  rcases head h with e | rfl
  · rw [e]; exact hw
  · obtain ⟨t, h1, rfl, _⟩ := hm
    exfalso
    by_cases he : t.ty = .eof
    · cases h1 with
      | eof w _ b1 b2 =>
        cases w with
        | nil => cases b1.nil_inv
        | cons x w =>
          obtain ⟨q, y, e, _⟩ := b1.cons_inv
          injection e with e1 e2
          have := κ.nl
          rw [e1] at this
          cases this
      | eol => cases he
      | text w r ra ty v _ d1 d2 d3 d4 =>
        simp only at he
        subst he
        cases d4
    · exact (Solid.of_lex h1 ht he).not_blank (w := []) ⟨[], rfl, rfl⟩ (by simp) κ.nl

theorem lamParams {used : List Str} {ps : List Ast.Ident} (hl : LamParams env fn used r ps r') :
    κ.In r → κ.In r' ∧ LamParams env' fn' used (κ.tr r) (ps.map (Ast.Ident.onPos κ.m)) (κ.tr r') := by
  induction hl with
  | none h1 =>
    intro h
    obtain ⟨i, a⟩ := mark h h1
    exact ⟨i, .none a⟩
  | dots h1 h2 h3 =>
    intro h
    obtain ⟨t', i, a1, a2, a3, a4⟩ := lexT h h1 (by rw [h2]; simp)
    obtain ⟨i2, b⟩ := mark i h3
    refine ⟨i2, ?_⟩
    simp only [List.map_cons, List.map_nil, Ast.Ident.onPos, ← a4, ← a3]
    exact .dots a1 (by rw [a2, h2]) b
  | last h1 h2 h3 h4 h5 =>
    intro h
    obtain ⟨t', i, a1, a2, a3, a4⟩ := lexT h h1 (by rw [h2]; simp)
    obtain ⟨i2, b⟩ := mark i h5
    refine ⟨i2, ?_⟩
    simp only [List.map_cons, List.map_nil, Ast.Ident.onPos, ← a4, ← a3]
    exact .last a1 (by rw [a2, h2]) (by rw [a3]; exact h3) (by rw [a3]; exact h4) b
  | cons h1 h2 h3 h4 h5 h6 _ ih =>
    intro h
    obtain ⟨t', i, a1, a2, a3, a4⟩ := lexT h h1 (by rw [h2]; simp)
    obtain ⟨i2, b⟩ := mark i h6
    obtain ⟨i3, b2⟩ := ih i2
    refine ⟨i3, ?_⟩
    simp only [List.map_cons, Ast.Ident.onPos, ← a4, ← a3]
    rw [← a3] at b2
    exact .cons a1 (by rw [a2, h2]) (by rw [a3]; exact h3) (by rw [a3]; exact h4) (white_mark i h6 h5) b b2

theorem litWord {k : Ast.Expr} (h : κ.In r) (hk : LitWord env fn r k r') :
    κ.In r' ∧ LitWord env' fn' (κ.tr r) (k.onPos κ.m) (κ.tr r') := by
  obtain ⟨h0, r1, v, h1, h2, h3, rfl⟩ := hk
  obtain ⟨i1, a1⟩ := blanks h h1
  obtain ⟨i2, a2⟩ := reads i1 h2
  refine ⟨i2, next_ h h0 (fun _ _ => trivial), κ.tr r1, v, a1, a2, h3, ?_⟩
  cases v with
  | nil => exact absurd rfl h3.1
  | cons c v =>
    obtain ⟨q, x, rfl, _⟩ := h2.cons_inv
    obtain ⟨i3, e⟩ := next i1 (x := c) rfl
    rw [← e, pub i3, Ast.Expr.onPos]

theorem nameStart (h : κ.In r) (hn : NameStart env fn r)
    (hb : ∀ t r2, Lex env r t r2 → t.ty = .copen → Brace κ r2) : NameStart env' fn' (κ.tr r) := by
  obtain ⟨t, r2, h1, h2⟩ := hn
  have ht : t.ty ≠ .eol := by
    rcases h2 with h2 | ⟨k, m, h2, _⟩ | ⟨h2, _⟩ | ⟨h2, _⟩ <;> rw [h2] <;> simp
  obtain ⟨t', i, a1, a2, _⟩ := lexT h h1 ht
  refine ⟨t', _, a1, ?_⟩
  rw [a2]
  rcases h2 with h2 | h2 | ⟨h2, h3⟩ | ⟨h2, h3, k, r3, q, r4, h4, h5⟩
  · exact .inl h2
  · exact .inr (.inl h2)
  · exact .inr (.inr (.inl ⟨h2, notLambda i (hb _ _ h1 h2) h3⟩))
  · obtain ⟨i3, b1⟩ := litWord i h4
    obtain ⟨i4, b2⟩ := mark i3 h5
    have hb : Brace κ r2 := by
      obtain ⟨_, ra, v, ⟨w, c1, _⟩, c2, _⟩ := h4
      exact .of_suf c1.suf (.of_suf c2.suf (.of_mark i3 h5))
    exact .inr (.inr (.inr ⟨h2, notLambda i hb h3, _, _, _, _, b1, b2⟩))

/-- The brace of a name. -/
theorem name_brace {r1 : List Cell} {t : Token} {r2 : List Cell} (h1 : Blanks r r1) (h3 : Lex env r t r2)
    (h4 : t.ty = .copen) (hb : ∀ x, Reads r1 ['{'] x → Brace κ x) (hne : (headSym r1).is iswhite = false) : Brace κ r2 := by
  obtain ⟨w', hb', hw'⟩ := h1
  cases h3 with
  | eof => cases h4
  | eol => cases h4
  | text w r ra ty v' r2 a1 a2 a3 a4 =>
    have hv : v' = ['{'] := by
      simp only at h4
      subst h4
      cases a4
      rfl
    subst hv
    have e0 : (headSym ra).is iswhite = false := by
      obtain ⟨q1, x1, rfl, b1⟩ := a3.cons_inv
      rfl
    have e3 := spanS_of_reads a1 a2 e0
    have e4 := spanS_of_reads hb' hw' hne
    rw [e3] at e4
    cases e4
    exact hb _ a3

theorem text_brace {r1 x : List Cell} {v : Str} (h1 : Reads r v r1) (h2 : Many1 isnamec v) (hx : Reads r ['{'] x) :
    Brace κ x := by
  cases v with
  | nil => exact absurd rfl h2.1
  | cons c v =>
    obtain ⟨q, y, rfl, _⟩ := hx.cons_inv
    obtain ⟨q', y', e, _⟩ := h1.cons_inv
    cases e
    exact absurd (h2.2 '{' (by simp)) (by decide)

theorem parts_head {ps : List Ast.Expr} (h : NameParts env fn r ps r') (hne : ps ≠ []) :
    (headSym r).is iswhite = false := by
  cases h with
  | nil => exact absurd rfl hne
  | @text _ v _ _ _ h1 h2 _ _ =>
    cases v with
    | nil => exact absurd rfl h2.1
    | cons c v =>
      obtain ⟨q, y, rfl, _⟩ := h1.cons_inv
      exact white_of (f := isnamec) (by decide) (h2.2 c (by simp))
  | expr h1 _ _ _ _ =>
    obtain ⟨q, y, rfl, _⟩ := h1.cons_inv
    rfl

theorem mark_suf {ty : TT} {q : Ast.Pos} (h : Mark env fn r ty q r') : r' <:+ r := by
  obtain ⟨t, h, _⟩ := h
  exact leaves_lex h

theorem key_suf {lit : Bool} {k : Ast.Expr} (h : Key env fn lit r k r') : r' <:+ r := by
  cases h with
  | expr h => exact leaves_gram h
  | lit h =>
    obtain ⟨_, r1, v, ⟨w, h1, _⟩, h2, _⟩ := h
    exact h2.suf.trans h1.suf

open Ast (Expr.onPos Expr.onPosL Expr.onPosO Expr.onPosP Ident.onPos)

mutual

theorem gram : ∀ {k r e r'}, Gram env fn k r e r' → κ.In r →
    κ.In r' ∧ Gram env' fn' k (κ.tr r) (e.onPos κ.m) (κ.tr r')
  | _, _, _, _, .ternary h1 h2 h3 h4 h5, h => by
    obtain ⟨i1, a1⟩ := gram h1 h
    obtain ⟨i2, a2⟩ := mark i1 h2
    obtain ⟨i3, a3⟩ := gram h3 i2
    obtain ⟨i4, a4⟩ := mark i3 h4
    obtain ⟨i5, a5⟩ := gram h5 i4
    refine ⟨i5, ?_⟩
    rw [Expr.onPos]
    exact .ternary a1 a2 a3 a4 a5
  | _, _, _, _, .noTernary h1 h2, h => by
    obtain ⟨i1, a1⟩ := gram h1 h
    exact ⟨i1, .noTernary a1 (next_ i1 h2 fun _ hc => by rcases hc with e | e | e | e | e | e | e | e <;> rw [e] <;> simp)⟩
  | _, _, _, _, .chain h1 h2 h3 h4, h => by
    obtain ⟨i1, a1⟩ := chain h3 h
    exact ⟨i1, .chain h1 h2 a1 (next_ i1 h4 fun _ hc _ => closing_op hc)⟩
  | _, _, _, _, .compare h1 h2 h3 h4, h => by
    obtain ⟨i1, a1⟩ := gram h1 h
    obtain ⟨t', i2, a2, b1, b2, b3⟩ := lexT i1 h2 h3.ne_eol
    obtain ⟨i3, a3⟩ := gram h4 i2
    refine ⟨i3, ?_⟩
    rw [Expr.onPos, ← b3]
    exact .compare a1 a2 (by rw [b1]; exact h3) a3
  | _, _, _, _, .noCompare h1 h2, h => by
    obtain ⟨i1, a1⟩ := gram h1 h
    exact ⟨i1, .noCompare a1 (next_ i1 h2 fun _ hc _ => closing_op hc)⟩
  | _, _, _, _, .unary h1 h2 h3, h => by
    obtain ⟨t', i1, a1, b1, b2, b3⟩ := lexT h h1 h2.ne_eol.1
    obtain ⟨i2, a2⟩ := gram h3 i1
    refine ⟨i2, ?_⟩
    rw [Expr.onPos, ← b3]
    exact .unary a1 (by rw [b1]; exact h2) a2
  | _, _, _, _, .noUnary h1, h => by
    obtain ⟨i1, a1⟩ := gram h1 h
    exact ⟨i1, .noUnary a1⟩
  | _, _, _, _, .postfix h1 h2, h => by
    obtain ⟨i1, a1⟩ := chain h1 h
    exact ⟨i1, .postfix a1 (noPostfix i1 h2)⟩
  | _, _, _, _, .lit h1 h2, h => by
    obtain ⟨t', i1, a1, b1, b2, b3⟩ := lexT h h1 h2.ne_eol.1
    refine ⟨i1, ?_⟩
    rw [Expr.onPos, ← b3, ← b2]
    exact .lit a1 (by rw [b1]; exact h2)
  | _, _, _, _, .dstring h1 h2 h3, h => by
    obtain ⟨i1, a1⟩ := blanks h h1
    obtain ⟨i2, a2⟩ := reads i1 h3
    refine ⟨i2, ?_⟩
    rw [Expr.onPos, ← pub i1]
    exact .dstring a1 h2 a2
  | _, _, _, _, .sstring h1 h2 h3 h4, h => by
    obtain ⟨i1, a1⟩ := blanks h h1
    obtain ⟨i2, a2⟩ := reads i1 h3
    refine ⟨i2, ?_⟩
    rw [Expr.onPos, ← pub i1]
    exact .sstring a1 h2 a2 (ne_ch i2 h4)
  | _, _, _, _, .list h1 h2, h => by
    obtain ⟨i1, a1⟩ := mark h h1
    obtain ⟨i2, a2⟩ := args h2 (by simp) i1
    refine ⟨i2, ?_⟩
    rw [Expr.onPos]
    exact .list a1 a2
  | _, _, _, _, .paren h1 h2 h3, h => by
    obtain ⟨i1, a1⟩ := mark h h1
    obtain ⟨i2, a2⟩ := gram h2 i1
    obtain ⟨i3, a3⟩ := mark i2 h3
    refine ⟨i3, ?_⟩
    rw [Expr.onPos]
    exact .paren a1 a2 a3
  | _, _, _, _, .dict h1 h2 h3, h => by
    obtain ⟨i1, a1⟩ := mark h h1
    obtain ⟨i2, b2, a2⟩ := pairs h3 i1
    refine ⟨i2, ?_⟩
    rw [Expr.onPos]
    exact .dict a1 (notLambda i1 b2 h2) a2
  | _, _, _, _, .litdict h1 h2 h3, h => by
    obtain ⟨i1, a1⟩ := mark h h1
    obtain ⟨i2, b2, a2⟩ := pairs h3 i1
    refine ⟨i2, ?_⟩
    rw [Expr.onPos]
    exact .litdict a1 (notLambda i1 b2 h2) a2
  | _, r, _, _, .lambda (r1 := r1) (q := q) h1 h2 h3 h4, h => by
    have key : κ.In r1 ∧ (Mark env' fn' (κ.tr r) .copen (κ.m q) (κ.tr r1) ∨
        Mark env' fn' (κ.tr r) .litcopen (κ.m q) (κ.tr r1)) := by
      rcases h1 with h1 | h1
      · obtain ⟨i, a⟩ := mark h h1
        exact ⟨i, .inl a⟩
      · obtain ⟨i, a⟩ := mark h h1
        exact ⟨i, .inr a⟩
    obtain ⟨i1, a1⟩ := key
    obtain ⟨i2, a2⟩ := lamParams h2 i1
    obtain ⟨i3, a3⟩ := gram h3 i2
    obtain ⟨i4, a4⟩ := mark i3 h4
    refine ⟨i4, ?_⟩
    rw [Expr.onPos]
    exact .lambda a1 a2 a3 a4
  | _, _, _, _, .name h1 h2 h3 h4, h => by
    obtain ⟨i1, a1⟩ := blanks h h1
    obtain ⟨i2, b2, a2⟩ := parts h3 i1
    refine ⟨i2, ?_⟩
    rw [onPos_name, ← pub i1]
    refine .name a1 (nameStart h h2 fun t r2 c1 c2 => ?_) a2 (onPosL_ne _ h4)
    exact name_brace h1 c1 c2 b2 (parts_head h3 h4)
  | _, _, _, _, .sid h1 h2 h3 h4, h => by
    obtain ⟨i1, a1⟩ := blanks h h1
    obtain ⟨i2, a2⟩ := reads i1 h2
    obtain ⟨i3, _, a3⟩ := parts h4 i2
    refine ⟨i3, ?_⟩
    rw [onPos_name, Expr.onPosL, Expr.onPos, ← pub i1]
    exact .sid a1 a2 h3 a3

theorem chain : ∀ {k r e r'}, Chain env fn k r e r' → κ.In r →
    κ.In r' ∧ Chain env' fn' k (κ.tr r) (e.onPos κ.m) (κ.tr r')
  | _, _, _, _, .one h1 h2, h => by
    obtain ⟨i1, a1⟩ := gram h2 h
    exact ⟨i1, .one h1 a1⟩
  | _, _, _, _, .op h1 h2 h3 h4 h5, h => by
    obtain ⟨i1, a1⟩ := chain h2 h
    obtain ⟨t', i2, a2, b1, b2, b3⟩ := lexT i1 h3 h4.ne_eol
    obtain ⟨i3, a3⟩ := gram h5 i2
    refine ⟨i3, ?_⟩
    rw [Expr.onPos, ← b3]
    exact .op h1 a1 a2 (by rw [b1]; exact h4) a3
  | _, _, _, _, .subscript h1 h2 h3 h4 h5, h => by
    obtain ⟨i1, a1⟩ := chain h1 h
    obtain ⟨i2, a2⟩ := mark i1 h3
    obtain ⟨i3, a3⟩ := gram h4 i2
    obtain ⟨i4, a4⟩ := mark i3 h5
    refine ⟨i4, ?_⟩
    rw [Expr.onPos]
    exact .subscript a1 (white_mark i1 h3 h2) a2 a3 a4
  | _, _, _, _, .slice h1 h2 h3 h4 h5 h6 h7, h => by
    obtain ⟨i1, a1⟩ := chain h1 h
    obtain ⟨i2, a2⟩ := mark i1 h3
    obtain ⟨i3, a3⟩ := opt h4 i2
    obtain ⟨i4, a4⟩ := mark i3 h5
    obtain ⟨i5, a5⟩ := opt h6 i4
    obtain ⟨i6, a6⟩ := mark i5 h7
    refine ⟨i6, ?_⟩
    rw [Expr.onPos]
    exact .slice a1 (white_mark i1 h3 h2) a2 a3 a4 a5 a6
  | _, _, _, _, .method h1 h2 h3 h4 h5 h6, h => by
    obtain ⟨i1, a1⟩ := chain h1 h
    obtain ⟨i2, a2⟩ := mark i1 h2
    obtain ⟨i3, a3⟩ := gram h3 i2
    obtain ⟨i4, a4⟩ := mark i3 h4
    obtain ⟨i5, a5⟩ := args h5 (by simp) i4
    refine ⟨i5, ?_⟩
    rw [Expr.onPos]
    exact .method a1 a2 a3 a4 a5 (by rw [onPosL_length]; exact h6)
  | _, _, _, _, .call h1 h2 h3 h4, h => by
    obtain ⟨i1, a1⟩ := chain h1 h
    obtain ⟨i2, a2⟩ := mark i1 h2
    obtain ⟨i3, a3⟩ := args h3 (by simp) i2
    refine ⟨i3, ?_⟩
    rw [Expr.onPos]
    exact .call a1 a2 a3 (by rw [onPosL_length]; exact h4)
  | _, _, _, _, .dot h1 h2 h3 h4 h5, h => by
    obtain ⟨i1, a1⟩ := chain h1 h
    obtain ⟨i2, a2⟩ := mark i1 h4
    obtain ⟨i3, a3⟩ := member i2 h5
    refine ⟨i3, ?_⟩
    rw [Expr.onPos, Ident.onPos, ← pub i2]
    exact .dot a1 (white_mark i1 h4 h2) ((onPos_dotBase _).2 h3) a2 a3

theorem opt : ∀ {r o r'}, Opt env fn r o r' → κ.In r → κ.In r' ∧ Opt env' fn' (κ.tr r) (Expr.onPosO κ.m o) (κ.tr r')
  | _, _, _, .none, h => ⟨h, .none⟩
  | _, _, _, .some h1, h => by
    obtain ⟨i1, a1⟩ := gram h1 h
    exact ⟨i1, .some a1⟩

theorem args : ∀ {c r es r'}, Args env fn c r es r' → c ≠ .eol → κ.In r →
    κ.In r' ∧ Args env' fn' c (κ.tr r) (Expr.onPosL κ.m es) (κ.tr r')
  | _, _, _, _, .nil h1, hc, h => by
    obtain ⟨i1, a1⟩ := mark h h1 hc
    exact ⟨i1, .nil a1⟩
  | _, _, _, _, .last h1 h2, hc, h => by
    obtain ⟨i1, a1⟩ := gram h1 h
    obtain ⟨i2, a2⟩ := mark i1 h2 hc
    exact ⟨i2, .last a1 a2⟩
  | _, _, _, _, .cons h1 h2 h3, hc, h => by
    obtain ⟨i1, a1⟩ := gram h1 h
    obtain ⟨i2, a2⟩ := mark i1 h2
    obtain ⟨i3, a3⟩ := args h3 hc i2
    exact ⟨i3, .cons a1 a2 a3⟩

theorem key : ∀ {lit r k r'}, Key env fn lit r k r' → κ.In r →
    κ.In r' ∧ Key env' fn' lit (κ.tr r) (k.onPos κ.m) (κ.tr r')
  | _, _, _, _, .expr h1, h => by
    obtain ⟨i1, a1⟩ := gram h1 h
    exact ⟨i1, .expr a1⟩
  | _, _, _, _, .lit h1, h => by
    obtain ⟨i1, a1⟩ := litWord h h1
    exact ⟨i1, .lit a1⟩

theorem pairs : ∀ {lit r kvs r'}, Pairs env fn lit r kvs r' → κ.In r →
    κ.In r' ∧ Brace κ r ∧ Pairs env' fn' lit (κ.tr r) (Expr.onPosP κ.m kvs) (κ.tr r')
  | _, _, _, _, .nil h1, h => by
    obtain ⟨i1, a1⟩ := mark h h1
    exact ⟨i1, .of_mark h h1, .nil a1⟩
  | _, _, _, _, .last h1 h2 h3 h4, h => by
    obtain ⟨i1, a1⟩ := key h1 h
    obtain ⟨i2, a2⟩ := mark i1 h2
    obtain ⟨i3, a3⟩ := gram h3 i2
    obtain ⟨i4, a4⟩ := mark i3 h4
    exact ⟨i4, .of_suf ((leaves_gram h3).trans ((mark_suf h2).trans (key_suf h1))) (.of_mark i3 h4), .last a1 a2 a3 a4⟩
  | _, _, _, _, .cons h1 h2 h3 h4 h5, h => by
    obtain ⟨i1, a1⟩ := key h1 h
    obtain ⟨i2, a2⟩ := mark i1 h2
    obtain ⟨i3, a3⟩ := gram h3 i2
    obtain ⟨i4, a4⟩ := mark i3 h4
    obtain ⟨i5, b5, a5⟩ := pairs h5 i4
    exact ⟨i5, .of_suf ((mark_suf h4).trans ((leaves_gram h3).trans ((mark_suf h2).trans (key_suf h1)))) b5, .cons a1 a2 a3 a4 a5⟩

theorem parts : ∀ {r ps r'}, NameParts env fn r ps r' → κ.In r →
    κ.In r' ∧ (∀ x, Reads r ['{'] x → Brace κ x) ∧ NameParts env' fn' (κ.tr r) (Expr.onPosL κ.m ps) (κ.tr r')
  | _, _, _, .nil h1 h2, h => ⟨h, fun x hx => by
      obtain ⟨q, y, rfl, _⟩ := hx.cons_inv
      exact absurd rfl h2, .nil (is_false h h1) (ne_ch h h2)⟩
  | _, _, _, .text h1 h2 h3 h4, h => by
    obtain ⟨i1, a1⟩ := reads h h1
    obtain ⟨i2, _, a2⟩ := parts h4 i1
    refine ⟨i2, fun x hx => text_brace h1 h2 hx, ?_⟩
    rw [Expr.onPosL, Expr.onPos, ← pub h]
    exact .text a1 h2 (is_false i1 h3) a2
  | _, _, _, .expr h1 h2 h3 h4 h5, h => by
    obtain ⟨i1, a1⟩ := reads h h1
    obtain ⟨i2, a2⟩ := gram h2 i1
    obtain ⟨i3, a3⟩ := blanks i2 h3
    obtain ⟨i4, a4⟩ := reads i3 h4
    obtain ⟨i5, _, a5⟩ := parts h5 i4
    refine ⟨i5, fun x hx => ?_, ?_⟩
    · cases hx.rest_unique h1
      obtain ⟨w, d2, _⟩ := h3
      refine .of_suf (d2.suf.trans (leaves_gram h2)) ⟨_, List.suffix_refl _, ?_, i3⟩
      obtain ⟨q, y, rfl, _⟩ := h4.cons_inv
      rfl
    rw [Expr.onPosL, Expr.onPos, ← pub i1]
    exact .expr a1 a2 a3 a4 a5

end

end Hang

end Viml
