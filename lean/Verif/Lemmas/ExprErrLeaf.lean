/-
Where the expression parser fails, continued: strings, names and bare keys.
-/
import Verif.Lemmas.ExprErr

namespace Viml
open Prog Spec

section
variable {env : Env} {fn : Str} {r : List Cell} {msg : Str} {q : Pos}

/-! ### Strings -/

theorem atEnd_nil : AtEnd ([] : List Cell) := .inr rfl
theorem atEnd_none {p : Pos} {t : List Cell} : AtEnd (⟨none, p⟩ :: t) := .inl rfl
theorem not_atEnd_some {c : Char} {p : Pos} {t : List Cell} : ¬ AtEnd (⟨some c, p⟩ :: t) := by
  rintro (h | h) <;> cases h

theorem dBody_bad {s : Str} : Bad env (dBody s) r msg q ↔
    AtEnd r ∧ msg = cs!"unexpectd EOL" ∧ q = posOf env r ∨
    headSym r = .ch '\\' ∧ AtEnd r.tail ∧ msg = cs!"ExprTokenizer: unexpected EOL" ∧ q = posOf env r.tail := by
  unfold dBody
  rw [badb_p0]
  match r with
  | [] => simp only [headSym, bad_errHere, atEnd_nil, true_and, reduceCtorEq, false_and, or_false]
  | ⟨none, p⟩ :: t => simp only [headSym, Cell.sym, bad_errHere, atEnd_none, true_and, reduceCtorEq, false_and, or_false]
  | ⟨some c, p⟩ :: t =>
    simp only [headSym, Cell.sym, not_atEnd_some, false_and, false_or, List.tail_cons, Sym.ch.injEq]
    rw [bad_ite, bad_ite, badb_seek1 (c := c) rfl, badb_seek1 (c := c) rfl, badb_seek1 (c := c) rfl, bad_pure, bad_pure]
    simp only [and_false, false_or, or_false, List.tail_cons]
    rw [badb_p0]
    constructor
    · rintro ⟨h1, rfl, h2⟩
      refine ⟨rfl, ?_⟩
      match t with
      | [] => exact ⟨atEnd_nil, bad_errHere.1 h2⟩
      | ⟨none, p'⟩ :: t' => exact ⟨atEnd_none, bad_errHere.1 h2⟩
      | ⟨some d, p'⟩ :: t' =>
        exfalso
        have h2 : Bad env (seekCur 1 >>= fun _ => pure (Sum.inl (s ++ ['\\', d])) : Prog (Str ⊕ Str))
          (⟨some d, p'⟩ :: t') msg q := h2
        rw [badb_seek1 (c := d) rfl] at h2
        cases h2
    · rintro ⟨rfl, h1, h2⟩
      refine ⟨by decide, rfl, ?_⟩
      match t with
      | [] => exact bad_errHere.2 h2
      | ⟨none, p'⟩ :: t' => exact bad_errHere.2 h2
      | ⟨some d, p'⟩ :: t' => exact absurd h1 not_atEnd_some

theorem dBody_inl {s s1 : Str} {r0 r1 : List Cell} (h : Ok env (dBody s) r (.inl s1) r1) (hb : DBody s)
    (hr : Reads r0 s r) : DBody s1 ∧ Reads r0 s1 r1 := by
  unfold dBody at h
  rw [bind_p0] at h
  match r with
  | [] => cases h
  | ⟨none, p⟩ :: t => cases h
  | ⟨some c, p⟩ :: t =>
    simp only [headSym, Cell.sym] at h
    rw [ok_ite, ok_ite] at h
    rcases h with ⟨_, h⟩ | ⟨h1, ⟨h2, h⟩ | ⟨h2, h⟩⟩
    · cases h
    · subst h2
      match t with
      | [] => cases h
      | ⟨none, p'⟩ :: t' => cases h
      | ⟨some d, p'⟩ :: t' =>
        cases h
        exact ⟨.esc hb, hr.append ((Reads.one rfl).append (Reads.one rfl))⟩
    · cases h
      exact ⟨.char hb h1 h2, hr.append (Reads.one rfl)⟩

theorem getDstring_bad {r1 : List Cell} (hk : Skip r r1) (hh : headSym r1 = .ch '"') :
    Bad env getDstring r msg q ↔
      ∃ s r2, DBody s ∧ (Reads r1 ('"' :: s) r2 ∧ AtEnd r2 ∧ msg = cs!"unexpectd EOL" ∧ q = posOf env r2 ∨
        Reads r1 ('"' :: s ++ ['\\']) r2 ∧ AtEnd r2 ∧ msg = cs!"ExprTokenizer: unexpected EOL" ∧ q = posOf env r2) := by
  have heq : getDstring = skipWhite >>= fun _ => p 0 >>= fun c =>
      if c ≠ .ch '"' then errHere (cs!"unexpected character: " ++ c.str) else seekCur 1 >>= fun _ => loop dBody [] := rfl
  have h0 : Bad env getDstring r msg q ↔ Bad env (loop dBody []) r1.tail msg q := by
    rw [heq, badb_skipWhite]
    constructor
    · rintro ⟨r1', h1, h2⟩
      obtain rfl := hk.det h1
      rw [badb_p0, if_neg (by simp [hh]), badb_seek1 hh] at h2
      exact h2
    · intro h
      refine ⟨r1, hk, ?_⟩
      rw [badb_p0, if_neg (by simp [hh]), badb_seek1 hh]
      exact h
  have hq : Reads r1 ['"'] r1.tail := headSym_reads hh
  rw [h0]
  constructor
  · intro h
    obtain ⟨s, r2, ⟨h1, h2⟩, h3⟩ := bad_loop_reach (P := fun s r => DBody s ∧ Reads r1.tail s r)
      (fun s r s1 r1 hP h => dBody_inl h hP.1 hP.2) ⟨.nil, Reads.nil _⟩ h
    rcases dBody_bad.1 h3 with ⟨h4, h5⟩ | ⟨h4, h5, h6⟩
    · exact ⟨s, r2, h1, .inl ⟨hq.append h2, h4, h5⟩⟩
    · exact ⟨s, r2.tail, h1, .inr ⟨(hq.append h2).append (headSym_reads h4), h5, h6⟩⟩
  · rintro ⟨s, r2, hb, ⟨h1, h2, h3⟩ | ⟨h1, h2, h3⟩⟩
    · obtain ⟨q1, t, rfl, h4⟩ := h1.cons_inv
      obtain ⟨m, hm, e⟩ := dBody_loop (env := env) hb (n := t.length + 1) (acc := []) h4 (by omega)
      unfold Bad
      show (loopN dBody (t.length + 1) []).runWith tokGet env t = _
      rw [e]
      obtain ⟨m, rfl⟩ : ∃ k, m = k + 1 := ⟨m - 1, by omega⟩
      exact (bad_bind.2 (.inl (dBody_bad.2 (.inl ⟨h2, h3⟩))))
    · obtain ⟨q1, t, rfl, h4⟩ := Spec.Reads.cons_inv (show Reads r1 ('"' :: (s ++ ['\\'])) r2 by simpa using h1)
      obtain ⟨r3, h4, h5⟩ := h4.split
      obtain ⟨m, hm, e⟩ := dBody_loop (env := env) hb (n := t.length + 1) (acc := []) h4 (by omega)
      unfold Bad
      show (loopN dBody (t.length + 1) []).runWith tokGet env t = _
      rw [e]
      obtain ⟨m, rfl⟩ : ∃ k, m = k + 1 := ⟨m - 1, by omega⟩
      obtain ⟨h6, h7⟩ := reads_one_iff.1 h5
      subst h7
      exact (bad_bind.2 (.inl (dBody_bad.2 (.inr ⟨h6, h2, h3⟩))))

theorem sBody_bad {s : Str} : Bad env (sBody s) r msg q ↔ AtEnd r ∧ msg = cs!"unexpected EOL" ∧ q = posOf env r := by
  unfold sBody
  rw [badb_p0]
  match r with
  | [] => simp only [headSym, bad_errHere, atEnd_nil, true_and]
  | ⟨none, p⟩ :: t => simp only [headSym, Cell.sym, bad_errHere, atEnd_none, true_and]
  | ⟨some c, p⟩ :: t =>
    simp only [headSym, Cell.sym, not_atEnd_some, false_and, iff_false]
    rw [bad_ite, badb_seek1 (c := c) rfl, badb_seek1 (c := c) rfl, bad_pure]
    rintro (⟨_, h⟩ | ⟨_, h⟩)
    · rw [badb_p0, bad_ite] at h
      rcases h with ⟨h1, h⟩ | ⟨_, h⟩
      · rw [badb_seek1 h1] at h; cases h
      · cases h
    · exact h

theorem bind_seekOne {α : Type} {f : Unit → Prog α} {b : α} {r' : List Cell} {c : Char} (h : headSym r = .ch c) :
    Ok env (seekCur 1 >>= f) r b r' ↔ Ok env (f ()) r.tail b r' := by
  cases r with
  | nil => simp [headSym] at h
  | cons a r => exact Iff.rfl

theorem sBody_inl {s s1 : Str} {r0 r1 : List Cell} (h : Ok env (sBody s) r (.inl s1) r1) (hb : SBody s)
    (hr : Reads r0 s r) : SBody s1 ∧ Reads r0 s1 r1 := by
  unfold sBody at h
  rw [bind_p0] at h
  match r with
  | [] => cases h
  | ⟨none, p⟩ :: t => cases h
  | ⟨some c, p⟩ :: t =>
    simp only [headSym, Cell.sym] at h
    rw [ok_ite] at h
    rcases h with ⟨h1, h⟩ | ⟨h1, h⟩
    · subst h1
      match t with
      | [] => cases h
      | ⟨none, p'⟩ :: t' => cases h
      | ⟨some d, p'⟩ :: t' =>
        by_cases hd : d = '\''
        · subst hd
          cases h
          exact ⟨.quote hb, hr.append ((Reads.one rfl).append (Reads.one rfl))⟩
        · exfalso
          rw [bind_seekOne (c := '\'') rfl, bind_p0, if_neg (by simp only [List.tail_cons, headSym, Cell.sym, Sym.ch.injEq]; exact hd)] at h
          cases h
    · cases h
      exact ⟨.char hb h1, hr.append (Reads.one rfl)⟩

theorem getSstring_bad {r1 : List Cell} (hk : Skip r r1) (hh : headSym r1 = .ch '\'') :
    Bad env getSstring r msg q ↔
      ∃ s r2, SBody s ∧ Reads r1 ('\'' :: s) r2 ∧ AtEnd r2 ∧ msg = cs!"unexpected EOL" ∧ q = posOf env r2 := by
  have heq : getSstring = skipWhite >>= fun _ => p 0 >>= fun c =>
      if c ≠ .ch '\'' then errHere (cs!"unexpected character: " ++ c.str) else seekCur 1 >>= fun _ => loop sBody [] := rfl
  have h0 : Bad env getSstring r msg q ↔ Bad env (loop sBody []) r1.tail msg q := by
    rw [heq, badb_skipWhite]
    constructor
    · rintro ⟨r1', h1, h2⟩
      obtain rfl := hk.det h1
      rw [badb_p0, if_neg (by simp [hh]), badb_seek1 hh] at h2
      exact h2
    · intro h
      refine ⟨r1, hk, ?_⟩
      rw [badb_p0, if_neg (by simp [hh]), badb_seek1 hh]
      exact h
  have hq : Reads r1 ['\''] r1.tail := headSym_reads hh
  rw [h0]
  constructor
  · intro h
    obtain ⟨s, r2, ⟨h1, h2⟩, h3⟩ := bad_loop_reach (P := fun s r => SBody s ∧ Reads r1.tail s r)
      (fun s r s1 r1 hP h => sBody_inl h hP.1 hP.2) ⟨.nil, Reads.nil _⟩ h
    obtain ⟨h4, h5⟩ := sBody_bad.1 h3
    exact ⟨s, r2, h1, hq.append h2, h4, h5⟩
  · rintro ⟨s, r2, hb, h1, h2, h3⟩
    obtain ⟨q1, t, rfl, h4⟩ := h1.cons_inv
    obtain ⟨m, hm, e⟩ := sBody_loop (env := env) hb (n := t.length + 1) (acc := []) h4 (by omega)
    unfold Bad
    show (loopN sBody (t.length + 1) []).runWith tokGet env t = _
    rw [e]
    obtain ⟨m, rfl⟩ : ∃ k, m = k + 1 := ⟨m - 1, by omega⟩
    exact (bad_bind.2 (.inl (sBody_bad.2 ⟨h2, h3⟩)))

/-! ### Names -/

variable {n : Nat} {rec : Prog VExpr}

theorem tail_len {c : Char} (h : headSym r = .ch c) : r.tail.length < r.length := by
  cases r with
  | nil => cases h
  | cons a r => simp

theorem tail_suf' (hs : Suf env r) : Suf env r.tail := (List.tail_suffix r).trans hs

theorem curlyBody_bad (H : RecB env fn n rec) (he : EnvOK env) {ps : List VExpr} (hs : Suf env r)
    (hn : r.length ≤ n) : Bad env (curlyBody rec ps) r msg q ↔
      headSym r = .ch '{' ∧ (GErr env fn 1 r.tail msg q ∨ ∃ e r1, Gram env fn 1 r.tail e r1 ∧ ∃ r2, Skip r1 r2 ∧
        headSym r2 ≠ .ch '}' ∧ msg = cs!"unexpected token: " ++ (headSym r2).str ∧ q = posOf env r2) := by
  unfold curlyBody
  rw [badb_peek, bad_ite, bad_ite, badb_getpos]
  constructor
  · rintro (⟨_, h⟩ | ⟨_, ⟨h1, h⟩ | ⟨_, h⟩⟩)
    · rw [show readName = readWhile isnamec from rfl, badb_readWhile] at h
      obtain ⟨_, _, _, h⟩ := h
      cases h
    · refine ⟨h1, ?_⟩
      rw [badb_get, badb_getpos] at h
      refine (H.bind he (tail_suf' hs) (by have := tail_len h1; omega) fun v r1 hs1 _ => ?_).1 h
      rw [badb_skipWhite]
      refine exists_congr fun r2 => and_congr_right fun _ => ?_
      rw [badb_p0, bad_ite, bad_errHere]
      constructor
      · rintro (h | ⟨h, h2⟩)
        · exact h
        · rw [badb_seek1 (Classical.not_not.1 h)] at h2; cases h2
      · exact .inl
    · cases h
  · rintro ⟨h1, h⟩
    refine .inr ⟨by rw [h1]; decide, .inl ⟨h1, ?_⟩⟩
    rw [badb_get, badb_getpos]
    refine (H.bind he (tail_suf' hs) (by have := tail_len h1; omega) fun v r1 hs1 _ => ?_).2 h
    rw [badb_skipWhite]
    refine exists_congr fun r2 => and_congr_right fun _ => ?_
    rw [badb_p0, bad_ite, bad_errHere]
    constructor
    · rintro (h | ⟨h, h2⟩)
      · exact h
      · rw [badb_seek1 (Classical.not_not.1 h)] at h2; cases h2
    · exact .inl

theorem curlyBody_inl (H : RecB env fn n rec) (_ : EnvOK env) {ps : List VExpr} {r' : List Cell} (hs : Suf env r)
    (hn : r.length ≤ n) : (∃ ps1, Ok env (curlyBody rec ps) r (.inl ps1) r') ↔
      (∃ v, Reads r v r' ∧ Many1 isnamec v ∧ (headSym r').is isnamec = false) ∨
      headSym r = .ch '{' ∧ ∃ e r1 r2, Gram env fn 1 r.tail e r1 ∧ Skip r1 r2 ∧ Reads r2 ['}'] r' := by
  constructor
  · rintro ⟨ps1, h⟩
    unfold curlyBody at h
    rw [bind_peek, ok_ite, ok_ite, bind_getpos] at h
    rcases h with ⟨h1, h⟩ | ⟨_, ⟨h1, h⟩ | ⟨_, h⟩⟩
    · rw [show readName = readWhile isnamec from rfl, bind_readWhile] at h
      obtain ⟨v, r1, hv, h⟩ := h
      obtain ⟨_, rfl⟩ := ok_pure.1 h
      refine .inl ⟨v, hv.1, ⟨?_, hv.2.1⟩, hv.2.2⟩
      rintro rfl
      rw [hv.1.nil_inv, hv.2.2] at h1
      cases h1
    · rw [bind_get, bind_getpos, ok_bind] at h
      obtain ⟨v, r1, h2, h⟩ := h
      obtain ⟨e, h2⟩ := (H.ok (tail_suf' hs) (by have := tail_len h1; omega)).1 ⟨v, h2⟩
      rw [bind_skipWhite] at h
      obtain ⟨r2, h3, h⟩ := h
      rw [bind_p0, ok_ite] at h
      rcases h with ⟨_, h⟩ | ⟨h4, h⟩
      · exact (ok_errHere.1 h).elim
      · rw [bind_seekOne (Classical.not_not.1 h4)] at h
        obtain ⟨_, rfl⟩ := ok_pure.1 h
        exact .inr ⟨h1, e, r1, r2, h2, h3, headSym_reads (Classical.not_not.1 h4)⟩
    · cases h
  · rintro (⟨v, h1, h2, h3⟩ | ⟨h1, e, r1, r2, h2, h3, h4⟩)
    · exact ⟨_, curlyBody_name h2 h1 h3⟩
    · obtain ⟨v, h2⟩ := (H.ok (tail_suf' hs) (by have := tail_len h1; omega)).2 ⟨e, h2⟩
      obtain ⟨h5, rfl⟩ := reads_one_iff.1 h4
      refine ⟨ps ++ [.curlyexpr (posOf env r.tail) v], ?_⟩
      unfold curlyBody
      rw [bind_peek, if_neg (by rw [h1]; decide), if_pos h1, bind_get, bind_getpos, ok_bind]
      refine ⟨v, r1, h2, ?_⟩
      rw [bind_skipWhite]
      refine ⟨r2, h3, ?_⟩
      rw [bind_p0, if_neg (by simp [h5]), bind_seekOne h5]
      rfl

theorem nameErr_iff : NameErr env fn r msg q ↔
    (∃ v r1, Reads r v r1 ∧ Many1 isnamec v ∧ (headSym r1).is isnamec = false ∧ NameErr env fn r1 msg q) ∨
    headSym r = .ch '{' ∧ (GErr env fn 1 r.tail msg q ∨ ∃ e r1, Gram env fn 1 r.tail e r1 ∧ ∃ r2, Skip r1 r2 ∧
      (headSym r2 ≠ .ch '}' ∧ msg = cs!"unexpected token: " ++ (headSym r2).str ∧ q = posOf env r2 ∨
        ∃ r3, Reads r2 ['}'] r3 ∧ NameErr env fn r3 msg q)) := by
  constructor
  · intro h
    cases h with
    | text h1 h2 h3 h4 => exact .inl ⟨_, _, h1, h2, h3, h4⟩
    | expr h1 h2 =>
      obtain ⟨h0, rfl⟩ := reads_one_iff.1 h1
      exact .inr ⟨h0, .inl h2⟩
    | close h1 h2 h3 h4 =>
      obtain ⟨h0, rfl⟩ := reads_one_iff.1 h1
      exact .inr ⟨h0, .inr ⟨_, _, h2, _, h3, .inl ⟨h4, rfl, rfl⟩⟩⟩
    | more h1 h2 h3 h4 h5 =>
      obtain ⟨h0, rfl⟩ := reads_one_iff.1 h1
      exact .inr ⟨h0, .inr ⟨_, _, h2, _, h3, .inr ⟨_, h4, h5⟩⟩⟩
  · rintro (⟨v, r1, h1, h2, h3, h4⟩ | ⟨h1, h2 | ⟨e, r1, h2, r2, h3, ⟨h4, rfl, rfl⟩ | ⟨r3, h4, h5⟩⟩⟩)
    · exact .text h1 h2 h3 h4
    · exact .expr (headSym_reads h1) h2
    · exact .close (headSym_reads h1) h2 h3 h4
    · exact .more (headSym_reads h1) h2 h3 h4 h5

theorem many1_lt {f : Char → Bool} {v : Str} {r1 : List Cell} (h : Many1 f v) (h1 : Reads r v r1) : r1.length < r.length := by
  obtain ⟨pre, rfl, hp⟩ := h1
  have : pre ≠ [] := by rintro rfl; simp at hp; exact h.1 hp
  have := List.length_pos_iff.2 this
  simp; omega

theorem nameLoop_bad (H : RecB env fn n rec) (he : EnvOK env) {ps : List VExpr} (hs : Suf env r) (hn : r.length ≤ n) :
    Bad env (loop (curlyBody rec) ps) r msg q ↔ NameErr env fn r msg q := by
  refine bad_loop_iff (D := fun _ r => Suf env r ∧ r.length ≤ n) (B := fun _ r => NameErr env fn r msg q) ?_ ?_ ⟨hs, hn⟩
  · rintro s r s1 r' ⟨hs, hn⟩ h
    rcases (curlyBody_inl H he hs hn).1 ⟨s1, h⟩ with ⟨v, h1, h2, _⟩ | ⟨h1, e, r1, r2, h2, h3, h4⟩
    · have := many1_lt h2 h1
      exact ⟨this, h1.adv.suffix.trans hs, by omega⟩
    · obtain ⟨h5, rfl⟩ := reads_one_iff.1 h4
      have l1 := tail_len h1
      have hs1 := h2.sadv he (tail_suf' hs)
      have l2 := hs1.lt
      have l3 := h3.adv.suffix.length_le
      have l4 := tail_len h5
      exact ⟨by omega, tail_suf' (h3.adv.suffix.trans (hs1.suf (tail_suf' hs))), by omega⟩
  · rintro s r ⟨hs, hn⟩
    rw [nameErr_iff, curlyBody_bad H he hs hn]
    constructor
    · rintro (⟨v, r1, h1, h2, h3, h4⟩ | ⟨h1, h2 | ⟨e, r1, h2, r2, h3, h4 | ⟨r3, h4, h5⟩⟩⟩)
      · obtain ⟨s1, h5⟩ := (curlyBody_inl H he hs hn (ps := s)).2 (.inl ⟨v, h1, h2, h3⟩)
        exact .inr ⟨s1, r1, h5, h4⟩
      · exact .inl ⟨h1, .inl h2⟩
      · exact .inl ⟨h1, .inr ⟨e, r1, h2, r2, h3, h4⟩⟩
      · obtain ⟨s1, h6⟩ := (curlyBody_inl H he hs hn (ps := s)).2 (.inr ⟨h1, e, r1, r2, h2, h3, h4⟩)
        exact .inr ⟨s1, r3, h6, h5⟩
    · rintro (⟨h1, h2 | ⟨e, r1, h2, r2, h3, h4⟩⟩ | ⟨s1, r', h1, h2⟩)
      · exact .inr ⟨h1, .inl h2⟩
      · exact .inr ⟨h1, .inr ⟨e, r1, h2, r2, h3, .inl h4⟩⟩
      · rcases (curlyBody_inl H he hs hn).1 ⟨s1, h1⟩ with ⟨v, h3, h4, h5⟩ | ⟨h3, e, r1, r2, h4, h5, h6⟩
        · exact .inl ⟨v, r', h3, h4, h5, h2⟩
        · exact .inr ⟨h3, .inr ⟨e, r1, h4, r2, h5, .inr ⟨r', h6, h2⟩⟩⟩

theorem sid_iff : headSym r = .ch '<' ∧ equalci (getnS 5 r).1 cs!"<SID>" = true ↔
    ∃ v r1, Reads r v r1 ∧ equalci v cs!"<SID>" = true := by
  constructor
  · rintro ⟨_, h⟩
    exact ⟨_, _, getnS_reads 5 r, h⟩
  · rintro ⟨v, r1, h1, h2⟩
    obtain ⟨s, rfl, _, h3⟩ := sid_cons h2
    have h4 := getnS_of_reads h1
    rw [List.length_cons, h3] at h4
    rw [h4]
    exact ⟨(Starts.of_reads h1).1, h2⟩

theorem sid_pos {v : Str} {r1 : List Cell} (h1 : Reads r v r1) (h2 : equalci v cs!"<SID>" = true) :
    getnS 5 r = (v, r1) := by
  obtain ⟨s, rfl, _, h3⟩ := sid_cons h2
  have h4 := getnS_of_reads h1
  rw [List.length_cons, h3] at h4
  exact h4

theorem Spec.NameErr.head (h : NameErr env fn r msg q) : (headSym r).is isnamec = true ∨ headSym r = .ch '{' := by
  rcases nameErr_iff.1 h with ⟨v, r1, h1, h2, _⟩ | ⟨h1, _⟩
  · exact .inl (headSym_many1 h2 h1)
  · exact .inr h1

theorem Spec.NameErr.stop (h : NameErr env fn r msg q) : (headSym r).is iswhite = false := by
  rcases h.head with h | h
  · cases hc : headSym r with
    | ch c =>
      rw [hc] at h
      exact namec_white h
    | _ => rfl
  · rw [h]; decide

theorem parseCurlyParts_bad (H : RecB env fn n rec) (he : EnvOK env) (hs : Suf env r) (hn : r.length ≤ n) :
    Bad env (parseCurlyParts rec) r msg q ↔
      (∃ v r1, Reads r v r1 ∧ equalci v cs!"<SID>" = true ∧ NameErr env fn r1 msg q) ∨ NameErr env fn r msg q := by
  have heq : parseCurlyParts rec = peek >>= fun c => getpos >>= fun q => peekn 5 >>= fun s5 =>
      if c = .ch '<' ∧ equalci s5 cs!"<SID>" = true then getn 5 >>= fun name =>
        loop (curlyBody rec) [VExpr.atom q .curlynamepart name] else loop (curlyBody rec) [] := by
    unfold parseCurlyParts
    refine congrArg _ (funext fun c => congrArg _ (funext fun q => congrArg _ (funext fun s => ?_)))
    by_cases h : c = .ch '<' ∧ equalci s cs!"<SID>" = true
    · rw [if_pos h, if_pos h]; rfl
    · rw [if_neg h, if_neg h]; rfl
  rw [heq, badb_peek, badb_getpos, badb_peekn, bad_ite, badb_getn, nameLoop_bad H he hs hn]
  have hadv := getnS_adv 5 r
  rw [nameLoop_bad H he (hadv.suffix.trans hs) (by have := hadv.suffix.length_le; omega), sid_iff]
  constructor
  · rintro (⟨⟨v, r1, h1, h2⟩, h⟩ | ⟨h1, h⟩)
    · rw [sid_pos h1 h2] at h
      exact .inl ⟨v, r1, h1, h2, h⟩
    · exact .inr h
  · rintro (⟨v, r1, h1, h2, h⟩ | h)
    · refine .inl ⟨⟨v, r1, h1, h2⟩, ?_⟩
      rw [sid_pos h1 h2]; exact h
    · refine .inr ⟨?_, h⟩
      rintro h1
      have h2 := (sid_iff.2 h1).1
      rcases h.head with h3 | h3
      · rw [h2] at h3; revert h3; decide
      · rw [h2] at h3; revert h3; decide

theorem parseIdentifier_bad (H : RecB env fn n rec) (he : EnvOK env) (hs : Suf env r) (hn : r.length ≤ n) :
    Bad env (parseIdentifier rec) r msg q ↔ ∃ r1, Skip r r1 ∧
      ((∃ v r2, Reads r1 v r2 ∧ equalci v cs!"<SID>" = true ∧ NameErr env fn r2 msg q) ∨ NameErr env fn r1 msg q) := by
  unfold parseIdentifier
  rw [badb_skipWhite]
  refine exists_congr fun r1 => and_congr_right fun h1 => ?_
  have ha := h1.adv.suffix
  rw [badb_getpos, bad_bind, parseCurlyParts_bad H he (ha.trans hs) (by have := ha.length_le; omega)]
  constructor
  · rintro (h | ⟨ps, r2, _, h⟩)
    · exact h
    · split at h <;> cases h
  · exact .inl

/-! ### Bare keys -/

theorem litLoop_bad {s : Str} : ∀ {r r1 : List Cell} (m : Nat) (acc : Str), Reads r s r1 → (∀ c ∈ s, isLitKeyC c = true) →
    AtEnd r1 → r.length < m → Bad env (loopN litKeyBody m acc) r cs!"unexpectd EOL" (posOf env r1) := by
  induction s with
  | nil =>
    intro r r1 m acc h1 _ h3 hm
    obtain rfl := h1.nil_inv
    obtain ⟨m, rfl⟩ : ∃ k, m = k + 1 := ⟨m - 1, by omega⟩
    refine bad_bind.2 (.inl ?_)
    unfold litKeyBody
    rw [badb_p0]
    match r, h3 with
    | [], _ => exact bad_errHere.2 ⟨rfl, rfl⟩
    | ⟨none, p⟩ :: t, _ => exact bad_errHere.2 ⟨rfl, rfl⟩
    | ⟨some c, p⟩ :: t, h => exact absurd h not_atEnd_some
  | cons c s ih =>
    intro r r1 m acc h1 h2 h3 hm
    obtain ⟨q, t, rfl, h4⟩ := h1.cons_inv
    obtain ⟨m, rfl⟩ : ∃ k, m = k + 1 := ⟨m - 1, by omega⟩
    refine bad_bind.2 (.inr ⟨.inl (acc ++ [c]), t, ?_, ih m (acc ++ [c]) h4 (fun c hc => h2 c (by simp [hc])) h3
      (by simp at hm; omega)⟩)
    unfold litKeyBody
    rw [bind_p0]
    show Ok env (if isLitKeyC c = true then _ else _) _ _ _
    rw [if_pos (h2 c (by simp))]
    rfl

theorem litKey_eq : parseDictLiteralKey = skipWhite >>= fun _ => peek >>= fun c =>
    if (!c.is isLitKeyC) = true then errHere (cs!"unexpected character: " ++ c.str)
    else seekCur 1 >>= fun _ => getpos >>= fun q => loop litKeyBody c.str >>= fun s =>
      pure (.atom q .string (cs!"'" ++ s ++ cs!"'")) := rfl

/-- What `parseDictLiteralKey` does. -/
theorem litKey_cases (env : Env) (r : List Cell) : ∃ r1, Skip r r1 ∧
    ((headSym r1).is isLitKeyC = false ∧
        Bad env parseDictLiteralKey r (cs!"unexpected character: " ++ (headSym r1).str) (posOf env r1) ∨
      ∃ v r2, Reads r1 v r2 ∧ Many1 isLitKeyC v ∧ (headSym r2).is isLitKeyC = false ∧
        (AtEnd r2 ∧ Bad env parseDictLiteralKey r cs!"unexpectd EOL" (posOf env r2) ∨
          (∃ c, headSym r2 = .ch c ∧ isLitKeyC c = false) ∧
            Ok env parseDictLiteralKey r (.atom (posOf env r1.tail) .string (cs!"'" ++ v ++ cs!"'")) r2)) := by
  obtain ⟨r1, h1⟩ := skip_total r
  refine ⟨r1, h1, ?_⟩
  by_cases hk : (headSym r1).is isLitKeyC = true
  · right
    obtain ⟨v, r2, h2⟩ := span_total isLitKeyC r1
    have hv : Many1 isLitKeyC v := by
      refine ⟨?_, h2.2.1⟩
      rintro rfl
      rw [h2.1.nil_inv, h2.2.2] at hk
      cases hk
    refine ⟨v, r2, h2.1, hv, h2.2.2, ?_⟩
    obtain ⟨c, hc, hkc⟩ := Sym.is_ch hk
    cases v with
    | nil => exact absurd rfl hv.1
    | cons c' v =>
      obtain ⟨q, t, rfl, h4⟩ := h2.1.cons_inv
      cases hc
      by_cases hend : AtEnd r2
      · refine .inl ⟨hend, ?_⟩
        rw [litKey_eq, badb_skipWhite]
        refine ⟨_, h1, ?_⟩
        rw [badb_peek, if_neg (by simp [hk]), badb_seek1 (c := c) rfl, badb_getpos, bad_bind]
        exact .inl (litLoop_bad _ _ h4 (fun c hc => hv.2 c (by simp [hc])) hend (by simp))
      · have hx : ∃ c, headSym r2 = .ch c ∧ isLitKeyC c = false := by
          match r2, hend, h2.2.2 with
          | [], h, _ => exact absurd atEnd_nil h
          | ⟨none, _⟩ :: _, h, _ => exact absurd atEnd_none h
          | ⟨some c, _⟩ :: _, _, h => exact ⟨c, rfl, h⟩
        refine .inr ⟨hx, ?_⟩
        obtain ⟨c2, hc2, hl⟩ := hx
        rw [litKey_eq, bind_skipWhite]
        refine ⟨_, h1, ?_⟩
        rw [bind_peek, if_neg (by simp [hk]), bind_seekOne (c := c) rfl, bind_getpos, ok_bind]
        exact ⟨_, _, litKeyLoop_run [c] _ h4 (fun c hc => hv.2 c (by simp [hc])) hc2 hl (by simp), rfl⟩
  · refine .inl ⟨by simpa using hk, ?_⟩
    rw [litKey_eq, badb_skipWhite]
    refine ⟨_, h1, ?_⟩
    rw [badb_peek, if_pos (by simpa using hk)]
    exact bad_errHere.2 ⟨rfl, rfl⟩

theorem Bad.no {α : Type} {m : Prog α} {a : α} {r1 : List Cell} (h : Bad env m r msg q) (h1 : Ok env m r a r1) : False := by
  unfold Bad at h
  rw [h1] at h
  cases h

theorem Bad.det {α : Type} {m : Prog α} {msg' : Str} {q' : Pos} (h : Bad env m r msg q) (h1 : Bad env m r msg' q') :
    msg = msg' ∧ q = q' := by
  unfold Bad at h
  rw [h1] at h
  cases h
  exact ⟨rfl, rfl⟩

theorem Spec.Blanks.toSkip {r1 : List Cell} (h : Blanks r r1) (h1 : (headSym r1).is iswhite = false) : Skip r r1 := by
  obtain ⟨w, h2, h3⟩ := h
  exact ⟨w, h2, h3, h1⟩

theorem key_stop {v : Str} {r1 : List Cell} (h : Many1 isLitKeyC v) (h1 : Reads r v r1) :
    (headSym r).is iswhite = false ∧ (headSym r).is isLitKeyC = true := by
  have h2 := headSym_many1 h h1
  obtain ⟨c, hc, hk⟩ := Sym.is_ch h2
  exact ⟨by rw [hc]; exact litKeyC_white hk, h2⟩

theorem parseDictLiteralKey_bad : Bad env parseDictLiteralKey r msg q ↔ LitErr env r msg q := by
  obtain ⟨r1, h1, h2⟩ := litKey_cases env r
  constructor
  · intro h
    rcases h2 with ⟨h2, h3⟩ | ⟨v, r2, h2, h3, h4, ⟨h5, h6⟩ | ⟨h5, h6⟩⟩
    · obtain ⟨rfl, rfl⟩ := h.det h3
      exact .start h1 h2
    · obtain ⟨rfl, rfl⟩ := h.det h6
      exact .stop h1.blanks h2 h3 h5
    · exact (h.no h6).elim
  · intro h
    cases h with
    | start k1 k2 =>
      obtain rfl := h1.det k1
      rcases h2 with ⟨h2, h3⟩ | ⟨v, r2, h2, h3, _⟩
      · exact h3
      · have h4 := (key_stop h3 h2).2
        rw [show (headSym r1).is isLitKeyC = false from k2] at h4
        cases h4
    | @stop r1' v' r2' k1 k2 k3 k4 =>
      have hst := key_stop k3 k2
      obtain rfl := h1.det (k1.toSkip hst.1)
      have k5 : (headSym r2').is isLitKeyC = false := by
        match r2', k4 with
        | [], _ => rfl
        | ⟨none, _⟩ :: _, _ => rfl
        | ⟨some c, _⟩ :: _, h => exact absurd h not_atEnd_some
      rcases h2 with ⟨h2, h3⟩ | ⟨v, r2, h2, h3, h4, h5⟩
      · rw [hst.2] at h2; cases h2
      · obtain ⟨rfl, rfl⟩ := Span.det ⟨h2, h3.2, h4⟩ ⟨k2, k3.2, k5⟩
        rcases h5 with ⟨h5, h6⟩ | ⟨⟨c, h5, _⟩, _⟩
        · exact h6
        · exfalso
          match r2, k4 with
          | [], _ => cases h5
          | ⟨none, _⟩ :: _, _ => cases h5
          | ⟨some c, _⟩ :: _, h => exact absurd h not_atEnd_some

theorem parseDictLiteralKey_ok {r' : List Cell} (hx : Next env r (fun _ => True)) :
    (∃ k, Ok env parseDictLiteralKey r k r') ↔ WholeKey env fn true r r' := by
  obtain ⟨r1, h1, h2⟩ := litKey_cases env r
  constructor
  · rintro ⟨k, h⟩
    rcases h2 with ⟨h2, h3⟩ | ⟨v, r2, h2, h3, h4, ⟨h5, h6⟩ | ⟨h5, h6⟩⟩
    · exact (h3.no h).elim
    · exact (h6.no h).elim
    · obtain ⟨rfl, rfl⟩ := h.det h6
      exact ⟨_, .lit ⟨hx, r1, v, h1.blanks, h2, h3, rfl⟩, fun _ => h5⟩
  · rintro ⟨k, hk, hc⟩
    cases hk with
    | lit hk =>
      obtain ⟨_, r1', v', k1, k2, k3, _⟩ := hk
      have hst := key_stop k3 k2
      obtain rfl := h1.det (k1.toSkip hst.1)
      obtain ⟨c, hc1, hc2⟩ := hc rfl
      rcases h2 with ⟨h2, h3⟩ | ⟨v, r2, h2, h3, h4, h5⟩
      · rw [hst.2] at h2; cases h2
      · obtain ⟨rfl, rfl⟩ := Span.det ⟨h2, h3.2, h4⟩ ⟨k2, k3.2, by rw [hc1]; exact hc2⟩
        rcases h5 with ⟨h5, h6⟩ | ⟨_, h6⟩
        · exfalso
          match r2, h5 with
          | [], _ => cases hc1
          | ⟨none, _⟩ :: _, _ => cases hc1
          | ⟨some c, _⟩ :: _, h => exact absurd h not_atEnd_some
        · exact ⟨_, h6⟩

end
end Viml
