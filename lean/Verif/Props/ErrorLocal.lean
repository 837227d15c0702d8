/-
C64: an error does not depend on the lines behind it.
-/
import Verif.Lemmas.LocalCut
import Verif.Spec.ErrorLocal
import Verif.Props.Concat
import Verif.Props.Error
import Verif.Props.FileError

namespace Viml.Props
open Spec

/-! ### Lines whose first token can be read -/

theorem readable_iff (B : List Str) : Readable B ↔ ∃ t r, tokGet (mkEnv B) (mkEnv B).buf = .ok t r := by
  have he := mkEnv_ok B
  have hs : Suf (mkEnv B) (mkEnv B).buf := List.suffix_refl _
  constructor
  · intro h
    rcases lex_total he hs with h1 | ⟨t, r, h1⟩
    · exact absurd h1 h
    · exact ⟨t, r, (tokGet_iff he hs _ _).2 h1⟩
  · rintro ⟨t, r, h⟩ ⟨m, q, h1⟩
    have := (tokErr_iff he hs _).2 ⟨m, q, rfl, h1⟩
    rw [h] at this
    cases this

theorem joinFrom_prefix (l : Str) : ∀ ls, ∃ s ts, joinFrom l ls = (l ++ s) :: ts := by
  intro ls
  induction ls generalizing l with
  | nil => exact ⟨[], [], by simp [joinFrom]⟩
  | cons x ls ih =>
    unfold joinFrom
    split
    · rename_i y _
      obtain ⟨s, ts, h⟩ := ih (l ++ y)
      exact ⟨y ++ s, ts, by rw [h, List.append_assoc]⟩
    · exact ⟨[], _, by rw [List.append_nil]⟩

/-- The first character that is no blank. -/
theorem head_after : ∀ (w w' : Str) (c : Option Char) (c' : Char) (s t : List (Option Char)), (∀ x ∈ w, iswhite x = true) →
    (∀ x, c = some x → iswhite x = false) → (∀ x ∈ w', iswhite x = true) → iswhite c' = false →
    w.map some ++ c :: s = w'.map some ++ some c' :: t → c = some c'
  | [], [], c, c', s, t, _, _, _, _, h => by simp at h; exact h.1
  | [], x :: w', c, c', s, t, _, hc, hw, _, h => by
    simp only [List.map_nil, List.nil_append, List.map_cons, List.cons_append, List.cons.injEq] at h
    have := hc x h.1
    rw [hw x (by simp)] at this
    cases this
  | x :: w, [], c, c', s, t, hw, _, _, hc, h => by
    simp only [List.map_nil, List.nil_append, List.map_cons, List.cons_append, List.cons.injEq, Option.some.injEq] at h
    rw [← h.1, hw x (by simp)] at hc
    cases hc
  | x :: w, y :: w', c, c', s, t, h1, h2, h3, h4, h => by
    simp only [List.map_cons, List.cons_append, List.cons.injEq] at h
    exact head_after w w' c c' s t (fun z hz => h1 z (by simp [hz])) h2 (fun z hz => h3 z (by simp [hz])) h4 h.2

/-- Lines that start, after blanks, with a character that starts a token and is no digit, or with a line end. -/
theorem readable_of {B : List Str} {w : Str} {c : Option Char} {s : List (Option Char)}
    (hs : (mkEnv B).buf.map Cell.c = w.map some ++ c :: s) (hw : ∀ x ∈ w, iswhite x = true)
    (hc : ∀ x, c = some x → iswhite x = false ∧ isdigit x = false ∧ ¬ NoToken x) : Readable B := by
  rintro ⟨m, q, h⟩
  have key : ∀ (w' : Str) (r1 : List Cell) (c' : Char), Reads (mkEnv B).buf w' r1 →
      (∀ x ∈ w', iswhite x = true) → headSym r1 = .ch c' → iswhite c' = false → c = some c' := by
    rintro w' r1 c' ⟨pre, h1, h2⟩ h3 h4 h5
    cases r1 with
    | nil => simp [headSym] at h4
    | cons d r1 =>
      have hd : d.c = some c' := by
        cases hd : d.c with
        | none => simp [headSym, Cell.sym, hd] at h4
        | some x => simp [headSym, Cell.sym, hd] at h4; rw [h4]
      rw [h1, List.map_append, h2, List.map_cons, hd] at hs
      exact head_after w w' c c' _ _ hw (fun x hx => (hc x hx).1) h3 h5 hs.symm
  cases h with
  | char w' _ r1 c' h1 h2 h3 h4 => exact (hc _ (key w' r1 c' h1 h2 h3 h4.1)).2.2 h4
  | blob w' _ r1 z t r2 a b h1 h2 h3 h4 =>
    have : headSym r1 = .ch '0' := by
      obtain ⟨pre, rfl, h6⟩ := h4
      cases pre with
      | nil => cases h6
      | cons d pre =>
        simp only [List.map_cons, List.cons.injEq] at h6
        simp [headSym, Cell.sym, h6.1]
    have h7 := (hc _ (key w' r1 '0' h1 h2 this (by decide))).2.1
    cases h7

/-- A line that starts, after blanks, with a letter, an underscore or a punctuation character that starts a token. -/
theorem readable_word (w l : Str) (c : Char) (ls : List Str) (hw : ∀ x ∈ w, iswhite x = true)
    (hc : iswordc1 c = true ∨ c ∈ starters) : Readable ((w ++ c :: l) :: ls) := by
  obtain ⟨s, ts, h⟩ := joinFrom_prefix (w ++ c :: l) ls
  refine readable_of (w := w) (c := some c) (s := l.map some ++ s.map some ++ [none] ++ ts.flatMap fun l => l.map some ++ [none])
    ?_ hw ?_
  · rw [C01_logical_lines]
    simp [logicalLines, h]
  · rintro x ⟨⟩
    have hn : ¬ NoToken c := by
      rintro ⟨_, _, h1, h2⟩
      rcases hc with h | h
      · rw [h1] at h; cases h
      · exact h2 h
    rcases hc with h | h
    · have hd : isalpha c = true ∨ c = '_' := by simpa [iswordc1] using h
      rcases hd with hd | rfl
      · refine ⟨?_, alpha_not_digit hd, hn⟩
        cases hh : iswhite c
        · rfl
        · have : c = ' ' ∨ c = '\t' := by simpa [iswhite] using hh
          rcases this with rfl | rfl <;> revert hd <;> decide
      · exact ⟨by decide, by decide, hn⟩
    · have : ∀ c ∈ starters, iswhite c = false ∧ isdigit c = false := by decide +kernel
      exact ⟨(this c h).1, (this c h).2, hn⟩

/-- A blank line. -/
theorem readable_blank (w : Str) (ls : List Str) (hw : ∀ x ∈ w, iswhite x = true)
    (hl : ∀ l, ls.head? = some l → afterBackslash l = none) : Readable (w :: ls) := by
  have : ∃ ts, joinFrom w ls = w :: ts := by
    cases ls with
    | nil => exact ⟨[], rfl⟩
    | cons x ls => unfold joinFrom; rw [hl x rfl]; exact ⟨_, rfl⟩
  obtain ⟨ts, h⟩ := this
  refine readable_of (w := w) (c := none) (s := ts.flatMap fun l => l.map some ++ [none]) ?_ hw (fun x hx => by cases hx)
  rw [C01_logical_lines]
  simp [logicalLines, h]

/-- No lines. -/
theorem readable_nil : Readable [] := (readable_iff []).2 ⟨_, _, rfl⟩

/-! ### The property -/

/-- C64.  If a file is rejected with a parse error in its first lines `A`, then it is rejected with the same error, message,
place and all, whatever follows `A` instead. -/
theorem C64_file (nv : Bool) (fn : Str) (A B B' : List Str) (hB : ∀ l, B.head? = some l → afterBackslash l = none)
    (hB' : ∀ l, B'.head? = some l → afterBackslash l = none) (hr : Readable B') (n : Option Ast.File) (f : Str)
    (o l c : Nat) (m : Str) (h : parseFileLines nv fn (A ++ B) = some ⟨n, some (.parse f o l c m)⟩) (hl : l ≤ A.length) :
    parseFileLines nv fn (A ++ B') = some ⟨n, some (.parse f o l c m)⟩ := by
  obtain ⟨rfl, rfl, q, rfl, rfl, rfl, h1⟩ := (C54_lines ..).1 h
  exact (C54_lines ..).2 ⟨rfl, rfl, q, rfl, rfl, rfl, fileErr_local hB hB' hr h1 hl⟩

theorem errIn_some {n : Nat} {x : Option ApiErr} {e : ApiErr} (h : errIn n x = some e) :
    ∃ f o l c m, e = .parse f o l c m ∧ l ≤ n ∧ x = some e := by
  cases x with
  | none => cases h
  | some y =>
    cases y with
    | other => cases h
    | parse f o l c m =>
      unfold errIn at h
      dsimp only at h
      split at h
      · cases h
        exact ⟨f, o, l, c, m, rfl, by assumption, rfl⟩
      · cases h

theorem errIn_of {n : Nat} {f o l c m} (h : l ≤ n) : errIn n (some (.parse f o l c m)) = some (.parse f o l c m) := by
  simp [errIn, h]

/-- C64.  So the errors in the first lines are the same for all files that start with them: there is none for one of the
files if there is none for the other. -/
theorem C64_same (nv : Bool) (fn : Str) (A B B' : List Str) (hB : ∀ l, B.head? = some l → afterBackslash l = none)
    (hB' : ∀ l, B'.head? = some l → afterBackslash l = none) (hr : Readable B) (hr' : Readable B') :
    errIn A.length ((parseFileLines nv fn (A ++ B)).bind (·.err)) =
      errIn A.length ((parseFileLines nv fn (A ++ B')).bind (·.err)) := by
  have key : ∀ {B B' : List Str}, (∀ l, B.head? = some l → afterBackslash l = none) →
      (∀ l, B'.head? = some l → afterBackslash l = none) → Readable B' → ∀ e,
      errIn A.length ((parseFileLines nv fn (A ++ B)).bind (·.err)) = some e →
      errIn A.length ((parseFileLines nv fn (A ++ B')).bind (·.err)) = some e := by
    intro B B' hB hB' hr e h
    obtain ⟨f, o, l, c, m, rfl, hl, h1⟩ := errIn_some h
    rw [Option.bind_eq_some_iff] at h1
    obtain ⟨⟨n, x⟩, h1, h2⟩ := h1
    cases h2
    rw [C64_file nv fn A B B' hB hB' hr n f o l c m h1 hl]
    exact errIn_of hl
  cases h : errIn A.length ((parseFileLines nv fn (A ++ B)).bind (·.err)) with
  | some e => exact (key hB hB' hr' e h).symm
  | none =>
    cases h' : errIn A.length ((parseFileLines nv fn (A ++ B')).bind (·.err)) with
    | none => rfl
    | some e => rw [key hB' hB hr e h'] at h; cases h

/-- C64.  Nothing behind the error is needed to see it: a file that is cut off behind the logical line of its error is
rejected with the same error. -/
theorem C64_cut (nv : Bool) (fn : Str) (A B : List Str) (hB : ∀ l, B.head? = some l → afterBackslash l = none)
    (n : Option Ast.File) (f : Str) (o l c : Nat) (m : Str)
    (h : parseFileLines nv fn (A ++ B) = some ⟨n, some (.parse f o l c m)⟩) (hl : l ≤ A.length) :
    parseFileLines nv fn A = some ⟨n, some (.parse f o l c m)⟩ := by
  have := C64_file nv fn A B [] hB (by simp) readable_nil n f o l c m h hl
  rwa [List.append_nil] at this

/-- C64 for bytes: lines with their line ends, followed by anything. -/
theorem C64_bytes (nv : Bool) (fn : Str) (segs : List (List UInt8)) (b b' : List UInt8)
    (hs : ∀ l ∈ segs, 10 ∉ l ∧ l.length < 65536)
    (hB : ∀ l, ((readlines b).map decodeUtf8).head? = some l → afterBackslash l = none)
    (hB' : ∀ l, ((readlines b').map decodeUtf8).head? = some l → afterBackslash l = none)
    (hr : Readable ((readlines b').map decodeUtf8)) (n : Option Ast.File) (f : Str) (o l c : Nat) (m : Str)
    (h : parseFile nv fn (segs.flatMap (fun l => l ++ [10]) ++ b) = some ⟨n, some (.parse f o l c m)⟩)
    (hl : l ≤ segs.length) :
    parseFile nv fn (segs.flatMap (fun l => l ++ [10]) ++ b') = some ⟨n, some (.parse f o l c m)⟩ := by
  have e : (readlines (segs.flatMap fun l => l ++ [10])).length = segs.length := by
    have := C39_lines segs [] (fun s h => (hs s h).1) (by simp)
    rw [List.append_nil] at this
    have h1 : ∀ ss : List (List UInt8), (∀ s ∈ ss, s.length < 65536) →
        (ss.takeWhile fun s => decide (s.length < 65536)) = ss := by
      intro ss h
      induction ss with
      | nil => rfl
      | cons s ss ih => simp [h s (by simp), ih fun x hx => h x (by simp [hx])]
    rw [this, show linesOf segs [] = segs by simp [linesOf], h1 segs fun s h => (hs s h).2, List.length_map]
  unfold parseFile at h ⊢
  rw [readlines_append segs _ hs, List.map_append] at h ⊢
  exact C64_file nv fn _ _ _ hB hB' hr n f o l c m h (by rw [List.length_map, e]; exact hl)

/-- C64 for expressions. -/
theorem C64_expr (A B B' : List Str) (hB : ∀ l, B.head? = some l → afterBackslash l = none)
    (hB' : ∀ l, B'.head? = some l → afterBackslash l = none) (hr : Readable B') (n : Option Ast.Expr) (f : Str)
    (o l c : Nat) (m : Str) (h : parseExprLines (A ++ B) = some ⟨n, some (.parse f o l c m)⟩) (hl : l ≤ A.length) :
    parseExprLines (A ++ B') = some ⟨n, some (.parse f o l c m)⟩ := by
  obtain ⟨rfl, h1⟩ : n = none ∧ parseExprLines (A ++ B) = some ⟨none, some (.parse f o l c m)⟩ := by
    rcases parseExprLines_good (A ++ B) with ⟨a, h1, _⟩ | ⟨msg, q, h1, _⟩
    · rw [h1] at h; cases h
    · have h2 := h
      rw [h1] at h2
      injection h2 with h2
      injection h2 with h2
      exact ⟨h2.symm, by rw [h, h2]⟩
  obtain ⟨m', q', h2, h3⟩ := (C53_lines _ _).1 h1
  have h4 : l = q'.lnum := by injection h2
  exact (C53_lines _ _).2 ⟨m', q', h2, gErr_local hB hB' hr h3 (by rw [← h4]; exact hl)⟩

/-- C64.  The condition on what follows cannot be dropped: behind a `{` at the end of a line the parser looks at the first
token of the next line, so that an error in the first line becomes another error in the second. -/
theorem C64_lookahead : ∃ A B B' : List Str, (∀ l, B.head? = some l → afterBackslash l = none) ∧
    (∀ l, B'.head? = some l → afterBackslash l = none) ∧
    fileErr (A ++ B) = some (cs!"unexpected token: <EOL>", 6, 1, 7) ∧
    fileErr (A ++ B') = some (cs!"unexpected character: ~", 7, 2, 1) :=
  ⟨[cs!"echo {"], [cs!"echo 1"], [cs!"~ 1"], by decide +kernel, by decide +kernel, by decide +kernel, by decide +kernel⟩

/-! ### Examples -/

/-- Lines with an error at the end of an open block, with a continuation line, and what may follow them. -/
def cutA : List Str := [cs!"function F(a)", cs!"  if a:a", cs!"    let x = [1,", cs!"      \\ (2]", cs!"  endif"]
def cutB : List (List Str) := [[], [cs!"endfunction"], [cs!"", cs!"~"], [cs!"\t\"x"], [cs!"xyzzy {"]]

example : cutB.map (fun B => fileErr (cutA ++ B)) =
    List.replicate 5 (some (cs!"unexpected token: ]", 41, 4, 11)) := by decide +kernel

/-- The hypotheses of C64 for these lines. -/
example : (∀ B ∈ cutB, ∀ l, B.head? = some l → afterBackslash l = none) ∧ ∀ B ∈ cutB, Readable B := by
  refine ⟨by decide +kernel, ?_⟩
  intro B hB
  simp only [cutB, List.mem_cons, List.not_mem_nil, or_false] at hB
  rcases hB with rfl | rfl | rfl | rfl | rfl
  · exact readable_nil
  · exact readable_word [] cs!"ndfunction" 'e' [] (by simp) (by decide)
  · exact readable_blank [] [cs!"~"] (by simp) (by decide +kernel)
  · exact readable_word ['\t'] cs!"x" '"' [] (by decide) (by decide)
  · exact readable_word [] cs!"yzzy {" 'x' [] (by simp) (by decide)

/-- The condition on continuation lines is needed. -/
example : fileErr ([cs!"echo 1 +"] ++ [cs!"echo"]) = some (cs!"unexpected token: <EOL>", 8, 1, 9) ∧
    fileErr ([cs!"echo 1 +"] ++ [cs!"\\ 2"]) = none := by decide +kernel

/-- Errors of expressions. -/
example : [[], [cs!"]"], [cs!"x", cs!"y"]].map (fun B => exprErr ([cs!"[1,", cs!"\\ (2]"] ++ B)) =
    List.replicate 3 (some (cs!"unexpected token: ]", 6, 2, 5)) := by decide +kernel

end Viml.Props
