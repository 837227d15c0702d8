/-
C78: a comment behind a command.
-/
import Verif.Lemmas.NoteAt
import Verif.Props.Bar

namespace Viml.Props
open Spec

variable {nv : Bool} {fn : Str} {A B : List Str} {n s t : Str} {c : Cmd}

theorem start_note (hn : n ≠ []) {f : Ast.File} (h : isCont (n ++ s) = false) (h' : isCont (n ++ s ++ '"' :: t) = false)
    (hB : ∀ x, B.head? = some x → afterBackslash x = none) (hf : Script nv (mkEnv (A ++ (n ++ s) :: B)) fn f) :
    here (mkEnv (A ++ (n ++ s ++ '"' :: t) :: B)) fn (mkEnv (A ++ (n ++ s ++ '"' :: t) :: B)).buf = f.start := by
  obtain ⟨_, _, e⟩ := hf
  rw [e]
  rw [show (mkEnv (A ++ (n ++ s ++ '"' :: t) :: B)).buf = _ from dst_buf h' hB,
    show (mkEnv (A ++ (n ++ s) :: B)).buf = _ from src_buf h hB]
  have key : ∀ (X Y : List Cell), X ≠ [] → ∀ (E E' : Env) Y', here E' fn (X ++ Y') = here E fn (X ++ Y) := by
    intro X Y hX E E' Y'
    cases X with
    | nil => exact absurd rfl hX
    | cons x X => rfl
  rw [← List.append_assoc, ← List.append_assoc]
  refine key _ _ ?_ _ _ _
  intro e
  have := congrArg (List.map Cell.c) (List.append_eq_nil_iff.1 e).2
  rw [lineC_text] at this
  cases n with
  | nil => exact hn rfl
  | cons => cases this

/-- C78.  If a file is accepted, it is accepted with a comment behind the line `n ++ s`; the comment is one more statement,
and the others are the same, those of the following lines moved. -/
theorem C78_tree (nv : Bool) (fn : Str) (A : List Str) (n s t : Str) (B : List Str) (c : Cmd) (f : Ast.File)
    (hA : Between nv fn A) (ht : TableCmd nv n c) (hs : NoteLine c s) (hp : Plain (n ++ s))
    (hB : ∀ x, B.head? = some x → afterBackslash x = none)
    (h : parseFileLines nv fn (A ++ (n ++ s) :: B) = some ⟨some f, none⟩) :
    ∃ b, Into [noteAt fn A (n ++ s) t] (Ast.Stmt.onPosL (noteBy A t B) f.body) b ∧
      parseFileLines nv fn (A ++ (n ++ s ++ '"' :: t) :: B) = some ⟨some ⟨f.start, b⟩, none⟩ := by
  obtain ⟨ι, h1, _, _, h3⟩ := noted (t := t) hA rfl ht hs.cmd (barLine_stops hs.line) hp hB (barLine_ok hs.line) hs.value
  have h := (C52_lines ..).1 h
  obtain ⟨ss, h5, h6⟩ := ι.script h
  have hsp : Spells nv n s c := bar_spells ht (note_bar _ hs.cmd) (barLine_stops hs.line)
  have w := letter_noCont (s := s) hsp.letters.1 hsp.letters.2
  have w' := letter_noCont (s := s ++ '"' :: t) hsp.letters.1 hsp.letters.2
  rw [← List.append_assoc] at w'
  rw [start_note hsp.letters.1 (noCont_iff.2 w) (noCont_iff.2 w') hB h] at h6
  rw [h1, h3] at h5
  exact ⟨ss, h5, (C52_lines ..).2 h6⟩

/-- C78.  If the file is rejected, and not because of the lines up to `n ++ s`, it is rejected with the comment, with the same
message at the same line and column. -/
theorem C78_error (nv : Bool) (fn : Str) (A : List Str) (n s t : Str) (B : List Str) (c : Cmd) (e : ApiErr)
    (hA : Between nv fn A) (hA' : Between nv fn (A ++ [n ++ s])) (ht : TableCmd nv n c) (hs : NoteLine c s)
    (hp : Plain (n ++ s)) (hB : ∀ x, B.head? = some x → afterBackslash x = none)
    (h : parseFileLines nv fn (A ++ (n ++ s) :: B) = some ⟨none, some e⟩) :
    parseFileLines nv fn (A ++ (n ++ s ++ '"' :: t) :: B) = some ⟨none, some (errNote A t e)⟩ := by
  obtain ⟨ι, _, h2, h3, _⟩ := noted (t := t) hA rfl ht hs.cmd (barLine_stops hs.line) hp hB (barLine_ok hs.line) hs.value
  obtain ⟨cx', b', used', front⟩ := between_front (B := B) hA' hB
  have hsp : Spells nv n s c := bar_spells ht (note_bar _ hs.cmd) (barLine_stops hs.line)
  have w := letter_noCont (s := s) hsp.letters.1 hsp.letters.2
  have hx : A ++ [n ++ s] ++ B = A ++ (n ++ s) :: B := by simp
  have hlen : ¬ ι.κ.q0 <:+ restB (A ++ [n ++ s]) B := by
    intro hq
    have h1 := hq.length_le
    have h4 := congrArg List.length (src_rest (A := A) (noCont_iff.2 w) hB)
    rw [h3] at h1
    simp only [List.length_append, List.length_cons] at h4
    omega
  rw [hx] at front
  rcases C55_total nv fn (A ++ (n ++ s) :: B) with ⟨g, h0⟩ | ⟨m, q, h0⟩ | h0
  · rw [(C52_lines ..).2 h0] at h
    cases h
  · have h5 := ι.fileErr (fun h1 h4 _ => absurd (front_lineErr h1 h4 front) hlen) h0
    rw [h2] at h5
    rw [(C54_lines nv fn _ none fn q.i q.lnum q.col m).2 ⟨rfl, rfl, q, rfl, rfl, rfl, h0⟩] at h
    cases h
    have e : ∃ i k col o, notePos A t B q = ⟨i, k, col, o⟩ ∧
        errNote A t (.parse fn q.i q.lnum q.col m) = .parse fn i k col m := by
      unfold notePos
      show ∃ i k col o, _ ∧ (if q.lnum ≤ A.length + 1 then ApiErr.parse fn q.i q.lnum q.col m else
        .parse fn (q.i + (t.length + 1)) q.lnum q.col m) = _
      split
      · exact ⟨_, _, _, _, rfl, rfl⟩
      · exact ⟨_, _, _, _, rfl, rfl⟩
    obtain ⟨i, k, col, o, e1, e2⟩ := e
    rw [e1] at h5
    rw [e2]
    exact (C54_lines nv fn _ none fn i k col m).2 ⟨rfl, rfl, ⟨i, k, col, o⟩, rfl, rfl, rfl, h5⟩
  · rw [(other_lines nv fn _ none).2 ⟨rfl, h0⟩] at h
    cases h
    exact (other_lines nv fn _ none).2 ⟨rfl, ι.numErr (fun h1 h4 _ => absurd (front_lineNum h1 h4 front) hlen) h0⟩

/-- C78.  If the lines up to `n ++ s` are right, both files are accepted or both are rejected. -/
theorem C78_accepted (nv : Bool) (fn : Str) (A : List Str) (n s t : Str) (B : List Str) (c : Cmd)
    (hA : Between nv fn A) (hA' : Between nv fn (A ++ [n ++ s])) (ht : TableCmd nv n c) (hs : NoteLine c s)
    (hp : Plain (n ++ s)) (hB : ∀ x, B.head? = some x → afterBackslash x = none) :
    (∃ g, parseFileLines nv fn (A ++ (n ++ s ++ '"' :: t) :: B) = some ⟨some g, none⟩) ↔
      ∃ f, parseFileLines nv fn (A ++ (n ++ s) :: B) = some ⟨some f, none⟩ := by
  constructor
  · rintro ⟨g, h⟩
    rcases parseFileLines_good nv fn (A ++ (n ++ s) :: B) with ⟨f, h0, _⟩ | ⟨m, q, h0, _⟩ | ⟨h0, _⟩
    · exact ⟨f, h0⟩
    · rw [C78_error nv fn A n s t B c _ hA hA' ht hs hp hB h0] at h
      cases h
    · rw [C78_error nv fn A n s t B c _ hA hA' ht hs hp hB h0] at h
      cases h
  · rintro ⟨f, h⟩
    obtain ⟨b, _, h⟩ := C78_tree nv fn A n s t B c f hA ht hs hp hB h
    exact ⟨_, h⟩

/-! ### Examples -/

/-- How many statements are in the functions. -/
def inside (r : Option (ApiRes Ast.File)) : Option (List Nat) :=
  (r.bind (·.node)).map fun f => f.body.map fun
    | .function _ _ b _ _ _ _ _ => b.length
    | _ => 0

/-- A comment behind `return` in a function, in the body of which it is one more statement. -/
example : Between false cs!"f" [cs!"function F()"] ∧ Between false cs!"f" ([cs!"function F()"] ++ [cs!"return" ++ cs!" \"a\" . b "]) ∧
    TableCmd false cs!"return" (barCmd cs!"return") ∧ NoteLine (barCmd cs!"return") cs!" \"a\" . b " ∧
    Plain (cs!"return" ++ cs!" \"a\" . b ") ∧
    inside (parseFileLines false cs!"f" ([cs!"function F()"] ++ (cs!"return" ++ cs!" \"a\" . b ") :: [cs!"endfunction"])) = some [1] ∧
    inside (parseFileLines false cs!"f" ([cs!"function F()"] ++ (cs!"return" ++ cs!" \"a\" . b " ++ '"' :: cs!" say | \"so\"") :: [cs!"endfunction"])) = some [2] := by
  obtain ⟨e, h⟩ := phrase_of_run (l := cs!"\"a\" . b ") (w := cs!" ") (by decide +kernel) (by simp [iswhite])
  exact ⟨between_of (o := 13) (by decide +kernel), between_of (o := 29) (by decide +kernel), barCmd_of (by decide +kernel),
    ⟨.expr (by decide +kernel) h, by decide +kernel, fun _ => ⟨_, _, rfl, h⟩⟩, plain_of (by decide) (by decide),
    by decide +kernel, by decide +kernel⟩

/-- A comment behind `if`, and an error in a later line. -/
example : Between false cs!"f" [] ∧ Between false cs!"f" ([] ++ [cs!"if" ++ cs!" x == 1"]) ∧
    TableCmd false cs!"if" (barCmd cs!"if") ∧ NoteLine (barCmd cs!"if") cs!" x == 1" ∧ Plain (cs!"if" ++ cs!" x == 1") ∧
    errOf (parseFileLines false cs!"f" ([] ++ (cs!"if" ++ cs!" x == 1") :: [cs!"echo ("])) =
      some (.parse cs!"f" 16 2 7 cs!"unexpected token: <EOL>") ∧
    errOf (parseFileLines false cs!"f" ([] ++ (cs!"if" ++ cs!" x == 1" ++ '"' :: cs!" why") :: [cs!"echo ("])) =
      some (.parse cs!"f" 21 2 7 cs!"unexpected token: <EOL>") := by
  exact ⟨between_of (o := 0) (by decide +kernel), between_of (o := 10) (by decide +kernel), barCmd_of (by decide +kernel),
    ⟨.quiet (by decide +kernel) (by decide +kernel) (by decide +kernel) (by rintro _ ⟨⟩; decide) (by decide) (by decide),
      by decide +kernel, fun e => absurd e (by decide +kernel)⟩, plain_of (by decide) (by decide), by decide +kernel, by decide +kernel⟩

/-- Behind `echo` a string starts, and behind `return` without a value, too. -/
example : errOf (parseFileLines false [] [cs!"echo a"]) = none ∧ errOf (parseFileLines false [] [cs!"echo a \" b"]) ≠ none ∧
    errOf (parseFileLines false [] [cs!"function F()", cs!"return", cs!"endfunction"]) = none ∧
    errOf (parseFileLines false [] [cs!"function F()", cs!"return \" b", cs!"endfunction"]) ≠ none := by decide +kernel

/-- A register, a text, and a line that goes on. -/
example : sizes (parseFileLines false [] [cs!"let x = @"]) = some [0] ∧ sizes (parseFileLines false [] [cs!"let x = @\" b"]) = none ∧
    sizes (parseFileLines false [] [cs!"normal x"]) = some [0] ∧ sizes (parseFileLines false [] [cs!"normal x \" b"]) = some [0] ∧
    errOf (parseFileLines false [] [cs!"if 1", cs!" \\ + 2", cs!"endif"]) = none ∧
    errOf (parseFileLines false [] [cs!"call f(", cs!" \\ 2)"]) = none ∧
    errOf (parseFileLines false [] [cs!"call f( \" b", cs!" \\ 2)"]) ≠ none := by decide +kernel

end Viml.Props
