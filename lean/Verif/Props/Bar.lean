/-
C77: a bar is as good as the end of a line.
-/
import Verif.Lemmas.BarOk
import Verif.Props.Indent
import Verif.Props.Phrase
import Verif.Props.Respell

namespace Viml.Props
open Spec

variable {nv : Bool} {fn : Str} {A B : List Str} {n s l2 : Str} {c : Cmd}

theorem barLine_cmd (h : BarLine c s) : c.name ∈ barCmds := by
  cases h with
  | quiet h => exact h
  | expr h => exact phrase_bar _ h
  | assign h => rcases h with h | ⟨h, _⟩ <;> rw [h] <;> decide

theorem barLine_stops (h : BarLine c s) : StopsAt isalpha s := by
  cases h with
  | quiet _ _ _ h => exact h
  | expr h => rintro _ ⟨⟩; decide
  | assign h => rintro _ ⟨⟩; decide

theorem barLine_ok (h : BarLine c s) : BarOk fn c s := by
  cases h with
  | quiet h1 h2 h3 _ h4 h5 => exact barOk_quiet h1 h2 h3 h4 h5
  | expr h1 h2 => exact barOk_phrase h1 h2
  | assign h1 h2 h3 h4 h5 => exact barOk_let h1 h2 h3 h4 h5

theorem toList_inj {α : Type} : ∀ {a b : Option α}, a.toList = b.toList → a = b
  | none, none, _ => rfl
  | some _, some _, h => by cases h; rfl
  | none, some _, h => by cases h
  | some _, none, h => by cases h

mutual

/-- Without a name nothing changes. -/
theorem respelled_same (q : Ast.Pos) : ∀ {a b : List Ast.Stmt}, RespelledL q [] [] a b → a = b
  | _, _, .nil => rfl
  | _, _, .cons h1 h2 => by rw [respelled_same1 q h1, respelled_same q h2]

theorem respelled_same1 (q : Ast.Pos) : ∀ {a b : Ast.Stmt}, Respelled q [] [] a b → a = b
  | _, _, .same _ => rfl
  | _, _, .text .. => rfl
  | _, _, .function h => by rw [respelled_same q h]
  | _, _, .while_ h => by rw [respelled_same q h]
  | _, _, .for_ h => by rw [respelled_same q h]
  | _, _, .if_ h1 h2 h3 => by rw [respelled_same q h1, respelled_same q h2, toList_inj (respelled_same q h3)]
  | _, _, .elseIf h => by rw [respelled_same q h]
  | _, _, .else_ h => by rw [respelled_same q h]
  | _, _, .try_ h1 h2 h3 => by rw [respelled_same q h1, respelled_same q h2, toList_inj (respelled_same q h3)]
  | _, _, .catch_ h => by rw [respelled_same q h]
  | _, _, .finally_ h => by rw [respelled_same q h]

end

theorem start_join (hn : n ≠ []) {f : Ast.File} (h : isCont (n ++ s) = false) (h2 : isCont l2 = false)
    (h' : isCont (n ++ s ++ '|' :: l2) = false) (hf : Script nv (mkEnv (A ++ (n ++ s) :: l2 :: B)) fn f) :
    here (mkEnv (A ++ (n ++ s ++ '|' :: l2) :: B)) fn (mkEnv (A ++ (n ++ s ++ '|' :: l2) :: B)).buf =
      joinBy A (n ++ s) f.start := by
  obtain ⟨_, _, e⟩ := hf
  rw [e]
  rw [show (mkEnv (A ++ (n ++ s ++ '|' :: l2) :: B)).buf = _ from one_buf h',
    show (mkEnv (A ++ (n ++ s) :: l2 :: B)).buf = _ from two_buf h h2]
  have key : ∀ (X Y : List Cell), X ≠ [] → X.map (joinCell A (n ++ s)) = X → ∀ (E E' : Env) Y',
      here E' fn (X ++ Y') = joinBy A (n ++ s) (here E fn (X ++ Y)) := by
    intro X Y hX hm E E' Y'
    cases X with
    | nil => exact absurd rfl hX
    | cons x X =>
      injection hm with hm
      show pubPos fn x.pos = joinBy A (n ++ s) (pubPos fn x.pos)
      rw [← pub_join]
      exact congrArg (fun c => pubPos fn c.pos) hm.symm
  rw [← List.append_assoc, ← List.append_assoc]
  refine key _ _ ?_ (by rw [List.map_append, before_join, lineC_join]) _ _ _
  intro e
  have := congrArg (List.map Cell.c) (List.append_eq_nil_iff.1 e).2
  rw [lineC_text] at this
  cases n with
  | nil => exact hn rfl
  | cons => cases this

/-- C77.  If a file is accepted, it is accepted with a bar instead of the end of the line `n ++ s`; the statements are the
same, those of the following lines are moved. -/
theorem C77_tree (nv : Bool) (fn : Str) (A : List Str) (n s l2 : Str) (B : List Str) (c : Cmd) (f : Ast.File)
    (hA : Between nv fn A) (ht : TableCmd nv n c) (hs : BarLine c s) (hj : CanJoin (n ++ s) l2 B)
    (h : parseFileLines nv fn (A ++ (n ++ s) :: l2 :: B) = some ⟨some f, none⟩) :
    parseFileLines nv fn (A ++ (n ++ s ++ '|' :: l2) :: B) = some ⟨some (f.onPos (joinBy A (n ++ s))), none⟩ := by
  obtain ⟨ι, h1, _, _, h3, h4⟩ := barred hA rfl ht (barLine_cmd hs) (barLine_stops hs) hj.plain hj.last hj.cont hj.bar hj.next
    (barLine_ok hs)
  have h := (C52_lines ..).1 h
  obtain ⟨ss, h5, h6⟩ := ι.script h
  have hsp : Spells nv n s c := bar_spells ht (barLine_cmd hs) (barLine_stops hs)
  have w := letter_noCont (s := s) hsp.letters.1 hsp.letters.2
  have w' := letter_noCont (s := s ++ '|' :: l2) hsp.letters.1 hsp.letters.2
  rw [← List.append_assoc] at w'
  rw [start_join hsp.letters.1 (noCont_iff.2 w) (noCont_iff.2 hj.cont) (noCont_iff.2 w') h] at h6
  unfold Renamed.As at h5
  rw [h1, h3, h4] at h5
  rw [← respelled_same _ h5] at h6
  exact (C52_lines ..).2 h6

/-- C77.  If the file is rejected, and not because of the lines up to `n ++ s`, it is rejected with a bar, with the same
message. -/
theorem C77_error (nv : Bool) (fn : Str) (A : List Str) (n s l2 : Str) (B : List Str) (c : Cmd) (e : ApiErr)
    (hA : Between nv fn A) (hA' : Between nv fn (A ++ [n ++ s])) (ht : TableCmd nv n c) (hs : BarLine c s)
    (hj : CanJoin (n ++ s) l2 B) (h : parseFileLines nv fn (A ++ (n ++ s) :: l2 :: B) = some ⟨none, some e⟩) :
    parseFileLines nv fn (A ++ (n ++ s ++ '|' :: l2) :: B) = some ⟨none, some (errJoin A (n ++ s) e)⟩ := by
  obtain ⟨ι, _, h2, h3, _⟩ := barred hA rfl ht (barLine_cmd hs) (barLine_stops hs) hj.plain hj.last hj.cont hj.bar hj.next
    (barLine_ok hs)
  obtain ⟨cx', b', used', front⟩ := between_front (B := l2 :: B) hA' (noCont_cons hj.cont)
  have hsp : Spells nv n s c := bar_spells ht (barLine_cmd hs) (barLine_stops hs)
  have w := letter_noCont (s := s) hsp.letters.1 hsp.letters.2
  have hx : A ++ [n ++ s] ++ l2 :: B = A ++ (n ++ s) :: l2 :: B := by simp
  have hlen : ¬ ι.κ.q0 <:+ restB (A ++ [n ++ s]) (l2 :: B) := by
    intro hq
    have h1 := hq.length_le
    have h4 := congrArg List.length (mkEnv_append (A := A) (B := (n ++ s) :: l2 :: B) (noCont_cons w))
    have h5 := congrArg List.length (mkEnv_append (A := A ++ [n ++ s]) (B := l2 :: B) (noCont_cons hj.cont))
    have h6 := congrArg List.length (mkEnv_append (A := A) (B := [n ++ s]) (noCont_cons w))
    have h7 := List.length_pos_iff.2 (restB_ne (A := A) (B := [n ++ s]) (by simp))
    rw [hx] at h5
    rw [h3] at h1
    simp only [restB, List.length_append] at h1 h4 h5 h6 h7
    omega
  rw [hx] at front
  rcases C55_total nv fn (A ++ (n ++ s) :: l2 :: B) with ⟨g, h0⟩ | ⟨m, q, h0⟩ | h0
  · rw [(C52_lines ..).2 h0] at h
    cases h
  · have h5 := ι.fileErr (fun h1 h4 _ => absurd (front_lineErr h1 h4 front) hlen) h0
    rw [h2] at h5
    rw [(C54_lines nv fn _ none fn q.i q.lnum q.col m).2 ⟨rfl, rfl, q, rfl, rfl, rfl, h0⟩] at h
    cases h
    have e : ∃ i k col o, joinPos A (n ++ s) q = ⟨i, k, col, o⟩ ∧
        errJoin A (n ++ s) (.parse fn q.i q.lnum q.col m) = .parse fn i k col m := by
      unfold joinPos errJoin
      simp only [bytesLen_eq]
      split
      · exact ⟨_, _, _, _, rfl, rfl⟩
      · split <;> exact ⟨_, _, _, _, rfl, rfl⟩
    obtain ⟨i, k, col, o, e1, e2⟩ := e
    rw [e1] at h5
    rw [e2]
    exact (C54_lines nv fn _ none fn i k col m).2 ⟨rfl, rfl, ⟨i, k, col, o⟩, rfl, rfl, rfl, h5⟩
  · rw [(other_lines nv fn _ none).2 ⟨rfl, h0⟩] at h
    cases h
    exact (other_lines nv fn _ none).2 ⟨rfl, ι.numErr (fun h1 h4 _ => absurd (front_lineNum h1 h4 front) hlen) h0⟩

/-- C77.  If the lines up to `n ++ s` are right, both files are accepted or both are rejected. -/
theorem C77_accepted (nv : Bool) (fn : Str) (A : List Str) (n s l2 : Str) (B : List Str) (c : Cmd)
    (hA : Between nv fn A) (hA' : Between nv fn (A ++ [n ++ s])) (ht : TableCmd nv n c) (hs : BarLine c s)
    (hj : CanJoin (n ++ s) l2 B) :
    (∃ g, parseFileLines nv fn (A ++ (n ++ s ++ '|' :: l2) :: B) = some ⟨some g, none⟩) ↔
      ∃ f, parseFileLines nv fn (A ++ (n ++ s) :: l2 :: B) = some ⟨some f, none⟩ := by
  constructor
  · rintro ⟨g, h⟩
    rcases parseFileLines_good nv fn (A ++ (n ++ s) :: l2 :: B) with ⟨f, h0, _⟩ | ⟨m, q, h0, _⟩ | ⟨h0, _⟩
    · exact ⟨f, h0⟩
    · rw [C77_error nv fn A n s l2 B c _ hA hA' ht hs hj h0] at h
      cases h
    · rw [C77_error nv fn A n s l2 B c _ hA hA' ht hs hj h0] at h
      cases h
  · rintro ⟨f, h⟩
    exact ⟨_, C77_tree nv fn A n s l2 B c f hA ht hs hj h⟩

/-! ### Examples -/

/-- The command of the tables with this name. -/
def barCmd (n : Str) : Cmd := (lookupTable false n).getD default

theorem barCmd_of (h : (lookupTable false n).isSome = true) : TableCmd false n (barCmd n) := by
  refine lookupTable_iff.1 ?_
  unfold barCmd
  cases e : lookupTable false n with
  | none => rw [e] at h; cases h
  | some c => rfl

theorem plain_of {l : Str} (h : l.getLast? ≠ some '@') (h2 : '0' ∉ l) : Plain l := by
  refine ⟨h, ?_⟩
  rintro u t rfl
  simp at h2

/-- `if a` and `echo "x|y"` and `endif` on one line. -/
example : Between false cs!"f" [cs!"if a"] ∧ Between false cs!"f" ([cs!"if a"] ++ [cs!"echo" ++ cs!" \"x|y\" "]) ∧
    TableCmd false cs!"echo" (barCmd cs!"echo") ∧ BarLine (barCmd cs!"echo") cs!" \"x|y\" " ∧
    CanJoin (cs!"echo" ++ cs!" \"x|y\" ") cs!" endif" [] ∧
    TableCmd false cs!"if" (barCmd cs!"if") ∧ BarLine (barCmd cs!"if") cs!" a" ∧ CanJoin (cs!"if" ++ cs!" a") cs!"echo \"x|y\" | endif" [] ∧
    errOf (parseFileLines false cs!"f" ([cs!"if a"] ++ (cs!"echo" ++ cs!" \"x|y\" ") :: cs!" endif" :: [])) = none ∧
    errOf (parseFileLines false cs!"f" ([] ++ (cs!"if" ++ cs!" a" ++ '|' :: cs!"echo \"x|y\" | endif") :: [])) = none := by
  obtain ⟨e, h⟩ := phrase_of_run (l := cs!"\"x|y\" ") (w := cs!" ") (by decide +kernel) (by simp [iswhite])
  exact ⟨between_of (o := 5) (by decide +kernel), between_of (o := 17) (by decide +kernel), barCmd_of (by decide +kernel),
    .expr (by decide +kernel) h, ⟨plain_of (by decide) (by decide), by decide, by decide, by decide, by simp⟩,
    barCmd_of (by decide +kernel), .quiet (by decide +kernel) (by decide +kernel) (by decide +kernel) (by rintro _ ⟨⟩; decide) (by decide) (by decide),
    ⟨plain_of (by decide) (by decide), by decide, by decide, by decide, by simp⟩, by decide +kernel, by decide +kernel⟩

/-- An assignment, and an error behind it. -/
example : Between false cs!"f" [] ∧ Between false cs!"f" ([] ++ [cs!"let" ++ cs!" g:x .= a || b"]) ∧
    TableCmd false cs!"let" (barCmd cs!"let") ∧ BarLine (barCmd cs!"let") cs!" g:x .= a || b" ∧
    CanJoin (cs!"let" ++ cs!" g:x .= a || b") cs!"echo (" [cs!"xyz"] ∧
    errOf (parseFileLines false cs!"f" ([] ++ (cs!"let" ++ cs!" g:x .= a || b") :: cs!"echo (" :: [cs!"xyz"])) =
      some (.parse cs!"f" 24 2 7 cs!"unexpected token: <EOL>") ∧
    errOf (parseFileLines false cs!"f" ([] ++ (cs!"let" ++ cs!" g:x .= a || b" ++ '|' :: cs!"echo (") :: [cs!"xyz"])) =
      some (.parse cs!"f" 24 1 25 cs!"unexpected token: <EOL>") := by
  obtain ⟨e, h⟩ := phrase_of_run (l := cs!"a || b") (w := []) (by decide +kernel) (by simp)
  exact ⟨between_of (o := 0) (by decide +kernel), between_of (o := 18) (by decide +kernel), barCmd_of (by decide +kernel),
    .assign (v := cs!"g:x") (op := cs!".=") (.inl (by decide +kernel))
      (.inr ⟨cs!"g:", 'x', [], rfl, .inr ⟨'g', rfl, by decide⟩, by decide, by simp⟩) (by simp [isWord]) (by decide) h,
    ⟨plain_of (by decide) (by decide), by decide, by decide, by decide, by simp⟩, by decide +kernel, by decide +kernel⟩

/-- After other commands the bar belongs to the text, and behind `"` to a comment. -/
example : sizes (parseFileLines false [] [cs!"normal x", cs!"echo 1"]) = some [0, 0] ∧
    sizes (parseFileLines false [] [cs!"normal x|echo 1"]) = some [0] ∧
    errOf (parseFileLines false [] [cs!"if 1 \" y", cs!"endif"]) = none ∧
    errOf (parseFileLines false [] [cs!"if 1 \" y|endif"]) ≠ none := by decide +kernel

/-- A bar behind `@` is the name of a register, and two bars are an operator. -/
example : sizes (parseFileLines false [] [cs!"echo @", cs!"echo 1"]) = some [0, 0] ∧
    sizes (parseFileLines false [] [cs!"echo @|echo 1"]) = some [0] ∧
    errOf (parseFileLines false [] [cs!"echo a", cs!"|echo 1"]) ≠ none ∧
    errOf (parseFileLines false [] [cs!"echo a||echo 1"]) = none := by decide +kernel

end Viml.Props
