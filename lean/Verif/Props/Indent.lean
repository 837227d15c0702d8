/-
C66: blanks, tabs and colons before a command.
-/
import Verif.Lemmas.IndentAt
import Verif.Props.Insert

namespace Viml.Props
open Spec

/-- Where a file starts after the text `w` is put before the line behind the lines `A`. -/
def startIn (fn : Str) (A : List Str) (w : Str) (q : Ast.Pos) : Ast.Pos := if A = [] ∧ w ≠ [] then ⟨0, 1, 1, fn⟩ else q

theorem start_indent {nv : Bool} {fn : Str} {A B : List Str} {w l : Str} {f : Ast.File} (hb : Blank w)
    (hl : afterBackslash l = none) (h : Script nv (mkEnv (A ++ l :: B)) fn f) :
    here (mkEnv (A ++ (w ++ l) :: B)) fn (mkEnv (A ++ (w ++ l) :: B)).buf = startIn fn A w f.start := by
  obtain ⟨_, _, e⟩ := h
  rw [e]
  unfold startIn
  cases A with
  | cons a A =>
    rw [if_neg (by simp), indent_all (noCont_blank hb hl), mkEnv_append (noCont_cons hl)]
    rcases buildCells_last (a :: A) with h1 | ⟨i, p, h1⟩
    · cases h1
    · have e : (mkEnv (a :: A)).buf = reindex 0 i ++ [⟨none, { p with i := i.length }⟩] := by
        simp only [mkEnv, h1, reindex_append, reindex, Nat.zero_add]
      rw [e]
      cases reindex 0 i <;> rfl
  | nil =>
    cases w with
    | nil => rfl
    | cons c w => rfl

/-- C66.  If a file is accepted, it is accepted with blanks, tabs and colons `w` before one of its commands; the statements
are the same, those behind `w` are moved. -/
theorem C66_tree (nv : Bool) (fn : Str) (A : List Str) (w l : Str) (B : List Str) (f : Ast.File) (hA : Between nv fn A)
    (hb : Blank w) (hl : afterBackslash l = none) (hs : ¬ Shebang l B)
    (h : parseFileLines nv fn (A ++ l :: B) = some ⟨some f, none⟩) :
    parseFileLines nv fn (A ++ (w ++ l) :: B) =
      some ⟨some ⟨startIn fn A w f.start, Ast.Stmt.onPosL (indentBy A w l B) f.body⟩, none⟩ := by
  obtain ⟨ι, h1, _⟩ := indented hA hb hl hs
  have h := (C52_lines ..).1 h
  have h2 := ι.script h
  rw [start_indent hb hl h, h1] at h2
  exact (C52_lines ..).2 h2

/-- C66.  The text changes nothing but positions, whatever is said about the file. -/
theorem C66_file (nv : Bool) (fn : Str) (A : List Str) (w l : Str) (B : List Str) (hA : Between nv fn A)
    (hb : Blank w) (hl : afterBackslash l = none) (hs : ¬ Shebang l B) :
    parseFileLines nv fn (A ++ (w ++ l) :: B) = (parseFileLines nv fn (A ++ l :: B)).map fun x =>
      ⟨x.node.map fun f => ⟨startIn fn A w f.start, Ast.Stmt.onPosL (indentBy A w l B) f.body⟩, x.err.map (errIndent A w)⟩ := by
  rcases C55_total nv fn (A ++ l :: B) with ⟨g, h⟩ | ⟨m, q, h⟩ | h
  · have h := (C52_lines ..).2 h
    rw [h, C66_tree nv fn A w l B g hA hb hl hs h]
    rfl
  · obtain ⟨ι, h1, h2, h3⟩ := indented hA hb hl hs
    have hq : A.length < q.lnum := by
      have := ι.fileErr_at h
      rw [h3] at this
      exact out_line (B' := l :: B) (cut fn A (l :: B) [] _) rfl this
    have h5 := ι.fileErr h
    rw [h2] at h5
    have e : ∃ o, indentPos A w l B q = ⟨q.i + w.length, q.lnum, if q.lnum = A.length + 1 then q.col + bytes w else q.col, o⟩ := by
      unfold indentPos
      rw [if_neg (by omega)]
      split <;> exact ⟨_, rfl⟩
    obtain ⟨o, e⟩ := e
    rw [e] at h5
    rw [(C54_lines nv fn (A ++ l :: B) none fn q.i q.lnum q.col m).2 ⟨rfl, rfl, q, rfl, rfl, rfl, h⟩,
      (C54_lines nv fn (A ++ (w ++ l) :: B) none fn (q.i + w.length) q.lnum _ m).2
        ⟨rfl, rfl, ⟨q.i + w.length, q.lnum, _, o⟩, rfl, rfl, rfl, h5⟩]
    rfl
  · obtain ⟨ι, _⟩ := indented hA hb hl hs
    rw [(other_lines nv fn (A ++ l :: B) none).2 ⟨rfl, h⟩,
      (other_lines nv fn (A ++ (w ++ l) :: B) none).2 ⟨rfl, ι.numErr h⟩]
    rfl

/-- C66.  Two files that differ in such a text only are both accepted or both rejected. -/
theorem C66_accepted (nv : Bool) (fn : Str) (A : List Str) (w l : Str) (B : List Str) (hA : Between nv fn A)
    (hb : Blank w) (hl : afterBackslash l = none) (hs : ¬ Shebang l B) :
    (∃ g, parseFileLines nv fn (A ++ (w ++ l) :: B) = some ⟨some g, none⟩) ↔
      ∃ f, parseFileLines nv fn (A ++ l :: B) = some ⟨some f, none⟩ := by
  rw [C66_file nv fn A w l B hA hb hl hs]
  cases parseFileLines nv fn (A ++ l :: B) with
  | none => simp
  | some x =>
    obtain ⟨n, e⟩ := x
    cases n <;> cases e <;> simp

/-! ### Examples -/

/-- A logical line of three lines in blocks; another one and a here-document follow. -/
def indA : List Str := [cs!"function F()", cs!"if x"]
def indL : Str := cs!"let y = [1,"
def indB : List Str := [cs!"\\ 2,", cs!"\\ 3]", cs!"else", cs!"let z =<< E", cs!"xyzzy", cs!"E", cs!"endif", cs!"endfunction"]
def indW : Str := cs!" : \t"

example : Between false cs!"f" indA := between_of (o := 18) (by decide +kernel)
example : Blank indW := by simp [indW, Blank]
example : afterBackslash indL = none ∧ ¬ Shebang indL indB := by
  refine ⟨by decide +kernel, ?_⟩
  rintro ⟨t, h⟩
  have e : (logicalLines (indL :: indB)).head? = some cs!"let y = [1, 2, 3]" := by decide +kernel
  rw [e] at h
  injection h with h
  injection h with h
  exact absurd h (by decide)
example : errOf (parseFileLines false cs!"f" (indA ++ indL :: indB)) = none := by decide +kernel

/-- Rejected files: the message is the same. -/
example : Between false cs!"f" [cs!"try"] ∧
    errOf (parseFileLines false cs!"f" ([cs!"try"] ++ cs!"endif" :: [])) =
      some (.parse cs!"f" 4 2 1 cs!"E580: :endif without :if") ∧
    errOf (parseFileLines false cs!"f" ([cs!"try"] ++ (indW ++ cs!"endif") :: [])) =
      some (.parse cs!"f" 8 2 5 cs!"E580: :endif without :if") :=
  ⟨between_of (o := 4) (by decide +kernel), by decide +kernel, by decide +kernel⟩

/-- The place must be between statements: a here-document ends at a line that is just its marker. -/
example : sizes (parseFileLines false [] ([cs!"let z =<< E"] ++ cs!"E" :: [cs!"E"])) = some [0, 0] ∧
    sizes (parseFileLines false [] ([cs!"let z =<< E"] ++ (cs!" " ++ cs!"E") :: [cs!"E"])) = some [1] := by decide +kernel

/-- The line must not start with `#!`, even if a part of this is on a continuation line. -/
example : Between false [] [] ∧ errOf (parseFileLines false [] ([] ++ cs!"#!/bin/vim" :: [])) = none ∧
    errOf (parseFileLines false [] ([] ++ (cs!" " ++ cs!"#!/bin/vim") :: [])) ≠ none ∧
    errOf (parseFileLines false [] ([] ++ cs!"#" :: [cs!"\\!/bin/vim"])) = none ∧
    errOf (parseFileLines false [] ([] ++ (cs!" " ++ cs!"#") :: [cs!"\\!/bin/vim"])) ≠ none :=
  ⟨between_of (o := 0) (by decide +kernel), by decide +kernel, by decide +kernel, by decide +kernel, by decide +kernel⟩

/-- The line must not be a continuation line: a colon before it makes it a line of its own. -/
example : Between false [] [cs!"echo 1"] ∧ errOf (parseFileLines false [] ([cs!"echo 1"] ++ cs!"\\ - 2" :: [])) = none ∧
    errOf (parseFileLines false [] ([cs!"echo 1"] ++ (cs!":" ++ cs!"\\ - 2") :: [])) ≠ none :=
  ⟨between_of (o := 7) (by decide +kernel), by decide +kernel, by decide +kernel⟩

end Viml.Props
