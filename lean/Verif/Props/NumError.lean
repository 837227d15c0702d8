/-
C06 (which rejections are no parse errors) and C55 (each file is in exactly one of three classes).  The
specification is `NumErr` of `Spec/NumError.lean`.
-/
import Verif.Lemmas.NumLine
import Verif.Props.File
import Verif.Props.FileError

namespace Viml.Props
open Viml Viml.Spec

theorem other_lines (nv : Bool) (fn : Str) (lines : List Str) (n : Option Ast.File) :
    parseFileLines nv fn lines = some ⟨n, some .other⟩ ↔ n = none ∧ NumErr nv (mkEnv lines) fn := by
  constructor
  · intro h
    cases hr : (parseToplevel nv).run (mkEnv lines) (mkEnv lines).buf with
    | ok v r' =>
      obtain ⟨a, h1, _⟩ := toplevel_export (fn := fn) hr
      unfold parseFileLines at h
      simp only [hr, h1] at h
      cases h
    | fail e =>
      have hg := parseToplevel_spec (nv := nv) (mkEnv_ok lines) (good_closed (fn := fn) (mkEnv_ok lines))
      have hf := wp_runF hg hr
      unfold parseFileLines at h
      simp only [hr] at h
      cases e with
      | err m' p => cases h
      | num =>
        cases h
        exact ⟨rfl, file_num.1 hr⟩
      | crash => exact hf.elim
      | fuel => exact hf.elim
  · rintro ⟨rfl, h⟩
    have h1 := file_num.2 h
    unfold parseFileLines
    simp only [h1]
    rfl

/-- C06.  `ParseFile` returns an error that is no `ErrVimlParser` if and only if the count of a modifier or the depth of
`:lockvar` or `:unlockvar` does not fit in 31 bits, all lines before follow the file grammar, and nothing is wrong in
the line before the number. -/
theorem C06_other (nv : Bool) (fn : Str) (src : List UInt8) (n : Option Ast.File) :
    parseFile nv fn src = some ⟨n, some .other⟩ ↔
      n = none ∧ NumErr nv (mkEnv ((readlines src).map decodeUtf8)) fn :=
  other_lines nv fn _ n

/-- C55.  Each file is a script of the grammar, or has a fault, or has a number out of range. -/
theorem C55_total (nv : Bool) (fn : Str) (lines : List Str) :
    (∃ a, Script nv (mkEnv lines) fn a) ∨ (∃ m q, FileErr nv (mkEnv lines) fn m q) ∨ NumErr nv (mkEnv lines) fn := by
  rcases parseFileLines_good nv fn lines with ⟨a, h, _⟩ | ⟨m, q, h, _⟩ | ⟨h, _⟩
  · exact .inl ⟨a, (C52_lines _ _ _ _).1 h⟩
  · obtain ⟨_, _, p, _, _, _, h1⟩ := (C54_lines _ _ _ _ _ _ _ _ _).1 h
    exact .inr (.inl ⟨m, p, h1⟩)
  · exact .inr (.inr ((other_lines _ _ _ _).1 h).2)

/-- C55.  No file is in two of these classes. -/
theorem C55_disjoint (nv : Bool) (fn : Str) (lines : List Str) :
    ¬ ((∃ a, Script nv (mkEnv lines) fn a) ∧ ∃ m q, FileErr nv (mkEnv lines) fn m q) ∧
    ¬ ((∃ a, Script nv (mkEnv lines) fn a) ∧ NumErr nv (mkEnv lines) fn) ∧
    ¬ ((∃ m q, FileErr nv (mkEnv lines) fn m q) ∧ NumErr nv (mkEnv lines) fn) := by
  refine ⟨?_, ?_, ?_⟩
  · rintro ⟨⟨a, h⟩, m, q, h'⟩
    exact C54_no_script nv lines fn m q a h' h
  · rintro ⟨⟨a, h⟩, h'⟩
    have h1 := (C52_lines nv fn lines a).2 h
    rw [(other_lines nv fn lines none).2 ⟨rfl, h'⟩] at h1
    cases h1
  · rintro ⟨⟨m, q, h⟩, h'⟩
    have h1 := file_err.2 h
    rw [file_num.2 h'] at h1
    cases h1

/-- C55.  The class decides the result of `ParseFile`: the tree of the script, the parse error of the fault, or the other
error. -/
theorem C55_result (nv : Bool) (fn : Str) (src : List UInt8) :
    (∃ a, parseFile nv fn src = some ⟨some a, none⟩ ∧ Script nv (mkEnv ((readlines src).map decodeUtf8)) fn a) ∨
    (∃ m q, parseFile nv fn src = some ⟨none, some (.parse fn q.i q.lnum q.col m)⟩ ∧
      FileErr nv (mkEnv ((readlines src).map decodeUtf8)) fn m q) ∨
    (parseFile nv fn src = some ⟨none, some .other⟩ ∧ NumErr nv (mkEnv ((readlines src).map decodeUtf8)) fn) := by
  rcases C55_total nv fn ((readlines src).map decodeUtf8) with ⟨a, h⟩ | ⟨m, q, h⟩ | h
  · exact .inl ⟨a, (C52_lines _ _ _ _).2 h, h⟩
  · exact .inr (.inl ⟨m, q, (C54_lines _ _ _ _ _ _ _ _ _).2 ⟨rfl, rfl, q, rfl, rfl, rfl, h⟩, h⟩)
  · exact .inr (.inr ⟨(other_lines _ _ _ _).2 ⟨rfl, h⟩, h⟩)

/-- Whether a file is rejected without a parse error, to write examples. -/
def numErr (lines : List Str) : Bool :=
  match parseFileLines false [] lines with
  | some ⟨_, some .other⟩ => true
  | _ => false

/-- What the examples say about the specification. -/
theorem numErr_spec {lines : List Str} : numErr lines = true ↔ NumErr false (mkEnv lines) [] := by
  constructor
  · intro h
    unfold numErr at h
    split at h
    · rename_i h1
      exact ((other_lines _ _ _ _).1 h1).2
    · cases h
  · intro h
    unfold numErr
    rw [(other_lines _ _ _ none).2 ⟨rfl, h⟩]

-- the places where a number is read
example : NumErr false (mkEnv [cs!"if 1", cs!"2147483648tab edit x"]) [] := numErr_spec.1 (by decide +kernel)
example : NumErr false (mkEnv [cs!"silent 99999999999verbose echo ("]) [] := numErr_spec.1 (by decide +kernel)
example : NumErr false (mkEnv [cs!"lockvar 2147483648 ]"]) [] := numErr_spec.1 (by decide +kernel)
example : NumErr false (mkEnv [cs!"1,2 unlockvar! 2147483648"]) [] := numErr_spec.1 (by decide +kernel)
-- a number that fits, numbers elsewhere, and a fault before the number
example : ¬ NumErr false (mkEnv [cs!"2147483647tab edit x"]) [] := fun h => absurd (numErr_spec.2 h) (by decide +kernel)
example : ¬ NumErr false (mkEnv [cs!"99999999999 echo 99999999999"]) [] :=
  fun h => absurd (numErr_spec.2 h) (by decide +kernel)
example : ¬ NumErr false (mkEnv [cs!"99999999999hide edit x"]) [] :=
  fun h => absurd (numErr_spec.2 h) (by decide +kernel)
example : ¬ NumErr false (mkEnv [cs!"endif", cs!"lockvar 99999999999 x"]) [] :=
  fun h => absurd (numErr_spec.2 h) (by decide +kernel)

end Viml.Props
