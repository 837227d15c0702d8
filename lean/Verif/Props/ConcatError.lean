/-
C62: errors of scripts one after the other.
-/
import Verif.Lemmas.ConcatError
import Verif.Props.Concat
import Verif.Props.NumError

namespace Viml.Props
open Spec

theorem readLen_eq (lines : List Str) : readLen lines = (mkEnv lines).buf.length := by
  have h := congrArg List.length (C01_logical_lines lines)
  simp only [List.length_map] at h
  rw [h, readLen, List.length_flatMap]
  simp

/-- C62.  `A` followed by `B` is rejected at a place exactly if `B` is rejected at the place without the lines of `A`. -/
theorem C62_error (nv : Bool) (fn : Str) (A B : List Str) (f : Ast.File) (hA : Complete nv fn A f)
    (hl : ∀ l, B.head? = some l → afterBackslash l = none) :
    (parseFileLines nv fn (A ++ B)).bind (·.err) = ((parseFileLines nv fn B).bind (·.err)).map (errBehind A) := by
  rcases C55_total nv fn B with ⟨g, h⟩ | ⟨m, q, h⟩ | h
  · obtain ⟨ss, p, h1⟩ := script_any hA hl h
    rw [(C52_lines ..).2 h, (C52_lines ..).2 h1]
    rfl
  · rw [(C54_lines nv fn B none fn q.i q.lnum q.col m).2 ⟨rfl, rfl, q, rfl, rfl, rfl, h⟩,
      (C54_lines nv fn (A ++ B) none fn (q.i + readLen A) (q.lnum + A.length) q.col m).2
        ⟨rfl, rfl, (moverB fn A hl).mp q, by rw [readLen_eq]; rfl, rfl, rfl, fileErr_append hA hl h⟩]
    rfl
  · rw [(other_lines nv fn B none).2 ⟨rfl, h⟩, (other_lines nv fn (A ++ B) none).2 ⟨rfl, numErr_append hA hl h⟩]
    rfl

/-- C62.  `A` followed by `B` is accepted exactly if `B` is, and the statements of `A` come first. -/
theorem C62_accepted (nv : Bool) (fn : Str) (A B : List Str) (f : Ast.File) (hA : Complete nv fn A f)
    (hl : ∀ l, B.head? = some l → afterBackslash l = none) :
    (∃ p ss, parseFileLines nv fn (A ++ B) = some ⟨some ⟨p, f.body ++ ss⟩, none⟩) ↔
      ∃ g, parseFileLines nv fn B = some ⟨some g, none⟩ := by
  constructor
  · rintro ⟨p, ss, h⟩
    have h1 := C62_error nv fn A B f hA hl
    rw [h] at h1
    rcases C55_total nv fn B with ⟨g, h⟩ | ⟨m, q, h⟩ | h
    · exact ⟨g, (C52_lines ..).2 h⟩
    · rw [(C54_lines nv fn B none fn q.i q.lnum q.col m).2 ⟨rfl, rfl, q, rfl, rfl, rfl, h⟩] at h1
      cases h1
    · rw [(other_lines nv fn B none).2 ⟨rfl, h⟩] at h1
      cases h1
  · rintro ⟨g, h⟩
    obtain ⟨ss, p, h1⟩ := script_any hA hl ((C52_lines ..).1 h)
    exact ⟨p, ss, (C52_lines ..).2 h1⟩

/-- C62.  Whatever is said about a file `B` is said about `B` behind a whole script `A`, if no user command of `B` has the
name of a user command of `A` with more characters (`C61_counterexample`): it is accepted with the statements of `A` before
its own, or rejected with the same message at the same place, or rejected without a message. -/
theorem C62_behind (nv : Bool) (fn : Str) (A B : List Str) (f : Ast.File) (hA : Complete nv fn A f)
    (hl : ∀ l, B.head? = some l → afterBackslash l = none)
    (hc : ∀ g, parseFileLines nv fn B = some ⟨some g, none⟩ →
      ∀ n s, s ≠ [] → UserCmd f.body n → ¬ UserCmd g.body (n ++ s)) :
    parseFileLines nv fn (A ++ B) = (parseFileLines nv fn B).map (behind A B f) := by
  rcases C55_total nv fn B with ⟨g, h⟩ | ⟨m, q, h⟩ | h
  · have h := (C52_lines ..).2 h
    rw [h, C61_append nv fn A B f g hA h hl (hc g h)]
    rfl
  · rw [(C54_lines nv fn B none fn q.i q.lnum q.col m).2 ⟨rfl, rfl, q, rfl, rfl, rfl, h⟩]
    refine (C54_lines ..).2 ⟨rfl, rfl, (moverB fn A hl).mp q, ?_, rfl, rfl, fileErr_append hA hl h⟩
    rw [readLen_eq]
    rfl
  · rw [(other_lines nv fn B none).2 ⟨rfl, h⟩]
    exact (other_lines ..).2 ⟨rfl, numErr_append hA hl h⟩

/-! ### Examples -/

/-- A whole script with a block and a continuation line, and scripts with errors of many kinds. -/
def okA : List Str := [cs!"let x = [1,", cs!"  \\ 2]", cs!"Echo x | \" é"]
def badB : List (List Str) := [[cs!"if x", cs!"  echo", cs!"endwhile"], [cs!"let y = 1 +"], [cs!"while 1"],
  [cs!"let z =<< E", cs!"a"], [cs!"call F(", cs!"  \\ 1, é"], [cs!"xyzzy"], [cs!"99999999999tab edit"], [cs!"echo 1"]]

def errOf (r : Option (ApiRes Ast.File)) : Option ApiErr := r.bind (·.err)

example : isComplete false cs!"f" okA = true ∧ readLen okA = 28 := by decide +kernel
example : badB.map (fun B => errOf (parseFileLines false cs!"f" B)) =
    [some (.parse cs!"f" 12 3 1 cs!"E588: :endwhile without :while"), some (.parse cs!"f" 11 1 12 cs!"unexpected token: <EOL>"),
     some (.parse cs!"f" 8 2 0 cs!"E170: Missing :endwhile:    TOPLEVEL"),
     some (.parse cs!"f" 14 3 0 cs!"E990: Missing end marker 'E'"),
     some (.parse cs!"f" 11 2 8 cs!"unexpected character: é"),
     some (.parse cs!"f" 0 1 1 cs!"E492: Not an editor command: xyzzy"), some .other, none] := by decide +kernel
example : badB.map (fun B => errOf (parseFileLines false cs!"f" (okA ++ B))) =
    [some (.parse cs!"f" 40 6 1 cs!"E588: :endwhile without :while"), some (.parse cs!"f" 39 4 12 cs!"unexpected token: <EOL>"),
     some (.parse cs!"f" 36 5 0 cs!"E170: Missing :endwhile:    TOPLEVEL"),
     some (.parse cs!"f" 42 6 0 cs!"E990: Missing end marker 'E'"),
     some (.parse cs!"f" 39 5 8 cs!"unexpected character: é"),
     some (.parse cs!"f" 28 4 1 cs!"E492: Not an editor command: xyzzy"), some .other, none] := by decide +kernel

/-- The hypotheses of C62 for these scripts. -/
example : (∃ f, Complete false cs!"f" okA f) ∧ ∀ B ∈ badB, ∀ l, B.head? = some l → afterBackslash l = none := by
  refine ⟨complete_of (show isComplete false cs!"f" okA = true by decide +kernel), ?_⟩
  intro B hB l hl
  have : (badB.all fun B => (B.head?).all fun l => (afterBackslash l).isNone) = true := by decide +kernel
  have := List.all_eq_true.1 this B hB
  rw [hl] at this
  simpa using this

/-- The condition on `A` is needed: `:finish` is no whole script, what follows it is not read. -/
example : errOf (parseFileLines false [] [cs!"xyzzy"]) ≠ none ∧
    errOf (parseFileLines false [] ([cs!"finish"] ++ [cs!"xyzzy"])) = none := by decide +kernel

/-- The condition on `B` is needed: a continuation line continues the last line of `A`. -/
example : errOf (parseFileLines false [] [cs!"\\ x"]) ≠ none ∧
    errOf (parseFileLines false [] ([cs!"echo"] ++ [cs!"\\ x"])) = none := by decide +kernel

end Viml.Props
