/-
C72: line ends do not matter.
-/
import Verif.Props.Input
import Verif.Model.Cmdline

namespace Viml.Props
open Viml Viml.Spec

theorem readlines_ends : ∀ (ls : List (List UInt8 × Bool)) (last : List UInt8), (∀ l ∈ ls, FileLine l.1) →
    readlines (withEnds ls ++ last) = ls.map (·.1) ++ readlines last
  | [], last, _ => by simp [withEnds]
  | (l, b) :: ls, last, h => by
    obtain ⟨h1, h2, h3⟩ : FileLine l := h (l, b) (by simp)
    have ih := readlines_ends ls last fun l hl => h l (by simp [hl])
    have e : withEnds ((l, b) :: ls) ++ last = l ++ (if b then [13] else []) ++ 10 :: (withEnds ls ++ last) := by
      cases b <;> simp [withEnds, lineEnd]
    rw [e, readlines_cons _ _ (by cases b <;> simpa using h1), ih]
    have h4 : (l ++ if b = true then [13] else []).length < 65536 := by cases b <;> simp <;> omega
    have h5 : dropCR (l ++ if b = true then [13] else []) = l := by
      rw [chopCR_eq]
      cases b
      · simp [chopCR, h2]
      · simp [chopCR]
    rw [if_pos h4, h5]
    rfl

/-- C72.  The lines that are read do not depend on the kind of line ends; LF and CRLF may be mixed. -/
theorem C72_lines (ls : List (List UInt8 × Bool)) (h : ∀ l ∈ ls, FileLine l.1) : readlines (withEnds ls) = ls.map (·.1) := by
  have := readlines_ends ls [] h
  rw [List.append_nil] at this
  rw [this, show readlines [] = [] from rfl, List.append_nil]

/-- C72.  The line end of the last line may be missing. -/
theorem C72_last (ls : List (List UInt8 × Bool)) (l : List UInt8) (b : Bool) (h : ∀ l ∈ ls, FileLine l.1) (hl : FileLine l)
    (hn : l ≠ []) : readlines (withEnds ls ++ l) = readlines (withEnds (ls ++ [(l, b)])) := by
  have hs : ∀ x ∈ ls ++ [(l, b)], FileLine x.1 := by
    intro x hx
    rcases List.mem_append.1 hx with hx | hx
    · exact h x hx
    · cases List.mem_singleton.1 hx
      exact hl
  rw [readlines_ends ls l h, C72_lines _ hs, readlines_last l hl.1 hn, if_pos (by have := hl.2.2; omega), chopCR_eq]
  simp [chopCR, hl.2.1]

/-- C72.  `ParseFile` returns the same, positions and errors included, whatever the line ends are. -/
theorem C72_parseFile (nv : Bool) (fn : Str) (ls ls' : List (List UInt8 × Bool)) (h : ∀ l ∈ ls, FileLine l.1)
    (he : ls.map (·.1) = ls'.map (·.1)) : parseFile nv fn (withEnds ls) = parseFile nv fn (withEnds ls') := by
  have h' : ∀ l ∈ ls', FileLine l.1 := by
    intro l hl
    have : l.1 ∈ ls.map (·.1) := he ▸ List.mem_map_of_mem hl
    obtain ⟨x, hx, e⟩ := List.mem_map.1 this
    exact e ▸ h x hx
  unfold parseFile
  rw [C72_lines _ h, C72_lines _ h', he]

/-- C72.  So does `ParseExpr`. -/
theorem C72_parseExpr (ls ls' : List (List UInt8 × Bool)) (h : ∀ l ∈ ls, FileLine l.1)
    (he : ls.map (·.1) = ls'.map (·.1)) : parseExpr (withEnds ls) = parseExpr (withEnds ls') := by
  have h' : ∀ l ∈ ls', FileLine l.1 := by
    intro l hl
    have : l.1 ∈ ls.map (·.1) := he ▸ List.mem_map_of_mem hl
    obtain ⟨x, hx, e⟩ := List.mem_map.1 this
    exact e ▸ h x hx
  unfold parseExpr
  rw [C72_lines _ h, C72_lines _ h', he]

/-- C72.  The command prints the same, as S-expressions and as JSON. -/
theorem C72_command (json : Option (Ast.File → Option Str)) (nv : Bool) (name : Str) (ls ls' : List (List UInt8 × Bool))
    (h : ∀ l ∈ ls, FileLine l.1) (he : ls.map (·.1) = ls'.map (·.1)) :
    Cmdline.parseFile json nv name (withEnds ls) = Cmdline.parseFile json nv name (withEnds ls') := by
  unfold Cmdline.parseFile
  rw [C72_parseFile nv name ls ls' h he]

/-- C72 is false for lines that end with CR themselves: a single CR before LF is taken as part of the line end. -/
theorem C72_counterexample : readlines (withEnds [([97, 13], false)]) ≠ readlines (withEnds [([97, 13], true)]) := by decide

/-- C72 is false without the condition on the length: CR counts. -/
theorem C72_long (l : List UInt8) (h : 10 ∉ l) (hl : ¬ [13] <:+ l) (hn : l.length = 65535) :
    readlines (withEnds [(l, false)]) = [l] ∧ readlines (withEnds [(l, true)]) = [] := by
  have e1 : withEnds [(l, false)] = l ++ 10 :: [] := by simp [withEnds, lineEnd]
  have e2 : withEnds [(l, true)] = (l ++ [13]) ++ 10 :: [] := by simp [withEnds, lineEnd]
  constructor
  · rw [e1, readlines_cons l _ h, if_pos (by omega), chopCR_eq]
    simp [chopCR, hl, show readlines [] = [] from rfl]
  · rw [e2, readlines_cons (l ++ [13]) _ (by simpa using h), if_neg (by simp; omega)]

-- `if 1`, `é`, `endif`, with different line ends
example : parseFile false [] [105, 102, 32, 49, 13, 10, 34, 195, 169, 10, 101, 110, 100, 105, 102, 13, 10] =
    parseFile false [] [105, 102, 32, 49, 10, 34, 195, 169, 13, 10, 101, 110, 100, 105, 102, 10] :=
  C72_parseFile false [] [([105, 102, 32, 49], true), ([34, 195, 169], false), ([101, 110, 100, 105, 102], true)]
    [([105, 102, 32, 49], false), ([34, 195, 169], true), ([101, 110, 100, 105, 102], false)]
    (by unfold FileLine; decide) rfl
example : ∃ l : List UInt8, 10 ∉ l ∧ ¬ [13] <:+ l ∧ l.length = 65535 := by
  have key : ∀ n, (∀ x ∈ List.replicate n (97 : UInt8), x = 97) := fun n x h => List.eq_of_mem_replicate h
  refine ⟨List.replicate 65535 97, fun h => absurd (key _ _ h) (by decide), ?_, List.length_replicate⟩
  rintro ⟨t, h⟩
  have : (13 : UInt8) ∈ List.replicate 65535 (97 : UInt8) := by rw [← h]; simp
  exact absurd (key _ _ this) (by decide)

end Viml.Props
