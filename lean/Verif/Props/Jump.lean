/-
C90: `:break`, `:continue` and `:return` can stand exactly where a loop or a function is open.
-/
import Verif.Lemmas.Jump
import Verif.Props.Match

namespace Viml.Props
open Viml.Spec

variable {nv : Bool} {fn : Str} {A E : List Str}

/-- C90.  The commands `E` are missing behind the lines `A`.  If a loop is open, `:break` and `:continue` are correct there, and
`:return` if a function is open; the same commands are missing behind them. -/
theorem C90_kept (nv : Bool) (fn : Str) (A E : List Str) (n : Str) (f : Ast.File) (hA : Between nv fn A) (h : Missing nv fn A E)
    (hf : parseFileLines nv fn (A ++ E) = some ⟨some f, none⟩) (hn : n ∈ jumpCmds) (ha : Allows E n) :
    Between nv fn (A ++ [n]) ∧ Missing nv fn (A ++ [n]) E ∧ ∃ f', Complete nv fn (A ++ [n] ++ E) f' := by
  have h0 := (openAt_of hA h hf).jump hn ha
  obtain ⟨h1, h2, _⟩ := openAt_closed h0
  exact ⟨h0.between, h1, h2⟩

/-- C90.  Otherwise they are an error in their line, whatever follows. -/
theorem C90_wrong (nv : Bool) (fn : Str) (A E B : List Str) (n : Str) (f : Ast.File) (hA : Between nv fn A) (h : Missing nv fn A E)
    (hf : parseFileLines nv fn (A ++ E) = some ⟨some f, none⟩) (hn : n ∈ jumpCmds) (ha : ¬ Allows E n)
    (hB : ∀ l, B.head? = some l → afterBackslash l = none) :
    parseFileLines nv fn (A ++ n :: B) = some ⟨none, some (.parse fn (readLen A) (A.length + 1) 1 (outside n))⟩ :=
  (openAt_of hA h hf).noJump hn ha hB

/-- C90.  The file with the command and the end commands is accepted if and only if such a block is open. -/
theorem C90_accepted (nv : Bool) (fn : Str) (A E : List Str) (n : Str) (f : Ast.File) (hA : Between nv fn A)
    (h : Missing nv fn A E) (hf : parseFileLines nv fn (A ++ E) = some ⟨some f, none⟩) (hn : n ∈ jumpCmds) :
    (∃ f', parseFileLines nv fn (A ++ n :: E) = some ⟨some f', none⟩) ↔ Allows E n := by
  have h0 := openAt_of hA h hf
  constructor
  · rintro ⟨f', h1⟩
    refine Classical.byContradiction fun ha => ?_
    rw [h0.noJump hn ha (ends_noCont h0.ends)] at h1
    cases h1
  · intro ha
    obtain ⟨_, _, f', h1⟩ := C90_kept nv fn A E n f hA h hf hn ha
    obtain ⟨p, h2, _⟩ := C61_alone nv fn _ f' h1
    exact ⟨_, by simpa using h2⟩

/-- C90.  On the top level none of them is correct. -/
theorem C90_top (nv : Bool) (fn : Str) (A B : List Str) (n : Str) (f : Ast.File) (hA : Complete nv fn A f) (hn : n ∈ jumpCmds)
    (hB : ∀ l, B.head? = some l → afterBackslash l = none) :
    parseFileLines nv fn (A ++ n :: B) = some ⟨none, some (.parse fn (readLen A) (A.length + 1) 1 (outside n))⟩ := by
  obtain ⟨p, h, _⟩ := C61_alone nv fn A f hA
  refine C90_wrong nv fn A [] B n ⟨p, f.body⟩ (complete_between hA) (fun X n Y e => by simp at e) (by rw [List.append_nil]; exact h) hn ?_ hB
  unfold Allows
  split <;> simp

/-! ### Examples -/

/-- What is missing behind `A`, and which of the three commands can stand there. -/
example : ∃ E, Missing false cs!"f" openA E ∧ jumpCmds.map (fun n => decide (Allows E n)) = [true, true, true] := by
  have hA : Between false cs!"f" openA := between_of (o := 100) (by decide +kernel)
  obtain ⟨E, f, h1, h2⟩ := C88_accepted false cs!"f" openA hA
  have h4 := (C89_missing false cs!"f" openA E [cs!"endif", cs!"endfor", cs!"endtry", cs!"endfunction"] f hA h1 h2 (by decide)).1
    (no_error_iff.2 (by decide +kernel))
  subst h4
  exact ⟨_, h1, by decide⟩

/-- In an `:if` in a `:while`: with any lines behind it `:return` is an error; `:break` is correct. -/
example (B : List Str) (hB : ∀ l, B.head? = some l → afterBackslash l = none) :
    parseFileLines false cs!"f" ([cs!"while 1", cs!"if 2"] ++ cs!"return" :: B) =
      some ⟨none, some (.parse cs!"f" 13 3 1 cs!"E133: :return not inside a function")⟩ ∧
    Between false cs!"f" ([cs!"while 1", cs!"if 2"] ++ [cs!"break"]) := by
  have hA : Between false cs!"f" [cs!"while 1", cs!"if 2"] := between_of (o := 13) (by decide +kernel)
  obtain ⟨E, f, h1, h2⟩ := C88_accepted false cs!"f" _ hA
  have h4 := (C89_missing false cs!"f" _ E [cs!"endif", cs!"endwhile"] f hA h1 h2 (by decide)).1 (no_error_iff.2 (by decide +kernel))
  subst h4
  exact ⟨C90_wrong false cs!"f" _ _ B cs!"return" f hA h1 h2 (by decide) (by decide) hB,
    (C90_kept false cs!"f" _ _ cs!"break" f hA h1 h2 (by decide) (by decide)).1⟩

/-- A loop outside of the function counts, unlike in Vim: any of the open blocks will do. -/
example : (parseFileLines false cs!"f" [cs!"while 1", cs!"function F()", cs!"break", cs!"endfunction", cs!"endwhile"]).any
    (fun r => r.err.isNone) = true := by decide +kernel

example : jumpCmds.map outside = [cs!"E587: :break without :while or :for", cs!"E586: :continue without :while or :for",
    cs!"E133: :return not inside a function"] := by decide

end Viml.Props
