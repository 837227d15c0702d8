/-
C94: the command `:finish`.
-/
import Verif.Lemmas.Finish
import Verif.Props.Within

namespace Viml.Props
open Viml.Spec

/-- C94.  At the top level nothing behind `:finish` is read: whatever lines follow, the file is accepted, and its statements are
those before and the command itself. -/
theorem C94_top (nv : Bool) (fn : Str) (A B : List Str) (f : Ast.File) (hA : Complete nv fn A f)
    (hB : ∀ l, B.head? = some l → afterBackslash l = none) :
    ∃ s ea, parseFileLines nv fn (A ++ cs!"finish" :: B) =
      some ⟨some ⟨s, f.body ++ [.excmd ⟨(fileBytes A).length, A.length + 1, 1, fn⟩ ea cs!"finish"]⟩, none⟩ := by
  obtain ⟨s, ea, h⟩ := finish_script hA hB
  obtain ⟨_, _, _, _, _, _, h2, h3, h4⟩ := fin_line (n := cs!"finish") (A := A) (by decide) hB
  have e : here (mkEnv (A ++ cs!"finish" :: B)) fn (restB A (cs!"finish" :: B)) = ⟨(fileBytes A).length, A.length + 1, 1, fn⟩ := by
    unfold here pubPos
    rw [h2, h3, h4]
  rw [e] at h
  exact ⟨s, ea, (C52_lines ..).2 h⟩

/-- C94.  So no line behind it is a place between statements. -/
theorem C94_last (nv : Bool) (fn : Str) (A B : List Str) (f : Ast.File) (hA : Complete nv fn A f)
    (hB : ∀ l, B.head? = some l → afterBackslash l = none) : ¬ Between nv fn (A ++ cs!"finish" :: B) := by
  rintro ⟨n, o, h⟩
  obtain ⟨s, ea, h1⟩ := C94_top nv fn A (B ++ [cs!"xyzzy"]) f hA (by
    intro l hl
    cases B with
    | nil => cases hl; decide +kernel
    | cons b B => exact hB l hl)
  rw [show A ++ cs!"finish" :: B ++ [cs!"xyzzy"] = A ++ cs!"finish" :: (B ++ [cs!"xyzzy"]) by simp, h1] at h
  cases h

/-- C94.  In a block the lines behind `:finish` are read as if it were not there: the same blocks are open. -/
theorem C94_block (nv : Bool) (fn : Str) (A E : List Str) (f : Ast.File) (hA : Between nv fn A) (h : Missing nv fn A E)
    (hf : parseFileLines nv fn (A ++ E) = some ⟨some f, none⟩) (hE : E ≠ []) :
    Between nv fn (A ++ [cs!"finish"]) ∧ Missing nv fn (A ++ [cs!"finish"]) E ∧
      ∃ g, Complete nv fn (A ++ [cs!"finish"] ++ E) g := by
  have h0 := (openAt_of hA h hf).finish hE
  obtain ⟨h1, h2, _⟩ := openAt_closed h0
  exact ⟨h0.between, h1, h2⟩

/-- C94.  Behind lines that end between statements, the place behind `:finish` is again between statements if and only if a
block is open. -/
theorem C94_iff (nv : Bool) (fn : Str) (A : List Str) (hA : Between nv fn A) :
    Between nv fn (A ++ [cs!"finish"]) ↔ ¬ ∃ f, Complete nv fn A f := by
  constructor
  · rintro h ⟨f, hf⟩
    exact C94_last nv fn A [] f hf (by simp) h
  · intro hn
    obtain ⟨E, f, h1, h2⟩ := C88_accepted nv fn A hA
    refine (C94_block nv fn A E f hA h1 h2 ?_).1
    rintro rfl
    obtain ⟨E', f', k1, k2, _⟩ := C88_close nv fn A hA
    obtain ⟨p, k3, _⟩ := C61_alone nv fn _ f' k2
    cases missing_unique h1 k1 h2 k3
    exact hn ⟨f', by simpa using k2⟩

/-! ### Examples -/

/-- Behind `:finish` anything may stand, here an open block and a line that is no command. -/
example (B : List Str) : ∃ f s ea, parseFileLines false cs!"f" ([cs!"let a = 1"] ++ cs!"finish" :: cs!"while (" :: B) =
    some ⟨some ⟨s, f ++ [.excmd ⟨(fileBytes [cs!"let a = 1"]).length, 2, 1, cs!"f"⟩ ea cs!"finish"]⟩, none⟩ := by
  obtain ⟨f, h⟩ := complete_of (nv := false) (fn := cs!"f") (A := [cs!"let a = 1"]) (by decide +kernel)
  exact ⟨f.body, C94_top false cs!"f" _ _ f h (by rintro _ ⟨⟩; decide +kernel)⟩

/-- In an `:if` the line behind it is read, and rejected. -/
example : (parseFileLines false cs!"f" [cs!"if a", cs!"finish", cs!"while ("]).bind (·.err) =
      some (.parse cs!"f" 19 3 8 cs!"unexpected token: <EOL>") ∧
    Between false cs!"f" ([cs!"if a"] ++ [cs!"finish"]) :=
  ⟨by decide +kernel, between_of (o := 12) (by decide +kernel)⟩

end Viml.Props
