/-
C92: lines that end between statements, behind other such lines.
-/
import Verif.Lemmas.Within
import Verif.Props.Mid

namespace Viml.Props
open Viml.Spec

variable {nv : Bool} {fn : Str} {A W : List Str}

/-- C92.  If `A` ends between statements, and `W` alone does, then also both together. -/
theorem C92_between (nv : Bool) (fn : Str) (A W : List Str) (hA : Between nv fn A) (hW : Between nv fn W)
    (hc : ∀ l, W.head? = some l → afterBackslash l = none) : Between nv fn (A ++ W) := by
  obtain ⟨_, hA⟩ := between_opened hA
  obtain ⟨_, hW⟩ := between_opened hW
  obtain ⟨_, hA⟩ := hA.in
  obtain ⟨_, hW⟩ := hW.in
  exact (hA.within hW hc).at.between

/-- C92.  Then the end commands missing behind `W` are missing, and after them those missing behind `A`. -/
theorem C92_missing (nv : Bool) (fn : Str) (A W E F : List Str) (f g : Ast.File) (hA : Between nv fn A) (h1 : Missing nv fn A E)
    (hf : parseFileLines nv fn (A ++ E) = some ⟨some f, none⟩) (hW : Between nv fn W) (h2 : Missing nv fn W F)
    (hg : parseFileLines nv fn (W ++ F) = some ⟨some g, none⟩) (hc : ∀ l, W.head? = some l → afterBackslash l = none) :
    Missing nv fn (A ++ W) (F ++ E) ∧ ∃ f', Complete nv fn (A ++ W ++ (F ++ E)) f' := by
  obtain ⟨_, h3⟩ := (openAt_of hA h1 hf).in
  obtain ⟨_, h4⟩ := (openAt_of hW h2 hg).in
  obtain ⟨h5, h6, _⟩ := openAt_closed (h3.within h4 hc).at
  exact ⟨h5, h6⟩

/-- C92.  If a block is open behind `W`, then `:else`, `:catch` and `:finally` are correct behind it if and only if they are
without the lines `A` before. -/
theorem C92_part (nv : Bool) (fn : Str) (A W : List Str) (n : Str) (hA : Between nv fn A) (hW : Between nv fn W)
    (hc : ∀ l, W.head? = some l → afterBackslash l = none) (ho : ∀ f, parseFileLines nv fn W ≠ some ⟨some f, none⟩)
    (hn : n ∈ midCmds) : Between nv fn (A ++ W ++ [n]) ↔ Between nv fn (W ++ [n]) := by
  obtain ⟨_, hA⟩ := between_opened hA
  obtain ⟨st, hW⟩ := between_opened hW
  obtain ⟨_, hA⟩ := hA.in
  obtain ⟨b, hW⟩ := hW.in
  have h := hA.within hW hc
  have hb : b ≠ none := by
    rintro rfl
    obtain ⟨cx, used, h1⟩ := hW [] (by simp)
    rcases openFront_part h1 with ⟨_, rfl⟩ | ⟨i, m, st', cx0, b0, used0, r0, e, _⟩
    · obtain ⟨f, h2⟩ := hW.at.complete
      obtain ⟨p, h3, _⟩ := C61_alone nv fn W f h2
      exact ho _ h3
    · cases e
  cases b with
  | none => exact absurd rfl hb
  | some i =>
    rw [Option.some_or] at h
    exact ⟨fun h1 => (hW.mid hn (fits_of h hn h1)).at.between, fun h1 => (h.mid hn (fits_of hW hn h1)).at.between⟩

/-! ### Examples -/

/-- Any lines that end between statements, and an `:if` in a `:while` in its `:elseif`. -/
example (A : List Str) (hA : Between false cs!"f" A) :
    Between false cs!"f" (A ++ [cs!"while 1", cs!"if 2", cs!"elseif 3"]) ∧
    Between false cs!"f" (A ++ [cs!"while 1", cs!"if 2", cs!"elseif 3"] ++ [cs!"else"]) ∧
    ¬ Between false cs!"f" (A ++ [cs!"while 1", cs!"if 2", cs!"elseif 3"] ++ [cs!"catch"]) := by
  have hW : Between false cs!"f" [cs!"while 1", cs!"if 2", cs!"elseif 3"] := between_of (o := 22) (by decide +kernel)
  have hc : ∀ l, [cs!"while 1", cs!"if 2", cs!"elseif 3"].head? = some l → afterBackslash l = none := by
    rintro _ ⟨⟩; decide +kernel
  have ho : ∀ f, parseFileLines false cs!"f" [cs!"while 1", cs!"if 2", cs!"elseif 3"] ≠ some ⟨some f, none⟩ := by
    intro f h
    have h1 : errOf (parseFileLines false cs!"f" [cs!"while 1", cs!"if 2", cs!"elseif 3"]) ≠ none := by decide +kernel
    rw [h] at h1
    exact h1 rfl
  refine ⟨C92_between _ _ A _ hA hW hc, (C92_part _ _ A _ cs!"else" hA hW hc ho (by decide)).2 (between_of (o := 27) (by decide +kernel)),
    fun h => ?_⟩
  have h1 := (C92_part _ _ A _ cs!"catch" hA hW hc ho (by decide)).1 h
  exact not_between (o := 22) (ln := 4) (c := 1) (m := cs!"E603: :catch without :try") (by decide +kernel) (by decide) h1

/-- The missing commands of both. -/
example : ∃ f, Missing false cs!"f" (openA ++ openA) ([cs!"endif", cs!"endfor", cs!"endtry", cs!"endfunction"] ++
      [cs!"endif", cs!"endfor", cs!"endtry", cs!"endfunction"]) ∧
    Complete false cs!"f" (openA ++ openA ++ ([cs!"endif", cs!"endfor", cs!"endtry", cs!"endfunction"] ++
      [cs!"endif", cs!"endfor", cs!"endtry", cs!"endfunction"])) f := by
  have hA : Between false cs!"f" openA := between_of (o := 100) (by decide +kernel)
  obtain ⟨E, f, h1, h2⟩ := C88_accepted false cs!"f" openA hA
  have h4 := (C89_missing false cs!"f" openA E [cs!"endif", cs!"endfor", cs!"endtry", cs!"endfunction"] f hA h1 h2 (by decide)).1
    (no_error_iff.2 (by decide +kernel))
  subst h4
  obtain ⟨h5, g, h6⟩ := C92_missing false cs!"f" openA openA _ _ f f hA h1 h2 hA h1 h2 (by rintro _ ⟨⟩; decide +kernel)
  exact ⟨g, h5, h6⟩

end Viml.Props
