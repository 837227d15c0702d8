/-
C88: open blocks can be closed by the commands that the messages name.
-/
import Verif.Lemmas.Close
import Verif.Props.Delete

namespace Viml.Props
open Viml.Spec

variable {nv : Bool} {fn : Str} {A E E' st : List Str}

theorem openAt_closed : ∀ {st A : List Str}, OpenAt nv fn A st → Missing nv fn A st ∧ (∃ f, Complete nv fn (A ++ st) f) ∧
    ∀ X, X <+: st → Between nv fn (A ++ X)
  | [], A, h => by
    refine ⟨fun X n Y e => by simp at e, by rw [List.append_nil]; exact h.complete, fun X hX => ?_⟩
    rw [List.prefix_nil.1 hX, List.append_nil]
    exact h.between
  | n :: st, A, h => by
    obtain ⟨h1, h2, h3⟩ := openAt_closed h.close
    refine ⟨fun X m Y e => ?_, by simpa using h2, fun X hX => ?_⟩
    · cases X with
      | nil =>
        cases e
        rw [List.append_nil]
        exact ⟨h.ends _ (by simp), h.rejected⟩
      | cons x X =>
        cases e
        have := h1 X m Y rfl
        simpa using this
    · cases X with
      | nil => rw [List.append_nil]; exact h.between
      | cons x X =>
        obtain ⟨rfl, hX'⟩ := List.cons_prefix_cons.1 hX
        simpa using h3 X hX'

/-- C88.  At a place between statements there are commands `E`, each of which ends a block: the lines `A` with some of them but
not all are rejected at the end of the file with the message that the next one is missing, and with all of them they are a whole
script.  After each of them the place is between statements again. -/
theorem C88_close (nv : Bool) (fn : Str) (A : List Str) (hA : Between nv fn A) :
    ∃ E f, Missing nv fn A E ∧ Complete nv fn (A ++ E) f ∧ ∀ X, X <+: E → Between nv fn (A ++ X) := by
  obtain ⟨st, h⟩ := between_opened hA
  obtain ⟨h1, ⟨f, h2⟩, h3⟩ := openAt_closed h
  exact ⟨st, f, h1, h2, h3⟩

/-- C88.  The file is accepted with them. -/
theorem C88_accepted (nv : Bool) (fn : Str) (A : List Str) (hA : Between nv fn A) :
    ∃ E f, Missing nv fn A E ∧ parseFileLines nv fn (A ++ E) = some ⟨some f, none⟩ := by
  obtain ⟨E, f, h1, h2, _⟩ := C88_close nv fn A hA
  obtain ⟨p, h3, _⟩ := C61_alone nv fn _ f h2
  exact ⟨E, _, h1, h3⟩

/-- C88.  One step: the lines are a whole script, or the message at the end of the file names a command that ends a block; the
place behind this command, in a line of its own, is again between statements. -/
theorem C88_step (nv : Bool) (fn : Str) (A : List Str) (hA : Between nv fn A) :
    (∃ f, Complete nv fn A f) ∨ ∃ n ∈ endCmds,
      parseFileLines nv fn A = some ⟨none, some (.parse fn (readLen A) (A.length + 1) 0 (missing n))⟩ ∧
      Between nv fn (A ++ [n]) := by
  obtain ⟨E, f, h1, h2, h3⟩ := C88_close nv fn A hA
  cases E with
  | nil => exact .inl ⟨f, by simpa using h2⟩
  | cons n E =>
    obtain ⟨k1, k2⟩ := h1 [] n E rfl
    rw [List.append_nil] at k2
    exact .inr ⟨n, k1, k2, h3 [n] (List.prefix_append [n] E)⟩

theorem missing_inj : ∀ m ∈ endCmds, ∀ n ∈ endCmds, missing m = missing n → m = n := by decide +kernel

theorem missing_unique : ∀ {E E' A : List Str} {f f' : Ast.File}, Missing nv fn A E → Missing nv fn A E' →
    parseFileLines nv fn (A ++ E) = some ⟨some f, none⟩ → parseFileLines nv fn (A ++ E') = some ⟨some f', none⟩ → E = E'
  | [], [], _, _, _, _, _, _, _ => rfl
  | [], n :: E', A, _, _, _, h2, h3, _ => by
    have := (h2 [] n E' rfl).2
    rw [h3] at this
    cases this
  | n :: E, [], A, _, _, h1, _, _, h4 => by
    have := (h1 [] n E rfl).2
    rw [h4] at this
    cases this
  | m :: E, n :: E', A, f, f', h1, h2, h3, h4 => by
    have a := h1 [] m E rfl
    have b := h2 [] n E' rfl
    have e := a.2.symm.trans b.2
    injection e with e
    injection e with _ e
    injection e with e
    injection e with _ _ _ _ e
    cases missing_inj m a.1 n b.1 e
    have step : ∀ {F : List Str}, Missing nv fn A (m :: F) → Missing nv fn (A ++ [m]) F := by
      intro F h X n Y e
      have := h (m :: X) n Y (by rw [e]; rfl)
      simpa using this
    rw [missing_unique (A := A ++ [m]) (step h1) (step h2) (by simpa using h3) (by simpa using h4)]

/-- C88.  There is only one such list of commands. -/
theorem C88_unique (nv : Bool) (fn : Str) (A E E' : List Str) (f f' : Ast.File) (h : Missing nv fn A E) (h' : Missing nv fn A E')
    (hf : parseFileLines nv fn (A ++ E) = some ⟨some f, none⟩) (hf' : parseFileLines nv fn (A ++ E') = some ⟨some f', none⟩) :
    E = E' := missing_unique h h' hf hf'

/-- C88.  A whole script behind the lines `A` changes nothing about the end commands that are missing. -/
theorem C88_within (nv : Bool) (fn : Str) (A E W : List Str) (f g : Ast.File) (hA : Between nv fn A) (h : Missing nv fn A E)
    (hf : parseFileLines nv fn (A ++ E) = some ⟨some f, none⟩) (hg : Complete nv fn W g)
    (hW : ∀ l, W.head? = some l → afterBackslash l = none) :
    Missing nv fn (A ++ W) E ∧ ∃ f', Complete nv fn (A ++ W ++ E) f' := by
  obtain ⟨st, h0⟩ := between_opened hA
  obtain ⟨h1, ⟨f1, h2⟩, _⟩ := openAt_closed h0
  obtain ⟨p, h3, _⟩ := C61_alone nv fn _ f1 h2
  cases missing_unique h h1 hf h3
  obtain ⟨k1, k2, _⟩ := openAt_closed (h0.script hg hW)
  exact ⟨k1, k2⟩

/-- C88.  An accepted file can be cut before any line in which a command of the tree starts, also inside blocks: with the
commands of C88 behind it, the first part is accepted too. -/
theorem C88_cut (nv : Bool) (fn : Str) (A : List Str) (l : Str) (B : List Str) (f : Ast.File) (p : Ast.Pos)
    (h : parseFileLines nv fn (A ++ l :: B) = some ⟨some f, none⟩) (hl : afterBackslash l = none) (hp : CommandAt f.body p)
    (h1 : p.line = A.length + 1) (h2 : p.column = bytes (lead l) + 1) :
    ∃ E g, Missing nv fn A E ∧ parseFileLines nv fn (A ++ E) = some ⟨some g, none⟩ :=
  C88_accepted nv fn A (C84_place nv fn A l B f p h hl hp h1 h2)

/-! ### Examples -/

/-- An `:elseif` in a `:for` in a `:finally` in a function. -/
def openA : List Str := [cs!"function! s:f() abort", cs!"  try", cs!"  catch /x/", cs!"  finally | for i in [1,", cs!"    \\ 2]",
  cs!"    if i", cs!"    elseif 2 \" comment"]

example : Between false cs!"f" openA := between_of (o := 100) (by decide +kernel)

/-- The messages of the file with the end commands put behind it one by one. -/
example : (List.range 5).map (fun k => errOf (parseFileLines false cs!"f" (openA ++
      [cs!"endif", cs!"endfor", cs!"endtry", cs!"endfunction"].take k))) =
    [some (.parse cs!"f" 100 8 0 cs!"E171: Missing :endif:    TOPLEVEL"), some (.parse cs!"f" 106 9 0 cs!"E170: Missing :endfor:    TOPLEVEL"),
      some (.parse cs!"f" 113 10 0 cs!"E600: Missing :endtry:    TOPLEVEL"),
      some (.parse cs!"f" 120 11 0 cs!"E126: Missing :endfunction:    TOPLEVEL"), none] := by decide +kernel

example : endCmds.map missing = [cs!"E126: Missing :endfunction:    TOPLEVEL", cs!"E170: Missing :endwhile:    TOPLEVEL",
    cs!"E170: Missing :endfor:    TOPLEVEL", cs!"E171: Missing :endif:    TOPLEVEL", cs!"E600: Missing :endtry:    TOPLEVEL"] := by
  decide

/-- Another order of the end commands is wrong. -/
example : (errOf (parseFileLines false cs!"f" (openA ++ [cs!"endif", cs!"endtry", cs!"endfor", cs!"endfunction"]))).isSome = true := by
  decide +kernel

/-- The accepted file `placeLines` cut inside its `:if`. -/
example : ∃ E g, Missing false cs!"f" [cs!"if x"] E ∧ parseFileLines false cs!"f" ([cs!"if x"] ++ E) = some ⟨some g, none⟩ := by
  obtain ⟨f, s, ea, h, _⟩ := statement_at (nv := false) (fn := cs!"f") (lines := placeLines) (ln := 1) (c := 1) (by decide +kernel)
  have g1 := C84_iff false cs!"f" [cs!"if x"] cs!"let y =<< E" [cs!"echo 1", cs!"E", cs!"endif"] f cs!"let y =<< E" h (by decide)
    (notShebang (x := cs!"let y =<< E") (by decide +kernel) (by decide)) (begins_of (by decide)) (by decide +kernel) (notDropped_of (by decide))
  exact C88_cut false cs!"f" [cs!"if x"] cs!"let y =<< E" [cs!"echo 1", cs!"E", cs!"endif"] f _ h (by decide)
    (g1.1 (between_of (o := 5) (by decide +kernel))) rfl (by decide)

/-- A script with blocks of its own behind the open blocks. -/
example : ∃ E f, Missing false cs!"f" openA E ∧ Missing false cs!"f" (openA ++ nestW) E ∧ Complete false cs!"f" (openA ++ nestW ++ E) f := by
  have hA : Between false cs!"f" openA := between_of (o := 100) (by decide +kernel)
  obtain ⟨E, f, h1, h2⟩ := C88_accepted false cs!"f" openA hA
  obtain ⟨g, hg⟩ := complete_of (show isComplete false cs!"f" nestW = true by decide +kernel)
  obtain ⟨h3, f', h4⟩ := C88_within false cs!"f" openA E nestW f g hA h1 h2 hg (by rintro _ ⟨⟩; decide)
  exact ⟨E, f', h1, h3, h4⟩

/-- In the text of `:append` the commands are text: the place must be between statements. -/
example : ¬ Between false cs!"f" [cs!"if 1", cs!"append"] ∧
    errOf (parseFileLines false cs!"f" [cs!"if 1", cs!"append"]) = some (.parse cs!"f" 12 3 0 cs!"E171: Missing :endif:    TOPLEVEL") ∧
    errOf (parseFileLines false cs!"f" [cs!"if 1", cs!"append", cs!"endif"]) =
      some (.parse cs!"f" 18 4 0 cs!"E171: Missing :endif:    TOPLEVEL") :=
  ⟨not_between (ln := 4) (c := 0) (o := 18) (m := cs!"E171: Missing :endif:    TOPLEVEL") (by decide +kernel) (by decide),
    by decide +kernel, by decide +kernel⟩

end Viml.Props
