/-
C89: the commands that end blocks must match the open blocks.
-/
import Verif.Props.Close

namespace Viml.Props
open Viml.Spec

variable {nv : Bool} {fn : Str} {A E : List Str}

theorem openAt_of {f : Ast.File} (hA : Between nv fn A) (h : Missing nv fn A E)
    (hf : parseFileLines nv fn (A ++ E) = some ⟨some f, none⟩) : OpenAt nv fn A E := by
  obtain ⟨st, h0⟩ := between_opened hA
  obtain ⟨h1, ⟨f1, h2⟩, _⟩ := openAt_closed h0
  obtain ⟨p, h3, _⟩ := C61_alone nv fn _ f1 h2
  cases missing_unique h h1 hf h3
  exact h0

theorem openAt_prefix : ∀ {Y A E : List Str}, OpenAt nv fn A (Y ++ E) → OpenAt nv fn (A ++ Y) E
  | [], A, E, h => by rw [List.append_nil]; exact h
  | y :: Y, A, E, h => by
    have := openAt_prefix (Y := Y) h.close
    simpa using this

theorem ends_noCont {X : List Str} (hX : ∀ n ∈ X, n ∈ endCmds) : ∀ l, X.head? = some l → afterBackslash l = none := by
  intro l hl
  exact end_noCont l (hX l (List.mem_of_mem_head? hl))

/-- C89.  The commands `Y ++ E` are missing behind the lines `A`.  Then an end command `n` other than the first of `E`, behind
`A ++ Y`, is an error in its line, whatever follows it. -/
theorem C89_wrong (nv : Bool) (fn : Str) (A Y E B : List Str) (n : Str) (f : Ast.File) (hA : Between nv fn A)
    (h : Missing nv fn A (Y ++ E)) (hf : parseFileLines nv fn (A ++ (Y ++ E)) = some ⟨some f, none⟩) (hn : n ∈ endCmds)
    (he : E.head? ≠ some n) (hB : ∀ l, B.head? = some l → afterBackslash l = none) :
    parseFileLines nv fn (A ++ Y ++ n :: B) =
      some ⟨none, some (.parse fn (readLen (A ++ Y)) (A.length + Y.length + 1) 1 (misfit n E))⟩ := by
  have := (openAt_prefix (openAt_of hA h hf)).misfit hn he hB
  rwa [List.length_append] at this

/-- C89.  The place behind an end command is between statements if and only if it is the first one missing. -/
theorem C89_right (nv : Bool) (fn : Str) (A E : List Str) (n : Str) (f : Ast.File) (hA : Between nv fn A)
    (h : Missing nv fn A E) (hf : parseFileLines nv fn (A ++ E) = some ⟨some f, none⟩) (hn : n ∈ endCmds) :
    Between nv fn (A ++ [n]) ↔ E.head? = some n := by
  have h0 := openAt_of hA h hf
  constructor
  · intro hb
    refine Classical.byContradiction fun he => ?_
    have h1 := h0.misfit hn he (B := [cs!"xyzzy"]) (by rintro _ ⟨⟩; decide +kernel)
    obtain ⟨_, _, h2⟩ := hb
    rw [show A ++ [n] ++ [cs!"xyzzy"] = A ++ n :: [cs!"xyzzy"] by simp, h1] at h2
    simp at h2
  · intro he
    cases E with
    | nil => cases he
    | cons m E =>
      cases he
      exact h0.close.between

theorem match_iff : ∀ {X A E : List Str}, OpenAt nv fn A E → (∀ n ∈ X, n ∈ endCmds) →
    ((∃ f, parseFileLines nv fn (A ++ X) = some ⟨some f, none⟩) ↔ X = E)
  | [], A, [], h, _ => by
    obtain ⟨f, h1⟩ := h.complete
    obtain ⟨p, h2, _⟩ := C61_alone nv fn _ f h1
    exact ⟨fun _ => rfl, fun _ => ⟨_, by rw [List.append_nil]; exact h2⟩⟩
  | [], A, n :: E, h, _ => by
    refine ⟨fun ⟨f, hf⟩ => ?_, fun e => nomatch e⟩
    rw [List.append_nil, h.rejected] at hf
    cases hf
  | m :: X, A, [], h, hX => by
    refine ⟨fun ⟨f, hf⟩ => ?_, fun e => nomatch e⟩
    rw [h.misfit (hX m (by simp)) (by simp) (ends_noCont fun n hn => hX n (by simp [hn]))] at hf
    cases hf
  | m :: X, A, n :: E, h, hX => by
    by_cases e : n = m
    · subst e
      have := match_iff (X := X) h.close (fun n hn => hX n (by simp [hn]))
      simpa using this
    · refine ⟨fun ⟨f, hf⟩ => ?_, fun e' => absurd (List.cons.inj e').1.symm e⟩
      rw [h.misfit (hX m (by simp)) (by simpa using e) (ends_noCont fun n hn => hX n (by simp [hn]))] at hf
      cases hf

/-- C89.  Of all lists of end commands, only one makes the lines `A` an accepted file. -/
theorem C89_match (nv : Bool) (fn : Str) (A : List Str) (hA : Between nv fn A) :
    ∃ E, ∀ X : List Str, (∀ n ∈ X, n ∈ endCmds) → ((∃ f, parseFileLines nv fn (A ++ X) = some ⟨some f, none⟩) ↔ X = E) := by
  obtain ⟨st, h0⟩ := between_opened hA
  exact ⟨st, fun X hX => match_iff h0 hX⟩

/-- C89.  It is the list of the commands that are missing one after the other. -/
theorem C89_missing (nv : Bool) (fn : Str) (A E X : List Str) (f : Ast.File) (hA : Between nv fn A) (h : Missing nv fn A E)
    (hf : parseFileLines nv fn (A ++ E) = some ⟨some f, none⟩) (hX : ∀ n ∈ X, n ∈ endCmds) :
    (∃ f, parseFileLines nv fn (A ++ X) = some ⟨some f, none⟩) ↔ X = E := match_iff (openAt_of hA h hf) hX

theorem complete_between {f : Ast.File} (h : Complete nv fn A f) : Between nv fn A := by
  obtain ⟨q, h1, h2, h3⟩ := xyzzy_wrong nv fn [] { top := true } none []
  have e : restB [] [cs!"xyzzy"] = (mkEnv ([] ++ [cs!"xyzzy"])).buf := by
    have := mkEnv_append (A := []) (B := [cs!"xyzzy"]) (by rintro _ ⟨⟩; decide +kernel)
    exact this.symm
  rw [e] at h1
  have h4 : parseFileLines nv fn [cs!"xyzzy"] = some ⟨none, some (.parse fn q.i 1 1 cs!"E492: Not an editor command: xyzzy")⟩ :=
    (C54_lines ..).2 ⟨rfl, rfl, q, rfl, h2.symm, h3.symm, .line .start h1⟩
  have h5 := C62_error nv fn A [cs!"xyzzy"] f h (by rintro _ ⟨⟩; decide +kernel)
  rw [h4] at h5
  cases h6 : parseFileLines nv fn (A ++ [cs!"xyzzy"]) with
  | none => rw [h6] at h5; cases h5
  | some r =>
    obtain ⟨n', er⟩ := r
    rw [h6] at h5
    simp only [Option.bind_some, Option.map_some, errBehind] at h5
    subst h5
    rw [Nat.add_comm 1] at h6
    exact ⟨n', _, h6⟩

/-- C89.  Behind a whole script no end command is correct. -/
theorem C89_top (nv : Bool) (fn : Str) (A B : List Str) (n : Str) (f : Ast.File) (hA : Complete nv fn A f) (hn : n ∈ endCmds)
    (hB : ∀ l, B.head? = some l → afterBackslash l = none) :
    parseFileLines nv fn (A ++ n :: B) = some ⟨none, some (.parse fn (readLen A) (A.length + 1) 1 (misfit n []))⟩ := by
  obtain ⟨p, h, _⟩ := C61_alone nv fn A f hA
  have h0 : OpenAt nv fn A [] := openAt_of (complete_between hA) (fun X n Y e => by simp at e) (by rw [List.append_nil]; exact h)
  exact h0.misfit hn (by simp) hB

/-! ### Examples -/

/-- The end commands that fit behind `openA`. -/
example : (parseFileLines false cs!"f" (openA ++ [cs!"endif", cs!"endfor", cs!"endtry", cs!"endfunction"])).any (fun r => r.err.isNone) = true ∧
    endCmds.map (fun n => errOf (parseFileLines false cs!"f" (openA ++ [n, cs!"endfunction"]))) =
      [some (.parse cs!"f" 100 8 1 cs!"E171: Missing :endif:    ENDFUNCTION"), some (.parse cs!"f" 100 8 1 cs!"E588: :endwhile without :while"),
        some (.parse cs!"f" 100 8 1 cs!"E588: :endfor without :for"), some (.parse cs!"f" 106 9 1 cs!"E170: Missing :endfor:    ENDFUNCTION"),
        some (.parse cs!"f" 100 8 1 cs!"E602: :endtry without :try")] := by decide +kernel

example : endCmds.map (fun n => misfit n [cs!"endif", cs!"endfunction"]) = [cs!"E171: Missing :endif:    ENDFUNCTION",
    cs!"E588: :endwhile without :while", cs!"E588: :endfor without :for", cs!"E580: :endif without :if", cs!"E602: :endtry without :try"] := by
  decide

/-- Only one list of end commands fits. -/
example : ∃ E, Missing false cs!"f" openA E ∧ E.length = 4 ∧ ∀ X : List Str, (∀ n ∈ X, n ∈ endCmds) →
    ((∃ f, parseFileLines false cs!"f" (openA ++ X) = some ⟨some f, none⟩) ↔ X = E) := by
  have hA : Between false cs!"f" openA := between_of (o := 100) (by decide +kernel)
  obtain ⟨E, f, h1, h2⟩ := C88_accepted false cs!"f" openA hA
  have h3 := fun X hX => C89_missing false cs!"f" openA E X f hA h1 h2 hX
  have h4 := (h3 [cs!"endif", cs!"endfor", cs!"endtry", cs!"endfunction"] (by decide)).1 (no_error_iff.2 (by decide +kernel))
  exact ⟨E, h1, by rw [← h4]; rfl, h3⟩

/-- A wrong end command behind a right one, with any lines behind it. -/
example (B : List Str) (hB : ∀ l, B.head? = some l → afterBackslash l = none) :
    parseFileLines false cs!"f" ([cs!"while 1", cs!"if 2"] ++ [cs!"endif"] ++ cs!"endfor" :: B) =
      some ⟨none, some (.parse cs!"f" 19 4 1 cs!"E588: :endfor without :for")⟩ := by
  have hA : Between false cs!"f" [cs!"while 1", cs!"if 2"] := between_of (o := 13) (by decide +kernel)
  obtain ⟨E, f, h1, h2⟩ := C88_accepted false cs!"f" _ hA
  have h4 := (C89_missing false cs!"f" _ E [cs!"endif", cs!"endwhile"] f hA h1 h2 (by decide)).1 (no_error_iff.2 (by decide +kernel))
  subst h4
  exact C89_wrong false cs!"f" [cs!"while 1", cs!"if 2"] [cs!"endif"] [cs!"endwhile"] B cs!"endfor" f hA h1 h2 (by decide) (by decide) hB

/-- Behind a whole script, with any lines behind it. -/
example (B : List Str) (hB : ∀ l, B.head? = some l → afterBackslash l = none) :
    parseFileLines false cs!"f" ([cs!"let x = 1"] ++ cs!"endfunction" :: B) =
      some ⟨none, some (.parse cs!"f" 10 2 1 cs!"E193: :endfunction not inside a function")⟩ := by
  obtain ⟨g, hg⟩ := complete_of (show isComplete false cs!"f" [cs!"let x = 1"] = true by decide +kernel)
  exact C89_top false cs!"f" _ B _ g hg (by decide) hB

/-- Other commands between the end commands matter, and abbreviations are other lines for the same commands. -/
example : (parseFileLines false cs!"f" [cs!"if 1", cs!"en"]).any (fun r => r.err.isNone) = true ∧
    (parseFileLines false cs!"f" [cs!"if 1", cs!"endif | if 2", cs!"endif"]).any (fun r => r.err.isNone) = true := by decide +kernel

end Viml.Props
