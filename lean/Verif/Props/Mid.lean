/-
C91: where `:else`, `:catch` and `:finally` can stand.
-/
import Verif.Lemmas.Mid
import Verif.Props.Match

namespace Viml.Props
open Viml.Spec

variable {nv : Bool} {fn : Str} {A E : List Str} {b : Option Inner} {n : Str}

theorem fits_head (h : OpenIn nv fn A b E) (hn : n ∈ midCmds) (hb : Fits b n) : E.head? = some (blockEnd n) := by
  simp only [midCmds, List.mem_cons, List.not_mem_nil, or_false] at hn
  rcases hn with rfl | rfl | rfl
  · exact h.head.1.1 (.inl hb)
  · exact h.head.2.1 (.inl hb)
  · exact h.head.2.1 (.inl hb)

theorem noFit_err (h : OpenIn nv fn A b E) (hn : n ∈ midCmds) (hb : ¬ Fits b n) (he : E.head? = some (blockEnd n)) :
    midErr b n = late n := by
  simp only [midCmds, List.mem_cons, List.not_mem_nil, or_false] at hn
  rcases hn with rfl | rfl | rfl
  · unfold midErr; split <;> rfl
  · rcases h.head.2.2 he with h | h
    · exact absurd h hb
    · rw [midErr, if_pos h]
  · unfold midErr; split <;> rfl

theorem fits_of (h : OpenIn nv fn A b E) (hn : n ∈ midCmds) (hb : Between nv fn (A ++ [n])) : Fits b n := by
  refine Classical.byContradiction fun hc => ?_
  obtain ⟨m, o, e⟩ := hb
  have := h.noMid (B := [cs!"xyzzy"]) hn hc (by rintro _ ⟨⟩; decide +kernel)
  rw [List.append_assoc, List.singleton_append, this] at e
  injection e with e
  injection e with _ e
  injection e with e
  injection e with _ _ e _ _
  simp at e

/-- C91.  The commands `E` are missing behind the lines `A`.  If the first of them is not `:endif`, `:else` is an error there, if
it is not `:endtry`, `:catch` and `:finally` are, whatever follows. -/
theorem C91_wrong (nv : Bool) (fn : Str) (A E B : List Str) (n : Str) (f : Ast.File) (hA : Between nv fn A) (h : Missing nv fn A E)
    (hf : parseFileLines nv fn (A ++ E) = some ⟨some f, none⟩) (hn : n ∈ midCmds) (he : E.head? ≠ some (blockEnd n))
    (hB : ∀ l, B.head? = some l → afterBackslash l = none) :
    parseFileLines nv fn (A ++ n :: B) = some ⟨none, some (.parse fn (readLen A) (A.length + 1) 1 (stray n))⟩ := by
  obtain ⟨b, h0⟩ := (openAt_of hA h hf).in
  rw [h0.noMid hn (fun hb => he (fits_head h0 hn hb)) hB]
  simp only [midCmds, List.mem_cons, List.not_mem_nil, or_false] at hn
  rcases hn with rfl | rfl | rfl
  · unfold midErr; split <;> rfl
  · rw [midErr, if_neg fun hb => he (h0.head.2.1 (.inr hb))]
  · unfold midErr; split <;> rfl

/-- C91.  If it is, the command is correct and leaves the same commands missing, or it is an error because the last part of the
block is open. -/
theorem C91_either (nv : Bool) (fn : Str) (A E : List Str) (n : Str) (f : Ast.File) (hA : Between nv fn A) (h : Missing nv fn A E)
    (hf : parseFileLines nv fn (A ++ E) = some ⟨some f, none⟩) (hn : n ∈ midCmds) (he : E.head? = some (blockEnd n)) :
    (Between nv fn (A ++ [n]) ∧ Missing nv fn (A ++ [n]) E ∧ ∃ f', Complete nv fn (A ++ [n] ++ E) f') ∨
    ∀ B : List Str, (∀ l, B.head? = some l → afterBackslash l = none) →
      parseFileLines nv fn (A ++ n :: B) = some ⟨none, some (.parse fn (readLen A) (A.length + 1) 1 (late n))⟩ := by
  obtain ⟨b, h0⟩ := (openAt_of hA h hf).in
  rcases Classical.em (Fits b n) with hb | hb
  · have h1 := (h0.mid hn hb).at
    obtain ⟨h2, h3, _⟩ := openAt_closed h1
    exact .inl ⟨h1.between, h2, h3⟩
  · refine .inr fun B hB => ?_
    rw [h0.noMid hn hb hB, noFit_err h0 hn hb he]

/-- C91.  Behind a correct `:else` or `:finally` and a whole script, no further part of the block is correct. -/
theorem C91_last (nv : Bool) (fn : Str) (A W B : List Str) (k n : Str) (g : Ast.File) (hA : Between nv fn A)
    (hk : (k = cs!"else" ∧ n = cs!"else") ∨ (k = cs!"finally" ∧ (n = cs!"catch" ∨ n = cs!"finally")))
    (hb : Between nv fn (A ++ [k])) (hW : Complete nv fn W g) (hc : ∀ l, W.head? = some l → afterBackslash l = none)
    (hB : ∀ l, B.head? = some l → afterBackslash l = none) :
    parseFileLines nv fn (A ++ k :: W ++ n :: B) =
      some ⟨none, some (.parse fn (readLen (A ++ k :: W)) ((A ++ k :: W).length + 1) 1 (late n))⟩ := by
  obtain ⟨st, h0⟩ := between_opened hA
  obtain ⟨b, h0⟩ := h0.in
  have hkm : k ∈ midCmds := by rcases hk with ⟨rfl, _⟩ | ⟨rfl, _⟩ <;> decide
  have hnm : n ∈ midCmds := by rcases hk with ⟨_, rfl⟩ | ⟨_, rfl | rfl⟩ <;> decide
  have hf := fits_of h0 hkm hb
  have h1 := (h0.mid hkm hf).script hW hc
  rw [show A ++ [k] ++ W = A ++ k :: W by simp] at h1
  have hno : ¬ Fits (some (midInner k)) n := by
    rcases hk with ⟨rfl, rfl⟩ | ⟨rfl, rfl | rfl⟩ <;> simp [Fits, midInner, ifLike, tryLike]
  rw [h1.noMid hnm hno hB]
  have : midErr (some (midInner k)) n = late n := by
    rcases hk with ⟨rfl, rfl⟩ | ⟨rfl, rfl | rfl⟩ <;> decide
  rw [this]

/-- C91.  Behind `:try`, or a correct `:catch`, and a whole script, `:catch` and `:finally` are correct. -/
theorem C91_more (nv : Bool) (fn : Str) (A W : List Str) (k n : Str) (g : Ast.File) (hA : Between nv fn A)
    (hk : k = cs!"try" ∨ (k = cs!"catch" ∧ Between nv fn (A ++ [k]))) (hn : n = cs!"catch" ∨ n = cs!"finally")
    (hW : Complete nv fn W g) (hc : ∀ l, W.head? = some l → afterBackslash l = none) :
    Between nv fn (A ++ k :: W ++ [n]) := by
  obtain ⟨st, h0⟩ := between_opened hA
  have hnm : n ∈ midCmds := by rcases hn with rfl | rfl <;> decide
  rcases hk with rfl | ⟨rfl, hb⟩
  · have h1 := h0.try_.script hW hc
    rw [show A ++ [cs!"try"] ++ W = A ++ cs!"try" :: W by simp] at h1
    exact (h1.mid hnm (by rcases hn with rfl | rfl <;> simp [Fits, tryLike])).at.between
  · obtain ⟨b, h0⟩ := h0.in
    have h1 := (h0.mid (by decide) (fits_of h0 (by decide) hb)).script hW hc
    rw [show A ++ [cs!"catch"] ++ W = A ++ cs!"catch" :: W by simp] at h1
    exact (h1.mid hnm (by rcases hn with rfl | rfl <;> simp [Fits, tryLike, midInner])).at.between

/-- C91.  If the command is correct behind the lines `X` of a whole script, it is correct behind these lines in every block,
also with a further script before it. -/
theorem C91_first (nv : Bool) (fn : Str) (A X Y W : List Str) (n : Str) (f g : Ast.File) (hA : Between nv fn A) (hn : n ∈ midCmds)
    (hX : Complete nv fn (X ++ n :: Y) f) (h0 : ∀ l, X.head? = some l → afterBackslash l = none)
    (hY : ∀ l, Y.head? = some l → afterBackslash l = none) (hb : Between nv fn (A ++ X)) (hW : Complete nv fn W g)
    (hc : ∀ l, W.head? = some l → afterBackslash l = none) :
    Between nv fn (A ++ X ++ W ++ [n]) := by
  obtain ⟨st, hA⟩ := between_opened hA
  obtain ⟨m, o, e⟩ := (hA.script hX (by
    intro l hl
    cases X with
    | nil => cases hl; exact part_noCont n (mid_part hn)
    | cons x X => exact h0 l hl)).between
  obtain ⟨st', hb⟩ := between_opened hb
  obtain ⟨b, hb⟩ := hb.in
  have hf : Fits b n := by
    refine Classical.byContradiction fun hf => ?_
    have h1 := hb.noMid (B := Y ++ [cs!"xyzzy"]) hn hf (by
      intro l hl
      cases Y with
      | nil => cases hl; decide +kernel
      | cons y Y => exact hY l hl)
    rw [show A ++ (X ++ n :: Y) ++ [cs!"xyzzy"] = A ++ X ++ n :: (Y ++ [cs!"xyzzy"]) by simp, h1] at e
    injection e with e
    injection e with _ e
    injection e with e
    injection e with _ _ e _ _
    simp at e
  exact ((hb.script hW hc).mid hn hf).at.between

/-- C91.  `:try` is correct everywhere, and `:endtry` is then missing before all else. -/
theorem C91_try (nv : Bool) (fn : Str) (A E : List Str) (f : Ast.File) (hA : Between nv fn A) (h : Missing nv fn A E)
    (hf : parseFileLines nv fn (A ++ E) = some ⟨some f, none⟩) :
    Between nv fn (A ++ [cs!"try"]) ∧ Missing nv fn (A ++ [cs!"try"]) (cs!"endtry" :: E) ∧
      ∃ f', Complete nv fn (A ++ [cs!"try"] ++ cs!"endtry" :: E) f' := by
  have h1 := (openAt_of hA h hf).try_.at
  obtain ⟨h2, h3, _⟩ := openAt_closed h1
  exact ⟨h1.between, h2, h3⟩

/-! ### Examples -/

/-- `:else` twice in an `:if`, with a block between, and any lines behind. -/
example (B : List Str) (hB : ∀ l, B.head? = some l → afterBackslash l = none) :
    parseFileLines false cs!"f" ([cs!"if 1"] ++ cs!"else" :: [cs!"if 2", cs!"endif"] ++ cs!"else" :: B) =
      some ⟨none, some (.parse cs!"f" 21 5 1 cs!"E581: :else without :if")⟩ := by
  obtain ⟨g, hg⟩ := complete_of (show isComplete false cs!"f" [cs!"if 2", cs!"endif"] = true by decide +kernel)
  exact C91_last false cs!"f" [cs!"if 1"] [cs!"if 2", cs!"endif"] B cs!"else" cs!"else" g (between_of (o := 5) (by decide +kernel))
    (.inl ⟨rfl, rfl⟩) (between_of (o := 10) (by decide +kernel)) hg (by rintro _ ⟨⟩; decide +kernel) hB

/-- `:else` in an `:if` anywhere. -/
example (A : List Str) (hA : Between false cs!"f" A) (hb : Between false cs!"f" (A ++ [cs!"if 1", cs!"elseif 2"])) :
    Between false cs!"f" (A ++ [cs!"if 1", cs!"elseif 2"] ++ [cs!"if 2", cs!"endif"] ++ [cs!"else"]) := by
  obtain ⟨g, hg⟩ := complete_of (show isComplete false cs!"f" [cs!"if 2", cs!"endif"] = true by decide +kernel)
  obtain ⟨f, hf⟩ := complete_of (show isComplete false cs!"f" ([cs!"if 1", cs!"elseif 2"] ++ cs!"else" :: [cs!"endif"]) = true by
    decide +kernel)
  exact C91_first false cs!"f" A _ _ _ cs!"else" f g hA (by decide) hf (by rintro _ ⟨⟩; decide +kernel) (by rintro _ ⟨⟩; decide +kernel)
    hb hg (by rintro _ ⟨⟩; decide +kernel)

/-- A second `:catch` in a function, and `:catch` behind `:finally`. -/
example : Between false cs!"f" ([cs!"function F()", cs!"try"] ++ cs!"catch" :: [cs!"if 2", cs!"endif"] ++ [cs!"catch"]) ∧
    parseFileLines false cs!"f" ([cs!"try"] ++ cs!"finally" :: [cs!"if 2", cs!"endif"] ++ [cs!"catch"]) =
      some ⟨none, some (.parse cs!"f" 23 5 1 cs!"E604: :catch after :finally")⟩ := by
  obtain ⟨g, hg⟩ := complete_of (show isComplete false cs!"f" [cs!"if 2", cs!"endif"] = true by decide +kernel)
  exact ⟨C91_more false cs!"f" [cs!"function F()", cs!"try"] [cs!"if 2", cs!"endif"] cs!"catch" cs!"catch" g
      (between_of (o := 17) (by decide +kernel)) (.inr ⟨rfl, between_of (o := 23) (by decide +kernel)⟩) (.inl rfl) hg
      (by rintro _ ⟨⟩; decide +kernel),
    C91_last false cs!"f" [cs!"try"] [cs!"if 2", cs!"endif"] [] cs!"finally" cs!"catch" g (between_of (o := 4) (by decide +kernel))
      (.inr ⟨rfl, .inl rfl⟩) (between_of (o := 12) (by decide +kernel)) hg (by rintro _ ⟨⟩; decide +kernel) (by simp)⟩

/-- `:finally` directly in an `:if` that is in a `:try` is stray. -/
example (B : List Str) (hB : ∀ l, B.head? = some l → afterBackslash l = none) :
    parseFileLines false cs!"f" ([cs!"try", cs!"if 2"] ++ cs!"finally" :: B) =
      some ⟨none, some (.parse cs!"f" 9 3 1 cs!"E606: :finally without :try")⟩ := by
  have hA : Between false cs!"f" [cs!"try", cs!"if 2"] := between_of (o := 9) (by decide +kernel)
  obtain ⟨E, f, h1, h2⟩ := C88_accepted false cs!"f" _ hA
  have h4 := (C89_missing false cs!"f" _ E [cs!"endif", cs!"endtry"] f hA h1 h2 (by decide)).1 (no_error_iff.2 (by decide +kernel))
  subst h4
  exact C91_wrong false cs!"f" _ _ B cs!"finally" f hA h1 h2 (by decide) (by decide) hB

example : midCmds.map stray = [cs!"E581: :else without :if", cs!"E603: :catch without :try", cs!"E606: :finally without :try"] ∧
    midCmds.map late = [cs!"E581: :else without :if", cs!"E604: :catch after :finally", cs!"E606: :finally without :try"] := by decide

end Viml.Props
