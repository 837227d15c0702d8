/-
C93: the blocks before a wrong line do not matter.
-/
import Verif.Lemmas.WithinError
import Verif.Props.Within

namespace Viml.Props
open Viml.Spec

/-- C93.  If the lines `B` alone are rejected, and not with a message about blocks, then also behind any lines `A` that end
between statements: with the same message, at the place moved by the lines of `A`. -/
theorem C93_error (nv : Bool) (fn : Str) (A B : List Str) (e : ApiErr) (hA : Between nv fn A)
    (hl : ∀ l, B.head? = some l → afterBackslash l = none) (he : (parseFileLines nv fn B).bind (·.err) = some e)
    (hm : ∀ g o ln c m, e = .parse g o ln c m → m ∉ blockMsgs) :
    parseFileLines nv fn (A ++ B) = some ⟨none, some (errBehind A e)⟩ := by
  rcases C55_total nv fn B with ⟨g, h⟩ | ⟨m, q, h⟩ | h
  · rw [(C52_lines ..).2 h] at he
    cases he
  · rw [(C54_lines nv fn B none fn q.i q.lnum q.col m).2 ⟨rfl, rfl, q, rfl, rfl, rfl, h⟩] at he
    cases he
    rw [(C54_lines nv fn (A ++ B) none fn (q.i + readLen A) (q.lnum + A.length) q.col m).2
        ⟨rfl, rfl, (moverB fn A hl).mp q, by rw [readLen_eq]; rfl, rfl, rfl, fileErr_in hA hl (hm _ _ _ _ _ rfl) h⟩]
    rfl
  · rw [(other_lines nv fn B none).2 ⟨rfl, h⟩] at he
    cases he
    rw [(other_lines nv fn (A ++ B) none).2 ⟨rfl, numErr_in hA hl h⟩]
    rfl

/-- C93.  If the lines before change anything about the error of `B`, its message is one about blocks. -/
theorem C93_blocks (nv : Bool) (fn : Str) (A B : List Str) (e : ApiErr) (hA : Between nv fn A)
    (hl : ∀ l, B.head? = some l → afterBackslash l = none) (he : (parseFileLines nv fn B).bind (·.err) = some e)
    (hne : parseFileLines nv fn (A ++ B) ≠ some ⟨none, some (errBehind A e)⟩) :
    ∃ g o ln c m, e = .parse g o ln c m ∧ m ∈ blockMsgs := by
  refine Classical.byContradiction fun hc => hne (C93_error nv fn A B e hA hl he ?_)
  rintro g o ln c m rfl hm
  exact hc ⟨g, o, ln, c, m, rfl, hm⟩

/-! ### Examples -/

/-- A wrong expression in a `:while`, behind any lines. -/
example (A : List Str) (hA : Between false cs!"f" A) :
    parseFileLines false cs!"f" (A ++ [cs!"while 1", cs!"let x = (1", cs!"endif"]) =
      some ⟨none, some (.parse cs!"f" (18 + readLen A) (2 + A.length) 11 cs!"unexpected token: <EOL>")⟩ :=
  C93_error false cs!"f" A _ (.parse cs!"f" 18 2 11 cs!"unexpected token: <EOL>") hA (by rintro _ ⟨⟩; decide +kernel) (by decide +kernel)
    (by rintro _ _ _ _ _ ⟨⟩; decide)

/-- Three lines with open blocks before a line that is no command. -/
example : Between false cs!"f" [cs!"function F()", cs!"for x in y", cs!"try"] ∧
    (parseFileLines false cs!"f" ([cs!"function F()", cs!"for x in y", cs!"try"] ++ [cs!"while 1", cs!"let x = (1", cs!"endif"])).bind
      (·.err) = some (.parse cs!"f" 46 5 11 cs!"unexpected token: <EOL>") :=
  ⟨between_of (o := 28) (by decide +kernel), by decide +kernel⟩

/-- Messages about blocks are another matter: `:break` is wrong alone, and correct in a loop. -/
example : (parseFileLines false cs!"f" [cs!"break", cs!"endwhile"]).bind (·.err) =
      some (.parse cs!"f" 0 1 1 cs!"E587: :break without :while or :for") ∧
    cs!"E587: :break without :while or :for" ∈ blockMsgs ∧
    ((parseFileLines false cs!"f" ([cs!"while 1"] ++ [cs!"break", cs!"endwhile"])).bind (·.err)) = none := by
  exact ⟨by decide +kernel, by decide, by decide +kernel⟩

end Viml.Props
