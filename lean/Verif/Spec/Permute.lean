/-
What property C83 says: the order of whole scripts.
-/
import Verif.Spec.Nest
import Verif.Spec.Layout

namespace Viml.Spec

/-- A whole script (see C61) that does not start with a continuation line. -/
def Whole (nv : Bool) (fn : Str) (W : List Str) : Prop :=
  (∃ g, Complete nv fn W g) ∧ ∀ l, W.head? = some l → afterBackslash l = none

/-- Scripts with the statements `f.body`: whole scripts, and no user command of one has the name of one of another with
further characters appended. -/
structure WholeParts (nv : Bool) (fn : Str) (l : List (List Str × Ast.File)) : Prop where
  whole : ∀ p ∈ l, Complete nv fn p.1 p.2
  start : ∀ p ∈ l, ∀ x, p.1.head? = some x → afterBackslash x = none
  apart : l.Pairwise fun p q => NamesApart p.2.body q.2.body ∧ NamesApart q.2.body p.2.body

/-- The lines of the scripts, one after the other. -/
def joined (l : List (List Str × Ast.File)) : List Str := (l.map (·.1)).flatten

end Viml.Spec
