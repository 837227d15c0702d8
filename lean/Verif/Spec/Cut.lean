/-
What property C86 says: the parts of a file.
-/
import Verif.Spec.Permute
import Verif.Spec.Indent
import Verif.Spec.Place

namespace Viml.Spec

/-- Line `n` of the file, `l`, starts with one of the statements on the top level. -/
def startsHere (f : Ast.File) (n : Nat) (l : Str) : Bool :=
  (afterBackslash l).isNone &&
    f.body.any fun s => (exArgOf s).any fun ea => ea.linepos.line == n && ea.linepos.column == bytes (lead l) + 1

/-- The lines from line `n` on, cut before each line that starts with a statement: the lines before the first of them, and
the parts from one of them to before the next. -/
def cutLines (f : Ast.File) : Nat → List Str → List Str × List (List Str)
  | _, [] => ([], [])
  | n, l :: ls =>
    let r := cutLines f (n + 1) ls
    if startsHere f n l then ([], (l :: r.1) :: r.2) else (l :: r.1, r.2)

end Viml.Spec
