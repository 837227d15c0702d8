/-
Errors in the first lines of a file.
-/
import Verif.Spec.LexError
import Verif.Model.Api

namespace Viml.Spec

/-- The first token of the lines can be read: it starts with a character that can start a token, and is no blob literal with
an odd number of digits.  This holds if there are no lines, and if the first line is blank or starts with a word
(`Props.readable_word`, `Props.readable_blank`). -/
def Readable (lines : List Str) : Prop := ¬ ∃ m q, LexErr (mkEnv lines) (mkEnv lines).buf m q

/-- The error, if it is a parse error in the first `n` lines. -/
def errIn (n : Nat) : Option ApiErr → Option ApiErr
  | some (.parse f o l c m) => if l ≤ n then some (.parse f o l c m) else none
  | _ => none

end Viml.Spec
