/-
The command `:finish`.
-/
import Verif.Spec.Close

namespace Viml.Spec

/-- The command that ends a script. -/
def finCmds : List Str := [cs!"finish"]

end Viml.Spec
