/-
Commands that leave a loop or a function.
-/
import Verif.Spec.Close

namespace Viml.Spec

/-- Commands for which a block must be open, not necessarily the innermost one. -/
def jumpCmds : List Str := [cs!"break", cs!"continue", cs!"return"]

/-- Where the commands `E` are missing, `n` can stand. -/
def Allows (E : List Str) (n : Str) : Prop :=
  if n = cs!"return" then cs!"endfunction" ∈ E else cs!"endwhile" ∈ E ∨ cs!"endfor" ∈ E

instance (E : List Str) (n : Str) : Decidable (Allows E n) := by unfold Allows; infer_instance

/-- The message that `n` cannot stand here. -/
def outside (n : Str) : Str :=
  if n = cs!"return" then cs!"E133: :return not inside a function"
  else (if n = cs!"break" then cs!"E587" else cs!"E586") ++ cs!": :" ++ n ++ cs!" without :while or :for"

end Viml.Spec
