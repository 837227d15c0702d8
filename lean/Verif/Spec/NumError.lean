/-
The files that are rejected without a parse error: a number in front of a modifier or after `:lockvar` or `:unlockvar`
does not fit in 31 bits.  The lines before follow the file grammar.
-/
import Verif.Spec.FileError

namespace Viml.Spec

/-- A command line with a number out of range, before any fault of the line. -/
inductive LineNum (nv : Bool) (env : Env) (fn : Str) (used : List Str) : List Cell → Prop
  /-- The count of a modifier (`:99999999999tab edit`). -/
  | mods {r r0 ms r1} : ¬ StartsWith r cs!"#!" → SkipC r r0 → ¬ AtEnd r0 → headSym r0 ≠ .ch '"' → Mods r0 ms r1 →
      ¬ CountsOK ms → LineNum nv env fn used r
  /-- The depth of `:lockvar` or `:unlockvar`. -/
  | depth {r r0 rc ea c ra r1 used' r2 d r3} : HeadAt nv env fn used r r0 rc ea c ra r1 used' →
      c.name = cs!"lockvar" ∨ c.name = cs!"unlockvar" → Skip r1 r2 → Span isdigit r2 d r3 → 2147483648 ≤ decVal d →
      LineNum nv env fn used r

/-- The script has a number out of range, and no fault before it. -/
inductive NumErr (nv : Bool) (env : Env) (fn : Str) : Prop
  | line {cx b used r} : Front nv env fn cx b used r → LineNum nv env fn used r → NumErr nv env fn

end Viml.Spec
