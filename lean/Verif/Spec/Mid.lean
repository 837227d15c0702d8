/-
Commands that start a further part of a block.
-/
import Verif.Spec.Close

namespace Viml.Spec

/-- `:try`, and the commands that start a further part of an `:if` or a `:try`. -/
def partCmds : List Str := [cs!"try", cs!"else", cs!"catch", cs!"finally"]

def midCmds : List Str := [cs!"else", cs!"catch", cs!"finally"]

/-- The end of the block in which `n` can stand. -/
def blockEnd (n : Str) : Str := if n = cs!"else" then cs!"endif" else cs!"endtry"

/-- The message that `n` is not in such a block. -/
def stray (n : Str) : Str :=
  if n = cs!"else" then cs!"E581: :else without :if"
  else if n = cs!"catch" then cs!"E603: :catch without :try" else cs!"E606: :finally without :try"

/-- The message that `n` is in such a block, but behind its last part. -/
def late (n : Str) : Str := if n = cs!"catch" then cs!"E604: :catch after :finally" else stray n

end Viml.Spec
