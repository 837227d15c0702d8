/-
Blocks that are open at the end of a file.
-/
import Verif.Spec.FileError
import Verif.Spec.Concat

namespace Viml.Spec

/-- The commands that end a block. -/
def endCmds : List Str := [cs!"endfunction", cs!"endwhile", cs!"endfor", cs!"endif", cs!"endtry"]

/-- Vim's number of the message that `n` is missing. -/
def missingNo (n : Str) : Str :=
  if n = cs!"endfunction" then cs!"E126" else if n = cs!"endif" then cs!"E171" else if n = cs!"endtry" then cs!"E600" else cs!"E170"

/-- The message that the end command `n` is missing. -/
def missing (n : Str) : Str := missingNo n ++ cs!": Missing :" ++ n ++ cs!":    TOPLEVEL"

/-- The commands `E` end, one after the other, the blocks open behind the lines `A`: until the last of them stands there, the
file is rejected at its end with the message that the next one is missing. -/
def Missing (nv : Bool) (fn : Str) (A E : List Str) : Prop :=
  ∀ X n Y, E = X ++ n :: Y → n ∈ endCmds ∧
    parseFileLines nv fn (A ++ X) = some ⟨none, some (.parse fn (readLen (A ++ X)) ((A ++ X).length + 1) 0 (missing n))⟩

/-- Vim's number of the message that there is nothing for `n` to end. -/
def withoutNo (n : Str) : Str := if n = cs!"endif" then cs!"E580" else if n = cs!"endtry" then cs!"E602" else cs!"E588"

/-- The message for the end command `n` at a place where the commands `E` are missing, of which `n` is not the first. -/
def misfit (n : Str) (E : List Str) : Str :=
  if n = cs!"endfunction" then
    match E with
    | [] => cs!"E193: :endfunction not inside a function"
    | e :: _ => missingNo e ++ cs!": Missing :" ++ e ++ cs!":    ENDFUNCTION"
  else withoutNo n ++ cs!": :" ++ n ++ cs!" without :" ++ n.drop 3

end Viml.Spec
