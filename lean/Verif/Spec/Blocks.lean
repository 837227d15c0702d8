/-
The grammar of block commands, and the errors for sequences of block commands that are not in it.  Nothing here
refers to the parser.
-/
import Verif.Model.Basic

namespace Viml

/-- Block commands. -/
inductive Blk
  | function | endfunction | if_ | elseif | else_ | endif | while_ | endwhile | for_ | endfor
  | try_ | catch_ | finally_ | endtry
deriving DecidableEq, Repr

/-- Full names. -/
def Blk.name : Blk → Str
  | .function => cs!"function"
  | .endfunction => cs!"endfunction"
  | .if_ => cs!"if"
  | .elseif => cs!"elseif"
  | .else_ => cs!"else"
  | .endif => cs!"endif"
  | .while_ => cs!"while"
  | .endwhile => cs!"endwhile"
  | .for_ => cs!"for"
  | .endfor => cs!"endfor"
  | .try_ => cs!"try"
  | .catch_ => cs!"catch"
  | .finally_ => cs!"finally"
  | .endtry => cs!"endtry"

namespace Spec

mutual
/-- Sequences of complete blocks. -/
inductive Blocks : List Blk → Prop
  | nil : Blocks []
  | function {b s : List Blk} : Blocks b → Blocks s → Blocks (.function :: b ++ .endfunction :: s)
  | while_ {b s : List Blk} : Blocks b → Blocks s → Blocks (.while_ :: b ++ .endwhile :: s)
  | for_ {b s : List Blk} : Blocks b → Blocks s → Blocks (.for_ :: b ++ .endfor :: s)
  | if_ {b t s : List Blk} : Blocks b → IfTail t → Blocks s → Blocks (.if_ :: b ++ (t ++ s))
  | try_ {b t s : List Blk} : Blocks b → TryTail t → Blocks s → Blocks (.try_ :: b ++ (t ++ s))
/-- What follows the first body of `:if`: any number of `:elseif`, at most one `:else`, and `:endif`. -/
inductive IfTail : List Blk → Prop
  | endif : IfTail [.endif]
  | else_ {b : List Blk} : Blocks b → IfTail (.else_ :: b ++ [.endif])
  | elseif {b t : List Blk} : Blocks b → IfTail t → IfTail (.elseif :: b ++ t)
/-- What follows the body of `:try`: any number of `:catch`, at most one `:finally`, and `:endtry`. -/
inductive TryTail : List Blk → Prop
  | endtry : TryTail [.endtry]
  | finally_ {b : List Blk} : Blocks b → TryTail (.finally_ :: b ++ [.endtry])
  | catch_ {b t : List Blk} : Blocks b → TryTail t → TryTail (.catch_ :: b ++ t)
end

/-- The sequence can be completed. -/
def Viable (bs : List Blk) : Prop := ∃ rest, Blocks (bs ++ rest)

/-- `h` is the innermost block command left open by `bs`: what comes after it is complete. -/
def Innermost (bs : List Blk) (h : Blk) : Prop :=
  ∃ pre body, bs = pre ++ h :: body ∧ Blocks body ∧ h ∉ [.endfunction, .endif, .endwhile, .endfor, .endtry]

/-- The error for a command that does not fit; `o` is the innermost open block command, if any. -/
def blockError (o : Option Blk) : Blk → Str
  | .endfunction =>
    match o with
    | some .if_ | some .elseif | some .else_ => cs!"E171: Missing :endif:    ENDFUNCTION"
    | some .try_ | some .catch_ | some .finally_ => cs!"E600: Missing :endtry:    ENDFUNCTION"
    | some .while_ => cs!"E170: Missing :endwhile:    ENDFUNCTION"
    | some .for_ => cs!"E170: Missing :endfor:    ENDFUNCTION"
    | _ => cs!"E193: :endfunction not inside a function"
  | .elseif => cs!"E582: :elseif without :if"
  | .else_ => cs!"E581: :else without :if"
  | .endif => cs!"E580: :endif without :if"
  | .endwhile => cs!"E588: :endwhile without :while"
  | .endfor => cs!"E588: :endfor without :for"
  | .catch_ =>
    match o with
    | some .finally_ => cs!"E604: :catch after :finally"
    | _ => cs!"E603: :catch without :try"
  | .finally_ => cs!"E606: :finally without :try"
  | .endtry => cs!"E602: :endtry without :try"
  | .function | .if_ | .while_ | .for_ | .try_ => []

/-- The error at the end of the file. -/
def missingError : Blk → Str
  | .function => cs!"E126: Missing :endfunction:    TOPLEVEL"
  | .if_ | .elseif | .else_ => cs!"E171: Missing :endif:    TOPLEVEL"
  | .try_ | .catch_ | .finally_ => cs!"E600: Missing :endtry:    TOPLEVEL"
  | .while_ => cs!"E170: Missing :endwhile:    TOPLEVEL"
  | .for_ => cs!"E170: Missing :endfor:    TOPLEVEL"
  | _ => []

end Spec
end Viml
