/-
What property C77 says: a bar is as good as a line end.
-/
import Verif.Spec.Holder
import Verif.Spec.Insert

namespace Viml.Spec

/-- Commands that a bar can follow: commands with expressions as arguments, assignments, and commands that start a block or
a part of one. -/
def barCmds : List Str := exprCmds ++ [cs!"echohl", cs!"let", cs!"const", cs!"call", cs!"return", cs!"unlet", cs!"lockvar",
  cs!"unlockvar", cs!"continue", cs!"break", cs!"if", cs!"elseif", cs!"else", cs!"while", cs!"for", cs!"try", cs!"finally"]

theorem bar_parsed : ∀ n ∈ barCmds, n ∈ parsedCmds := by decide
theorem bar_script : ∀ n ∈ barCmds, n ∉ scriptCmds := by decide

/-- Commands whose whole argument is an expression. -/
def phraseCmds : List Str := exprCmds ++ [cs!"call", cs!"return", cs!"if", cs!"elseif", cs!"while"]

/-- Behind the name of the command `c` is `s`, and there is no comment and no bar behind the command: there is no `"` and no
`|` at all, or `s` is an expression, or an assignment of an expression to a variable. -/
inductive BarLine (c : Cmd) : Str → Prop
  | quiet {s} : c.name ∈ barCmds → c.name ≠ cs!"let" → c.name ≠ cs!"const" → StopsAt isalpha s → '"' ∉ s → '|' ∉ s → BarLine c s
  | expr {l e} : c.name ∈ phraseCmds → Phrase l e → BarLine c (' ' :: l)
  | assign {v op l e} : c.name = cs!"let" ∨ c.name = cs!"const" ∧ op = cs!"=" → VarName v → ¬ isWord v → op ∈ letOps →
      Phrase l e → BarLine c (' ' :: (v ++ ' ' :: (op ++ ' ' :: l)))

/-- The line `l` can be followed by a bar and the line `l2`, which is followed by `B`: `l` ends neither with a character that
takes the next one, `@`, nor with a bar or an incomplete blob; `l2` is no continuation line and starts with no bar. -/
structure CanJoin (l l2 : Str) (B : List Str) : Prop where
  plain : Plain l
  last : l.getLast? ≠ some '|'
  cont : afterBackslash l2 = none
  bar : l2.head? ≠ some '|'
  next : l2 = [] → ∀ x, B.head? = some x → afterBackslash x = none

/-- The position in the lines `A ++ (l ++ '|' :: l2) :: B` of what is at `q` in the lines `A ++ l :: l2 :: B`. -/
def joinBy (A : List Str) (l : Str) (q : Ast.Pos) : Ast.Pos :=
  if q.line ≤ A.length + 1 then q
  else if q.line = A.length + 2 then { q with line := A.length + 1, column := q.column + bytes l + 1 }
  else { q with line := q.line - 1 }

/-- An error of the lines `A ++ l :: l2 :: B` as an error of the lines `A ++ (l ++ '|' :: l2) :: B`. -/
def errJoin (A : List Str) (l : Str) : ApiErr → ApiErr
  | .parse fn o n c m =>
    if n ≤ A.length + 1 then .parse fn o n c m
    else if n = A.length + 2 then .parse fn o (A.length + 1) (c + bytes l + 1) m
    else .parse fn o (n - 1) c m
  | .other => .other

end Viml.Spec
