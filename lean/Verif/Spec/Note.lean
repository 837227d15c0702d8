/-
What property C78 says: a comment behind a command.
-/
import Verif.Spec.Bar

namespace Viml.Spec

/-- Commands that a comment can follow: those a bar can follow, except the ones whose arguments can be strings one after the
other. -/
def noteCmds : List Str := [cs!"throw", cs!"eval", cs!"let", cs!"const", cs!"call", cs!"return", cs!"unlet", cs!"lockvar",
  cs!"unlockvar", cs!"continue", cs!"break", cs!"if", cs!"elseif", cs!"else", cs!"while", cs!"for", cs!"try", cs!"finally"]

theorem note_bar : ∀ n ∈ noteCmds, n ∈ barCmds := by decide

/-- Behind the name of the command `c` is `s`, and a comment can follow: there is no `"` and no `|` in `s`, or `s` is an
expression, or an assignment of an expression to a variable.  Behind `:return` there is an expression. -/
structure NoteLine (c : Cmd) (s : Str) : Prop where
  line : BarLine c s
  cmd : c.name ∈ noteCmds
  value : c.name = cs!"return" → ∃ l e, s = ' ' :: l ∧ Phrase l e

/-- The position in the lines `A ++ (l ++ '"' :: t) :: B` of what is at `q` in the lines `A ++ l :: B`. -/
def noteBy (A : List Str) (t : Str) (B : List Str) (q : Ast.Pos) : Ast.Pos :=
  if q.line ≤ A.length + 1 then q else
    { q with offset := if onContLine B (q.line - (A.length + 1)) q.column then 0 else q.offset + (bytes t + 1) }

/-- The comment `t` behind the line `l` behind the lines `A`. -/
def noteAt (fn : Str) (A : List Str) (l t : Str) : Ast.Stmt :=
  .comment ⟨(fileBytes A).length + bytes l, A.length + 1, bytes l + 1, fn⟩ t

/-- An error of the lines `A ++ l :: B`, if it is no error of `A ++ [l]`, as an error of the lines `A ++ (l ++ '"' :: t) :: B`. -/
def errNote (A : List Str) (t : Str) : ApiErr → ApiErr
  | .parse fn o n c m => if n ≤ A.length + 1 then .parse fn o n c m else .parse fn (o + (t.length + 1)) n c m
  | .other => .other

end Viml.Spec
