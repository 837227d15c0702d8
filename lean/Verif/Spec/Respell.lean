/-
What property C75 says: the spelling of command names.
-/
import Verif.Spec.Indent
import Verif.Spec.Lookup

namespace Viml.Spec

/-- The letters `t` are the name of the command `c` of the tables, in full or abbreviated, if `u` is the rest of the line.
They are no name for a user command and no modifier. -/
structure Spells (nv : Bool) (t u : Str) (c : Cmd) : Prop where
  letters : t ≠ [] ∧ ∀ x ∈ t, isalpha x = true
  stop : StopsAt isalpha u
  name : NameOf t t u
  cmd : TableCmd nv t c
  builtin : ¬ UserWord nv t
  noMod : ∀ p ∈ vimModifiers, ¬ (t <+: p.1 ∧ p.2 ≤ t.length)

/-- The position in the lines `A ++ (t' ++ s) :: B` of what is at `q` in the lines `A ++ (t ++ s) :: B`, where `t` and `t'`
are letters: the start of the name stays where it is, what is behind the name is moved. -/
def respellBy (A : List Str) (t t' s : Str) (B : List Str) (q : Ast.Pos) : Ast.Pos :=
  if q.line ≤ A.length then q
  else if q.line = A.length + 1 then
    if q.column ≤ t.length then { q with offset := q.offset - (q.column - 1), column := 1 }
    else { q with offset := q.offset - t.length + t'.length, column := q.column - t.length + t'.length }
  else { q with offset := if onContLine (s :: B) (q.line - A.length) q.column then 0 else q.offset - t.length + t'.length }

/-- An error of the lines `A ++ (t ++ s) :: B`, if it is no error of `A`, as an error of the lines `A ++ (t' ++ s) :: B`. -/
def errRespell (A : List Str) (t t' : Str) : ApiErr → ApiErr
  | .parse fn o l c m =>
    if l = A.length + 1 then
      if c ≤ t.length then .parse fn (o - (c - 1)) l 1 m
      else .parse fn (o - t.length + t'.length) l (c - t.length + t'.length) m
    else .parse fn (o - t.length + t'.length) l c m
  | .other => .other

mutual

/-- The same statements, but for the text of a command that is kept as text: at the position `q` it starts with `t'`
instead of `t`. -/
inductive Respelled (q : Ast.Pos) (t t' : Str) : Ast.Stmt → Ast.Stmt → Prop
  | same (s) : Respelled q t t' s s
  | text {ea u} : ea.linepos = q → ea.cmdpos = q → Respelled q t t' (.excmd q ea (t ++ u)) (.excmd q ea (t' ++ u))
  | function {p ea b b' n is ds at_ e} : RespelledL q t t' b b' →
      Respelled q t t' (.function p ea b n is ds at_ e) (.function p ea b' n is ds at_ e)
  | while_ {p ea b b' x e} : RespelledL q t t' b b' → Respelled q t t' (.while_ p ea b x e) (.while_ p ea b' x e)
  | for_ {p ea b b' l ls rest x e} : RespelledL q t t' b b' →
      Respelled q t t' (.for_ p ea b l ls rest x e) (.for_ p ea b' l ls rest x e)
  | if_ {p ea b b' x eis eis' els els' e} : RespelledL q t t' b b' → RespelledL q t t' eis eis' →
      RespelledL q t t' els.toList els'.toList → Respelled q t t' (.if_ p ea b x eis els e) (.if_ p ea b' x eis' els' e)
  | elseIf {p ea b b' x} : RespelledL q t t' b b' → Respelled q t t' (.elseIf p ea b x) (.elseIf p ea b' x)
  | else_ {p ea b b'} : RespelledL q t t' b b' → Respelled q t t' (.else_ p ea b) (.else_ p ea b')
  | try_ {p ea b b' cs cs' fin fin' e} : RespelledL q t t' b b' → RespelledL q t t' cs cs' →
      RespelledL q t t' fin.toList fin'.toList → Respelled q t t' (.try_ p ea b cs fin e) (.try_ p ea b' cs' fin' e)
  | catch_ {p ea b b' pat} : RespelledL q t t' b b' → Respelled q t t' (.catch_ p ea b pat) (.catch_ p ea b' pat)
  | finally_ {p ea b b'} : RespelledL q t t' b b' → Respelled q t t' (.finally_ p ea b) (.finally_ p ea b')

inductive RespelledL (q : Ast.Pos) (t t' : Str) : List Ast.Stmt → List Ast.Stmt → Prop
  | nil : RespelledL q t t' [] []
  | cons {s s' ss ss'} : Respelled q t t' s s' → RespelledL q t t' ss ss' → RespelledL q t t' (s :: ss) (s' :: ss')

end

end Viml.Spec
