/-
What properties C69 and C70 say: an expression inside a larger one, or inside a command.
-/
import Verif.Spec.Grammar
import Verif.Spec.Relabel
import Verif.Spec.Input
import Verif.Model.Input

namespace Viml.Spec

/-- The whole line `l` is an expression, possibly with white space around it; `e` is the tree `ParseExpr` returns. -/
def Phrase (l : Str) (e : Ast.Expr) : Prop :=
  ∃ r' w c, Gram (mkEnv [l]) [] 1 (mkEnv [l]).buf e r' ∧ Reads r' w [c] ∧ (∀ x ∈ w, iswhite x = true) ∧ c.c = none

/-- `z` and an odd number of hexadecimal digits, and possibly dots. -/
def OddBlob (t : Str) : Prop :=
  ∃ z s, t = z :: s ∧ (z = 'z' ∨ z = 'Z') ∧ (∀ c ∈ s, isxdigit c = true ∨ c = '.') ∧ s.countP isxdigit % 2 = 1

/-- The line does not end with `@`, which takes any character behind it as the name of a register, and not with `0z` and
an odd number of digits, which is an error in front of a character that is no digit. -/
def Plain (l : Str) : Prop := l.getLast? ≠ some '@' ∧ ∀ u t, l = u ++ '0' :: t → ¬ OddBlob t

/-- A position of the first line, `n` bytes to the right, in the file `fn`. -/
def moveTo (fn : Str) (n : Nat) (q : Ast.Pos) : Ast.Pos := ⟨q.offset + n, q.line, q.column + n, fn⟩

/-- The position in the first line of the file `fn` behind `n` bytes. -/
def posAt (fn : Str) (n : Nat) : Ast.Pos := ⟨n, 1, n + 1, fn⟩

/-- The texts of `xs` with `, ` between them. -/
def commas : List (Str × Ast.Expr) → Str
  | [] => []
  | [x] => x.1
  | x :: xs => x.1 ++ cs!", " ++ commas xs

/-- The trees of `xs` if their texts with `, ` between them are written behind `n` bytes. -/
def movedAll (fn : Str) : Nat → List (Str × Ast.Expr) → List Ast.Expr
  | _, [] => []
  | n, x :: xs => x.2.onPos (moveTo fn n) :: movedAll fn (n + bytes x.1 + 2) xs

/-- A name that can be called: not `is` or `isnot`, which are operators. -/
def PlainName (f : Str) : Prop := (∃ c s, f = c :: s ∧ iswordc1 c = true ∧ ∀ x ∈ s, isnamec x = true) ∧ ¬ isWord f

/-- The text of entries of a dictionary, whose keys are string literals. -/
def entries : List (Str × Str × Ast.Expr) → Str
  | [] => []
  | [x] => cs!"'" ++ x.1 ++ cs!"': " ++ x.2.1
  | x :: xs => cs!"'" ++ x.1 ++ cs!"': " ++ x.2.1 ++ cs!", " ++ entries xs

/-- Their trees, if they are written behind `n` bytes. -/
def movedEntries (fn : Str) : Nat → List (Str × Str × Ast.Expr) → List (Ast.Expr × Ast.Expr)
  | _, [] => []
  | n, x :: xs => (.basicLit (posAt fn n) .STRING (cs!"'" ++ x.1 ++ cs!"'"), x.2.2.onPos (moveTo fn (n + bytes x.1 + 4))) ::
      movedEntries fn (n + bytes x.1 + 4 + bytes x.2.1 + 2) xs

end Viml.Spec
