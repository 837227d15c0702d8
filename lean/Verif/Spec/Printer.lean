/-
Specification vocabulary for the printer: which trees have a textual form at all, what well-formed
leaves are, and when two trees are the same up to positions and parentheses.  Nothing here refers to
the printer or to the parser.
-/
import Verif.Spec.Lex

namespace Viml.Spec

/-- Binary operators the printer knows: all of the language except `=~` and `=~?`. -/
def BinOp (op : Tok) : Prop := 2 ≤ opLevel op ∧ op ≠ .MATCH ∧ op ≠ .MATCHCI

/-- Unary operators of the language. -/
def UnOp (op : Tok) : Prop := op = .NOT ∨ op = .MINUS ∨ op = .PLUS

/-- Trees the printer is made for: binary and unary operations, subscripts, literals, names and
parentheses, all the way down. -/
inductive InFragment : Ast.Expr → Prop
  | binary (l : Ast.Expr) (q : Ast.Pos) (op : Tok) (r : Ast.Expr) : BinOp op → InFragment l →
      InFragment r → InFragment (.binary l q op r)
  | unary (q : Ast.Pos) (op : Tok) (x : Ast.Expr) : UnOp op → InFragment x → InFragment (.unary q op x)
  | subscript (q : Ast.Pos) (l r : Ast.Expr) : InFragment l → InFragment r →
      InFragment (.subscript q l r)
  | basicLit (q : Ast.Pos) (k : Tok) (v : Str) : InFragment (.basicLit q k v)
  | ident (i : Ast.Ident) : InFragment (.ident i)
  | paren (q : Ast.Pos) (x : Ast.Expr) : InFragment x → InFragment (.paren q x)

/-- Same tree up to positions. -/
inductive SameTree : Ast.Expr → Ast.Expr → Prop
  | binary {l r l' r' : Ast.Expr} (q q' : Ast.Pos) (op : Tok) : SameTree l l' → SameTree r r' →
      SameTree (.binary l q op r) (.binary l' q' op r')
  | unary {x x' : Ast.Expr} (q q' : Ast.Pos) (op : Tok) : SameTree x x' →
      SameTree (.unary q op x) (.unary q' op x')
  | subscript {l r l' r' : Ast.Expr} (q q' : Ast.Pos) : SameTree l l' → SameTree r r' →
      SameTree (.subscript q l r) (.subscript q' l' r')
  | basicLit (q q' : Ast.Pos) (k : Tok) (v : Str) : SameTree (.basicLit q k v) (.basicLit q' k v)
  | ident (q q' : Ast.Pos) (n : Str) : SameTree (.ident ⟨q, n⟩) (.ident ⟨q', n⟩)
  | paren {x x' : Ast.Expr} (q q' : Ast.Pos) : SameTree x x' → SameTree (.paren q x) (.paren q' x')

/-- The second tree is the first one up to positions, where parentheses directly inside parentheses are
written once. -/
inductive OnceParen : Ast.Expr → Ast.Expr → Prop
  | binary {l r l' r' : Ast.Expr} (q q' : Ast.Pos) (op : Tok) : OnceParen l l' → OnceParen r r' →
      OnceParen (.binary l q op r) (.binary l' q' op r')
  | unary {x x' : Ast.Expr} (q q' : Ast.Pos) (op : Tok) : OnceParen x x' →
      OnceParen (.unary q op x) (.unary q' op x')
  | subscript {l r l' r' : Ast.Expr} (q q' : Ast.Pos) : OnceParen l l' → OnceParen r r' →
      OnceParen (.subscript q l r) (.subscript q' l' r')
  | basicLit (q q' : Ast.Pos) (k : Tok) (v : Str) : OnceParen (.basicLit q k v) (.basicLit q' k v)
  | ident (q q' : Ast.Pos) (n : Str) : OnceParen (.ident ⟨q, n⟩) (.ident ⟨q', n⟩)
  | paren {x x' : Ast.Expr} (q q' : Ast.Pos) : (∀ p y, x ≠ .paren p y) → OnceParen x x' →
      OnceParen (.paren q x) (.paren q' x')
  | twice {x y : Ast.Expr} (q p : Ast.Pos) : OnceParen (.paren p x) y →
      OnceParen (.paren q (.paren p x)) y

/-- The two trees are the same up to positions and parentheses. -/
inductive ModParens : Ast.Expr → Ast.Expr → Prop
  | binary {l r l' r' : Ast.Expr} (q q' : Ast.Pos) (op : Tok) : ModParens l l' → ModParens r r' →
      ModParens (.binary l q op r) (.binary l' q' op r')
  | unary {x x' : Ast.Expr} (q q' : Ast.Pos) (op : Tok) : ModParens x x' →
      ModParens (.unary q op x) (.unary q' op x')
  | subscript {l r l' r' : Ast.Expr} (q q' : Ast.Pos) : ModParens l l' → ModParens r r' →
      ModParens (.subscript q l r) (.subscript q' l' r')
  | basicLit (q q' : Ast.Pos) (k : Tok) (v : Str) : ModParens (.basicLit q k v) (.basicLit q' k v)
  | ident (q q' : Ast.Pos) (n : Str) : ModParens (.ident ⟨q, n⟩) (.ident ⟨q', n⟩)
  | left {x y : Ast.Expr} (q : Ast.Pos) : ModParens x y → ModParens (.paren q x) y
  | right {x y : Ast.Expr} (q : Ast.Pos) : ModParens x y → ModParens x (.paren q y)

/-- Bytes of a blob literal: pairs of hexadecimal digits, with at most one dot before a pair. -/
inductive Bytes : Str → Prop
  | nil : Bytes []
  | pair (a b : Char) (s : Str) : isxdigit a = true → isxdigit b = true → Bytes s → Bytes (a :: b :: s)
  | dot (a b : Char) (s : Str) : isxdigit a = true → isxdigit b = true → Bytes s →
      Bytes ('.' :: a :: b :: s)

/-- The text of a complete literal.  Not complete are the register `@` without a name and a blob that
ends with a dot; the parser returns these for text that is cut off by the end of the line. -/
def Literal : Tok → Str → Prop
  | .BLOB, v => ∃ z s, (z = 'z' ∨ z = 'Z') ∧ v = '0' :: z :: s ∧ Bytes s ∧ s.head? ≠ some '.'
  | .REG, v => ∃ c, v = ['@', c]
  | k, v => LitShape k v

/-- A well-formed leaf: a complete literal or a name. -/
def leafOK : Ast.Expr → Prop
  | .basicLit _ k v => Literal k v
  | .ident i => NameShape i.name
  | _ => True

/-- A comparison is not the left operand of a comparison. -/
def cmpOK : Ast.Expr → Prop
  | .binary (.binary _ _ op' _) _ op _ => ¬ (opLevel op = 4 ∧ opLevel op' = 4)
  | _ => True

/-- A leaf that was not cut off by the end of the line. -/
def wholeLeaf : Ast.Expr → Prop
  | .basicLit _ k v => (k = .REG → v ≠ ['@']) ∧ (k = .BLOB → v.getLast? ≠ some '.')
  | _ => True

/-- `P` holds of every node of a tree. -/
def Everywhere (P : Ast.Expr → Prop) (e : Ast.Expr) : Prop := AllE P (fun _ => False) e

end Viml.Spec
