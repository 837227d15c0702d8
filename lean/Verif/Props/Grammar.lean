/-
C51: the expression parser accepts exactly the expressions of a grammar and returns their trees.  The grammar is
`Gram` of `Spec/Grammar.lean`.
-/
import Verif.Lemmas.GramApi

namespace Viml.Props
open Viml Viml.Spec

/-- C51.  `ParseExpr` returns the tree `a` if and only if the text starts with an expression whose tree is `a`. -/
theorem C51_parseExpr (src : List UInt8) (a : Ast.Expr) :
    parseExpr src = some ⟨some a, none⟩ ↔
      ∃ r', Gram (mkEnv ((readlines src).map decodeUtf8)) [] 1 (mkEnv ((readlines src).map decodeUtf8)).buf a r' :=
  parseExprLines_gram _ a

/-- C51, on decoded lines. -/
theorem C51_lines (lines : List Str) (a : Ast.Expr) :
    parseExprLines lines = some ⟨some a, none⟩ ↔ ∃ r', Gram (mkEnv lines) [] 1 (mkEnv lines).buf a r' :=
  parseExprLines_gram lines a

/-- C51.  It returns an error, an `ErrVimlParser`, if and only if the text does not start with an expression. -/
theorem C51_reject (src : List UInt8) :
    (∃ off line col msg, parseExpr src = some ⟨none, some (.parse [] off line col msg)⟩) ↔
      ¬ ∃ a r', Gram (mkEnv ((readlines src).map decodeUtf8)) [] 1 (mkEnv ((readlines src).map decodeUtf8)).buf a r' := by
  rcases parseExprLines_good ((readlines src).map decodeUtf8) with ⟨a, h1, _⟩ | ⟨msg, q, h1, _⟩
  · constructor
    · rintro ⟨_, _, _, _, h⟩
      rw [show parseExpr src = _ from h1] at h
      cases h
    · intro h
      exact absurd ⟨a, (C51_lines _ a).1 h1⟩ h
  · constructor
    · rintro _ ⟨a, r', h⟩
      have := (C51_lines _ a).2 ⟨r', h⟩
      rw [h1] at this
      cases this
    · intro _
      exact ⟨_, _, _, _, h1⟩

/-- C51, wherever in a file an expression is read (`parse_expr1`): the parser consumes exactly the text of an
expression and the node it returns converts to the tree of the expression. -/
theorem C51_inside (lines : List Str) (fn : Str) (r : List Cell) (hs : r <:+ (mkEnv lines).buf) (a : Ast.Expr)
    (r' : List Cell) :
    (∃ v, parseExpr1.run (mkEnv lines) r = .ok v r' ∧ Export.expr fn v = some a) ↔ Gram (mkEnv lines) fn 1 r a r' := by
  constructor
  · rintro ⟨v, h1, h2⟩
    obtain ⟨b, h3, h4⟩ := parseExpr1_gram (fn := fn) (mkEnv_ok lines) hs h1
    rw [h2] at h3
    cases h3
    exact h4
  · exact gram_parseExpr1 (mkEnv_ok lines) hs

/-- C51.  The grammar is unambiguous: a text has one reading at each level. -/
theorem C51_unambiguous (lines : List Str) (fn : Str) (k : Nat) (r : List Cell) (hs : r <:+ (mkEnv lines).buf)
    (a b : Ast.Expr) (r1 r2 : List Cell) (h1 : Gram (mkEnv lines) fn k r a r1) (h2 : Gram (mkEnv lines) fn k r b r2) :
    a = b ∧ r1 = r2 := gram_unique (mkEnv_ok lines) hs h1 h2

/-- Shape of a tree, to write examples. -/
def shape : Ast.Expr → Str
  | .binary l _ op r => ['('] ++ shape l ++ op.str ++ shape r ++ [')']
  | .unary _ op e => ['('] ++ op.str ++ shape e ++ [')']
  | .ternary _ c a b => ['('] ++ shape c ++ ['?'] ++ shape a ++ [':'] ++ shape b ++ [')']
  | .subscript _ l r => shape l ++ ['['] ++ shape r ++ [']']
  | .dot l _ n => shape l ++ ['.'] ++ n.name
  | .paren _ e => ['<'] ++ shape e ++ ['>']
  | .call f _ [a] => shape f ++ ['('] ++ shape a ++ [')']
  | .call f _ _ => shape f ++ ['(', ')']
  | .method l f _ _ => shape l ++ ['-', '>'] ++ shape f ++ ['(', ')']
  | .slice l _ _ _ => shape l ++ ['[', ':', ']']
  | .lambda _ [p] e => ['{'] ++ p.name ++ ['-', '>'] ++ shape e ++ ['}']
  | .lambda _ _ e => ['{', '-', '>'] ++ shape e ++ ['}']
  | .dict _ [(k, v)] => ['{'] ++ shape k ++ [':'] ++ shape v ++ ['}']
  | .dict _ _ => ['{', '}']
  | .list _ [a] => ['['] ++ shape a ++ [']']
  | .list _ _ => ['[', ']']
  | .ident n => n.name
  | .basicLit _ _ v => v
  | .curlyName _ _ => ['@', '@']
  | _ => ['?']

def shapeOf (l : Str) : Option Str :=
  match parseExprLines [l] with
  | some ⟨some a, none⟩ => some (shape a)
  | _ => none

/-- An expression of the shape `s` is derived from the line `l`. -/
theorem shapeOf_gram {l s : Str} (h : shapeOf l = some s) :
    ∃ a r', shape a = s ∧ Gram (mkEnv [l]) [] 1 (mkEnv [l]).buf a r' := by
  unfold shapeOf at h
  split at h
  · rename_i a h'
    obtain ⟨r', h2⟩ := (C51_lines _ a).1 h'
    exact ⟨a, r', by simpa using h, h2⟩
  · cases h

example : ∃ a r', shape a = cs!"((a+(b*c))==((-d)-e.f[0]))" ∧
    Gram (mkEnv [cs!"a + b * c == -d - e.f[0] tail"]) [] 1 (mkEnv [cs!"a + b * c == -d - e.f[0] tail"]).buf a r' :=
  shapeOf_gram (by decide +kernel)
-- associativity, precedence, postfix operators, white space before them
example : shapeOf cs!"a - b - c || d && e" = some cs!"(((a-b)-c)||(d&&e))" := by decide +kernel
example : shapeOf cs!"a ? b : c ? d : e" = some cs!"(a?b:(c?d:e))" := by decide +kernel
example : shapeOf cs!"f().y(1)[2]->x()" = some cs!"f().y(1)[2]->x()" := by decide +kernel
-- a member of the result of a method call is read as concatenation
example : shapeOf cs!"x->f().y(1)" = some cs!"(x->f().y(1))" := by decide +kernel
example : shapeOf cs!"a .b" = some cs!"(a.b)" := by decide +kernel
example : shapeOf cs!"a [0]" = some cs!"a" := by decide +kernel
example : shapeOf cs!"1 == 2 == 3" = some cs!"(1==2)" := by decide +kernel
-- braces
example : shapeOf cs!"{a->a}" = some cs!"{a->a}" := by decide +kernel
example : shapeOf cs!"{'a': 1}" = some cs!"{'a':1}" := by decide +kernel
example : shapeOf cs!"#{a: 1}" = some cs!"{'a':1}" := by decide +kernel
example : shapeOf cs!"{a}b" = some cs!"@@" := by decide +kernel
-- a bare key with a colon followed by a comma looks like lambda parameters; the incomplete blob is read as a token
example : shapeOf cs!"#{a:b, c:d}" = none := by decide +kernel
example : shapeOf cs!"#{a: b, c:d}" = some cs!"{}" := by decide +kernel
example : shapeOf cs!"#{0z1: 2}" = none := by decide +kernel
-- no expressions
example : shapeOf cs!"1 +" = none := by decide +kernel
example : shapeOf cs!"(a" = none := by decide +kernel

end Viml.Props
