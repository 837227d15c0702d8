/-
Internal expression nodes: the part of `VimNode` (go/type.go:42-74) used by expressions.
-/
import Verif.Model.Prog

namespace Viml

/-- Binary node types `NODE_OR` .. `NODE_REMAINDER` (go/vimlparser.go:43-80). -/
inductive BinTy
  | or_ | and_
  | cmp (k : CmpK) (m : CaseM)
  | add | subtract | concat | multiply | divide | remainder
deriving DecidableEq, Repr, Inhabited

/-- `NODE_NOT`, `NODE_MINUS`, `NODE_PLUS` -/
inductive UnTy
  | not_ | minus | plus
deriving DecidableEq, Repr, Inhabited

/-- Node types whose only payload is a string `value`. -/
inductive AtomTy
  | number | string | blob | option | identifier | env | reg | curlynamepart
deriving DecidableEq, Repr, Inhabited

/-- Expression nodes with exactly the fields the documentation comment go/vimlparser.go:253-349
assigns to each node type.  Simplification: identifiers that Go stores as `*VimNode` but that are
always `NODE_IDENTIFIER` / `NODE_STRING` (lambda parameters, the name after a dot, heredoc flags and
lines) are stored as position and text. -/
inductive VExpr
  | ternary (pos : Pos) (cond left right : VExpr)
  | binary (pos : Pos) (ty : BinTy) (left right : VExpr)
  | unary (pos : Pos) (ty : UnTy) (left : VExpr)
  | subscript (pos : Pos) (left right : VExpr)
  | slice (pos : Pos) (left : VExpr) (lo hi : Option VExpr)
  | method (pos : Pos) (left right : VExpr)
  | call (pos : Pos) (left : VExpr) (rlist : List VExpr)
  | dot (pos : Pos) (left : VExpr) (rpos : Pos) (name : Str)
  | atom (pos : Pos) (ty : AtomTy) (value : Str)
  | list (pos : Pos) (value : List VExpr)
  | dict (pos : Pos) (value : List (VExpr × VExpr))
  | curlyname (pos : Pos) (value : List VExpr)
  | curlyexpr (pos : Pos) (value : VExpr)
  | lambda (pos : Pos) (rlist : List (Pos × Str)) (left : VExpr)
  | paren (pos : Pos) (value : VExpr)
  | heredoc (pos : Pos) (rlist : List (Pos × Str)) (op : Str) (body : List (Pos × Str))
deriving Repr, Inhabited

namespace VExpr

/-- `node.pos` -/
def pos : VExpr → Pos
  | ternary q .. => q | binary q .. => q | unary q .. => q | subscript q .. => q
  | slice q .. => q | method q .. => q | call q .. => q | dot q .. => q | atom q .. => q
  | list q .. => q | dict q .. => q | curlyname q .. => q | curlyexpr q .. => q
  | lambda q .. => q | paren q .. => q | heredoc q .. => q

/-- Induction principle for the nested type. -/
theorem ind {P : VExpr → Prop}
    (ternary : ∀ q c l r, P c → P l → P r → P (.ternary q c l r))
    (binary : ∀ q t l r, P l → P r → P (.binary q t l r))
    (unary : ∀ q t l, P l → P (.unary q t l))
    (subscript : ∀ q l r, P l → P r → P (.subscript q l r))
    (slice : ∀ q l lo hi, P l → (∀ x, lo = some x → P x) → (∀ x, hi = some x → P x) →
      P (.slice q l lo hi))
    (method : ∀ q l r, P l → P r → P (.method q l r))
    (call : ∀ q l as, P l → (∀ x ∈ as, P x) → P (.call q l as))
    (dot : ∀ q l rp n, P l → P (.dot q l rp n))
    (atom : ∀ q t v, P (.atom q t v))
    (list : ∀ q vs, (∀ x ∈ vs, P x) → P (.list q vs))
    (dict : ∀ q kvs, (∀ x ∈ kvs, P x.1 ∧ P x.2) → P (.dict q kvs))
    (curlyname : ∀ q vs, (∀ x ∈ vs, P x) → P (.curlyname q vs))
    (curlyexpr : ∀ q e, P e → P (.curlyexpr q e))
    (lambda : ∀ q ps e, P e → P (.lambda q ps e))
    (paren : ∀ q e, P e → P (.paren q e))
    (heredoc : ∀ q rl op b, P (.heredoc q rl op b)) : ∀ e, P e := by
  intro e
  refine VExpr.rec (motive_1 := P) (motive_2 := fun o => ∀ x, o = some x → P x)
    (motive_3 := fun l => ∀ x ∈ l, P x) (motive_4 := fun l => ∀ x ∈ l, P x.1 ∧ P x.2)
    (motive_5 := fun x => P x.1 ∧ P x.2)
    ternary binary unary subscript slice method call dot atom list dict curlyname curlyexpr lambda
    paren heredoc ?_ ?_ ?_ ?_ ?_ ?_ ?_ e
  · intro x h; cases h
  · intro v hv x h; cases h; exact hv
  · intro x h; cases h
  · intro a l ha hl x h
    cases h with
    | head => exact ha
    | tail _ h => exact hl _ h
  · intro x h; cases h
  · intro a l ha hl x h
    cases h with
    | head => exact ha
    | tail _ h => exact hl _ h
  · intro a b ha hb; exact ⟨ha, hb⟩

end VExpr

end Viml
