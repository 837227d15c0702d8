/-
What properties C73 and C74 say: expressions without positions and parentheses, statements without what the
compiler does not write, and the few names whose S-expressions are ambiguous.  Nothing here refers to the parser or to the compilers.
-/
import Verif.Spec.Expr
import Verif.Spec.Printer
import Verif.Spec.Stmt

namespace Viml.Spec
open Viml (Str)

mutual

/-- An expression without its positions and without parentheses. -/
def bare : Ast.Expr → Ast.Expr
  | .ternary _ c l r => .ternary ⟨0, 0, 0, []⟩ (bare c) (bare l) (bare r)
  | .binary l _ op r => .binary (bare l) ⟨0, 0, 0, []⟩ op (bare r)
  | .unary _ op x => .unary ⟨0, 0, 0, []⟩ op (bare x)
  | .subscript _ l r => .subscript ⟨0, 0, 0, []⟩ (bare l) (bare r)
  | .slice x _ lo hi => .slice (bare x) ⟨0, 0, 0, []⟩ (bareO lo) (bareO hi)
  | .method l m _ as => .method (bare l) (bare m) ⟨0, 0, 0, []⟩ (bareL as)
  | .call f _ as => .call (bare f) ⟨0, 0, 0, []⟩ (bareL as)
  | .dot l _ i => .dot (bare l) ⟨0, 0, 0, []⟩ ⟨⟨0, 0, 0, []⟩, i.name⟩
  | .basicLit _ k v => .basicLit ⟨0, 0, 0, []⟩ k v
  | .list _ vs => .list ⟨0, 0, 0, []⟩ (bareL vs)
  | .dict _ kvs => .dict ⟨0, 0, 0, []⟩ (bareP kvs)
  | .curlyName _ ps => .curlyName ⟨0, 0, 0, []⟩ (bareL ps)
  | .curlyNameLit _ v => .curlyNameLit ⟨0, 0, 0, []⟩ v
  | .curlyNameExpr _ e => .curlyNameExpr ⟨0, 0, 0, []⟩ (bare e)
  | .ident i => .ident ⟨⟨0, 0, 0, []⟩, i.name⟩
  | .lambda _ ps e => .lambda ⟨0, 0, 0, []⟩ (ps.map fun i => ⟨⟨0, 0, 0, []⟩, i.name⟩) (bare e)
  | .paren _ x => bare x
  | .heredoc _ fl m b => .heredoc ⟨0, 0, 0, []⟩ (bareL fl) m (bareL b)

def bareO : Option Ast.Expr → Option Ast.Expr
  | none => none
  | some e => some (bare e)

def bareL : List Ast.Expr → List Ast.Expr
  | [] => []
  | e :: es => bare e :: bareL es

def bareP : List (Ast.Expr × Ast.Expr) → List (Ast.Expr × Ast.Expr)
  | [] => []
  | (k, v) :: kvs => (bare k, bare v) :: bareP kvs

end

/-- The expression is the name `n`, possibly in parentheses. -/
def isName (n : Str) : Ast.Expr → Prop
  | .ident i => i.name = n
  | .paren _ x => isName n x
  | _ => False

/-- Names with a meaning of their own at the head of a list of the output. -/
def headWords : List Str :=
  [cs!"subscript", cs!"slice", cs!"method", cs!"dot", cs!"list", cs!"dict", cs!"lambda", cs!"concat", cs!"is",
    cs!"isnot", cs!"is#", cs!"isnot#"]

/-- A node whose S-expression cannot be taken for that of another kind of node: it is no call of a function
with one of the names above, no slice from or to a variable `nil`, and no `@` without the name of a
register (this is read at the end of a line only). -/
def clear : Ast.Expr → Prop
  | .call f _ _ => ∀ n ∈ headWords, ¬ isName n f
  | .slice _ _ lo hi => (∀ e, lo = some e → ¬ isName cs!"nil" e) ∧ ∀ e, hi = some e → ¬ isName cs!"nil" e
  | .basicLit _ _ v => v ≠ ['@']
  | _ => True

/-! ### Statements -/

/-- What the compiler writes of a command: its name. -/
def plainEa (ea : Ast.ExArg) : Ast.ExArg := { cmd := ea.cmd.map fun c => ⟨c.name, 0, [], []⟩ }

/-- No end command. -/
def plainEnd : Ast.EndCmd := ⟨⟨0, 0, 0, []⟩, {}⟩

mutual

/-- A statement without positions, parentheses, modifiers, ranges, bangs, attributes of functions and the record of
the end command.  The text of a raw command, which includes all of its line, is kept. -/
def plain : Ast.Stmt → Ast.Stmt
  | .comment _ t => .comment ⟨0, 0, 0, []⟩ t
  | .excmd _ _ s => .excmd ⟨0, 0, 0, []⟩ {} s
  | .function _ _ b n ps da _ _ => .function ⟨0, 0, 0, []⟩ {} (plainL b) (bare n)
      (ps.map fun i => ⟨⟨0, 0, 0, []⟩, i.name⟩) (bareL da) {} plainEnd
  | .delFunction _ ea n => .delFunction ⟨0, 0, 0, []⟩ (plainEa ea) (bare n)
  | .return_ _ ea r => .return_ ⟨0, 0, 0, []⟩ (plainEa ea) (bareO r)
  | .exCall _ ea f _ as => .exCall ⟨0, 0, 0, []⟩ (plainEa ea) (bare f) ⟨0, 0, 0, []⟩ (bareL as)
  | .let_ _ ea op l ls rest r => .let_ ⟨0, 0, 0, []⟩ (plainEa ea) op (bareO l) (bareL ls) (bareO rest) (bare r)
  | .unLet _ ea ls => .unLet ⟨0, 0, 0, []⟩ (plainEa ea) (bareL ls)
  | .lockVar _ ea d ls => .lockVar ⟨0, 0, 0, []⟩ (plainEa ea) d (bareL ls)
  | .unLockVar _ ea d ls => .unLockVar ⟨0, 0, 0, []⟩ (plainEa ea) d (bareL ls)
  | .if_ _ ea b c eis el _ => .if_ ⟨0, 0, 0, []⟩ (plainEa ea) (plainL b) (bare c) (plainL eis) (plainO el) plainEnd
  | .elseIf _ ea b c => .elseIf ⟨0, 0, 0, []⟩ (plainEa ea) (plainL b) (bare c)
  | .else_ _ ea b => .else_ ⟨0, 0, 0, []⟩ (plainEa ea) (plainL b)
  | .while_ _ ea b c _ => .while_ ⟨0, 0, 0, []⟩ (plainEa ea) (plainL b) (bare c) plainEnd
  | .for_ _ ea b l ls rest r _ =>
    .for_ ⟨0, 0, 0, []⟩ (plainEa ea) (plainL b) (bareO l) (bareL ls) (bareO rest) (bare r) plainEnd
  | .continue_ _ ea => .continue_ ⟨0, 0, 0, []⟩ (plainEa ea)
  | .break_ _ ea => .break_ ⟨0, 0, 0, []⟩ (plainEa ea)
  | .try_ _ ea b cs fi _ => .try_ ⟨0, 0, 0, []⟩ (plainEa ea) (plainL b) (plainL cs) (plainO fi) plainEnd
  | .catch_ _ ea b p => .catch_ ⟨0, 0, 0, []⟩ (plainEa ea) (plainL b) p
  | .finally_ _ ea b => .finally_ ⟨0, 0, 0, []⟩ (plainEa ea) (plainL b)
  | .throw _ ea e => .throw ⟨0, 0, 0, []⟩ (plainEa ea) (bare e)
  | .eval _ ea e => .eval ⟨0, 0, 0, []⟩ (plainEa ea) (bare e)
  | .echoCmd _ n ea es => .echoCmd ⟨0, 0, 0, []⟩ n (plainEa ea) (bareL es)
  | .echohl _ ea n => .echohl ⟨0, 0, 0, []⟩ (plainEa ea) n
  | .execute _ ea es => .execute ⟨0, 0, 0, []⟩ (plainEa ea) (bareL es)

def plainL : List Ast.Stmt → List Ast.Stmt
  | [] => []
  | s :: ss => plain s :: plainL ss

def plainO : Option Ast.Stmt → Option Ast.Stmt
  | none => none
  | some s => some (plain s)

end

/-- The expression is a number, possibly in parentheses. -/
def isNumber : Ast.Expr → Prop
  | .basicLit _ k _ => k = .NUMBER
  | .paren _ x => isNumber x
  | _ => False

/-- The first target of a list is not a variable named `subscript`, `slice` or `dot`. -/
def clearTargets (ls : List Ast.Expr) : Prop :=
  ∀ e, ls.head? = some e → ∀ n ∈ [cs!"subscript", cs!"slice", cs!"dot"], ¬ isName n e

/-- A statement whose lines cannot be taken for those of another one: there is no heredoc, a list of targets does not
start with a variable that is named like a word of the output, and `:lockvar` without a depth does not start with a
number. -/
def clearS (s : Ast.Stmt) : Prop :=
  (∀ e ∈ exprsOf s, isHeredoc e = false ∧ Everywhere clear e) ∧
  match s with
  | .let_ _ _ _ _ ls _ _ => clearTargets ls
  | .for_ _ _ _ _ ls _ _ _ => clearTargets ls
  | .lockVar _ _ d ls => d = 0 → ∀ e, ls.head? = some e → ¬ isNumber e
  | .unLockVar _ _ d ls => d = 0 → ∀ e, ls.head? = some e → ¬ isNumber e
  | _ => True

end Viml.Spec
