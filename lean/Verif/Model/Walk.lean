/-
ast/walk.go: tree traversal.
-/
import Verif.Model.Ast

namespace Viml
namespace Ast

/-- Which of the five end commands an `EndCmd` is. -/
inductive EndKind
  | function | if_ | while_ | for_ | try_
deriving DecidableEq, Repr, Inhabited

/-- The `ast.Node` interface values that `Walk` passes on.  An `*Ident` is the expression
`Expr.ident`. -/
inductive Node
  | file (f : File)
  | stmt (s : Stmt)
  | expr (e : Expr)
  | endCmd (k : EndKind) (e : EndCmd)
deriving Repr, Inhabited

section
variable {V S : Type}

/-- `Visitor.Visit`, ast/walk.go:9-11: a visitor `V` is called with a node (or nil) and returns a
visitor or nil; `S` is whatever state the calls read and change. -/
abbrev Visit (V S : Type) := V → Option Node → S → Option V × S

/-- `Walk` on a node without children: `v.Visit(node)` and, if that is non-nil, `Visit(nil)`,
ast/walk.go:24-26, 219. -/
def walkLeaf (visit : Visit V S) (v : V) (n : Node) (s : S) : S :=
  match visit v (some n) s with
  | (none, s) => s
  | (some w, s) => (visit w none s).2

/-- `walkIdentList`, ast/walk.go:224-228 -/
def walkIdents (visit : Visit V S) (v : V) : List Ident → S → S
  | [], s => s
  | i :: is, s => walkIdents visit v is (walkLeaf visit v (.expr (.ident i)) s)

mutual

/-- The cases of `Walk` for expressions, ast/walk.go:149-214 -/
def walkExpr (visit : Visit V S) (v : V) (e : Expr) (s : S) : S :=
  match visit v (some (.expr e)) s with
  | (none, s) => s
  | (some w, s) =>
    let s := match e with
      | .ternary _ c l r => walkExpr visit w r (walkExpr visit w l (walkExpr visit w c s))
      | .binary l _ _ r => walkExpr visit w r (walkExpr visit w l s)
      | .unary _ _ x => walkExpr visit w x s
      | .subscript _ l r => walkExpr visit w r (walkExpr visit w l s)
      | .slice x _ lo hi => walkExprOpt visit w hi (walkExprOpt visit w lo (walkExpr visit w x s))
      | .method l m _ as => walkExprs visit w as (walkExpr visit w m (walkExpr visit w l s))
      | .call f _ as => walkExprs visit w as (walkExpr visit w f s)
      | .dot l _ r => walkLeaf visit w (.expr (.ident r)) (walkExpr visit w l s)
      | .basicLit .. => s
      | .list _ vs => walkExprs visit w vs s
      | .dict _ kvs => walkPairs visit w kvs s
      | .ident _ => s
      | .curlyName _ ps => walkExprs visit w ps s
      | .curlyNameLit .. => s
      | .curlyNameExpr _ x => walkExpr visit w x s
      -- the body `n.Expr` is not walked, ast/walk.go:206-207
      | .lambda _ ps _ => walkIdents visit w ps s
      | .paren _ x => walkExpr visit w x s
      | .heredoc _ fl _ b => walkExprs visit w b (walkExprs visit w fl s)
    (visit w none s).2

/-- `Walk` on a field that may be nil, ast/walk.go:20-22 -/
def walkExprOpt (visit : Visit V S) (v : V) (o : Option Expr) (s : S) : S :=
  match o with
  | none => s
  | some e => walkExpr visit v e s

/-- `walkExprList`, ast/walk.go:230-234 -/
def walkExprs (visit : Visit V S) (v : V) (l : List Expr) (s : S) : S :=
  match l with
  | [] => s
  | e :: es => walkExprs visit v es (walkExpr visit v e s)

/-- ast/walk.go:189-192 -/
def walkPairs (visit : Visit V S) (v : V) (l : List (Expr × Expr)) (s : S) : S :=
  match l with
  | [] => s
  | (k, x) :: kvs => walkPairs visit v kvs (walkExpr visit v x (walkExpr visit v k s))

end

mutual

/-- The cases of `Walk` for statements, ast/walk.go:36-147 -/
def walkStmt (visit : Visit V S) (v : V) (n : Stmt) (s : S) : S :=
  match visit v (some (.stmt n)) s with
  | (none, s) => s
  | (some w, s) =>
    let s := match n with
      | .comment .. => s
      | .excmd .. => s
      -- `n.DefaultArgs` is not walked, ast/walk.go:40-44
      | .function _ _ body name ps _ _ e =>
        walkLeaf visit w (.endCmd .function e)
          (walkStmts visit w body (walkIdents visit w ps (walkExpr visit w name s)))
      | .delFunction _ _ name => walkExpr visit w name s
      | .return_ _ _ r => walkExprOpt visit w r s
      | .exCall _ _ f lp as => walkExpr visit w (.call f lp as) s
      | .let_ _ _ _ l ls rest r =>
        walkExpr visit w r (walkExprOpt visit w rest (walkExprs visit w ls (walkExprOpt visit w l s)))
      | .unLet _ _ l => walkExprs visit w l s
      | .lockVar _ _ _ l => walkExprs visit w l s
      | .unLockVar _ _ _ l => walkExprs visit w l s
      | .if_ _ _ body c eis el e =>
        walkLeaf visit w (.endCmd .if_ e) (walkStmtOpt visit w el
          (walkStmts visit w eis (walkStmts visit w body (walkExpr visit w c s))))
      | .elseIf _ _ body c => walkStmts visit w body (walkExpr visit w c s)
      | .else_ _ _ body => walkStmts visit w body s
      | .while_ _ _ body c e =>
        walkLeaf visit w (.endCmd .while_ e) (walkStmts visit w body (walkExpr visit w c s))
      | .for_ _ _ body l ls rest r e =>
        walkLeaf visit w (.endCmd .for_ e) (walkStmts visit w body (walkExpr visit w r
          (walkExprOpt visit w rest (walkExprs visit w ls (walkExprOpt visit w l s)))))
      | .continue_ .. => s
      | .break_ .. => s
      | .try_ _ _ body cs fi e =>
        walkLeaf visit w (.endCmd .try_ e)
          (walkStmtOpt visit w fi (walkStmts visit w cs (walkStmts visit w body s)))
      | .catch_ _ _ body _ => walkStmts visit w body s
      | .finally_ _ _ body => walkStmts visit w body s
      | .throw _ _ e => walkExpr visit w e s
      | .eval _ _ e => walkExpr visit w e s
      | .echoCmd _ _ _ l => walkExprs visit w l s
      | .echohl .. => s
      | .execute _ _ l => walkExprs visit w l s
    (visit w none s).2

/-- ast/walk.go:78-80, 120-122 -/
def walkStmtOpt (visit : Visit V S) (v : V) (o : Option Stmt) (s : S) : S :=
  match o with
  | none => s
  | some n => walkStmt visit v n s

/-- `walkStmtList`, ast/walk.go:236-240 -/
def walkStmts (visit : Visit V S) (v : V) (l : List Stmt) (s : S) : S :=
  match l with
  | [] => s
  | n :: ns => walkStmts visit v ns (walkStmt visit v n s)

end

/-- `Walk`, ast/walk.go:19-220, on a non-nil node -/
def walk (visit : Visit V S) (v : V) (n : Node) (s : S) : S :=
  match n with
  | .stmt x => walkStmt visit v x s
  | .expr e => walkExpr visit v e s
  | .endCmd k e => walkLeaf visit v (.endCmd k e) s
  | .file f =>
    match visit v (some (.file f)) s with
    | (none, s) => s
    | (some w, s) => (visit w none (walkStmts visit w f.body s)).2

/-- `inspector.Visit`, ast/walk.go:242-249.  The callback `f` may change the state; the visitor value
is the callback itself, so `V` is `Unit`. -/
def inspector (f : Option Node → S → Bool × S) : Visit Unit S := fun _ n s =>
  match n with
  | none => (none, s)
  | some n =>
    match f (some n) s with
    | (true, s) => (some (), s)
    | (false, s) => (none, s)

/-- `Inspect`, ast/walk.go:251-258 -/
def inspect (n : Node) (f : Option Node → S → Bool × S) (s : S) : S := walk (inspector f) () n s

end
end Ast
end Viml
