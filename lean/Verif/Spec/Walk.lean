/-
Specification of `Walk` and `Inspect`, from their documentation (ast/walk.go:5-18, 251-255): a depth-first
traversal.  Nothing here refers to the model of the traversal.
-/
import Verif.Model.Walk

namespace Viml.Spec
open Viml.Ast

/-- The expressions that a node of an expression contains directly, in source order. -/
def exprParts : Expr → List Expr
  | .ternary _ c l r => [c, l, r]
  | .binary l _ _ r => [l, r]
  | .unary _ _ x => [x]
  | .subscript _ l r => [l, r]
  | .slice x _ lo hi => x :: (lo.toList ++ hi.toList)
  | .method l m _ as => l :: m :: as
  | .call f _ as => f :: as
  | .dot l _ r => [l, .ident r]
  | .basicLit .. => []
  | .list _ vs => vs
  | .dict _ kvs => kvs.flatMap fun kv => [kv.1, kv.2]
  | .ident _ => []
  | .curlyName _ ps => ps
  | .curlyNameLit .. => []
  | .curlyNameExpr _ x => [x]
  | .lambda _ ps x => ps.map .ident ++ [x]
  | .paren _ x => [x]
  | .heredoc _ fl _ b => fl ++ b

/-- The nodes that a statement contains directly, in source order (but all parameters of a function before all of
their default values). -/
def stmtParts : Stmt → List Node
  | .comment .. => []
  | .excmd .. => []
  | .function _ _ body name ps ds _ e =>
    .expr name :: (ps.map (fun i => .expr (.ident i)) ++ ds.map .expr ++ body.map .stmt ++ [.endCmd .function e])
  | .delFunction _ _ name => [.expr name]
  | .return_ _ _ r => r.toList.map .expr
  | .exCall _ _ f lp as => [.expr (.call f lp as)]
  | .let_ _ _ _ l ls rest r => (l.toList ++ ls ++ rest.toList ++ [r]).map .expr
  | .unLet _ _ l => l.map .expr
  | .lockVar _ _ _ l => l.map .expr
  | .unLockVar _ _ _ l => l.map .expr
  | .if_ _ _ body c eis el e => .expr c :: ((body ++ eis ++ el.toList).map .stmt ++ [.endCmd .if_ e])
  | .elseIf _ _ body c => .expr c :: body.map .stmt
  | .else_ _ _ body => body.map .stmt
  | .while_ _ _ body c e => .expr c :: (body.map .stmt ++ [.endCmd .while_ e])
  | .for_ _ _ body l ls rest r e =>
    (l.toList ++ ls ++ rest.toList ++ [r]).map .expr ++ (body.map .stmt ++ [.endCmd .for_ e])
  | .continue_ .. => []
  | .break_ .. => []
  | .try_ _ _ body cs fi e => (body ++ cs ++ fi.toList).map .stmt ++ [.endCmd .try_ e]
  | .catch_ _ _ body _ => body.map .stmt
  | .finally_ _ _ body => body.map .stmt
  | .throw _ _ e => [.expr e]
  | .eval _ _ e => [.expr e]
  | .echoCmd _ _ _ l => l.map .expr
  | .echohl .. => []
  | .execute _ _ l => l.map .expr

/-- The nodes that a node contains directly: the children of the node. -/
def parts : Node → List Node
  | .file f => f.body.map .stmt
  | .stmt s => stmtParts s
  | .expr e => (exprParts e).map .expr
  | .endCmd .. => []

/-- The children that `Walk` knows: all but the body of a lambda and the default values of parameters. -/
def walkedParts : Node → List Node
  | .expr (.lambda _ ps _) => ps.map fun i => .expr (.ident i)
  | .stmt (.function p ea body name ps _ at_ e) => stmtParts (.function p ea body name ps [] at_ e)
  | n => parts n

mutual

/-- `l` is the list of the nodes of the tree below `n`, each once, parents before children and children in
order.  `ch` gives the children of a node. -/
inductive Preorder (ch : Node → List Node) : Node → List Node → Prop
  | mk {n : Node} {l : List Node} : PreorderAll ch (ch n) l → Preorder ch n (n :: l)

/-- The same for the trees of several nodes, one after the other. -/
inductive PreorderAll (ch : Node → List Node) : List Node → List Node → Prop
  | nil : PreorderAll ch [] []
  | cons {n : Node} {ns l1 l2 : List Node} : Preorder ch n l1 → PreorderAll ch ns l2 →
      PreorderAll ch (n :: ns) (l1 ++ l2)

end

/-- `m` is a node of the tree below `n`. -/
inductive Below (ch : Node → List Node) : Node → Node → Prop
  | self {n : Node} : Below ch n n
  | child {n c m : Node} : c ∈ ch n → Below ch c m → Below ch n m

/-- A call of `Visit`: the receiver, the argument and the result. -/
structure Call (V : Type) where
  recv : V
  arg : Option Node
  res : Option V

section
variable {V S : Type} (visit : Visit V S) (ch : Node → List Node)

mutual

/-- `Walk(v, n)` in the state `s`, according to its documentation, makes the calls `tr` and ends in the state `s'`. -/
inductive Walks : V → Node → S → List (Call V) → S → Prop
  | prune {v : V} {n : Node} {s s' : S} : visit v (some n) s = (none, s') →
      Walks v n s [⟨v, some n, none⟩] s'
  | enter {v w : V} {o : Option V} {n : Node} {s s1 s2 s' : S} {tr : List (Call V)} :
      visit v (some n) s = (some w, s1) → WalksAll w (ch n) s1 tr s2 → visit w none s2 = (o, s') →
      Walks v n s (⟨v, some n, some w⟩ :: (tr ++ [⟨w, none, o⟩])) s'

/-- The same for a list of nodes, one after the other. -/
inductive WalksAll : V → List Node → S → List (Call V) → S → Prop
  | nil {v : V} {s : S} : WalksAll v [] s [] s
  | cons {v : V} {n : Node} {ns : List Node} {s s1 s' : S} {t1 t2 : List (Call V)} :
      Walks v n s t1 s1 → WalksAll v ns s1 t2 s' → WalksAll v (n :: ns) s (t1 ++ t2) s'

end

/-- A visitor with a log of all calls made. -/
def logged : Visit V (S × List (Call V)) := fun v n s =>
  ((visit v n s.1).1, (visit v n s.1).2, s.2 ++ [⟨v, n, (visit v n s.1).1⟩])

end

section
variable {S : Type} (f : Option Node → S → Bool × S) (ch : Node → List Node)

mutual

/-- `Inspect(n, f)` in the state `s` calls `f` with the nodes `l`, in this order, and ends in the state `s'`. -/
inductive Inspects : Node → S → List Node → S → Prop
  | stop {n : Node} {s s' : S} : f (some n) s = (false, s') → Inspects n s [n] s'
  | go {n : Node} {s s1 s' : S} {l : List Node} : f (some n) s = (true, s1) → InspectsAll (ch n) s1 l s' →
      Inspects n s (n :: l) s'

inductive InspectsAll : List Node → S → List Node → S → Prop
  | nil {s : S} : InspectsAll [] s [] s
  | cons {n : Node} {ns : List Node} {s s1 s' : S} {l1 l2 : List Node} : Inspects n s l1 s1 →
      InspectsAll ns s1 l2 s' → InspectsAll (n :: ns) s (l1 ++ l2) s'

end

/-- A callback with a log of its arguments. -/
def loggedF : Option Node → S × List (Option Node) → Bool × (S × List (Option Node)) := fun n s =>
  ((f n s.1).1, (f n s.1).2, s.2 ++ [n])

end

end Viml.Spec
