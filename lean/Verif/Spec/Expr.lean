/-
Specification vocabulary for expression trees of the public AST: parts of a node, positions, literal
text, operator levels, parameters.  Nothing here refers to the parser.
-/
import Verif.Model.Ast
import Verif.Spec.Token

namespace Viml.Spec
open Viml (Str Env)

/-- Direct subexpressions of a node, except the keys of a dictionary. -/
def subs : Ast.Expr → List Ast.Expr
  | .ternary _ c l r => [c, l, r]
  | .binary l _ _ r => [l, r]
  | .unary _ _ x => [x]
  | .subscript _ l r => [l, r]
  | .slice x _ lo hi => x :: (lo.toList ++ hi.toList)
  | .method l m _ as => l :: m :: as
  | .call f _ as => f :: as
  | .dot l _ _ => [l]
  | .list _ vs => vs
  | .dict _ kvs => kvs.map (·.2)
  | .curlyName _ ps => ps
  | .curlyNameExpr _ e => [e]
  | .lambda _ _ e => [e]
  | .paren _ x => [x]
  | .heredoc _ fl _ b => fl ++ b
  | .basicLit .. | .curlyNameLit .. | .ident _ => []

/-- Keys of a dictionary node. -/
def keys : Ast.Expr → List Ast.Expr
  | .dict _ kvs => kvs.map (·.1)
  | _ => []

/-- `P` holds of every node of a tree; a dictionary key may satisfy `K` instead. -/
inductive AllE (P K : Ast.Expr → Prop) : Ast.Expr → Prop
  | mk (e : Ast.Expr) : P e → (∀ x ∈ subs e, AllE P K x) → (∀ k ∈ keys e, ¬ K k → AllE P K k) →
      AllE P K e

/-- Public form of a source position. -/
def pubPos (fn : Str) (q : Pos) : Ast.Pos := ⟨q.offset, q.lnum, q.col, fn⟩

/-- `q` is the position of the rest `r` of the input: of its first character or line end, or the end
of file if nothing is left. -/
def At (env : Env) (fn : Str) (q : Ast.Pos) (r : List Cell) : Prop :=
  r <:+ env.buf ∧ q = pubPos fn (posOf env r)

/-- `q` is a position of the source (or its end). -/
def Real (env : Env) (fn : Str) (q : Ast.Pos) : Prop := ∃ r, At env fn q r

/-- The text `v` stands in the source at `q`. -/
def TextAt (env : Env) (fn : Str) (q : Ast.Pos) (v : Str) : Prop :=
  ∃ r r', At env fn q r ∧ Reads r v r'

/-- Positions stored in an expression node itself. -/
def ownPos : Ast.Expr → List Ast.Pos
  | .ternary q .. => [q]
  | .binary _ q _ _ => [q]
  | .unary q _ _ => [q]
  | .subscript q _ _ => [q]
  | .slice _ q _ _ => [q]
  | .method _ _ q _ => [q]
  | .call _ q _ => [q]
  | .dot _ q i => [q, i.pos]
  | .basicLit q _ _ => [q]
  | .list q _ => [q]
  | .dict q _ => [q]
  | .curlyName q _ => [q]
  | .curlyNameLit q _ => [q]
  | .curlyNameExpr q _ => [q]
  | .ident i => [i.pos]
  | .lambda q ps _ => q :: ps.map (·.pos)
  | .paren q _ => [q]
  | .heredoc q .. => [q]

/-- Text of the source a node keeps or stands for, with the position where it stands: literals and
names verbatim, operators and brackets as written. -/
def ownText : Ast.Expr → List (Ast.Pos × Str)
  | .ternary q .. => [(q, ['?'])]
  | .binary _ q op _ => [(q, op.str)]
  | .unary q op _ => [(q, op.str)]
  | .subscript q .. => [(q, ['['])]
  | .slice _ q .. => [(q, ['['])]
  | .method _ _ q _ => [(q, ['('])]
  | .call _ q _ => [(q, ['('])]
  | .dot _ q i => [(q, ['.']), (i.pos, i.name)]
  | .basicLit q _ v => [(q, v)]
  | .list q _ => [(q, ['['])]
  | .curlyNameLit q v => [(q, v)]
  | .ident i => [(i.pos, i.name)]
  | .lambda _ ps _ => ps.map fun i => (i.pos, i.name)
  | .paren q _ => [(q, ['('])]
  | .dict .. | .curlyName .. | .curlyNameExpr .. | .heredoc .. => []

/-- A dictionary starts with `{` or `#{`; so does a lambda. -/
def openOK (env : Env) (fn : Str) : Ast.Expr → Prop
  | .dict q _ => TextAt env fn q ['{'] ∨ TextAt env fn q ['#', '{']
  | .lambda q _ _ => TextAt env fn q ['{'] ∨ TextAt env fn q ['#', '{']
  | _ => True

/-- Body of a double-quoted string: a backslash takes the next character with it. -/
inductive DBody : Str → Prop
  | nil : DBody []
  | char {s : Str} {c : Char} : DBody s → c ≠ '"' → c ≠ '\\' → DBody (s ++ [c])
  | esc {s : Str} {c : Char} : DBody s → DBody (s ++ ['\\', c])

/-- Body of a single-quoted string: quotes are doubled. -/
inductive SBody : Str → Prop
  | nil : SBody []
  | char {s : Str} {c : Char} : SBody s → c ≠ '\'' → SBody (s ++ [c])
  | quote {s : Str} : SBody s → SBody (s ++ ['\'', '\''])

/-- A complete string literal. -/
def StringLit (v : Str) : Prop :=
  (∃ s, DBody s ∧ v = ['"'] ++ s ++ ['"']) ∨ (∃ s, SBody s ∧ v = ['\''] ++ s ++ ['\''])

/-- The text of a literal node is a literal of its kind. -/
def LitShape : Tok → Str → Prop
  | .NUMBER, v => Shape .number v
  | .BLOB, v => Shape .blob v
  | .OPTION, v => Shape .option v
  | .ENV, v => Shape .env v
  | .REG, v => Shape .reg v
  | .STRING, v => StringLit v
  | _, _ => False

/-- Shape of the text of a name: an identifier or `<SID>name`. -/
def NameShape (v : Str) : Prop :=
  (∃ c s, v = c :: s ∧ iswordc1 c = true ∧ ∀ x ∈ s, isnamec x = true) ∨
  equalci v ['<', 'S', 'I', 'D', '>'] = true

/-- Literal and name nodes have text of their kind. -/
def shapeOK : Ast.Expr → Prop
  | .basicLit _ k v => LitShape k v
  | .ident i => NameShape i.name
  | .dot _ _ i => Many1 iswordc i.name
  | .curlyNameLit _ v => Many1 isnamec v ∨ equalci v ['<', 'S', 'I', 'D', '>'] = true
  | _ => True

/-- A key of a `#{...}` dictionary: the node is a quoted string made from the bare word of the
source, and its position is one character into the word. -/
def litKey (env : Env) (fn : Str) : Ast.Expr → Prop
  | .basicLit q k v => k = .STRING ∧ ∃ s r r1, v = ['\''] ++ s ++ ['\''] ∧ s ≠ [] ∧ r <:+ env.buf ∧
      Reads r s r1 ∧ q = pubPos fn (posOf env r.tail) ∧ ∀ c ∈ s,
      (isalnum c || c == '_' || c == '-') = true
  | _ => False

/-- Level of a binary operator: the number of the grammar level that reads it. -/
def opLevel : Tok → Nat
  | .OROR => 2
  | .ANDAND => 3
  | .EQEQ | .EQEQCI | .EQEQCS | .NEQ | .NEQCI | .NEQCS | .GT | .GTCI | .GTCS
  | .GTEQ | .GTEQCI | .GTEQCS | .LT | .LTCI | .LTCS | .LTEQ | .LTEQCI | .LTEQCS
  | .MATCH | .MATCHCI | .MATCHCS | .NOMATCH | .NOMATCHCI | .NOMATCHCS
  | .IS | .ISCI | .ISCS | .ISNOT | .ISNOTCI | .ISNOTCS => 4
  | .PLUS | .MINUS | .DOT => 5
  | .STAR | .SLASH | .PERCENT => 6
  | _ => 0

/-- Level of an expression, from 1 (loosest, `?:`) to 9 (atoms); 0 for nodes that are not expressions
by themselves. -/
def level : Ast.Expr → Nat
  | .ternary .. => 1
  | .binary _ _ op _ => opLevel op
  | .unary .. => 7
  | .subscript .. | .slice .. | .method .. | .call .. | .dot .. => 8
  | .basicLit .. | .list .. | .dict .. | .curlyName .. | .ident .. | .lambda .. | .paren .. => 9
  | .curlyNameLit .. | .curlyNameExpr .. | .heredoc .. => 0

/-- Comparison operators do not associate; all other binary operators associate to the left. -/
def leftLevel (op : Tok) : Nat := if opLevel op = 4 then 5 else opLevel op

/-- What may stand before `.name`. -/
def dotBase : Ast.Expr → Prop
  | .ident .. | .curlyName .. | .dict .. | .subscript .. | .call .. | .dot .. => True
  | _ => False

/-- Every operand is at the level its operator requires. -/
def precOK : Ast.Expr → Prop
  | .ternary _ c l r => 2 ≤ level c ∧ 1 ≤ level l ∧ 1 ≤ level r
  | .binary l _ op r => 2 ≤ opLevel op ∧ leftLevel op ≤ level l ∧ opLevel op + 1 ≤ level r
  | .unary _ op x => (op = .NOT ∨ op = .MINUS ∨ op = .PLUS) ∧ 7 ≤ level x
  | .subscript _ l r => 8 ≤ level l ∧ 1 ≤ level r
  | .slice x _ lo hi => 8 ≤ level x ∧ (∀ e, lo = some e → 1 ≤ level e) ∧
      (∀ e, hi = some e → 1 ≤ level e)
  | .method l m _ as => 8 ≤ level l ∧ level m = 9 ∧ ∀ a ∈ as, 1 ≤ level a
  | .call f _ as => 8 ≤ level f ∧ ∀ a ∈ as, 1 ≤ level a
  | .dot l _ _ => 8 ≤ level l ∧ dotBase l
  | .list _ vs => ∀ a ∈ vs, 1 ≤ level a
  | .dict _ kvs => ∀ kv ∈ kvs, 1 ≤ level kv.1 ∧ 1 ≤ level kv.2
  | .curlyName _ ps => ps ≠ [] ∧ ∀ p ∈ ps, (∃ q v, p = .curlyNameLit q v) ∨ ∃ q e, p = .curlyNameExpr q e
  | .curlyNameExpr _ e => 1 ≤ level e
  | .lambda _ _ e => 1 ≤ level e
  | .paren _ x => 1 ≤ level x
  | .heredoc .. => False
  | .basicLit .. | .curlyNameLit .. | .ident _ => True

/-- At most 20 arguments. -/
def argsOK : Ast.Expr → Prop
  | .method _ _ _ as => as.length ≤ 20
  | .call _ _ as => as.length ≤ 20
  | _ => True

/-- A parameter list: distinct argument names, then possibly `...`. -/
def Params (ps : List Str) : Prop :=
  ∃ names dots, ps = names ++ dots ∧ (dots = [] ∨ dots = [['.', '.', '.']]) ∧ names.Nodup ∧
    ∀ n ∈ names, ∃ c s, n = c :: s ∧ iswordc1 c = true ∧ ∀ x ∈ s, iswordc x = true

def paramsOK : Ast.Expr → Prop
  | .lambda _ ps _ => Params (ps.map (·.name))
  | _ => True

end Viml.Spec
