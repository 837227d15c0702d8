/-
What the compilers print: S-expressions of expressions, and the lines of statements with their
indentation.  Nothing here refers to the compilers.
-/
import Verif.Spec.Stmt

namespace Viml.Spec
open Viml (Str)

/-! ### Expressions -/

/-- S-expressions. -/
inductive SX
  | atom (s : Str)
  | list (l : List SX)

mutual

/-- Text of an S-expression: the elements of a list in parentheses, separated by single blanks. -/
def SX.text : SX → Str
  | .atom s => s
  | .list l => '(' :: SX.texts l ++ [')']

def SX.texts : List SX → Str
  | [] => []
  | [x] => x.text
  | x :: y :: l => x.text ++ ' ' :: SX.texts (y :: l)

end

/-- The name of a binary operator. -/
def opName (op : Tok) : Str := if op = .DOT then cs!"concat" else op.str

/-- A text in double quotes. -/
def quoted (s : Str) : SX := .atom ('"' :: s ++ ['"'])

/-- Control characters as in C. -/
def ctrl (s : Str) : Str :=
  s.flatMap fun c => if c = '\n' then ['\\', 'n'] else if c = '\t' then ['\\', 't'] else
    if c = '\r' then ['\\', 'r'] else [c]

mutual

/-- The S-expression of an expression.  Parentheses are not represented. -/
def sx : Ast.Expr → SX
  | .ternary _ c l r => .list [.atom cs!"?:", sx c, sx l, sx r]
  | .binary l _ op r => .list [.atom (opName op), sx l, sx r]
  | .unary _ op x => .list [.atom op.str, sx x]
  | .subscript _ l r => .list [.atom cs!"subscript", sx l, sx r]
  | .slice x _ lo hi => .list [.atom cs!"slice", sx x, sxNil lo, sxNil hi]
  | .method l m _ as => .list [.atom cs!"method", sx l, .list (sx m :: sxs as)]
  | .call f _ as => .list (sx f :: sxs as)
  | .dot l _ i => .list [.atom cs!"dot", sx l, .atom i.name]
  | .basicLit _ _ v => .atom v
  | .list _ vs => .list (.atom cs!"list" :: sxs vs)
  | .dict _ kvs => .list (.atom cs!"dict" :: sxPairs kvs)
  | .curlyName _ ps => .atom (sxCat ps)
  | .curlyNameLit _ v => .atom v
  | .curlyNameExpr _ e => .atom ('{' :: (sx e).text ++ ['}'])
  | .ident i => .atom i.name
  | .lambda _ ps e => .list [.atom cs!"lambda", .list (ps.map fun i => .atom i.name), sx e]
  | .paren _ x => sx x
  | .heredoc _ fl m b => .list [.atom cs!"heredoc", .list (.atom cs!"list" :: sxQ fl), quoted m,
      .list (.atom cs!"list" :: sxC b)]

/-- An absent bound of a slice is `nil`. -/
def sxNil : Option Ast.Expr → SX
  | none => .atom cs!"nil"
  | some e => sx e

def sxs : List Ast.Expr → List SX
  | [] => []
  | e :: es => sx e :: sxs es

def sxPairs : List (Ast.Expr × Ast.Expr) → List SX
  | [] => []
  | (k, v) :: kvs => .list [sx k, sx v] :: sxPairs kvs

/-- Parts of a curly name, without separator. -/
def sxCat : List Ast.Expr → Str
  | [] => []
  | e :: es => (sx e).text ++ sxCat es

/-- Flags of a heredoc, quoted. -/
def sxQ : List Ast.Expr → List SX
  | [] => []
  | e :: es => quoted (sx e).text :: sxQ es

/-- Lines of a heredoc, quoted, with control characters escaped. -/
def sxC : List Ast.Expr → List SX
  | [] => []
  | e :: es => quoted (ctrl (sx e).text) :: sxC es

end

/-- Texts separated by single blanks. -/
def words (l : List Str) : Str := List.intercalate [' '] l

/-- The S-expressions of a list of expressions, separated by blanks. -/
def sxWords (l : List Ast.Expr) : Str := words ((sxs l).map SX.text)

/-! ### Statements -/

/-- Two blanks for every level. -/
def indent (d : Nat) : Str := List.replicate (2 * d) ' '

/-- The name of the command. -/
def nameOf (ea : Ast.ExArg) : Str := (ea.cmd.map (·.name)).getD []

/-- `(name args)` -/
def form (name args : Str) : Str := cs!"(" ++ name ++ cs!" " ++ args ++ cs!")"

/-- Backslash before backslashes and double quotes. -/
def bs (s : Str) : Str := s.flatMap fun c => if c = '\\' ∨ c = '"' then ['\\', c] else [c]

/-- Left-hand side of `:let` and `:for`: one target, or a list with a rest after a dot. -/
def lhsText (l : Option Ast.Expr) (ls : List Ast.Expr) (rest : Option Ast.Expr) : Str :=
  match l, rest with
  | some e, _ => (sx e).text
  | none, none => cs!"(" ++ sxWords ls ++ cs!")"
  | none, some r => cs!"(" ++ sxWords ls ++ cs!" . " ++ (sx r).text ++ cs!")"

/-- `depth` of `:lockvar` if it is not 0. -/
def depthWord (d : Nat) : Str := if d = 0 then [] else Nat.toDigits 10 d ++ [' ']

/-- Parameters with their default values: both lists are aligned at the end. -/
def paramWords (ps : List Str) (da : List Str) : List Str :=
  (ps.take (ps.length - da.length)) ++
    List.zipWith (fun p v => cs!"(" ++ p ++ cs!" " ++ v ++ cs!")") (ps.drop (ps.length - da.length))
      (da.drop (da.length - ps.length))

/-- Parameters of a function as printed. -/
def sigWords (ps : List Ast.Ident) (da : List Ast.Expr) : List Str :=
  let names := ps.map (·.name)
  let defs := (sxs da).map SX.text
  if names.getLast? = some cs!"..." then paramWords names.dropLast defs ++ [cs!". ..."]
  else paramWords names defs

/-- The line that opens a function: `(function (name params)`. -/
def funcLine (d : Nat) (name : Ast.Expr) (ps : List Ast.Ident) (da : List Ast.Expr) : Str :=
  indent d ++ cs!"(function (" ++ words ((sx name).text :: sigWords ps da) ++ cs!")"

/-- The line that opens a function as package compiler prints it: the indentation is repeated before
the blank after the name, before the parameters and before the closing parenthesis. -/
def funcLine' (d : Nat) (name : Ast.Expr) (ps : List Ast.Ident) (da : List Ast.Expr) : Str :=
  indent d ++ cs!"(function (" ++ (sx name).text ++
    (if ps = [] then [] else indent d ++ cs!" " ++ indent d ++ words (sigWords ps da)) ++ indent d ++ cs!")"

/-- First line of a statement, without indentation; for functions see `funcLine`. -/
def firstLine : Ast.Stmt → Str
  | .comment _ t => cs!";" ++ t
  | .excmd _ _ s => form cs!"excmd" ('"' :: bs s ++ ['"'])
  | .function .. => []
  | .delFunction _ ea n => form (nameOf ea) (sx n).text
  | .return_ _ ea (some e) => form (nameOf ea) (sx e).text
  | .return_ _ ea none => cs!"(" ++ nameOf ea ++ cs!")"
  | .exCall _ ea f lp as => form (nameOf ea) (sx (.call f lp as)).text
  | .let_ _ ea op l ls rest r =>
    form (nameOf ea) (op ++ cs!" " ++ lhsText l ls rest ++ cs!" " ++ (sx r).text)
  | .unLet _ ea ls => form (nameOf ea) (sxWords ls)
  | .lockVar _ ea d ls => form (nameOf ea) (depthWord d ++ sxWords ls)
  | .unLockVar _ ea d ls => form (nameOf ea) (depthWord d ++ sxWords ls)
  | .if_ _ ea _ c _ _ _ => cs!"(" ++ nameOf ea ++ cs!" " ++ (sx c).text
  | .elseIf _ ea _ c => cs!" " ++ nameOf ea ++ cs!" " ++ (sx c).text
  | .else_ _ ea _ => cs!" " ++ nameOf ea
  | .while_ _ ea _ c _ => cs!"(" ++ nameOf ea ++ cs!" " ++ (sx c).text
  | .for_ _ ea _ l ls rest r _ =>
    cs!"(" ++ nameOf ea ++ cs!" " ++ lhsText l ls rest ++ cs!" " ++ (sx r).text
  | .continue_ _ ea => cs!"(" ++ nameOf ea ++ cs!")"
  | .break_ _ ea => cs!"(" ++ nameOf ea ++ cs!")"
  | .try_ _ ea _ _ _ _ => cs!"(" ++ nameOf ea
  | .catch_ _ ea _ p => cs!" " ++ nameOf ea ++ (if p = [] then [] else cs!" /" ++ p ++ cs!"/")
  | .finally_ _ ea _ => cs!" " ++ nameOf ea
  | .throw _ ea e => form (nameOf ea) (sx e).text
  | .eval _ ea e => form (nameOf ea) (sx e).text
  | .echoCmd _ _ ea es => form (nameOf ea) (sxWords es)
  | .echohl _ ea n => form (nameOf ea) ('"' :: bs n ++ ['"'])
  | .execute _ ea es => form (nameOf ea) (sxWords es)

/-- Append a closing parenthesis to the last line. -/
def close : List Str → List Str
  | [] => []
  | [l] => [l ++ [')']]
  | l :: m :: ls => l :: close (m :: ls)

section
variable (fl : Nat → Ast.Expr → List Ast.Ident → List Ast.Expr → Str)

mutual

/-- The lines of a statement at level `d`: the bodies of a block are one level deeper, its parts start
at the level of the block, and the block ends with a closing parenthesis on its last line.  `fl` is
the line that opens a function. -/
def lines (d : Nat) : Ast.Stmt → List Str
  | .function _ _ b n ps da _ _ => close (fl d n ps da :: linesL (d + 1) b)
  | .if_ q ea b c eis el e => close ((indent d ++ firstLine (.if_ q ea b c eis el e)) ::
      (linesL (d + 1) b ++ linesL d eis ++ linesO d el))
  | .elseIf q ea b c => (indent d ++ firstLine (.elseIf q ea b c)) :: linesL (d + 1) b
  | .else_ q ea b => (indent d ++ firstLine (.else_ q ea b)) :: linesL (d + 1) b
  | .while_ q ea b c e => close ((indent d ++ firstLine (.while_ q ea b c e)) :: linesL (d + 1) b)
  | .for_ q ea b l ls rest r e =>
    close ((indent d ++ firstLine (.for_ q ea b l ls rest r e)) :: linesL (d + 1) b)
  | .try_ q ea b cs fi e => close ((indent d ++ firstLine (.try_ q ea b cs fi e)) ::
      (linesL (d + 1) b ++ linesL d cs ++ linesO d fi))
  | .catch_ q ea b p => (indent d ++ firstLine (.catch_ q ea b p)) :: linesL (d + 1) b
  | .finally_ q ea b => (indent d ++ firstLine (.finally_ q ea b)) :: linesL (d + 1) b
  | s => [indent d ++ firstLine s]

def linesL (d : Nat) : List Ast.Stmt → List Str
  | [] => []
  | s :: ss => lines d s ++ linesL d ss

def linesO (d : Nat) : Option Ast.Stmt → List Str
  | none => []
  | some s => lines d s

end

end

/-- Lines as text. -/
def unlines (ls : List Str) : Str := ls.flatMap fun l => l ++ ['\n']

/-- The text of a block up to its first body could end in a line break if an expression of it did; so
could a comment.  They do not. -/
def oneLine (s : Ast.Stmt) : Prop :=
  (kind s ≠ .other → (∀ e ∈ exprsOf s, '\n' ∉ (sx e).text) ∧
    ∀ ea, exArgOf s = some ea → '\n' ∉ nameOf ea) ∧
  ∀ q t, s = .comment q t → '\n' ∉ t

/-- The command of a node is known, except where it is not printed. -/
def hasCmd : Ast.Stmt → Prop
  | .comment .. | .excmd .. | .function .. => True
  | s => ∃ ea c, exArgOf s = some ea ∧ ea.cmd = some c

/-- Parts of `:if` and `:try` are where they belong, and nowhere else. -/
def wellPlaced : Ast.Stmt → Prop
  | .if_ _ _ b _ eis el _ => NoParts b ∧ (∀ x ∈ eis, kind x = .elseIf) ∧ ∀ x, el = some x → kind x = .else_
  | .try_ _ _ b cs fi _ => NoParts b ∧ (∀ x ∈ cs, kind x = .catch_) ∧ ∀ x, fi = some x → kind x = .finally_
  | .function _ _ b _ _ _ _ _ | .elseIf _ _ b _ | .else_ _ _ b | .while_ _ _ b _ _ | .for_ _ _ b _ _ _ _ _
  | .catch_ _ _ b _ | .finally_ _ _ b => NoParts b
  | _ => True

/-- Statements that can be printed. -/
def Printable (s : Ast.Stmt) : Prop := wellPlaced s ∧ hasCmd s ∧ oneLine s

/-- The last parameter of a function is `...`. -/
def dots (s : Ast.Stmt) : Prop := ((paramsOf s).map (·.name)).getLast? = some cs!"..."

/-- No line breaks, tabs or carriage returns. -/
def noCtrl (s : Str) : Prop := ∀ c ∈ s, c ≠ '\n' ∧ c ≠ '\t' ∧ c ≠ '\r'

/-- Flags and end marker of a heredoc contain no control characters. -/
def plainHere : Ast.Expr → Prop
  | .heredoc _ fl m _ => noCtrl m ∧ ∀ q k v, .basicLit q k v ∈ fl → noCtrl v
  | _ => True

/-- Functions are not defined inside other blocks. -/
def topFunction (ctx : List Kind) (s : Ast.Stmt) : Prop := kind s = .function → ctx = []

end Viml.Spec
