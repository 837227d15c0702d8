/-
Internal statement nodes, Ex command arguments and the parser's block context.
-/
import Verif.Model.Node
import Verif.Model.Commands

namespace Viml

/-- One element of `ExArg.modifiers`: a map with keys `name`, `bang`, `count`
(go/vimlparser.go:452-533). -/
structure Modifier where
  name : Str
  bang : Option Nat := none
  count : Option Nat := none
deriving DecidableEq, Repr, Inhabited

/-- `ExArg`, go/type.go:8-33.  Simplifications: the fields the parser never assigns (`addr_count`,
`line1`, `line2`, `flags`, `do_ecmd_lnum`, `regname`, `argopt`, `argcmd`) are omitted; `linepos` and
`cmdpos` are always assigned before the record is stored in a node, so they are not optional; the
pointer is a value because no field changes once a node refers to the record. -/
structure ExArg where
  forceit : Bool := false
  doEcmdCmd : Str := []
  append : Nat := 0
  usefilter : Bool := false
  amount : Nat := 0
  forceBin : Nat := 0
  readEdit : Nat := 0
  forceFf : Str := []
  forceEnc : Str := []
  badChar : Str := []
  linepos : Pos := default
  cmdpos : Pos := default
  argpos : Option Pos := none
  cmd : Option Cmd := none
  modifiers : List Modifier := []
  range : List Str := []
deriving DecidableEq, Repr, Inhabited

/-- `FuncAttr`, go/type.go:76-81 -/
structure FuncAttr where
  range : Bool := false
  abort : Bool := false
  dict : Bool := false
  closure : Bool := false
deriving DecidableEq, Repr, Inhabited

/-- `lhs`, go/type.go:83-87 -/
structure Lhs where
  left : Option VExpr := none
  list : List VExpr := []
  rest : Option VExpr := none
deriving Repr, Inhabited

/-- An end command node (`NODE_ENDIF` etc.): position and Ex argument. -/
structure EndNode where
  pos : Pos
  ea : ExArg
deriving DecidableEq, Repr, Inhabited

/-- `NODE_ECHO`, `NODE_ECHON`, `NODE_ECHOMSG`, `NODE_ECHOERR` -/
inductive EchoTy
  | echo | echon | echomsg | echoerr
deriving DecidableEq, Repr, Inhabited

/-- Statement nodes of `VimNode` (go/type.go:42-74), one constructor per statement node type with the
fields documented in go/vimlparser.go:253-291.  The `end...` pointers are optional as in Go. -/
inductive VStmt
  | comment (pos : Pos) (str : Str)
  | excmd (pos : Pos) (ea : ExArg) (str : Str)
  | function (pos : Pos) (ea : ExArg) (body : List VStmt) (left : VExpr) (rlist : List (Pos × Str))
      (defaultArgs : List VExpr) (attr : FuncAttr) (endfunction : Option EndNode)
  | delfunction (pos : Pos) (ea : ExArg) (left : VExpr)
  | return_ (pos : Pos) (ea : ExArg) (left : Option VExpr)
  | excall (pos : Pos) (ea : ExArg) (left : VExpr)
  | let_ (pos : Pos) (ea : ExArg) (op : Str) (lhs : Lhs) (right : VExpr)
  | const_ (pos : Pos) (ea : ExArg) (op : Str) (lhs : Lhs) (right : VExpr)
  | unlet (pos : Pos) (ea : ExArg) (list : List VExpr)
  | lockvar (pos : Pos) (ea : ExArg) (depth : Nat) (list : List VExpr)
  | unlockvar (pos : Pos) (ea : ExArg) (depth : Nat) (list : List VExpr)
  | if_ (pos : Pos) (ea : ExArg) (body : List VStmt) (cond : VExpr) (elseifs : List VStmt)
      (els : Option VStmt) (endif : Option EndNode)
  | elseif (pos : Pos) (ea : ExArg) (body : List VStmt) (cond : VExpr)
  | else_ (pos : Pos) (ea : ExArg) (body : List VStmt)
  | while_ (pos : Pos) (ea : ExArg) (body : List VStmt) (cond : VExpr) (endwhile : Option EndNode)
  | for_ (pos : Pos) (ea : ExArg) (body : List VStmt) (lhs : Lhs) (right : VExpr)
      (endfor : Option EndNode)
  | continue_ (pos : Pos) (ea : ExArg)
  | break_ (pos : Pos) (ea : ExArg)
  | try_ (pos : Pos) (ea : ExArg) (body : List VStmt) (catches : List VStmt)
      (fin : Option VStmt) (endtry : Option EndNode)
  | catch_ (pos : Pos) (ea : ExArg) (body : List VStmt) (pattern : Str)
  | finally_ (pos : Pos) (ea : ExArg) (body : List VStmt)
  | throw (pos : Pos) (ea : ExArg) (left : VExpr)
  | eval (pos : Pos) (ea : ExArg) (left : VExpr)
  | echo (ty : EchoTy) (pos : Pos) (ea : ExArg) (list : List VExpr)
  | echohl (pos : Pos) (ea : ExArg) (str : Str)
  | execute (pos : Pos) (ea : ExArg) (list : List VExpr)
deriving Repr, Inhabited

/-- Type and fixed fields of a node that is still open on the context stack. -/
inductive Head
  | toplevel
  | function (pos : Pos) (ea : ExArg) (left : VExpr) (rlist : List (Pos × Str))
      (defaultArgs : List VExpr) (attr : FuncAttr)
  | if_ (pos : Pos) (ea : ExArg) (cond : VExpr)
  | elseif (pos : Pos) (ea : ExArg) (cond : VExpr)
  | else_ (pos : Pos) (ea : ExArg)
  | while_ (pos : Pos) (ea : ExArg) (cond : VExpr)
  | for_ (pos : Pos) (ea : ExArg) (lhs : Lhs) (right : VExpr)
  | try_ (pos : Pos) (ea : ExArg)
  | catch_ (pos : Pos) (ea : ExArg) (pattern : Str)
  | finally_ (pos : Pos) (ea : ExArg)
deriving Repr, Inhabited

/-- A node on the context stack: its head and the mutable fields that grow while it is open. -/
structure Frame where
  head : Head
  body : List VStmt := []
  elseifs : List VStmt := []
  els : Option VStmt := none
  catches : List VStmt := []
  fin : Option VStmt := none
deriving Repr, Inhabited

/-- The finished node of a frame; `e` is what the matching end command assigned.
`toplevel` is not a statement and never closed this way (the value given is irrelevant). -/
def Frame.close (f : Frame) (e : Option EndNode) : VStmt :=
  match f.head with
  | .toplevel => .comment default []
  | .function q ea l rl da at_ => .function q ea f.body l rl da at_ e
  | .if_ q ea c => .if_ q ea f.body c f.elseifs f.els e
  | .elseif q ea c => .elseif q ea f.body c
  | .else_ q ea => .else_ q ea f.body
  | .while_ q ea c => .while_ q ea f.body c e
  | .for_ q ea l r => .for_ q ea f.body l r e
  | .try_ q ea => .try_ q ea f.body f.catches f.fin e
  | .catch_ q ea pt => .catch_ q ea f.body pt
  | .finally_ q ea => .finally_ q ea f.body

/-- Where a finished child hangs in its parent: `elseif`, `else_`, `catch`, `finally` or `body`
(go/vimlparser.go:1559, 1573, 1687, 1701, 362).  In Go the child is linked when it is opened; nothing
is added to the parent while the child is open, so linking it when it is closed is the same. -/
def Frame.attach (parent : Frame) (child : VStmt) : Frame :=
  match child with
  | .elseif .. => { parent with elseifs := parent.elseifs ++ [child] }
  | .else_ .. => { parent with els := some child }
  | .catch_ .. => { parent with catches := parent.catches ++ [child] }
  | .finally_ .. => { parent with fin := some child }
  | _ => { parent with body := parent.body ++ [child] }

/-- State of a `VimLParser` (go/type.go:107-113) other than the reader and `ea`: the context stack
(`cur` is `context[0]`) and the command cache. -/
structure PState where
  neovim : Bool
  cur : Frame
  stack : List Frame
  cache : List (Str × Option Cmd)
deriving Repr, Inhabited

/-- `add_node`, go/vimlparser.go:361-363 -/
def PState.add (st : PState) (n : VStmt) : PState :=
  { st with cur := { st.cur with body := st.cur.body ++ [n] } }

/-- `push_context` of a new node, go/type.go:126-128 -/
def PState.push (st : PState) (h : Head) : PState :=
  { st with cur := { head := h }, stack := st.cur :: st.stack }

/-- `context[0].end... = node; pop_context()`, go/type.go:130-132; popping the last element would
leave an empty slice, and the next `context[0]` would panic. -/
def PState.pop (st : PState) (e : Option EndNode) : Option PState :=
  match st.stack with
  | [] => none
  | f :: fs => some { st with cur := f.attach (st.cur.close e), stack := fs }

end Viml
