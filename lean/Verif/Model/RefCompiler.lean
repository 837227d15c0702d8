/-
The reference compiler: `Compiler` of go/vimlparser.go and go/type.go, which prints the internal
tree.  `none` is a Go panic.
-/
import Verif.Model.VimLParser

namespace Viml
namespace Ref

/-- `viml_join`, go/vimlfunc.go:109-116 -/
def join (sep : Str) : List Str → Str
  | [] => []
  | [x] => x
  | x :: y :: r => x ++ sep ++ join sep (y :: r)

/-- `viml_escape(s, "\\\"")`, go/vimlfunc.go:97-107 -/
def escapeQ : Str → Str
  | [] => []
  | c :: r => (if c = '\\' ∨ c = '"' then ['\\', c] else [c]) ++ escapeQ r

/-- Loop of `escape_string`, go/vimlparser.go:4301-4316 -/
def escapeNTR : Str → Str
  | [] => []
  | c :: r =>
    (if c = '\n' then cs!"\\n" else if c = '\t' then cs!"\\t" else if c = '\r' then cs!"\\r" else [c])
      ++ escapeNTR r

/-- `escape_string`, go/vimlparser.go:4301-4316 -/
def escapeString (s : Str) : Str := '"' :: (escapeNTR s ++ ['"'])

/-- The operator each `compile_<binary>` prints, go/vimlparser.go:4060-4210 -/
def binName : BinTy → Str
  | .or_ => cs!"||"
  | .and_ => cs!"&&"
  | .cmp k m =>
    (match k with
      | .equal => cs!"==" | .nequal => cs!"!=" | .greater => cs!">" | .gequal => cs!">="
      | .smaller => cs!"<" | .sequal => cs!"<=" | .match_ => cs!"=~" | .nomatch => cs!"!~"
      | .is_ => cs!"is" | .isnot => cs!"isnot") ++
    (match m with
      | .plain => [] | .ci => cs!"?" | .cs => cs!"#")
  | .add => cs!"+"
  | .subtract => cs!"-"
  | .concat => cs!"concat"
  | .multiply => cs!"*"
  | .divide => cs!"/"
  | .remainder => cs!"%"

/-- The operator each `compile_<unary>` prints, go/vimlparser.go:4212-4222 -/
def unName : UnTy → Str
  | .not_ => cs!"!"
  | .plus => cs!"+"
  | .minus => cs!"-"

/-- `(list a b ..)` as printed by `compile_list` (go/type.go:282-295) and `compile_heredoc`
(go/vimlparser.go:4329-4356) -/
def listForm (tag : Str) (xs : List Str) : Str :=
  if xs.isEmpty then cs!"(" ++ tag ++ cs!")" else cs!"(" ++ tag ++ cs!" " ++ join cs!" " xs ++ cs!")"

mutual

/-- `compile` on expression nodes, go/vimlparser.go:4056-4357 and go/type.go:278-322 -/
def expr : VExpr → Str
  | .ternary _ c l r => cs!"(?: " ++ expr c ++ cs!" " ++ expr l ++ cs!" " ++ expr r ++ cs!")"
  | .binary _ t l r => cs!"(" ++ binName t ++ cs!" " ++ expr l ++ cs!" " ++ expr r ++ cs!")"
  | .unary _ t l => cs!"(" ++ unName t ++ cs!" " ++ expr l ++ cs!")"
  | .subscript _ l r => cs!"(subscript " ++ expr l ++ cs!" " ++ expr r ++ cs!")"
  | .slice _ l lo hi =>
    cs!"(slice " ++ expr l ++ cs!" " ++ exprNil lo ++ cs!" " ++ exprNil hi ++ cs!")"
  | .method _ l r => cs!"(method " ++ expr l ++ cs!" " ++ expr r ++ cs!")"
  | .call _ f as =>
    if as.isEmpty then cs!"(" ++ expr f ++ cs!")"
    else cs!"(" ++ expr f ++ cs!" " ++ join cs!" " (exprs as) ++ cs!")"
  | .dot _ l _ n => cs!"(dot " ++ expr l ++ cs!" " ++ n ++ cs!")"
  | .atom _ _ v => v
  | .list _ vs => listForm cs!"list" (exprs vs)
  | .dict _ kvs => listForm cs!"dict" (pairs kvs)
  | .curlyname _ ps => join [] (exprs ps)
  | .curlyexpr _ e => cs!"{" ++ expr e ++ cs!"}"
  | .lambda _ ps e =>
    cs!"(lambda (" ++ join cs!" " (ps.map Prod.snd) ++ cs!") " ++ expr e ++ cs!")"
  | .paren _ e => expr e
  | .heredoc _ rl op b =>
    cs!"(heredoc " ++ listForm cs!"list" (rl.map fun x => escapeString x.2) ++ cs!" "
      ++ escapeString op ++ cs!" " ++ listForm cs!"list" (b.map fun x => escapeString x.2) ++ cs!")"

/-- An absent slice bound, go/vimlparser.go:4228-4244 -/
def exprNil : Option VExpr → Str
  | none => cs!"nil"
  | some e => expr e

def exprs : List VExpr → List Str
  | [] => []
  | e :: es => expr e :: exprs es

/-- go/type.go:307-312 -/
def pairs : List (VExpr × VExpr) → List Str
  | [] => []
  | (k, v) :: kvs => (cs!"(" ++ expr k ++ cs!" " ++ expr v ++ cs!")") :: pairs kvs

end

/-- State of the reference compiler: `indent` and `lines`, go/type.go:242-256 -/
structure St where
  indent : List Str := [[]]
  lines : List Str := []
deriving DecidableEq, Repr, Inhabited

abbrev M := StateT St Option

/-- A panic -/
def panic : M Unit := fun _ => none

/-- `out(f, args...)` with at least one argument, go/type.go:266 -/
def out (s : Str) : M Unit := fun st =>
  match st.indent with
  | [] => none
  | i :: _ => some ((), { st with lines := st.lines ++ [i ++ s] })

/-- `out(f)` without arguments, go/type.go:258-265 -/
def out0 (s : Str) : M Unit := fun st =>
  match s with
  | [] => none
  | c :: _ =>
    if c = ')' then
      match st.lines.getLast? with
      | none => none
      | some l => some ((), { st with lines := st.lines.dropLast ++ [l ++ s] })
    else
      match st.indent with
      | [] => none
      | i :: _ => some ((), { st with lines := st.lines ++ [i ++ s] })

/-- `incindent`, go/type.go:270-272 -/
def incindent (s : Str) : M Unit := fun st =>
  match st.indent with
  | [] => none
  | i :: r => some ((), { st with indent := (i ++ s) :: i :: r })

/-- `decindent`, go/type.go:274-276 (slicing an empty slice from 1 panics) -/
def decindent : M Unit := fun st =>
  match st.indent with
  | [] => none
  | _ :: r => some ((), { st with indent := r })

/-- The loop over parameters in `compile_function`, go/vimlparser.go:3775-3791: the last
`defs.length` parameters print their default value. -/
def paramStrs (ps defs : List Str) : Str :=
  match ps with
  | [] => []
  | p :: ps' =>
    if ps.length > defs.length then cs!" " ++ p ++ paramStrs ps' defs
    else
      -- `default_args[i+len(default_args)-len(rlist)]`
      cs!" (" ++ p ++ cs!" " ++ (defs[defs.length - ps.length]?.getD []) ++ cs!")"
        ++ paramStrs ps' defs

/-- The function head in `compile_function`, go/vimlparser.go:3759-3792 -/
def funcHead (left : Str) (rlist defs : List Str) : Str :=
  if rlist.isEmpty then left
  else if rlist.getLast? = some cs!"..." then
    left ++ paramStrs rlist.dropLast defs ++ cs!" . ..."
  else left ++ paramStrs rlist defs

/-- The left-hand side in `compile_let`, `compile_const`, `compile_for`,
go/vimlparser.go:3819-3838, 3841-3860, 3933-3951 -/
def lhsStr (l : Lhs) : Str :=
  match l.left with
  | some e => expr e
  | none =>
    cs!"(" ++ (join cs!" " (exprs l.list) ++
      match l.rest with
      | some r => cs!" . " ++ expr r
      | none => []) ++ cs!")"

/-- `compile_lockvar`, `compile_unlockvar`, go/vimlparser.go:3873-3901 -/
def lockStr (name : Str) (depth : Nat) (l : List VExpr) : Str :=
  if depth = 0 then cs!"(" ++ name ++ cs!" " ++ join cs!" " (exprs l) ++ cs!")"
  else cs!"(" ++ name ++ cs!" " ++ natStr depth ++ cs!" " ++ join cs!" " (exprs l) ++ cs!")"

def echoName : EchoTy → Str
  | .echo => cs!"echo" | .echon => cs!"echon" | .echomsg => cs!"echomsg" | .echoerr => cs!"echoerr"

mutual

/-- `compile` on statement nodes, go/vimlparser.go:3532-3738 and the `compile_*` functions
go/vimlparser.go:3740-4054 -/
def stmt : VStmt → M Unit
  | .comment _ s => out (cs!";" ++ s)
  | .excmd _ _ s => out (cs!"(excmd \"" ++ escapeQ s ++ cs!"\")")
  | .function _ _ body l rl da _ _ => do
    out (cs!"(function (" ++ funcHead (expr l) (rl.map Prod.snd) (exprs da) ++ cs!")")
    incindent cs!"  "
    stmts body
    out0 cs!")"
    decindent
  | .delfunction _ _ l => out (cs!"(delfunction " ++ expr l ++ cs!")")
  | .return_ _ _ none => out0 cs!"(return)"
  | .return_ _ _ (some l) => out (cs!"(return " ++ expr l ++ cs!")")
  | .excall _ _ l => out (cs!"(call " ++ expr l ++ cs!")")
  | .eval _ _ l => out (cs!"(eval " ++ expr l ++ cs!")")
  | .let_ _ _ op lhs r => out (cs!"(let " ++ op ++ cs!" " ++ lhsStr lhs ++ cs!" " ++ expr r ++ cs!")")
  | .const_ _ _ op lhs r =>
    out (cs!"(const " ++ op ++ cs!" " ++ lhsStr lhs ++ cs!" " ++ expr r ++ cs!")")
  | .unlet _ _ l => out (cs!"(unlet " ++ join cs!" " (exprs l) ++ cs!")")
  | .lockvar _ _ d l => out (lockStr cs!"lockvar" d l)
  | .unlockvar _ _ d l => out (lockStr cs!"unlockvar" d l)
  | .if_ _ _ body c eis el _ => do
    out (cs!"(if " ++ expr c)
    incindent cs!"  "
    stmts body
    decindent
    elseifs eis
    elseOpt el
    incindent cs!"  "
    out0 cs!")"
    decindent
  | .while_ _ _ body c _ => do
    out (cs!"(while " ++ expr c)
    incindent cs!"  "
    stmts body
    out0 cs!")"
    decindent
  | .for_ _ _ body lhs r _ => do
    out (cs!"(for " ++ lhsStr lhs ++ cs!" " ++ expr r)
    incindent cs!"  "
    stmts body
    out0 cs!")"
    decindent
  | .continue_ _ _ => out0 cs!"(continue)"
  | .break_ _ _ => out0 cs!"(break)"
  | .try_ _ _ body cs fi _ => do
    out0 cs!"(try"
    incindent cs!"  "
    stmts body
    catches cs
    finallyOpt fi
    out0 cs!")"
    decindent
  | .throw _ _ e => out (cs!"(throw " ++ expr e ++ cs!")")
  | .echo t _ _ l => out (cs!"(" ++ echoName t ++ cs!" " ++ join cs!" " (exprs l) ++ cs!")")
  | .echohl _ _ s => out (cs!"(echohl \"" ++ escapeQ s ++ cs!"\")")
  | .execute _ _ l => out (cs!"(execute " ++ join cs!" " (exprs l) ++ cs!")")
  -- unknown node: `viml_string` panics
  | .elseif .. => panic
  | .else_ .. => panic
  | .catch_ .. => panic
  | .finally_ .. => panic

/-- `compile_body`, go/vimlparser.go:3740-3744 -/
def stmts : List VStmt → M Unit
  | [] => pure ()
  | s :: ss => do
    stmt s
    stmts ss

/-- Loop in `compile_if`, go/vimlparser.go:3908-3913; other node types cannot be in the list -/
def elseifs : List VStmt → M Unit
  | [] => pure ()
  | .elseif _ _ body c :: r => do
    out (cs!" elseif " ++ expr c)
    incindent cs!"  "
    stmts body
    decindent
    elseifs r
  | _ :: _ => panic

/-- go/vimlparser.go:3914-3919 -/
def elseOpt : Option VStmt → M Unit
  | none => pure ()
  | some (.else_ _ _ body) => do
    out0 cs!" else"
    incindent cs!"  "
    stmts body
    decindent
  | some _ => panic

/-- Loop in `compile_try`, go/vimlparser.go:3970-3982 -/
def catches : List VStmt → M Unit
  | [] => pure ()
  | .catch_ _ _ body pt :: r => do
    decindent
    if pt.isEmpty then out0 cs!" catch" else out (cs!" catch /" ++ pt ++ cs!"/")
    incindent cs!"  "
    stmts body
    catches r
  | _ :: _ => panic

/-- go/vimlparser.go:3983-3988 -/
def finallyOpt : Option VStmt → M Unit
  | none => pure ()
  | some (.finally_ _ _ body) => do
    decindent
    out0 cs!" finally"
    incindent cs!"  "
    stmts body
  | some _ => panic

end

/-- `compile` on the top node: `compile_toplevel` of a new compiler, go/vimlparser.go:3746-3749 -/
def toplevel (f : VFile) : Option (List Str) :=
  match stmts f.body {} with
  | some (_, st) => some st.lines
  | none => none

end Ref
end Viml
