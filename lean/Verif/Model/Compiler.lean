/-
Package compiler: prints the public tree as S-expressions.  `none` is a Go panic.
-/
import Verif.Model.Export

namespace Viml
namespace Comp

/-- `strings.Join` -/
def join (sep : Str) : List Str → Str
  | [] => []
  | [x] => x
  | x :: y :: r => x ++ sep ++ join sep (y :: r)

/-- `escape`, compiler/compiler.go:495-514 -/
def escape (chars : Str) : Str → Str
  | [] => []
  | c :: r =>
    (if chars.contains c then
      if c = '\n' then cs!"\\n" else if c = '\t' then cs!"\\t" else if c = '\r' then cs!"\\r"
      else ['\\', c]
     else [c]) ++ escape chars r

mutual

/-- `compileExpr`, compiler/compiler.go:374-493 -/
def expr : Ast.Expr → Str
  | .ternary _ c l r => cs!"(?: " ++ expr c ++ cs!" " ++ expr l ++ cs!" " ++ expr r ++ cs!")"
  | .binary l _ op r =>
    cs!"(" ++ (if op.str = cs!"." then cs!"concat" else op.str) ++ cs!" " ++ expr l ++ cs!" "
      ++ expr r ++ cs!")"
  | .unary _ op x => cs!"(" ++ op.str ++ cs!" " ++ expr x ++ cs!")"
  | .subscript _ l r => cs!"(subscript " ++ expr l ++ cs!" " ++ expr r ++ cs!")"
  | .slice x _ lo hi =>
    cs!"(slice " ++ expr x ++ cs!" " ++ exprNil lo ++ cs!" " ++ exprNil hi ++ cs!")"
  | .method l m _ as =>
    cs!"(method " ++ expr l ++ cs!" (" ++ join cs!" " (expr m :: exprs as) ++ cs!"))"
  | .call f _ as =>
    if as.length > 0 then cs!"(" ++ expr f ++ cs!" " ++ join cs!" " (exprs as) ++ cs!")"
    else cs!"(" ++ expr f ++ cs!")"
  | .dot l _ r => cs!"(dot " ++ expr l ++ cs!" " ++ r.name ++ cs!")"
  | .basicLit _ _ v => v
  | .list _ vs =>
    if vs.length = 0 then cs!"(list)" else cs!"(list " ++ join cs!" " (exprs vs) ++ cs!")"
  | .dict _ kvs =>
    if kvs.length = 0 then cs!"(dict)" else cs!"(dict " ++ join cs!" " (pairs kvs) ++ cs!")"
  | .curlyName _ ps => join [] (exprs ps)
  | .curlyNameLit _ v => v
  | .curlyNameExpr _ e => cs!"{" ++ expr e ++ cs!"}"
  | .ident i => i.name
  | .lambda _ ps e =>
    cs!"(lambda (" ++ join cs!" " (ps.map (·.name)) ++ cs!") " ++ expr e ++ cs!")"
  | .heredoc _ fl m b =>
    cs!"(heredoc " ++
      (if fl.length = 0 then cs!"(list)"
       else cs!"(list " ++ join cs!" " ((exprs fl).map fun x => cs!"\"" ++ x ++ cs!"\"") ++ cs!")")
      ++ cs!" \"" ++ m ++ cs!"\" " ++
      (if b.length = 0 then cs!"(list)"
       else cs!"(list " ++
         join cs!" " ((exprs b).map fun x => cs!"\"" ++ escape cs!"\n\t\r" x ++ cs!"\"") ++ cs!")")
      ++ cs!")"
  | .paren _ x => expr x

/-- compiler/compiler.go:397-404 -/
def exprNil : Option Ast.Expr → Str
  | none => cs!"nil"
  | some e => expr e

def exprs : List Ast.Expr → List Str
  | [] => []
  | e :: es => expr e :: exprs es

/-- compiler/compiler.go:443-447 -/
def pairs : List (Ast.Expr × Ast.Expr) → List Str
  | [] => []
  | (k, v) :: kvs => (cs!"(" ++ expr k ++ cs!" " ++ expr v ++ cs!")") :: pairs kvs

end

/-- State: `buffer` and `indent`, compiler/compiler.go:22-28 -/
structure St where
  buf : Str := []
  indent : Int := 0
deriving DecidableEq, Repr, Inhabited

abbrev M := StateT St Option

/-- `strings.Repeat(c.Config.Indent, n)` with `Indent: "  "` -/
def spaces : Nat → Str
  | 0 => []
  | n + 1 => ' ' :: ' ' :: spaces n

/-- `fprint`, compiler/compiler.go:51-54; `s` is the formatted text.  `strings.Repeat` panics on a
negative count. -/
def fprint (s : Str) : M Unit := fun st =>
  if st.indent < 0 then none
  else some ((), { st with buf := st.buf ++ spaces st.indent.toNat ++ s })

/-- `fprintln`, compiler/compiler.go:47-49 -/
def fprintln (s : Str) : M Unit := fprint (s ++ ['\n'])

/-- `writeString`, compiler/compiler.go:56-58 -/
def writeString (s : Str) : M Unit := fun st => some ((), { st with buf := st.buf ++ s })

/-- `trimLineBreak`, compiler/compiler.go:60-64 -/
def trimLineBreak : M Unit := fun st =>
  some ((), { st with buf := (st.buf.reverse.dropWhile (· == '\n')).reverse })

def inc : M Unit := fun st => some ((), { st with indent := st.indent + 1 })
def dec : M Unit := fun st => some ((), { st with indent := st.indent - 1 })

/-- `fmt.Sprintf(f)` with no arguments, as in `c.fprint(c.compileExpr(n))`
(compiler/compiler.go:81).  Flags, width and precision are skipped, `%%` is a percent sign, any other
verb prints `%!v(MISSING)` and a directive cut off by the end of the string prints `%!(NOVERB)`.
Simplification: argument indexes `[n]` and `*` are treated like verbs. -/
def fmtVerb : Str → Str
  | [] => cs!"%!(NOVERB)"
  | c :: r =>
    if "+-# 0123456789.".toList.contains c then fmtVerb r
    else if c = '%' then '%' :: go r
    else cs!"%!" ++ [c] ++ cs!"(MISSING)" ++ go r
where
  go : Str → Str
    | [] => []
    | c :: r => if c = '%' then fmtVerb r else c :: go r

/-- `fmt.Sprintf(f)` without arguments -/
def sprintf0 (f : Str) : Str := fmtVerb.go f

/-- `node.Cmd().Name`: `Cmd()` dereferences `ExArg.Cmd` (ast/node.go) -/
def cmdName (ea : Ast.ExArg) : M Str := fun st =>
  match ea.cmd with
  | none => none
  | some c => some (c.name, st)

/-- The loop over parameters in `compileFunction`, compiler/compiler.go:161-168 -/
def paramStrs (ps defs : List Str) : List Str :=
  match ps with
  | [] => []
  | p :: ps' =>
    if ps.length > defs.length then p :: paramStrs ps' defs
    else
      (cs!"(" ++ p ++ cs!" " ++ (defs[defs.length - ps.length]?.getD []) ++ cs!")")
        :: paramStrs ps' defs

/-- The left-hand side in `compileLet` and `compileFor`, compiler/compiler.go:200-213, 287-300 -/
def lhsStr (left : Option Ast.Expr) (list : List Ast.Expr) (rest : Option Ast.Expr) : Str :=
  match left with
  | some e => expr e
  | none =>
    cs!"(" ++ join cs!" " (exprs list) ++
      (match rest with
       | some r => cs!" . " ++ expr r
       | none => []) ++ cs!")"

/-- `compileLockvar`, `compileUnlockvar`, compiler/compiler.go:227-251 -/
def lockStr (cmd : Str) (depth : Nat) (l : List Ast.Expr) : Str :=
  if depth > 0 then
    cs!"(" ++ cmd ++ cs!" " ++ natStr depth ++ cs!" " ++ join cs!" " (exprs l) ++ cs!")"
  else cs!"(" ++ cmd ++ cs!" " ++ join cs!" " (exprs l) ++ cs!")"

/-- The head printed by `compileFunction`, compiler/compiler.go:152-174 -/
def funcHead (name : Ast.Expr) (params : List Ast.Ident) (defs : List Ast.Expr) : M Unit := do
  fprint (cs!"(function (" ++ expr name)
  if params.length > 0 then
    fprint cs!" "
    let names := params.map (·.name)
    let ps :=
      if names.getLast? = some cs!"..." then paramStrs names.dropLast (exprs defs) ++ [cs!". ..."]
      else paramStrs names (exprs defs)
    fprint (join cs!" " ps)
  fprintln cs!")"

/-- `Ex command` one-liners `(<cmd> <args>)` -/
def simple (ea : Ast.ExArg) (args : Str) : M Bool := do
  let c ← cmdName ea
  fprintln (cs!"(" ++ c ++ cs!" " ++ args ++ cs!")")
  pure false

mutual

/-- `compile` on a statement (`compileComment`, `compileExcommand` and the functions it calls),
compiler/compiler.go:66-372.  The result says whether an error was returned. -/
def stmt : Ast.Stmt → M Bool
  | .comment _ t => do
    fprintln (cs!";" ++ t)
    pure false
  | .excmd _ _ s => do
    fprintln (cs!"(excmd \"" ++ escape cs!"\\\"" s ++ cs!"\")")
    pure false
  | .function _ _ body name params defs _ _ => do
    funcHead name params defs
    inc
    let _ ← stmts body
    trimLineBreak
    writeString cs!")\n"
    dec
    pure false
  | .delFunction _ ea name => simple ea (expr name)
  | .return_ _ ea (some e) => simple ea (expr e)
  | .return_ _ ea none => do
    let c ← cmdName ea
    fprintln (cs!"(" ++ c ++ cs!")")
    pure false
  | .exCall _ ea f lp as => simple ea (expr (.call f lp as))
  | .let_ _ ea op l ls rest r => do
    let c ← cmdName ea
    fprintln (cs!"(" ++ c ++ cs!" " ++ op ++ cs!" " ++ lhsStr l ls rest ++ cs!" " ++ expr r ++ cs!")")
    pure false
  | .unLet _ ea l => simple ea (join cs!" " (exprs l))
  | .lockVar _ ea d l => do
    let c ← cmdName ea
    fprintln (lockStr c d l)
    pure false
  | .unLockVar _ ea d l => do
    let c ← cmdName ea
    fprintln (lockStr c d l)
    pure false
  | .if_ _ ea body cond eis el _ => do
    let c ← cmdName ea
    fprintln (cs!"(" ++ c ++ cs!" " ++ expr cond)
    inc
    let _ ← stmts body
    dec
    elseIfs eis
    elseOpt el
    trimLineBreak
    writeString cs!")\n"
    pure false
  | .while_ _ ea body cond _ => do
    let c ← cmdName ea
    fprintln (cs!"(" ++ c ++ cs!" " ++ expr cond)
    inc
    let _ ← stmts body
    trimLineBreak
    writeString cs!")\n"
    dec
    pure false
  | .for_ _ ea body l ls rest r _ => do
    let c ← cmdName ea
    fprintln (cs!"(" ++ c ++ cs!" " ++ lhsStr l ls rest ++ cs!" " ++ expr r)
    inc
    let _ ← stmts body
    trimLineBreak
    writeString cs!")\n"
    dec
    pure false
  | .continue_ _ ea => do
    let c ← cmdName ea
    fprintln (cs!"(" ++ c ++ cs!")")
    pure false
  | .break_ _ ea => do
    let c ← cmdName ea
    fprintln (cs!"(" ++ c ++ cs!")")
    pure false
  | .try_ _ ea body cs fi _ => do
    let c ← cmdName ea
    fprintln (cs!"(" ++ c)
    inc
    let _ ← stmts body
    catches cs
    finallyOpt fi
    trimLineBreak
    writeString cs!")\n"
    dec
    pure false
  | .throw _ ea e => simple ea (expr e)
  | .eval _ ea e => simple ea (expr e)
  | .echoCmd _ _ ea l => simple ea (join cs!" " (exprs l))
  | .echohl _ ea s => do
    let c ← cmdName ea
    fprintln (cs!"(" ++ c ++ cs!" \"" ++ escape cs!"\\\"" s ++ cs!"\")")
    pure false
  | .execute _ ea l => simple ea (join cs!" " (exprs l))
  -- compiler/compiler.go:140-142
  | .elseIf .. => pure true
  | .else_ .. => pure true
  | .catch_ .. => pure true
  | .finally_ .. => pure true

/-- `compile` on `[]ast.Statement` and `compileFile`: stops at the first error,
compiler/compiler.go:74-79, 86-93 -/
def stmts : List Ast.Stmt → M Bool
  | [] => pure false
  | s :: ss => do
    let e ← stmt s
    if e then pure true else stmts ss

/-- Loop in `compileIf`, compiler/compiler.go:259-264; the Go field is `[]*ElseIf`, so other node
types do not occur. -/
def elseIfs : List Ast.Stmt → M Unit
  | [] => pure ()
  | .elseIf _ ea body cond :: r => do
    let c ← cmdName ea
    fprintln (cs!" " ++ c ++ cs!" " ++ expr cond)
    inc
    let _ ← stmts body
    dec
    elseIfs r
  | _ :: _ => fun _ => none

/-- compiler/compiler.go:265-270 -/
def elseOpt : Option Ast.Stmt → M Unit
  | none => pure ()
  | some (.else_ _ ea body) => do
    let c ← cmdName ea
    fprintln (cs!" " ++ c)
    inc
    let _ ← stmts body
    dec
  | some _ => fun _ => none

/-- Loop in `compileTry`, compiler/compiler.go:318-329 -/
def catches : List Ast.Stmt → M Unit
  | [] => pure ()
  | .catch_ _ ea body pt :: r => do
    dec
    let c ← cmdName ea
    if pt ≠ [] then fprintln (cs!" " ++ c ++ cs!" /" ++ pt ++ cs!"/")
    else fprintln (cs!" " ++ c)
    inc
    let _ ← stmts body
    catches r
  | _ :: _ => fun _ => none

/-- compiler/compiler.go:330-335 -/
def finallyOpt : Option Ast.Stmt → M Unit
  | none => pure ()
  | some (.finally_ _ ea body) => do
    dec
    let c ← cmdName ea
    fprintln (cs!" " ++ c)
    inc
    let _ ← stmts body
    pure ()
  | some _ => fun _ => none

end

/-- Result of `Compile`: panic, error (nothing is written) or the text written. -/
inductive Out
  | panic
  | err
  | text (s : Str)
deriving DecidableEq, Repr, Inhabited

def Out.of (r : Option (Bool × St)) : Out :=
  match r with
  | none => .panic
  | some (true, _) => .err
  | some (false, st) => .text st.buf

/-- `Compile` on an `*ast.File`, compiler/compiler.go:31-45, 68-69.
Errors of the writer are not modelled. -/
def compileFile (f : Ast.File) : Out := Out.of (stmts f.body {})

/-- `Compile` on a statement -/
def compileStmt (s : Ast.Stmt) : Out := Out.of (stmt s {})

/-- `Compile` on an expression, compiler/compiler.go:80-81 -/
def compileExpr (e : Ast.Expr) : Out :=
  Out.of ((do fprint (sprintf0 (expr e)); pure false : M Bool) {})

/-! `compileFunction` overwrites `Params` of the node it prints.  `after s` is the statement as
`Compile` leaves it (if it does not panic). -/

/-- `node.Params = node.Params[:len(node.Params)-1]`, compiler/compiler.go:158-161 -/
def cutDots (ps : List Ast.Ident) : List Ast.Ident :=
  if (ps.map (·.name)).getLast? = some cs!"..." then ps.dropLast else ps

mutual

/-- The statement after `compile`; compiler/compiler.go:66-372.  Parts of blocks are only reached
through the block they belong to, see `afterP`. -/
def after : Ast.Stmt → Ast.Stmt
  | .function q ea body name ps defs attr e =>
    .function q ea (afterL body) name (cutDots ps) defs attr e
  | .if_ q ea body c eis el e => .if_ q ea (afterL body) c (afterPs eis) (afterO el) e
  | .while_ q ea body c e => .while_ q ea (afterL body) c e
  | .for_ q ea body l ls rest r e => .for_ q ea (afterL body) l ls rest r e
  | .try_ q ea body cs fi e => .try_ q ea (afterL body) (afterPs cs) (afterO fi) e
  | s => s

/-- A list of statements after `compile`, which stops at the first one with an error
(compiler/compiler.go:74-79, 140-142) -/
def afterL : List Ast.Stmt → List Ast.Stmt
  | [] => []
  | s :: ss =>
    match s with
    | .elseIf .. | .else_ .. | .catch_ .. | .finally_ .. => s :: ss
    | _ => after s :: afterL ss

/-- A part of a block, compiler/compiler.go:259-270, 318-335 -/
def afterP : Ast.Stmt → Ast.Stmt
  | .elseIf q ea body c => .elseIf q ea (afterL body) c
  | .else_ q ea body => .else_ q ea (afterL body)
  | .catch_ q ea body p => .catch_ q ea (afterL body) p
  | .finally_ q ea body => .finally_ q ea (afterL body)
  | s => s

def afterPs : List Ast.Stmt → List Ast.Stmt
  | [] => []
  | s :: ss => afterP s :: afterPs ss

def afterO : Option Ast.Stmt → Option Ast.Stmt
  | none => none
  | some s => some (afterP s)

end

/-- The file after `Compile`, compiler/compiler.go:86-93 -/
def afterFile (f : Ast.File) : Ast.File := { f with body := afterL f.body }

end Comp
end Viml
