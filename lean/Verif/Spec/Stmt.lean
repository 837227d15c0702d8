/-
Specification vocabulary for statements of the public AST: parts of a statement, positions, and what
the nodes of the various commands contain.  Nothing here refers to the parser.
-/
import Verif.Spec.Expr
import Verif.Spec.Command

namespace Viml.Spec
open Viml (Str Env Cmd)

/-! ### Parts of a statement -/

/-- Kinds of statements that contain statements. -/
inductive Kind
  | function | if_ | elseIf | else_ | while_ | for_ | try_ | catch_ | finally_ | other
deriving DecidableEq, Repr

def kind : Ast.Stmt → Kind
  | .function .. => .function
  | .if_ .. => .if_
  | .elseIf .. => .elseIf
  | .else_ .. => .else_
  | .while_ .. => .while_
  | .for_ .. => .for_
  | .try_ .. => .try_
  | .catch_ .. => .catch_
  | .finally_ .. => .finally_
  | _ => .other

/-- Direct substatements. -/
def subStmts : Ast.Stmt → List Ast.Stmt
  | .function _ _ b _ _ _ _ _ => b
  | .if_ _ _ b _ eis el _ => b ++ eis ++ el.toList
  | .elseIf _ _ b _ => b
  | .else_ _ _ b => b
  | .while_ _ _ b _ _ => b
  | .for_ _ _ b _ _ _ _ _ => b
  | .try_ _ _ b cs fi _ => b ++ cs ++ fi.toList
  | .catch_ _ _ b _ => b
  | .finally_ _ _ b => b
  | _ => []

/-- `P` holds of a statement and all statements in it; its first argument lists the kinds of the
enclosing statements, innermost first. -/
inductive AllS (P : List Kind → Ast.Stmt → Prop) : List Kind → Ast.Stmt → Prop
  | mk (ctx : List Kind) (s : Ast.Stmt) : P ctx s → (∀ x ∈ subStmts s, AllS P (kind s :: ctx) x) →
      AllS P ctx s

/-- `P` holds of all statements of a file. -/
def AllF (P : List Kind → Ast.Stmt → Prop) (f : Ast.File) : Prop := ∀ s ∈ f.body, AllS P [] s

/-- The position of a statement (`Pos()` in Go). -/
def stmtPos : Ast.Stmt → Ast.Pos
  | .comment q _ => q
  | .excmd q .. | .function q .. | .delFunction q .. | .return_ q .. | .exCall q .. | .let_ q ..
  | .unLet q .. | .lockVar q .. | .unLockVar q .. | .if_ q .. | .elseIf q .. | .else_ q .. | .while_ q ..
  | .for_ q .. | .continue_ q .. | .break_ q .. | .try_ q .. | .catch_ q .. | .finally_ q .. | .throw q ..
  | .eval q .. | .echoCmd q .. | .echohl q .. | .execute q .. => q

/-- The Ex command of a statement; comments have none. -/
def exArgOf : Ast.Stmt → Option Ast.ExArg
  | .comment .. => none
  | .excmd _ ea .. | .function _ ea .. | .delFunction _ ea .. | .return_ _ ea .. | .exCall _ ea ..
  | .let_ _ ea .. | .unLet _ ea .. | .lockVar _ ea .. | .unLockVar _ ea .. | .if_ _ ea .. | .elseIf _ ea ..
  | .else_ _ ea .. | .while_ _ ea .. | .for_ _ ea .. | .continue_ _ ea .. | .break_ _ ea .. | .try_ _ ea ..
  | .catch_ _ ea .. | .finally_ _ ea .. | .throw _ ea .. | .eval _ ea .. | .echoCmd _ _ ea ..
  | .echohl _ ea .. | .execute _ ea .. => some ea

/-- The end command of a block. -/
def endOf : Ast.Stmt → Option Ast.EndCmd
  | .function _ _ _ _ _ _ _ e => some e
  | .if_ _ _ _ _ _ _ e => some e
  | .while_ _ _ _ _ e => some e
  | .for_ _ _ _ _ _ _ _ e => some e
  | .try_ _ _ _ _ _ e => some e
  | _ => none

/-- Expressions of a statement.  The call of a `:call` command is one expression. -/
def exprsOf : Ast.Stmt → List Ast.Expr
  | .function _ _ _ n _ da _ _ => n :: da
  | .delFunction _ _ n => [n]
  | .return_ _ _ r => r.toList
  | .exCall _ _ f lp as => [.call f lp as]
  | .let_ _ _ _ l ls rest r => l.toList ++ ls ++ rest.toList ++ [r]
  | .unLet _ _ ls => ls
  | .lockVar _ _ _ ls => ls
  | .unLockVar _ _ _ ls => ls
  | .if_ _ _ _ c _ _ _ => [c]
  | .elseIf _ _ _ c => [c]
  | .while_ _ _ _ c _ => [c]
  | .for_ _ _ _ l ls rest r _ => l.toList ++ ls ++ rest.toList ++ [r]
  | .throw _ _ e => [e]
  | .eval _ _ e => [e]
  | .echoCmd _ _ _ es => es
  | .execute _ _ es => es
  | .comment .. | .excmd .. | .else_ .. | .continue_ .. | .break_ .. | .try_ .. | .catch_ ..
  | .finally_ .. | .echohl .. => []

/-- Parameters of a function definition. -/
def paramsOf : Ast.Stmt → List Ast.Ident
  | .function _ _ _ _ ps _ _ _ => ps
  | _ => []

def exArgPos (ea : Ast.ExArg) : List Ast.Pos := [ea.linepos, ea.cmdpos] ++ ea.argpos.toList

/-- Positions stored in a statement itself (not in its statements and expressions). -/
def stmtOwnPos (s : Ast.Stmt) : List Ast.Pos :=
  stmtPos s :: ((exArgOf s).toList.flatMap exArgPos ++
    (endOf s).toList.flatMap (fun e => e.pos :: exArgPos e.ea) ++ (paramsOf s).map (·.pos))

def isHeredoc : Ast.Expr → Bool
  | .heredoc .. => true
  | _ => false

/-! ### Commands -/

/-- The reader is where the arguments of the command start. -/
def ArgAt (env : Env) (fn : Str) (ea : Ast.ExArg) (r : List Cell) : Prop :=
  ∃ q, ea.argpos = some q ∧ At env fn q r

/-- The reader is on the line of the command, at or after the start of its arguments. -/
def ArgIn (env : Env) (fn : Str) (ea : Ast.ExArg) (r : List Cell) : Prop :=
  ∃ ra v, ArgAt env fn ea ra ∧ Reads ra v r

/-- Commands: those of the tables, and user commands, whose name starts with a capital letter. -/
def KnownCmd (c : Cmd) : Prop :=
  c ∈ builtinCommands ∨ c ∈ neovimAdditionalCommands ∨
    ∃ u t, c.name = u :: t ∧ ('A' ≤ u ∧ u ≤ 'Z') ∧ c.minlen = 0

/-- The line of a command reads: modifiers, range, blanks and colons, the command name with bang and
blanks, arguments; the three stored positions are where the line, the name and the arguments start. -/
def LineAt (env : Env) (fn : Str) (ea : Ast.ExArg) : Prop :=
  ∃ r0 m rm g rr w rc, At env fn ea.linepos r0 ∧ Reads r0 m rm ∧ Mods r0 ea.modifiers rm ∧
    Reads rm g rr ∧ RangeText g ea.range ∧ Reads rr w rc ∧ (∀ c ∈ w, iswhite c = true ∨ c = ':') ∧
    At env fn ea.cmdpos rc ∧
    match ea.cmd with
    | none => ea.argpos = none
    | some c => KnownCmd c ∧ ∃ ra, ArgAt env fn ea ra ∧ NameAt rc c.name c.minlen ea.forceit ra

/-- The command has the name `n`. -/
def Named (ea : Ast.ExArg) (n : Str) : Prop := ∃ c, ea.cmd = some c ∧ c.name = n

/-- Names of the commands that define a node. -/
def cmdNames : Ast.Stmt → List Str
  | .function .. => [cs!"function"]
  | .delFunction .. => [cs!"delfunction"]
  | .return_ .. => [cs!"return"]
  | .exCall .. => [cs!"call"]
  | .let_ .. => [cs!"let", cs!"const"]
  | .unLet .. => [cs!"unlet"]
  | .lockVar .. => [cs!"lockvar"]
  | .unLockVar .. => [cs!"unlockvar"]
  | .if_ .. => [cs!"if"]
  | .elseIf .. => [cs!"elseif"]
  | .else_ .. => [cs!"else"]
  | .while_ .. => [cs!"while"]
  | .for_ .. => [cs!"for"]
  | .continue_ .. => [cs!"continue"]
  | .break_ .. => [cs!"break"]
  | .try_ .. => [cs!"try"]
  | .catch_ .. => [cs!"catch"]
  | .finally_ .. => [cs!"finally"]
  | .throw .. => [cs!"throw"]
  | .eval .. => [cs!"eval"]
  | .echoCmd .. => [cs!"echo", cs!"echon", cs!"echomsg", cs!"echoerr"]
  | .echohl .. => [cs!"echohl"]
  | .execute .. => [cs!"execute"]
  | .comment .. | .excmd .. => []

/-- Commands that never give a raw command node. -/
def nodeOnly : List Str :=
  [cs!"delfunction", cs!"return", cs!"call", cs!"unlet", cs!"lockvar", cs!"unlockvar", cs!"if",
    cs!"elseif", cs!"else", cs!"endif", cs!"while", cs!"endwhile", cs!"for", cs!"endfor", cs!"continue",
    cs!"break", cs!"try", cs!"catch", cs!"finally", cs!"endtry", cs!"throw", cs!"eval", cs!"echo",
    cs!"echon", cs!"echomsg", cs!"echoerr", cs!"echohl", cs!"execute", cs!"endfunction"]

/-- A node belongs to the command it is named after. -/
def nameOK : Ast.Stmt → Prop
  | .comment .. => True
  | .excmd _ ea _ => ∀ c, ea.cmd = some c → c.name ∉ nodeOnly
  | .echoCmd _ n ea _ => Named ea n ∧ n ∈ [cs!"echo", cs!"echon", cs!"echomsg", cs!"echoerr"]
  | s => ∃ ea n, exArgOf s = some ea ∧ Named ea n ∧ n ∈ cmdNames s

/-! ### Blocks -/

/-- Parts of `:if` and `:try`. -/
def isPart : Kind → Bool
  | .elseIf | .else_ | .catch_ | .finally_ => true
  | _ => false

def NoParts (l : List Ast.Stmt) : Prop := ∀ x ∈ l, isPart (kind x) = false

/-- Bodies contain no parts, parts hang where they belong, and the end command is the right one. -/
def partsOK : Ast.Stmt → Prop
  | .function _ _ b _ _ _ _ e => NoParts b ∧ Named e.ea cs!"endfunction"
  | .if_ _ _ b _ eis el e => NoParts b ∧ (∀ x ∈ eis, kind x = .elseIf) ∧
      (∀ x, el = some x → kind x = .else_) ∧ Named e.ea cs!"endif"
  | .elseIf _ _ b _ => NoParts b
  | .else_ _ _ b => NoParts b
  | .while_ _ _ b _ e => NoParts b ∧ Named e.ea cs!"endwhile"
  | .for_ _ _ b _ _ _ _ e => NoParts b ∧ Named e.ea cs!"endfor"
  | .try_ _ _ b cs fi e => NoParts b ∧ (∀ x ∈ cs, kind x = .catch_) ∧
      (∀ x, fi = some x → kind x = .finally_) ∧ Named e.ea cs!"endtry"
  | .catch_ _ _ b _ => NoParts b
  | .finally_ _ _ b => NoParts b
  | _ => True

/-- `:return` is inside a function, `:break` and `:continue` are inside a loop. -/
def ctxOK (ctx : List Kind) : Ast.Stmt → Prop
  | .return_ .. => .function ∈ ctx
  | .break_ .. | .continue_ .. => .while_ ∈ ctx ∨ .for_ ∈ ctx
  | _ => True

/-! ### Assignment targets -/

/-- Characters of a variable name after the first. -/
def varChar (c : Char) : Bool := isalnum c || c == '_' || c == '#'

/-- Variable names: a scope prefix alone, or a name with an optional scope prefix. -/
def VarName (v : Str) : Prop :=
  (∃ s, v = [s, ':'] ∧ s ∈ cs!"vgslabwt") ∨
  ∃ pre c t, v = pre ++ c :: t ∧ (pre = [] ∨ ∃ s, pre = [s, ':'] ∧ s ∈ cs!"vgslabwt") ∧
    (isalpha c = true ∨ c = '_') ∧ ∀ x ∈ t, varChar x = true

/-- What may be assigned to. -/
def target : Ast.Expr → Prop
  | .ident i => VarName i.name
  | .basicLit _ k _ => k = .OPTION ∨ k = .ENV ∨ k = .REG
  | .curlyName .. | .subscript .. | .slice .. | .dot .. => True
  | _ => False

/-- What may be defined or deleted as a function. -/
def funcTarget : Ast.Expr → Prop
  | .ident .. | .curlyName .. | .subscript .. | .dot .. => True
  | .basicLit _ k _ => k = .OPTION ∨ k = .ENV ∨ k = .REG
  | _ => False

/-- A left-hand side is one target or a non-empty list of targets with an optional rest. -/
def LhsShape (l : Option Ast.Expr) (ls : List Ast.Expr) (rest : Option Ast.Expr) : Prop :=
  (∃ e, l = some e ∧ ls = [] ∧ rest = none ∧ target e) ∨
  (l = none ∧ ls ≠ [] ∧ (∀ e ∈ ls, target e) ∧ ∀ e, rest = some e → target e)

def targetsOK : Ast.Stmt → Prop
  | .function _ _ _ n _ _ _ _ => funcTarget n ∧ ∀ i, n = .ident i → ∃ c t, i.name = c :: t ∧
      (c = '<' ∨ c = '_' ∨ isupper c = true ∨ ':' ∈ c :: t ∨ '#' ∈ c :: t)
  | .delFunction _ _ n => funcTarget n
  | .let_ _ ea _ l ls rest _ => LhsShape l ls rest ∧ (Named ea cs!"const" → ∀ e, l = some e →
      (∃ i, e = .ident i) ∨ ∃ q ps, e = .curlyName q ps)
  | .for_ _ _ _ l ls rest _ _ => LhsShape l ls rest
  | .unLet _ _ ls => ∃ e l', ls = e :: l' ∧ ∀ x ∈ l', target x
  | .lockVar _ _ _ ls => ∃ e l', ls = e :: l' ∧ ∀ x ∈ l', target x
  | .unLockVar _ _ _ ls => ∃ e l', ls = e :: l' ∧ ∀ x ∈ l', target x
  | _ => True

/-! ### Function signatures -/

/-- The parameter at its position, followed by blanks and one of the characters `cs`. -/
def ParamAt (env : Env) (fn : Str) (i : Ast.Ident) (cs : Str) : Prop :=
  ∃ r r1 w r2 c, At env fn i.pos r ∧ Reads r i.name r1 ∧ Reads r1 w r2 ∧ White w ∧
    headSym r2 = .ch c ∧ c ∈ cs

/-- Parameters without default, then parameters with default (as many as default values), then
possibly `...`, which is nowhere else. -/
def DefaultsTail (env : Env) (fn : Str) (ps : List Ast.Ident) (da : List Ast.Expr) : Prop :=
  ∃ a b d, ps = a ++ b ++ d ∧ b.length = da.length ∧ (d = [] ∨ d.map (·.name) = [cs!"..."]) ∧
    (∀ i ∈ a, ParamAt env fn i cs!",)") ∧ (∀ i ∈ b, ParamAt env fn i cs!"=") ∧
    (∀ i ∈ d, ParamAt env fn i cs!")") ∧ ∀ i ∈ a ++ b, i.name ≠ cs!"..."

/-- Parameter names: distinct, not `firstline` or `lastline`, `...` only at the end. -/
def FuncParams (ps : List Str) : Prop := Params ps ∧ cs!"firstline" ∉ ps ∧ cs!"lastline" ∉ ps

/-- The attributes are the words after the parameters. -/
def AttrsAt (env : Env) (fn : Str) (ea : Ast.ExArg) (at_ : FuncAttr) : Prop :=
  ∃ rp v r ks r' w r1, ArgIn env fn ea rp ∧ Reads rp ('(' :: v ++ [')']) r ∧ AttrWords r ks r' ∧
    Reads r' w r1 ∧ White w ∧ (headSym r1).is isalpha = false ∧
    (∀ k ∈ ks, k ∈ [cs!"range", cs!"abort", cs!"dict", cs!"closure"]) ∧
    (at_.range = true ↔ cs!"range" ∈ ks) ∧ (at_.abort = true ↔ cs!"abort" ∈ ks) ∧
    (at_.dict = true ↔ cs!"dict" ∈ ks) ∧ (at_.closure = true ↔ cs!"closure" ∈ ks)

def sigOK (env : Env) (fn : Str) : Ast.Stmt → Prop
  | .function _ ea _ _ ps da at_ _ => FuncParams (ps.map (·.name)) ∧ DefaultsTail env fn ps da ∧
      AttrsAt env fn ea at_
  | _ => True

/-! ### Text -/

/-- Commands of external script languages. -/
def scriptCmds : List Str :=
  [cs!"lua", cs!"mzscheme", cs!"perl", cs!"py3", cs!"python", cs!"python3", cs!"ruby", cs!"tcl"]

/-- The text from the start of the line to a place where only blanks are left before the end of the
line, a bar or a comment. -/
def OneLine (r : List Cell) (s : Str) : Prop := ∃ r', Reads r s r' ∧ RawEnd r'

/-- Text of a raw command, which starts at `Linepos`. -/
def rawText (env : Env) (fn : Str) (ea : Ast.ExArg) (s : Str) : Prop :=
  ∃ r, At env fn ea.linepos r ∧
    match ea.cmd with
    | none => (ea.modifiers ≠ [] ∨ ea.range ≠ []) ∧ OneLine r s
    | some c =>
      if c.name ∈ [cs!"append", cs!"insert"] then ∃ line r', BlockAt r line cs!"." s r'
      else if c.name = cs!"loadkeymap" then ∃ ls, Lines r ls [] ∧ s = List.intercalate ['\n'] ls
      else if c.name ∈ scriptCmds then
        (∃ line m r', Marker line m ∧ BlockAt r line m s r') ∨
        OneLine r s ∧ ∃ ra w r1, ArgAt env fn ea ra ∧ Reads ra w r1 ∧ White w ∧
          (headSym r1).is iswhite = false ∧ ∀ r2, ¬ Reads r1 cs!"<<" r2
      else OneLine r s

/-- Strings of a heredoc with their positions. -/
def strNodes (fn : Str) (l : List (Pos × Str)) : List Ast.Expr :=
  l.map fun x => .basicLit (pubPos fn x.1) .STRING x.2

/-- A heredoc: flags, end marker and lines stand in the source from `=<<` on. -/
def hereText (env : Env) (fn : Str) (ea : Ast.ExArg) : Ast.Expr → Prop
  | .heredoc q fl m b => q = ea.cmdpos ∧ ∃ r r' fl' b', ArgIn env fn ea r ∧ HereAt env r fl' m b' r' ∧
      fl = strNodes fn fl' ∧ b = strNodes fn b'
  | _ => False

/-- The number after `:lockvar`. -/
def depthText (env : Env) (fn : Str) (ea : Ast.ExArg) (d : Nat) : Prop :=
  ∃ r w ds r', ArgAt env fn ea r ∧ Reads r (w ++ ds) r' ∧ White w ∧ (∀ c ∈ ds, isdigit c = true) ∧
    (headSym r').is isdigit = false ∧ d = decVal ds

/-- The text kept in a node stands in the source. -/
def textOK (env : Env) (fn : Str) : Ast.Stmt → Prop
  | .comment q t => ∃ r r', At env fn q r ∧ Reads r ('"' :: t) r' ∧ AtEnd r'
  | .excmd _ ea s => rawText env fn ea s
  | .let_ _ ea op _ _ _ r =>
      if isHeredoc r then op = cs!"=<<" ∧ Named ea cs!"let" ∧ hereText env fn ea r
      else (op ∈ letOps ∧ (Named ea cs!"const" → op = cs!"=")) ∧
        ∃ r1 r2, ArgIn env fn ea r1 ∧ Reads r1 op r2
  | .lockVar _ ea d ls => depthText env fn ea d ∧ ∀ e ∈ ls, isHeredoc e = false
  | .unLockVar _ ea d ls => depthText env fn ea d ∧ ∀ e ∈ ls, isHeredoc e = false
  | .echohl _ ea n => ∃ r r', ArgAt env fn ea r ∧ Reads r n r' ∧ AtStop r'
  | .catch_ _ ea _ p => ∃ ra w r, ArgAt env fn ea ra ∧ Reads ra w r ∧ White w ∧
      (p = [] ∧ AtStop r ∨ ∃ r', PatAt r p r')
  | s => ∀ e ∈ exprsOf s, isHeredoc e = false

end Viml.Spec
