/-
The errors of Vim script files: which text is no script, what the message is and where it points.

A script is wrong if correct lines, in which some blocks may still be open (`Front`), are followed by a line that
cannot stand there (`LineErr`), or by the end of the file although a block is open.  It follows the grammar of
`Spec/File.lean`; the errors of expressions are those of `Spec/ExprError.lean`.  Nothing here refers to the parser.
-/
import Verif.Spec.ExprError
import Verif.Spec.Order

namespace Viml.Spec

/-- `q` is the place in the source with the public position `p`. -/
def PlaceOf (env : Env) (fn : Str) (p : Ast.Pos) (q : Pos) : Prop := ∃ r, r <:+ env.buf ∧ here env fn r = p ∧ posOf env r = q

/-- The next character of the line, if there is one. -/
def nextChar (r : List Cell) : Str := match headSym r with | .ch c => [c] | _ => []

/-! ### Patterns and ranges -/

def e682 : Str := cs!"E682: Invalid search pattern or delimiter"
def e10 : Str := cs!"E10: \\\\ should be followed by /, ? or &"

/-- A pattern that ends with the line in a backslash; `q` is the end of the line. -/
inductive PatErr (env : Env) (d : Char) : Int → List Cell → Pos → Prop
  | last {n r r1} : Reads r ['\\'] r1 → ¬ ('\\' = d ∧ n = 0) → AtEnd r1 → PatErr env d n r (posOf env r1)
  | esc {n r c r1 q} : Reads r ['\\', c] r1 → ¬ ('\\' = d ∧ n = 0) → PatErr env d n r1 q → PatErr env d n r q
  | char {n r c r1 q} : Reads r [c] r1 → c ≠ '\\' → ¬ (c = d ∧ n = 0) → PatErr env d (n + bracket c) r1 q →
      PatErr env d n r q

/-- An address is wrong. -/
inductive AddressErr (env : Env) : List Cell → Str → Pos → Prop
  | pat {r d r1 q} : d = '/' ∨ d = '?' → Reads r [d] r1 → PatErr env d 0 r1 q → AddressErr env r e682 q
  | prev {r r1} : Reads r ['\\'] r1 → headSym r1 ≠ .ch '&' → headSym r1 ≠ .ch '?' → headSym r1 ≠ .ch '/' →
      AddressErr env r e10 (posOf env r)

/-- Addresses up to a separator are wrong. -/
inductive AddressesErr (env : Env) : List Cell → Str → Pos → Prop
  | first {r r1 m q} : Skip r r1 → AddressErr env r1 m q → AddressesErr env r m q
  | more {r r1 a r2 os r3 m q} : Skip r r1 → ¬ AtEnd r1 → Address r1 a r2 → Offsets r2 os r3 →
      headSym r3 = .ch '/' ∨ headSym r3 = .ch '?' → AddressesErr env r3 m q → AddressesErr env r m q

/-- A range is wrong. -/
inductive RangeErr (env : Env) : List Cell → Str → Pos → Prop
  | first {r m q} : AddressesErr env r m q → RangeErr env r m q
  | more {r as r1 w r2 c r3 m q} : Addresses r as r1 → WholeFile r1 w r2 → c = ';' ∨ c = ',' → Reads r2 [c] r3 →
      RangeErr env r3 m q → RangeErr env r m q

/-! ### The start of a command -/

/-- One of several `++opt` arguments is wrong. -/
inductive ArgOptsErr (env : Env) : List Cell → Pos → Prop
  | here {r} : StartsWith r cs!"++" → (∀ ea ea' r', ¬ ArgOpt ea r ea' r') → ArgOptsErr env r (posOf env r)
  | more {ea r ea' r1 r2 q} : ArgOpt ea r ea' r1 → Skip r1 r2 → ArgOptsErr env r2 q → ArgOptsErr env r q

/-- A command line at `r` with the command `c` at `rc`, followed by `r1`. -/
def NamedAt (nv : Bool) (used : List Str) (r r0 : List Cell) (ms : List Modifier) (rg : List Str) (rc : List Cell)
    (c : Cmd) (r1 : List Cell) (used' : List Str) : Prop :=
  Before r r0 ms rg rc ∧ ¬ AtEnd rc ∧ headSym rc ≠ .ch '"' ∧ CmdName nv used rc c r1 used'

/-- The same up to the place `ra` of the arguments. -/
def ArgsAt (nv : Bool) (env : Env) (fn : Str) (used : List Str) (r r0 rc : List Cell) (ea : Ast.ExArg) (c : Cmd)
    (ra : List Cell) (used' : List Str) : Prop :=
  ∃ ms rg r1 b r2, NamedAt nv used r r0 ms rg rc c r1 used' ∧ Bang c r1 b r2 ∧
    (c.name = cs!"!" ∧ ra = r2 ∨ c.name ≠ cs!"!" ∧ Skip r2 ra) ∧
    ea = { forceit := b, linepos := here env fn r0, cmdpos := here env fn rc, argpos := some (here env fn ra),
           cmd := some c, modifiers := ms, range := rg }

/-- The same with options, up to the rest `r'` of the arguments. -/
def HeadAt (nv : Bool) (env : Env) (fn : Str) (used : List Str) (r r0 rc : List Cell) (ea : Ast.ExArg) (c : Cmd)
    (ra r' : List Cell) (used' : List Str) : Prop :=
  ∃ ea0, ArgsAt nv env fn used r r0 rc ea0 c ra used' ∧ Options c ea0 ra ea r'

/-- The start of a command line is wrong. -/
inductive HeadErr (nv : Bool) (env : Env) (fn : Str) (used : List Str) : List Cell → Str → Pos → Prop
  | range {r r0 ms r1 m q} : ¬ StartsWith r cs!"#!" → SkipC r r0 → ¬ AtEnd r0 → headSym r0 ≠ .ch '"' → Mods r0 ms r1 →
      CountsOK ms → RangeErr env r1 m q → HeadErr nv env fn used r m q
  | name {r r0 ms rg rc l r'} : Before r r0 ms rg rc → ¬ AtEnd rc → headSym rc ≠ .ch '"' →
      (∀ c r1 used', ¬ CmdName nv used rc c r1 used') → RestOf rc l r' →
      HeadErr nv env fn used r (cs!"E492: Not an editor command: " ++ l) (posOf env rc)
  | bang {r r0 rc r1 r2 : List Cell} {ms rg used'} {c : Cmd} : NamedAt nv used r r0 ms rg rc c r1 used' → Reads r1 ['!'] r2 →
      c.name ∉ [cs!"substitute", cs!"smagic", cs!"snomagic"] → .BANG ∉ c.flags → .USERCMD ∉ c.flags →
      HeadErr nv env fn used r cs!"E477: No ! allowed" (posOf env rc)
  | argOpt {r r0 rc ra : List Cell} {ea used' q} {c : Cmd} : ArgsAt nv env fn used r r0 rc ea c ra used' → .ARGOPT ∈ c.flags →
      ArgOptsErr env ra q → HeadErr nv env fn used r cs!"E474: Invalid Argument" q
  | write {r r0 rc ra r1 r2 : List Cell} {ea used' ea1} {c : Cmd} : ArgsAt nv env fn used r r0 rc ea c ra used' →
      .ARGOPT ∈ c.flags ∧ ArgOpts ea ra ea1 r1 ∨ .ARGOPT ∉ c.flags ∧ r1 = ra →
      c.name = cs!"write" ∨ c.name = cs!"update" → Reads r1 ['>'] r2 → headSym r2 ≠ .ch '>' →
      HeadErr nv env fn used r cs!"E494: Use w or w>>" (posOf env rc)

/-! ### Text of raw commands -/

/-- The pattern of `:vimgrep` is wrong. -/
inductive GrepErr (env : Env) : List Cell → Pos → Prop
  | mk {r d r1 q} : iswordc d = false → Reads r [d] r1 → PatErr env d 0 r1 q → GrepErr env r q

/-- The text of a raw command, after the character `pc`, contains a wrong `` `=expr` ``. -/
inductive RawRunErr (env : Env) (fn : Str) (c : Cmd) (ra : List Cell) : Option Char → List Cell → Str → Pos → Prop
  | expr {pc r r1 m q} : takesFiles c → Reads r cs!"`=" r1 → GErr env fn 1 r1 m q → RawRunErr env fn c ra pc r m q
  | close {pc r r1 x r2} : takesFiles c → Reads r cs!"`=" r1 → Gram env fn 1 r1 x r2 → headSym r2 ≠ .ch '`' →
      RawRunErr env fn c ra pc r (cs!"unexpected character: " ++ nextChar r2) (posOf env r2)
  | ctrlV {pc r r1 d r2 m q} : Reads r ['\x16'] r1 → Reads r1 [d] r2 → RawRunErr env fn c ra (some d) r2 m q →
      RawRunErr env fn c ra pc r m q
  | more {pc r r1 x r2 r3 m q} : takesFiles c → Reads r cs!"`=" r1 → Gram env fn 1 r1 x r2 → Reads r2 ['`'] r3 →
      RawRunErr env fn c ra (some '`') r3 m q → RawRunErr env fn c ra pc r m q
  | char {pc r d r1 m q} : Reads r [d] r1 → d ≠ '\x16' → ¬ (takesFiles c ∧ StartsWith r cs!"`=") →
      (EndsRaw c ra pc r → pc = some '\\') → RawRunErr env fn c ra (some d) r1 m q → RawRunErr env fn c ra pc r m q

/-- The text of a raw command is wrong: only commands that can be followed by a bar have such errors. -/
inductive RawErr (env : Env) (fn : Str) (c : Cmd) (filter : Bool) (ra : List Cell) : List Cell → Str → Pos → Prop
  | pat {r q} : .TRLBAR ∈ c.flags → filter = false → c.name ∈ grepCmds → GrepErr env r q →
      RawErr env fn c filter ra r e682 q
  | run {r r1 m q} : .TRLBAR ∈ c.flags → filter = false → (c.name ∈ grepCmds → GrepPat r r1) →
      (c.name ∉ grepCmds → r1 = r) → RawRunErr env fn c ra none r1 m q → RawErr env fn c filter ra r m q

/-- The argument of `:wincmd` is wrong. -/
inductive WinErr (env : Env) : List Cell → Str → Pos → Prop
  | none {r} : AtEnd r → WinErr env r cs!"E471: Argument required" (posOf env r)
  | second {r c r1} : Reads r [c] r1 → c = 'g' ∨ c = '\x07' → AtEnd r1 →
      WinErr env r cs!"E474: Invalid Argument" (posOf env r1)
  | blank {r c d r1} : Reads r [c, d] r1 → c = 'g' ∨ c = '\x07' → iswhite d = true →
      WinErr env r cs!"E474: Invalid Argument" (posOf env r1)
  | trail {r r1 r2} : WinArg r r1 → Skip r1 r2 → ¬ AtStop r2 → WinErr env r cs!"E474: Invalid Argument" (posOf env r2)

/-- The arguments of `:syntax` contain a wrong pattern. -/
inductive SynErr (env : Env) : List Cell → Pos → Prop
  | pat {r d r1 q} : d = '/' ∨ d = '\'' ∨ d = '"' → Reads r [d] r1 → PatErr env d 0 r1 q → SynErr env r q
  | patMore {r d r1 p e r2 r3 q} : d = '/' ∨ d = '\'' ∨ d = '"' → Reads r [d] r1 → Pat d 0 r1 p e r2 → Drop r2 r3 →
      SynErr env r3 q → SynErr env r q
  | eq {r r1 q} : Reads r ['='] r1 → PatErr env ' ' 0 r1 q → SynErr env r q
  | eqMore {r r1 p e r2 r3 q} : Reads r ['='] r1 → Pat ' ' 0 r1 p e r2 → Drop r2 r3 → SynErr env r3 q → SynErr env r q
  | char {r c r1 q} : Reads r [c] r1 → c ∉ cs!"/'\"=|" → SynErr env r1 q → SynErr env r q

/-- What follows a command is neither the end of the line nor a bar nor a comment. -/
inductive TrailErr (env : Env) : List Cell → Str → Pos → Prop
  | mk {r r1 c} : Skip r r1 → headSym r1 = .ch c → c ≠ '|' → c ≠ '"' →
      TrailErr env r (cs!"E488: Trailing characters: " ++ [c]) (posOf env r1)

/-! ### Assignment targets -/

/-- A token of type `ty`, followed by `r`, can start an assignment target. -/
def LvOperand (ty : TT) (r : List Cell) : Prop :=
  ty = .option ∨ ty = .env ∨ ty = .reg ∨ ty = .identifier ∨ ty = .copen ∨
  (ty = .cmp .smaller .plain ∧ ∃ v r', Reads r v r' ∧ equalci v cs!"SID>" = true)

/-- A target without its first error in subscripts: there is no correct start, or a subscript is wrong. -/
inductive LvErr (env : Env) (fn : Str) : List Cell → Str → Pos → Prop
  | lex {r m q} : LexErr env r m q → LvErr env fn r m q
  | token {r t r'} : Lex env r t r' → ¬ LvOperand t.ty r' →
      LvErr env fn r (cs!"unexpected token: " ++ t.value) t.pos
  | name {r r1 m q} : Next env r (fun ty => ty = .identifier ∨ ty = .copen) → Blanks r r1 → NameErr env fn r1 m q →
      LvErr env fn r m q
  | sid {r r1 v r2 m q} : Blanks r r1 → Reads r1 v r2 → equalci v cs!"<SID>" = true → NameErr env fn r2 m q →
      LvErr env fn r m q
  | after {r e r1 m q} : LvChain env fn r e r1 → LexErr env r1 m q → LvErr env fn r m q
  | subscript {r e r1 q0 r2 m q} : LvChain env fn r e r1 → (headSym r1).is iswhite = false →
      Mark env fn r1 .sqopen q0 r2 → SubErr env fn r2 m q → LvErr env fn r m q

/-- What `:let` cannot assign to. -/
inductive TargetErr (env : Env) (fn : Str) : List Cell → Str → Pos → Prop
  | lv {r m q} : LvErr env fn r m q → TargetErr env fn r m q
  | name {r i r' q} : Lv env fn r (.ident i) r' → ¬ VarName i.name → PlaceOf env fn i.pos q →
      TargetErr env fn r (cs!"E461: Illegal variable name: " ++ i.name) q

/-- What `:const` cannot define. -/
inductive Unlockable : Ast.Expr → Str → Prop
  | subscript {p l x} : Unlockable (.subscript p l x) cs!"E996: Cannot lock a list or dict"
  | slice {l p a b} : Unlockable (.slice l p a b) cs!"E996: Cannot lock a list or dict"
  | dot {l p i} : Unlockable (.dot l p i) cs!"E996: Cannot lock a list or dict"
  | option {p v} : Unlockable (.basicLit p .OPTION v) cs!"E996: Cannot lock an option"
  | env {p v} : Unlockable (.basicLit p .ENV v) cs!"E996: Cannot lock an environment variable"
  | reg {p v} : Unlockable (.basicLit p .REG v) cs!"E996: Cannot lock a register"

inductive ConstErr (env : Env) (fn : Str) : List Cell → Str → Pos → Prop
  | target {r m q} : TargetErr env fn r m q → ConstErr env fn r m q
  | kind {r e r' m q} : Lv env fn r e r' → Unlockable e m → PlaceOf env fn (nodePos e) q → ConstErr env fn r m q

/-- What cannot be defined or deleted as a function. -/
inductive FuncNameErr (env : Env) (fn : Str) : List Cell → Str → Pos → Prop
  | lv {r m q} : LvErr env fn r m q → FuncNameErr env fn r m q
  | kind {r e r' q} : Lv env fn r e r' → ¬ funcTarget e → PlaceOf env fn (nodePos e) q →
      FuncNameErr env fn r cs!"Invalid Expression" q

/-- The next token, after a target in brackets, is not one of `p`. -/
inductive ListWant (env : Env) (p : TT → Prop) : List Cell → Str → Pos → Prop
  | lex {r m q} : LexErr env r m q → ListWant env p r m q
  | token {r t r'} : Lex env r t r' → ¬ p t.ty → ListWant env p r (cs!"E475 Invalid argument: " ++ t.value) t.pos

/-- A bracketed list of targets is wrong. -/
inductive TargetListErr (env : Env) (fn : Str) : List Cell → Str → Pos → Prop
  | target {r m q} : TargetErr env fn r m q → TargetListErr env fn r m q
  | sep {r e r1 m q} : Target env fn r e r1 →
      ListWant env (fun ty => ty = .sqclose ∨ ty = .comma ∨ ty = .semicolon) r1 m q → TargetListErr env fn r m q
  | more {r e r1 q0 r2 m q} : Target env fn r e r1 → Mark env fn r1 .comma q0 r2 → TargetListErr env fn r2 m q →
      TargetListErr env fn r m q
  | rest {r e r1 q0 r2 m q} : Target env fn r e r1 → Mark env fn r1 .semicolon q0 r2 → TargetErr env fn r2 m q →
      TargetListErr env fn r m q
  | close {r e r1 q0 r2 x r3 m q} : Target env fn r e r1 → Mark env fn r1 .semicolon q0 r2 → Target env fn r2 x r3 →
      ListWant env (· = .sqclose) r3 m q → TargetListErr env fn r m q

/-- A left-hand side is wrong; `S` are the errors of a single target. -/
inductive LhsErr (env : Env) (fn : Str) (S : List Cell → Str → Pos → Prop) : List Cell → Str → Pos → Prop
  | lex {r m q} : LexErr env r m q → LhsErr env fn S r m q
  | one {r m q} : Next env r (· ≠ .sqopen) → S r m q → LhsErr env fn S r m q
  | list {r q0 r1 m q} : Mark env fn r .sqopen q0 r1 → TargetListErr env fn r1 m q → LhsErr env fn S r m q

/-- Targets separated by blanks are wrong. -/
inductive TargetsErr (env : Env) (fn : Str) : List Cell → Str → Pos → Prop
  | first {r r1 m q} : Skip r r1 → ¬ AtStop r1 → TargetErr env fn r1 m q → TargetsErr env fn r m q
  | more {r r1 e r2 m q} : Skip r r1 → ¬ AtStop r1 → Target env fn r1 e r2 → TargetsErr env fn r2 m q →
      TargetsErr env fn r m q

/-- The arguments of `:unlet` and `:lockvar` are wrong. -/
inductive LockErr (env : Env) (fn : Str) : List Cell → Str → Pos → Prop
  | first {r m q} : GErr env fn 1 r m q → LockErr env fn r m q
  | more {r e r1 m q} : Gram env fn 1 r e r1 → TargetsErr env fn r1 m q → LockErr env fn r m q

/-- Expressions separated by blanks are wrong. -/
inductive ExprsErr (env : Env) (fn : Str) : List Cell → Str → Pos → Prop
  | first {r r1 m q} : Skip r r1 → ¬ (AtEnd r1 ∨ headSym r1 = .ch '|') → GErr env fn 1 r1 m q → ExprsErr env fn r m q
  | more {r r1 e r2 m q} : Skip r r1 → ¬ (AtEnd r1 ∨ headSym r1 = .ch '|') → Gram env fn 1 r1 e r2 →
      ExprsErr env fn r2 m q → ExprsErr env fn r m q

/-! ### Functions -/

/-- A token that can be the name of a parameter other than those in `used`. -/
def ParamName (used : List Str) (t : Token) : Prop :=
  t.ty = .identifier ∧ isargname t.value = true ∧ t.value ∉ cs!"firstline" :: cs!"lastline" :: used

/-- Parameters are wrong; `used` are the names before, `d` says that one of them has a default value. -/
inductive ParamListErr (env : Env) (fn : Str) : List Str → Bool → List Cell → Str → Pos → Prop
  | token {used d r m q} : Want env r (fun ty => ty = .identifier ∨ ty = .dotdotdot) m q →
      ParamListErr env fn used d r m q
  | illegal {used d r t r'} : Lex env r t r' → t.ty = .identifier →
      isargname t.value = false ∨ t.value = cs!"firstline" ∨ t.value = cs!"lastline" →
      ParamListErr env fn used d r (cs!"E125: Illegal argument: " ++ t.value) t.pos
  | twice {used d r t r'} : Lex env r t r' → t.ty = .identifier → isargname t.value = true →
      t.value ≠ cs!"firstline" → t.value ≠ cs!"lastline" → t.value ∈ used →
      ParamListErr env fn used d r (cs!"E853: Duplicate argument name: " ++ t.value) t.pos
  | after {used d r t r1 m q} : Lex env r t r1 → ParamName used t → LexErr env r1 m q → ParamListErr env fn used d r m q
  | default {used d r t r1 q0 r2 m q} : Lex env r t r1 → ParamName used t → Mark env fn r1 .eq q0 r2 →
      GErr env fn 1 r2 m q → ParamListErr env fn used d r m q
  | noDefault {used r t r1} : Lex env r t r1 → ParamName used t → Next env r1 (· ≠ .eq) →
      ParamListErr env fn used true r cs!"E989: Non-default argument follows default argument" t.pos
  | white {used d r i ds r1} : Param env fn used d r i ds r1 → (headSym r1).is iswhite = true →
      Next env r1 (· = .comma) →
      ParamListErr env fn used d r cs!"E475: Invalid argument: White space is not allowed before comma" (posOf env r1)
  | sep {used d r i ds r1 m q} : Param env fn used d r i ds r1 → Want env r1 (fun ty => ty = .comma ∨ ty = .pclose) m q →
      ParamListErr env fn used d r m q
  | comma {used d r i ds r1 q0 r2 m q} : Param env fn used d r i ds r1 → (headSym r1).is iswhite = false →
      Mark env fn r1 .comma q0 r2 → LexErr env r2 m q → ParamListErr env fn used d r m q
  | more {used d r i ds r1 q0 r2 m q} : Param env fn used d r i ds r1 → (headSym r1).is iswhite = false →
      Mark env fn r1 .comma q0 r2 → Next env r2 (· ≠ .pclose) →
      ParamListErr env fn (i.name :: used) (d || !ds.isEmpty) r2 m q → ParamListErr env fn used d r m q
  | dots {used d r q0 r1 m q} : Mark env fn r .dotdotdot q0 r1 → Want env r1 (· = .pclose) m q →
      ParamListErr env fn used d r m q

/-- The parameters of a function are wrong. -/
inductive ParamsErr (env : Env) (fn : Str) : List Cell → Str → Pos → Prop
  | lex {r m q} : LexErr env r m q → ParamsErr env fn r m q
  | list {r m q} : Next env r (· ≠ .pclose) → ParamListErr env fn [] false r m q → ParamsErr env fn r m q

/-- A word after the parameters is no attribute. -/
inductive AttrErr (env : Env) : List Cell → Str → Pos → Prop
  | word {r r1 k r2} : Skip r r1 → Span isalpha r1 k r2 → k ≠ [] →
      k ∉ [cs!"range", cs!"abort", cs!"dict", cs!"closure"] →
      AttrErr env r (cs!"unexpected token: " ++ k) (posOf env r1)
  | more {r r1 k r2 m q} : Skip r r1 → Span isalpha r1 k r2 → k ∈ [cs!"range", cs!"abort", cs!"dict", cs!"closure"] →
      AttrErr env r2 m q → AttrErr env r m q

/-- The head of a function definition is wrong. -/
inductive FuncErr (env : Env) (fn : Str) : List Cell → Str → Pos → Prop
  | name {r r1 m q} : Skip r r1 → ¬ AtStop r1 → headSym r1 ≠ .ch '/' → FuncNameErr env fn r1 m q → FuncErr env fn r m q
  | illegal {r r1 i r2 q} : Skip r r1 → ¬ AtStop r1 → headSym r1 ≠ .ch '/' → FuncName env fn r1 (.ident i) r2 →
      ¬ FuncNameOK (.ident i) → PlaceOf env fn i.pos q →
      FuncErr env fn r (cs!"E128: Function name must start with a capital or contain a colon: " ++ i.name) q
  | params {r r1 e r2 r3 r4 m q} : Skip r r1 → ¬ AtStop r1 → headSym r1 ≠ .ch '/' → FuncName env fn r1 e r2 →
      FuncNameOK e → Skip r2 r3 → Reads r3 ['('] r4 → ParamsErr env fn r4 m q → FuncErr env fn r m q
  | attr {r r1 e r2 r3 r4 is ds r5 m q} : Skip r r1 → ¬ AtStop r1 → headSym r1 ≠ .ch '/' → FuncName env fn r1 e r2 →
      FuncNameOK e → Skip r2 r3 → Reads r3 ['('] r4 → FuncParamsAt env fn r4 is ds r5 → AttrErr env r5 m q →
      FuncErr env fn r m q

/-! ### :let -/

/-- There is no end marker: only flags before `r'`, where no word starts. -/
inductive NoMarker : List Cell → List Cell → Prop
  | none {r r'} : Skip r r' → (headSym r').is iswordc = false → NoMarker r r'
  | flag {r r1 c f r2 r'} : Skip r r1 → Span iswordc r1 (c :: f) r2 → islower c = true → NoMarker r2 r' → NoMarker r r'

/-- A heredoc is wrong after `=<<`. -/
inductive HereErr (env : Env) (fn : Str) : List Cell → Str → Pos → Prop
  | marker {r r1} : NoMarker r r1 → HereErr env fn r cs!"E172: Missing marker" (posOf env r1)
  | trail {r fs mk r1 m q} : HereHead env r fs mk r1 → TrailErr env r1 m q → HereErr env fn r m q
  | body {r fs mk r1 cm r2} : HereHead env r fs mk r1 → Trail env fn r1 cm r2 →
      (∀ body r', ¬ HLines env mk r2 body r') →
      HereErr env fn r (cs!"E990: Missing end marker '" ++ mk ++ cs!"'") env.eof

/-! ### Arguments of commands -/

/-- The arguments of the command `c` are wrong. -/
inductive ArgErr (env : Env) (fn : Str) (c : Cmd) (filter : Bool) (ra : List Cell) : List Cell → Str → Pos → Prop
  | raw {r m q} : c.name ∉ parsedCmds ∨ c.name = cs!"finish" → RawErr env fn c filter ra r m q →
      ArgErr env fn c filter ra r m q
  | wincmd {r m q} : c.name = cs!"wincmd" → WinErr env r m q → ArgErr env fn c filter ra r m q
  | syntax {r q} : c.name = cs!"syntax" → SynErr env r q → ArgErr env fn c filter ra r e682 q
  | function {r m q} : c.name = cs!"function" → FuncErr env fn r m q → ArgErr env fn c filter ra r m q
  | funcListing {r m q} : c.name = cs!"function" → FuncListing env fn r → RawErr env fn c filter ra r m q →
      ArgErr env fn c filter ra r m q
  | delfunction {r m q} : c.name = cs!"delfunction" → FuncNameErr env fn r m q → ArgErr env fn c filter ra r m q
  | return_ {r r1 m q} : c.name = cs!"return" → Skip r r1 → ¬ (AtEnd r1 ∨ headSym r1 = .ch '|') →
      GErr env fn 1 r1 m q → ArgErr env fn c filter ra r m q
  | callNone {r r1} : c.name = cs!"call" → Skip r r1 → AtStop r1 →
      ArgErr env fn c filter ra r cs!"E471: Argument required" (posOf env r1)
  | call {r r1 m q} : c.name = cs!"call" → Skip r r1 → ¬ AtStop r1 → GErr env fn 1 r1 m q →
      ArgErr env fn c filter ra r m q
  | noCall {r r1 e r2 q} : c.name = cs!"call" → Skip r r1 → ¬ AtStop r1 → Gram env fn 1 r1 e r2 →
      (∀ f p as, e ≠ .call f p as) → PlaceOf env fn (nodePos e) q →
      ArgErr env fn c filter ra r cs!"Not an function call" q
  | letLeft {r r1 m q} : c.name = cs!"let" → Skip r r1 → ¬ AtStop r1 → LhsErr env fn (TargetErr env fn) r1 m q →
      ArgErr env fn c filter ra r m q
  | letListing {r m q} : c.name = cs!"let" → LetListing env fn (Target env fn) (cs!"=<<" :: letOps) r →
      RawErr env fn c filter ra r m q → ArgErr env fn c filter ra r m q
  | let_ {r l ls x r1 op r2 m q} : c.name = cs!"let" → LetLeft env fn (Target env fn) r l ls x r1 → op ∈ letOps →
      ¬ StartsWith r1 cs!"=<<" → Reads r1 op r2 → GErr env fn 1 r2 m q → ArgErr env fn c filter ra r m q
  | heredoc {r l ls x r1 r2 m q} : c.name = cs!"let" → LetLeft env fn (Target env fn) r l ls x r1 →
      Reads r1 cs!"=<<" r2 → HereErr env fn r2 m q → ArgErr env fn c filter ra r m q
  | constLeft {r r1 m q} : c.name = cs!"const" → Skip r r1 → ¬ AtStop r1 → LhsErr env fn (ConstErr env fn) r1 m q →
      ArgErr env fn c filter ra r m q
  | constListing {r m q} : c.name = cs!"const" → LetListing env fn (ConstTarget env fn) [cs!"="] r →
      RawErr env fn c filter ra r m q → ArgErr env fn c filter ra r m q
  | const_ {r l ls x r1 r2 m q} : c.name = cs!"const" → LetLeft env fn (ConstTarget env fn) r l ls x r1 →
      Reads r1 cs!"=" r2 → GErr env fn 1 r2 m q → ArgErr env fn c filter ra r m q
  | unlet {r m q} : c.name = cs!"unlet" → LockErr env fn r m q → ArgErr env fn c filter ra r m q
  | lock {r n r1 m q} : c.name = cs!"lockvar" ∨ c.name = cs!"unlockvar" → Depth r n r1 → LockErr env fn r1 m q →
      ArgErr env fn c filter ra r m q
  | expr {r m q} : c.name ∈ [cs!"if", cs!"elseif", cs!"while", cs!"throw", cs!"eval"] → GErr env fn 1 r m q →
      ArgErr env fn c filter ra r m q
  | exprs {r m q} : c.name ∈ [cs!"echo", cs!"echon", cs!"echomsg", cs!"echoerr", cs!"execute"] → ExprsErr env fn r m q →
      ArgErr env fn c filter ra r m q
  | forLeft {r m q} : c.name = cs!"for" → LhsErr env fn (TargetErr env fn) r m q → ArgErr env fn c filter ra r m q
  | forIn {r l ls x r1 r2 w r3} : c.name = cs!"for" → LhsAt env fn (Target env fn) r l ls x r1 → Skip r1 r2 →
      Span isalpha r2 w r3 → w ≠ cs!"in" → ArgErr env fn c filter ra r cs!"Missing \"in\" after :for" (posOf env r2)
  | for_ {r l ls x r1 r2 r3 m q} : c.name = cs!"for" → LhsAt env fn (Target env fn) r l ls x r1 → Skip r1 r2 →
      Span isalpha r2 cs!"in" r3 → GErr env fn 1 r3 m q → ArgErr env fn c filter ra r m q
  | catch_ {r r1 d r2 q} : c.name = cs!"catch" → Skip r r1 → ¬ AtStop r1 → Reads r1 [d] r2 → PatErr env d 0 r2 q →
      ArgErr env fn c filter ra r e682 q

/-- Correct arguments of the command `c` from `r` to `r'`. -/
inductive ArgsDone (env : Env) (fn : Str) (cx : Ctx) (r0 ra : List Cell) (ea : Ast.ExArg) (c : Cmd) :
    List Cell → List Cell → Prop
  | simple {r ss r'} : Simple env fn cx r0 ra ea c r ss r' → ArgsDone env fn cx r0 ra ea c r r'
  | function {r a r'} : c.name = cs!"function" → FuncArgs env fn r a r' → ArgsDone env fn cx r0 ra ea c r r'
  | expr {r e r'} : c.name ∈ [cs!"if", cs!"elseif", cs!"while"] → Gram env fn 1 r e r' → ArgsDone env fn cx r0 ra ea c r r'
  | for_ {r a r'} : c.name = cs!"for" → ForArgs env fn r a r' → ArgsDone env fn cx r0 ra ea c r r'
  | catch_ {r p r'} : c.name = cs!"catch" → CatchArg r p r' → ArgsDone env fn cx r0 ra ea c r r'
  | endfunction {r l r'} : c.name = cs!"endfunction" → RestOf r l r' → ArgsDone env fn cx r0 ra ea c r r'
  | none {r} : c.name ∈ [cs!"else", cs!"endif", cs!"endwhile", cs!"endfor", cs!"try", cs!"finally", cs!"endtry"] →
      ArgsDone env fn cx r0 ra ea c r r

/-! ### Blocks -/

/-- The innermost open block, and the part of it. -/
inductive Inner
  | function | while_ | for_ | if_ | elseif | else_ | try_ | catch_ | finally_
deriving DecidableEq, Repr

def ifLike (b : Option Inner) : Prop := b = some .if_ ∨ b = some .elseif
def inIf (b : Option Inner) : Prop := ifLike b ∨ b = some .else_
def tryLike (b : Option Inner) : Prop := b = some .try_ ∨ b = some .catch_
def inTry (b : Option Inner) : Prop := tryLike b ∨ b = some .finally_

/-- The command `n` cannot stand here: the innermost open block is `b`, the context `cx`. -/
inductive Misplaced (cx : Ctx) (b : Option Inner) : Str → Str → Prop
  | elseif : ¬ ifLike b → Misplaced cx b cs!"elseif" cs!"E582: :elseif without :if"
  | else_ : ¬ ifLike b → Misplaced cx b cs!"else" cs!"E581: :else without :if"
  | endif : ¬ inIf b → Misplaced cx b cs!"endif" cs!"E580: :endif without :if"
  | endwhile : b ≠ some .while_ → Misplaced cx b cs!"endwhile" cs!"E588: :endwhile without :while"
  | endfor : b ≠ some .for_ → Misplaced cx b cs!"endfor" cs!"E588: :endfor without :for"
  | continue_ : cx.inLoop = false → Misplaced cx b cs!"continue" cs!"E586: :continue without :while or :for"
  | break_ : cx.inLoop = false → Misplaced cx b cs!"break" cs!"E587: :break without :while or :for"
  | catchLate : b = some .finally_ → Misplaced cx b cs!"catch" cs!"E604: :catch after :finally"
  | catch_ : ¬ inTry b → Misplaced cx b cs!"catch" cs!"E603: :catch without :try"
  | finally_ : ¬ tryLike b → Misplaced cx b cs!"finally" cs!"E606: :finally without :try"
  | endtry : ¬ inTry b → Misplaced cx b cs!"endtry" cs!"E602: :endtry without :try"
  | return_ : cx.inFunction = false → Misplaced cx b cs!"return" cs!"E133: :return not inside a function"
  | endfunctionIf : inIf b → Misplaced cx b cs!"endfunction" cs!"E171: Missing :endif:    ENDFUNCTION"
  | endfunctionTry : inTry b → Misplaced cx b cs!"endfunction" cs!"E600: Missing :endtry:    ENDFUNCTION"
  | endfunctionWhile : b = some .while_ →
      Misplaced cx b cs!"endfunction" cs!"E170: Missing :endwhile:    ENDFUNCTION"
  | endfunctionFor : b = some .for_ → Misplaced cx b cs!"endfunction" cs!"E170: Missing :endfor:    ENDFUNCTION"
  | endfunction : b = none → Misplaced cx b cs!"endfunction" cs!"E193: :endfunction not inside a function"

/-- The file ends although the block `b` is open. -/
inductive Unclosed : Inner → Str → Prop
  | function : Unclosed .function cs!"E126: Missing :endfunction:    TOPLEVEL"
  | if_ {b} : inIf (some b) → Unclosed b cs!"E171: Missing :endif:    TOPLEVEL"
  | try_ {b} : inTry (some b) → Unclosed b cs!"E600: Missing :endtry:    TOPLEVEL"
  | while_ : Unclosed .while_ cs!"E170: Missing :endwhile:    TOPLEVEL"
  | for_ : Unclosed .for_ cs!"E170: Missing :endfor:    TOPLEVEL"

/-- The line at `r` is wrong; names of user commands in the lines before are `used`. -/
inductive LineErr (nv : Bool) (env : Env) (fn : Str) (cx : Ctx) (b : Option Inner) (used : List Str) :
    List Cell → Str → Pos → Prop
  | head {r m q} : HeadErr nv env fn used r m q → LineErr nv env fn cx b used r m q
  | place {r r0 rc ea c ra r1 used' m} : HeadAt nv env fn used r r0 rc ea c ra r1 used' → Misplaced cx b c.name m →
      LineErr nv env fn cx b used r m (posOf env rc)
  | args {r r0 rc ea c ra r1 used' m q} : HeadAt nv env fn used r r0 rc ea c ra r1 used' →
      (∀ m', ¬ Misplaced cx b c.name m') → ArgErr env fn c ea.usefilter ra r1 m q → LineErr nv env fn cx b used r m q
  | trail {r r0 rc ea c ra r1 used' r2 m q} : HeadAt nv env fn used r r0 rc ea c ra r1 used' →
      (∀ m', ¬ Misplaced cx b c.name m') → ArgsDone env fn cx r0 ra ea c r1 r2 → TrailErr env r2 m q →
      LineErr nv env fn cx b used r m q

/-- Correct lines from the start of the file up to `r`, where the innermost open block is `b` and the context `cx`. -/
inductive Front (nv : Bool) (env : Env) (fn : Str) : Ctx → Option Inner → List Str → List Cell → Prop
  | start : Front nv env fn { top := true } none [] env.buf
  | lines {cx b used r ss used' r'} : Front nv env fn cx b used r → Body nv env fn cx used r ss used' r' →
      Front nv env fn cx b used' r'
  | function {cx b used r ea a cm used' r'} : Front nv env fn cx b used r →
      Opens nv env fn cs!"function" (FuncArgs env fn) used r ea a cm used' r' →
      Front nv env fn cx.fun (some .function) used' r'
  | while_ {cx b used r ea a cm used' r'} : Front nv env fn cx b used r →
      Opens nv env fn cs!"while" (Gram env fn 1) used r ea a cm used' r' →
      Front nv env fn cx.loop (some .while_) used' r'
  | for_ {cx b used r ea a cm used' r'} : Front nv env fn cx b used r →
      Opens nv env fn cs!"for" (ForArgs env fn) used r ea a cm used' r' →
      Front nv env fn cx.loop (some .for_) used' r'
  | if_ {cx b used r ea a cm used' r'} : Front nv env fn cx b used r →
      Opens nv env fn cs!"if" (Gram env fn 1) used r ea a cm used' r' →
      Front nv env fn cx.block (some .if_) used' r'
  | try_ {cx b used r ea a cm used' r'} : Front nv env fn cx b used r →
      Opens nv env fn cs!"try" NoArgs used r ea a cm used' r' →
      Front nv env fn cx.block (some .try_) used' r'
  | elseif {cx b used r ea a cm used' r'} : Front nv env fn cx b used r → ifLike b →
      Opens nv env fn cs!"elseif" (Gram env fn 1) used r ea a cm used' r' →
      Front nv env fn cx (some .elseif) used' r'
  | else_ {cx b used r ea a cm used' r'} : Front nv env fn cx b used r → ifLike b →
      Opens nv env fn cs!"else" NoArgs used r ea a cm used' r' →
      Front nv env fn cx (some .else_) used' r'
  | catch_ {cx b used r ea a cm used' r'} : Front nv env fn cx b used r → tryLike b →
      Opens nv env fn cs!"catch" CatchArg used r ea a cm used' r' →
      Front nv env fn cx (some .catch_) used' r'
  | finally_ {cx b used r ea a cm used' r'} : Front nv env fn cx b used r → tryLike b →
      Opens nv env fn cs!"finally" NoArgs used r ea a cm used' r' →
      Front nv env fn cx (some .finally_) used' r'

/-- The script is rejected with the message `m` at the position `q`. -/
inductive FileErr (nv : Bool) (env : Env) (fn : Str) : Str → Pos → Prop
  | line {cx b used r m q} : Front nv env fn cx b used r → LineErr nv env fn cx b used r m q → FileErr nv env fn m q
  | unclosed {cx b used m} : Front nv env fn cx (some b) used [] → Unclosed b m → FileErr nv env fn m env.eof

end Viml.Spec
