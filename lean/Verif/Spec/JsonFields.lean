/-
What property C58 says about the members of the objects: their names, which are the names of the fields of package ast, and
their values.  Nothing here refers to the encoder.
-/
import Verif.Spec.Json

namespace Viml.Spec

/-- The members of an object, in this order: their names and what their values are. -/
def Fields : List (Str × (Json → Prop)) → List (Str × Json) → Prop
  | [], [] => True
  | (k, P) :: fs, (k', w) :: ms => k' = k ∧ P w ∧ Fields fs ms
  | _, _ => False

/-- An object with these members. -/
def Rec (fs : List (Str × (Json → Prop))) (v : Json) : Prop := ∃ ms, v = .obj ms ∧ Fields fs ms

/-- An array. -/
def Arr (P : List Json → Prop) (v : Json) : Prop := ∃ vs, v = .arr vs ∧ P vs

/-- An array, or `null` instead of an empty one. -/
def Slice (empty : Bool) (P : List Json → Prop) (v : Json) : Prop := if empty then v = .null else Arr P v

/-- One value for each element. -/
def All {α : Type} (P : α → Json → Prop) : List α → List Json → Prop
  | [], [] => True
  | a :: as, v :: vs => P a v ∧ All P as vs
  | _, _ => False

/-- A value or `null`. -/
def OrNull {α : Type} (P : α → Json → Prop) : Option α → Json → Prop
  | none, v => v = .null
  | some a, v => P a v

def IsNull (v : Json) : Prop := v = .null
def IsBool (b : Bool) (v : Json) : Prop := v = .bool b
def IsNum (n : Nat) (v : Json) : Prop := v = .num n
def IsStr (s : Str) (v : Json) : Prop := v = .str s

/-- Positions, ast/pos.go -/
def IsPos (q : Ast.Pos) : Json → Prop :=
  Rec [(cs!"Offset", IsNum q.offset), (cs!"Line", IsNum q.line), (cs!"Column", IsNum q.column),
    (cs!"Filename", IsStr q.filename)]

/-- The numbers of the tokens, token/token.go -/
def tokenNo : Tok → Nat
  | .ILLEGAL => 0 | .EOF => 1 | .EOL => 2 | .SPACE => 3 | .OROR => 4 | .ANDAND => 5 | .EQEQ => 6
  | .EQEQCI => 7 | .EQEQCS => 8 | .NEQ => 9 | .NEQCI => 10 | .NEQCS => 11 | .GT => 12 | .GTCI => 13
  | .GTCS => 14 | .GTEQ => 15 | .GTEQCI => 16 | .GTEQCS => 17 | .LT => 18 | .LTCI => 19 | .LTCS => 20
  | .LTEQ => 21 | .LTEQCI => 22 | .LTEQCS => 23 | .MATCH => 24 | .MATCHCI => 25 | .MATCHCS => 26 | .NOMATCH => 27
  | .NOMATCHCI => 28 | .NOMATCHCS => 29 | .IS => 30 | .ISCI => 31 | .ISCS => 32 | .ISNOT => 33 | .ISNOTCI => 34
  | .ISNOTCS => 35 | .PLUS => 36 | .MINUS => 37 | .DOT => 38 | .STAR => 39 | .SLASH => 40 | .PERCENT => 41
  | .NOT => 42 | .QUESTION => 43 | .COLON => 44 | .POPEN => 45 | .PCLOSE => 46 | .SQOPEN => 47 | .SQCLOSE => 48
  | .COPEN => 49 | .CCLOSE => 50 | .COMMA => 51 | .NUMBER => 52 | .BLOB => 53 | .SQUOTE => 54 | .DQUOTE => 55
  | .OPTION => 56 | .IDENTIFIER => 57 | .ENV => 58 | .REG => 59 | .EQ => 60 | .OR => 61 | .SEMICOLON => 62
  | .BACKTICK => 63 | .DOTDOTDOT => 64 | .SHARP => 65 | .ARROW => 66 | .STRING => 67

def IsTok (t : Tok) (v : Json) : Prop := v = .num (tokenNo t)

/-- The names of the flags of a command. -/
def flagWord : Flag → Str
  | .ARGOPT => cs!"ARGOPT" | .BANG => cs!"BANG" | .BUFNAME => cs!"BUFNAME" | .BUFUNL => cs!"BUFUNL"
  | .CMDWIN => cs!"CMDWIN" | .COUNT => cs!"COUNT" | .CTRLV => cs!"CTRLV" | .DFLALL => cs!"DFLALL"
  | .EDITCMD => cs!"EDITCMD" | .EXFLAGS => cs!"EXFLAGS" | .EXTRA => cs!"EXTRA" | .FILE1 => cs!"FILE1"
  | .FILES => cs!"FILES" | .MODIFY => cs!"MODIFY" | .NEEDARG => cs!"NEEDARG" | .NOSPC => cs!"NOSPC"
  | .NOTADR => cs!"NOTADR" | .NOTRLCOM => cs!"NOTRLCOM" | .RANGE => cs!"RANGE" | .REGSTR => cs!"REGSTR"
  | .SBOXOK => cs!"SBOXOK" | .TRLBAR => cs!"TRLBAR" | .USECTRLV => cs!"USECTRLV" | .WHOLEFOLD => cs!"WHOLEFOLD"
  | .WORD1 => cs!"WORD1" | .XFILE => cs!"XFILE" | .ZEROR => cs!"ZEROR" | .USERCMD => cs!"USERCMD"

/-- Commands, ast/exarg.go -/
def IsCmd (c : Cmd) : Json → Prop :=
  Rec [(cs!"Name", IsStr c.name), (cs!"Minlen", IsNum c.minlen),
    (cs!"Flags", IsStr (List.intercalate ['|'] (c.flags.map flagWord))), (cs!"Parser", IsStr c.parser)]

/-- Modifiers: a map with the sorted keys that are there. -/
def IsModifier (m : Modifier) : Json → Prop :=
  match m.bang, m.count with
  | none, none => Rec [(cs!"name", IsStr m.name)]
  | some b, none => Rec [(cs!"bang", IsNum b), (cs!"name", IsStr m.name)]
  | none, some n => Rec [(cs!"count", IsNum n), (cs!"name", IsStr m.name)]
  | some b, some n => Rec [(cs!"bang", IsNum b), (cs!"count", IsNum n), (cs!"name", IsStr m.name)]

/-- Arguments of commands, ast/exarg.go; the parser does not set the fields that are 0 or `null` here. -/
def IsExArg (ea : Ast.ExArg) : Json → Prop :=
  Rec [(cs!"Forceit", IsBool ea.forceit), (cs!"AddrCount", IsNum 0), (cs!"Line1", IsNum 0), (cs!"Line2", IsNum 0),
    (cs!"Flags", IsNum 0), (cs!"DoEcmdCmd", IsStr ea.doEcmdCmd), (cs!"DoEcmdLnum", IsNum 0),
    (cs!"Append", IsNum ea.append), (cs!"Usefilter", IsBool ea.usefilter), (cs!"Amount", IsNum ea.amount),
    (cs!"Regname", IsNum 0), (cs!"ForceBin", IsNum ea.forceBin), (cs!"ReadEdit", IsNum ea.readEdit),
    (cs!"ForceFf", IsStr ea.forceFf), (cs!"ForceEnc", IsStr ea.forceEnc), (cs!"BadChar", IsStr ea.badChar),
    (cs!"Linepos", IsPos ea.linepos), (cs!"Cmdpos", IsPos ea.cmdpos), (cs!"Argpos", OrNull IsPos ea.argpos),
    (cs!"Cmd", OrNull IsCmd ea.cmd), (cs!"Modifiers", Arr (All IsModifier ea.modifiers)),
    (cs!"Range", Arr (All IsStr ea.range)), (cs!"Argopt", IsNull), (cs!"Argcmd", IsNull)]

/-- Identifiers, ast/node.go -/
def IsIdent (i : Ast.Ident) : Json → Prop := Rec [(cs!"NamePos", IsPos i.pos), (cs!"Name", IsStr i.name)]

mutual

/-- Expressions, ast/node.go -/
def ShowsE : Ast.Expr → Json → Prop
  | .ternary q c l r =>
    Rec [(cs!"Ternary", IsPos q), (cs!"Condition", ShowsE c), (cs!"Left", ShowsE l), (cs!"Right", ShowsE r)]
  | .binary l q t r => Rec [(cs!"Left", ShowsE l), (cs!"OpPos", IsPos q), (cs!"Op", IsTok t), (cs!"Right", ShowsE r)]
  | .unary q t x => Rec [(cs!"OpPos", IsPos q), (cs!"Op", IsTok t), (cs!"X", ShowsE x)]
  | .subscript q l r => Rec [(cs!"Lbrack", IsPos q), (cs!"Left", ShowsE l), (cs!"Right", ShowsE r)]
  | .slice x q lo hi =>
    Rec [(cs!"X", ShowsE x), (cs!"Lbrack", IsPos q), (cs!"Low", ShowsEO lo), (cs!"High", ShowsEO hi)]
  | .method l m q as =>
    Rec [(cs!"Left", ShowsE l), (cs!"Method", ShowsE m), (cs!"Lparen", IsPos q), (cs!"Args", Slice as.isEmpty (ShowsEs as))]
  | .call f q as => Rec [(cs!"Fun", ShowsE f), (cs!"Lparen", IsPos q), (cs!"Args", Slice as.isEmpty (ShowsEs as))]
  | .dot l q i => Rec [(cs!"Left", ShowsE l), (cs!"Dot", IsPos q), (cs!"Right", IsIdent i)]
  | .basicLit q k v => Rec [(cs!"ValuePos", IsPos q), (cs!"Kind", IsTok k), (cs!"Value", IsStr v)]
  | .list q vs => Rec [(cs!"Lsquare", IsPos q), (cs!"Values", Slice vs.isEmpty (ShowsEs vs))]
  | .dict q kvs => Rec [(cs!"Lcurlybrace", IsPos q), (cs!"Entries", Arr (ShowsPs kvs))]
  | .curlyName q ps => Rec [(cs!"CurlyName", IsPos q), (cs!"Parts", Slice ps.isEmpty (ShowsEs ps))]
  | .curlyNameLit q v => Rec [(cs!"CurlyNameLit", IsPos q), (cs!"Value", IsStr v)]
  | .curlyNameExpr q e => Rec [(cs!"CurlyNameExpr", IsPos q), (cs!"Value", ShowsE e)]
  | .ident i => IsIdent i
  | .lambda q ps e => Rec [(cs!"Lcurlybrace", IsPos q), (cs!"Params", Arr (All IsIdent ps)), (cs!"Expr", ShowsE e)]
  | .paren q x => Rec [(cs!"Lparen", IsPos q), (cs!"X", ShowsE x)]
  | .heredoc q fl m b =>
    Rec [(cs!"OpPos", IsPos q), (cs!"Flags", Arr (ShowsEs fl)), (cs!"EndMarker", IsStr m), (cs!"Body", Slice b.isEmpty (ShowsEs b))]

def ShowsEO : Option Ast.Expr → Json → Prop
  | none => IsNull
  | some e => ShowsE e

def ShowsEs : List Ast.Expr → List Json → Prop
  | [] => (· = [])
  | e :: es => fun vs => ∃ w ws, vs = w :: ws ∧ ShowsE e w ∧ ShowsEs es ws

/-- Entries of dictionaries. -/
def ShowsPs : List (Ast.Expr × Ast.Expr) → List Json → Prop
  | [] => (· = [])
  | (k, x) :: es => fun vs => ∃ w ws, vs = w :: ws ∧ Rec [(cs!"Key", ShowsE k), (cs!"Value", ShowsE x)] w ∧ ShowsPs es ws

end

/-- Attributes of functions. -/
def IsAttr (a : FuncAttr) : Json → Prop :=
  Rec [(cs!"Range", IsBool a.range), (cs!"Abort", IsBool a.abort), (cs!"Dict", IsBool a.dict), (cs!"Closure", IsBool a.closure)]

/-- Commands that end blocks. -/
def IsEnd (field : Str) (e : Ast.EndCmd) : Json → Prop := Rec [(field, IsPos e.pos), (cs!"ExArg", IsExArg e.ea)]

mutual

/-- Statements, ast/node.go -/
def ShowsS : Ast.Stmt → Json → Prop
  | .comment q t => Rec [(cs!"Statement", IsNull), (cs!"Quote", IsPos q), (cs!"Text", IsStr t)]
  | .excmd q ea s => Rec [(cs!"Excmd", IsPos q), (cs!"Command", IsStr s), (cs!"ExArg", IsExArg ea)]
  | .function q ea b n ps ds a e =>
    Rec [(cs!"Func", IsPos q), (cs!"ExArg", IsExArg ea), (cs!"Body", Slice b.isEmpty (ShowsSs b)), (cs!"Name", ShowsE n),
      (cs!"Params", Arr (All IsIdent ps)), (cs!"DefaultArgs", Arr (ShowsEs ds)), (cs!"Attr", IsAttr a),
      (cs!"EndFunction", IsEnd cs!"EndFunc" e)]
  | .delFunction q ea n => Rec [(cs!"DelFunc", IsPos q), (cs!"ExArg", IsExArg ea), (cs!"Name", ShowsE n)]
  | .return_ q ea r => Rec [(cs!"Return", IsPos q), (cs!"ExArg", IsExArg ea), (cs!"Result", ShowsEO r)]
  | .exCall q ea f p as =>
    Rec [(cs!"ExCall", IsPos q), (cs!"ExArg", IsExArg ea),
      (cs!"FuncCall", Rec [(cs!"Fun", ShowsE f), (cs!"Lparen", IsPos p), (cs!"Args", Slice as.isEmpty (ShowsEs as))])]
  | .let_ q ea op l ls rs r =>
    Rec [(cs!"Let", IsPos q), (cs!"ExArg", IsExArg ea), (cs!"Op", IsStr op), (cs!"Left", ShowsEO l),
      (cs!"List", Slice ls.isEmpty (ShowsEs ls)), (cs!"Rest", ShowsEO rs), (cs!"Right", ShowsE r)]
  | .unLet q ea l => Rec [(cs!"UnLet", IsPos q), (cs!"ExArg", IsExArg ea), (cs!"List", Slice l.isEmpty (ShowsEs l))]
  | .lockVar q ea d l =>
    Rec [(cs!"LockVar", IsPos q), (cs!"ExArg", IsExArg ea), (cs!"Depth", IsNum d), (cs!"List", Slice l.isEmpty (ShowsEs l))]
  | .unLockVar q ea d l =>
    Rec [(cs!"UnLockVar", IsPos q), (cs!"ExArg", IsExArg ea), (cs!"Depth", IsNum d), (cs!"List", Slice l.isEmpty (ShowsEs l))]
  | .if_ q ea b c ei el e =>
    Rec [(cs!"If", IsPos q), (cs!"ExArg", IsExArg ea), (cs!"Body", Slice b.isEmpty (ShowsSs b)), (cs!"Condition", ShowsE c),
      (cs!"ElseIf", Slice ei.isEmpty (ShowsSs ei)), (cs!"Else", ShowsSO el), (cs!"EndIf", IsEnd cs!"EndIf" e)]
  | .elseIf q ea b c =>
    Rec [(cs!"ElseIf", IsPos q), (cs!"ExArg", IsExArg ea), (cs!"Body", Slice b.isEmpty (ShowsSs b)), (cs!"Condition", ShowsE c)]
  | .else_ q ea b => Rec [(cs!"Else", IsPos q), (cs!"ExArg", IsExArg ea), (cs!"Body", Slice b.isEmpty (ShowsSs b))]
  | .while_ q ea b c e =>
    Rec [(cs!"While", IsPos q), (cs!"ExArg", IsExArg ea), (cs!"Body", Slice b.isEmpty (ShowsSs b)), (cs!"Condition", ShowsE c),
      (cs!"EndWhile", IsEnd cs!"EndWhile" e)]
  | .for_ q ea b l ls rs r e =>
    Rec [(cs!"For", IsPos q), (cs!"ExArg", IsExArg ea), (cs!"Body", Slice b.isEmpty (ShowsSs b)), (cs!"Left", ShowsEO l),
      (cs!"List", Slice ls.isEmpty (ShowsEs ls)), (cs!"Rest", ShowsEO rs), (cs!"Right", ShowsE r), (cs!"EndFor", IsEnd cs!"EndFor" e)]
  | .continue_ q ea => Rec [(cs!"Continue", IsPos q), (cs!"ExArg", IsExArg ea)]
  | .break_ q ea => Rec [(cs!"Break", IsPos q), (cs!"ExArg", IsExArg ea)]
  | .try_ q ea b cs fi e =>
    Rec [(cs!"Try", IsPos q), (cs!"ExArg", IsExArg ea), (cs!"Body", Slice b.isEmpty (ShowsSs b)), (cs!"Catch", Slice cs.isEmpty (ShowsSs cs)),
      (cs!"Finally", ShowsSO fi), (cs!"EndTry", IsEnd cs!"EndTry" e)]
  | .catch_ q ea b p =>
    Rec [(cs!"Catch", IsPos q), (cs!"ExArg", IsExArg ea), (cs!"Body", Slice b.isEmpty (ShowsSs b)), (cs!"Pattern", IsStr p)]
  | .finally_ q ea b => Rec [(cs!"Finally", IsPos q), (cs!"ExArg", IsExArg ea), (cs!"Body", Slice b.isEmpty (ShowsSs b))]
  | .throw q ea e => Rec [(cs!"Throw", IsPos q), (cs!"ExArg", IsExArg ea), (cs!"Expr", ShowsE e)]
  | .eval q ea e => Rec [(cs!"Eval", IsPos q), (cs!"ExArg", IsExArg ea), (cs!"Expr", ShowsE e)]
  | .echoCmd q n ea l =>
    Rec [(cs!"Start", IsPos q), (cs!"CmdName", IsStr n), (cs!"ExArg", IsExArg ea), (cs!"Exprs", Slice l.isEmpty (ShowsEs l))]
  | .echohl q ea n => Rec [(cs!"Echohl", IsPos q), (cs!"ExArg", IsExArg ea), (cs!"Name", IsStr n)]
  | .execute q ea l => Rec [(cs!"Execute", IsPos q), (cs!"ExArg", IsExArg ea), (cs!"Exprs", Slice l.isEmpty (ShowsEs l))]

def ShowsSO : Option Ast.Stmt → Json → Prop
  | none => IsNull
  | some s => ShowsS s

def ShowsSs : List Ast.Stmt → List Json → Prop
  | [] => (· = [])
  | s :: ss => fun vs => ∃ w ws, vs = w :: ws ∧ ShowsS s w ∧ ShowsSs ss ws

end

/-- The value of a file: its members are the fields of the tree. -/
def Shows (f : Ast.File) : Json → Prop := Rec [(cs!"Start", IsPos f.start), (cs!"Body", Slice f.body.isEmpty (ShowsSs f.body))]

/-- The member of a value with a name. -/
def member (v : Json) (k : Str) : Option Json :=
  match v with
  | .obj ms => ms.lookup k
  | _ => none

end Viml.Spec
