/-
The JSON encoder behind the option `-json` of the command-line tool (cmd/vimlparser/main.go:59-63):
`json.NewEncoder`, `SetIndent("", "    ")`, `Encode`.

`json` turns a tree into a JSON value as `encoding/json` does with the struct types of package ast: an object with one
member per field, in the order of the declarations.  None of the types has tags or methods of its own for encoding
(ast/node.go, ast/pos.go, ast/exarg.go, token/token.go).  A nil pointer, interface, slice or map is `null`.  `write`
produces the text with the indentation of `json.Indent` and the escapes of HTML-safe strings.  `encode` fails if the value
is nested too deeply for `json.Indent`; this is the only error there can be (no type has an encoding method that fails,
there are no floating-point numbers, channels or functions, no map has keys other than strings, and trees have no cycles).

Which slices are nil when they are empty is a matter of the parser and the exporter:
* nil, hence `null`: bodies, `ElseIf`, `Catch` and here-document lines (appended to a nil slice, go/vimlparser.go:362,
  1412, 1559, 1687), call arguments (go/vimlparser.go:2839), lists of :let, :for, :echo and so on (go/vimlparser.go:1791,
  1842, 1859, 1892), list values and curly-name parts (go/export.go:414-418, 583-590);
* never nil, hence `[]`: parameters and default arguments (go/vimlparser.go:1238-1239, 2947), flags of a here-document
  (go/vimlparser.go:1378), dictionary entries (go/export.go:391), modifiers and ranges (go/vimlparser.go:438, 541).

Simplification: a name of a file that is not valid UTF-8 is not modelled (names are lists of characters).
-/
import Verif.Model.Export

namespace Viml

/-- JSON values; numbers are those that occur, non-negative integers. -/
inductive Json
  | null
  | bool (b : Bool)
  | num (n : Nat)
  | str (s : Str)
  | arr (l : List Json)
  | obj (l : List (Str × Json))
deriving Inhabited

namespace Json

/-! ### Trees as values -/

/-- `ast.Pos`, ast/pos.go:6-13 -/
def pos (q : Ast.Pos) : Json :=
  .obj [(cs!"Offset", .num q.offset), (cs!"Line", .num q.line), (cs!"Column", .num q.column),
    (cs!"Filename", .str q.filename)]

/-- A pointer that may be nil. -/
def opt {α : Type} (f : α → Json) : Option α → Json
  | none => .null
  | some a => f a

/-- A slice that is nil if it is empty. -/
def nilArr (l : List Json) : Json := if l.isEmpty then .null else .arr l

/-- `token.Token` is an integer type, token/token.go:9-81 -/
def tok (t : Tok) : Json := .num t.ctorIdx

/-- The words of a flags string, go/builtin_commands.go -/
def flagName : Flag → Str
  | .ARGOPT => cs!"ARGOPT" | .BANG => cs!"BANG" | .BUFNAME => cs!"BUFNAME" | .BUFUNL => cs!"BUFUNL"
  | .CMDWIN => cs!"CMDWIN" | .COUNT => cs!"COUNT" | .CTRLV => cs!"CTRLV" | .DFLALL => cs!"DFLALL"
  | .EDITCMD => cs!"EDITCMD" | .EXFLAGS => cs!"EXFLAGS" | .EXTRA => cs!"EXTRA" | .FILE1 => cs!"FILE1"
  | .FILES => cs!"FILES" | .MODIFY => cs!"MODIFY" | .NEEDARG => cs!"NEEDARG" | .NOSPC => cs!"NOSPC"
  | .NOTADR => cs!"NOTADR" | .NOTRLCOM => cs!"NOTRLCOM" | .RANGE => cs!"RANGE" | .REGSTR => cs!"REGSTR"
  | .SBOXOK => cs!"SBOXOK" | .TRLBAR => cs!"TRLBAR" | .USECTRLV => cs!"USECTRLV" | .WHOLEFOLD => cs!"WHOLEFOLD"
  | .WORD1 => cs!"WORD1" | .XFILE => cs!"XFILE" | .ZEROR => cs!"ZEROR" | .USERCMD => cs!"USERCMD"

/-- The flags string, words separated by `|`, go/builtin_commands.go and go/vimlparser.go:864 -/
def flags : List Flag → Str
  | [] => []
  | [f] => flagName f
  | f :: g :: fs => flagName f ++ '|' :: flags (g :: fs)

/-- `ast.Cmd`, ast/exarg.go:32-37 -/
def cmd (c : Cmd) : Json :=
  .obj [(cs!"Name", .str c.name), (cs!"Minlen", .num c.minlen), (cs!"Flags", .str (flags c.flags)),
    (cs!"Parser", .str c.parser)]

/-- A modifier is a map, go/vimlparser.go:451-529; the keys of maps are sorted. -/
def modifier (m : Modifier) : Json :=
  .obj ((match m.bang with | some b => [(cs!"bang", .num b)] | none => []) ++
    (match m.count with | some n => [(cs!"count", .num n)] | none => []) ++ [(cs!"name", .str m.name)])

/-- `ast.ExArg`, ast/exarg.go:4-29; the fields the parser never sets have their zero values. -/
def exArg (ea : Ast.ExArg) : Json :=
  .obj [(cs!"Forceit", .bool ea.forceit), (cs!"AddrCount", .num 0), (cs!"Line1", .num 0), (cs!"Line2", .num 0),
    (cs!"Flags", .num 0), (cs!"DoEcmdCmd", .str ea.doEcmdCmd), (cs!"DoEcmdLnum", .num 0),
    (cs!"Append", .num ea.append), (cs!"Usefilter", .bool ea.usefilter), (cs!"Amount", .num ea.amount),
    (cs!"Regname", .num 0), (cs!"ForceBin", .num ea.forceBin), (cs!"ReadEdit", .num ea.readEdit),
    (cs!"ForceFf", .str ea.forceFf), (cs!"ForceEnc", .str ea.forceEnc), (cs!"BadChar", .str ea.badChar),
    (cs!"Linepos", pos ea.linepos), (cs!"Cmdpos", pos ea.cmdpos), (cs!"Argpos", opt pos ea.argpos),
    (cs!"Cmd", opt cmd ea.cmd), (cs!"Modifiers", .arr (ea.modifiers.map modifier)),
    (cs!"Range", .arr (ea.range.map .str)), (cs!"Argopt", .null), (cs!"Argcmd", .null)]

/-- `ast.Ident`, ast/node.go:534-537 -/
def ident (i : Ast.Ident) : Json := .obj [(cs!"NamePos", pos i.pos), (cs!"Name", .str i.name)]

mutual
/-- Expression nodes, ast/node.go:397-568 -/
def expr : Ast.Expr → Json
  | .ternary q c l r =>
    .obj [(cs!"Ternary", pos q), (cs!"Condition", expr c), (cs!"Left", expr l), (cs!"Right", expr r)]
  | .binary l q t r => .obj [(cs!"Left", expr l), (cs!"OpPos", pos q), (cs!"Op", tok t), (cs!"Right", expr r)]
  | .unary q t x => .obj [(cs!"OpPos", pos q), (cs!"Op", tok t), (cs!"X", expr x)]
  | .subscript q l r => .obj [(cs!"Lbrack", pos q), (cs!"Left", expr l), (cs!"Right", expr r)]
  | .slice x q lo hi =>
    .obj [(cs!"X", expr x), (cs!"Lbrack", pos q), (cs!"Low", exprO lo), (cs!"High", exprO hi)]
  | .method l m q as =>
    .obj [(cs!"Left", expr l), (cs!"Method", expr m), (cs!"Lparen", pos q), (cs!"Args", nilArr (exprs as))]
  | .call f q as => .obj [(cs!"Fun", expr f), (cs!"Lparen", pos q), (cs!"Args", nilArr (exprs as))]
  | .dot l q i => .obj [(cs!"Left", expr l), (cs!"Dot", pos q), (cs!"Right", ident i)]
  | .basicLit q k v => .obj [(cs!"ValuePos", pos q), (cs!"Kind", tok k), (cs!"Value", .str v)]
  | .list q vs => .obj [(cs!"Lsquare", pos q), (cs!"Values", nilArr (exprs vs))]
  | .dict q kvs => .obj [(cs!"Lcurlybrace", pos q), (cs!"Entries", .arr (pairs kvs))]
  | .curlyName q ps => .obj [(cs!"CurlyName", pos q), (cs!"Parts", nilArr (exprs ps))]
  | .curlyNameLit q v => .obj [(cs!"CurlyNameLit", pos q), (cs!"Value", .str v)]
  | .curlyNameExpr q e => .obj [(cs!"CurlyNameExpr", pos q), (cs!"Value", expr e)]
  | .ident i => ident i
  | .lambda q ps e => .obj [(cs!"Lcurlybrace", pos q), (cs!"Params", .arr (ps.map ident)), (cs!"Expr", expr e)]
  | .paren q x => .obj [(cs!"Lparen", pos q), (cs!"X", expr x)]
  | .heredoc q fl m b =>
    .obj [(cs!"OpPos", pos q), (cs!"Flags", .arr (exprs fl)), (cs!"EndMarker", .str m), (cs!"Body", nilArr (exprs b))]
def exprO : Option Ast.Expr → Json
  | none => .null
  | some e => expr e
def exprs : List Ast.Expr → List Json
  | [] => []
  | e :: es => expr e :: exprs es
/-- `ast.KeyValue`, ast/node.go:492-496 -/
def pairs : List (Ast.Expr × Ast.Expr) → List Json
  | [] => []
  | (k, v) :: kvs => .obj [(cs!"Key", expr k), (cs!"Value", expr v)] :: pairs kvs
end

/-- `ast.FuncAttr`, ast/node.go:75-80 -/
def attr (a : FuncAttr) : Json :=
  .obj [(cs!"Range", .bool a.range), (cs!"Abort", .bool a.abort), (cs!"Dict", .bool a.dict), (cs!"Closure", .bool a.closure)]

/-- An end command; the first field is called after the command (`EndFunc` for `EndFunction`). -/
def endCmd (field : Str) (e : Ast.EndCmd) : Json := .obj [(field, pos e.pos), (cs!"ExArg", exArg e.ea)]

mutual
/-- Statement nodes, ast/node.go:43-390.  `Comment` embeds the interface `Statement`, which is nil. -/
def stmt : Ast.Stmt → Json
  | .comment q t => .obj [(cs!"Statement", .null), (cs!"Quote", pos q), (cs!"Text", .str t)]
  | .excmd q ea s => .obj [(cs!"Excmd", pos q), (cs!"Command", .str s), (cs!"ExArg", exArg ea)]
  | .function q ea b n ps ds a e =>
    .obj [(cs!"Func", pos q), (cs!"ExArg", exArg ea), (cs!"Body", nilArr (stmts b)), (cs!"Name", expr n),
      (cs!"Params", .arr (ps.map ident)), (cs!"DefaultArgs", .arr (exprs ds)), (cs!"Attr", attr a),
      (cs!"EndFunction", endCmd cs!"EndFunc" e)]
  | .delFunction q ea n => .obj [(cs!"DelFunc", pos q), (cs!"ExArg", exArg ea), (cs!"Name", expr n)]
  | .return_ q ea r => .obj [(cs!"Return", pos q), (cs!"ExArg", exArg ea), (cs!"Result", exprO r)]
  | .exCall q ea f p as =>
    .obj [(cs!"ExCall", pos q), (cs!"ExArg", exArg ea),
      (cs!"FuncCall", .obj [(cs!"Fun", expr f), (cs!"Lparen", pos p), (cs!"Args", nilArr (exprs as))])]
  | .let_ q ea op l ls rs r =>
    .obj [(cs!"Let", pos q), (cs!"ExArg", exArg ea), (cs!"Op", .str op), (cs!"Left", exprO l),
      (cs!"List", nilArr (exprs ls)), (cs!"Rest", exprO rs), (cs!"Right", expr r)]
  | .unLet q ea l => .obj [(cs!"UnLet", pos q), (cs!"ExArg", exArg ea), (cs!"List", nilArr (exprs l))]
  | .lockVar q ea d l =>
    .obj [(cs!"LockVar", pos q), (cs!"ExArg", exArg ea), (cs!"Depth", .num d), (cs!"List", nilArr (exprs l))]
  | .unLockVar q ea d l =>
    .obj [(cs!"UnLockVar", pos q), (cs!"ExArg", exArg ea), (cs!"Depth", .num d), (cs!"List", nilArr (exprs l))]
  | .if_ q ea b c ei el e =>
    .obj [(cs!"If", pos q), (cs!"ExArg", exArg ea), (cs!"Body", nilArr (stmts b)), (cs!"Condition", expr c),
      (cs!"ElseIf", nilArr (stmts ei)), (cs!"Else", stmtO el), (cs!"EndIf", endCmd cs!"EndIf" e)]
  | .elseIf q ea b c =>
    .obj [(cs!"ElseIf", pos q), (cs!"ExArg", exArg ea), (cs!"Body", nilArr (stmts b)), (cs!"Condition", expr c)]
  | .else_ q ea b => .obj [(cs!"Else", pos q), (cs!"ExArg", exArg ea), (cs!"Body", nilArr (stmts b))]
  | .while_ q ea b c e =>
    .obj [(cs!"While", pos q), (cs!"ExArg", exArg ea), (cs!"Body", nilArr (stmts b)), (cs!"Condition", expr c),
      (cs!"EndWhile", endCmd cs!"EndWhile" e)]
  | .for_ q ea b l ls rs r e =>
    .obj [(cs!"For", pos q), (cs!"ExArg", exArg ea), (cs!"Body", nilArr (stmts b)), (cs!"Left", exprO l),
      (cs!"List", nilArr (exprs ls)), (cs!"Rest", exprO rs), (cs!"Right", expr r), (cs!"EndFor", endCmd cs!"EndFor" e)]
  | .continue_ q ea => .obj [(cs!"Continue", pos q), (cs!"ExArg", exArg ea)]
  | .break_ q ea => .obj [(cs!"Break", pos q), (cs!"ExArg", exArg ea)]
  | .try_ q ea b cs fi e =>
    .obj [(cs!"Try", pos q), (cs!"ExArg", exArg ea), (cs!"Body", nilArr (stmts b)), (cs!"Catch", nilArr (stmts cs)),
      (cs!"Finally", stmtO fi), (cs!"EndTry", endCmd cs!"EndTry" e)]
  | .catch_ q ea b p =>
    .obj [(cs!"Catch", pos q), (cs!"ExArg", exArg ea), (cs!"Body", nilArr (stmts b)), (cs!"Pattern", .str p)]
  | .finally_ q ea b => .obj [(cs!"Finally", pos q), (cs!"ExArg", exArg ea), (cs!"Body", nilArr (stmts b))]
  | .throw q ea e => .obj [(cs!"Throw", pos q), (cs!"ExArg", exArg ea), (cs!"Expr", expr e)]
  | .eval q ea e => .obj [(cs!"Eval", pos q), (cs!"ExArg", exArg ea), (cs!"Expr", expr e)]
  | .echoCmd q n ea l =>
    .obj [(cs!"Start", pos q), (cs!"CmdName", .str n), (cs!"ExArg", exArg ea), (cs!"Exprs", nilArr (exprs l))]
  | .echohl q ea n => .obj [(cs!"Echohl", pos q), (cs!"ExArg", exArg ea), (cs!"Name", .str n)]
  | .execute q ea l => .obj [(cs!"Execute", pos q), (cs!"ExArg", exArg ea), (cs!"Exprs", nilArr (exprs l))]
def stmts : List Ast.Stmt → List Json
  | [] => []
  | s :: ss => stmt s :: stmts ss
def stmtO : Option Ast.Stmt → Json
  | none => .null
  | some s => stmt s
end

/-- `ast.File`, ast/node.go:35-38 -/
def file (f : Ast.File) : Json := .obj [(cs!"Start", pos f.start), (cs!"Body", nilArr (stmts f.body))]

/-! ### Values as text -/

/-- A lower-case hexadecimal digit. -/
def hexDigit (n : Nat) : Char := if n < 10 then Char.ofNat (48 + n) else Char.ofNat (87 + n)

/-- `\\u` and four hexadecimal digits. -/
def hexEscape (n : Nat) : Str :=
  ['\\', 'u', hexDigit (n / 4096 % 16), hexDigit (n / 256 % 16), hexDigit (n / 16 % 16), hexDigit (n % 16)]

/-- One character of a string, escaped for JSON in HTML (`appendString` of encoding/json).  `short` says whether there
are short escapes for backspace and form feed, as there are since Go 1.22. -/
def escapeChar (short : Bool) (c : Char) : Str :=
  if c = '"' then cs!"\\\"" else if c = '\\' then cs!"\\\\"
  else if c = '\n' then cs!"\\n" else if c = '\r' then cs!"\\r" else if c = '\t' then cs!"\\t"
  else if short && c = '\x08' then cs!"\\b" else if short && c = '\x0c' then cs!"\\f"
  else if c.toNat < 32 ∨ c = '<' ∨ c = '>' ∨ c = '&' ∨ c.toNat = 8232 ∨ c.toNat = 8233 then hexEscape c.toNat
  else [c]

def writeStr (short : Bool) (s : Str) : Str := '"' :: (s.flatMap (escapeChar short) ++ ['"'])

/-- A new line, indented by four blanks per level. -/
def newline (d : Nat) : Str := '\n' :: List.replicate (4 * d) ' '

mutual
/-- The text of a value on level `d`. -/
def write (short : Bool) (d : Nat) : Json → Str
  | .null => cs!"null"
  | .bool true => cs!"true"
  | .bool false => cs!"false"
  | .num n => natStr n
  | .str s => writeStr short s
  | .arr [] => cs!"[]"
  | .arr (v :: vs) => '[' :: (newline (d + 1) ++ write short (d + 1) v ++ writeItems short d vs ++ newline d ++ [']'])
  | .obj [] => cs!"{}"
  | .obj ((k, v) :: ms) =>
    '{' :: (newline (d + 1) ++ writeStr short k ++ cs!": " ++ write short (d + 1) v ++ writeMembers short d ms ++
      newline d ++ ['}'])
def writeItems (short : Bool) (d : Nat) : List Json → Str
  | [] => []
  | v :: vs => ',' :: (newline (d + 1) ++ write short (d + 1) v ++ writeItems short d vs)
def writeMembers (short : Bool) (d : Nat) : List (Str × Json) → Str
  | [] => []
  | (k, v) :: ms =>
    ',' :: (newline (d + 1) ++ writeStr short k ++ cs!": " ++ write short (d + 1) v ++ writeMembers short d ms)
end

mutual
/-- How deep arrays and objects are nested. -/
def depth : Json → Nat
  | .arr l => depths l + 1
  | .obj l => depthsM l + 1
  | _ => 0
def depths : List Json → Nat
  | [] => 0
  | v :: vs => max (depth v) (depths vs)
def depthsM : List (Str × Json) → Nat
  | [] => 0
  | (_, v) :: ms => max (depth v) (depthsM ms)
end

/-- What differs between versions of encoding/json: the short escapes, and the depth beyond which the indentation fails
(`maxNestingDepth` of scanner.go: 10000 since Go 1.15, none before). -/
structure Lib where
  short : Bool
  limit : Option Nat
deriving DecidableEq, Repr, Inhabited

/-- `Encode`: the text and a line feed; `none` is an error ("exceeded max depth"), after which nothing is written. -/
def encode (lib : Lib) (f : Ast.File) : Option Str :=
  if (match lib.limit with | none => true | some n => depth (file f) ≤ n) then some (write lib.short 0 (file f) ++ ['\n'])
  else none

end Json
end Viml
