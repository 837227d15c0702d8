/-
The expression parser, go/vimlparser.go:2276-3313.

The mutual recursion of the Go methods goes through `parse_expr1` only (plus `parse_expr7`, which
calls itself), so every method takes the recursive `parse_expr1` as an argument `rec`; the knot is
tied in `parseExpr1F` with a step bound that is proved to be never reached.
-/
import Verif.Model.Token
import Verif.Model.Node

namespace Viml
open Prog

/-- Decimal rendering (`%d`). -/
def natStr (n : Nat) : Str := Nat.toDigits 10 n

/-- `panic(Err(viml_printf("unexpected token: %s", token.value), token.pos))` -/
def unexpected {α : Type} (t : Token) : Prog α := errAt (cs!"unexpected token: " ++ t.value) t.pos

/-- go/vimlparser.go:2276-2302 -/
def getSstring : Prog Str := do
  skipWhite
  let c ← p 0
  if c ≠ .ch '\'' then errHere (cs!"unexpected character: " ++ c.str)
  else
    seekCur 1
    loop (fun (s : Str) => do
      let c ← p 0
      match c with
      | .eof => errHere cs!"unexpected EOL"
      | .eol => errHere cs!"unexpected EOL"
      | .ch ch =>
        if ch = '\'' then
          seekCur 1
          if (← p 0) = .ch '\'' then
            seekCur 1
            pure (.inl (s ++ cs!"''"))
          else pure (.inr s)
        else
          seekCur 1
          pure (.inl (s ++ [ch]))) []

/-- go/vimlparser.go:2304-2334 -/
def getDstring : Prog Str := do
  skipWhite
  let c ← p 0
  if c ≠ .ch '"' then errHere (cs!"unexpected character: " ++ c.str)
  else
    seekCur 1
    loop (fun (s : Str) => do
      let c ← p 0
      match c with
      | .eof => errHere cs!"unexpectd EOL"
      | .eol => errHere cs!"unexpectd EOL"
      | .ch ch =>
        if ch = '"' then
          seekCur 1
          pure (.inr s)
        else if ch = '\\' then
          seekCur 1
          let d ← p 0
          match d with
          | .eof => errHere cs!"ExprTokenizer: unexpected EOL"
          | .eol => errHere cs!"ExprTokenizer: unexpected EOL"
          | .ch dh =>
            seekCur 1
            pure (.inl (s ++ [ch, dh]))
        else
          seekCur 1
          pure (.inl (s ++ [ch]))) []

/-- `isalnum(c) || c == "_" || c == "-"` -/
def isLitKeyC (c : Char) : Bool := isalnum c || c == '_' || c == '-'

/-- go/vimlparser.go:2336-2359.  As in Go the node position is taken after the first character. -/
def parseDictLiteralKey : Prog VExpr := do
  skipWhite
  let c ← peek
  if !c.is isLitKeyC then errHere (cs!"unexpected character: " ++ c.str)
  else
    seekCur 1
    let q ← getpos
    let s ← loop (fun (s : Str) => do
      let c ← p 0
      match c with
      | .eof => errHere cs!"unexpectd EOL"
      | .eol => errHere cs!"unexpectd EOL"
      | .ch ch =>
        if isLitKeyC ch then
          seekCur 1
          pure (.inl (s ++ [ch]))
        else pure (.inr s)) c.str
    pure (.atom q .string (cs!"'" ++ s ++ cs!"'"))

/-- A left-associative level: `left op next op next ...`.  Shared shape of parse_expr2, parse_expr3,
parse_expr5 and parse_expr6. -/
def binLoop (next : Prog VExpr) (ops : TT → Option BinTy) : Prog VExpr := do
  let left ← next
  loop (fun (left : VExpr) => do
    let s ← tell
    let t ← tokget
    match ops t.ty with
    | some op =>
      let right ← next
      pure (.inl (.binary t.pos op left right))
    | none =>
      seekSet s
      pure (.inr left)) left

def opsOr : TT → Option BinTy
  | .oror => some .or_
  | _ => none
def opsAnd : TT → Option BinTy
  | .andand => some .and_
  | _ => none
def opsCmp : TT → Option BinTy
  | .cmp k m => some (.cmp k m)
  | _ => none
def opsAdd : TT → Option BinTy
  | .plus => some .add
  | .minus => some .subtract
  | .dotdot => some .concat
  | .dot => some .concat
  | _ => none
def opsMul : TT → Option BinTy
  | .star => some .multiply
  | .slash => some .divide
  | .percent => some .remainder
  | _ => none
def opsUnary : TT → Option UnTy
  | .not_ => some .not_
  | .minus => some .minus
  | .plus => some .plus
  | _ => none

/-- `parse_rlist`, go/vimlparser.go:2838-2865. -/
def parseRlist (rec : Prog VExpr) : Prog (List VExpr) := do
  let t0 ← tokpeek
  let t1 ← tokpeek
  let (rlist, tk) ←
    if t1.ty = .pclose then do
      let _ ← tokget
      pure (([] : List VExpr), t0)
    else
      loop (fun (rl : List VExpr) => do
        let e ← rec
        let rl := rl ++ [e]
        let t ← tokget
        if t.ty = .comma then
          let t2 ← tokpeek
          if t2.ty = .pclose then
            let _ ← tokget
            pure (.inr (rl, t))
          else pure (.inl rl)
        else if t.ty = .pclose then pure (.inr (rl, t))
        else unexpected t) []
  if rlist.length > 20 then errAt cs!"E740: Too many arguments for function" tk.pos
  else pure rlist

/-- `parse_curly_parts`, go/vimlparser.go:3159-3203. -/
def parseCurlyParts (rec : Prog VExpr) : Prog (List VExpr) := do
  let c ← peek
  let q ← getpos
  let s5 ← peekn 5
  let start ←
    if c = .ch '<' ∧ equalci s5 cs!"<SID>" = true then do
      let name ← getn 5
      pure [VExpr.atom q .curlynamepart name]
    else pure []
  loop (fun (parts : List VExpr) => do
    let c ← peek
    if c.is isnamec then
      let q ← getpos
      let name ← readName
      pure (.inl (parts ++ [VExpr.atom q .curlynamepart name]))
    else if c = .ch '{' then
      let _ ← get
      let q ← getpos
      let e ← rec
      skipWhite
      let c ← p 0
      if c ≠ .ch '}' then errHere (cs!"unexpected token: " ++ c.str)
      else
        seekCur 1
        pure (.inl (parts ++ [VExpr.curlyexpr q e]))
    else pure (.inr parts)) start

/-- `parse_identifier`, go/vimlparser.go:3142-3157. -/
def parseIdentifier (rec : Prog VExpr) : Prog VExpr := do
  skipWhite
  let q ← getpos
  let parts ← parseCurlyParts rec
  match parts with
  | [.atom _ .curlynamepart v] => pure (.atom q .identifier v)
  | _ => pure (.curlyname q parts)

/-- Node types allowed on the left of a dot, go/vimlparser.go:3095. -/
def dotLeft : VExpr → Bool
  | .atom _ .identifier _ => true
  | .curlyname .. => true
  | .dict .. => true
  | .subscript .. => true
  | .call .. => true
  | .dot .. => true
  | _ => false

/-- `parse_dot`, go/vimlparser.go:3094-3115; `none` is Go `nil`. -/
def parseDot (t : Token) (left : VExpr) : Prog (Option VExpr) := do
  if !dotLeft left then pure none
  else if !(← p 0).is iswordc then pure none
  else
    let q ← getpos
    let name ← readWord
    if (← p 0).is isnamec then pure none
    else pure (some (.dot t.pos left q name))

/-- Expect `]`. -/
def expectSqclose : Prog Unit := do
  let t ← tokget
  if t.ty ≠ .sqclose then unexpected t else pure ()

/-- The optional upper bound of a slice and the closing bracket, go/vimlparser.go:2762-2769. -/
def sliceEnd (rec : Prog VExpr) (npos : Pos) (left : VExpr) (lo : Option VExpr) : Prog VExpr := do
  let t ← tokpeek
  let hi ←
    if t.ty ≠ .sqclose then do
      let e ← rec
      pure (some e)
    else pure none
  expectSqclose
  pure (.slice npos left lo hi)

/-- Subscript or slice after `[`, go/vimlparser.go:2757-2799 (and 3219-3262 in `parse_lv8`). -/
def parseSubscript (rec : Prog VExpr) (npos : Pos) (left : VExpr) : Prog VExpr := do
  let t ← tokpeek
  if t.ty = .colon then
    let _ ← tokget
    sliceEnd rec npos left none
  else
    let right ← rec
    let t ← tokpeek
    if t.ty = .colon then
      let _ ← tokget
      sliceEnd rec npos left (some right)
    else
      expectSqclose
      pure (.subscript npos left right)

/-- How the parameter list of a lambda ended. -/
inductive LambdaEnd
  | arrow (rlist : List (Pos × Str))
  | fallback
deriving Repr

/-- Loop over lambda parameters, go/vimlparser.go:2944-2995.  The state is the current token, the
keys of `named` and the parameters so far. -/
def lambdaParams (t0 : Token) : Prog LambdaEnd :=
  loop (fun (st : Token × List Str × List (Pos × Str)) => do
    let (t, named, rl) := st
    if t.ty = .arrow then pure (.inr (.arrow rl))
    else if t.ty = .identifier then
      if !isargname t.value then errAt (cs!"E125: Illegal argument: " ++ t.value) t.pos
      else if named.contains t.value then
        errAt (cs!"E853: Duplicate argument name: " ++ t.value) t.pos
      else
        let named := t.value :: named
        if ← pand (pSat 0 iswhite) (do return (← tokpeek).ty = .comma) then
          errHere cs!"E475: Invalid argument: White space is not allowed before comma"
        else
          let t2 ← tokget
          let rl := rl ++ [(t.pos, t.value)]
          if t2.ty = .comma then
            let t3 ← tokpeek
            if t3.ty = .arrow then
              let _ ← tokget
              pure (.inr (.arrow rl))
            else
              let t4 ← tokget
              pure (.inl (t4, named, rl))
          else if t2.ty = .arrow then pure (.inr (.arrow rl))
          else errAt (cs!"unexpected token: " ++ t2.value ++ cs!", type: " ++ natStr t2.ty.num) t2.pos
    else if t.ty = .dotdotdot then
      let rl := rl ++ [(t.pos, t.value)]
      let t2 ← tokpeek
      if t2.ty = .arrow then
        let _ ← tokget
        pure (.inr (.arrow rl))
      else unexpected t2
    else pure (.inr .fallback)) (t0, [], [])

/-- Dictionary items after `{` or `#{`, go/vimlparser.go:3009-3051; `start` is the reader position
before the brace, used to reparse `{expr}` as a curly name. -/
def parseDict (rec : Prog VExpr) (lit : Bool) (start : List Cell) (q : Pos) : Prog VExpr := do
  let t ← tokpeek
  if t.ty = .cclose then
    let _ ← tokget
    pure (.dict q [])
  else
    loop (fun (kvs : List (VExpr × VExpr)) => do
      let key ← if lit then parseDictLiteralKey else rec
      let t ← tokget
      if t.ty = .cclose then
        if !kvs.isEmpty then unexpected t
        else
          seekSet start
          let e ← parseIdentifier rec
          pure (.inr e)
      else if t.ty ≠ .colon then unexpected t
      else
        let val ← rec
        let kvs := kvs ++ [(key, val)]
        let t ← tokget
        if t.ty = .comma then
          let t2 ← tokpeek
          if t2.ty = .cclose then
            let _ ← tokget
            pure (.inr (.dict q kvs))
          else pure (.inl kvs)
        else if t.ty = .cclose then pure (.inr (.dict q kvs))
        else unexpected t) []

/-- Dictionary, lambda or curly name, go/vimlparser.go:2929-3051. -/
def parseBrace (rec : Prog VExpr) (start : List Cell) (t : Token) : Prog VExpr := do
  let lit := t.ty == .litcopen
  let save ← tell
  let t1 ← tokget
  let lambda ←
    if t1.ty = .arrow then pure true
    else if t1.ty = .squote ∨ t1.ty = .dquote then pure false
    else do
      let t2 ← tokpeek
      pure (t2.ty == .arrow || t2.ty == .comma)
  if lambda then
    let r ← lambdaParams t1
    match r with
    | .arrow rl =>
      let e ← rec
      let t2 ← tokget
      if t2.ty ≠ .cclose then unexpected t2
      else pure (.lambda t.pos rl e)
    | .fallback =>
      seekSet save
      parseDict rec lit start t.pos
  else
    seekSet save
    parseDict rec lit start t.pos

/-- List items after `[`, go/vimlparser.go:2904-2928. -/
def parseListItems (rec : Prog VExpr) (q : Pos) : Prog VExpr := do
  let t ← tokpeek
  if t.ty = .sqclose then
    let _ ← tokget
    pure (.list q [])
  else
    loop (fun (vs : List VExpr) => do
      let e ← rec
      let vs := vs ++ [e]
      let t ← tokpeek
      if t.ty = .comma then
        let _ ← tokget
        let t2 ← tokpeek
        if t2.ty = .sqclose then
          let _ ← tokget
          pure (.inr (.list q vs))
        else pure (.inl vs)
      else if t.ty = .sqclose then
        let _ ← tokget
        pure (.inr (.list q vs))
      else unexpected t) []

/-- Tokens that go/vimlparser.go:3074 treats as identifiers in operand position. -/
def isIsToken : TT → Bool
  | .cmp .is_ .plain | .cmp .is_ .cs | .cmp .isnot .plain | .cmp .isnot .cs => true
  | _ => false

/-- `parse_expr9`, go/vimlparser.go:2882-3089. -/
def expr9 (rec : Prog VExpr) : Prog VExpr := do
  let start ← tell
  let t ← tokget
  match t.ty with
  | .number => pure (.atom t.pos .number t.value)
  | .blob => pure (.atom t.pos .blob t.value)
  | .dquote => do
    seekSet start
    let s ← getDstring
    pure (.atom t.pos .string (cs!"\"" ++ s ++ cs!"\""))
  | .squote => do
    seekSet start
    let s ← getSstring
    pure (.atom t.pos .string (cs!"'" ++ s ++ cs!"'"))
  | .sqopen => parseListItems rec t.pos
  | .copen => parseBrace rec start t
  | .litcopen => parseBrace rec start t
  | .popen => do
    let e ← rec
    let t2 ← tokget
    if t2.ty ≠ .pclose then unexpected t2
    else pure (.paren t.pos e)
  | .option => pure (.atom t.pos .option t.value)
  | .identifier => do
    seekSet start
    parseIdentifier rec
  | .env => pure (.atom t.pos .env t.value)
  | .reg => pure (.atom t.pos .reg t.value)
  | .cmp .smaller .plain => do
    let s ← peekn 4
    if equalci s cs!"SID>" then
      seekSet start
      parseIdentifier rec
    else unexpected t
  | ty =>
    if isIsToken ty then do
      seekSet start
      parseIdentifier rec
    else unexpected t

/-- `parse_expr8`, go/vimlparser.go:2749-2836. -/
def expr8 (rec : Prog VExpr) : Prog VExpr := do
  let left ← expr9 rec
  loop (fun (left : VExpr) => do
    let s ← tell
    let c ← peek
    let t ← tokget
    if (!c.is iswhite && t.ty == .sqopen) = true then
      let e ← parseSubscript rec t.pos left
      pure (.inl e)
    else if t.ty = .arrow then
      let f ← expr9 rec
      let t2 ← tokget
      if t2.ty ≠ .popen then errAt cs!"E107: Missing parentheses: lambda" t2.pos
      else
        let rl ← parseRlist rec
        pure (.inl (.method t2.pos left (.call t2.pos f rl)))
    else if t.ty = .popen then
      let rl ← parseRlist rec
      pure (.inl (.call t.pos left rl))
    else if (!c.is iswhite && t.ty == .dot) = true then
      let r ← parseDot t left
      match r with
      | none =>
        seekSet s
        pure (.inr left)
      | some e => pure (.inl e)
    else
      seekSet s
      pure (.inr left)) left

/-- `parse_expr7`, go/vimlparser.go:2717-2740. -/
def expr7N (rec : Prog VExpr) : Nat → Prog VExpr
  | 0 => .fail .fuel
  | n + 1 => do
    let s ← tell
    let t ← tokget
    match opsUnary t.ty with
    | some op =>
      let e ← expr7N rec n
      pure (.unary t.pos op e)
    | none =>
      seekSet s
      expr8 rec

def expr7 (rec : Prog VExpr) : Prog VExpr := .tell fun r => expr7N rec (r.length + 1)

/-- `parse_expr6`, go/vimlparser.go:2683-2712 -/
def expr6 (rec : Prog VExpr) : Prog VExpr := binLoop (expr7 rec) opsMul
/-- `parse_expr5`, go/vimlparser.go:2641-2678 -/
def expr5 (rec : Prog VExpr) : Prog VExpr := binLoop (expr6 rec) opsAdd
/-- `parse_expr4`, go/vimlparser.go:2447-2635 -/
def expr4 (rec : Prog VExpr) : Prog VExpr := do
  let left ← expr5 rec
  let s ← tell
  let t ← tokget
  match opsCmp t.ty with
  | some op =>
    let right ← expr5 rec
    pure (.binary t.pos op left right)
  | none =>
    seekSet s
    pure left
/-- `parse_expr3`, go/vimlparser.go:2413-2431 -/
def expr3 (rec : Prog VExpr) : Prog VExpr := binLoop (expr4 rec) opsAnd
/-- `parse_expr2`, go/vimlparser.go:2393-2410 -/
def expr2 (rec : Prog VExpr) : Prog VExpr := binLoop (expr3 rec) opsOr

/-- `parse_expr1`, go/vimlparser.go:2371-2390 -/
def expr1 (rec : Prog VExpr) : Prog VExpr := do
  let left ← expr2 rec
  let s ← tell
  let t ← tokget
  if t.ty = .question then
    let l ← rec
    let t2 ← tokget
    if t2.ty ≠ .colon then unexpected t2
    else
      let r ← rec
      pure (.ternary t.pos left l r)
  else
    seekSet s
    pure left

/-- `parse_expr1` with its recursion bounded by the number of recursive calls. -/
def parseExpr1F : Nat → Prog VExpr
  | 0 => .fail .fuel
  | n + 1 => expr1 (parseExpr1F n)

/-- `ExprParser.parse`, go/vimlparser.go:2366-2368.  Each nested call of `parse_expr1` starts
strictly further in the input, so the number of cells left plus one bounds the nesting. -/
def parseExpr1 : Prog VExpr := .tell fun r => parseExpr1F (r.length + 1)

/-- `parse_lv9`, go/vimlparser.go:3283-3313 -/
def lv9 : Prog VExpr := do
  let start ← tell
  let t ← tokget
  match t.ty with
  | .copen => do
    seekSet start
    parseIdentifier parseExpr1
  | .option => pure (.atom t.pos .option t.value)
  | .identifier => do
    seekSet start
    parseIdentifier parseExpr1
  | .cmp .smaller .plain => do
    let s ← peekn 4
    if equalci s cs!"SID>" then
      seekSet start
      parseIdentifier parseExpr1
    else unexpected t
  | .env => pure (.atom t.pos .env t.value)
  | .reg => pure (.atom t.pos .reg t.value)
  | _ => unexpected t

/-- `parse_lv8` / `LvalueParser.parse`, go/vimlparser.go:3205-3277 -/
def lv8 : Prog VExpr := do
  let left ← lv9
  loop (fun (left : VExpr) => do
    let s ← tell
    let c ← peek
    let t ← tokget
    if (!c.is iswhite && t.ty == .sqopen) = true then
      let e ← parseSubscript parseExpr1 t.pos left
      pure (.inl e)
    else if (!c.is iswhite && t.ty == .dot) = true then
      let r ← parseDot t left
      match r with
      | none =>
        seekSet s
        pure (.inr left)
      | some e => pure (.inl e)
    else
      seekSet s
      pure (.inr left)) left

end Viml
