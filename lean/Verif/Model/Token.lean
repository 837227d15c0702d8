/-
The expression tokenizer, go/vimlparser.go:1988-2359 (`get_sstring`, `get_dstring` and
`parse_dict_literal_key` are with the expression parser in Model/ExprParser.lean).
-/
import Verif.Model.Prog

namespace Viml
open Prog

/-- `self.token(type, value, pos)`, go/type.go:152-154 -/
def mkTok (ty : TT) (v : Str) (q : Pos) : Prog Token := pure ⟨ty, v, q⟩

/-- The three-way branch on a case suffix used by every comparison operator:
`op?`, `op#` or plain `op` where `op` has `n` characters (go/vimlparser.go:2048-2184).
Simplification: the twelve textual copies of this branch are one function. -/
def cmpTok (k : CmpK) (op : Str) (q : Pos) : Prog Token := do
  let n := op.length
  let c ← p n
  if c = .ch '?' then
    seekCur (n + 1)
    mkTok (.cmp k .ci) (op ++ cs!"?") q
  else if c = .ch '#' then
    seekCur (n + 1)
    mkTok (.cmp k .cs) (op ++ cs!"#") q
  else
    seekCur n
    mkTok (.cmp k .plain) op q

/-- `r.seek_cur(n); return self.token(ty, s, pos)` -/
def advTok (ty : TT) (s : Str) (q : Pos) : Prog Token := do
  seekCur s.length
  mkTok ty s q

/-- `r.p(k) == c` -/
def pIs (k : Nat) (c : Char) : Prog Bool := do return (← p k) = .ch c
/-- `isX(r.p(k))` -/
def pSat (k : Nat) (f : Char → Bool) : Prog Bool := do return (← p k).is f

/-- Tokens of one or more characters that are decided by the first character `c` alone or by `c`
and one or two more characters: the tail of the if-else chain, go/vimlparser.go:2145-2273. -/
def get2Punct (c : Char) (q : Pos) : Prog Token := do
  if c = '>' then cmpTok .greater cs!">" q
  else if c = '<' then cmpTok .smaller cs!"<" q
  else if c = '+' then advTok .plus cs!"+" q
  else if c = '-' then
    if ← pIs 1 '>' then advTok .arrow cs!"->" q else advTok .minus cs!"-" q
  else if c = '.' then
    if ← pand (pIs 1 '.') (pIs 2 '.') then advTok .dotdotdot cs!"..." q
    else if ← pIs 1 '.' then advTok .dotdot cs!".." q
    else advTok .dot cs!"." q
  else if c = '*' then advTok .star cs!"*" q
  else if c = '/' then advTok .slash cs!"/" q
  else if c = '%' then advTok .percent cs!"%" q
  else if c = '!' then advTok .not_ cs!"!" q
  else if c = '?' then advTok .question cs!"?" q
  else if c = ':' then advTok .colon cs!":" q
  else if c = '#' then
    if ← pIs 1 '{' then advTok .litcopen cs!"#{" q else advTok .sharp cs!"#" q
  else if c = '(' then advTok .popen cs!"(" q
  else if c = ')' then advTok .pclose cs!")" q
  else if c = '[' then advTok .sqopen cs!"[" q
  else if c = ']' then advTok .sqclose cs!"]" q
  else if c = '{' then advTok .copen cs!"{" q
  else if c = '}' then advTok .cclose cs!"}" q
  else if c = ',' then advTok .comma cs!"," q
  else if c = '\'' then advTok .squote cs!"'" q
  else if c = '"' then advTok .dquote cs!"\"" q
  else if c = '$' then
    let s ← getn 1
    let t ← readWord
    mkTok .env (s ++ t) q
  else if c = '@' then
    let s ← getn 2
    mkTok .reg s q
  else if c = '&' then
    if ← pand (por (pIs 1 'g') (pIs 1 'l')) (pIs 2 ':') then
      let s ← getn 3
      let t ← readWord
      mkTok .option (s ++ t) q
    else
      let s ← getn 1
      let t ← readWord
      mkTok .option (s ++ t) q
  else if c = '=' then advTok .eq cs!"=" q
  else if c = '|' then advTok .or_ cs!"|" q
  else if c = ';' then advTok .semicolon cs!";" q
  else if c = '`' then advTok .backtick cs!"`" q
  else errHere (cs!"unexpected character: " ++ [c])

/-- Number tokens, go/vimlparser.go:2025-2047. -/
def get2Number (q : Pos) : Prog Token := do
  let s ← readDigit
  if ← pand (pIs 0 '.') (pSat 1 isdigit) then
    let d ← getn 1
    let t ← readDigit
    if ← pand (por (pIs 0 'E') (pIs 0 'e'))
        (por (pSat 1 isdigit) (pand (por (pIs 1 '-') (pIs 1 '+')) (pSat 2 isdigit))) then
      let e ← getn 2
      let u ← readDigit
      mkTok .number (s ++ d ++ t ++ e ++ u) q
    else mkTok .number (s ++ d ++ t) q
  else mkTok .number s q

/-- `get2`, go/vimlparser.go:2013-2274, in the order of the Go if-else chain. -/
def get2 : Prog Token := do
  let q ← getpos
  let c ← peek
  match c with
  | .eof => mkTok .eof cs!"<EOF>" q
  | .eol => do
    seekCur 1
    mkTok .eol cs!"<EOL>" q
  | .ch c => do
    if iswhite c then
      let s ← readWhite
      mkTok .space s q
    else if ← pand (pure (c == '0')) (pand (por (pIs 1 'X') (pIs 1 'x')) (pSat 2 isxdigit)) then
      let s ← getn 3
      let t ← readXdigit
      mkTok .number (s ++ t) q
    else if ← pand (pure (c == '0'))
        (pand (por (pIs 1 'B') (pIs 1 'b')) (por (pIs 2 '0') (pIs 2 '1'))) then
      let s ← getn 3
      let t ← readBdigit
      mkTok .number (s ++ t) q
    else if ← pand (pure (c == '0'))
        (pand (por (pIs 1 'Z') (pIs 1 'z')) (do return !(← pIs 2 '.'))) then
      let s ← getn 2
      let t ← readBlob
      mkTok .blob (s ++ t) q
    else if isdigit c then get2Number q
    else if ← pand (pure (c == 'i')) (pand (pIs 1 's') (do return !(← pSat 2 iswordc))) then
      cmpTok .is_ cs!"is" q
    else if ← pand (pure (c == 'i')) (pand (pIs 1 's') (pand (pIs 2 'n') (pand (pIs 3 'o')
        (pand (pIs 4 't') (do return !(← pSat 5 iswordc)))))) then
      cmpTok .isnot cs!"isnot" q
    else if iswordc1 c then
      let s ← readName
      mkTok .identifier s q
    else if ← pand (pure (c == '|')) (pIs 1 '|') then advTok .oror cs!"||" q
    else if ← pand (pure (c == '&')) (pIs 1 '&') then advTok .andand cs!"&&" q
    else if ← pand (pure (c == '=')) (pIs 1 '=') then cmpTok .equal cs!"==" q
    else if ← pand (pure (c == '!')) (pIs 1 '=') then cmpTok .nequal cs!"!=" q
    else if ← pand (pure (c == '>')) (pIs 1 '=') then cmpTok .gequal cs!">=" q
    else if ← pand (pure (c == '<')) (pIs 1 '=') then cmpTok .sequal cs!"<=" q
    else if ← pand (pure (c == '=')) (pIs 1 '~') then cmpTok .match_ cs!"=~" q
    else if ← pand (pure (c == '!')) (pIs 1 '~') then cmpTok .nomatch cs!"!~" q
    else get2Punct c q

/-- The body of `get` on a cache miss, go/vimlparser.go:2006-2009. -/
def getUncached : Prog Token := do
  skipWhite
  get2

/-- Meaning of one uncached token read. `getUncached` itself performs no token reads. -/
def tokGet (env : Env) (r : List Cell) : Res Token :=
  getUncached.runWith (fun _ _ => .fail .crash) env r

/-- Interpretation of parser programs without the tokenizer cache. -/
def Prog.run {α : Type} (env : Env) (m : Prog α) (r : List Cell) : Res α := m.runWith tokGet env r

/-- `self.tokenizer.get()` -/
def tokget : Prog Token := .tok pure

/-- `self.tokenizer.peek()`, go/vimlparser.go:1992-1997 -/
def tokpeek : Prog Token := do
  let s ← tell
  let t ← tokget
  seekSet s
  pure t

end Viml
