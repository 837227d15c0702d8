/-
Basic vocabulary shared by the whole model: strings as lists of code points,
source positions, reader cells and the character classes of the parser.
-/
import Lean.Elab.Term
import Lean.ToExpr

namespace Viml

/-- Go `string` values that come from decoded source text are modelled as lists of code points. -/
abbrev Str := List Char

/-- `cs!"abc"` is the explicit list `['a','b','c']` (notation only; keeps kernel reduction cheap). -/
elab:max "cs!" s:str : term => do
  return Lean.toExpr (s.getString.toList : List Char)

/-- go/type.go:89-94 `type pos struct { i, lnum, col, offset int }`. -/
structure Pos where
  i : Nat
  lnum : Nat
  col : Nat
  offset : Nat
deriving DecidableEq, Repr, Inhabited

/-- One element of `StringReader.buf` together with the element of `StringReader.pos` at the same
index (go/type.go:177-181).  `c = some r` is a one-rune string, `c = none` is the string `"<EOL>"`.
Simplification: `getpos` (go/type.go:236-240) copies `pos[i]` and stores `i` in it; here the index
is stored in the cell when the buffer is built, which is the same value. -/
structure Cell where
  c : Option Char
  pos : Pos
deriving DecidableEq, Repr, Inhabited

/-- The string returned by `peek`, `p` and `get`: one rune, `"<EOL>"` or `"<EOF>"`
(go/vimlparser.go:3335-3355).  A one-rune string is never equal to either five-rune marker, so the
three cases are disjoint exactly as in Go. -/
inductive Sym
  | ch (c : Char)
  | eol
  | eof
deriving DecidableEq, Repr, Inhabited

/-- The string a `Sym` stands for (used in error messages and in `node.str += get()`). -/
def Sym.str : Sym → Str
  | .ch c => [c]
  | .eol => cs!"<EOL>"
  | .eof => cs!"<EOF>"

def Cell.sym (c : Cell) : Sym :=
  match c.c with
  | some r => .ch r
  | none => .eol

/-! ### Character classes

go/vimlparser.go:175-234 with the regular expressions of go/vimlfunc.go:12-70.  Every one of these
patterns is anchored on both sides and matches exactly one rune, so it is modelled by a predicate on
the rune; on `""`, `"<EOL>"` and `"<EOF>"` all of them are false (`Sym.is`, `is1`). -/

def isUpperC (c : Char) : Bool := 65 ≤ c.toNat && c.toNat ≤ 90
def isLowerC (c : Char) : Bool := 97 ≤ c.toNat && c.toNat ≤ 122
/-- `isdigit`, go/vimlparser.go:183-185 -/
def isdigit (c : Char) : Bool := 48 ≤ c.toNat && c.toNat ≤ 57
/-- `isalpha`, go/vimlparser.go:175-177 -/
def isalpha (c : Char) : Bool := isUpperC c || isLowerC c
/-- `isalnum`, go/vimlparser.go:179-181 -/
def isalnum (c : Char) : Bool := isdigit c || isalpha c
/-- `isodigit`, go/vimlparser.go:187-189 -/
def isodigit (c : Char) : Bool := 48 ≤ c.toNat && c.toNat ≤ 55
/-- `isxdigit`, go/vimlparser.go:191-193 -/
def isxdigit (c : Char) : Bool :=
  isdigit c || (65 ≤ c.toNat && c.toNat ≤ 70) || (97 ≤ c.toNat && c.toNat ≤ 102)
/-- `iswordc`, go/vimlparser.go:195-197, and `isidc`, go/vimlparser.go:224-226 (same pattern) -/
def iswordc (c : Char) : Bool := isalnum c || c == '_'
/-- `iswordc1`, go/vimlparser.go:199-201, and `isnamec1`, go/vimlparser.go:211-213 (same pattern) -/
def iswordc1 (c : Char) : Bool := isalpha c || c == '_'
/-- `iswhite`, go/vimlparser.go:203-205 -/
def iswhite (c : Char) : Bool := c == ' ' || c == '\t'
/-- `isnamec`, go/vimlparser.go:207-209 -/
def isnamec (c : Char) : Bool := iswordc c || c == ':' || c == '#'
/-- `isupper`, go/vimlparser.go:228-230 -/
def isupper (c : Char) : Bool := isUpperC c
/-- `islower`, go/vimlparser.go:232-234 -/
def islower (c : Char) : Bool := isLowerC c
/-- Go regexp `\s`: `[\t\n\f\r ]`. -/
def isSpaceRe (c : Char) : Bool :=
  c == ' ' || c == '\t' || c == '\n' || c == '\x0c' || c == '\r'

/-- Apply a one-rune pattern to the result of `peek`/`p`. -/
def Sym.is (f : Char → Bool) : Sym → Bool
  | .ch c => f c
  | _ => false

/-- Apply a one-rune pattern to the result of `peekn(1)`. -/
def is1 (f : Char → Bool) : Str → Bool
  | [c] => f c
  | _ => false

/-- `isargname`, go/vimlparser.go:215-217: `^[A-Za-z_][0-9A-Za-z_]*$`. -/
def isargname : Str → Bool
  | c :: cs => iswordc1 c && cs.all iswordc
  | [] => false

/-- `[vgslabwt]` -/
def isScopeC (c : Char) : Bool := (cs!"vgslabwt").contains c

/-- `[A-Za-z_][0-9A-Za-z_#]*$` -/
def isVarBody : Str → Bool
  | c :: cs => iswordc1 c && cs.all (fun d => iswordc d || d == '#')
  | [] => false

/-- `isvarname`, go/vimlparser.go:219-221:
`^[vgslabwt]:$|^([vgslabwt]:)?[A-Za-z_][0-9A-Za-z_#]*$`. -/
def isvarname : Str → Bool
  | [] => false
  | [c] => isVarBody [c]
  | c :: d :: cs =>
    if isScopeC c && d == ':' then cs.isEmpty || isVarBody cs
    else isVarBody (c :: d :: cs)

/-- `strings.ToLower` on one rune, for comparison with ASCII text only (`viml_equalci`,
go/vimlfunc.go:86-88).  The only non-ASCII runes whose Unicode lower-case mapping is an ASCII letter
are U+0130 (to `i`) and U+212A (to `k`); all other non-ASCII runes are left unchanged here, and no
comparison in the program distinguishes them. -/
def lowerC (c : Char) : Char :=
  if isUpperC c then Char.ofNat (c.toNat + 32)
  else if c.toNat = 0x130 then 'i'
  else if c.toNat = 0x212a then 'k'
  else c

/-- `viml_equalci`, go/vimlfunc.go:86-88. -/
def equalci (a b : Str) : Bool := a.map lowerC == b.map lowerC

end Viml
