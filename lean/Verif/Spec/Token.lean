/-
Specification vocabulary for C11 and C12: what it means to read a piece of text, and the shape of the
text of every kind of token.  Nothing here refers to the tokenizer.
-/
import Verif.Model.Prog

namespace Viml.Spec

/-- Reading the text `v` takes the reader from `r` to `r'`: the cells in between are exactly the
characters of `v`. -/
def Reads (r : List Cell) (v : Str) (r' : List Cell) : Prop :=
  ∃ pre : List Cell, r = pre ++ r' ∧ pre.map Cell.c = v.map some

/-- Non-empty text all of whose characters satisfy `f`. -/
def Many1 (f : Char → Bool) (v : Str) : Prop := v ≠ [] ∧ ∀ c ∈ v, f c = true

/-- The exponent of a float: `e`, an optional sign, digits. -/
def Exponent (v : Str) : Prop :=
  ∃ e sgn d, (e = 'e' ∨ e = 'E') ∧ (sgn = [] ∨ sgn = ['+'] ∨ sgn = ['-']) ∧ Many1 isdigit d ∧
    v = e :: (sgn ++ d)

/-- Numbers: `0x1f`, `0b01`, `12`, `1.5`, `1.5e-3`. -/
inductive Number : Str → Prop
  | hex (x : Char) (d : Str) : x = 'x' ∨ x = 'X' → Many1 isxdigit d → Number ('0' :: x :: d)
  | bin (x : Char) (d : Str) : x = 'b' ∨ x = 'B' → Many1 (fun c => c == '0' || c == '1') d →
      Number ('0' :: x :: d)
  | dec (d : Str) : Many1 isdigit d → Number d
  | float (d f : Str) : Many1 isdigit d → Many1 isdigit f → Number (d ++ '.' :: f)
  | exp (d f e : Str) : Many1 isdigit d → Many1 isdigit f → Exponent e → Number (d ++ '.' :: f ++ e)

/-- Blob bytes: pairs of hexadecimal digits, possibly with dots before a pair. -/
inductive BlobBody : Str → Prop
  | nil : BlobBody []
  | pair (s : Str) (a b : Char) : BlobBody s → isxdigit a = true → isxdigit b = true →
      BlobBody (s ++ [a, b])
  | dot (s : Str) : BlobBody s → BlobBody (s ++ ['.'])

/-- Text of a comparison operator without its case suffix. -/
def cmpText : CmpK → Str
  | .equal => ['=', '='] | .nequal => ['!', '='] | .greater => ['>'] | .gequal => ['>', '=']
  | .smaller => ['<'] | .sequal => ['<', '='] | .match_ => ['=', '~'] | .nomatch => ['!', '~']
  | .is_ => ['i', 's'] | .isnot => ['i', 's', 'n', 'o', 't']

def caseText : CaseM → Str
  | .plain => [] | .ci => ['?'] | .cs => ['#']

/-- The shape of the text of a token of every type. -/
def Shape : TT → Str → Prop
  | .number, v => Number v
  | .blob, v => ∃ z b, (z = 'z' ∨ z = 'Z') ∧ BlobBody b ∧ v = '0' :: z :: b
  | .identifier, v => ∃ c s, v = c :: s ∧ iswordc1 c = true ∧ ∀ x ∈ s, isnamec x = true
  | .env, v => ∃ s, v = '$' :: s ∧ ∀ x ∈ s, iswordc x = true
  | .reg, v => v = ['@'] ∨ ∃ c, v = ['@', c]
  | .option, v => ∃ pre s, (pre = ['&'] ∨ pre = ['&', 'g', ':'] ∨ pre = ['&', 'l', ':']) ∧
      (∀ x ∈ s, iswordc x = true) ∧ v = pre ++ s
  | .cmp k m, v => v = cmpText k ++ caseText m
  | .oror, v => v = ['|', '|'] | .andand, v => v = ['&', '&']
  | .plus, v => v = ['+'] | .minus, v => v = ['-'] | .dot, v => v = ['.'] | .star, v => v = ['*']
  | .slash, v => v = ['/'] | .percent, v => v = ['%'] | .not_, v => v = ['!']
  | .question, v => v = ['?'] | .colon, v => v = [':'] | .popen, v => v = ['(']
  | .pclose, v => v = [')'] | .sqopen, v => v = ['['] | .sqclose, v => v = [']']
  | .copen, v => v = ['{'] | .cclose, v => v = ['}'] | .comma, v => v = [',']
  | .squote, v => v = ['\''] | .dquote, v => v = ['"'] | .eq, v => v = ['='] | .or_, v => v = ['|']
  | .semicolon, v => v = [';'] | .backtick, v => v = ['`'] | .dotdotdot, v => v = ['.', '.', '.']
  | .sharp, v => v = ['#'] | .arrow, v => v = ['-', '>'] | .litcopen, v => v = ['#', '{']
  | .dotdot, v => v = ['.', '.']
  | .eof, _ => False | .eol, _ => False | .space, _ => False

end Viml.Spec

namespace Viml
open Spec

/-- The position of the reader. -/
def posOf (env : Env) (r : List Cell) : Pos :=
  match r with
  | [] => env.eof
  | c :: _ => c.pos

/-- A position of the input: of one of its characters or line ends, or the end of file. -/
def PosOK (env : Env) (q : Pos) : Prop := (∃ c ∈ env.buf, c.pos = q) ∨ q = env.eof

/-- Failures with a position of the input. -/
def ErrOK (env : Env) : Fail → Prop
  | .err _ q => PosOK env q
  | _ => False

/-- One token read from `r`: leading white space, then the text of the token. -/
inductive TokAt (env : Env) : List Cell → Token → List Cell → Prop
  | eof (w : Str) (r : List Cell) : Reads r w [] → (∀ c ∈ w, iswhite c = true) →
      TokAt env r ⟨.eof, ['<', 'E', 'O', 'F', '>'], env.eof⟩ []
  | eol (w : Str) (r : List Cell) (c : Cell) (r' : List Cell) : Reads r w (c :: r') →
      (∀ c ∈ w, iswhite c = true) → c.c = none → TokAt env r ⟨.eol, ['<', 'E', 'O', 'L', '>'], c.pos⟩ r'
  | text (w : Str) (r r1 : List Cell) (ty : TT) (v : Str) (r' : List Cell) : Reads r w r1 →
      (∀ c ∈ w, iswhite c = true) → Reads r1 v r' → v ≠ [] → Shape ty v →
      (∀ c, v.head? = some c → iswhite c = false) → TokAt env r ⟨ty, v, posOf env r1⟩ r'

/-- The symbol at the reader: a character, the end of the line or the end of the input. -/
def headSym (r : List Cell) : Sym :=
  match r with
  | [] => .eof
  | c :: _ => c.sym

end Viml
