/-
Specification of the tokenizer in full: which text a token takes, depending on what follows it.
Nothing here refers to the tokenizer.
-/
import Verif.Spec.Expr

namespace Viml.Spec

/-- What comes next: the first character of `s`, or of the rest `r` if `s` is empty. -/
def nextSym (s : Str) (r : List Cell) : Sym :=
  match s with
  | c :: _ => .ch c
  | [] => headSym r

/-- The bytes of a blob literal: pairs of digits; a dot must be followed by a digit.  It ends where
neither follows; a digit followed by a character that is no digit is an error. -/
inductive BlobRun : Str → List Cell → Prop
  | stop (r : List Cell) : isHexPair (getnS 2 r).1 = false → isDotHex (getnS 2 r).1 = false →
      isHexNonHex (getnS 2 r).1 = false → BlobRun [] r
  | pair (a b : Char) (s : Str) (r : List Cell) : isxdigit a = true → isxdigit b = true →
      BlobRun s r → BlobRun (a :: b :: s) r
  | dot (s : Str) (r : List Cell) : (nextSym s r).is isxdigit = true → BlobRun s r → BlobRun ('.' :: s) r

/-- An exponent starts here: `e` or `E`, then a digit or a signed digit. -/
def ExpStart (r : List Cell) : Prop :=
  (headSym r = .ch 'e' ∨ headSym r = .ch 'E') ∧
  ((headSym r.tail).is isdigit = true ∨
    (headSym r.tail = .ch '+' ∨ headSym r.tail = .ch '-') ∧ (headSym r.tail.tail).is isdigit = true)

/-- After `0`: something that makes it a hexadecimal or binary number or a blob. -/
def ZeroPrefix (r : List Cell) : Prop :=
  ((headSym r = .ch 'x' ∨ headSym r = .ch 'X') ∧ (headSym r.tail).is isxdigit = true) ∨
  ((headSym r = .ch 'b' ∨ headSym r = .ch 'B') ∧ (headSym r.tail = .ch '0' ∨ headSym r.tail = .ch '1')) ∨
  ((headSym r = .ch 'z' ∨ headSym r = .ch 'Z') ∧ headSym r.tail ≠ .ch '.')

/-- Names that are read as the operators `is` and `isnot`: these words, or one of them and a character
that cannot be part of a plain word. -/
def isWord (v : Str) : Prop :=
  ∃ o s, (o = ['i', 's'] ∨ o = ['i', 's', 'n', 'o', 't']) ∧ v = o ++ s ∧
    ∀ c, s.head? = some c → iswordc c = false

/-- `Lexeme ty v r`: when the text `v` is followed by `r`, it is taken as a token of type `ty`. -/
inductive Lexeme : TT → Str → List Cell → Prop
  | hex (x : Char) (d : Str) (r : List Cell) : x = 'x' ∨ x = 'X' → Many1 isxdigit d →
      (headSym r).is isxdigit = false → Lexeme .number ('0' :: x :: d) r
  | bin (x : Char) (d : Str) (r : List Cell) : x = 'b' ∨ x = 'B' →
      Many1 (fun c => c == '0' || c == '1') d →
      (headSym r).is (fun c => c == '0' || c == '1') = false → Lexeme .number ('0' :: x :: d) r
  | dec (d : Str) (r : List Cell) : Many1 isdigit d → (headSym r).is isdigit = false →
      ¬ (headSym r = .ch '.' ∧ (headSym r.tail).is isdigit = true) → (d = ['0'] → ¬ ZeroPrefix r) →
      Lexeme .number d r
  | float (d f : Str) (r : List Cell) : Many1 isdigit d → Many1 isdigit f →
      (headSym r).is isdigit = false → ¬ ExpStart r → Lexeme .number (d ++ '.' :: f) r
  | exp (d f e : Str) (r : List Cell) : Many1 isdigit d → Many1 isdigit f → Exponent e →
      (headSym r).is isdigit = false → Lexeme .number (d ++ '.' :: f ++ e) r
  | blob (z : Char) (s : Str) (r : List Cell) : z = 'z' ∨ z = 'Z' → nextSym s r ≠ .ch '.' →
      BlobRun s r → Lexeme .blob ('0' :: z :: s) r
  | ident (c : Char) (s : Str) (r : List Cell) : iswordc1 c = true → (∀ x ∈ s, isnamec x = true) →
      (headSym r).is isnamec = false → ¬ isWord (c :: s) → Lexeme .identifier (c :: s) r
  | env (s : Str) (r : List Cell) : (∀ x ∈ s, iswordc x = true) → (headSym r).is iswordc = false →
      Lexeme .env ('$' :: s) r
  | reg (c : Char) (r : List Cell) : Lexeme .reg ['@', c] r
  | regEnd (r : List Cell) : (headSym r).is (fun _ => true) = false → Lexeme .reg ['@'] r
  | option (s : Str) (r : List Cell) : (∀ x ∈ s, iswordc x = true) → (headSym r).is iswordc = false →
      (s = [] → headSym r ≠ .ch '&') → (s = ['g'] ∨ s = ['l'] → headSym r ≠ .ch ':') →
      Lexeme .option ('&' :: s) r
  | optScope (g : Char) (s : Str) (r : List Cell) : g = 'g' ∨ g = 'l' → (∀ x ∈ s, iswordc x = true) →
      (headSym r).is iswordc = false → Lexeme .option ('&' :: g :: ':' :: s) r
  | cmp (k : CmpK) (r : List Cell) : headSym r ≠ .ch '?' → headSym r ≠ .ch '#' →
      (k = .greater ∨ k = .smaller → headSym r ≠ .ch '=') →
      (k = .is_ ∨ k = .isnot → (headSym r).is iswordc = false) →
      Lexeme (.cmp k .plain) (cmpText k) r
  | cmpCase (k : CmpK) (m : CaseM) (r : List Cell) : m ≠ .plain →
      Lexeme (.cmp k m) (cmpText k ++ caseText m) r
  | oror (r : List Cell) : Lexeme .oror ['|', '|'] r
  | andand (r : List Cell) : Lexeme .andand ['&', '&'] r
  | plus (r : List Cell) : Lexeme .plus ['+'] r
  | minus (r : List Cell) : headSym r ≠ .ch '>' → Lexeme .minus ['-'] r
  | arrow (r : List Cell) : Lexeme .arrow ['-', '>'] r
  | dot (r : List Cell) : headSym r ≠ .ch '.' → Lexeme .dot ['.'] r
  | dotdot (r : List Cell) : headSym r ≠ .ch '.' → Lexeme .dotdot ['.', '.'] r
  | dotdotdot (r : List Cell) : Lexeme .dotdotdot ['.', '.', '.'] r
  | star (r : List Cell) : Lexeme .star ['*'] r
  | slash (r : List Cell) : Lexeme .slash ['/'] r
  | percent (r : List Cell) : Lexeme .percent ['%'] r
  | not_ (r : List Cell) : headSym r ≠ .ch '=' → headSym r ≠ .ch '~' → Lexeme .not_ ['!'] r
  | question (r : List Cell) : Lexeme .question ['?'] r
  | colon (r : List Cell) : Lexeme .colon [':'] r
  | sharp (r : List Cell) : headSym r ≠ .ch '{' → Lexeme .sharp ['#'] r
  | litcopen (r : List Cell) : Lexeme .litcopen ['#', '{'] r
  | popen (r : List Cell) : Lexeme .popen ['('] r
  | pclose (r : List Cell) : Lexeme .pclose [')'] r
  | sqopen (r : List Cell) : Lexeme .sqopen ['['] r
  | sqclose (r : List Cell) : Lexeme .sqclose [']'] r
  | copen (r : List Cell) : Lexeme .copen ['{'] r
  | cclose (r : List Cell) : Lexeme .cclose ['}'] r
  | comma (r : List Cell) : Lexeme .comma [','] r
  | squote (r : List Cell) : Lexeme .squote ['\''] r
  | dquote (r : List Cell) : Lexeme .dquote ['"'] r
  | eq (r : List Cell) : headSym r ≠ .ch '=' → headSym r ≠ .ch '~' → Lexeme .eq ['='] r
  | or_ (r : List Cell) : headSym r ≠ .ch '|' → Lexeme .or_ ['|'] r
  | semicolon (r : List Cell) : Lexeme .semicolon [';'] r
  | backtick (r : List Cell) : Lexeme .backtick ['`'] r

/-- One token read from `r`, in full: white space, then a lexeme or the end of the line or input. -/
inductive Lex (env : Env) : List Cell → Token → List Cell → Prop
  | eof (w : Str) (r : List Cell) : Reads r w [] → (∀ c ∈ w, iswhite c = true) →
      Lex env r ⟨.eof, ['<', 'E', 'O', 'F', '>'], env.eof⟩ []
  | eol (w : Str) (r : List Cell) (c : Cell) (r' : List Cell) : Reads r w (c :: r') →
      (∀ c ∈ w, iswhite c = true) → c.c = none → Lex env r ⟨.eol, ['<', 'E', 'O', 'L', '>'], c.pos⟩ r'
  | text (w : Str) (r r1 : List Cell) (ty : TT) (v : Str) (r' : List Cell) : Reads r w r1 →
      (∀ c ∈ w, iswhite c = true) → Reads r1 v r' → Lexeme ty v r' → Lex env r ⟨ty, v, posOf env r1⟩ r'

/-- The whole token that starts at `q` has the text `v`. -/
def LexAt (env : Env) (fn : Str) (q : Ast.Pos) (v : Str) : Prop :=
  ∃ r r' ty, At env fn q r ∧ Reads r v r' ∧ Lexeme ty v r'

/-- The operator of a node is the token that stands at its position; `..` is a synonym of `.`.  A literal
that is not a string is a whole token, too. -/
def opOK (env : Env) (fn : Str) : Ast.Expr → Prop
  | .binary _ q op _ => ∃ v, LexAt env fn q v ∧ (v = op.str ∨ op = .DOT ∧ v = ['.', '.'])
  | .unary q op _ => LexAt env fn q op.str
  | .basicLit q k v => k ≠ .STRING → LexAt env fn q v
  | _ => True

end Viml.Spec
