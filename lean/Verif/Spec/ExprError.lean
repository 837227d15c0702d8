/-
The errors of expressions: which text is no expression, what the message is and where it points.

`GErr k r m q` says that reading an expression of level `k` at `r` ends with the message `m` at the position `q`.
It follows the grammar of `Spec/Grammar.lean`: a correct beginning, and then something that cannot follow.
Nothing here refers to the parser.
-/
import Verif.Spec.LexError
import Verif.Spec.File

namespace Viml.Spec

/-- The next token is not of one of the types `p`, or there is none. -/
inductive Want (env : Env) : List Cell → (TT → Prop) → Str → Pos → Prop
  | lex {r p m q} : LexErr env r m q → Want env r p m q
  | token {r p t r'} : Lex env r t r' → ¬ p t.ty → Want env r p (cs!"unexpected token: " ++ t.value) t.pos

/-- Tokens that are words in an expression: names, `is` and `isnot` (not followed by `?`). -/
def IsWord (ty : TT) : Prop :=
  ty = .identifier ∨ ∃ k c, ty = .cmp k c ∧ (k = .is_ ∨ k = .isnot) ∧ c ≠ .ci

/-- A token of type `ty`, followed by `r`, can start an operand. -/
def Operand (ty : TT) (r : List Cell) : Prop :=
  (∃ k, IsLit ty k) ∨ IsWord ty ∨
  ty = .dquote ∨ ty = .squote ∨ ty = .sqopen ∨ ty = .copen ∨ ty = .litcopen ∨ ty = .popen ∨
  (ty = .cmp .smaller .plain ∧ ∃ v r', Reads r v r' ∧ equalci v cs!"SID>" = true)

/-- A parameter of a lambda that is not one of `used`. -/
def LamParam (env : Env) (used : List Str) (r : List Cell) (v : Str) (r' : List Cell) : Prop :=
  ∃ t, Lex env r t r' ∧ t.ty = .identifier ∧ v = t.value ∧ isargname v = true ∧ v ∉ used

/-- The parameters of a lambda are wrong; `used` are the names before. -/
inductive LamErr (env : Env) : List Str → List Cell → Str → Pos → Prop
  | lex {used r m q} : LexErr env r m q → LamErr env used r m q
  | illegal {used r t r'} : Lex env r t r' → t.ty = .identifier → isargname t.value = false →
      LamErr env used r (cs!"E125: Illegal argument: " ++ t.value) t.pos
  | twice {used r t r'} : Lex env r t r' → t.ty = .identifier → isargname t.value = true → t.value ∈ used →
      LamErr env used r (cs!"E853: Duplicate argument name: " ++ t.value) t.pos
  | white {used r v r1} : LamParam env used r v r1 → (headSym r1).is iswhite = true → Next env r1 (· = .comma) →
      LamErr env used r cs!"E475: Invalid argument: White space is not allowed before comma" (posOf env r1)
  | afterLex {used r v r1 m q} : LamParam env used r v r1 → LexErr env r1 m q → LamErr env used r m q
  | after {used r v r1 t r'} : LamParam env used r v r1 → Lex env r1 t r' → t.ty ≠ .comma → t.ty ≠ .arrow →
      LamErr env used r (cs!"unexpected token: " ++ t.value ++ cs!", type: " ++ Nat.toDigits 10 t.ty.num) t.pos
  | more {used r v r1 t r2 m q} : LamParam env used r v r1 → (headSym r1).is iswhite = false → Lex env r1 t r2 →
      t.ty = .comma → LamErr env (v :: used) r2 m q → LamErr env used r m q
  | dots {used r t r1 m q} : Lex env r t r1 → t.ty = .dotdotdot → Want env r1 (· = .arrow) m q → LamErr env used r m q

/-- Names separated by commas, and after a comma something that is no parameter: this is read as a dictionary. -/
inductive Strays (env : Env) : List Str → List Cell → Prop
  | stop {used r v r1 t r2} : LamParam env used r v r1 → (headSym r1).is iswhite = false → Lex env r1 t r2 →
      t.ty = .comma → Next env r2 (fun ty => ty ≠ .arrow ∧ ty ≠ .identifier ∧ ty ≠ .dotdotdot) → Strays env used r
  | more {used r v r1 t r2} : LamParam env used r v r1 → (headSym r1).is iswhite = false → Lex env r1 t r2 →
      t.ty = .comma → Strays env (v :: used) r2 → Strays env used r

/-- What stands at `r` after a brace looks like the parameters of a lambda. -/
def LooksLambda (env : Env) (r : List Cell) : Prop :=
  ∃ t r1, Lex env r t r1 ∧ (t.ty = .identifier ∨ t.ty = .dotdotdot) ∧ Next env r1 (fun ty => ty = .arrow ∨ ty = .comma)

/-- A brace `{`, or `#{` if `lit`. -/
def Brace (env : Env) (r : List Cell) (lit : Bool) (r' : List Cell) : Prop :=
  ∃ t, Lex env r t r' ∧ t.ty = if lit then .litcopen else .copen

/-- Characters of a bare key. -/
def keyChar (c : Char) : Bool := isalnum c || c == '_' || c == '-'

/-- There is no bare key. -/
inductive LitErr (env : Env) : List Cell → Str → Pos → Prop
  | start {r r1} : Skip r r1 → (headSym r1).is keyChar = false →
      LitErr env r (cs!"unexpected character: " ++ (headSym r1).str) (posOf env r1)
  | stop {r r1 v r2} : Blanks r r1 → Reads r1 v r2 → Many1 keyChar v → AtEnd r2 →
      LitErr env r cs!"unexpectd EOL" (posOf env r2)

/-- A key of a dictionary; a bare key is all the text of this kind and stops before the end of the line. -/
def WholeKey (env : Env) (fn : Str) (lit : Bool) (r : List Cell) (r' : List Cell) : Prop :=
  ∃ k, Key env fn lit r k r' ∧ (lit = true → ∃ c, headSym r' = .ch c ∧ keyChar c = false)

/-- `n` arguments up to the closing parenthesis; `q` is the position of the token after the last one. -/
inductive Counted (env : Env) (fn : Str) : Nat → List Cell → Pos → Prop
  | last {r e r1 t r2} : Gram env fn 1 r e r1 → Lex env r1 t r2 → t.ty = .pclose → Counted env fn 1 r t.pos
  | comma {r e r1 t r2} : Gram env fn 1 r e r1 → Lex env r1 t r2 → t.ty = .comma → Next env r2 (· = .pclose) →
      Counted env fn 1 r t.pos
  | more {n r e r1 t r2 q} : Gram env fn 1 r e r1 → Lex env r1 t r2 → t.ty = .comma → Counted env fn n r2 q →
      Counted env fn (n + 1) r q

mutual

/-- Reading an expression of level `k` at `r` fails with the message `m` at the position `q`. -/
inductive GErr (env : Env) (fn : Str) : Nat → List Cell → Str → Pos → Prop
  -- the first operand of a level; level 7 is below
  | first {k r m q} : 1 ≤ k → k ≤ 8 → k ≠ 7 → GErr env fn (k + 1) r m q → GErr env fn k r m q
  -- level 1
  | noOp1 {r c r1 m q} : Gram env fn 2 r c r1 → LexErr env r1 m q → GErr env fn 1 r m q
  | thenPart {r c r1 q0 r2 m q} : Gram env fn 2 r c r1 → Mark env fn r1 .question q0 r2 → GErr env fn 1 r2 m q →
      GErr env fn 1 r m q
  | colon {r c r1 q0 r2 a r3 m q} : Gram env fn 2 r c r1 → Mark env fn r1 .question q0 r2 → Gram env fn 1 r2 a r3 →
      Want env r3 (· = .colon) m q → GErr env fn 1 r m q
  | elsePart {r c r1 q0 r2 a r3 q1 r4 m q} : Gram env fn 2 r c r1 → Mark env fn r1 .question q0 r2 →
      Gram env fn 1 r2 a r3 → Mark env fn r3 .colon q1 r4 → GErr env fn 1 r4 m q → GErr env fn 1 r m q
  -- levels 2, 3, 5, 6 and 8
  | noOp {k r l r1 m q} : Repeats k → Chain env fn k r l r1 → LexErr env r1 m q → GErr env fn k r m q
  | right {k r l r1 t r2 op m q} : Repeats k → Chain env fn k r l r1 → Lex env r1 t r2 → IsOp t.ty k op →
      GErr env fn (k + 1) r2 m q → GErr env fn k r m q
  -- level 4
  | noOp4 {r l r1 m q} : Gram env fn 5 r l r1 → LexErr env r1 m q → GErr env fn 4 r m q
  | right4 {r l r1 t r2 op m q} : Gram env fn 5 r l r1 → Lex env r1 t r2 → IsOp t.ty 4 op →
      GErr env fn 5 r2 m q → GErr env fn 4 r m q
  -- level 7
  | unary {r t r1 op m q} : Lex env r t r1 → IsUn t.ty op → GErr env fn 7 r1 m q → GErr env fn 7 r m q
  | noUnary {r m q} : (∀ t r1 op, Lex env r t r1 → ¬ IsUn t.ty op) → GErr env fn 8 r m q → GErr env fn 7 r m q
  -- level 8
  | subscript {r l r1 q0 r2 m q} : Chain env fn 8 r l r1 → (headSym r1).is iswhite = false →
      Mark env fn r1 .sqopen q0 r2 → SubErr env fn r2 m q → GErr env fn 8 r m q
  | call {r l r1 q0 r2 m q} : Chain env fn 8 r l r1 → Mark env fn r1 .popen q0 r2 → CallErr env fn r2 m q →
      GErr env fn 8 r m q
  | callee {r l r1 q0 r2 m q} : Chain env fn 8 r l r1 → Mark env fn r1 .arrow q0 r2 → GErr env fn 9 r2 m q →
      GErr env fn 8 r m q
  | noCallLex {r l r1 q0 r2 f r3 m q} : Chain env fn 8 r l r1 → Mark env fn r1 .arrow q0 r2 → Gram env fn 9 r2 f r3 →
      LexErr env r3 m q → GErr env fn 8 r m q
  | noCall {r l r1 q0 r2 f r3 t r4} : Chain env fn 8 r l r1 → Mark env fn r1 .arrow q0 r2 → Gram env fn 9 r2 f r3 →
      Lex env r3 t r4 → t.ty ≠ .popen → GErr env fn 8 r cs!"E107: Missing parentheses: lambda" t.pos
  | method {r l r1 q0 r2 f r3 q1 r4 m q} : Chain env fn 8 r l r1 → Mark env fn r1 .arrow q0 r2 → Gram env fn 9 r2 f r3 →
      Mark env fn r3 .popen q1 r4 → CallErr env fn r4 m q → GErr env fn 8 r m q
  -- level 9
  | lex {r m q} : LexErr env r m q → GErr env fn 9 r m q
  | operand {r t r'} : Lex env r t r' → ¬ Operand t.ty r' → GErr env fn 9 r (cs!"unexpected token: " ++ t.value) t.pos
  | dstring {r r1 s r2} : Blanks r r1 → DBody s → Reads r1 ('"' :: s) r2 → AtEnd r2 →
      GErr env fn 9 r cs!"unexpectd EOL" (posOf env r2)
  | escape {r r1 s r2} : Blanks r r1 → DBody s → Reads r1 ('"' :: s ++ ['\\']) r2 → AtEnd r2 →
      GErr env fn 9 r cs!"ExprTokenizer: unexpected EOL" (posOf env r2)
  | sstring {r r1 s r2} : Blanks r r1 → SBody s → Reads r1 ('\'' :: s) r2 → AtEnd r2 →
      GErr env fn 9 r cs!"unexpected EOL" (posOf env r2)
  | list {r q0 r1 m q} : Mark env fn r .sqopen q0 r1 → ArgsErr env fn .sqclose r1 m q → GErr env fn 9 r m q
  | paren {r q0 r1 m q} : Mark env fn r .popen q0 r1 → GErr env fn 1 r1 m q → GErr env fn 9 r m q
  | parenEnd {r q0 r1 e r2 m q} : Mark env fn r .popen q0 r1 → Gram env fn 1 r1 e r2 → Want env r2 (· = .pclose) m q →
      GErr env fn 9 r m q
  | name {r r1 m q} : Next env r IsWord → Blanks r r1 → NameErr env fn r1 m q → GErr env fn 9 r m q
  | sid {r r1 v r2 m q} : Blanks r r1 → Reads r1 v r2 → equalci v cs!"<SID>" = true → NameErr env fn r2 m q →
      GErr env fn 9 r m q
  | brace {r lit r1 m q} : Brace env r lit r1 → BraceErr env fn lit r1 m q → GErr env fn 9 r m q
  | curly {r lit r1 r2 q0 r3 r0 m q} : Brace env r lit r1 → NotLambda env r1 ∨ Strays env [] r1 →
      WholeKey env fn lit r1 r2 → Mark env fn r2 .cclose q0 r3 → Blanks r r0 → NameErr env fn r0 m q →
      GErr env fn 9 r m q

/-- A subscript or slice after `[` is wrong. -/
inductive SubErr (env : Env) (fn : Str) : List Cell → Str → Pos → Prop
  | lex {r m q} : LexErr env r m q → SubErr env fn r m q
  | upper {r q0 r1 m q} : Mark env fn r .colon q0 r1 → UpperErr env fn r1 m q → SubErr env fn r m q
  | index {r m q} : Next env r (· ≠ .colon) → GErr env fn 1 r m q → SubErr env fn r m q
  | close {r e r1 m q} : Gram env fn 1 r e r1 → Want env r1 (fun ty => ty = .colon ∨ ty = .sqclose) m q →
      SubErr env fn r m q
  | both {r e r1 q0 r2 m q} : Gram env fn 1 r e r1 → Mark env fn r1 .colon q0 r2 → UpperErr env fn r2 m q →
      SubErr env fn r m q

/-- A slice is wrong after `:`. -/
inductive UpperErr (env : Env) (fn : Str) : List Cell → Str → Pos → Prop
  | lex {r m q} : LexErr env r m q → UpperErr env fn r m q
  | expr {r m q} : Next env r (· ≠ .sqclose) → GErr env fn 1 r m q → UpperErr env fn r m q
  | close {r e r1 m q} : Gram env fn 1 r e r1 → Want env r1 (· = .sqclose) m q → UpperErr env fn r m q

/-- The arguments of a call are wrong, or there are more than 20. -/
inductive CallErr (env : Env) (fn : Str) : List Cell → Str → Pos → Prop
  | args {r m q} : ArgsErr env fn .pclose r m q → CallErr env fn r m q
  | tooMany {n r q} : Counted env fn n r q → 20 < n →
      CallErr env fn r cs!"E740: Too many arguments for function" q

/-- Expressions separated by commas up to the closing bracket `c` are wrong. -/
inductive ArgsErr (env : Env) (fn : Str) : TT → List Cell → Str → Pos → Prop
  | lex {c r m q} : LexErr env r m q → ArgsErr env fn c r m q
  | item {c r m q} : Next env r (· ≠ c) → ItemErr env fn c r m q → ArgsErr env fn c r m q

/-- The first of these expressions, or what follows it, is wrong. -/
inductive ItemErr (env : Env) (fn : Str) : TT → List Cell → Str → Pos → Prop
  | expr {c r m q} : GErr env fn 1 r m q → ItemErr env fn c r m q
  | close {c r e r1 m q} : Gram env fn 1 r e r1 → Want env r1 (fun ty => ty = .comma ∨ ty = c) m q →
      ItemErr env fn c r m q
  | more {c r e r1 q0 r2 m q} : Gram env fn 1 r e r1 → Mark env fn r1 .comma q0 r2 → ArgsErr env fn c r2 m q →
      ItemErr env fn c r m q

/-- A name with braces is wrong. -/
inductive NameErr (env : Env) (fn : Str) : List Cell → Str → Pos → Prop
  | text {r v r1 m q} : Reads r v r1 → Many1 isnamec v → (headSym r1).is isnamec = false → NameErr env fn r1 m q →
      NameErr env fn r m q
  | expr {r r1 m q} : Reads r ['{'] r1 → GErr env fn 1 r1 m q → NameErr env fn r m q
  | close {r r1 e r2 r3} : Reads r ['{'] r1 → Gram env fn 1 r1 e r2 → Skip r2 r3 → headSym r3 ≠ .ch '}' →
      NameErr env fn r (cs!"unexpected token: " ++ (headSym r3).str) (posOf env r3)
  | more {r r1 e r2 r3 r4 m q} : Reads r ['{'] r1 → Gram env fn 1 r1 e r2 → Skip r2 r3 → Reads r3 ['}'] r4 →
      NameErr env fn r4 m q → NameErr env fn r m q

/-- A lambda or dictionary is wrong after the brace. -/
inductive BraceErr (env : Env) (fn : Str) : Bool → List Cell → Str → Pos → Prop
  | lex {lit r m q} : LexErr env r m q → BraceErr env fn lit r m q
  | lex2 {lit r t r1 m q} : Lex env r t r1 → t.ty ≠ .arrow → t.ty ≠ .squote → t.ty ≠ .dquote → LexErr env r1 m q →
      BraceErr env fn lit r m q
  | params {lit r m q} : LooksLambda env r → LamErr env [] r m q → BraceErr env fn lit r m q
  | body {lit r ps r1 m q} : LamParams env fn [] r ps r1 → GErr env fn 1 r1 m q → BraceErr env fn lit r m q
  | close {lit r ps r1 e r2 m q} : LamParams env fn [] r ps r1 → Gram env fn 1 r1 e r2 →
      Want env r2 (· = .cclose) m q → BraceErr env fn lit r m q
  | pairs {lit r m q} : NotLambda env r ∨ Strays env [] r → PairsErr env fn lit true r m q → BraceErr env fn lit r m q

/-- The pairs of a dictionary are wrong; `first` if there are none before. -/
inductive PairsErr (env : Env) (fn : Str) : Bool → Bool → List Cell → Str → Pos → Prop
  | lex {lit first r m q} : LexErr env r m q → PairsErr env fn lit first r m q
  | pair {lit first r m q} : Next env r (· ≠ .cclose) → PairErr env fn lit first r m q → PairsErr env fn lit first r m q

/-- The first of these pairs, or what follows it, is wrong. -/
inductive PairErr (env : Env) (fn : Str) : Bool → Bool → List Cell → Str → Pos → Prop
  | key {first r m q} : GErr env fn 1 r m q → PairErr env fn false first r m q
  | litKey {first r m q} : LitErr env r m q → PairErr env fn true first r m q
  | colon {lit first r r1 m q} : WholeKey env fn lit r r1 →
      Want env r1 (fun ty => ty = .colon ∨ first = true ∧ ty = .cclose) m q → PairErr env fn lit first r m q
  | value {lit first r r1 q0 r2 m q} : WholeKey env fn lit r r1 → Mark env fn r1 .colon q0 r2 → GErr env fn 1 r2 m q →
      PairErr env fn lit first r m q
  | close {lit first r r1 q0 r2 v r3 m q} : WholeKey env fn lit r r1 → Mark env fn r1 .colon q0 r2 →
      Gram env fn 1 r2 v r3 → Want env r3 (fun ty => ty = .comma ∨ ty = .cclose) m q → PairErr env fn lit first r m q
  | more {lit first r r1 q0 r2 v r3 q1 r4 m q} : WholeKey env fn lit r r1 → Mark env fn r1 .colon q0 r2 →
      Gram env fn 1 r2 v r3 → Mark env fn r3 .comma q1 r4 → PairsErr env fn lit false r4 m q →
      PairErr env fn lit first r m q

end

end Viml.Spec
