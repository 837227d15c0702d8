/-
The grammar of expressions: which text is an expression, and which tree of the public AST it denotes.
The grammar is written in terms of tokens (`Lex`) and characters; nothing here refers to the parser.

A phrase is longer than it need be rather than shorter: `Gram k r e r'` includes that what stands at
`r'` does not continue a phrase of level `k`.  `Chain k` is the same without this condition, at the
levels whose operators can be repeated.
-/
import Verif.Spec.Lex

namespace Viml.Spec

/-- A token of type `ty` is read from `r`; `q` is its position. -/
def Mark (env : Env) (fn : Str) (r : List Cell) (ty : TT) (q : Ast.Pos) (r' : List Cell) : Prop :=
  ∃ t, Lex env r t r' ∧ t.ty = ty ∧ q = pubPos fn t.pos

/-- The next token is of one of the types `p`. -/
def Next (env : Env) (r : List Cell) (p : TT → Prop) : Prop := ∃ t r', Lex env r t r' ∧ p t.ty

/-- White space. -/
def Blanks (r r' : List Cell) : Prop := ∃ w, Reads r w r' ∧ ∀ c ∈ w, iswhite c = true

/-- Tokens that are binary operators, their level and the operator. -/
inductive IsOp : TT → Nat → Tok → Prop
  | oror : IsOp .oror 2 .OROR
  | andand : IsOp .andand 3 .ANDAND
  | cmp (k : CmpK) (m : CaseM) (op : Tok) : opLevel op = 4 → op.str = cmpText k ++ caseText m →
      IsOp (.cmp k m) 4 op
  | plus : IsOp .plus 5 .PLUS
  | minus : IsOp .minus 5 .MINUS
  | dot : IsOp .dot 5 .DOT
  | dotdot : IsOp .dotdot 5 .DOT
  | star : IsOp .star 6 .STAR
  | slash : IsOp .slash 6 .SLASH
  | percent : IsOp .percent 6 .PERCENT

/-- Tokens that are unary operators. -/
inductive IsUn : TT → Tok → Prop
  | not_ : IsUn .not_ .NOT
  | minus : IsUn .minus .MINUS
  | plus : IsUn .plus .PLUS

/-- Tokens that are literals by themselves. -/
inductive IsLit : TT → Tok → Prop
  | number : IsLit .number .NUMBER
  | blob : IsLit .blob .BLOB
  | option : IsLit .option .OPTION
  | env : IsLit .env .ENV
  | reg : IsLit .reg .REG

/-- The levels whose operators can be repeated. -/
def Repeats (k : Nat) : Prop := k = 2 ∨ k = 3 ∨ k = 5 ∨ k = 6 ∨ k = 8

/-- The name in `.name`: a word that is not followed by more of a name. -/
def Member (r : List Cell) (v : Str) (r' : List Cell) : Prop :=
  Reads r v r' ∧ Many1 iswordc v ∧ (headSym r').is isnamec = false

/-- What stands at `r` is not a postfix operator of `e`: a call, a method call, or, without white space
before it, a subscript or `.name`. -/
def NoPostfix (env : Env) (e : Ast.Expr) (r : List Cell) : Prop :=
  ∃ t r', Lex env r t r' ∧ t.ty ≠ .popen ∧ t.ty ≠ .arrow ∧
    ((headSym r).is iswhite = false → t.ty ≠ .sqopen ∧
      ¬ (t.ty = .dot ∧ dotBase e ∧ ∃ v r'', Member r' v r''))

/-- What stands at `r` after a brace does not look like the parameters of a lambda: `->`, or a name or
`...` and then `,` or `->`. -/
def NotLambda (env : Env) (r : List Cell) : Prop :=
  ∃ t1 r1, Lex env r t1 r1 ∧ t1.ty ≠ .arrow ∧
    (t1.ty = .squote ∨ t1.ty = .dquote ∨ ∃ t2 r2, Lex env r1 t2 r2 ∧
      ¬ ((t1.ty = .identifier ∨ t1.ty = .dotdotdot) ∧ (t2.ty = .arrow ∨ t2.ty = .comma)))

/-- Parameters of a lambda up to and including `->`; `used` are the names before. -/
inductive LamParams (env : Env) (fn : Str) : List Str → List Cell → List Ast.Ident → List Cell → Prop
  | none {used r q r'} : Mark env fn r .arrow q r' → LamParams env fn used r [] r'
  | dots {used r t r1 q r'} : Lex env r t r1 → t.ty = .dotdotdot → Mark env fn r1 .arrow q r' →
      LamParams env fn used r [⟨pubPos fn t.pos, t.value⟩] r'
  | last {used r t r1 q r'} : Lex env r t r1 → t.ty = .identifier → isargname t.value = true →
      t.value ∉ used → Mark env fn r1 .arrow q r' →
      LamParams env fn used r [⟨pubPos fn t.pos, t.value⟩] r'
  | cons {used r t r1 q r2 ps r'} : Lex env r t r1 → t.ty = .identifier → isargname t.value = true →
      t.value ∉ used → (headSym r1).is iswhite = false → Mark env fn r1 .comma q r2 →
      LamParams env fn (t.value :: used) r2 ps r' →
      LamParams env fn used r (⟨pubPos fn t.pos, t.value⟩ :: ps) r'

/-- Key of a `#{}` dictionary: a bare word, kept as a string; its position is one character late.  It must start
with some token: `0z1`, an incomplete blob, is no key. -/
def LitWord (env : Env) (fn : Str) (r : List Cell) (k : Ast.Expr) (r' : List Cell) : Prop :=
  Next env r (fun _ => True) ∧ ∃ r1 v, Blanks r r1 ∧ Reads r1 v r' ∧
    Many1 (fun c => isalnum c || c == '_' || c == '-') v ∧
    k = .basicLit (pubPos fn (posOf env r1.tail)) .STRING (['\''] ++ v ++ ['\''])

/-- Where a name can start in an expression: at a name, at `is` or `isnot` (not followed by `?`), or at a
brace that starts no lambda; after `#{` only if a bare word and `}` follow. -/
def NameStart (env : Env) (fn : Str) (r : List Cell) : Prop :=
  ∃ t r1, Lex env r t r1 ∧
    (t.ty = .identifier ∨ (∃ k m, t.ty = .cmp k m ∧ (k = .is_ ∨ k = .isnot) ∧ m ≠ .ci) ∨
      t.ty = .copen ∧ NotLambda env r1 ∨
      t.ty = .litcopen ∧ NotLambda env r1 ∧ ∃ k r2 q r3, LitWord env fn r1 k r2 ∧ Mark env fn r2 .cclose q r3)

/-- A name without braces is an identifier. -/
def nameNode (q : Ast.Pos) : List Ast.Expr → Ast.Expr
  | [.curlyNameLit _ v] => .ident ⟨q, v⟩
  | ps => .curlyName q ps

mutual

/-- `Gram env fn k r e r'`: the text from `r` to `r'` is an expression of level `k`, and `e` is its tree. -/
inductive Gram (env : Env) (fn : Str) : Nat → List Cell → Ast.Expr → List Cell → Prop
  -- level 1: expr2 ? expr1 : expr1
  | ternary {r c r1 q r2 a r3 q' r4 b r'} : Gram env fn 2 r c r1 → Mark env fn r1 .question q r2 →
      Gram env fn 1 r2 a r3 → Mark env fn r3 .colon q' r4 → Gram env fn 1 r4 b r' →
      Gram env fn 1 r (.ternary q c a b) r'
  | noTernary {r e r'} : Gram env fn 2 r e r' → Next env r' (· ≠ .question) → Gram env fn 1 r e r'
  -- levels 2, 3, 5 and 6: left-associative operators
  | chain {k r e r'} : Repeats k → k ≠ 8 → Chain env fn k r e r' → Next env r' (fun ty => ∀ op, ¬ IsOp ty k op) →
      Gram env fn k r e r'
  -- level 4: expr5 == expr5
  | compare {r l r1 t r2 op x r'} : Gram env fn 5 r l r1 → Lex env r1 t r2 → IsOp t.ty 4 op →
      Gram env fn 5 r2 x r' → Gram env fn 4 r (.binary l (pubPos fn t.pos) op x) r'
  | noCompare {r e r'} : Gram env fn 5 r e r' → Next env r' (fun ty => ∀ op, ¬ IsOp ty 4 op) →
      Gram env fn 4 r e r'
  -- level 7: ! expr7
  | unary {r t r1 op e r'} : Lex env r t r1 → IsUn t.ty op → Gram env fn 7 r1 e r' →
      Gram env fn 7 r (.unary (pubPos fn t.pos) op e) r'
  | noUnary {r e r'} : Gram env fn 8 r e r' → Gram env fn 7 r e r'
  -- level 8: expr9 followed by subscripts, calls and members
  | postfix {r e r'} : Chain env fn 8 r e r' → NoPostfix env e r' → Gram env fn 8 r e r'
  -- level 9
  | lit {r t r' k} : Lex env r t r' → IsLit t.ty k → Gram env fn 9 r (.basicLit (pubPos fn t.pos) k t.value) r'
  | dstring {r r1 s r'} : Blanks r r1 → DBody s → Reads r1 (['"'] ++ s ++ ['"']) r' →
      Gram env fn 9 r (.basicLit (pubPos fn (posOf env r1)) .STRING (['"'] ++ s ++ ['"'])) r'
  | sstring {r r1 s r'} : Blanks r r1 → SBody s → Reads r1 (['\''] ++ s ++ ['\'']) r' →
      headSym r' ≠ .ch '\'' →
      Gram env fn 9 r (.basicLit (pubPos fn (posOf env r1)) .STRING (['\''] ++ s ++ ['\''])) r'
  | list {r q r1 vs r'} : Mark env fn r .sqopen q r1 → Args env fn .sqclose r1 vs r' →
      Gram env fn 9 r (.list q vs) r'
  | paren {r q r1 e r2 q' r'} : Mark env fn r .popen q r1 → Gram env fn 1 r1 e r2 →
      Mark env fn r2 .pclose q' r' → Gram env fn 9 r (.paren q e) r'
  | dict {r q r1 kvs r'} : Mark env fn r .copen q r1 → NotLambda env r1 → Pairs env fn false r1 kvs r' →
      Gram env fn 9 r (.dict q kvs) r'
  | litdict {r q r1 kvs r'} : Mark env fn r .litcopen q r1 → NotLambda env r1 → Pairs env fn true r1 kvs r' →
      Gram env fn 9 r (.dict q kvs) r'
  | lambda {r q r1 ps r2 e r3 q' r'} : Mark env fn r .copen q r1 ∨ Mark env fn r .litcopen q r1 →
      LamParams env fn [] r1 ps r2 → Gram env fn 1 r2 e r3 → Mark env fn r3 .cclose q' r' →
      Gram env fn 9 r (.lambda q ps e) r'
  | name {r r1 ps r'} : Blanks r r1 → NameStart env fn r → NameParts env fn r1 ps r' → ps ≠ [] →
      Gram env fn 9 r (nameNode (pubPos fn (posOf env r1)) ps) r'
  | sid {r r1 v r2 ps r'} : Blanks r r1 → Reads r1 v r2 → equalci v ['<', 'S', 'I', 'D', '>'] = true →
      NameParts env fn r2 ps r' →
      Gram env fn 9 r (nameNode (pubPos fn (posOf env r1)) (.curlyNameLit (pubPos fn (posOf env r1)) v :: ps)) r'

/-- A phrase of a level whose operators can be repeated, possibly followed by more of them. -/
inductive Chain (env : Env) (fn : Str) : Nat → List Cell → Ast.Expr → List Cell → Prop
  | one {k r e r'} : Repeats k → Gram env fn (k + 1) r e r' → Chain env fn k r e r'
  | op {k r l r1 t r2 op x r'} : Repeats k → Chain env fn k r l r1 → Lex env r1 t r2 → IsOp t.ty k op →
      Gram env fn (k + 1) r2 x r' → Chain env fn k r (.binary l (pubPos fn t.pos) op x) r'
  | subscript {r l r1 q r2 x r3 q' r'} : Chain env fn 8 r l r1 → (headSym r1).is iswhite = false →
      Mark env fn r1 .sqopen q r2 → Gram env fn 1 r2 x r3 → Mark env fn r3 .sqclose q' r' →
      Chain env fn 8 r (.subscript q l x) r'
  | slice {r l r1 q r2 lo r3 q' r4 hi r5 q'' r'} : Chain env fn 8 r l r1 → (headSym r1).is iswhite = false →
      Mark env fn r1 .sqopen q r2 → Opt env fn r2 lo r3 → Mark env fn r3 .colon q' r4 →
      Opt env fn r4 hi r5 → Mark env fn r5 .sqclose q'' r' → Chain env fn 8 r (.slice l q lo hi) r'
  | method {r l r1 q r2 f r3 q' r4 as r'} : Chain env fn 8 r l r1 → Mark env fn r1 .arrow q r2 →
      Gram env fn 9 r2 f r3 → Mark env fn r3 .popen q' r4 → Args env fn .pclose r4 as r' → as.length ≤ 20 →
      Chain env fn 8 r (.method l f q' as) r'
  | call {r l r1 q r2 as r'} : Chain env fn 8 r l r1 → Mark env fn r1 .popen q r2 →
      Args env fn .pclose r2 as r' → as.length ≤ 20 → Chain env fn 8 r (.call l q as) r'
  | dot {r l r1 q r2 v r'} : Chain env fn 8 r l r1 → (headSym r1).is iswhite = false → dotBase l →
      Mark env fn r1 .dot q r2 → Member r2 v r' →
      Chain env fn 8 r (.dot l q ⟨pubPos fn (posOf env r2), v⟩) r'

/-- An optional bound of a slice. -/
inductive Opt (env : Env) (fn : Str) : List Cell → Option Ast.Expr → List Cell → Prop
  | none {r} : Opt env fn r none r
  | some {r e r'} : Gram env fn 1 r e r' → Opt env fn r (some e) r'

/-- Expressions separated by commas up to and including the closing bracket; the last may be followed by a
comma. -/
inductive Args (env : Env) (fn : Str) : TT → List Cell → List Ast.Expr → List Cell → Prop
  | nil {c r q r'} : Mark env fn r c q r' → Args env fn c r [] r'
  | last {c r e r1 q r'} : Gram env fn 1 r e r1 → Mark env fn r1 c q r' → Args env fn c r [e] r'
  | cons {c r e r1 q r2 es r'} : Gram env fn 1 r e r1 → Mark env fn r1 .comma q r2 → Args env fn c r2 es r' →
      Args env fn c r (e :: es) r'

/-- A key: an expression, or a bare word in a `#{}` dictionary. -/
inductive Key (env : Env) (fn : Str) : Bool → List Cell → Ast.Expr → List Cell → Prop
  | expr {r e r'} : Gram env fn 1 r e r' → Key env fn false r e r'
  | lit {r e r'} : LitWord env fn r e r' → Key env fn true r e r'

/-- Pairs of a dictionary up to and including `}`. -/
inductive Pairs (env : Env) (fn : Str) : Bool → List Cell → List (Ast.Expr × Ast.Expr) → List Cell → Prop
  | nil {lit r q r'} : Mark env fn r .cclose q r' → Pairs env fn lit r [] r'
  | last {lit r k r1 q r2 v r3 q' r'} : Key env fn lit r k r1 → Mark env fn r1 .colon q r2 →
      Gram env fn 1 r2 v r3 → Mark env fn r3 .cclose q' r' → Pairs env fn lit r [(k, v)] r'
  | cons {lit r k r1 q r2 v r3 q' r4 kvs r'} : Key env fn lit r k r1 → Mark env fn r1 .colon q r2 →
      Gram env fn 1 r2 v r3 → Mark env fn r3 .comma q' r4 → Pairs env fn lit r4 kvs r' →
      Pairs env fn lit r ((k, v) :: kvs) r'

/-- Parts of a name: text and expressions in braces, up to where neither follows. -/
inductive NameParts (env : Env) (fn : Str) : List Cell → List Ast.Expr → List Cell → Prop
  | nil {r} : (headSym r).is isnamec = false → headSym r ≠ .ch '{' → NameParts env fn r [] r
  | text {r v r1 ps r'} : Reads r v r1 → Many1 isnamec v → (headSym r1).is isnamec = false →
      NameParts env fn r1 ps r' → NameParts env fn r (.curlyNameLit (pubPos fn (posOf env r)) v :: ps) r'
  | expr {r r1 e r2 r3 r4 ps r'} : Reads r ['{'] r1 → Gram env fn 1 r1 e r2 → Blanks r2 r3 →
      Reads r3 ['}'] r4 → NameParts env fn r4 ps r' →
      NameParts env fn r (.curlyNameExpr (pubPos fn (posOf env r1)) e :: ps) r'

end

end Viml.Spec
