/-
The execution model: parser code is written as a `Prog`, a tree of the primitive effects parser code
performs on its `StringReader` and its tokenizer.  `Prog.run` interprets a program without the
tokenizer's memo table; `Prog.RunsC` (Model/Cache.lean) is the interpretation with it.
-/
import Verif.Model.Basic

namespace Viml

/-- Token types, go/vimlparser.go:104-172.  The 30 comparison tokens `TOKEN_EQEQ` .. `TOKEN_ISNOTCS`
are grouped as `cmp k m` (kind and case suffix). -/
inductive CmpK
  | equal | nequal | greater | gequal | smaller | sequal | match_ | nomatch | is_ | isnot
deriving DecidableEq, Repr, Inhabited

/-- Case suffix of a comparison: none, `?` (CI), `#` (CS). -/
inductive CaseM
  | plain | ci | cs
deriving DecidableEq, Repr, Inhabited

inductive TT
  | eof | eol | space | oror | andand
  | cmp (k : CmpK) (m : CaseM)
  | plus | minus | dot | star | slash | percent | not_ | question | colon
  | popen | pclose | sqopen | sqclose | copen | cclose | comma | number | squote | dquote
  | option | identifier | env | reg | eq | or_ | semicolon | backtick | dotdotdot | sharp
  | arrow | blob | litcopen | dotdot
deriving DecidableEq, Repr, Inhabited

def CmpK.num : CmpK → Nat
  | .equal => 0 | .nequal => 1 | .greater => 2 | .gequal => 3 | .smaller => 4 | .sequal => 5
  | .match_ => 6 | .nomatch => 7 | .is_ => 8 | .isnot => 9

def CaseM.num : CaseM → Nat
  | .plain => 0 | .ci => 1 | .cs => 2

/-- Numeric values of the token types, go/vimlparser.go:104-172 (they occur in one error message). -/
def TT.num : TT → Nat
  | .eof => 1 | .eol => 2 | .space => 3 | .oror => 4 | .andand => 5
  | .cmp k m => 6 + 3 * k.num + m.num
  | .plus => 36 | .minus => 37 | .dot => 38 | .star => 39 | .slash => 40 | .percent => 41
  | .not_ => 42 | .question => 43 | .colon => 44 | .popen => 45 | .pclose => 46 | .sqopen => 47
  | .sqclose => 48 | .copen => 49 | .cclose => 50 | .comma => 51 | .number => 52 | .squote => 53
  | .dquote => 54 | .option => 55 | .identifier => 56 | .env => 57 | .reg => 58 | .eq => 59
  | .or_ => 60 | .semicolon => 61 | .backtick => 62 | .dotdotdot => 63 | .sharp => 64
  | .arrow => 65 | .blob => 66 | .litcopen => 67 | .dotdot => 68

/-- `ExprToken`, go/type.go:134-138. -/
structure Token where
  ty : TT
  value : Str
  pos : Pos
deriving DecidableEq, Repr, Inhabited

/-- Contents of a `StringReader` that never change after construction (go/type.go:177-181): the
buffer and the extra last element of `pos`, which is the end-of-file position. -/
structure Env where
  buf : List Cell
  eof : Pos
deriving DecidableEq, Repr, Inhabited

/-- The ways a computation of the parser can fail to return.
* `err msg pos`: `panic(Err(msg, pos))`, a `*ParseError` (go/type.go:324-337);
* `num`: the panic of `viml_str2nr` on a number out of range (go/vimlfunc.go:141-147);
* `crash`: a Go run-time panic (index out of range, nil dereference, failed type assertion);
* `fuel`: the model's own step bound; it does not exist in Go, and is proved unreachable. -/
inductive Fail
  | err (msg : Str) (pos : Pos)
  | num
  | crash
  | fuel
deriving DecidableEq, Repr, Inhabited

/-- Result of a computation: a value and the remaining input, or a failure. -/
inductive Res (α : Type)
  | ok (a : α) (rest : List Cell)
  | fail (e : Fail)
deriving Repr

/-- Parser programs.  The reader index `i` is represented by the remaining cells `buf[i:]`, so
`tell`/`seek_set` (go/vimlparser.go:3319-3325) save and restore a suffix. `tok` is
`self.tokenizer.get()`. -/
inductive Prog (α : Type) : Type
  | ret (a : α)
  | fail (e : Fail)
  | ask (k : Env → Prog α)
  | tell (k : List Cell → Prog α)
  | seek (s : List Cell) (k : Prog α)
  | tok (k : Token → Prog α)

namespace Prog

def bind {α β : Type} : Prog α → (α → Prog β) → Prog β
  | .ret a, f => f a
  | .fail e, _ => .fail e
  | .ask k, f => .ask fun e => (k e).bind f
  | .tell k, f => .tell fun r => (k r).bind f
  | .seek s k, f => .seek s (k.bind f)
  | .tok k, f => .tok fun t => (k t).bind f

instance : Monad Prog where
  pure := .ret
  bind := Prog.bind

/-- Interpretation of programs, given the meaning of `tokenizer.get()`. -/
def runWith {α : Type} (T : Env → List Cell → Res Token) (env : Env) : Prog α → List Cell → Res α
  | .ret a, r => .ok a r
  | .fail e, _ => .fail e
  | .ask k, r => (k env).runWith T env r
  | .tell k, r => (k r).runWith T env r
  | .seek s k, _ => k.runWith T env s
  | .tok k, r =>
    match T env r with
    | .ok t r' => (k t).runWith T env r'
    | .fail e => .fail e

/-- `a && b` where evaluating `b` may panic. -/
def pand (a b : Prog Bool) : Prog Bool := a >>= fun x => if x then b else pure false
/-- `a || b` where evaluating `b` may panic. -/
def por (a b : Prog Bool) : Prog Bool := a >>= fun x => if x then pure true else b

/-- A Go `for { ... }` loop: the body either yields a new loop state or leaves the loop. -/
def loopN {σ β : Type} (body : σ → Prog (σ ⊕ β)) : Nat → σ → Prog β
  | 0, _ => .fail .fuel
  | n + 1, s => body s >>= fun x =>
    match x with
    | .inl s' => loopN body n s'
    | .inr b => pure b

/-- Every loop of the program consumes input on each iteration; the step bound is the number of
cells left plus one (proved sufficient: `fuel` is never reached). -/
def loop {σ β : Type} (body : σ → Prog (σ ⊕ β)) (s : σ) : Prog β :=
  .tell fun r => loopN body (r.length + 1) s

end Prog

open Prog

/-! ### StringReader, go/vimlparser.go:3315-3530 -/

/-- go/vimlparser.go:3315-3317 -/
def eof : Prog Bool := .tell fun r => pure r.isEmpty

/-- go/vimlparser.go:3319-3321 -/
def tell : Prog (List Cell) := .tell fun r => pure r

/-- go/vimlparser.go:3323-3325 -/
def seekSet (s : List Cell) : Prog Unit := .seek s (pure ())

/-- go/vimlparser.go:3327-3329.  Go allows the index to run past the end of the buffer (a later
`getpos` would then panic); the model treats this as a crash at once and proves it never happens. -/
def seekCur (n : Nat) : Prog Unit := .tell fun r =>
  if n ≤ r.length then .seek (r.drop n) (pure ()) else .fail .crash

/-- go/vimlparser.go:3331-3333 with argument 0 (the only use) -/
def seekEnd : Prog Unit := .seek [] (pure ())

/-- go/vimlparser.go:3335-3340; indexing out of range panics -/
def p (k : Nat) : Prog Sym := .tell fun r =>
  match r with
  | [] => pure .eof
  | c :: cs =>
    match (c :: cs)[k]? with
    | some d => pure d.sym
    | none => .fail .crash

/-- go/vimlparser.go:3342-3347 -/
def peek : Prog Sym := .tell fun r =>
  match r with
  | [] => pure .eof
  | c :: _ => pure c.sym

/-- go/vimlparser.go:3349-3355 -/
def get : Prog Sym := .tell fun r =>
  match r with
  | [] => pure .eof
  | c :: cs => .seek cs (pure c.sym)

/-- The loop of `getn` (go/vimlparser.go:3364-3377) for a bound `n ≥ 0`. -/
def getnS : Nat → List Cell → Str × List Cell
  | 0, r => ([], r)
  | _ + 1, [] => ([], [])
  | n + 1, c :: r =>
    match c.c with
    | none => ([], c :: r)
    | some ch => (ch :: (getnS n r).1, (getnS n r).2)

/-- `for f(peekn(1)) { r += getn(1) }`; the `read_*` family, go/vimlparser.go:3408-3514.
`getn(-1)` (go/vimlparser.go:3364-3377) is the case where `f` is always true. -/
def spanS (f : Char → Bool) : List Cell → Str × List Cell
  | [] => ([], [])
  | c :: r =>
    match c.c with
    | none => ([], c :: r)
    | some ch => if f ch then (ch :: (spanS f r).1, (spanS f r).2) else ([], c :: r)

/-- go/vimlparser.go:3364-3377 -/
def getn (n : Nat) : Prog Str := .tell fun r => .seek (getnS n r).2 (pure (getnS n r).1)
/-- go/vimlparser.go:3357-3362 -/
def peekn (n : Nat) : Prog Str := .tell fun r => pure (getnS n r).1
/-- `getn(-1)`, go/vimlparser.go:3364-3377 -/
def getline : Prog Str := .tell fun r =>
  .seek (spanS (fun _ => true) r).2 (pure (spanS (fun _ => true) r).1)
/-- go/vimlparser.go:3379-3381 -/
def peekline : Prog Str := .tell fun r => pure (spanS (fun _ => true) r).1
/-- go/vimlparser.go:3383-3387 -/
def readline : Prog Str := do
  let r ← getline
  let _ ← get
  pure r

/-- go/type.go:236-240 -/
def getpos : Prog Pos := .ask fun env => .tell fun r =>
  match r with
  | [] => pure env.eof
  | c :: _ => pure c.pos

/-- go/vimlparser.go:3404-3406 -/
def setpos (q : Pos) : Prog Unit := .ask fun env => .seek (env.buf.drop q.i) (pure ())

/-- The text of a slice of the buffer with line ends as `\n`. -/
def cellsText (cs : List Cell) : Str := cs.map fun c => c.c.getD '\n'

/-- go/vimlparser.go:3389-3402 -/
def getstr (b e : Pos) : Prog Str := .ask fun env =>
  pure (cellsText ((env.buf.drop b.i).take (e.i - b.i)))

/-- `read_*` loops, go/vimlparser.go:3408-3514 -/
def readWhile (f : Char → Bool) : Prog Str := .tell fun r =>
  .seek (spanS f r).2 (pure (spanS f r).1)

/-- go/vimlparser.go:3408-3414 -/
def readAlpha : Prog Str := readWhile isalpha
/-- go/vimlparser.go:3416-3422 -/
def readAlnum : Prog Str := readWhile isalnum
/-- go/vimlparser.go:3424-3430 -/
def readDigit : Prog Str := readWhile isdigit
/-- go/vimlparser.go:3457-3463 -/
def readXdigit : Prog Str := readWhile isxdigit
/-- go/vimlparser.go:3465-3471 -/
def readBdigit : Prog Str := readWhile fun c => c == '0' || c == '1'
/-- go/vimlparser.go:3482-3488 -/
def readWord : Prog Str := readWhile iswordc
/-- go/vimlparser.go:3490-3496 -/
def readWhite : Prog Str := readWhile iswhite
/-- go/vimlparser.go:3498-3506 -/
def readNonwhite : Prog Str := readWhile fun c => !iswhite c
/-- go/vimlparser.go:3508-3514 -/
def readName : Prog Str := readWhile isnamec
/-- go/vimlparser.go:3516-3520 -/
def skipWhite : Prog Unit := .tell fun r => .seek (spanS iswhite r).2 (pure ())
/-- go/vimlparser.go:3522-3530 -/
def skipWhiteAndColon : Prog Unit := .tell fun r =>
  .seek (spanS (fun c => iswhite c || c == ':') r).2 (pure ())

/-- `panic(Err(msg, reader.getpos()))` -/
def errHere {α : Type} (msg : Str) : Prog α := do
  let q ← getpos
  .fail (.err msg q)

/-- `panic(Err(msg, pos))` -/
def errAt {α : Type} (msg : Str) (q : Pos) : Prog α := .fail (.err msg q)

/-- `^[0-9A-Fa-f][0-9A-Fa-f]$` -/
def isHexPair : Str → Bool
  | [a, b] => isxdigit a && isxdigit b
  | _ => false
/-- `^\.[0-9A-Fa-f]$` -/
def isDotHex : Str → Bool
  | [a, b] => a == '.' && isxdigit b
  | _ => false
/-- `^[0-9A-Fa-f][^0-9A-Fa-f]$` -/
def isHexNonHex : Str → Bool
  | [a, b] => isxdigit a && !isxdigit b
  | _ => false

/-- go/vimlparser.go:3440-3455 -/
def readBlob : Prog Str :=
  loop (fun (r : Str) => do
    let s ← peekn 2
    if isHexPair s then
      let t ← getn 2
      pure (.inl (r ++ t))
    else if isDotHex s then
      let t ← getn 1
      pure (.inl (r ++ t))
    else if isHexNonHex s then
      errHere (cs!"E973: Blob literal should have an even number of hex characters:" ++ s)
    else pure (.inr r)) []

end Viml
