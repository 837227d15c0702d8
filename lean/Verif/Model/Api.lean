/-
vimlparser.go: the two public entry points.
-/
import Verif.Model.Export
import Verif.Model.Input

namespace Viml

/-- The `error` result of the entry points: an `*ErrVimlParser`, or the `fmt.Errorf` made from any
other recovered panic value (its text is not modelled). -/
inductive ApiErr
  | parse (filename : Str) (offset line column : Nat) (msg : Str)
  | other
deriving DecidableEq, Repr, Inhabited

/-- The deferred handler, vimlparser.go:36-52 and 65-80.  `Err` stores `pos.i` as offset
(go/type.go:335-337).  `Fail.fuel` does not exist in Go and is mapped to `none` (no result). -/
def recoverFail (fn : Str) : Fail → Option ApiErr
  | .err msg q => some (.parse fn q.i q.lnum q.col msg)
  | .num => some .other
  | .crash => some .other
  | .fuel => none

/-- Result of an entry point: the pair (node, err). `none` in the first component is a nil node. -/
structure ApiRes (α : Type) where
  node : Option α
  err : Option ApiErr
deriving Repr

/-- `ParseFile`, vimlparser.go:35-61, on an already decoded list of lines.
`none` means that the modelled step bound was hit (proved impossible). -/
def parseFileLines (neovim : Bool) (fn : Str) (lines : List Str) : Option (ApiRes Ast.File) :=
  let env := mkEnv lines
  match (parseToplevel neovim).run env env.buf with
  | .ok f _ =>
    match Export.file fn f with
    | some a => some ⟨some a, none⟩
    | none => some ⟨none, some .other⟩
  | .fail e => (recoverFail fn e).map fun er => ⟨none, some er⟩

/-- `ParseFile`, vimlparser.go:35-61.  `neovim` is `opt != nil && opt.Neovim`. -/
def parseFile (neovim : Bool) (fn : Str) (src : List UInt8) : Option (ApiRes Ast.File) :=
  parseFileLines neovim fn ((readlines src).map decodeUtf8)

/-- `ParseExpr`, vimlparser.go:64-86, on an already decoded list of lines. -/
def parseExprLines (lines : List Str) : Option (ApiRes Ast.Expr) :=
  let env := mkEnv lines
  match parseExpr1.run env env.buf with
  | .ok e _ =>
    match Export.expr [] e with
    | some a => some ⟨some a, none⟩
    | none => some ⟨none, some .other⟩
  | .fail e => (recoverFail [] e).map fun er => ⟨none, some er⟩

/-- `ParseExpr`, vimlparser.go:64-86 -/
def parseExpr (src : List UInt8) : Option (ApiRes Ast.Expr) :=
  parseExprLines ((readlines src).map decodeUtf8)

/-- `ErrVimlParser.Error`, vimlparser.go:21-26 -/
def errString (fn : Str) (line column : Nat) (msg : Str) : Str :=
  if fn ≠ [] then
    fn ++ cs!":" ++ natStr line ++ cs!":" ++ natStr column ++ cs!": vimlparser: " ++ msg
  else cs!"vimlparser: " ++ msg ++ cs!": line " ++ natStr line ++ cs!" col " ++ natStr column

/-- `Pos.String`, ast/pos.go:20-27 -/
def Ast.Pos.str (q : Ast.Pos) : Str :=
  (if q.filename ≠ [] then q.filename ++ cs!":" else []) ++ natStr q.line ++ cs!":" ++ natStr q.column

end Viml
