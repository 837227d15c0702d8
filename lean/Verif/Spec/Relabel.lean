/-
What property C56 says: two texts with the same logical lines, and trees that differ in their
positions only.  `onPos m` replaces every position of a node by its image under `m`.
-/
import Verif.Model.Api

namespace Viml.Ast

def Ident.onPos (m : Pos → Pos) (i : Ident) : Ident := ⟨m i.pos, i.name⟩

def ExArg.onPos (m : Pos → Pos) (ea : ExArg) : ExArg :=
  { ea with linepos := m ea.linepos, cmdpos := m ea.cmdpos, argpos := ea.argpos.map m }

def EndCmd.onPos (m : Pos → Pos) (e : EndCmd) : EndCmd := ⟨m e.pos, e.ea.onPos m⟩

mutual
def Expr.onPos (m : Pos → Pos) : Expr → Expr
  | .ternary q c l r => .ternary (m q) (c.onPos m) (l.onPos m) (r.onPos m)
  | .binary l q t r => .binary (l.onPos m) (m q) t (r.onPos m)
  | .unary q t x => .unary (m q) t (x.onPos m)
  | .subscript q l r => .subscript (m q) (l.onPos m) (r.onPos m)
  | .slice x q lo hi => .slice (x.onPos m) (m q) (onPosO m lo) (onPosO m hi)
  | .method l f q as => .method (l.onPos m) (f.onPos m) (m q) (onPosL m as)
  | .call f q as => .call (f.onPos m) (m q) (onPosL m as)
  | .dot l q i => .dot (l.onPos m) (m q) (i.onPos m)
  | .basicLit q k v => .basicLit (m q) k v
  | .list q vs => .list (m q) (onPosL m vs)
  | .dict q kvs => .dict (m q) (onPosP m kvs)
  | .curlyName q ps => .curlyName (m q) (onPosL m ps)
  | .curlyNameLit q v => .curlyNameLit (m q) v
  | .curlyNameExpr q e => .curlyNameExpr (m q) (e.onPos m)
  | .ident i => .ident (i.onPos m)
  | .lambda q ps e => .lambda (m q) (ps.map (Ident.onPos m)) (e.onPos m)
  | .paren q e => .paren (m q) (e.onPos m)
  | .heredoc q fl mk b => .heredoc (m q) (onPosL m fl) mk (onPosL m b)
def Expr.onPosO (m : Pos → Pos) : Option Expr → Option Expr
  | none => none
  | some e => some (e.onPos m)
def Expr.onPosL (m : Pos → Pos) : List Expr → List Expr
  | [] => []
  | e :: es => e.onPos m :: onPosL m es
def Expr.onPosP (m : Pos → Pos) : List (Expr × Expr) → List (Expr × Expr)
  | [] => []
  | (k, v) :: kvs => (k.onPos m, v.onPos m) :: onPosP m kvs
end

mutual
def Stmt.onPos (m : Pos → Pos) : Stmt → Stmt
  | .comment q s => .comment (m q) s
  | .excmd q ea s => .excmd (m q) (ea.onPos m) s
  | .function q ea b n ps da a e =>
    .function (m q) (ea.onPos m) (onPosL m b) (n.onPos m) (ps.map (Ident.onPos m)) (Expr.onPosL m da) a (e.onPos m)
  | .delFunction q ea n => .delFunction (m q) (ea.onPos m) (n.onPos m)
  | .return_ q ea r => .return_ (m q) (ea.onPos m) (Expr.onPosO m r)
  | .exCall q ea f p as => .exCall (m q) (ea.onPos m) (f.onPos m) (m p) (Expr.onPosL m as)
  | .let_ q ea op l ls rs r =>
    .let_ (m q) (ea.onPos m) op (Expr.onPosO m l) (Expr.onPosL m ls) (Expr.onPosO m rs) (r.onPos m)
  | .unLet q ea l => .unLet (m q) (ea.onPos m) (Expr.onPosL m l)
  | .lockVar q ea d l => .lockVar (m q) (ea.onPos m) d (Expr.onPosL m l)
  | .unLockVar q ea d l => .unLockVar (m q) (ea.onPos m) d (Expr.onPosL m l)
  | .if_ q ea b c ei el e =>
    .if_ (m q) (ea.onPos m) (onPosL m b) (c.onPos m) (onPosL m ei) (onPosO m el) (e.onPos m)
  | .elseIf q ea b c => .elseIf (m q) (ea.onPos m) (onPosL m b) (c.onPos m)
  | .else_ q ea b => .else_ (m q) (ea.onPos m) (onPosL m b)
  | .while_ q ea b c e => .while_ (m q) (ea.onPos m) (onPosL m b) (c.onPos m) (e.onPos m)
  | .for_ q ea b l ls rs r e =>
    .for_ (m q) (ea.onPos m) (onPosL m b) (Expr.onPosO m l) (Expr.onPosL m ls) (Expr.onPosO m rs) (r.onPos m) (e.onPos m)
  | .continue_ q ea => .continue_ (m q) (ea.onPos m)
  | .break_ q ea => .break_ (m q) (ea.onPos m)
  | .try_ q ea b cs fi e =>
    .try_ (m q) (ea.onPos m) (onPosL m b) (onPosL m cs) (onPosO m fi) (e.onPos m)
  | .catch_ q ea b p => .catch_ (m q) (ea.onPos m) (onPosL m b) p
  | .finally_ q ea b => .finally_ (m q) (ea.onPos m) (onPosL m b)
  | .throw q ea e => .throw (m q) (ea.onPos m) (e.onPos m)
  | .eval q ea e => .eval (m q) (ea.onPos m) (e.onPos m)
  | .echoCmd q n ea l => .echoCmd (m q) n (ea.onPos m) (Expr.onPosL m l)
  | .echohl q ea n => .echohl (m q) (ea.onPos m) n
  | .execute q ea l => .execute (m q) (ea.onPos m) (Expr.onPosL m l)
def Stmt.onPosL (m : Pos → Pos) : List Stmt → List Stmt
  | [] => []
  | s :: ss => s.onPos m :: onPosL m ss
def Stmt.onPosO (m : Pos → Pos) : Option Stmt → Option Stmt
  | none => none
  | some s => some (s.onPos m)
end

def File.onPos (m : Pos → Pos) (f : File) : File := ⟨m f.start, Stmt.onPosL m f.body⟩

end Viml.Ast

namespace Viml.Spec

/-- A map of places: line and column to line, column and byte offset. -/
abbrev Moving := Nat → Nat → Nat × Nat × Nat

/-- The image of a position of a tree. -/
def Moving.pos (mv : Moving) (q : Ast.Pos) : Ast.Pos :=
  ⟨(mv q.line q.column).2.2, (mv q.line q.column).1, (mv q.line q.column).2.1, q.filename⟩

/-- The image of an error: its offset counts characters of the logical text and stays the same. -/
def Moving.err (mv : Moving) : ApiErr → ApiErr
  | .parse fn off line col msg => .parse fn off (mv line col).1 (mv line col).2.1 msg
  | .other => .other

/-- The image of a result. -/
def Moving.res {α : Type} (mv : Moving) (f : (Ast.Pos → Ast.Pos) → α → α) (r : ApiRes α) : ApiRes α :=
  ⟨r.node.map (f mv.pos), r.err.map mv.err⟩

/-- `mv` takes the place of the `k`-th character (or line end) the parser reads from `lines` to the
place of the `k`-th one it reads from `lines'`, end of file to end of file, and the position no place
has (that of a command which does not exist) to itself. -/
structure Moves (lines lines' : List Str) (mv : Moving) : Prop where
  cell : ∀ (k : Nat) (c c' : Cell), (mkEnv lines).buf[k]? = some c → (mkEnv lines').buf[k]? = some c' →
    mv c.pos.lnum c.pos.col = (c'.pos.lnum, c'.pos.col, c'.pos.offset)
  eof : mv (lines.length + 1) 0 = (lines'.length + 1, 0, (mkEnv lines').eof.offset)
  unset : mv 0 0 = (0, 0, 0)

end Viml.Spec
