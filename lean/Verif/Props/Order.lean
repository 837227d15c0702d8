/-
C46: the positions of a tree are in source order.
-/
import Verif.Lemmas.OrderAll
import Verif.Props.File
import Verif.Props.Grammar

namespace Viml.Props
open Spec

/-! ### C46 -/

/-- C46.  The positions in a tree returned by `ParseExpr` are in source order: what stands to the left in the
text has a smaller line or column.  The positions of names with braces and of their parts in braces are left out. -/
theorem C46_parseExpr (src : List UInt8) (a : Ast.Expr) (h : parseExpr src = some ⟨some a, none⟩) :
    (places false a).Pairwise PosLt := by
  obtain ⟨r', h⟩ := (C51_parseExpr src a).1 h
  exact track_lt (gram_track (s := true) h) (List.suffix_refl _)

/-- C46.  With the positions of names with braces and of their parts, neighbours may be equal. -/
theorem C46_parseExpr_all (src : List UInt8) (a : Ast.Expr) (h : parseExpr src = some ⟨some a, none⟩) :
    (places true a).Pairwise PosLe := by
  obtain ⟨r', h⟩ := (C51_parseExpr src a).1 h
  exact track_le (gram_track (s := false) h) (List.suffix_refl _)

/-- C46.  The positions of a file, read statement by statement, are in source order. -/
theorem C46_parseFile (nv : Bool) (fn : Str) (src : List UInt8) (f : Ast.File)
    (h : parseFile nv fn src = some ⟨some f, none⟩) :
    ∃ l, WrittenL f.body l ∧ (f.start :: l).Pairwise PosLe := by
  obtain ⟨used, h1, h2⟩ := (C52_parseFile nv fn src f).1 h
  obtain ⟨⟨l, h3, h4⟩, _⟩ := body_order h1
  refine ⟨l, h3, ?_⟩
  rw [h2]
  exact track_le (.cons (List.suffix_refl _) (by simp) h4) (List.suffix_refl _)

/-- C46.  In every expression of a file the positions are in strict order. -/
theorem C46_exprs (nv : Bool) (fn : Str) (src : List UInt8) (f : Ast.File)
    (h : parseFile nv fn src = some ⟨some f, none⟩) :
    AllF (fun _ s => ∀ e ∈ exprsOf s, (places false e).Pairwise PosLt) f := by
  obtain ⟨used, h1, _⟩ := (C52_parseFile nv fn src f).1 h
  obtain ⟨_, h3⟩ := body_order h1
  intro s hs
  refine (h3 (List.suffix_refl _) s hs []).imp fun ctx s hs e he => ?_
  obtain ⟨a, b, h4, h5⟩ := hs e he
  exact track_lt h5 h4

/-- C46.  `places` leaves nothing out: every position stored in a node of the tree is listed, except that of a
heredoc, which is the position of its command. -/
theorem C46_places_all {e x : Ast.Expr} (h : Part e x) (hx : isHeredoc x = false) : ∀ q ∈ ownPos x, q ∈ places true e :=
  places_all h hx

/-- C46.  `Written` leaves nothing out: every position of every statement and of its expressions is listed. -/
theorem C46_written_all {ss : List Ast.Stmt} {l : List Ast.Pos} (h : WrittenL ss l) {x : Ast.Stmt} (hx : PartS ss x) :
    Listed l x := writtenL_mem h hx

/-- C46.  No position in the tree of a node is before `Pos()` of the node, if the node is none of those that have an
operator, bracket or dot after an operand. -/
theorem C46_pos_first (src : List UInt8) (a x : Ast.Expr) (h : parseExpr src = some ⟨some a, none⟩) (hx : Part a x)
    (hp : isPrefix x = true) : ∀ q ∈ places true x, PosLe (nodePos x) q := by
  have h1 := (C46_parseExpr_all src a h).sublist (places_sublist hx)
  have h2 : ∃ l, places true x = nodePos x :: l := by
    cases x <;> first | (cases hp; done) | exact ⟨_, rfl⟩ | (rw [places]; exact ⟨_, rfl⟩)
  obtain ⟨l, h2⟩ := h2
  rw [h2] at h1 ⊢
  intro q hq
  rcases List.mem_cons.1 hq with rfl | hq
  · exact .inr ⟨rfl, Nat.le_refl _⟩
  · exact (List.pairwise_cons.1 h1).1 q hq

/-! ### What is not so -/

/-- Line and column. -/
def lc (q : Ast.Pos) : Nat × Nat := (q.line, q.column)

/-- Positions of the tree of an expression and that of its root. -/
def exprPlaces (all : Bool) (src : List UInt8) : Option (List (Nat × Nat) × Nat × Nat) :=
  match parseExpr src with
  | some ⟨some a, none⟩ => some ((places all a).map lc, lc (nodePos a))
  | _ => none

/-- Positions of the statements at the top level of a file. -/
def topPlaces (src : List UInt8) : Option (List (Nat × Nat)) :=
  match parseFile false [] src with
  | some ⟨some f, none⟩ => some (f.body.map fun s => lc (stmtPos s))
  | _ => none

theorem exprPlaces_some {all src l q} (h : exprPlaces all src = some (l, q)) :
    ∃ a, parseExpr src = some ⟨some a, none⟩ ∧ l = (places all a).map lc ∧ q = lc (nodePos a) := by
  unfold exprPlaces at h
  split at h
  · rename_i a h'
    simp only [Option.some.injEq, Prod.mk.injEq] at h
    exact ⟨a, h', h.1.symm, h.2.symm⟩
  · cases h

theorem topPlaces_some {src l} (h : topPlaces src = some l) :
    ∃ f, parseFile false [] src = some ⟨some f, none⟩ ∧ l = f.body.map fun s => lc (stmtPos s) := by
  unfold topPlaces at h
  split at h
  · rename_i f h'
    simp only [Option.some.injEq] at h
    exact ⟨f, h', h.symm⟩
  · cases h

/-- C46.  `Pos()` is documented as the position of the first character belonging to the node (ast/node.go:11), but
`Pos()` of a node with an operator, bracket or dot after an operand is the position of that, as in `1+2`. -/
theorem C46_pos_not_first : ∃ src a, parseExpr src = some ⟨some a, none⟩ ∧ ∃ q ∈ places true a, PosLt q (nodePos a) := by
  obtain ⟨a, h1, h2, h3⟩ := exprPlaces_some (all := true) (src := [49, 43, 50]) (l := [(1, 1), (1, 2), (1, 3)]) (q := (1, 2))
    (by decide +kernel)
  have h4 : (1, 1) ∈ (places true a).map lc := by rw [← h2]; simp
  obtain ⟨q, h5, h6⟩ := List.mem_map.1 h4
  refine ⟨_, a, h1, q, h5, .inr ?_⟩
  simp only [lc, Prod.mk.injEq] at h6 h3
  omega

/-- C46.  The statements of a body are not always in source order: the comment on the line of a heredoc is put before
its `:let`.  The file is `let x =<< E "c` and `E`. -/
theorem C46_heredoc_comment : ∃ src f a b, parseFile false [] src = some ⟨some f, none⟩ ∧ f.body = [a, b] ∧
    PosLt (stmtPos b) (stmtPos a) := by
  obtain ⟨f, h1, h2⟩ := topPlaces_some (src := [108, 101, 116, 32, 120, 32, 61, 60, 60, 32, 69, 32, 34, 99, 10, 69, 10])
    (l := [(1, 13), (1, 1)]) (by decide +kernel)
  obtain ⟨start, body⟩ := f
  match body, h2 with
  | [a, b], h2 =>
    refine ⟨_, _, a, b, h1, rfl, .inr ?_⟩
    simp only [List.map_cons, List.map_nil, lc, List.cons.injEq, Prod.mk.injEq] at h2
    omega

/-- C46.  Neighbouring statements may have the same position: `silent "c` is a command without name and a comment. -/
theorem C46_equal_positions : ∃ src f a b, parseFile false [] src = some ⟨some f, none⟩ ∧ f.body = [a, b] ∧
    lc (stmtPos a) = lc (stmtPos b) := by
  obtain ⟨f, h1, h2⟩ := topPlaces_some (src := [115, 105, 108, 101, 110, 116, 32, 34, 99, 10])
    (l := [(1, 8), (1, 8)]) (by decide +kernel)
  obtain ⟨start, body⟩ := f
  match body, h2 with
  | [a, b], h2 =>
    refine ⟨_, _, a, b, h1, rfl, ?_⟩
    simp only [List.map_cons, List.map_nil, List.cons.injEq] at h2
    rw [← h2.1, ← h2.2.1]

/-! ### Examples -/

-- a-b[1]*(c)
example : exprPlaces false [97, 45, 98, 91, 49, 93, 42, 40, 99, 41] =
    some ([(1, 1), (1, 2), (1, 3), (1, 4), (1, 5), (1, 7), (1, 8), (1, 9)], (1, 2)) := by decide +kernel
-- a{b}c: the position of the name is that of its first part
example : exprPlaces true [97, 123, 98, 125, 99] = some ([(1, 1), (1, 1), (1, 3), (1, 3), (1, 5)], (1, 1)) := by
  decide +kernel
example : exprPlaces false [97, 123, 98, 125, 99] = some ([(1, 1), (1, 3), (1, 5)], (1, 1)) := by decide +kernel
-- "let a=1|if a" and "endif"
example : topPlaces [108, 101, 116, 32, 97, 61, 49, 124, 105, 102, 32, 97, 10, 101, 110, 100, 105, 102, 10] =
    some [(1, 1), (1, 9)] := by decide +kernel

end Viml.Props
