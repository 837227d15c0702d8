/-
The characters the parser reads from two files, one after the other.
-/
import Verif.Spec.Concat
import Verif.Lemmas.Input

namespace Viml
open Spec

/-- The cell of `A ++ B` for a cell of `B`; `k` characters are read from `A`. -/
def moveCell (A B : List Str) (k : Nat) (c : Cell) : Cell :=
  ⟨c.c, ⟨c.pos.i + k, c.pos.lnum + A.length, c.pos.col,
    if onContLine B c.pos.lnum c.pos.col then 0 else c.pos.offset + (fileBytes A).length⟩⟩

theorem buildRest_append {l : Str} (h : isCont l = false) (b : List Str) : ∀ (a : List Str) (n col off : Nat),
    buildRest (a ++ l :: b) n col off = buildRest a n col off ++ (lineCells (n + a.length + 2) 0 (off + totalLen a + 1) l ++
      buildRest b (n + a.length + 1) (bytesLen l) (off + totalLen a + 1 + bytesLen l))
  | [], n, col, off => by simp [buildRest, h, totalLen]
  | x :: a, n, col, off => by
    simp only [List.cons_append, buildRest, List.length_cons, totalLen]
    split
    · rw [buildRest_append h b a]
      simp only [List.append_assoc]
      rw [show n + 1 + a.length + 2 = n + (a.length + 1) + 2 by omega, show n + 1 + a.length + 1 = n + (a.length + 1) + 1 by omega,
        show off + bytesLen x + 1 + totalLen a = off + (bytesLen x + 1 + totalLen a) by omega]
    · rw [buildRest_append h b a]
      simp only [List.append_assoc, List.cons_append]
      rw [show n + 1 + a.length + 2 = n + (a.length + 1) + 2 by omega, show n + 1 + a.length + 1 = n + (a.length + 1) + 1 by omega,
        show off + 1 + bytesLen x + totalLen a = off + (bytesLen x + 1 + totalLen a) by omega]

variable {A B : List Str}

theorem lineCells_move (n : Nat) (hn : ∀ col, onContLine B n col = false) : ∀ (l : Str) (col off : Nat),
    lineCells (n + A.length) col (off + (fileBytes A).length) l = (lineCells n col off l).map (moveCell A B 0)
  | [], _, _ => rfl
  | c :: l, col, off => by
    simp only [lineCells, List.map_cons, moveCell, hn]
    rw [show off + (fileBytes A).length + runeLen c = off + runeLen c + (fileBytes A).length by omega,
      lineCells_move n hn l]
    rfl

theorem contCells_move (n : Nat) (bound : Nat) (hn : ∀ col, col ≤ bound → onContLine B n col = true) :
    ∀ (l : Str) (s : Bool) (col : Nat), col + bytesLen l ≤ bound →
    contCells (n + A.length) s col l = (contCells n s col l).map (moveCell A B 0)
  | [], s, _, _ => by cases s <;> rfl
  | c :: l, s, col, h => by
    have : 1 ≤ runeLen c := Char.utf8Size_pos c
    simp only [bytesLen] at h
    cases s with
    | true =>
      simp only [contCells]
      exact contCells_move n bound hn l _ _ (by omega)
    | false =>
      simp only [contCells, List.map_cons, moveCell, hn (col + 1) (by omega)]
      rw [contCells_move n bound hn l _ _ (by omega)]
      rfl

theorem buildRest_move : ∀ (ls pre : List Str) (x : Str) (n off : Nat), B = pre ++ x :: ls → pre.length = n →
    buildRest ls (n + A.length) (bytesLen x) (off + (fileBytes A).length) =
      (buildRest ls n (bytesLen x) off).map (moveCell A B 0)
  | [], pre, x, n, off, hB, hn => by
    have : onContLine B (n + 1) (bytesLen x + 1) = false := by
      subst hB hn
      simp only [onContLine, Nat.add_sub_cancel, List.getElem?_append_right (Nat.le_refl _), Nat.sub_self,
        List.getElem?_cons_zero, Option.any_some, bytesLen_eq]
      simp
    simp only [buildRest, List.map_cons, List.map_nil, moveCell, this]
    simp only [Bool.false_eq_true, if_false, Nat.add_zero]
    rw [show n + A.length + 1 = n + 1 + A.length by omega]
  | l :: ls, pre, x, n, off, hB, hn => by
    have hl : B[n + 1]? = some l := by
      subst hB hn
      rw [List.getElem?_append_right (by omega)]
      simp
    have e1 : onContLine B (n + 1) (bytesLen x + 1) = false := by
      subst hB hn
      simp only [onContLine, Nat.add_sub_cancel, List.getElem?_append_right (Nat.le_refl _), Nat.sub_self,
        List.getElem?_cons_zero, Option.any_some, bytesLen_eq]
      simp
    have ih := fun off => buildRest_move ls (pre ++ [x]) l (n + 1) off (by simp [hB]) (by simp [hn])
    simp only [buildRest]
    split
    · rename_i hc
      have hc' : (afterBackslash l).isSome = true := by rw [← isCont_iff]; exact hc
      rw [List.map_append, ← ih, ← contCells_move (n + 2) (bytesLen l) ?_ l true 0 (by omega)]
      · rw [show n + A.length + 2 = n + 2 + A.length by omega, show n + A.length + 1 = n + 1 + A.length by omega,
          show off + (fileBytes A).length + bytesLen l + 1 = off + bytesLen l + 1 + (fileBytes A).length by omega]
      · intro col hcol
        rw [bytesLen_eq] at hcol
        simp [onContLine, hl, hc', hcol]
    · rename_i hc
      have hc' : (afterBackslash l).isSome = false := by rw [← isCont_iff]; simpa using hc
      rw [List.map_cons, List.map_append, ← ih, ← lineCells_move (n + 2) ?_ l 0 (off + 1)]
      · simp only [moveCell, e1]
        rw [show n + A.length + 2 = n + 2 + A.length by omega, show n + A.length + 1 = n + 1 + A.length by omega,
          show off + (fileBytes A).length + 1 + bytesLen l = off + 1 + bytesLen l + (fileBytes A).length by omega,
          show off + (fileBytes A).length + 1 = off + 1 + (fileBytes A).length by omega]
        simp
      · intro col
        simp [onContLine, hl, hc']

/-- Without a continuation line at the start of `B`. -/
theorem buildCells_append (h : ∀ l, B.head? = some l → afterBackslash l = none) :
    buildCells (A ++ B) = buildCells A ++ (buildCells B).map (moveCell A B 0) := by
  cases B with
  | nil => simp [buildCells]
  | cons l b =>
    have hl : isCont l = false := by rw [isCont_iff, h l rfl]; rfl
    have e : lineCells (1 + A.length) 0 (0 + (fileBytes A).length) l ++
        buildRest b (0 + A.length) (bytesLen l) (bytesLen l + (fileBytes A).length) =
        (buildCells (l :: b)).map (moveCell A (l :: b) 0) := by
      rw [buildCells, List.map_append, ← buildRest_move (B := l :: b) b [] l 0 (bytesLen l) rfl rfl,
        ← lineCells_move 1 (fun col => by simp [onContLine]) l 0 0]
    rw [← e]
    cases A with
    | nil => simp [buildCells, fileBytes]
    | cons a A =>
      rw [List.cons_append, buildCells, buildRest_append hl, ← totalLen_eq]
      simp only [buildCells, List.append_assoc, List.length_cons, totalLen]
      rw [show 0 + A.length + 2 = 1 + (A.length + 1) by omega, show 0 + A.length + 1 = 0 + (A.length + 1) by omega,
        show bytesLen a + totalLen A + 1 = 0 + (bytesLen a + 1 + totalLen A) by omega,
        show 0 + (bytesLen a + 1 + totalLen A) + bytesLen l = bytesLen l + (bytesLen a + 1 + totalLen A) by omega]

theorem reindex_move (k : Nat) : ∀ (cs : List Cell) (n : Nat),
    reindex (n + k) (cs.map (moveCell A B 0)) = (reindex n cs).map (moveCell A B k)
  | [], _ => rfl
  | c :: cs, n => by
    simp only [List.map_cons, reindex, moveCell]
    rw [show n + k + 1 = n + 1 + k by omega, reindex_move k cs]

theorem mkEnv_append (h : ∀ l, B.head? = some l → afterBackslash l = none) :
    (mkEnv (A ++ B)).buf = (mkEnv A).buf ++ (mkEnv B).buf.map (moveCell A B (mkEnv A).buf.length) := by
  simp only [mkEnv]
  rw [buildCells_append h, reindex_append, ← reindex_move, reindex_length]

theorem pub_move (fn : Str) (k : Nat) (c : Cell) : pubPos fn (moveCell A B k c).pos = shift A B (pubPos fn c.pos) := rfl

theorem pub_move_eof (fn : Str) : pubPos fn (mkEnv (A ++ B)).eof = shift A B (pubPos fn (mkEnv B).eof) := by
  have : onContLine B (B.length + 1) 0 = false := by simp [onContLine]
  simp only [pubPos, shift, mkEnv, this, totalLen_append, ← totalLen_eq, List.length_append]
  simp only [Bool.false_eq_true, if_false, Ast.Pos.mk.injEq, and_true]
  omega

end Viml
