/-
What the compiler prints for a file with one more modifier.
-/
import Verif.Lemmas.ModifyAt
import Verif.Lemmas.PosFree
import Verif.Lemmas.CompFile

namespace Viml
open Spec Ast

/-! ### Positions are not printed -/

theorem sx_pos (m : Ast.Pos → Ast.Pos) (e : Ast.Expr) : (sx (e.onPos m)).text = (sx e).text := by
  rw [← Comp.expr_eq, ← Comp.expr_eq, comp_expr]

theorem sxs_pos (m : Ast.Pos → Ast.Pos) (l : List Ast.Expr) : (sxs (Expr.onPosL m l)).map SX.text = (sxs l).map SX.text := by
  rw [← Comp.exprs_eq, ← Comp.exprs_eq, comp_exprs]

theorem sxWords_pos (m : Ast.Pos → Ast.Pos) (l : List Ast.Expr) : sxWords (Expr.onPosL m l) = sxWords l := by
  rw [sxWords, sxWords, sxs_pos]

theorem lhsText_pos (m : Ast.Pos → Ast.Pos) (l : Option Ast.Expr) (ls : List Ast.Expr) (r : Option Ast.Expr) :
    lhsText (Expr.onPosO m l) (Expr.onPosL m ls) (Expr.onPosO m r) = lhsText l ls r := by
  rw [← Comp.lhsStr_eq, ← Comp.lhsStr_eq, comp_lhs]

theorem funcLine_pos (m : Ast.Pos → Ast.Pos) (d : Nat) (n : Ast.Expr) (ps : List Ast.Ident) (ds : List Ast.Expr) :
    funcLine' d (n.onPos m) (ps.map (Ident.onPos m)) (Expr.onPosL m ds) = funcLine' d n ps ds := by
  unfold funcLine' sigWords
  simp only [sx_pos, sxs_pos, onPos_names, List.map_eq_nil_iff]

theorem firstLine_pos (m : Ast.Pos → Ast.Pos) (s : Ast.Stmt) : firstLine (s.onPos m) = firstLine s := by
  cases s with
  | return_ q ea r => cases r <;> simp only [Stmt.onPos, Expr.onPosO, firstLine, sx_pos] <;> rfl
  | exCall q ea f p as =>
    have := sx_pos m (.call f p as)
    simp only [Stmt.onPos, firstLine]
    simp only [Expr.onPos] at this
    rw [this]
    rfl
  | _ =>
    simp only [Stmt.onPos, firstLine, sx_pos, sxWords_pos, lhsText_pos]
    try rfl

mutual

theorem lines_pos (m : Ast.Pos → Ast.Pos) (d : Nat) : ∀ s : Ast.Stmt, lines funcLine' d (s.onPos m) = lines funcLine' d s
  | .function q ea b n ps da a e => by simp only [Stmt.onPos, lines, funcLine_pos, linesL_pos m _ b]
  | .if_ q ea b c eis el e => by
    have h := firstLine_pos m (.if_ q ea b c eis el e)
    simp only [Stmt.onPos] at h
    simp only [Stmt.onPos, lines, h, linesL_pos m _ b, linesL_pos m _ eis, linesO_pos m _ el]
  | .elseIf q ea b c => by
    have h := firstLine_pos m (.elseIf q ea b c)
    simp only [Stmt.onPos] at h
    simp only [Stmt.onPos, lines, h, linesL_pos m _ b]
  | .else_ q ea b => by
    have h := firstLine_pos m (.else_ q ea b)
    simp only [Stmt.onPos] at h
    simp only [Stmt.onPos, lines, h, linesL_pos m _ b]
  | .while_ q ea b c e => by
    have h := firstLine_pos m (.while_ q ea b c e)
    simp only [Stmt.onPos] at h
    simp only [Stmt.onPos, lines, h, linesL_pos m _ b]
  | .for_ q ea b l ls rest r e => by
    have h := firstLine_pos m (.for_ q ea b l ls rest r e)
    simp only [Stmt.onPos] at h
    simp only [Stmt.onPos, lines, h, linesL_pos m _ b]
  | .try_ q ea b cs fi e => by
    have h := firstLine_pos m (.try_ q ea b cs fi e)
    simp only [Stmt.onPos] at h
    simp only [Stmt.onPos, lines, h, linesL_pos m _ b, linesL_pos m _ cs, linesO_pos m _ fi]
  | .catch_ q ea b p => by
    have h := firstLine_pos m (.catch_ q ea b p)
    simp only [Stmt.onPos] at h
    simp only [Stmt.onPos, lines, h, linesL_pos m _ b]
  | .finally_ q ea b => by
    have h := firstLine_pos m (.finally_ q ea b)
    simp only [Stmt.onPos] at h
    simp only [Stmt.onPos, lines, h, linesL_pos m _ b]
  | .comment q t => by
    have h := firstLine_pos m (.comment q t)
    simp only [Stmt.onPos] at h
    simp only [Stmt.onPos, lines, h]
  | .excmd q ea t => by
    have h := firstLine_pos m (.excmd q ea t)
    simp only [Stmt.onPos] at h
    simp only [Stmt.onPos, lines, h]
  | .delFunction q ea n => by
    have h := firstLine_pos m (.delFunction q ea n)
    simp only [Stmt.onPos] at h
    simp only [Stmt.onPos, lines, h]
  | .return_ q ea r => by
    have h := firstLine_pos m (.return_ q ea r)
    simp only [Stmt.onPos] at h
    simp only [Stmt.onPos, lines, h]
  | .exCall q ea f p as => by
    have h := firstLine_pos m (.exCall q ea f p as)
    simp only [Stmt.onPos] at h
    simp only [Stmt.onPos, lines, h]
  | .let_ q ea op l ls rs r => by
    have h := firstLine_pos m (.let_ q ea op l ls rs r)
    simp only [Stmt.onPos] at h
    simp only [Stmt.onPos, lines, h]
  | .unLet q ea l => by
    have h := firstLine_pos m (.unLet q ea l)
    simp only [Stmt.onPos] at h
    simp only [Stmt.onPos, lines, h]
  | .lockVar q ea k l => by
    have h := firstLine_pos m (.lockVar q ea k l)
    simp only [Stmt.onPos] at h
    simp only [Stmt.onPos, lines, h]
  | .unLockVar q ea k l => by
    have h := firstLine_pos m (.unLockVar q ea k l)
    simp only [Stmt.onPos] at h
    simp only [Stmt.onPos, lines, h]
  | .continue_ q ea => by
    have h := firstLine_pos m (.continue_ q ea)
    simp only [Stmt.onPos] at h
    simp only [Stmt.onPos, lines, h]
  | .break_ q ea => by
    have h := firstLine_pos m (.break_ q ea)
    simp only [Stmt.onPos] at h
    simp only [Stmt.onPos, lines, h]
  | .throw q ea e => by
    have h := firstLine_pos m (.throw q ea e)
    simp only [Stmt.onPos] at h
    simp only [Stmt.onPos, lines, h]
  | .eval q ea e => by
    have h := firstLine_pos m (.eval q ea e)
    simp only [Stmt.onPos] at h
    simp only [Stmt.onPos, lines, h]
  | .echoCmd q n ea l => by
    have h := firstLine_pos m (.echoCmd q n ea l)
    simp only [Stmt.onPos] at h
    simp only [Stmt.onPos, lines, h]
  | .echohl q ea n => by
    have h := firstLine_pos m (.echohl q ea n)
    simp only [Stmt.onPos] at h
    simp only [Stmt.onPos, lines, h]
  | .execute q ea l => by
    have h := firstLine_pos m (.execute q ea l)
    simp only [Stmt.onPos] at h
    simp only [Stmt.onPos, lines, h]

theorem linesL_pos (m : Ast.Pos → Ast.Pos) (d : Nat) : ∀ l : List Ast.Stmt,
    linesL funcLine' d (Stmt.onPosL m l) = linesL funcLine' d l
  | [] => rfl
  | s :: ss => by simp only [Stmt.onPosL, linesL, lines_pos m d s, linesL_pos m d ss]

theorem linesO_pos (m : Ast.Pos → Ast.Pos) (d : Nat) : ∀ o : Option Ast.Stmt,
    linesO funcLine' d (Stmt.onPosO m o) = linesO funcLine' d o
  | none => rfl
  | some s => by simp only [Stmt.onPosO, linesO, lines_pos m d s]

end

/-! ### A modifier is printed in a text only -/

/-- The same lines, but that at most `i` of those that start with `(excmd "` have the text `w` behind it. -/
inductive LinesMod (w : Str) : Nat → List Str → List Str → Prop
  | nil : LinesMod w 0 [] []
  | same {i X Y} (x : Str) : LinesMod w i X Y → LinesMod w i (x :: X) (x :: Y)
  | text {i X Y} (d : Nat) (u : Str) : LinesMod w i X Y →
      LinesMod w (i + 1) ((indent d ++ cs!"(excmd \"" ++ u) :: X) ((indent d ++ cs!"(excmd \"" ++ w ++ u) :: Y)
  | skip {i X Y} : LinesMod w i X Y → LinesMod w (i + 1) X Y

namespace LinesMod
variable {w : Str} {i j : Nat} {X Y X' Y' : List Str}

theorem refl : ∀ X : List Str, LinesMod w 0 X X
  | [] => .nil
  | x :: X => .same x (refl X)

theorem more (h : LinesMod w i X Y) : ∀ j, LinesMod w (i + j) X Y
  | 0 => h
  | j + 1 => .skip (more h j)

theorem eq (h : LinesMod w i X Y) (e : i = j) : LinesMod w j X Y := e ▸ h

theorem append (h : LinesMod w i X Y) (h' : LinesMod w j X' Y') : LinesMod w (i + j) (X ++ X') (Y ++ Y') := by
  induction h with
  | nil => exact h'.eq (Nat.zero_add _).symm
  | same x _ ih => exact .same x ih
  | text d u _ ih => exact (LinesMod.text d u ih).eq (by omega)
  | skip _ ih => exact (LinesMod.skip ih).eq (by omega)

theorem isNil (h : LinesMod w i X Y) : X = [] ↔ Y = [] := by
  induction h with
  | nil => simp
  | same => simp
  | text => simp
  | skip _ ih => exact ih

theorem close (h : LinesMod w i X Y) : LinesMod w i (close X) (close Y) := by
  induction h with
  | nil => exact .nil
  | @same i X Y x h ih =>
    cases X with
    | nil =>
      obtain rfl := h.isNil.1 rfl
      exact .same _ h
    | cons a X =>
      cases Y with
      | nil => exact absurd (h.isNil.2 rfl) (by simp)
      | cons b Y => exact .same x ih
  | @text i X Y d u h ih =>
    cases X with
    | nil =>
      obtain rfl := h.isNil.1 rfl
      have := LinesMod.text d (u ++ [')']) h
      simpa [Spec.close] using this
    | cons a X =>
      cases Y with
      | nil => exact absurd (h.isNil.2 rfl) (by simp)
      | cons b Y => exact .text d u ih
  | skip _ ih => exact .skip ih

end LinesMod

theorem bs_append (a b : Str) : bs (a ++ b) = bs a ++ bs b := by simp [bs]

theorem Spec.RecMod.name {p q : Ast.Pos} {m : Modifier} {i : Nat} {ea ea' : Ast.ExArg} (h : RecMod p q m i ea ea') :
    Spec.nameOf ea' = Spec.nameOf ea := by cases h <;> rfl

variable {p q : Ast.Pos} {m : Modifier} {w : Str}

theorem linesMod_simple (d : Nat) {s : Ast.Stmt} {ea : Ast.ExArg} (h : recordOf s = some ea) :
    LinesMod (bs w) 1 (lines funcLine' d s) (lines funcLine' d (withRecord w (addMod q m) s)) := by
  cases s with
  | excmd x ea t =>
    have := LinesMod.text (w := bs w) d (bs t ++ cs!"\")") .nil
    simpa [lines, withRecord, firstLine, form, bs_append] using this
  | return_ _ _ r => cases r <;> exact (LinesMod.refl _).more 1
  | _ => first
    | exact (LinesMod.refl _).more 1
    | cases h

theorem linesO_toList (fl : Nat → Ast.Expr → List Ast.Ident → List Ast.Expr → Str) (d : Nat) (o : Option Ast.Stmt) :
    linesO fl d o = linesL fl d o.toList := by
  cases o <;> simp [linesO, linesL]

mutual

theorem linesMod_stmt : ∀ (d : Nat) {i : Nat} {s s' : Ast.Stmt}, Modded p q m w i s s' →
    LinesMod (bs w) i (lines funcLine' d s) (lines funcLine' d s')
  | d, _, _, _, .same _ => LinesMod.refl _
  | d, _, _, _, .simple h _ => linesMod_simple d h
  | d, _, _, _, @Modded.function _ _ _ _ i j k _ _ _ b b' _ _ _ _ _ _ _ h1 h2 h3 => by
    simp only [lines]
    exact ((LinesMod.same _ (((linesMod_stmts (d + 1) h2).more (i + k)).eq (by omega))).close)
  | d, _, _, _, @Modded.while_ _ _ _ _ i j k _ _ _ _ _ _ _ _ _ h1 h2 h3 => by
    simp only [lines, firstLine, h1.name]
    exact ((LinesMod.same _ (((linesMod_stmts (d + 1) h2).more (i + k)).eq (by omega))).close)
  | d, _, _, _, @Modded.for_ _ _ _ _ i j k _ _ _ _ _ _ _ _ _ _ _ _ h1 h2 h3 => by
    simp only [lines, firstLine, h1.name]
    exact ((LinesMod.same _ (((linesMod_stmts (d + 1) h2).more (i + k)).eq (by omega))).close)
  | d, _, _, _, @Modded.if_ _ _ _ _ i j k l o _ _ _ _ _ _ _ _ _ _ _ _ _ h1 h2 h3 h4 h5 => by
    simp only [lines, firstLine, h1.name, linesO_toList]
    exact (LinesMod.same _ (((((linesMod_stmts (d + 1) h2).append (linesMod_stmts d h3)).append (linesMod_stmts d h4)).more
      (i + o)).eq (by omega))).close
  | d, _, _, _, @Modded.elseIf _ _ _ _ i j _ _ _ _ _ _ h1 h2 => by
    simp only [lines, firstLine, h1.name]
    exact LinesMod.same _ (((linesMod_stmts (d + 1) h2).more i).eq (by omega))
  | d, _, _, _, @Modded.else_ _ _ _ _ i j _ _ _ _ _ h1 h2 => by
    simp only [lines, firstLine, h1.name]
    exact LinesMod.same _ (((linesMod_stmts (d + 1) h2).more i).eq (by omega))
  | d, _, _, _, @Modded.try_ _ _ _ _ i j k l o _ _ _ _ _ _ _ _ _ _ _ _ h1 h2 h3 h4 h5 => by
    simp only [lines, firstLine, h1.name, linesO_toList]
    exact (LinesMod.same _ (((((linesMod_stmts (d + 1) h2).append (linesMod_stmts d h3)).append (linesMod_stmts d h4)).more
      (i + o)).eq (by omega))).close
  | d, _, _, _, @Modded.catch_ _ _ _ _ i j _ _ _ _ _ _ h1 h2 => by
    simp only [lines, firstLine, h1.name]
    exact LinesMod.same _ (((linesMod_stmts (d + 1) h2).more i).eq (by omega))
  | d, _, _, _, @Modded.finally_ _ _ _ _ i j _ _ _ _ _ h1 h2 => by
    simp only [lines, firstLine, h1.name]
    exact LinesMod.same _ (((linesMod_stmts (d + 1) h2).more i).eq (by omega))

theorem linesMod_stmts : ∀ (d : Nat) {i : Nat} {l l' : List Ast.Stmt}, ModdedL p q m w i l l' →
    LinesMod (bs w) i (linesL funcLine' d l) (linesL funcLine' d l')
  | d, _, _, _, .nil => .nil
  | d, _, _, _, .cons h1 h2 => by
    simp only [linesL]
    exact (linesMod_stmt d h1).append (linesMod_stmts d h2)

end

theorem LinesMod.one {X Y : List Str} (h : LinesMod w 1 X Y) : Y = X ∨ ∃ a b d u,
    X = a ++ (indent d ++ cs!"(excmd \"" ++ u) :: b ∧ Y = a ++ (indent d ++ cs!"(excmd \"" ++ w ++ u) :: b := by
  have zero : ∀ {X Y}, LinesMod w 0 X Y → Y = X := by
    intro X Y h
    generalize e : 0 = i at h
    induction h with
    | nil => rfl
    | same x _ ih => rw [ih e]
    | text => cases e
    | skip => cases e
  generalize e : 1 = i at h
  induction h with
  | nil => cases e
  | same x _ ih =>
    rcases ih e with rfl | ⟨a, b, d, u, rfl, rfl⟩
    · exact .inl rfl
    · exact .inr ⟨x :: a, b, d, u, rfl, rfl⟩
  | text d u h =>
    cases e
    rw [zero h]
    exact .inr ⟨[], _, d, u, rfl, rfl⟩
  | skip h =>
    cases e
    exact .inl (zero h)

end Viml
