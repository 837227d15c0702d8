/-
Two lists of lines with the same logical lines give buffers that differ by a relabelling of positions
only.
-/
import Verif.Lemmas.LabExport
import Verif.Lemmas.LabStmt
import Verif.Props.Input

namespace Viml
open Spec Props

theorem mkEnv_i (lines : List Str) (k : Nat) (c : Cell) (h : (mkEnv lines).buf[k]? = some c) : c.pos.i = k := by
  have key : ∀ (cs : List Cell) (n k : Nat), (reindex n cs)[k]? = some c → c.pos.i = n + k := by
    intro cs
    induction cs with
    | nil => intro n k h; simp [reindex] at h
    | cons a cs ih =>
      intro n k h
      cases k with
      | zero => simp only [reindex, List.getElem?_cons_zero, Option.some.injEq] at h; subst h; rfl
      | succ k => rw [reindex, List.getElem?_cons_succ] at h; rw [ih _ _ h]; omega
  simpa using key _ 0 k h

/-- The map of places from one list of lines to another with the same logical lines. -/
def mover (lines lines' : List Str) : Moving := fun l c =>
  if l = 0 then (0, 0, 0)
  else if l = lines.length + 1 then (lines'.length + 1, 0, (mkEnv lines').eof.offset)
  else match (mkEnv lines).buf.findIdx? fun x => x.pos.lnum == l && x.pos.col == c with
    | none => (0, 0, 0)
    | some k => match (mkEnv lines').buf[k]? with
      | none => (0, 0, 0)
      | some y => (y.pos.lnum, y.pos.col, y.pos.offset)

theorem mkEnv_lnum {lines : List Str} {c : Cell} (h : c ∈ (mkEnv lines).buf) :
    0 < c.pos.lnum ∧ c.pos.lnum < lines.length + 1 := by
  constructor
  · cases hc : c.c with
    | some ch => obtain ⟨p, _, _, hl, _⟩ := C02_line_col lines c h ch hc; omega
    | none => obtain ⟨l, hl, _⟩ := C02_line_end lines c h hc; exact hl
  · rcases C04_before_eof lines c h with h | ⟨_, h⟩
    · exact h
    · exact absurd h (Nat.not_lt_zero _)

theorem mover_moves (lines lines' : List Str) : Moves lines lines' (mover lines lines') where
  unset := rfl
  eof := by simp [mover]
  cell := by
    intro k c c' hc hc'
    have hm := List.mem_of_getElem? hc
    obtain ⟨h0, h1⟩ := mkEnv_lnum hm
    have hf : (mkEnv lines).buf.findIdx? (fun x => x.pos.lnum == c.pos.lnum && x.pos.col == c.pos.col) = some k := by
      obtain ⟨hk, hck⟩ := List.getElem?_eq_some_iff.1 hc
      rw [List.findIdx?_eq_some_iff_getElem]
      refine ⟨hk, by simp [hck], fun j hj => ?_⟩
      simp only [Bool.and_eq_true, beq_iff_eq, not_and]
      intro e1 e2
      have := C04_injective lines j k _ c (List.getElem?_eq_getElem (by omega)) hc e1 e2
      omega
    rw [mover, if_neg (by omega), if_neg (by omega), hf]
    simp only [hc']

/-- A map of places as a relabelling. -/
def Spec.Moving.relab (mv : Moving) (h : mv 0 0 = (0, 0, 0)) : Relab where
  f q := ⟨q.i, (mv q.lnum q.col).1, (mv q.lnum q.col).2.1, (mv q.lnum q.col).2.2⟩
  idx _ := rfl
  dflt := by show Pos.mk 0 (mv 0 0).1 (mv 0 0).2.1 (mv 0 0).2.2 = _; rw [h]; rfl

theorem exports_mv (mv : Moving) (h : mv 0 0 = (0, 0, 0)) (fn : Str) : Exports (mv.relab h) fn fn mv.pos := fun _ => rfl

theorem mkEnv_lab {lines lines' : List Str} {mv : Moving} (h : Moves lines lines' mv)
    (hl : logicalLines lines = logicalLines lines') : lab (mv.relab h.unset) (mkEnv lines) = mkEnv lines' := by
  have hc : (mkEnv lines).buf.map Cell.c = (mkEnv lines').buf.map Cell.c := by
    rw [C01_logical_lines, C01_logical_lines, hl]
  have hlen : (mkEnv lines).buf.length = (mkEnv lines').buf.length := by
    simpa using congrArg List.length hc
  show Env.mk ((mkEnv lines).buf.map (lab (mv.relab h.unset))) (lab (mv.relab h.unset) (mkEnv lines).eof) = mkEnv lines'
  have hb : (mkEnv lines).buf.map (lab (mv.relab h.unset)) = (mkEnv lines').buf := by
    apply List.ext_getElem?
    intro k
    rw [List.getElem?_map]
    cases hx : (mkEnv lines).buf[k]? with
    | none =>
      rw [List.getElem?_eq_none_iff] at hx
      rw [eq_comm, Option.map_none, List.getElem?_eq_none_iff, ← hlen]; exact hx
    | some c =>
      have hk : k < (mkEnv lines').buf.length := by
        rw [← hlen]; exact (List.getElem?_eq_some_iff.1 hx).1
      have hy := List.getElem?_eq_getElem hk
      rw [hy]
      have e1 : c.c = (mkEnv lines').buf[k].c := by
        have := congrArg (fun l => l[k]?) hc
        simpa [List.getElem?_map, hx, hy] using this
      have e2 := mkEnv_i lines k c hx
      have e3 := mkEnv_i lines' k _ hy
      have e4 := h.cell k c _ hx hy
      show some (Cell.mk c.c ⟨c.pos.i, (mv c.pos.lnum c.pos.col).1, (mv c.pos.lnum c.pos.col).2.1,
        (mv c.pos.lnum c.pos.col).2.2⟩) = _
      rw [e4, e2, e1]
      exact congrArg some (congrArg (Cell.mk _) (congrArg (Pos.mk · _ _ _) e3.symm))
  rw [hb]
  show Env.mk (mkEnv lines').buf ⟨(mkEnv lines).buf.length, (mv (lines.length + 1) 0).1, (mv (lines.length + 1) 0).2.1,
    (mv (lines.length + 1) 0).2.2⟩ = _
  rw [h.eof, hlen]
  rfl

theorem recover_lab {mv : Moving} (h : mv 0 0 = (0, 0, 0)) (fn : Str) (e : Fail) :
    recoverFail fn (lab (mv.relab h) e) = (recoverFail fn e).map mv.err := by
  cases e <;> rfl

theorem file_moves {lines lines' : List Str} {mv : Moving} (h : Moves lines lines' mv)
    (hl : logicalLines lines = logicalLines lines') (nv : Bool) (fn : Str) :
    parseFileLines nv fn lines' = (parseFileLines nv fn lines).map (mv.res Ast.File.onPos) := by
  have e := toplevel_lab (φ := mv.relab h.unset) nv (mkEnv lines) (mkEnv lines).buf
  rw [show lab (mv.relab h.unset) (mkEnv lines).buf = (mkEnv lines').buf from congrArg Env.buf (mkEnv_lab h hl),
    mkEnv_lab h hl] at e
  unfold parseFileLines
  simp only []
  rw [e]
  cases (parseToplevel nv).run (mkEnv lines) (mkEnv lines).buf with
  | fail e =>
    show ((recoverFail fn (lab (mv.relab h.unset) e)).map _) = _
    rw [recover_lab]
    dsimp only
    cases recoverFail fn e <;> rfl
  | ok f r =>
    show (match Export.file fn (lab (mv.relab h.unset) f) with | some a => _ | none => _) = _
    rw [export_file (exports_mv mv h.unset fn)]
    dsimp only
    cases Export.file fn f <;> rfl

theorem expr_moves {lines lines' : List Str} {mv : Moving} (h : Moves lines lines' mv)
    (hl : logicalLines lines = logicalLines lines') :
    parseExprLines lines' = (parseExprLines lines).map (mv.res Ast.Expr.onPos) := by
  have e := expr_lab (φ := mv.relab h.unset) (mkEnv lines) (mkEnv lines).buf
  rw [show lab (mv.relab h.unset) (mkEnv lines).buf = (mkEnv lines').buf from congrArg Env.buf (mkEnv_lab h hl),
    mkEnv_lab h hl] at e
  unfold parseExprLines
  simp only []
  rw [e]
  cases parseExpr1.run (mkEnv lines) (mkEnv lines).buf with
  | fail e =>
    show ((recoverFail [] (lab (mv.relab h.unset) e)).map _) = _
    rw [recover_lab]
    dsimp only
    cases recoverFail [] e <;> rfl
  | ok f r =>
    show (match Export.expr [] (lab (mv.relab h.unset) f) with | some a => _ | none => _) = _
    rw [export_expr (exports_mv mv h.unset [])]
    dsimp only
    cases Export.expr [] f <;> rfl

end Viml
