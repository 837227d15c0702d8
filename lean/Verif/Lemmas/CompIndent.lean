import Verif.Model.Compiler

namespace Viml
namespace Comp

/-! ### Indentation, for every tree -/

/-- Running `m` changes the indentation level by `k` (if it does not panic). -/
def Shift {α : Type} (k : Int) (m : M α) : Prop :=
  ∀ st a st', m st = some (a, st') → st'.indent = st.indent + k

theorem Shift.bind {α β : Type} {j k n : Int} {m : M α} {f : α → M β} (h1 : Shift j m) (h2 : ∀ a, Shift k (f a))
    (hn : j + k = n := by rfl) : Shift n (m >>= f) := by
  intro st b st' h
  simp only [Bind.bind, StateT.bind, Option.bind_eq_some_iff] at h
  obtain ⟨⟨a, st1⟩, e1, e2⟩ := h
  have := h1 _ _ _ e1
  have := h2 a _ _ _ e2
  simp only at *
  omega

theorem Shift.pure {α : Type} (a : α) : Shift 0 (pure a : M α) := by
  rintro st b st' ⟨⟩; simp

theorem Shift.fprint (s : Str) : Shift 0 (fprint s) := by
  intro st a st' h
  unfold Comp.fprint at h
  split at h
  · cases h
  · cases h; simp

theorem Shift.fprintln (s : Str) : Shift 0 (fprintln s) := Shift.fprint _

theorem Shift.writeString (s : Str) : Shift 0 (writeString s) := by rintro st a st' ⟨⟩; simp

theorem Shift.trim : Shift 0 trimLineBreak := by rintro st a st' ⟨⟩; simp

theorem Shift.inc : Shift 1 inc := by rintro st a st' ⟨⟩; simp

theorem Shift.dec : Shift (-1) dec := by rintro st a st' ⟨⟩; simp [Int.sub_eq_add_neg]

theorem Shift.cmdName (ea : Ast.ExArg) : Shift 0 (cmdName ea) := by
  intro st a st' h
  unfold Comp.cmdName at h
  split at h
  · cases h
  · cases h; simp

theorem Shift.fail {α : Type} (k : Int) : Shift k (fun _ => none : M α) := by rintro st a st' ⟨⟩

theorem Shift.simple (ea : Ast.ExArg) (s : Str) : Shift 0 (simple ea s) :=
  (Shift.cmdName ea).bind fun _ => (Shift.fprintln _).bind fun _ => Shift.pure _

theorem Shift.funcHead (n : Ast.Expr) (ps : List Ast.Ident) (da : List Ast.Expr) : Shift 0 (funcHead n ps da) := by
  unfold Comp.funcHead
  refine (Shift.fprint _).bind (k := 0) fun _ => ?_
  split
  · exact (Shift.fprint _).bind (k := 0) fun _ => (Shift.fprint _).bind (k := 0) fun _ => Shift.fprintln _
  · exact Shift.fprintln _

mutual

theorem shift_stmt : ∀ s : Ast.Stmt, Shift 0 (stmt s)
  | .comment _ t => by rw [stmt]; exact (Shift.fprintln _).bind fun _ => Shift.pure _
  | .excmd _ _ s => by rw [stmt]; exact (Shift.fprintln _).bind fun _ => Shift.pure _
  | .function _ _ body name params defs _ _ => by
    rw [stmt]
    exact (Shift.funcHead _ _ _).bind (k := 0) fun _ => Shift.inc.bind (k := -1) fun _ =>
      (shift_stmts body).bind (k := -1) fun _ => Shift.trim.bind (k := -1) fun _ =>
      (Shift.writeString _).bind (k := -1) fun _ => Shift.dec.bind (k := 0) fun _ => Shift.pure _
  | .delFunction _ ea name => by rw [stmt]; exact Shift.simple _ _
  | .return_ _ ea (some e) => by rw [stmt]; exact Shift.simple _ _
  | .return_ _ ea none => by
    rw [stmt]; exact (Shift.cmdName _).bind fun _ => (Shift.fprintln _).bind fun _ => Shift.pure _
  | .exCall _ ea f lp as => by rw [stmt]; exact Shift.simple _ _
  | .let_ _ ea op l ls rest r => by
    rw [stmt]; exact (Shift.cmdName _).bind fun _ => (Shift.fprintln _).bind fun _ => Shift.pure _
  | .unLet _ ea l => by rw [stmt]; exact Shift.simple _ _
  | .lockVar _ ea d l => by
    rw [stmt]; exact (Shift.cmdName _).bind fun _ => (Shift.fprintln _).bind fun _ => Shift.pure _
  | .unLockVar _ ea d l => by
    rw [stmt]; exact (Shift.cmdName _).bind fun _ => (Shift.fprintln _).bind fun _ => Shift.pure _
  | .if_ _ ea body cond eis el _ => by
    rw [stmt]
    exact (Shift.cmdName _).bind (k := 0) fun _ => (Shift.fprintln _).bind (k := 0) fun _ =>
      Shift.inc.bind (k := -1) fun _ => (shift_stmts body).bind (k := -1) fun _ => Shift.dec.bind (k := 0) fun _ =>
      (shift_elseIfs eis).bind (k := 0) fun _ => (shift_elseOpt el).bind (k := 0) fun _ =>
      Shift.trim.bind (k := 0) fun _ => (Shift.writeString _).bind (k := 0) fun _ => Shift.pure _
  | .while_ _ ea body cond _ => by
    rw [stmt]
    exact (Shift.cmdName _).bind (k := 0) fun _ => (Shift.fprintln _).bind (k := 0) fun _ =>
      Shift.inc.bind (k := -1) fun _ => (shift_stmts body).bind (k := -1) fun _ => Shift.trim.bind (k := -1) fun _ =>
      (Shift.writeString _).bind (k := -1) fun _ => Shift.dec.bind (k := 0) fun _ => Shift.pure _
  | .for_ _ ea body l ls rest r _ => by
    rw [stmt]
    exact (Shift.cmdName _).bind (k := 0) fun _ => (Shift.fprintln _).bind (k := 0) fun _ =>
      Shift.inc.bind (k := -1) fun _ => (shift_stmts body).bind (k := -1) fun _ => Shift.trim.bind (k := -1) fun _ =>
      (Shift.writeString _).bind (k := -1) fun _ => Shift.dec.bind (k := 0) fun _ => Shift.pure _
  | .continue_ _ ea => by
    rw [stmt]; exact (Shift.cmdName _).bind fun _ => (Shift.fprintln _).bind fun _ => Shift.pure _
  | .break_ _ ea => by
    rw [stmt]; exact (Shift.cmdName _).bind fun _ => (Shift.fprintln _).bind fun _ => Shift.pure _
  | .try_ _ ea body cs fi _ => by
    rw [stmt]
    exact (Shift.cmdName _).bind (k := 0) fun _ => (Shift.fprintln _).bind (k := 0) fun _ =>
      Shift.inc.bind (k := -1) fun _ => (shift_stmts body).bind (k := -1) fun _ =>
      (shift_catches cs).bind (k := -1) fun _ => (shift_finallyOpt fi).bind (k := -1) fun _ =>
      Shift.trim.bind (k := -1) fun _ =>
      (Shift.writeString _).bind (k := -1) fun _ => Shift.dec.bind (k := 0) fun _ => Shift.pure _
  | .throw _ ea e => by rw [stmt]; exact Shift.simple _ _
  | .eval _ ea e => by rw [stmt]; exact Shift.simple _ _
  | .echoCmd _ _ ea l => by rw [stmt]; exact Shift.simple _ _
  | .echohl _ ea s => by
    rw [stmt]; exact (Shift.cmdName _).bind fun _ => (Shift.fprintln _).bind fun _ => Shift.pure _
  | .execute _ ea l => by rw [stmt]; exact Shift.simple _ _
  | .elseIf .. => by rw [stmt]; exact Shift.pure _
  | .else_ .. => by rw [stmt]; exact Shift.pure _
  | .catch_ .. => by rw [stmt]; exact Shift.pure _
  | .finally_ .. => by rw [stmt]; exact Shift.pure _

theorem shift_stmts : ∀ l : List Ast.Stmt, Shift 0 (stmts l)
  | [] => by rw [stmts]; exact Shift.pure _
  | s :: ss => by
    rw [stmts]
    refine (shift_stmt s).bind (k := 0) fun e => ?_
    split
    · exact Shift.pure _
    · exact shift_stmts ss

theorem shift_elseIfs : ∀ l : List Ast.Stmt, Shift 0 (elseIfs l)
  | [] => by rw [elseIfs]; exact Shift.pure _
  | .elseIf _ ea body cond :: r => by
    rw [elseIfs]
    exact (Shift.cmdName _).bind (k := 0) fun _ => (Shift.fprintln _).bind (k := 0) fun _ =>
      Shift.inc.bind (k := -1) fun _ => (shift_stmts body).bind (k := -1) fun _ => Shift.dec.bind (k := 0) fun _ =>
      shift_elseIfs r
  | .comment .. :: _ | .excmd .. :: _ | .function .. :: _ | .delFunction .. :: _ | .return_ .. :: _
  | .exCall .. :: _ | .let_ .. :: _ | .unLet .. :: _ | .lockVar .. :: _ | .unLockVar .. :: _ | .if_ .. :: _
  | .else_ .. :: _ | .while_ .. :: _ | .for_ .. :: _ | .continue_ .. :: _ | .break_ .. :: _ | .try_ .. :: _
  | .catch_ .. :: _ | .finally_ .. :: _ | .throw .. :: _ | .eval .. :: _ | .echoCmd .. :: _ | .echohl .. :: _
  | .execute .. :: _ => by rw [elseIfs]; exact Shift.fail _; nofun

theorem shift_elseOpt : ∀ o : Option Ast.Stmt, Shift 0 (elseOpt o)
  | none => by rw [elseOpt]; exact Shift.pure _
  | some (.else_ _ ea body) => by
    rw [elseOpt]
    exact (Shift.cmdName _).bind (k := 0) fun _ => (Shift.fprintln _).bind (k := 0) fun _ =>
      Shift.inc.bind (k := -1) fun _ => (shift_stmts body).bind (k := -1) fun _ => Shift.dec
  | some (.comment ..) | some (.excmd ..) | some (.function ..) | some (.delFunction ..) | some (.return_ ..)
  | some (.exCall ..) | some (.let_ ..) | some (.unLet ..) | some (.lockVar ..) | some (.unLockVar ..)
  | some (.if_ ..) | some (.elseIf ..) | some (.while_ ..) | some (.for_ ..) | some (.continue_ ..)
  | some (.break_ ..) | some (.try_ ..) | some (.catch_ ..) | some (.finally_ ..) | some (.throw ..)
  | some (.eval ..) | some (.echoCmd ..) | some (.echohl ..) | some (.execute ..) => by
    rw [elseOpt]; exact Shift.fail _; nofun

theorem shift_catches : ∀ l : List Ast.Stmt, Shift 0 (catches l)
  | [] => by rw [catches]; exact Shift.pure _
  | .catch_ _ ea body p :: r => by
    rw [catches]
    refine Shift.dec.bind (k := 1) fun _ => (Shift.cmdName _).bind (k := 1) fun _ => ?_
    have hr : Shift 1 (do inc; let _ ← stmts body; catches r : M Unit) :=
      Shift.inc.bind (k := 0) fun _ => (shift_stmts body).bind (k := 0) fun _ => shift_catches r
    split
    · exact (Shift.fprintln _).bind (k := 1) fun _ => hr
    · exact (Shift.fprintln _).bind (k := 1) fun _ => hr
  | .comment .. :: _ | .excmd .. :: _ | .function .. :: _ | .delFunction .. :: _ | .return_ .. :: _
  | .exCall .. :: _ | .let_ .. :: _ | .unLet .. :: _ | .lockVar .. :: _ | .unLockVar .. :: _ | .if_ .. :: _
  | .elseIf .. :: _ | .else_ .. :: _ | .while_ .. :: _ | .for_ .. :: _ | .continue_ .. :: _ | .break_ .. :: _
  | .try_ .. :: _ | .finally_ .. :: _ | .throw .. :: _ | .eval .. :: _ | .echoCmd .. :: _ | .echohl .. :: _
  | .execute .. :: _ => by rw [catches]; exact Shift.fail _; nofun

theorem shift_finallyOpt : ∀ o : Option Ast.Stmt, Shift 0 (finallyOpt o)
  | none => by rw [finallyOpt]; exact Shift.pure _
  | some (.finally_ _ ea body) => by
    rw [finallyOpt]
    exact Shift.dec.bind (k := 1) fun _ => (Shift.cmdName _).bind (k := 1) fun _ =>
      (Shift.fprintln _).bind (k := 1) fun _ => Shift.inc.bind (k := 0) fun _ =>
      (shift_stmts body).bind (k := 0) fun _ => Shift.pure _
  | some (.comment ..) | some (.excmd ..) | some (.function ..) | some (.delFunction ..) | some (.return_ ..)
  | some (.exCall ..) | some (.let_ ..) | some (.unLet ..) | some (.lockVar ..) | some (.unLockVar ..)
  | some (.if_ ..) | some (.elseIf ..) | some (.else_ ..) | some (.while_ ..) | some (.for_ ..) | some (.continue_ ..)
  | some (.break_ ..) | some (.try_ ..) | some (.catch_ ..) | some (.throw ..)
  | some (.eval ..) | some (.echoCmd ..) | some (.echohl ..) | some (.execute ..) => by
    rw [finallyOpt]; exact Shift.fail _; nofun

end

end Comp
end Viml
