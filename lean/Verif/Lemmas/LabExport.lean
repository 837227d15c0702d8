/-
The exporter commutes with relabelling of positions.
-/
import Verif.Lemmas.LabStmt
import Verif.Spec.Relabel

namespace Viml
open Ast (Expr.onPos Expr.onPosO Expr.onPosL Expr.onPosP Stmt.onPos Stmt.onPosL Stmt.onPosO)

section
variable {φ : Relab} {fn fn' : Str} {m : Ast.Pos → Ast.Pos}

/-- The relabelling, with another file name, seen on exported positions. -/
def Exports (φ : Relab) (fn fn' : Str) (m : Ast.Pos → Ast.Pos) : Prop := ∀ q, Export.pos fn' (lab φ q) = m (Export.pos fn q)

theorem export_exArg (h : Exports φ fn fn' m) (ea : ExArg) :
    Export.exArg fn' (lab φ ea) = (Export.exArg fn ea).onPos m := by
  refine Ast.ExArg.mk.injEq .. ▸ ⟨rfl, rfl, rfl, rfl, rfl, rfl, rfl, rfl, rfl, rfl, h _, h _, ?_, rfl, rfl, rfl⟩
  show ((lab φ ea.argpos).map (Export.pos fn')) = (ea.argpos.map (Export.pos fn)).map m
  cases ea.argpos with
  | none => rfl
  | some q => exact congrArg some (h q)

theorem export_idents (h : Exports φ fn fn' m) (l : List (Pos × Str)) :
    Export.idents fn' (lab φ l) = (Export.idents fn l).map (Ast.Ident.onPos m) := by
  induction l with
  | nil => rfl
  | cons a l ih => exact congr (congrArg List.cons (congrArg (Ast.Ident.mk · a.2) (h a.1))) ih

theorem export_strs (h : Exports φ fn fn' m) (l : List (Pos × Str)) :
    Export.strs fn' (lab φ l) = Expr.onPosL m (Export.strs fn l) := by
  induction l with
  | nil => rfl
  | cons a l ih => exact congr (congrArg List.cons (congrArg (Ast.Expr.basicLit · .STRING a.2) (h a.1))) ih

/-- The exporter on this node. -/
def ExpOK (φ : Relab) (fn fn' : Str) (m : Ast.Pos → Ast.Pos) (e : VExpr) : Prop :=
  Export.expr fn' (lab φ e) = (Export.expr fn e).map (Expr.onPos m)

theorem export_exprs {l : List VExpr} (h : ∀ e ∈ l, ExpOK φ fn fn' m e) :
    Export.exprs fn' (lab φ l) = (Export.exprs fn l).map (Expr.onPosL m) := by
  induction l with
  | nil => rfl
  | cons a l ih =>
    have h1 := h a (List.mem_cons_self ..)
    have h2 := ih fun e he => h e (List.mem_cons_of_mem _ he)
    rw [lab_cons, Export.exprs, Export.exprs, h1, h2]
    cases Export.expr fn a <;> cases Export.exprs fn l <;> rfl

theorem export_pairs {l : List (VExpr × VExpr)} (h : ∀ e ∈ l, ExpOK φ fn fn' m e.1 ∧ ExpOK φ fn fn' m e.2) :
    Export.pairs fn' (lab φ l) = (Export.pairs fn l).map (Expr.onPosP m) := by
  induction l with
  | nil => rfl
  | cons a l ih =>
    have h1 := h a (List.mem_cons_self ..)
    have h2 := ih fun e he => h e (List.mem_cons_of_mem _ he)
    obtain ⟨a, b⟩ := a
    rw [lab_cons, lab_pair, Export.pairs, Export.pairs, h1.1, h1.2, h2]
    cases Export.expr fn a <;> cases Export.expr fn b <;> cases Export.pairs fn l <;> rfl

theorem export_opt {o : Option VExpr} (h : ∀ e, o = some e → ExpOK φ fn fn' m e) :
    Export.exprOpt fn' (lab φ o) = (Export.exprOpt fn o).map (Expr.onPosO m) := by
  cases o with
  | none => rfl
  | some e =>
    rw [lab_some, Export.exprOpt, Export.exprOpt, h e rfl]
    cases Export.expr fn e <;> rfl

theorem curly_onPos (l : List Ast.Expr) :
    (Expr.onPosL m l).all Export.isCurlyPart = l.all Export.isCurlyPart := by
  induction l with
  | nil => rfl
  | cons a l ih =>
    rw [Expr.onPosL, List.all_cons, List.all_cons, ih]
    cases a <;> rfl

theorem export_expr' (h : Exports φ fn fn' m) (e : VExpr) :
    ExpOK φ fn fn' m e ∧ ∀ q f as, e = .call q f as → ExpOK φ fn fn' m f ∧ ∀ x ∈ as, ExpOK φ fn fn' m x := by
  refine VExpr.ind (P := fun e => ExpOK φ fn fn' m e ∧
    ∀ q f as, e = .call q f as → ExpOK φ fn fn' m f ∧ ∀ x ∈ as, ExpOK φ fn fn' m x)
    ?_ ?_ ?_ ?_ ?_ ?_ ?_ ?_ ?_ ?_ ?_ ?_ ?_ ?_ ?_ ?_ e
  · refine fun q c l r hc hl hr => ⟨?_, nofun⟩
    rw [ExpOK, lab_ternary, Export.expr, Export.expr, hc.1, hl.1, hr.1, h]
    cases Export.expr fn c <;> cases Export.expr fn l <;> cases Export.expr fn r <;> rfl
  · refine fun q t l r hl hr => ⟨?_, nofun⟩
    rw [ExpOK, lab_binary, Export.expr, Export.expr, hl.1, hr.1, h]
    cases Export.expr fn l <;> cases Export.expr fn r <;> rfl
  · refine fun q t l hl => ⟨?_, nofun⟩
    rw [ExpOK, lab_unary, Export.expr, Export.expr, hl.1, h]
    cases Export.expr fn l <;> rfl
  · refine fun q l r hl hr => ⟨?_, nofun⟩
    rw [ExpOK, lab_subscript, Export.expr, Export.expr, hl.1, hr.1, h]
    cases Export.expr fn l <;> cases Export.expr fn r <;> rfl
  · refine fun q l lo hi hl hlo hhi => ⟨?_, nofun⟩
    rw [ExpOK, lab_slice, Export.expr, Export.expr, hl.1, h, export_opt fun e he => (hlo e he).1,
      export_opt fun e he => (hhi e he).1]
    cases Export.expr fn l <;> cases Export.exprOpt fn lo <;> cases Export.exprOpt fn hi <;> rfl
  · refine fun q l r hl hr => ⟨?_, nofun⟩
    rw [ExpOK, lab_method]
    cases r
    case call cq f as =>
      obtain ⟨hf, has⟩ := hr.2 _ _ _ rfl
      rw [lab_call, Export.expr, Export.expr, hl.1, hf, export_exprs has, h]
      cases Export.expr fn l <;> cases Export.expr fn f <;> cases Export.exprs fn as <;> rfl
    all_goals simp only [labs, Export.expr, Option.map]
  · refine fun q f as hf has => ⟨?_, fun _ _ _ he => ?_⟩
    · rw [ExpOK, lab_call, Export.expr, Export.expr, hf.1, h, export_exprs fun e he => (has e he).1]
      cases Export.expr fn f <;> cases Export.exprs fn as <;> rfl
    · cases he; exact ⟨hf.1, fun x hx => (has x hx).1⟩
  · refine fun q l rq n hl => ⟨?_, nofun⟩
    rw [ExpOK, lab_dot, Export.expr, Export.expr, hl.1, h, h]
    cases Export.expr fn l <;> rfl
  · refine fun q t v => ⟨?_, nofun⟩
    rw [ExpOK, lab_atom, Export.expr, Export.expr, h]
    cases t <;> rfl
  · refine fun q vs hv => ⟨?_, nofun⟩
    rw [ExpOK, lab_list, Export.expr, Export.expr, h, export_exprs fun e he => (hv e he).1]
    cases Export.exprs fn vs <;> rfl
  · refine fun q vs hv => ⟨?_, nofun⟩
    rw [ExpOK, lab_dict, Export.expr, Export.expr, h, export_pairs fun e he => ⟨(hv e he).1.1, (hv e he).2.1⟩]
    cases Export.pairs fn vs <;> rfl
  · refine fun q vs hv => ⟨?_, nofun⟩
    rw [ExpOK, lab_curlyname, Export.expr, Export.expr, h, export_exprs fun e he => (hv e he).1]
    cases Export.exprs fn vs with
    | none => rfl
    | some l =>
      show (if (Expr.onPosL m l).all Export.isCurlyPart then _ else _) =
        Option.map _ (if l.all Export.isCurlyPart then _ else _)
      rw [curly_onPos]
      cases l.all Export.isCurlyPart <;> rfl
  · refine fun q e he => ⟨?_, nofun⟩
    rw [ExpOK, lab_curlyexpr, Export.expr, Export.expr, he.1, h]
    cases Export.expr fn e <;> rfl
  · refine fun q ps e he => ⟨?_, nofun⟩
    rw [ExpOK, lab_lambda, Export.expr, Export.expr, he.1, h, export_idents h]
    cases Export.expr fn e <;> rfl
  · refine fun q e he => ⟨?_, nofun⟩
    rw [ExpOK, lab_paren, Export.expr, Export.expr, he.1, h]
    cases Export.expr fn e <;> rfl
  · refine fun q rl op b => ⟨?_, nofun⟩
    rw [ExpOK, lab_heredoc, Export.expr, Export.expr, h, export_strs h, export_strs h]
    rfl

theorem export_expr (h : Exports φ fn fn' m) (e : VExpr) :
    Export.expr fn' (lab φ e) = (Export.expr fn e).map (Expr.onPos m) := (export_expr' h e).1
theorem export_exprsL (h : Exports φ fn fn' m) (l : List VExpr) :
    Export.exprs fn' (lab φ l) = (Export.exprs fn l).map (Expr.onPosL m) := export_exprs fun e _ => export_expr h e
theorem export_exprO (h : Exports φ fn fn' m) (o : Option VExpr) :
    Export.exprOpt fn' (lab φ o) = (Export.exprOpt fn o).map (Expr.onPosO m) := export_opt fun e _ => export_expr h e

theorem export_end (h : Exports φ fn fn' m) (e : Option EndNode) :
    Export.endCmd fn' (lab φ e) = (Export.endCmd fn e).map (Ast.EndCmd.onPos m) := by
  cases e with
  | none => rfl
  | some e =>
    show some (Ast.EndCmd.mk (Export.pos fn' (lab φ e.pos)) (Export.exArg fn' (lab φ e.ea))) = _
    rw [h, export_exArg h]; rfl

theorem all_onPos {f : Ast.Stmt → Bool} (hf : ∀ s, f (Stmt.onPos m s) = f s) (l : List Ast.Stmt) :
    (Stmt.onPosL m l).all f = l.all f := by
  induction l with
  | nil => rfl
  | cons a l ih => rw [Stmt.onPosL, List.all_cons, List.all_cons, ih, hf]
theorem optIs_onPos {f : Ast.Stmt → Bool} (hf : ∀ s, f (Stmt.onPos m s) = f s) (o : Option Ast.Stmt) :
    Export.optIs f (Stmt.onPosO m o) = Export.optIs f o := by
  cases o with
  | none => rfl
  | some a => exact hf a
theorem isElseIf_onPos (s : Ast.Stmt) : Export.isElseIf (s.onPos m) = Export.isElseIf s := by cases s <;> rfl
theorem isElse_onPos (s : Ast.Stmt) : Export.isElse (s.onPos m) = Export.isElse s := by cases s <;> rfl
theorem isCatch_onPos (s : Ast.Stmt) : Export.isCatch (s.onPos m) = Export.isCatch s := by cases s <;> rfl
theorem isFinally_onPos (s : Ast.Stmt) : Export.isFinally (s.onPos m) = Export.isFinally s := by cases s <;> rfl

theorem export_let {q : Pos} {ea : ExArg} {op : Str} {lh : Lhs} {r : VExpr} (h : Exports φ fn fn' m) :
    Export.stmt fn' (lab φ (.let_ q ea op lh r)) = (Export.stmt fn (.let_ q ea op lh r)).map (Stmt.onPos m) := by
  rw [labS_let, Export.stmt, Export.stmt, h, export_exArg h, export_expr h]
  show ((Export.exprOpt fn' (lab φ lh.left)).bind fun _ => (Export.exprs fn' (lab φ lh.list)).bind fun _ =>
    (Export.exprOpt fn' (lab φ lh.rest)).bind fun _ => _) = _
  rw [export_exprO h, export_exprsL h, export_exprO h]
  cases Export.exprOpt fn lh.left <;> cases Export.exprs fn lh.list <;> cases Export.exprOpt fn lh.rest <;>
    cases Export.expr fn r <;> rfl

mutual
theorem export_stmt (h : Exports φ fn fn' m) : ∀ s : VStmt,
    Export.stmt fn' (lab φ s) = (Export.stmt fn s).map (Stmt.onPos m)
  | .comment q v => by rw [labS_comment, Export.stmt, Export.stmt, h]; rfl
  | .excmd q ea v => by rw [labS_excmd, Export.stmt, Export.stmt, h, export_exArg h]; rfl
  | .function q ea b l rl da a e => by
    rw [labS_function, Export.stmt, Export.stmt, h, export_exArg h, export_stmts h b, export_expr h,
      export_exprsL h, export_end h, export_idents h]
    cases Export.stmts fn b <;> cases Export.expr fn l <;> cases Export.exprs fn da <;>
      cases Export.endCmd fn e <;> rfl
  | .delfunction q ea l => by
    rw [labS_delfunction, Export.stmt, Export.stmt, h, export_exArg h, export_expr h]
    cases Export.expr fn l <;> rfl
  | .return_ q ea o => by
    rw [labS_return, Export.stmt, Export.stmt, h, export_exArg h, export_exprO h]
    cases Export.exprOpt fn o <;> rfl
  | .excall q ea l => by
    rw [labS_excall]
    cases l
    case call cq f as =>
      rw [lab_call, Export.stmt, Export.stmt, h, h, export_exArg h, export_expr h, export_exprsL h]
      cases Export.expr fn f <;> cases Export.exprs fn as <;> rfl
    all_goals simp only [labs, Export.stmt, Option.map]
  | .let_ q ea op lh r => export_let h
  | .const_ q ea op lh r => export_let (q := q) (ea := ea) (op := op) (lh := lh) (r := r) h
  | .unlet q ea l => by
    rw [labS_unlet, Export.stmt, Export.stmt, h, export_exArg h, export_exprsL h]
    cases Export.exprs fn l <;> rfl
  | .lockvar q ea d l => by
    rw [labS_lockvar, Export.stmt, Export.stmt, h, export_exArg h, export_exprsL h]
    cases Export.exprs fn l <;> rfl
  | .unlockvar q ea d l => by
    rw [labS_unlockvar, Export.stmt, Export.stmt, h, export_exArg h, export_exprsL h]
    cases Export.exprs fn l <;> rfl
  | .if_ q ea b c ei el e => by
    rw [labS_if, Export.stmt, Export.stmt, h, export_exArg h, export_stmts h b, export_expr h,
      export_end h, export_stmts h ei, export_stmtO h el]
    cases Export.stmts fn ei with
    | none => rfl
    | some xs =>
      cases Export.stmtOpt fn el with
      | none => rfl
      | some o =>
        cases Export.stmts fn b with
        | none => rfl
        | some b =>
          cases Export.expr fn c with
          | none => rfl
          | some c =>
            cases Export.endCmd fn e with
            | none => rfl
            | some e =>
              show (if (Stmt.onPosL m xs).all Export.isElseIf && Export.optIs Export.isElse (Stmt.onPosO m o)
                then _ else _) = Option.map _ (if xs.all Export.isElseIf && Export.optIs Export.isElse o then _ else _)
              rw [all_onPos isElseIf_onPos, optIs_onPos isElse_onPos]
              cases xs.all Export.isElseIf && Export.optIs Export.isElse o <;> rfl
  | .elseif q ea b c => by
    rw [labS_elseif, Export.stmt, Export.stmt, h, export_exArg h, export_stmts h b, export_expr h]
    cases Export.stmts fn b <;> cases Export.expr fn c <;> rfl
  | .else_ q ea b => by
    rw [labS_else, Export.stmt, Export.stmt, h, export_exArg h, export_stmts h b]
    cases Export.stmts fn b <;> rfl
  | .while_ q ea b c e => by
    rw [labS_while, Export.stmt, Export.stmt, h, export_exArg h, export_stmts h b, export_expr h, export_end h]
    cases Export.stmts fn b <;> cases Export.expr fn c <;> cases Export.endCmd fn e <;> rfl
  | .for_ q ea b lh r e => by
    rw [labS_for, Export.stmt, Export.stmt, h, export_exArg h, export_stmts h b, export_expr h, export_end h]
    show (((Export.stmts fn b).map (Stmt.onPosL m)).bind fun _ =>
      (Export.exprOpt fn' (lab φ lh.left)).bind fun _ => (Export.exprs fn' (lab φ lh.list)).bind fun _ =>
      (Export.exprOpt fn' (lab φ lh.rest)).bind fun _ => _) = _
    rw [export_exprO h, export_exprsL h, export_exprO h]
    cases Export.stmts fn b <;> cases Export.exprOpt fn lh.left <;> cases Export.exprs fn lh.list <;>
      cases Export.exprOpt fn lh.rest <;> cases Export.expr fn r <;> cases Export.endCmd fn e <;> rfl
  | .continue_ q ea => by rw [labS_continue, Export.stmt, Export.stmt, h, export_exArg h]; rfl
  | .break_ q ea => by rw [labS_break, Export.stmt, Export.stmt, h, export_exArg h]; rfl
  | .try_ q ea b cs fi e => by
    rw [labS_try, Export.stmt, Export.stmt, h, export_exArg h, export_stmts h b,
      export_end h, export_stmts h cs, export_stmtO h fi]
    cases Export.stmts fn cs with
    | none => rfl
    | some xs =>
      cases Export.stmtOpt fn fi with
      | none => rfl
      | some o =>
        cases Export.stmts fn b with
        | none => rfl
        | some b =>
          cases Export.endCmd fn e with
          | none => rfl
          | some e =>
            show (if (Stmt.onPosL m xs).all Export.isCatch && Export.optIs Export.isFinally (Stmt.onPosO m o)
              then _ else _) = Option.map _ (if xs.all Export.isCatch && Export.optIs Export.isFinally o then _ else _)
            rw [all_onPos isCatch_onPos, optIs_onPos isFinally_onPos]
            cases xs.all Export.isCatch && Export.optIs Export.isFinally o <;> rfl
  | .catch_ q ea b v => by
    rw [labS_catch, Export.stmt, Export.stmt, h, export_exArg h, export_stmts h b]
    cases Export.stmts fn b <;> rfl
  | .finally_ q ea b => by
    rw [labS_finally, Export.stmt, Export.stmt, h, export_exArg h, export_stmts h b]
    cases Export.stmts fn b <;> rfl
  | .throw q ea l => by
    rw [labS_throw, Export.stmt, Export.stmt, h, export_exArg h, export_expr h]
    cases Export.expr fn l <;> rfl
  | .eval q ea l => by
    rw [labS_eval, Export.stmt, Export.stmt, h, export_exArg h, export_expr h]
    cases Export.expr fn l <;> rfl
  | .echo ty q ea l => by
    rw [labS_echo, Export.stmt, Export.stmt, h, export_exArg h, export_exprsL h]
    show (((Export.exprs fn l).map (Expr.onPosL m)).bind fun _ => ea.cmd.bind fun _ => _) = _
    cases Export.exprs fn l <;> cases ea.cmd <;> rfl
  | .echohl q ea v => by rw [labS_echohl, Export.stmt, Export.stmt, h, export_exArg h]; rfl
  | .execute q ea l => by
    rw [labS_execute, Export.stmt, Export.stmt, h, export_exArg h, export_exprsL h]
    cases Export.exprs fn l <;> rfl
theorem export_stmts (h : Exports φ fn fn' m) : ∀ l : List VStmt,
    Export.stmts fn' (lab φ l) = (Export.stmts fn l).map (Stmt.onPosL m)
  | [] => rfl
  | s :: ss => by
    rw [lab_cons, Export.stmts, Export.stmts, export_stmt h s, export_stmts h ss]
    cases Export.stmt fn s <;> cases Export.stmts fn ss <;> rfl
theorem export_stmtO (h : Exports φ fn fn' m) : ∀ o : Option VStmt,
    Export.stmtOpt fn' (lab φ o) = (Export.stmtOpt fn o).map (Stmt.onPosO m)
  | none => rfl
  | some s => by
    rw [lab_some, Export.stmtOpt, Export.stmtOpt, export_stmt h s]
    cases Export.stmt fn s <;> rfl
end

theorem export_file (h : Exports φ fn fn' m) (f : VFile) :
    Export.file fn' (lab φ f) = (Export.file fn f).map (Ast.File.onPos m) := by
  show ((Export.stmts fn' (lab φ f.body)).bind fun b => some (Ast.File.mk (Export.pos fn' (lab φ f.pos)) b)) =
    ((Export.stmts fn f.body).bind fun b => some (Ast.File.mk (Export.pos fn f.pos) b)).map _
  rw [export_stmts h, h]
  cases Export.stmts fn f.body <;> rfl

end

end Viml
