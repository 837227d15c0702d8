/-
C56 (only the logical lines matter) and C57 (output does not depend on positions).
-/
import Verif.Lemmas.Moves
import Verif.Lemmas.PosFree
import Verif.Model.Cmdline

namespace Viml.Props
open Viml Viml.Spec

/-! ### C56 -/

/-- C56.  There is a map of the places of one file to the places of another one. -/
theorem C56_moves (lines lines' : List Str) : ∃ mv, Moves lines lines' mv := ⟨_, mover_moves lines lines'⟩

/-- C56 for `ParseFile`.  Two files with the same logical lines have the same result but for the positions, which are
moved from the places of the first file to those of the second. -/
theorem C56_file (nv : Bool) (fn : Str) (lines lines' : List Str) (mv : Moving) (hm : Moves lines lines' mv)
    (h : logicalLines lines = logicalLines lines') :
    parseFileLines nv fn lines' = (parseFileLines nv fn lines).map (mv.res Ast.File.onPos) :=
  file_moves hm h nv fn

/-- C56 for `ParseExpr`. -/
theorem C56_expr (lines lines' : List Str) (mv : Moving) (hm : Moves lines lines' mv)
    (h : logicalLines lines = logicalLines lines') :
    parseExprLines lines' = (parseExprLines lines).map (mv.res Ast.Expr.onPos) :=
  expr_moves hm h

/-- C56 for `ParseFile` on bytes. -/
theorem C56_file_bytes (nv : Bool) (fn : Str) (src src' : List UInt8) (mv : Moving)
    (hm : Moves ((readlines src).map decodeUtf8) ((readlines src').map decodeUtf8) mv)
    (h : logicalLines ((readlines src).map decodeUtf8) = logicalLines ((readlines src').map decodeUtf8)) :
    parseFile nv fn src' = (parseFile nv fn src).map (mv.res Ast.File.onPos) :=
  file_moves hm h nv fn

/-- C56 for `ParseExpr` on bytes. -/
theorem C56_expr_bytes (src src' : List UInt8) (mv : Moving)
    (hm : Moves ((readlines src).map decodeUtf8) ((readlines src').map decodeUtf8) mv)
    (h : logicalLines ((readlines src).map decodeUtf8) = logicalLines ((readlines src').map decodeUtf8)) :
    parseExpr src' = (parseExpr src).map (mv.res Ast.Expr.onPos) :=
  expr_moves hm h

theorem afterBackslash_append (a b : Str) (h : ∃ c ∈ a, blank c = false) :
    afterBackslash (a ++ b) = (afterBackslash a).map (· ++ b) := by
  induction a with
  | nil => obtain ⟨c, hc, _⟩ := h; cases hc
  | cons x a ih =>
    unfold afterBackslash
    cases hx : blank x with
    | true =>
      have ih' := ih (by
        obtain ⟨c, hc, hb⟩ := h
        rcases List.mem_cons.1 hc with rfl | hc
        · rw [hx] at hb; cases hb
        · exact ⟨c, hc, hb⟩)
      unfold afterBackslash at ih'
      rw [List.cons_append, List.dropWhile_cons_of_pos hx, List.dropWhile_cons_of_pos hx]
      exact ih'
    | false =>
      rw [List.cons_append, List.dropWhile_cons_of_neg (by simp [hx]), List.dropWhile_cons_of_neg (by simp [hx])]
      by_cases e : x = '\\'
      · subst e; rfl
      · split
        · rename_i r he; cases he; exact absurd rfl e
        · split
          · rename_i r he; cases he; exact absurd rfl e
          · rfl

theorem afterBackslash_cont (ws b : Str) (hw : ∀ c ∈ ws, blank c = true) :
    afterBackslash (ws ++ '\\' :: b) = some b := by
  unfold afterBackslash
  rw [List.dropWhile_append_of_pos hw, List.dropWhile_cons_of_neg (by decide)]
  rfl

/-- C56.  Breaking a line: the rest of the line moves to a line of its own, after blanks and a backslash.  The logical
lines stay the same, unless the line is a continuation line (but the first line is none) and nothing but blanks is left
before the break. -/
theorem C56_break (pre post : List Str) (a b ws : Str) (hw : ∀ c ∈ ws, blank c = true)
    (ha : pre = [] ∨ (∃ c ∈ a, blank c = false) ∨ afterBackslash b = none) :
    logicalLines (pre ++ (a ++ b) :: post) = logicalLines (pre ++ a :: (ws ++ '\\' :: b) :: post) := by
  have key : ∀ (pre : List Str) (cur : Str), ((∃ c ∈ a, blank c = false) ∨ afterBackslash b = none) →
      joinFrom cur (pre ++ (a ++ b) :: post) = joinFrom cur (pre ++ a :: (ws ++ '\\' :: b) :: post) := by
    intro pre
    induction pre with
    | nil =>
      intro cur ha
      by_cases ha' : ∃ c ∈ a, blank c = false
      rotate_left
      · have hb : ∀ c ∈ a, blank c = true := fun c hc => Classical.byContradiction fun h => ha' ⟨c, hc, by simpa using h⟩
        have h1 : afterBackslash (a ++ b) = none := by
          rcases ha with h | h
          · exact absurd h ha'
          · unfold afterBackslash at h ⊢
            rw [List.dropWhile_append_of_pos hb]; exact h
        have h2 : afterBackslash a = none := by
          unfold afterBackslash
          have := List.dropWhile_append_of_pos (l₂ := []) hb
          rw [List.append_nil] at this
          rw [this]; rfl
        simp only [List.nil_append, joinFrom, h1, h2, afterBackslash_cont ws b hw]
      simp only [List.nil_append, joinFrom, afterBackslash_append a b ha', afterBackslash_cont ws b hw]
      cases afterBackslash a with
      | none => rfl
      | some r => simp only [Option.map_some, List.append_assoc]
    | cons p pre ih =>
      intro cur ha
      simp only [List.cons_append, joinFrom]
      cases afterBackslash p with
      | none => simp only [ih _ ha]
      | some r => simp only [ih _ ha]
  cases pre with
  | nil => simp only [List.nil_append, logicalLines, joinFrom, afterBackslash_cont ws b hw]
  | cons p pre =>
    rcases ha with h | h
    · cases h
    · exact key pre p h

/-- C56, consequence: breaking lines changes neither whether a file is accepted nor the message of its error. -/
theorem C56_same_error (nv : Bool) (fn : Str) (lines lines' : List Str)
    (h : logicalLines lines = logicalLines lines') (off l c : Nat) (m : Str)
    (hr : (parseFileLines nv fn lines).bind (·.err) = some (.parse fn off l c m)) :
    ∃ l' c', (parseFileLines nv fn lines').bind (·.err) = some (.parse fn off l' c' m) := by
  obtain ⟨mv, hm⟩ := C56_moves lines lines'
  rw [C56_file nv fn lines lines' mv hm h]
  cases hp : parseFileLines nv fn lines with
  | none => rw [hp] at hr; cases hr
  | some x =>
    rw [hp] at hr
    replace hr : x.err = _ := hr
    refine ⟨(mv l c).1, (mv l c).2.1, ?_⟩
    show x.err.map mv.err = _
    rw [hr]; rfl

/-- A file and the same file with its second line broken within the name `call`, and the places of two characters: the
`1` moves from line 2, column 8 to line 3, column 9. -/
example : logicalLines [cs!"let x = 0", cs!"call f(1)"] = logicalLines [cs!"let x = 0", cs!"ca", cs!"  \\ll f(1)"] := by
  decide
example : logicalLines [cs!"let x = 0", cs!"call f(1)"] = logicalLines [cs!"let x = 0", cs!"ca", cs!"  \\ll f(1)"] :=
  C56_break [cs!"let x = 0"] [] cs!"ca" cs!"ll f(1)" cs!"  " (by decide) (.inr (.inl ⟨'c', by decide, by decide⟩))
example : (mover [cs!"let x = 0", cs!"call f(1)"] [cs!"let x = 0", cs!"ca", cs!"  \\ll f(1)"]) 2 8 = (3, 9, 0) := by
  decide +kernel
example : (mover [cs!"let x = 0", cs!"call f(1)"] [cs!"let x = 0", cs!"ca", cs!"  \\ll f(1)"]) 2 1 = (2, 1, 10) := by
  decide +kernel

/-- A file with an error, before and after a line break: same message, same index, the other line and column. -/
example : (parseFileLines false [] [cs!"let x = ]"]).bind (·.err) =
    some (.parse [] 8 1 9 cs!"unexpected token: ]") := by decide +kernel
example : (parseFileLines false [] [cs!"let x", cs!"\\ = ]"]).bind (·.err) =
    some (.parse [] 8 2 5 cs!"unexpected token: ]") := by decide +kernel

/-- The condition on the break is needed. -/
example : logicalLines [cs!"let x = 0", cs!" \\call f(1)"] ≠ logicalLines [cs!"let x = 0", cs!" ", cs!"\\\\call f(1)"] := by
  decide

/-! ### C57 -/

/-- C57 for `Compile` on a file: other positions, same output. -/
theorem C57_compile_file (m : Ast.Pos → Ast.Pos) (f : Ast.File) : Comp.compileFile (f.onPos m) = Comp.compileFile f := by
  show Comp.Out.of (Comp.stmts (Ast.Stmt.onPosL m f.body) {}) = _
  rw [comp_stmts]; rfl

/-- C57 for `Compile` on an expression. -/
theorem C57_compile_expr (m : Ast.Pos → Ast.Pos) (e : Ast.Expr) : Comp.compileExpr (e.onPos m) = Comp.compileExpr e := by
  rw [Comp.compileExpr, Comp.compileExpr, comp_expr]

/-- C57 for `Compile` on a statement. -/
theorem C57_compile_stmt (m : Ast.Pos → Ast.Pos) (s : Ast.Stmt) : Comp.compileStmt (s.onPos m) = Comp.compileStmt s := by
  rw [Comp.compileStmt, Comp.compileStmt, comp_stmt]

/-- C57 for `Fprint`. -/
theorem C57_print (m : Ast.Pos → Ast.Pos) (e : Ast.Expr) : Print.fprintExpr (e.onPos m) = Print.fprintExpr e := by
  rw [Print.fprintExpr, Print.fprintExpr, print_expr]

example : Comp.compileExpr (.binary (.ident ⟨⟨0, 1, 1, []⟩, cs!"a"⟩) ⟨2, 1, 3, []⟩ .PLUS (.ident ⟨⟨4, 1, 5, []⟩, cs!"b"⟩)) =
    .text cs!"(+ a b)" := by decide +kernel
example : Comp.compileExpr (.binary (.ident ⟨⟨7, 9, 1, []⟩, cs!"a"⟩) ⟨7, 9, 1, []⟩ .PLUS (.ident ⟨⟨7, 9, 1, []⟩, cs!"b"⟩)) =
    .text cs!"(+ a b)" := by
  rw [← C57_compile_expr fun _ => ⟨0, 1, 1, []⟩]; decide +kernel

/-- C57 for the command: files with the same logical lines have the same output. -/
theorem C57_command (nv : Bool) (name : Str) (src src' : List UInt8)
    (h : logicalLines ((readlines src).map decodeUtf8) = logicalLines ((readlines src').map decodeUtf8)) (out : Str)
    (hr : Cmdline.parseFile none nv name src = .ok out) : Cmdline.parseFile none nv name src' = .ok out := by
  obtain ⟨mv, hm⟩ := C56_moves ((readlines src).map decodeUtf8) ((readlines src').map decodeUtf8)
  unfold Cmdline.parseFile at hr ⊢
  rw [C56_file_bytes nv name src src' mv hm h]
  cases hp : parseFile nv name src with
  | none => rw [hp] at hr; cases hr
  | some x =>
    rw [hp] at hr
    obtain ⟨n, e⟩ := x
    cases e with
    | some e => cases hr
    | none =>
      cases n with
      | none => cases hr
      | some f =>
        show (match Comp.compileFile (f.onPos mv.pos) with | .text s => _ | .err => _ | .panic => _) = _
        rw [C57_compile_file]
        exact hr

end Viml.Props
