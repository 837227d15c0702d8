/-
Nesting and member names of JSON values.
-/
import Verif.Spec.Json

namespace Viml
open Spec

/-! ### Nesting -/

theorem nested_cons {n : Nat} {v : Json} {l : List Json} (h : JNested (n + 1) (.arr l)) :
    JNested (n + 1) (.arr (v :: l)) := by
  cases h with
  | emptyArr => exact .emptyArr
  | arr hm h => exact .arr (List.mem_cons_of_mem _ hm) h

theorem nested_consM {n : Nat} {m : Str × Json} {l : List (Str × Json)} (h : JNested (n + 1) (.obj l)) :
    JNested (n + 1) (.obj (m :: l)) := by
  cases h with
  | emptyObj => exact .emptyObj
  | obj hm h => exact .obj (List.mem_cons_of_mem _ hm) h

mutual
theorem nested_depth : ∀ v : Json, JNested (Json.depth v) v
  | .null => .zero
  | .bool _ => .zero
  | .num _ => .zero
  | .str _ => .zero
  | .arr l => by rw [Json.depth]; exact nested_depths l
  | .obj l => by rw [Json.depth]; exact nested_depthsM l
theorem nested_depths : ∀ l : List Json, JNested (Json.depths l + 1) (.arr l)
  | [] => .emptyArr
  | v :: vs => by
    rw [Json.depths]
    rcases Nat.le_total (Json.depth v) (Json.depths vs) with h | h
    · rw [Nat.max_eq_right h]
      exact nested_cons (nested_depths vs)
    · rw [Nat.max_eq_left h]
      exact .arr (List.mem_cons_self ..) (nested_depth v)
theorem nested_depthsM : ∀ l : List (Str × Json), JNested (Json.depthsM l + 1) (.obj l)
  | [] => .emptyObj
  | (k, v) :: ms => by
    rw [Json.depthsM]
    rcases Nat.le_total (Json.depth v) (Json.depthsM ms) with h | h
    · rw [Nat.max_eq_right h]
      exact nested_consM (nested_depthsM ms)
    · rw [Nat.max_eq_left h]
      exact .obj (List.mem_cons_self ..) (nested_depth v)
end

theorem depth_mem {v : Json} : ∀ {l : List Json}, v ∈ l → Json.depth v ≤ Json.depths l
  | w :: ws, h => by
    rw [Json.depths]
    rcases List.mem_cons.1 h with rfl | h
    · exact Nat.le_max_left ..
    · exact Nat.le_trans (depth_mem h) (Nat.le_max_right ..)

theorem depth_memM {k : Str} {v : Json} : ∀ {l : List (Str × Json)}, (k, v) ∈ l → Json.depth v ≤ Json.depthsM l
  | (k', w) :: ws, h => by
    rw [Json.depthsM]
    rcases List.mem_cons.1 h with h | h
    · cases h; exact Nat.le_max_left ..
    · exact Nat.le_trans (depth_memM h) (Nat.le_max_right ..)

theorem nested_le {n : Nat} {v : Json} (h : JNested n v) : n ≤ Json.depth v := by
  induction h with
  | zero => exact Nat.zero_le _
  | emptyArr => rw [Json.depth]; omega
  | emptyObj => rw [Json.depth]; omega
  | arr hm _ ih => rw [Json.depth]; have := depth_mem hm; omega
  | obj hm _ ih => rw [Json.depth]; have := depth_memM hm; omega

theorem nested_mono {n : Nat} {v : Json} (h : JNested n v) : ∀ {m}, m ≤ n → JNested m v := by
  induction h with
  | zero => intro m h; obtain rfl := Nat.le_zero.1 h; exact .zero
  | emptyArr => intro m h; match m, h with | 0, _ => exact .zero | 1, _ => exact .emptyArr
  | emptyObj => intro m h; match m, h with | 0, _ => exact .zero | 1, _ => exact .emptyObj
  | arr hm _ ih =>
    intro m h
    match m, h with
    | 0, _ => exact .zero
    | m + 1, h => exact .arr hm (ih (Nat.le_of_succ_le_succ h))
  | obj hm _ ih =>
    intro m h
    match m, h with
    | 0, _ => exact .zero
    | m + 1, h => exact .obj hm (ih (Nat.le_of_succ_le_succ h))

theorem nested_iff (n : Nat) (v : Json) : JNested n v ↔ n ≤ Json.depth v :=
  ⟨nested_le, nested_mono (nested_depth v)⟩

/-! ### Member names -/

/-- Every object has different names, inside as well. -/
def Distinct (v : Json) : Prop := ∀ l, JInside (.obj l) v → (l.map (·.1)).Nodup

theorem distinct_null : Distinct .null := fun _ h => nomatch h
theorem distinct_bool (b : Bool) : Distinct (.bool b) := fun _ h => nomatch h
theorem distinct_num (n : Nat) : Distinct (.num n) := fun _ h => nomatch h
theorem distinct_str (s : Str) : Distinct (.str s) := fun _ h => nomatch h

theorem distinct_arr {l : List Json} (h : ∀ v ∈ l, Distinct v) : Distinct (.arr l) := by
  intro m hm
  cases hm with
  | arr h1 h2 => exact h _ h1 m h2

theorem distinct_obj {l : List (Str × Json)} (hn : (l.map (·.1)).Nodup) (h : ∀ k v, (k, v) ∈ l → Distinct v) :
    Distinct (.obj l) := by
  intro m hm
  cases hm with
  | self => exact hn
  | obj h1 h2 => exact h _ _ h1 m h2

theorem distinct_nilArr {l : List Json} (h : ∀ v ∈ l, Distinct v) : Distinct (Json.nilArr l) := by
  unfold Json.nilArr
  split
  · exact distinct_null
  · exact distinct_arr h

/-- Members with distinct values, one after the other. -/
def Members (l : List (Str × Json)) : Prop := ∀ k v, (k, v) ∈ l → Distinct v

theorem members_nil : Members [] := fun _ _ h => nomatch h
theorem Distinct.members {k : Str} {v : Json} {l : List (Str × Json)} (h : Distinct v) (hl : Members l) :
    Members ((k, v) :: l) := by
  intro k' v' hm
  rcases List.mem_cons.1 hm with hm | hm
  · cases hm; exact h
  · exact hl k' v' hm

theorem distinct_pos (q : Ast.Pos) : Distinct (Json.pos q) :=
  distinct_obj (l := [_, _, _, _]) (by simp only [List.map]; decide) (distinct_num _ |>.members <| distinct_num _ |>.members <|
    distinct_num _ |>.members <| distinct_str _ |>.members members_nil)

theorem distinct_opt {α : Type} {f : α → Json} (hf : ∀ a, Distinct (f a)) : ∀ o, Distinct (Json.opt f o)
  | none => distinct_null
  | some a => hf a

theorem distinct_cmd (c : Cmd) : Distinct (Json.cmd c) :=
  distinct_obj (l := [_, _, _, _]) (by simp only [List.map]; decide) (distinct_str _ |>.members <| distinct_num _ |>.members <|
    distinct_str _ |>.members <| distinct_str _ |>.members members_nil)

theorem distinct_modifier (m : Modifier) : Distinct (Json.modifier m) := by
  obtain ⟨n, b, c⟩ := m
  refine distinct_obj ?_ ?_
  · cases b <;> cases c <;>
      simp only [List.map_cons, List.map_nil, List.cons_append, List.nil_append] <;> decide
  · cases b <;> cases c <;> simp only [List.cons_append, List.nil_append, List.append_nil]
    · exact distinct_str _ |>.members members_nil
    · exact distinct_num _ |>.members <| distinct_str _ |>.members members_nil
    · exact distinct_num _ |>.members <| distinct_str _ |>.members members_nil
    · exact distinct_num _ |>.members <| distinct_num _ |>.members <| distinct_str _ |>.members members_nil

theorem distinct_map {α : Type} {f : α → Json} (hf : ∀ a, Distinct (f a)) (l : List α) : Distinct (.arr (l.map f)) := by
  refine distinct_arr (fun v hv => ?_)
  obtain ⟨a, _, rfl⟩ := List.mem_map.1 hv
  exact hf a

/-- One member after the other. -/
macro "dmem" : tactic =>
  `(tactic| (repeat' (first | exact members_nil | refine Distinct.members ?_ ?_)))

/-- An object with fixed names. -/
macro "dobj" : tactic =>
  `(tactic| (refine distinct_obj (by simp only [List.map]; decide) ?_; dmem))

theorem distinct_exArg (ea : Ast.ExArg) : Distinct (Json.exArg ea) := by
  unfold Json.exArg
  dobj
  all_goals first
    | exact distinct_null | exact distinct_bool _ | exact distinct_num _ | exact distinct_str _ | exact distinct_pos _
    | exact distinct_opt distinct_pos _ | exact distinct_opt distinct_cmd _ | exact distinct_map distinct_modifier _
    | exact distinct_map distinct_str _

theorem distinct_ident (i : Ast.Ident) : Distinct (Json.ident i) := by
  unfold Json.ident
  dobj
  · exact distinct_pos _
  · exact distinct_str _

theorem distinct_attr (a : FuncAttr) : Distinct (Json.attr a) := by
  unfold Json.attr
  dobj
  all_goals exact distinct_bool _

theorem distinct_end (f : Str) (hf : f ≠ cs!"ExArg") (e : Ast.EndCmd) : Distinct (Json.endCmd f e) := by
  refine distinct_obj (by simp only [List.map, List.nodup_cons, List.mem_cons, List.not_mem_nil, or_false]; exact ⟨hf, not_false, List.nodup_nil⟩) ?_
  dmem
  · exact distinct_pos _
  · exact distinct_exArg _

mutual
theorem distinct_expr : ∀ e : Ast.Expr, Distinct (Json.expr e)
  | .ternary q c l r => by
    rw [Json.expr]
    dobj
    · exact distinct_pos _
    · exact distinct_expr c
    · exact distinct_expr l
    · exact distinct_expr r
  | .binary l q t r => by
    rw [Json.expr]
    dobj
    · exact distinct_expr l
    · exact distinct_pos _
    · exact distinct_num _
    · exact distinct_expr r
  | .unary q t x => by
    rw [Json.expr]
    dobj
    · exact distinct_pos _
    · exact distinct_num _
    · exact distinct_expr x
  | .subscript q l r => by
    rw [Json.expr]
    dobj
    · exact distinct_pos _
    · exact distinct_expr l
    · exact distinct_expr r
  | .slice x q lo hi => by
    rw [Json.expr]
    dobj
    · exact distinct_expr x
    · exact distinct_pos _
    · exact distinct_exprO lo
    · exact distinct_exprO hi
  | .method l m q as => by
    rw [Json.expr]
    dobj
    · exact distinct_expr l
    · exact distinct_expr m
    · exact distinct_pos _
    · exact distinct_nilArr (distinct_exprs as)
  | .call f q as => by
    rw [Json.expr]
    dobj
    · exact distinct_expr f
    · exact distinct_pos _
    · exact distinct_nilArr (distinct_exprs as)
  | .dot l q i => by
    rw [Json.expr]
    dobj
    · exact distinct_expr l
    · exact distinct_pos _
    · exact distinct_ident _
  | .basicLit q k v => by
    rw [Json.expr]
    dobj
    · exact distinct_pos _
    · exact distinct_num _
    · exact distinct_str _
  | .list q vs => by
    rw [Json.expr]
    dobj
    · exact distinct_pos _
    · exact distinct_nilArr (distinct_exprs vs)
  | .dict q kvs => by
    rw [Json.expr]
    dobj
    · exact distinct_pos _
    · exact distinct_arr (distinct_pairs kvs)
  | .curlyName q ps => by
    rw [Json.expr]
    dobj
    · exact distinct_pos _
    · exact distinct_nilArr (distinct_exprs ps)
  | .curlyNameLit q v => by
    rw [Json.expr]
    dobj
    · exact distinct_pos _
    · exact distinct_str _
  | .curlyNameExpr q e => by
    rw [Json.expr]
    dobj
    · exact distinct_pos _
    · exact distinct_expr e
  | .ident i => by
    rw [Json.expr]
    exact distinct_ident i
  | .lambda q ps e => by
    rw [Json.expr]
    dobj
    · exact distinct_pos _
    · exact distinct_map distinct_ident _
    · exact distinct_expr e
  | .paren q x => by
    rw [Json.expr]
    dobj
    · exact distinct_pos _
    · exact distinct_expr x
  | .heredoc q fl mk b => by
    rw [Json.expr]
    dobj
    · exact distinct_pos _
    · exact distinct_arr (distinct_exprs fl)
    · exact distinct_str _
    · exact distinct_nilArr (distinct_exprs b)
theorem distinct_exprO : ∀ o, Distinct (Json.exprO o)
  | none => distinct_null
  | some e => by rw [Json.exprO]; exact distinct_expr e
theorem distinct_exprs : ∀ l, ∀ v ∈ Json.exprs l, Distinct v
  | [], v, h => by rw [Json.exprs] at h; exact nomatch h
  | e :: es, v, h => by
    rw [Json.exprs] at h
    rcases List.mem_cons.1 h with rfl | h
    · exact distinct_expr e
    · exact distinct_exprs es v h
theorem distinct_pairs : ∀ l, ∀ v ∈ Json.pairs l, Distinct v
  | [], v, h => by rw [Json.pairs] at h; exact nomatch h
  | (k, e) :: es, v, h => by
    rw [Json.pairs] at h
    rcases List.mem_cons.1 h with rfl | h
    · dobj
      · exact distinct_expr k
      · exact distinct_expr e
    · exact distinct_pairs es v h
end

mutual
theorem distinct_stmt : ∀ e : Ast.Stmt, Distinct (Json.stmt e)
  | .comment q t => by
    rw [Json.stmt]
    dobj
    · exact distinct_null
    · exact distinct_pos _
    · exact distinct_str _
  | .excmd q ea s => by
    rw [Json.stmt]
    dobj
    · exact distinct_pos _
    · exact distinct_str _
    · exact distinct_exArg _
  | .function q ea b n ps ds a en => by
    rw [Json.stmt]
    dobj
    · exact distinct_pos _
    · exact distinct_exArg _
    · exact distinct_nilArr (distinct_stmts b)
    · exact distinct_expr n
    · exact distinct_map distinct_ident _
    · exact distinct_arr (distinct_exprs ds)
    · exact distinct_attr _
    · exact distinct_end _ (by decide) _
  | .delFunction q ea n => by
    rw [Json.stmt]
    dobj
    · exact distinct_pos _
    · exact distinct_exArg _
    · exact distinct_expr n
  | .return_ q ea r => by
    rw [Json.stmt]
    dobj
    · exact distinct_pos _
    · exact distinct_exArg _
    · exact distinct_exprO r
  | .exCall q ea f p as => by
    rw [Json.stmt]
    dobj
    · exact distinct_pos _
    · exact distinct_exArg _
    · dobj
      · exact distinct_expr f
      · exact distinct_pos _
      · exact distinct_nilArr (distinct_exprs as)
  | .let_ q ea op l ls rs r => by
    rw [Json.stmt]
    dobj
    · exact distinct_pos _
    · exact distinct_exArg _
    · exact distinct_str _
    · exact distinct_exprO l
    · exact distinct_nilArr (distinct_exprs ls)
    · exact distinct_exprO rs
    · exact distinct_expr r
  | .unLet q ea l => by
    rw [Json.stmt]
    dobj
    · exact distinct_pos _
    · exact distinct_exArg _
    · exact distinct_nilArr (distinct_exprs l)
  | .lockVar q ea d l => by
    rw [Json.stmt]
    dobj
    · exact distinct_pos _
    · exact distinct_exArg _
    · exact distinct_num _
    · exact distinct_nilArr (distinct_exprs l)
  | .unLockVar q ea d l => by
    rw [Json.stmt]
    dobj
    · exact distinct_pos _
    · exact distinct_exArg _
    · exact distinct_num _
    · exact distinct_nilArr (distinct_exprs l)
  | .if_ q ea b c ei el en => by
    rw [Json.stmt]
    dobj
    · exact distinct_pos _
    · exact distinct_exArg _
    · exact distinct_nilArr (distinct_stmts b)
    · exact distinct_expr c
    · exact distinct_nilArr (distinct_stmts ei)
    · exact distinct_stmtO el
    · exact distinct_end _ (by decide) _
  | .elseIf q ea b c => by
    rw [Json.stmt]
    dobj
    · exact distinct_pos _
    · exact distinct_exArg _
    · exact distinct_nilArr (distinct_stmts b)
    · exact distinct_expr c
  | .else_ q ea b => by
    rw [Json.stmt]
    dobj
    · exact distinct_pos _
    · exact distinct_exArg _
    · exact distinct_nilArr (distinct_stmts b)
  | .while_ q ea b c en => by
    rw [Json.stmt]
    dobj
    · exact distinct_pos _
    · exact distinct_exArg _
    · exact distinct_nilArr (distinct_stmts b)
    · exact distinct_expr c
    · exact distinct_end _ (by decide) _
  | .for_ q ea b l ls rs r en => by
    rw [Json.stmt]
    dobj
    · exact distinct_pos _
    · exact distinct_exArg _
    · exact distinct_nilArr (distinct_stmts b)
    · exact distinct_exprO l
    · exact distinct_nilArr (distinct_exprs ls)
    · exact distinct_exprO rs
    · exact distinct_expr r
    · exact distinct_end _ (by decide) _
  | .continue_ q ea => by
    rw [Json.stmt]
    dobj
    · exact distinct_pos _
    · exact distinct_exArg _
  | .break_ q ea => by
    rw [Json.stmt]
    dobj
    · exact distinct_pos _
    · exact distinct_exArg _
  | .try_ q ea b cs fi en => by
    rw [Json.stmt]
    dobj
    · exact distinct_pos _
    · exact distinct_exArg _
    · exact distinct_nilArr (distinct_stmts b)
    · exact distinct_nilArr (distinct_stmts cs)
    · exact distinct_stmtO fi
    · exact distinct_end _ (by decide) _
  | .catch_ q ea b p => by
    rw [Json.stmt]
    dobj
    · exact distinct_pos _
    · exact distinct_exArg _
    · exact distinct_nilArr (distinct_stmts b)
    · exact distinct_str _
  | .finally_ q ea b => by
    rw [Json.stmt]
    dobj
    · exact distinct_pos _
    · exact distinct_exArg _
    · exact distinct_nilArr (distinct_stmts b)
  | .throw q ea e => by
    rw [Json.stmt]
    dobj
    · exact distinct_pos _
    · exact distinct_exArg _
    · exact distinct_expr e
  | .eval q ea e => by
    rw [Json.stmt]
    dobj
    · exact distinct_pos _
    · exact distinct_exArg _
    · exact distinct_expr e
  | .echoCmd q n ea l => by
    rw [Json.stmt]
    dobj
    · exact distinct_pos _
    · exact distinct_str _
    · exact distinct_exArg _
    · exact distinct_nilArr (distinct_exprs l)
  | .echohl q ea n => by
    rw [Json.stmt]
    dobj
    · exact distinct_pos _
    · exact distinct_exArg _
    · exact distinct_str _
  | .execute q ea l => by
    rw [Json.stmt]
    dobj
    · exact distinct_pos _
    · exact distinct_exArg _
    · exact distinct_nilArr (distinct_exprs l)
theorem distinct_stmts : ∀ l, ∀ v ∈ Json.stmts l, Distinct v
  | [], v, h => by rw [Json.stmts] at h; exact nomatch h
  | e :: es, v, h => by
    rw [Json.stmts] at h
    rcases List.mem_cons.1 h with rfl | h
    · exact distinct_stmt e
    · exact distinct_stmts es v h
theorem distinct_stmtO : ∀ o, Distinct (Json.stmtO o)
  | none => distinct_null
  | some e => by rw [Json.stmtO]; exact distinct_stmt e
end

theorem distinct_file (f : Ast.File) : Distinct (Json.file f) := by
  unfold Json.file
  dobj
  · exact distinct_pos _
  · exact distinct_nilArr (distinct_stmts _)

end Viml
