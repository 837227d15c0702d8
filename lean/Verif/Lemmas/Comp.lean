/-
Package compiler prints the specified lines.
-/
import Verif.Spec.Sexp
import Verif.Model.Compiler

namespace Viml
namespace Comp
open Spec

/-! ### Expressions -/

theorem join_texts (l : List SX) : join cs!" " (l.map SX.text) = SX.texts l := by
  induction l with
  | nil => rfl
  | cons x l ih =>
    cases l with
    | nil => rfl
    | cons y l => simpa [join, SX.texts] using ih

theorem text_list1 (x : SX) : (SX.list [x]).text = cs!"(" ++ x.text ++ cs!")" := rfl

theorem text_cons (x y : SX) (l : List SX) :
    (SX.list (x :: y :: l)).text = cs!"(" ++ x.text ++ cs!" " ++ SX.texts (y :: l) ++ cs!")" := by
  simp [SX.text, SX.texts]

theorem escape_ctrl (s : Str) : escape cs!"\n\t\r" s = ctrl s := by
  induction s with
  | nil => rfl
  | cons c s ih =>
    simp only [escape, ctrl, List.flatMap_cons] at ih ⊢
    rw [ih]
    congr 1
    by_cases h1 : c = '\n'
    · subst h1; rfl
    by_cases h2 : c = '\t'
    · subst h2; rfl
    by_cases h3 : c = '\r'
    · subst h3; rfl
    · rw [if_neg h1, if_neg h2, if_neg h3]
      simp [h1, h2, h3]

theorem escape_bs (s : Str) : escape cs!"\\\"" s = bs s := by
  induction s with
  | nil => rfl
  | cons c s ih =>
    simp only [escape, bs, List.flatMap_cons] at ih ⊢
    rw [ih]
    congr 1
    by_cases h1 : c = '\\'
    · subst h1; rfl
    by_cases h2 : c = '"'
    · subst h2; rfl
    · simp [h1, h2]

theorem opName_eq (op : Tok) : (if op.str = cs!"." then cs!"concat" else op.str) = opName op := by
  cases op <;> rfl

mutual

theorem expr_eq : ∀ e : Ast.Expr, expr e = (sx e).text
  | .ternary _ c l r => by
    rw [expr, sx, text_cons, expr_eq c, expr_eq l, expr_eq r]; simp [SX.text, SX.texts]
  | .binary l _ op r => by
    rw [expr, sx, text_cons, expr_eq l, expr_eq r, opName_eq]; simp [SX.text, SX.texts]
  | .unary _ op x => by rw [expr, sx, text_cons, expr_eq x]; simp [SX.text, SX.texts]
  | .subscript _ l r => by
    rw [expr, sx, text_cons, expr_eq l, expr_eq r]; simp [SX.text, SX.texts]
  | .slice x _ lo hi => by
    rw [expr, sx, text_cons, expr_eq x, exprNil_eq lo, exprNil_eq hi]; simp [SX.text, SX.texts]
  | .method l m _ as => by
    rw [expr, sx, text_cons, expr_eq l, expr_eq m, exprs_eq as, ← List.map_cons, join_texts]
    simp [SX.text, SX.texts]
  | .call f _ as => by
    rw [expr, sx, expr_eq f, exprs_eq as, join_texts]
    cases as with
    | nil => simp [sxs, SX.text, SX.texts]
    | cons a as => rw [if_pos (by simp), sxs, text_cons]
  | .dot l _ i => by rw [expr, sx, text_cons, expr_eq l]; simp [SX.text, SX.texts]
  | .basicLit _ _ v => by rw [expr, sx, SX.text]
  | .list _ vs => by
    rw [expr, sx, exprs_eq vs, join_texts]
    cases vs with
    | nil => rfl
    | cons a as => rw [if_neg (by simp), sxs, text_cons]; simp [SX.text]
  | .dict _ kvs => by
    rw [expr, sx, pairs_eq kvs, join_texts]
    cases kvs with
    | nil => rfl
    | cons a as => rw [if_neg (by simp), sxPairs, text_cons]; simp [SX.text]
  | .curlyName _ ps => by rw [expr, sx, exprs_cat ps, SX.text]
  | .curlyNameLit _ v => by rw [expr, sx, SX.text]
  | .curlyNameExpr _ e => by rw [expr, sx, expr_eq e, SX.text]; simp
  | .ident i => by rw [expr, sx, SX.text]
  | .lambda _ ps e => by
    rw [expr, sx, text_cons, expr_eq e]
    have : ps.map (·.name) = (ps.map fun i => SX.atom i.name).map SX.text := by
      rw [List.map_map]; exact List.map_congr_left fun i _ => by simp [SX.text]
    rw [this, join_texts]
    simp [SX.text, SX.texts]
  | .paren _ x => by rw [expr, sx, expr_eq x]
  | .heredoc _ fl m b => by
    rw [expr, sx, text_cons, exprs_q fl, exprs_c b, join_texts, join_texts]
    cases fl <;> cases b <;> simp [sxQ, sxC, SX.text, SX.texts, quoted]

theorem exprNil_eq : ∀ o : Option Ast.Expr, exprNil o = (sxNil o).text
  | none => rfl
  | some e => by rw [exprNil, sxNil, expr_eq e]

theorem exprs_eq : ∀ l : List Ast.Expr, exprs l = (sxs l).map SX.text
  | [] => rfl
  | e :: es => by rw [exprs, sxs, expr_eq e, exprs_eq es]; rfl

theorem pairs_eq : ∀ l : List (Ast.Expr × Ast.Expr), pairs l = (sxPairs l).map SX.text
  | [] => rfl
  | (k, v) :: es => by
    rw [pairs, sxPairs, expr_eq k, expr_eq v, pairs_eq es]; simp [SX.text, SX.texts]

theorem exprs_cat : ∀ l : List Ast.Expr, join [] (exprs l) = sxCat l
  | [] => rfl
  | [e] => by simp [exprs, join, sxCat, expr_eq e]
  | e :: f :: es => by
    have := exprs_cat (f :: es)
    rw [sxCat, ← this, exprs, exprs, join, expr_eq e]
    simp

theorem exprs_q : ∀ l : List Ast.Expr,
    ((exprs l).map fun x => cs!"\"" ++ x ++ cs!"\"") = (sxQ l).map SX.text
  | [] => rfl
  | e :: es => by
    rw [exprs, sxQ, List.map_cons, List.map_cons, exprs_q es, expr_eq e]; simp [quoted, SX.text]

theorem exprs_c : ∀ l : List Ast.Expr,
    ((exprs l).map fun x => cs!"\"" ++ escape cs!"\n\t\r" x ++ cs!"\"") = (sxC l).map SX.text
  | [] => rfl
  | e :: es => by
    rw [exprs, sxC, List.map_cons, List.map_cons, exprs_c es, expr_eq e, escape_ctrl]; simp [quoted, SX.text]

end

/-! ### Statements -/

theorem join_words (l : List Str) : join cs!" " l = words l := by
  induction l with
  | nil => rfl
  | cons x l ih =>
    cases l with
    | nil => simp [join, words, List.intercalate]
    | cons y l =>
      rw [join, ih]
      simp [words, List.intercalate, List.intersperse]

theorem exprs_words (l : List Ast.Expr) : join cs!" " (exprs l) = sxWords l := by
  rw [join_words, exprs_eq, sxWords]

theorem lhsStr_eq (l : Option Ast.Expr) (ls : List Ast.Expr) (rest : Option Ast.Expr) :
    lhsStr l ls rest = lhsText l ls rest := by
  cases l with
  | some e => simp [lhsStr, lhsText, expr_eq]
  | none => cases rest <;> simp [lhsStr, lhsText, expr_eq, exprs_words]

theorem lockStr_eq (c : Str) (d : Nat) (l : List Ast.Expr) :
    lockStr c d l = form c (depthWord d ++ sxWords l) := by
  unfold lockStr form depthWord
  rw [exprs_words]
  by_cases h : d = 0
  · subst h; simp
  · rw [if_pos (by omega), if_neg h]; simp [natStr]

theorem paramStrs_eq (ps defs : List Str) : paramStrs ps defs = paramWords ps defs := by
  induction ps with
  | nil => simp [paramStrs, paramWords]
  | cons p ps ih =>
    rw [paramStrs]
    by_cases h : (p :: ps).length > defs.length
    · rw [if_pos h, ih]
      have h' : ps.length ≥ defs.length := by simp at h; omega
      have e1 : (p :: ps).length - defs.length = (ps.length - defs.length) + 1 := by simp; omega
      have e2 : defs.length - ps.length = 0 := by omega
      have e3 : defs.length - (p :: ps).length = 0 := by simp; omega
      simp only [paramWords, e1, e2, e3, List.take_succ_cons, List.drop_succ_cons, List.cons_append]
    · rw [if_neg h, ih]
      have h' : ps.length + 1 ≤ defs.length := by simpa using h
      have e1 : (p :: ps).length - defs.length = 0 := by simp; omega
      have e2 : ps.length - defs.length = 0 := by omega
      have e3 : defs.length - ps.length = defs.length - (p :: ps).length + 1 := by simp; omega
      have hlt : defs.length - (p :: ps).length < defs.length := by simp; omega
      simp only [paramWords, e1, e2, e3, List.take_zero, List.drop_zero, List.nil_append]
      rw [List.drop_eq_getElem_cons hlt, List.zipWith_cons_cons, List.getElem?_eq_getElem hlt]
      simp

theorem bind_run {α β : Type} {x : M α} {f : α → M β} {st st' : St} {a : α} (h : x st = some (a, st')) :
    (x >>= f) st = f a st' := by
  simp [bind, StateT.bind, h]

theorem spaces_eq (n : Nat) : spaces n = indent n := by
  induction n with
  | zero => rfl
  | succ n ih => rw [spaces, ih]; simp [indent, Nat.mul_succ, List.replicate_succ]

theorem fprint_run (s buf : Str) (d : Nat) : fprint s ⟨buf, d⟩ = some ((), ⟨buf ++ indent d ++ s, d⟩) := by
  unfold fprint
  rw [if_neg (by simp), spaces_eq]
  simp

theorem fprintln_run (s buf : Str) (d : Nat) :
    fprintln s ⟨buf, d⟩ = some ((), ⟨buf ++ unlines [indent d ++ s], d⟩) := by
  unfold fprintln
  rw [fprint_run]
  simp [unlines]

theorem inc_run (buf : Str) (d : Nat) : inc ⟨buf, d⟩ = some ((), ⟨buf, (d + 1 : Nat)⟩) := rfl

theorem dec_run (buf : Str) (d : Nat) : dec ⟨buf, (d + 1 : Nat)⟩ = some ((), ⟨buf, d⟩) := by
  simp [dec]

theorem cmdName_run {ea : Ast.ExArg} {c : Cmd} (h : ea.cmd = some c) (st : St) :
    cmdName ea st = some (nameOf ea, st) := by
  simp [cmdName, nameOf, h]

theorem simple_run {ea : Ast.ExArg} {c : Cmd} (h : ea.cmd = some c) (args buf : Str) (d : Nat) :
    simple ea args ⟨buf, d⟩ = some (false, ⟨buf ++ unlines [indent d ++ form (nameOf ea) args], d⟩) := by
  unfold simple
  rw [bind_run (cmdName_run h _), bind_run (fprintln_run _ _ _)]
  rfl

/-! ### Closing -/

/-- The last line ends in a character other than a line break. -/
def LastOK (ls : List Str) : Prop := ∃ pre l c, ls = pre ++ [l ++ [c]] ∧ c ≠ '\n'

theorem close_append (ls : List Str) (l : Str) : close (ls ++ [l]) = ls ++ [l ++ [')']] := by
  induction ls with
  | nil => rfl
  | cons x ls ih =>
    cases ls with
    | nil => rfl
    | cons y ls => simpa [close] using ih

theorem LastOK.append (a : List Str) {b : List Str} (h : LastOK b) : LastOK (a ++ b) := by
  obtain ⟨pre, l, c, rfl, h⟩ := h
  exact ⟨a ++ pre, l, c, by simp, h⟩

theorem LastOK.one {l : Str} (h : l ≠ []) (hn : '\n' ∉ l) : LastOK [l] := by
  obtain ⟨l', c, rfl⟩ := List.eq_nil_or_concat l |>.resolve_left h
  exact ⟨[], l', c, by simp, by rintro rfl; simp at hn⟩

theorem LastOK.close {ls : List Str} (h : ls ≠ []) : LastOK (close ls) := by
  obtain ⟨ls', l, rfl⟩ := List.eq_nil_or_concat ls |>.resolve_left h
  rw [List.concat_eq_append, close_append]
  exact ⟨ls', l, ')', rfl, by decide⟩

theorem unlines_append (a b : List Str) : unlines (a ++ b) = unlines a ++ unlines b := by
  simp [unlines]

/-- Closing a block. -/
theorem close_run {ls : List Str} (h : LastOK ls) (buf : Str) (i : Int) :
    (do trimLineBreak; writeString cs!")\n" : M Unit) ⟨buf ++ unlines ls, i⟩ =
      some ((), ⟨buf ++ unlines (close ls), i⟩) := by
  obtain ⟨pre, l, c, rfl, hc⟩ := h
  rw [close_append, unlines_append, unlines_append]
  have : (buf ++ (unlines pre ++ unlines [l ++ [c]])).reverse.dropWhile (· == '\n') =
      (buf ++ (unlines pre ++ (l ++ [c]))).reverse := by
    simp [unlines, hc]
  simp only [bind, StateT.bind, trimLineBreak, writeString, this]
  simp [unlines]

/-! ### Blocks -/

theorem funcHead_run (name : Ast.Expr) (ps : List Ast.Ident) (da : List Ast.Expr) (buf : Str) (d : Nat) :
    funcHead name ps da ⟨buf, d⟩ = some ((), ⟨buf ++ unlines [funcLine' d name ps da], d⟩) := by
  unfold funcHead
  rw [bind_run (fprint_run _ _ _)]
  by_cases h : ps = []
  · subst h
    simp only [List.length_nil, Nat.lt_irrefl, if_false, gt_iff_lt]
    rw [fprintln_run]
    simp [unlines, funcLine', expr_eq]
  · rw [if_pos (List.length_pos_iff.mpr h)]
    simp only
    rw [bind_run (fprint_run _ _ _), bind_run (fprint_run _ _ _), fprintln_run, join_words, exprs_eq,
      paramStrs_eq, paramStrs_eq, expr_eq]
    simp [unlines, funcLine', sigWords, h]

/-- What is printed for a statement. -/
structure Prints (s : Ast.Stmt) : Prop where
  stmt : isPart (kind s) = false → ∀ buf (d : Nat),
    stmt s ⟨buf, d⟩ = some (false, ⟨buf ++ unlines (lines funcLine' d s), d⟩)
  last : ∀ d, LastOK (lines funcLine' d s)
  elseIf : kind s = .elseIf → ∀ r buf (d : Nat),
    elseIfs (s :: r) ⟨buf, d⟩ = elseIfs r ⟨buf ++ unlines (lines funcLine' d s), d⟩
  else_ : kind s = .else_ → ∀ buf (d : Nat),
    elseOpt (some s) ⟨buf, d⟩ = some ((), ⟨buf ++ unlines (lines funcLine' d s), d⟩)
  catch_ : kind s = .catch_ → ∀ r buf (d : Nat),
    catches (s :: r) ⟨buf, (d + 1 : Nat)⟩ = catches r ⟨buf ++ unlines (lines funcLine' d s), (d + 1 : Nat)⟩
  finally_ : kind s = .finally_ → ∀ buf (d : Nat),
    finallyOpt (some s) ⟨buf, (d + 1 : Nat)⟩ = some ((), ⟨buf ++ unlines (lines funcLine' d s), (d + 1 : Nat)⟩)

theorem stmts_run {l : List Ast.Stmt} (h : ∀ s ∈ l, Prints s) (hp : NoParts l) (buf : Str) (d : Nat) :
    stmts l ⟨buf, d⟩ = some (false, ⟨buf ++ unlines (linesL funcLine' d l), d⟩) := by
  induction l generalizing buf with
  | nil => simp [stmts, linesL, unlines]; rfl
  | cons s l ih =>
    rw [List.forall_mem_cons] at h
    rw [stmts, bind_run (h.1.stmt (hp s (by simp)) _ _)]
    simp only [Bool.false_eq_true, if_false]
    rw [ih h.2 (fun x hx => hp x (List.mem_cons_of_mem _ hx)), linesL, unlines_append, List.append_assoc]

theorem elseIfs_run {l : List Ast.Stmt} (h : ∀ s ∈ l, Prints s) (hp : ∀ s ∈ l, kind s = .elseIf) (buf : Str) (d : Nat) :
    elseIfs l ⟨buf, d⟩ = some ((), ⟨buf ++ unlines (linesL funcLine' d l), d⟩) := by
  induction l generalizing buf with
  | nil => simp [elseIfs, linesL, unlines]; rfl
  | cons s l ih =>
    rw [List.forall_mem_cons] at h hp
    rw [h.1.elseIf hp.1, ih h.2 hp.2, linesL, unlines_append, List.append_assoc]

theorem catches_run {l : List Ast.Stmt} (h : ∀ s ∈ l, Prints s) (hp : ∀ s ∈ l, kind s = .catch_) (buf : Str) (d : Nat) :
    catches l ⟨buf, (d + 1 : Nat)⟩ = some ((), ⟨buf ++ unlines (linesL funcLine' d l), (d + 1 : Nat)⟩) := by
  induction l generalizing buf with
  | nil => simp [catches, linesL, unlines]; rfl
  | cons s l ih =>
    rw [List.forall_mem_cons] at h hp
    rw [h.1.catch_ hp.1, ih h.2 hp.2, linesL, unlines_append, List.append_assoc]

theorem elseOpt_run {o : Option Ast.Stmt} (h : ∀ s, o = some s → Prints s) (hp : ∀ s, o = some s → kind s = .else_)
    (buf : Str) (d : Nat) : elseOpt o ⟨buf, d⟩ = some ((), ⟨buf ++ unlines (linesO funcLine' d o), d⟩) := by
  cases o with
  | none => simp [elseOpt, linesO, unlines]; rfl
  | some s => rw [(h s rfl).else_ (hp s rfl), linesO]

theorem finallyOpt_run {o : Option Ast.Stmt} (h : ∀ s, o = some s → Prints s)
    (hp : ∀ s, o = some s → kind s = .finally_) (buf : Str) (d : Nat) :
    finallyOpt o ⟨buf, (d + 1 : Nat)⟩ = some ((), ⟨buf ++ unlines (linesO funcLine' d o), (d + 1 : Nat)⟩) := by
  cases o with
  | none => simp [finallyOpt, linesO, unlines]; rfl
  | some s => rw [(h s rfl).finally_ (hp s rfl), linesO]

theorem linesL_last {l : List Ast.Stmt} (h : ∀ s ∈ l, Prints s) (d : Nat) :
    linesL funcLine' d l = [] ∨ LastOK (linesL funcLine' d l) := by
  induction l with
  | nil => exact Or.inl rfl
  | cons s l ih =>
    rw [List.forall_mem_cons] at h
    right
    rw [linesL]
    rcases ih h.2 with h1 | h1
    · rw [h1, List.append_nil]; exact h.1.last d
    · exact h1.append _

theorem linesO_last {o : Option Ast.Stmt} (h : ∀ s, o = some s → Prints s) (d : Nat) :
    linesO funcLine' d o = [] ∨ LastOK (linesO funcLine' d o) := by
  cases o with
  | none => exact Or.inl rfl
  | some s => exact Or.inr ((h s rfl).last d)

theorem LastOK.cons {l : Str} {ls : List Str} (h1 : LastOK [l]) (h2 : ls = [] ∨ LastOK ls) :
    LastOK (l :: ls) := by
  rcases h2 with rfl | h2
  · exact h1
  · exact h2.append [l]

theorem last_app {a b : List Str} (h1 : a = [] ∨ LastOK a) (h2 : b = [] ∨ LastOK b) :
    a ++ b = [] ∨ LastOK (a ++ b) := by
  rcases h2 with rfl | h2
  · simpa using h1
  · exact Or.inr (h2.append a)

theorem indent_nl (d : Nat) : '\n' ∉ indent d := by simp [indent]

theorem last_of {d : Nat} {s : Str} (h : s ≠ []) (hn : '\n' ∉ s) : LastOK [indent d ++ s] :=
  .one (by simp [h]) (by simp [indent_nl, hn])

/-- A line that ends in a given character. -/
theorem last_snoc (a : Str) {c : Char} (hc : c ≠ '\n') : LastOK [a ++ [c]] := ⟨[], a, c, rfl, hc⟩

theorem last_form (d : Nat) (n a : Str) : LastOK [indent d ++ form n a] := by
  have := last_snoc (indent d ++ (cs!"(" ++ n ++ cs!" " ++ a)) (c := ')') (by decide)
  simpa [form] using this

theorem sxWords_nl {ls : List Ast.Expr} (h : ∀ e ∈ ls, '\n' ∉ (sx e).text) : '\n' ∉ sxWords ls := by
  intro hm
  rw [sxWords, ← join_words, join_texts] at hm
  induction ls with
  | nil => simp [sxs, SX.texts] at hm
  | cons x ls ih =>
    rw [List.forall_mem_cons] at h
    cases ls with
    | nil => simp [sxs, SX.texts] at hm; exact h.1 hm
    | cons y ls =>
      simp only [sxs, SX.texts, List.mem_append, List.mem_cons] at hm
      rcases hm with hm | hm | hm
      · exact h.1 hm
      · exact absurd hm (by decide)
      · exact ih h.2 (by simpa [sxs] using hm)

/-- Statements other than blocks. -/
theorem leafPrints {s : Ast.Stmt} (hk : kind s = .other)
    (hl : ∀ d, lines funcLine' d s = [indent d ++ firstLine s])
    (h1 : ∀ buf (d : Nat), stmt s ⟨buf, d⟩ = some (false, ⟨buf ++ unlines [indent d ++ firstLine s], d⟩))
    (h2 : ∀ d, LastOK [indent d ++ firstLine s]) : Prints s where
  stmt _ buf d := by rw [h1, hl]
  last d := by rw [hl]; exact h2 d
  elseIf h := by rw [hk] at h; cases h
  else_ h := by rw [hk] at h; cases h
  catch_ h := by rw [hk] at h; cases h
  finally_ h := by rw [hk] at h; cases h

theorem close_tail {ls : List Str} (h : LastOK ls) (buf : Str) (i : Int) (f : M Bool) :
    (do trimLineBreak; writeString cs!")\n"; f : M Bool) ⟨buf ++ unlines ls, i⟩ =
      f ⟨buf ++ unlines (close ls), i⟩ := by
  have := close_run h buf i
  simp only [bind, StateT.bind] at this ⊢
  simp only [trimLineBreak, writeString, Option.bind_some] at this ⊢
  simp only [Option.some.injEq, Prod.mk.injEq, true_and] at this
  rw [this]

theorem unlines_cons (l : Str) (ls : List Str) : unlines (l :: ls) = unlines [l] ++ unlines ls := by
  simp [unlines]

theorem prints {ctx : List Kind} {s : Ast.Stmt} (h : AllS (fun _ s => Printable s) ctx s) : Prints s := by
  induction h with
  | mk ctx s hp _ ih =>
    obtain ⟨hw, hc, ho⟩ := hp
    obtain ⟨ho13, ho2⟩ := ho
    cases s with
    | comment q t =>
      refine leafPrints rfl (fun d => rfl) (fun buf d => ?_) (fun d => ?_)
      · rw [stmt, bind_run (fprintln_run _ _ _)]; rfl
      · exact last_of (by simp [firstLine]) (by have := ho2 q t rfl; simp [firstLine, this])
    | excmd q ea t =>
      refine leafPrints rfl (fun d => rfl) (fun buf d => ?_) (fun d => last_form _ _ _)
      rw [stmt, bind_run (fprintln_run _ _ _), escape_bs]
      simp [firstLine, form]; rfl
    | delFunction q ea n =>
      obtain ⟨_, c, ⟨rfl⟩, hc⟩ := hc
      refine leafPrints rfl (fun d => rfl) (fun buf d => ?_) (fun d => last_form _ _ _)
      rw [stmt, simple_run hc, expr_eq]; rfl
    | return_ q ea r =>
      obtain ⟨_, c, ⟨rfl⟩, hc⟩ := hc
      cases r with
      | none =>
        refine leafPrints rfl (fun d => rfl) (fun buf d => ?_) (fun d => ?_)
        · rw [stmt, bind_run (cmdName_run hc _), bind_run (fprintln_run _ _ _)]; rfl
        · have := last_snoc (indent d ++ (cs!"(" ++ nameOf ea)) (c := ')') (by decide)
          simpa [firstLine] using this
      | some e =>
        refine leafPrints rfl (fun d => rfl) (fun buf d => ?_) (fun d => last_form _ _ _)
        rw [stmt, simple_run hc, expr_eq]; rfl
    | exCall q ea f lp as =>
      obtain ⟨_, c, ⟨rfl⟩, hc⟩ := hc
      refine leafPrints rfl (fun d => rfl) (fun buf d => ?_) (fun d => last_form _ _ _)
      rw [stmt, simple_run hc, expr_eq]; rfl
    | let_ q ea op l ls rest r =>
      obtain ⟨_, c, ⟨rfl⟩, hc⟩ := hc
      refine leafPrints rfl (fun d => rfl) (fun buf d => ?_) (fun d => last_form _ _ _)
      rw [stmt, bind_run (cmdName_run hc _), bind_run (fprintln_run _ _ _), expr_eq, lhsStr_eq]
      simp [firstLine, form]; rfl
    | unLet q ea l =>
      obtain ⟨_, c, ⟨rfl⟩, hc⟩ := hc
      refine leafPrints rfl (fun d => rfl) (fun buf d => ?_) (fun d => last_form _ _ _)
      rw [stmt, simple_run hc, exprs_words]; rfl
    | lockVar q ea n l =>
      obtain ⟨_, c, ⟨rfl⟩, hc⟩ := hc
      refine leafPrints rfl (fun d => rfl) (fun buf d => ?_) (fun d => last_form _ _ _)
      rw [stmt, bind_run (cmdName_run hc _), bind_run (fprintln_run _ _ _), lockStr_eq]; rfl
    | unLockVar q ea n l =>
      obtain ⟨_, c, ⟨rfl⟩, hc⟩ := hc
      refine leafPrints rfl (fun d => rfl) (fun buf d => ?_) (fun d => last_form _ _ _)
      rw [stmt, bind_run (cmdName_run hc _), bind_run (fprintln_run _ _ _), lockStr_eq]; rfl
    | continue_ q ea =>
      obtain ⟨_, c, ⟨rfl⟩, hc⟩ := hc
      refine leafPrints rfl (fun d => rfl) (fun buf d => ?_) (fun d => ?_)
      · rw [stmt, bind_run (cmdName_run hc _), bind_run (fprintln_run _ _ _)]; rfl
      · have := last_snoc (indent d ++ (cs!"(" ++ nameOf ea)) (c := ')') (by decide)
        simpa [firstLine] using this
    | break_ q ea =>
      obtain ⟨_, c, ⟨rfl⟩, hc⟩ := hc
      refine leafPrints rfl (fun d => rfl) (fun buf d => ?_) (fun d => ?_)
      · rw [stmt, bind_run (cmdName_run hc _), bind_run (fprintln_run _ _ _)]; rfl
      · have := last_snoc (indent d ++ (cs!"(" ++ nameOf ea)) (c := ')') (by decide)
        simpa [firstLine] using this
    | throw q ea e =>
      obtain ⟨_, c, ⟨rfl⟩, hc⟩ := hc
      refine leafPrints rfl (fun d => rfl) (fun buf d => ?_) (fun d => last_form _ _ _)
      rw [stmt, simple_run hc, expr_eq]; rfl
    | eval q ea e =>
      obtain ⟨_, c, ⟨rfl⟩, hc⟩ := hc
      refine leafPrints rfl (fun d => rfl) (fun buf d => ?_) (fun d => last_form _ _ _)
      rw [stmt, simple_run hc, expr_eq]; rfl
    | echoCmd q n ea l =>
      obtain ⟨_, c, ⟨rfl⟩, hc⟩ := hc
      refine leafPrints rfl (fun d => rfl) (fun buf d => ?_) (fun d => last_form _ _ _)
      rw [stmt, simple_run hc, exprs_words]; rfl
    | echohl q ea t =>
      obtain ⟨_, c, ⟨rfl⟩, hc⟩ := hc
      refine leafPrints rfl (fun d => rfl) (fun buf d => ?_) (fun d => last_form _ _ _)
      rw [stmt, bind_run (cmdName_run hc _), bind_run (fprintln_run _ _ _), escape_bs]
      simp [firstLine, form]; rfl
    | execute q ea l =>
      obtain ⟨_, c, ⟨rfl⟩, hc⟩ := hc
      refine leafPrints rfl (fun d => rfl) (fun buf d => ?_) (fun d => last_form _ _ _)
      rw [stmt, simple_run hc, exprs_words]; rfl
    | function q ea b n ps da at_ e =>
      have hb : ∀ x ∈ b, Prints x := ih
      refine ⟨fun _ buf d => ?_, fun d => ?_, nofun, nofun, nofun, nofun⟩
      · have hlast : LastOK (funcLine' d n ps da :: linesL funcLine' (d + 1) b) := by
          refine .cons ?_ (linesL_last hb _)
          simp only [funcLine']
          exact last_snoc _ (by decide)
        rw [stmt, bind_run (funcHead_run _ _ _ _ _), bind_run (inc_run _ _), bind_run (stmts_run hb hw _ _),
          List.append_assoc, ← unlines_cons, close_tail hlast, bind_run (dec_run _ _), lines]
        rfl
      · rw [lines]; exact .close (by simp)
    | if_ q ea b c eis el e =>
      obtain ⟨_, cm, ⟨rfl⟩, hc⟩ := hc
      obtain ⟨w1, w2, w3⟩ := hw
      have hb : ∀ x ∈ b, Prints x := fun x hx => ih x (by simp [subStmts, hx])
      have he : ∀ x ∈ eis, Prints x := fun x hx => ih x (by simp [subStmts, hx])
      have hl : ∀ x, el = some x → Prints x := fun x hx => ih x (by simp [subStmts, hx])
      refine ⟨fun _ buf d => ?_, fun d => ?_, nofun, nofun, nofun, nofun⟩
      · have hlast : LastOK ((indent d ++ firstLine (.if_ q ea b c eis el e)) ::
            (linesL funcLine' (d + 1) b ++ linesL funcLine' d eis ++ linesO funcLine' d el)) := by
          refine .cons ?_ (last_app (last_app (linesL_last hb _) (linesL_last he _)) (linesO_last hl _))
          refine last_of (by simp [firstLine]) ?_
          have h1 := (ho13 (by simp [kind])).1 c (by simp [exprsOf])
          have h2 := (ho13 (by simp [kind])).2 ea rfl
          simp [firstLine, h1, h2]
        rw [stmt, bind_run (cmdName_run hc _), bind_run (fprintln_run _ _ _), bind_run (inc_run _ _),
          bind_run (stmts_run hb w1 _ _), bind_run (dec_run _ _), bind_run (elseIfs_run he w2 _ _),
          bind_run (elseOpt_run hl w3 _ _), expr_eq]
        have : buf ++ unlines [indent d ++ (cs!"(" ++ nameOf ea ++ cs!" " ++ (sx c).text)] ++
            unlines (linesL funcLine' (d + 1) b) ++
            unlines (linesL funcLine' d eis) ++ unlines (linesO funcLine' d el) =
            buf ++ unlines ((indent d ++ firstLine (.if_ q ea b c eis el e)) ::
            (linesL funcLine' (d + 1) b ++ linesL funcLine' d eis ++ linesO funcLine' d el)) := by
          simp [unlines, firstLine]
        rw [this, close_tail hlast, lines]
        rfl
      · rw [lines]; exact .close (by simp)
    | elseIf q ea b c =>
      obtain ⟨_, cm, ⟨rfl⟩, hc⟩ := hc
      have hb : ∀ x ∈ b, Prints x := ih
      refine ⟨fun h => by simp [isPart, kind] at h, fun d => ?_, fun _ r buf d => ?_, nofun, nofun, nofun⟩
      · rw [lines]
        refine .cons (last_of (by simp [firstLine]) ?_) (linesL_last hb _)
        have h1 := (ho13 (by simp [kind])).1 c (by simp [exprsOf])
        have h2 := (ho13 (by simp [kind])).2 ea rfl
        simp [firstLine, h1, h2]
      · rw [elseIfs, bind_run (cmdName_run hc _), bind_run (fprintln_run _ _ _), bind_run (inc_run _ _),
          bind_run (stmts_run hb hw _ _), bind_run (dec_run _ _), expr_eq, lines]
        simp [unlines, firstLine]
    | else_ q ea b =>
      obtain ⟨_, cm, ⟨rfl⟩, hc⟩ := hc
      have hb : ∀ x ∈ b, Prints x := ih
      refine ⟨fun h => by simp [isPart, kind] at h, fun d => ?_, nofun, fun _ buf d => ?_, nofun, nofun⟩
      · rw [lines]
        refine .cons (last_of (by simp [firstLine]) ?_) (linesL_last hb _)
        have h2 := (ho13 (by simp [kind])).2 ea rfl
        simp [firstLine, h2]
      · rw [elseOpt, bind_run (cmdName_run hc _), bind_run (fprintln_run _ _ _), bind_run (inc_run _ _),
          bind_run (stmts_run hb hw _ _), dec_run, lines]
        simp [unlines, firstLine]
    | while_ q ea b c e =>
      obtain ⟨_, cm, ⟨rfl⟩, hc⟩ := hc
      have hb : ∀ x ∈ b, Prints x := ih
      refine ⟨fun _ buf d => ?_, fun d => ?_, nofun, nofun, nofun, nofun⟩
      · have hlast : LastOK ((indent d ++ firstLine (.while_ q ea b c e)) :: linesL funcLine' (d + 1) b) := by
          refine .cons ?_ (linesL_last hb _)
          refine last_of (by simp [firstLine]) ?_
          have h1 := (ho13 (by simp [kind])).1 c (by simp [exprsOf])
          have h2 := (ho13 (by simp [kind])).2 ea rfl
          simp [firstLine, h1, h2]
        rw [stmt, bind_run (cmdName_run hc _), bind_run (fprintln_run _ _ _), bind_run (inc_run _ _),
          bind_run (stmts_run hb hw _ _), expr_eq, List.append_assoc]
        have : unlines [indent d ++ (cs!"(" ++ nameOf ea ++ cs!" " ++ (sx c).text)] ++
            unlines (linesL funcLine' (d + 1) b) =
            unlines ((indent d ++ firstLine (.while_ q ea b c e)) :: linesL funcLine' (d + 1) b) := by
          simp [unlines, firstLine]
        rw [this, close_tail hlast, bind_run (dec_run _ _), lines]
        rfl
      · rw [lines]; exact .close (by simp)
    | for_ q ea b l ls rest r e =>
      obtain ⟨_, cm, ⟨rfl⟩, hc⟩ := hc
      have hb : ∀ x ∈ b, Prints x := ih
      refine ⟨fun _ buf d => ?_, fun d => ?_, nofun, nofun, nofun, nofun⟩
      · have hlast : LastOK ((indent d ++ firstLine (.for_ q ea b l ls rest r e)) :: linesL funcLine' (d + 1) b) := by
          refine .cons ?_ (linesL_last hb _)
          refine last_of (by simp [firstLine]) ?_
          have ho1 := (ho13 (by simp [kind])).1
          have h1 := ho1 r (by simp [exprsOf])
          have h2 := (ho13 (by simp [kind])).2 ea rfl
          have hls : '\n' ∉ sxWords ls := sxWords_nl fun e he => ho1 e (by simp [exprsOf, he])
          have h3 : '\n' ∉ lhsText l ls rest := by
            cases l with
            | some x => have := ho1 x (by simp [exprsOf]); simpa [lhsText] using this
            | none =>
              cases rest with
              | none => simp [lhsText, hls]
              | some x => have := ho1 x (by simp [exprsOf]); simp [lhsText, hls, this]
          simp [firstLine, h1, h2, h3]
        rw [stmt, bind_run (cmdName_run hc _), bind_run (fprintln_run _ _ _), bind_run (inc_run _ _),
          bind_run (stmts_run hb hw _ _), expr_eq, lhsStr_eq, List.append_assoc]
        have : unlines [indent d ++ (cs!"(" ++ nameOf ea ++ cs!" " ++ lhsText l ls rest ++ cs!" " ++ (sx r).text)] ++
            unlines (linesL funcLine' (d + 1) b) =
            unlines ((indent d ++ firstLine (.for_ q ea b l ls rest r e)) :: linesL funcLine' (d + 1) b) := by
          simp [unlines, firstLine]
        rw [this, close_tail hlast, bind_run (dec_run _ _), lines]
        rfl
      · rw [lines]; exact .close (by simp)
    | try_ q ea b cs fi e =>
      obtain ⟨_, cm, ⟨rfl⟩, hc⟩ := hc
      obtain ⟨w1, w2, w3⟩ := hw
      have hb : ∀ x ∈ b, Prints x := fun x hx => ih x (by simp [subStmts, hx])
      have he : ∀ x ∈ cs, Prints x := fun x hx => ih x (by simp [subStmts, hx])
      have hl : ∀ x, fi = some x → Prints x := fun x hx => ih x (by simp [subStmts, hx])
      refine ⟨fun _ buf d => ?_, fun d => ?_, nofun, nofun, nofun, nofun⟩
      · have hlast : LastOK ((indent d ++ firstLine (.try_ q ea b cs fi e)) ::
            (linesL funcLine' (d + 1) b ++ linesL funcLine' d cs ++ linesO funcLine' d fi)) := by
          refine .cons ?_ (last_app (last_app (linesL_last hb _) (linesL_last he _)) (linesO_last hl _))
          refine last_of (by simp [firstLine]) ?_
          have h2 := (ho13 (by simp [kind])).2 ea rfl
          simp [firstLine, h2]
        rw [stmt, bind_run (cmdName_run hc _), bind_run (fprintln_run _ _ _), bind_run (inc_run _ _),
          bind_run (stmts_run hb w1 _ _), bind_run (catches_run he w2 _ _),
          bind_run (finallyOpt_run hl w3 _ _)]
        have : buf ++ unlines [indent d ++ (cs!"(" ++ nameOf ea)] ++ unlines (linesL funcLine' (d + 1) b) ++
            unlines (linesL funcLine' d cs) ++ unlines (linesO funcLine' d fi) =
            buf ++ unlines ((indent d ++ firstLine (.try_ q ea b cs fi e)) ::
            (linesL funcLine' (d + 1) b ++ linesL funcLine' d cs ++ linesO funcLine' d fi)) := by
          simp [unlines, firstLine]
        rw [this, close_tail hlast, bind_run (dec_run _ _), lines]
        rfl
      · rw [lines]; exact .close (by simp)
    | catch_ q ea b p =>
      obtain ⟨_, cm, ⟨rfl⟩, hc⟩ := hc
      have hb : ∀ x ∈ b, Prints x := ih
      refine ⟨fun h => by simp [isPart, kind] at h, fun d => ?_, nofun, nofun, fun _ r buf d => ?_, nofun⟩
      · rw [lines]
        refine .cons ?_ (linesL_last hb _)
        by_cases hpn : p = []
        · refine last_of (by simp [firstLine]) ?_
          have h2 := (ho13 (by simp [kind])).2 ea rfl
          simp [firstLine, h2, hpn]
        · have := last_snoc (indent d ++ (cs!" " ++ nameOf ea ++ (cs!" /" ++ p))) (c := '/') (by decide)
          simpa [firstLine, hpn] using this
      · rw [catches, bind_run (dec_run _ _), bind_run (cmdName_run hc _)]
        by_cases hpn : p = []
        · subst hpn
          simp only [ne_eq, not_true_eq_false, if_false]
          rw [bind_run (fprintln_run _ _ _), bind_run (inc_run _ _),
            bind_run (stmts_run hb hw _ _), lines]
          simp [unlines, firstLine]
        · simp only [ne_eq, hpn, not_false_eq_true, if_true]
          rw [bind_run (fprintln_run _ _ _), bind_run (inc_run _ _),
            bind_run (stmts_run hb hw _ _), lines]
          simp [unlines, firstLine, hpn]
    | finally_ q ea b =>
      obtain ⟨_, cm, ⟨rfl⟩, hc⟩ := hc
      have hb : ∀ x ∈ b, Prints x := ih
      refine ⟨fun h => by simp [isPart, kind] at h, fun d => ?_, nofun, nofun, nofun, fun _ buf d => ?_⟩
      · rw [lines]
        refine .cons (last_of (by simp [firstLine]) ?_) (linesL_last hb _)
        have h2 := (ho13 (by simp [kind])).2 ea rfl
        simp [firstLine, h2]
      · rw [finallyOpt, bind_run (dec_run _ _), bind_run (cmdName_run hc _), bind_run (fprintln_run _ _ _),
          bind_run (inc_run _ _), bind_run (stmts_run hb hw _ _), lines]
        simp [unlines, firstLine]; rfl

/-- A printable file gives the specified lines. -/
theorem compileFile_eq {f : Ast.File} (h : AllF (fun _ s => Printable s) f) (hp : NoParts f.body) :
    compileFile f = .text (unlines (linesL funcLine' 0 f.body)) := by
  unfold compileFile
  have := stmts_run (l := f.body) (fun s hs => prints (h s hs)) hp [] 0
  rw [show (({} : St)) = ⟨[], ((0 : Nat) : Int)⟩ from rfl, this]
  simp [Out.of]

end Comp
end Viml
