/-
The JSON value of a tree determines the tree: nodes of different types have different sets of field names.
-/
import Verif.Model.Json

namespace Viml.JTree

/-! ### Data -/

theorem str_inj {a b : Str} (h : Json.str a = Json.str b) : a = b := by cases h; rfl
theorem num_inj {a b : Nat} (h : Json.num a = Json.num b) : a = b := by cases h; rfl
theorem bool_inj {a b : Bool} (h : Json.bool a = Json.bool b) : a = b := by cases h; rfl
theorem arr_inj {a b : List Json} (h : Json.arr a = Json.arr b) : a = b := by cases h; rfl
theorem nilArr_inj {a b : List Json} (h : Json.nilArr a = Json.nilArr b) : a = b := by
  cases a <;> cases b <;> first | rfl | cases h; try rfl
theorem tok_inj {a b : Tok} (h : Json.tok a = Json.tok b) : a = b := by
  rw [← Tok.ofNat_ctorIdx a, ← Tok.ofNat_ctorIdx b, num_inj h]

theorem pos_inj {a b : Ast.Pos} (h : Json.pos a = Json.pos b) : a = b := by
  cases a; cases b
  simp only [Json.pos, Json.obj.injEq, List.cons.injEq, Prod.mk.injEq, true_and, and_true, Json.num.injEq,
    Json.str.injEq] at h
  obtain ⟨rfl, rfl, rfl, rfl⟩ := h
  rfl

theorem pos_ne_null {a : Ast.Pos} : Json.pos a ≠ .null := fun h => by cases h
theorem cmd_ne_null {a : Cmd} : Json.cmd a ≠ .null := fun h => by cases h

theorem opt_inj {α : Type} {f : α → Json} (hf : ∀ a b, f a = f b → a = b) (hn : ∀ a, f a ≠ .null) {a b : Option α}
    (h : Json.opt f a = Json.opt f b) : a = b := by
  cases a with
  | none =>
    cases b with
    | none => rfl
    | some b => exact absurd h.symm (hn b)
  | some a =>
    cases b with
    | none => exact absurd h (hn a)
    | some b => rw [hf a b h]

theorem map_inj {α : Type} {f : α → Json} (hf : ∀ a b, f a = f b → a = b) : ∀ {a b : List α},
    a.map f = b.map f → a = b
  | [], [], _ => rfl
  | [], _ :: _, h => by cases h
  | _ :: _, [], h => by cases h
  | x :: xs, y :: ys, h => by
    simp only [List.map_cons, List.cons.injEq] at h
    rw [hf x y h.1, map_inj hf h.2]

theorem flagName_inj : ∀ a b : Flag, Json.flagName a = Json.flagName b → a = b := by
  intro a b h
  have key : ∀ a : Flag, (List.range 28).find? (fun n => Json.flagName (Flag.ofNat n) == Json.flagName a) = some a.ctorIdx := by
    intro a; cases a <;> decide +kernel
  have := key a
  rw [h, key b] at this
  rw [← Flag.ofNat_ctorIdx a, ← Flag.ofNat_ctorIdx b, Option.some.inj this]

theorem flagName_ok (a : Flag) : '|' ∉ Json.flagName a ∧ Json.flagName a ≠ [] := by cases a <;> decide

theorem bar_split {a b x y : Str} (ha : '|' ∉ a) (hb : '|' ∉ b) (h : a ++ '|' :: x = b ++ '|' :: y) : a = b ∧ x = y := by
  induction a generalizing b with
  | nil =>
    cases b with
    | nil => exact ⟨rfl, (List.cons.inj h).2⟩
    | cons c b => obtain ⟨rfl, _⟩ := List.cons.inj h; exact absurd (List.mem_cons_self ..) hb
  | cons c a ih =>
    cases b with
    | nil => obtain ⟨rfl, _⟩ := List.cons.inj h; exact absurd (List.mem_cons_self ..) ha
    | cons d b =>
      obtain ⟨rfl, h1⟩ := List.cons.inj h
      obtain ⟨rfl, rfl⟩ := ih (fun hm => ha (List.mem_cons_of_mem _ hm)) (fun hm => hb (List.mem_cons_of_mem _ hm)) h1
      exact ⟨rfl, rfl⟩

theorem flags_ne_nil (f : Flag) (fs : List Flag) : Json.flags (f :: fs) ≠ [] := by
  cases fs with
  | nil => exact (flagName_ok f).2
  | cons g fs => rw [Json.flags]; simp

theorem flags_inj : ∀ a b : List Flag, Json.flags a = Json.flags b → a = b
  | [], [], _ => rfl
  | [], g :: gs, h => absurd h.symm (flags_ne_nil g gs)
  | f :: fs, [], h => absurd h (flags_ne_nil f fs)
  | [f], [g], h => by rw [flagName_inj f g h]
  | [f], g :: g' :: gs, h => by
    rw [Json.flags, Json.flags] at h
    exact absurd (h ▸ (by simp)) (flagName_ok f).1
  | f :: f' :: fs, [g], h => by
    rw [Json.flags, Json.flags] at h
    exact absurd (h ▸ (by simp)) (flagName_ok g).1
  | f :: f' :: fs, g :: g' :: gs, h => by
    rw [Json.flags, Json.flags] at h
    obtain ⟨h1, h2⟩ := bar_split (flagName_ok f).1 (flagName_ok g).1 h
    rw [flagName_inj f g h1, flags_inj _ _ h2]

theorem cmd_inj {a b : Cmd} (h : Json.cmd a = Json.cmd b) : a = b := by
  cases a; cases b
  simp only [Json.cmd, Json.obj.injEq, List.cons.injEq, Prod.mk.injEq, true_and, and_true, Json.num.injEq,
    Json.str.injEq] at h
  obtain ⟨rfl, rfl, h, rfl⟩ := h
  rw [flags_inj _ _ h]

theorem modifier_inj (a b : Modifier) (h : Json.modifier a = Json.modifier b) : a = b := by
  obtain ⟨n, bang, count⟩ := a
  obtain ⟨n', bang', count'⟩ := b
  have hb : cs!"bang" ≠ cs!"count" := by decide
  have hn : cs!"bang" ≠ cs!"name" := by decide
  have hc : cs!"count" ≠ cs!"name" := by decide
  cases bang <;> cases bang' <;> cases count <;> cases count' <;>
    simp only [Json.modifier, Json.obj.injEq, List.cons_append, List.nil_append, List.append_nil, List.cons.injEq,
      Prod.mk.injEq, hb, hn, hc, hb.symm, hn.symm, hc.symm, true_and, and_true, false_and, and_false, Json.num.injEq,
      Json.str.injEq, reduceCtorEq] at h
  · rw [h]
  · rw [h.1, h.2]
  · rw [h.1, h.2]
  · rw [h.1, h.2.1, h.2.2]

theorem exArg_inj {a b : Ast.ExArg} (h : Json.exArg a = Json.exArg b) : a = b := by
  cases a; cases b
  simp only [Json.exArg, Json.obj.injEq, List.cons.injEq, Prod.mk.injEq, true_and, and_true, Json.num.injEq,
    Json.str.injEq, Json.bool.injEq, Json.arr.injEq] at h
  obtain ⟨rfl, rfl, rfl, rfl, rfl, rfl, rfl, rfl, rfl, rfl, h1, h2, h3, h4, h5, h6⟩ := h
  rw [pos_inj h1, pos_inj h2, opt_inj (fun _ _ => pos_inj) (fun _ => pos_ne_null) h3,
    opt_inj (fun _ _ => cmd_inj) (fun _ => cmd_ne_null) h4, map_inj modifier_inj h5, map_inj (fun _ _ => str_inj) h6]

theorem ident_inj {a b : Ast.Ident} (h : Json.ident a = Json.ident b) : a = b := by
  cases a; cases b
  simp only [Json.ident, Json.obj.injEq, List.cons.injEq, Prod.mk.injEq, true_and, and_true, Json.str.injEq] at h
  obtain ⟨h, rfl⟩ := h
  rw [pos_inj h]

theorem idents_inj {a b : List Ast.Ident} (h : a.map Json.ident = b.map Json.ident) : a = b :=
  map_inj (fun _ _ => ident_inj) h

theorem attr_inj {a b : FuncAttr} (h : Json.attr a = Json.attr b) : a = b := by
  cases a; cases b
  simp only [Json.attr, Json.obj.injEq, List.cons.injEq, Prod.mk.injEq, true_and, and_true, Json.bool.injEq] at h
  obtain ⟨rfl, rfl, rfl, rfl⟩ := h
  rfl

theorem endCmd_inj {f : Str} {a b : Ast.EndCmd} (h : Json.endCmd f a = Json.endCmd f b) : a = b := by
  cases a; cases b
  simp only [Json.endCmd, Json.obj.injEq, List.cons.injEq, Prod.mk.injEq, true_and, and_true] at h
  obtain ⟨h1, h2⟩ := h
  rw [pos_inj h1, exArg_inj h2]

/-! ### Field names -/

/-- The field names of an object. -/
def keysOf : Json → List Str
  | .obj l => l.map (·.1)
  | _ => []

def exprKind : Ast.Expr → Nat
  | .ternary .. => 0
  | .binary .. => 1
  | .unary .. => 2
  | .subscript .. => 3
  | .slice .. => 4
  | .method .. => 5
  | .call .. => 6
  | .dot .. => 7
  | .basicLit .. => 8
  | .list .. => 9
  | .dict .. => 10
  | .curlyName .. => 11
  | .curlyNameLit .. => 12
  | .curlyNameExpr .. => 13
  | .ident .. => 14
  | .lambda .. => 15
  | .paren .. => 16
  | .heredoc .. => 17

def exprKeys : Nat → List Str
  | 0 => [cs!"Ternary", cs!"Condition", cs!"Left", cs!"Right"]
  | 1 => [cs!"Left", cs!"OpPos", cs!"Op", cs!"Right"]
  | 2 => [cs!"OpPos", cs!"Op", cs!"X"]
  | 3 => [cs!"Lbrack", cs!"Left", cs!"Right"]
  | 4 => [cs!"X", cs!"Lbrack", cs!"Low", cs!"High"]
  | 5 => [cs!"Left", cs!"Method", cs!"Lparen", cs!"Args"]
  | 6 => [cs!"Fun", cs!"Lparen", cs!"Args"]
  | 7 => [cs!"Left", cs!"Dot", cs!"Right"]
  | 8 => [cs!"ValuePos", cs!"Kind", cs!"Value"]
  | 9 => [cs!"Lsquare", cs!"Values"]
  | 10 => [cs!"Lcurlybrace", cs!"Entries"]
  | 11 => [cs!"CurlyName", cs!"Parts"]
  | 12 => [cs!"CurlyNameLit", cs!"Value"]
  | 13 => [cs!"CurlyNameExpr", cs!"Value"]
  | 14 => [cs!"NamePos", cs!"Name"]
  | 15 => [cs!"Lcurlybrace", cs!"Params", cs!"Expr"]
  | 16 => [cs!"Lparen", cs!"X"]
  | 17 => [cs!"OpPos", cs!"Flags", cs!"EndMarker", cs!"Body"]
  | _ => []

theorem expr_keys (e : Ast.Expr) : keysOf (Json.expr e) = exprKeys (exprKind e) := by cases e <;> rfl

theorem exprKind_lt (e : Ast.Expr) : exprKind e < 18 := by cases e <;> simp only [exprKind] <;> decide

theorem exprKeys_inj : ∀ m < 18, ∀ n < 18, exprKeys m = exprKeys n → m = n := by decide +kernel

theorem expr_kind {e e' : Ast.Expr} (h : Json.expr e = Json.expr e') : exprKind e = exprKind e' :=
  exprKeys_inj _ (exprKind_lt e) _ (exprKind_lt e') (by rw [← expr_keys, ← expr_keys, h])

def stmtKind : Ast.Stmt → Nat
  | .comment .. => 0
  | .excmd .. => 1
  | .function .. => 2
  | .delFunction .. => 3
  | .return_ .. => 4
  | .exCall .. => 5
  | .let_ .. => 6
  | .unLet .. => 7
  | .lockVar .. => 8
  | .unLockVar .. => 9
  | .if_ .. => 10
  | .elseIf .. => 11
  | .else_ .. => 12
  | .while_ .. => 13
  | .for_ .. => 14
  | .continue_ .. => 15
  | .break_ .. => 16
  | .try_ .. => 17
  | .catch_ .. => 18
  | .finally_ .. => 19
  | .throw .. => 20
  | .eval .. => 21
  | .echoCmd .. => 22
  | .echohl .. => 23
  | .execute .. => 24

def stmtKeys : Nat → List Str
  | 0 => [cs!"Statement", cs!"Quote", cs!"Text"]
  | 1 => [cs!"Excmd", cs!"Command", cs!"ExArg"]
  | 2 => [cs!"Func", cs!"ExArg", cs!"Body", cs!"Name", cs!"Params", cs!"DefaultArgs", cs!"Attr", cs!"EndFunction"]
  | 3 => [cs!"DelFunc", cs!"ExArg", cs!"Name"]
  | 4 => [cs!"Return", cs!"ExArg", cs!"Result"]
  | 5 => [cs!"ExCall", cs!"ExArg", cs!"FuncCall"]
  | 6 => [cs!"Let", cs!"ExArg", cs!"Op", cs!"Left", cs!"List", cs!"Rest", cs!"Right"]
  | 7 => [cs!"UnLet", cs!"ExArg", cs!"List"]
  | 8 => [cs!"LockVar", cs!"ExArg", cs!"Depth", cs!"List"]
  | 9 => [cs!"UnLockVar", cs!"ExArg", cs!"Depth", cs!"List"]
  | 10 => [cs!"If", cs!"ExArg", cs!"Body", cs!"Condition", cs!"ElseIf", cs!"Else", cs!"EndIf"]
  | 11 => [cs!"ElseIf", cs!"ExArg", cs!"Body", cs!"Condition"]
  | 12 => [cs!"Else", cs!"ExArg", cs!"Body"]
  | 13 => [cs!"While", cs!"ExArg", cs!"Body", cs!"Condition", cs!"EndWhile"]
  | 14 => [cs!"For", cs!"ExArg", cs!"Body", cs!"Left", cs!"List", cs!"Rest", cs!"Right", cs!"EndFor"]
  | 15 => [cs!"Continue", cs!"ExArg"]
  | 16 => [cs!"Break", cs!"ExArg"]
  | 17 => [cs!"Try", cs!"ExArg", cs!"Body", cs!"Catch", cs!"Finally", cs!"EndTry"]
  | 18 => [cs!"Catch", cs!"ExArg", cs!"Body", cs!"Pattern"]
  | 19 => [cs!"Finally", cs!"ExArg", cs!"Body"]
  | 20 => [cs!"Throw", cs!"ExArg", cs!"Expr"]
  | 21 => [cs!"Eval", cs!"ExArg", cs!"Expr"]
  | 22 => [cs!"Start", cs!"CmdName", cs!"ExArg", cs!"Exprs"]
  | 23 => [cs!"Echohl", cs!"ExArg", cs!"Name"]
  | 24 => [cs!"Execute", cs!"ExArg", cs!"Exprs"]
  | _ => []

theorem stmt_keys (e : Ast.Stmt) : keysOf (Json.stmt e) = stmtKeys (stmtKind e) := by cases e <;> rfl

theorem stmtKind_lt (e : Ast.Stmt) : stmtKind e < 25 := by cases e <;> simp only [stmtKind] <;> decide

theorem stmtKeys_inj : ∀ m < 25, ∀ n < 25, stmtKeys m = stmtKeys n → m = n := by decide +kernel

theorem stmt_kind {e e' : Ast.Stmt} (h : Json.stmt e = Json.stmt e') : stmtKind e = stmtKind e' :=
  stmtKeys_inj _ (stmtKind_lt e) _ (stmtKind_lt e') (by rw [← stmt_keys, ← stmt_keys, h])

theorem expr_ne_null (e : Ast.Expr) : Json.expr e ≠ .null := by intro h; cases e <;> cases h
theorem stmt_ne_null (e : Ast.Stmt) : Json.stmt e ≠ .null := by intro h; cases e <;> cases h

/-! ### Trees -/

mutual
theorem expr_inj : ∀ e e' : Ast.Expr, Json.expr e = Json.expr e' → e = e'
  | .ternary q c l r, e', h => by
    have hk := expr_kind h
    cases e' <;> first | (cases hk; done) | skip
    rw [Json.expr, Json.expr] at h
    simp only [Json.obj.injEq, List.cons.injEq, Prod.mk.injEq, true_and, and_true] at h
    obtain ⟨h0, h1, h2, h3⟩ := h
    rw [pos_inj h0, expr_inj _ _ h1, expr_inj _ _ h2, expr_inj _ _ h3]
  | .binary l q t r, e', h => by
    have hk := expr_kind h
    cases e' <;> first | (cases hk; done) | skip
    rw [Json.expr, Json.expr] at h
    simp only [Json.obj.injEq, List.cons.injEq, Prod.mk.injEq, true_and, and_true] at h
    obtain ⟨h0, h1, h2, h3⟩ := h
    rw [expr_inj _ _ h0, pos_inj h1, tok_inj h2, expr_inj _ _ h3]
  | .unary q t x, e', h => by
    have hk := expr_kind h
    cases e' <;> first | (cases hk; done) | skip
    rw [Json.expr, Json.expr] at h
    simp only [Json.obj.injEq, List.cons.injEq, Prod.mk.injEq, true_and, and_true] at h
    obtain ⟨h0, h1, h2⟩ := h
    rw [pos_inj h0, tok_inj h1, expr_inj _ _ h2]
  | .subscript q l r, e', h => by
    have hk := expr_kind h
    cases e' <;> first | (cases hk; done) | skip
    rw [Json.expr, Json.expr] at h
    simp only [Json.obj.injEq, List.cons.injEq, Prod.mk.injEq, true_and, and_true] at h
    obtain ⟨h0, h1, h2⟩ := h
    rw [pos_inj h0, expr_inj _ _ h1, expr_inj _ _ h2]
  | .slice x q lo hi, e', h => by
    have hk := expr_kind h
    cases e' <;> first | (cases hk; done) | skip
    rw [Json.expr, Json.expr] at h
    simp only [Json.obj.injEq, List.cons.injEq, Prod.mk.injEq, true_and, and_true] at h
    obtain ⟨h0, h1, h2, h3⟩ := h
    rw [expr_inj _ _ h0, pos_inj h1, exprO_inj _ _ h2, exprO_inj _ _ h3]
  | .method l m q as, e', h => by
    have hk := expr_kind h
    cases e' <;> first | (cases hk; done) | skip
    rw [Json.expr, Json.expr] at h
    simp only [Json.obj.injEq, List.cons.injEq, Prod.mk.injEq, true_and, and_true] at h
    obtain ⟨h0, h1, h2, h3⟩ := h
    rw [expr_inj _ _ h0, expr_inj _ _ h1, pos_inj h2, exprs_inj _ _ (nilArr_inj h3)]
  | .call f q as, e', h => by
    have hk := expr_kind h
    cases e' <;> first | (cases hk; done) | skip
    rw [Json.expr, Json.expr] at h
    simp only [Json.obj.injEq, List.cons.injEq, Prod.mk.injEq, true_and, and_true] at h
    obtain ⟨h0, h1, h2⟩ := h
    rw [expr_inj _ _ h0, pos_inj h1, exprs_inj _ _ (nilArr_inj h2)]
  | .dot l q i, e', h => by
    have hk := expr_kind h
    cases e' <;> first | (cases hk; done) | skip
    rw [Json.expr, Json.expr] at h
    simp only [Json.obj.injEq, List.cons.injEq, Prod.mk.injEq, true_and, and_true] at h
    obtain ⟨h0, h1, h2⟩ := h
    rw [expr_inj _ _ h0, pos_inj h1, ident_inj h2]
  | .basicLit q k v, e', h => by
    have hk := expr_kind h
    cases e' <;> first | (cases hk; done) | skip
    rw [Json.expr, Json.expr] at h
    simp only [Json.obj.injEq, List.cons.injEq, Prod.mk.injEq, true_and, and_true] at h
    obtain ⟨h0, h1, h2⟩ := h
    rw [pos_inj h0, tok_inj h1, str_inj h2]
  | .list q vs, e', h => by
    have hk := expr_kind h
    cases e' <;> first | (cases hk; done) | skip
    rw [Json.expr, Json.expr] at h
    simp only [Json.obj.injEq, List.cons.injEq, Prod.mk.injEq, true_and, and_true] at h
    obtain ⟨h0, h1⟩ := h
    rw [pos_inj h0, exprs_inj _ _ (nilArr_inj h1)]
  | .dict q kvs, e', h => by
    have hk := expr_kind h
    cases e' <;> first | (cases hk; done) | skip
    rw [Json.expr, Json.expr] at h
    simp only [Json.obj.injEq, List.cons.injEq, Prod.mk.injEq, true_and, and_true] at h
    obtain ⟨h0, h1⟩ := h
    rw [pos_inj h0, pairs_inj _ _ (arr_inj h1)]
  | .curlyName q ps, e', h => by
    have hk := expr_kind h
    cases e' <;> first | (cases hk; done) | skip
    rw [Json.expr, Json.expr] at h
    simp only [Json.obj.injEq, List.cons.injEq, Prod.mk.injEq, true_and, and_true] at h
    obtain ⟨h0, h1⟩ := h
    rw [pos_inj h0, exprs_inj _ _ (nilArr_inj h1)]
  | .curlyNameLit q v, e', h => by
    have hk := expr_kind h
    cases e' <;> first | (cases hk; done) | skip
    rw [Json.expr, Json.expr] at h
    simp only [Json.obj.injEq, List.cons.injEq, Prod.mk.injEq, true_and, and_true] at h
    obtain ⟨h0, h1⟩ := h
    rw [pos_inj h0, str_inj h1]
  | .curlyNameExpr q e, e', h => by
    have hk := expr_kind h
    cases e' <;> first | (cases hk; done) | skip
    rw [Json.expr, Json.expr] at h
    simp only [Json.obj.injEq, List.cons.injEq, Prod.mk.injEq, true_and, and_true] at h
    obtain ⟨h0, h1⟩ := h
    rw [pos_inj h0, expr_inj _ _ h1]
  | .ident i, e', h => by
    have hk := expr_kind h
    cases e' <;> first | (cases hk; done) | skip
    rw [Json.expr, Json.expr] at h
    rw [ident_inj h]
  | .lambda q ps e, e', h => by
    have hk := expr_kind h
    cases e' <;> first | (cases hk; done) | skip
    rw [Json.expr, Json.expr] at h
    simp only [Json.obj.injEq, List.cons.injEq, Prod.mk.injEq, true_and, and_true] at h
    obtain ⟨h0, h1, h2⟩ := h
    rw [pos_inj h0, idents_inj (arr_inj h1), expr_inj _ _ h2]
  | .paren q x, e', h => by
    have hk := expr_kind h
    cases e' <;> first | (cases hk; done) | skip
    rw [Json.expr, Json.expr] at h
    simp only [Json.obj.injEq, List.cons.injEq, Prod.mk.injEq, true_and, and_true] at h
    obtain ⟨h0, h1⟩ := h
    rw [pos_inj h0, expr_inj _ _ h1]
  | .heredoc q fl mk b, e', h => by
    have hk := expr_kind h
    cases e' <;> first | (cases hk; done) | skip
    rw [Json.expr, Json.expr] at h
    simp only [Json.obj.injEq, List.cons.injEq, Prod.mk.injEq, true_and, and_true] at h
    obtain ⟨h0, h1, h2, h3⟩ := h
    rw [pos_inj h0, exprs_inj _ _ (arr_inj h1), str_inj h2, exprs_inj _ _ (nilArr_inj h3)]
theorem exprO_inj : ∀ a b : Option Ast.Expr, Json.exprO a = Json.exprO b → a = b
  | none, none, _ => rfl
  | none, some e, h => absurd h.symm (expr_ne_null e)
  | some e, none, h => absurd h (expr_ne_null e)
  | some e, some e', h => by rw [expr_inj e e' h]
theorem exprs_inj : ∀ a b : List Ast.Expr, Json.exprs a = Json.exprs b → a = b
  | [], [], _ => rfl
  | [], _ :: _, h => by cases h
  | _ :: _, [], h => by cases h
  | e :: es, e' :: es', h => by
    rw [Json.exprs, Json.exprs] at h
    rw [expr_inj e e' (List.cons.inj h).1, exprs_inj es es' (List.cons.inj h).2]
theorem pairs_inj : ∀ a b : List (Ast.Expr × Ast.Expr), Json.pairs a = Json.pairs b → a = b
  | [], [], _ => rfl
  | [], (_, _) :: _, h => by cases h
  | (_, _) :: _, [], h => by cases h
  | (k, v) :: es, (k', v') :: es', h => by
    rw [Json.pairs, Json.pairs] at h
    simp only [Json.obj.injEq, List.cons.injEq, Prod.mk.injEq, true_and, and_true] at h
    rw [expr_inj k k' h.1.1, expr_inj v v' h.1.2, pairs_inj es es' h.2]
end

mutual
theorem stmt_inj : ∀ e e' : Ast.Stmt, Json.stmt e = Json.stmt e' → e = e'
  | .comment q t, e', h => by
    have hk := stmt_kind h
    cases e' <;> first | (cases hk; done) | skip
    rw [Json.stmt, Json.stmt] at h
    simp only [Json.obj.injEq, List.cons.injEq, Prod.mk.injEq, true_and, and_true] at h
    obtain ⟨h0, h1⟩ := h
    rw [pos_inj h0, str_inj h1]
  | .excmd q ea s, e', h => by
    have hk := stmt_kind h
    cases e' <;> first | (cases hk; done) | skip
    rw [Json.stmt, Json.stmt] at h
    simp only [Json.obj.injEq, List.cons.injEq, Prod.mk.injEq, true_and, and_true] at h
    obtain ⟨h0, h1, h2⟩ := h
    rw [pos_inj h0, str_inj h1, exArg_inj h2]
  | .function q ea b n ps ds a en, e', h => by
    have hk := stmt_kind h
    cases e' <;> first | (cases hk; done) | skip
    rw [Json.stmt, Json.stmt] at h
    simp only [Json.obj.injEq, List.cons.injEq, Prod.mk.injEq, true_and, and_true] at h
    obtain ⟨h0, h1, h2, h3, h4, h5, h6, h7⟩ := h
    rw [pos_inj h0, exArg_inj h1, stmts_inj _ _ (nilArr_inj h2), expr_inj _ _ h3, idents_inj (arr_inj h4), exprs_inj _ _ (arr_inj h5), attr_inj h6, endCmd_inj h7]
  | .delFunction q ea n, e', h => by
    have hk := stmt_kind h
    cases e' <;> first | (cases hk; done) | skip
    rw [Json.stmt, Json.stmt] at h
    simp only [Json.obj.injEq, List.cons.injEq, Prod.mk.injEq, true_and, and_true] at h
    obtain ⟨h0, h1, h2⟩ := h
    rw [pos_inj h0, exArg_inj h1, expr_inj _ _ h2]
  | .return_ q ea r, e', h => by
    have hk := stmt_kind h
    cases e' <;> first | (cases hk; done) | skip
    rw [Json.stmt, Json.stmt] at h
    simp only [Json.obj.injEq, List.cons.injEq, Prod.mk.injEq, true_and, and_true] at h
    obtain ⟨h0, h1, h2⟩ := h
    rw [pos_inj h0, exArg_inj h1, exprO_inj _ _ h2]
  | .exCall q ea f p as, e', h => by
    have hk := stmt_kind h
    cases e' <;> first | (cases hk; done) | skip
    rw [Json.stmt, Json.stmt] at h
    simp only [Json.obj.injEq, List.cons.injEq, Prod.mk.injEq, true_and, and_true] at h
    obtain ⟨h0, h1, h2, h3, h4⟩ := h
    rw [pos_inj h0, exArg_inj h1, expr_inj _ _ h2, pos_inj h3, exprs_inj _ _ (nilArr_inj h4)]
  | .let_ q ea op l ls rs r, e', h => by
    have hk := stmt_kind h
    cases e' <;> first | (cases hk; done) | skip
    rw [Json.stmt, Json.stmt] at h
    simp only [Json.obj.injEq, List.cons.injEq, Prod.mk.injEq, true_and, and_true] at h
    obtain ⟨h0, h1, h2, h3, h4, h5, h6⟩ := h
    rw [pos_inj h0, exArg_inj h1, str_inj h2, exprO_inj _ _ h3, exprs_inj _ _ (nilArr_inj h4), exprO_inj _ _ h5, expr_inj _ _ h6]
  | .unLet q ea l, e', h => by
    have hk := stmt_kind h
    cases e' <;> first | (cases hk; done) | skip
    rw [Json.stmt, Json.stmt] at h
    simp only [Json.obj.injEq, List.cons.injEq, Prod.mk.injEq, true_and, and_true] at h
    obtain ⟨h0, h1, h2⟩ := h
    rw [pos_inj h0, exArg_inj h1, exprs_inj _ _ (nilArr_inj h2)]
  | .lockVar q ea d l, e', h => by
    have hk := stmt_kind h
    cases e' <;> first | (cases hk; done) | skip
    rw [Json.stmt, Json.stmt] at h
    simp only [Json.obj.injEq, List.cons.injEq, Prod.mk.injEq, true_and, and_true] at h
    obtain ⟨h0, h1, h2, h3⟩ := h
    rw [pos_inj h0, exArg_inj h1, num_inj h2, exprs_inj _ _ (nilArr_inj h3)]
  | .unLockVar q ea d l, e', h => by
    have hk := stmt_kind h
    cases e' <;> first | (cases hk; done) | skip
    rw [Json.stmt, Json.stmt] at h
    simp only [Json.obj.injEq, List.cons.injEq, Prod.mk.injEq, true_and, and_true] at h
    obtain ⟨h0, h1, h2, h3⟩ := h
    rw [pos_inj h0, exArg_inj h1, num_inj h2, exprs_inj _ _ (nilArr_inj h3)]
  | .if_ q ea b c ei el en, e', h => by
    have hk := stmt_kind h
    cases e' <;> first | (cases hk; done) | skip
    rw [Json.stmt, Json.stmt] at h
    simp only [Json.obj.injEq, List.cons.injEq, Prod.mk.injEq, true_and, and_true] at h
    obtain ⟨h0, h1, h2, h3, h4, h5, h6⟩ := h
    rw [pos_inj h0, exArg_inj h1, stmts_inj _ _ (nilArr_inj h2), expr_inj _ _ h3, stmts_inj _ _ (nilArr_inj h4), stmtO_inj _ _ h5, endCmd_inj h6]
  | .elseIf q ea b c, e', h => by
    have hk := stmt_kind h
    cases e' <;> first | (cases hk; done) | skip
    rw [Json.stmt, Json.stmt] at h
    simp only [Json.obj.injEq, List.cons.injEq, Prod.mk.injEq, true_and, and_true] at h
    obtain ⟨h0, h1, h2, h3⟩ := h
    rw [pos_inj h0, exArg_inj h1, stmts_inj _ _ (nilArr_inj h2), expr_inj _ _ h3]
  | .else_ q ea b, e', h => by
    have hk := stmt_kind h
    cases e' <;> first | (cases hk; done) | skip
    rw [Json.stmt, Json.stmt] at h
    simp only [Json.obj.injEq, List.cons.injEq, Prod.mk.injEq, true_and, and_true] at h
    obtain ⟨h0, h1, h2⟩ := h
    rw [pos_inj h0, exArg_inj h1, stmts_inj _ _ (nilArr_inj h2)]
  | .while_ q ea b c en, e', h => by
    have hk := stmt_kind h
    cases e' <;> first | (cases hk; done) | skip
    rw [Json.stmt, Json.stmt] at h
    simp only [Json.obj.injEq, List.cons.injEq, Prod.mk.injEq, true_and, and_true] at h
    obtain ⟨h0, h1, h2, h3, h4⟩ := h
    rw [pos_inj h0, exArg_inj h1, stmts_inj _ _ (nilArr_inj h2), expr_inj _ _ h3, endCmd_inj h4]
  | .for_ q ea b l ls rs r en, e', h => by
    have hk := stmt_kind h
    cases e' <;> first | (cases hk; done) | skip
    rw [Json.stmt, Json.stmt] at h
    simp only [Json.obj.injEq, List.cons.injEq, Prod.mk.injEq, true_and, and_true] at h
    obtain ⟨h0, h1, h2, h3, h4, h5, h6, h7⟩ := h
    rw [pos_inj h0, exArg_inj h1, stmts_inj _ _ (nilArr_inj h2), exprO_inj _ _ h3, exprs_inj _ _ (nilArr_inj h4), exprO_inj _ _ h5, expr_inj _ _ h6, endCmd_inj h7]
  | .continue_ q ea, e', h => by
    have hk := stmt_kind h
    cases e' <;> first | (cases hk; done) | skip
    rw [Json.stmt, Json.stmt] at h
    simp only [Json.obj.injEq, List.cons.injEq, Prod.mk.injEq, true_and, and_true] at h
    obtain ⟨h0, h1⟩ := h
    rw [pos_inj h0, exArg_inj h1]
  | .break_ q ea, e', h => by
    have hk := stmt_kind h
    cases e' <;> first | (cases hk; done) | skip
    rw [Json.stmt, Json.stmt] at h
    simp only [Json.obj.injEq, List.cons.injEq, Prod.mk.injEq, true_and, and_true] at h
    obtain ⟨h0, h1⟩ := h
    rw [pos_inj h0, exArg_inj h1]
  | .try_ q ea b cs fi en, e', h => by
    have hk := stmt_kind h
    cases e' <;> first | (cases hk; done) | skip
    rw [Json.stmt, Json.stmt] at h
    simp only [Json.obj.injEq, List.cons.injEq, Prod.mk.injEq, true_and, and_true] at h
    obtain ⟨h0, h1, h2, h3, h4, h5⟩ := h
    rw [pos_inj h0, exArg_inj h1, stmts_inj _ _ (nilArr_inj h2), stmts_inj _ _ (nilArr_inj h3), stmtO_inj _ _ h4, endCmd_inj h5]
  | .catch_ q ea b p, e', h => by
    have hk := stmt_kind h
    cases e' <;> first | (cases hk; done) | skip
    rw [Json.stmt, Json.stmt] at h
    simp only [Json.obj.injEq, List.cons.injEq, Prod.mk.injEq, true_and, and_true] at h
    obtain ⟨h0, h1, h2, h3⟩ := h
    rw [pos_inj h0, exArg_inj h1, stmts_inj _ _ (nilArr_inj h2), str_inj h3]
  | .finally_ q ea b, e', h => by
    have hk := stmt_kind h
    cases e' <;> first | (cases hk; done) | skip
    rw [Json.stmt, Json.stmt] at h
    simp only [Json.obj.injEq, List.cons.injEq, Prod.mk.injEq, true_and, and_true] at h
    obtain ⟨h0, h1, h2⟩ := h
    rw [pos_inj h0, exArg_inj h1, stmts_inj _ _ (nilArr_inj h2)]
  | .throw q ea e, e', h => by
    have hk := stmt_kind h
    cases e' <;> first | (cases hk; done) | skip
    rw [Json.stmt, Json.stmt] at h
    simp only [Json.obj.injEq, List.cons.injEq, Prod.mk.injEq, true_and, and_true] at h
    obtain ⟨h0, h1, h2⟩ := h
    rw [pos_inj h0, exArg_inj h1, expr_inj _ _ h2]
  | .eval q ea e, e', h => by
    have hk := stmt_kind h
    cases e' <;> first | (cases hk; done) | skip
    rw [Json.stmt, Json.stmt] at h
    simp only [Json.obj.injEq, List.cons.injEq, Prod.mk.injEq, true_and, and_true] at h
    obtain ⟨h0, h1, h2⟩ := h
    rw [pos_inj h0, exArg_inj h1, expr_inj _ _ h2]
  | .echoCmd q n ea l, e', h => by
    have hk := stmt_kind h
    cases e' <;> first | (cases hk; done) | skip
    rw [Json.stmt, Json.stmt] at h
    simp only [Json.obj.injEq, List.cons.injEq, Prod.mk.injEq, true_and, and_true] at h
    obtain ⟨h0, h1, h2, h3⟩ := h
    rw [pos_inj h0, str_inj h1, exArg_inj h2, exprs_inj _ _ (nilArr_inj h3)]
  | .echohl q ea n, e', h => by
    have hk := stmt_kind h
    cases e' <;> first | (cases hk; done) | skip
    rw [Json.stmt, Json.stmt] at h
    simp only [Json.obj.injEq, List.cons.injEq, Prod.mk.injEq, true_and, and_true] at h
    obtain ⟨h0, h1, h2⟩ := h
    rw [pos_inj h0, exArg_inj h1, str_inj h2]
  | .execute q ea l, e', h => by
    have hk := stmt_kind h
    cases e' <;> first | (cases hk; done) | skip
    rw [Json.stmt, Json.stmt] at h
    simp only [Json.obj.injEq, List.cons.injEq, Prod.mk.injEq, true_and, and_true] at h
    obtain ⟨h0, h1, h2⟩ := h
    rw [pos_inj h0, exArg_inj h1, exprs_inj _ _ (nilArr_inj h2)]
theorem stmts_inj : ∀ a b : List Ast.Stmt, Json.stmts a = Json.stmts b → a = b
  | [], [], _ => rfl
  | [], _ :: _, h => by cases h
  | _ :: _, [], h => by cases h
  | e :: es, e' :: es', h => by
    rw [Json.stmts, Json.stmts] at h
    rw [stmt_inj e e' (List.cons.inj h).1, stmts_inj es es' (List.cons.inj h).2]
theorem stmtO_inj : ∀ a b : Option Ast.Stmt, Json.stmtO a = Json.stmtO b → a = b
  | none, none, _ => rfl
  | none, some e, h => absurd h.symm (stmt_ne_null e)
  | some e, none, h => absurd h (stmt_ne_null e)
  | some e, some e', h => by rw [stmt_inj e e' h]
end

theorem file_inj {f f' : Ast.File} (h : Json.file f = Json.file f') : f = f' := by
  cases f; cases f'
  simp only [Json.file, Json.obj.injEq, List.cons.injEq, Prod.mk.injEq, true_and, and_true] at h
  rw [pos_inj h.1, stmts_inj _ _ (nilArr_inj h.2)]

end Viml.JTree
