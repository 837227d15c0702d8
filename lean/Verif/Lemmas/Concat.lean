/-
Two scripts one after the other.
-/
import Verif.Lemmas.CarryBlock
import Verif.Lemmas.ConcatInput
import Verif.Lemmas.OrderAll
import Verif.Props.File

namespace Viml
open Spec

/-! ### Trees stay the same if positions do -/

open Ast in
mutual
theorem expr_id : ∀ e : Expr, e.onPos id = e
  | .ternary q c l r => by simp [Expr.onPos, expr_id c, expr_id l, expr_id r]
  | .binary l q t r => by simp [Expr.onPos, expr_id l, expr_id r]
  | .unary q t x => by simp [Expr.onPos, expr_id x]
  | .subscript q l r => by simp [Expr.onPos, expr_id l, expr_id r]
  | .slice x q lo hi => by simp [Expr.onPos, expr_id x, exprO_id lo, exprO_id hi]
  | .method l f q as => by simp [Expr.onPos, expr_id l, expr_id f, exprL_id as]
  | .call f q as => by simp [Expr.onPos, expr_id f, exprL_id as]
  | .dot l q i => by simp [Expr.onPos, expr_id l, Ident.onPos]
  | .basicLit q k v => by simp [Expr.onPos]
  | .list q vs => by simp [Expr.onPos, exprL_id vs]
  | .dict q kvs => by simp [Expr.onPos, exprP_id kvs]
  | .curlyName q ps => by simp [Expr.onPos, exprL_id ps]
  | .curlyNameLit q v => by simp [Expr.onPos]
  | .curlyNameExpr q e => by simp [Expr.onPos, expr_id e]
  | .ident i => by simp [Expr.onPos, Ident.onPos]
  | .lambda q ps e => by
    have : Ident.onPos id = id := by funext i; rfl
    simp [Expr.onPos, expr_id e, this]
  | .paren q e => by simp [Expr.onPos, expr_id e]
  | .heredoc q fl mk b => by simp [Expr.onPos, exprL_id fl, exprL_id b]
theorem exprO_id : ∀ e : Option Expr, Expr.onPosO id e = e
  | none => rfl
  | some e => by simp [Expr.onPosO, expr_id e]
theorem exprL_id : ∀ e : List Expr, Expr.onPosL id e = e
  | [] => rfl
  | e :: es => by simp [Expr.onPosL, expr_id e, exprL_id es]
theorem exprP_id : ∀ e : List (Expr × Expr), Expr.onPosP id e = e
  | [] => rfl
  | (k, v) :: es => by simp [Expr.onPosP, expr_id k, expr_id v, exprP_id es]
end

theorem exArg_id (ea : Ast.ExArg) : ea.onPos id = ea := by simp [Ast.ExArg.onPos]
theorem endCmd_id (e : Ast.EndCmd) : e.onPos id = e := by simp [Ast.EndCmd.onPos, exArg_id]

open Ast in
mutual
theorem stmt_id : ∀ s : Stmt, s.onPos id = s
  | .comment q s => by simp [Stmt.onPos]
  | .excmd q ea s => by simp [Stmt.onPos, exArg_id]
  | .function q ea b n ps da a e => by
    have : Ident.onPos id = id := by funext i; rfl
    simp [Stmt.onPos, exArg_id, stmtL_id b, expr_id, exprL_id, this, endCmd_id]
  | .delFunction q ea n => by simp [Stmt.onPos, exArg_id, expr_id]
  | .return_ q ea r => by simp [Stmt.onPos, exArg_id, exprO_id]
  | .exCall q ea f p as => by simp [Stmt.onPos, exArg_id, expr_id, exprL_id]
  | .let_ q ea op l ls rs r => by simp [Stmt.onPos, exArg_id, expr_id, exprL_id, exprO_id]
  | .unLet q ea l => by simp [Stmt.onPos, exArg_id, exprL_id]
  | .lockVar q ea d l => by simp [Stmt.onPos, exArg_id, exprL_id]
  | .unLockVar q ea d l => by simp [Stmt.onPos, exArg_id, exprL_id]
  | .if_ q ea b c ei el e => by simp [Stmt.onPos, exArg_id, stmtL_id b, expr_id, stmtL_id ei, stmtO_id el, endCmd_id]
  | .elseIf q ea b c => by simp [Stmt.onPos, exArg_id, stmtL_id b, expr_id]
  | .else_ q ea b => by simp [Stmt.onPos, exArg_id, stmtL_id b]
  | .while_ q ea b c e => by simp [Stmt.onPos, exArg_id, stmtL_id b, expr_id, endCmd_id]
  | .for_ q ea b l ls rs r e => by simp [Stmt.onPos, exArg_id, stmtL_id b, expr_id, exprL_id, exprO_id, endCmd_id]
  | .continue_ q ea => by simp [Stmt.onPos, exArg_id]
  | .break_ q ea => by simp [Stmt.onPos, exArg_id]
  | .try_ q ea b cs fi e => by simp [Stmt.onPos, exArg_id, stmtL_id b, stmtL_id cs, stmtO_id fi, endCmd_id]
  | .catch_ q ea b p => by simp [Stmt.onPos, exArg_id, stmtL_id b]
  | .finally_ q ea b => by simp [Stmt.onPos, exArg_id, stmtL_id b]
  | .throw q ea e => by simp [Stmt.onPos, exArg_id, expr_id]
  | .eval q ea e => by simp [Stmt.onPos, exArg_id, expr_id]
  | .echoCmd q n ea l => by simp [Stmt.onPos, exArg_id, exprL_id]
  | .echohl q ea n => by simp [Stmt.onPos, exArg_id]
  | .execute q ea l => by simp [Stmt.onPos, exArg_id, exprL_id]
theorem stmtL_id : ∀ s : List Stmt, Stmt.onPosL id s = s
  | [] => rfl
  | s :: ss => by simp [Stmt.onPosL, stmt_id s, stmtL_id ss]
theorem stmtO_id : ∀ s : Option Stmt, Stmt.onPosO id s = s
  | none => rfl
  | some s => by simp [Stmt.onPosO, stmt_id s]
end

/-! ### One script after the other -/

theorem Body.append {nv : Bool} {env : Env} {fn : Str} {cx used r a used1 r1} (h : Body nv env fn cx used r a used1 r1)
    {b used2 r2} : Body nv env fn cx used1 r1 b used2 r2 → Body nv env fn cx used r (a ++ b) used2 r2
  | .nil => by rw [List.append_nil]; exact h
  | .shebang h1 h2 h3 h4 => .shebang (Body.append h h1) h2 h3 h4
  | .empty h1 h2 h3 => .empty (Body.append h h1) h2 h3
  | .comment h1 h2 h3 => by rw [← List.append_assoc]; exact .comment (Body.append h h1) h2 h3
  | .noCommand h1 h2 h3 h4 h5 => by
    rw [← List.append_assoc, ← List.append_assoc]
    exact .noCommand (Body.append h h1) h2 h3 h4 h5
  | .simple h1 h2 h3 h4 => by
    rw [← List.append_assoc, ← List.append_assoc]
    exact .simple (Body.append h h1) h2 h3 h4
  | .block h1 h2 h3 => by
    rw [← List.append_assoc, ← List.append_assoc]
    exact .block (Body.append h h1) h2 h3

/-! ### Where a script ends -/

namespace Carry
variable {nv : Bool} {env env' : Env} {fn : Str} {κ : Carry env env' fn} {r r' : List Cell}

theorem In.ne (h : κ.In r) (hb : ¬ κ.bd) : r ≠ κ.q0 := by
  rintro rfl
  rcases h.lt with h | h
  · omega
  · exact hb h

theorem simple_ne {cx : Ctx} {r0 ra : List Cell} {ea : Ast.ExArg} {c : Cmd} {xs : List Ast.Stmt} (hb : ¬ κ.bd)
    (hq : ¬ AtEnd κ.q0) (h0 : κ.In r0) (ha : κ.In ra) (h : κ.In r) (hs : Spec.Simple env fn cx r0 ra ea c r xs r') :
    r' ≠ κ.q0 := by
  have kT : Kinds κ (Target env fn) (Target env' fn) := fun h ht => target_ h ht
  have kC : Kinds κ (ConstTarget env fn) (ConstTarget env' fn) := fun h ht => constTarget h ht
  have nil : ([] : List Cell) ≠ κ.q0 := fun e => hq (by rw [← e]; exact .inr rfl)
  have blk : ∀ {k s}, BlockOf r0 k s r' → r' ≠ κ.q0 := by
    rintro k s ⟨line, e, r1, ls, h1, h2, h3, h4⟩
    rcases h3 with ⟨_, rfl, _⟩ | ⟨_, _, _, _, _, _, h5⟩
    · exact nil
    · rintro rfl
      exact hq h5
  have txt : ∀ {s}, RawText env fn c ea.usefilter r0 ra r s r' → r' ≠ κ.q0 := fun h1 => (rawText h0 ha h h1).1.ne hb
  cases hs with
  | raw h1 =>
    cases h1 with
    | common h1 h2 => exact txt h2
    | finish h1 h2 h3 => exact txt h3
    | finishTop h1 h2 h3 => exact nil
    | append h1 h2 => exact blk h2
    | keymap h1 h2 h3 => exact nil
    | script h1 h2 h3 h4 h5 h6 => exact blk h6
    | scriptLine h1 h2 h3 h4 => exact (rest h0 h4).1.ne hb
    | wincmd h1 h2 h3 h4 h5 => exact (skip (winArg h h2).1 h4).1.ne hb
    | «syntax» h1 h2 h3 => exact (synText h2 h).1.ne hb
  | funcListing h1 h2 h3 => exact txt h3
  | delfunction h1 h2 => exact (funcName h h2).1.ne hb
  | return_ h1 h2 h3 h4 h5 => exact (gram h5 (skip h h3).1).1.ne hb
  | returnNone h1 h2 h3 h4 => exact (skip h h3).1.ne hb
  | call h1 h2 h3 h4 => exact (gram h4 (skip h h2).1).1.ne hb
  | letListing h1 h2 h3 => exact txt h3
  | let_ h1 h2 h3 h4 h5 h6 => exact (gram h6 (reads (letLeft kT h h2).1 h5).1).1.ne hb
  | heredoc h1 h2 h3 h4 h5 h6 =>
    rintro rfl
    have : ∀ {k r ls r'}, HLines env k r ls r' → AtEnd r' := by
      intro k r ls r' h
      induction h with
      | done _ h => exact h
      | cons _ _ _ _ ih => exact ih
    exact hq (this h6)
  | constListing h1 h2 h3 => exact txt h3
  | const_ h1 h2 h3 h4 => exact (gram h4 (reads (letLeft kC h h2).1 h3).1).1.ne hb
  | unlet h1 h2 => exact (lockArgs h h2).1.ne hb
  | lockvar h1 h2 h3 => exact (lockArgs (depth h h2).1 h3).1.ne hb
  | unlockvar h1 h2 h3 => exact (lockArgs (depth h h2).1 h3).1.ne hb
  | continue_ h1 h2 => exact h.ne hb
  | break_ h1 h2 => exact h.ne hb
  | throw h1 h2 => exact (gram h2 h).1.ne hb
  | eval h1 h2 => exact (gram h2 h).1.ne hb
  | echo h1 h2 => exact (exprs h2 h).1.ne hb
  | echohl h1 h2 => exact (span h h2).1.ne hb
  | execute h1 h2 => exact (exprs h2 h).1.ne hb

/-- No command starts at a comment. -/
theorem before_ne {r0 rc : List Cell} {ms : List Modifier} {rg : List Str} (hq : headSym r = .ch '"') :
    ¬ Before r r0 ms rg rc := by
  rintro ⟨_, ⟨w, h1, h2, h3⟩, _, h4, _⟩
  cases w with
  | nil =>
    cases h1.nil_inv
    exact h4 hq
  | cons c w =>
    obtain ⟨q, r1, rfl, _⟩ := h1.cons_inv
    simp only [headSym, Cell.sym, Sym.ch.injEq] at hq
    subst hq
    exact absurd (h2 '"' (by simp)) (by decide)

theorem To.cut {s : List Cell} (h : κ.To r) (hs : s <:+ r) (hq : κ.q0 <:+ s) : κ.In s ∨ s = κ.q0 := by
  rcases Nat.lt_or_eq_of_le hq.length_le with h1 | h1
  · exact .inl (h.in_of hs (.inl h1))
  · exact .inr (hq.eq_of_length h1).symm

theorem skip_eq {s : List Cell} (hb : ¬ κ.bd) (h : κ.To r) (hs : s <:+ r) (hk : Skip s κ.q0) : s = κ.q0 := by
  rcases h.cut hs hk.adv.suffix with i | e
  · exact absurd rfl ((skip i hk).1.ne hb)
  · exact e

theorem skipC_eq {s : List Cell} (hb : ¬ κ.bd) (h : κ.To r) (hs : s <:+ r) (hk : SkipC s κ.q0) : s = κ.q0 := by
  rcases h.cut hs hk.adv.suffix with i | e
  · exact absurd rfl ((skipC i hk).1.ne hb)
  · exact e

theorem adds_nil (used : List Str) : Adds [] used used := fun x => by simp

theorem free_nil (c : Cmd) : Free [] c := fun a ha => by cases ha

theorem closes_ne {n : Str} {used used' : List Str} {e : Ast.EndCmd} {s : List Cell} (hb : ¬ κ.bd)
    (hq : headSym κ.q0 = .ch '"') (h : κ.To r) (hs : s <:+ r) (hc : Closes nv env fn n used s e used' r') : r' ≠ κ.q0 := by
  rintro rfl
  rcases h.cut hs (closes_suf hc) with i | rfl
  · obtain ⟨r0, ea, c, ra, r1, _, h1, _, h2⟩ := hc
    obtain ⟨_, _, i1, _⟩ := cmdHead i (adds_nil used) (free_nil c) h1
    split at h2
    · obtain ⟨l, h2⟩ := h2
      exact (rest i1 h2).1.ne hb rfl
    · exact i1.ne hb h2.symm
  · obtain ⟨r0, ea, c, ra, r1, _, h1, _⟩ := hc
    obtain ⟨ms, rg, rc, r1, b, r2, h1, _⟩ := h1.ex
    exact before_ne hq h1

theorem block_ne {cx : Ctx} {used used' : List Str} {x : Ast.Stmt} {s : List Cell} (hb : ¬ κ.bd)
    (hq : headSym κ.q0 = .ch '"') (h : κ.To r) (hs : s <:+ r) (hk : Block nv env fn cx used s x used' r') : r' ≠ κ.q0 := by
  have o : ∀ {n used ea cm used' t t'}, Spec.Opens nv env fn n NoArgs used t ea () cm used' t' → t' <:+ t :=
    fun h => opens_suf (fun h => by cases h; exact List.suffix_refl _) h
  cases hk with
  | function h1 h2 h3 =>
    obtain ⟨rx, t1, t2, t3⟩ := opens_order funcHead_track h1
    exact closes_ne hb hq h ((((body_order h2).suffix.trans t3.suffix).trans t1.suffix).trans hs) h3
  | while_ h1 h2 h3 =>
    exact closes_ne hb hq h (((body_order h2).suffix.trans (opens_suf gram_suf h1)).trans hs) h3
  | for_ h1 h2 h3 =>
    obtain ⟨rx, t1, t2, t3⟩ := opens_order forArg h1
    exact closes_ne hb hq h ((((body_order h2).suffix.trans t3.suffix).trans t1.suffix).trans hs) h3
  | if_ h1 h2 => exact closes_ne hb hq h ((ifPart_suf h1).trans hs) h2
  | ifElse h1 h2 h3 h4 =>
    exact closes_ne hb hq h ((((body_order h3).suffix.trans (o h2)).trans (ifPart_suf h1)).trans hs) h4
  | try_ h1 h2 => exact closes_ne hb hq h ((tryPart_suf h1).trans hs) h2
  | tryFinally h1 h2 h3 h4 =>
    exact closes_ne hb hq h ((((body_order h3).suffix.trans (o h2)).trans (tryPart_suf h1)).trans hs) h4

theorem simple_last {cx : Ctx} {r0 ra : List Cell} {ea : Ast.ExArg} {c : Cmd} {xs : List Ast.Stmt}
    (h : Spec.Simple env fn cx r0 ra ea c r xs r') : ∃ i x, xs = i ++ [x] ∧ exArgOf x = some ea := by
  cases h <;> first
    | exact ⟨_, _, rfl, rfl⟩
    | exact ⟨[], _, rfl, rfl⟩

theorem block_exArg {cx : Ctx} {used used' : List Str} {x : Ast.Stmt} (hk : Block nv env fn cx used r x used' r') :
    ∃ ea, exArgOf x = some ea := by
  cases hk <;> exact ⟨_, rfl⟩

/-- What follows a command is nothing, or a comment which does not start the next line. -/
theorem trail_cut {cm : List Ast.Stmt} {s : List Cell} (hb : ¬ κ.bd) (h : κ.To r) (hs : s <:+ r) (hr : r <:+ env.buf)
    (hpos : ∀ x, x <:+ env.buf → Spec.here env fn x = Spec.here env fn κ.q0 → x = κ.q0) (ht : Trail env fn s cm r') :
    cm = [] ∨ ∃ c t, cm = [.comment c t] ∧ (c = Spec.here env fn κ.q0 → s = κ.q0) := by
  cases ht with
  | eof => exact .inl rfl
  | eol => exact .inl rfl
  | bar => exact .inl rfl
  | comment h1 h2 =>
    cases h2 with
    | mk h3 h4 h5 =>
      refine .inr ⟨_, _, rfl, fun e => ?_⟩
      have e := hpos _ ((h1.adv.suffix.trans hs).trans hr) e
      subst e
      exact skip_eq hb h hs h1

/-- A script whose last statement is the comment at `κ.q0` ends there without it. -/
theorem body_cut (hb : ¬ κ.bd) (hq : headSym κ.q0 = .ch '"')
    (hpos : ∀ x, x <:+ env.buf → Spec.here env fn x = Spec.here env fn κ.q0 → x = κ.q0) {cx used r ss used' r'} :
    Body nv env fn cx used r ss used' r' → κ.To r → r <:+ env.buf → ∀ a t, ss = a ++ [.comment (Spec.here env fn κ.q0) t] →
    ∃ used1, Body nv env fn cx used r a used1 κ.q0
  | .nil, _, _, a, t, e => by simp at e
  | .shebang h .., h1, h2, a, t, e => body_cut hb hq hpos h h1 h2 a t e
  | .empty h .., h1, h2, a, t, e => body_cut hb hq hpos h h1 h2 a t e
  | .comment h h3 h4, h1, h2, a, t, e => by
    obtain ⟨rfl, e'⟩ := List.append_inj' e rfl
    cases h4 with
    | mk h5 h6 h7 =>
      injection e' with e _
      injection e with e _
      have s1 := (body_order h).suffix
      have e := hpos _ ((h3.adv.suffix.trans s1).trans h2) e
      subst e
      have e := skipC_eq hb h1 s1 h3
      subst e
      exact ⟨_, h⟩
  | .noCommand (ms := ms) (rg := rg) h h3 h4 h5 h6, h1, h2, a, t, e => by
    have s1 := (body_order h).suffix
    have s2 := h3.adv.suffix.trans h3.2.1.adv.suffix
    rcases trail_cut hb h1 (s2.trans s1) h2 hpos h6 with rfl | ⟨c, t', rfl, hc⟩
    · rw [List.append_nil] at e
      by_cases hm : ms = [] ∧ rg = []
      · rw [if_pos hm, List.append_nil] at e
        exact body_cut hb hq hpos h h1 h2 a t e
      · rw [if_neg hm] at e
        obtain ⟨_, e⟩ := List.append_inj' e rfl
        cases e
    · obtain ⟨_, e⟩ := List.append_inj' e rfl
      injection e with e _
      injection e with e _
      have e := hc e
      subst e
      rcases h1.cut s1 s2 with i | rfl
      · exact absurd rfl ((before i h3).2.1.ne hb)
      · exact absurd h3 (before_ne hq)
  | .simple (c := cm) h h3 h4 h5, h1, h2, a, t, e => by
    have s1 := (body_order h).suffix
    have s2 := (simple_order h3 h4).suffix
    rcases trail_cut hb h1 (s2.trans s1) h2 hpos h5 with rfl | ⟨c, t', rfl, hc⟩
    · obtain ⟨i, x, rfl, hx⟩ := simple_last h4
      rw [List.append_nil, ← List.append_assoc] at e
      obtain ⟨_, e⟩ := List.append_inj' e rfl
      injection e with e _
      rw [e] at hx
      cases hx
    · obtain ⟨_, e⟩ := List.append_inj' e rfl
      injection e with e _
      injection e with e _
      have e := hc e
      subst e
      rcases h1.cut s1 s2 with i | rfl
      · obtain ⟨i0, ia, i1, _⟩ := cmdHead i (adds_nil _) (free_nil cm) h3
        refine absurd rfl (simple_ne hb ?_ i0 ia i1 h4)
        rintro (h | h) <;> rw [hq] at h <;> cases h
      · obtain ⟨ms, rg, rc, r1, b, r2, h3, _⟩ := h3.ex
        exact absurd h3 (before_ne hq)
  | .block h h3 h5, h1, h2, a, t, e => by
    have s1 := (body_order h).suffix
    have s2 := (block_order h3).suffix
    rcases trail_cut hb h1 (s2.trans s1) h2 hpos h5 with rfl | ⟨c, t', rfl, hc⟩
    · obtain ⟨ea, hx⟩ := block_exArg h3
      rw [List.append_nil] at e
      obtain ⟨_, e⟩ := List.append_inj' e rfl
      injection e with e _
      rw [e] at hx
      cases hx
    · obtain ⟨_, e⟩ := List.append_inj' e rfl
      injection e with e _
      injection e with e _
      exact absurd (hc e) (block_ne hb hq h1 s1 h3)

end Carry

/-! ### Files -/

theorem here_inj (lines : List Str) (fn : Str) {x y : List Cell} (hx : x <:+ (mkEnv lines).buf) (hy : y <:+ (mkEnv lines).buf)
    (h : here (mkEnv lines) fn x = here (mkEnv lines) fn y) : x = y := by
  have key : ∀ {x y : List Cell}, x <:+ (mkEnv lines).buf → y <:+ x → here (mkEnv lines) fn x = here (mkEnv lines) fn y →
      x = y := by
    intro x y hx hs h
    cases x with
    | nil => exact (List.suffix_nil.1 hs).symm
    | cons c x =>
      rcases List.suffix_cons_iff.1 hs with e | hs
      · exact e.symm
      · have := here_lt lines fn hx hs (by simp)
        rw [h] at this
        unfold PosLt at this
        omega
  rcases List.suffix_or_suffix_of_suffix hx hy with hs | hs
  · exact (key hy hs h.symm).symm
  · exact key hx hs h

variable {A B : List Str}

/-- The comment line after `A`. -/
def commentCells (A : List Str) : List Cell :=
  [⟨some '"', ⟨(mkEnv A).buf.length, A.length + 1, 1, (fileBytes A).length⟩⟩,
   ⟨none, ⟨(mkEnv A).buf.length + 1, A.length + 1, 2, (fileBytes A).length + 1⟩⟩]

theorem mkEnv_comment (A : List Str) : (mkEnv (A ++ [commentLine])).buf = (mkEnv A).buf ++ commentCells A := by
  rw [mkEnv_append (by intro l h; cases h; decide)]
  congr 1
  simp only [commentCells]
  have e : (mkEnv [commentLine]).buf = [⟨some '"', ⟨0, 1, 1, 0⟩⟩, ⟨none, ⟨1, 1, 2, 1⟩⟩] := by decide +kernel
  rw [e]
  simp only [List.map_cons, List.map_nil, moveCell]
  have h1 : onContLine [commentLine] 1 1 = false := by decide
  have h2 : onContLine [commentLine] 1 2 = false := by decide
  simp only [h1, h2]
  simp
  omega

/-- The text of `A` followed by other text. -/
def carryA (fn : Str) (A : List Str) (q : List Cell) (env' : Env) : Carry (mkEnv (A ++ [commentLine])) env' fn where
  q0 := commentCells A
  q := q
  f := id
  m := id
  bd := False
  char _ := rfl
  pos _ := rfl
  eof h := h.elim

theorem carryA_to (fn : Str) (A : List Str) (q : List Cell) (env' : Env) :
    (carryA fn A q env').To (mkEnv (A ++ [commentLine])).buf := by
  rw [mkEnv_comment]
  have : A = [] ∨ ∃ i p, (mkEnv A).buf = i ++ [⟨none, p⟩] := by
    rcases buildCells_last A with h | ⟨i, p, h⟩
    · exact .inl h
    · refine .inr ⟨reindex 0 i, ?_⟩
      simp only [mkEnv, h, reindex_append, reindex]
      exact ⟨_, rfl⟩
  rcases this with rfl | ⟨i, p, e⟩
  · exact .inr rfl
  · rw [e]
    left
    clear e
    induction i with
    | nil => exact .eol rfl
    | cons c i ih => exact .cons ih

/-- The text of `B` after that of `A`. -/
def carryB (fn : Str) (A B : List Str) : Carry (mkEnv B) (mkEnv (A ++ B)) fn where
  q0 := []
  q := []
  f := moveCell A B (mkEnv A).buf.length
  m := shift A B
  bd := True
  char _ := rfl
  pos c := pub_move fn _ c
  eof _ := ⟨rfl, rfl, pub_move_eof fn⟩

/-- The script `A` up to the text after it. -/
theorem complete_body {nv : Bool} {fn : Str} {f : Ast.File} (h : Complete nv fn A f) :
    f.start = here (mkEnv (A ++ [commentLine])) fn (mkEnv (A ++ [commentLine])).buf ∧
    ∃ used : List Str, (∀ x ∈ used, Upper x ∧ UserCmd f.body x) ∧
    ∀ (q : List Cell) (env' : Env), ∃ used' : List Str, (∀ x, x ∈ used' ↔ x ∈ used) ∧
      Body nv env' fn { top := true } [] ((mkEnv A).buf ++ q) f.body used' q := by
  obtain ⟨used0, h1, h2⟩ := (Props.C52_lines nv fn _ _).1 h
  have hq : here (mkEnv (A ++ [commentLine])) fn (commentCells A) = ⟨(fileBytes A).length, A.length + 1, 1, fn⟩ := rfl
  have hs : commentCells A <:+ (mkEnv (A ++ [commentLine])).buf := ⟨_, (mkEnv_comment A).symm⟩
  have cut := Carry.body_cut (κ := carryA fn A [] (mkEnv [])) id rfl (fun x hx h => here_inj _ fn hx hs h) h1
    (carryA_to ..) (List.suffix_refl _) f.body [] rfl
  obtain ⟨used, h3⟩ := cut
  refine ⟨h2, used, fun x hx => ?_, fun q env' => ?_⟩
  · rcases body_used h3 hx with h | h
    · cases h
    · exact h
  · obtain ⟨used', hu, h4⟩ := Carry.body (κ := carryA fn A q env') (U := []) (by simp) h3 (carryA_to ..) (.inr ⟨rfl, by simp [carryA, commentCells]⟩)
      (fun n _ a ha => by cases ha) (Carry.adds_nil [])
    refine ⟨used', fun x => by rw [hu x]; simp, ?_⟩
    have e1 : (carryA fn A q env').tr (mkEnv (A ++ [commentLine])).buf = (mkEnv A).buf ++ q := by
      rw [mkEnv_comment]
      simp [Carry.tr, carryA]
    have e2 : Ast.Stmt.onPosL (carryA fn A q env').m f.body = f.body := stmtL_id _
    have e3 : (carryA fn A q env').tr (commentCells A) = q := Carry.tr_end
    rw [e1, e2] at h4
    exact e3 ▸ h4

/-- One script after the other. -/
theorem script_append {nv : Bool} {fn : Str} {f g : Ast.File} (hA : Complete nv fn A f) (hB : Script nv (mkEnv B) fn g)
    (hl : ∀ l, B.head? = some l → afterBackslash l = none)
    (hc : ∀ n s, s ≠ [] → UserCmd f.body n → ¬ UserCmd g.body (n ++ s)) :
    Script nv (mkEnv (A ++ B)) fn ⟨if A = [] then g.start else f.start, f.body ++ Ast.Stmt.onPosL (shift A B) g.body⟩ := by
  obtain ⟨hs, used, hu, hb⟩ := complete_body hA
  obtain ⟨used1, hu1, h1⟩ := hb ((mkEnv B).buf.map (moveCell A B (mkEnv A).buf.length)) (mkEnv (A ++ B))
  obtain ⟨usedB, h2, h3⟩ := hB
  have all := Carry.bd_in (κ := carryB fn A B) trivial
  obtain ⟨used2, hu2, h4⟩ := Carry.body (κ := carryB fn A B) (U := used1) (fun a ha => (hu a ((hu1 a).1 ha)).1) h2
    (all _).to (all _).up (fun n hn a ha b hb e => hc a b hb (hu a ((hu1 a).1 ha)).2 (e ▸ hn)) (usedX := used1)
    (fun x => by simp)
  rw [Carry.tr_nil trivial] at h4
  have e1 : (carryB fn A B).tr (mkEnv B).buf = (mkEnv B).buf.map (moveCell A B (mkEnv A).buf.length) := by
    simp [Carry.tr, carryB]
  rw [e1] at h4
  refine ⟨used2, ?_, ?_⟩
  · rw [mkEnv_append hl]
    exact Body.append h1 h4
  · split
    · rename_i e
      subst e
      simpa using h3
    · rename_i e
      show f.start = _
      rw [hs, mkEnv_append hl, mkEnv_comment]
      cases hbuf : (mkEnv A).buf with
      | nil =>
        rcases buildCells_last A with h | ⟨i, p, h⟩
        · exact absurd h e
        · simp only [mkEnv, h, reindex_append] at hbuf
          simp [reindex] at hbuf
      | cons c b => rfl

end Viml
