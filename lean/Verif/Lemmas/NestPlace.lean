/-
The place of a script inside another one is given by the positions.
-/
import Verif.Lemmas.Nest
import Verif.Lemmas.OrderAll

namespace Viml
open Spec

variable {nv : Bool} {env : Env} {fn : Str}

/-! ### Statements are before the text behind them -/

theorem track_between {s : Bool} {r l r'} (h : Track env fn s r l r') : ∀ q ∈ l, ∃ y, y <:+ r ∧ r' <:+ y ∧ q = here env fn y := by
  induction h with
  | nil => intro q hq; cases hq
  | cons h1 _ h3 ih =>
    intro q hq
    rcases List.mem_cons.1 hq with rfl | hq
    · exact ⟨_, h1, h3.suffix.trans (step_suffix _), rfl⟩
    · obtain ⟨y, h4, h5, h6⟩ := ih q hq
      exact ⟨y, (h4.trans (step_suffix _)).trans h1, h5, h6⟩

/-- The statement `s` stands between `r` and `r'`. -/
def StmtIn (env : Env) (fn : Str) (r r' : List Cell) (s : Ast.Stmt) : Prop :=
  ∃ y, y <:+ r ∧ r' <:+ y ∧ r'.length < y.length ∧ stmtPos s = here env fn y

theorem StmtIn.mono {r r0 r1 r' s} (h : StmtIn env fn r r1 s) (h0 : r <:+ r0) (h1 : r' <:+ r1) : StmtIn env fn r0 r' s := by
  obtain ⟨y, a, b, c, d⟩ := h
  exact ⟨y, a.trans h0, h1.trans b, Nat.lt_of_le_of_lt h1.length_le c, d⟩

theorem sl_in {r ss r1 r'} (h : SL env fn r ss r1) (h1 : r' <:+ r1) (h2 : r'.length < r1.length) :
    ∀ s ∈ ss, StmtIn env fn r r' s := by
  intro s hs
  obtain ⟨⟨l, h3, h4⟩, _⟩ := h
  obtain ⟨y, a, b, c⟩ := track_between h4 (stmtPos s) ((writtenL_mem h3 (.mem hs)).1 _ (by simp [stmtOwnPos]))
  exact ⟨y, a, h1.trans b, Nat.lt_of_lt_of_le h2 b.length_le, c⟩

theorem comment_in {r s r'} (h : Comment env fn r s r') : StmtIn env fn r r' s := by
  cases h with
  | mk h1 h2 h3 =>
    have h4 := (List.suffix_cons _ _).trans h2.suf
    refine ⟨r, List.suffix_refl _, h4.trans h1.suf, ?_, rfl⟩
    exact Nat.lt_of_lt_of_le (Nat.lt_succ_self _) (h2.suf.trans h1.suf).length_le

theorem trail_in {r cm r'} (h : Trail env fn r cm r') : ∀ s ∈ cm, StmtIn env fn r r' s := by
  cases h with
  | comment h1 h2 =>
    intro s hs
    rw [List.mem_singleton.1 hs]
    exact (comment_in h2).mono h1.adv.suffix (List.suffix_refl _)
  | _ => intro s hs; cases hs

theorem suffix_ne {r' x : List Cell} (hr : r' ≠ []) (h : r' <:+ x) : x ≠ [] := fun e => hr (List.suffix_nil.1 (e ▸ h))

theorem body_in {cx used r ss used' r'} : Body nv env fn cx used r ss used' r' → r' ≠ [] → ∀ s ∈ ss, StmtIn env fn r r' s
  | .nil, _ => fun s hs => by cases hs
  | .shebang h h1 h2 h3, hr => by
    have e := (List.suffix_cons _ _).trans h2.suf
    exact fun s hs => (body_in h (suffix_ne hr e) s hs).mono (List.suffix_refl _) e
  | .empty h h1 h2, hr => by
    have e := (List.suffix_cons _ _).trans h1.adv.suffix
    exact fun s hs => (body_in h (suffix_ne hr e) s hs).mono (List.suffix_refl _) e
  | .comment h h1 h2, hr => by
    have e := (comment_order h2).suffix.trans h1.adv.suffix
    intro s hs
    rcases List.mem_append.1 hs with hs | hs
    · exact (body_in h (suffix_ne hr e) s hs).mono (List.suffix_refl _) e
    · rw [List.mem_singleton.1 hs]
      exact (comment_in h2).mono (h1.adv.suffix.trans (body_order h).suffix) (List.suffix_refl _)
  | .noCommand h h1 h2 h3 h4, hr => by
    have e1 := h1.adv.suffix.trans h1.2.1.adv.suffix
    have e := (trail_order h4).suffix
    intro s hs
    rcases List.mem_append.1 hs with hs | hs
    · rcases List.mem_append.1 hs with hs | hs
      · exact (body_in h (suffix_ne hr (e.trans e1)) s hs).mono (List.suffix_refl _) (e.trans e1)
      · split at hs
        · cases hs
        · rw [List.mem_singleton.1 hs]
          exact ⟨_, e1.trans (body_order h).suffix, e, (Carry.trail_len h4).resolve_right hr, rfl⟩
    · exact (trail_in h4 s hs).mono (e1.trans (body_order h).suffix) (List.suffix_refl _)
  | .simple h h1 h2 h3, hr => by
    have e1 := (simple_order h1 h2).suffix
    have e := (trail_order h3).suffix
    intro s hs
    rcases List.mem_append.1 hs with hs | hs
    · rcases List.mem_append.1 hs with hs | hs
      · exact (body_in h (suffix_ne hr (e.trans e1)) s hs).mono (List.suffix_refl _) (e.trans e1)
      · exact (sl_in (simple_order h1 h2) e ((Carry.trail_len h3).resolve_right hr) s hs).mono (body_order h).suffix
          (List.suffix_refl _)
    · exact (trail_in h3 s hs).mono (e1.trans (body_order h).suffix) (List.suffix_refl _)
  | .block h h1 h2, hr => by
    have e1 := (block_order h1).suffix
    have e := (trail_order h2).suffix
    intro s hs
    rcases List.mem_append.1 hs with hs | hs
    · rcases List.mem_append.1 hs with hs | hs
      · exact (body_in h (suffix_ne hr (e.trans e1)) s hs).mono (List.suffix_refl _) (e.trans e1)
      · exact (sl_in (block_order h1) e ((Carry.trail_len h2).resolve_right hr) s hs).mono (body_order h).suffix
          (List.suffix_refl _)
    · exact (trail_in h2 s hs).mono (e1.trans (body_order h).suffix) (List.suffix_refl _)

/-- The statements of a whole script are on its lines. -/
theorem complete_lines {W : List Str} {g : Ast.File} (h : Complete nv fn W g) :
    ∀ s ∈ g.body, 0 < (stmtPos s).line ∧ (stmtPos s).line ≤ W.length := by
  obtain ⟨used0, h1, h2⟩ := (Props.C52_lines nv fn _ _).1 h
  have hs : commentCells W <:+ (mkEnv (W ++ [commentLine])).buf := ⟨_, (mkEnv_comment W).symm⟩
  obtain ⟨U, h3⟩ := Carry.body_cut (κ := carryA fn W [] (mkEnv [])) id rfl (fun x hx h => here_inj _ fn hx hs h) h1
    (carryA_to ..) (List.suffix_refl _) g.body [] rfl
  intro s hs
  obtain ⟨y, a, b, c, d⟩ := body_in h3 (by simp [carryA, commentCells]) s hs
  rw [mkEnv_comment] at a
  obtain ⟨p, rfl⟩ := b
  cases p with
  | nil => simp at c
  | cons x p =>
    obtain ⟨t, ht⟩ := a
    have hx : x ∈ (mkEnv W).buf := by
      have ht : (t ++ x :: p) ++ commentCells W = (mkEnv W).buf ++ commentCells W := by
        rw [← ht]; simp [carryA]
      rw [← List.append_cancel_right ht]
      simp
    have := mkEnv_lnum hx
    rw [d]
    exact ⟨this.1, Nat.le_of_lt_succ this.2⟩

/-! ### Where the statements come in -/

theorem written_split {s : Ast.Stmt} {q : List Ast.Stmt} (hs : endOf s ≠ none) : ∀ {p l}, WrittenL (p ++ s :: q) l →
    ∃ l1 l2 l3, l = l1 ++ (l2 ++ l3) ∧ WrittenL p l1 ∧ Written s l2 ∧ WrittenL q l3
  | [], _, h => by
    cases h with
    | cons h1 h2 => exact ⟨[], _, _, rfl, .nil, h1, h2⟩
    | heredoc h => exact absurd rfl hs
  | [x], _, h => by
    cases h with
    | cons h1 h2 =>
      obtain ⟨l1, l2, l3, rfl, h3, h4, h5⟩ := written_split hs (p := []) h2
      exact ⟨_, l2, l3, (List.append_assoc ..).symm, .cons h1 h3, h4, h5⟩
    | heredoc h => exact absurd rfl hs
  | x :: y :: p, l, h => by
    generalize e : x :: y :: p ++ s :: q = ss at h
    cases h with
    | nil => cases e
    | cons h1 h2 =>
      injection e with e1 e2
      subst e1 e2
      obtain ⟨l1, l2, l3, rfl, h3, h4, h5⟩ := written_split hs (p := y :: p) h2
      exact ⟨_, l2, l3, (List.append_assoc ..).symm, .cons h1 h3, h4, h5⟩
    | heredoc h =>
      injection e with e1 e2
      injection e2 with e2 e3
      subst e1 e2 e3
      obtain ⟨l1, l2, l3, rfl, h3, h4, h5⟩ := written_split hs (p := p) h
      exact ⟨_, l2, l3, (List.append_assoc ..).symm, .heredoc h3, h4, h5⟩

section
variable {ws : List Ast.Stmt} {w : Ast.Stmt}

mutual

theorem into_part (hw : w ∈ ws) {a b : List Ast.Stmt} : Into ws a b → PartS b w
  | .here a b => .mem (by simp [hw])
  | .sub a b h => by
    cases intoS_part hw h with
    | mem h => exact .sub (by simp) (.mem h)
    | sub h h' => exact .sub (by simp) (.sub h h')

theorem intoS_part (hw : w ∈ ws) {a b : Ast.Stmt} : IntoS ws a b → PartS (subStmts b) w
  | .function h | .while_ h | .for_ h | .elseIf h | .else_ h | .catch_ h | .finally_ h => into_part hw h
  | .if_ h => (into_part hw h).mono (by intro s hs; simp [subStmts, hs])
  | .try_ h => (into_part hw h).mono (by intro s hs; simp [subStmts, hs])
  | .elseIfs h | .elsePart h | .catches h | .finallyPart h => .sub (by simp [subStmts]) (intoS_part hw h)

end

end

theorem into_split {ws a b ss : List Ast.Stmt} {s : Ast.Stmt} (h : Into ws (a ++ s :: b) ss) :
    (∃ s', ss = a ++ s' :: b ∧ IntoS ws s s') ∨ (∃ p, ss = p ++ s :: b ∧ Into ws a p) ∨ ∃ q, ss = a ++ s :: q ∧ Into ws b q := by
  generalize e : a ++ s :: b = t at h
  cases h with
  | here x y =>
    rcases List.append_eq_append_iff.1 e with ⟨z, rfl, h⟩ | ⟨z, rfl, h⟩
    · cases z with
      | nil =>
        obtain rfl : s :: b = y := h
        exact .inr (.inl ⟨a ++ ws, by simp, by simpa using Into.here (ws := ws) a []⟩)
      | cons c z =>
        injection h with h1 h2
        subst h1 h2
        exact .inr (.inr ⟨z ++ ws ++ y, by simp, .here z y⟩)
    · subst h
      exact .inr (.inl ⟨x ++ ws ++ z, by simp, .here x z⟩)
  | sub x y h' =>
    rename_i u u'
    rcases List.append_eq_append_iff.1 e with ⟨z, rfl, h⟩ | ⟨z, rfl, h⟩
    · cases z with
      | nil =>
        injection h with h1 h2
        subst h1 h2
        exact .inl ⟨u', by simp, h'⟩
      | cons c z =>
        injection h with h1 h2
        subst h1 h2
        exact .inr (.inr ⟨_, by simp, .sub z y h'⟩)
    · cases z with
      | nil =>
        injection h with h1 h2
        subst h1 h2
        exact .inl ⟨u', by simp, h'⟩
      | cons c z =>
        injection h with h1 h2
        subst h1 h2
        exact .inr (.inl ⟨x ++ u' :: z, by simp, .sub x z h'⟩)

/-- Nothing is inserted. -/
theorem intoS_refl {s : Ast.Stmt} (h : endOf s ≠ none) : IntoS [] s s := by
  have key : ∀ a : List Ast.Stmt, Into [] a a := fun a => by simpa using Into.here (ws := []) a []
  cases s
  case function => exact .function (key _)
  case while_ => exact .while_ (key _)
  case for_ => exact .for_ (key _)
  case if_ => exact .if_ (key _)
  case try_ => exact .try_ (key _)
  all_goals exact absurd rfl h

end Viml
