/-
A command is followed by a bar or a comment instead of the end of its line (`Hang.lean`).
-/
import Verif.Lemmas.Hang
import Verif.Lemmas.CarryFile
import Verif.Spec.Note

namespace Viml
open Spec

/-- The assignment at `r` is no list of variables and has no following lines. -/
def Assigns (env : Env) (fn : Str) (c : Cmd) (r : List Cell) : Prop :=
  (c.name = cs!"let" ∨ c.name = cs!"const" → ∀ r1, Skip r r1 → ¬ AtStop r1) ∧
  (c.name = cs!"let" → ∀ l ls x r1, LetLeft env fn (Target env fn) r l ls x r1 →
    (∃ op ∈ letOps, StartsWith r1 op) ∧ ¬ StartsWith r1 cs!"=<<") ∧
  (c.name = cs!"const" → ∀ l ls x r1, LetLeft env fn (ConstTarget env fn) r l ls x r1 → StartsWith r1 cs!"=")

namespace Hang
variable {env env' : Env} {fn fn' : Str} {κ : Hang env env' fn fn'} {r r' : List Cell}

theorem not_nil (h : κ.In r) : r ≠ [] := by
  rintro rfl
  cases h

theorem atEnd_iff (h : κ.In r) : AtEnd r ↔ r = κ.e0 :: κ.q0 := by
  refine ⟨fun he => h.eol fun x e => ?_, ?_⟩
  · rcases he with he | he <;> rw [e] at he <;> cases he
  · rintro rfl
    exact .inl head_end

/-- The end of the line is replaced by a bar or a comment. -/
def Stops (κ : Hang env env' fn fn') : Prop := headSym κ.q = .ch '|' ∨ headSym κ.q = .ch '"'

section
variable (hb : κ.Stops)
include hb

theorem span {g : Char → Bool} {v : Str} (hg : g '|' = false ∧ g '"' = false) (h : κ.In r) (hs : Span g r v r') :
    κ.In r' ∧ Span g (κ.tr r) v (κ.tr r') := by
  obtain ⟨h1, h2, h3⟩ := hs
  obtain ⟨i, a⟩ := reads h h1
  refine ⟨i, a, h2, ?_⟩
  rcases head i with e | rfl
  · rw [e]; exact h3
  · rw [tr_end]
    rcases hb with hb | hb <;> rw [hb]
    · exact hg.1
    · exact hg.2

theorem skip (h : κ.In r) (hs : Skip r r') : κ.In r' ∧ Skip (κ.tr r) (κ.tr r') := by
  obtain ⟨w, hs⟩ := hs
  obtain ⟨i, a⟩ := span hb (by decide) h hs
  exact ⟨i, w, a⟩

omit hb in
/-- The end of a list of expressions. -/
theorem stop_iff (hb : headSym κ.q = .ch '|') (h : κ.In r) : (AtEnd (κ.tr r) ∨ headSym (κ.tr r) = .ch '|') ↔ (AtEnd r ∨ headSym r = .ch '|') := by
  rcases head h with e | rfl
  · simp [AtEnd, e]
  · rw [tr_end]
    simp [AtEnd, hb, head_end]

omit hb in
theorem stop_back (h : κ.In r) (hs : AtEnd (κ.tr r) ∨ headSym (κ.tr r) = .ch '|') : AtEnd r ∨ headSym r = .ch '|' := by
  rcases head h with e | rfl
  · simpa [AtEnd, e] using hs
  · exact .inl (.inl head_end)

theorem atStop_iff (h : κ.In r) : AtStop (κ.tr r) ↔ AtStop r := by
  rcases head h with e | rfl
  · simp [AtStop, AtEnd, e]
  · rw [tr_end]
    rcases hb with hb | hb <;> simp [AtStop, AtEnd, hb, head_end]

theorem ne_other {x : Char} (hx : x ≠ '|' ∧ x ≠ '"') (h : κ.In r) (hn : headSym r ≠ .ch x) : headSym (κ.tr r) ≠ .ch x := by
  rcases head h with e | rfl
  · rw [e]; exact hn
  · rw [tr_end]
    rcases hb with hb | hb <;> rw [hb]
    · intro e
      cases e
      exact hx.1 rfl
    · intro e
      cases e
      exact hx.2 rfl

theorem isF {g : Char → Bool} (hg : g '|' = false ∧ g '"' = false) (h : κ.In r) (hs : (headSym r).is g = false) :
    (headSym (κ.tr r)).is g = false := by
  rcases head h with e | rfl
  · rw [e]; exact hs
  · rw [tr_end]
    rcases hb with hb | hb <;> rw [hb]
    · exact hg.1
    · exact hg.2

theorem starts_back {v : Str} (hv : '|' ∉ v ∧ '"' ∉ v) (h : κ.In r) (hs : StartsWith (κ.tr r) v) : StartsWith r v := by
  obtain ⟨x, hs⟩ := hs
  induction v generalizing r with
  | nil => exact ⟨r, Reads.nil _⟩
  | cons y v ih =>
    obtain ⟨q, r1, e, h1⟩ := hs.cons_inv
    have hy : headSym (κ.tr r) = .ch y := by rw [e]; rfl
    have hr : headSym r = .ch y := by
      rcases head h with e | rfl
      · rw [← e]; exact hy
      · rw [tr_end] at hy
        rcases hb with hb | hb <;> rw [hb] at hy <;> cases hy
        · exact absurd (List.mem_cons_self ..) hv.1
        · exact absurd (List.mem_cons_self ..) hv.2
    obtain ⟨i, e2⟩ := next h hr
    rw [e] at e2
    obtain ⟨z, hz⟩ := ih ⟨fun h => hv.1 (List.mem_cons_of_mem _ h), fun h => hv.2 (List.mem_cons_of_mem _ h)⟩ i (e2 ▸ h1)
    cases h with
    | stop => rw [head_end] at hr; cases hr
    | @cons c r2 w hc _ _ =>
      have hw : c.c = some y := by
        rw [hc]
        simp only [headSym, Cell.sym, hc] at hr
        cases hr
        rfl
      obtain ⟨p, e3, e4⟩ := hz
      have e3 : r2 = p ++ z := e3
      exact ⟨z, c :: p, by rw [e3]; rfl, by simp [hw, e4]⟩

omit hb in
theorem exprs (hb : headSym κ.q = .ch '|') {es : List Ast.Expr} (hl : Exprs env fn r es r') :
    κ.In r → κ.In r' ∧ Exprs env' fn' (κ.tr r) (Ast.Expr.onPosL κ.m es) (κ.tr r') := by
  induction hl with
  | nil h1 h2 =>
    intro h
    obtain ⟨i, a⟩ := skip (.inl hb) h h1
    exact ⟨i, .nil a ((stop_iff hb i).2 h2)⟩
  | cons h1 h2 h3 _ ih =>
    intro h
    obtain ⟨i, a⟩ := skip (.inl hb) h h1
    obtain ⟨i2, a2⟩ := gram h3 i
    obtain ⟨i3, a3⟩ := ih i2
    exact ⟨i3, .cons a (fun e => h2 ((stop_iff hb i).1 e)) a2 a3⟩

omit hb in
theorem lvStart {e : Ast.Expr} (h : κ.In r) (hl : LvStart env fn r e r') :
    κ.In r' ∧ LvStart env' fn' (κ.tr r) (e.onPos κ.m) (κ.tr r') := by
  cases hl with
  | lit h1 h2 h3 =>
    obtain ⟨t', i, a, e1, e2, e3⟩ := lexT h h1 h2.ne_eol.1
    refine ⟨i, ?_⟩
    have := LvStart.lit (fn := fn') a (e1 ▸ h2) h3
    rw [e2, e3] at this
    exact this
  | name h1 h2 h3 h4 =>
    obtain ⟨i, a⟩ := blanks h h1
    obtain ⟨i2, _, a2⟩ := parts h3 i
    refine ⟨i2, ?_⟩
    rw [onPos_name, ← Hang.here i]
    obtain ⟨t, r2, h5, h6⟩ := h2
    obtain ⟨t', _, b, e1, _⟩ := lexT h h5 (by rcases h6 with h6 | h6 <;> rw [h6] <;> simp)
    exact .name a ⟨t', _, b, e1 ▸ h6⟩ a2 (onPosL_ne _ h4)
  | sid h1 h2 h3 h4 =>
    obtain ⟨i, a⟩ := blanks h h1
    obtain ⟨i2, a2⟩ := reads i h2
    obtain ⟨i3, _, a3⟩ := parts h4 i2
    refine ⟨i3, ?_⟩
    rw [onPos_name, Ast.Expr.onPosL, Ast.Expr.onPos, ← Hang.here i]
    exact .sid a a2 h3 a3

omit hb in
theorem lvChain {e : Ast.Expr} (hl : LvChain env fn r e r') :
    κ.In r → κ.In r' ∧ LvChain env' fn' (κ.tr r) (e.onPos κ.m) (κ.tr r') := by
  induction hl with
  | start h1 =>
    intro h
    obtain ⟨i, a⟩ := lvStart h h1
    exact ⟨i, .start a⟩
  | subscript _ h2 h3 h4 h5 ih =>
    intro h
    obtain ⟨i1, a1⟩ := ih h
    obtain ⟨i2, a2⟩ := mark i1 h3
    obtain ⟨i3, a3⟩ := gram h4 i2
    obtain ⟨i4, a4⟩ := mark i3 h5
    exact ⟨i4, .subscript a1 (white_mark i1 h3 h2) a2 a3 a4⟩
  | slice _ h2 h3 h4 h5 h6 h7 ih =>
    intro h
    obtain ⟨i1, a1⟩ := ih h
    obtain ⟨i2, a2⟩ := mark i1 h3
    obtain ⟨i3, a3⟩ := opt h4 i2
    obtain ⟨i4, a4⟩ := mark i3 h5
    obtain ⟨i5, a5⟩ := opt h6 i4
    obtain ⟨i6, a6⟩ := mark i5 h7
    exact ⟨i6, .slice a1 (white_mark i1 h3 h2) a2 a3 a4 a5 a6⟩
  | dot _ h2 h3 h4 h5 ih =>
    intro h
    obtain ⟨i1, a1⟩ := ih h
    obtain ⟨i2, a2⟩ := mark i1 h4
    obtain ⟨i3, a3⟩ := member i2 h5
    refine ⟨i3, ?_⟩
    rw [Ast.Expr.onPos, Ast.Ident.onPos, ← Hang.here i2]
    exact .dot a1 (white_mark i1 h4 h2) ((onPos_dotBase _).2 h3) a2 a3

omit hb in
theorem lv {e : Ast.Expr} (h : κ.In r) (hl : Lv env fn r e r') : κ.In r' ∧ Lv env' fn' (κ.tr r) (e.onPos κ.m) (κ.tr r') := by
  obtain ⟨h1, t, r2, h2, h3⟩ := hl
  obtain ⟨i, a⟩ := lvChain h1 h
  refine ⟨i, a, ?_⟩
  rcases lex i h2 with ⟨_, _, t', r'', a1, a2, _⟩ | ⟨_, i2, t', a1, a2, _⟩
  · refine ⟨t', _, a1, fun _ => ⟨?_, ?_⟩⟩
    · rcases a2 with a | a | a | a | a | a | a | a <;> rw [a] <;> simp
    · rintro ⟨e1, _⟩
      rcases a2 with a | a | a | a | a | a | a | a <;> rw [a] at e1 <;> cases e1
  · refine ⟨t', _, a1, fun hw => ?_⟩
    have hw : (headSym r').is iswhite = false := by
      rcases head i with e | rfl
      · rw [← e]; exact hw
      · rw [head_end]; rfl
    obtain ⟨h5, h6⟩ := h3 hw
    rw [a2]
    refine ⟨h5, ?_⟩
    rintro ⟨e1, e2, v, x, e3⟩
    obtain ⟨y, e4⟩ := member_back i2 e3
    exact h6 ⟨e1, (onPos_dotBase e).1 e2, v, y, e4⟩

omit hb in
theorem target_ {e : Ast.Expr} (h : κ.In r) (ht : Target env fn r e r') :
    κ.In r' ∧ Target env' fn' (κ.tr r) (e.onPos κ.m) (κ.tr r') := by
  obtain ⟨i, a⟩ := lv h ht.1
  exact ⟨i, a, (onPos_target e).2 ht.2⟩

omit hb in
theorem funcName {e : Ast.Expr} (h : κ.In r) (ht : FuncName env fn r e r') :
    κ.In r' ∧ FuncName env' fn' (κ.tr r) (e.onPos κ.m) (κ.tr r') := by
  obtain ⟨i, a⟩ := lv h ht.1
  exact ⟨i, a, (onPos_funcTarget e).2 ht.2⟩

omit hb in
theorem constTarget {e : Ast.Expr} (h : κ.In r) (ht : ConstTarget env fn r e r') :
    κ.In r' ∧ ConstTarget env' fn' (κ.tr r) (e.onPos κ.m) (κ.tr r') := by
  obtain ⟨i, a⟩ := target_ h ht.1
  refine ⟨i, a, ?_⟩
  rcases ht.2 with ⟨x, rfl⟩ | ⟨q, ps, rfl⟩
  · exact .inl ⟨_, rfl⟩
  · exact .inr ⟨_, _, rfl⟩

omit hb in
theorem targetList {es : List Ast.Expr} {x : Option Ast.Expr} (hl : TargetList env fn r es x r') :
    κ.In r → κ.In r' ∧ TargetList env' fn' (κ.tr r) (Ast.Expr.onPosL κ.m es) (Ast.Expr.onPosO κ.m x) (κ.tr r') := by
  induction hl with
  | last h1 h2 =>
    intro h
    obtain ⟨i, a⟩ := target_ h h1
    obtain ⟨i2, a2⟩ := mark i h2
    exact ⟨i2, .last a a2⟩
  | cons h1 h2 _ ih =>
    intro h
    obtain ⟨i, a⟩ := target_ h h1
    obtain ⟨i2, a2⟩ := mark i h2
    obtain ⟨i3, a3⟩ := ih i2
    exact ⟨i3, .cons a a2 a3⟩
  | rest h1 h2 h3 h4 =>
    intro h
    obtain ⟨i, a⟩ := target_ h h1
    obtain ⟨i2, a2⟩ := mark i h2
    obtain ⟨i3, a3⟩ := target_ i2 h3
    obtain ⟨i4, a4⟩ := mark i3 h4
    exact ⟨i4, .rest a a2 a3 a4⟩

/-- The targets of kind `S` are carried to targets of kind `S'`. -/
def Kinds (κ : Hang env env' fn fn') (S S' : List Cell → Ast.Expr → List Cell → Prop) : Prop :=
  ∀ {r e r'}, κ.In r → S r e r' → κ.In r' ∧ S' (κ.tr r) (e.onPos κ.m) (κ.tr r')

variable {S S' : List Cell → Ast.Expr → List Cell → Prop}

omit hb in
theorem lhsAt {l : Option Ast.Expr} {ls : List Ast.Expr} {x : Option Ast.Expr} (hS : Kinds κ S S') (h : κ.In r)
    (hl : LhsAt env fn S r l ls x r') : κ.In r' ∧
    LhsAt env' fn' S' (κ.tr r) (Ast.Expr.onPosO κ.m l) (Ast.Expr.onPosL κ.m ls) (Ast.Expr.onPosO κ.m x) (κ.tr r') := by
  cases hl with
  | one h1 h2 =>
    obtain ⟨i, a⟩ := hS h h2
    exact ⟨i, .one (next_ h h1 fun _ hc => by rcases hc with e | e | e | e | e | e | e | e <;> rw [e] <;> simp) a⟩
  | list h1 h2 =>
    obtain ⟨i, a⟩ := mark h h1
    obtain ⟨i2, a2⟩ := targetList h2 i
    exact ⟨i2, .list a a2⟩

theorem targets {es : List Ast.Expr} (hl : Targets env fn r es r') :
    κ.In r → κ.In r' ∧ Targets env' fn' (κ.tr r) (Ast.Expr.onPosL κ.m es) (κ.tr r') := by
  induction hl with
  | nil h1 h2 =>
    intro h
    obtain ⟨i, a⟩ := skip hb h h1
    exact ⟨i, .nil a ((atStop_iff hb i).2 h2)⟩
  | cons h1 h2 h3 _ ih =>
    intro h
    obtain ⟨i, a⟩ := skip hb h h1
    obtain ⟨i2, a2⟩ := target_ i h3
    obtain ⟨i3, a3⟩ := ih i2
    exact ⟨i3, .cons a (by rw [atStop_iff hb i]; exact h2) a2 a3⟩

theorem lockArgs {es : List Ast.Expr} (h : κ.In r) (hl : LockArgs env fn r es r') :
    κ.In r' ∧ LockArgs env' fn' (κ.tr r) (Ast.Expr.onPosL κ.m es) (κ.tr r') := by
  cases hl with
  | mk h1 h2 =>
    obtain ⟨i, a⟩ := gram h1 h
    obtain ⟨i2, a2⟩ := targets hb h2 i
    exact ⟨i2, .mk a a2⟩

theorem depth {n : Nat} (h : κ.In r) (hd : Depth r n r') : κ.In r' ∧ Depth (κ.tr r) n (κ.tr r') := by
  cases hd with
  | num h1 h2 h3 h4 =>
    obtain ⟨i, a⟩ := skip hb h h1
    obtain ⟨i2, a2⟩ := span hb (by decide) i h3
    exact ⟨i2, .num a h2 a2 h4⟩
  | none h1 h2 =>
    obtain ⟨i, a⟩ := skip hb h h1
    exact ⟨i, .none a (isF hb (by decide) i h2)⟩

theorem letLeft {l : Option Ast.Expr} {ls : List Ast.Expr} {x : Option Ast.Expr} (hS : Kinds κ S S') (h : κ.In r)
    (hl : LetLeft env fn S r l ls x r') : κ.In r' ∧
    LetLeft env' fn' S' (κ.tr r) (Ast.Expr.onPosO κ.m l) (Ast.Expr.onPosL κ.m ls) (Ast.Expr.onPosO κ.m x) (κ.tr r') := by
  obtain ⟨r1, r2, h1, h2, h3, h4⟩ := hl
  obtain ⟨i, a⟩ := skip hb h h1
  obtain ⟨i2, a2⟩ := lhsAt hS i h3
  obtain ⟨i3, a3⟩ := skip hb i2 h4
  exact ⟨i3, _, _, a, by rw [atStop_iff hb i]; exact h2, a2, a3⟩

theorem forArgs {l : Option Ast.Expr} {ls : List Ast.Expr} {x : Option Ast.Expr} {e : Ast.Expr} (h : κ.In r)
    (hf : ForArgs env fn r (l, ls, x, e) r') : κ.In r' ∧ ForArgs env' fn' (κ.tr r)
      (Ast.Expr.onPosO κ.m l, Ast.Expr.onPosL κ.m ls, Ast.Expr.onPosO κ.m x, e.onPos κ.m) (κ.tr r') := by
  cases hf with
  | mk h1 h2 h3 h4 =>
    obtain ⟨i, a⟩ := lhsAt (S' := Target env' fn') target_ h h1
    obtain ⟨i2, a2⟩ := skip hb i h2
    obtain ⟨i3, a3⟩ := span hb (by decide) i2 h3
    obtain ⟨i4, a4⟩ := gram h4 i3
    exact ⟨i4, .mk a a2 a3 a4⟩

theorem bang {c : Cmd} {b : Bool} (h : κ.In r) (hc : Bang c r b r') : κ.In r' ∧ Bang c (κ.tr r) b (κ.tr r') := by
  cases hc with
  | yes h1 h2 h3 =>
    obtain ⟨i, a⟩ := reads h h1
    exact ⟨i, .yes a h2 h3⟩
  | no h1 => exact ⟨h, .no (h1.imp (ne_other hb (by decide) h) id)⟩

/-- Commands that are no part of a block. -/
theorem simple {cx : Ctx} {ea : Ast.ExArg} {c : Cmd} {r0 ra s0 sa : List Cell} {xs : List Ast.Stmt} (hc : c.name ∈ barCmds)
    (hq : headSym κ.q = .ch '"' → c.name ∈ noteCmds ∧
      (c.name = cs!"return" → ∀ r1, Skip r r1 → ¬ (AtEnd r1 ∨ headSym r1 = .ch '|')))
    (ha : Assigns env fn c r) (h : κ.In r) (hs : Spec.Simple env fn cx r0 ra ea c r xs r') : κ.In r' ∧
    Spec.Simple env' fn' cx s0 sa (ea.onPos κ.m) c (κ.tr r) (Ast.Stmt.onPosL κ.m xs) (κ.tr r') := by
  have hno : ∀ {n : Str}, c.name = n → n ∉ barCmds → False := fun e hn => hn (e ▸ hc)
  have hnn : ∀ {n : Str}, headSym κ.q = .ch '"' → c.name = n → n ∉ noteCmds → False := fun h e hn => hn (e ▸ (hq h).1)
  cases hs with
  | raw g =>
    exfalso
    cases g with
    | common g => exact g (bar_parsed _ hc)
    | finish g => exact hno g (by decide)
    | finishTop g => exact hno g (by decide)
    | append g => rcases g with g | g <;> exact hno g (by decide)
    | keymap g => exact hno g (by decide)
    | script g => exact bar_script _ hc g
    | scriptLine g => exact bar_script _ hc g
    | wincmd g => exact hno g (by decide)
    | «syntax» g => exact hno g (by decide)
  | funcListing g => exact (hno g (by decide)).elim
  | delfunction g => exact (hno g (by decide)).elim
  | return_ g1 g2 g3 g4 g5 =>
    obtain ⟨i, a⟩ := skip hb h g3
    obtain ⟨i2, a2⟩ := gram g5 i
    exact ⟨i2, .return_ g1 g2 a (fun e => g4 (stop_back i e)) a2⟩
  | returnNone g1 g2 g3 g4 =>
    rcases hb with hb | hb
    · obtain ⟨i, a⟩ := skip (.inl hb) h g3
      exact ⟨i, .returnNone g1 g2 a ((stop_iff hb i).2 g4)⟩
    · exact absurd g4 ((hq hb).2 g1 _ g3)
  | call g1 g2 g3 g4 =>
    obtain ⟨i, a⟩ := skip hb h g2
    obtain ⟨i2, a2⟩ := gram g4 i
    rw [Ast.Expr.onPos] at a2
    exact ⟨i2, .call g1 a (by rw [atStop_iff hb i]; exact g3) a2⟩
  | letListing g1 g2 g3 =>
    exfalso
    cases g2 with
    | all g4 g5 => exact ha.1 (.inl g1) _ g4 g5
    | some g4 g5 =>
      obtain ⟨op, h1, h2⟩ := (ha.2.1 g1 _ _ _ _ g4).1
      exact g5 op (by simp [h1]) h2
  | let_ g1 g2 g3 g4 g5 g6 =>
    obtain ⟨i, a⟩ := letLeft hb (S' := Target env' fn') target_ h g2
    obtain ⟨i2, a2⟩ := reads i g5
    obtain ⟨i3, a3⟩ := gram g6 i2
    exact ⟨i3, .let_ g1 a g3 (fun e => g4 (starts_back hb (by decide) i e)) a2 a3⟩
  | heredoc g1 g2 g3 => exact ((ha.2.1 g1 _ _ _ _ g2).2 ⟨_, g3⟩).elim
  | constListing g1 g2 g3 =>
    exfalso
    cases g2 with
    | all g4 g5 => exact ha.1 (.inr g1) _ g4 g5
    | some g4 g5 => exact g5 _ (by simp) (ha.2.2 g1 _ _ _ _ g4)
  | const_ g1 g2 g3 g4 =>
    obtain ⟨i, a⟩ := letLeft hb (S' := ConstTarget env' fn') constTarget h g2
    obtain ⟨i2, a2⟩ := reads i g3
    obtain ⟨i3, a3⟩ := gram g4 i2
    exact ⟨i3, .const_ g1 a a2 a3⟩
  | unlet g1 g2 =>
    obtain ⟨i, a⟩ := lockArgs hb h g2
    exact ⟨i, .unlet g1 a⟩
  | lockvar g1 g2 g3 =>
    obtain ⟨i, a⟩ := depth hb h g2
    obtain ⟨i2, a2⟩ := lockArgs hb i g3
    exact ⟨i2, .lockvar g1 a a2⟩
  | unlockvar g1 g2 g3 =>
    obtain ⟨i, a⟩ := depth hb h g2
    obtain ⟨i2, a2⟩ := lockArgs hb i g3
    exact ⟨i2, .unlockvar g1 a a2⟩
  | continue_ g1 g2 => exact ⟨h, .continue_ g1 g2⟩
  | break_ g1 g2 => exact ⟨h, .break_ g1 g2⟩
  | throw g1 g2 =>
    obtain ⟨i, a⟩ := gram g2 h
    exact ⟨i, .throw g1 a⟩
  | eval g1 g2 =>
    obtain ⟨i, a⟩ := gram g2 h
    exact ⟨i, .eval g1 a⟩
  | echo g1 g2 =>
    rcases hb with hb | hb
    · obtain ⟨i, a⟩ := exprs hb g2 h
      exact ⟨i, .echo g1 a⟩
    · have key : ∀ n ∈ [cs!"echo", cs!"echon", cs!"echomsg", cs!"echoerr"], n ∉ noteCmds := by decide
      exact absurd (hq hb).1 (key _ g1)
  | echohl g1 g2 =>
    rcases hb with hb | hb
    · obtain ⟨i, a⟩ := span (.inl hb) (by decide) h g2
      exact ⟨i, .echohl g1 a⟩
    · exact (hnn hb g1 (by decide)).elim
  | execute g1 g2 =>
    rcases hb with hb | hb
    · obtain ⟨i, a⟩ := exprs hb g2 h
      exact ⟨i, .execute g1 a⟩
    · exact (hnn hb g1 (by decide)).elim

end

end Hang
end Viml
