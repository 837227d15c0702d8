/-
The reference compiler prints the lines specified in Spec/Sexp for the exported tree.
-/
import Verif.Lemmas.Comp
import Verif.Lemmas.ApiFile
import Verif.Model.RefCompiler

namespace Viml
open Spec

/-! ### Statements of the internal tree -/

/-- Direct substatements. -/
def vsubs : VStmt → List VStmt
  | .function _ _ b _ _ _ _ _ => b
  | .if_ _ _ b _ eis el _ => b ++ eis ++ el.toList
  | .elseif _ _ b _ => b
  | .else_ _ _ b => b
  | .while_ _ _ b _ _ => b
  | .for_ _ _ b _ _ _ => b
  | .try_ _ _ b cs fi _ => b ++ cs ++ fi.toList
  | .catch_ _ _ b _ => b
  | .finally_ _ _ b => b
  | _ => []

/-- `P` holds of a statement and all statements in it. -/
inductive AllV (P : VStmt → Prop) : VStmt → Prop
  | mk (n : VStmt) : P n → (∀ x ∈ vsubs n, AllV P x) → AllV P n

/-- `P` holds of all statements in the blocks that are still open. -/
def StackV (P : VStmt → Prop) (l : List Frame) : Prop :=
  ∀ f ∈ l, (∀ n ∈ f.body, AllV P n) ∧ (∀ n ∈ f.elseifs, AllV P n) ∧ (∀ n, f.els = some n → AllV P n) ∧
    (∀ n ∈ f.catches, AllV P n) ∧ (∀ n, f.fin = some n → AllV P n)

theorem StackV.pop {P : VStmt → Prop} (hC : ∀ f : Frame, ∀ e, P (f.close e)) {st st' : PState} {e : Option EndNode}
    (h : StackV P (st.cur :: st.stack)) (hp : st.pop e = some st') : StackV P (st'.cur :: st'.stack) := by
  unfold PState.pop at hp
  split at hp
  · cases hp
  · rename_i f fs hf
    cases hp
    rw [hf] at h
    have hn : AllV P (st.cur.close e) := by
      refine .mk _ (hC _ _) ?_
      obtain ⟨h1, h2, h3, h4, h5⟩ := h st.cur (by simp)
      have h3' : ∀ n ∈ st.cur.els.toList, AllV P n := by simpa using h3
      have h5' : ∀ n ∈ st.cur.fin.toList, AllV P n := by simpa using h5
      unfold Frame.close
      intro x hx
      split at hx <;> simp only [vsubs, List.mem_append] at hx
      case h_1 => simp at hx
      case h_3 => exact hx.elim (fun hx => hx.elim (h1 x) (h2 x)) (h3' x)
      case h_8 => exact hx.elim (fun hx => hx.elim (h1 x) (h4 x)) (h5' x)
      all_goals exact h1 x hx
    generalize st.cur.close e = n at hn
    intro g hg
    rcases List.mem_cons.1 hg with rfl | hg
    · obtain ⟨h1, h2, h3, h4, h5⟩ := h f (by simp)
      have snoc : ∀ {l : List VStmt}, (∀ n ∈ l, AllV P n) → ∀ m ∈ l ++ [n], AllV P m := by
        intro l hl m hm
        rw [List.mem_append, List.mem_singleton] at hm
        rcases hm with hm | rfl
        · exact hl m hm
        · exact hn
      unfold Frame.attach
      split
      · exact ⟨h1, snoc h2, h3, h4, h5⟩
      · exact ⟨h1, h2, by rintro m ⟨rfl⟩; exact hn, h4, h5⟩
      · exact ⟨h1, h2, h3, snoc h4, h5⟩
      · exact ⟨h1, h2, h3, h4, by rintro m ⟨rfl⟩; exact hn⟩
      · exact ⟨snoc h1, h2, h3, h4, h5⟩
    · exact h g (by simp [hg])

theorem StackV.push {P : VStmt → Prop} {st : PState} (h : StackV P (st.cur :: st.stack)) (hd : Head) :
    StackV P ((st.push hd).cur :: (st.push hd).stack) := by
  intro g hg
  rcases List.mem_cons.1 hg with rfl | hg
  · simp [PState.push]
  · exact h g hg

theorem StackV.step {env : Env} {R : Nat → ERel} {P : VStmt → Prop} (hC : ∀ f : Frame, ∀ e, P (f.close e))
    (hS : ∀ st n, Simple env R st n → P n ∧ vsubs n = []) {st st' : PState} {b : Option Blk}
    (h : StackV P (st.cur :: st.stack)) (hs : Step env R st b st') : StackV P (st'.cur :: st'.stack) := by
  cases hs with
  | cache c _ => exact h
  | @add n hn =>
    obtain ⟨h1, h2⟩ := hS _ _ hn
    intro g hg
    rcases List.mem_cons.1 hg with rfl | hg
    · obtain ⟨k1, k2⟩ := h st.cur (by simp)
      refine ⟨?_, k2⟩
      intro m hm
      simp only [PState.add, List.mem_append, List.mem_singleton] at hm
      rcases hm with hm | rfl
      · exact k1 m hm
      · exact .mk _ h1 (by simp [h2])
    · exact h g (by simp only [PState.add] at hg; simp [hg])
  | opens _ => exact h.push _
  | mid1 _ _ => exact h.push _
  | mid2 _ _ hp => exact (h.pop hC hp).push _
  | end1 _ _ hp => exact h.pop hC hp
  | end2 _ _ hp hp' => exact (h.pop hC hp).pop hC hp'

theorem StackV.steps {env : Env} {R : Nat → ERel} {P : VStmt → Prop} (hC : ∀ f : Frame, ∀ e, P (f.close e))
    (hS : ∀ st n, Simple env R st n → P n ∧ vsubs n = []) {st st' : PState} {bs : List Blk}
    (h : StackV P (st.cur :: st.stack)) (hs : Steps env R st bs st') : StackV P (st'.cur :: st'.stack) := by
  induction hs with
  | nil => exact h
  | cons h1 _ ih => exact ih (h.step hC hS h1)

/-- The node type follows the name of the command. -/
def tag : VStmt → Prop
  | .let_ _ ea .. => ∃ c, ea.cmd = some c ∧ c.name = cs!"let"
  | .const_ _ ea .. => ∃ c, ea.cmd = some c ∧ c.name = cs!"const"
  | .echo t _ ea _ => ∃ c, ea.cmd = some c ∧ c.name = Ref.echoName t
  | _ => True

theorem tag_close (f : Frame) (e : Option EndNode) : tag (f.close e) := by
  unfold Frame.close; split <;> trivial

theorem tag_simple {env : Env} {R : Nat → ERel} (st : PState) (n : VStmt) (h : Simple env R st n) :
    tag n ∧ vsubs n = [] := by
  cases h with
  | let_ _ hc => exact ⟨hc.named1 (fn := []) (n := cs!"let") (by simp [nameTable]), rfl⟩
  | heredoc _ hc => exact ⟨hc.named1 (fn := []) (n := cs!"let") (by simp [nameTable]), rfl⟩
  | const_ _ hc => exact ⟨hc.named1 (fn := []) (n := cs!"const") (by simp [nameTable]), rfl⟩
  | @echo ea ty l _ hc _ =>
    refine ⟨?_, rfl⟩
    cases ty
    · exact hc.named1 (fn := []) (n := cs!"echo") (by simp [nameTable, echoH]) (by simp [echoH])
    · exact hc.named1 (fn := []) (n := cs!"echon") (by simp [nameTable, echoH]) (by simp [echoH])
    · exact hc.named1 (fn := []) (n := cs!"echomsg") (by simp [nameTable, echoH]) (by simp [echoH])
    · exact hc.named1 (fn := []) (n := cs!"echoerr") (by simp [nameTable, echoH]) (by simp [echoH])
  | _ => exact ⟨trivial, rfl⟩

/-! ### Expressions -/

def isLit : Ast.Expr → Prop
  | .basicLit .. => True
  | _ => False

/-- All heredocs of an expression are plain. -/
def PlainE (e : Ast.Expr) : Prop := AllE plainHere isLit e

theorem PlainE.sub {e : Ast.Expr} (h : PlainE e) : ∀ x ∈ subs e, PlainE x := by
  cases h with | mk _ _ h _ => exact h

theorem PlainE.own {e : Ast.Expr} (h : PlainE e) : plainHere e := by
  cases h with | mk _ h _ _ => exact h

theorem PlainE.key {e : Ast.Expr} (h : PlainE e) : ∀ x ∈ keys e, isLit x ∨ PlainE x := by
  cases h with
  | mk _ _ _ h =>
    intro x hx
    by_cases hl : isLit x
    · exact .inl hl
    · exact .inr (h x hx hl)

namespace Ref

theorem join_eq (sep : Str) (l : List Str) : join sep l = Comp.join sep l := by
  induction l with
  | nil => rfl
  | cons x l ih =>
    cases l with
    | nil => rfl
    | cons y l => rw [join, Comp.join, ih]

theorem escapeNTR_eq (s : Str) : escapeNTR s = ctrl s := by
  induction s with
  | nil => rfl
  | cons c s ih =>
    rw [escapeNTR, ih]
    unfold ctrl
    rw [List.flatMap_cons]

theorem escapeQ_eq (s : Str) : escapeQ s = bs s := by
  induction s with
  | nil => rfl
  | cons c s ih =>
    rw [escapeQ, ih]
    unfold bs
    rw [List.flatMap_cons]

theorem ctrl_id {s : Str} (h : noCtrl s) : ctrl s = s := by
  unfold ctrl
  induction s with
  | nil => rfl
  | cons c s ih =>
    obtain ⟨h1, h2, h3⟩ := h c (by simp)
    rw [List.flatMap_cons, ih fun x hx => h x (by simp [hx]), if_neg h1, if_neg h2, if_neg h3]
    rfl

theorem listForm_eq (xs : List Str) (t : Str) :
    listForm t xs = if xs.length = 0 then cs!"(" ++ t ++ cs!")" else cs!"(" ++ t ++ cs!" " ++ Comp.join cs!" " xs ++ cs!")" := by
  unfold listForm
  rw [join_eq]
  cases xs <;> simp

theorem binName_eq (t : BinTy) : binName t = opName (binTok t) := by
  cases t with
  | cmp k m => cases k <;> cases m <;> rfl
  | _ => rfl

theorem unName_eq (t : UnTy) : unName t = (unTok t).str := by cases t <;> rfl

variable {fn : Str}

/-- The reference compiler prints an expression like package compiler prints its export. -/
def Same (fn : Str) (e : VExpr) : Prop := ∀ a, Export.expr fn e = some a → PlainE a → expr e = Comp.expr a

theorem same_list {l : List VExpr} (h : ∀ x ∈ l, Same fn x) {as : List Ast.Expr} (ha : Export.exprs fn l = some as)
    (hp : ∀ a ∈ as, PlainE a) : exprs l = Comp.exprs as := by
  induction l generalizing as with
  | nil => simp only [Export.exprs, Option.some.injEq] at ha; subst ha; rfl
  | cons e l ih =>
    simp only [Export.exprs, Option.bind_eq_bind, Option.bind_eq_some_iff, Option.some.injEq] at ha
    obtain ⟨a, h1, as', h2, rfl⟩ := ha
    rw [List.forall_mem_cons] at h hp
    rw [exprs, Comp.exprs, h.1 a h1 hp.1, ih h.2 h2 hp.2]

theorem same_opt {o : Option VExpr} (h : ∀ x, o = some x → Same fn x) {a : Option Ast.Expr}
    (ha : Export.exprOpt fn o = some a) (hp : ∀ x ∈ a.toList, PlainE x) : exprNil o = Comp.exprNil a := by
  cases o with
  | none => simp only [Export.exprOpt, Option.some.injEq] at ha; subst ha; rfl
  | some e =>
    simp only [Export.exprOpt, Option.bind_eq_bind, Option.bind_eq_some_iff, Option.some.injEq] at ha
    obtain ⟨a', h1, rfl⟩ := ha
    rw [exprNil, Comp.exprNil, h e rfl a' h1 (hp a' (by simp))]

theorem same_lit {e : VExpr} {a : Ast.Expr} (ha : Export.expr fn e = some a) (hl : isLit a) : expr e = Comp.expr a := by
  cases e
  case atom q t v =>
    simp only [Export.expr, Option.some.injEq] at ha
    subst ha
    cases t <;> simp [Export.atom, isLit, expr, Comp.expr] at *
  case method q l r =>
    cases r <;> simp [Export.expr, Option.bind_eq_some_iff] at ha
    obtain ⟨_, _, _, _, _, _, rfl⟩ := ha
    exact hl.elim
  case curlyname =>
    simp [Export.expr, Option.bind_eq_some_iff] at ha
    obtain ⟨_, _, _, rfl⟩ := ha
    exact hl.elim
  all_goals
    simp only [Export.expr, Option.bind_eq_bind, Option.bind_eq_some_iff, Option.some.injEq] at ha
  case ternary => obtain ⟨_, _, _, _, _, _, rfl⟩ := ha; exact hl.elim
  case slice => obtain ⟨_, _, _, _, _, _, rfl⟩ := ha; exact hl.elim
  case heredoc => subst ha; exact hl.elim
  all_goals first
    | (obtain ⟨_, _, _, _, rfl⟩ := ha; exact hl.elim)
    | (obtain ⟨_, _, rfl⟩ := ha; exact hl.elim)

theorem same_pairs {l : List (VExpr × VExpr)} (h : ∀ x ∈ l, Same fn x.1 ∧ Same fn x.2)
    {as : List (Ast.Expr × Ast.Expr)} (ha : Export.pairs fn l = some as)
    (hp : ∀ a ∈ as, (isLit a.1 ∨ PlainE a.1) ∧ PlainE a.2) : pairs l = Comp.pairs as := by
  induction l generalizing as with
  | nil => simp only [Export.pairs, Option.some.injEq] at ha; subst ha; rfl
  | cons e l ih =>
    obtain ⟨k, v⟩ := e
    simp only [Export.pairs, Option.bind_eq_bind, Option.bind_eq_some_iff, Option.some.injEq] at ha
    obtain ⟨k', h1, v', h2, as', h3, rfl⟩ := ha
    rw [List.forall_mem_cons] at h hp
    have hk : expr k = Comp.expr k' := hp.1.1.elim (same_lit h1) (h.1.1 _ h1)
    rw [pairs, Comp.pairs, hk, h.1.2 _ h2 hp.1.2, ih h.2 h3 hp.2]

theorem exprs_strs (l : List (Pos × Str)) : Comp.exprs (Export.strs fn l) = l.map Prod.snd := by
  induction l with
  | nil => rfl
  | cons x l ih => simp only [Export.strs, List.map_cons, Comp.exprs] at *; rw [ih, Comp.expr]

theorem same (e : VExpr) : Same fn e := by
  induction e using VExpr.ind with
  | ternary q c l r hc hl hr =>
    intro a ha hp
    simp only [Export.expr, Option.bind_eq_bind, Option.bind_eq_some_iff, Option.some.injEq] at ha
    obtain ⟨c', h1, l', h2, r', h3, rfl⟩ := ha
    have hs := hp.sub
    simp only [subs, List.forall_mem_cons] at hs
    rw [expr, Comp.expr, hc _ h1 hs.1, hl _ h2 hs.2.1, hr _ h3 hs.2.2.1]
  | binary q t l r hl hr =>
    intro a ha hp
    simp only [Export.expr, Option.bind_eq_bind, Option.bind_eq_some_iff, Option.some.injEq] at ha
    obtain ⟨l', h2, r', h3, rfl⟩ := ha
    have hs := hp.sub
    simp only [subs, List.forall_mem_cons] at hs
    rw [expr, Comp.expr, hl _ h2 hs.1, hr _ h3 hs.2.1, binName_eq, ← Comp.opName_eq]
  | unary q t l hl =>
    intro a ha hp
    simp only [Export.expr, Option.bind_eq_bind, Option.bind_eq_some_iff, Option.some.injEq] at ha
    obtain ⟨l', h2, rfl⟩ := ha
    have hs := hp.sub
    simp only [subs, List.forall_mem_cons] at hs
    rw [expr, Comp.expr, hl _ h2 hs.1, unName_eq]
  | subscript q l r hl hr =>
    intro a ha hp
    simp only [Export.expr, Option.bind_eq_bind, Option.bind_eq_some_iff, Option.some.injEq] at ha
    obtain ⟨l', h2, r', h3, rfl⟩ := ha
    have hs := hp.sub
    simp only [subs, List.forall_mem_cons] at hs
    rw [expr, Comp.expr, hl _ h2 hs.1, hr _ h3 hs.2.1]
  | slice q l lo hi hl h1 h2 =>
    intro a ha hp
    simp only [Export.expr, Option.bind_eq_bind, Option.bind_eq_some_iff, Option.some.injEq] at ha
    obtain ⟨l', k1, lo', k2, hi', k3, rfl⟩ := ha
    have hs := hp.sub
    simp only [subs] at hs
    rw [expr, Comp.expr, hl _ k1 (hs _ (by simp)), same_opt h1 k2 fun x hx => hs x (by simp only [List.mem_cons, List.mem_append, hx, true_or, or_true]),
      same_opt h2 k3 fun x hx => hs x (by simp only [List.mem_cons, List.mem_append, hx, or_true])]
  | method q l r hl hr =>
    intro a ha hp
    cases r <;> simp only [Export.expr, reduceCtorEq, Option.bind_eq_bind, Option.bind_eq_some_iff, Option.some.injEq] at ha
    rename_i cq f as
    obtain ⟨l', h1, f', h2, as', h3, rfl⟩ := ha
    have hs := hp.sub
    simp only [subs, List.forall_mem_cons] at hs
    have hc : Export.expr fn (.call cq f as) = some (.call f' (Export.pos fn cq) as') := by
      simp [Export.expr, h2, h3]
    have := hr _ hc (.mk _ trivial (by simpa [subs] using ⟨hs.2.1, hs.2.2⟩) (by simp [keys]))
    rw [expr, this, hl _ h1 hs.1, Comp.expr, Comp.expr]
    cases as' with
    | nil => simp [Comp.join, Comp.exprs]
    | cons b bs => simp [Comp.join, Comp.exprs]
  | call q l as hl has =>
    intro a ha hp
    simp only [Export.expr, Option.bind_eq_bind, Option.bind_eq_some_iff, Option.some.injEq] at ha
    obtain ⟨l', h2, as', h3, rfl⟩ := ha
    have hs := hp.sub
    simp only [subs, List.forall_mem_cons] at hs
    have hx := same_list has h3 hs.2
    rw [expr, Comp.expr, hl _ h2 hs.1, hx, join_eq]
    cases as <;> cases as' <;> simp_all [exprs, Comp.exprs]
  | dot q l rp n hl =>
    intro a ha hp
    simp only [Export.expr, Option.bind_eq_bind, Option.bind_eq_some_iff, Option.some.injEq] at ha
    obtain ⟨l', h2, rfl⟩ := ha
    have hs := hp.sub
    simp only [subs, List.forall_mem_cons] at hs
    rw [expr, Comp.expr, hl _ h2 hs.1]
  | atom q t v =>
    intro a ha hp
    simp only [Export.expr, Option.some.injEq] at ha
    subst ha
    cases t <;> simp [Export.atom, expr, Comp.expr]
  | list q vs h =>
    intro a ha hp
    simp only [Export.expr, Option.bind_eq_bind, Option.bind_eq_some_iff, Option.some.injEq] at ha
    obtain ⟨as', h3, rfl⟩ := ha
    have hx := same_list h h3 hp.sub
    rw [expr, Comp.expr, listForm_eq, hx]
    cases as' <;> simp [Comp.exprs]
  | dict q vs h =>
    intro a ha hp
    simp only [Export.expr, Option.bind_eq_bind, Option.bind_eq_some_iff, Option.some.injEq] at ha
    obtain ⟨as', h3, rfl⟩ := ha
    have hx := same_pairs h h3 fun a ha => ⟨hp.key _ (List.mem_map.2 ⟨a, ha, rfl⟩), hp.sub _ (List.mem_map.2 ⟨a, ha, rfl⟩)⟩
    rw [expr, Comp.expr, listForm_eq, hx]
    cases as' with
    | nil => rfl
    | cons x l => obtain ⟨k, v⟩ := x; simp [Comp.pairs]
  | curlyname q vs h =>
    intro a ha hp
    simp only [Export.expr, Option.bind_eq_bind, Option.bind_eq_some_iff] at ha
    obtain ⟨as', h3, ha⟩ := ha
    split at ha
    · cases ha
      rw [expr, Comp.expr, join_eq, same_list h h3 hp.sub]
    · cases ha
  | curlyexpr q e h =>
    intro a ha hp
    simp only [Export.expr, Option.bind_eq_bind, Option.bind_eq_some_iff, Option.some.injEq] at ha
    obtain ⟨l', h2, rfl⟩ := ha
    have hs := hp.sub
    simp only [subs, List.forall_mem_cons] at hs
    rw [expr, Comp.expr, h _ h2 hs.1]
  | lambda q ps e h =>
    intro a ha hp
    simp only [Export.expr, Option.bind_eq_bind, Option.bind_eq_some_iff, Option.some.injEq] at ha
    obtain ⟨l', h2, rfl⟩ := ha
    have hs := hp.sub
    simp only [subs, List.forall_mem_cons] at hs
    rw [expr, Comp.expr, h _ h2 hs.1, join_eq]
    simp [Export.idents, Function.comp_def]
  | paren q e h =>
    intro a ha hp
    simp only [Export.expr, Option.bind_eq_bind, Option.bind_eq_some_iff, Option.some.injEq] at ha
    obtain ⟨l', h2, rfl⟩ := ha
    have hs := hp.sub
    simp only [subs, List.forall_mem_cons] at hs
    rw [expr, Comp.expr, h _ h2 hs.1]
  | heredoc q rl op b =>
    intro a ha hp
    simp only [Export.expr, Option.some.injEq] at ha
    subst ha
    obtain ⟨h1, h2⟩ := hp.own
    have hf : (rl.map fun x => escapeString x.2) = (rl.map Prod.snd).map fun x => cs!"\"" ++ x ++ cs!"\"" := by
      rw [List.map_map]
      apply List.map_congr_left
      intro x hx
      have : noCtrl x.2 := h2 (Export.pos fn x.1) .STRING x.2 (List.mem_map.2 ⟨x, hx, rfl⟩)
      simp [escapeString, escapeNTR_eq, ctrl_id this]
    have hb : (b.map fun x => escapeString x.2) =
        (b.map Prod.snd).map fun x => cs!"\"" ++ Comp.escape cs!"\n\t\r" x ++ cs!"\"" := by
      rw [List.map_map]
      apply List.map_congr_left
      intro x hx
      simp [escapeString, escapeNTR_eq, Comp.escape_ctrl]
    rw [expr, Comp.expr, hf, hb, listForm_eq, listForm_eq, exprs_strs, exprs_strs, escapeString, escapeNTR_eq, ctrl_id h1]
    simp [Export.strs]

theorem expr_text {e : VExpr} {a : Ast.Expr} (ha : Export.expr fn e = some a) (hp : PlainE a) : expr e = (sx a).text := by
  rw [same e a ha hp, Comp.expr_eq]

theorem exprs_text {l : List VExpr} {as : List Ast.Expr} (ha : Export.exprs fn l = some as) (hp : ∀ a ∈ as, PlainE a) :
    join cs!" " (exprs l) = sxWords as := by
  rw [join_eq, same_list (fun x _ => same x) ha hp, Comp.exprs_words]

/-! ### Statements -/

/-- The stack of indentations at level `d`. -/
def inds : Nat → List Str
  | 0 => [[]]
  | d + 1 => indent (d + 1) :: inds d

theorem inds_cons (d : Nat) : ∃ r, inds d = indent d :: r := by
  cases d with
  | zero => exact ⟨[], rfl⟩
  | succ d => exact ⟨inds d, rfl⟩

theorem bind_run {α β : Type} {x : M α} {f : α → M β} {st st' : St} {a : α} (h : x st = some (a, st')) :
    (x >>= f) st = f a st' := by
  simp [Bind.bind, StateT.bind, h]

theorem out_run (s : Str) (d : Nat) (ls : List Str) : out s ⟨inds d, ls⟩ = some ((), ⟨inds d, ls ++ [indent d ++ s]⟩) := by
  obtain ⟨r, h⟩ := inds_cons d
  simp [out, h]

theorem out0_run (c : Char) (s : Str) (hc : c ≠ ')') (d : Nat) (ls : List Str) :
    out0 (c :: s) ⟨inds d, ls⟩ = some ((), ⟨inds d, ls ++ [indent d ++ c :: s]⟩) := by
  obtain ⟨r, h⟩ := inds_cons d
  simp [out0, h, hc]

theorem inc_run (d : Nat) (ls : List Str) : incindent cs!"  " ⟨inds d, ls⟩ = some ((), ⟨inds (d + 1), ls⟩) := by
  obtain ⟨r, h⟩ := inds_cons d
  have : indent d ++ cs!"  " = indent (d + 1) := by
    unfold indent
    rw [Nat.mul_add, show cs!"  " = List.replicate 2 ' ' from rfl, List.replicate_append_replicate]
  simp only [incindent, h, this, inds]

theorem dec_run (d : Nat) (ls : List Str) : decindent ⟨inds (d + 1), ls⟩ = some ((), ⟨inds d, ls⟩) := by
  simp [decindent, inds]

theorem close_run (i : List Str) (ls : List Str) (x : Str) (xs : List Str) :
    out0 cs!")" ⟨i, ls ++ x :: xs⟩ = some ((), ⟨i, ls ++ close (x :: xs)⟩) := by
  obtain ⟨m, l, h⟩ : ∃ m l, x :: xs = m ++ [l] :=
    ⟨_, _, (List.dropLast_concat_getLast (List.cons_ne_nil x xs)).symm⟩
  rw [h, Comp.close_append, ← List.append_assoc]
  simp [out0]

theorem lockStr_eq {l : List VExpr} {as : List Ast.Expr} (ha : Export.exprs fn l = some as) (hp : ∀ a ∈ as, PlainE a)
    (n : Str) (d : Nat) : lockStr n d l = form n (depthWord d ++ sxWords as) := by
  unfold lockStr
  rw [exprs_text ha hp]
  unfold depthWord form natStr
  split <;> simp

theorem lhsStr_eq {lhs : Lhs} {l rest : Option Ast.Expr} {ls : List Ast.Expr}
    (h1 : Export.exprOpt fn lhs.left = some l) (h2 : Export.exprs fn lhs.list = some ls)
    (h3 : Export.exprOpt fn lhs.rest = some rest) (hp : ∀ a ∈ l.toList ++ ls ++ rest.toList, PlainE a) :
    lhsStr lhs = lhsText l ls rest := by
  unfold lhsStr lhsText
  cases hl : lhs.left with
  | some e =>
    rw [hl] at h1
    simp only [Export.exprOpt, Option.bind_eq_bind, Option.bind_eq_some_iff, Option.some.injEq] at h1
    obtain ⟨a, h1, rfl⟩ := h1
    simp only [expr_text h1 (hp a (by simp))]
  | none =>
    rw [hl] at h1
    simp only [Export.exprOpt, Option.some.injEq] at h1
    subst h1
    have e2 := exprs_text h2 fun a ha => hp a (by simp [ha])
    cases hr : lhs.rest with
    | none =>
      rw [hr] at h3
      simp only [Export.exprOpt, Option.some.injEq] at h3
      subst h3
      simp only [e2, List.append_nil]
    | some e =>
      rw [hr] at h3
      simp only [Export.exprOpt, Option.bind_eq_bind, Option.bind_eq_some_iff, Option.some.injEq] at h3
      obtain ⟨a, h3, rfl⟩ := h3
      simp only [e2, expr_text h3 (hp a (by simp))]
      simp

theorem paramStrs_eq (ps defs : List Str) : paramStrs ps defs = (Comp.paramStrs ps defs).flatMap (' ' :: ·) := by
  induction ps with
  | nil => rfl
  | cons p ps ih =>
    rw [paramStrs, Comp.paramStrs, ih]
    split <;> simp

theorem words_flat (x : Str) (l : List Str) : words (x :: l) = x ++ l.flatMap (' ' :: ·) := by
  induction l generalizing x with
  | nil => simp [words]
  | cons y l ih => rw [List.flatMap_cons, words, List.intercalate_cons_cons, ← words, ih]; simp

theorem funcHead_eq {l : VExpr} {n : Ast.Expr} {rl : List (Pos × Str)} {da : List VExpr} {da' : List Ast.Expr}
    (h1 : Export.expr fn l = some n) (h2 : Export.exprs fn da = some da') (hn : PlainE n) (hd : ∀ a ∈ da', PlainE a) :
    funcHead (expr l) (rl.map Prod.snd) (exprs da) = words ((sx n).text :: sigWords (Export.idents fn rl) da') := by
  have hi : (Export.idents fn rl).map (·.name) = rl.map Prod.snd := by
    simp [Export.idents, Function.comp_def]
  rw [words_flat, expr_text h1 hn, same_list (fun x _ => same x) h2 hd, Comp.exprs_eq]
  unfold funcHead sigWords
  simp only [hi]
  cases rl with
  | nil => simp [paramWords]
  | cons p rl =>
    rw [if_neg (by simp)]
    split
    · rw [paramStrs_eq, Comp.paramStrs_eq]; simp
    · rw [paramStrs_eq, Comp.paramStrs_eq]

theorem named_eq {ea : Ast.ExArg} {n : Str} (h : Named ea n) : nameOf ea = n := by
  obtain ⟨c, h1, h2⟩ := h
  simp [nameOf, h1, h2]

/-- How the reference compiler prints a statement that is exported as `a`. -/
structure RPrints (n : VStmt) (a : Ast.Stmt) : Prop where
  stmt : isPart (kind a) = false → ∀ ls d, stmt n ⟨inds d, ls⟩ = some ((), ⟨inds d, ls ++ lines funcLine d a⟩)
  elseIf : kind a = .elseIf → ∀ r ls d, elseifs (n :: r) ⟨inds d, ls⟩ = elseifs r ⟨inds d, ls ++ lines funcLine d a⟩
  else_ : kind a = .else_ → ∀ ls d, elseOpt (some n) ⟨inds d, ls⟩ = some ((), ⟨inds d, ls ++ lines funcLine d a⟩)
  catch_ : kind a = .catch_ → ∀ r ls d,
    catches (n :: r) ⟨inds (d + 1), ls⟩ = catches r ⟨inds (d + 1), ls ++ lines funcLine d a⟩
  finally_ : kind a = .finally_ → ∀ ls d,
    finallyOpt (some n) ⟨inds (d + 1), ls⟩ = some ((), ⟨inds (d + 1), ls ++ lines funcLine d a⟩)

/-- What is needed of a statement of the public tree. -/
def Ready (s : Ast.Stmt) : Prop := wellPlaced s ∧ nameOK s ∧ ∀ e ∈ exprsOf s, PlainE e

theorem stmts_run {l : List VStmt} {as : List Ast.Stmt} (h : Export.stmts fn l = some as)
    (hR : ∀ n ∈ l, ∀ a ∈ as, Export.stmt fn n = some a → RPrints n a) (hp : NoParts as) (ls : List Str) (d : Nat) :
    stmts l ⟨inds d, ls⟩ = some ((), ⟨inds d, ls ++ linesL funcLine d as⟩) := by
  induction l generalizing as ls with
  | nil => simp only [Export.stmts, Option.some.injEq] at h; subst h; simp [stmts, linesL]; rfl
  | cons n l ih =>
    simp only [Export.stmts, Option.bind_eq_bind, Option.bind_eq_some_iff, Option.some.injEq] at h
    obtain ⟨a, h1, as', h2, rfl⟩ := h
    rw [stmts, bind_run ((hR n (by simp) a (by simp) h1).stmt (hp a (by simp)) ls d),
      ih h2 (fun n hn a ha => hR n (by simp [hn]) a (by simp [ha])) (fun x hx => hp x (by simp [hx])), linesL]
    simp

theorem elseifs_run {l : List VStmt} {as : List Ast.Stmt} (h : Export.stmts fn l = some as)
    (hR : ∀ n ∈ l, ∀ a ∈ as, Export.stmt fn n = some a → RPrints n a) (hp : ∀ x ∈ as, kind x = .elseIf) (ls : List Str)
    (d : Nat) : elseifs l ⟨inds d, ls⟩ = some ((), ⟨inds d, ls ++ linesL funcLine d as⟩) := by
  induction l generalizing as ls with
  | nil => simp only [Export.stmts, Option.some.injEq] at h; subst h; simp [elseifs, linesL]; rfl
  | cons n l ih =>
    simp only [Export.stmts, Option.bind_eq_bind, Option.bind_eq_some_iff, Option.some.injEq] at h
    obtain ⟨a, h1, as', h2, rfl⟩ := h
    rw [(hR n (by simp) a (by simp) h1).elseIf (hp a (by simp)) l ls d,
      ih h2 (fun n hn a ha => hR n (by simp [hn]) a (by simp [ha])) (fun x hx => hp x (by simp [hx])), linesL]
    simp

theorem catches_run {l : List VStmt} {as : List Ast.Stmt} (h : Export.stmts fn l = some as)
    (hR : ∀ n ∈ l, ∀ a ∈ as, Export.stmt fn n = some a → RPrints n a) (hp : ∀ x ∈ as, kind x = .catch_) (ls : List Str)
    (d : Nat) : catches l ⟨inds (d + 1), ls⟩ = some ((), ⟨inds (d + 1), ls ++ linesL funcLine d as⟩) := by
  induction l generalizing as ls with
  | nil => simp only [Export.stmts, Option.some.injEq] at h; subst h; simp [catches, linesL]; rfl
  | cons n l ih =>
    simp only [Export.stmts, Option.bind_eq_bind, Option.bind_eq_some_iff, Option.some.injEq] at h
    obtain ⟨a, h1, as', h2, rfl⟩ := h
    rw [(hR n (by simp) a (by simp) h1).catch_ (hp a (by simp)) l ls d,
      ih h2 (fun n hn a ha => hR n (by simp [hn]) a (by simp [ha])) (fun x hx => hp x (by simp [hx])), linesL]
    simp

theorem elseOpt_run {o : Option VStmt} {a : Option Ast.Stmt} (h : Export.stmtOpt fn o = some a)
    (hR : ∀ n ∈ o.toList, ∀ x ∈ a.toList, Export.stmt fn n = some x → RPrints n x) (hp : ∀ x, a = some x → kind x = .else_)
    (ls : List Str) (d : Nat) : elseOpt o ⟨inds d, ls⟩ = some ((), ⟨inds d, ls ++ linesO funcLine d a⟩) := by
  cases o with
  | none => simp only [Export.stmtOpt, Option.some.injEq] at h; subst h; simp [elseOpt, linesO]; rfl
  | some n =>
    simp only [Export.stmtOpt, Option.bind_eq_bind, Option.bind_eq_some_iff, Option.some.injEq] at h
    obtain ⟨x, h1, rfl⟩ := h
    rw [(hR n (by simp) x (by simp) h1).else_ (hp x rfl), linesO]

theorem finallyOpt_run {o : Option VStmt} {a : Option Ast.Stmt} (h : Export.stmtOpt fn o = some a)
    (hR : ∀ n ∈ o.toList, ∀ x ∈ a.toList, Export.stmt fn n = some x → RPrints n x)
    (hp : ∀ x, a = some x → kind x = .finally_)
    (ls : List Str) (d : Nat) : finallyOpt o ⟨inds (d + 1), ls⟩ = some ((), ⟨inds (d + 1), ls ++ linesO funcLine d a⟩) := by
  cases o with
  | none => simp only [Export.stmtOpt, Option.some.injEq] at h; subst h; simp [finallyOpt, linesO]; rfl
  | some n =>
    simp only [Export.stmtOpt, Option.bind_eq_bind, Option.bind_eq_some_iff, Option.some.injEq] at h
    obtain ⟨x, h1, rfl⟩ := h
    rw [(hR n (by simp) x (by simp) h1).finally_ (hp x rfl), linesO]

/-- Statements printed on one line. -/
theorem leaf_run {n : VStmt} {a : Ast.Stmt} (hk : kind a = .other)
    (h : ∀ ls d, stmt n ⟨inds d, ls⟩ = some ((), ⟨inds d, ls ++ [indent d ++ firstLine a]⟩)) : RPrints n a := by
  refine ⟨?_, ?_, ?_, ?_, ?_⟩ <;> rw [hk]
  · intro _ ls d
    rw [h]
    cases a <;> simp [kind] at hk <;> simp [lines]
  all_goals nofun

theorem rprints {ctx : List Kind} {a : Ast.Stmt} (h : AllS (fun _ s => Ready s) ctx a) {n : VStmt}
    (ha : Export.stmt fn n = some a) (ht : AllV tag n) : RPrints n a := by
  induction h generalizing n with
  | mk ctx a hr h0 ih =>
    clear h0
    obtain ⟨hw, hn, hx⟩ := hr
    obtain ⟨_, t1, t2⟩ := ht
    have ih' : ∀ x ∈ subStmts a, ∀ m ∈ vsubs n, Export.stmt fn m = some x → RPrints m x :=
      fun x hx m hm e => ih x hx e (t2 m hm)
    clear ih t2
    have nm : ∀ {ea n}, (∃ ea' n', some ea = some ea' ∧ Named ea' n' ∧ n' ∈ [n]) → nameOf ea = n := by
      rintro ea n ⟨ea', n', e, h1, h2⟩
      cases e
      rw [List.mem_singleton] at h2
      subst h2
      exact named_eq h1
    cases n
    case comment q s =>
      simp only [Export.stmt, Option.some.injEq] at ha
      subst ha
      exact leaf_run rfl fun ls d => by rw [stmt, out_run]; simp [firstLine]
    case excmd q ea s =>
      simp only [Export.stmt, Option.some.injEq] at ha
      subst ha
      exact leaf_run rfl fun ls d => by rw [stmt, out_run, escapeQ_eq]; simp [firstLine, form]
    case delfunction q ea l =>
      simp only [Export.stmt, Option.bind_eq_bind, Option.bind_eq_some_iff, Option.some.injEq] at ha
      obtain ⟨l', h1, rfl⟩ := ha
      have e1 := expr_text h1 (hx _ (by simp [exprsOf]))
      have e2 := nm hn
      exact leaf_run rfl fun ls d => by rw [stmt, out_run, e1]; simp [firstLine, form, e2]
    case return_ q ea o =>
      simp only [Export.stmt, Option.bind_eq_bind, Option.bind_eq_some_iff, Option.some.injEq] at ha
      obtain ⟨l', h1, rfl⟩ := ha
      cases o with
      | none =>
        simp only [Export.exprOpt, Option.some.injEq] at h1
        subst h1
        have e2 := nm hn
        exact leaf_run rfl fun ls d => by rw [stmt, out0_run _ _ (by decide)]; simp [firstLine, e2]
      | some e =>
        simp only [Export.exprOpt, Option.bind_eq_bind, Option.bind_eq_some_iff, Option.some.injEq] at h1
        obtain ⟨l, h1, rfl⟩ := h1
        have e1 := expr_text h1 (hx _ (by simp [exprsOf]))
        have e2 := nm hn
        exact leaf_run rfl fun ls d => by rw [stmt, out_run, e1]; simp [firstLine, form, e2]
    case excall q ea l =>
      cases l <;> simp only [Export.stmt, reduceCtorEq, Option.bind_eq_bind, Option.bind_eq_some_iff, Option.some.injEq] at ha
      rename_i cq f as
      obtain ⟨f', h1, as', h2, rfl⟩ := ha
      have hc : Export.expr fn (.call cq f as) = some (.call f' (Export.pos fn cq) as') := by
        simp [Export.expr, h1, h2]
      have e1 := expr_text hc (hx _ (by simp [exprsOf]))
      have e2 := nm hn
      exact leaf_run rfl fun ls d => by rw [stmt, out_run, e1]; simp [firstLine, form, e2]
    case let_ q ea op lhs r =>
      simp only [Export.stmt, Option.bind_eq_bind, Option.bind_eq_some_iff, Option.some.injEq] at ha
      obtain ⟨l', h1, ls', h2, rest', h3, r', h4, rfl⟩ := ha
      have e1 := lhsStr_eq h1 h2 h3 fun a ha => hx a (by simp only [exprsOf]; exact List.mem_append_left _ ha)
      have e2 := expr_text h4 (hx r' (by simp [exprsOf]))
      have e3 : nameOf (Export.exArg fn ea) = cs!"let" := named_eq t1
      exact leaf_run rfl fun ls d => by rw [stmt, out_run, e1, e2]; simp [firstLine, form, e3]
    case const_ q ea op lhs r =>
      simp only [Export.stmt, Option.bind_eq_bind, Option.bind_eq_some_iff, Option.some.injEq] at ha
      obtain ⟨l', h1, ls', h2, rest', h3, r', h4, rfl⟩ := ha
      have e1 := lhsStr_eq h1 h2 h3 fun a ha => hx a (by simp only [exprsOf]; exact List.mem_append_left _ ha)
      have e2 := expr_text h4 (hx r' (by simp [exprsOf]))
      have e3 : nameOf (Export.exArg fn ea) = cs!"const" := named_eq t1
      exact leaf_run rfl fun ls d => by rw [stmt, out_run, e1, e2]; simp [firstLine, form, e3]
    case unlet q ea l =>
      simp only [Export.stmt, Option.bind_eq_bind, Option.bind_eq_some_iff, Option.some.injEq] at ha
      obtain ⟨l', h1, rfl⟩ := ha
      have e1 := exprs_text h1 hx
      have e2 := nm hn
      exact leaf_run rfl fun ls d => by rw [stmt, out_run, e1]; simp [firstLine, form, e2]
    case lockvar q ea dp l =>
      simp only [Export.stmt, Option.bind_eq_bind, Option.bind_eq_some_iff, Option.some.injEq] at ha
      obtain ⟨l', h1, rfl⟩ := ha
      have e2 := nm hn
      exact leaf_run rfl fun ls d => by rw [stmt, out_run, lockStr_eq h1 hx]; simp [firstLine, e2]
    case unlockvar q ea dp l =>
      simp only [Export.stmt, Option.bind_eq_bind, Option.bind_eq_some_iff, Option.some.injEq] at ha
      obtain ⟨l', h1, rfl⟩ := ha
      have e2 := nm hn
      exact leaf_run rfl fun ls d => by rw [stmt, out_run, lockStr_eq h1 hx]; simp [firstLine, e2]
    case continue_ q ea =>
      simp only [Export.stmt, Option.some.injEq] at ha
      subst ha
      have e2 := nm hn
      exact leaf_run rfl fun ls d => by rw [stmt, out0_run _ _ (by decide)]; simp [firstLine, e2]
    case break_ q ea =>
      simp only [Export.stmt, Option.some.injEq] at ha
      subst ha
      have e2 := nm hn
      exact leaf_run rfl fun ls d => by rw [stmt, out0_run _ _ (by decide)]; simp [firstLine, e2]
    case throw q ea l =>
      simp only [Export.stmt, Option.bind_eq_bind, Option.bind_eq_some_iff, Option.some.injEq] at ha
      obtain ⟨l', h1, rfl⟩ := ha
      have e1 := expr_text h1 (hx _ (by simp [exprsOf]))
      have e2 := nm hn
      exact leaf_run rfl fun ls d => by rw [stmt, out_run, e1]; simp [firstLine, form, e2]
    case eval q ea l =>
      simp only [Export.stmt, Option.bind_eq_bind, Option.bind_eq_some_iff, Option.some.injEq] at ha
      obtain ⟨l', h1, rfl⟩ := ha
      have e1 := expr_text h1 (hx _ (by simp [exprsOf]))
      have e2 := nm hn
      exact leaf_run rfl fun ls d => by rw [stmt, out_run, e1]; simp [firstLine, form, e2]
    case echo t q ea l =>
      simp only [Export.stmt, Option.bind_eq_bind, Option.bind_eq_some_iff, Option.some.injEq] at ha
      obtain ⟨l', h1, cmd, h2, rfl⟩ := ha
      have e1 := exprs_text h1 hx
      have e3 : nameOf (Export.exArg fn ea) = echoName t := named_eq t1
      exact leaf_run rfl fun ls d => by rw [stmt, out_run, e1]; simp [firstLine, form, e3]
    case echohl q ea s =>
      simp only [Export.stmt, Option.some.injEq] at ha
      subst ha
      have e2 := nm hn
      exact leaf_run rfl fun ls d => by rw [stmt, out_run, escapeQ_eq]; simp [firstLine, form, e2]
    case execute q ea l =>
      simp only [Export.stmt, Option.bind_eq_bind, Option.bind_eq_some_iff, Option.some.injEq] at ha
      obtain ⟨l', h1, rfl⟩ := ha
      have e1 := exprs_text h1 hx
      have e2 := nm hn
      exact leaf_run rfl fun ls d => by rw [stmt, out_run, e1]; simp [firstLine, form, e2]
    case function q ea body l rl da at_ e =>
      simp only [Export.stmt, Option.bind_eq_bind, Option.bind_eq_some_iff, Option.some.injEq] at ha
      obtain ⟨b', h1, l', h2, da', h3, e', h4, rfl⟩ := ha
      have e1 := funcHead_eq (rl := rl) h2 h3 (hx _ (by simp [exprsOf])) fun a ha => hx a (by simp [exprsOf, ha])
      refine ⟨fun _ ls d => ?_, nofun, nofun, nofun, nofun⟩
      rw [stmt, bind_run (out_run _ _ _), bind_run (inc_run _ _), bind_run (stmts_run h1 (fun n hn a ha => ih' a ha n hn) hw _ _),
        List.append_assoc, List.singleton_append, bind_run (close_run _ _ _ _), dec_run, e1, lines]
      simp [funcLine]
    case while_ q ea body c e =>
      simp only [Export.stmt, Option.bind_eq_bind, Option.bind_eq_some_iff, Option.some.injEq] at ha
      obtain ⟨b', h1, c', h2, e', h3, rfl⟩ := ha
      have e1 := expr_text h2 (hx _ (by simp [exprsOf]))
      have e2 := nm hn
      refine ⟨fun _ ls d => ?_, nofun, nofun, nofun, nofun⟩
      rw [stmt, bind_run (out_run _ _ _), bind_run (inc_run _ _), bind_run (stmts_run h1 (fun n hn a ha => ih' a ha n hn) hw _ _),
        List.append_assoc, List.singleton_append, bind_run (close_run _ _ _ _), dec_run, e1, lines]
      simp [firstLine, e2]
    case for_ q ea body lhs r e =>
      simp only [Export.stmt, Option.bind_eq_bind, Option.bind_eq_some_iff, Option.some.injEq] at ha
      obtain ⟨b', h0, l', h1, ls', h2, rest', h3, r', h4, e', h5, rfl⟩ := ha
      have e1 := lhsStr_eq h1 h2 h3 fun a ha => hx a (by simp only [exprsOf]; exact List.mem_append_left _ ha)
      have e2 := expr_text h4 (hx r' (by simp [exprsOf]))
      have e3 := nm hn
      refine ⟨fun _ ls d => ?_, nofun, nofun, nofun, nofun⟩
      rw [stmt, bind_run (out_run _ _ _), bind_run (inc_run _ _), bind_run (stmts_run h0 (fun n hn a ha => ih' a ha n hn) hw _ _),
        List.append_assoc, List.singleton_append, bind_run (close_run _ _ _ _), dec_run, e1, e2, lines]
      simp [firstLine, e3]
    case if_ q ea body c eis el e =>
      simp only [Export.stmt, Option.bind_eq_bind, Option.bind_eq_some_iff] at ha
      obtain ⟨eis', h1, el', h2, b', h3, c', h4, e', h5, ha⟩ := ha
      split at ha
      · cases ha
        have e1 := expr_text h4 (hx _ (by simp [exprsOf]))
        have e2 := nm hn
        simp only [subStmts, vsubs] at ih'
        refine ⟨fun _ ls d => ?_, nofun, nofun, nofun, nofun⟩
        rw [stmt, bind_run (out_run _ _ _), bind_run (inc_run _ _),
          bind_run (stmts_run h3 (fun n hn a ha => ih' a (by simp [ha]) n (by simp [hn])) hw.1 _ _), bind_run (dec_run _ _),
          bind_run (elseifs_run h1 (fun n hn a ha => ih' a (by simp [ha]) n (by simp [hn])) hw.2.1 _ _),
          bind_run (elseOpt_run h2 (fun n hn a ha => ih' a (by simp only [List.mem_append, ha, or_true]) n
            (by simp only [List.mem_append, hn, or_true])) hw.2.2 _ _), bind_run (inc_run _ _),
          List.append_assoc, List.append_assoc, List.append_assoc, List.singleton_append, bind_run (close_run _ _ _ _), dec_run,
          e1, lines]
        simp [firstLine, e2]
      · cases ha
    case try_ q ea body cs fi e =>
      simp only [Export.stmt, Option.bind_eq_bind, Option.bind_eq_some_iff] at ha
      obtain ⟨cs', h1, fi', h2, b', h3, e', h5, ha⟩ := ha
      split at ha
      · cases ha
        have e2 := nm hn
        simp only [subStmts, vsubs] at ih'
        refine ⟨fun _ ls d => ?_, nofun, nofun, nofun, nofun⟩
        rw [stmt, bind_run (out0_run _ _ (by decide) _ _), bind_run (inc_run _ _),
          bind_run (stmts_run h3 (fun n hn a ha => ih' a (by simp [ha]) n (by simp [hn])) hw.1 _ _),
          bind_run (catches_run h1 (fun n hn a ha => ih' a (by simp [ha]) n (by simp [hn])) hw.2.1 _ _),
          bind_run (finallyOpt_run h2 (fun n hn a ha => ih' a (by simp only [List.mem_append, ha, or_true]) n
            (by simp only [List.mem_append, hn, or_true])) hw.2.2 _ _),
          List.append_assoc, List.append_assoc, List.append_assoc, List.singleton_append, bind_run (close_run _ _ _ _), dec_run,
          lines]
        simp [firstLine, e2]
      · cases ha
    case elseif q ea body c =>
      simp only [Export.stmt, Option.bind_eq_bind, Option.bind_eq_some_iff, Option.some.injEq] at ha
      obtain ⟨b', h1, c', h2, rfl⟩ := ha
      have e1 := expr_text h2 (hx _ (by simp [exprsOf]))
      have e2 := nm hn
      refine ⟨nofun, fun _ r ls d => ?_, nofun, nofun, nofun⟩
      rw [elseifs, bind_run (out_run _ _ _), bind_run (inc_run _ _), bind_run (stmts_run h1 (fun n hn a ha => ih' a ha n hn) hw _ _),
        bind_run (dec_run _ _), e1, lines]
      simp [firstLine, e2]
    case else_ q ea body =>
      simp only [Export.stmt, Option.bind_eq_bind, Option.bind_eq_some_iff, Option.some.injEq] at ha
      obtain ⟨b', h1, rfl⟩ := ha
      have e2 := nm hn
      refine ⟨nofun, nofun, fun _ ls d => ?_, nofun, nofun⟩
      rw [elseOpt, bind_run (out0_run _ _ (by decide) _ _), bind_run (inc_run _ _), bind_run (stmts_run h1 (fun n hn a ha => ih' a ha n hn) hw _ _),
        dec_run, lines]
      simp [firstLine, e2]
    case catch_ q ea body p =>
      simp only [Export.stmt, Option.bind_eq_bind, Option.bind_eq_some_iff, Option.some.injEq] at ha
      obtain ⟨b', h1, rfl⟩ := ha
      have e2 := nm hn
      refine ⟨nofun, nofun, nofun, fun _ r ls d => ?_, nofun⟩
      rw [catches, bind_run (dec_run _ _)]
      cases p with
      | nil =>
        rw [if_pos (by rfl), bind_run (out0_run _ _ (by decide) _ _)]
        dsimp only
        rw [bind_run (inc_run _ _), bind_run (stmts_run h1 (fun n hn a ha => ih' a ha n hn) hw _ _), lines]
        simp [firstLine, e2]
      | cons x p =>
        rw [if_neg (by simp), bind_run (out_run _ _ _)]
        dsimp only
        rw [bind_run (inc_run _ _), bind_run (stmts_run h1 (fun n hn a ha => ih' a ha n hn) hw _ _), lines]
        simp [firstLine, e2]
    case finally_ q ea body =>
      simp only [Export.stmt, Option.bind_eq_bind, Option.bind_eq_some_iff, Option.some.injEq] at ha
      obtain ⟨b', h1, rfl⟩ := ha
      have e2 := nm hn
      refine ⟨nofun, nofun, nofun, nofun, fun _ ls d => ?_⟩
      rw [finallyOpt, bind_run (dec_run _ _), bind_run (out0_run _ _ (by decide) _ _), bind_run (inc_run _ _), stmts_run h1 (fun n hn a ha => ih' a ha n hn) hw _ _,
        lines]
      simp [firstLine, e2]

theorem toplevel_eq {f : VFile} {a : Ast.File} (ha : Export.file fn f = some a) (h : AllF (fun _ s => Ready s) a)
    (hp : NoParts a.body) (ht : ∀ n ∈ f.body, AllV tag n) : toplevel f = some (linesL funcLine 0 a.body) := by
  simp only [Export.file, Option.bind_eq_bind, Option.bind_eq_some_iff, Option.some.injEq] at ha
  obtain ⟨as, h1, rfl⟩ := ha
  unfold toplevel
  rw [show ({} : St) = ⟨inds 0, []⟩ from rfl, stmts_run h1 (fun n hn a ha e => rprints (h a ha) e (ht n hn)) hp]
  simp

end Ref

theorem GdE.plain {env : Env} {fn : Str} {e : Ast.Expr} (h : GdE env fn e) : PlainE e := by
  have h2 := h.2
  clear h
  induction h2 with
  | mk e h1 h2 h3 ih1 ih2 =>
    refine .mk _ ?_ ih1 ?_
    · have := h1.prec
      cases e <;> simp only [plainHere]
      exact this.elim
    · intro k hk hl
      by_cases hK : litKey env fn k
      · exfalso
        apply hl
        cases k <;> simp only [litKey] at hK
        trivial
      · exact ih2 k hk hK

theorem word_noCtrl {s : Str} (h : ∀ c ∈ s, iswordc c = true) : noCtrl s := by
  intro c hc
  have := h c hc
  refine ⟨?_, ?_, ?_⟩ <;> rintro rfl <;> exact absurd this (by decide)

/-- Flags and end markers are words. -/
theorem Spec.HHead.plain {env : Env} {r r' : List Cell} {fl : List (Pos × Str)} {m : Str} (h : HHead env r fl m r') :
    noCtrl m ∧ ∀ x ∈ fl, noCtrl x.2 := by
  induction h with
  | marker _ _ _ h => exact ⟨word_noCtrl h.2, by simp⟩
  | flag _ _ _ h _ _ _ ih => exact ⟨ih.1, by simp only [List.mem_cons, forall_eq_or_imp]; exact ⟨word_noCtrl h.2, ih.2⟩⟩

theorem OkS.ready {env : Env} {fn : Str} {ctx : List Kind} {s : Ast.Stmt} (h : OkS env fn ctx s) :
    Ref.Ready s := by
  refine ⟨?_, h.name, ?_⟩
  · have := h.parts
    cases s <;> simp only [partsOK] at this <;> simp only [wellPlaced] <;> first
      | exact this
      | exact this.1
      | exact ⟨this.1, this.2.1, this.2.2.1⟩
  · intro e he
    cases hh : isHeredoc e with
    | false => exact (h.exprs e he hh).plain
    | true =>
      have h3 := h.text
      cases e <;> simp [isHeredoc] at hh
      rename_i q fl m b
      have key : ∃ ea, hereText env fn ea (.heredoc q fl m b) := by
        cases s
        case let_ q' ea op l ls rest r =>
          simp only [textOK] at h3
          simp only [exprsOf, List.mem_append, List.mem_singleton] at he
          rcases he with he | rfl
          · exfalso
            have ht := h.targets
            simp only [targetsOK] at ht
            rcases ht.1 with ⟨e', rfl, rfl, rfl, h4⟩ | ⟨rfl, _, h4, h5⟩
            · simp at he
              subst he
              exact h4
            · simp only [Option.toList_none, List.not_mem_nil, false_or] at he
              rcases he with he | he
              · exact h4 _ he
              · exact h5 _ (by simpa using he)
          · rw [if_pos (by rfl)] at h3
            exact ⟨ea, h3.2.2⟩
        case lockVar => exact absurd (h3.2 _ he) (by simp [isHeredoc])
        case unLockVar => exact absurd (h3.2 _ he) (by simp [isHeredoc])
        case comment => simp [exprsOf] at he
        case excmd => simp [exprsOf] at he
        case echohl => simp [exprsOf] at he
        case catch_ => simp [exprsOf] at he
        all_goals exact absurd (h3 _ he) (by simp [isHeredoc])
      obtain ⟨ea, _, _, _, fl', b', _, ⟨_, _, _, _, hd, _⟩, rfl, rfl⟩ := key
      have h2 := hd.plain
      refine .mk _ ⟨h2.1, fun q k v hv => ?_⟩ ?_ (by simp [keys])
      · simp only [strNodes, List.mem_map] at hv
        obtain ⟨x, hx, hv⟩ := hv
        cases hv
        exact h2.2 x hx
      intro x hx
      simp only [subs, strNodes, List.mem_append, List.mem_map] at hx
      obtain ⟨y, _, rfl⟩ | ⟨y, _, rfl⟩ := hx
      · exact .mk _ trivial (by simp [subs]) (by simp [keys])
      · exact .mk _ trivial (by simp [subs]) (by simp [keys])

/-- Both compilers start from the same tree. -/
theorem ref_parsed {nv : Bool} {fn : Str} {lines : List Str} {f : Ast.File} {er : Option ApiErr}
    (h : parseFileLines nv fn lines = some ⟨some f, er⟩) {vf : VFile} {r : List Cell}
    (hr : (parseToplevel nv).run (mkEnv lines) (mkEnv lines).buf = .ok vf r) :
    Ref.toplevel vf = some (linesL funcLine 0 f.body) := by
  have hf := (parseFileLines_all h).2
  have he := mkEnv_ok lines
  have hs := parseToplevel_spec (nv := nv) he (good_closed (fn := fn) he)
  unfold parseFileLines at h
  simp only [hr] at h
  cases ha : Export.file fn vf with
  | none => rw [ha] at h; cases h
  | some a =>
    rw [ha] at h
    cases h
    unfold wp at hs
    rw [show (parseToplevel nv).runWith tokGet (mkEnv lines) (mkEnv lines).buf = _ from hr] at hs
    obtain ⟨_, bs, st, hs, h1, h2, rfl⟩ := hs
    have hg : StackV tag ((initState nv).cur :: (initState nv).stack) := by
      intro f hf
      simp only [initState, List.mem_singleton] at hf
      subst hf
      simp
    have hv := hg.steps tag_close tag_simple hs
    refine Ref.toplevel_eq ha ?_ hf.parts (hv st.cur (by simp)).1
    intro s hs'
    exact (hf.all s hs').imp fun _ _ h => h.ready

/-! ### Files without nested functions -/

theorem paramWords_length (ps da : List Str) : (paramWords ps da).length = ps.length := by
  simp [paramWords]; omega

theorem sigWords_ne {ps : List Ast.Ident} (h : ps ≠ []) (da : List Ast.Expr) : sigWords ps da ≠ [] := by
  unfold sigWords
  dsimp only
  split
  · simp
  · intro h'
    have := congrArg List.length h'
    rw [paramWords_length] at this
    apply h
    simpa using this

theorem funcLine_zero (n : Ast.Expr) (ps : List Ast.Ident) (da : List Ast.Expr) : funcLine' 0 n ps da = funcLine 0 n ps da := by
  unfold funcLine' funcLine
  by_cases h : ps = []
  · subst h
    simp [indent, sigWords, paramWords, words]
  · obtain ⟨x, l, e⟩ := List.exists_cons_of_ne_nil (sigWords_ne h da)
    rw [if_neg h, e]
    simp [indent, words]

theorem lines_eq {ctx : List Kind} {s : Ast.Stmt} (h : AllS (topFunction) ctx s) {d : Nat}
    (hd : ctx = [] → d = 0) : lines funcLine' d s = lines funcLine d s := by
  induction h generalizing d with
  | mk ctx s h1 h0 ih =>
    clear h0
    have hL : ∀ (l : List Ast.Stmt) d, (∀ x ∈ l, x ∈ subStmts s) → linesL funcLine' d l = linesL funcLine d l := by
      intro l d hl
      induction l with
      | nil => simp [linesL]
      | cons x l ihl =>
        rw [List.forall_mem_cons] at hl
        rw [linesL, linesL, ih x hl.1 (by simp), ihl hl.2]
    have hO : ∀ (o : Option Ast.Stmt) d, (∀ x ∈ o.toList, x ∈ subStmts s) → linesO funcLine' d o = linesO funcLine d o := by
      intro o d ho
      cases o with
      | none => simp [linesO]
      | some x => rw [linesO, linesO, ih x (ho x (by simp)) (by simp)]
    cases s <;> simp only [lines]
    case function =>
      rw [hL _ _ (by simp [subStmts])]
      cases hd (h1 rfl)
      rw [funcLine_zero]
    case if_ => rw [hL _ _ fun x hx => by simp [subStmts, hx], hL _ _ fun x hx => by simp [subStmts, hx],
      hO _ _ fun x hx => by simp only [subStmts, List.mem_append, hx, or_true]]
    case try_ => rw [hL _ _ fun x hx => by simp [subStmts, hx], hL _ _ fun x hx => by simp [subStmts, hx],
      hO _ _ fun x hx => by simp only [subStmts, List.mem_append, hx, or_true]]
    case elseIf | else_ | while_ | for_ | catch_ | finally_ => rw [hL _ _ (by simp [subStmts])]

theorem linesL_eq {l : List Ast.Stmt} (h : ∀ s ∈ l, AllS (topFunction) [] s) :
    linesL funcLine' 0 l = linesL funcLine 0 l := by
  induction l with
  | nil => simp [linesL]
  | cons x l ihl =>
    rw [List.forall_mem_cons] at h
    rw [linesL, linesL, lines_eq h.1 (fun _ => rfl), ihl h.2]

/-- Length of the printed lines. -/
def size (ls : List Str) : Nat := (unlines ls).length

theorem size_cons (l : Str) (ls : List Str) : size (l :: ls) = l.length + 1 + size ls := by
  simp [size, unlines]; omega

theorem size_append (a b : List Str) : size (a ++ b) = size a + size b := by
  simp [size, unlines]

theorem size_close (l : Str) (ls : List Str) : size (close (l :: ls)) = l.length + 2 + size ls := by
  induction ls generalizing l with
  | nil => simp [close, size, unlines]
  | cons m ls ih => rw [close, size_cons, ih, size_cons]; omega

theorem funcLine_length (d : Nat) (n : Ast.Expr) (ps : List Ast.Ident) (da : List Ast.Expr) :
    (funcLine d n ps da).length + 2 * d ≤ (funcLine' d n ps da).length := by
  unfold funcLine' funcLine
  by_cases h : ps = []
  · subst h
    simp [indent, sigWords, paramWords, words]; omega
  · obtain ⟨x, l, e⟩ := List.exists_cons_of_ne_nil (sigWords_ne h da)
    rw [if_neg h, e]
    simp [indent, words]; omega

/-- Functions inside of blocks make the text longer. -/
theorem lines_size {P : List Kind → Ast.Stmt → Prop} {ctx : List Kind} {s : Ast.Stmt} (hP : ∀ ctx s, P ctx s → wellPlaced s)
    (h : AllS P ctx s) {d : Nat} (hd : kind s = .function → d = 0 → ctx = []) :
    size (lines funcLine d s) ≤ size (lines funcLine' d s) ∧
      (size (lines funcLine d s) = size (lines funcLine' d s) → AllS topFunction ctx s) := by
  induction h generalizing d with
  | mk ctx s h1 h0 ih =>
    clear h0
    replace h1 := hP _ _ h1
    have hL : ∀ (l : List Ast.Stmt) d', (∀ x ∈ l, x ∈ subStmts s) → (∀ x ∈ l, kind x = .function → d' ≠ 0) →
        size (linesL funcLine d' l) ≤ size (linesL funcLine' d' l) ∧
        (size (linesL funcLine d' l) = size (linesL funcLine' d' l) → ∀ x ∈ l, AllS topFunction (kind s :: ctx) x) := by
      intro l d' hl hk
      induction l with
      | nil => simp [linesL]
      | cons x l ihl =>
        rw [List.forall_mem_cons] at hl hk
        have h3 := ih x hl.1 (d := d') (fun hx h0 => absurd h0 (hk.1 hx))
        have h4 := ihl hl.2 hk.2
        rw [linesL, linesL, size_append, size_append]
        refine ⟨by omega, fun he => ?_⟩
        rw [List.forall_mem_cons]
        exact ⟨h3.2 (by omega), h4.2 (by omega)⟩
    have hO : ∀ (o : Option Ast.Stmt) d', (∀ x ∈ o.toList, x ∈ subStmts s) → (∀ x ∈ o.toList, kind x = .function → d' ≠ 0) →
        size (linesO funcLine d' o) ≤ size (linesO funcLine' d' o) ∧
        (size (linesO funcLine d' o) = size (linesO funcLine' d' o) →
          ∀ x ∈ o.toList, AllS topFunction (kind s :: ctx) x) := by
      intro o d' hl hk
      cases o with
      | none => simp [linesO]
      | some x =>
        have h3 := ih x (hl x (by simp)) (d := d') (fun hx h0 => absurd h0 (hk x (by simp) hx))
        rw [linesO, linesO]
        exact ⟨h3.1, fun he y hy => by simp at hy; subst hy; exact h3.2 he⟩
    have hB : ∀ b : List Ast.Stmt, subStmts s = b → kind s ≠ .function → 
        (∃ l : Str, ((∀ fl, lines fl d s = l :: linesL fl (d + 1) b) ∨
          (∀ fl, lines fl d s = close (l :: linesL fl (d + 1) b)))) →
        size (lines funcLine d s) ≤ size (lines funcLine' d s) ∧
        (size (lines funcLine d s) = size (lines funcLine' d s) → AllS topFunction ctx s) := by
      intro b hb hk hl
      have h3 := hL b (d + 1) (by rw [hb]; exact fun x hx => hx) (by simp)
      obtain ⟨l, hl | hl⟩ := hl
      · rw [hl, hl, size_cons, size_cons]
        exact ⟨by omega, fun he => .mk _ _ (fun h => absurd h hk) (by rw [hb]; exact h3.2 (by omega))⟩
      · rw [hl, hl, size_close, size_close]
        exact ⟨by omega, fun he => .mk _ _ (fun h => absurd h hk) (by rw [hb]; exact h3.2 (by omega))⟩
    cases s
    case function q ea b n ps da at_ e =>
      have h3 := hL b (d + 1) (by simp [subStmts]) (by simp)
      have h4 := funcLine_length d n ps da
      have h5 := funcLine_zero n ps da
      rw [lines, lines, size_close, size_close]
      refine ⟨by omega, fun he => .mk _ _ (fun _ => hd rfl ?_) ?_⟩
      · omega
      · exact h3.2 (by omega)
    case if_ q ea b c eis el e =>
      have h3 := hL b (d + 1) (fun x hx => by simp [subStmts, hx]) (by simp)
      have h4 := hL eis d (fun x hx => by simp [subStmts, hx]) (fun x hx h => by rw [h1.2.1 x hx] at h; cases h)
      have h5 := hO el d (fun x hx => by simp only [subStmts, List.mem_append, hx, or_true])
        (fun x hx h => by rw [h1.2.2 x (by simpa using hx)] at h; cases h)
      rw [lines, lines, size_close, size_close]
      simp only [size_append, firstLine] at *
      refine ⟨by omega, fun he => .mk _ _ nofun ?_⟩
      intro x hx
      simp only [subStmts, List.mem_append] at hx
      rcases hx with (hx | hx) | hx
      · exact h3.2 (by omega) x hx
      · exact h4.2 (by omega) x hx
      · exact h5.2 (by omega) x hx
    case try_ q ea b eis el e =>
      have h3 := hL b (d + 1) (fun x hx => by simp [subStmts, hx]) (by simp)
      have h4 := hL eis d (fun x hx => by simp [subStmts, hx]) (fun x hx h => by rw [h1.2.1 x hx] at h; cases h)
      have h5 := hO el d (fun x hx => by simp only [subStmts, List.mem_append, hx, or_true])
        (fun x hx h => by rw [h1.2.2 x (by simpa using hx)] at h; cases h)
      rw [lines, lines, size_close, size_close]
      simp only [size_append, firstLine] at *
      refine ⟨by omega, fun he => .mk _ _ nofun ?_⟩
      intro x hx
      simp only [subStmts, List.mem_append] at hx
      rcases hx with (hx | hx) | hx
      · exact h3.2 (by omega) x hx
      · exact h4.2 (by omega) x hx
      · exact h5.2 (by omega) x hx
    case elseIf | else_ | catch_ | finally_ =>
      exact hB _ rfl nofun ⟨_, .inl fun fl => by rw [lines]; rfl⟩
    case while_ | for_ =>
      exact hB _ rfl nofun ⟨_, .inr fun fl => by rw [lines]; rfl⟩
    all_goals
      refine ⟨by simp only [lines]; exact Nat.le_refl _, fun _ => .mk _ _ nofun (by simp [subStmts])⟩

theorem linesL_iff {P : List Kind → Ast.Stmt → Prop} {l : List Ast.Stmt} (hP : ∀ ctx s, P ctx s → wellPlaced s)
    (h : ∀ s ∈ l, AllS P [] s) :
    unlines (linesL funcLine' 0 l) = unlines (linesL funcLine 0 l) ↔ ∀ s ∈ l, AllS topFunction [] s := by
  refine ⟨fun he => ?_, fun h => by rw [linesL_eq h]⟩
  have key : size (linesL funcLine 0 l) ≤ size (linesL funcLine' 0 l) ∧
      (size (linesL funcLine 0 l) = size (linesL funcLine' 0 l) → ∀ s ∈ l, AllS topFunction [] s) := by
    clear he
    induction l with
    | nil => simp [linesL]
    | cons x l ihl =>
      rw [List.forall_mem_cons] at h
      have h3 := lines_size hP h.1 (d := 0) (fun _ _ => rfl)
      have h4 := ihl h.2
      rw [linesL, linesL, size_append, size_append]
      refine ⟨by omega, fun he => ?_⟩
      rw [List.forall_mem_cons]
      exact ⟨h3.2 (by omega), h4.2 (by omega)⟩
  exact key.2 (by rw [size, size, he])

end Viml
