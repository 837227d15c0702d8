/-
A whole script inside another one: its statements do not depend on the blocks around them (`body_cx`), and they can be
carried to any place (`nest_body`).
-/
import Verif.Lemmas.InsertAt
import Verif.Lemmas.Concat

namespace Viml
open Spec

/-! ### The blocks around a statement -/

/-- What is allowed in `cx` is allowed in `cx'`; behind the statements is the text `r`. -/
structure Wider (cx cx' : Ctx) (r : List Cell) : Prop where
  fn : cx.inFunction = true → cx'.inFunction = true
  loop : cx.inLoop = true → cx'.inLoop = true
  top : cx'.top = cx.top ∨ cx'.top = false ∧ r ≠ []

variable {nv : Bool} {env : Env} {fn : Str}

namespace Wider
variable {cx cx' : Ctx} {r r' : List Cell}

theorem upto (w : Wider cx cx' r') (h : r' <:+ r) : Wider cx cx' r :=
  ⟨w.fn, w.loop, w.top.imp id fun ⟨a, b⟩ => ⟨a, fun e => b (List.suffix_nil.1 (e ▸ h))⟩⟩

theorem inLoop (w : Wider cx cx' r) : Wider cx.loop cx'.loop r' := ⟨w.fn, fun _ => rfl, .inl rfl⟩
theorem inFun (w : Wider cx cx' r) : Wider cx.fun cx'.fun r' := ⟨fun _ => rfl, w.loop, .inl rfl⟩
theorem inBlock (w : Wider cx cx' r) : Wider cx.block cx'.block r' := ⟨w.fn, w.loop, .inl rfl⟩

end Wider

theorem raw_cx {top top' : Bool} {r0 ra fl c r s r'} (h : Raw env fn top r0 ra fl c r s r')
    (w : top' = top ∨ top' = false ∧ r' ≠ []) : Raw env fn top' r0 ra fl c r s r' := by
  cases h with
  | common a b => exact .common a b
  | finish a b c =>
    subst b
    obtain rfl : top' = false := w.elim id And.left
    exact .finish a rfl c
  | finishTop a b c =>
    rcases w with w | ⟨_, w⟩
    · exact .finishTop a (w.trans b) c
    · exact absurd rfl w
  | append a b => exact .append a b
  | keymap a b c => exact .keymap a b c
  | script a b c d e f => exact .script a b c d e f
  | scriptLine a b c d => exact .scriptLine a b c d
  | wincmd a b c d e => exact .wincmd a b c d e
  | «syntax» a b c => exact .syntax a b c

theorem simple_cx {cx cx' : Ctx} {r0 ra ea c r xs r'} (w : Wider cx cx' r') (h : Spec.Simple env fn cx r0 ra ea c r xs r') :
    Spec.Simple env fn cx' r0 ra ea c r xs r' := by
  cases h with
  | raw h => exact .raw (raw_cx h w.top)
  | funcListing a b c => exact .funcListing a b c
  | delfunction a b => exact .delfunction a b
  | return_ a b c d e => exact .return_ a (w.fn b) c d e
  | returnNone a b c d => exact .returnNone a (w.fn b) c d
  | call a b c d => exact .call a b c d
  | letListing a b c => exact .letListing a b c
  | let_ a b c d e f => exact .let_ a b c d e f
  | heredoc a b c d e f => exact .heredoc a b c d e f
  | constListing a b c => exact .constListing a b c
  | const_ a b c d => exact .const_ a b c d
  | unlet a b => exact .unlet a b
  | lockvar a b c => exact .lockvar a b c
  | unlockvar a b c => exact .unlockvar a b c
  | continue_ a b => exact .continue_ a (w.loop b)
  | break_ a b => exact .break_ a (w.loop b)
  | throw a b => exact .throw a b
  | eval a b => exact .eval a b
  | echo a b => exact .echo a b
  | echohl a b => exact .echohl a b
  | execute a b => exact .execute a b

mutual

theorem body_cx {cx cx' used r ss used' r'} : Body nv env fn cx used r ss used' r' → Wider cx cx' r' →
    Body nv env fn cx' used r ss used' r'
  | .nil, _ => .nil
  | .shebang h h1 h2 h3, w => .shebang (body_cx h (w.upto ((List.suffix_cons _ _).trans h2.suf))) h1 h2 h3
  | .empty h h1 h2, w => .empty (body_cx h (w.upto ((List.suffix_cons _ _).trans h1.adv.suffix))) h1 h2
  | .comment h h1 h2, w => .comment (body_cx h (w.upto ((comment_order h2).suffix.trans h1.adv.suffix))) h1 h2
  | .noCommand h h1 h2 h3 h4, w =>
    .noCommand (body_cx h (w.upto ((((trail_order h4).suffix).trans h1.adv.suffix).trans h1.2.1.adv.suffix))) h1 h2 h3 h4
  | .simple h h1 h2 h3, w =>
    .simple (body_cx h (w.upto ((trail_order h3).suffix.trans (simple_order h1 h2).suffix))) h1 (simple_cx (w.upto (trail_order h3).suffix) h2) h3
  | .block h h1 h2, w =>
    .block (body_cx h (w.upto ((trail_order h2).suffix.trans (block_order h1).suffix)))
      (block_cx h1 (w.upto (trail_order h2).suffix)) h2

theorem block_cx {cx cx' used r s used' r'} : Block nv env fn cx used r s used' r' → Wider cx cx' r' →
    Block nv env fn cx' used r s used' r'
  | .function h h1 h2, w => .function h (body_cx h1 w.inFun) h2
  | .while_ h h1 h2, w => .while_ h (body_cx h1 w.inLoop) h2
  | .for_ h h1 h2, w => .for_ h (body_cx h1 w.inLoop) h2
  | .if_ h h1, w => .if_ (ifPart_cx h w) h1
  | .ifElse h h1 h2 h3, w => .ifElse (ifPart_cx h w) h1 (body_cx h2 w.inBlock) h3
  | .try_ h h1, w => .try_ (tryPart_cx h w) h1
  | .tryFinally h h1 h2 h3, w => .tryFinally (tryPart_cx h w) h1 (body_cx h2 w.inBlock) h3

theorem ifPart_cx {cx cx' used r ea ss x eis used' r' q} : IfPart nv env fn cx used r ea ss x eis used' r' → Wider cx cx' q →
    IfPart nv env fn cx' used r ea ss x eis used' r'
  | .if_ h h1, w => .if_ h (body_cx h1 w.inBlock)
  | .elseif h h1 h2, w => .elseif (ifPart_cx h w) h1 (body_cx h2 w.inBlock)

theorem tryPart_cx {cx cx' used r ea ss cs used' r' q} : TryPart nv env fn cx used r ea ss cs used' r' → Wider cx cx' q →
    TryPart nv env fn cx' used r ea ss cs used' r'
  | .try_ h h1, w => .try_ h (body_cx h1 w.inBlock)
  | .catch_ h h1 h2, w => .catch_ (tryPart_cx h w) h1 (body_cx h2 w.inBlock)

end

/-! ### The user commands of moved statements -/

section
variable (m : Ast.Pos → Ast.Pos)

theorem mem_onPosL {y : Ast.Stmt} : ∀ {ss : List Ast.Stmt}, y ∈ Ast.Stmt.onPosL m ss ↔ ∃ x ∈ ss, y = x.onPos m
  | [] => by simp [Ast.Stmt.onPosL]
  | s :: ss => by
    rw [Ast.Stmt.onPosL, List.mem_cons, mem_onPosL]
    simp

theorem subStmts_onPos (s : Ast.Stmt) : subStmts (s.onPos m) = Ast.Stmt.onPosL m (subStmts s) := by
  have e : ∀ o : Option Ast.Stmt, (Ast.Stmt.onPosO m o).toList = Ast.Stmt.onPosL m o.toList := by
    intro o
    cases o <;> rfl
  cases s <;> simp [Ast.Stmt.onPos, subStmts, onPosS_append, e, Ast.Stmt.onPosL]

theorem exArgOf_onPos (s : Ast.Stmt) : exArgOf (s.onPos m) = (exArgOf s).map (·.onPos m) := by
  cases s <;> rfl

theorem partS_onPos {ss : List Ast.Stmt} {x : Ast.Stmt} (h : PartS ss x) : PartS (Ast.Stmt.onPosL m ss) (x.onPos m) := by
  induction h with
  | mem h => exact .mem ((mem_onPosL m).2 ⟨_, h, rfl⟩)
  | sub h _ ih =>
    rw [← subStmts_onPos] at ih
    exact .sub ((mem_onPosL m).2 ⟨_, h, rfl⟩) ih

theorem partS_of_onPos {ts : List Ast.Stmt} {y : Ast.Stmt} (h : PartS ts y) : ∀ {ss : List Ast.Stmt}, ts = Ast.Stmt.onPosL m ss →
    ∃ x, PartS ss x ∧ y = x.onPos m := by
  induction h with
  | mem h =>
    rintro ss rfl
    obtain ⟨x, h1, h2⟩ := (mem_onPosL m).1 h
    exact ⟨x, .mem h1, h2⟩
  | sub h _ ih =>
    rintro ss rfl
    obtain ⟨x, h1, rfl⟩ := (mem_onPosL m).1 h
    obtain ⟨z, h2, h3⟩ := ih (subStmts_onPos m x)
    exact ⟨z, .sub h1 h2, h3⟩

theorem userCmd_onPos {ss : List Ast.Stmt} {n : Str} : UserCmd (Ast.Stmt.onPosL m ss) n ↔ UserCmd ss n := by
  constructor
  · rintro ⟨y, ea, h, h1, h2⟩
    obtain ⟨x, h3, rfl⟩ := partS_of_onPos m h rfl
    rw [exArgOf_onPos] at h1
    cases e : exArgOf x with
    | none => rw [e] at h1; cases h1
    | some a =>
      rw [e] at h1
      cases h1
      exact ⟨x, a, h3, e, h2⟩
  · rintro ⟨x, ea, h, h1, h2⟩
    exact ⟨_, ea.onPos m, partS_onPos m h, by rw [exArgOf_onPos, h1]; rfl, h2⟩

end

/-! ### A script at another place -/

/-- The text of `W` behind that of `A`, followed by other text. -/
def carryW (fn : Str) (A W : List Str) (q : List Cell) (env' : Env) : Carry (mkEnv (W ++ [commentLine])) env' fn where
  q0 := commentCells W
  q := q
  f := moveCell A W (mkEnv A).buf.length
  m := shift A W
  bd := False
  char _ := rfl
  pos c := pub_move fn _ c
  eof h := h.elim

theorem carryW_to (fn : Str) (A W : List Str) (q : List Cell) (env' : Env) :
    (carryW fn A W q env').To (mkEnv (W ++ [commentLine])).buf := by
  rw [mkEnv_comment]
  rcases buildCells_last W with rfl | ⟨i, p, h⟩
  · exact .inr rfl
  · left
    have e : (mkEnv W).buf = reindex 0 i ++ [⟨none, { p with i := i.length }⟩] := by
      simp only [mkEnv, h, reindex_append, reindex, Nat.zero_add]
    rw [e]
    exact in_of_append (carryW fn A W q env') rfl

/-- The statements of a whole script, at any place. -/
theorem nest_body {W : List Str} {g : Ast.File} (h : Complete nv fn W g) :
    ∃ U : List Str, (∀ x ∈ U, Upper x ∧ UserCmd g.body x) ∧
    ∀ (A : List Str) (q : List Cell) (env' : Env) (cx : Ctx) (used : List Str), (∀ a ∈ used, Upper a) →
      (∀ n, UserCmd g.body n → Carry.Okay used n) → ∃ used' : List Str, Carry.Adds U used used' ∧
      Body nv env' fn cx used ((mkEnv W).buf.map (moveCell A W (mkEnv A).buf.length) ++ q)
        (Ast.Stmt.onPosL (shift A W) g.body) used' q := by
  obtain ⟨used0, h1, h2⟩ := (Props.C52_lines nv fn _ _).1 h
  have hs : commentCells W <:+ (mkEnv (W ++ [commentLine])).buf := ⟨_, (mkEnv_comment W).symm⟩
  obtain ⟨U, h3⟩ := Carry.body_cut (κ := carryA fn W [] (mkEnv [])) id rfl (fun x hx h => here_inj _ fn hx hs h) h1
    (carryA_to ..) (List.suffix_refl _) g.body [] rfl
  refine ⟨U, fun x hx => (body_used h3 hx).resolve_left (by simp), fun A q env' cx used hu hc => ?_⟩
  have h3 := body_cx (cx' := cx) h3 ⟨fun h => (by cases h), fun h => (by cases h), by
    cases e : cx.top with
    | true => exact .inl rfl
    | false => exact .inr ⟨rfl, by simp [carryA, commentCells]⟩⟩
  obtain ⟨used', hu', h4⟩ := Carry.body (κ := carryW fn A W q env') (U := used) hu h3 (carryW_to ..)
    (.inr ⟨rfl, by simp [carryA, commentCells]⟩) hc (usedX := used) (fun x => by simp)
  refine ⟨used', fun x => (hu' x).trans or_comm, ?_⟩
  have e1 : (carryW fn A W q env').tr (mkEnv (W ++ [commentLine])).buf =
      (mkEnv W).buf.map (moveCell A W (mkEnv A).buf.length) ++ q := by
    rw [mkEnv_comment]
    simp [Carry.tr, carryW]
  have e3 : (carryW fn A W q env').tr (commentCells W) = q := Carry.tr_end
  rw [e1] at h4
  exact e3 ▸ h4

/-- A whole script between two statements. -/
theorem nested {A W B : List Str} {g : Ast.File} (h : Between nv fn A) (hg : Complete nv fn W g)
    (hW : ∀ l, W.head? = some l → afterBackslash l = none) (hB : ∀ l, B.head? = some l → afterBackslash l = none) (hn : B ≠ []) :
    ∃ ι : Inserted nv (A ++ B) (mkEnv (A ++ W ++ B)) fn, ι.ws = Ast.Stmt.onPosL (shift A W) g.body ∧ ι.κ.m = spread A W B ∧
      ι.μ.mp = spreadPos A W B (mkEnv W).buf.length ∧ ι.κ.q0 = restB A B ∧ ∀ x ∈ ι.U, UserCmd g.body x := by
  obtain ⟨U, h1, h2⟩ := nest_body hg
  obtain ⟨ι, a, b, c, d, e⟩ := inserted_of h hW hB hn (Ast.Stmt.onPosL (shift A W) g.body) U (fun x hx => (h1 x hx).1)
    fun cx used hu hc => h2 A _ _ cx used hu fun n hn => hc n ((userCmd_onPos _).2 hn)
  exact ⟨ι, a, b, c, d, fun x hx => (h1 x (e ▸ hx)).2⟩

end Viml
