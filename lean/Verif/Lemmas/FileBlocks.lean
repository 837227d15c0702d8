/-
Blocks of the file grammar: an invariant of the parser's stack of open blocks.
-/
import Verif.Lemmas.FileSimple
import Verif.Lemmas.LookupFile

namespace Viml
open Prog Spec Props

/-! ### Context -/

/-- The context of a command whose enclosing frames are one with head `h` and `fs`. -/
def ctxF (h : Head) (fs : List Frame) : Ctx :=
  ⟨h.isToplevel, h.isFunction || fs.any (·.head.isFunction),
    (h.isWhile || fs.any (·.head.isWhile)) || (h.isFor || fs.any (·.head.isFor))⟩

theorem stCtx_eq (st : PState) : stCtx st = ctxF st.cur.head st.stack := rfl

theorem ctx_fun {cx : Ctx} {f : Frame} {fs : List Frame} {h : Head} (hc : cx = ctxF f.head fs) (hh : h.isFunction = true) :
    cx.fun = ctxF h (f :: fs) := by
  subst hc
  cases h <;> first | (cases hh; done) | skip
  simp [Ctx.fun, ctxF, Head.isFunction, Head.isToplevel, Head.isWhile, Head.isFor]

theorem ctx_loop {cx : Ctx} {f : Frame} {fs : List Frame} {h : Head} (hc : cx = ctxF f.head fs)
    (hh : h.isWhile = true ∨ h.isFor = true) : cx.loop = ctxF h (f :: fs) := by
  subst hc
  rcases hh with hh | hh <;> cases h <;> first | (cases hh; done) | skip
  all_goals simp [Ctx.loop, ctxF, Head.isFunction, Head.isToplevel, Head.isWhile, Head.isFor]

/-- Heads that are no function, loop or file. -/
def Head.isPlain : Head → Bool
  | .if_ .. | .elseif .. | .else_ .. | .try_ .. | .catch_ .. | .finally_ .. => true
  | _ => false

theorem ctx_block {cx : Ctx} {f : Frame} {fs : List Frame} {h : Head} (hc : cx = ctxF f.head fs)
    (hh : h.isPlain = true) : cx.block = ctxF h (f :: fs) := by
  subst hc
  cases h <;> first | (cases hh; done) | skip
  all_goals simp [Ctx.block, ctxF, Head.isFunction, Head.isToplevel, Head.isWhile, Head.isFor]

theorem ctx_block2 {cx : Ctx} {f g : Frame} {fs : List Frame} {h : Head} (hc : cx = ctxF f.head fs)
    (hg : g.head.isPlain = true) (hh : h.isPlain = true) : cx.block = ctxF h (g :: f :: fs) := by
  have h1 := ctx_block hc hg
  have h2 := ctx_block h1 hh
  rw [← h2]
  rfl

/-! ### The invariant -/

/-- No parts yet. -/
structure Fresh (f : Frame) : Prop where
  elseifs : f.elseifs = []
  els : f.els = none
  catches : f.catches = []
  fin : f.fin = none

/-- A frame of an `:if` whose parts are `ss`, `x`, `eis`. -/
structure IfFrame (fn : Str) (f : Frame) (ea : Ast.ExArg) (ss : List Ast.Stmt) (x : Ast.Expr) (eis : List Ast.Stmt) : Prop where
  head : ∃ e v, f.head = .if_ e.cmdpos e v ∧ Export.exArg fn e = ea ∧ Export.expr fn v = some x
  body : Export.stmts fn f.body = some ss
  elseifs : Export.stmts fn f.elseifs = some eis
  all : eis.all Export.isElseIf = true
  els : f.els = none

/-- A frame of a `:try` whose parts are `ss` and `cs`. -/
structure TryFrame (fn : Str) (f : Frame) (ea : Ast.ExArg) (ss cs : List Ast.Stmt) : Prop where
  head : ∃ e, f.head = .try_ e.cmdpos e ∧ Export.exArg fn e = ea
  body : Export.stmts fn f.body = some ss
  catches : Export.stmts fn f.catches = some cs
  all : cs.all Export.isCatch = true
  fin : f.fin = none

mutual

/-- `Cur nv env fn cx f fs used r`: the commands before `r` opened the blocks with frames `f :: fs`. -/
inductive Cur (nv : Bool) (env : Env) (fn : Str) : Ctx → Frame → List Frame → List Str → List Cell → Prop
  | mk {cx f fs pre used1 r1 ss used r} : Ctxt nv env fn cx f.head fs pre used1 r1 → Body nv env fn cx used1 r1 ss used r →
      Export.stmts fn f.body = some (pre ++ ss) → Fresh f → cx = ctxF f.head fs → Cur nv env fn cx f fs used r

/-- The same up to the first command of the innermost block; `pre` is the comment on the line of its first command. -/
inductive Ctxt (nv : Bool) (env : Env) (fn : Str) : Ctx → Head → List Frame → List Ast.Stmt → List Str → List Cell → Prop
  | top : Ctxt nv env fn { top := true } .toplevel [] [] [] env.buf
  | function {cx f fs used r ea n is ds at_ left rl da cm used1 r1} : Cur nv env fn cx f fs used r →
      Spec.Opens nv env fn cs!"function" (FuncArgs env fn) used r (Export.exArg fn ea) (n, is, ds, at_) cm used1 r1 →
      Export.expr fn left = some n → Export.idents fn rl = is → Export.exprs fn da = some ds →
      Ctxt nv env fn cx.fun (.function ea.cmdpos ea left rl da at_) (f :: fs) cm used1 r1
  | while_ {cx f fs used r ea x v cm used1 r1} : Cur nv env fn cx f fs used r →
      Spec.Opens nv env fn cs!"while" (Gram env fn 1) used r (Export.exArg fn ea) x cm used1 r1 → Export.expr fn v = some x →
      Ctxt nv env fn cx.loop (.while_ ea.cmdpos ea v) (f :: fs) cm used1 r1
  | for_ {cx f fs used r ea a x lhs v cm used1 r1} : Cur nv env fn cx f fs used r →
      Spec.Opens nv env fn cs!"for" (ForArgs env fn) used r (Export.exArg fn ea) (a.1, a.2.1, a.2.2, x) cm used1 r1 →
      lhsEx fn lhs = some a → Export.expr fn v = some x →
      Ctxt nv env fn cx.loop (.for_ ea.cmdpos ea lhs v) (f :: fs) cm used1 r1
  | if_ {cx f fs used r ea x v cm used1 r1} : Cur nv env fn cx f fs used r →
      Spec.Opens nv env fn cs!"if" (Gram env fn 1) used r (Export.exArg fn ea) x cm used1 r1 → Export.expr fn v = some x →
      Ctxt nv env fn cx.block (.if_ ea.cmdpos ea v) (f :: fs) cm used1 r1
  | try_ {cx f fs used r ea cm used1 r1} : Cur nv env fn cx f fs used r →
      Spec.Opens nv env fn cs!"try" NoArgs used r (Export.exArg fn ea) () cm used1 r1 →
      Ctxt nv env fn cx.block (.try_ ea.cmdpos ea) (f :: fs) cm used1 r1
  | elseif {cx f fs used r ea ss x eis used1 r1 g ea' x' v cm used2 r2} : Cur nv env fn cx f fs used r →
      IfPart nv env fn cx used r ea ss x eis used1 r1 → IfFrame fn g ea ss x eis →
      Spec.Opens nv env fn cs!"elseif" (Gram env fn 1) used1 r1 (Export.exArg fn ea') x' cm used2 r2 → Export.expr fn v = some x' →
      Ctxt nv env fn cx.block (.elseif ea'.cmdpos ea' v) (g :: f :: fs) cm used2 r2
  | else_ {cx f fs used r ea ss x eis used1 r1 g ea' cm used2 r2} : Cur nv env fn cx f fs used r →
      IfPart nv env fn cx used r ea ss x eis used1 r1 → IfFrame fn g ea ss x eis →
      Spec.Opens nv env fn cs!"else" NoArgs used1 r1 (Export.exArg fn ea') () cm used2 r2 →
      Ctxt nv env fn cx.block (.else_ ea'.cmdpos ea') (g :: f :: fs) cm used2 r2
  | catch_ {cx f fs used r ea ss cs used1 r1 g ea' p cm used2 r2} : Cur nv env fn cx f fs used r →
      TryPart nv env fn cx used r ea ss cs used1 r1 → TryFrame fn g ea ss cs →
      Spec.Opens nv env fn cs!"catch" CatchArg used1 r1 (Export.exArg fn ea') p cm used2 r2 →
      Ctxt nv env fn cx.block (.catch_ ea'.cmdpos ea' p) (g :: f :: fs) cm used2 r2
  | finally_ {cx f fs used r ea ss cs used1 r1 g ea' cm used2 r2} : Cur nv env fn cx f fs used r →
      TryPart nv env fn cx used r ea ss cs used1 r1 → TryFrame fn g ea ss cs →
      Spec.Opens nv env fn cs!"finally" NoArgs used1 r1 (Export.exArg fn ea') () cm used2 r2 →
      Ctxt nv env fn cx.block (.finally_ ea'.cmdpos ea') (g :: f :: fs) cm used2 r2

end

section
variable {nv : Bool} {env : Env} {fn : Str} {cx : Ctx} {f : Frame} {fs : List Frame} {used used' : List Str} {r r' : List Cell}

theorem Cur.ctx (h : Cur nv env fn cx f fs used r) : cx = ctxF f.head fs := by cases h; assumption

/-- A block has been opened. -/
theorem cur_open {h : Head} {cm : List Ast.Stmt} {vs : List VStmt} (hC : Ctxt nv env fn cx h fs cm used r)
    (hc : cx = ctxF h fs) (hv : Export.stmts fn vs = some cm) : Cur nv env fn cx { head := h, body := vs } fs used r :=
  .mk hC .nil (by simpa using hv) ⟨rfl, rfl, rfl, rfl⟩ hc

/-- Statements have been added. -/
theorem cur_more {vs : List VStmt} {xs : List Ast.Stmt} (h : Cur nv env fn cx f fs used r) (hv : Export.stmts fn vs = some xs)
    (hb : ∀ {u0 r0 ss}, Body nv env fn cx u0 r0 ss used r → Body nv env fn cx u0 r0 (ss ++ xs) used' r') :
    Cur nv env fn cx { f with body := f.body ++ vs } fs used' r' := by
  cases h with
  | mk h1 h2 h3 h4 h5 =>
    refine .mk h1 (hb h2) ?_ ⟨h4.1, h4.2, h4.3, h4.4⟩ h5
    rw [← List.append_assoc]
    exact stmts_append h3 hv

/-- A block has been closed. -/
theorem cur_block {s : Ast.Stmt} {v : VStmt} {vs : List VStmt} {cm : List Ast.Stmt} {r1 : List Cell}
    (h : Cur nv env fn cx f fs used r) (hb : Block nv env fn cx used r s used' r1) (hv : Export.stmt fn v = some s)
    (ht : Trail env fn r1 cm r') (hvs : Export.stmts fn vs = some cm) :
    Cur nv env fn cx { f with body := f.body ++ [v] ++ vs } fs used' r' := by
  rw [List.append_assoc]
  refine cur_more h (stmts_append (stmts_one hv) hvs) fun hB => ?_
  have := Body.block hB hb ht
  rwa [List.append_assoc] at this

/-- `:if` or `:elseif` is the innermost block. -/
theorem cur_if {cx' : Ctx} {fr : Frame} {st : List Frame} (h : Cur nv env fn cx' fr st used r)
    (hh : fr.head.isIf = true ∨ fr.head.isElseif = true) :
    ∃ cx f fs u0 r0 ea ss x eis g, Cur nv env fn cx f fs u0 r0 ∧ IfPart nv env fn cx u0 r0 ea ss x eis used r ∧ IfFrame fn g ea ss x eis ∧
      (fr.head.isIf = true ∧ fr = g ∧ st = f :: fs ∨
       fr.head.isIf = false ∧ ∃ g0, st = g0 :: f :: fs ∧ g0.attach (fr.close none) = g) := by
  obtain ⟨hd, b, e1, e2, e3, e4⟩ := fr
  cases h with
  | mk h1 h2 h3 h4 h5 =>
    obtain ⟨rfl, rfl, rfl, rfl⟩ := h4
    dsimp only at h1 h3 hh
    cases h1 with
    | @if_ cx f fs u0 r0 ea x v cm u1 r1 k1 k2 k3 =>
      exact ⟨_, _, _, _, _, _, _, _, _, _, k1, .if_ k2 h2, ⟨⟨ea, v, rfl, rfl, k3⟩, h3, rfl, rfl, rfl⟩, .inl ⟨rfl, rfl, rfl⟩⟩
    | @elseif cx f fs u0 r0 ea ss x eis u1 r1 g ea' x' v cm u2 r2 k1 k2 k3 k4 k5 =>
      refine ⟨_, _, _, _, _, _, _, _, _, g.attach (Frame.close { head := .elseif ea'.cmdpos ea' v, body := b } none), k1, .elseif k2 k4 h2, ⟨k3.head, k3.body, ?_, ?_, k3.els⟩, .inr ⟨rfl, g, rfl, rfl⟩⟩
      · refine stmts_append k3.elseifs (stmts_one ?_)
        simp [Frame.close, Export.stmt, h3, k5]; rfl
      · simp [List.all_append, k3.all, Export.isElseIf]
    | _ => rcases hh with hh | hh <;> cases hh

/-- `:try` or `:catch` is the innermost block. -/
theorem cur_try {cx' : Ctx} {fr : Frame} {st : List Frame} (h : Cur nv env fn cx' fr st used r)
    (hh : fr.head.isTry = true ∨ fr.head.isCatch = true) :
    ∃ cx f fs u0 r0 ea ss cs g, Cur nv env fn cx f fs u0 r0 ∧ TryPart nv env fn cx u0 r0 ea ss cs used r ∧ TryFrame fn g ea ss cs ∧
      (fr.head.isTry = true ∧ fr = g ∧ st = f :: fs ∨
       fr.head.isTry = false ∧ ∃ g0, st = g0 :: f :: fs ∧ g0.attach (fr.close none) = g) := by
  obtain ⟨hd, b, e1, e2, e3, e4⟩ := fr
  cases h with
  | mk h1 h2 h3 h4 h5 =>
    obtain ⟨rfl, rfl, rfl, rfl⟩ := h4
    dsimp only at h1 h3 hh
    cases h1 with
    | @try_ cx f fs u0 r0 ea cm u1 r1 k1 k2 =>
      exact ⟨_, _, _, _, _, _, _, _, _, k1, .try_ k2 h2, ⟨⟨ea, rfl, rfl⟩, h3, rfl, rfl, rfl⟩, .inl ⟨rfl, rfl, rfl⟩⟩
    | @catch_ cx f fs u0 r0 ea ss cs u1 r1 g ea' p cm u2 r2 k1 k2 k3 k4 =>
      refine ⟨_, _, _, _, _, _, _, _, g.attach (Frame.close { head := .catch_ ea'.cmdpos ea' p, body := b } none), k1, .catch_ k2 k4 h2, ⟨k3.head, k3.body, ?_, ?_, k3.fin⟩, .inr ⟨rfl, g, rfl, rfl⟩⟩
      · refine stmts_append k3.catches (stmts_one ?_)
        simp [Frame.close, Export.stmt, h3]; rfl
      · simp [List.all_append, k3.all, Export.isCatch]
    | _ => rcases hh with hh | hh <;> cases hh

/-! ### Closing and continuing blocks -/

theorem ok_pop {st st' : PState} {e : Option EndNode} :
    Ok env (popCtx st e) r st' r' ↔ ∃ f fs, st.stack = f :: fs ∧ st' = { st with cur := f.attach (st.cur.close e), stack := fs } ∧ r' = r := by
  unfold popCtx PState.pop
  cases h : st.stack with
  | nil => simp [ok_fail]
  | cons f fs =>
    simp only [ok_pure]
    constructor
    · rintro ⟨rfl, rfl⟩; exact ⟨f, fs, rfl, rfl, rfl⟩
    · rintro ⟨_, _, h, rfl, rfl⟩; cases h; exact ⟨rfl, rfl⟩

/-- The parts of an `:if` are closed before the next one. -/
def ifNorm (st : PState) : Prog PState := if !st.cur.head.isIf then popCtx st none else pure st
def tryNorm (st : PState) : Prog PState := if !st.cur.head.isTry then popCtx st none else pure st

theorem cmdElseif_eq (ea : ExArg) (st : PState) : cmdElseif ea st =
    if !st.cur.head.isIf && !st.cur.head.isElseif then errAt cs!"E582: :elseif without :if" ea.cmdpos
    else ifNorm st >>= fun st => parseExpr1 >>= fun e => pure (st.push (.elseif ea.cmdpos ea e)) := by
  unfold cmdElseif ifNorm
  cases st.cur.head.isIf <;> rfl

theorem cmdElse_eq (ea : ExArg) (st : PState) : cmdElse ea st =
    if !st.cur.head.isIf && !st.cur.head.isElseif then errAt cs!"E581: :else without :if" ea.cmdpos
    else ifNorm st >>= fun st => pure (st.push (.else_ ea.cmdpos ea)) := by
  unfold cmdElse ifNorm
  cases st.cur.head.isIf <;> rfl

theorem cmdEndif_eq (ea : ExArg) (st : PState) : cmdEndif ea st =
    if !st.cur.head.isIf && !st.cur.head.isElseif && !st.cur.head.isElse then errAt cs!"E580: :endif without :if" ea.cmdpos
    else ifNorm st >>= fun st => popCtx st (some ⟨ea.cmdpos, ea⟩) := by
  unfold cmdEndif ifNorm
  cases st.cur.head.isIf <;> rfl

theorem cmdCatch_eq (ea : ExArg) (st : PState) : cmdCatch ea st =
    if st.cur.head.isFinally then errAt cs!"E604: :catch after :finally" ea.cmdpos
    else if !st.cur.head.isTry && !st.cur.head.isCatch then errAt cs!"E603: :catch without :try" ea.cmdpos
    else tryNorm st >>= fun st => skipWhite >>= fun _ => peek >>= fun c =>
      if !endsSym c then get >>= fun c => parsePattern c.str >>= fun r => pure (st.push (.catch_ ea.cmdpos ea r.1))
      else pure (st.push (.catch_ ea.cmdpos ea [])) := by
  unfold cmdCatch tryNorm
  cases st.cur.head.isTry <;> rfl

theorem cmdFinally_eq (ea : ExArg) (st : PState) : cmdFinally ea st =
    if !st.cur.head.isTry && !st.cur.head.isCatch then errAt cs!"E606: :finally without :try" ea.cmdpos
    else tryNorm st >>= fun st => pure (st.push (.finally_ ea.cmdpos ea)) := by
  unfold cmdFinally tryNorm
  cases st.cur.head.isTry <;> rfl

theorem cmdEndtry_eq (ea : ExArg) (st : PState) : cmdEndtry ea st =
    if !st.cur.head.isTry && !st.cur.head.isCatch && !st.cur.head.isFinally then errAt cs!"E602: :endtry without :try" ea.cmdpos
    else tryNorm st >>= fun st => popCtx st (some ⟨ea.cmdpos, ea⟩) := by
  unfold cmdEndtry tryNorm
  cases st.cur.head.isTry <;> rfl

theorem or_of_not {a b : Bool} (h : ¬ ((!a && !b) = true)) : a = true ∨ b = true := by
  cases a <;> cases b <;> simp at h ⊢

theorem or_of_not3 {a b c : Bool} (h : ¬ ((!a && !b && !c) = true)) : (a = true ∨ b = true) ∨ c = true := by
  cases a <;> cases b <;> cases c <;> simp at h ⊢

/-- After the parts have been closed the frame of `:if` is the innermost one. -/
theorem ifNorm_sound {st st' : PState} {cx' : Ctx} (h : Cur nv env fn cx' st.cur st.stack used r)
    (hh : st.cur.head.isIf = true ∨ st.cur.head.isElseif = true) {q q' : List Cell} (hk : Ok env (ifNorm st) q st' q') :
    q' = q ∧ ∃ cx f fs u0 r0 ea ss x eis g, Cur nv env fn cx f fs u0 r0 ∧ IfPart nv env fn cx u0 r0 ea ss x eis used r ∧
      IfFrame fn g ea ss x eis ∧ st' = { st with cur := g, stack := f :: fs } := by
  obtain ⟨cx, f, fs, u0, r0, ea, ss, x, eis, g, h1, h2, h3, ⟨h4, rfl, h5⟩ | ⟨h4, g0, h5, rfl⟩⟩ := cur_if h hh
  · rw [ifNorm, h4] at hk
    obtain ⟨rfl, rfl⟩ := ok_pure.1 hk
    exact ⟨rfl, cx, f, fs, u0, r0, ea, ss, x, eis, _, h1, h2, h3, by rw [← h5]⟩
  · rw [ifNorm, h4] at hk
    obtain ⟨g1, gs, k1, rfl, rfl⟩ := ok_pop.1 hk
    rw [h5] at k1
    cases k1
    exact ⟨rfl, cx, f, fs, u0, r0, ea, ss, x, eis, _, h1, h2, h3, rfl⟩

theorem tryNorm_sound {st st' : PState} {cx' : Ctx} (h : Cur nv env fn cx' st.cur st.stack used r)
    (hh : st.cur.head.isTry = true ∨ st.cur.head.isCatch = true) {q q' : List Cell} (hk : Ok env (tryNorm st) q st' q') :
    q' = q ∧ ∃ cx f fs u0 r0 ea ss cs g, Cur nv env fn cx f fs u0 r0 ∧ TryPart nv env fn cx u0 r0 ea ss cs used r ∧
      TryFrame fn g ea ss cs ∧ st' = { st with cur := g, stack := f :: fs } := by
  obtain ⟨cx, f, fs, u0, r0, ea, ss, cs, g, h1, h2, h3, ⟨h4, rfl, h5⟩ | ⟨h4, g0, h5, rfl⟩⟩ := cur_try h hh
  · rw [tryNorm, h4] at hk
    obtain ⟨rfl, rfl⟩ := ok_pure.1 hk
    exact ⟨rfl, cx, f, fs, u0, r0, ea, ss, cs, _, h1, h2, h3, by rw [← h5]⟩
  · rw [tryNorm, h4] at hk
    obtain ⟨g1, gs, k1, rfl, rfl⟩ := ok_pop.1 hk
    rw [h5] at k1
    cases k1
    exact ⟨rfl, cx, f, fs, u0, r0, ea, ss, cs, _, h1, h2, h3, rfl⟩

/-- The node of an `:if`. -/
theorem IfFrame.close {g : Frame} {ea : Ast.ExArg} {ss eis : List Ast.Stmt} {x : Ast.Expr} (h : IfFrame fn g ea ss x eis)
    {el : Option VStmt} {xl : Option Ast.Stmt} (h1 : Export.stmtOpt fn el = some xl) (h2 : Export.optIs Export.isElse xl = true)
    (e : EndNode) : ∃ q a b c d, Frame.close { g with els := el } (some e) = .if_ q a b c d el (some e) ∧
      Export.stmt fn (.if_ q a b c d el (some e)) = some (.if_ ea.cmdpos ea ss x eis xl ⟨Export.pos fn e.pos, Export.exArg fn e.ea⟩) := by
  obtain ⟨e1, v, k1, rfl, k2⟩ := h.head
  refine ⟨e1.cmdpos, e1, g.body, v, g.elseifs, by simp [Frame.close, k1], ?_⟩
  simp [Export.stmt, h.elseifs, h1, h.body, k2, Export.endCmd, h2]
  exact ⟨by simpa using h.all, rfl⟩

/-- The node of a `:try`. -/
theorem TryFrame.close {g : Frame} {ea : Ast.ExArg} {ss cs : List Ast.Stmt} (h : TryFrame fn g ea ss cs)
    {fi : Option VStmt} {xf : Option Ast.Stmt} (h1 : Export.stmtOpt fn fi = some xf) (h2 : Export.optIs Export.isFinally xf = true)
    (e : EndNode) : ∃ q a b c, Frame.close { g with fin := fi } (some e) = .try_ q a b c fi (some e) ∧
      Export.stmt fn (.try_ q a b c fi (some e)) = some (.try_ ea.cmdpos ea ss cs xf ⟨Export.pos fn e.pos, Export.exArg fn e.ea⟩) := by
  obtain ⟨e1, k1, rfl⟩ := h.head
  refine ⟨e1.cmdpos, e1, g.body, g.catches, by simp [Frame.close, k1], ?_⟩
  simp [Export.stmt, h.catches, h1, h.body, Export.endCmd, h2]
  exact ⟨by simpa using h.all, rfl⟩

end
end Viml
