/-
What follows the file grammar is accepted by the parser.
-/
import Verif.Lemmas.FileSound

namespace Viml
open Prog Spec Props

/-- More statements in a frame. -/
def Frame.more (f : Frame) (vs : List VStmt) : Frame := { f with body := f.body ++ vs }

theorem Frame.more_nil (f : Frame) : f.more [] = f := by simp [Frame.more]
theorem Frame.more_more (f : Frame) (vs ws : List VStmt) : (f.more vs).more ws = f.more (vs ++ ws) := by
  simp [Frame.more]

/-- The parser reaches the rest `r` with open blocks `f :: fs` and known user commands `used`. -/
def RunAt (nv : Bool) (lines : List Str) (f : Frame) (fs : List Frame) (used : List Str) (r : List Cell) : Prop :=
  ∃ cache, CacheRel nv cache used ∧ Reach nv lines ⟨nv, f, fs, cache⟩ r

section
variable {nv : Bool} {fn : Str} {lines : List Str} {f : Frame} {fs : List Frame} {used used' : List Str} {r r' : List Cell}

theorem RunAt.suf (h : RunAt nv lines f fs used r) : Suf (mkEnv lines) r := h.elim fun _ h => h.2.ok.2

theorem RunAt.nil (nv : Bool) (lines : List Str) : RunAt nv lines { head := .toplevel } [] [] (mkEnv lines).buf :=
  ⟨[], .nil nv, .start⟩

/-- One step that changes no table. -/
theorem RunAt.step {f' : Frame} {fs' : List Frame} (h : RunAt nv lines f fs used r) (hne : r ≠ [])
    (hs : ∀ cache, Ok (mkEnv lines) (parseOneCmd ⟨nv, f, fs, cache⟩) r ⟨nv, f', fs', cache⟩ r') :
    RunAt nv lines f' fs' used r' := by
  obtain ⟨cache, h1, h2⟩ := h
  exact ⟨cache, h1, h2.next hne (hs cache)⟩

theorem skipC_bang {r0 : List Cell} (h : SkipC r r0) (h1 : StartsWith r cs!"#!") : r0 = r := by
  obtain ⟨q, h1⟩ := h1
  have h2 : SkipC r r := ⟨[], Reads.nil r, by simp, by rw [h1.head]; decide⟩
  exact h.det h2

theorem skipC_ne {e : Cell} (h : SkipC r (e :: r')) : r ≠ [] := by
  rintro rfl
  have := h.adv.length
  simp at this

theorem reads_ne {c : Char} {v : Str} (h : Reads r (c :: v) r') : r ≠ [] := by
  rintro rfl
  cases h.head

/-- One command. -/
theorem RunAt.cmd (h : RunAt nv lines f fs used r) {r0 ra r1 : List Cell} {x : Ast.ExArg} {c : Cmd}
    (hh : CmdHead nv (mkEnv lines) fn used r r0 x c ra r1 used') :
    ∃ ea cache, Export.exArg fn ea = x ∧ ea.cmd = some c ∧ HandlerAt (mkEnv lines) ea r0 ra r1 ∧
      ∀ {f' fs' r2 cm r3}, Ok (mkEnv lines) (runHandler (byName c.name) ea c ⟨nv, f, fs, cache⟩) r1 ⟨nv, f', fs', cache⟩ r2 →
        Trail (mkEnv lines) fn r2 cm r3 → ∃ ws, Export.stmts fn ws = some cm ∧ RunAt nv lines (f'.more ws) fs' used' r3 := by
  obtain ⟨cache, h1, h2⟩ := h
  obtain ⟨ms, rg, rc, q1, b, q2, hb, _⟩ := hh.ex
  have hne0 : r0 ≠ [] := fun h => hb.2.2.1 (by rw [h]; exact .inr rfl)
  have hne : r ≠ [] := by
    rintro rfl
    have := hb.2.1.adv.length
    exact hne0 (List.length_eq_zero_iff.1 (by simpa using this))
  obtain ⟨cache', ea, k1, k2, k3, k4, k5, k6, k7, k8⟩ := head_complete (mkEnv_ok lines) h2.ok.2 h1 hh
  refine ⟨ea, cache', k2, k4, ⟨k3, k5, hne0, k6, k6.trans k7⟩, ?_⟩
  intro f' fs' r2 cm r3 g1 g2
  obtain ⟨ws, g3, g4⟩ := trail_complete g2
  exact ⟨ws, g3, cache', k1, h2.next hne (k8 _ rfl rfl _ _ _ _ g1 (g4 _))⟩

/-- A command that opens a block. -/
theorem RunAt.opens {α β : Type} {n : Str} {A : List Cell → α → List Cell → Prop} {x : Ast.ExArg} {a : α} {cm : List Ast.Stmt}
    (h : RunAt nv lines f fs used r) (ho : Spec.Opens nv (mkEnv lines) fn n A used r x a cm used' r')
    {f' : Frame} {fs' : List Frame} (hd : Handler) (H : β → ExArg → Head) (P : β → Prop) (hb : byName n = hd)
    (hk : ∀ r1 r2, Suf (mkEnv lines) r1 → A r1 a r2 → ∃ w, P w ∧ ∀ ea c cache,
      Ok (mkEnv lines) (runHandler hd ea c ⟨nv, f, fs, cache⟩) r1 (PState.push ⟨nv, f', fs', cache⟩ (H w ea)) r2) :
    ∃ w ea ws, P w ∧ Export.exArg fn ea = x ∧ Export.stmts fn ws = some cm ∧
      RunAt nv lines { head := H w ea, body := ws } (f' :: fs') used' r' := by
  obtain ⟨r0, c, ra, r1, r2, hn, hh, h1, ht⟩ := ho
  obtain ⟨ea, cache, k1, k2, k3, k4⟩ := h.cmd hh
  obtain ⟨w, hw, hk⟩ := hk r1 r2 k3.sufR h1
  obtain ⟨ws, k5, k6⟩ := k4 (f' := { head := H w ea }) (fs' := f' :: fs') (by rw [hn, hb]; exact hk ea c cache) ht
  exact ⟨w, ea, ws, hw, k1, k5, k6⟩

/-- A command that closes a block. -/
theorem RunAt.closes {n : Str} {e : Ast.EndCmd} {cm : List Ast.Stmt} {f' : EndNode → Frame} {fs' : List Frame} {hd : Handler} {r3 : List Cell}
    (h : RunAt nv lines f fs used r) (ho : Closes nv (mkEnv lines) fn n used r e used' r') (hb : byName n = hd)
    (hk : ∀ ea c r1 cache, (if n = cs!"endfunction" then ∃ l, RestOf r1 l r' else r' = r1) →
      Ok (mkEnv lines) (runHandler hd ea c ⟨nv, f, fs, cache⟩) r1 ⟨nv, f' ⟨ea.cmdpos, ea⟩, fs', cache⟩ r')
    (ht : Trail (mkEnv lines) fn r' cm r3) :
    ∃ (e' : EndNode) (ws : List VStmt), (⟨Export.pos fn e'.pos, Export.exArg fn e'.ea⟩ : Ast.EndCmd) = e ∧ Export.stmts fn ws = some cm ∧
      RunAt nv lines ((f' e').more ws) fs' used' r3 := by
  obtain ⟨r0, x, c, ra, r1, hn, hh, rfl, h1⟩ := ho
  obtain ⟨ea, cache, rfl, k2, k3, k4⟩ := h.cmd hh
  obtain ⟨ws, k5, k6⟩ := k4 (f' := f' ⟨ea.cmdpos, ea⟩) (fs' := fs') (by rw [hn, hb]; exact hk ea c r1 cache h1) ht
  exact ⟨⟨ea.cmdpos, ea⟩, ws, rfl, k5, k6⟩

/-- The parser is in an `:if` whose parts so far are `g`. -/
def IfAt (nv : Bool) (lines : List Str) (g : Frame) (fs : List Frame) (used : List Str) (r : List Cell) : Prop :=
  ∃ f1 fs1, RunAt nv lines f1 fs1 used r ∧ (f1.head.isIf = true ∨ f1.head.isElseif = true) ∧
    ∀ cache q, Ok (mkEnv lines) (ifNorm ⟨nv, f1, fs1, cache⟩) q ⟨nv, g, fs, cache⟩ q

/-- The parser is in a `:try` whose parts so far are `g`. -/
def TryAt (nv : Bool) (lines : List Str) (g : Frame) (fs : List Frame) (used : List Str) (r : List Cell) : Prop :=
  ∃ f1 fs1, RunAt nv lines f1 fs1 used r ∧ (f1.head.isTry = true ∨ f1.head.isCatch = true) ∧
    ∀ cache q, Ok (mkEnv lines) (tryNorm ⟨nv, f1, fs1, cache⟩) q ⟨nv, g, fs, cache⟩ q

theorem not_of_or {a b : Bool} (h : a = true ∨ b = true) : ¬ ((!a && !b) = true) := by
  rcases h with rfl | rfl <;> simp

theorem not_of_or3 {a b : Bool} (c : Bool) (h : a = true ∨ b = true) : ¬ ((!a && !b && !c) = true) := by
  rcases h with rfl | rfl <;> simp

end

section
variable {nv : Bool} {fn : Str} {lines : List Str}

local notation "E" => mkEnv lines

mutual

theorem body_complete : ∀ {cx used r ss used' r'}, Body nv E fn cx used r ss used' r' → ∀ {f fs},
    cx = ctxF f.head fs → RunAt nv lines f fs used r →
    ∃ vs, Export.stmts fn vs = some ss ∧ RunAt nv lines (f.more vs) fs used' r'
  | _, _, _, _, _, _, .nil, _, _, _, h => ⟨[], rfl, by rw [Frame.more_nil]; exact h⟩
  | _, _, _, _, _, _, .shebang hB h1 h2 h3, _, _, hx, h => by
    obtain ⟨vs, k1, k2⟩ := body_complete hB hx h
    refine ⟨vs, k1, k2.step (h1.elim fun _ => reads_ne) fun cache => ok_oneCmd.2 (.inl ⟨h1, rfl, _, _, ⟨h2, atEnd_cons h3⟩, rfl⟩)⟩
  | _, _, _, _, _, _, .empty hB h1 h2, _, _, hx, h => by
    obtain ⟨vs, k1, k2⟩ := body_complete hB hx h
    refine ⟨vs, k1, k2.step (skipC_ne h1) fun cache => ok_oneCmd.2 (.inr ⟨?_, _, h1, .inl ⟨atEnd_cons h2, rfl, rfl⟩⟩)⟩
    intro h3
    obtain ⟨q, h4⟩ := h3
    have h5 := h4.head
    rw [← skipC_bang h1 ⟨q, h4⟩, headSym_cons, Cell.sym, h2] at h5
    cases h5
  | _, _, _, _, _, _, .comment (r2 := r2) hB h1 h2, _, _, hx, h => by
    obtain ⟨vs, k1, k2⟩ := body_complete hB hx h
    obtain ⟨v, q, k3, rfl, k4⟩ := comment_complete h2
    have h3 : headSym r2 = .ch '"' := by
      cases h2 with
      | mk h => exact h.head
    refine ⟨vs ++ [v], stmts_append k1 (stmts_one k3), ?_⟩
    rw [← Frame.more_more]
    obtain ⟨e, q1, rfl, _⟩ := headSym_ch h3
    refine k2.step (skipC_ne h1) fun cache => ok_oneCmd.2 (.inr ⟨?_, _, h1, .inr (.inl ⟨h3, q, k4 _, rfl⟩)⟩)
    intro h4
    obtain ⟨q, h5⟩ := h4
    have h6 := h5.head
    rw [← skipC_bang h1 ⟨q, h5⟩, h3] at h6
    cases h6
  | _, _, _, _, _, _, .noCommand (r0 := r0) (rc := rc) (ms := ms) (rg := rg) hB h1 h2 h3 h4, _, _, hx, h => by
    obtain ⟨vs, k1, k2⟩ := body_complete hB hx h
    obtain ⟨ws, k3, k4⟩ := trail_complete h4
    have ha := h1.adv
    obtain ⟨g1, g2, g3, g4, q1, q2, g5, g6, g7, g8⟩ := h1
    have hne0 : r0 ≠ [] := fun h => g3 (by rw [h]; exact .inr rfl)
    have hne := hne0
    obtain ⟨e, q, hq⟩ := List.exists_cons_of_ne_nil hne0
    have hs0 := g2.adv.suf k2.suf
    by_cases h5 : ms = [] ∧ rg = []
    · rw [if_pos h5, List.append_nil]
      refine ⟨vs ++ ws, stmts_append k1 k3, ?_⟩
      rw [← Frame.more_more]
      exact k2.step (skipC_ne (hq ▸ g2)) fun cache => ok_oneCmd.2 (.inr ⟨g1, r0, g2, .inr (.inr ⟨g3, g4, ms, q1, rg, q2, _, rc, ⟨g5, g6⟩, g7,
        ok_command.2 ⟨rc, g8, .inl ⟨h2, .inl ⟨h5.1, h5.2, rfl, rfl⟩⟩⟩, k4 _⟩)⟩)
    · rw [if_neg h5, List.append_assoc]
      refine ⟨vs ++ ([.excmd (posOf E rc) (lineRecord E r0 rc ms rg) _] ++ ws), stmts_append k1 (stmts_append (stmts_one rfl) k3), ?_⟩
      rw [← Frame.more_more, ← Frame.more_more]
      exact k2.step (skipC_ne (hq ▸ g2)) fun cache => ok_oneCmd.2 (.inr ⟨g1, r0, g2, .inr (.inr ⟨g3, g4, ms, q1, rg, q2, _, rc, ⟨g5, g6⟩, g7,
        ok_command.2 ⟨rc, g8, .inl ⟨h2, .inr ⟨h5, (ok_modifierRange (mkEnv_ok lines) hs0 rfl ha).2 ⟨_, h3, rfl, rfl⟩⟩⟩⟩, k4 _⟩)⟩)
  | _, _, _, _, _, _, .simple hB h1 h2 h3, f, fs, hx, h => by
    obtain ⟨vs, k1, k2⟩ := body_complete hB hx h
    obtain ⟨ea, cache, rfl, k4, k5, k6⟩ := k2.cmd h1
    subst hx
    obtain ⟨ws, k7, k8⟩ := simple_complete (st := ⟨nv, f.more vs, fs, cache⟩) (mkEnv_ok lines) k5 k4 h2
    obtain ⟨us, k9, k10⟩ := k6 k8 h3
    refine ⟨vs ++ ws ++ us, stmts_append (stmts_append k1 k7) k9, ?_⟩
    rw [← Frame.more_more, ← Frame.more_more]
    exact k10
  | _, _, _, _, _, _, .block hB h1 h2, f, fs, hx, h => by
    obtain ⟨vs, k1, k2⟩ := body_complete hB hx h
    obtain ⟨v, ws, k3, k4, k5⟩ := block_complete h1 (f := f.more vs) hx k2 h2
    refine ⟨vs ++ (v :: ws), ?_, by rw [← Frame.more_more]; exact k5⟩
    rw [List.append_assoc]
    exact stmts_append k1 (stmts_append (vs := [v]) (stmts_one k3) k4)

theorem block_complete : ∀ {cx used r s used' r'}, Block nv E fn cx used r s used' r' → ∀ {f fs cm r3},
    cx = ctxF f.head fs → RunAt nv lines f fs used r → Trail E fn r' cm r3 →
    ∃ v ws, Export.stmt fn v = some s ∧ Export.stmts fn ws = some cm ∧ RunAt nv lines (f.more (v :: ws)) fs used' r3
  | _, _, _, _, _, _, .function (n := n) (is := is) (ds := ds) (at_ := at_) h1 h2 h3, f, fs, cm, r3, hx, h, ht => by
    obtain ⟨⟨left, rl, da⟩, ea, ws, ⟨g1, g2, g3⟩, k1, k2, k3⟩ := h.opens h1 .function
      (fun (w : VExpr × List (Pos × Str) × List VExpr) ea => .function ea.cmdpos ea w.1 w.2.1 w.2.2 at_)
      (fun w => Export.expr fn w.1 = some n ∧ Export.idents fn w.2.1 = is ∧ Export.exprs fn w.2.2 = some ds) (by decide +kernel)
      (fun r1 r2 hs hA => by
        obtain ⟨left, ps, g1, g2, g3, g4⟩ := function_complete (mkEnv_ok lines) hs hA
        exact ⟨(left, ps.rlist, ps.defaults), ⟨g1, g2, g3⟩, fun ea c cache => g4 ea c _⟩)
    obtain ⟨vs, k4, k5⟩ := body_complete h2 (ctx_fun hx rfl) k3
    obtain ⟨e, ws', k6, k7, k8⟩ := k5.closes (f' := fun e => f.more [.function ea.cmdpos ea (ws ++ vs) left rl da at_ (some e)]) (fs' := fs) h3
      (hd := .endfunction) (by decide +kernel) (fun ea' c r1 cache h => by
        rw [if_pos rfl] at h
        obtain ⟨l, h⟩ := h
        exact ok_endfunction.2 ⟨rfl, l, h, f, fs, rfl, rfl⟩) ht
    refine ⟨.function ea.cmdpos ea (ws ++ vs) left rl da at_ (some e), ws', ?_, k7, by rw [Frame.more_more] at k8; exact k8⟩
    subst k1 k6
    dsimp only at g1 g2 g3
    subst g2
    simp [Export.stmt, stmts_append k2 k4, g1, g3, Export.endCmd]; exact rfl
  | _, _, _, _, _, _, .while_ (x := x) h1 h2 h3, f, fs, cm, r3, hx, h, ht => by
    obtain ⟨v, ea, ws, g1, k1, k2, k3⟩ := h.opens h1 .while_ (fun (w : VExpr) ea => .while_ ea.cmdpos ea w)
      (fun w => Export.expr fn w = some x) (by decide +kernel) (fun r1 r2 hs hA => by
        obtain ⟨v, g1, g2⟩ := expr_complete (mkEnv_ok lines) hs hA
        exact ⟨v, g2, fun ea c cache => ok_bind.2 ⟨v, r2, g1, ok_pure.2 ⟨rfl, rfl⟩⟩⟩)
    obtain ⟨vs, k4, k5⟩ := body_complete h2 (ctx_loop hx (.inl rfl)) k3
    obtain ⟨e, ws', k6, k7, k8⟩ := k5.closes (f' := fun e => f.more [.while_ ea.cmdpos ea (ws ++ vs) v (some e)]) (fs' := fs) h3
      (hd := .endwhile) (by decide +kernel) (fun ea' c r1 cache h => by
        rw [if_neg (by decide)] at h
        subst h
        show Ok _ (popCtx ⟨nv, _, f :: fs, cache⟩ (some ⟨ea'.cmdpos, ea'⟩)) _ _ _
        exact ok_pop.2 ⟨f, fs, rfl, rfl, rfl⟩) ht
    refine ⟨.while_ ea.cmdpos ea (ws ++ vs) v (some e), ws', ?_, k7, by rw [Frame.more_more] at k8; exact k8⟩
    subst k1 k6
    simp [Export.stmt, stmts_append k2 k4, g1, Export.endCmd]; exact rfl
  | _, _, _, _, _, _, .for_ (l := l) (ls := ls) (rest := rest) (x := x) h1 h2 h3, f, fs, cm, r3, hx, h, ht => by
    obtain ⟨⟨lhs, v⟩, ea, ws, ⟨g0, g1⟩, k1, k2, k3⟩ := h.opens h1 .for_ (fun (w : Lhs × VExpr) ea => .for_ ea.cmdpos ea w.1 w.2)
      (fun w => lhsEx fn w.1 = some (l, ls, rest) ∧ Export.expr fn w.2 = some x) (by decide +kernel) (fun r1 r2 hs hA => by
        cases hA with
        | mk a1 a2 a3 a4 =>
          have a1 : LhsOf E fn (Target E fn) r1 (l, ls, rest) _ := a1
          have s1 := ((par_letlhs (fn := fn) (mkEnv_ok lines)).adv hs a1).adv.suf hs
          obtain ⟨lhs, b2, b1⟩ := (par_letlhs (fn := fn) (mkEnv_ok lines)).complete (a := (l, ls, rest)) hs a1
          obtain ⟨v, g1, g2⟩ := expr_complete (mkEnv_ok lines) (a3.adv.suf (a2.adv.suf s1)) a4
          refine ⟨(lhs, v), ⟨b2, g2⟩, fun ea c cache => ?_⟩
          show Ok _ (cmdFor ea _) _ _ _
          unfold cmdFor
          refine ok_bind.2 ⟨lhs, _, b1, ?_⟩
          rw [bind_skipWhite]
          refine ⟨_, a2, ?_⟩
          rw [bind_getpos]
          unfold readAlpha
          rw [bind_readWhile]
          refine ⟨_, _, a3, ?_⟩
          rw [if_neg (by simp)]
          exact ok_bind.2 ⟨v, r2, g1, ok_pure.2 ⟨rfl, rfl⟩⟩)
    obtain ⟨vs, k4, k5⟩ := body_complete h2 (ctx_loop hx (.inr rfl)) k3
    obtain ⟨e, ws', k6, k7, k8⟩ := k5.closes (f' := fun e => f.more [.for_ ea.cmdpos ea (ws ++ vs) lhs v (some e)]) (fs' := fs) h3
      (hd := .endfor) (by decide +kernel) (fun ea' c r1 cache h => by
        rw [if_neg (by decide)] at h
        subst h
        show Ok _ (popCtx ⟨nv, _, f :: fs, cache⟩ (some ⟨ea'.cmdpos, ea'⟩)) _ _ _
        exact ok_pop.2 ⟨f, fs, rfl, rfl, rfl⟩) ht
    refine ⟨.for_ ea.cmdpos ea (ws ++ vs) lhs v (some e), ws', ?_, k7, by rw [Frame.more_more] at k8; exact k8⟩
    subst k1 k6
    dsimp only at g0 g1
    simp only [lhsEx, Option.bind_eq_bind, Option.bind_eq_some_iff, Option.some.injEq, Prod.mk.injEq] at g0
    obtain ⟨_, c1, _, c2, _, c3, rfl, rfl, rfl⟩ := g0
    simp [Export.stmt, stmts_append k2 k4, g1, c1, c2, c3, Export.endCmd]; exact rfl
  | _, _, _, _, _, _, .if_ h1 h2, f, fs, cm, r3, hx, h, ht => by
    obtain ⟨g, k1, f1, fs1, k2, k3, k4⟩ := if_complete h1 hx h
    have hg : { g with els := none } = g := by rw [← k1.els]
    obtain ⟨e, ws, k5, k6, k7⟩ := k2.closes (f' := fun e => f.attach (g.close (some e))) (fs' := fs) h2
      (hd := .endif) (by decide +kernel) (fun ea' c r1 cache h => by
        rw [if_neg (by decide)] at h
        subst h
        show Ok _ (cmdEndif ea' _) _ _ _
        rw [cmdEndif_eq, if_neg (not_of_or3 _ k3)]
        exact ok_bind.2 ⟨_, _, k4 cache _, ok_pop.2 ⟨f, fs, rfl, rfl, rfl⟩⟩) ht
    obtain ⟨q, a1, a2, a3, a4, m1, m2⟩ := k1.close (el := none) rfl rfl e
    rw [hg] at m1
    rw [m1] at k7
    subst k5
    exact ⟨_, ws, m2, k6, by rw [show f.attach (VStmt.if_ q a1 a2 a3 a4 none (some e)) = f.more [_] from rfl, Frame.more_more] at k7; exact k7⟩
  | _, _, _, _, _, _, .ifElse h1 h2 h3 h4, f, fs, cm, r3, hx, h, ht => by
    obtain ⟨g, k1, f1, fs1, k2, k3, k4⟩ := if_complete h1 hx h
    have hp : g.head.isPlain = true := by
      obtain ⟨_, _, e, _⟩ := k1.head
      rw [e]; rfl
    obtain ⟨_, ea', ws, _, rfl, k6, k7⟩ := k2.opens h2 .else_ (fun (_ : Unit) ea => .else_ ea.cmdpos ea) (fun _ => True) (by decide +kernel)
      (fun r1 r2 hs hA => ⟨(), trivial, fun ea c cache => by
        obtain rfl : r2 = r1 := hA
        show Ok _ (cmdElse ea _) _ _ _
        rw [cmdElse_eq, if_neg (not_of_or k3)]
        exact ok_bind.2 ⟨_, _, k4 cache _, ok_pure.2 ⟨rfl, rfl⟩⟩⟩)
    obtain ⟨vs, k8, k9⟩ := body_complete h3 (ctx_block2 hx hp rfl) k7
    have m0 := else_opt (ea := ea') (stmts_append k6 k8)
    obtain ⟨e, ws', k10, k11, k12⟩ := k9.closes
      (f' := fun e => f.attach (Frame.close { g with els := some (.else_ ea'.cmdpos ea' (ws ++ vs)) } (some e))) (fs' := fs) h4
      (hd := .endif) (by decide +kernel) (fun ea c r1 cache h => by
        rw [if_neg (by decide)] at h
        subst h
        show Ok _ (cmdEndif ea _) _ _ _
        rw [cmdEndif_eq]
        refine ok_bind.2 ⟨⟨nv, { g with els := some (.else_ ea'.cmdpos ea' (ws ++ vs)) }, f :: fs, cache⟩, _, ?_, ok_pop.2 ⟨f, fs, rfl, rfl, rfl⟩⟩
        show Ok _ (popCtx ⟨nv, _, g :: f :: fs, cache⟩ none) _ _ _
        exact ok_pop.2 ⟨g, f :: fs, rfl, rfl, rfl⟩) ht
    obtain ⟨q, a1, a2, a3, a4, m1, m2⟩ := k1.close m0 rfl e
    rw [m1] at k12
    subst k10
    exact ⟨_, ws', m2, k11, by
      rw [show f.attach (VStmt.if_ q a1 a2 a3 a4 (some _) (some e)) = f.more [_] from rfl, Frame.more_more] at k12; exact k12⟩
  | _, _, _, _, _, _, .try_ h1 h2, f, fs, cm, r3, hx, h, ht => by
    obtain ⟨g, k1, f1, fs1, k2, k3, k4⟩ := try_complete h1 hx h
    have hg : { g with fin := none } = g := by rw [← k1.fin]
    obtain ⟨e, ws, k5, k6, k7⟩ := k2.closes (f' := fun e => f.attach (g.close (some e))) (fs' := fs) h2
      (hd := .endtry) (by decide +kernel) (fun ea' c r1 cache h => by
        rw [if_neg (by decide)] at h
        subst h
        show Ok _ (cmdEndtry ea' _) _ _ _
        rw [cmdEndtry_eq, if_neg (not_of_or3 _ k3)]
        exact ok_bind.2 ⟨_, _, k4 cache _, ok_pop.2 ⟨f, fs, rfl, rfl, rfl⟩⟩) ht
    obtain ⟨q, a1, a2, a3, m1, m2⟩ := k1.close (fi := none) rfl rfl e
    rw [hg] at m1
    rw [m1] at k7
    subst k5
    exact ⟨_, ws, m2, k6, by rw [show f.attach (VStmt.try_ q a1 a2 a3 none (some e)) = f.more [_] from rfl, Frame.more_more] at k7; exact k7⟩
  | _, _, _, _, _, _, .tryFinally h1 h2 h3 h4, f, fs, cm, r3, hx, h, ht => by
    obtain ⟨g, k1, f1, fs1, k2, k3, k4⟩ := try_complete h1 hx h
    have hp : g.head.isPlain = true := by
      obtain ⟨_, e, _⟩ := k1.head
      rw [e]; rfl
    obtain ⟨_, ea', ws, _, rfl, k6, k7⟩ := k2.opens h2 .finally_ (fun (_ : Unit) ea => .finally_ ea.cmdpos ea) (fun _ => True) (by decide +kernel)
      (fun r1 r2 hs hA => ⟨(), trivial, fun ea c cache => by
        obtain rfl : r2 = r1 := hA
        show Ok _ (cmdFinally ea _) _ _ _
        rw [cmdFinally_eq, if_neg (not_of_or k3)]
        exact ok_bind.2 ⟨_, _, k4 cache _, ok_pure.2 ⟨rfl, rfl⟩⟩⟩)
    obtain ⟨vs, k8, k9⟩ := body_complete h3 (ctx_block2 hx hp rfl) k7
    have m0 := finally_opt (ea := ea') (stmts_append k6 k8)
    obtain ⟨e, ws', k10, k11, k12⟩ := k9.closes
      (f' := fun e => f.attach (Frame.close { g with fin := some (.finally_ ea'.cmdpos ea' (ws ++ vs)) } (some e))) (fs' := fs) h4
      (hd := .endtry) (by decide +kernel) (fun ea c r1 cache h => by
        rw [if_neg (by decide)] at h
        subst h
        show Ok _ (cmdEndtry ea _) _ _ _
        rw [cmdEndtry_eq]
        refine ok_bind.2 ⟨⟨nv, { g with fin := some (.finally_ ea'.cmdpos ea' (ws ++ vs)) }, f :: fs, cache⟩, _, ?_, ok_pop.2 ⟨f, fs, rfl, rfl, rfl⟩⟩
        show Ok _ (popCtx ⟨nv, _, g :: f :: fs, cache⟩ none) _ _ _
        exact ok_pop.2 ⟨g, f :: fs, rfl, rfl, rfl⟩) ht
    obtain ⟨q, a1, a2, a3, m1, m2⟩ := k1.close m0 rfl e
    rw [m1] at k12
    subst k10
    exact ⟨_, ws', m2, k11, by
      rw [show f.attach (VStmt.try_ q a1 a2 a3 (some _) (some e)) = f.more [_] from rfl, Frame.more_more] at k12; exact k12⟩

theorem if_complete : ∀ {cx used r ea ss x eis used' r'}, IfPart nv E fn cx used r ea ss x eis used' r' → ∀ {f fs},
    cx = ctxF f.head fs → RunAt nv lines f fs used r →
    ∃ g, IfFrame fn g ea ss x eis ∧ IfAt nv lines g (f :: fs) used' r'
  | _, _, _, _, _, _, _, _, _, .if_ (x := x) h1 h2, f, fs, hx, h => by
    obtain ⟨v, ea, ws, g1, k1, k2, k3⟩ := h.opens h1 .if_ (fun (w : VExpr) ea => .if_ ea.cmdpos ea w)
      (fun w => Export.expr fn w = some x) (by decide +kernel) (fun r1 r2 hs hA => by
        obtain ⟨v, g1, g2⟩ := expr_complete (mkEnv_ok lines) hs hA
        exact ⟨v, g2, fun ea c cache => ok_bind.2 ⟨v, r2, g1, ok_pure.2 ⟨rfl, rfl⟩⟩⟩)
    obtain ⟨vs, k4, k5⟩ := body_complete h2 (ctx_block hx rfl) k3
    exact ⟨_, ⟨⟨ea, v, rfl, k1, g1⟩, stmts_append k2 k4, rfl, rfl, rfl⟩, _, _, k5, .inl rfl, fun cache q => ok_pure.2 ⟨rfl, rfl⟩⟩
  | _, _, _, _, _, _, _, _, _, .elseif (x' := x') h1 h2 h3, f, fs, hx, h => by
    obtain ⟨g, k1, f1, fs1, k2, k3, k4⟩ := if_complete h1 hx h
    have hp : g.head.isPlain = true := by
      obtain ⟨_, _, e, _⟩ := k1.head
      rw [e]; rfl
    obtain ⟨v, ea, ws, g1, rfl, k6, k7⟩ := k2.opens h2 .elseif (fun (w : VExpr) ea => .elseif ea.cmdpos ea w)
      (fun w => Export.expr fn w = some x') (by decide +kernel) (fun r1 r2 hs hA => by
        obtain ⟨v, g1, g2⟩ := expr_complete (mkEnv_ok lines) hs hA
        refine ⟨v, g2, fun ea c cache => ?_⟩
        show Ok _ (cmdElseif ea _) _ _ _
        rw [cmdElseif_eq, if_neg (not_of_or k3)]
        exact ok_bind.2 ⟨_, _, k4 cache _, ok_bind.2 ⟨v, r2, g1, ok_pure.2 ⟨rfl, rfl⟩⟩⟩)
    obtain ⟨vs, k8, k9⟩ := body_complete h3 (ctx_block2 hx hp rfl) k7
    refine ⟨{ g with elseifs := g.elseifs ++ [.elseif ea.cmdpos ea (ws ++ vs) v] }, ⟨k1.head, k1.body, ?_, ?_, k1.els⟩, _, _, k9, .inr rfl,
      fun cache q => (ok_pop (st := ⟨nv, _, g :: f :: fs, cache⟩) (e := none)).2 ⟨g, f :: fs, rfl, rfl, rfl⟩⟩
    · refine stmts_append k1.elseifs (stmts_one ?_)
      simp [Export.stmt, stmts_append k6 k8, g1]; rfl
    · rw [List.all_append, k1.all]; rfl

theorem try_complete : ∀ {cx used r ea ss cs used' r'}, TryPart nv E fn cx used r ea ss cs used' r' → ∀ {f fs},
    cx = ctxF f.head fs → RunAt nv lines f fs used r →
    ∃ g, TryFrame fn g ea ss cs ∧ TryAt nv lines g (f :: fs) used' r'
  | _, _, _, _, _, _, _, _, .try_ h1 h2, f, fs, hx, h => by
    obtain ⟨_, ea, ws, g1, k1, k2, k3⟩ := h.opens h1 .try_ (fun (_ : Unit) ea => .try_ ea.cmdpos ea) (fun _ => True) (by decide +kernel)
      (fun r1 r2 hs hA => ⟨(), trivial, fun ea c cache => by
        obtain rfl : r2 = r1 := hA
        exact ok_pure.2 ⟨rfl, rfl⟩⟩)
    obtain ⟨vs, k4, k5⟩ := body_complete h2 (ctx_block hx rfl) k3
    exact ⟨_, ⟨⟨ea, rfl, k1⟩, stmts_append k2 k4, rfl, rfl, rfl⟩, _, _, k5, .inl rfl, fun cache q => ok_pure.2 ⟨rfl, rfl⟩⟩
  | _, _, _, _, _, _, _, _, .catch_ (p := p) h1 h2 h3, f, fs, hx, h => by
    obtain ⟨g, k1, f1, fs1, k2, k3, k4⟩ := try_complete h1 hx h
    have hp : g.head.isPlain = true := by
      obtain ⟨_, e, _⟩ := k1.head
      rw [e]; rfl
    have hf : f1.head.isFinally = false := by
      rcases k3 with k3 | k3 <;> cases hh : f1.head <;> rw [hh] at k3 <;> first | rfl | cases k3
    obtain ⟨_, ea, ws, _, rfl, k6, k7⟩ := k2.opens h2 .catch_ (fun (_ : Unit) ea => .catch_ ea.cmdpos ea p) (fun _ => True) (by decide +kernel)
      (fun r1 r2 hs hA => ⟨(), trivial, fun ea c cache => by
        show Ok _ (cmdCatch ea _) _ _ _
        rw [cmdCatch_eq, hf, if_neg (by simp), if_neg (not_of_or k3)]
        refine ok_bind.2 ⟨_, _, k4 cache _, ?_⟩
        rw [bind_skipWhite]
        cases hA with
        | none a1 a2 =>
          refine ⟨_, a1, ?_⟩
          rw [bind_peek, endsSym_stop.2 a2]
          exact ok_pure.2 ⟨rfl, rfl⟩
        | pat a1 a2 a3 a4 =>
          refine ⟨_, a1, ?_⟩
          have a2 := Bool.not_eq_true _ ▸ mt endsSym_stop.1 a2
          rw [bind_peek, a2, if_pos (by rfl), bind_get, a3.head]
          rw [(reads_one_iff.1 a3).2] at a4
          exact bind_pattern.2 ⟨_, _, _, a4, ok_pure.2 ⟨rfl, rfl⟩⟩⟩)
    obtain ⟨vs, k8, k9⟩ := body_complete h3 (ctx_block2 hx hp rfl) k7
    refine ⟨{ g with catches := g.catches ++ [.catch_ ea.cmdpos ea (ws ++ vs) p] }, ⟨k1.head, k1.body, ?_, ?_, k1.fin⟩, _, _, k9, .inr rfl,
      fun cache q => (ok_pop (st := ⟨nv, _, g :: f :: fs, cache⟩) (e := none)).2 ⟨g, f :: fs, rfl, rfl, rfl⟩⟩
    · refine stmts_append k1.catches (stmts_one ?_)
      simp [Export.stmt, stmts_append k6 k8]; rfl
    · rw [List.all_append, k1.all]; rfl

end

/-- A script of the grammar is accepted with the denoted tree. -/
theorem script_complete {a : Ast.File} (h : Script nv E fn a) :
    ∃ f r, (parseToplevel nv).run (mkEnv lines) (mkEnv lines).buf = .ok f r ∧ Export.file fn f = some a := by
  obtain ⟨used, h1, h2⟩ := h
  obtain ⟨vs, k1, cache, _, k2⟩ := body_complete h1 rfl (RunAt.nil nv lines)
  refine ⟨_, _, k2.finish.trans rfl, ?_⟩
  simp only [collapse, Export.file, Frame.more, List.nil_append, k1]
  obtain ⟨s, b⟩ := a
  cases h2
  rfl

end
end Viml
