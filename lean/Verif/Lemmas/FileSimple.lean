/-
Commands that are no part of a block: the parser takes exactly those of the grammar.
-/
import Verif.Lemmas.FileFunc

namespace Viml
open Prog Spec

/-- `m` adds the statements that `T` describes to the state `st`. -/
def Sim (env : Env) (fn : Str) (st : PState) (m : Prog PState) (r : List Cell) (T : List Ast.Stmt → List Cell → Prop) : Prop :=
  (∀ st' r', Ok env m r st' r' → ∃ vs xs, st' = st.adds vs ∧ Export.stmts fn vs = some xs ∧ T xs r') ∧
  ∀ xs r', T xs r' → ∃ vs, Export.stmts fn vs = some xs ∧ Ok env m r (st.adds vs) r'

section
variable {env : Env} {fn : Str} {r r' : List Cell} {st st' : PState} {ea : ExArg} {c : Cmd} {r0 ra : List Cell}

theorem sim_par {α β : Type} {ex : α → Option β} {m : Prog α} {S : List Cell → β → List Cell → Prop} (hp : Par env ex m S)
    (hs : Suf env r) {g : α → VStmt} {G : β → Ast.Stmt} (hg : ∀ a b, ex a = some b → Export.stmt fn (g a) = some (G b)) :
    Sim env fn st (m >>= fun a => pure (st.add (g a))) r (fun xs r' => ∃ b, S r b r' ∧ xs = [G b]) := by
  constructor
  · intro st' r' h
    obtain ⟨a, r1, h1, h2⟩ := ok_bind.1 h
    obtain ⟨rfl, rfl⟩ := ok_pure.1 h2
    obtain ⟨b, h3, h4⟩ := hp.sound hs h1
    exact ⟨[g a], [G b], rfl, stmts_one (hg a b h3), b, h4, rfl⟩
  · rintro xs r' ⟨b, h1, rfl⟩
    obtain ⟨a, h2, h3⟩ := hp.complete hs h1
    exact ⟨[g a], stmts_one (hg a b h2), ok_bind.2 ⟨a, _, h3, ok_pure.2 ⟨rfl, rfl⟩⟩⟩

/-- A handler that keeps the text of the command. -/
theorem sim_text {m : Prog PState} {T : Str → List Cell → Prop}
    (h : ∀ st' r', Ok env m r st' r' ↔ ∃ s, T s r' ∧ st' = st.add (.excmd ea.cmdpos ea s)) :
    Sim env fn st m r (fun xs r' => ∃ s, T s r' ∧ xs = [.excmd (Export.exArg fn ea).cmdpos (Export.exArg fn ea) s]) := by
  constructor
  · intro st' r' h1
    obtain ⟨s, h2, rfl⟩ := (h _ _).1 h1
    exact ⟨[_], [_], rfl, stmts_one rfl, s, h2, rfl⟩
  · rintro xs r' ⟨s, h2, rfl⟩
    exact ⟨[_], stmts_one rfl, (h _ _).2 ⟨s, h2, rfl⟩⟩

theorem delfunction_sim (he : EnvOK env) (hs : Suf env r) : Sim env fn st (cmdDelfunction ea st) r
    (fun xs r' => ∃ e, FuncName env fn r e r' ∧ xs = [.delFunction (Export.exArg fn ea).cmdpos (Export.exArg fn ea) e]) :=
  sim_par (par_func he) hs fun a b h => by simp [Export.stmt, h]; rfl

theorem throw_sim (he : EnvOK env) (hs : Suf env r) : Sim env fn st (cmdThrow ea st) r
    (fun xs r' => ∃ e, Gram env fn 1 r e r' ∧ xs = [.throw (Export.exArg fn ea).cmdpos (Export.exArg fn ea) e]) :=
  sim_par (par_expr he) hs fun a b h => by simp [Export.stmt, h]; rfl

theorem eval_sim (he : EnvOK env) (hs : Suf env r) : Sim env fn st (cmdEval ea st) r
    (fun xs r' => ∃ e, Gram env fn 1 r e r' ∧ xs = [.eval (Export.exArg fn ea).cmdpos (Export.exArg fn ea) e]) :=
  sim_par (par_expr he) hs fun a b h => by simp [Export.stmt, h]; rfl

theorem sim_of {α β : Type} {ex : α → Option β} {n : Prog α}
    {S : β → List Cell → Prop} (h1 : ∀ v r', Ok env n r v r' → ∃ b, ex v = some b ∧ S b r')
    (h2 : ∀ b r', S b r' → ∃ v, ex v = some b ∧ Ok env n r v r') {g : α → VStmt} {G : β → Ast.Stmt}
    (hg : ∀ a b, ex a = some b → Export.stmt fn (g a) = some (G b)) :
    Sim env fn st (n >>= fun a => pure (st.add (g a))) r (fun xs r' => ∃ b, S b r' ∧ xs = [G b]) := by
  constructor
  · intro st' r' h
    obtain ⟨a, r1, h3, h4⟩ := ok_bind.1 h
    obtain ⟨rfl, rfl⟩ := ok_pure.1 h4
    obtain ⟨b, h5, h6⟩ := h1 _ _ h3
    exact ⟨[g a], [G b], rfl, stmts_one (hg a b h5), b, h6, rfl⟩
  · rintro xs r' ⟨b, h3, rfl⟩
    obtain ⟨a, h4, h5⟩ := h2 _ _ h3
    exact ⟨[g a], stmts_one (hg a b h4), ok_bind.2 ⟨a, _, h5, ok_pure.2 ⟨rfl, rfl⟩⟩⟩

theorem echo_sim (he : EnvOK env) (hs : Suf env r) {ty : EchoTy} (hc : ea.cmd = some c) : Sim env fn st (cmdEcho ty ea st) r
    (fun xs r' => ∃ es, Exprs env fn r es r' ∧ xs = [.echoCmd (Export.exArg fn ea).cmdpos c.name (Export.exArg fn ea) es]) :=
  sim_of (fun _ _ h => exprlist_sound he hs h) (fun _ _ h => (exprlist_complete he hs h).2)
    fun a b h => by simp [Export.stmt, h, hc]; rfl

theorem execute_sim (he : EnvOK env) (hs : Suf env r) : Sim env fn st (cmdExecute ea st) r
    (fun xs r' => ∃ es, Exprs env fn r es r' ∧ xs = [.execute (Export.exArg fn ea).cmdpos (Export.exArg fn ea) es]) :=
  sim_of (fun _ _ h => exprlist_sound he hs h) (fun _ _ h => (exprlist_complete he hs h).2)
    fun a b h => by simp [Export.stmt, h]; rfl

theorem unlet_sim (he : EnvOK env) (hs : Suf env r) : Sim env fn st (cmdUnlet ea st) r
    (fun xs r' => ∃ es, LockArgs env fn r es r' ∧ xs = [.unLet (Export.exArg fn ea).cmdpos (Export.exArg fn ea) es]) :=
  sim_of (fun _ _ h => lock_sound he hs h) (fun _ _ h => (lock_complete he hs h).2)
    fun a b h => by simp [Export.stmt, h]; rfl

theorem lockArgs_ok (he : EnvOK env) (hs : Suf env r) {g : Nat → List VExpr → VStmt} {G : Nat → List Ast.Expr → Ast.Stmt}
    (hg : ∀ d a b, Export.exprs fn a = some b → Export.stmt fn (g d a) = some (G d b)) :
    Sim env fn st (parseDepth >>= fun d => parseLvaluelist >>= fun l => pure (st.add (g d l))) r
      (fun xs r' => ∃ d r1 es, Depth r d r1 ∧ LockArgs env fn r1 es r' ∧ xs = [G d es]) := by
  constructor
  · intro st' r' h
    rw [ok_bind] at h
    obtain ⟨d, r1, h1, h⟩ := h
    have hd := ok_depth.1 h1
    rw [ok_bind] at h
    obtain ⟨l, r2, h2, h⟩ := h
    obtain ⟨rfl, rfl⟩ := ok_pure.1 h
    obtain ⟨es, h3, h4⟩ := lock_sound (fn := fn) he (hd.adv.suf hs) h2
    exact ⟨[_], [_], rfl, stmts_one (hg _ _ _ h3), d, r1, es, hd, h4, rfl⟩
  · rintro xs r' ⟨d, r1, es, hd, h4, rfl⟩
    obtain ⟨_, l, h5, h6⟩ := lock_complete he (hd.adv.suf hs) h4
    exact ⟨[_], stmts_one (hg d _ _ h5), ok_bind.2 ⟨d, r1, ok_depth.2 hd, ok_bind.2 ⟨l, _, h6, ok_pure.2 ⟨rfl, rfl⟩⟩⟩⟩

theorem lockvar_sim (he : EnvOK env) (hs : Suf env r) : Sim env fn st (cmdLockvar ea st) r
    (fun xs r' => ∃ d r1 es, Depth r d r1 ∧ LockArgs env fn r1 es r' ∧
      xs = [.lockVar (Export.exArg fn ea).cmdpos (Export.exArg fn ea) d es]) :=
  lockArgs_ok he hs (g := fun d l => .lockvar ea.cmdpos ea d l) fun d a b h => by simp [Export.stmt, h]; rfl

theorem unlockvar_sim (he : EnvOK env) (hs : Suf env r) : Sim env fn st (cmdUnlockvar ea st) r
    (fun xs r' => ∃ d r1 es, Depth r d r1 ∧ LockArgs env fn r1 es r' ∧
      xs = [.unLockVar (Export.exArg fn ea).cmdpos (Export.exArg fn ea) d es]) :=
  lockArgs_ok he hs (g := fun d l => .unlockvar ea.cmdpos ea d l) fun d a b h => by simp [Export.stmt, h]; rfl

theorem continue_sim : Sim env fn st (cmdContinue ea st) r
    (fun xs r' => (st.inContext Head.isWhile || st.inContext Head.isFor) = true ∧ r' = r ∧
      xs = [.continue_ (Export.exArg fn ea).cmdpos (Export.exArg fn ea)]) := by
  unfold cmdContinue
  constructor
  · intro st' r' h
    rw [ok_ite] at h
    rcases h with ⟨_, h⟩ | ⟨h1, h⟩
    · exact (ok_errAt.1 h).elim
    · obtain ⟨rfl, rfl⟩ := ok_pure.1 h
      exact ⟨[_], [_], rfl, stmts_one rfl, by simpa [Classical.or_iff_not_imp_left] using h1, rfl, rfl⟩
  · rintro xs r' ⟨h, rfl, rfl⟩
    refine ⟨[.continue_ ea.cmdpos ea], stmts_one rfl, ok_ite.2 (.inr ⟨?_, ok_pure.2 ⟨rfl, rfl⟩⟩)⟩
    simpa [Classical.or_iff_not_imp_left] using h

theorem break_sim : Sim env fn st (cmdBreak ea st) r
    (fun xs r' => (st.inContext Head.isWhile || st.inContext Head.isFor) = true ∧ r' = r ∧
      xs = [.break_ (Export.exArg fn ea).cmdpos (Export.exArg fn ea)]) := by
  unfold cmdBreak
  constructor
  · intro st' r' h
    rw [ok_ite] at h
    rcases h with ⟨_, h⟩ | ⟨h1, h⟩
    · exact (ok_errAt.1 h).elim
    · obtain ⟨rfl, rfl⟩ := ok_pure.1 h
      exact ⟨[_], [_], rfl, stmts_one rfl, by simpa [Classical.or_iff_not_imp_left] using h1, rfl, rfl⟩
  · rintro xs r' ⟨h, rfl, rfl⟩
    refine ⟨[.break_ ea.cmdpos ea], stmts_one rfl, ok_ite.2 (.inr ⟨?_, ok_pure.2 ⟨rfl, rfl⟩⟩)⟩
    simpa [Classical.or_iff_not_imp_left] using h

theorem return_sim (he : EnvOK env) (hs : Suf env r) : Sim env fn st (cmdReturn ea st) r
    (fun xs r' => st.inContext Head.isFunction = true ∧ ∃ r1, Skip r r1 ∧
      ((¬ (AtEnd r1 ∨ headSym r1 = .ch '|') ∧ ∃ e, Gram env fn 1 r1 e r' ∧
          xs = [.return_ (Export.exArg fn ea).cmdpos (Export.exArg fn ea) (some e)]) ∨
       (AtEnd r1 ∨ headSym r1 = .ch '|') ∧ r' = r1 ∧
          xs = [.return_ (Export.exArg fn ea).cmdpos (Export.exArg fn ea) none])) := by
  have hq : ∀ {r : List Cell}, (headSym r = .ch '"' ∨ endsSym (headSym r) = false) ↔ ¬ (AtEnd r ∨ headSym r = .ch '|') := by
    intro r
    rw [← exprStop]
    by_cases h : headSym r = .ch '"' <;> simp [h]
  unfold cmdReturn
  constructor
  · intro st' r' h
    rw [ok_ite] at h
    rcases h with ⟨_, h⟩ | ⟨h1, h⟩
    · exact (ok_errAt.1 h).elim
    have h1 : st.inContext Head.isFunction = true := by simpa using h1
    rw [bind_skipWhite] at h
    obtain ⟨r1, h2, h⟩ := h
    rw [bind_peek, ok_ite, hq] at h
    rcases h with ⟨h3, h⟩ | ⟨h3, h⟩
    · rw [ok_bind] at h
      obtain ⟨v, r2, h4, h⟩ := h
      obtain ⟨rfl, rfl⟩ := ok_pure.1 h
      obtain ⟨e, h5, h6⟩ := expr_sound (fn := fn) he (h2.adv.suf hs) h4
      refine ⟨[_], [.return_ (Export.exArg fn ea).cmdpos (Export.exArg fn ea) (some e)], rfl, stmts_one ?_, h1, r1, h2, .inl ⟨h3, e, h6, rfl⟩⟩
      simp [Export.stmt, Export.exprOpt, h5]; rfl
    · obtain ⟨rfl, rfl⟩ := ok_pure.1 h
      exact ⟨[_], [_], rfl, stmts_one rfl, h1, _, h2, .inr ⟨Classical.not_not.1 h3, rfl, rfl⟩⟩
  · rintro xs r' ⟨h1, r1, h2, ⟨h3, e, h4, rfl⟩ | ⟨h3, rfl, rfl⟩⟩
    · obtain ⟨v, h5, h6⟩ := expr_complete he (h2.adv.suf hs) h4
      refine ⟨[.return_ ea.cmdpos ea (some v)], stmts_one ?_, ?_⟩
      · simp [Export.stmt, Export.exprOpt, h6]; rfl
      rw [ok_ite]
      refine .inr ⟨by simp [h1], ?_⟩
      rw [bind_skipWhite]
      refine ⟨r1, h2, ?_⟩
      rw [bind_peek, ok_ite, hq]
      exact .inl ⟨h3, ok_bind.2 ⟨v, _, h5, ok_pure.2 ⟨rfl, rfl⟩⟩⟩
    · refine ⟨[.return_ ea.cmdpos ea none], stmts_one rfl, ?_⟩
      rw [ok_ite]
      refine .inr ⟨by simp [h1], ?_⟩
      rw [bind_skipWhite]
      refine ⟨r', h2, ?_⟩
      rw [bind_peek, ok_ite, hq]
      exact .inr ⟨fun h => h h3, ok_pure.2 ⟨rfl, rfl⟩⟩

theorem isCall_iff {v : VExpr} {a : Ast.Expr} (h : Export.expr fn v = some a) (hc : isCall v = true) :
    ∃ f q as, a = .call f q as ∧ ∀ p ea, Export.stmt fn (.excall p ea v) =
      some (.exCall (Export.pos fn p) (Export.exArg fn ea) f q as) := by
  cases v <;> try cases hc
  rename_i q f as
  simp only [Export.expr, Option.bind_eq_bind, Option.bind_eq_some_iff, Option.some.injEq] at h
  obtain ⟨f', h1, as', h2, rfl⟩ := h
  exact ⟨f', _, as', rfl, fun p ea => by simp [Export.stmt, h1, h2]⟩

theorem call_isCall {v : VExpr} {f : Ast.Expr} {q : Ast.Pos} {as : List Ast.Expr}
    (h : Export.expr fn v = some (.call f q as)) : isCall v = true := by
  cases v <;> first | rfl | skip
  case atom q t v => cases t <;> simp [Export.expr, Export.atom] at h
  case method q l r =>
    cases r <;> simp [Export.expr, Option.bind_eq_some_iff] at h
  all_goals simp [Export.expr, Option.bind_eq_some_iff] at h

theorem call_sim (he : EnvOK env) (hs : Suf env r) : Sim env fn st (cmdCall ea st) r
    (fun xs r' => ∃ r1 f q as, Skip r r1 ∧ ¬ AtStop r1 ∧ Gram env fn 1 r1 (.call f q as) r' ∧
      xs = [.exCall (Export.exArg fn ea).cmdpos (Export.exArg fn ea) f q as]) := by
  unfold cmdCall
  constructor
  · intro st' r' h
    rw [bind_skipWhite] at h
    obtain ⟨r1, h1, h⟩ := h
    rw [bind_peek, ok_ite, endsSym_stop] at h
    rcases h with ⟨_, h⟩ | ⟨h2, h⟩
    · exact (ok_errHere.1 h).elim
    rw [ok_bind] at h
    obtain ⟨v, r2, h3, h⟩ := h
    obtain ⟨a, h4, h5⟩ := expr_sound (fn := fn) he (h1.adv.suf hs) h3
    rw [ok_ite] at h
    rcases h with ⟨_, h⟩ | ⟨h6, h⟩
    · exact (ok_errAt.1 h).elim
    obtain ⟨rfl, rfl⟩ := ok_pure.1 h
    obtain ⟨f, q, as, rfl, h7⟩ := isCall_iff h4 (by simpa using h6)
    exact ⟨[_], [_], rfl, stmts_one (h7 _ _), r1, f, q, as, h1, h2, h5, rfl⟩
  · rintro xs r' ⟨r1, f, q, as, h1, h2, h3, rfl⟩
    obtain ⟨v, h4, h5⟩ := expr_complete he (h1.adv.suf hs) h3
    have h6 := call_isCall h5
    obtain ⟨_, _, _, h7, h8⟩ := isCall_iff h5 h6
    cases h7
    refine ⟨[.excall ea.cmdpos ea v], stmts_one (h8 _ _), ?_⟩
    rw [bind_skipWhite]
    refine ⟨r1, h1, ?_⟩
    rw [bind_peek, ok_ite, endsSym_stop]
    refine .inr ⟨h2, ok_bind.2 ⟨v, _, h4, ?_⟩⟩
    rw [ok_ite]
    exact .inr ⟨by simp [h6], ok_pure.2 ⟨rfl, rfl⟩⟩

theorem echohl_iff {s : Str} : Ok env (loop (fun (s : Str) => do
    if endsSym (← peek) then pure (.inr s)
    else
      let c ← get
      pure (.inl (s ++ c.str))) []) r s r' ↔ Span (fun x => x != '|' && x != '"') r s r' := by
  have hst : ∀ {r : List Cell}, AtStop r ↔ (headSym r).is (fun x => x != '|' && x != '"') = false := by
    intro r
    unfold AtStop AtEnd
    cases headSym r with
    | ch c => simp [Sym.is, Classical.or_iff_not_imp_left]
    | eol => simp [Sym.is]
    | eof => simp [Sym.is]
  rw [loop_iff (R := fun s r out r' => ∃ v, Span (fun x => x != '|' && x != '"') r v r' ∧ out = s ++ v)]
  · simp
  · intro s r s1 r1 h
    rw [bind_peek, ok_ite, endsSym_stop, ok_pure, bind_get, ok_pure] at h
    rcases h with ⟨_, h, _⟩ | ⟨h, _, rfl⟩
    · cases h
    · refine tail_lt fun hr => h (.inl (.inr ?_))
      rw [hr]; rfl
  · intro s r out r'
    simp only [bind_peek, ok_ite, endsSym_stop, ok_pure, bind_get, reduceCtorEq, false_and, and_false, or_false, false_or,
      Sum.inr.injEq, Sum.inl.injEq]
    constructor
    · rintro ⟨v, ⟨h1, h2, h3⟩, rfl⟩
      cases v with
      | nil => have := h1.nil_inv; subst this; exact .inl ⟨hst.2 h3, by simp, rfl⟩
      | cons c v =>
        obtain ⟨r1, g1, g2⟩ := Reads.split (v := [c]) (w := v) h1
        obtain ⟨k1, rfl⟩ := reads_one_iff.1 g1
        refine .inr ⟨s ++ [c], _, ⟨?_, by rw [k1]; rfl, rfl⟩, v, ⟨g2, fun x hx => h2 x (by simp [hx]), h3⟩, by simp⟩
        rw [hst, k1]
        simpa [Sym.is] using h2 c (by simp)
    · rintro (⟨h, rfl, rfl⟩ | ⟨_, _, ⟨h, rfl, rfl⟩, v, ⟨g1, g2, g3⟩, rfl⟩)
      · exact ⟨[], ⟨Reads.nil _, by simp, hst.1 h⟩, by simp⟩
      · rw [hst, Bool.not_eq_false] at h
        obtain ⟨c, hc, hf⟩ := is_ch.1 h
        refine ⟨c :: v, ⟨Reads.append (v := [c]) (headSym_reads hc) g1, ?_, g3⟩, by rw [hc]; simp [Sym.str]⟩
        intro x hx
        rcases List.mem_cons.1 hx with rfl | hx
        · exact hf
        · exact g2 x hx

theorem echohl_sim : Sim env fn st (cmdEchohl ea st) r
    (fun xs r' => ∃ s, Span (fun x => x != '|' && x != '"') r s r' ∧
      xs = [.echohl (Export.exArg fn ea).cmdpos (Export.exArg fn ea) s]) :=
  sim_of (ex := some) (S := fun s r' => Span (fun x => x != '|' && x != '"') r s r')
    (fun v _ h => ⟨v, rfl, echohl_iff.1 h⟩) (fun b _ h => ⟨b, rfl, echohl_iff.2 h⟩)
    (g := fun s => .echohl ea.cmdpos ea s) fun a b h => by cases h; rfl

/-! ### Heredocs -/

def hereBody (rl : List (Pos × Str)) : Prog (List (Pos × Str) ⊕ (List (Pos × Str) × Str)) := do
    skipWhite
    let q ← getpos
    let key ← readWord
    match key with
    | [] => pure (.inr (rl, []))
    | c :: _ => if !islower c then pure (.inr (rl, key)) else pure (.inl (rl ++ [(q, key)]))

theorem heredocHead_eq : heredocHead = loop hereBody [] := rfl

theorem hereBody_iff {rl : List (Pos × Str)} {x : List (Pos × Str) ⊕ (List (Pos × Str) × Str)} :
    Ok env (hereBody rl) r x r' ↔ ∃ r1, Skip r r1 ∧ ∃ key, Span iswordc r1 key r' ∧
        ((key = [] ∧ x = .inr (rl, [])) ∨ ∃ c t, key = c :: t ∧ (islower c = false ∧ x = .inr (rl, key) ∨
          islower c = true ∧ x = .inl (rl ++ [(posOf env r1, key)]))) := by
  unfold hereBody
  rw [bind_skipWhite]
  refine exists_congr fun r1 => and_congr_right fun _ => ?_
  rw [bind_getpos]
  unfold readWord
  rw [bind_readWhile]
  refine exists_congr fun key => ?_
  constructor
  · rintro ⟨r2, h1, h2⟩
    cases key with
    | nil =>
      obtain ⟨rfl, rfl⟩ := ok_pure.1 h2
      exact ⟨h1, .inl ⟨rfl, rfl⟩⟩
    | cons c t =>
      rcases ok_ite.1 h2 with ⟨h3, h2⟩ | ⟨h3, h2⟩
      · obtain ⟨rfl, rfl⟩ := ok_pure.1 h2
        exact ⟨h1, .inr ⟨c, t, rfl, .inl ⟨by simpa using h3, rfl⟩⟩⟩
      · obtain ⟨rfl, rfl⟩ := ok_pure.1 h2
        exact ⟨h1, .inr ⟨c, t, rfl, .inr ⟨by simpa using h3, rfl⟩⟩⟩
  · rintro ⟨h1, ⟨rfl, rfl⟩ | ⟨c, t, rfl, ⟨h2, rfl⟩ | ⟨h2, rfl⟩⟩⟩
    · exact ⟨_, h1, ok_pure.2 ⟨rfl, rfl⟩⟩
    · exact ⟨_, h1, ok_ite.2 (.inl ⟨by simp [h2], ok_pure.2 ⟨rfl, rfl⟩⟩)⟩
    · exact ⟨_, h1, ok_ite.2 (.inr ⟨by simp [h2], ok_pure.2 ⟨rfl, rfl⟩⟩)⟩

theorem hereHead_sound {fs : List (Pos × Str)} {m : Str} (h : Ok env heredocHead r (fs, m) r') (hm : m ≠ []) :
    HereHead env r fs m r' := by
  rw [heredocHead_eq] at h
  have h' := h
  clear h
  have := loop_ind (P := fun rl r => ∃ gs, fs = rl ++ gs ∧ HereHead env r gs m r') ?_ ?_ h'
  · obtain ⟨gs, rfl, h1⟩ := this
    exact h1
  · intro rl r h
    obtain ⟨r1, h1, key, h2, ⟨_, h3⟩ | ⟨c, t, rfl, ⟨h4, h3⟩ | ⟨_, h3⟩⟩⟩ := hereBody_iff.1 h
    · cases h3; exact absurd rfl hm
    · cases h3; exact ⟨[], by simp, .marker h1 h2 h4⟩
    · cases h3
  · rintro rl r s1 r1 h1' ⟨gs, rfl, ih⟩
    obtain ⟨r2, h1, key, h2, ⟨_, h3⟩ | ⟨c, t, rfl, ⟨_, h3⟩ | ⟨h4, h3⟩⟩⟩ := hereBody_iff.1 h1'
    · cases h3
    · cases h3
    · cases h3; exact ⟨_, by simp, .flag h1 h2 h4 ih⟩

theorem Spec.HereHead.ne {fs : List (Pos × Str)} {m : Str} (h : HereHead env r fs m r') : m ≠ [] := by
  induction h with
  | marker => simp
  | flag _ _ _ _ ih => exact ih

theorem Spec.HereHead.adv {fs : List (Pos × Str)} {m : Str} (h : HereHead env r fs m r') : Adv r r' := by
  induction h with
  | marker h1 h2 => exact h1.adv.trans h2.adv
  | flag h1 h2 _ _ ih => exact (h1.adv.trans h2.adv).trans ih

theorem hereHead_complete {fs : List (Pos × Str)} {m : Str} (h : HereHead env r fs m r') :
    ∀ rl, Ok env (loop hereBody rl) r (rl ++ fs, m) r' := by
  induction h with
  | marker h1 h2 h3 =>
    intro rl
    exact loop_done (hereBody_iff.2 ⟨_, h1, _, h2, .inr ⟨_, _, rfl, .inl ⟨h3, by simp⟩⟩⟩)
  | @flag r r1 c f r2 fs m r' h1 h2 h3 _ ih =>
    intro rl
    refine loop_more (hereBody_iff.2 ⟨_, h1, _, h2, .inr ⟨_, _, rfl, .inr ⟨h3, rfl⟩⟩⟩)
      (h1.adv.trans_sadv (h2.1.sadv (by simp))).lt ?_
    have := ih (rl ++ [(posOf env r1, c :: f)])
    rw [List.append_assoc] at this
    exact this

def hereLine (op : Str) (body : List (Pos × Str)) : Prog (List (Pos × Str) ⊕ List (Pos × Str)) := do
    if (← peek) = .eof then errHere (cs!"E990: Missing end marker '" ++ op ++ cs!"'")
    else
      let q ← getpos
      let line ← getline
      if line = op then pure (.inr body)
      else
        let _ ← get
        pure (.inl (body ++ [(q, line)]))

theorem heredocBody_eq {op : Str} : heredocBody op = loop (hereLine op) [] := rfl

theorem hereLine_iff {op : Str} {body : List (Pos × Str)} {x : List (Pos × Str) ⊕ List (Pos × Str)} :
    Ok env (hereLine op body) r x r' ↔ headSym r ≠ .eof ∧ ∃ l r1, RestOf r l r1 ∧
      (l = op ∧ x = .inr body ∧ r' = r1 ∨ l ≠ op ∧ x = .inl (body ++ [(posOf env r, l)]) ∧ r' = r1.tail) := by
  unfold hereLine
  simp only [bind_peek, ok_ite, ok_errHere, and_false, false_or, bind_getpos, bind_getline, bind_get, ok_pure]

theorem Suf.ne_eof (h : r ≠ []) : headSym r ≠ .eof := by
  match r, h with
  | ⟨none, _⟩ :: _, _ => simp [headSym, Cell.sym]
  | ⟨some c, _⟩ :: _, _ => simp [headSym, Cell.sym]

theorem eof_nil : headSym r = .eof ↔ r = [] := by
  constructor
  · intro h
    exact Classical.byContradiction fun hn => Suf.ne_eof hn h
  · rintro rfl; rfl

theorem hereLines_sound (he : EnvOK env) (hs : Suf env r) {m : Str} {ls : List (Pos × Str)}
    (h : Ok env (heredocBody m) r ls r') : HLines env m r ls r' := by
  rw [heredocBody_eq] at h
  have := loop_ind (P := fun bs r => Suf env r → ∃ cs, ls = bs ++ cs ∧ HLines env m r cs r') ?_ ?_ h hs
  · obtain ⟨cs, rfl, h1⟩ := this
    exact h1
  · intro bs r h hs
    obtain ⟨h1, l, r1, h2, ⟨rfl, h3, rfl⟩ | ⟨_, h3, _⟩⟩ := hereLine_iff.1 h
    · cases h3; exact ⟨[], by simp, .done h2.1 h2.2⟩
    · cases h3
  · intro bs r s1 r1 h ih hs
    obtain ⟨h1, l, r2, h2, ⟨_, h3, _⟩ | ⟨h4, h3, rfl⟩⟩ := hereLine_iff.1 h
    · cases h3
    · cases h3
      obtain ⟨e, r3, rfl, h5⟩ := rest_line (hs.tidy he) (fun h => h1 (eof_nil.2 h)) h2
      obtain ⟨cs, rfl, h6⟩ := ih (h2.1.adv.suf hs).tail
      exact ⟨_, by simp, .cons h2.1 h5 h4 h6⟩

theorem hereLines_complete {m : Str} (hm : m ≠ []) {ls : List (Pos × Str)} (h : HLines env m r ls r') :
    ∀ bs, Ok env (loop (hereLine m) bs) r (bs ++ ls) r' := by
  induction h with
  | @done r r' h1 h2 =>
    intro bs
    refine loop_done (hereLine_iff.2 ⟨fun h => ?_, _, _, ⟨h1, h2⟩, .inl ⟨rfl, by simp, rfl⟩⟩)
    cases m with
    | nil => exact hm rfl
    | cons c m =>
      have := h1.head
      rw [h] at this
      cases this
  | @cons r l e r1 ls r' h1 h2 h3 _ ih =>
    intro bs
    have hne : r ≠ [] := by
      rintro rfl
      obtain ⟨p, hp, _⟩ := h1
      cases p <;> cases hp
    have hl : (e :: r1).length ≤ r.length := h1.adv.length
    refine loop_more (hereLine_iff.2 ⟨Suf.ne_eof hne, _, _, ⟨h1, atEnd_cons h2⟩, .inr ⟨h3, rfl, rfl⟩⟩)
      (by simp only [List.tail_cons, List.length_cons] at hl ⊢; omega) ?_
    have := ih (bs ++ [(posOf env r, l)])
    rw [List.append_assoc] at this
    exact this

/-! ### :let and :const -/

theorem StartsWith.prefix {a b : Str} (h : StartsWith r (a ++ b)) : StartsWith r a := by
  obtain ⟨r', h⟩ := h
  obtain ⟨r1, h1, _⟩ := h.split
  exact ⟨r1, h1⟩

/-- The operator that `parse_cmd_let` looks at. -/
def letOp (r : List Cell) : Str :=
  if (getnS 2 r).1 = cs!".." ∨ (getnS 2 r).1 = cs!"=<" then (getnS 3 r).1 else (getnS 2 r).1

theorem letOp_starts : StartsWith r (letOp r) := by
  unfold letOp
  split
  · exact ⟨_, getnS_reads 3 r⟩
  · exact ⟨_, getnS_reads 2 r⟩

theorem letOp_here : letOp r = cs!"=<<" ↔ StartsWith r cs!"=<<" := by
  constructor
  · intro h
    rw [← h]; exact letOp_starts
  · intro h
    have h2 := (peekn_eq (n := 2) (v := cs!"=<") rfl).2 (StartsWith.prefix (b := cs!"<") h)
    have h3 := (peekn_eq (n := 3) (v := cs!"=<<") rfl).2 h
    unfold letOp
    rw [h2, h3]
    rfl

theorem isOpAssign_iff {s : Str} : isOpAssign s = true ↔ s ∈ letOps ∧ s ≠ cs!"=" := by
  simp only [isOpAssign, letOps, Bool.or_eq_true, beq_iff_eq, List.mem_cons, List.not_mem_nil, or_false]
  constructor
  · rintro ((((((rfl | rfl) | rfl) | rfl) | rfl) | rfl) | rfl) <;> simp
  · rintro ⟨h | h | h | h | h | h | h | h, h1⟩
    · exact absurd h h1
    all_goals simp [h]

theorem letOp_iff {s : Str} (hs : s ∈ letOps) (hn : s ≠ cs!"=") : letOp r = s ↔ StartsWith r s := by
  constructor
  · rintro rfl; exact letOp_starts
  · intro h
    have two : s.length = 2 → s ≠ cs!".." → s ≠ cs!"=<" → letOp r = s := by
      intro h1 h2 h3
      unfold letOp
      rw [(peekn_eq (n := 2) h1).2 h]
      simp [h2, h3]
    simp only [letOps, List.mem_cons, List.not_mem_nil, or_false] at hs
    rcases hs with h1 | h1 | h1 | h1 | h1 | h1 | h1 | h1
    · exact absurd h1 hn
    · exact two (by simp [h1]) (by simp [h1]) (by simp [h1])
    · exact two (by simp [h1]) (by simp [h1]) (by simp [h1])
    · exact two (by simp [h1]) (by simp [h1]) (by simp [h1])
    · rw [h1] at h ⊢
      have h2 := (peekn_eq (n := 2) (v := cs!"..") rfl).2 (StartsWith.prefix (b := cs!"=") h)
      have h3 := (peekn_eq (n := 3) (v := cs!"..=") rfl).2 h
      unfold letOp
      rw [h2, h3]
      rfl
    · exact two (by simp [h1]) (by simp [h1]) (by simp [h1])
    · exact two (by simp [h1]) (by simp [h1]) (by simp [h1])
    · exact two (by simp [h1]) (by simp [h1]) (by simp [h1])

/-- What `parse_cmd_let` does after the left-hand side. -/
def letTail (ea : ExArg) (cmd : Cmd) (st : PState) (s : List Cell) (lhs : Lhs) (s1 s2 : Str) : Prog PState :=
    if (endsStr s1 || (!isOpAssign s2 && s2 != cs!"=<<" && s1 != cs!"=")) = true then do
      seekSet s
      cmdCommon ea cmd st
    else if isOpAssign s2 then do
      let _ ← getn s2.length
      let e ← parseExpr1
      pure (st.add (.let_ ea.cmdpos ea s2 lhs e))
    else if s2 = cs!"=<<" then do
      let _ ← getn s2.length
      skipWhite
      let (e, st) ← parseHeredoc ea st
      pure (st.add (.let_ ea.cmdpos ea s2 lhs e))
    else if s1 = cs!"=" then do
      let _ ← getn 1
      let e ← parseExpr1
      pure (st.add (.let_ ea.cmdpos ea s1 lhs e))
    else .fail .crash

theorem ok_let : Ok env (cmdLet ea c st) r st' r' ↔ ∃ r1, Skip r r1 ∧ (AtStop r1 ∧ Ok env (cmdCommon ea c st) r st' r' ∨
    ¬ AtStop r1 ∧ ∃ lhs r2 r3, Ok env parseLetlhs r1 lhs r2 ∧ Skip r2 r3 ∧
      Ok env (letTail ea c st r lhs (getnS 1 r3).1 (letOp r3)) r3 st' r') := by
  unfold cmdLet
  rw [bind_tell, bind_skipWhite]
  refine exists_congr fun r1 => and_congr_right fun _ => ?_
  rw [bind_peek, ok_ite, endsSym_stop]
  refine or_congr Iff.rfl (and_congr_right fun _ => ?_)
  rw [ok_bind]
  refine exists_congr fun lhs => ?_
  simp only [bind_skipWhite, bind_peekn]
  have key : ∀ r3, Ok env (do
      let s2 ← if (getnS 2 r3).1 = cs!".." ∨ (getnS 2 r3).1 = cs!"=<" then peekn 3 else pure (getnS 2 r3).1
      letTail ea c st r lhs (getnS 1 r3).1 s2) r3 st' r' ↔ Ok env (letTail ea c st r lhs (getnS 1 r3).1 (letOp r3)) r3 st' r' := by
    intro r3
    unfold letOp
    by_cases h : (getnS 2 r3).1 = cs!".." ∨ (getnS 2 r3).1 = cs!"=<"
    · rw [if_pos h, if_pos h]; exact Iff.rfl
    · rw [if_neg h, if_neg h]; exact Iff.rfl
  constructor
  · rintro ⟨r2, h1, r3, h2, h3⟩
    exact ⟨r2, r3, h1, h2, (key r3).1 h3⟩
  · rintro ⟨r2, r3, h1, h2, h3⟩
    exact ⟨r2, h1, r3, h2, (key r3).2 h3⟩

theorem Spec.Trail.suf {cm : List Ast.Stmt} (h : Trail env fn r cm r') (hs : Suf env r) : Suf env r' := by
  cases h with
  | eof => exact Suf.nil env
  | eol h => exact (h.adv.suf hs).tail
  | bar h h1 => exact (h.adv.trans h1.adv).suf hs
  | comment h h1 =>
    cases h1 with
    | mk h1 h2 => exact ((h.adv.trans (h1.adv.trans h2.adv)).suf hs).tail

theorem Spec.HereHead.skip {fs : List (Pos × Str)} {m : Str} {r1 : List Cell} (h : Skip r r1) :
    HereHead env r1 fs m r' ↔ HereHead env r fs m r' := by
  constructor
  · intro h1
    cases h1 with
    | marker h1 h2 h3 => rw [← h.again.det h1] at h2; exact .marker h h2 h3
    | flag h1 h2 h3 h4 => rw [← h.again.det h1] at h2 ⊢; exact .flag h h2 h3 h4
  · intro h1
    cases h1 with
    | marker h1 h2 h3 => rw [← h.det h1] at h2; exact .marker h.again h2 h3
    | flag h1 h2 h3 h4 => rw [← h.det h1] at h2 ⊢; exact .flag h.again h2 h3 h4

theorem parseHeredoc_sound (he : EnvOK env) (hs : Suf env r) {v : VExpr} (h : Ok env (parseHeredoc ea st) r (v, st') r') :
    ∃ fs m r3 vs cm r4 body, v = .heredoc ea.cmdpos fs m body ∧ st' = st.adds vs ∧ Export.stmts fn vs = some cm ∧
      HereHead env r fs m r3 ∧ Trail env fn r3 cm r4 ∧ HLines env m r4 body r' := by
  unfold parseHeredoc at h
  rw [ok_bind] at h
  obtain ⟨⟨fs, m⟩, r3, h1, h⟩ := h
  rcases ok_ite.1 h with ⟨_, h⟩ | ⟨hm, h⟩
  · exact (ok_errHere.1 h).elim
  have hh := hereHead_sound h1 hm
  rw [ok_bind] at h
  obtain ⟨st1, r4, h2, h⟩ := h
  obtain ⟨vs, cm, rfl, h3, h4⟩ := trail_sound (fn := fn) he (hh.adv.suf hs) h2
  rw [ok_bind] at h
  obtain ⟨body, r5, h5, h⟩ := h
  obtain ⟨h6, rfl⟩ := ok_pure.1 h
  cases h6
  exact ⟨fs, m, r3, vs, cm, r4, body, rfl, rfl, h3, hh, h4, hereLines_sound he (h4.suf (hh.adv.suf hs)) h5⟩

theorem parseHeredoc_complete {fs : List (Pos × Str)} {m : Str} {r3 r4 : List Cell} {cm : List Ast.Stmt} {body : List (Pos × Str)}
    (h1 : HereHead env r fs m r3) (h2 : Trail env fn r3 cm r4) (h3 : HLines env m r4 body r') :
    ∃ vs, Export.stmts fn vs = some cm ∧ ∀ st ea, Ok env (parseHeredoc ea st) r (.heredoc ea.cmdpos fs m body, st.adds vs) r' := by
  obtain ⟨vs, h4, h5⟩ := trail_complete h2
  refine ⟨vs, h4, fun st ea => ?_⟩
  unfold parseHeredoc
  rw [ok_bind]
  refine ⟨(fs, m), r3, ?_, ok_ite.2 (.inr ⟨h1.ne, ok_bind.2 ⟨_, _, h5 st, ok_bind.2 ⟨body, _, ?_, ok_pure.2 ⟨rfl, rfl⟩⟩⟩⟩)⟩
  · have := hereHead_complete h1 []
    rwa [List.nil_append] at this
  · have := hereLines_complete h1.ne h3 []
    rwa [List.nil_append] at this

theorem stmt_let {lhs : Lhs} {l : Option Ast.Expr} {ls : List Ast.Expr} {x : Option Ast.Expr} {v : VExpr} {e : Ast.Expr} {op : Str}
    (h : lhsEx fn lhs = some (l, ls, x)) (h1 : Export.expr fn v = some e) : Export.stmt fn (.let_ ea.cmdpos ea op lhs v) =
      some (.let_ (Export.exArg fn ea).cmdpos (Export.exArg fn ea) op l ls x e) := by
  simp only [lhsEx, Option.bind_eq_bind, Option.bind_eq_some_iff, Option.some.injEq, Prod.mk.injEq] at h
  obtain ⟨_, h2, _, h3, _, h4, rfl, rfl, rfl⟩ := h
  simp [Export.stmt, h2, h3, h4, h1]
  rfl

theorem stmt_const {lhs : Lhs} {l : Option Ast.Expr} {ls : List Ast.Expr} {x : Option Ast.Expr} {v : VExpr} {e : Ast.Expr} {op : Str}
    (h : lhsEx fn lhs = some (l, ls, x)) (h1 : Export.expr fn v = some e) : Export.stmt fn (.const_ ea.cmdpos ea op lhs v) =
      some (.let_ (Export.exArg fn ea).cmdpos (Export.exArg fn ea) op l ls x e) := by
  simp only [lhsEx, Option.bind_eq_bind, Option.bind_eq_some_iff, Option.some.injEq, Prod.mk.injEq] at h
  obtain ⟨_, h2, _, h3, _, h4, rfl, rfl, rfl⟩ := h
  simp [Export.stmt, h2, h3, h4, h1]
  rfl

theorem let_sound (he : EnvOK env) (hi : HandlerAt env ea r0 ra r) (hn : c.name = cs!"let") (cx : Ctx)
    (h : Ok env (cmdLet ea c st) r st' r') : ∃ vs xs, st' = st.adds vs ∧ Export.stmts fn vs = some xs ∧
      Spec.Simple env fn cx r0 ra (Export.exArg fn ea) c r xs r' := by
  have hs := hi.sufR
  obtain ⟨r1, h1, h⟩ := ok_let.1 h
  rcases h with ⟨h2, h⟩ | ⟨h2, lhs, r2, r3, h3, h4, h⟩
  · obtain ⟨s, h3, rfl⟩ := (common_iff (fn := fn) he hi).1 h
    exact ⟨[_], [_], rfl, stmts_one rfl, .letListing hn (.all h1 h2) h3⟩
  have s1 := h1.adv.suf hs
  obtain ⟨⟨l, ls, x⟩, h5, h6⟩ := (par_letlhs (fn := fn) he).sound s1 h3
  have s3 := h4.adv.suf (((par_letlhs he).adv s1 h6).adv.suf s1)
  have hl : LetLeft env fn (Target env fn) r l ls x r3 := ⟨r1, r2, h1, h2, h6, h4⟩
  unfold letTail at h
  rcases ok_ite.1 h with ⟨h7, h⟩ | ⟨h7, h⟩
  · rw [bind_seekSet] at h
    obtain ⟨s, h3, rfl⟩ := (common_iff (fn := fn) he hi).1 h
    refine ⟨[_], [_], rfl, stmts_one rfl, .letListing hn (.some hl ?_) h3⟩
    intro op hop hst
    rw [Bool.or_eq_true, Bool.and_eq_true, Bool.and_eq_true] at h7
    rcases h7 with h7 | ⟨⟨h7, h8⟩, h9⟩
    · rw [get1_ends] at h7
      have hne : ∀ op ∈ cs!"=<<" :: letOps, ∃ a t, op = a :: t ∧ a ≠ '|' ∧ a ≠ '"' := by
        intro op hop
        simp only [letOps, List.mem_cons, List.not_mem_nil, or_false] at hop
        rcases hop with rfl | rfl | rfl | rfl | rfl | rfl | rfl | rfl | rfl <;> exact ⟨_, _, rfl, by decide, by decide⟩
      obtain ⟨a, t, rfl, h8, h9⟩ := hne op hop
      obtain ⟨_, hst⟩ := hst
      have := hst.head
      rcases h7 with h7 | h7 | h7
      · exact atEnd_not h7 this
      · rw [h7] at this; cases this; exact h8 rfl
      · rw [h7] at this; cases this; exact h9 rfl
    · rcases List.mem_cons.1 hop with rfl | hop
      · simp [letOp_here.2 hst] at h8
      · by_cases he1 : op = cs!"="
        · subst he1
          simp [(peekn_eq (n := 1) (v := cs!"=") rfl).2 hst] at h9
        · have := isOpAssign_iff.2 ⟨hop, he1⟩
          rw [← (letOp_iff hop he1).2 hst] at this
          simp [this] at h7
  rw [ok_ite] at h
  rcases h with ⟨h8, h⟩ | ⟨h8, h⟩
  · rw [bind_getn, ok_bind] at h
    obtain ⟨v, r4, h9, h⟩ := h
    obtain ⟨rfl, rfl⟩ := ok_pure.1 h
    obtain ⟨r5, hr⟩ := letOp_starts (r := r3)
    rw [← ((getn_reads rfl).2 hr).2] at h9
    obtain ⟨e, h10, h11⟩ := expr_sound (fn := fn) he (hr.adv.suf s3) h9
    have h12 := isOpAssign_iff.1 h8
    refine ⟨[_], [_], rfl, stmts_one (stmt_let h5 h10), .let_ hn hl h12.1 ?_ hr h11⟩
    intro h13
    have := letOp_here.2 h13
    rw [this] at h8
    exact absurd h8 (by decide)
  rw [ok_ite] at h
  rcases h with ⟨h9, h⟩ | ⟨h9, h⟩
  · rw [h9, bind_getn] at h
    obtain ⟨r5, hr⟩ := letOp_here.1 h9
    have e5 := ((getn_reads (n := 3) rfl).2 hr).2
    have h : Ok env (skipWhite >>= fun _ => parseHeredoc ea st >>= fun x => pure (x.2.add (.let_ ea.cmdpos ea cs!"=<<" lhs x.1)))
      (getnS 3 r3).2 st' r' := h
    rw [← e5, bind_skipWhite] at h
    obtain ⟨r6, h10, h⟩ := h
    rw [ok_bind] at h
    obtain ⟨⟨v, st1⟩, r7, h11, h⟩ := h
    obtain ⟨rfl, rfl⟩ := ok_pure.1 h
    have s5 := hr.adv.suf s3
    obtain ⟨fs, m, r8, vs, cm, r9, body, rfl, rfl, k1, k2, k3, k4⟩ := parseHeredoc_sound (fn := fn) he (h10.adv.suf s5) h11
    refine ⟨_, _, PState.adds_add st vs _, stmts_append k1 (stmts_one (stmt_let h5 rfl)), ?_⟩
    exact .heredoc hn hl hr ((Spec.HereHead.skip h10).1 k2) k3 k4
  rw [ok_ite] at h
  rcases h with ⟨h10, h⟩ | ⟨_, h⟩
  · rw [bind_getn, ok_bind] at h
    obtain ⟨v, r4, h11, h⟩ := h
    obtain ⟨rfl, rfl⟩ := ok_pure.1 h
    have hr := (getn_reads (n := 1) (v := cs!"=") rfl).1 ⟨h10.symm, rfl⟩
    obtain ⟨e, h12, h13⟩ := expr_sound (fn := fn) he (hr.adv.suf s3) h11
    rw [h10]
    exact ⟨[_], [_], rfl, stmts_one (stmt_let h5 h12), .let_ hn hl (by simp [letOps]) (fun h => h9 (letOp_here.2 h)) hr h13⟩
  · exact (ok_fail.1 h).elim

theorem Spec.LetLeft.run {S : List Cell → Ast.Expr → List Cell → Prop} {m : Prog VExpr} (he : EnvOK env) (hm : Par env (Export.expr fn) m S) (hs : Suf env r)
    {l : Option Ast.Expr} {ls : List Ast.Expr} {x : Option Ast.Expr} (h : LetLeft env fn S r l ls x r') :
    ∃ r1 lhs r2, Skip r r1 ∧ ¬ AtStop r1 ∧ lhsEx fn lhs = some (l, ls, x) ∧ Ok env (parseLhs m) r1 lhs r2 ∧ Skip r2 r' ∧ Suf env r' := by
  obtain ⟨r1, r2, h1, h2, h3, h4⟩ := h
  have s1 := h1.adv.suf hs
  have h3 : LhsOf env fn S r1 (l, ls, x) r2 := h3
  obtain ⟨lhs, h5, h6⟩ := (par_lhs he hm).complete s1 h3
  exact ⟨r1, lhs, r2, h1, h2, h5, h6, h4, h4.adv.suf (((par_lhs he hm).adv s1 h3).adv.suf s1)⟩

theorem letListing_complete (he : EnvOK env) (hi : HandlerAt env ea r0 ra r) {s : Str}
    (h : LetListing env fn (Target env fn) (cs!"=<<" :: letOps) r) (h1 : RawText env fn c ea.usefilter r0 ra r s r') :
    Ok env (cmdLet ea c st) r (st.add (.excmd ea.cmdpos ea s)) r' := by
  have hcom := (common_iff (fn := fn) (st := st) he hi).2 ⟨s, h1, rfl⟩
  rw [ok_let]
  cases h with
  | all h2 h3 => exact ⟨_, h2, .inl ⟨h3, hcom⟩⟩
  | @some l ls x r3 h2 h3 =>
    obtain ⟨r1, lhs, r2, k1, k2, k3, k4, k5, _⟩ := h2.run he (par_target he) hi.sufR
    refine ⟨r1, k1, .inr ⟨k2, lhs, r2, r3, k4, k5, ?_⟩⟩
    unfold letTail
    rw [ok_ite]
    refine .inl ⟨?_, hcom⟩
    rw [Bool.or_eq_true]
    right
    have g1 : isOpAssign (letOp r3) = false := by
      rw [← Bool.not_eq_true]
      intro h
      exact h3 _ (List.mem_cons_of_mem _ (isOpAssign_iff.1 h).1) letOp_starts
    have g2 : letOp r3 ≠ cs!"=<<" := fun h => h3 _ (by simp) (letOp_here.1 h)
    have g3 : (getnS 1 r3).1 ≠ cs!"=" := fun h => h3 cs!"=" (by simp [letOps]) ((peekn_eq (n := 1) rfl).1 h)
    simp [g1, g2, g3]

theorem let_complete (he : EnvOK env) (hi : HandlerAt env ea r0 ra r) {l : Option Ast.Expr} {ls : List Ast.Expr}
    {x : Option Ast.Expr} {r1 r2 : List Cell} {op : Str} {e : Ast.Expr} (h1 : LetLeft env fn (Target env fn) r l ls x r1)
    (h2 : op ∈ letOps) (h3 : ¬ StartsWith r1 cs!"=<<") (h4 : Reads r1 op r2) (h5 : Gram env fn 1 r2 e r') :
    ∃ vs, Export.stmts fn vs = some [.let_ (Export.exArg fn ea).cmdpos (Export.exArg fn ea) op l ls x e] ∧
      Ok env (cmdLet ea c st) r (st.adds vs) r' := by
  obtain ⟨q1, lhs, q2, k1, k2, k3, k4, k5, k6⟩ := h1.run he (par_target he) hi.sufR
  obtain ⟨v, h6, h7⟩ := expr_complete he (h4.adv.suf k6) h5
  refine ⟨[.let_ ea.cmdpos ea op lhs v], stmts_one (stmt_let k3 h7), ?_⟩
  rw [ok_let]
  refine ⟨q1, k1, .inr ⟨k2, lhs, q2, r1, k4, k5, ?_⟩⟩
  unfold letTail
  have hh : letOp r1 ≠ cs!"=<<" := fun h => h3 (letOp_here.1 h)
  have hst : StartsWith r1 op := ⟨_, h4⟩
  have hend : endsStr (getnS 1 r1).1 = false := by
    rw [← Bool.not_eq_true, get1_ends]
    have hne : ∃ a t, op = a :: t ∧ a ≠ '|' ∧ a ≠ '"' := by
      simp only [letOps, List.mem_cons, List.not_mem_nil, or_false] at h2
      rcases h2 with rfl | rfl | rfl | rfl | rfl | rfl | rfl | rfl <;> exact ⟨_, _, rfl, by decide, by decide⟩
    obtain ⟨a, t, rfl, h8, h9⟩ := hne
    have := h4.head
    rintro (h | h | h)
    · exact atEnd_not h this
    · rw [h] at this; cases this; exact h8 rfl
    · rw [h] at this; cases this; exact h9 rfl
  rw [ok_ite]
  by_cases ho : op = cs!"="
  · subst ho
    have h1s := (peekn_eq (n := 1) (v := cs!"=") rfl).2 hst
    have hna : isOpAssign (letOp r1) = false := by
      rw [← Bool.not_eq_true]
      intro h
      obtain ⟨h8, h9⟩ := isOpAssign_iff.1 h
      obtain ⟨_, h10⟩ := letOp_starts (r := r1)
      have h11 := h4.head
      generalize letOp r1 = o at h8 h9 h10
      simp only [letOps, List.mem_cons, List.not_mem_nil, or_false] at h8
      rcases h8 with rfl | rfl | rfl | rfl | rfl | rfl | rfl | rfl
      · exact h9 rfl
      all_goals
        have h12 := h10.head
        rw [h11] at h12
        cases h12
    refine .inr ⟨by simp [h1s, endsStr], ?_⟩
    rw [if_neg (by simp [hna]), if_neg hh, if_pos h1s, bind_getn, ← ((getn_reads (n := 1) rfl).2 h4).2, ok_bind]
    exact ⟨v, _, h6, ok_pure.2 ⟨by rw [h1s]; rfl, rfl⟩⟩
  · have ha := isOpAssign_iff.2 ⟨h2, ho⟩
    have hl := (letOp_iff h2 ho).2 hst
    refine .inr ⟨by simp [hl, ha, hend], ?_⟩
    rw [if_pos (by rw [hl]; exact ha), hl, bind_getn, ← ((getn_reads rfl).2 h4).2, ok_bind]
    exact ⟨v, _, h6, ok_pure.2 ⟨rfl, rfl⟩⟩

theorem here_complete (he : EnvOK env) (hi : HandlerAt env ea r0 ra r) {l : Option Ast.Expr} {ls : List Ast.Expr}
    {x : Option Ast.Expr} {r1 r2 r3 r4 : List Cell} {fs : List (Pos × Str)} {m : Str} {cm : List Ast.Stmt} {body : List (Pos × Str)}
    (h1 : LetLeft env fn (Target env fn) r l ls x r1) (h2 : Reads r1 cs!"=<<" r2) (h3 : HereHead env r2 fs m r3)
    (h4 : Trail env fn r3 cm r4) (h5 : HLines env m r4 body r') :
    ∃ vs, Export.stmts fn vs = some (cm ++ [.let_ (Export.exArg fn ea).cmdpos (Export.exArg fn ea) cs!"=<<" l ls x
        (.heredoc (Export.exArg fn ea).cmdpos (strNodes fn fs) m (strNodes fn body))]) ∧
      Ok env (cmdLet ea c st) r (st.adds vs) r' := by
  obtain ⟨q1, lhs, q2, k1, k2, k3, k4, k5, k6⟩ := h1.run he (par_target he) hi.sufR
  obtain ⟨r5, hsk⟩ := skip_total r2
  obtain ⟨vs, h6, h7⟩ := parseHeredoc_complete ((Spec.HereHead.skip hsk).2 h3) h4 h5
  refine ⟨vs ++ [.let_ ea.cmdpos ea cs!"=<<" lhs (.heredoc ea.cmdpos fs m body)], stmts_append h6 (stmts_one (stmt_let k3 rfl)), ?_⟩
  rw [ok_let]
  refine ⟨q1, k1, .inr ⟨k2, lhs, q2, r1, k4, k5, ?_⟩⟩
  have ho := letOp_here.2 ⟨_, h2⟩
  unfold letTail
  rw [ho, ok_ite]
  have h1s := (peekn_eq (n := 1) (v := cs!"=") (r := r1) rfl).2 (StartsWith.prefix (b := cs!"<<") ⟨_, h2⟩)
  refine .inr ⟨by rw [h1s]; decide, ?_⟩
  rw [if_neg (by decide), if_pos rfl, bind_getn]
  show Ok env (skipWhite >>= fun _ => parseHeredoc ea st >>= fun x => pure (x.2.add (.let_ ea.cmdpos ea cs!"=<<" lhs x.1)))
      (getnS 3 r1).2 _ r'
  rw [← ((getn_reads (n := 3) rfl).2 h2).2, bind_skipWhite]
  refine ⟨r5, hsk, ?_⟩
  rw [ok_bind]
  exact ⟨_, _, h7 st ea, ok_pure.2 ⟨(PState.adds_add st vs _).symm, rfl⟩⟩

theorem const_cmd_sound (he : EnvOK env) (hi : HandlerAt env ea r0 ra r) (hn : c.name = cs!"const") (cx : Ctx)
    (h : Ok env (cmdConst ea c st) r st' r') : ∃ vs xs, st' = st.adds vs ∧ Export.stmts fn vs = some xs ∧
      Spec.Simple env fn cx r0 ra (Export.exArg fn ea) c r xs r' := by
  have hs := hi.sufR
  unfold cmdConst at h
  rw [bind_tell, bind_skipWhite] at h
  obtain ⟨r1, h1, h⟩ := h
  rw [bind_peek, ok_ite, endsSym_stop] at h
  rcases h with ⟨h2, h⟩ | ⟨h2, h⟩
  · rw [bind_seekSet] at h
    obtain ⟨s, h3, rfl⟩ := (common_iff (fn := fn) he hi).1 h
    exact ⟨[_], [_], rfl, stmts_one rfl, .constListing hn (.all h1 h2) h3⟩
  rw [ok_bind] at h
  obtain ⟨lhs, r2, h3, h⟩ := h
  rw [bind_skipWhite] at h
  obtain ⟨r3, h4, h⟩ := h
  have s1 := h1.adv.suf hs
  obtain ⟨⟨l, ls, x⟩, h5, h6⟩ := (par_constlhs (fn := fn) he).sound s1 h3
  have s3 := h4.adv.suf (((par_constlhs he).adv s1 h6).adv.suf s1)
  have hl : LetLeft env fn (ConstTarget env fn) r l ls x r3 := ⟨r1, r2, h1, h2, h6, h4⟩
  rw [bind_peekn, ok_ite] at h
  rcases h with ⟨h7, h⟩ | ⟨h7, h⟩
  · rw [bind_seekSet] at h
    obtain ⟨s, h3, rfl⟩ := (common_iff (fn := fn) he hi).1 h
    refine ⟨[_], [_], rfl, stmts_one rfl, .constListing hn (.some hl ?_) h3⟩
    intro op hop hst
    obtain rfl := List.mem_singleton.1 hop
    have := (peekn_eq (n := 1) (v := cs!"=") rfl).2 hst
    rw [this] at h7
    rcases h7 with h7 | h7
    · exact absurd h7 (by decide)
    · exact h7 rfl
  · have h8 : (getnS 1 r3).1 = cs!"=" := Decidable.not_not.1 fun h => h7 (.inr h)
    rw [bind_getn, ok_bind] at h
    obtain ⟨v, r4, h11, h⟩ := h
    obtain ⟨rfl, rfl⟩ := ok_pure.1 h
    have hr := (getn_reads (n := 1) (v := cs!"=") rfl).1 ⟨h8.symm, rfl⟩
    obtain ⟨e, h12, h13⟩ := expr_sound (fn := fn) he (hr.adv.suf s3) h11
    rw [h8]
    exact ⟨[_], [_], rfl, stmts_one (stmt_const h5 h12), .const_ hn hl hr h13⟩

theorem constListing_complete (he : EnvOK env) (hi : HandlerAt env ea r0 ra r) {s : Str}
    (h : LetListing env fn (ConstTarget env fn) [cs!"="] r) (h1 : RawText env fn c ea.usefilter r0 ra r s r') :
    Ok env (cmdConst ea c st) r (st.add (.excmd ea.cmdpos ea s)) r' := by
  have hcom := (common_iff (fn := fn) (st := st) he hi).2 ⟨s, h1, rfl⟩
  unfold cmdConst
  rw [bind_tell, bind_skipWhite]
  cases h with
  | all h2 h3 =>
    refine ⟨_, h2, ?_⟩
    rw [bind_peek, ok_ite, endsSym_stop]
    exact .inl ⟨h3, hcom⟩
  | @some l ls x r3 h2 h3 =>
    obtain ⟨r1, lhs, r2, k1, k2, k3, k4, k5, _⟩ := h2.run he (par_const he) hi.sufR
    refine ⟨r1, k1, ?_⟩
    rw [bind_peek, ok_ite, endsSym_stop]
    refine .inr ⟨k2, ok_bind.2 ⟨lhs, r2, k4, ?_⟩⟩
    rw [bind_skipWhite]
    refine ⟨r3, k5, ?_⟩
    rw [bind_peekn, ok_ite]
    exact .inl ⟨.inr fun h => h3 _ (by simp) ((peekn_eq (n := 1) rfl).1 h), hcom⟩

theorem const_cmd_complete (he : EnvOK env) (hi : HandlerAt env ea r0 ra r) {l : Option Ast.Expr} {ls : List Ast.Expr}
    {x : Option Ast.Expr} {r1 r2 : List Cell} {e : Ast.Expr} (h1 : LetLeft env fn (ConstTarget env fn) r l ls x r1)
    (h4 : Reads r1 cs!"=" r2) (h5 : Gram env fn 1 r2 e r') :
    ∃ vs, Export.stmts fn vs = some [.let_ (Export.exArg fn ea).cmdpos (Export.exArg fn ea) cs!"=" l ls x e] ∧
      Ok env (cmdConst ea c st) r (st.adds vs) r' := by
  obtain ⟨q1, lhs, q2, k1, k2, k3, k4, k5, k6⟩ := h1.run he (par_const he) hi.sufR
  obtain ⟨v, h6, h7⟩ := expr_complete he (h4.adv.suf k6) h5
  refine ⟨[.const_ ea.cmdpos ea cs!"=" lhs v], stmts_one (stmt_const k3 h7), ?_⟩
  unfold cmdConst
  rw [bind_tell, bind_skipWhite]
  refine ⟨q1, k1, ?_⟩
  rw [bind_peek, ok_ite, endsSym_stop]
  refine .inr ⟨k2, ok_bind.2 ⟨lhs, q2, k4, ?_⟩⟩
  rw [bind_skipWhite]
  refine ⟨r1, k5, ?_⟩
  rw [bind_peekn, (peekn_eq (n := 1) (v := cs!"=") rfl).2 ⟨_, h4⟩, ok_ite]
  refine .inr ⟨by decide, ?_⟩
  rw [bind_getn, ← ((getn_reads (n := 1) rfl).2 h4).2, ok_bind]
  exact ⟨v, _, h6, ok_pure.2 ⟨rfl, rfl⟩⟩

/-! ### :function -/

theorem function_sound (he : EnvOK env) (hi : HandlerAt env ea r0 ra r)
    (h : Ok env (cmdFunction ea c st) r st' r') :
    (∃ s, FuncListing env fn r ∧ RawText env fn c ea.usefilter r0 ra r s r' ∧ st' = st.add (.excmd ea.cmdpos ea s)) ∨
    ∃ (left : VExpr) (ps : ParamSt) (at_ : FuncAttr) (n : Ast.Expr) (is : List Ast.Ident) (ds : List Ast.Expr), st' = st.push (.function ea.cmdpos ea left ps.rlist ps.defaults at_) ∧
      Export.expr fn left = some n ∧ Export.idents fn ps.rlist = is ∧ Export.exprs fn ps.defaults = some ds ∧
      FuncHead env fn r n is ds at_ r' := by
  have hs := hi.sufR
  unfold cmdFunction at h
  rw [bind_tell, bind_skipWhite] at h
  obtain ⟨r1, h1, h⟩ := h
  rw [bind_peek, ok_ite, endsSym_stop] at h
  rcases h with ⟨h2, h⟩ | ⟨h2, h⟩
  · rw [bind_seekSet] at h
    obtain ⟨s, h3, rfl⟩ := (common_iff (fn := fn) he hi).1 h
    exact .inl ⟨s, .all h1 (.inl h2), h3, rfl⟩
  rw [bind_peekn, ok_ite, get1_ch] at h
  rcases h with ⟨h3, h⟩ | ⟨h3, h⟩
  · rw [bind_seekSet] at h
    obtain ⟨s, h4, rfl⟩ := (common_iff (fn := fn) he hi).1 h
    exact .inl ⟨s, .all h1 (.inr h3), h4, rfl⟩
  rw [ok_bind] at h
  obtain ⟨left, r2, h4, h⟩ := h
  rw [bind_skipWhite] at h
  obtain ⟨r3, h5, h⟩ := h
  have s1 := h1.adv.suf hs
  obtain ⟨n, h6, h7⟩ := (par_func (fn := fn) he).sound s1 h4
  have s3 := h5.adv.suf (((par_func he).adv s1 h7).adv.suf s1)
  split at h
  · exact (ok_fail.1 h).elim
  · exact (ok_errAt.1 h).elim
  · rename_i hcf
    have hok := (funcName_iff h6).1 hcf
    rw [bind_peekn, ok_ite] at h
    rcases h with ⟨h8, h⟩ | ⟨h8, h⟩
    · rw [bind_seekSet] at h
      obtain ⟨s, h9, rfl⟩ := (common_iff (fn := fn) he hi).1 h
      exact .inl ⟨s, .one h1 h2 h3 h7 hok h5 (fun h => h8 (get1_ch.2 h)), h9, rfl⟩
    · have h8 := Decidable.not_not.1 h8
      have hr := (getn_reads (n := 1) (v := cs!"(") rfl).1 ⟨h8.symm, rfl⟩
      rw [bind_getn, ok_bind] at h
      obtain ⟨ps, r4, h9, h⟩ := h
      have s4 := hr.adv.suf s3
      obtain ⟨⟨is, ds⟩, h10, h11⟩ := (par_params (fn := fn) he).sound s4 h9
      rw [ok_bind] at h
      obtain ⟨at_, r5, h12, h⟩ := h
      obtain ⟨rfl, rfl⟩ := ok_pure.1 h
      obtain ⟨ks, h13, rfl⟩ := attrs_iff.1 h12
      simp only [paramEx, Option.bind_eq_bind, Option.bind_eq_some_iff, Option.some.injEq, Prod.mk.injEq] at h10
      obtain ⟨_, h14, rfl, rfl⟩ := h10
      exact .inr ⟨left, ps, _, n, _, _, rfl, h6, rfl, h14, .mk h1 h2 h3 h7 hok h5 hr h11 h13⟩

theorem funcListing_complete (he : EnvOK env) (hi : HandlerAt env ea r0 ra r) {s : Str}
    (h : FuncListing env fn r) (h1 : RawText env fn c ea.usefilter r0 ra r s r') :
    Ok env (cmdFunction ea c st) r (st.add (.excmd ea.cmdpos ea s)) r' := by
  have hcom := (common_iff (fn := fn) (st := st) he hi).2 ⟨s, h1, rfl⟩
  unfold cmdFunction
  rw [bind_tell, bind_skipWhite]
  cases h with
  | @all r1 h2 h3 =>
    refine ⟨_, h2, ?_⟩
    rw [bind_peek, ok_ite, endsSym_stop]
    by_cases h4 : AtStop r1
    · exact .inl ⟨h4, hcom⟩
    · refine .inr ⟨h4, ?_⟩
      rw [bind_peekn, ok_ite, get1_ch]
      exact .inl ⟨h3.resolve_left h4, hcom⟩
  | @one r1 e r2 r3 h2 h3 h4 h5 h6 h7 h8 =>
    refine ⟨_, h2, ?_⟩
    rw [bind_peek, ok_ite, endsSym_stop]
    refine .inr ⟨h3, ?_⟩
    rw [bind_peekn, ok_ite, get1_ch]
    obtain ⟨v, h9, h10⟩ := (par_func he).complete (h2.adv.suf hi.sufR) h5
    refine .inr ⟨h4, ok_bind.2 ⟨v, r2, h10, ?_⟩⟩
    rw [bind_skipWhite]
    refine ⟨r3, h7, ?_⟩
    rw [(funcName_iff h9).2 h6]
    simp only
    rw [bind_peekn, ok_ite]
    exact .inl ⟨fun h => h8 (get1_ch.1 h), hcom⟩

theorem function_complete (he : EnvOK env) (hs : Suf env r) {n : Ast.Expr} {is : List Ast.Ident} {ds : List Ast.Expr}
    {at_ : FuncAttr} (h : FuncHead env fn r n is ds at_ r') :
    ∃ (left : VExpr) (ps : ParamSt), Export.expr fn left = some n ∧ Export.idents fn ps.rlist = is ∧ Export.exprs fn ps.defaults = some ds ∧
      ∀ ea c st, Ok env (cmdFunction ea c st) r (st.push (.function ea.cmdpos ea left ps.rlist ps.defaults at_)) r' := by
  cases h with
  | @mk r1 e r2 r3 r4 is ds r5 ks r' h1 h2 h3 h4 h5 h6 h7 h8 h9 =>
    have s1 := h1.adv.suf hs
    obtain ⟨v, k1, k2⟩ := (par_func he).complete s1 h4
    have s4 := (h6.adv.trans h7.adv).suf (((par_func he).adv s1 h4).adv.suf s1)
    obtain ⟨ps, k3, k4⟩ := (par_params (fn := fn) he).complete (a := (is, ds)) s4 h8
    simp only [paramEx, Option.bind_eq_bind, Option.bind_eq_some_iff, Option.some.injEq, Prod.mk.injEq] at k3
    obtain ⟨_, k5, rfl, rfl⟩ := k3
    refine ⟨v, ps, k1, rfl, k5, fun ea c st => ?_⟩
    unfold cmdFunction
    rw [bind_tell, bind_skipWhite]
    refine ⟨_, h1, ?_⟩
    rw [bind_peek, ok_ite, endsSym_stop]
    refine .inr ⟨h2, ?_⟩
    rw [bind_peekn, ok_ite, get1_ch]
    refine .inr ⟨h3, ok_bind.2 ⟨v, r2, k2, ?_⟩⟩
    rw [bind_skipWhite]
    refine ⟨r3, h6, ?_⟩
    rw [(funcName_iff k1).2 h5]
    simp only
    rw [bind_peekn, (peekn_eq (n := 1) (v := cs!"(") rfl).2 ⟨_, h7⟩, ok_ite]
    refine .inr ⟨fun h => h rfl, ?_⟩
    rw [bind_getn, ← ((getn_reads (n := 1) rfl).2 h7).2, ok_bind]
    exact ⟨ps, _, k4, ok_bind.2 ⟨_, _, attrs_iff.2 ⟨ks, h9, rfl⟩, ok_pure.2 ⟨rfl, rfl⟩⟩⟩

/-! ### All simple commands -/

theorem parsed_byName : parsedCmds.all (fun n => decide (byName n ≠ .common)) = true := by decide +kernel
theorem nameTable_parsed : nameTable.all (fun x => decide (x.1 ∈ parsedCmds)) = true := by decide +kernel

theorem byName_common {n : Str} : byName n = .common ↔ n ∉ parsedCmds := by
  constructor
  · intro h hn
    have := List.all_eq_true.1 parsed_byName n hn
    exact of_decide_eq_true this h
  · intro h
    refine Decidable.byContradiction fun hh => h ?_
    exact of_decide_eq_true (List.all_eq_true.1 nameTable_parsed _ (byName_mem rfl hh))

/-- Handlers of commands that open, continue or close a block. -/
def blockHandler : Handler → Bool
  | .if_ | .elseif | .else_ | .endif | .while_ | .endwhile | .for_ | .endfor | .try_ | .catch_ | .finally_ | .endtry
  | .function | .endfunction => true
  | _ => false

/-- The context of a state. -/
def stCtx (st : PState) : Ctx :=
  ⟨st.cur.head.isToplevel, st.inContext Head.isFunction, st.inContext Head.isWhile || st.inContext Head.isFor⟩

theorem simple_sound (he : EnvOK env) (hi : HandlerAt env ea r0 ra r) (hc : ea.cmd = some c)
    (hb : blockHandler (byName c.name) = false)
    (h : Ok env (runHandler (byName c.name) ea c st) r st' r') : ∃ vs xs, st' = st.adds vs ∧ Export.stmts fn vs = some xs ∧
      Spec.Simple env fn (stCtx st) r0 ra (Export.exArg fn ea) c r xs r' := by
  have hs := hi.sufR
  have name : ∀ {hd : Handler} {l : List Str}, byName c.name = hd → hd ≠ .common →
      (nameTable.all fun x => decide (x.2 = hd → x.1 ∈ l)) = true → c.name ∈ l := by
    intro hd l h1 h2 h3
    exact of_decide_eq_true (List.all_eq_true.1 h3 _ (byName_mem h1 h2)) rfl
  have name1 : ∀ {hd : Handler} {n : Str}, byName c.name = hd → hd ≠ .common →
      (nameTable.all fun x => decide (x.2 = hd → x.1 ∈ [n])) = true → c.name = n := by
    intro hd n h1 h2 h3
    exact List.mem_singleton.1 (name h1 h2 h3)
  cases hd : byName c.name <;> rw [hd] at h hb <;> first | (exact absurd hb (by decide)) | skip
  case common =>
    obtain ⟨s, h1, rfl⟩ := (common_iff (fn := fn) he hi).1 h
    exact ⟨[_], [_], rfl, stmts_one rfl, .raw (.common (byName_common.1 hd) h1)⟩
  case append =>
    obtain ⟨s, h1, rfl⟩ := (append_iff he hi).1 h
    have hn := name (l := [cs!"append", cs!"insert"]) hd (by decide) (by decide +kernel)
    exact ⟨[_], [_], rfl, stmts_one rfl, .raw (.append (by simpa using hn) h1)⟩
  case loadkeymap =>
    obtain ⟨ls, h1, h2, rfl, rfl⟩ := (keymap_iff he hi).1 h
    exact ⟨[_], [_], rfl, stmts_one rfl, .raw (.keymap (name1 hd (by decide) (by decide +kernel)) h1 h2)⟩
  case lua =>
    have hn := name (l := scriptCmds) hd (by decide) (by decide +kernel)
    obtain ⟨s, r1, h1, rfl, ⟨r2, r3, m, r4, h2, h3, h4, h5⟩ | ⟨h2, h3⟩⟩ := (lua_iff he hi).1 h
    · exact ⟨[_], [_], rfl, stmts_one rfl, .raw (.script hn h1 h2 h3 h4 h5)⟩
    · exact ⟨[_], [_], rfl, stmts_one rfl, .raw (.scriptLine hn h1 h2 h3)⟩
  case wincmd =>
    obtain ⟨s, r1, h1, h2, h3, h4, rfl⟩ := (wincmd_iff he hi).1 h
    exact ⟨[_], [_], rfl, stmts_one rfl, .raw (.wincmd (name1 hd (by decide) (by decide +kernel)) h1 h2 h3 h4)⟩
  case «syntax» =>
    obtain ⟨s, h1, h2, rfl⟩ := (syntax_iff he hi).1 h
    exact ⟨[_], [_], rfl, stmts_one rfl, .raw (.syntax (name1 hd (by decide) (by decide +kernel)) h1 h2)⟩
  case finish =>
    have hn : c.name = cs!"finish" := name1 hd (by decide) (by decide +kernel)
    obtain ⟨s, r1, h1, rfl, rfl⟩ := (finish_iff (fn := fn) he hi).1 h
    refine ⟨[_], [_], rfl, stmts_one rfl, .raw ?_⟩
    cases ht : st.cur.head.isToplevel with
    | true => exact .finishTop hn ht h1
    | false => exact .finish hn ht h1
  case modifierRange =>
    have := name (l := []) hd (by decide) (by decide +kernel)
    cases this
  case delfunction =>
    obtain ⟨vs, xs, rfl, h1, e, h2, rfl⟩ := (delfunction_sim (fn := fn) he hs).1 _ _ h
    exact ⟨vs, _, rfl, h1, .delfunction (name1 hd (by decide) (by decide +kernel)) h2⟩
  case throw =>
    obtain ⟨vs, xs, rfl, h1, e, h2, rfl⟩ := (throw_sim (fn := fn) he hs).1 _ _ h
    exact ⟨vs, _, rfl, h1, .throw (name1 hd (by decide) (by decide +kernel)) h2⟩
  case eval =>
    obtain ⟨vs, xs, rfl, h1, e, h2, rfl⟩ := (eval_sim (fn := fn) he hs).1 _ _ h
    exact ⟨vs, _, rfl, h1, .eval (name1 hd (by decide) (by decide +kernel)) h2⟩
  case echo =>
    obtain ⟨vs, xs, rfl, h1, e, h2, rfl⟩ := (echo_sim (fn := fn) he hs hc).1 _ _ h
    exact ⟨vs, _, rfl, h1, .echo (name hd (by decide) (by decide +kernel)) h2⟩
  case echon =>
    obtain ⟨vs, xs, rfl, h1, e, h2, rfl⟩ := (echo_sim (fn := fn) he hs hc).1 _ _ h
    exact ⟨vs, _, rfl, h1, .echo (name hd (by decide) (by decide +kernel)) h2⟩
  case echomsg =>
    obtain ⟨vs, xs, rfl, h1, e, h2, rfl⟩ := (echo_sim (fn := fn) he hs hc).1 _ _ h
    exact ⟨vs, _, rfl, h1, .echo (name hd (by decide) (by decide +kernel)) h2⟩
  case echoerr =>
    obtain ⟨vs, xs, rfl, h1, e, h2, rfl⟩ := (echo_sim (fn := fn) he hs hc).1 _ _ h
    exact ⟨vs, _, rfl, h1, .echo (name hd (by decide) (by decide +kernel)) h2⟩
  case execute =>
    obtain ⟨vs, xs, rfl, h1, e, h2, rfl⟩ := (execute_sim (fn := fn) he hs).1 _ _ h
    exact ⟨vs, _, rfl, h1, .execute (name1 hd (by decide) (by decide +kernel)) h2⟩
  case echohl =>
    obtain ⟨vs, xs, rfl, h1, e, h2, rfl⟩ := (echohl_sim (fn := fn)).1 _ _ h
    exact ⟨vs, _, rfl, h1, .echohl (name1 hd (by decide) (by decide +kernel)) h2⟩
  case unlet =>
    obtain ⟨vs, xs, rfl, h1, e, h2, rfl⟩ := (unlet_sim (fn := fn) he hs).1 _ _ h
    exact ⟨vs, _, rfl, h1, .unlet (name1 hd (by decide) (by decide +kernel)) h2⟩
  case lockvar =>
    obtain ⟨vs, xs, rfl, h1, d, r1, e, h2, h3, rfl⟩ := (lockvar_sim (fn := fn) he hs).1 _ _ h
    exact ⟨vs, _, rfl, h1, .lockvar (name1 hd (by decide) (by decide +kernel)) h2 h3⟩
  case unlockvar =>
    obtain ⟨vs, xs, rfl, h1, d, r1, e, h2, h3, rfl⟩ := (unlockvar_sim (fn := fn) he hs).1 _ _ h
    exact ⟨vs, _, rfl, h1, .unlockvar (name1 hd (by decide) (by decide +kernel)) h2 h3⟩
  case continue_ =>
    obtain ⟨vs, xs, rfl, h1, h2, rfl, rfl⟩ := (continue_sim (fn := fn)).1 _ _ h
    exact ⟨vs, _, rfl, h1, .continue_ (name1 hd (by decide) (by decide +kernel)) h2⟩
  case break_ =>
    obtain ⟨vs, xs, rfl, h1, h2, rfl, rfl⟩ := (break_sim (fn := fn)).1 _ _ h
    exact ⟨vs, _, rfl, h1, .break_ (name1 hd (by decide) (by decide +kernel)) h2⟩
  case return_ =>
    obtain ⟨vs, xs, rfl, h1, h2, r1, h3, ⟨h4, e, h5, rfl⟩ | ⟨h4, rfl, rfl⟩⟩ := (return_sim (fn := fn) he hs).1 _ _ h
    · exact ⟨vs, _, rfl, h1, .return_ (name1 hd (by decide) (by decide +kernel)) h2 h3 h4 h5⟩
    · exact ⟨vs, _, rfl, h1, .returnNone (name1 hd (by decide) (by decide +kernel)) h2 h3 h4⟩
  case call =>
    obtain ⟨vs, xs, rfl, h1, r1, f, q, as, h2, h3, h4, rfl⟩ := (call_sim (fn := fn) he hs).1 _ _ h
    exact ⟨vs, _, rfl, h1, .call (name1 hd (by decide) (by decide +kernel)) h2 h3 h4⟩
  case let_ => exact let_sound he hi (name1 hd (by decide) (by decide +kernel)) _ h
  case const_ => exact const_cmd_sound he hi (name1 hd (by decide) (by decide +kernel)) _ h

theorem simple_complete (he : EnvOK env) (hi : HandlerAt env ea r0 ra r) (hc : ea.cmd = some c) {xs : List Ast.Stmt}
    (h : Spec.Simple env fn (stCtx st) r0 ra (Export.exArg fn ea) c r xs r') :
    ∃ vs, Export.stmts fn vs = some xs ∧ Ok env (runHandler (byName c.name) ea c st) r (st.adds vs) r' := by
  have hs := hi.sufR
  have nm : ∀ {n : Str} {hd : Handler}, c.name = n → byName n = hd → byName c.name = hd := by
    rintro n hd h rfl; rw [h]
  cases h with
  | raw h =>
    cases h with
    | common h1 h2 =>
      rw [byName_common.2 h1]
      exact ⟨[_], stmts_one rfl, (common_iff (fn := fn) he hi).2 ⟨_, h2, rfl⟩⟩
    | finish h1 h2 h3 =>
      rw [nm h1 (hd := .finish) (by decide +kernel)]
      exact ⟨[.excmd ea.cmdpos ea _], stmts_one rfl, (finish_iff (fn := fn) he hi).2 ⟨_, _, h3, rfl, by
        have h2 : st.cur.head.isToplevel = false := h2
        rw [h2]; rfl⟩⟩
    | finishTop h1 h2 h3 =>
      rw [nm h1 (hd := .finish) (by decide +kernel)]
      exact ⟨[.excmd ea.cmdpos ea _], stmts_one rfl, (finish_iff (fn := fn) he hi).2 ⟨_, _, h3, rfl, by
        have h2 : st.cur.head.isToplevel = true := h2
        rw [h2]; rfl⟩⟩
    | append h1 h2 =>
      have : byName c.name = .append := by
        rcases h1 with h1 | h1 <;> rw [h1] <;> decide +kernel
      rw [this]
      exact ⟨[_], stmts_one rfl, (append_iff he hi).2 ⟨_, h2, rfl⟩⟩
    | keymap h1 h2 h3 =>
      rw [nm h1 (hd := .loadkeymap) (by decide +kernel)]
      exact ⟨[_], stmts_one rfl, (keymap_iff he hi).2 ⟨_, h2, h3, rfl, rfl⟩⟩
    | script h1 h2 h3 h4 h5 h6 =>
      rw [(by simpa using List.all_eq_true.mp script_byName _ h1 : byName c.name = .lua)]
      exact ⟨[_], stmts_one rfl, (lua_iff he hi).2 ⟨_, _, h2, rfl, .inl ⟨_, _, _, _, h3, h4, h5, h6⟩⟩⟩
    | scriptLine h1 h2 h3 h4 =>
      rw [(by simpa using List.all_eq_true.mp script_byName _ h1 : byName c.name = .lua)]
      exact ⟨[_], stmts_one rfl, (lua_iff he hi).2 ⟨_, _, h2, rfl, .inr ⟨h3, h4⟩⟩⟩
    | wincmd h1 h2 h3 h4 h5 =>
      rw [nm h1 (hd := .wincmd) (by decide +kernel)]
      exact ⟨[_], stmts_one rfl, (wincmd_iff he hi).2 ⟨_, _, h2, h3, h4, h5, rfl⟩⟩
    | «syntax» h1 h2 h3 =>
      rw [nm h1 (hd := .syntax) (by decide +kernel)]
      exact ⟨[_], stmts_one rfl, (syntax_iff he hi).2 ⟨_, h2, h3, rfl⟩⟩
  | funcListing h1 h2 h3 =>
    rw [nm h1 (hd := .function) (by decide +kernel)]
    exact ⟨[_], stmts_one rfl, funcListing_complete he hi h2 h3⟩
  | delfunction h1 h2 =>
    rw [nm h1 (hd := .delfunction) (by decide +kernel)]
    exact (delfunction_sim he hs).2 _ _ ⟨_, h2, rfl⟩
  | return_ h1 h2 h3 h4 h5 =>
    rw [nm h1 (hd := .return_) (by decide +kernel)]
    exact (return_sim he hs).2 _ _ ⟨h2, _, h3, .inl ⟨h4, _, h5, rfl⟩⟩
  | returnNone h1 h2 h3 h4 =>
    rw [nm h1 (hd := .return_) (by decide +kernel)]
    exact (return_sim he hs).2 _ _ ⟨h2, _, h3, .inr ⟨h4, rfl, rfl⟩⟩
  | call h1 h2 h3 h4 =>
    rw [nm h1 (hd := .call) (by decide +kernel)]
    exact (call_sim he hs).2 _ _ ⟨_, _, _, _, h2, h3, h4, rfl⟩
  | letListing h1 h2 h3 =>
    rw [nm h1 (hd := .let_) (by decide +kernel)]
    exact ⟨[_], stmts_one rfl, letListing_complete he hi h2 h3⟩
  | let_ h1 h2 h3 h4 h5 h6 =>
    rw [nm h1 (hd := .let_) (by decide +kernel)]
    exact let_complete he hi h2 h3 h4 h5 h6
  | heredoc h1 h2 h3 h4 h5 h6 =>
    rw [nm h1 (hd := .let_) (by decide +kernel)]
    exact here_complete he hi h2 h3 h4 h5 h6
  | constListing h1 h2 h3 =>
    rw [nm h1 (hd := .const_) (by decide +kernel)]
    exact ⟨[_], stmts_one rfl, constListing_complete he hi h2 h3⟩
  | const_ h1 h2 h3 h4 =>
    rw [nm h1 (hd := .const_) (by decide +kernel)]
    exact const_cmd_complete he hi h2 h3 h4
  | unlet h1 h2 =>
    rw [nm h1 (hd := .unlet) (by decide +kernel)]
    exact (unlet_sim he hs).2 _ _ ⟨_, h2, rfl⟩
  | lockvar h1 h2 h3 =>
    rw [nm h1 (hd := .lockvar) (by decide +kernel)]
    exact (lockvar_sim he hs).2 _ _ ⟨_, _, _, h2, h3, rfl⟩
  | unlockvar h1 h2 h3 =>
    rw [nm h1 (hd := .unlockvar) (by decide +kernel)]
    exact (unlockvar_sim he hs).2 _ _ ⟨_, _, _, h2, h3, rfl⟩
  | continue_ h1 h2 =>
    rw [nm h1 (hd := .continue_) (by decide +kernel)]
    exact continue_sim.2 _ _ ⟨h2, rfl, rfl⟩
  | break_ h1 h2 =>
    rw [nm h1 (hd := .break_) (by decide +kernel)]
    exact break_sim.2 _ _ ⟨h2, rfl, rfl⟩
  | throw h1 h2 =>
    rw [nm h1 (hd := .throw) (by decide +kernel)]
    exact (throw_sim he hs).2 _ _ ⟨_, h2, rfl⟩
  | eval h1 h2 =>
    rw [nm h1 (hd := .eval) (by decide +kernel)]
    exact (eval_sim he hs).2 _ _ ⟨_, h2, rfl⟩
  | @echo es _ h1 h2 =>
    simp only [List.mem_cons, List.not_mem_nil, or_false] at h1
    rcases h1 with h1 | h1 | h1 | h1
    · rw [nm h1 (hd := .echo) (by decide +kernel)]
      exact (echo_sim he hs hc).2 _ _ ⟨_, h2, rfl⟩
    · rw [nm h1 (hd := .echon) (by decide +kernel)]
      exact (echo_sim he hs hc).2 _ _ ⟨_, h2, rfl⟩
    · rw [nm h1 (hd := .echomsg) (by decide +kernel)]
      exact (echo_sim he hs hc).2 _ _ ⟨_, h2, rfl⟩
    · rw [nm h1 (hd := .echoerr) (by decide +kernel)]
      exact (echo_sim he hs hc).2 _ _ ⟨_, h2, rfl⟩
  | echohl h1 h2 =>
    rw [nm h1 (hd := .echohl) (by decide +kernel)]
    exact echohl_sim.2 _ _ ⟨_, h2, rfl⟩
  | execute h1 h2 =>
    rw [nm h1 (hd := .execute) (by decide +kernel)]
    exact (execute_sim he hs).2 _ _ ⟨_, h2, rfl⟩

end
end Viml
