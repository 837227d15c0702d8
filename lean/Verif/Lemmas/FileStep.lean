/-
Every command keeps the invariant of the file grammar.
-/
import Verif.Lemmas.FileBlocks

namespace Viml
open Prog Spec Props

section
variable {nv : Bool} {env : Env} {fn : Str} {cx : Ctx} {f : Frame} {fs : List Frame} {used used' : List Str} {r r' : List Cell}

theorem name_of {n m : Str} {hd : Handler} (h1 : byName n = hd) (h2 : hd ≠ .common)
    (h3 : (nameTable.all fun x => decide (x.2 = hd → x.1 = m)) = true) : n = m :=
  of_decide_eq_true (List.all_eq_true.1 h3 _ (byName_mem h1 h2)) rfl

theorem pushed {st : PState} {h : Head} {vs : List VStmt} : ((st.push h).adds vs).cur = { head := h, body := vs } := rfl

theorem closes_of {n : Str} {r0 ra r1 : List Cell} {ea : ExArg} {c : Cmd} (hn : c.name = n) (hne : n ≠ cs!"endfunction")
    (hh : CmdHead nv env fn used r r0 (Export.exArg fn ea) c ra r1 used') :
    Closes nv env fn n used r ⟨Export.pos fn ea.cmdpos, Export.exArg fn ea⟩ used' r1 :=
  ⟨r0, _, c, ra, r1, hn, hh, rfl, by rw [if_neg hne]⟩

theorem bind_check {β : Type} {c : Bool} {msg : Str} {q : Pos} {g : Unit → Prog β} {b : β} :
    Ok env ((if c = true then errAt msg q else pure ()) >>= g) r b r' ↔ c = false ∧ Ok env (g ()) r b r' := by
  cases c
  · simp only [Bool.false_eq_true, if_false, true_and]; exact Iff.rfl
  · simp only [if_true, ok_bind, ok_errAt, false_and, exists_false, reduceCtorEq]

theorem ok_endfunction {ea : ExArg} {st st' : PState} : Ok env (cmdEndfunction ea st) r st' r' ↔
    st.cur.head.isFunction = true ∧ ∃ l, RestOf r l r' ∧ ∃ f fs, st.stack = f :: fs ∧
      st' = { st with cur := f.attach (st.cur.close (some ⟨ea.cmdpos, ea⟩)), stack := fs } := by
  unfold cmdEndfunction checkMissingEndif checkMissingEndtry checkMissingEndwhile checkMissingEndfor
  rw [bind_check, bind_check, bind_check, bind_check, ok_ite, ok_errAt, bind_getline]
  constructor
  · rintro ⟨_, _, _, _, ⟨_, h⟩ | ⟨h1, l, r1, h2, h⟩⟩
    · exact h.elim
    · obtain ⟨f, fs, k1, rfl, rfl⟩ := ok_pop.1 h
      exact ⟨by simpa using h1, l, h2, f, fs, k1, rfl⟩
  · rintro ⟨h1, l, h2, f, fs, k1, rfl⟩
    have : ∃ q e l rl da at_, st.cur.head = .function q e l rl da at_ := by
      cases hh : st.cur.head <;> rw [hh] at h1 <;> first | (cases h1; done) | exact ⟨_, _, _, _, _, _, rfl⟩
    obtain ⟨_, _, _, _, _, _, hh⟩ := this
    refine ⟨by rw [hh]; rfl, by rw [hh]; rfl, by rw [hh]; rfl, by rw [hh]; rfl, .inr ⟨by simp [h1], l, r', h2, ?_⟩⟩
    exact ok_pop.2 ⟨f, fs, k1, rfl, rfl⟩

theorem else_opt {ea : ExArg} {b : List VStmt} {ss : List Ast.Stmt} (h : Export.stmts fn b = some ss) :
    Export.stmtOpt fn (some (.else_ ea.cmdpos ea b)) = some (some (.else_ (Export.exArg fn ea).cmdpos (Export.exArg fn ea) ss)) := by
  simp only [Export.stmtOpt, Export.stmt, h]; rfl

theorem finally_opt {ea : ExArg} {b : List VStmt} {ss : List Ast.Stmt} (h : Export.stmts fn b = some ss) :
    Export.stmtOpt fn (some (.finally_ ea.cmdpos ea b)) = some (some (.finally_ (Export.exArg fn ea).cmdpos (Export.exArg fn ea) ss)) := by
  simp only [Export.stmtOpt, Export.stmt, h]; rfl

theorem handler_sound (he : EnvOK env) {ea : ExArg} {c : Cmd} {st st1 : PState} {r0 ra r1 r2 r3 : List Cell} {cm : List Ast.Stmt}
    {vs : List VStmt} (hi : HandlerAt env ea r0 ra r1) (hc : ea.cmd = some c)
    (hh : CmdHead nv env fn used r r0 (Export.exArg fn ea) c ra r1 used') (hcur : Cur nv env fn cx st.cur st.stack used r)
    (hvs : Export.stmts fn vs = some cm) (ht : Trail env fn r2 cm r3)
    (h : Ok env (runHandler (byName c.name) ea c st) r1 st1 r2) :
    ∃ cx', Cur nv env fn cx' (st1.adds vs).cur st1.stack used' r3 ∧ st1.cache = st.cache ∧ st1.neovim = st.neovim := by
  have hs := hi.sufR
  have hcx := hcur.ctx
  cases hb : blockHandler (byName c.name) with
  | false =>
    obtain ⟨ws, xs, rfl, h1, h2⟩ := simple_sound (fn := fn) he hi hc hb h
    rw [stCtx_eq, ← hcx] at h2
    refine ⟨cx, ?_, rfl, rfl⟩
    rw [PState.adds_adds]
    refine cur_more hcur (stmts_append h1 hvs) fun hB => ?_
    have := Body.simple hB hh h2 ht
    rwa [List.append_assoc] at this
  | true =>
  cases hd : byName c.name <;> rw [hd] at h hb <;> first | (exact absurd hb (by decide)) | skip
  case if_ =>
    have hn : c.name = cs!"if" := name_of hd (by decide) (by decide +kernel)
    have h : Ok env (cmdIf ea st) r1 st1 r2 := h
    unfold cmdIf at h
    obtain ⟨v, q, h1, h⟩ := ok_bind.1 h
    obtain ⟨rfl, rfl⟩ := ok_pure.1 h
    obtain ⟨x, h2, h3⟩ := expr_sound (fn := fn) he hs h1
    exact ⟨_, cur_open (.if_ hcur ⟨r0, c, ra, r1, _, hn, hh, h3, ht⟩ h2) (ctx_block hcx rfl) hvs, rfl, rfl⟩
  case while_ =>
    have hn : c.name = cs!"while" := name_of hd (by decide) (by decide +kernel)
    have h : Ok env (cmdWhile ea st) r1 st1 r2 := h
    unfold cmdWhile at h
    obtain ⟨v, q, h1, h⟩ := ok_bind.1 h
    obtain ⟨rfl, rfl⟩ := ok_pure.1 h
    obtain ⟨x, h2, h3⟩ := expr_sound (fn := fn) he hs h1
    exact ⟨_, cur_open (.while_ hcur ⟨r0, c, ra, r1, _, hn, hh, h3, ht⟩ h2) (ctx_loop hcx (.inl rfl)) hvs, rfl, rfl⟩
  case for_ =>
    have hn : c.name = cs!"for" := name_of hd (by decide) (by decide +kernel)
    have h : Ok env (cmdFor ea st) r1 st1 r2 := h
    unfold cmdFor at h
    obtain ⟨lhs, q, h1, h⟩ := ok_bind.1 h
    obtain ⟨a, h2, h3⟩ := (par_letlhs (fn := fn) he).sound hs h1
    have s1 := ((par_letlhs (fn := fn) he).adv hs h3).adv.suf hs
    rw [bind_skipWhite] at h
    obtain ⟨q1, h4, h⟩ := h
    rw [bind_getpos] at h
    unfold readAlpha at h
    rw [bind_readWhile] at h
    obtain ⟨w, q2, h5, h⟩ := h
    rw [ok_ite] at h
    rcases h with ⟨_, h⟩ | ⟨h6, h⟩
    · exact (ok_errAt.1 h).elim
    obtain rfl : w = cs!"in" := Classical.not_not.1 h6
    obtain ⟨v, q3, h7, h⟩ := ok_bind.1 h
    obtain ⟨rfl, rfl⟩ := ok_pure.1 h
    obtain ⟨x, h8, h9⟩ := expr_sound (fn := fn) he (h5.adv.suf (h4.adv.suf s1)) h7
    exact ⟨_, cur_open (.for_ hcur ⟨r0, c, ra, r1, _, hn, hh, .mk h3 h4 h5 h9, ht⟩ h2 h8) (ctx_loop hcx (.inr rfl)) hvs, rfl, rfl⟩
  case try_ =>
    have hn : c.name = cs!"try" := name_of hd (by decide) (by decide +kernel)
    obtain ⟨rfl, rfl⟩ := ok_pure.1 h
    exact ⟨_, cur_open (.try_ hcur ⟨r0, c, ra, _, _, hn, hh, rfl, ht⟩) (ctx_block hcx rfl) hvs, rfl, rfl⟩
  case function =>
    have hn : c.name = cs!"function" := name_of hd (by decide) (by decide +kernel)
    rcases function_sound (fn := fn) he hi h with ⟨s, h1, h2, rfl⟩ | ⟨left, ps, at_, n, is, ds, rfl, h1, h2, h3, h4⟩
    · refine ⟨cx, ?_, rfl, rfl⟩
      rw [← PState.adds_one, PState.adds_adds]
      refine cur_more hcur (stmts_append (stmts_one rfl) hvs) fun hB => ?_
      have := Body.simple hB hh (.funcListing hn h1 h2) ht
      rwa [List.append_assoc] at this
    · exact ⟨_, cur_open (.function hcur ⟨r0, c, ra, _, _, hn, hh, h4, ht⟩ h1 h2 h3) (ctx_fun hcx rfl) hvs, rfl, rfl⟩
  case elseif =>
    have hn : c.name = cs!"elseif" := name_of hd (by decide) (by decide +kernel)
    have h : Ok env (cmdElseif ea st) r1 st1 r2 := h
    rw [cmdElseif_eq, ok_ite] at h
    rcases h with ⟨_, h⟩ | ⟨h1, h⟩
    · exact (ok_errAt.1 h).elim
    obtain ⟨st2, q, h2, h⟩ := ok_bind.1 h
    obtain ⟨rfl, cx, f, fs, u0, p0, ea0, ss, x, eis, g, k1, k2, k3, rfl⟩ := ifNorm_sound hcur (or_of_not h1) h2
    obtain ⟨v, q, h3, h⟩ := ok_bind.1 h
    obtain ⟨rfl, rfl⟩ := ok_pure.1 h
    obtain ⟨x', h4, h5⟩ := expr_sound (fn := fn) he hs h3
    refine ⟨_, cur_open (.elseif k1 k2 k3 ⟨r0, c, ra, _, _, hn, hh, h5, ht⟩ h4) (ctx_block2 k1.ctx ?_ rfl) hvs, rfl, rfl⟩
    obtain ⟨_, _, e, _⟩ := k3.head
    rw [e]; rfl
  case else_ =>
    have hn : c.name = cs!"else" := name_of hd (by decide) (by decide +kernel)
    have h : Ok env (cmdElse ea st) r1 st1 r2 := h
    rw [cmdElse_eq, ok_ite] at h
    rcases h with ⟨_, h⟩ | ⟨h1, h⟩
    · exact (ok_errAt.1 h).elim
    obtain ⟨st2, q, h2, h⟩ := ok_bind.1 h
    obtain ⟨rfl, cx, f, fs, u0, p0, ea0, ss, x, eis, g, k1, k2, k3, rfl⟩ := ifNorm_sound hcur (or_of_not h1) h2
    obtain ⟨rfl, rfl⟩ := ok_pure.1 h
    refine ⟨_, cur_open (.else_ k1 k2 k3 ⟨r0, c, ra, _, _, hn, hh, rfl, ht⟩) (ctx_block2 k1.ctx ?_ rfl) hvs, rfl, rfl⟩
    obtain ⟨_, _, e, _⟩ := k3.head
    rw [e]; rfl
  case catch_ =>
    have hn : c.name = cs!"catch" := name_of hd (by decide) (by decide +kernel)
    have h : Ok env (cmdCatch ea st) r1 st1 r2 := h
    rw [cmdCatch_eq, ok_ite, ok_ite] at h
    rcases h with ⟨_, h⟩ | ⟨_, ⟨_, h⟩ | ⟨h1, h⟩⟩
    · exact (ok_errAt.1 h).elim
    · exact (ok_errAt.1 h).elim
    obtain ⟨st2, q, h2, h⟩ := ok_bind.1 h
    obtain ⟨rfl, cx, f, fs, u0, p0, ea0, ss, cs, g, k1, k2, k3, rfl⟩ := tryNorm_sound hcur (or_of_not h1) h2
    have hp : g.head.isPlain = true := by
      obtain ⟨_, e, _⟩ := k3.head
      rw [e]; rfl
    rw [bind_skipWhite] at h
    obtain ⟨q1, h3, h⟩ := h
    rw [bind_peek, ok_ite] at h
    rcases h with ⟨h4, h⟩ | ⟨h4, h⟩
    · have h4 : ¬ AtStop q1 := by
        rw [← endsSym_stop]; simpa using h4
      rw [bind_get] at h
      cases hq : headSym q1 with
      | eol => exact absurd (.inl (.inl hq)) h4
      | eof => exact absurd (.inl (.inr hq)) h4
      | ch d =>
        rw [hq] at h
        have h : Ok env (parsePattern [d] >>= fun r => pure (PState.push _ (Head.catch_ ea.cmdpos ea r.1))) _ _ _ := h
        rw [bind_pattern] at h
        obtain ⟨p, e, q2, h5, h⟩ := h
        obtain ⟨rfl, rfl⟩ := ok_pure.1 h
        exact ⟨_, cur_open (.catch_ k1 k2 k3 ⟨r0, c, ra, _, _, hn, hh, .pat h3 h4 (headSym_reads hq) h5, ht⟩)
          (ctx_block2 k1.ctx hp rfl) hvs, rfl, rfl⟩
    · obtain ⟨rfl, rfl⟩ := ok_pure.1 h
      refine ⟨_, cur_open (.catch_ k1 k2 k3 ⟨r0, c, ra, _, _, hn, hh, .none h3 (endsSym_stop.1 (by simpa using h4)), ht⟩)
          (ctx_block2 k1.ctx hp rfl) hvs, rfl, rfl⟩
  case finally_ =>
    have hn : c.name = cs!"finally" := name_of hd (by decide) (by decide +kernel)
    have h : Ok env (cmdFinally ea st) r1 st1 r2 := h
    rw [cmdFinally_eq, ok_ite] at h
    rcases h with ⟨_, h⟩ | ⟨h1, h⟩
    · exact (ok_errAt.1 h).elim
    obtain ⟨st2, q, h2, h⟩ := ok_bind.1 h
    obtain ⟨rfl, cx, f, fs, u0, p0, ea0, ss, cs, g, k1, k2, k3, rfl⟩ := tryNorm_sound hcur (or_of_not h1) h2
    obtain ⟨rfl, rfl⟩ := ok_pure.1 h
    refine ⟨_, cur_open (.finally_ k1 k2 k3 ⟨r0, c, ra, _, _, hn, hh, rfl, ht⟩) (ctx_block2 k1.ctx ?_ rfl) hvs, rfl, rfl⟩
    obtain ⟨_, e, _⟩ := k3.head
    rw [e]; rfl
  case endwhile =>
    have hn : c.name = cs!"endwhile" := name_of hd (by decide) (by decide +kernel)
    have h : Ok env (cmdEndwhile ea st) r1 st1 r2 := h
    unfold cmdEndwhile at h
    rw [ok_ite] at h
    rcases h with ⟨_, h⟩ | ⟨h1, h⟩
    · exact (ok_errAt.1 h).elim
    obtain ⟨f, fs, k1, rfl, rfl⟩ := ok_pop.1 h
    rw [k1] at hcur
    obtain ⟨nv', ⟨hd', b, e1, e2, e3, e4⟩, stk, cache⟩ := st
    cases hcur with
    | mk g1 g2 g3 g4 g5 =>
      dsimp only at g1 g3 h1
      cases g1 with
      | @while_ cx _ _ _ _ ea' x v _ _ _ l1 l2 l3 =>
        refine ⟨cx, cur_block l1 (.while_ l2 g2 (closes_of hn (by decide) hh)) ?_ ht hvs, rfl, rfl⟩
        simp [Frame.close, Export.stmt, g3, l3, Export.endCmd]; rfl
      | _ => exact absurd rfl h1
  case endfor =>
    have hn : c.name = cs!"endfor" := name_of hd (by decide) (by decide +kernel)
    have h : Ok env (cmdEndfor ea st) r1 st1 r2 := h
    unfold cmdEndfor at h
    rw [ok_ite] at h
    rcases h with ⟨_, h⟩ | ⟨h1, h⟩
    · exact (ok_errAt.1 h).elim
    obtain ⟨f, fs, k1, rfl, rfl⟩ := ok_pop.1 h
    rw [k1] at hcur
    obtain ⟨nv', ⟨hd', b, e1, e2, e3, e4⟩, stk, cache⟩ := st
    cases hcur with
    | mk g1 g2 g3 g4 g5 =>
      dsimp only at g1 g3 h1
      cases g1 with
      | @for_ cx _ _ _ _ ea' a x lhs v _ _ _ l1 l2 l3 l4 =>
        refine ⟨cx, cur_block l1 (.for_ l2 g2 (closes_of hn (by decide) hh)) ?_ ht hvs, rfl, rfl⟩
        simp only [lhsEx, Option.bind_eq_bind, Option.bind_eq_some_iff, Option.some.injEq] at l3
        obtain ⟨y1, m1, y2, m2, y3, m3, rfl⟩ := l3
        simp [Frame.close, Export.stmt, g3, l4, m1, m2, m3, Export.endCmd]; rfl
      | _ => exact absurd rfl h1
  case endfunction =>
    have hn : c.name = cs!"endfunction" := name_of hd (by decide) (by decide +kernel)
    obtain ⟨h1, l, h2, f, fs, k1, rfl⟩ := ok_endfunction.1 h
    rw [k1] at hcur
    obtain ⟨nv', ⟨hd', b, e1, e2, e3, e4⟩, stk, cache⟩ := st
    cases hcur with
    | mk g1 g2 g3 g4 g5 =>
      dsimp only at g1 g3 h1
      cases g1 with
      | @function cx _ _ _ _ ea' n is ds at_ left rl da _ _ _ l1 l2 l3 l4 l5 =>
        refine ⟨cx, cur_block l1 (.function l2 g2 ⟨r0, _, c, ra, r1, hn, hh, rfl, ?_⟩) ?_ ht hvs, rfl, rfl⟩
        · rw [if_pos rfl]; exact ⟨l, h2⟩
        · simp [Frame.close, Export.stmt, g3, l3, l4, l5, Export.endCmd]; exact ⟨rfl, rfl⟩
      | _ => cases h1
  case endif =>
    have hn : c.name = cs!"endif" := name_of hd (by decide) (by decide +kernel)
    have h : Ok env (cmdEndif ea st) r1 st1 r2 := h
    rw [cmdEndif_eq, ok_ite] at h
    rcases h with ⟨_, h⟩ | ⟨h1, h⟩
    · exact (ok_errAt.1 h).elim
    obtain ⟨st2, q, h2, h3⟩ := ok_bind.1 h
    rcases or_of_not3 h1 with h1 | h1
    · obtain ⟨rfl, cx, f, fs, u0, p0, ea0, ss, x, eis, g, k1, k2, k3, rfl⟩ := ifNorm_sound hcur h1 h2
      obtain ⟨f', fs', e1, rfl, rfl⟩ := ok_pop.1 h3
      cases e1
      obtain ⟨_, _, _, _, _, m1, m2⟩ := k3.close (el := none) rfl rfl ⟨ea.cmdpos, ea⟩
      have hg : { g with els := none } = g := by rw [← k3.els]
      rw [hg] at m1
      refine ⟨cx, ?_, rfl, rfl⟩
      rw [m1]
      exact cur_block k1 (.if_ k2 (closes_of hn (by decide) hh)) m2 ht hvs
    · have hif : st.cur.head.isIf = false := by
        cases hx : st.cur.head <;> rw [hx] at h1 <;> first | rfl | cases h1
      rw [ifNorm, hif, Bool.not_false, if_pos rfl] at h2
      obtain ⟨g0, fs0, k0, rfl, rfl⟩ := ok_pop.1 h2
      obtain ⟨f1, fs1, k1, rfl, rfl⟩ := ok_pop.1 h3
      dsimp only at k1
      subst k1
      rw [k0] at hcur
      obtain ⟨nv', ⟨hd', b, e1, e2, e3, e4⟩, stk, cache⟩ := st
      cases hcur with
      | mk g1 g2 g3 g4 g5 =>
        dsimp only at g1 g3 h1
        cases g1 with
        | @else_ cx f fs u0 p0 ea0 ss x eis u1 p1 g ea' cm' u2 p2 l1 l2 l3 l4 =>
          have m0 := else_opt (ea := ea') g3
          obtain ⟨q, a1, a2, a3, a4, m1, m2⟩ := l3.close m0 rfl ⟨ea.cmdpos, ea⟩
          refine ⟨cx, ?_, rfl, rfl⟩
          have key : ∀ w, w = VStmt.if_ q a1 a2 a3 a4 (some (.else_ ea'.cmdpos ea' b)) (some ⟨ea.cmdpos, ea⟩) →
              Cur nv env fn cx (PState.adds ⟨nv', f1.attach w, fs1, cache⟩ vs).cur fs1 used' r3 := ?_
          · exact key _ m1
          rintro _ rfl
          exact cur_block l1 (.ifElse l2 l4 g2 (closes_of hn (by decide) hh)) m2 ht hvs
        | _ => cases h1
  case endtry =>
    have hn : c.name = cs!"endtry" := name_of hd (by decide) (by decide +kernel)
    have h : Ok env (cmdEndtry ea st) r1 st1 r2 := h
    rw [cmdEndtry_eq, ok_ite] at h
    rcases h with ⟨_, h⟩ | ⟨h1, h⟩
    · exact (ok_errAt.1 h).elim
    obtain ⟨st2, q, h2, h3⟩ := ok_bind.1 h
    rcases or_of_not3 h1 with h1 | h1
    · obtain ⟨rfl, cx, f, fs, u0, p0, ea0, ss, cs, g, k1, k2, k3, rfl⟩ := tryNorm_sound hcur h1 h2
      obtain ⟨f', fs', e1, rfl, rfl⟩ := ok_pop.1 h3
      cases e1
      obtain ⟨_, _, _, _, m1, m2⟩ := k3.close (fi := none) rfl rfl ⟨ea.cmdpos, ea⟩
      have hg : { g with fin := none } = g := by rw [← k3.fin]
      rw [hg] at m1
      refine ⟨cx, ?_, rfl, rfl⟩
      rw [m1]
      exact cur_block k1 (.try_ k2 (closes_of hn (by decide) hh)) m2 ht hvs
    · have hif : st.cur.head.isTry = false := by
        cases hx : st.cur.head <;> rw [hx] at h1 <;> first | rfl | cases h1
      rw [tryNorm, hif, Bool.not_false, if_pos rfl] at h2
      obtain ⟨g0, fs0, k0, rfl, rfl⟩ := ok_pop.1 h2
      obtain ⟨f1, fs1, k1, rfl, rfl⟩ := ok_pop.1 h3
      dsimp only at k1
      subst k1
      rw [k0] at hcur
      obtain ⟨nv', ⟨hd', b, e1, e2, e3, e4⟩, stk, cache⟩ := st
      cases hcur with
      | mk g1 g2 g3 g4 g5 =>
        dsimp only at g1 g3 h1
        cases g1 with
        | @finally_ cx f fs u0 p0 ea0 ss cs u1 p1 g ea' cm' u2 p2 l1 l2 l3 l4 =>
          have m0 := finally_opt (ea := ea') g3
          obtain ⟨q, a1, a2, a3, m1, m2⟩ := l3.close m0 rfl ⟨ea.cmdpos, ea⟩
          refine ⟨cx, ?_, rfl, rfl⟩
          have key : ∀ w, w = VStmt.try_ q a1 a2 a3 (some (.finally_ ea'.cmdpos ea' b)) (some ⟨ea.cmdpos, ea⟩) →
              Cur nv env fn cx (PState.adds ⟨nv', f1.attach w, fs1, cache⟩ vs).cur fs1 used' r3 := ?_
          · exact key _ m1
          rintro _ rfl
          exact cur_block l1 (.tryFinally l2 l4 g2 (closes_of hn (by decide) hh)) m2 ht hvs
        | _ => cases h1

/-- One step of the parser keeps the invariant. -/
theorem step_sound (he : EnvOK env) (hs : Suf env r) {st st' : PState} (ho : st.OK) (hc : CacheRel st.neovim st.cache used)
    (hcur : Cur st.neovim env fn cx st.cur st.stack used r) (hne : r ≠ []) (h : Ok env (parseOneCmd st) r st' r') :
    ∃ cx' used', Cur st.neovim env fn cx' st'.cur st'.stack used' r' ∧ CacheRel st.neovim st'.cache used' ∧
      st'.neovim = st.neovim := by
  by_cases hn : StartsWith r cs!"#!"
  · rcases ok_oneCmd.1 h with ⟨_, rfl, l, r1, h1, rfl⟩ | ⟨h1, _⟩
    · obtain ⟨e, r2, rfl, h2⟩ := rest_line (hs.tidy he) hne h1
      refine ⟨cx, used, ?_, hc, rfl⟩
      cases hcur with
      | mk k1 k2 k3 k4 k5 => exact .mk k1 (.shebang k2 hn h1.1 h2) k3 k4 k5
    · exact absurd hn h1
  rcases ok_oneCmd.1 h with ⟨h1, _⟩ | ⟨_, r0, h0, ⟨h1, rfl, rfl⟩ | ⟨h1, r2, h2, rfl⟩ | ⟨h1, h2, _⟩⟩
  · exact absurd h1 hn
  · refine ⟨cx, used, ?_, hc, rfl⟩
    have hne0 := Adv.ne_nil he hs hne h0.adv
    obtain ⟨e, r1, rfl⟩ := List.exists_cons_of_ne_nil hne0
    cases hcur with
    | mk k1 k2 k3 k4 k5 =>
      refine .mk k1 (.empty k2 h0 ?_) k3 k4 k5
      rcases h1 with h1 | h1
      · obtain ⟨_, _, k, h1⟩ := headSym_eol h1
        cases k; exact h1
      · cases headSym_eof h1
  · obtain ⟨v, x, rfl, hv, hx⟩ := comment_sound (fn := fn) ((h0.adv.suf hs).tidy he) h2
    exact ⟨cx, used, cur_more hcur (stmts_one hv) fun hB => .comment hB h0 hx, hc, rfl⟩
  · obtain ⟨ms, rg, rc, hb, h3⟩ := head_sound (fn := fn) he hs ho hc h hn h0 h1 h2
    have hs0 := h0.adv.suf hs
    rcases h3 with ⟨h4, st1, h5, h6⟩ | ⟨cache, c, ea, ra, r1, used', hd, st1, r2, h4, h5, h6, h7, h8, h9, h10, h11, h12, h13⟩
    · obtain ⟨vs, cm, rfl, h7, h8⟩ := trail_sound (fn := fn) he (hb.adv.suf hs0) h5
      rcases h6 with ⟨rfl, rfl, rfl⟩ | ⟨h6, s, h9, rfl⟩
      · obtain ⟨s, hr⟩ := hb.adv.reads
        refine ⟨cx, used, cur_more hcur h7 fun hB => ?_, hc, rfl⟩
        have := Body.noCommand hB hb h4 hr h8
        simpa using this
      · refine ⟨cx, used, ?_, hc, rfl⟩
        rw [← PState.adds_one, PState.adds_adds]
        refine cur_more hcur (stmts_append (stmts_one rfl) h7) fun hB => ?_
        have := Body.noCommand hB hb h4 h9 h8
        rw [if_neg h6, List.append_assoc] at this
        exact this
    · obtain ⟨ms', rg', rc', p1, b, p2, _, _, _, g1, _⟩ := h4.ex
      have : hd = byName c.name := by
        have := g1.dispatch
        rw [h10] at this
        exact Option.some.inj this
      subst this
      obtain ⟨vs, cm, rfl, k1, k2⟩ := trail_sound (fn := fn) he h12 h13
      have hne0 : r0 ≠ [] := fun h => h1 (by rw [h]; exact .inr rfl)
      obtain ⟨cx', g2, g3, g4⟩ := handler_sound (st := { st with cache := cache }) he ⟨h6, hs0, hne0, h8, h8.trans h9⟩ h7 h4 hcur k1 k2 h11
      exact ⟨cx', used', g2, by rw [show (st1.adds vs).cache = st1.cache from rfl, g3]; exact h5, g4⟩

end
end Viml
