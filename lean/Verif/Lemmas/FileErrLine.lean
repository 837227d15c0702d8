/-
The errors of a command line.
-/
import Verif.Lemmas.FileErrHandlers
import Verif.Lemmas.FileComplete

namespace Viml
open Prog Spec

theorem prog_assoc {α β γ : Type} {m : Prog α} {f : α → Prog β} {g : β → Prog γ} :
    (m >>= f) >>= g = m >>= fun a => f a >>= g := by
  induction m with
  | ret a => rfl
  | fail e => rfl
  | ask k ih => exact congrArg Prog.ask (funext fun e => ih e)
  | tell k ih => exact congrArg Prog.tell (funext fun e => ih e)
  | seek s k ih => exact congrArg (Prog.seek s) ih
  | tok k ih => exact congrArg Prog.tok (funext fun e => ih e)

theorem prog_ite {α β : Type} {c : Prop} [Decidable c] {m n : Prog α} {f : α → Prog β} :
    (if c then m else n) >>= f = if c then m >>= f else n >>= f := by split <;> rfl

theorem prog_pure {α β : Type} {a : α} {f : α → Prog β} : (pure a : Prog α) >>= f = f a := rfl

/-- The part of `parse_command` after the bang. -/
def restArgs (ea : ExArg) (c : Cmd) (st : PState) : Prog PState :=
  getpos >>= fun q => parseOptions c { ea with argpos := some q } >>= fun ea => match dispatch c.parser with
    | none => .fail .crash
    | some h => runHandler h ea c st

theorem commandArgs_eq {ea : ExArg} {c : Cmd} {st : PState} : parseCommandArgs ea c st = parseBang c >>= fun b =>
    if (!c.has .BANG && b && !c.has .USERCMD) = true then errAt cs!"E477: No ! allowed" ea.cmdpos
    else if c.name ≠ cs!"!" then skipWhite >>= fun _ => restArgs { ea with cmd := some c, forceit := b } c st
      else restArgs { ea with cmd := some c, forceit := b } c st := by
  have key : ∀ (e : ExArg), restArgs e c st = getpos >>= fun q => (do
      let ea ← if c.has .ARGOPT then parseArgopt { e with argpos := some q } else pure { e with argpos := some q }
      let ea ← parseWrite ea c
      let ea ← parseRead ea c
      let ea ← parseShift ea c
      let ea ← if (c.has .EDITCMD && !ea.usefilter) = true then parseArgcmd ea else pure ea
      match dispatch c.parser with
      | none => .fail .crash
      | some h => runHandler h ea c st) := by
    intro e
    unfold restArgs parseOptions
    refine congrArg _ (funext fun q => ?_)
    simp only [prog_ite, prog_assoc]
  unfold parseCommandArgs
  refine congrArg _ (funext fun b => ?_)
  simp only [key]
  by_cases h : c.name = cs!"!"
  · simp only [h, ne_eq, not_true, if_false, prog_pure]
    rfl
  · simp only [h, ne_eq, not_false_eq_true, if_true]
    rfl

section
variable {env : Env} {fn : Str} {r r' : List Cell} {st st' : PState} {ea : ExArg} {c : Cmd} {r0 ra : List Cell} {msg : Str} {q : Pos}

theorem avoids_mods : Avoids Fail.isErr parseModifiers := by
  unfold parseModifiers readDigit readAlpha str2nr
  avoid []
  all_goals
    rename_i h
    obtain ⟨_, _, h⟩ := h
    cases h

theorem avoids_readCmdName {F : Fail → Prop} : Avoids F readCmdName := by
  unfold readCmdName readAlnum readAlpha
  avoid []

theorem avoids_findCommand {F : Fail → Prop} {nv : Bool} {cache : List (Str × Option Cmd)} : Avoids F (findCommand nv cache) := by
  unfold findCommand readAlnum
  avoid [avoids_readCmdName]

theorem avoids_bang {F : Fail → Prop} : Avoids F (parseBang c) := by
  unfold parseBang
  avoid []

theorem bad_restArgs (hd : dispatch c.parser = some (byName c.name)) : Bad env (restArgs ea c st) r msg q ↔
    Bad env (parseOptions c { ea with argpos := some (posOf env r) }) r msg q ∨
      ∃ ea1 r2, Ok env (parseOptions c { ea with argpos := some (posOf env r) }) r ea1 r2 ∧
        Bad env (runHandler (byName c.name) ea1 c st) r2 msg q := by
  unfold restArgs
  rw [badb_getpos, hd, bad_bind]

theorem bang_err {b : Bool} : Ok env (parseBang c) r b r' ∧ (!c.has .BANG && b && !c.has .USERCMD) = true ↔
    b = true ∧ Reads r ['!'] r' ∧ c.name ∉ [cs!"substitute", cs!"smagic", cs!"snomagic"] ∧ .BANG ∉ c.flags ∧ .USERCMD ∉ c.flags := by
  have hf : (!c.has .BANG && b && !c.has .USERCMD) = true ↔ b = true ∧ .BANG ∉ c.flags ∧ .USERCMD ∉ c.flags := by
    rw [← has_iff, ← has_iff]
    cases b <;> simp
  rw [hf]
  unfold parseBang
  rw [bind_peekn, ok_ite, bind_getn, ok_pure, ok_pure, get1_ch, reads_one_iff]
  have hn : (c.name ≠ cs!"substitute" ∧ c.name ≠ cs!"smagic" ∧ c.name ≠ cs!"snomagic") ↔
      c.name ∉ [cs!"substitute", cs!"smagic", cs!"snomagic"] := by simp [not_or]
  rw [hn]
  constructor
  · rintro ⟨⟨⟨h1, h2⟩, rfl, rfl⟩ | ⟨_, rfl, _⟩, h3, h4, h5⟩
    · refine ⟨rfl, ⟨h1, ?_⟩, h2, h4, h5⟩
      obtain ⟨e, t, rfl, he⟩ := headSym_ch h1
      simp [getnS, he]
    · cases h3
  · rintro ⟨rfl, ⟨h1, rfl⟩, h2, h4, h5⟩
    refine ⟨.inl ⟨⟨h1, h2⟩, rfl, ?_⟩, rfl, h4, h5⟩
    obtain ⟨e, t, rfl, he⟩ := headSym_ch h1
    simp [getnS, he]

theorem bad_commandArgs (hd : dispatch c.parser = some (byName c.name)) : Bad env (parseCommandArgs ea c st) r msg q ↔
    (∃ r1, Reads r ['!'] r1 ∧ c.name ∉ [cs!"substitute", cs!"smagic", cs!"snomagic"] ∧ .BANG ∉ c.flags ∧ .USERCMD ∉ c.flags ∧
      msg = cs!"E477: No ! allowed" ∧ q = ea.cmdpos) ∨
    ∃ b r1 ra, Bang c r b r1 ∧ (c.name = cs!"!" ∧ ra = r1 ∨ c.name ≠ cs!"!" ∧ Skip r1 ra) ∧
      (Bad env (parseOptions c (argRecord ea c b (posOf env ra))) ra msg q ∨
        ∃ ea1 r2, Ok env (parseOptions c (argRecord ea c b (posOf env ra))) ra ea1 r2 ∧
          Bad env (runHandler (byName c.name) ea1 c st) r2 msg q) := by
  rw [commandArgs_eq, badb_match avoids_bang.noBad]
  constructor
  · rintro ⟨b, r1, h1, h⟩
    rw [bad_ite, bad_errAt] at h
    rcases h with ⟨h2, rfl, rfl⟩ | ⟨h2, h⟩
    · obtain ⟨_, h3, h4, h5, h6⟩ := bang_err.1 ⟨h1, h2⟩
      exact .inl ⟨r1, h3, h4, h5, h6, rfl, rfl⟩
    · have h3 := ok_bang.1 ⟨h1, by simpa using h2⟩
      rw [bad_ite, badb_skipWhite] at h
      rcases h with ⟨h4, ra, h5, h⟩ | ⟨h4, h⟩
      · have h := (bad_restArgs hd).1 h
        exact .inr ⟨b, r1, ra, h3, .inr ⟨h4, h5⟩, h⟩
      · have h := (bad_restArgs hd).1 h
        exact .inr ⟨b, r1, r1, h3, .inl ⟨Classical.not_not.1 h4, rfl⟩, h⟩
  · rintro (⟨r1, h1, h2, h3, h4, rfl, rfl⟩ | ⟨b, r1, ra, h1, h2, h⟩)
    · obtain ⟨h5, h6⟩ := bang_err.2 ⟨rfl, h1, h2, h3, h4⟩
      exact ⟨true, r1, h5, by rw [if_pos h6, bad_errAt]; exact ⟨rfl, rfl⟩⟩
    · obtain ⟨h3, h4⟩ := ok_bang.2 h1
      refine ⟨b, r1, h3, ?_⟩
      rw [h4, if_neg (by simp)]
      rcases h2 with ⟨h2, rfl⟩ | ⟨h2, h5⟩
      · rw [if_neg (by simpa using h2)]
        exact (bad_restArgs hd).2 h
      · rw [if_pos h2, badb_skipWhite]
        exact ⟨ra, h5, (bad_restArgs hd).2 h⟩

theorem badb_setpos (he : EnvOK env) {β : Type} {s : List Cell} (hs : Suf env s) {f : Unit → Prog β} :
    Bad env (setpos (posOf env s) >>= f) r msg q ↔ Bad env (f ()) s msg q := by
  have h : env.buf.drop (posOf env s).i = s := hs.drop_pos he
  show Prog.runWith tokGet env (f ()) (env.buf.drop (posOf env s).i) = _ ↔ _
  rw [h]
  exact Iff.rfl

theorem badb_peekline {β : Type} {f : Str → Prog β} :
    Bad env (peekline >>= f) r msg q ↔ ∃ l r1, RestOf r l r1 ∧ Bad env (f l) r msg q := by
  constructor
  · intro h
    exact ⟨_, _, spanAll_iff.1 (span_iff.2 rfl), h⟩
  · rintro ⟨l, r1, h1, h⟩
    have h2 := congrArg Prod.fst (span_iff.1 (spanAll_iff.2 h1))
    have h2 : (spanS (fun _ => true) r).1 = l := h2
    rw [← h2] at h
    exact h

theorem badb_skipWC {β : Type} {f : Unit → Prog β} :
    Bad env (skipWhiteAndColon >>= f) r msg q ↔ ∃ r1, SkipC r r1 ∧ Bad env (f ()) r1 msg q := by
  rw [badb_match avoids_skipWC.noBad]
  constructor
  · rintro ⟨_, r1, h1, h⟩
    exact ⟨r1, ok_skipWC.1 h1, h⟩
  · rintro ⟨r1, h1, h⟩
    exact ⟨(), r1, ok_skipWC.2 h1, h⟩

theorem bad_command (he : EnvOK env) (hs : Suf env r) {used : List Str} (hc : CacheRel st.neovim st.cache used) :
    Bad env (parseCommand ea st) r msg q ↔ ∃ rc, SkipC r rc ∧ ¬ AtEnd rc ∧ headSym rc ≠ .ch '"' ∧
      ((∃ l r', (∀ c r1 used', ¬ CmdName st.neovim used rc c r1 used') ∧ RestOf rc l r' ∧
        msg = cs!"E492: Not an editor command: " ++ l ∧ q = posOf env rc) ∨
      ∃ c cache r1, Ok env (findCommand st.neovim st.cache) rc (some c, cache) r1 ∧
        Bad env (parseCommandArgs { ea with cmdpos := posOf env rc } c { st with cache := cache }) r1 msg q) := by
  unfold parseCommand
  rw [badb_skipWC]
  refine exists_congr fun rc => and_congr_right fun h1 => ?_
  have hsc := h1.adv.suf hs
  rw [badb_getpos, badb_peekn, bad_ite, get1_nil, get1_ch]
  have hno : ∀ {ea : ExArg}, Bad env (if (!ea.modifiers.isEmpty || !ea.range.isEmpty) = true then cmdModifierRange ea st else pure st) rc msg q ↔ False :=
    (avoids_ite avoids_modifierRange avoids_pure).noBad
  rw [hno, and_false, false_or, not_or, and_assoc]
  refine and_congr_right fun h2 => and_congr_right fun h3 => ?_
  rw [badb_match avoids_findCommand.noBad]
  constructor
  · rintro ⟨⟨c, cache⟩, r1, h4, h⟩
    cases c with
    | some c => exact .inr ⟨c, cache, r1, h4, h⟩
    | none =>
      dsimp only at h
      rw [badb_setpos he hsc, badb_peekline] at h
      obtain ⟨l, r2, h5, h⟩ := h
      obtain ⟨rfl, rfl⟩ := bad_errAt.1 h
      refine .inl ⟨l, r2, ?_, h5, rfl, rfl⟩
      intro c r3 used' h6
      obtain ⟨cache', h7, _⟩ := h6.ok (env := env) hc
      cases (h4.det h7).1
  · rintro (⟨l, r2, h4, h5, rfl, rfl⟩ | ⟨c, cache, r1, h4, h⟩)
    · obtain ⟨⟨c, cache⟩, r1, h6⟩ := avoids_findCommand (nv := st.neovim) (cache := st.cache).total (env := env) (r := rc)
      cases c with
      | some c =>
        obtain ⟨used', h7, _⟩ := CmdName.of_ok hc h6
        exact absurd h7 (h4 _ _ _)
      | none =>
        refine ⟨_, r1, h6, ?_⟩
        dsimp only
        rw [badb_setpos he hsc, badb_peekline]
        exact ⟨l, r2, h5, bad_errAt.2 ⟨rfl, rfl⟩⟩
    · exact ⟨_, r1, h4, h⟩

theorem bad_oneCmd (he : EnvOK env) (hs : Suf env r) : Bad env (parseOneCmd st) r msg q ↔
    ¬ StartsWith r cs!"#!" ∧ ∃ r0, SkipC r r0 ∧ ¬ AtEnd r0 ∧ headSym r0 ≠ .ch '"' ∧ ∃ ms r1, (Mods r0 ms r1 ∧ CountsOK ms) ∧
      (RangeErr env r1 msg q ∨ ∃ rg r2, Range r1 rg r2 ∧
        (Bad env (parseCommand { linepos := posOf env r0, modifiers := ms, range := rg } st) r2 msg q ∨
          ∃ st1 r3, Ok env (parseCommand { linepos := posOf env r0, modifiers := ms, range := rg } st) r2 st1 r3 ∧
            TrailErr env r3 msg q)) := by
  unfold parseOneCmd
  rw [badb_peekn, bad_ite, peekn_eq (n := 2) (v := cs!"#!") rfl]
  have hno : Bad env (getline >>= fun _ => get >>= fun _ => pure st) r msg q ↔ False := by
    refine Avoids.noBad ?_
    avoid []
  rw [hno, and_false, false_or]
  refine and_congr_right fun _ => ?_
  rw [badb_skipWC]
  refine exists_congr fun r0 => and_congr_right fun h1 => ?_
  have hs0 := h1.adv.suf hs
  rw [badb_peekn, bad_ite, bad_ite, get1_nil, get1_ch]
  have hno : Bad env (get >>= fun _ => pure st) r0 msg q ↔ False := by
    refine Avoids.noBad ?_
    avoid []
  rw [hno, and_false, false_or]
  refine and_congr_right fun h2 => ?_
  have hno : headSym r0 = .ch '"' ∧ Bad env (parseComment st >>= fun st => get >>= fun _ => pure st) r0 msg q ↔ False := by
    constructor
    · rintro ⟨h3, h⟩
      rcases bad_bind.1 h with h | ⟨_, _, _, h⟩
      · exact bad_comment h3 h
      · refine h.avoid ?_
        avoid []
    · exact False.elim
  rw [hno, false_or]
  refine and_congr_right fun h3 => ?_
  rw [badb_getpos, badb_match avoids_mods.noBad]
  refine exists_congr fun ms => exists_congr fun r1 => ?_
  rw [ok_mods]
  refine and_congr_right fun h4 => ?_
  have hs1 : Suf env r1 := ((wp_run (T := tokGet) (parseModifiers_spec hs0) ((ok_mods (env := env)).2 h4)).2).suf hs0
  rw [bad_bind, bad_range (hs1.tidy he)]
  refine or_congr Iff.rfl ?_
  refine exists_congr fun rg => exists_congr fun r2 => ?_
  rw [ok_range]
  refine and_congr_right fun h5 => ?_
  rw [bad_bind]
  refine or_congr Iff.rfl ?_
  refine exists_congr fun st1 => exists_congr fun r3 => and_congr_right fun _ => bad_trail

/-! ### Correct arguments -/

theorem OK.stack_ne (ho : st.OK) (h : st.cur.head.isToplevel = false) : st.stack ≠ [] := by
  revert h
  split_shape ho <;> revert ‹Head.isToplevel _ = false› <;> simp [Head.isToplevel]

theorem ok_ifNorm_rest (h : Ok env (ifNorm st) r st' r') : r = r' := by
  unfold ifNorm at h
  rw [ok_ite] at h
  rcases h with ⟨_, h⟩ | ⟨_, h⟩
  · obtain ⟨_, _, _, _, rfl⟩ := ok_pop.1 h; rfl
  · exact (ok_pure.1 h).2.symm

theorem ok_tryNorm_rest (h : Ok env (tryNorm st) r st' r') : r = r' := by
  unfold tryNorm at h
  rw [ok_ite] at h
  rcases h with ⟨_, h⟩ | ⟨_, h⟩
  · obtain ⟨_, _, _, _, rfl⟩ := ok_pop.1 h; rfl
  · exact (ok_pure.1 h).2.symm

theorem done_sound (he : EnvOK env) (hp : Apart env) (hi : HandlerAt env ea r0 ra r) (hc : ea.cmd = some c)
    (hst : st.cur.head.isToplevel = false → st.stack ≠ [])
    (h : Ok env (runHandler (byName c.name) ea c st) r st' r') :
    (∀ m, ¬ Misplaced (stCtx st) (innerOf st.cur.head) c.name m) ∧
      ArgsDone env fn (stCtx st) r0 ra (Export.exArg fn ea) c r r' := by
  have hs := hi.sufR
  refine ⟨fun m hm => ?_, ?_⟩
  · exact (handler_bad_complete (fn := fn) (q := ea.cmdpos) he hp hi hst (.inl ⟨hm, rfl⟩)).notOk h
  cases hb : blockHandler (byName c.name) with
  | false =>
    obtain ⟨ws, xs, rfl, h1, h2⟩ := simple_sound (fn := fn) he hi hc hb h
    exact .simple h2
  | true =>
  cases hd : byName c.name <;> rw [hd] at h hb <;> first | (exact absurd hb (by decide)) | skip
  case if_ =>
    have hn : c.name = cs!"if" := name_of hd (by decide) (by decide +kernel)
    obtain ⟨v, q, h1, h⟩ := ok_bind.1 h
    obtain ⟨rfl, rfl⟩ := ok_pure.1 h
    obtain ⟨x, h2, h3⟩ := expr_sound (fn := fn) he hs h1
    exact .expr (by rw [hn]; simp) h3
  case while_ =>
    have hn : c.name = cs!"while" := name_of hd (by decide) (by decide +kernel)
    obtain ⟨v, q, h1, h⟩ := ok_bind.1 h
    obtain ⟨rfl, rfl⟩ := ok_pure.1 h
    obtain ⟨x, h2, h3⟩ := expr_sound (fn := fn) he hs h1
    exact .expr (by rw [hn]; simp) h3
  case for_ =>
    have hn : c.name = cs!"for" := name_of hd (by decide) (by decide +kernel)
    have h : Ok env (cmdFor ea st) r st' r' := h
    unfold cmdFor at h
    obtain ⟨lhs, q, h1, h⟩ := ok_bind.1 h
    obtain ⟨a, h2, h3⟩ := (par_letlhs (fn := fn) he).sound hs h1
    have s1 := ((par_letlhs (fn := fn) he).adv hs h3).adv.suf hs
    rw [bind_skipWhite] at h
    obtain ⟨q1, h4, h⟩ := h
    rw [bind_getpos] at h
    unfold readAlpha at h
    rw [bind_readWhile] at h
    obtain ⟨w, q2, h5, h⟩ := h
    rw [ok_ite] at h
    rcases h with ⟨_, h⟩ | ⟨h6, h⟩
    · exact (ok_errAt.1 h).elim
    obtain rfl : w = cs!"in" := Classical.not_not.1 h6
    obtain ⟨v, q3, h7, h⟩ := ok_bind.1 h
    obtain ⟨rfl, rfl⟩ := ok_pure.1 h
    obtain ⟨x, h8, h9⟩ := expr_sound (fn := fn) he (h5.adv.suf (h4.adv.suf s1)) h7
    exact .for_ hn (.mk h3 h4 h5 h9)
  case try_ =>
    have hn : c.name = cs!"try" := name_of hd (by decide) (by decide +kernel)
    obtain ⟨rfl, rfl⟩ := ok_pure.1 h
    exact .none (by rw [hn]; simp)
  case function =>
    have hn : c.name = cs!"function" := name_of hd (by decide) (by decide +kernel)
    rcases function_sound (fn := fn) he hi h with ⟨s, h1, h2, rfl⟩ | ⟨left, ps, at_, n, is, ds, rfl, h1, h2, h3, h4⟩
    · exact .simple (.funcListing hn h1 h2)
    · exact .function (a := (n, is, ds, at_)) hn h4
  case elseif =>
    have hn : c.name = cs!"elseif" := name_of hd (by decide) (by decide +kernel)
    have h : Ok env (cmdElseif ea st) r st' r' := h
    rw [cmdElseif_eq, ok_ite] at h
    rcases h with ⟨_, h⟩ | ⟨h1, h⟩
    · exact (ok_errAt.1 h).elim
    obtain ⟨st2, q, h2, h⟩ := ok_bind.1 h
    obtain rfl := ok_ifNorm_rest h2
    obtain ⟨v, q, h3, h⟩ := ok_bind.1 h
    obtain ⟨rfl, rfl⟩ := ok_pure.1 h
    obtain ⟨x', h4, h5⟩ := expr_sound (fn := fn) he hs h3
    exact .expr (by rw [hn]; simp) h5
  case else_ =>
    have hn : c.name = cs!"else" := name_of hd (by decide) (by decide +kernel)
    have h : Ok env (cmdElse ea st) r st' r' := h
    rw [cmdElse_eq, ok_ite] at h
    rcases h with ⟨_, h⟩ | ⟨h1, h⟩
    · exact (ok_errAt.1 h).elim
    obtain ⟨st2, q, h2, h⟩ := ok_bind.1 h
    obtain rfl := ok_ifNorm_rest h2
    obtain ⟨rfl, rfl⟩ := ok_pure.1 h
    exact .none (by rw [hn]; simp)
  case catch_ =>
    have hn : c.name = cs!"catch" := name_of hd (by decide) (by decide +kernel)
    have h : Ok env (cmdCatch ea st) r st' r' := h
    rw [cmdCatch_eq, ok_ite, ok_ite] at h
    rcases h with ⟨_, h⟩ | ⟨_, ⟨_, h⟩ | ⟨h1, h⟩⟩
    · exact (ok_errAt.1 h).elim
    · exact (ok_errAt.1 h).elim
    obtain ⟨st2, q, h2, h⟩ := ok_bind.1 h
    obtain rfl := ok_tryNorm_rest h2
    rw [bind_skipWhite] at h
    obtain ⟨q1, h3, h⟩ := h
    rw [bind_peek, ok_ite] at h
    rcases h with ⟨h4, h⟩ | ⟨h4, h⟩
    · have h4 : ¬ AtStop q1 := by
        rw [← endsSym_stop]; simpa using h4
      rw [bind_get] at h
      cases hq : headSym q1 with
      | eol => exact absurd (.inl (.inl hq)) h4
      | eof => exact absurd (.inl (.inr hq)) h4
      | ch d =>
        rw [hq] at h
        have h : Ok env (parsePattern [d] >>= fun r => pure (PState.push _ (Head.catch_ ea.cmdpos ea r.1))) _ _ _ := h
        rw [bind_pattern] at h
        obtain ⟨p, e, q2, h5, h⟩ := h
        obtain ⟨rfl, rfl⟩ := ok_pure.1 h
        exact .catch_ hn (.pat h3 h4 (headSym_reads hq) h5)
    · obtain ⟨rfl, rfl⟩ := ok_pure.1 h
      exact .catch_ hn (.none h3 (endsSym_stop.1 (by simpa using h4)))
  case finally_ =>
    have hn : c.name = cs!"finally" := name_of hd (by decide) (by decide +kernel)
    have h : Ok env (cmdFinally ea st) r st' r' := h
    rw [cmdFinally_eq, ok_ite] at h
    rcases h with ⟨_, h⟩ | ⟨h1, h⟩
    · exact (ok_errAt.1 h).elim
    obtain ⟨st2, q, h2, h⟩ := ok_bind.1 h
    obtain rfl := ok_tryNorm_rest h2
    obtain ⟨rfl, rfl⟩ := ok_pure.1 h
    exact .none (by rw [hn]; simp)
  case endwhile =>
    have hn : c.name = cs!"endwhile" := name_of hd (by decide) (by decide +kernel)
    have h : Ok env (cmdEndwhile ea st) r st' r' := h
    unfold cmdEndwhile at h
    rw [ok_ite] at h
    rcases h with ⟨_, h⟩ | ⟨h1, h⟩
    · exact (ok_errAt.1 h).elim
    obtain ⟨f, fs, k1, rfl, rfl⟩ := ok_pop.1 h
    exact .none (by rw [hn]; simp)
  case endfor =>
    have hn : c.name = cs!"endfor" := name_of hd (by decide) (by decide +kernel)
    have h : Ok env (cmdEndfor ea st) r st' r' := h
    unfold cmdEndfor at h
    rw [ok_ite] at h
    rcases h with ⟨_, h⟩ | ⟨h1, h⟩
    · exact (ok_errAt.1 h).elim
    obtain ⟨f, fs, k1, rfl, rfl⟩ := ok_pop.1 h
    exact .none (by rw [hn]; simp)
  case endfunction =>
    have hn : c.name = cs!"endfunction" := name_of hd (by decide) (by decide +kernel)
    obtain ⟨h1, l, h2, f, fs, k1, rfl⟩ := ok_endfunction.1 h
    exact .endfunction hn h2
  case endif =>
    have hn : c.name = cs!"endif" := name_of hd (by decide) (by decide +kernel)
    have h : Ok env (cmdEndif ea st) r st' r' := h
    rw [cmdEndif_eq, ok_ite] at h
    rcases h with ⟨_, h⟩ | ⟨h1, h⟩
    · exact (ok_errAt.1 h).elim
    obtain ⟨st2, q, h2, h3⟩ := ok_bind.1 h
    obtain rfl := ok_ifNorm_rest h2
    obtain ⟨f, fs, k1, rfl, rfl⟩ := ok_pop.1 h3
    exact .none (by rw [hn]; simp)
  case endtry =>
    have hn : c.name = cs!"endtry" := name_of hd (by decide) (by decide +kernel)
    have h : Ok env (cmdEndtry ea st) r st' r' := h
    rw [cmdEndtry_eq, ok_ite] at h
    rcases h with ⟨_, h⟩ | ⟨h1, h⟩
    · exact (ok_errAt.1 h).elim
    obtain ⟨st2, q, h2, h3⟩ := ok_bind.1 h
    obtain rfl := ok_tryNorm_rest h2
    obtain ⟨f, fs, k1, rfl, rfl⟩ := ok_pop.1 h3
    exact .none (by rw [hn]; simp)

theorem done_complete (he : EnvOK env) (hi : HandlerAt env ea r0 ra r) (hc : ea.cmd = some c) (ho : st.OK)
    (hno : ∀ m, ¬ Misplaced (stCtx st) (innerOf st.cur.head) c.name m)
    (h : ArgsDone env fn (stCtx st) r0 ra (Export.exArg fn ea) c r r') :
    ∃ st', Ok env (runHandler (byName c.name) ea c st) r st' r' := by
  have hs := hi.sufR
  have nm : ∀ {n : Str} {hd : Handler}, c.name = n → byName n = hd → byName c.name = hd := by
    rintro n hd h rfl; rw [h]
  cases h with
  | simple h =>
    obtain ⟨vs, _, h⟩ := simple_complete he hi hc h
    exact ⟨_, h⟩
  | @function a _ h1 h =>
    obtain ⟨n, is, ds, at_⟩ := a
    rw [nm h1 (hd := .function) (by decide +kernel)]
    obtain ⟨left, ps, g1, g2, g3, g4⟩ := function_complete he hs h
    exact ⟨_, g4 ea c st⟩
  | expr h1 h =>
    obtain ⟨v, g1, g2⟩ := expr_complete he hs h
    simp only [List.mem_cons, List.not_mem_nil, or_false] at h1
    rcases h1 with h1 | h1 | h1
    · rw [nm h1 (hd := .if_) (by decide +kernel)]
      exact ⟨_, ok_bind.2 ⟨v, r', g1, ok_pure.2 ⟨rfl, rfl⟩⟩⟩
    · rw [nm h1 (hd := .elseif) (by decide +kernel)]
      have hl : ifLike (innerOf st.cur.head) := Classical.byContradiction fun h => hno _ (by rw [h1]; exact .elseif h)
      obtain ⟨s, hok⟩ := norm_ok (env := env) (st := st) (b := !st.cur.head.isIf) fun _ => OK.stack_ne ho (by
        cases hh : st.cur.head <;> first | rfl | (rw [hh] at hl; rcases hl with hl | hl <;> cases hl))
      show ∃ st', Ok env (cmdElseif ea st) r st' r'
      rw [cmdElseif_eq, inner_ifLike.1 hl, if_neg (by simp)]
      exact ⟨_, ok_bind.2 ⟨s, r, hok r, ok_bind.2 ⟨v, r', g1, ok_pure.2 ⟨rfl, rfl⟩⟩⟩⟩
    · rw [nm h1 (hd := .while_) (by decide +kernel)]
      exact ⟨_, ok_bind.2 ⟨v, r', g1, ok_pure.2 ⟨rfl, rfl⟩⟩⟩
  | @for_ a _ h1 h =>
    rw [nm h1 (hd := .for_) (by decide +kernel)]
    cases h with
    | @mk l ls x r1 r2 r3 e _ a1 a2 a3 a4 =>
      have a1 : LhsOf env fn (Target env fn) r (l, ls, x) _ := a1
      have s1 := ((par_letlhs (fn := fn) he).adv hs a1).adv.suf hs
      obtain ⟨lhs, b2, b1⟩ := (par_letlhs (fn := fn) he).complete (a := (l, ls, x)) hs a1
      obtain ⟨v, g1, g2⟩ := expr_complete he (a3.adv.suf (a2.adv.suf s1)) a4
      refine ⟨st.push (.for_ ea.cmdpos ea lhs v), ?_⟩
      show Ok _ (cmdFor ea _) _ _ _
      unfold cmdFor
      refine ok_bind.2 ⟨lhs, _, b1, ?_⟩
      rw [bind_skipWhite]
      refine ⟨_, a2, ?_⟩
      rw [bind_getpos]
      unfold readAlpha
      rw [bind_readWhile]
      refine ⟨_, _, a3, ?_⟩
      rw [if_neg (by simp)]
      exact ok_bind.2 ⟨v, r', g1, ok_pure.2 ⟨rfl, rfl⟩⟩
  | @catch_ p _ h1 h =>
    rw [nm h1 (hd := .catch_) (by decide +kernel)]
    have h6 : innerOf st.cur.head ≠ some .finally_ := fun h => hno _ (by rw [h1]; exact .catchLate h)
    have h7 : inTry (innerOf st.cur.head) := Classical.byContradiction fun h => hno _ (by rw [h1]; exact .catch_ h)
    have hl := h7.resolve_right h6
    obtain ⟨s, hok⟩ := norm_ok (env := env) (st := st) (b := !st.cur.head.isTry) fun _ => OK.stack_ne ho (by
      cases hh : st.cur.head <;> first | rfl | (rw [hh] at hl; rcases hl with hl | hl <;> cases hl))
    have hf : st.cur.head.isFinally = false := by
      rw [← Bool.not_eq_true, ← inner_finally]; exact h6
    refine ⟨s.push (.catch_ ea.cmdpos ea p), ?_⟩
    show Ok env (cmdCatch ea st) r _ r'
    rw [cmdCatch_eq, hf, if_neg (by simp), inner_tryLike.1 hl, if_neg (by simp)]
    refine ok_bind.2 ⟨_, _, hok r, ?_⟩
    rw [bind_skipWhite]
    cases h with
    | none a1 a2 =>
      refine ⟨_, a1, ?_⟩
      rw [bind_peek, endsSym_stop.2 a2]
      exact ok_pure.2 ⟨rfl, rfl⟩
    | pat a1 a2 a3 a4 =>
      refine ⟨_, a1, ?_⟩
      obtain ⟨hq, rfl⟩ := reads_one_iff.1 a3
      rw [bind_peek, if_pos (by rw [← endsSym_stop] at a2; simpa using a2), bind_get, hq]
      show Ok env (parsePattern [_] >>= fun r => pure (PState.push _ (Head.catch_ ea.cmdpos ea r.1))) _ _ _
      rw [bind_pattern]
      exact ⟨_, _, _, a4, ok_pure.2 ⟨rfl, rfl⟩⟩
  | endfunction h1 h =>
    rw [nm h1 (hd := .endfunction) (by decide +kernel)]
    have hh : st.cur.head.isFunction = true := by
      have g1 : ¬ inIf (innerOf st.cur.head) := fun h => hno _ (by rw [h1]; exact .endfunctionIf h)
      have g2 : ¬ inTry (innerOf st.cur.head) := fun h => hno _ (by rw [h1]; exact .endfunctionTry h)
      have g3 : innerOf st.cur.head ≠ some .while_ := fun h => hno _ (by rw [h1]; exact .endfunctionWhile h)
      have g4 : innerOf st.cur.head ≠ some .for_ := fun h => hno _ (by rw [h1]; exact .endfunctionFor h)
      have g5 : innerOf st.cur.head ≠ none := fun h => hno _ (by rw [h1]; exact .endfunction h)
      cases hh : st.cur.head <;> rw [hh] at g1 g2 g3 g4 g5 <;>
        simp_all [innerOf, inIf, ifLike, inTry, tryLike, Head.isFunction]
    obtain ⟨f, fs, hf⟩ := List.exists_cons_of_ne_nil (OK.stack_ne ho (by
      cases hx : st.cur.head <;> rw [hx] at hh <;> first | rfl | cases hh))
    exact ⟨_, ok_endfunction.2 ⟨hh, _, h, f, fs, hf, rfl⟩⟩
  | none h1 =>
    simp only [List.mem_cons, List.not_mem_nil, or_false] at h1
    rcases h1 with h1 | h1 | h1 | h1 | h1 | h1 | h1
    · rw [nm h1 (hd := .else_) (by decide +kernel)]
      have hl : ifLike (innerOf st.cur.head) := Classical.byContradiction fun h => hno _ (by rw [h1]; exact .else_ h)
      revert hl
      clear hno
      split_shape ho <;> first | exact ⟨_, rfl⟩ | (rename_i hl; rcases hl with hl | hl <;> cases hl)
    · rw [nm h1 (hd := .endif) (by decide +kernel)]
      have hl : inIf (innerOf st.cur.head) := Classical.byContradiction fun h => hno _ (by rw [h1]; exact .endif h)
      revert hl
      clear hno
      split_shape ho <;> first | exact ⟨_, rfl⟩ | (rename_i hl; rcases hl with (hl | hl) | hl <;> cases hl)
    · rw [nm h1 (hd := .endwhile) (by decide +kernel)]
      have hl : innerOf st.cur.head = some .while_ := Classical.byContradiction fun h => hno _ (by rw [h1]; exact .endwhile h)
      revert hl
      clear hno
      split_shape ho <;> first | exact ⟨_, rfl⟩ | (rename_i hl; cases hl)
    · rw [nm h1 (hd := .endfor) (by decide +kernel)]
      have hl : innerOf st.cur.head = some .for_ := Classical.byContradiction fun h => hno _ (by rw [h1]; exact .endfor h)
      revert hl
      clear hno
      split_shape ho <;> first | exact ⟨_, rfl⟩ | (rename_i hl; cases hl)
    · rw [nm h1 (hd := .try_) (by decide +kernel)]
      exact ⟨_, ok_pure.2 ⟨rfl, rfl⟩⟩
    · rw [nm h1 (hd := .finally_) (by decide +kernel)]
      have hl : tryLike (innerOf st.cur.head) := Classical.byContradiction fun h => hno _ (by rw [h1]; exact .finally_ h)
      revert hl
      clear hno
      split_shape ho <;> first | exact ⟨_, rfl⟩ | (rename_i hl; rcases hl with hl | hl <;> cases hl)
    · rw [nm h1 (hd := .endtry) (by decide +kernel)]
      have hl : inTry (innerOf st.cur.head) := Classical.byContradiction fun h => hno _ (by rw [h1]; exact .endtry h)
      revert hl
      clear hno
      split_shape ho <;> first | exact ⟨_, rfl⟩ | (rename_i hl; rcases hl with (hl | hl) | hl <;> cases hl)

/-! ### Lines -/

theorem no_trail (h : AtEnd r ∨ headSym r = .ch '"') : ¬ TrailErr env r msg q := by
  intro ht
  cases ht with
  | mk h1 h2 h3 h4 =>
    have hs : Skip r r := skip_self (by
      rcases h with (h | h) | h <;> rw [h] <;> rfl)
    obtain rfl := h1.det hs
    rcases h with (h | h) | h
    · rw [h2] at h; cases h
    · rw [h2] at h; cases h
    · rw [h2] at h; cases h; exact h4 rfl

theorem Spec.CmdName.adv' {nv : Bool} {used used' : List Str} (h : CmdName nv used r c r' used') : Adv r r' := by
  obtain ⟨t, h⟩ := h.reads
  exact h.adv

theorem args_adv {b : Bool} {r1 : List Cell} (h1 : Bang c r b r1)
    (h2 : c.name = cs!"!" ∧ ra = r1 ∨ c.name ≠ cs!"!" ∧ Skip r1 ra) : Adv r ra := by
  refine h1.adv.trans ?_
  rcases h2 with ⟨_, rfl⟩ | ⟨_, h⟩
  · exact Adv.refl _
  · exact h.adv

theorem line_bad_sound (he : EnvOK env) (hp : Apart env) (hs : Suf env r) (ho : st.OK) {used : List Str}
    (hc : CacheRel st.neovim st.cache used) (h : Bad env (parseOneCmd st) r msg q) :
    LineErr st.neovim env fn (stCtx st) (innerOf st.cur.head) used r msg q := by
  obtain ⟨h1, r0, h2, h3, h4, ms, r1, h5, h⟩ := (bad_oneCmd he hs).1 h
  have hs0 := h2.adv.suf hs
  have hne0 : r0 ≠ [] := fun h => h3 (by rw [h]; exact .inr rfl)
  rcases h with h | ⟨rg, r2, h6, h⟩
  · exact .head (.range h1 h2 h3 h4 h5.1 h5.2 h)
  have hs1 : Suf env r1 := ((wp_run (T := tokGet) (parseModifiers_spec hs0) ((ok_mods (env := env)).2 h5)).2).suf hs0
  have hs2 : Suf env r2 := (wp_run (T := tokGet) (parseRange_spec he hs1) ((ok_range (env := env)).2 h6)).choose_spec.1.adv.suf hs1
  have bf : ∀ {rc}, SkipC r2 rc → Before r r0 ms rg rc := fun h7 => ⟨h1, h2, h3, h4, r1, r2, h5.1, h5.2, h6, h7⟩
  -- the arguments of a command
  have hand : ∀ {rc c r3 used' b r4 ra ea1 r5}, SkipC r2 rc → ¬ AtEnd rc → headSym rc ≠ .ch '"' →
      CmdName st.neovim used rc c r3 used' → Bang c r3 b r4 →
      (c.name = cs!"!" ∧ ra = r4 ∨ c.name ≠ cs!"!" ∧ Skip r4 ra) →
      Ok env (parseOptions c (argRecord (lineRecord env r0 rc ms rg) c b (posOf env ra))) ra ea1 r5 →
      HeadAt st.neovim env fn used r r0 rc (Export.exArg fn ea1) c ra r5 used' ∧ HandlerAt env ea1 r0 ra r5 ∧
        ea1.cmd = some c ∧ ea1.cmdpos = posOf env rc := by
    intro rc c r3 used' b r4 ra ea1 r5 k1 k2 k3 k4 k5 k6 k7
    have hra : Adv r0 ra := ((bf k1).adv.trans k4.adv').trans (args_adv k5 k6)
    have k8 := (ok_options (fn := fn) ((hra.suf hs0).tidy he)).1 k7
    have hra5 := k8.1.adv
    refine ⟨⟨_, ⟨ms, rg, r3, b, r4, ⟨bf k1, k2, k3, k4⟩, k5, k6, rfl⟩, k8.1⟩,
      ⟨⟨k8.2.linepos, k8.2.argpos⟩, hs0, hne0, hra, hra.trans hra5⟩, k8.1.cmd, k8.2.cmdpos⟩
  rcases h with h | ⟨st1, r3, h7, h8⟩
  · obtain ⟨rc, h7, h8, h9, ⟨l, r', h10, h11, rfl, rfl⟩ | ⟨c, cache, r3, h10, h⟩⟩ := (bad_command he hs2 hc).1 h
    · exact .head (.name (bf h7) h8 h9 h10 h11)
    · obtain ⟨used', h11, h12⟩ := CmdName.of_ok hc h10
      rcases (bad_commandArgs h11.dispatch).1 h with ⟨r4, g1, g2, g3, g4, rfl, rfl⟩ | ⟨b, r4, ra, g1, g2, g3⟩
      · exact .head (.bang ⟨bf h7, h8, h9, h11⟩ g1 g2 g3 g4)
      · have hra : Adv r0 ra := ((bf h7).adv.trans h11.adv').trans (args_adv g1 g2)
        rcases g3 with g3 | ⟨ea1, r5, g3, g4⟩
        · rcases (bad_options (fn := fn) ((hra.suf hs0).tidy he)).1 g3 with ⟨g4, rfl, g5⟩ | ⟨⟨ea1, r5, r6, g4, g5, g6, g7⟩, rfl, rfl⟩
          · exact .head (.argOpt ⟨ms, rg, r3, b, r4, ⟨bf h7, h8, h9, h11⟩, g1, g2, rfl⟩ g4 g5)
          · exact .head (.write ⟨ms, rg, r3, b, r4, ⟨bf h7, h8, h9, h11⟩, g1, g2, rfl⟩ g4 g5 g6 g7)
        · obtain ⟨k1, k2, k3, k4⟩ := hand h7 h8 h9 h11 g1 g2 g3
          rcases handler_bad_sound (fn := fn) (st := { st with cache := cache }) he hp k2 (OK.stack_ne (st := st) ho) g4 with ⟨g5, rfl⟩ | ⟨g5, g6⟩
          · rw [k4]
            exact .place k1 g5
          · exact .args k1 g5 g6
  · obtain ⟨rc, h9, h⟩ := ok_command.1 h7
    rcases h with ⟨h10, h11⟩ | ⟨h10, h11, c, cache, r4, h12, h13⟩
    · have hr : r3 = rc := by
        rcases h11 with ⟨_, _, _, rfl⟩ | ⟨_, h11⟩
        · rfl
        · obtain ⟨_, _, _, rfl⟩ := (ok_modifierRange he hs0 rfl (bf h9).adv).1 h11
          rfl
      subst hr
      exact absurd h8 (no_trail h10)
    · obtain ⟨used', g1, g2⟩ := CmdName.of_ok hc h12
      obtain ⟨b, r5, ra, ea1, r6, hd, g3, g4, g5, g6, g7⟩ := ok_commandArgs.1 h13
      obtain ⟨k1, k2, k3, k4⟩ := hand h9 h10 h11 g1 g3 g4 g5
      have : hd = byName c.name := by
        have := g1.dispatch
        rw [g6] at this
        exact Option.some.inj this
      subst this
      obtain ⟨g8, g9⟩ := done_sound (fn := fn) (st := { st with cache := cache }) he hp k2 k3 (OK.stack_ne (st := st) ho) g7
      exact .trail k1 g8 g9 h8

theorem line_bad_complete (he : EnvOK env) (hp : Apart env) (hs : Suf env r) (ho : st.OK) {used : List Str}
    (hc : CacheRel st.neovim st.cache used)
    (h : LineErr st.neovim env fn (stCtx st) (innerOf st.cur.head) used r msg q) : Bad env (parseOneCmd st) r msg q := by
  -- a command that is found
  have named : ∀ {r0 ms rg rc c r1 used'}, NamedAt st.neovim used r r0 ms rg rc c r1 used' →
      Suf env r0 ∧ r0 ≠ [] ∧ Adv r0 rc ∧ dispatch c.parser = some (byName c.name) ∧ ∃ cache, CacheRel st.neovim cache used' ∧
      (∀ {msg q}, Bad env (parseCommandArgs (lineRecord env r0 rc ms rg) c { st with cache := cache }) r1 msg q →
        Bad env (parseOneCmd st) r msg q) ∧
      (∀ {st1 r2 msg q}, Ok env (parseCommandArgs (lineRecord env r0 rc ms rg) c { st with cache := cache }) r1 st1 r2 →
        TrailErr env r2 msg q → Bad env (parseOneCmd st) r msg q) := by
    rintro r0 ms rg rc c r1 used' ⟨hb, k1, k2, k3⟩
    have ha := hb.adv
    obtain ⟨h1, h2, h3, h4, q1, q2, h5, h5', h6, h7⟩ := hb
    have hs0 := h2.adv.suf hs
    have hs1 : Suf env q1 := ((wp_run (T := tokGet) (parseModifiers_spec hs0) ((ok_mods (env := env)).2 ⟨h5, h5'⟩)).2).suf hs0
    have hs2 : Suf env q2 := (wp_run (T := tokGet) (parseRange_spec he hs1) ((ok_range (env := env)).2 h6)).choose_spec.1.adv.suf hs1
    obtain ⟨cache, k4, k5⟩ := k3.ok (env := env) hc
    refine ⟨hs0, fun h => h3 (by rw [h]; exact .inr rfl), ha, k3.dispatch, cache, k5, ?_, ?_⟩
    · intro msg q h
      refine (bad_oneCmd he hs).2 ⟨h1, r0, h2, h3, h4, ms, q1, ⟨h5, h5'⟩, .inr ⟨rg, q2, h6, .inl ?_⟩⟩
      exact (bad_command he hs2 hc).2 ⟨rc, h7, k1, k2, .inr ⟨c, cache, r1, k4, h⟩⟩
    · intro st1 r2 msg q h ht
      refine (bad_oneCmd he hs).2 ⟨h1, r0, h2, h3, h4, ms, q1, ⟨h5, h5'⟩, .inr ⟨rg, q2, h6, .inr ⟨st1, r2, ?_, ht⟩⟩⟩
      exact ok_command.2 ⟨rc, h7, .inr ⟨k1, k2, c, cache, r1, k4, h⟩⟩
  -- a command with its arguments
  have atArgs : ∀ {r0 rc x c ra r1 used'}, HeadAt st.neovim env fn used r r0 rc x c ra r1 used' →
      ∃ cache ea, HandlerAt env ea r0 ra r1 ∧ Export.exArg fn ea = x ∧ ea.cmd = some c ∧ ea.cmdpos = posOf env rc ∧
      CacheRel st.neovim cache used' ∧
      (∀ {msg q}, Bad env (runHandler (byName c.name) ea c { st with cache := cache }) r1 msg q →
        Bad env (parseOneCmd st) r msg q) ∧
      (∀ {st1 r2 msg q}, Ok env (runHandler (byName c.name) ea c { st with cache := cache }) r1 st1 r2 →
        TrailErr env r2 msg q → Bad env (parseOneCmd st) r msg q) := by
    rintro r0 rc x c ra r1 used' ⟨ea0, ⟨ms, rg, q3, b, q4, hn, h14, h15, rfl⟩, h16⟩
    have hcn := hn.2.2.2
    obtain ⟨hs0, hne0, ha, hdp, cache, k1, k2, k3⟩ := named hn
    have hra : Adv r0 ra := (ha.trans hcn.adv').trans (args_adv h14 h15)
    have hk : KeepX (Export.exArg fn (argRecord (lineRecord env r0 rc ms rg) c b (posOf env ra))) x := h16.keep
    have hx := withPos_ex hk
    have h20 := (ok_options (fn := fn) (env := env) (r' := r1) (c := c) (ea := argRecord (lineRecord env r0 rc ms rg) c b (posOf env ra))
      (ea' := withPos (argRecord (lineRecord env r0 rc ms rg) c b (posOf env ra)) x) ((hra.suf hs0).tidy he)).2
      ⟨by rw [hx]; exact h16, withPos_keep _ _⟩
    refine ⟨cache, _, ⟨⟨rfl, rfl⟩, hs0, hne0, hra, hra.trans h16.adv⟩, hx, ?_, rfl, k1, ?_, ?_⟩
    · have := h16.cmd
      rw [← hx] at this
      exact this
    · intro msg q h
      exact k2 ((bad_commandArgs hdp).2 (.inr ⟨b, q4, ra, h14, h15, .inr ⟨_, _, h20, h⟩⟩))
    · intro st1 r2 msg q h ht
      exact k3 (ok_commandArgs.2 ⟨b, q4, ra, _, _, _, h14, h15, h20, hdp, h⟩) ht
  cases h with
  | head h =>
    cases h with
    | range h1 h2 h3 h4 h5 h6 h7 => exact (bad_oneCmd he hs).2 ⟨h1, _, h2, h3, h4, _, _, ⟨h5, h6⟩, .inl h7⟩
    | name hb h8 h9 h10 h11 =>
      obtain ⟨h1, h2, h3, h4, q1, q2, h5, h5', h6, h7⟩ := hb
      have hs0 := h2.adv.suf hs
      have hs1 : Suf env q1 := ((wp_run (T := tokGet) (parseModifiers_spec hs0) ((ok_mods (env := env)).2 ⟨h5, h5'⟩)).2).suf hs0
      have hs2 : Suf env q2 := (wp_run (T := tokGet) (parseRange_spec he hs1) ((ok_range (env := env)).2 h6)).choose_spec.1.adv.suf hs1
      refine (bad_oneCmd he hs).2 ⟨h1, _, h2, h3, h4, _, q1, ⟨h5, h5'⟩, .inr ⟨_, q2, h6, .inl ?_⟩⟩
      exact (bad_command he hs2 hc).2 ⟨_, h7, h8, h9, .inl ⟨_, _, h10, h11, rfl, rfl⟩⟩
    | bang hn h1 h2 h3 h4 =>
      obtain ⟨hs0, hne0, ha, hdp, cache, k1, k2, k3⟩ := named hn
      exact k2 ((bad_commandArgs hdp).2 (.inl ⟨_, h1, h2, h3, h4, rfl, rfl⟩))
    | argOpt hA h1 h2 =>
      obtain ⟨ms, rg, r1, b, r2, hn, g1, g2, rfl⟩ := hA
      have hcn := hn.2.2.2
      obtain ⟨hs0, hne0, ha, hdp, cache, k1, k2, k3⟩ := named hn
      have hra := (ha.trans hcn.adv').trans (args_adv g1 g2)
      refine k2 ((bad_commandArgs hdp).2 (.inr ⟨b, r2, _, g1, g2, .inl ?_⟩))
      exact (bad_options (fn := fn) ((hra.suf hs0).tidy he)).2 (.inl ⟨h1, rfl, h2⟩)
    | write hA h1 h2 h3 h4 =>
      obtain ⟨ms, rg, r1, b, r2, hn, g1, g2, rfl⟩ := hA
      have hcn := hn.2.2.2
      obtain ⟨hs0, hne0, ha, hdp, cache, k1, k2, k3⟩ := named hn
      have hra := (ha.trans hcn.adv').trans (args_adv g1 g2)
      refine k2 ((bad_commandArgs hdp).2 (.inr ⟨b, r2, _, g1, g2, .inl ?_⟩))
      exact (bad_options (fn := fn) ((hra.suf hs0).tidy he)).2 (.inr ⟨⟨_, _, _, h1, h2, h3, h4⟩, rfl, rfl⟩)
  | place h1 h2 =>
    obtain ⟨cache, ea, k1, rfl, k3, k4, k5, k6, k7⟩ := atArgs h1
    rw [← k4]
    exact k6 (handler_bad_complete (fn := fn) (st := { st with cache := cache }) he hp k1 (OK.stack_ne (st := st) ho) (.inl ⟨h2, rfl⟩))
  | args h1 h2 h3 =>
    obtain ⟨cache, ea, k1, rfl, k3, k4, k5, k6, k7⟩ := atArgs h1
    exact k6 (handler_bad_complete (fn := fn) (st := { st with cache := cache }) he hp k1 (OK.stack_ne (st := st) ho) (.inr ⟨h2, h3⟩))
  | trail h1 h2 h3 h4 =>
    obtain ⟨cache, ea, k1, rfl, k3, k4, k5, k6, k7⟩ := atArgs h1
    obtain ⟨st1, h5⟩ := done_complete (st := { st with cache := cache }) he k1 k3 ⟨ho.stack, k5.ok⟩ h2 h3
    exact k7 h5 h4

end
end Viml
