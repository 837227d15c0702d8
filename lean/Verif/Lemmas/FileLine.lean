/-
Command lines: comments, what follows a command, and the steps of the parser on one line.
-/
import Verif.Lemmas.FileHead
import Verif.Lemmas.StmtAst
import Verif.Lemmas.StmtCmds

namespace Viml
open Prog Spec

/-- The state after several nodes have been added. -/
def PState.adds (st : PState) (vs : List VStmt) : PState :=
  { st with cur := { st.cur with body := st.cur.body ++ vs } }

theorem PState.adds_nil (st : PState) : st.adds [] = st := by simp [PState.adds]
theorem PState.adds_one (st : PState) (v : VStmt) : st.adds [v] = st.add v := rfl
theorem PState.adds_adds (st : PState) (vs ws : List VStmt) : (st.adds vs).adds ws = st.adds (vs ++ ws) := by
  simp [PState.adds]
theorem PState.adds_add (st : PState) (vs : List VStmt) (w : VStmt) : (st.adds vs).add w = st.adds (vs ++ [w]) :=
  st.adds_adds vs [w]

theorem stmts_one {fn : Str} {v : VStmt} {x : Ast.Stmt} (h : Export.stmt fn v = some x) :
    Export.stmts fn [v] = some [x] := by simp [Export.stmts, h]

theorem stmts_append {fn : Str} {vs ws : List VStmt} {xs ys : List Ast.Stmt} (h : Export.stmts fn vs = some xs)
    (h' : Export.stmts fn ws = some ys) : Export.stmts fn (vs ++ ws) = some (xs ++ ys) := by
  induction vs generalizing xs with
  | nil => cases h; exact h'
  | cons v vs ih =>
    simp only [Export.stmts, Option.bind_eq_bind, Option.bind_eq_some_iff, Option.some.injEq] at h
    obtain ⟨x, hx, xs', hxs, rfl⟩ := h
    simp [Export.stmts, hx, ih hxs]

section
variable {env : Env} {fn : Str} {r r' : List Cell}

/-! ### Advancing -/

theorem Spec.Bang.adv {c : Cmd} {b : Bool} (h : Bang c r b r') : Adv r r' := by
  cases h with
  | yes h => exact h.adv
  | no => exact Adv.refl _

theorem Spec.ArgOpt.adv {a b : Ast.ExArg} (h : ArgOpt a r b r') : Adv r r' := by
  cases h with
  | bin h => exact h.1.adv
  | nobin h => exact h.1.adv
  | edit h => exact h.1.adv
  | ff _ _ h => exact h.1.adv
  | enc _ h _ _ h1 => exact h.adv.trans h1.adv
  | bad _ h => exact h.1.adv
  | badChar h => exact h.adv

theorem Spec.ArgOpts.adv {a b : Ast.ExArg} (h : ArgOpts a r b r') : Adv r r' := by
  induction h with
  | nil => exact Adv.refl _
  | cons h h1 _ ih => exact (h.adv.trans h1.adv).trans ih

theorem Spec.CmdArg.adv {v : Str} (h : CmdArg r v r') : Adv r r' := by
  induction h with
  | stop => exact Adv.refl _
  | esc h _ ih => exact h.adv.trans ih
  | escEnd h _ => exact h.adv
  | char h _ _ _ ih => exact h.adv.trans ih

theorem Spec.Options.adv {c : Cmd} {a b : Ast.ExArg} (h : Options c a r b r') : Adv r r' := by
  obtain ⟨e1, r1, e2, r2, e3, r3, e4, r4, h1, h2, h3, h4, h5⟩ := h
  have g1 : Adv r r1 := by
    rcases h1 with ⟨_, h⟩ | ⟨_, _, rfl⟩
    · exact h.adv
    · exact Adv.refl _
  have g2 : Adv r1 r2 := by
    cases h2 with
    | append _ h h1 => exact h.adv.trans h1.adv
    | filter _ h => exact h.adv
    | none => exact Adv.refl _
  have g3 : Adv r2 r3 := by
    cases h3 with
    | bang => exact Adv.refl _
    | filter _ _ h => exact h.adv
    | none => exact Adv.refl _
  have g4 : Adv r3 r4 := by
    cases h4 with
    | shift _ _ h h1 => exact h.adv.trans h1.adv
    | none => exact Adv.refl _
  have g5 : Adv r4 r' := by
    rcases h5 with ⟨_, h⟩ | ⟨_, _, rfl⟩
    · cases h with
      | last h => exact h.adv
      | cmd h _ h1 => exact h.adv.trans h1.adv
      | none => exact Adv.refl _
    · exact Adv.refl _
  exact (((g1.trans g2).trans g3).trans g4).trans g5

theorem Spec.Before.adv {r0 rc : List Cell} {ms : List Modifier} {rg : List Str} (h : Before r r0 ms rg rc) : Adv r0 rc := by
  obtain ⟨_, _, _, _, r1, r2, h1, _, h2, h3⟩ := h
  exact (h1.adv.trans h2.adv).trans h3.adv

/-! ### Line ends -/

theorem rest_line {t : Str} (hg : Tidy r) (hr : r ≠ []) (h : RestOf r t r') : ∃ e r1, r' = e :: r1 ∧ e.c = none := by
  obtain ⟨h, he⟩ := h
  have h1 := (hg hr).to_reads h
  obtain ⟨init, q, rfl⟩ := h1
  cases init with
  | nil => exact ⟨⟨none, q⟩, [], rfl, rfl⟩
  | cons c init =>
    obtain ⟨c, p⟩ := c
    cases c with
    | none => exact ⟨⟨none, p⟩, _, rfl, rfl⟩
    | some c => exact absurd rfl (atEnd_not (c := c) he)

theorem atEnd_cons {e : Cell} (h : e.c = none) : AtEnd (e :: r) := by
  obtain ⟨c, q⟩ := e
  cases h
  exact .inl rfl

theorem ok_comment {st st' : PState} : Ok env (parseComment st) r st' r' ↔
    ∃ t r1, Reads r ['"'] r1 ∧ RestOf r1 t r' ∧ st' = st.add (.comment (posOf env r) t) := by
  unfold parseComment
  simp only [bind_getpos, bind_get, ok_ite, ok_errAt, and_false, false_or, bind_getline, ok_pure, reads_one_iff]
  constructor
  · rintro ⟨h, t, r1, h1, rfl, rfl⟩
    exact ⟨t, _, ⟨by simpa using h, rfl⟩, h1, rfl⟩
  · rintro ⟨t, _, ⟨h, rfl⟩, h1, rfl⟩
    exact ⟨by simp [h], t, _, h1, rfl, rfl⟩

theorem comment_sound (hg : Tidy r) {st st' : PState} (h : Ok env (parseComment st) r st' r') :
    ∃ v x, st' = st.add v ∧ Export.stmt fn v = some x ∧ Comment env fn r x r'.tail := by
  obtain ⟨t, r1, h1, h2, rfl⟩ := ok_comment.1 h
  have hc := reads_one_iff.1 h1
  obtain ⟨e, r2, rfl, he⟩ := rest_line (hg.reads h1) (by rw [hc.2]; exact hg.tail hc.1) h2
  exact ⟨_, _, rfl, rfl, .mk h1 h2.1 he⟩

theorem comment_complete {x : Ast.Stmt} (h : Comment env fn r x r') :
    ∃ v r1, Export.stmt fn v = some x ∧ r' = r1.tail ∧ ∀ st, Ok env (parseComment st) r (st.add v) r1 := by
  cases h with
  | @mk r1 t e _ h1 h2 he =>
    refine ⟨.comment (posOf env r) t, _, rfl, rfl, fun st => ok_comment.2 ⟨t, r1, h1, ⟨h2, atEnd_cons he⟩, rfl⟩⟩

theorem ok_trail {st st' : PState} : Ok env (parseTrail st) r st' r' ↔ ∃ r1, Skip r r1 ∧
    ((r1 = [] ∧ st' = st ∧ r' = []) ∨ (∃ e, r1 = e :: r' ∧ e.c = none ∧ st' = st) ∨
      (Reads r1 ['|'] r' ∧ st' = st) ∨
      (headSym r1 = .ch '"' ∧ ∃ r2, Ok env (parseComment st) r1 st' r2 ∧ r' = r2.tail)) := by
  unfold parseTrail
  rw [bind_skipWhite]
  simp only [bind_peek]
  refine exists_congr fun r1 => and_congr_right fun hs => ?_
  simp only [ok_ite, ok_pure, bind_get, ok_errHere, and_false, or_false, reads_one_iff]
  have hb : Ok env (parseComment st >>= fun st => get >>= fun _ => pure st) r1 st' r' ↔
      ∃ r2, Ok env (parseComment st) r1 st' r2 ∧ r' = r2.tail := by
    rw [ok_bind]
    simp only [bind_get, ok_pure]
    constructor
    · rintro ⟨_, r2, h, rfl, rfl⟩; exact ⟨r2, h, rfl⟩
    · rintro ⟨r2, h, rfl⟩; exact ⟨_, r2, h, rfl, rfl⟩
  rw [hb]
  match r1 with
  | [] => simp [headSym]
  | ⟨none, q⟩ :: t =>
    simp only [headSym, Cell.sym, reduceCtorEq, false_and, not_false_eq_true, true_and, not_true, or_false, false_or]
    constructor
    · rintro ⟨h1, h2⟩; exact ⟨_, by rw [h2]; rfl, rfl, h1⟩
    · rintro ⟨e, h, _, rfl⟩; cases h; exact ⟨rfl, rfl⟩
  | ⟨some c, q⟩ :: t =>
    by_cases h1 : c = '|'
    · subst h1; simp [headSym, Cell.sym, and_comm]
    · simp [headSym, Cell.sym, h1]

theorem trail_sound (he : EnvOK env) (hs : Suf env r) {st st' : PState} (h : Ok env (parseTrail st) r st' r') :
    ∃ vs xs, st' = st.adds vs ∧ Export.stmts fn vs = some xs ∧ Trail env fn r xs r' := by
  obtain ⟨r1, h1, h2⟩ := ok_trail.1 h
  rcases h2 with h | h | h | h
  · obtain ⟨rfl, rfl, rfl⟩ := h
    exact ⟨[], [], (st'.adds_nil).symm, rfl, .eof h1⟩
  · obtain ⟨e, rfl, he, rfl⟩ := h
    exact ⟨[], [], (st'.adds_nil).symm, rfl, .eol h1 he⟩
  · obtain ⟨h2, rfl⟩ := h
    exact ⟨[], [], (st'.adds_nil).symm, rfl, .bar h1 h2⟩
  · obtain ⟨_, r2, h2, rfl⟩ := h
    obtain ⟨v, x, rfl, hv, hx⟩ := comment_sound (fn := fn) ((h1.adv.suf hs).tidy he) h2
    exact ⟨[v], [x], rfl, stmts_one hv, .comment h1 hx⟩

theorem trail_complete {xs : List Ast.Stmt} (h : Trail env fn r xs r') :
    ∃ vs, Export.stmts fn vs = some xs ∧ ∀ st, Ok env (parseTrail st) r (st.adds vs) r' := by
  cases h with
  | eof h => exact ⟨[], rfl, fun st => ok_trail.2 ⟨_, h, .inl ⟨rfl, st.adds_nil, rfl⟩⟩⟩
  | eol h h1 => exact ⟨[], rfl, fun st => ok_trail.2 ⟨_, h, .inr (.inl ⟨_, rfl, h1, st.adds_nil⟩)⟩⟩
  | bar h h1 => exact ⟨[], rfl, fun st => ok_trail.2 ⟨_, h, .inr (.inr (.inl ⟨h1, st.adds_nil⟩))⟩⟩
  | @comment r1 s _ h h1 =>
    obtain ⟨v, r2, hv, rfl, hc⟩ := comment_complete h1
    have : headSym r1 = .ch '"' := by
      cases h1 with
      | mk h => exact h.head
    exact ⟨[v], stmts_one hv, fun st => ok_trail.2 ⟨_, h, .inr (.inr (.inr ⟨this, _, hc st, rfl⟩))⟩⟩

/-! ### One command -/

/-- The record of a command line up to the place of the command. -/
def lineRecord (env : Env) (r0 rc : List Cell) (ms : List Modifier) (rg : List Str) : ExArg :=
  { linepos := posOf env r0, cmdpos := posOf env rc, modifiers := ms, range := rg }

/-- The steps of the parser on one line. -/
theorem ok_oneCmd {st st' : PState} : Ok env (parseOneCmd st) r st' r' ↔
    (StartsWith r cs!"#!" ∧ st' = st ∧ ∃ l r1, RestOf r l r1 ∧ r' = r1.tail) ∨
    ¬ StartsWith r cs!"#!" ∧ ∃ r0, SkipC r r0 ∧
      ((AtEnd r0 ∧ st' = st ∧ r' = r0.tail) ∨
      (headSym r0 = .ch '"' ∧ ∃ r2, Ok env (parseComment st) r0 st' r2 ∧ r' = r2.tail) ∨
      (¬ AtEnd r0 ∧ headSym r0 ≠ .ch '"' ∧ ∃ ms r1 rg r2 st1 r3, (Mods r0 ms r1 ∧ CountsOK ms) ∧ Range r1 rg r2 ∧
        Ok env (parseCommand { linepos := posOf env r0, modifiers := ms, range := rg } st) r2 st1 r3 ∧
        Ok env (parseTrail st1) r3 st' r')) := by
  unfold parseOneCmd
  rw [bind_peekn, ok_ite]
  rw [peekn_eq (n := 2) (v := cs!"#!") rfl]
  refine or_congr ?_ ?_
  · rw [bind_getline]
    simp only [bind_get, ok_pure]
    constructor
    · rintro ⟨h, l, r1, h1, rfl, rfl⟩; exact ⟨h, rfl, l, r1, h1, rfl⟩
    · rintro ⟨h, rfl, l, r1, h1, rfl⟩; exact ⟨h, l, r1, h1, rfl, rfl⟩
  refine and_congr_right fun hn => ?_
  rw [bind_skipWC]
  refine exists_congr fun r0 => and_congr_right fun hs => ?_
  rw [bind_peekn, ok_ite, ok_ite, get1_nil, get1_ch]
  have hb : Ok env (parseComment st >>= fun st => get >>= fun _ => pure st) r0 st' r' ↔
      ∃ r2, Ok env (parseComment st) r0 st' r2 ∧ r' = r2.tail := by
    rw [ok_bind]
    simp only [bind_get, ok_pure]
    constructor
    · rintro ⟨_, r2, h, rfl, rfl⟩; exact ⟨r2, h, rfl⟩
    · rintro ⟨r2, h, rfl⟩; exact ⟨_, r2, h, rfl, rfl⟩
  have hc : Ok env (getpos >>= fun linepos => parseModifiers >>= fun ms => parseRange >>= fun rg =>
      parseCommand { linepos := linepos, modifiers := ms, range := rg } st >>= fun st => parseTrail st) r0 st' r' ↔
      ∃ ms r1 rg r2 st1 r3, (Mods r0 ms r1 ∧ CountsOK ms) ∧ Range r1 rg r2 ∧
        Ok env (parseCommand { linepos := posOf env r0, modifiers := ms, range := rg } st) r2 st1 r3 ∧
        Ok env (parseTrail st1) r3 st' r' := by
    rw [bind_getpos]
    simp only [ok_bind, ok_mods, ok_range]
    constructor
    · rintro ⟨ms, r1, h1, rg, r2, h2, st1, r3, h3, h4⟩
      exact ⟨ms, r1, rg, r2, st1, r3, h1, h2, h3, h4⟩
    · rintro ⟨ms, r1, rg, r2, st1, r3, h1, h2, h3, h4⟩
      exact ⟨ms, r1, h1, rg, r2, h2, st1, r3, h3, h4⟩
  rw [hb, hc, bind_get, ok_pure]
  constructor
  · rintro (⟨h, h1⟩ | ⟨h, ⟨h1, h2⟩ | ⟨h1, h2⟩⟩)
    · exact .inl ⟨h, h1⟩
    · exact .inr (.inl ⟨h1, h2⟩)
    · exact .inr (.inr ⟨h, h1, h2⟩)
  · rintro (⟨h, h1⟩ | ⟨h, h1⟩ | ⟨h, h1, h2⟩)
    · exact .inl ⟨h, h1⟩
    · exact .inr ⟨fun he => atEnd_not he h, .inl ⟨h, h1⟩⟩
    · exact .inr ⟨h, .inr ⟨h1, h2⟩⟩

theorem ok_command {ea : ExArg} {st st' : PState} : Ok env (parseCommand ea st) r st' r' ↔ ∃ rc, SkipC r rc ∧
    (((AtEnd rc ∨ headSym rc = .ch '"') ∧
      (ea.modifiers = [] ∧ ea.range = [] ∧ st' = st ∧ r' = rc ∨ ¬ (ea.modifiers = [] ∧ ea.range = []) ∧
        Ok env (cmdModifierRange { ea with cmdpos := posOf env rc } st) rc st' r')) ∨
     ¬ AtEnd rc ∧ headSym rc ≠ .ch '"' ∧ ∃ c cache r1, Ok env (findCommand st.neovim st.cache) rc (some c, cache) r1 ∧
        Ok env (parseCommandArgs { ea with cmdpos := posOf env rc } c { st with cache := cache }) r1 st' r') := by
  unfold parseCommand
  rw [bind_skipWC]
  refine exists_congr fun rc => and_congr_right fun hs => ?_
  rw [bind_getpos, bind_peekn, ok_ite, get1_nil, get1_ch]
  refine or_congr (and_congr_right fun _ => ?_) ?_
  · rw [ok_ite, ok_pure, or_comm]
    refine or_congr ?_ (and_congr_left fun _ => ?_)
    · simp [and_assoc]
    · simp [Classical.or_iff_not_imp_left]
  · rw [not_or, and_assoc]
    refine and_congr_right fun _ => and_congr_right fun _ => ?_
    rw [ok_bind]
    constructor
    · rintro ⟨⟨c, cache⟩, r1, h1, h2⟩
      cases c with
      | some c => exact ⟨c, cache, r1, h1, h2⟩
      | none =>
        simp only [ok_bind, ok_errAt, and_false, exists_false] at h2
    · rintro ⟨c, cache, r1, h1, h2⟩
      exact ⟨_, r1, h1, h2⟩

theorem reads_text {v w : Str} (h1 : Reads r v r') (h2 : Reads r w r') : v = w := by
  obtain ⟨p, rfl, hp⟩ := h1
  obtain ⟨q, hq, hq'⟩ := h2
  obtain rfl := List.append_cancel_right hq
  have h := hp.symm.trans hq'
  clear hp hq hq'
  induction v generalizing w with
  | nil => cases w <;> simp_all
  | cons c v ih => cases w with
    | nil => simp at h
    | cons d w => simp only [List.map_cons, List.cons.injEq, Option.some.injEq] at h; rw [h.1, ih h.2]

theorem bind_getstr (he : EnvOK env) {β : Type} {f : Str → Prog β} {b : β} {q : Pos} {r0 e : List Cell} (hs : Suf env r0)
    (hl : q = posOf env r0) (ha : Adv r0 e) : Ok env (getstr q (posOf env e) >>= f) r b r' ↔
      ∃ s, Reads r0 s e ∧ Ok env (f s) r b r' := by
  subst hl
  have h := getstr_reads he hs ha
  constructor
  · intro h1; exact ⟨_, h, h1⟩
  · rintro ⟨s, h1, h2⟩
    rw [reads_text h1 h] at h2
    exact h2

theorem ok_modifierRange (he : EnvOK env) {ea : ExArg} {st st' : PState} {r0 : List Cell} (hs : Suf env r0)
    (hl : ea.linepos = posOf env r0) (ha : Adv r0 r) : Ok env (cmdModifierRange ea st) r st' r' ↔
      ∃ s, Reads r0 s r ∧ st' = st.add (.excmd ea.cmdpos ea s) ∧ r' = r := by
  unfold cmdModifierRange
  rw [bind_getpos, bind_getstr he hs hl ha]
  simp only [ok_pure]

/-! ### The head of a command -/

theorem Spec.Options.keep {c : Cmd} {a b : Ast.ExArg} (h : Options c a r b r') : KeepX a b := by
  obtain ⟨e1, r1, e2, r2, e3, r3, e4, r4, h1, h2, h3, h4, h5⟩ := h
  have g1 : KeepX a e1 := by
    rcases h1 with ⟨_, h⟩ | ⟨_, rfl, _⟩
    · exact h.keep
    · exact ⟨rfl, rfl, rfl⟩
  have g5 : KeepX e4 b := by
    rcases h5 with ⟨_, h⟩ | ⟨_, rfl, rfl⟩
    · exact h.keep
    · exact ⟨rfl, rfl, rfl⟩
  have t : ∀ {a b c : Ast.ExArg}, KeepX a b → KeepX b c → KeepX a c := fun h h' =>
    ⟨h'.1.trans h.1, h'.2.trans h.2, h'.3.trans h.3⟩
  exact t (t (t (t g1 h2.keep) h3.keep) h4.keep) g5

theorem Spec.Options.cmd {c : Cmd} {a b : Ast.ExArg} (h : Options c a r b r') : b.cmd = a.cmd := by
  obtain ⟨e1, r1, e2, r2, e3, r3, e4, r4, h1, h2, h3, h4, h5⟩ := h
  have g1 : e1.cmd = a.cmd := by
    clear h2
    rcases h1 with ⟨_, h⟩ | ⟨_, rfl, _⟩
    · induction h with
      | nil => rfl
      | cons h _ _ ih => exact ih.trans (by cases h <;> rfl)
    · rfl
  have g2 : e2.cmd = e1.cmd := by cases h2 <;> rfl
  have g3 : e3.cmd = e2.cmd := by cases h3 <;> rfl
  have g4 : e4.cmd = e3.cmd := by cases h4 <;> rfl
  have g5 : b.cmd = e4.cmd := by
    rcases h5 with ⟨_, h⟩ | ⟨_, rfl, rfl⟩
    · cases h <;> rfl
    · rfl
  exact g5.trans (g4.trans (g3.trans (g2.trans g1)))

theorem const_entries : builtinCommands.filter (fun c => c.name == cs!"const") =
    [⟨cs!"const", 4, [.EXTRA, .NOTRLCOM, .SBOXOK, .CMDWIN], cs!"parse_cmd_const"⟩,
     ⟨cs!"const", 4, [.EXTRA, .NOTRLCOM, .SBOXOK, .CMDWIN], cs!"parse_cmd_common"⟩] := by decide +kernel

theorem const_additional : neovimAdditionalCommands.all (fun c => c.name != cs!"const") = true := by decide +kernel

theorem firstOf_dispatch {n : Str} {c : Cmd} (h : FirstOf builtinCommands n c) : dispatch c.parser = some (byName c.name) := by
  obtain ⟨a, b, h1, h2, h3⟩ := h
  have hk : Known c := .inl (by rw [h1]; simp)
  rcases hk.dispatch with hd | ⟨hn, hd⟩
  · exact hd
  have hf := const_entries
  rw [h1, List.filter_append, List.filter_cons_of_pos (by simp [hn])] at hf
  cases ha : a.filter (fun c => c.name == cs!"const") with
  | nil =>
    rw [ha] at hf
    simp only [List.nil_append, List.cons.injEq] at hf
    rw [hf.1]
    decide +kernel
  | cons x l =>
    rw [ha] at hf
    simp only [List.cons_append, List.cons.injEq] at hf
    have hx : x ∈ a := (List.mem_filter.1 (ha ▸ List.mem_cons_self)).1
    have hc : c = ⟨cs!"const", 4, [.EXTRA, .NOTRLCOM, .SBOXOK, .CMDWIN], cs!"parse_cmd_common"⟩ := by
      cases l with
      | nil => simp only [List.nil_append, List.cons.injEq] at hf; exact hf.2.1
      | cons y l => simp at hf
    refine absurd ?_ (h3 x hx)
    rw [hc] at h2
    rw [hf.1]
    exact h2

theorem Spec.TableCmd.dispatch {nv : Bool} {n : Str} {c : Cmd} (h : TableCmd nv n c) :
    dispatch c.parser = some (byName c.name) := by
  cases nv with
  | false => exact firstOf_dispatch h
  | true =>
    rcases h.2 with ⟨a, b, h1, _⟩ | h
    · have hk : Known c := .inr (.inl (by rw [h1]; simp))
      rcases hk.dispatch with hd | ⟨hn, _⟩
      · exact hd
      · have := List.all_eq_true.mp const_additional c (by rw [h1]; simp)
        simp [hn] at this
    · exact firstOf_dispatch h.2

theorem Spec.CmdName.dispatch {nv : Bool} {used used' : List Str} {c : Cmd} (h : CmdName nv used r c r' used') :
    dispatch c.parser = some (byName c.name) := by
  have user : ∀ {a b : Str}, UserWord nv a → Viml.dispatch (userCommand (a ++ b)).parser = some (byName (userCommand (a ++ b)).name) := by
    intro a b ha
    obtain ⟨⟨x, s, rfl, h1, h2⟩, _⟩ := ha
    have hk : Known (userCommand ((x :: s) ++ b)) := .inr (.inr ⟨by
      show isUpperC x = true
      simp only [isUpperC, Bool.and_eq_true, decide_eq_true_eq]
      exact ⟨h1, h2⟩, rfl⟩)
    rcases hk.dispatch with hd | ⟨hn, _⟩
    · exact hd
    · have : x = 'c' := by
        have := congrArg List.head? hn
        simpa [userCommand] using this
      subst this
      exact absurd h2 (by decide)
  cases h with
  | table _ _ h => exact h.dispatch
  | user _ h => exact user h
  | again _ h => simpa using user (b := []) h

/-- What the record of a command says about places. -/
structure EaPos (env : Env) (ea : ExArg) (r0 ra : List Cell) : Prop where
  linepos : ea.linepos = posOf env r0
  argpos : ea.argpos = some (posOf env ra)

/-- Where the parser stands after a command. -/
theorem command_suf (he : EnvOK env) {r0 r1 r2 : List Cell} (hs : Suf env r0) (hne : r0 ≠ []) {st st' : PState} (ho : st.OK)
    {ms : List Modifier} {rg : List Str} (h1 : Mods r0 ms r1 ∧ CountsOK ms) (h2 : Range r1 rg r2)
    (h : Ok env (parseCommand { linepos := posOf env r0, modifiers := ms, range := rg } st) r2 st' r') : Suf env r' := by
  have a1 := (wp_run (T := tokGet) (parseModifiers_spec hs) ((ok_mods (env := env)).2 h1)).2
  have a2 := wp_run (T := tokGet) (parseRange_spec he (a1.suf hs)) ((ok_range (env := env)).2 h2)
  have := wp_run (parseCommand_spec he (good_closed (fn := []) he) (ea := { linepos := posOf env r0, modifiers := ms, range := rg })
    hs hne rfl h1.1 a1 a2 rfl rfl ho) h
  rcases this.line with h | ⟨h, _⟩
  · exact h.suf hs
  · exact h.trans hs

/-- One line with a command: from the parser to the grammar. -/
theorem head_sound (he : EnvOK env) (hs : Suf env r) {st st' : PState} (ho : st.OK) {used : List Str} (hc : CacheRel st.neovim st.cache used)
    (h : Ok env (parseOneCmd st) r st' r') (hn : ¬ StartsWith r cs!"#!") {r0 : List Cell} (h0 : SkipC r r0)
    (h1 : ¬ AtEnd r0) (h2 : headSym r0 ≠ .ch '"') :
    ∃ ms rg rc, Before r r0 ms rg rc ∧
      (((AtEnd rc ∨ headSym rc = .ch '"') ∧ ∃ st1, Ok env (parseTrail st1) rc st' r' ∧
        (ms = [] ∧ rg = [] ∧ st1 = st ∨ ¬ (ms = [] ∧ rg = []) ∧ ∃ s, Reads r0 s rc ∧
          st1 = st.add (.excmd (posOf env rc) (lineRecord env r0 rc ms rg) s))) ∨
      ∃ cache c ea ra r1 used' hd st1 r2, CmdHead st.neovim env fn used r r0 (Export.exArg fn ea) c ra r1 used' ∧
        CacheRel st.neovim cache used' ∧ EaPos env ea r0 ra ∧ ea.cmd = some c ∧ Adv r0 ra ∧ Adv ra r1 ∧ dispatch c.parser = some hd ∧
        Ok env (runHandler hd ea c { st with cache := cache }) r1 st1 r2 ∧ Suf env r2 ∧ Ok env (parseTrail st1) r2 st' r') := by
  rcases ok_oneCmd.1 h with ⟨h, _⟩ | ⟨_, r0', h0', h⟩
  · exact absurd h hn
  obtain rfl := h0.det h0'
  rcases h with ⟨h, _⟩ | ⟨h, _⟩ | ⟨_, _, ms, q1, rg, q2, st1, r3, h3, h4, h5, h6⟩
  · exact absurd h h1
  · exact absurd h h2
  obtain ⟨rc, h7, h8⟩ := ok_command.1 h5
  have hb : Before r r0 ms rg rc := ⟨hn, h0, h1, h2, q1, q2, h3.1, h3.2, h4, h7⟩
  have hs0 : Suf env r0 := h0.adv.suf hs
  refine ⟨ms, rg, rc, hb, ?_⟩
  rcases h8 with ⟨h8, h9⟩ | ⟨h8, h9, c, cache, q3, h10, h11⟩
  · refine .inl ⟨h8, st1, ?_⟩
    rcases h9 with ⟨h9, h10, rfl, rfl⟩ | ⟨h9, h10⟩
    · exact ⟨h6, .inl ⟨h9, h10, rfl⟩⟩
    · rw [ok_modifierRange he hs0 rfl hb.adv] at h10
      obtain ⟨s, h10, rfl, rfl⟩ := h10
      exact ⟨h6, .inr ⟨h9, s, h10, rfl⟩⟩
  · obtain ⟨used', h12, h13⟩ := CmdName.of_ok hc h10
    obtain ⟨b, q4, ra, ea, q5, hd, h14, h15, h16, h17, h18⟩ := ok_commandArgs.1 h11
    obtain ⟨t, h19⟩ := h12.reads
    have hra : Adv r0 ra := by
      refine ((hb.adv.trans h19.adv).trans h14.adv).trans ?_
      rcases h15 with ⟨_, rfl⟩ | ⟨_, h⟩
      · exact Adv.refl _
      · exact h.adv
    have h20 := (ok_options (fn := fn) ((hra.suf hs0).tidy he)).1 h16
    refine .inr ⟨cache, c, ea, ra, q5, used', hd, st1, r3, ⟨ms, rg, rc, q3, b, q4, hb, h8, h9, h12, h14, h15, h20.1⟩, h13,
      ⟨h20.2.linepos, h20.2.argpos⟩, h20.1.cmd, hra, h20.1.adv, h17, h18,
      command_suf he hs0 (fun h => h1 (by rw [h]; exact .inr rfl)) ho h3 h4 h5, h6⟩

/-- One line with a command: from the grammar to the parser. -/
theorem head_complete (he : EnvOK env) (hs : Suf env r) {nv : Bool} {cache : List (Str × Option Cmd)} {used used' : List Str}
    (hc : CacheRel nv cache used) {r0 ra : List Cell} {x : Ast.ExArg} {c : Cmd} (h : CmdHead nv env fn used r r0 x c ra r' used') :
    ∃ cache' ea, CacheRel nv cache' used' ∧ Export.exArg fn ea = x ∧ EaPos env ea r0 ra ∧ ea.cmd = some c ∧ Suf env r0 ∧ Adv r0 ra ∧ Adv ra r' ∧
      ∀ (st : PState), st.neovim = nv → st.cache = cache → ∀ st1 r2 st' r3,
        Ok env (runHandler (byName c.name) ea c { st with cache := cache' }) r' st1 r2 → Ok env (parseTrail st1) r2 st' r3 →
        Ok env (parseOneCmd st) r st' r3 := by
  obtain ⟨ms, rg, rc, q3, b, q4, hb, h8, h9, h12, h14, h15, h16⟩ := h
  have hb' := hb
  obtain ⟨hn, h0, h1, h2, q1, q2, h3, h3', h4, h7⟩ := hb
  have hs0 : Suf env r0 := h0.adv.suf hs
  obtain ⟨cache', h10, h13⟩ := h12.ok (env := env) hc
  obtain ⟨t, h19⟩ := h12.reads
  have hra : Adv r0 ra := by
    refine ((hb'.adv.trans h19.adv).trans h14.adv).trans ?_
    rcases h15 with ⟨_, rfl⟩ | ⟨_, h⟩
    · exact Adv.refl _
    · exact h.adv
  have hk : KeepX (Export.exArg fn (argRecord (lineRecord env r0 rc ms rg) c b (posOf env ra))) x := h16.keep
  have hx := withPos_ex hk
  have h20 := (ok_options (fn := fn) (env := env) (r' := r') (c := c) (ea := argRecord (lineRecord env r0 rc ms rg) c b (posOf env ra))
    (ea' := withPos (argRecord (lineRecord env r0 rc ms rg) c b (posOf env ra)) x) ((hra.suf hs0).tidy he)).2
    ⟨by rw [hx]; exact h16, withPos_keep _ _⟩
  refine ⟨cache', _, h13, hx, ⟨rfl, rfl⟩, ?_, hs0, hra, h16.adv, ?_⟩
  · have := h16.cmd
    rw [← hx] at this
    exact this
  · rintro st rfl rfl st1 r2 st' r3 h21 h22
    refine ok_oneCmd.2 (.inr ⟨hn, r0, h0, .inr (.inr ⟨h1, h2, ms, q1, rg, q2, st1, r2, ⟨h3, h3'⟩, h4, ?_, h22⟩)⟩)
    refine ok_command.2 ⟨rc, h7, .inr ⟨h8, h9, c, cache', q3, h10, ?_⟩⟩
    exact ok_commandArgs.2 ⟨b, q4, ra, _, _, _, h14, h15, h20, h12.dispatch, h21⟩

end
end Viml
