/-
Runs of the command parser from states that differ only in the option and the lookup cache.
-/
import Verif.Lemmas.Lookup

namespace Viml
open Prog Spec

def Res.map {α β : Type} (f : α → β) : Res α → Res β
  | .ok a r => .ok (f a) r
  | .fail e => .fail e

section
variable {T : Env → List Cell → Res Token} {env : Env}

theorem run_map {α β : Type} (m : Prog α) (f : α → β) (r : List Cell) :
    (m >>= fun s => pure (f s)).runWith T env r = (m.runWith T env r).map f := by
  rw [runWith_bind]
  cases m.runWith T env r <;> rfl

theorem run_ok {α β : Type} {m : Prog α} {f : α → Prog β} {r r' : List Cell} {a : α}
    (h : m.runWith T env r = .ok a r') : (m >>= f).runWith T env r = (f a).runWith T env r' := by
  rw [runWith_bind, h]

theorem run_err {α β : Type} {m : Prog α} {f : α → Prog β} {r : List Cell} {e : Fail}
    (h : m.runWith T env r = .fail e) : (m >>= f).runWith T env r = .fail e := by
  rw [runWith_bind, h]

theorem getpos_run (r : List Cell) : getpos.runWith T env r = .ok (posOf env r) r := by cases r <;> rfl

theorem swap_self (st : PState) : st.swap st.neovim st.cache = st := rfl
theorem swap_swap (st : PState) (x x' : Bool) (y y' : List (Str × Option Cmd)) :
    (st.swap x y).swap x' y' = st.swap x' y' := rfl

/-- Blanks and colons are skipped. -/
abbrev skipWC (r : List Cell) : List Cell := (spanS (fun c => iswhite c || c == ':') r).2

/-- Two runs that differ only in option and cache: `cc` and `cc'` are the caches in the end. -/
def Twin (a b : Res PState) (x x' : Bool) (cc cc' : List (Str × Option Cmd)) : Prop :=
  ∃ res : Res PState, a = res.map (·.swap x cc) ∧ b = res.map (·.swap x' cc')

theorem Twin.fail (e : Fail) {x x' : Bool} {cc cc' : List (Str × Option Cmd)} :
    Twin (.fail e) (.fail e) x x' cc cc' := ⟨.fail e, rfl, rfl⟩

theorem Twin.ok (st : PState) (r : List Cell) {x x' : Bool} {cc cc' : List (Str × Option Cmd)} :
    Twin (.ok (st.swap x cc) r) (.ok (st.swap x' cc') r) x x' cc cc' := ⟨.ok st r, rfl, rfl⟩

/-- Programs that commute with changing option and cache. -/
def Comm (f : PState → Prog PState) : Prop :=
  ∀ st x y, f (st.swap x y) = f st >>= fun s => pure (s.swap x y)

theorem Comm.twin {f : PState → Prog PState} (hf : Comm f) (st : PState) (r : List Cell) {x x' : Bool}
    {cc cc' : List (Str × Option Cmd)} :
    Twin ((f (st.swap x cc)).runWith T env r) ((f (st.swap x' cc')).runWith T env r) x x' cc cc' :=
  ⟨(f st).runWith T env r, by rw [hf, run_map], by rw [hf, run_map]⟩

theorem Twin.bind {m m' : Prog PState} {f : PState → Prog PState} (hf : Comm f) {r : List Cell} {x x' : Bool}
    {cc cc' : List (Str × Option Cmd)} (h : Twin (m.runWith T env r) (m'.runWith T env r) x x' cc cc') :
    Twin ((m >>= f).runWith T env r) ((m' >>= f).runWith T env r) x x' cc cc' := by
  obtain ⟨res, h1, h2⟩ := h
  cases res with
  | fail e => rw [run_err h1, run_err h2]; exact .fail e
  | ok st r' => rw [run_ok h1, run_ok h2]; exact hf.twin st r'

/-- The lookups find the same command and leave caches in the relation `R`. -/
def SameFind (T : Env → List Cell → Res Token) (env : Env) (R : List (Str × Option Cmd) → List (Str × Option Cmd) → Prop)
    (a b : Prog (Option Cmd × List (Str × Option Cmd))) (r : List Cell) : Prop :=
  ∃ c c1 c2 r', a.runWith T env r = .ok (c, c1) r' ∧ b.runWith T env r = .ok (c, c2) r' ∧ R c1 c2

/-- There is something to look up. -/
def HasName (rc : List Cell) : Prop := (getnS 1 rc).1 ≠ [] ∧ (getnS 1 rc).1 ≠ cs!"\""

theorem parseCommand_twin {R : List (Str × Option Cmd) → List (Str × Option Cmd) → Prop}
    {ea : ExArg} {st : PState} {x : Bool} {y : List (Str × Option Cmd)} {r : List Cell} (hR : R st.cache y)
    (h : HasName (skipWC r) → SameFind T env R (findCommand st.neovim st.cache) (findCommand x y) (skipWC r)) :
    ∃ cc cc', R cc cc' ∧
      Twin ((parseCommand ea st).runWith T env r) ((parseCommand ea (st.swap x y)).runWith T env r)
        st.neovim x cc cc' := by
  unfold parseCommand
  have e1 : skipWhiteAndColon.runWith T env r = .ok () (skipWC r) := rfl
  have e2 : (peekn 1).runWith T env (skipWC r) = .ok (getnS 1 (skipWC r)).1 (skipWC r) := rfl
  rw [run_ok e1, run_ok e1, run_ok (getpos_run _), run_ok (getpos_run _), run_ok e2, run_ok e2]
  by_cases hc : (getnS 1 (skipWC r)).1 = [] ∨ (getnS 1 (skipWC r)).1 = cs!"\""
  · rw [if_pos hc, if_pos hc]
    refine ⟨_, _, hR, ?_⟩
    split
    · exact Comm.twin (fun st x y => swap_cmdModifierRange st x y _) st _
    · exact .ok st _
  · obtain ⟨c, c1, c2, r', h1, h2, h3⟩ := h ⟨fun h => hc (.inl h), fun h => hc (.inr h)⟩
    rw [if_neg hc, if_neg hc]
    refine ⟨_, _, h3, ?_⟩
    rw [run_ok h1, run_ok (show (findCommand (st.swap x y).neovim (st.swap x y).cache).runWith T env _ = _ from h2)]
    cases c with
    | none =>
      simp only
      exact .fail _
    | some c =>
      exact Comm.twin (f := parseCommandArgs _ c) (fun st x y => swap_parseCommandArgs st x y _ _) st _

end

/-- The command line at `r` has a command name, which is at `rc`: after blanks and colons, modifiers, the range,
and blanks and colons again. -/
def CmdPlace (env : Env) (r rc : List Cell) : Prop :=
  (getnS 2 r).1 ≠ cs!"#!" ∧ HasName (skipWC r) ∧
  ∃ ms r1 rg r2, parseModifiers.run env (skipWC r) = .ok ms r1 ∧ parseRange.run env r1 = .ok rg r2 ∧
    rc = skipWC r2 ∧ HasName rc

theorem parseOneCmd_twin {env : Env} {R : List (Str × Option Cmd) → List (Str × Option Cmd) → Prop}
    {st : PState} {x : Bool} {y : List (Str × Option Cmd)} {r : List Cell} (hR : R st.cache y)
    (h : ∀ rc, CmdPlace env r rc →
      SameFind tokGet env R (findCommand st.neovim st.cache) (findCommand x y) rc) :
    ∃ cc cc', R cc cc' ∧
      Twin ((parseOneCmd st).run env r) ((parseOneCmd (st.swap x y)).run env r) st.neovim x cc cc' := by
  unfold parseOneCmd Prog.run
  have e0 : (peekn 2).runWith tokGet env r = .ok (getnS 2 r).1 r := rfl
  rw [run_ok e0, run_ok e0]
  by_cases h0 : (getnS 2 r).1 = cs!"#!"
  · rw [if_pos h0, if_pos h0]
    exact ⟨_, _, hR, Comm.twin (f := fun st => getline >>= fun _ => get >>= fun _ => pure st)
      (fun st x y => by swap_simp []) st r⟩
  rw [if_neg h0, if_neg h0]
  have e1 : skipWhiteAndColon.runWith tokGet env r = .ok () (skipWC r) := rfl
  have e2 : (peekn 1).runWith tokGet env (skipWC r) = .ok (getnS 1 (skipWC r)).1 (skipWC r) := rfl
  rw [run_ok e1, run_ok e1, run_ok e2, run_ok e2]
  by_cases h1 : (getnS 1 (skipWC r)).1 = []
  · rw [if_pos h1, if_pos h1]
    exact ⟨_, _, hR, Comm.twin (f := fun st => get >>= fun _ => pure st)
      (fun st x y => by swap_simp []) st _⟩
  rw [if_neg h1, if_neg h1]
  by_cases h2 : (getnS 1 (skipWC r)).1 = cs!"\""
  · rw [if_pos h2, if_pos h2]
    exact ⟨_, _, hR, Comm.twin (f := fun st => parseComment st >>= fun st => get >>= fun _ => pure st)
      (fun st x y => by swap_simp [swap_parseComment]) st _⟩
  rw [if_neg h2, if_neg h2, run_ok (getpos_run _), run_ok (getpos_run _)]
  cases hm : parseModifiers.runWith tokGet env (skipWC r) with
  | fail e => rw [run_err hm, run_err hm]; exact ⟨_, _, hR, .fail e⟩
  | ok ms r1 =>
    rw [run_ok hm, run_ok hm]
    cases hg : parseRange.runWith tokGet env r1 with
    | fail e => rw [run_err hg, run_err hg]; exact ⟨_, _, hR, .fail e⟩
    | ok rg r2 =>
      rw [run_ok hg, run_ok hg]
      obtain ⟨cc, cc', h3, h4⟩ := parseCommand_twin (T := tokGet) (env := env)
        (ea := { linepos := posOf env (skipWC r), modifiers := ms, range := rg }) (r := r2) hR
        fun hn => h _ ⟨h0, ⟨h1, h2⟩, ms, r1, rg, r2, hm, hg, rfl, hn⟩
      exact ⟨cc, cc', h3, h4.bind fun st x y => swap_parseTrail st x y⟩

theorem parseCommand_unknown {T : Env → List Cell → Res Token} {env : Env} {ea : ExArg} {st : PState}
    {r r' : List Cell} {c1 : List (Str × Option Cmd)} (he : EnvOK env) (hs : Suf env r) (hn : HasName (skipWC r))
    (h : (findCommand st.neovim st.cache).runWith T env (skipWC r) = .ok (none, c1) r') :
    (parseCommand ea st).runWith T env r =
      .fail (.err (cs!"E492: Not an editor command: " ++ lineS (skipWC r)) (posOf env (skipWC r))) := by
  unfold parseCommand
  have e1 : skipWhiteAndColon.runWith T env r = .ok () (skipWC r) := rfl
  have e2 : (peekn 1).runWith T env (skipWC r) = .ok (getnS 1 (skipWC r)).1 (skipWC r) := rfl
  rw [run_ok e1, run_ok (getpos_run _), run_ok e2, if_neg (by rintro (h | h); exact hn.1 h; exact hn.2 h), run_ok h]
  simp only
  have e3 : (setpos (posOf env (skipWC r))).runWith T env r' = .ok () (skipWC r) := by
    show Res.ok () (env.buf.drop (posOf env (skipWC r)).i) = _
    rw [((spanS_adv _ r).suf hs).drop_pos he]
  have e4 : peekline.runWith T env (skipWC r) = .ok (lineS (skipWC r)) (skipWC r) := rfl
  rw [run_ok e3, run_ok e4]
  rfl

theorem parseOneCmd_unknown {env : Env} {st : PState} {r rc r' : List Cell} {c1 : List (Str × Option Cmd)}
    (he : EnvOK env) (hs : Suf env r) (hp : CmdPlace env r rc)
    (h : (findCommand st.neovim st.cache).run env rc = .ok (none, c1) r') :
    (parseOneCmd st).run env r =
      .fail (.err (cs!"E492: Not an editor command: " ++ lineS rc) (posOf env rc)) := by
  obtain ⟨h0, ⟨h1, h2⟩, ms, r1, rg, r2, hm, hg, rfl, hn⟩ := hp
  unfold parseOneCmd Prog.run
  have e0 : (peekn 2).runWith tokGet env r = .ok (getnS 2 r).1 r := rfl
  have e1 : skipWhiteAndColon.runWith tokGet env r = .ok () (skipWC r) := rfl
  have e2 : (peekn 1).runWith tokGet env (skipWC r) = .ok (getnS 1 (skipWC r)).1 (skipWC r) := rfl
  rw [run_ok e0, if_neg h0, run_ok e1, run_ok e2, if_neg h1, if_neg h2, run_ok (getpos_run _), run_ok hm, run_ok hg]
  have s1 := (spanS_adv (fun c => iswhite c || c == ':') r).suf hs
  have s2 := (wp_run (parseModifiers_spec s1) hm).2.suf s1
  obtain ⟨v, hv, _⟩ := wp_run (parseRange_spec he s2) hg
  exact run_err (parseCommand_unknown he (hv.adv.suf s2) hn h)

/-! ### Lines without modifiers and range -/

theorem run_of_wp {α : Type} {T : Env → List Cell → Res Token} {env : Env} {m : Prog α} {r r' : List Cell} {a : α}
    (h : wp T env m r (fun x y => x = a ∧ y = r') (fun _ => False)) : m.runWith T env r = .ok a r' := by
  unfold wp at h
  cases hr : m.runWith T env r with
  | ok x y => rw [hr] at h; rw [h.1, h.2]
  | fail e => rw [hr] at h; exact h.elim

theorem spanS_not {f : Char → Bool} {r : List Cell} {c : Char} (h : headSym r = .ch c) (hf : f c = false) :
    spanS f r = ([], r) := by
  have := spanS_of_reads (f := f) (Reads.nil r) (by simp) (by rw [h]; exact hf)
  exact this

theorem peek1_ch {r : List Cell} {c : Char} (h : headSym r = .ch c) : (getnS 1 r).1 = [c] := by
  rcases peek1 r with ⟨d, h1, h2⟩ | ⟨h1 | h1, _⟩
  · rw [h] at h1; cases h1; rw [h2]
  · rw [h] at h1; cases h1
  · rw [h] at h1; cases h1

/-- A letter is no range. -/
theorem parseRange_letter {T : Env → List Cell → Res Token} {env : Env} {r : List Cell} {c : Char}
    (h : headSym r = .ch c) (hc : isalpha c = true) : parseRange.runWith T env r = .ok [] r := by
  have hw : iswhite c = false := alpha_not_white hc
  have hdg : isdigit c = false := alpha_not_digit hc
  have p1 := peek1_ch h
  have hnot : ∀ d, isalpha d = false → ¬ [c] = [d] := by
    intro d hd he
    cases he
    rw [hc] at hd; cases hd
  have hne : r ≠ [] := by rintro rfl; cases h
  apply run_of_wp
  unfold parseRange
  refine wp_loop (fun ts r1 => ts = [] ∧ r1 = r) ⟨rfl, rfl⟩ ?_
  rintro ts r1 ⟨rfl, rfl⟩
  refine wp_call (P := fun ts x => ts = [] ∧ x = r1) ?_ ?_
  · unfold rangeInner
    refine wp_loop (fun ts r2 => ts = [] ∧ r2 = r1) ⟨rfl, rfl⟩ ?_
    rintro ts r2 ⟨rfl, rfl⟩
    refine wp_bind (wp_skipWhite (wp_bind (wp_peekn ?_)))
    rw [spanS_not h hw, p1]
    refine wp_ite (fun he => by cases he) (fun _ => ?_)
    refine wp_call (P := fun o x => o = some [] ∧ x = r2) ?_ ?_
    · unfold rangeAtom
      refine wp_ite (fun he => ?_) (fun _ => ?_)
      · rcases he with he | he <;> exact absurd he (hnot _ (by decide))
      refine wp_ite (fun he => absurd he (hnot _ (by decide))) (fun _ => ?_)
      refine wp_ite (fun he => ?_) (fun _ => ?_)
      · rcases he with he | he <;> exact absurd he (hnot _ (by decide))
      refine wp_ite (fun he => absurd he (hnot _ (by decide))) (fun _ => ?_)
      refine wp_ite (fun he => ?_) (fun _ => wp_pure ⟨rfl, rfl⟩)
      simp [is1, hdg] at he
    · rintro o x ⟨rfl, rfl⟩
      refine wp_call (P := fun ts y => ts = [] ∧ y = x) ?_ ?_
      · unfold rangeInts
        refine wp_loop (fun ts r3 => ts = [] ∧ r3 = x) ⟨rfl, rfl⟩ ?_
        rintro ts r3 ⟨rfl, rfl⟩
        refine wp_bind (wp_skipWhite (wp_bind (wp_peekn ?_)))
        rw [spanS_not h hw, p1]
        refine wp_ite (fun he => by cases he) (fun _ => ?_)
        refine wp_call (P := fun n y => n = [] ∧ y = r3) ?_ ?_
        · unfold readInteger
          refine wp_bind (wp_peekn ?_)
          rw [p1]
          refine wp_ite (fun he => ?_) (fun _ => ?_)
          · rcases he with he | he <;> exact absurd he (hnot _ (by decide))
          · refine wp_readWhile ?_
            rw [spanS_not h hdg]
            exact ⟨rfl, rfl⟩
        · rintro n y ⟨rfl, rfl⟩
          exact wp_ite (fun _ => wp_pure ⟨rfl, rfl⟩) (fun h => absurd rfl h)
      · rintro ts y ⟨rfl, rfl⟩
        refine wp_bind (wp_p (.inr (List.length_pos_iff.2 hne)) ?_)
        rw [symAt_zero, h]
        refine wp_ite (fun _ => wp_pure ⟨rfl, rfl⟩) (fun hx => ?_)
        exfalso
        apply hx
        constructor <;> (intro he; cases he; exact absurd hc (by decide))
  · rintro ts x ⟨rfl, rfl⟩
    refine wp_bind (wp_peekn ?_)
    rw [p1]
    have n1 : ¬ ([c] = cs!"%" ∨ [c] = cs!"*") := by
      rintro (he | he) <;> exact absurd he (hnot _ (by decide))
    have n2 : ¬ ([c] = cs!";" ∨ [c] = cs!",") := by
      rintro (he | he) <;> exact absurd he (hnot _ (by decide))
    rw [if_neg n1]
    refine wp_bind (wp_pure (wp_bind (wp_peekn ?_)))
    rw [p1, if_neg n2]
    exact wp_pure ⟨rfl, rfl⟩

/-- A word that abbreviates no modifier is none. -/
theorem parseModifiers_word {T : Env → List Cell → Res Token} {env : Env} {r : List Cell} {c : Char}
    (h : headSym r = .ch c) (hc : isalpha c = true) (hm : findModifier (spanS isalpha r).1 = none) :
    parseModifiers.runWith T env r = .ok [] r := by
  apply run_of_wp
  unfold parseModifiers
  refine wp_loop (fun ts r1 => ts = [] ∧ r1 = r) ⟨rfl, rfl⟩ ?_
  rintro ts r1 ⟨rfl, rfl⟩
  refine wp_bind (wp_tell (wp_bind (wp_peekn ?_)))
  rw [peek1_is, h, if_neg (show ¬ (Sym.ch c).is isdigit = true by simp [Sym.is, alpha_not_digit hc])]
  refine wp_bind (wp_pure (wp_bind (wp_readWhile (wp_bind (wp_peekn (wp_bind (wp_skipWhite ?_)))))))
  rw [hm]
  exact wp_bind (wp_seekSet (wp_pure ⟨rfl, rfl⟩))

theorem cmdPlace_word {env : Env} {r : List Cell} {c : Char} (h0 : (getnS 2 r).1 ≠ cs!"#!")
    (h : headSym (skipWC r) = .ch c) (hc : isalpha c = true)
    (hm : findModifier (spanS isalpha (skipWC r)).1 = none) : CmdPlace env r (skipWC r) := by
  have hn : HasName (skipWC r) := by
    unfold HasName
    rw [peek1_ch h]
    refine ⟨by simp, ?_⟩
    intro he
    cases he
    exact absurd hc (by decide)
  have hs : skipWC (skipWC r) = skipWC r := by
    have : (fun c => iswhite c || c == ':') c = false := by
      simp only [alpha_not_white hc, Bool.false_or]
      cases hcc : c == ':' with
      | false => rfl
      | true =>
        simp only [beq_iff_eq] at hcc
        subst hcc
        exact absurd hc (by decide)
    show (spanS _ _).2 = _
    rw [spanS_not h this]
  exact ⟨h0, hn, [], _, [], _, parseModifiers_word h hc hm, parseRange_letter h hc, hs.symm, hn⟩

end Viml
