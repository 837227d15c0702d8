/-
Numbers out of range in a command line and in a file.
-/
import Verif.Spec.NumError
import Verif.Lemmas.NoNum

namespace Viml
open Prog Spec

/-- The program stops at a number out of range. -/
def Num {α : Type} (env : Env) (m : Prog α) (r : List Cell) : Prop := m.runWith tokGet env r = .fail .num

section
variable {env : Env} {fn : Str} {r r' : List Cell} {st st' : PState} {ea : ExArg} {c : Cmd} {r0 ra : List Cell} {α β : Type}

theorem num_nn {m : Prog α} [h : NN m] : Num env m r ↔ False := by
  constructor
  · intro hb
    exact avoids_run h.h (fun h => h) hb rfl
  · exact False.elim

theorem num_bind {m : Prog α} {f : α → Prog β} :
    Num env (m >>= f) r ↔ Num env m r ∨ ∃ a r1, Ok env m r a r1 ∧ Num env (f a) r1 := by
  unfold Num Ok
  rw [runWith_bind]
  cases h : m.runWith tokGet env r with
  | ok a r1 =>
    constructor
    · intro h1
      exact .inr ⟨a, r1, rfl, h1⟩
    · rintro (h1 | ⟨_, _, h1, h2⟩)
      · cases h1
      · cases h1; exact h2
  | fail e => simp

theorem num_step {m : Prog α} [NN m] {f : α → Prog β} :
    Num env (m >>= f) r ↔ ∃ a r1, Ok env m r a r1 ∧ Num env (f a) r1 := by
  rw [num_bind, num_nn, false_or]

theorem num_ite {c : Prop} [Decidable c] {m n : Prog α} :
    Num env (if c then m else n) r ↔ c ∧ Num env m r ∨ ¬ c ∧ Num env n r := by
  by_cases h : c
  · simp [h]
  · simp [h]

theorem numb_getpos {f : Pos → Prog β} : Num env (getpos >>= f) r ↔ Num env (f (posOf env r)) r := by
  cases r <;> exact Iff.rfl
theorem numb_peekn {n : Nat} {f : Str → Prog β} : Num env (peekn n >>= f) r ↔ Num env (f (getnS n r).1) r := Iff.rfl
theorem numb_skipWhite {f : Unit → Prog β} : Num env (skipWhite >>= f) r ↔ ∃ r1, Skip r r1 ∧ Num env (f ()) r1 := by
  haveI : NN skipWhite := ⟨avoids_skipWhite⟩
  rw [num_step]
  constructor
  · rintro ⟨a, r1, h1, h2⟩
    exact ⟨r1, ok_skipWhite.1 h1, h2⟩
  · rintro ⟨r1, h1, h2⟩
    exact ⟨(), r1, ok_skipWhite.2 h1, h2⟩
theorem numb_skipWC {f : Unit → Prog β} : Num env (skipWhiteAndColon >>= f) r ↔ ∃ r1, SkipC r r1 ∧ Num env (f ()) r1 := by
  haveI : NN skipWhiteAndColon := ⟨avoids_skipWC⟩
  rw [num_step]
  constructor
  · rintro ⟨a, r1, h1, h2⟩
    exact ⟨r1, ok_skipWC.1 h1, h2⟩
  · rintro ⟨r1, h1, h2⟩
    exact ⟨(), r1, ok_skipWC.2 h1, h2⟩

/-! ### The two places with numbers -/

theorem mods_total : ∀ (n : Nat) (r : List Cell), r.length ≤ n → ∃ ms r', Mods r ms r' := by
  intro n
  induction n with
  | zero =>
    intro r hr
    refine ⟨[], r, .nil fun m r' h => ?_⟩
    have := h.sadv.2
    omega
  | succ n ih =>
    intro r hr
    by_cases h : ∃ m r1, ModAt r m r1
    · obtain ⟨m, r1, h⟩ := h
      by_cases hb : BareHide r r1
      · exact ⟨_, _, .hide hb⟩
      · obtain ⟨ms, r', h1⟩ := ih r1 (by have := h.sadv.2; omega)
        exact ⟨_, _, .cons h hb h1⟩
    · exact ⟨[], r, .nil fun m r' h1 => h ⟨m, r', h1⟩⟩

theorem num_mods (hs : Suf env r) : Num env parseModifiers r ↔ ∃ ms r1, Mods r ms r1 ∧ ¬ CountsOK ms := by
  constructor
  · intro h
    obtain ⟨ms, r1, h1⟩ := mods_total _ r (Nat.le_refl _)
    refine ⟨ms, r1, h1, fun h2 => ?_⟩
    have := (ok_mods (env := env)).2 ⟨h1, h2⟩
    unfold Ok at this
    rw [show _ = _ from h] at this
    cases this
  · rintro ⟨ms, r1, h1, h2⟩
    cases h : parseModifiers.runWith tokGet env r with
    | ok ns r2 =>
      obtain ⟨h3, h4⟩ := (ok_mods (env := env)).1 h
      obtain ⟨rfl, _⟩ := h1.unique h3
      exact absurd h4 h2
    | fail e =>
      have hf := wp_runF (parseModifiers_spec hs) h
      cases e with
      | err m q => exact (avoids_mods.noBad.1 h).elim
      | num => exact h
      | crash => exact hf.elim
      | fuel => exact hf.elim

theorem num_str2nr {s : Str} : Num env (str2nr s) r ↔ 2147483648 ≤ decVal s := by
  unfold str2nr
  rw [num_ite]
  constructor
  · rintro (⟨_, h⟩ | ⟨h, _⟩)
    · cases h
    · exact Nat.le_of_not_lt h
  · intro h
    exact .inr ⟨Nat.not_lt_of_le h, rfl⟩

theorem num_depth : Num env parseDepth r ↔ ∃ r1 d r2, Skip r r1 ∧ Span isdigit r1 d r2 ∧ 2147483648 ≤ decVal d := by
  unfold parseDepth
  rw [numb_skipWhite]
  refine exists_congr fun r1 => ?_
  rw [numb_peekn, get1_is1, num_ite, num_step]
  constructor
  · rintro ⟨h1, ⟨h2, d, r2, h3, h4⟩ | ⟨_, h⟩⟩
    · unfold readDigit at h3
      exact ⟨d, r2, h1, ok_readWhile.1 h3, num_str2nr.1 h4⟩
    · cases h
  · rintro ⟨d, r2, h1, h2, h3⟩
    refine ⟨h1, .inl ⟨?_, d, r2, ok_readWhile.2 h2, num_str2nr.2 h3⟩⟩
    cases d with
    | nil => exact absurd h3 (by decide)
    | cons c d =>
      rw [h2.1.head]
      exact h2.2.1 c (by simp)

/-! ### A command line -/

instance nn_options : NN (parseOptions c ea) := by unfold parseOptions; nn
instance nn_modifierIf {x : Prop} [Decidable x] : NN (if x then cmdModifierRange ea st else pure st) := by nn

theorem num_handler : Num env (runHandler (byName c.name) ea c st) r ↔
    (c.name = cs!"lockvar" ∨ c.name = cs!"unlockvar") ∧ Num env parseDepth r := by
  have key : ∀ {g : Nat → List VExpr → PState},
      Num env (parseDepth >>= fun d => parseLvaluelist >>= fun l => pure (g d l)) r ↔ Num env parseDepth r := by
    intro g
    haveI : ∀ d, NN (parseLvaluelist >>= fun l => pure (g d l)) := fun d => by nn
    rw [num_bind]
    simp only [num_nn, and_false, exists_false, or_false]
  constructor
  · intro h
    generalize hd : byName c.name = hh at h
    have name : ∀ {l : Str}, hh ≠ .common → (nameTable.all fun x => decide (x.2 = hh → x.1 = l)) = true → c.name = l := by
      intro l h2 h3
      exact of_decide_eq_true (List.all_eq_true.1 h3 _ (byName_mem hd h2)) rfl
    cases hh
    case lockvar => exact ⟨.inl (name (by decide) (by decide +kernel)), key.1 h⟩
    case unlockvar => exact ⟨.inr (name (by decide) (by decide +kernel)), key.1 h⟩
    all_goals
      unfold runHandler at h
      exact (num_nn.1 h).elim
  · rintro ⟨h | h, h1⟩
    · rw [h, (by decide +kernel : byName cs!"lockvar" = .lockvar)]; exact key.2 h1
    · rw [h, (by decide +kernel : byName cs!"unlockvar" = .unlockvar)]; exact key.2 h1

theorem num_restArgs (hd : dispatch c.parser = some (byName c.name)) : Num env (restArgs ea c st) r ↔
    ∃ ea1 r2, Ok env (parseOptions c { ea with argpos := some (posOf env r) }) r ea1 r2 ∧
        Num env (runHandler (byName c.name) ea1 c st) r2 := by
  unfold restArgs
  rw [numb_getpos, hd, num_step]

theorem num_commandArgs (hd : dispatch c.parser = some (byName c.name)) : Num env (parseCommandArgs ea c st) r ↔
    ∃ b r1 ra, Bang c r b r1 ∧ (c.name = cs!"!" ∧ ra = r1 ∨ c.name ≠ cs!"!" ∧ Skip r1 ra) ∧
      ∃ ea1 r2, Ok env (parseOptions c (argRecord ea c b (posOf env ra))) ra ea1 r2 ∧
          Num env (runHandler (byName c.name) ea1 c st) r2 := by
  rw [commandArgs_eq, num_step]
  constructor
  · rintro ⟨b, r1, h1, h⟩
    rw [num_ite] at h
    rcases h with ⟨h2, h⟩ | ⟨h2, h⟩
    · cases h
    · have h3 := ok_bang.1 ⟨h1, by simpa using h2⟩
      rw [num_ite, numb_skipWhite] at h
      rcases h with ⟨h4, ra, h5, h⟩ | ⟨h4, h⟩
      · have h := (num_restArgs hd).1 h
        exact ⟨b, r1, ra, h3, .inr ⟨h4, h5⟩, h⟩
      · have h := (num_restArgs hd).1 h
        exact ⟨b, r1, r1, h3, .inl ⟨Classical.not_not.1 h4, rfl⟩, h⟩
  · rintro ⟨b, r1, ra, h1, h2, h⟩
    obtain ⟨h3, h4⟩ := ok_bang.2 h1
    refine ⟨b, r1, h3, ?_⟩
    rw [h4, if_neg (by simp)]
    rcases h2 with ⟨h2, rfl⟩ | ⟨h2, h5⟩
    · rw [if_neg (by simpa using h2)]
      exact (num_restArgs hd).2 h
    · rw [if_pos h2, numb_skipWhite]
      exact ⟨ra, h5, (num_restArgs hd).2 h⟩

theorem num_command : Num env (parseCommand ea st) r ↔ ∃ rc, SkipC r rc ∧ ¬ AtEnd rc ∧ headSym rc ≠ .ch '"' ∧
      ∃ c cache r1, Ok env (findCommand st.neovim st.cache) rc (some c, cache) r1 ∧
        Num env (parseCommandArgs { ea with cmdpos := posOf env rc } c { st with cache := cache }) r1 := by
  unfold parseCommand
  rw [numb_skipWC]
  refine exists_congr fun rc => and_congr_right fun h1 => ?_
  rw [numb_getpos, numb_peekn, num_ite, get1_nil, get1_ch, num_nn, and_false, false_or, not_or, and_assoc]
  refine and_congr_right fun h2 => and_congr_right fun h3 => ?_
  rw [num_step]
  constructor
  · rintro ⟨⟨c, cache⟩, r1, h4, h⟩
    cases c with
    | some c => exact ⟨c, cache, r1, h4, h⟩
    | none =>
      dsimp only at h
      cases h
  · rintro ⟨c, cache, r1, h4, h⟩
    exact ⟨_, r1, h4, h⟩

theorem num_oneCmd (hs : Suf env r) : Num env (parseOneCmd st) r ↔
    ¬ StartsWith r cs!"#!" ∧ ∃ r0, SkipC r r0 ∧ ¬ AtEnd r0 ∧ headSym r0 ≠ .ch '"' ∧
      ((∃ ms r1, Mods r0 ms r1 ∧ ¬ CountsOK ms) ∨ ∃ ms r1, (Mods r0 ms r1 ∧ CountsOK ms) ∧
      ∃ rg r2, Range r1 rg r2 ∧
        Num env (parseCommand { linepos := posOf env r0, modifiers := ms, range := rg } st) r2) := by
  unfold parseOneCmd
  rw [numb_peekn, num_ite, peekn_eq (n := 2) (v := cs!"#!") rfl]
  haveI : NN (getline >>= fun _ => get >>= fun _ => pure st) := by nn
  rw [num_nn, and_false, false_or]
  refine and_congr_right fun _ => ?_
  rw [numb_skipWC]
  refine exists_congr fun r0 => and_congr_right fun h1 => ?_
  have hs0 := h1.adv.suf hs
  rw [numb_peekn, num_ite, num_ite, get1_nil, get1_ch]
  haveI : NN (get >>= fun _ => pure st) := by nn
  haveI : NN (parseComment st >>= fun st => get >>= fun _ => pure st) := by nn
  rw [num_nn, num_nn, and_false, false_or, and_false, false_or]
  refine and_congr_right fun h2 => ?_
  refine and_congr_right fun h3 => ?_
  rw [numb_getpos, num_bind, num_mods hs0]
  refine or_congr Iff.rfl ?_
  refine exists_congr fun ms => exists_congr fun r1 => ?_
  rw [ok_mods]
  refine and_congr_right fun h4 => ?_
  rw [num_step]
  refine exists_congr fun rg => exists_congr fun r2 => ?_
  rw [ok_range]
  refine and_congr_right fun h5 => ?_
  rw [num_bind]
  simp only [num_nn, and_false, exists_false, or_false]

theorem line_num (he : EnvOK env) (hs : Suf env r) {used : List Str} (hc : CacheRel st.neovim st.cache used) :
    Num env (parseOneCmd st) r ↔ LineNum st.neovim env fn used r := by
  rw [num_oneCmd hs]
  constructor
  · rintro ⟨h1, r0, h2, h3, h4, h⟩
    have hs0 := h2.adv.suf hs
    rcases h with ⟨ms, r1, h5, h6⟩ | ⟨ms, r1, h5, rg, r2, h6, h⟩
    · exact .mods h1 h2 h3 h4 h5 h6
    · obtain ⟨rc, h7, h8, h9, c, cache, r3, h10, h⟩ := num_command.1 h
      obtain ⟨used', h11, h12⟩ := CmdName.of_ok hc h10
      obtain ⟨b, r4, ra, g1, g2, ea1, r5, g3, g4⟩ := (num_commandArgs h11.dispatch).1 h
      have bf : Before r r0 ms rg rc := ⟨h1, h2, h3, h4, r1, r2, h5.1, h5.2, h6, h7⟩
      have hra : Adv r0 ra := (bf.adv.trans h11.adv').trans (args_adv g1 g2)
      have k8 := (ok_options (fn := fn) ((hra.suf hs0).tidy he)).1 g3
      obtain ⟨g5, g6⟩ := num_handler.1 g4
      obtain ⟨r6, d, r7, g7, g8, g9⟩ := num_depth.1 g6
      exact .depth ⟨_, ⟨ms, rg, r3, b, r4, ⟨bf, h8, h9, h11⟩, g1, g2, rfl⟩, k8.1⟩ g5 g7 g8 g9
  · intro h
    cases h with
    | mods h1 h2 h3 h4 h5 h6 => exact ⟨h1, _, h2, h3, h4, .inl ⟨_, _, h5, h6⟩⟩
    | @depth r0 rc x c ra r1 used' r2 d r3 hh h1 h2 h3 h4 =>
      obtain ⟨ea0, ⟨ms, rg, q3, b, q4, ⟨hb, k1, k2, k3⟩, h14, h15, rfl⟩, h16⟩ := hh
      have ha := hb.adv
      obtain ⟨g1, g2, g3, g4, q1, q2, g5, g5', g6, g7⟩ := hb
      have hs0 := g2.adv.suf hs
      obtain ⟨cache, k4, k5⟩ := k3.ok (env := env) hc
      have hra : Adv r0 ra := (ha.trans k3.adv').trans (args_adv h14 h15)
      have hk : KeepX (Export.exArg fn (argRecord (lineRecord env r0 rc ms rg) c b (posOf env ra))) x := h16.keep
      have hx := withPos_ex hk
      have h20 := (ok_options (fn := fn) (env := env) (r' := r1) (c := c) (ea := argRecord (lineRecord env r0 rc ms rg) c b (posOf env ra))
        (ea' := withPos (argRecord (lineRecord env r0 rc ms rg) c b (posOf env ra)) x) ((hra.suf hs0).tidy he)).2
        ⟨by rw [hx]; exact h16, withPos_keep _ _⟩
      refine ⟨g1, r0, g2, g3, g4, .inr ⟨ms, q1, ⟨g5, g5'⟩, rg, q2, g6, ?_⟩⟩
      refine num_command.2 ⟨rc, g7, k1, k2, c, cache, q3, k4, ?_⟩
      refine (num_commandArgs k3.dispatch).2 ⟨b, q4, ra, h14, h15, _, _, h20, ?_⟩
      exact num_handler.2 ⟨h1, num_depth.2 ⟨_, _, _, h2, h3, h4⟩⟩

end

/-! ### Files -/

section
variable {nv : Bool} {fn : Str} {lines : List Str}

theorem file_num : (parseToplevel nv).run (mkEnv lines) (mkEnv lines).buf = .fail .num ↔ NumErr nv (mkEnv lines) fn := by
  have he := mkEnv_ok lines
  rw [toplevel_fail]
  constructor
  · rintro (⟨st, r, h1, h2, h3⟩ | ⟨st, m, b, h1, h2, h3, h4⟩)
    · obtain ⟨cx, used, k1, k2⟩ := reach_cur (fn := fn) h1
      obtain ⟨ho, hs⟩ := h1.ok
      have hn := h1.neovim
      subst hn
      exact .line (cur_front k1) ((line_num (fn := fn) he hs k2).1 h3)
    · cases h4
  · rintro ⟨h1, h2⟩
    obtain ⟨f, fs, ⟨cache, hc, hr⟩, rfl, rfl⟩ := front_run h1
    obtain ⟨ho, hs⟩ := hr.ok
    have h3 := (line_num (st := ⟨nv, f, fs, cache⟩) he hs hc).2 h2
    refine .inl ⟨_, _, hr, ?_, h3⟩
    rintro rfl
    obtain ⟨_, r0, h4, h5, _⟩ := (num_oneCmd hs).1 h3
    have := h4.adv.length
    obtain rfl : r0 = [] := List.length_eq_zero_iff.1 (by simpa using this)
    exact h5 (.inr rfl)

end
end Viml
