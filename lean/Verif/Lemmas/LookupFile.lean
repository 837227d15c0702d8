/-
Runs over whole files from states that differ only in the option and the lookup cache.
-/
import Verif.Lemmas.LookupRun
import Verif.Props.Stmt

namespace Viml
open Prog Spec Props

/-- Body of the main loop. -/
abbrev cmdsBody (st : PState) : Prog (PState ⊕ PState) := do
  if (← peek) = .eof then pure (.inr st)
  else
    let st ← parseOneCmd st
    pure (.inl st)

theorem peek_run {T : Env → List Cell → Res Token} {env : Env} (r : List Cell) :
    peek.runWith T env r = .ok (headSym r) r := by cases r <;> rfl

theorem cmdsBody_run {env : Env} {st : PState} {r : List Cell} (hne : r ≠ []) :
    (cmdsBody st).run env r = ((parseOneCmd st).run env r).map Sum.inl := by
  unfold cmdsBody Prog.run
  rw [run_ok (peek_run r), if_neg, run_map]
  intro h
  exact hne (headSym_eof h)

theorem loopN_step {env : Env} {st : PState} {r : List Cell} {n : Nat} (hne : r ≠ []) :
    (loopN cmdsBody (n + 1) st).run env r =
      match (parseOneCmd st).run env r with
      | .ok st' r' => (loopN cmdsBody n st').run env r'
      | .fail e => .fail e := by
  unfold Prog.run
  rw [loopN, runWith_bind]
  have := cmdsBody_run (env := env) (st := st) hne
  unfold Prog.run at this
  rw [this]
  cases (parseOneCmd st).runWith tokGet env r <;> rfl

theorem loopN_end {env : Env} {st : PState} {n : Nat} : (loopN cmdsBody (n + 1) st).run env [] = .ok st [] := rfl

/-- The number of steps does not matter once it is larger than the rest of the input. -/
theorem loopN_enough {env : Env} (he : EnvOK env) (n : Nat) {m : Nat} {st : PState} {r : List Cell} (ho : st.OK)
    (hs : Suf env r) (hn : r.length < n) (hm : r.length < m) :
    (loopN cmdsBody n st).run env r = (loopN cmdsBody m st).run env r := by
  induction n generalizing m st r with
  | zero => omega
  | succ n ih =>
    obtain ⟨m, rfl⟩ : ∃ k, m = k + 1 := ⟨m - 1, by omega⟩
    by_cases hne : r = []
    · subst hne; rw [loopN_end, loopN_end]
    rw [loopN_step hne, loopN_step hne]
    cases h : (parseOneCmd st).run env r with
    | fail e => rfl
    | ok st' r' =>
      have hw := wp_run (parseOneCmd_spec he (good_closed (fn := []) he) hs hne ho) h
      obtain ⟨bs, hst, _⟩ := hw.steps
      have := hw.lt
      exact ih (hst.ok ho) (hw.suffix.trans hs) (by omega) (by omega)

theorem parseCmds_run {env : Env} {st : PState} {r : List Cell} :
    (parseCmds st).run env r = (loopN cmdsBody (r.length + 1) st).run env r := rfl

theorem parseCmds_step {env : Env} (he : EnvOK env) {st : PState} {r : List Cell} (ho : st.OK)
    (hs : Suf env r) (hne : r ≠ []) : (parseCmds st).run env r =
      match (parseOneCmd st).run env r with
      | .ok st' r' => (parseCmds st').run env r'
      | .fail e => .fail e := by
  rw [parseCmds_run, loopN_step hne]
  cases h : (parseOneCmd st).run env r with
  | fail e => rfl
  | ok st' r' =>
    have hw := wp_run (parseOneCmd_spec he (good_closed (fn := []) he) hs hne ho) h
    obtain ⟨bs, hst, _⟩ := hw.steps
    have := hw.lt
    exact loopN_enough he _ (hst.ok ho) (hw.suffix.trans hs) (by omega) (by omega)

/-- The state before the first command. -/
abbrev st0 (nv : Bool) : PState := { neovim := nv, cur := { head := .toplevel }, stack := [], cache := [] }

theorem Props.Reach.cmds {nv : Bool} {lines : List Str} {st : PState} {r : List Cell} (h : Reach nv lines st r) :
    (parseCmds st).run (mkEnv lines) r = (parseCmds (st0 nv)).run (mkEnv lines) (mkEnv lines).buf := by
  induction h with
  | start => rfl
  | next h1 hne h ih =>
    obtain ⟨ho, hs⟩ := h1.ok
    rw [← ih, parseCmds_step (mkEnv_ok lines) ho hs hne, h]

/-- What is left to do after the commands. -/
def finishTop (q : Pos) (st : PState) : Prog VFile := do
  let e ← getpos
  checkMissingEndfunction st cs!"TOPLEVEL" e
  checkMissingEndif st cs!"TOPLEVEL" e
  checkMissingEndtry st cs!"TOPLEVEL" e
  checkMissingEndwhile st cs!"TOPLEVEL" e
  checkMissingEndfor st cs!"TOPLEVEL" e
  pure ⟨q, (collapse st.cur st.stack).body⟩

theorem parseToplevel_run {env : Env} {nv : Bool} {r : List Cell} : (parseToplevel nv).run env r =
    match (parseCmds (st0 nv)).run env r with
    | .ok st r' => (finishTop (posOf env r) st).run env r'
    | .fail e => .fail e := by
  unfold parseToplevel Prog.run
  rw [run_ok (getpos_run r), runWith_bind]
  cases (parseCmds (st0 nv)).runWith tokGet env r <;> rfl

/-- An error in a command is the result of the parser. -/
theorem Props.Reach.fail {nv : Bool} {lines : List Str} {st : PState} {r : List Cell} {e : Fail}
    (h : Reach nv lines st r) (hne : r ≠ []) (hf : (parseOneCmd st).run (mkEnv lines) r = .fail e) :
    (parseToplevel nv).run (mkEnv lines) (mkEnv lines).buf = .fail e := by
  obtain ⟨ho, hs⟩ := h.ok
  rw [parseToplevel_run, ← h.cmds, parseCmds_step (mkEnv_ok lines) ho hs hne, hf]

theorem swap_ok {st : PState} {x : Bool} {y : List (Str × Option Cmd)} (h : st.OK) (hy : CacheOK x y) :
    (st.swap x y).OK := ⟨h.stack, hy⟩

theorem finishTop_swap {env : Env} {q : Pos} {st : PState} {x : Bool} {y : List (Str × Option Cmd)} {r : List Cell} :
    (finishTop q (st.swap x y)).run env r = (finishTop q st).run env r := rfl

theorem findCommand_total {T : Env → List Cell → Res Token} {env : Env} (r : List Cell) {nv : Bool}
    {cache : List (Str × Option Cmd)} (hc : CacheOK nv cache) :
    ∃ c cc r', (findCommand nv cache).runWith T env r = .ok (c, cc) r' ∧ CacheOK nv cc := by
  have h := findCommand_spec (T := T) (env := env) (r := r) hc (F := fun _ => False)
  unfold wp at h
  cases hr : (findCommand nv cache).runWith T env r with
  | fail e => rw [hr] at h; exact h.elim
  | ok x r' => rw [hr] at h; exact ⟨x.1, x.2, r', rfl, h.1⟩

theorem Props.Reach.neovim {nv : Bool} {lines : List Str} {st : PState} {r : List Cell} (h : Reach nv lines st r) :
    st.neovim = nv := by
  induction h with
  | start => rfl
  | @next st st' r r' h1 hne h ih =>
    obtain ⟨ho, hs⟩ := h1.ok
    obtain ⟨cc, cc', _, res, h2, _⟩ := parseOneCmd_twin (env := mkEnv lines) (R := fun _ _ => True)
      (x := st.neovim) (y := st.cache) (r := r) trivial fun rc _ => by
        obtain ⟨c, cc, r', h, _⟩ := findCommand_total (T := tokGet) (env := mkEnv lines) rc ho.cache
        exact ⟨c, cc, cc, r', h, h, trivial⟩
    rw [h2] at h
    cases res with
    | fail e => cases h
    | ok st1 r1 =>
      cases h
      exact ih

/-- Two parses that differ in the option and the cache and find the same commands. -/
theorem parseCmds_twin {nv x : Bool} {lines : List Str}
    {R : List (Str × Option Cmd) → List (Str × Option Cmd) → Prop} (hR : ∀ c1 c2, R c1 c2 → CacheOK x c2)
    (hf : ∀ st r rc y, Reach nv lines st r → r ≠ [] → R st.cache y → CmdPlace (mkEnv lines) r rc →
      SameFind tokGet (mkEnv lines) R (findCommand st.neovim st.cache) (findCommand x y) rc)
    (n : Nat) {st : PState} {r : List Cell} {y : List (Str × Option Cmd)} (hn : r.length ≤ n)
    (h : Reach nv lines st r) (hy : R st.cache y) :
    ∃ cc cc', R cc cc' ∧ Twin ((parseCmds st).run (mkEnv lines) r)
      ((parseCmds (st.swap x y)).run (mkEnv lines) r) nv x cc cc' := by
  induction n generalizing st r y with
  | zero =>
    obtain rfl : r = [] := List.length_eq_zero_iff.1 (by omega)
    have := h.neovim
    subst this
    exact ⟨_, _, hy, .ok st []⟩
  | succ n ih =>
    by_cases hne : r = []
    · subst hne
      have := h.neovim
      subst this
      exact ⟨_, _, hy, .ok st []⟩
    obtain ⟨ho, hs⟩ := h.ok
    rw [parseCmds_step (mkEnv_ok lines) ho hs hne,
      parseCmds_step (mkEnv_ok lines) (swap_ok ho (hR _ _ hy)) hs hne]
    obtain ⟨cc, cc', h1, res, h2, h3⟩ := parseOneCmd_twin (env := mkEnv lines) (x := x) (r := r) hy
      fun rc hp => hf st r rc y h hne hy hp
    rw [h2, h3]
    cases res with
    | fail e => exact ⟨cc, cc', h1, .fail e⟩
    | ok st1 r' =>
      have hw := wp_run (parseOneCmd_spec (mkEnv_ok lines) (good_closed (fn := []) (mkEnv_ok lines)) hs hne ho) h2
      have := hw.lt
      exact ih (st := st1.swap st.neovim cc) (r := r') (y := cc') (by omega) (.next h hne h2) h1

/-- Two parses of a file that differ in the option and find the same commands. -/
theorem parseToplevel_twin {nv x : Bool} {lines : List Str}
    {R : List (Str × Option Cmd) → List (Str × Option Cmd) → Prop} (hR : ∀ c1 c2, R c1 c2 → CacheOK x c2)
    (h0 : R [] [])
    (hf : ∀ st r rc y, Reach nv lines st r → r ≠ [] → R st.cache y → CmdPlace (mkEnv lines) r rc →
      SameFind tokGet (mkEnv lines) R (findCommand st.neovim st.cache) (findCommand x y) rc) :
    (parseToplevel nv).run (mkEnv lines) (mkEnv lines).buf =
      (parseToplevel x).run (mkEnv lines) (mkEnv lines).buf := by
  obtain ⟨cc, cc', _, res, h1, h2⟩ := parseCmds_twin hR hf _ (Nat.le_refl _) .start h0
  rw [parseToplevel_run, parseToplevel_run, h1,
    show (parseCmds (st0 x)).run (mkEnv lines) (mkEnv lines).buf = _ from h2]
  cases res with
  | fail e => rfl
  | ok st r => exact finishTop_swap.symm

end Viml
