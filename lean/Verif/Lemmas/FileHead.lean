/-
The head of a command line: the parser reads exactly that of the grammar.
-/
import Verif.Lemmas.FileOpts

namespace Viml
open Prog Spec

section
variable {env : Env} {fn : Str} {r r' : List Cell}

theorem Spec.WriteOpt.keep {c : Cmd} {e x : Ast.ExArg} (h : WriteOpt c e r x r') : KeepX e x := by
  cases h <;> exact ⟨rfl, rfl, rfl⟩
theorem Spec.ReadOpt.keep {c : Cmd} {e x : Ast.ExArg} (h : ReadOpt c e r x r') : KeepX e x := by
  cases h <;> exact ⟨rfl, rfl, rfl⟩
theorem Spec.ShiftOpt.keep {c : Cmd} {e x : Ast.ExArg} (h : ShiftOpt c e r x r') : KeepX e x := by
  cases h <;> exact ⟨rfl, rfl, rfl⟩
theorem Spec.PlusCmd.keep {e x : Ast.ExArg} (h : PlusCmd e r x r') : KeepX e x := by
  cases h <;> exact ⟨rfl, rfl, rfl⟩

/-- The options before the arguments of a command. -/
def parseOptions (cmd : Cmd) (ea : ExArg) : Prog ExArg := do
  let ea ← if cmd.has .ARGOPT then parseArgopt ea else pure ea
  let ea ← parseWrite ea cmd
  let ea ← parseRead ea cmd
  let ea ← parseShift ea cmd
  if (cmd.has .EDITCMD && !ea.usefilter) = true then parseArgcmd ea else pure ea

theorem has_iff {c : Cmd} {f : Flag} : c.has f = true ↔ f ∈ c.flags := by simp [Cmd.has]

theorem ok_options_split {c : Cmd} {ea ea' : ExArg} : Ok env (parseOptions c ea) r ea' r' ↔
    ∃ e1 r1 e2 r2 e3 r3 e4 r4,
      (.ARGOPT ∈ c.flags ∧ Ok env (parseArgopt ea) r e1 r1 ∨ .ARGOPT ∉ c.flags ∧ e1 = ea ∧ r1 = r) ∧
      Ok env (parseWrite e1 c) r1 e2 r2 ∧ Ok env (parseRead e2 c) r2 e3 r3 ∧ Ok env (parseShift e3 c) r3 e4 r4 ∧
      ((.EDITCMD ∈ c.flags ∧ e4.usefilter = false) ∧ Ok env (parseArgcmd e4) r4 ea' r' ∨
        ¬ (.EDITCMD ∈ c.flags ∧ e4.usefilter = false) ∧ ea' = e4 ∧ r' = r4) := by
  have hb : ∀ e : ExArg, ((c.has .EDITCMD && !e.usefilter) = true) ↔ (.EDITCMD ∈ c.flags ∧ e.usefilter = false) := by
    intro e; rw [Bool.and_eq_true, has_iff, Bool.not_eq_true']
  have key : ∀ e1 r1, Ok env (do
      let ea ← parseWrite e1 c
      let ea ← parseRead ea c
      let ea ← parseShift ea c
      if (c.has .EDITCMD && !ea.usefilter) = true then parseArgcmd ea else pure ea) r1 ea' r' ↔
    ∃ e2 r2 e3 r3 e4 r4, Ok env (parseWrite e1 c) r1 e2 r2 ∧ Ok env (parseRead e2 c) r2 e3 r3 ∧
      Ok env (parseShift e3 c) r3 e4 r4 ∧
      ((.EDITCMD ∈ c.flags ∧ e4.usefilter = false) ∧ Ok env (parseArgcmd e4) r4 ea' r' ∨
        ¬ (.EDITCMD ∈ c.flags ∧ e4.usefilter = false) ∧ ea' = e4 ∧ r' = r4) := by
    intro e1 r1
    simp only [ok_bind, ok_ite, ok_pure, hb]
    constructor
    · rintro ⟨e2, r2, h2, e3, r3, h3, e4, r4, h4, h5⟩
      exact ⟨e2, r2, e3, r3, e4, r4, h2, h3, h4, h5⟩
    · rintro ⟨e2, r2, e3, r3, e4, r4, h2, h3, h4, h5⟩
      exact ⟨e2, r2, h2, e3, r3, h3, e4, r4, h4, h5⟩
  unfold parseOptions
  by_cases hf : Flag.ARGOPT ∈ c.flags
  · rw [if_pos (has_iff.2 hf), ok_bind]
    simp only [key]
    constructor
    · rintro ⟨e1, r1, h1, e2, r2, e3, r3, e4, r4, h⟩
      exact ⟨e1, r1, e2, r2, e3, r3, e4, r4, .inl ⟨hf, h1⟩, h⟩
    · rintro ⟨e1, r1, e2, r2, e3, r3, e4, r4, ⟨_, h1⟩ | ⟨h1, _⟩, h⟩
      · exact ⟨e1, r1, h1, e2, r2, e3, r3, e4, r4, h⟩
      · exact absurd hf h1
  · rw [if_neg (by rw [has_iff]; exact hf), bind_pure', key]
    constructor
    · rintro ⟨e2, r2, e3, r3, e4, r4, h⟩
      exact ⟨ea, r, e2, r2, e3, r3, e4, r4, .inr ⟨hf, rfl, rfl⟩, h⟩
    · rintro ⟨e1, r1, e2, r2, e3, r3, e4, r4, ⟨h1, _⟩ | ⟨h1, rfl, rfl⟩, h⟩
      · exact absurd h1 hf
      · exact ⟨e2, r2, e3, r3, e4, r4, h⟩

theorem ok_options {c : Cmd} {ea ea' : ExArg} (hg : Tidy r) : Ok env (parseOptions c ea) r ea' r' ↔
    Options c (Export.exArg fn ea) r (Export.exArg fn ea') r' ∧ Keep ea ea' := by
  rw [ok_options_split]
  constructor
  · rintro ⟨e1, r1, e2, r2, e3, r3, e4, r4, h1, h2, h3, h4, h5⟩
    have h1' : (.ARGOPT ∈ c.flags ∧ ArgOpts (Export.exArg fn ea) r (Export.exArg fn e1) r1 ∨
        .ARGOPT ∉ c.flags ∧ Export.exArg fn e1 = Export.exArg fn ea ∧ r1 = r) ∧ Keep ea e1 := by
      rcases h1 with ⟨hf, h1⟩ | ⟨hf, rfl, rfl⟩
      · have := argOpts_sound (fn := fn) hg h1
        exact ⟨.inl ⟨hf, this.1⟩, this.2⟩
      · exact ⟨.inr ⟨hf, rfl, rfl⟩, Keep.refl _⟩
    have h2 := (ok_write (fn := fn)).1 h2
    have h3 := (ok_read (fn := fn)).1 h3
    have h4 := (ok_shift (fn := fn)).1 h4
    refine ⟨⟨_, r1, _, r2, _, r3, _, r4, h1'.1, h2.1, h3.1, h4.1, ?_⟩, ?_⟩
    · rcases h5 with ⟨hf, h5⟩ | ⟨hf, rfl, rfl⟩
      · exact .inl ⟨hf, ((ok_argcmd (fn := fn)).1 h5).1⟩
      · exact .inr ⟨hf, rfl, rfl⟩
    · have hk := ((h1'.2.trans h2.2).trans h3.2).trans h4.2
      rcases h5 with ⟨hf, h5⟩ | ⟨hf, rfl, rfl⟩
      · exact hk.trans ((ok_argcmd (fn := fn)).1 h5).2
      · exact hk
  · rintro ⟨⟨x1, r1, x2, r2, x3, r3, x4, r4, h1, h2, h3, h4, h5⟩, hk⟩
    obtain ⟨e1, g1, rfl, k1⟩ : ∃ e1, (.ARGOPT ∈ c.flags ∧ Ok env (parseArgopt ea) r e1 r1 ∨ .ARGOPT ∉ c.flags ∧ e1 = ea ∧ r1 = r) ∧
        Export.exArg fn e1 = x1 ∧ Keep ea e1 := by
      rcases h1 with ⟨hf, h1⟩ | ⟨hf, rfl, rfl⟩
      · obtain ⟨e1, h, hx, hk⟩ := argOpts_complete (env := env) h1 rfl hg
        exact ⟨e1, .inl ⟨hf, h⟩, hx, hk⟩
      · exact ⟨ea, .inr ⟨hf, rfl, rfl⟩, rfl, Keep.refl _⟩
    have x2e := withPos_ex (a := e1) h2.keep
    rw [← x2e] at h2 h3
    have x3e := withPos_ex (a := withPos e1 x2) h3.keep
    rw [← x3e] at h3 h4
    have x4e := withPos_ex (a := withPos (withPos e1 x2) x3) h4.keep
    rw [← x4e] at h4 h5
    refine ⟨e1, r1, _, r2, _, r3, _, r4, g1, ok_write.2 ⟨h2, withPos_keep _ _⟩, ok_read.2 ⟨h3, withPos_keep _ _⟩,
      ok_shift.2 ⟨h4, withPos_keep _ _⟩, ?_⟩
    have hk' : Keep (withPos (withPos (withPos e1 x2) x3) x4) ea' :=
      ⟨hk.1.trans k1.1.symm, hk.2.trans k1.2.symm, hk.3.trans k1.3.symm⟩
    rcases h5 with ⟨hf, h5⟩ | ⟨hf, h5, rfl⟩
    · exact .inl ⟨hf, ok_argcmd.2 ⟨h5, hk'⟩⟩
    · exact .inr ⟨hf, hk'.ext h5, rfl⟩

/-- The record of a command with its name, bang and the place of its arguments. -/
def argRecord (ea : ExArg) (c : Cmd) (b : Bool) (q : Pos) : ExArg := { ea with cmd := some c, forceit := b, argpos := some q }

theorem ok_commandArgs {c : Cmd} {ea : ExArg} {st st' : PState} :
    Ok env (parseCommandArgs ea c st) r st' r' ↔ ∃ b r1 ra ea1 r2 h, Bang c r b r1 ∧
      (c.name = cs!"!" ∧ ra = r1 ∨ c.name ≠ cs!"!" ∧ Skip r1 ra) ∧
      Ok env (parseOptions c (argRecord ea c b (posOf env ra))) ra ea1 r2 ∧ dispatch c.parser = some h ∧
      Ok env (runHandler h ea1 c st) r2 st' r' := by
  have key : ∀ (e : ExArg) (ra : List Cell), Ok env (do
      let ea ← if c.has .ARGOPT then parseArgopt e else pure e
      let ea ← parseWrite ea c
      let ea ← parseRead ea c
      let ea ← parseShift ea c
      let ea ← if (c.has .EDITCMD && !ea.usefilter) = true then parseArgcmd ea else pure ea
      match dispatch c.parser with
      | none => .fail .crash
      | some h => runHandler h ea c st) ra st' r' ↔
      ∃ ea1 r2 h, Ok env (parseOptions c e) ra ea1 r2 ∧ dispatch c.parser = some h ∧ Ok env (runHandler h ea1 c st) r2 st' r' := by
    intro e ra
    have hx : ∀ (ea1 : ExArg) r2, Ok env (match dispatch c.parser with
        | none => .fail .crash
        | some h => runHandler h ea1 c st) r2 st' r' ↔ ∃ h, dispatch c.parser = some h ∧ Ok env (runHandler h ea1 c st) r2 st' r' := by
      intro ea1 r2
      cases dispatch c.parser with
      | none => simp [ok_fail]
      | some h => simp
    have hy : ∀ (e1 : ExArg) r1, Ok env (do
        let ea ← parseWrite e1 c
        let ea ← parseRead ea c
        let ea ← parseShift ea c
        let ea ← if (c.has .EDITCMD && !ea.usefilter) = true then parseArgcmd ea else pure ea
        match dispatch c.parser with
        | none => .fail .crash
        | some h => runHandler h ea c st) r1 st' r' ↔
        ∃ ea1 r2 h, Ok env (do
          let ea ← parseWrite e1 c
          let ea ← parseRead ea c
          let ea ← parseShift ea c
          if (c.has .EDITCMD && !ea.usefilter) = true then parseArgcmd ea else pure ea) r1 ea1 r2 ∧
          dispatch c.parser = some h ∧ Ok env (runHandler h ea1 c st) r2 st' r' := by
      intro e1 r1
      simp only [ok_bind, ok_ite, hx, ok_pure]
      constructor
      · rintro ⟨e2, r2, h2, e3, r3, h3, e4, r4, h4, ⟨hf, ea1, r5, h5, h, hd, h6⟩ | ⟨hf, ea1, r5, h5, h, hd, h6⟩⟩
        · exact ⟨ea1, r5, h, ⟨e2, r2, h2, e3, r3, h3, e4, r4, h4, .inl ⟨hf, h5⟩⟩, hd, h6⟩
        · exact ⟨ea1, r5, h, ⟨e2, r2, h2, e3, r3, h3, e4, r4, h4, .inr ⟨hf, h5⟩⟩, hd, h6⟩
      · rintro ⟨ea1, r5, h, ⟨e2, r2, h2, e3, r3, h3, e4, r4, h4, ⟨hf, h5⟩ | ⟨hf, h5⟩⟩, hd, h6⟩
        · exact ⟨e2, r2, h2, e3, r3, h3, e4, r4, h4, .inl ⟨hf, ea1, r5, h5, h, hd, h6⟩⟩
        · exact ⟨e2, r2, h2, e3, r3, h3, e4, r4, h4, .inr ⟨hf, ea1, r5, h5, h, hd, h6⟩⟩
    unfold parseOptions
    by_cases hf : c.has .ARGOPT = true
    · rw [if_pos hf, if_pos hf]
      simp only [ok_bind (m := parseArgopt e), hy]
      constructor
      · rintro ⟨e1, r1, h1, ea1, r2, h, h2, h3⟩
        exact ⟨ea1, r2, h, ⟨e1, r1, h1, h2⟩, h3⟩
      · rintro ⟨ea1, r2, h, ⟨e1, r1, h1, h2⟩, h3⟩
        exact ⟨e1, r1, h1, ea1, r2, h, h2, h3⟩
    · rw [if_neg hf, if_neg hf]
      simp only [bind_pure', hy]
  unfold parseCommandArgs
  rw [ok_bind]
  constructor
  · rintro ⟨b, r1, h1, h⟩
    rw [ok_ite, ok_errAt, and_false, false_or] at h
    obtain ⟨h2, h⟩ := h
    have hb := ok_bang.1 ⟨h1, by simpa using h2⟩
    obtain ⟨ra, hra, h⟩ : ∃ ra, (c.name = cs!"!" ∧ ra = r1 ∨ c.name ≠ cs!"!" ∧ Skip r1 ra) ∧ Ok env (do
        let argpos ← getpos
        let ea := { ea with cmd := some c, forceit := b, argpos := some argpos }
        let ea ← if c.has .ARGOPT then parseArgopt ea else pure ea
        let ea ← parseWrite ea c
        let ea ← parseRead ea c
        let ea ← parseShift ea c
        let ea ← if (c.has .EDITCMD && !ea.usefilter) = true then parseArgcmd ea else pure ea
        match dispatch c.parser with
        | none => .fail .crash
        | some h => runHandler h ea c st) ra st' r' := by
      by_cases hn : c.name = cs!"!"
      · rw [if_neg (by simp [hn])] at h
        exact ⟨r1, .inl ⟨hn, rfl⟩, h⟩
      · rw [if_pos hn, bind_skipWhite] at h
        obtain ⟨ra, h1, h⟩ := h
        exact ⟨ra, .inr ⟨hn, h1⟩, h⟩
    rw [bind_getpos] at h
    obtain ⟨ea1, r2, hh, h3, h4, h5⟩ := (key _ _).1 h
    exact ⟨b, r1, ra, ea1, r2, hh, hb, hra, h3, h4, h5⟩
  · rintro ⟨b, r1, ra, ea1, r2, hh, hb, hra, h3, h4, h5⟩
    obtain ⟨h1, h2⟩ := ok_bang.2 hb
    refine ⟨b, r1, h1, ?_⟩
    rw [if_neg (by simpa using h2)]
    have h := (key (argRecord ea c b (posOf env ra)) ra).2 ⟨ea1, r2, hh, h3, h4, h5⟩
    rcases hra with ⟨hn, rfl⟩ | ⟨hn, hra⟩
    · rw [if_neg (by simp [hn])]
      rw [bind_pure', bind_getpos]
      exact h
    · rw [if_pos hn, bind_skipWhite]
      exact ⟨ra, hra, bind_getpos.2 h⟩

end
end Viml
