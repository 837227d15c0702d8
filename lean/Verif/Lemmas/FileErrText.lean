/-
The errors of options and of commands kept as text.
-/
import Verif.Lemmas.FileErrRange
import Verif.Lemmas.ExprErrLevel

namespace Viml
open Prog Spec

section
variable {env : Env} {fn : Str} {r r' : List Cell} {msg : Str} {q : Pos}

/-! ### Options -/

/-- A program without failures succeeds. -/
theorem Avoids.total {α : Type} {m : Prog α} (h : Avoids (fun _ => True) m) : ∃ a r', Ok env m r a r' := by
  unfold Ok
  cases h1 : m.runWith tokGet env r with
  | ok a r' => exact ⟨a, r', rfl⟩
  | fail e => exact absurd trivial (avoids_run h (fun h => h) h1)

theorem avoids_readAlpha {F : Fail → Prop} : Avoids F readAlpha := by
  unfold readAlpha
  exact avoids_readWhile

theorem avoids_readNonwhite {F : Fail → Prop} : Avoids F readNonwhite := by
  unfold readNonwhite
  exact avoids_readWhile

/-- The program succeeds, or fails with the option error. -/
def OptTot (env : Env) (r : List Cell) (m : Prog (ExArg ⊕ ExArg)) : Prop :=
  (∃ x r', Ok env m r x r') ∨ Bad env m r cs!"E474: Invalid Argument" (posOf env r)

theorem OptTot.ite {c : Prop} [Decidable c] {m m' : Prog (ExArg ⊕ ExArg)} (h : Avoids (fun _ => True) m)
    (h' : OptTot env r m') : OptTot env r (if c then m else m') := by
  split
  · exact .inl h.total
  · exact h'

/-- A round of the option parser succeeds or fails with one error. -/
theorem optBody_total {ea : ExArg} (hs : StartsWith r cs!"++") (hg : Tidy r) :
    (∃ x r', Ok env (optBody ea) r x r') ∨ Bad env (optBody ea) r cs!"E474: Invalid Argument" (posOf env r) := by
  unfold optBody
  have key : ∀ {m : Prog (ExArg ⊕ ExArg)} {m' : Prog (ExArg ⊕ ExArg)},
      ((∃ x r', Ok env m r x r') ∨ Bad env m r cs!"E474: Invalid Argument" (posOf env r)) →
      (∃ x r', Ok env (do if ← pand (pIs 0 '+') (pIs 1 '+') then m else m') r x r') ∨
      Bad env (do if ← pand (pIs 0 '+') (pIs 1 '+') then m else m') r cs!"E474: Invalid Argument" (posOf env r) := by
    rintro m m' (⟨x, r', h⟩ | h)
    · exact .inl ⟨x, r', (bind_two hg).2 (.inl ⟨hs, h⟩)⟩
    · refine .inr ?_
      rw [bad_bind]
      refine .inr ⟨true, r, (ok_two hg).2 ⟨by simpa using hs, rfl⟩, by simpa using h⟩
  refine key ?_
  have hpp : (cs!"++").isPrefixOf (getnS 20 r).1 = true := by
    rw [getn_line, take_prefix (by decide)]
    exact startsWith_line.1 hs
  rw [badb_peekn]
  have : ∀ {f : Str → Prog (ExArg ⊕ ExArg)}, (∃ x r', Ok env (peekn 20 >>= f) r x r') ↔ ∃ x r', Ok env (f (getnS 20 r).1) r x r' := by
    intro f
    simp only [bind_peekn]
  rw [this]
  refine OptTot.ite (by avoid []) ?_
  refine OptTot.ite (by avoid []) ?_
  refine OptTot.ite (by avoid []) ?_
  refine OptTot.ite (by avoid [avoids_readAlpha]) ?_
  refine OptTot.ite (by avoid [avoids_readAlpha]) ?_
  refine OptTot.ite (by avoid [avoids_readNonwhite]) ?_
  refine OptTot.ite (by avoid [avoids_readNonwhite]) ?_
  refine OptTot.ite (by avoid []) ?_
  right
  rw [if_pos hpp, bad_errHere]
  exact ⟨rfl, rfl⟩

theorem bad_optBody {ea : ExArg} (hg : Tidy r) : Bad env (optBody ea) r msg q ↔
    StartsWith r cs!"++" ∧ (∀ ea ea' r', ¬ ArgOpt ea r ea' r') ∧ msg = cs!"E474: Invalid Argument" ∧ q = posOf env r := by
  by_cases hs : StartsWith r cs!"++"
  · rcases optBody_total (env := env) (ea := ea) hs hg with ⟨x, r', h⟩ | h
    · constructor
      · intro hb; exact (hb.notOk h).elim
      · rintro ⟨_, h1, _⟩
        rcases argStep_sound (fn := []) hg h with ⟨_, _, h2⟩ | ⟨ea1, r1, _, h2, _⟩
        · exact absurd hs h2
        · exact absurd h2 (h1 _ _ _)
    · constructor
      · intro hb
        obtain ⟨rfl, rfl⟩ := hb.det h
        refine ⟨hs, ?_, rfl, rfl⟩
        intro e e' r' h1
        obtain ⟨e1, h2⟩ : ∃ e1, ArgOpt (Export.exArg [] ea) r e1 r' := by
          cases h1 with
          | bin h => exact ⟨_, .bin h⟩
          | nobin h => exact ⟨_, .nobin h⟩
          | edit h => exact ⟨_, .edit h⟩
          | ff h1 h2 h3 => exact ⟨_, .ff h1 h2 h3⟩
          | enc h1 h2 h3 h4 h5 => exact ⟨_, .enc h1 h2 h3 h4 h5⟩
          | bad h1 h2 => exact ⟨_, .bad h1 h2⟩
          | badChar h1 h2 => exact ⟨_, .badChar h1 h2⟩
        obtain ⟨r2, h3⟩ := skip_total r'
        exact h.notOk (argStep_complete hg h2 h3)
      · rintro ⟨_, _, rfl, rfl⟩; exact h
  · constructor
    · intro hb
      exfalso
      refine hb.notOk (a := .inr ea) (r' := r) ?_
      unfold optBody
      rw [bind_two hg]
      exact .inr ⟨hs, ok_pure.2 ⟨rfl, rfl⟩⟩
    · rintro ⟨h, _⟩; exact absurd h hs

/-- Whether there is an option does not depend on the record. -/
theorem Spec.ArgOpt.any {e e' : Ast.ExArg} (h1 : ArgOpt e r e' r') (e2 : Ast.ExArg) : ∃ e1, ArgOpt e2 r e1 r' := by
  cases h1 with
  | bin h => exact ⟨_, .bin h⟩
  | nobin h => exact ⟨_, .nobin h⟩
  | edit h => exact ⟨_, .edit h⟩
  | ff h1 h2 h3 => exact ⟨_, .ff h1 h2 h3⟩
  | enc h1 h2 h3 h4 h5 => exact ⟨_, .enc h1 h2 h3 h4 h5⟩
  | bad h1 h2 => exact ⟨_, .bad h1 h2⟩
  | badChar h1 h2 => exact ⟨_, .badChar h1 h2⟩

theorem bad_argopt {ea : ExArg} (hg : Tidy r) : Bad env (parseArgopt ea) r msg q ↔
    msg = cs!"E474: Invalid Argument" ∧ ArgOptsErr env r q := by
  rw [parseArgopt_eq]
  refine bad_loop_iff (D := fun _ r => Tidy r) (B := fun _ r => msg = cs!"E474: Invalid Argument" ∧ ArgOptsErr env r q)
    ?_ ?_ hg
  · intro s r s1 r1 hg h
    rcases argStep_sound (fn := []) hg h with ⟨hx, _⟩ | ⟨ea1, r2, _, h2, _, h3⟩
    · cases hx
    · obtain ⟨v, hne, hv⟩ := h2.reads
      refine ⟨?_, (hg.reads hv).skip h3⟩
      have := reads_lt hv hne
      have := h3.adv.length
      omega
  · intro s r hg
    rw [bad_optBody hg]
    constructor
    · rintro ⟨rfl, h⟩
      cases h with
      | here h1 h2 => exact .inl ⟨h1, h2, rfl, rfl⟩
      | more h1 h2 h3 =>
        obtain ⟨e1, h4⟩ := h1.any (Export.exArg [] s)
        exact .inr ⟨_, _, argStep_complete hg h4 h2, rfl, h3⟩
    · rintro (⟨h1, h2, rfl, rfl⟩ | ⟨s1, r1, h, rfl, h3⟩)
      · exact ⟨rfl, .here h1 h2⟩
      · rcases argStep_sound (fn := []) hg h with ⟨hx, _⟩ | ⟨ea1, r2, _, h2, _, h4⟩
        · cases hx
        · exact ⟨rfl, .more h2 h4 h3⟩

theorem badb_pIs0 {β : Type} {x : Char} {f : Bool → Prog β} :
    Bad env (pIs 0 x >>= f) r msg q ↔ Bad env (f (decide (headSym r = .ch x))) r msg q := by
  unfold pIs
  rw [badb_bind, badb_p0, badb_pure]

theorem bad_write {ea : ExArg} {c : Cmd} (hg : Tidy r) : Bad env (parseWrite ea c) r msg q ↔
    (c.name = cs!"write" ∨ c.name = cs!"update") ∧ (∃ r2, Reads r ['>'] r2 ∧ headSym r2 ≠ .ch '>') ∧
      msg = cs!"E494: Use w or w>>" ∧ q = ea.cmdpos := by
  unfold parseWrite
  rw [bad_ite, bad_pure]
  simp only [and_false, or_false]
  refine and_congr_right fun _ => ?_
  rw [badb_pIs0, bad_ite]
  have tail : ¬ Bad env (do
      if (← peekn 1) = cs!"!" ∧ c.name = cs!"write" then
        let _ ← getn 1
        pure { ea with usefilter := true }
      else pure ea) r msg q := by
    intro h
    refine h.avoid ?_
    avoid []
  simp only [tail, and_false, or_false, decide_eq_true_eq]
  by_cases h : headSym r = .ch '>'
  · have hne := hg.tail h
    have hp : ∀ f : Bool → Prog ExArg, Bad env (pIs 1 '>' >>= f) r msg q ↔ Bad env (f (decide (headSym r.tail = .ch '>'))) r msg q := by
      intro f
      rw [bad_bind]
      constructor
      · rintro (h1 | ⟨b, r1, h1, h2⟩)
        · exact (h1.avoid (avoids_pIs proper_err)).elim
        · obtain ⟨_, rfl, rfl⟩ := (ok_pIs1 (head_ne_nil h)).1 h1
          exact h2
      · intro h1
        exact .inr ⟨_, r, (ok_pIs1 (head_ne_nil h)).2 ⟨hne, rfl, rfl⟩, h1⟩
    simp only [h, true_and]
    rw [hp, bad_ite, bad_errAt]
    have tail : ¬ Bad env (do
        seekCur 2
        skipWhite
        pure { ea with append := 1 }) r msg q := by
      intro h
      refine h.avoid ?_
      avoid []
    simp only [tail, and_false, or_false, Bool.not_eq_true', decide_eq_false_iff_not]
    refine and_congr ?_ Iff.rfl
    constructor
    · intro h1; exact ⟨_, headSym_reads h, h1⟩
    · rintro ⟨r2, h1, h2⟩
      obtain ⟨_, rfl⟩ := reads_one_iff.1 h1
      exact h2
  · simp only [h, false_and, false_iff]
    rintro ⟨⟨r2, h1, _⟩, _⟩
    exact h h1.head

theorem avoids_read {F : Fail → Prop} {ea : ExArg} {c : Cmd} : Avoids F (parseRead ea c) := by
  unfold parseRead; avoid []
theorem avoids_shift {F : Fail → Prop} (hF : Proper F) {ea : ExArg} {c : Cmd} : Avoids F (parseShift ea c) := by
  unfold parseShift parseAmount; avoid []
theorem avoids_argcmd {F : Fail → Prop} (hF : Proper F) {ea : ExArg} : Avoids F (parseArgcmd ea) := by
  unfold parseArgcmd readCmdarg; avoid []

theorem Spec.ArgOpts.tidy {x y : Ast.ExArg} (h : ArgOpts x r y r') : Tidy r → Tidy r' := by
  induction h with
  | nil => exact id
  | cons h1 h2 _ ih =>
    intro hg
    obtain ⟨v, _, hv⟩ := h1.reads
    exact ih ((hg.reads hv).skip h2)

theorem bad_options {c : Cmd} {ea : ExArg} (hg : Tidy r) : Bad env (parseOptions c ea) r msg q ↔
    .ARGOPT ∈ c.flags ∧ msg = cs!"E474: Invalid Argument" ∧ ArgOptsErr env r q ∨
    (∃ ea1 r1 r2, (.ARGOPT ∈ c.flags ∧ ArgOpts (Export.exArg fn ea) r ea1 r1 ∨ .ARGOPT ∉ c.flags ∧ r1 = r) ∧
      (c.name = cs!"write" ∨ c.name = cs!"update") ∧ Reads r1 ['>'] r2 ∧ headSym r2 ≠ .ch '>') ∧
      msg = cs!"E494: Use w or w>>" ∧ q = ea.cmdpos := by
  have key : ∀ {e : ExArg} {r1 : List Cell}, Tidy r1 → (Bad env (do
      let ea ← parseWrite e c
      let ea ← parseRead ea c
      let ea ← parseShift ea c
      if (c.has .EDITCMD && !ea.usefilter) = true then parseArgcmd ea else pure ea) r1 msg q ↔
      (c.name = cs!"write" ∨ c.name = cs!"update") ∧ (∃ r2, Reads r1 ['>'] r2 ∧ headSym r2 ≠ .ch '>') ∧
      msg = cs!"E494: Use w or w>>" ∧ q = e.cmdpos) := by
    intro e r1 hg
    rw [bad_bind, bad_write hg]
    constructor
    · rintro (h | ⟨e1, r2, _, h⟩)
      · exact h
      · exfalso
        refine h.avoid ?_
        avoid [avoids_read, avoids_shift proper_err, avoids_argcmd proper_err]
    · exact .inl
  unfold parseOptions
  by_cases hf : Flag.ARGOPT ∈ c.flags
  · rw [if_pos (has_iff.2 hf), bad_bind, bad_argopt hg]
    simp only [hf, true_and, not_true, false_and, or_false]
    refine or_congr Iff.rfl ?_
    constructor
    · rintro ⟨e1, r1, h1, h2⟩
      obtain ⟨h3, h4⟩ := argOpts_sound (fn := fn) hg h1
      have hg1 : Tidy r1 := h3.tidy hg
      rw [key hg1] at h2
      obtain ⟨h2, ⟨r2, h5, h6⟩, h7, rfl⟩ := h2
      exact ⟨⟨_, r1, r2, h3, h2, h5, h6⟩, h7, h4.2⟩
    · rintro ⟨⟨x1, r1, r2, h1, h2, h3, h4⟩, h5, rfl⟩
      obtain ⟨e1, h6, _, h7⟩ := argOpts_complete (env := env) h1 rfl hg
      have hg1 : Tidy r1 := h1.tidy hg
      exact ⟨e1, r1, h6, (key hg1).2 ⟨h2, ⟨r2, h3, h4⟩, h5, h7.2.symm⟩⟩
  · rw [if_neg (by rw [has_iff]; exact hf), badb_pure, key hg]
    simp only [hf, false_and, not_false_eq_true, true_and, false_or]
    constructor
    · rintro ⟨h1, ⟨r2, h2, h3⟩, h4, h5⟩
      exact ⟨⟨default, r, r2, rfl, h1, h2, h3⟩, h4, h5⟩
    · rintro ⟨⟨_, r1, r2, rfl, h1, h2, h3⟩, h4, h5⟩
      exact ⟨h1, ⟨r2, h2, h3⟩, h4, h5⟩

end
end Viml
