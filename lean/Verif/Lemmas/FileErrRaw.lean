/-
The errors of commands kept as text, and of what follows a command.
-/
import Verif.Lemmas.FileErrText
import Verif.Lemmas.FileLine

namespace Viml
open Prog Spec

section
variable {env : Env} {fn : Str} {r r' : List Cell} {msg : Str} {q : Pos}

theorem getn1_next : (getnS 1 r).1 = nextChar r := by
  rcases getn1_cases r with ⟨c, hc, hg, _⟩ | ⟨ha, hg⟩
  · rw [hg]; simp [nextChar, hc]
  · rw [hg]
    rcases ha with h | h <;> simp [nextChar, h]

theorem bad_grepPat : Bad env skipVimgrepPat r msg q ↔ msg = e682 ∧ GrepErr env r q := by
  unfold skipVimgrepPat
  rw [badb_peekn, bad_ite, bad_ite, get1_nil, get1_is1, bad_pure]
  have hw : ¬ Bad env (do
      let _ ← readNonwhite
      pure ()) r msg q := by
    intro h
    refine h.avoid ?_
    avoid [avoids_readNonwhite]
  simp only [hw, and_false, false_or]
  constructor
  · rintro ⟨h, h1, h2⟩
    obtain ⟨c, hc⟩ := not_atEnd.1 h
    have hw' : iswordc c = false := by rw [hc] at h1; simpa [Sym.is] using h1
    rw [badb_getn, getn1_of hc, badb_pattern, bad_pattern] at h2
    rcases h2 with ⟨rfl, h2⟩ | ⟨p, e, r1, _, h2⟩
    · exact ⟨rfl, .mk hw' (headSym_reads hc) h2⟩
    · exfalso
      refine h2.avoid ?_
      unfold por
      avoid [avoids_pIs proper_err]
  · rintro ⟨rfl, h⟩
    cases h with
    | @mk d r1 _ hw hr hp =>
      obtain ⟨hc, rfl⟩ := reads_one_iff.1 hr
      refine ⟨fun he => atEnd_not he hc, by rw [hc]; simp [Sym.is, hw], ?_⟩
      rw [badb_getn, getn1_of hc, badb_pattern, bad_pattern]
      exact .inl ⟨rfl, hp⟩

/-- One round over the text of a raw command. -/
def SepStep (env : Env) (fn : Str) (c : Cmd) (ra : List Cell) (pc : Option Char) (r : List Cell) (d : Char) (r' : List Cell) : Prop :=
  (∃ r1, Reads r ['\x16'] r1 ∧ Reads r1 [d] r') ∨
  (∃ r1 x r2, takesFiles c ∧ Reads r cs!"`=" r1 ∧ Gram env fn 1 r1 x r2 ∧ Reads r2 ['`'] r' ∧ d = '`') ∨
  (Reads r [d] r' ∧ d ≠ '\x16' ∧ ¬ (takesFiles c ∧ StartsWith r cs!"`=") ∧ (EndsRaw c ra pc r → pc = some '\\'))

theorem SepStep.sadv (he : EnvOK env) {c : Cmd} {ra : List Cell} {pc : Option Char} {d : Char} (hs : Suf env r)
    (h : SepStep env fn c ra pc r d r') : SAdv r r' := by
  rcases h with ⟨r1, h1, h2⟩ | ⟨r1, x, r2, _, h1, h2, h3, _⟩ | ⟨h1, _⟩
  · exact (h1.sadv (by simp)).trans_adv h2.adv
  · exact (h1.sadv (by simp)).trans_adv ((gram_sadv he (h1.adv.suf hs) h2).adv.trans h3.adv)
  · exact h1.sadv (by simp)

theorem sep_next (he : EnvOK env) {ea : ExArg} {c : Cmd} {ra : List Cell} (hsa : Suf env ra)
    (hp : ea.argpos = some (posOf env ra)) {s : SepSt} {pc : Option Char} (hpc : s.pc = pc.toList) (hs : Suf env r) {v : Str} :
    (∃ s1, s1.pc = v ∧ Ok env (sepBody ea c s) r (.inl s1) r') ↔ ∃ d, v = [d] ∧ SepStep env fn c ra pc r d r' := by
  constructor
  · rintro ⟨s1, rfl, h⟩
    unfold sepBody at h
    rw [bind_getpos, bind_peek] at h
    cases hc : headSym r with
    | eof => simp only [hc, ok_pure, reduceCtorEq, false_and] at h
    | eol => simp only [hc, ok_pure, reduceCtorEq, false_and] at h
    | ch ch =>
      have hr := headSym_reads hc
      simp only [hc] at h
      rcases ok_ite.1 h with ⟨rfl, h2⟩ | ⟨hn, h2⟩
      · rw [bind_get, bind_getpos, bind_peek] at h2
        cases hd : headSym r.tail with
        | eof => simp only [hd, ok_pure, reduceCtorEq, false_and] at h2
        | eol => simp only [hd, ok_pure, reduceCtorEq, false_and] at h2
        | ch d =>
          simp only [hd, bind_get, ok_pure, Sum.inl.injEq] at h2
          obtain ⟨rfl, rfl⟩ := h2
          exact ⟨d, rfl, .inl ⟨_, hr, headSym_reads hd⟩⟩
      · rw [bind_peekn, ok_ite] at h2
        rcases h2 with ⟨⟨h3, h4⟩, h2⟩ | ⟨h3, h2⟩
        · rw [bind_getn, ok_bind] at h2
          obtain ⟨v, r2, h5, h2⟩ := h2
          have hq := (getn_reads (n := 2) (v := cs!"`=") rfl).1 ⟨h3.symm, rfl⟩
          obtain ⟨a, _, h6⟩ := expr_sound (fn := fn) he (hq.adv.suf hs) h5
          rw [bind_peekn, ok_ite] at h2
          rcases h2 with ⟨_, h2⟩ | ⟨h7, h2⟩
          · exact (ok_errHere.1 h2).elim
          · have h7 := Decidable.not_not.1 h7
            rw [bind_getn, ok_pure] at h2
            obtain ⟨h8, rfl⟩ := h2
            cases h8
            have hq2 := (getn_reads (n := 1) (v := cs!"`") rfl).1 ⟨h7.symm, rfl⟩
            exact ⟨'`', h7, .inr (.inl ⟨_, a, r2, files_iff.1 h4, hq, h6, hq2, rfl⟩)⟩
        · have hne : ¬ (takesFiles c ∧ StartsWith r cs!"`=") := by
            rintro ⟨k1, k2⟩
            exact h3 ⟨(peekn_eq (n := 2) (v := cs!"`=") rfl).2 k2, files_iff.2 k1⟩
          have fin : (EndsRaw c ra pc r → pc = some '\\') →
              Ok env (do
                let _ ← get
                pure (.inl (⟨[ch], posOf env r, if is1 iswhite s.pc then s.nosp else posOf env r⟩ : SepSt)) : Prog (SepSt ⊕ SepSt)) r (.inl s1) r' →
              ∃ d, s1.pc = [d] ∧ SepStep env fn c ra pc r d r' := by
            intro k1 k2
            simp only [bind_get, ok_pure, Sum.inl.injEq] at k2
            obtain ⟨rfl, rfl⟩ := k2
            exact ⟨ch, rfl, .inr (.inr ⟨hr, hn, hne, k1⟩)⟩
          rcases ok_ite.1 h2 with ⟨h4, h2⟩ | ⟨h4, h2⟩
          · rcases ok_ite.1 h2 with ⟨h5, h2⟩ | ⟨_, h2⟩
            · refine fin (fun _ => ?_) h2
              rw [hpc] at h5
              cases pc <;> simp_all
            · simp only [ok_pure, reduceCtorEq, false_and] at h2
          · refine fin (fun k => ?_) h2
            rw [hpc] at h4
            exact absurd ((sepStop_iff he hs hsa hp hc).2 k) h4
  · rintro ⟨d, rfl, ⟨r1, h1, h2⟩ | ⟨r1, x, r2, hf, h1, h2, h3, rfl⟩ | ⟨h1, hn, hne, hb⟩⟩
    · obtain ⟨hc, rfl⟩ := reads_one_iff.1 h1
      obtain ⟨hd, rfl⟩ := reads_one_iff.1 h2
      refine ⟨⟨[d], posOf env r.tail, posOf env r.tail⟩, rfl, ?_⟩
      unfold sepBody
      rw [bind_getpos, bind_peek]
      simp only [hc]
      rw [if_pos trivial, bind_get, bind_getpos, bind_peek]
      simp only [hd, bind_get]
      exact ok_pure.2 ⟨rfl, rfl⟩
    · have hs1 := h1.adv.suf hs
      refine ⟨⟨cs!"`", posOf env r, if is1 iswhite s.pc then s.nosp else posOf env r⟩, rfl, ?_⟩
      obtain ⟨v, k, _⟩ := expr_complete he hs1 h2
      obtain ⟨q1, q2⟩ := (getn_reads (n := 2) (v := cs!"`=") rfl).2 h1
      obtain ⟨q3, q4⟩ := (getn_reads (n := 1) (v := cs!"`") rfl).2 h3
      unfold sepBody
      rw [bind_getpos, bind_peek]
      simp only [h1.head]
      rw [if_neg (by decide), bind_peekn, if_pos ⟨q1.symm, files_iff.2 hf⟩, bind_getn, ← q2, ok_bind]
      refine ⟨v, _, k, ?_⟩
      rw [bind_peekn, ← q3, if_neg (by simp), bind_getn, ← q4]
      exact ok_pure.2 ⟨rfl, rfl⟩
    · obtain ⟨hc, rfl⟩ := reads_one_iff.1 h1
      refine ⟨⟨[d], posOf env r, if is1 iswhite s.pc then s.nosp else posOf env r⟩, rfl, ?_⟩
      unfold sepBody
      rw [bind_getpos, bind_peek]
      simp only [hc]
      rw [if_neg hn, bind_peekn, if_neg]
      · by_cases hst : sepStop ea c s.pc d (posOf env r) = true
        · rw [if_pos hst, if_pos, bind_get]
          · exact ok_pure.2 ⟨rfl, rfl⟩
          · rw [hpc] at hst ⊢
            rw [hb ((sepStop_iff he hs hsa hp hc).1 hst)]
            rfl
        · rw [if_neg hst, bind_get]
          exact ok_pure.2 ⟨rfl, rfl⟩
      · rintro ⟨k1, k2⟩
        exact hne ⟨files_iff.1 k2, (peekn_eq (n := 2) (v := cs!"`=") rfl).1 k1⟩

theorem bad_sepBody (he : EnvOK env) {ea : ExArg} {c : Cmd} {s : SepSt} (hs : Suf env r) :
    Bad env (sepBody ea c s) r msg q ↔ takesFiles c ∧ ∃ r1, Reads r cs!"`=" r1 ∧ (GErr env fn 1 r1 msg q ∨
      ∃ x r2, Gram env fn 1 r1 x r2 ∧ headSym r2 ≠ .ch '`' ∧ msg = cs!"unexpected character: " ++ nextChar r2 ∧
        q = posOf env r2) := by
  unfold sepBody
  rw [badb_getpos, badb_peek]
  cases hc : headSym r with
  | eof =>
    dsimp only
    rw [bad_pure, false_iff]
    rintro ⟨_, r1, h, _⟩
    rw [h.head] at hc; cases hc
  | eol =>
    dsimp only
    rw [bad_pure, false_iff]
    rintro ⟨_, r1, h, _⟩
    rw [h.head] at hc; cases hc
  | ch ch =>
    dsimp only
    by_cases h1 : ch = '\x16'
    · rw [if_pos h1]
      constructor
      · intro h
        exfalso
        refine h.avoid ?_
        avoid []
      · rintro ⟨_, r1, h, _⟩
        rw [h.head] at hc
        cases hc
        cases h1
    · rw [if_neg h1, badb_peekn]
      by_cases h2 : (getnS 2 r).1 = cs!"`=" ∧ (c.has .XFILE || c.has .FILES || c.has .FILE1) = true
      · rw [if_pos h2, badb_getn, bad_bind]
        have hq := (getn_reads (n := 2) (v := cs!"`=") rfl).1 ⟨h2.1.symm, rfl⟩
        have hs1 := hq.adv.suf hs
        have tail : ∀ {r2 nosp}, Bad env (do
            let d ← peekn 1
            if d ≠ cs!"`" then errHere (cs!"unexpected character: " ++ d)
            else
              let _ ← getn 1
              pure (.inl (⟨d, posOf env r, nosp⟩ : SepSt)) : Prog (SepSt ⊕ SepSt)) r2 msg q ↔ headSym r2 ≠ .ch '`' ∧
              msg = cs!"unexpected character: " ++ nextChar r2 ∧ q = posOf env r2 := by
          intro r2 nosp
          rw [badb_peekn, bad_ite, bad_errHere, badb_getn, bad_pure, getn1_next]
          simp only [and_false, or_false]
          refine and_congr (not_congr ?_) Iff.rfl
          unfold nextChar
          cases headSym r2 <;> simp
        constructor
        · rintro (h | ⟨v, r2, h3, h4⟩)
          · exact ⟨files_iff.1 h2.2, _, hq, .inl ((parseExpr1_bad he hs1).1 h)⟩
          · obtain ⟨a, _, h6⟩ := expr_sound (fn := fn) he hs1 h3
            exact ⟨files_iff.1 h2.2, _, hq, .inr ⟨a, r2, h6, tail.1 h4⟩⟩
        · rintro ⟨_, r1, h, h3⟩
          have := h.rest_unique hq
          subst this
          rcases h3 with h3 | ⟨x, r2, h3, h4⟩
          · exact .inl ((parseExpr1_bad he hs1).2 h3)
          · obtain ⟨v, k, _⟩ := expr_complete he hs1 h3
            exact .inr ⟨v, r2, k, tail.2 h4⟩
      · rw [if_neg h2]
        constructor
        · intro h
          exfalso
          refine h.avoid ?_
          avoid []
        · rintro ⟨h3, r1, h, _⟩
          exact absurd ⟨(peekn_eq (n := 2) (v := cs!"`=") rfl).2 ⟨r1, h⟩, files_iff.2 h3⟩ h2

theorem rawRunErr_iff {c : Cmd} {ra : List Cell} {pc : Option Char} : RawRunErr env fn c ra pc r msg q ↔
    (takesFiles c ∧ ∃ r1, Reads r cs!"`=" r1 ∧ (GErr env fn 1 r1 msg q ∨
      ∃ x r2, Gram env fn 1 r1 x r2 ∧ headSym r2 ≠ .ch '`' ∧ msg = cs!"unexpected character: " ++ nextChar r2 ∧
        q = posOf env r2)) ∨ ∃ d r1, SepStep env fn c ra pc r d r1 ∧ RawRunErr env fn c ra (some d) r1 msg q := by
  constructor
  · intro h
    cases h with
    | expr h1 h2 h3 => exact .inl ⟨h1, _, h2, .inl h3⟩
    | close h1 h2 h3 h4 => exact .inl ⟨h1, _, h2, .inr ⟨_, _, h3, h4, rfl, rfl⟩⟩
    | ctrlV h1 h2 h3 => exact .inr ⟨_, _, .inl ⟨_, h1, h2⟩, h3⟩
    | more h1 h2 h3 h4 h5 => exact .inr ⟨_, _, .inr (.inl ⟨_, _, _, h1, h2, h3, h4, rfl⟩), h5⟩
    | char h1 h2 h3 h4 h5 => exact .inr ⟨_, _, .inr (.inr ⟨h1, h2, h3, h4⟩), h5⟩
  · rintro (⟨h1, r1, h2, h3 | ⟨x, r2, h3, h4, rfl, rfl⟩⟩ | ⟨d, r1, ⟨r2, h1, h2⟩ | ⟨r2, x, r3, h1, h2, h3, h4, rfl⟩ |
      ⟨h1, h2, h3, h4⟩, h5⟩)
    · exact .expr h1 h2 h3
    · exact .close h1 h2 h3 h4
    · exact .ctrlV h1 h2 h5
    · exact .more h1 h2 h3 h4 h5
    · exact .char h1 h2 h3 h4 h5

theorem bad_sep (he : EnvOK env) {ea : ExArg} {c : Cmd} {ra : List Cell} (hsa : Suf env ra)
    (hp : ea.argpos = some (posOf env ra)) {s : SepSt} (hpc : s.pc = []) (hs : Suf env r) :
    Bad env (loop (sepBody ea c) s) r msg q ↔ RawRunErr env fn c ra none r msg q := by
  have inj : ∀ {a b : Option Char}, a.toList = b.toList → a = b := by
    intro a b h
    cases a <;> cases b <;> simp_all
  have : RawRunErr env fn c ra none r msg q ↔ ∃ pc : Option Char, s.pc = pc.toList ∧ RawRunErr env fn c ra pc r msg q := by
    constructor
    · intro h; exact ⟨none, hpc, h⟩
    · rintro ⟨pc, h1, h2⟩
      have : pc = none := inj (by rw [← h1, hpc]; rfl)
      subst this
      exact h2
  rw [this]
  refine bad_loop_iff (D := fun (s : SepSt) r => Suf env r ∧ ∃ pc : Option Char, s.pc = pc.toList)
    (B := fun (s : SepSt) r => ∃ pc : Option Char, s.pc = pc.toList ∧ RawRunErr env fn c ra pc r msg q) ?_ ?_ ⟨hs, none, hpc⟩
  · rintro s r s1 r1 ⟨hs, pc, hpc⟩ h
    obtain ⟨d, h1, h2⟩ := (sep_next (fn := fn) he hsa hp hpc hs).1 ⟨s1, rfl, h⟩
    have h3 := h2.sadv he hs
    exact ⟨h3.lt, h3.adv.suf hs, some d, h1⟩
  · rintro s r ⟨hs, pc, hpc⟩
    rw [bad_sepBody (fn := fn) he hs]
    constructor
    · rintro ⟨pc', h1, h⟩
      have : pc' = pc := inj (by rw [← h1, hpc])
      subst this
      rcases rawRunErr_iff.1 h with h | ⟨d, r1, h2, h3⟩
      · exact .inl h
      · obtain ⟨s1, k1, k2⟩ := (sep_next (fn := fn) he hsa hp hpc hs).2 ⟨d, rfl, h2⟩
        exact .inr ⟨s1, r1, k2, some d, k1, h3⟩
    · rintro (h | ⟨s1, r1, h, pc', h1, h2⟩)
      · exact ⟨pc, hpc, rawRunErr_iff.2 (.inl h)⟩
      · obtain ⟨d, k1, k2⟩ := (sep_next (fn := fn) he hsa hp hpc hs).1 ⟨s1, rfl, h⟩
        have : pc' = some d := inj (by rw [← h1, k1]; rfl)
        subst this
        exact ⟨pc, hpc, rawRunErr_iff.2 (.inr ⟨d, r1, k2, h2⟩)⟩

/-- Commands kept as text. -/
theorem bad_common (he : EnvOK env) {ea : ExArg} {c : Cmd} {r0 ra : List Cell} {st : PState}
    (hi : HandlerAt env ea r0 ra r) : Bad env (cmdCommon ea c st) r msg q ↔ RawErr env fn c ea.usefilter ra r msg q := by
  unfold cmdCommon
  rw [bad_ite]
  simp only [Bool.and_eq_true, Bool.not_eq_true', has_iff]
  constructor
  · rintro (⟨⟨h1, h2⟩, h3⟩ | ⟨h1, h2⟩)
    · rw [bad_bind] at h3
      rcases h3 with h3 | ⟨e, r2, _, h3⟩
      · rw [separateNextcmd_eq, bad_bind] at h3
        rcases h3 with h3 | ⟨_, r1, h4, h3⟩
        · rw [bad_ite, bad_pure, vimgrep_iff, bad_grepPat] at h3
          simp only [and_false, or_false] at h3
          obtain ⟨h3, rfl, h4⟩ := h3
          exact .pat h1 h2 h3 h4
        · have h4 := grep_iff.1 h4
          have a1 : Adv r r1 := by
            by_cases hg : c.name ∈ grepCmds
            · exact (h4.1 hg).adv
            · rw [h4.2 hg]; exact Adv.refl _
          rw [badb_getpos, bad_bind] at h3
          rcases h3 with h3 | ⟨s, r3, _, h3⟩
          · exact .run h1 h2 h4.1 h4.2 ((bad_sep he hi.sufA hi.pos.argpos rfl (a1.suf hi.sufR)).1 h3)
          · exfalso
            refine h3.avoid ?_
            avoid []
      · exfalso
        refine h3.avoid ?_
        avoid []
    · exfalso
      refine h2.avoid ?_
      avoid []
  · intro h
    cases h with
    | pat h1 h2 h3 h4 =>
      refine .inl ⟨⟨h1, h2⟩, ?_⟩
      rw [bad_bind, separateNextcmd_eq, bad_bind, bad_ite]
      exact .inl (.inl (.inl ⟨vimgrep_iff.2 h3, bad_grepPat.2 ⟨rfl, h4⟩⟩))
    | @run r1 _ _ h1 h2 h3 h4 h5 =>
      have a1 : Adv r r1 := by
        by_cases hg : c.name ∈ grepCmds
        · exact (h3 hg).adv
        · rw [h4 hg]; exact Adv.refl _
      refine .inl ⟨⟨h1, h2⟩, ?_⟩
      rw [bad_bind, separateNextcmd_eq, bad_bind]
      refine .inl (.inr ⟨(), r1, grep_iff.2 ⟨h3, h4⟩, ?_⟩)
      rw [badb_getpos, bad_bind]
      exact .inl ((bad_sep he hi.sufA hi.pos.argpos rfl (a1.suf hi.sufR)).2 h5)

/-- `:finish`. -/
theorem bad_finish (he : EnvOK env) {ea : ExArg} {c : Cmd} {r0 ra : List Cell} {st : PState}
    (hi : HandlerAt env ea r0 ra r) : Bad env (cmdFinish ea c st) r msg q ↔ RawErr env fn c ea.usefilter ra r msg q := by
  unfold cmdFinish
  rw [bad_bind, bad_common he hi]
  constructor
  · rintro (h | ⟨st1, r1, _, h⟩)
    · exact h
    · exfalso
      refine h.avoid ?_
      avoid []
  · exact .inl

/-- `:wincmd`. -/
theorem bad_wincmd {ea : ExArg} {st : PState} : Bad env (cmdWincmd ea st) r msg q ↔ WinErr env r msg q := by
  have tail : ∀ {r1 : List Cell}, (Bad env (do
      let e ← getpos
      skipWhite
      if !endsSym (← peek) then errHere cs!"E474: Invalid Argument"
      else
        let s ← getstr ea.linepos e
        pure (st.add (.excmd ea.cmdpos ea s))) r1 msg q ↔ ∃ r2, Skip r1 r2 ∧ ¬ AtStop r2 ∧
      msg = cs!"E474: Invalid Argument" ∧ q = posOf env r2) := by
    intro r1
    rw [badb_getpos, badb_skipWhite]
    refine exists_congr fun r2 => and_congr_right fun h => ?_
    rw [badb_peek, bad_ite, bad_errHere]
    have : ¬ Bad env (do
        let s ← getstr ea.linepos (posOf env r1)
        pure (st.add (.excmd ea.cmdpos ea s))) r2 msg q := by
      intro h
      refine h.avoid ?_
      avoid []
    simp only [this, and_false, or_false, Bool.not_eq_true']
    refine and_congr ?_ Iff.rfl
    rw [← endsSym_stop]
    simp
  unfold cmdWincmd
  rw [badb_getn]
  rcases getn1_cases r with ⟨c, hc, hg, hr⟩ | ⟨h', hg⟩
  · rw [hg]
    simp only [reduceCtorEq, if_false]
    have hone : ∀ {d w r1}, Reads r (d :: w) r1 → d = c ∧ Reads r.tail w r1 := by
      intro d w r1 h
      obtain ⟨r2, k1, k2⟩ := Reads.split (v := [d]) (w := w) h
      obtain ⟨hc', rfl⟩ := reads_one_iff.1 k1
      rw [hc] at hc'
      cases hc'
      exact ⟨rfl, k2⟩
    rw [bad_ite]
    constructor
    · rintro (⟨h1, h⟩ | ⟨h1, h⟩)
      · have h1 : c = 'g' ∨ c = '\x07' := by simpa using h1
        rw [badb_getn] at h
        rcases getn1_cases r.tail with ⟨d, hd, hg2, hr2⟩ | ⟨h', hg2⟩
        · rw [hg2] at h
          simp only [is1, badb_pure] at h
          have hrr : Reads r [c, d] r.tail.tail := Reads.append (v := [c]) hr hr2
          rw [bad_ite, tail, bad_errHere] at h
          rcases h with ⟨h2, rfl, rfl⟩ | ⟨h2, r2, h3, h4, rfl, rfl⟩
          · exact .blank hrr h1 (by simpa using h2)
          · exact .trail (.two hrr h1 (by simpa using h2)) h3 h4
        · rw [hg2] at h
          simp only [badb_pure] at h
          rw [if_pos (by simp), bad_errHere] at h
          obtain ⟨rfl, rfl⟩ := h
          exact .second hr h1 h'
      · simp only [badb_pure] at h
        rw [if_neg (by simp), tail] at h
        obtain ⟨r2, h3, h4, rfl, rfl⟩ := h
        refine .trail (.one hr ?_ ?_) h3 h4
        · rintro rfl; exact h1 (by simp)
        · rintro rfl; exact h1 (by simp)
    · intro h
      cases h with
      | none h => exact absurd hc (atEnd_not h)
      | @second c' r1 k1 h2 h3 =>
        obtain ⟨rfl, k⟩ := hone k1
        have := k.unnil
        subst this
        refine .inl ⟨by simpa using h2, ?_⟩
        rw [badb_getn]
        rcases getn1_cases r.tail with ⟨d, hd, _, _⟩ | ⟨_, hg2⟩
        · exact absurd hd (atEnd_not h3)
        · rw [hg2]
          simp only [badb_pure]
          rw [if_pos (by simp), bad_errHere]
          exact ⟨rfl, rfl⟩
      | @blank c' d r1 k1 h2 h3 =>
        obtain ⟨rfl, k⟩ := hone k1
        obtain ⟨hd, rfl⟩ := reads_one_iff.1 k
        refine .inl ⟨by simpa using h2, ?_⟩
        rw [badb_getn, getn1_of hd]
        simp only [is1, badb_pure]
        rw [if_pos (by simp [h3]), bad_errHere]
        exact ⟨rfl, rfl⟩
      | @trail r1 r2 h1 h2 h3 =>
        cases h1 with
        | one k1 k2 k3 =>
          obtain ⟨rfl, k⟩ := hone k1
          have := k.unnil
          subst this
          refine .inr ⟨by simp [k2, k3], ?_⟩
          simp only [badb_pure]
          rw [if_neg (by simp), tail]
          exact ⟨_, h2, h3, rfl, rfl⟩
        | two k1 k2 k3 =>
          obtain ⟨rfl, k⟩ := hone k1
          obtain ⟨hd, rfl⟩ := reads_one_iff.1 k
          refine .inl ⟨by simpa using k2, ?_⟩
          rw [badb_getn, getn1_of hd]
          simp only [is1, badb_pure]
          rw [if_neg (by simp [k3]), tail]
          exact ⟨_, h2, h3, rfl, rfl⟩
  · rw [hg]
    simp only [if_true]
    rw [bad_errHere]
    constructor
    · rintro ⟨rfl, rfl⟩; exact .none h'
    · intro h
      cases h with
      | none => exact ⟨rfl, rfl⟩
      | second h1 => exact absurd h1.head (atEnd_not h')
      | blank h1 => exact absurd h1.head (atEnd_not h')
      | trail h1 =>
        cases h1 with
        | one h1 => exact absurd h1.head (atEnd_not h')
        | two h1 => exact absurd h1.head (atEnd_not h')

theorem bad_synBody : Bad env (synBody ()) r msg q ↔ msg = e682 ∧
    ((∃ d r1, (d = '/' ∨ d = '\'' ∨ d = '"') ∧ Reads r [d] r1 ∧ PatErr env d 0 r1 q) ∨
     ∃ r1, Reads r ['='] r1 ∧ PatErr env ' ' 0 r1 q) := by
  unfold synBody
  rw [badb_getpos, badb_peek]
  have hd : ∀ {c r1}, Reads r [c] r1 → headSym r = .ch c ∧ r1 = r.tail := reads_one_iff.1
  have last : ∀ {r1 : List Cell}, ¬ Bad env (do
      let _ ← getn 1
      pure (.inl ()) : Prog (Unit ⊕ Pos)) r1 msg q := by
    intro r1 h
    refine h.avoid ?_
    avoid []
  by_cases h1 : headSym r = .ch '/' ∨ headSym r = .ch '\'' ∨ headSym r = .ch '"'
  · rw [if_pos h1]
    obtain ⟨d, hc, hd'⟩ : ∃ d, headSym r = .ch d ∧ (d = '/' ∨ d = '\'' ∨ d = '"') := by
      rcases h1 with h | h | h <;> exact ⟨_, h, by decide⟩
    rw [badb_getn, getn1_of hc, hc]
    have : (Sym.ch d).str = [d] := rfl
    rw [this, badb_pattern, bad_pattern]
    simp only [last, and_false, exists_false, or_false]
    refine and_congr_right fun _ => ?_
    constructor
    · intro h; exact .inl ⟨d, _, hd', headSym_reads hc, h⟩
    · rintro (⟨d1, r1, h2, h3, h4⟩ | ⟨r1, h3, h4⟩)
      · obtain ⟨k1, rfl⟩ := hd h3
        rw [hc] at k1
        cases k1
        exact h4
      · obtain ⟨k1, rfl⟩ := hd h3
        rw [hc] at k1
        cases k1
        exact absurd hd' (by decide)
  · rw [if_neg h1]
    have no : ¬ ∃ d r1, (d = '/' ∨ d = '\'' ∨ d = '"') ∧ Reads r [d] r1 ∧ PatErr env d 0 r1 q := by
      rintro ⟨d, r1, h2, h3, _⟩
      have := (hd h3).1
      rcases h2 with rfl | rfl | rfl <;> simp [this] at h1
    simp only [no, false_or]
    by_cases h2 : headSym r = .ch '='
    · rw [if_pos h2, badb_getn, getn1_of h2, badb_pattern, bad_pattern]
      simp only [last, and_false, exists_false, or_false]
      refine and_congr_right fun _ => ?_
      constructor
      · intro h; exact ⟨_, headSym_reads h2, h⟩
      · rintro ⟨r1, h3, h4⟩
        obtain ⟨_, rfl⟩ := hd h3
        exact h4
    · rw [if_neg h2, bad_ite, bad_pure]
      simp only [last, and_false, or_false, false_iff]
      rintro ⟨_, r1, h3, _⟩
      exact h2 (hd h3).1

/-- `:syntax`. -/
theorem bad_syntax {ea : ExArg} {st : PState} : Bad env (cmdSyntax ea st) r msg q ↔ msg = e682 ∧ SynErr env r q := by
  have : cmdSyntax ea st = (do
      let e ← loop synBody ()
      let s ← getstr ea.linepos e
      pure (st.add (.excmd ea.cmdpos ea s))) := rfl
  rw [this, bad_bind]
  have : ¬ ∃ (a : Pos) (r1 : List Cell), Ok env (loop synBody ()) r a r1 ∧ Bad env (do
      let s ← getstr ea.linepos a
      pure (st.add (.excmd ea.cmdpos ea s))) r1 msg q := by
    rintro ⟨a, r1, _, h⟩
    refine h.avoid ?_
    avoid []
  rw [or_iff_left this]
  refine bad_loop_iff (D := fun _ _ => True) (B := fun _ r => msg = e682 ∧ SynErr env r q) ?_ ?_ trivial
  · intro s r s1 r1 _ h
    rcases synBody_iff.1 h with ⟨_, h, _⟩ | ⟨_, h⟩
    · cases h
    · exact ⟨h.lt, trivial⟩
  · intro s r _
    rw [bad_synBody]
    constructor
    · rintro ⟨rfl, h⟩
      cases h with
      | pat h1 h2 h3 => exact .inl ⟨rfl, .inl ⟨_, _, h1, h2, h3⟩⟩
      | patMore h1 h2 h3 h4 h5 =>
        exact .inr ⟨(), _, synBody_iff.2 (.inr ⟨rfl, .inl ⟨_, _, _, _, _, h1, h2, h3, h4⟩⟩), rfl, h5⟩
      | eq h1 h2 => exact .inl ⟨rfl, .inr ⟨_, h1, h2⟩⟩
      | eqMore h2 h3 h4 h5 =>
        exact .inr ⟨(), _, synBody_iff.2 (.inr ⟨rfl, .inr (.inl ⟨_, _, _, _, h2, h3, h4⟩)⟩), rfl, h5⟩
      | char h1 h2 h3 => exact .inr ⟨(), _, synBody_iff.2 (.inr ⟨rfl, .inr (.inr ⟨_, h1, h2⟩)⟩), rfl, h3⟩
    · rintro (⟨rfl, ⟨d, r1, h1, h2, h3⟩ | ⟨r1, h1, h2⟩⟩ | ⟨s1, r1, h, rfl, h5⟩)
      · exact ⟨rfl, .pat h1 h2 h3⟩
      · exact ⟨rfl, .eq h1 h2⟩
      · rcases synBody_iff.1 h with ⟨_, h, _⟩ | ⟨_, h⟩
        · cases h
        · rcases h with ⟨d, r1, p, e, r2, h1, h2, h3, h4⟩ | ⟨r1, p, e, r2, h2, h3, h4⟩ | ⟨c, h1, h2⟩
          · exact ⟨rfl, .patMore h1 h2 h3 h4 h5⟩
          · exact ⟨rfl, .eqMore h2 h3 h4 h5⟩
          · exact ⟨rfl, .char h1 h2 h5⟩

theorem avoids_linesUntil {F : Fail → Prop} (hF : Proper F) {m : Str} {ls : List Str} : Avoids F (linesUntil m ls) := by
  unfold linesUntil
  avoid []

theorem avoids_append {F : Fail → Prop} (hF : Proper F) {ea : ExArg} {st : PState} : Avoids F (cmdAppend ea st) := by
  unfold cmdAppend
  avoid [avoids_linesUntil hF, avoids_readline]

theorem avoids_loadkeymap {F : Fail → Prop} (hF : Proper F) {ea : ExArg} {st : PState} : Avoids F (cmdLoadkeymap ea st) := by
  unfold cmdLoadkeymap
  avoid [avoids_readline]

theorem avoids_lua {F : Fail → Prop} (hF : Proper F) {ea : ExArg} {st : PState} : Avoids F (cmdLua ea st) := by
  unfold cmdLua
  avoid [avoids_linesUntil hF, avoids_readline]

theorem avoids_modifierRange {F : Fail → Prop} {ea : ExArg} {st : PState} : Avoids F (cmdModifierRange ea st) := by
  unfold cmdModifierRange
  avoid []

/-! ### What follows a command -/

theorem bad_comment {st : PState} (h : headSym r = .ch '"') : ¬ Bad env (parseComment st) r msg q := by
  unfold parseComment
  rw [badb_getpos, badb_get, h, if_neg (by simp)]
  intro h
  refine h.avoid ?_
  avoid []

theorem bad_trail {st : PState} : Bad env (parseTrail st) r msg q ↔ TrailErr env r msg q := by
  unfold parseTrail
  rw [badb_skipWhite]
  constructor
  · rintro ⟨r1, h, h1⟩
    rw [badb_peek] at h1
    cases hc : headSym r1 with
    | eof => simp only [hc, if_true, bad_pure] at h1
    | eol => simp only [hc, reduceCtorEq, if_false, if_true, badb_get, bad_pure] at h1
    | ch c =>
      simp only [hc, reduceCtorEq, if_false, Sym.ch.injEq] at h1
      by_cases h2 : c = '|'
      · simp only [h2, if_true, badb_get, bad_pure] at h1
      · rw [if_neg h2] at h1
        by_cases h3 : c = '"'
        · subst h3
          rw [if_pos rfl, bad_bind] at h1
          rcases h1 with h1 | ⟨_, _, _, h1⟩
          · exact (bad_comment hc h1).elim
          · rw [badb_get, bad_pure] at h1
            exact h1.elim
        · rw [if_neg h3, bad_errHere] at h1
          obtain ⟨rfl, rfl⟩ := h1
          exact .mk h hc h2 h3
  · intro h
    cases h with
    | @mk r1 c h hc h2 h3 =>
      refine ⟨r1, h, ?_⟩
      rw [badb_peek, hc, if_neg (by simp), if_neg (by simp), if_neg (by simpa using h2), if_neg (by simpa using h3),
        bad_errHere]
      exact ⟨rfl, rfl⟩

end
end Viml
