/-
The text of commands that are kept as text: the parser takes exactly that of the grammar.
-/
import Verif.Lemmas.FileLine

namespace Viml
open Prog Spec

section
variable {env : Env} {fn : Str} {r r' : List Cell}

/-! ### Expressions -/

theorem gram_sadv (he : EnvOK env) (hs : Suf env r) {k : Nat} {a : Ast.Expr} (h : Gram env fn k r a r') : SAdv r r' :=
  (gram_run he h hs).1

theorem expr_sound (he : EnvOK env) (hs : Suf env r) {v : VExpr} (h : Ok env parseExpr1 r v r') :
    ∃ a, Export.expr fn v = some a ∧ Gram env fn 1 r a r' := parseExpr1_gram he hs h

theorem expr_complete (he : EnvOK env) (hs : Suf env r) {a : Ast.Expr} (h : Gram env fn 1 r a r') :
    ∃ v, Ok env parseExpr1 r v r' ∧ Export.expr fn v = some a := gram_parseExpr1 he hs h

/-! ### :vimgrep -/

theorem ok_grepPat : Ok env skipVimgrepPat r () r' ↔ GrepPat r r' := by
  have flags : ∀ r, Ok env (loop (fun (_ : Unit) => do
        if ← por (pIs 0 'g') (pIs 0 'j') then
          let _ ← getn 1
          pure (.inl ())
        else pure (.inr ())) ()) r () r' ↔ ∃ v, Span (fun c => c == 'g' || c == 'j') r v r' := by
    intro r
    have hb : ∀ r x r', Ok env (do
        if ← por (pIs 0 'g') (pIs 0 'j') then
          let _ ← getn 1
          pure (.inl ())
        else pure (.inr ()) : Prog (Unit ⊕ Unit)) r x r' ↔
        ((headSym r).is (fun c => c == 'g' || c == 'j') = true ∧ x = .inl () ∧ r' = r.tail) ∨
        ((headSym r).is (fun c => c == 'g' || c == 'j') = false ∧ x = .inr () ∧ r' = r) := by
      intro r x r'
      have hp : Ok env (do
        if ← por (pIs 0 'g') (pIs 0 'j') then
          let _ ← getn 1
          pure (.inl ())
        else pure (.inr ()) : Prog (Unit ⊕ Unit)) r x r' ↔ Ok env (if (headSym r).is (fun c => c == 'g' || c == 'j') = true then (do
          let _ ← getn 1
          pure (.inl ())) else pure (.inr ()) : Prog (Unit ⊕ Unit)) r x r' := by
        unfold por
        rw [bind_bind]
        rw [bind_pIs0]
        cases hh : headSym r with
        | ch c =>
          by_cases h1 : c = 'g'
          · subst h1; simp [Sym.is]; exact Iff.rfl
          · simp only [Sym.ch.injEq, h1, decide_false, Bool.false_eq_true, if_false, bind_pIs0, hh]
            by_cases h2 : c = 'j'
            · subst h2; simp [Sym.is]
            · simp [Sym.is, h1, h2]
        | eol => simp [Sym.is, bind_pIs0, hh]
        | eof => simp [Sym.is, bind_pIs0, hh]
      rw [hp, ok_ite]
      simp only [bind_getn, ok_pure, Bool.not_eq_true]
      refine or_congr (and_congr_right fun h => ?_) Iff.rfl
      obtain ⟨c, hc, _⟩ := is_ch.1 h
      rw [getn1_of hc]
    rw [loop_iff (R := fun _ r _ r' => ∃ v, Span (fun c => c == 'g' || c == 'j') r v r')]
    · intro s r s1 r1 h
      rcases (hb _ _ _).1 h with ⟨h2, _, rfl⟩ | ⟨_, h2, _⟩
      · obtain ⟨c, hc, _⟩ := is_ch.1 h2
        exact tail_lt (head_ne_nil hc)
      · cases h2
    · intro s r b r'
      simp only [hb, reduceCtorEq, false_and, and_false, false_or, or_false, true_and]
      constructor
      · rintro ⟨v, h1, h2, h3⟩
        cases v with
        | nil => have := h1.unnil; subst this; exact .inl ⟨h3, rfl⟩
        | cons c v =>
          obtain ⟨r1, g1, g2⟩ := Reads.split (v := [c]) (w := v) h1
          refine .inr ⟨(), r1, ⟨?_, (reads_one_iff.1 g1).2⟩, v, g2, fun x hx => h2 x (by simp [hx]), h3⟩
          rw [g1.head]
          exact h2 c (by simp)
      · rintro (⟨h, rfl⟩ | ⟨_, r1, ⟨h, rfl⟩, v, g1, g2, g3⟩)
        · exact ⟨[], Reads.nil _, by simp, h⟩
        · obtain ⟨c, hc, hf⟩ := is_ch.1 h
          refine ⟨c :: v, Reads.append (v := [c]) (headSym_reads hc) g1, ?_, g3⟩
          intro x hx
          rcases List.mem_cons.1 hx with rfl | hx
          · exact hf
          · exact g2 x hx
  unfold skipVimgrepPat
  rw [bind_peekn, ok_ite, ok_ite, get1_nil, get1_is1]
  simp only [readNonwhite, bind_readWhile, ok_pure, true_and]
  constructor
  · rintro (⟨h, rfl⟩ | ⟨h, ⟨h1, v, r1, h2, rfl⟩ | ⟨h1, h2⟩⟩)
    · exact .none h
    · exact .word h1 h2
    · obtain ⟨c, hc⟩ := not_atEnd.1 h
      have hw : iswordc c = false := by rw [hc] at h1; simpa [Sym.is] using h1
      rw [bind_getn, getn1_of hc, bind_pattern] at h2
      obtain ⟨p, e, r1, h3, h4⟩ := h2
      rcases h3.delim with rfl | rfl
      · rw [if_pos (by simp)] at h4
        obtain ⟨_, rfl⟩ := ok_pure.1 h4
        exact .open_ hw (headSym_reads hc) h3
      · rw [if_neg (by simp)] at h4
        obtain ⟨v, h5⟩ := (flags _).1 h4
        exact .pat hw (headSym_reads hc) h3 h5
  · intro h
    cases h with
    | none h => exact .inl ⟨h, rfl⟩
    | word h h1 =>
      obtain ⟨c, hc, _⟩ := is_ch.1 h
      exact .inr ⟨fun he => atEnd_not he hc, .inl ⟨h, _, _, h1, rfl⟩⟩
    | @open_ d r1 p _ hw hr hp =>
      obtain ⟨hc, rfl⟩ := reads_one_iff.1 hr
      refine .inr ⟨fun he => atEnd_not he hc, .inr ⟨by rw [hc]; simp [Sym.is, hw], ?_⟩⟩
      rw [bind_getn, getn1_of hc, bind_pattern]
      exact ⟨p, [], _, hp, by rw [if_pos (by simp)]; exact ok_pure.2 ⟨rfl, rfl⟩⟩
    | @pat d r1 p r2 v _ hw hr hp hv =>
      obtain ⟨hc, rfl⟩ := reads_one_iff.1 hr
      refine .inr ⟨fun he => atEnd_not he hc, .inr ⟨by rw [hc]; simp [Sym.is, hw], ?_⟩⟩
      rw [bind_getn, getn1_of hc, bind_pattern]
      exact ⟨p, [d], _, hp, by rw [if_neg (by simp)]; exact (flags _).2 ⟨v, hv⟩⟩

/-! ### The end of a raw command -/

/-- One round of `separate_nextcmd`. -/
def sepBody (ea : ExArg) (cmd : Cmd) (st : SepSt) : Prog (SepSt ⊕ SepSt) := do
    let q ← getpos
    let nosp := if is1 iswhite st.pc then st.nosp else q
    let c ← peek
    match c with
    | .eof => pure (.inr (⟨st.pc, q, nosp⟩ : SepSt))
    | .eol => pure (.inr (⟨st.pc, q, nosp⟩ : SepSt))
    | .ch ch =>
      if ch = '\x16' then
        let _ ← get
        let q ← getpos
        let d ← peek
        match d with
        | .eof => pure (.inr (⟨st.pc, q, q⟩ : SepSt))
        | .eol => pure (.inr (⟨st.pc, q, q⟩ : SepSt))
        | .ch dh =>
          let _ ← get
          pure (.inl (⟨[dh], q, q⟩ : SepSt))
      else if (← peekn 2) = cs!"`=" ∧ (cmd.has .XFILE || cmd.has .FILES || cmd.has .FILE1) = true then
        let _ ← getn 2
        let _ ← parseExpr1
        let d ← peekn 1
        if d ≠ cs!"`" then errHere (cs!"unexpected character: " ++ d)
        else
          let _ ← getn 1
          pure (.inl (⟨d, q, nosp⟩ : SepSt))
      else if sepStop ea cmd st.pc ch q then
        if st.pc = cs!"\\" then
          let _ ← get
          pure (.inl (⟨[ch], q, nosp⟩ : SepSt))
        else pure (.inr (⟨st.pc, q, nosp⟩ : SepSt))
      else
        let _ ← get
        pure (.inl (⟨[ch], q, nosp⟩ : SepSt))

theorem separateNextcmd_eq (ea : ExArg) (cmd : Cmd) : separateNextcmd ea cmd = (do
    (if isVimgrep cmd.name then skipVimgrepPat else pure ())
    let q0 ← getpos
    let st ← loop (sepBody ea cmd) (⟨[], q0, q0⟩ : SepSt)
    if cmd.has .NOTRLCOM then pure st.en else pure st.nosp) := rfl

theorem has_false {c : Cmd} {f : Flag} : c.has f = false ↔ f ∉ c.flags := by
  rw [← has_iff]
  simp

theorem files_iff {c : Cmd} : (c.has .XFILE || c.has .FILES || c.has .FILE1) = true ↔ takesFiles c := by
  simp only [Bool.or_eq_true, has_iff, takesFiles, or_assoc]

theorem sepStop_iff (he : EnvOK env) {ea : ExArg} {c : Cmd} {pc : Option Char} {ra : List Cell} {ch : Char} (hs : Suf env r)
    (hsa : Suf env ra) (hp : ea.argpos = some (posOf env ra)) (hc : headSym r = .ch ch) :
    sepStop ea c pc.toList ch (posOf env r) = true ↔ EndsRaw c ra pc r := by
  have h1 := hs.index he
  have h2 := hsa.index he
  have h3 : (posOf env r).i = (posOf env ra).i + 1 ↔ ra.length = r.length + 1 := by omega
  have h4 : pc.toList = cs!"@" ↔ pc = some '@' := by cases pc <;> simp
  simp only [sepStop, EndsRaw, hc, hp, Option.getD_some, Bool.or_eq_true, Bool.and_eq_true, beq_iff_eq, bne_iff_ne, ne_eq,
    Sym.ch.injEq, Bool.not_eq_true', has_false, ← h3, ← h4]
  by_cases k1 : c.name = cs!"redir" <;> by_cases k2 : (posOf env r).i = (posOf env ra).i + 1 <;>
    by_cases k3 : pc.toList = cs!"@" <;> simp [k1, k2, k3, or_assoc]

theorem nosp_eq {pc : Option Char} {t : List Cell} : (if is1 iswhite pc.toList then posOf env t else posOf env r) =
    posOf env (trimmed pc t r) := by
  cases pc with
  | none => rfl
  | some c => by_cases h : iswhite c = true <;> simp [is1, trimmed, h]

theorem Spec.RawRun.adv (he : EnvOK env) {c : Cmd} {ra : List Cell} {pc : Option Char} {t r t' e : List Cell}
    (h : RawRun env fn c ra pc t r t' e) (hs : Suf env r) : Adv r e := by
  induction h with
  | eol => exact Adv.refl _
  | stop => exact Adv.refl _
  | ctrlV h1 h2 _ ih => exact h1.adv.trans (h2.adv.trans (ih ((h1.adv.trans h2.adv).suf hs)))
  | ctrlVEnd h1 => exact h1.adv
  | expr _ h1 h2 h3 _ ih =>
    have g := h1.adv.trans ((gram_sadv he (h1.adv.suf hs) h2).adv.trans h3.adv)
    exact g.trans (ih (g.suf hs))
  | char h1 _ _ _ _ ih => exact h1.adv.trans (ih (h1.adv.suf hs))

theorem Spec.RawRun.trim (he : EnvOK env) {c : Cmd} {ra : List Cell} {pc : Option Char} {t r t' e x : List Cell}
    (h : RawRun env fn c ra pc t r t' e) (hs : Suf env r) (h1 : Adv x t) (h2 : Adv x r) : Adv x t' := by
  have tr : ∀ {pc : Option Char} {t r : List Cell}, Adv x t → Adv x r → Adv x (trimmed pc t r) := by
    intro pc t r h1 h2
    unfold trimmed
    split <;> assumption
  induction h with
  | eol => exact tr h1 h2
  | stop => exact tr h1 h2
  | ctrlV g1 g2 _ ih => exact ih ((g1.adv.trans g2.adv).suf hs) (h2.trans g1.adv) (h2.trans (g1.adv.trans g2.adv))
  | ctrlVEnd g1 => exact h2.trans g1.adv
  | expr _ g1 g2 g3 _ ih =>
    have g := g1.adv.trans ((gram_sadv he (g1.adv.suf hs) g2).adv.trans g3.adv)
    exact ih (g.suf hs) (tr h1 h2) (h2.trans g)
  | char g1 _ _ _ _ ih => exact ih (g1.adv.suf hs) (tr h1 h2) (h2.trans g1.adv)

theorem sep_sound (he : EnvOK env) {ea : ExArg} {c : Cmd} {ra : List Cell} (hsa : Suf env ra)
    (hp : ea.argpos = some (posOf env ra)) {s s' : SepSt} (h : Ok env (loop (sepBody ea c) s) r s' r') :
    ∀ (pc : Option Char) (t : List Cell), s.pc = pc.toList → s.nosp = posOf env t → Suf env r →
      ∃ t', RawRun env fn c ra pc t r t' r' ∧ s'.en = posOf env r' ∧ s'.nosp = posOf env t' := by
  refine loop_ind (P := fun s r => ∀ (pc : Option Char) (t : List Cell), s.pc = pc.toList → s.nosp = posOf env t → Suf env r →
      ∃ t', RawRun env fn c ra pc t r t' r' ∧ s'.en = posOf env r' ∧ s'.nosp = posOf env t') ?_ ?_ h
  · intro s r h pc t hpc ht hs
    unfold sepBody at h
    rw [bind_getpos, bind_peek] at h
    cases hc : headSym r with
    | eof =>
      simp only [hc, ok_pure, Sum.inr.injEq] at h
      obtain ⟨rfl, rfl⟩ := h
      refine ⟨_, .eol (.inr hc), rfl, ?_⟩
      simp only [hpc, ht, nosp_eq]
    | eol =>
      simp only [hc, ok_pure, Sum.inr.injEq] at h
      obtain ⟨rfl, rfl⟩ := h
      refine ⟨_, .eol (.inl hc), rfl, ?_⟩
      simp only [hpc, ht, nosp_eq]
    | ch ch =>
      simp only [hc] at h
      rcases ok_ite.1 h with ⟨rfl, h2⟩ | ⟨hn, h2⟩
      · rw [bind_get, bind_getpos, bind_peek] at h2
        have hr := headSym_reads hc
        cases hd : headSym r.tail with
        | eof =>
          simp only [hd, ok_pure, Sum.inr.injEq] at h2
          obtain ⟨rfl, rfl⟩ := h2
          exact ⟨_, .ctrlVEnd hr (.inr hd), rfl, rfl⟩
        | eol =>
          simp only [hd, ok_pure, Sum.inr.injEq] at h2
          obtain ⟨rfl, rfl⟩ := h2
          exact ⟨_, .ctrlVEnd hr (.inl hd), rfl, rfl⟩
        | ch d =>
          simp only [hd, bind_get, ok_pure, reduceCtorEq, false_and] at h2
      · rw [bind_peekn, ok_ite] at h2
        rcases h2 with ⟨_, h2⟩ | ⟨_, h2⟩
        · rw [bind_getn, ok_bind] at h2
          obtain ⟨_, _, _, h2⟩ := h2
          rw [bind_peekn, ok_ite] at h2
          rcases h2 with ⟨_, h2⟩ | ⟨_, h2⟩
          · exact (ok_errHere.1 h2).elim
          · simp only [bind_getn, ok_pure, reduceCtorEq, false_and] at h2
        · rcases ok_ite.1 h2 with ⟨h3, h2⟩ | ⟨_, h2⟩
          · rcases ok_ite.1 h2 with ⟨_, h2⟩ | ⟨h4, h2⟩
            · simp only [bind_get, ok_pure, reduceCtorEq, false_and] at h2
            · simp only [ok_pure, Sum.inr.injEq] at h2
              obtain ⟨rfl, rfl⟩ := h2
              rw [hpc] at h3
              refine ⟨_, .stop ((sepStop_iff he hs hsa hp hc).1 h3) ?_, rfl, ?_⟩
              · rintro rfl
                exact h4 hpc
              · simp only [hpc, ht, nosp_eq]
          · simp only [bind_get, ok_pure, reduceCtorEq, false_and] at h2
  · intro s r s1 r1 h ih pc t hpc ht hs
    unfold sepBody at h
    rw [bind_getpos, bind_peek] at h
    cases hc : headSym r with
    | eof => simp only [hc, ok_pure, reduceCtorEq, false_and] at h
    | eol => simp only [hc, ok_pure, reduceCtorEq, false_and] at h
    | ch ch =>
      have hr := headSym_reads hc
      simp only [hc] at h
      rcases ok_ite.1 h with ⟨rfl, h2⟩ | ⟨hn, h2⟩
      · rw [bind_get, bind_getpos, bind_peek] at h2
        cases hd : headSym r.tail with
        | eof => simp only [hd, ok_pure, reduceCtorEq, false_and] at h2
        | eol => simp only [hd, ok_pure, reduceCtorEq, false_and] at h2
        | ch d =>
          simp only [hd, bind_get, ok_pure, Sum.inl.injEq] at h2
          obtain ⟨rfl, rfl⟩ := h2
          obtain ⟨t', g1, g2⟩ := ih (some d) r.tail rfl rfl hs.tail.tail
          exact ⟨t', .ctrlV hr (headSym_reads hd) g1, g2⟩
      · rw [bind_peekn, ok_ite] at h2
        rcases h2 with ⟨⟨h3, h4⟩, h2⟩ | ⟨h3, h2⟩
        · rw [bind_getn, ok_bind] at h2
          obtain ⟨v, r2, h5, h2⟩ := h2
          have hq := (getn_reads (n := 2) (v := cs!"`=") rfl).1 ⟨h3.symm, rfl⟩
          obtain ⟨a, _, h6⟩ := expr_sound (fn := fn) he (hq.adv.suf hs) h5
          have hs2 := (gram_sadv he (hq.adv.suf hs) h6).adv.suf (hq.adv.suf hs)
          rw [bind_peekn, ok_ite] at h2
          rcases h2 with ⟨_, h2⟩ | ⟨h7, h2⟩
          · exact (ok_errHere.1 h2).elim
          · have h7 := Decidable.not_not.1 h7
            rw [bind_getn, ok_pure] at h2
            obtain ⟨h8, rfl⟩ := h2
            cases h8
            have hq2 := (getn_reads (n := 1) (v := cs!"`") rfl).1 ⟨h7.symm, rfl⟩
            obtain ⟨t', g1, g2⟩ := ih (some '`') (trimmed pc t r) h7 (by simp only [hpc, ht, nosp_eq]) (hq2.adv.suf hs2)
            exact ⟨t', .expr (files_iff.1 h4) hq h6 hq2 g1, g2⟩
        · have hne : ¬ (takesFiles c ∧ StartsWith r cs!"`=") := by
            rintro ⟨k1, k2⟩
            exact h3 ⟨(peekn_eq (n := 2) (v := cs!"`=") rfl).2 k2, files_iff.2 k1⟩
          have fin : ∀ {x : Prog (SepSt ⊕ SepSt)}, (EndsRaw c ra pc r → pc = some '\\') →
              Ok env (do
                let _ ← get
                pure (.inl (⟨[ch], posOf env r, if is1 iswhite s.pc then s.nosp else posOf env r⟩ : SepSt)) : Prog (SepSt ⊕ SepSt)) r (.inl s1) r1 →
              ∃ t', RawRun env fn c ra pc t r t' r' ∧ s'.en = posOf env r' ∧ s'.nosp = posOf env t' := by
            intro _ k1 k2
            simp only [bind_get, ok_pure, Sum.inl.injEq] at k2
            obtain ⟨rfl, rfl⟩ := k2
            obtain ⟨t', g1, g2⟩ := ih (some ch) (trimmed pc t r) rfl (by simp only [hpc, ht, nosp_eq]) hs.tail
            exact ⟨t', .char hr hn hne k1 g1, g2⟩
          rcases ok_ite.1 h2 with ⟨h4, h2⟩ | ⟨h4, h2⟩
          · rcases ok_ite.1 h2 with ⟨h5, h2⟩ | ⟨_, h2⟩
            · refine fin (x := .fail .fuel) (fun _ => ?_) h2
              rw [hpc] at h5
              cases pc <;> simp_all
            · simp only [ok_pure, reduceCtorEq, false_and] at h2
          · refine fin (x := .fail .fuel) (fun k => ?_) h2
            rw [hpc] at h4
            exact absurd ((sepStop_iff he hs hsa hp hc).2 k) h4

theorem sep_complete (he : EnvOK env) {ea : ExArg} {c : Cmd} {ra : List Cell} (hsa : Suf env ra)
    (hp : ea.argpos = some (posOf env ra)) {pc : Option Char} {t t' : List Cell} (h : RawRun env fn c ra pc t r t' r')
    (hs : Suf env r) : ∀ s : SepSt, s.pc = pc.toList → s.nosp = posOf env t →
      ∃ s', Ok env (loop (sepBody ea c) s) r s' r' ∧ s'.en = posOf env r' ∧ s'.nosp = posOf env t' := by
  induction h with
  | @eol pc t r h =>
    intro s hpc ht
    refine ⟨⟨s.pc, posOf env r, if is1 iswhite s.pc then s.nosp else posOf env r⟩, loop_done ?_, rfl, ?_⟩
    · unfold sepBody
      rw [bind_getpos, bind_peek]
      rcases h with hc | hc <;> simp only [hc] <;> exact ok_pure.2 ⟨rfl, rfl⟩
    · simp only [hpc, ht, nosp_eq]
  | @stop pc t r h hb =>
    intro s hpc ht
    have : ∃ ch, headSym r = .ch ch ∧ ch ≠ '\x16' ∧ ch ≠ '`' := by
      rcases h with h | h | ⟨h, _⟩ <;> exact ⟨_, h, by decide, by decide⟩
    obtain ⟨ch, hc, hn, hn2⟩ := this
    refine ⟨⟨s.pc, posOf env r, if is1 iswhite s.pc then s.nosp else posOf env r⟩, loop_done ?_, rfl, ?_⟩
    · unfold sepBody
      rw [bind_getpos, bind_peek]
      simp only [hc]
      rw [if_neg hn, bind_peekn, if_neg, if_pos, if_neg]
      · exact ok_pure.2 ⟨rfl, rfl⟩
      · rw [hpc]
        intro k
        cases pc <;> simp_all
      · rw [hpc]
        exact (sepStop_iff he hs hsa hp hc).2 h
      · rintro ⟨k, _⟩
        obtain ⟨r1, k⟩ := (peekn_eq (n := 2) (v := cs!"`=") rfl).1 k
        have := k.head
        rw [hc] at this
        exact hn2 (Sym.ch.inj this)
    · simp only [hpc, ht, nosp_eq]
  | @ctrlV pc t r r1 d r2 t' e h1 h2 _ ih =>
    intro s hpc ht
    obtain ⟨hc, rfl⟩ := reads_one_iff.1 h1
    obtain ⟨hd, rfl⟩ := reads_one_iff.1 h2
    obtain ⟨s', g1, g2⟩ := ih hs.tail.tail ⟨[d], posOf env r.tail, posOf env r.tail⟩ rfl rfl
    refine ⟨s', loop_more ?_ ?_ g1, g2⟩
    · unfold sepBody
      rw [bind_getpos, bind_peek]
      simp only [hc]
      rw [if_pos trivial, bind_get, bind_getpos, bind_peek]
      simp only [hd, bind_get]
      exact ok_pure.2 ⟨rfl, rfl⟩
    · have := tail_lt (head_ne_nil hc)
      have := tail_lt (head_ne_nil hd)
      omega
  | @ctrlVEnd pc t r e h1 h2 =>
    intro s hpc ht
    obtain ⟨hc, rfl⟩ := reads_one_iff.1 h1
    refine ⟨⟨s.pc, posOf env r.tail, posOf env r.tail⟩, loop_done ?_, rfl, rfl⟩
    unfold sepBody
    rw [bind_getpos, bind_peek]
    simp only [hc]
    rw [if_pos trivial, bind_get, bind_getpos, bind_peek]
    rcases h2 with hd | hd <;> simp only [hd] <;> exact ok_pure.2 ⟨rfl, rfl⟩
  | @expr pc t r r1 x r2 r3 t' e hf h1 h2 h3 _ ih =>
    intro s hpc ht
    have hs1 := h1.adv.suf hs
    have a2 := gram_sadv he hs1 h2
    obtain ⟨s', g1, g2⟩ := ih (h3.adv.suf (a2.adv.suf hs1)) ⟨cs!"`", posOf env r, if is1 iswhite s.pc then s.nosp else posOf env r⟩ rfl
      (by simp only [hpc, ht, nosp_eq])
    refine ⟨s', loop_more ?_ ?_ g1, g2⟩
    · obtain ⟨v, k, _⟩ := expr_complete he hs1 h2
      obtain ⟨q1, q2⟩ := (getn_reads (n := 2) (v := cs!"`=") rfl).2 h1
      obtain ⟨q3, q4⟩ := (getn_reads (n := 1) (v := cs!"`") rfl).2 h3
      unfold sepBody
      rw [bind_getpos, bind_peek]
      simp only [h1.head]
      rw [if_neg (by decide), bind_peekn, if_pos ⟨q1.symm, files_iff.2 hf⟩, bind_getn, ← q2, ok_bind]
      refine ⟨v, _, k, ?_⟩
      rw [bind_peekn, ← q3, if_neg (by simp), bind_getn, ← q4]
      exact ok_pure.2 ⟨rfl, rfl⟩
    · have := (h1.sadv (by simp)).lt
      have := a2.lt
      have := (h3.sadv (by simp)).lt
      omega
  | @char pc t r d r1 t' e h1 hn hne hb _ ih =>
    intro s hpc ht
    obtain ⟨hc, rfl⟩ := reads_one_iff.1 h1
    obtain ⟨s', g1, g2⟩ := ih hs.tail ⟨[d], posOf env r, if is1 iswhite s.pc then s.nosp else posOf env r⟩ rfl
      (by simp only [hpc, ht, nosp_eq])
    refine ⟨s', loop_more ?_ (tail_lt (head_ne_nil hc)) g1, g2⟩
    unfold sepBody
    rw [bind_getpos, bind_peek]
    simp only [hc]
    rw [if_neg hn, bind_peekn, if_neg]
    · by_cases hst : sepStop ea c s.pc d (posOf env r) = true
      · rw [if_pos hst, if_pos, bind_get]
        · exact ok_pure.2 ⟨rfl, rfl⟩
        · rw [hpc] at hst ⊢
          rw [hb ((sepStop_iff he hs hsa hp hc).1 hst)]
          rfl
      · rw [if_neg hst, bind_get]
        exact ok_pure.2 ⟨rfl, rfl⟩
    · rintro ⟨k1, k2⟩
      exact hne ⟨files_iff.1 k2, (peekn_eq (n := 2) (v := cs!"`=") rfl).1 k1⟩

/-! ### Where a handler starts -/

/-- The command `c` with the record `ea` starts at `r0`, its arguments at `ra`, and what its parser reads at `r`. -/
structure HandlerAt (env : Env) (ea : ExArg) (r0 ra r : List Cell) : Prop where
  pos : EaPos env ea r0 ra
  suf : Suf env r0
  ne : r0 ≠ []
  args : Adv r0 ra
  rest : Adv r0 r

theorem HandlerAt.sufA {ea : ExArg} {r0 ra : List Cell} (h : HandlerAt env ea r0 ra r) : Suf env ra := h.args.suf h.suf
theorem HandlerAt.sufR {ea : ExArg} {r0 ra : List Cell} (h : HandlerAt env ea r0 ra r) : Suf env r := h.rest.suf h.suf
theorem HandlerAt.set (he : EnvOK env) {ea : ExArg} {r0 ra : List Cell} (h : HandlerAt env ea r0 ra r) :
    env.buf.drop ea.linepos.i = r0 := by
  rw [h.pos.linepos]
  exact h.suf.drop_pos he

theorem vimgrep_iff {n : Str} : isVimgrep n = true ↔ n ∈ grepCmds := by
  simp [isVimgrep, grepCmds, or_assoc]

theorem Spec.GrepPat.adv {r r' : List Cell} (h : GrepPat r r') : Adv r r' := by
  cases h with
  | none => exact Adv.refl _
  | word _ h => exact h.adv
  | open_ _ h1 h2 => exact h1.adv.trans h2.adv
  | pat _ h1 h2 h3 => exact h1.adv.trans (h2.adv.trans h3.adv)

theorem grep_iff {n : Str} {r1 : List Cell} : Ok env (if isVimgrep n then skipVimgrepPat else pure ()) r () r1 ↔
    (n ∈ grepCmds → GrepPat r r1) ∧ (n ∉ grepCmds → r1 = r) := by
  rw [ok_ite, vimgrep_iff]
  by_cases h : n ∈ grepCmds
  · simp [h, ok_grepPat]
  · simp [h, ok_pure]

/-- Commands kept as text. -/
theorem common_iff (he : EnvOK env) {ea : ExArg} {c : Cmd} {r0 ra : List Cell} {st st' : PState}
    (hi : HandlerAt env ea r0 ra r) : Ok env (cmdCommon ea c st) r st' r' ↔
      ∃ s, RawText env fn c ea.usefilter r0 ra r s r' ∧ st' = st.add (.excmd ea.cmdpos ea s) := by
  unfold cmdCommon
  rw [ok_ite]
  simp only [Bool.and_eq_true, Bool.not_eq_true', has_iff]
  constructor
  · rintro (⟨⟨h1, h2⟩, h3⟩ | ⟨h1, h2⟩)
    · rw [ok_bind] at h3
      obtain ⟨e, r2, h3, h⟩ := h3
      rw [separateNextcmd_eq, ok_bind] at h3
      obtain ⟨_, r1, h4, h3⟩ := h3
      have h4 := grep_iff.1 h4
      have a1 : Adv r r1 := by
        by_cases hg : c.name ∈ grepCmds
        · exact (h4.1 hg).adv
        · rw [h4.2 hg]; exact Adv.refl _
      rw [bind_getpos, ok_bind] at h3
      obtain ⟨s, r3, h5, h3⟩ := h3
      have hs1 := a1.suf hi.sufR
      obtain ⟨t', h6, h7, h8⟩ := sep_sound (fn := fn) he hi.sufA hi.pos.argpos h5 none r1 rfl rfl hs1
      have a2 := h6.adv he hs1
      have a3 := h6.trim he hs1 (hi.rest.trans a1) (hi.rest.trans a1)
      have : e = posOf env (if .NOTRLCOM ∈ c.flags then r3 else t') ∧ r2 = r3 := by
        rw [ok_ite, ok_pure, ok_pure, has_iff] at h3
        rcases h3 with ⟨k, rfl, rfl⟩ | ⟨k, rfl, rfl⟩
        · simp [k, h7]
        · simp [k, h8]
      obtain ⟨rfl, rfl⟩ := this
      rw [bind_getstr he hi.suf hi.pos.linepos] at h
      · obtain ⟨s, g1, g2⟩ := h
        obtain ⟨rfl, rfl⟩ := ok_pure.1 g2
        exact ⟨s, .bar h1 h2 h4.1 h4.2 h6 g1, rfl⟩
      · split
        · exact hi.rest.trans (a1.trans a2)
        · exact a3
    · rw [bind_getline] at h2
      obtain ⟨l, r1, h3, h4⟩ := h2
      rw [bind_getpos, bind_getstr he hi.suf hi.pos.linepos (hi.rest.trans h3.1.adv)] at h4
      obtain ⟨s, g1, g2⟩ := h4
      obtain ⟨rfl, rfl⟩ := ok_pure.1 g2
      exact ⟨s, .line h1 h3 g1, rfl⟩
  · rintro ⟨s, h, rfl⟩
    cases h with
    | @bar r1 t _ _ h1 h2 h3 h4 h5 h6 =>
      have a1 : Adv r r1 := by
        by_cases hg : c.name ∈ grepCmds
        · exact (h3 hg).adv
        · rw [h4 hg]; exact Adv.refl _
      have hs1 := a1.suf hi.sufR
      obtain ⟨s', g1, g2, g3⟩ := sep_complete he hi.sufA hi.pos.argpos h5 hs1 ⟨[], posOf env r1, posOf env r1⟩ rfl rfl
      refine .inl ⟨⟨h1, h2⟩, ?_⟩
      rw [ok_bind]
      refine ⟨posOf env (if .NOTRLCOM ∈ c.flags then r' else t), r', ?_, ?_⟩
      · rw [separateNextcmd_eq, ok_bind]
        refine ⟨(), r1, grep_iff.2 ⟨h3, h4⟩, ?_⟩
        rw [bind_getpos, ok_bind]
        refine ⟨s', r', g1, ?_⟩
        rw [ok_ite, ok_pure, ok_pure, has_iff]
        by_cases k : Flag.NOTRLCOM ∈ c.flags
        · simp [k, g2]
        · simp [k, g3]
      · rw [bind_getstr he hi.suf hi.pos.linepos h6.adv]
        exact ⟨s, h6, ok_pure.2 ⟨rfl, rfl⟩⟩
    | @line _ l _ h1 h2 h3 =>
      refine .inr ⟨h1, ?_⟩
      rw [bind_getline]
      refine ⟨l, r', h2, ?_⟩
      rw [bind_getpos, bind_getstr he hi.suf hi.pos.linepos h3.adv]
      exact ⟨s, h3, ok_pure.2 ⟨rfl, rfl⟩⟩

/-! ### Commands with lines -/

theorem Ok.wp {α : Type} {m : Prog α} {a : α} {Q : α → List Cell → Prop} {F : Fail → Prop} (h : Ok env m r a r')
    (hw : Viml.wp tokGet env m r Q F) : Q a r' := by
  unfold Viml.wp at hw
  have h2 : m.runWith tokGet env r = .ok a r' := h
  rw [h2] at hw
  exact hw

theorem eol_ne {e : Cell} : headSym (e :: r) ≠ .eof := by
  simp only [headSym, Cell.sym]
  split <;> simp

theorem until_lines {m : Str} {ls : List Str} {r1 : List Cell} (h : Lines r ls r1) (hm : m ∉ ls) {x : List Str} :
    ∀ init, Ok env (linesUntil m (init ++ ls)) r1 x r' → Ok env (linesUntil m init) r x r' := by
  induction h with
  | nil => intro init h; simpa using h
  | @cons r l e r2 ls r3 h1 h2 _ ih =>
    intro init h
    have hne : headSym r ≠ .eof := by
      intro h3
      have := headSym_eof h3
      subst this
      obtain ⟨p, hp, _⟩ := h1
      simp at hp
    refine loop_more (s1 := init ++ [l]) (r1 := r2) ?_ ?_ (ih (fun k => hm (by simp [k])) _ (by simpa using h))
    · rw [bind_peek, if_neg hne, bind_getline]
      refine ⟨l, _, ⟨h1, atEnd_cons h2⟩, ?_⟩
      simp only
      rw [if_neg (fun k => hm (by simp [k])), bind_get]
      exact ok_pure.2 ⟨rfl, rfl⟩
    · have := h1.adv.length
      simp at this
      omega

theorem ok_linesUntil (he : EnvOK env) {m : Str} {init x : List Str} (hs : Suf env r) (hne : m ≠ []) :
    Ok env (linesUntil m init) r x r' ↔ ∃ l, x = init ++ l ∧ LinesTo m r l r' := by
  constructor
  · intro h
    exact h.wp (F := fun _ => False) (linesUntil_spec he hs)
  · rintro ⟨l, rfl, ⟨h1, rfl, h2⟩ | ⟨ls, r1, rfl, h1, h2, h3, h4⟩⟩
    · refine until_lines h1 h2 init (loop_done ?_)
      rw [bind_peek, if_pos (by rfl)]
      exact ok_pure.2 ⟨rfl, rfl⟩
    · have hr : headSym r1 ≠ .eof := by
        intro k
        have := headSym_eof k
        subst this
        obtain ⟨p, hp, hq⟩ := h3
        have := List.append_eq_nil_iff.1 hp.symm
        simp [this.1] at hq
        exact hne hq
      rw [← List.append_assoc]
      refine until_lines h1 h2 init (loop_done ?_)
      rw [bind_peek, if_neg hr, bind_getline]
      refine ⟨m, _, ⟨h3, h4⟩, ?_⟩
      simp only
      rw [if_pos trivial]
      exact ok_pure.2 ⟨rfl, rfl⟩

theorem block_lines (he : EnvOK env) {r0 : List Cell} (hs : Suf env r0) (hne : r0 ≠ []) {m s : Str} (hm : m ≠ []) :
    (∃ v r1, RestOf r0 v r1 ∧ ∃ x, Ok env (linesUntil m [v]) r1.tail x r' ∧ s = joinLines x) ↔ BlockOf r0 m s r' := by
  constructor
  · rintro ⟨v, r1, h1, x, h2, rfl⟩
    obtain ⟨e, r2, rfl, hc⟩ := rest_line (hs.tidy he) hne h1
    obtain ⟨l, rfl, h3⟩ := (ok_linesUntil he (h1.1.adv.suf hs).tail hm).1 h2
    exact ⟨v, e, r2, l, h1.1, hc, h3, joinLines_eq _⟩
  · rintro ⟨v, e, r2, l, h1, h2, h3, rfl⟩
    exact ⟨v, e :: r2, ⟨h1, atEnd_cons h2⟩, v :: l, (ok_linesUntil he (h1.adv.suf hs).tail hm).2 ⟨l, rfl, h3⟩, (joinLines_eq _).symm⟩

theorem append_iff (he : EnvOK env) {ea : ExArg} {r0 ra : List Cell} {st st' : PState} (hi : HandlerAt env ea r0 ra r) :
    Ok env (cmdAppend ea st) r st' r' ↔ ∃ s, BlockOf r0 cs!"." s r' ∧ st' = st.add (.excmd ea.cmdpos ea s) := by
  unfold cmdAppend
  rw [bind_setpos, hi.set he]
  unfold readline
  rw [bind_bind, bind_getline]
  simp only [bind_bind, bind_get, bind_pure', ok_bind (m := linesUntil _ _), ok_pure, ← block_lines he hi.suf hi.ne (m := cs!".") (by simp)]
  constructor
  · rintro ⟨v, r1, h1, x, r2, h2, rfl, rfl⟩
    exact ⟨_, ⟨v, r1, h1, x, h2, rfl⟩, rfl⟩
  · rintro ⟨_, ⟨v, r1, h1, x, h2, rfl⟩, rfl⟩
    exact ⟨v, r1, h1, x, r', h2, rfl, rfl⟩

theorem ok_linesRest (he : EnvOK env) {init x : List Str} (hs : Suf env r) :
    Ok env (loop (fun (ls : List Str) => do
    if (← peek) = .eof then pure (.inr ls)
    else
      let line ← readline
      pure (.inl (ls ++ [line]))) init) r x r' ↔ ∃ l, x = init ++ l ∧ Lines r l r' ∧ r' = [] := by
  constructor
  · intro h
    refine loop_ind (P := fun init r => Suf env r → ∃ l, x = init ++ l ∧ Lines r l r' ∧ r' = []) ?_ ?_ h hs
    · intro s r h hs
      rw [bind_peek, ok_ite] at h
      rcases h with ⟨h1, h2⟩ | ⟨_, h2⟩
      · simp only [ok_pure, Sum.inr.injEq] at h2
        obtain ⟨rfl, rfl⟩ := h2
        obtain rfl := headSym_eof h1
        exact ⟨[], by simp, .nil _, rfl⟩
      · unfold readline at h2
        rw [bind_bind, bind_getline] at h2
        simp only [bind_bind, bind_get, bind_pure', ok_pure, reduceCtorEq, false_and, and_false, exists_false] at h2
    · intro s r s1 r1 h ih hs
      rw [bind_peek, ok_ite] at h
      rcases h with ⟨_, h2⟩ | ⟨h1, h2⟩
      · simp only [ok_pure, reduceCtorEq, false_and] at h2
      · unfold readline at h2
        rw [bind_bind, bind_getline] at h2
        simp only [bind_bind, bind_get, bind_pure', ok_pure, Sum.inl.injEq] at h2
        obtain ⟨l, r2, h3, rfl, rfl⟩ := h2
        obtain ⟨e, r3, rfl, hc⟩ := rest_line (hs.tidy he) (by rintro rfl; exact h1 rfl) h3
        obtain ⟨ls, g1, g2, g3⟩ := ih (h3.1.adv.suf hs).tail
        exact ⟨l :: ls, by simp [g1], .cons h3.1 hc g2, g3⟩
  · rintro ⟨l, rfl, h, rfl⟩
    generalize hr : ([] : List Cell) = r1 at h
    clear hs
    induction h generalizing init with
    | nil =>
      subst hr
      refine loop_done ?_
      rw [bind_peek, if_pos (by rfl)]
      exact ok_pure.2 ⟨by simp, rfl⟩
    | @cons r l e r2 ls r3 h1 h2 _ ih =>
      have hne : headSym r ≠ .eof := by
        intro h3
        have := headSym_eof h3
        subst this
        obtain ⟨p, hp, _⟩ := h1
        simp at hp
      refine loop_more (s1 := init ++ [l]) (r1 := r2) ?_ ?_ (by simpa using ih (init := init ++ [l]) hr)
      · rw [bind_peek, if_neg hne]
        unfold readline
        rw [bind_bind, bind_getline]
        refine ⟨l, _, ⟨h1, atEnd_cons h2⟩, ?_⟩
        simp only [bind_bind, bind_get, bind_pure', ok_pure, true_and]
        rfl
      · have := h1.adv.length
        simp at this
        omega

theorem keymap_iff (he : EnvOK env) {ea : ExArg} {r0 ra : List Cell} {st st' : PState} (hi : HandlerAt env ea r0 ra r) :
    Ok env (cmdLoadkeymap ea st) r st' r' ↔ ∃ ls, ls ≠ [] ∧ Lines r0 ls [] ∧ r' = [] ∧
      st' = st.add (.excmd ea.cmdpos ea (List.intercalate ['\n'] ls)) := by
  unfold cmdLoadkeymap
  rw [bind_setpos, hi.set he]
  unfold readline
  rw [bind_bind, bind_getline]
  simp only [bind_bind, bind_get, bind_pure']
  constructor
  · rintro ⟨v, r1, h1, h2⟩
    rw [ok_bind] at h2
    obtain ⟨x, r2, h3, h2⟩ := h2
    obtain ⟨rfl, rfl⟩ := ok_pure.1 h2
    obtain ⟨e, r3, rfl, hc⟩ := rest_line (hi.suf.tidy he) hi.ne h1
    obtain ⟨l, rfl, h4, rfl⟩ := (ok_linesRest he (h1.1.adv.suf hi.suf).tail).1 h3
    exact ⟨v :: l, by simp, .cons h1.1 hc h4, rfl, by rw [← joinLines_eq]; rfl⟩
  · rintro ⟨ls, h1, h2, rfl, rfl⟩
    cases h2 with
    | nil => exact absurd rfl h1
    | @cons _ v e r3 l _ h2 h3 h4 =>
      refine ⟨v, _, ⟨h2, atEnd_cons h3⟩, ?_⟩
      rw [ok_bind]
      refine ⟨v :: l, [], (ok_linesRest he (h2.adv.suf hi.suf).tail).2 ⟨l, rfl, h4, rfl⟩, ok_pure.2 ⟨?_, rfl⟩⟩
      rw [← joinLines_eq]

theorem lua_iff (he : EnvOK env) {ea : ExArg} {r0 ra : List Cell} {st st' : PState} (hi : HandlerAt env ea r0 ra r) :
    Ok env (cmdLua ea st) r st' r' ↔ ∃ s r1, Skip r r1 ∧ st' = st.add (.excmd ea.cmdpos ea s) ∧
      ((∃ r2 r3 m r4, Reads r1 cs!"<<" r2 ∧ Skip r2 r3 ∧ RestOf r3 m r4 ∧ BlockOf r0 (if m = [] then cs!"." else m) s r') ∨
       (¬ StartsWith r1 cs!"<<" ∧ RestOf r0 s r')) := by
  unfold cmdLua
  rw [bind_skipWhite]
  constructor
  · rintro ⟨r1, h1, h⟩
    rw [bind_peekn, ok_ite] at h
    rcases h with ⟨h2, h⟩ | ⟨h2, h⟩
    · have h3 := (getn_reads (n := 2) (v := cs!"<<") rfl).1 ⟨h2.symm, rfl⟩
      rw [bind_getn, bind_skipWhite] at h
      obtain ⟨r3, h4, h⟩ := h
      unfold readline at h
      rw [bind_bind, bind_getline] at h
      obtain ⟨m, r4, h5, h⟩ := h
      simp only [bind_bind, bind_get, bind_pure', bind_setpos, hi.set he, bind_getline] at h
      obtain ⟨v, r5, h6, h⟩ := h
      rw [ok_bind] at h
      obtain ⟨x, r6, h7, h⟩ := h
      obtain ⟨rfl, rfl⟩ := ok_pure.1 h
      refine ⟨_, r1, h1, rfl, .inl ⟨_, r3, m, r4, h3, h4, h5, ?_⟩⟩
      refine (block_lines he hi.suf hi.ne (by split <;> simp_all)).1 ⟨v, r5, h6, x, h7, rfl⟩
    · rw [bind_setpos, hi.set he, bind_getline] at h
      obtain ⟨v, r2, h3, h⟩ := h
      obtain ⟨rfl, rfl⟩ := ok_pure.1 h
      exact ⟨v, r1, h1, rfl, .inr ⟨fun k => h2 ((peekn_eq (n := 2) (v := cs!"<<") rfl).2 k), h3⟩⟩
  · rintro ⟨s, r1, h1, rfl, ⟨r2, r3, m, r4, h3, h4, h5, h6⟩ | ⟨h2, h3⟩⟩
    · refine ⟨r1, h1, ?_⟩
      obtain ⟨q1, q2⟩ := (getn_reads (n := 2) (v := cs!"<<") rfl).2 h3
      rw [bind_peekn, if_pos q1.symm, bind_getn, ← q2, bind_skipWhite]
      refine ⟨r3, h4, ?_⟩
      unfold readline
      rw [bind_bind, bind_getline]
      refine ⟨m, r4, h5, ?_⟩
      simp only [bind_bind, bind_get, bind_pure', bind_setpos, hi.set he, bind_getline]
      obtain ⟨v, r5, h8, x, h7, rfl⟩ := (block_lines he hi.suf hi.ne (by split <;> simp_all)).2 h6
      refine ⟨v, r5, h8, ?_⟩
      rw [ok_bind]
      exact ⟨x, r', h7, ok_pure.2 ⟨rfl, rfl⟩⟩
    · refine ⟨r1, h1, ?_⟩
      rw [bind_peekn, if_neg fun k => h2 ((peekn_eq (n := 2) (v := cs!"<<") rfl).1 k), bind_setpos, hi.set he, bind_getline]
      exact ⟨s, r', h3, ok_pure.2 ⟨rfl, rfl⟩⟩

theorem Spec.WinArg.adv {r r' : List Cell} (h : WinArg r r') : Adv r r' := by
  cases h with
  | one h => exact h.adv
  | two h => exact h.adv

theorem wincmd_iff (he : EnvOK env) {ea : ExArg} {r0 ra : List Cell} {st st' : PState} (hi : HandlerAt env ea r0 ra r) :
    Ok env (cmdWincmd ea st) r st' r' ↔ ∃ s r1, WinArg r r1 ∧ Reads r0 s r1 ∧ Skip r1 r' ∧ AtStop r' ∧
      st' = st.add (.excmd ea.cmdpos ea s) := by
  have tail : ∀ {r1 : List Cell}, Adv r0 r1 → (Ok env (do
      let e ← getpos
      skipWhite
      if !endsSym (← peek) then errHere cs!"E474: Invalid Argument"
      else
        let s ← getstr ea.linepos e
        pure (st.add (.excmd ea.cmdpos ea s))) r1 st' r' ↔ ∃ s, Reads r0 s r1 ∧ Skip r1 r' ∧ AtStop r' ∧
      st' = st.add (.excmd ea.cmdpos ea s)) := by
    intro r1 ha
    rw [bind_getpos, bind_skipWhite]
    constructor
    · rintro ⟨r2, h1, h⟩
      rw [bind_peek, ok_ite] at h
      rcases h with ⟨_, h⟩ | ⟨h2, h⟩
      · exact (ok_errHere.1 h).elim
      · rw [bind_getstr he hi.suf hi.pos.linepos ha] at h
        obtain ⟨s, h3, h⟩ := h
        obtain ⟨rfl, rfl⟩ := ok_pure.1 h
        exact ⟨s, h3, h1, endsSym_stop.1 (by simpa using h2), rfl⟩
    · rintro ⟨s, h3, h1, h2, rfl⟩
      refine ⟨r', h1, ?_⟩
      rw [bind_peek, if_neg (by simp [endsSym_stop.2 h2]), bind_getstr he hi.suf hi.pos.linepos ha]
      exact ⟨s, h3, ok_pure.2 ⟨rfl, rfl⟩⟩
  unfold cmdWincmd
  rw [bind_getn]
  rcases getn1_cases r with ⟨c, hc, hg, hr⟩ | ⟨h', hg⟩
  · rw [hg]
    simp only [reduceCtorEq, if_false]
    rw [ok_ite]
    constructor
    · rintro (⟨h1, h⟩ | ⟨h1, h⟩)
      · rw [bind_getn] at h
        rcases getn1_cases r.tail with ⟨d, hd, hg2, hr2⟩ | ⟨h', hg2⟩
        · rw [hg2] at h
          simp only [is1, bind_pure'] at h
          rw [ok_ite] at h
          rcases h with ⟨_, h⟩ | ⟨h2, h⟩
          · exact (ok_errHere.1 h).elim
          · have hrr : Reads r [c, d] r.tail.tail := Reads.append (v := [c]) hr hr2
            rw [tail (hi.rest.trans hrr.adv)] at h
            obtain ⟨s, g⟩ := h
            refine ⟨s, _, .two hrr ?_ ?_, g⟩
            · simpa using h1
            · simpa using h2
        · rw [hg2] at h
          simp only [bind_pure'] at h
          rw [if_pos (by simp)] at h
          exact (ok_errHere.1 h).elim
      · simp only [bind_pure'] at h
        rw [if_neg (by simp), tail (hi.rest.trans hr.adv)] at h
        obtain ⟨s, g⟩ := h
        refine ⟨s, _, .one hr ?_ ?_, g⟩
        · rintro rfl; exact h1 (by simp)
        · rintro rfl; exact h1 (by simp)
    · rintro ⟨s, r1, h1, g⟩
      cases h1 with
      | @one c' _ h2 h3 h4 =>
        obtain ⟨hc', rfl⟩ := reads_one_iff.1 h2
        rw [hc] at hc'
        cases hc'
        refine .inr ⟨by simp [h3, h4], ?_⟩
        simp only [bind_pure']
        rw [if_neg (by simp), tail (hi.rest.trans hr.adv)]
        exact ⟨s, g⟩
      | @two c' d _ h2 h3 h4 =>
        obtain ⟨r2, k1, k2⟩ := Reads.split (v := [c']) (w := [d]) h2
        obtain ⟨hc', rfl⟩ := reads_one_iff.1 k1
        rw [hc] at hc'
        cases hc'
        obtain ⟨hd, rfl⟩ := reads_one_iff.1 k2
        refine .inl ⟨by simpa using h3, ?_⟩
        rw [bind_getn, getn1_of hd]
        simp only [is1, bind_pure']
        rw [if_neg (by simp [h4]), tail (hi.rest.trans h2.adv)]
        exact ⟨s, g⟩
  · rw [hg]
    simp only [if_true]
    rw [ok_errHere]
    constructor
    · exact False.elim
    · rintro ⟨s, r1, h1, g⟩
      cases h1 with
      | one h2 => exact atEnd_not h' h2.head
      | two h2 => exact atEnd_not h' h2.head

/-- One round of `:syntax`. -/
def synBody (_ : Unit) : Prog (Unit ⊕ Pos) := do
    let q ← getpos
    let c ← peek
    if c = .ch '/' ∨ c = .ch '\'' ∨ c = .ch '"' then
      let _ ← getn 1
      let _ ← parsePattern c.str
      let _ ← getn 1
      pure (.inl ())
    else if c = .ch '=' then
      let _ ← getn 1
      let _ ← parsePattern cs!" "
      let _ ← getn 1
      pure (.inl ())
    else if endsSym c then pure (.inr q)
    else
      let _ ← getn 1
      pure (.inl ())

theorem drop_iff : r' = (getnS 1 r).2 ↔ Drop r r' := by
  rcases getn1_cases r with ⟨c, hc, hg, hr⟩ | ⟨h', hg⟩
  · rw [hg]
    constructor
    · rintro rfl; exact .one hr
    · intro h
      cases h with
      | one h => exact (reads_one_iff.1 h).2
      | eol h => exact absurd hc (atEnd_not h)
  · rw [hg]
    constructor
    · rintro rfl; exact .eol h'
    · intro h
      cases h with
      | one h => exact absurd h.head (atEnd_not h')
      | eol h => rfl

theorem Spec.Drop.adv {r r' : List Cell} (h : Drop r r') : Adv r r' := by
  cases h with
  | one h => exact h.adv
  | eol => exact Adv.refl _

/-- What one round of `:syntax` reads. -/
def SynStep (r r' : List Cell) : Prop :=
  (∃ d r1 p e r2, (d = '/' ∨ d = '\'' ∨ d = '"') ∧ Reads r [d] r1 ∧ Pat d 0 r1 p e r2 ∧ Drop r2 r') ∨
  (∃ r1 p e r2, Reads r ['='] r1 ∧ Pat ' ' 0 r1 p e r2 ∧ Drop r2 r') ∨
  (∃ c, Reads r [c] r' ∧ c ∉ cs!"/'\"=|")

theorem synBody_iff {x : Unit ⊕ Pos} : Ok env (synBody ()) r x r' ↔
    ((AtEnd r ∨ headSym r = .ch '|') ∧ x = .inr (posOf env r) ∧ r' = r) ∨ (x = .inl () ∧ SynStep r r') := by
  unfold synBody
  rw [bind_getpos, bind_peek]
  have drop : ∀ {r1 : List Cell}, Ok env (do
      let _ ← getn 1
      pure (.inl ()) : Prog (Unit ⊕ Pos)) r1 x r' ↔ x = .inl () ∧ Drop r1 r' := by
    intro r1
    rw [bind_getn, ok_pure, drop_iff]
  cases hc : headSym r with
  | eof =>
    have h : AtEnd r := .inr hc
    simp only [reduceCtorEq, or_self, if_false, endsSym, if_true, ok_pure, h, true_or, true_and]
    constructor
    · rintro ⟨rfl, rfl⟩; exact .inl ⟨rfl, rfl⟩
    · rintro (h1 | ⟨_, ⟨d, r1, p, e, r2, _, h1, _⟩ | ⟨r1, p, e, r2, h1, _⟩ | ⟨c, h1, _⟩⟩)
      · exact h1
      all_goals exact absurd h1.head (atEnd_not h)
  | eol =>
    have h : AtEnd r := .inl hc
    simp only [reduceCtorEq, or_self, if_false, endsSym, if_true, ok_pure, h, true_or, true_and]
    constructor
    · rintro ⟨rfl, rfl⟩; exact .inl ⟨rfl, rfl⟩
    · rintro (h1 | ⟨_, ⟨d, r1, p, e, r2, _, h1, _⟩ | ⟨r1, p, e, r2, h1, _⟩ | ⟨c, h1, _⟩⟩)
      · exact h1
      all_goals exact absurd h1.head (atEnd_not h)
  | ch d =>
    have hr := headSym_reads hc
    have hne : ¬ AtEnd r := fun h => atEnd_not h hc
    have hd : ∀ {c r1}, Reads r [c] r1 → c = d ∧ r1 = r.tail := by
      intro c r1 h
      obtain ⟨h1, h2⟩ := reads_one_iff.1 h
      rw [hc] at h1
      cases h1
      exact ⟨rfl, h2⟩
    simp only [Sym.ch.injEq, hne, false_or]
    by_cases h1 : d = '/' ∨ d = '\'' ∨ d = '"'
    · rw [if_pos h1, bind_getn, getn1_of hc]
      have : (Sym.ch d).str = [d] := rfl
      rw [this, bind_pattern]
      simp only [drop]
      constructor
      · rintro ⟨p, e, r2, h2, rfl, h3⟩
        exact .inr ⟨rfl, .inl ⟨d, _, p, e, r2, h1, hr, h2, h3⟩⟩
      · rintro (⟨rfl, _⟩ | ⟨rfl, ⟨c, r1, p, e, r2, _, g1, g2, g3⟩ | ⟨r1, p, e, r2, g1, _⟩ | ⟨c, g1, g2⟩⟩)
        · exact absurd h1 (by decide)
        · obtain ⟨rfl, rfl⟩ := hd g1
          exact ⟨p, e, r2, g2, rfl, g3⟩
        · obtain ⟨rfl, rfl⟩ := hd g1
          exact absurd h1 (by decide)
        · obtain ⟨rfl, rfl⟩ := hd g1
          exfalso
          rcases h1 with rfl | rfl | rfl <;> simp at g2
    · rw [if_neg h1]
      by_cases h2 : d = '='
      · subst h2
        rw [if_pos rfl, bind_getn, getn1_of hc, bind_pattern]
        simp only [drop]
        constructor
        · rintro ⟨p, e, r2, h2, rfl, h3⟩
          exact .inr ⟨rfl, .inr (.inl ⟨_, p, e, r2, hr, h2, h3⟩)⟩
        · rintro (⟨h, _⟩ | ⟨rfl, ⟨c, r1, p, e, r2, k, g1, g2, g3⟩ | ⟨r1, p, e, r2, g1, g2, g3⟩ | ⟨c, g1, g2⟩⟩)
          · exact absurd h (by decide)
          · obtain ⟨rfl, rfl⟩ := hd g1
            exact absurd k h1
          · obtain ⟨_, rfl⟩ := hd g1
            exact ⟨p, e, r2, g2, rfl, g3⟩
          · obtain ⟨rfl, rfl⟩ := hd g1
            simp at g2
      · rw [if_neg h2]
        by_cases h3 : d = '|'
        · subst h3
          rw [if_pos (by rfl), ok_pure]
          constructor
          · rintro ⟨rfl, rfl⟩; exact .inl ⟨rfl, rfl, rfl⟩
          · rintro (⟨_, h⟩ | ⟨rfl, ⟨c, r1, p, e, r2, k, g1, g2, g3⟩ | ⟨r1, p, e, r2, g1, g2, g3⟩ | ⟨c, g1, g2⟩⟩)
            · exact h
            · obtain ⟨rfl, rfl⟩ := hd g1
              exact absurd k h1
            · exact absurd (hd g1).1.symm h2
            · obtain ⟨rfl, rfl⟩ := hd g1
              simp at g2
        · rw [if_neg, bind_getn, getn1_of hc, ok_pure]
          · constructor
            · rintro ⟨rfl, rfl⟩
              refine .inr ⟨rfl, .inr (.inr ⟨d, hr, ?_⟩)⟩
              simp only [not_or] at h1
              simp [h1, h2, h3]
            · rintro (⟨h, _⟩ | ⟨rfl, ⟨c, r1, p, e, r2, k, g1, g2, g3⟩ | ⟨r1, p, e, r2, g1, g2, g3⟩ | ⟨c, g1, g2⟩⟩)
              · exact absurd h h3
              · obtain ⟨rfl, rfl⟩ := hd g1
                exact absurd k h1
              · exact absurd (hd g1).1.symm h2
              · obtain ⟨rfl, rfl⟩ := hd g1
                exact ⟨rfl, rfl⟩
          · simp only [not_or] at h1
            simp [endsSym, h1, h3]

theorem SynStep.lt (h : SynStep r r') : r'.length < r.length := by
  rcases h with ⟨d, r1, p, e, r2, _, h1, h2, h3⟩ | ⟨r1, p, e, r2, h1, h2, h3⟩ | ⟨c, h1, _⟩
  · have := (h1.sadv (by simp)).lt
    have := h2.adv.length
    have := h3.adv.length
    omega
  · have := (h1.sadv (by simp)).lt
    have := h2.adv.length
    have := h3.adv.length
    omega
  · exact (h1.sadv (by simp)).lt

theorem synText_iff : SynText r r' ↔ ((AtEnd r ∨ headSym r = .ch '|') ∧ r' = r) ∨ ∃ r1, SynStep r r1 ∧ SynText r1 r' := by
  constructor
  · intro h
    cases h with
    | stop h => exact .inl ⟨h, rfl⟩
    | pat h1 h2 h3 h4 h5 => exact .inr ⟨_, .inl ⟨_, _, _, _, _, h1, h2, h3, h4⟩, h5⟩
    | eq h2 h3 h4 h5 => exact .inr ⟨_, .inr (.inl ⟨_, _, _, _, h2, h3, h4⟩), h5⟩
    | char h1 h2 h3 => exact .inr ⟨_, .inr (.inr ⟨_, h1, h2⟩), h3⟩
  · rintro (⟨h, rfl⟩ | ⟨_, ⟨d, r1, p, e, r2, h1, h2, h3, h4⟩ | ⟨r1, p, e, r2, h2, h3, h4⟩ | ⟨c, h1, h2⟩, h5⟩)
    · exact .stop h
    · exact .pat h1 h2 h3 h4 h5
    · exact .eq h2 h3 h4 h5
    · exact .char h1 h2 h5

theorem Spec.SynText.adv (h : SynText r r') : Adv r r' := by
  induction h with
  | stop => exact Adv.refl _
  | pat _ h1 h2 h3 _ ih => exact h1.adv.trans (h2.adv.trans (h3.adv.trans ih))
  | eq h1 h2 h3 _ ih => exact h1.adv.trans (h2.adv.trans (h3.adv.trans ih))
  | char h1 _ _ ih => exact h1.adv.trans ih

theorem syn_iff {q : Pos} : Ok env (loop synBody ()) r q r' ↔ SynText r r' ∧ q = posOf env r' := by
  rw [loop_iff (R := fun _ r q r' => SynText r r' ∧ q = posOf env r')]
  · intro s r s1 r1 h
    rcases synBody_iff.1 h with ⟨_, h, _⟩ | ⟨_, h⟩
    · cases h
    · exact h.lt
  · intro s r q r'
    rw [synText_iff]
    constructor
    · rintro ⟨⟨h, rfl⟩ | ⟨r1, h1, h2⟩, rfl⟩
      · exact .inl (synBody_iff.2 (.inl ⟨h, rfl, rfl⟩))
      · exact .inr ⟨(), r1, synBody_iff.2 (.inr ⟨rfl, h1⟩), h2, rfl⟩
    · rintro (h | ⟨s1, r1, h, h2, rfl⟩)
      · rcases synBody_iff.1 h with ⟨h1, h2, rfl⟩ | ⟨h2, _⟩
        · cases h2
          exact ⟨.inl ⟨h1, rfl⟩, rfl⟩
        · cases h2
      · rcases synBody_iff.1 h with ⟨_, h1, _⟩ | ⟨_, h1⟩
        · cases h1
        · exact ⟨.inr ⟨r1, h1, h2⟩, rfl⟩

theorem syntax_iff (he : EnvOK env) {ea : ExArg} {r0 ra : List Cell} {st st' : PState} (hi : HandlerAt env ea r0 ra r) :
    Ok env (cmdSyntax ea st) r st' r' ↔ ∃ s, SynText r r' ∧ Reads r0 s r' ∧ st' = st.add (.excmd ea.cmdpos ea s) := by
  have h0 : cmdSyntax ea st = (loop synBody () >>= fun e => getstr ea.linepos e >>= fun s =>
    pure (st.add (.excmd ea.cmdpos ea s))) := rfl
  rw [h0, ok_bind]
  simp only [syn_iff]
  constructor
  · rintro ⟨q, r1, ⟨h1, rfl⟩, h⟩
    rw [bind_getstr he hi.suf hi.pos.linepos (hi.rest.trans h1.adv)] at h
    obtain ⟨s, h2, h⟩ := h
    obtain ⟨rfl, rfl⟩ := ok_pure.1 h
    exact ⟨s, h1, h2, rfl⟩
  · rintro ⟨s, h1, h2, rfl⟩
    refine ⟨_, r', ⟨h1, rfl⟩, ?_⟩
    rw [bind_getstr he hi.suf hi.pos.linepos (hi.rest.trans h1.adv)]
    exact ⟨s, h2, ok_pure.2 ⟨rfl, rfl⟩⟩

theorem finish_iff (he : EnvOK env) {ea : ExArg} {c : Cmd} {r0 ra : List Cell} {st st' : PState}
    (hi : HandlerAt env ea r0 ra r) : Ok env (cmdFinish ea c st) r st' r' ↔
      ∃ s r1, RawText env fn c ea.usefilter r0 ra r s r1 ∧ st' = st.add (.excmd ea.cmdpos ea s) ∧
        r' = if st.cur.head.isToplevel then [] else r1 := by
  unfold cmdFinish
  rw [ok_bind]
  simp only [common_iff (fn := fn) he hi]
  constructor
  · rintro ⟨st1, r1, ⟨s, h1, rfl⟩, h⟩
    refine ⟨s, r1, h1, ?_⟩
    have hh : (st.add (.excmd ea.cmdpos ea s)).cur.head = st.cur.head := rfl
    rw [hh, ok_ite, bind_seekEnd, ok_pure, ok_pure] at h
    rcases h with ⟨k, h⟩ | ⟨k, h⟩ <;> simpa [k] using h
  · rintro ⟨s, r1, h1, rfl, h⟩
    refine ⟨_, r1, ⟨s, h1, rfl⟩, ?_⟩
    have hh : (st.add (.excmd ea.cmdpos ea s)).cur.head = st.cur.head := rfl
    rw [hh, ok_ite, bind_seekEnd, ok_pure, ok_pure]
    by_cases k : st.cur.head.isToplevel = true
    · exact .inl ⟨k, rfl, by simpa [k] using h⟩
    · exact .inr ⟨k, rfl, by simpa [k] using h⟩

end
end Viml
