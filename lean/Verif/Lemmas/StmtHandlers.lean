/-
Soundness of the parsers of the single commands.
-/
import Verif.Lemmas.StmtSound

namespace Viml
open Prog Spec

/-- Nodes of commands that may read further lines. -/
def IsMulti : VStmt → Prop
  | .excmd _ ea _ => CmdIs ea .append ∨ CmdIs ea .loadkeymap ∨ CmdIs ea .lua ∨ CmdIs ea .finish
  | .let_ _ _ _ _ (.heredoc ..) => True
  | _ => False

/-- The command added a node that may span several lines. -/
def Multi (st st' : PState) : Prop :=
  ∃ l n, st'.cur.body = st.cur.body ++ l ∧ n ∈ l ∧ IsMulti n

section
variable {env : Env} {P : Nat → ERel} {T : Env → List Cell → Res Token}

/-- Result of parsing the command that starts at `r0`. -/
structure HOut (env : Env) (P : Nat → ERel) (r0 : List Cell) (st st' : PState) (r' : List Cell) : Prop
    where
  steps : ∃ bs, Steps env P st bs st' ∧ bs.length ≤ 1
  line : Adv r0 r' ∨ r' <:+ r0 ∧ Multi st st'

/-- Situation in which the parser of a command is called. -/
structure HIn (env : Env) (ea : ExArg) (h : Handler) (r0 r : List Cell) (st : PState) : Prop where
  at_ : ∃ rc, EaAt env r0 rc ea
  cmd : CmdIs ea h
  adv : Adv r0 r
  arg : ArgOn env ea r
  raw : h ≠ .common → ArgIs env ea r
  ok : st.OK

theorem EaAt.adv {r0 rc : List Cell} {ea : ExArg} (h : EaAt env r0 rc ea) : Adv r0 rc := by
  obtain ⟨_, _, _, _, _, h1, h2, _, h3, _⟩ := h.mods
  exact (h1.trans h2.adv).trans h3.adv

theorem EaAt.posOK {r0 rc : List Cell} {ea : ExArg} (h : EaAt env r0 rc ea) : PosOK env ea.cmdpos :=
  h.cmd ▸ (h.adv.suf h.suf).posOf

namespace HIn
variable {ea : ExArg} {h : Handler} {r0 r : List Cell} {st : PState}

theorem suf0 (hi : HIn env ea h r0 r st) : Suf env r0 := hi.at_.choose_spec.suf
theorem suf (hi : HIn env ea h r0 r st) : Suf env r := hi.adv.suf hi.suf0
theorem eaOK (hi : HIn env ea h r0 r st) : EaOK env ea := ⟨r0, hi.at_⟩
theorem pos (hi : HIn env ea h r0 r st) : PosOK env ea.cmdpos := hi.at_.choose_spec.posOK
theorem line (hi : HIn env ea h r0 r st) : ea.linepos = posOf env r0 := hi.at_.choose_spec.line

end HIn

theorem HOut.add {r0 r' : List Cell} {st : PState} {n : VStmt} (h : Simple env P st n)
    (ha : Adv r0 r') : HOut env P r0 st (st.add n) r' :=
  ⟨⟨[], .add h, by simp⟩, Or.inl ha⟩

theorem HOut.one {r0 r' : List Cell} {st st' : PState} {b : Option Blk} (h : Step env P st b st')
    (ha : Adv r0 r') : HOut env P r0 st st' r' :=
  ⟨⟨b.toList, .one h, by cases b <;> simp⟩, Or.inl ha⟩

/-- A position on the line that starts at `r0`, where the text of a raw command may end. -/
def OnLine (env : Env) (r0 : List Cell) (q : Pos) : Prop :=
  ∃ x, q = posOf env x ∧ Adv r0 x ∧ RawEnd x

theorem rawEnd_of {x r : List Cell} {w : Str} (h : Reads x w r) (hw : White w)
    (he : AtStop r ∨ headSym r = .ch '\n') : RawEnd x := ⟨w, r, h, hw, he⟩

theorem rawEnd_stop {r : List Cell} (he : AtStop r) : RawEnd r :=
  ⟨[], r, Reads.nil r, by intro c hc; simp at hc, Or.inl he⟩

theorem lineText (he : EnvOK env) {r0 : List Cell} {ea : ExArg} (hs : Suf env r0)
    (hl : ea.linepos = posOf env r0) {q : Pos} (hq : OnLine env r0 q) :
    ∃ r', LineText env ea (cellsText ((env.buf.drop ea.linepos.i).take (q.i - ea.linepos.i))) r' := by
  obtain ⟨x, rfl, hx, hr⟩ := hq
  refine ⟨x, r0, hs, hl, ?_, hr⟩
  rw [hl]
  exact getstr_reads he hs hx

/-! ### Comments and line ends -/

theorem spanTrue_eq (r : List Cell) : ∃ x, spanS (fun _ => true) r = x := ⟨_, rfl⟩

theorem comment_spec {r : List Cell} (hs : Suf env r) (hc : headSym r = .ch '"') {st : PState}
    {F : Fail → Prop} :
    wp T env (parseComment st) r (fun st' r' => ∃ n, st' = st.add n ∧ Simple env P st n ∧
      (∃ v, Reads r ('"' :: v) r') ∧ AtEnd r') F := by
  unfold parseComment
  refine wp_bind (wp_getpos (wp_bind (wp_get ?_)))
  rw [hc]
  refine wp_ite (fun h => absurd rfl h) (fun _ => ?_)
  refine wp_bind (wp_getline (wp_pure ?_))
  have h1 := headSym_reads hc
  have h2 := h1.append (spanS_reads (fun _ => true) r.tail)
  exact ⟨_, rfl, .comment hs h2 (getline_end _), ⟨_, h2⟩, getline_end _⟩

/-- The end of a command, `TrailAt`, possibly with a comment that is added to the block. -/
theorem parseTrail_spec (he : EnvOK env) {r : List Cell} (hs : Suf env r) {st : PState} :
    wp T env (parseTrail st) r (fun st' r' => TrailAt r r' ∧
      (st' = st ∨ ∃ n, st' = st.add n ∧ Simple env P st n)) (SErr env) := by
  unfold parseTrail
  refine wp_bind (wp_skipWhite (wp_bind (wp_peek ?_)))
  have hw := spanS_reads iswhite r
  have hwa := spanS_all iswhite r
  generalize (spanS iswhite r).2 = r1 at *
  have nil : ∀ x, Adv r x → headSym x = .eof → r = [] ∧ x = [] := by
    intro x ha h
    have := headSym_eof h
    subst this
    by_cases hr : r = []
    · exact ⟨hr, rfl⟩
    · exact absurd rfl (Adv.ne_nil he hs hr ha)
  refine wp_ite (fun h => ?_) (fun _ => ?_)
  · obtain ⟨e1, e2⟩ := nil r1 hw.adv h
    rw [e1, e2]
    exact wp_pure ⟨.eof, Or.inl rfl⟩
  refine wp_ite (fun h => ?_) (fun _ => ?_)
  · exact wp_bind (wp_get (wp_pure ⟨.eol hw hwa h, Or.inl rfl⟩))
  refine wp_ite (fun h => ?_) (fun _ => ?_)
  · exact wp_bind (wp_get (wp_pure ⟨.bar hw hwa h, Or.inl rfl⟩))
  refine wp_ite (fun h => ?_) (fun _ => wp_errHere (err_pos (hw.adv.suf hs)))
  refine wp_call (comment_spec (P := P) (hw.adv.suf hs) h) ?_
  rintro st' r2 ⟨n, rfl, hn, ⟨v, ha⟩, hend⟩
  have hr := hw.append ha
  refine wp_bind (wp_get (wp_pure ⟨?_, Or.inr ⟨n, rfl, hn⟩⟩))
  rcases hend with he' | he'
  · exact .comment hr hwa he'
  · obtain ⟨e1, e2⟩ := nil r2 hr.adv he'
    subst e1
    have := hw.adv.suffix
    simp only [List.suffix_nil] at this
    rw [this] at h
    cases h

theorem Spec.TrailAt.adv {r r' : List Cell} (h : TrailAt r r') : r' = [] ∧ r = [] ∨
    ∃ r1, Adv r r1 ∧ r1 ≠ [] ∧ r' = r1.tail := by
  have ne : ∀ {r : List Cell} {c}, headSym r = c → c ≠ .eof → r ≠ [] := by
    rintro r c rfl h rfl
    exact h rfl
  cases h with
  | eof => exact Or.inl ⟨rfl, rfl⟩
  | eol h _ hc => exact Or.inr ⟨_, h.adv, ne hc (by simp), rfl⟩
  | comment h _ hc => exact Or.inr ⟨_, h.adv, ne hc (by simp), rfl⟩
  | bar h _ hc => exact Or.inr ⟨_, h.adv, ne hc (by simp), rfl⟩

theorem Spec.TrailAt.suffix {r r' : List Cell} (h : TrailAt r r') : r' <:+ r := by
  rcases h.adv with ⟨rfl, rfl⟩ | ⟨r1, h1, _, rfl⟩
  · exact List.suffix_rfl
  · exact (List.tail_suffix _).trans h1.suffix

theorem Spec.TrailAt.lt {r r' : List Cell} (h : TrailAt r r') : r' = [] ∨ r'.length < r.length := by
  rcases h.adv with ⟨rfl, rfl⟩ | ⟨r1, h1, hne, rfl⟩
  · exact Or.inl rfl
  · right
    have := h1.length
    cases r1 with
    | nil => exact absurd rfl hne
    | cons c r1 => simp at this ⊢; omega

/-! ### Commands kept as text -/

theorem cmdModifierRange_spec (he : EnvOK env) {ea : ExArg} {r0 r : List Cell} {st : PState}
    {F : Fail → Prop} {rc : List Cell} (hea : EaAt env r0 rc ea) (ha : Adv r0 r)
    (hst : AtStop r) (hs : ∀ s r', LineText env ea s r' → Simple env P st (.excmd ea.cmdpos ea s)) :
    wp T env (cmdModifierRange ea st) r (HOut env P r0 st) F := by
  unfold cmdModifierRange
  refine wp_bind (wp_getpos (wp_bind (wp_getstr (wp_pure ?_))))
  obtain ⟨r', hl⟩ := lineText he hea.suf hea.line ⟨r, rfl, ha, rawEnd_stop hst⟩
  exact .add (hs _ _ hl) ha

theorem skipVimgrepPat_spec (he : EnvOK env) {r : List Cell} (hs : Suf env r) :
    wp T env skipVimgrepPat r (fun _ r' => Adv r r') (SErr env) := by
  unfold skipVimgrepPat
  refine wp_bind (wp_peekn ?_)
  refine wp_ite (fun _ => wp_pure (Adv.refl r)) (fun _ => ?_)
  refine wp_ite (fun _ => wp_bind (wp_readWhile (wp_pure (spanS_adv _ _)))) (fun _ => ?_)
  refine wp_bind (wp_getn ?_)
  have h1 := getnS_adv 1 r
  refine wp_call (parsePattern_spec (h1.suf hs)) ?_
  intro x r2 hx
  have h2 := h1.trans hx.1.adv
  refine wp_ite (fun _ => wp_pure h2) (fun _ => ?_)
  refine wp_loop (fun _ r3 => Adv r r3) h2 ?_
  intro _ r3 h3
  have hs3 := h3.suf hs
  refine wp_cond (G := ∃ c, headSym r3 = .ch c) ?_ (fun hp => ?_) (wp_pure h3)
  · refine wp_por (wp_pIs_starts he hs3 (Starts.nil r3) rfl (fun h => ⟨rfl, fun _ => ⟨_, h.1⟩⟩) ?_)
    exact wp_pIs_starts he hs3 (Starts.nil r3) rfl (fun h => ⟨rfl, fun _ => ⟨_, h.1⟩⟩) wp_false
  · obtain ⟨c, hc⟩ := hp
    exact wp_bind (wp_getn (wp_pure ⟨(getnS_head hc 0).lt, h3.trans (getnS_adv _ _)⟩))

theorem sepStop_char {ea : ExArg} {cmd : Cmd} {pc : Str} {c : Char} {q : Pos}
    (h : sepStop ea cmd pc c q = true) : c = '|' ∨ c = '\n' ∨ c = '"' := by
  unfold sepStop at h
  simp only [Bool.or_eq_true, Bool.and_eq_true, beq_iff_eq] at h
  rcases h with (h | h) | h
  · exact Or.inl h
  · exact Or.inr (Or.inl h)
  · exact Or.inr (Or.inr h.1.1)

/-- The text of a command that is followed by a bar or comment ends where the rest of the line is
blank, a bar or a comment. -/
theorem separateNextcmd_spec (he : EnvOK env) {ea : ExArg} {cmd : Cmd} {r0 r : List Cell}
    (hs : Suf env r0) (ha : Adv r0 r) :
    wp tokGet env (separateNextcmd ea cmd) r (fun q r' => OnLine env r0 q ∧ Adv r0 r') (SErr env) := by
  unfold separateNextcmd
  refine wp_call (P := fun _ r' => Adv r0 r') ?_ ?_
  · refine wp_ite (fun _ => ?_) (fun _ => wp_pure ha)
    exact wp_mono (skipVimgrepPat_spec he (ha.suf hs)) (fun _ _ h => ha.trans h)
  · intro _ r1 h1
    refine wp_bind (wp_getpos ?_)
    refine wp_call (P := fun (st : SepSt) r' => OnLine env r0 st.en ∧ OnLine env r0 st.nosp ∧ Adv r0 r') ?_ ?_
    · refine wp_loop (fun (st : SepSt) r' => Adv r0 r' ∧ (is1 iswhite st.pc = true →
        ∃ x w, st.nosp = posOf env x ∧ Adv r0 x ∧ Reads x w r' ∧ White w))
        ⟨h1, by simp [is1]⟩ ?_
      rintro ⟨pc, en, nosp⟩ r2 ⟨h2, hns⟩
      refine wp_bind (wp_getpos (wp_bind (wp_peek ?_)))
      have hn : ∃ x w, (if is1 iswhite pc then nosp else posOf env r2) = posOf env x ∧ Adv r0 x ∧
          Reads x w r2 ∧ White w := by
        by_cases hp : is1 iswhite pc = true
        · rw [if_pos hp]; exact hns hp
        · rw [if_neg hp]
          exact ⟨r2, [], rfl, h2, Reads.nil _, by intro c hc; simp at hc⟩
      simp only
      generalize (if is1 iswhite pc then nosp else posOf env r2) = nn at hn ⊢
      obtain ⟨x, w, rfl, hx1, hx2, hx3⟩ := hn
      have stop : (AtStop r2 ∨ headSym r2 = .ch '\n') →
          OnLine env r0 (posOf env r2) ∧ OnLine env r0 (posOf env x) ∧ Adv r0 r2 := fun h =>
        ⟨⟨r2, rfl, h2, rawEnd_of (Reads.nil _) (by intro c hc; simp at hc) h⟩, ⟨x, rfl, hx1, rawEnd_of hx2 hx3 h⟩, h2⟩
      cases hc : headSym r2 with
      | eof => exact wp_pure (stop (Or.inl (Or.inl (Or.inr hc))))
      | eol => exact wp_pure (stop (Or.inl (Or.inl (Or.inl hc))))
      | ch c =>
        have h3 := headSym_sadv hc
        have h3' := h2.trans h3.1
        have next : is1 iswhite [c] = true → ∃ y v, posOf env x = posOf env y ∧ Adv r0 y ∧
            Reads y v r2.tail ∧ White v := by
          intro hw
          refine ⟨x, w ++ [c], rfl, hx1, hx2.append (headSym_reads hc), ?_⟩
          intro d hd
          rcases List.mem_append.1 hd with hd | hd
          · exact hx3 d hd
          · rw [List.mem_singleton] at hd
            exact hd ▸ hw
        refine wp_ite (fun _ => ?_) (fun _ => ?_)
        · refine wp_bind (wp_get (wp_bind (wp_getpos (wp_bind (wp_peek ?_)))))
          have hq3 : AtEnd r2.tail → OnLine env r0 (posOf env r2.tail) := fun h =>
            ⟨_, rfl, h3', rawEnd_stop (Or.inl h)⟩
          cases hd : headSym r2.tail with
          | eof => exact wp_pure ⟨hq3 (Or.inr hd), hq3 (Or.inr hd), h3'⟩
          | eol => exact wp_pure ⟨hq3 (Or.inl hd), hq3 (Or.inl hd), h3'⟩
          | ch d =>
            have h4 := headSym_sadv hd
            refine wp_bind (wp_get (wp_pure ⟨(h3.trans h4).lt, h3'.trans h4.1, ?_⟩))
            intro hw
            refine ⟨r2.tail, [d], rfl, h3', headSym_reads hd, ?_⟩
            intro d' hd'
            rw [List.mem_singleton] at hd'
            exact hd' ▸ hw
        refine wp_bind (wp_peekn ?_)
        refine wp_ite (fun hb => ?_) (fun _ => ?_)
        · refine wp_bind (wp_getn ?_)
          have h4 := getnS_adv 2 r2
          refine wp_call (expr_spec he (posRel_closed he) ((h2.trans h4).suf hs)) ?_
          intro e r4 hx
          have h5 := h4.trans_sadv hx.der.adv
          refine wp_bind (wp_peekn ?_)
          refine wp_ite (fun _ => wp_errHere (err_pos ((h2.trans h5.1).suf hs))) (fun hq => ?_)
          refine wp_bind (wp_getn (wp_pure ?_))
          refine ⟨(h5.trans_adv (getnS_adv _ _)).lt, h2.trans (h5.trans_adv (getnS_adv _ _)).1, ?_⟩
          intro hw
          simp only [ne_eq, Decidable.not_not] at hq
          rw [hq] at hw
          exact absurd hw (by simp [is1, iswhite])
        refine wp_ite (fun hss => ?_) (fun _ => ?_)
        · refine wp_ite (fun _ => ?_) (fun _ => wp_pure (stop ?_))
          · exact wp_bind (wp_get (wp_pure ⟨h3.lt, h3', next⟩))
          · rcases sepStop_char hss with rfl | rfl | rfl
            · exact Or.inl (Or.inr (Or.inl hc))
            · exact Or.inr hc
            · exact Or.inl (Or.inr (Or.inr hc))
        · exact wp_bind (wp_get (wp_pure ⟨h3.lt, h3', next⟩))
    · rintro st r2 ⟨h2, h3, h4⟩
      exact wp_ite (fun _ => wp_pure ⟨h2, h4⟩) (fun _ => wp_pure ⟨h3, h4⟩)

theorem cmdCommon_spec (he : EnvOK env) {ea : ExArg} {cmd : Cmd} {h : Handler} {r0 r : List Cell}
    {st : PState} (hi : HIn env ea h r0 r st) (hk : keepsLine h = true)
    (hlua : h ≠ .lua := by simp) :
    wp tokGet env (cmdCommon ea cmd st) r (fun st' r' => HOut env P r0 st st' r' ∧ Adv r0 r' ∧
      ∃ s, st' = st.add (.excmd ea.cmdpos ea s)) (SErr env) := by
  unfold cmdCommon
  wp_join (fun q r' => OnLine env r0 q ∧ Adv r0 r')
  · intro jp hjp
    refine wp_ite (fun _ => ?_) (fun _ => ?_)
    · exact wp_call (separateNextcmd_spec he hi.suf0 hi.adv) hjp
    · refine wp_bind (wp_getline (wp_bind (wp_getpos ?_)))
      have := hi.adv.trans (spanS_adv (fun _ => true) r)
      exact hjp _ _ ⟨⟨_, rfl, this, rawEnd_stop (Or.inl (getline_end _))⟩, this⟩
  · rintro q r' ⟨hq, ha⟩
    refine wp_bind (wp_getstr (wp_pure ?_))
    obtain ⟨r1, hl⟩ := lineText he hi.suf0 hi.line hq
    exact ⟨.add (.excmd hi.eaOK hi.cmd hk (fun h => absurd h hlua) hl) ha, ha, _, rfl⟩

/-! ### Commands that read following lines -/

theorem HIn.ne {ea : ExArg} {h : Handler} {r0 r : List Cell} {st : PState}
    (hi : HIn env ea h r0 r st) : r0 ≠ [] := hi.at_.choose_spec.ne

theorem setpos_line (he : EnvOK env) {ea : ExArg} {h : Handler} {r0 r : List Cell} {st : PState}
    (hi : HIn env ea h r0 r st) : env.buf.drop ea.linepos.i = r0 := by
  rw [hi.line]; exact hi.suf0.drop_pos he

/-- A line that is not at the end of the input is followed by a line end. -/
theorem line_eol (he : EnvOK env) {r : List Cell} (hs : Suf env r) (hr : r ≠ []) :
    ∃ e r1, (spanS (fun _ => true) r).2 = e :: r1 ∧ e.c = none ∧
      Reads r (spanS (fun _ => true) r).1 (e :: r1) := by
  have h1 := spanS_reads (fun _ => true) r
  have h2 := Adv.ne_nil he hs hr h1.adv
  rcases getline_end r with h | h
  · obtain ⟨e, r1, h3, h4⟩ := headSym_eol h
    exact ⟨e, r1, h3, h4, h3 ▸ h1⟩
  · exact absurd (headSym_eof h) h2

theorem Spec.Lines.snoc {r : List Cell} {ls : List Str} {r1 : List Cell} {l : Str} {e : Cell}
    {r' : List Cell} (h : Lines r ls r1) (hl : Reads r1 l (e :: r')) (he : e.c = none) :
    Lines r (ls ++ [l]) r' := by
  induction h with
  | nil => exact .cons hl he (.nil _)
  | cons h1 h2 _ ih => exact .cons h1 h2 (ih hl)

theorem Spec.Lines.suffix {r : List Cell} {ls : List Str} {r' : List Cell} (h : Lines r ls r') :
    r' <:+ r := by
  induction h with
  | nil => exact List.suffix_rfl
  | cons h1 _ _ ih => exact (ih.trans (List.suffix_cons _ _)).trans h1.adv.suffix

theorem Spec.LinesTo.suffix {m : Str} {r : List Cell} {ls : List Str} {r' : List Cell}
    (h : LinesTo m r ls r') : r' <:+ r := by
  rcases h with h | ⟨_, _, _, h1, _, h2, _⟩
  · exact h.1.suffix
  · exact h2.adv.suffix.trans h1.suffix

theorem linesUntil_spec (he : EnvOK env) {m : Str} {init : List Str} {r : List Cell} (hs : Suf env r)
    {F : Fail → Prop} :
    wp T env (linesUntil m init) r (fun ls r' => ∃ l, ls = init ++ l ∧ LinesTo m r l r') F := by
  unfold linesUntil
  refine wp_loop (fun ls r1 => ∃ l, ls = init ++ l ∧ Lines r l r1 ∧ m ∉ l)
    ⟨[], by simp, .nil r, by simp⟩ ?_
  rintro ls r1 ⟨l, rfl, hl, hm⟩
  refine wp_bind (wp_peek ?_)
  refine wp_ite (fun h => ?_) (fun h => ?_)
  · have := headSym_eof h
    subst this
    exact wp_pure ⟨l, rfl, Or.inl ⟨hl, rfl, hm⟩⟩
  · have hne : r1 ≠ [] := by rintro rfl; exact h rfl
    obtain ⟨e, r2, h1, h2, h3⟩ := line_eol he (hs.of_suffix hl.suffix) hne
    refine wp_bind (wp_getline ?_)
    rw [h1]
    refine wp_ite (fun hc => ?_) (fun hc => ?_)
    · rw [hc] at h3 ⊢
      exact wp_pure ⟨l ++ [m], by simp, Or.inr ⟨l, r1, rfl, hl, hm, h3, by
        left; simp [headSym, Cell.sym, h2]⟩⟩
    · refine wp_bind (wp_get (wp_pure ⟨?_, l ++ [_], by simp, hl.snoc h3 h2, ?_⟩))
      · have := h3.adv.length
        simp at this ⊢; omega
      · simp only [List.mem_append, List.mem_singleton, not_or]
        exact ⟨hm, fun h => hc h.symm⟩

theorem HOut.multi {r0 r' : List Cell} {st : PState} {n : VStmt} (h : Simple env P st n)
    (ha : r' <:+ r0) (hm : IsMulti n) : HOut env P r0 st (st.add n) r' :=
  ⟨⟨[], .add h, by simp⟩, Or.inr ⟨ha, [n], n, rfl, by simp, hm⟩⟩

theorem joinLines_eq (ls : List Str) : joinLines ls = List.intercalate ['\n'] ls := by
  induction ls with
  | nil => rfl
  | cons l ls ih =>
    cases ls with
    | nil => simp [joinLines, List.intercalate]
    | cons m ls =>
      rw [joinLines, ih]
      · simp [List.intercalate, List.intersperse]
      · simp

theorem cmdAppend_spec (he : EnvOK env) {ea : ExArg} {r0 r : List Cell} {st : PState}
    (hi : HIn env ea .append r0 r st) {F : Fail → Prop} :
    wp T env (cmdAppend ea st) r (HOut env P r0 st) F := by
  unfold cmdAppend
  refine wp_bind (wp_setpos ?_)
  rw [setpos_line he hi]
  obtain ⟨e, r1, h1, h2, h3⟩ := line_eol he hi.suf0 hi.ne
  unfold readline
  refine wp_bind (wp_bind (wp_getline (wp_bind (wp_get (wp_pure ?_)))))
  rw [h1]
  have hsuf : r1 <:+ r0 := (List.suffix_cons e r1).trans h3.adv.suffix
  refine wp_call (linesUntil_spec he (hi.suf0.of_suffix hsuf)) ?_
  rintro ls r2 ⟨l, rfl, hl⟩
  refine wp_pure (.multi (.append (line := (spanS (fun _ => true) r0).1) (r' := r2) hi.eaOK hi.cmd ?_)
    (hl.suffix.trans hsuf) (Or.inl hi.cmd))
  exact ⟨r0, hi.suf0, hi.line, e, r1, l, h3, h2, hl, joinLines_eq _⟩

theorem cmdLoadkeymap_spec (he : EnvOK env) {ea : ExArg} {r0 r : List Cell} {st : PState}
    (hi : HIn env ea .loadkeymap r0 r st) {F : Fail → Prop} :
    wp T env (cmdLoadkeymap ea st) r (HOut env P r0 st) F := by
  unfold cmdLoadkeymap
  refine wp_bind (wp_setpos ?_)
  rw [setpos_line he hi]
  obtain ⟨e, r1, h1, h2, h3⟩ := line_eol he hi.suf0 hi.ne
  unfold readline
  refine wp_bind (wp_bind (wp_getline (wp_bind (wp_get (wp_pure ?_)))))
  rw [h1]
  refine wp_call (P := fun ls r' => Lines r0 ls r' ∧ r' = []) ?_ ?_
  · refine wp_loop (fun ls r' => Lines r0 ls r') (.cons h3 h2 (.nil _)) ?_
    intro ls r2 hl
    refine wp_bind (wp_peek ?_)
    refine wp_ite (fun h => wp_pure ⟨hl, headSym_eof h⟩) (fun h => ?_)
    have hne : r2 ≠ [] := by rintro rfl; exact h rfl
    obtain ⟨e', r3, h1', h2', h3'⟩ := line_eol he (hi.suf0.of_suffix hl.suffix) hne
    refine wp_bind (wp_bind (wp_getline (wp_bind (wp_get (wp_pure (wp_pure ?_))))))
    rw [h1']
    refine ⟨?_, hl.snoc h3' h2'⟩
    have := h3'.adv.length
    simp at this ⊢; omega
  · rintro ls r2 ⟨hl, rfl⟩
    rw [joinLines_eq]
    exact wp_pure (.multi (.loadkeymap hi.eaOK hi.cmd hi.suf0 hi.line hl) List.nil_suffix
      (Or.inr (Or.inl hi.cmd)))

/-- The text of a whole line. -/
theorem spanTrue_of_reads {r r' : List Cell} {v : Str} (h : Reads r v r') (he : AtEnd r') :
    spanS (fun _ => true) r = (v, r') := by
  refine spanS_of_reads h (by simp) ?_
  rcases he with h | h <;> rw [h] <;> rfl

theorem peekn_starts {n : Nat} {r : List Cell} {s : Str} (h : (getnS n r).1 = s) : Starts s r :=
  Starts.of_reads (h ▸ getnS_reads n r)

theorem head_of_stop {f : Char → Bool} {r r' : List Cell} {v : Str} (h : Reads r v r')
    (hs : (headSym r).is f = false) : ∀ c, v.head? = some c → f c = false := by
  intro c hc
  cases v with
  | nil => simp at hc
  | cons x v =>
    simp only [List.head?_cons, Option.some.injEq] at hc
    subst hc
    rw [h.head] at hs
    exact hs

theorem cmdLua_spec (he : EnvOK env) {ea : ExArg} {r0 r : List Cell} {st : PState}
    (hi : HIn env ea .lua r0 r st) {F : Fail → Prop} :
    wp T env (cmdLua ea st) r (HOut env P r0 st) F := by
  unfold cmdLua
  refine wp_bind (wp_skipWhite (wp_bind (wp_peekn ?_)))
  refine wp_ite (fun hm => ?_) (fun hm => ?_)
  · obtain ⟨v0, hv0⟩ := Reads.of_adv (hi.adv.trans (spanS_adv iswhite r))
    refine wp_bind (wp_getn (wp_bind (wp_skipWhite ?_)))
    have hv1 := hv0.append (getnS_reads 2 (spanS iswhite r).2)
    rw [hm] at hv1
    have hv2 := hv1.append (spanS_reads iswhite _)
    have hws := spanS_all iswhite (getnS 2 (spanS iswhite r).2).2
    have hst := spanS_stop_is iswhite (getnS 2 (spanS iswhite r).2).2
    generalize (spanS iswhite (getnS 2 (spanS iswhite r).2).2).1 = w at *
    generalize (spanS iswhite (getnS 2 (spanS iswhite r).2).2).2 = r3 at *
    have hr3 := spanS_reads (fun _ => true) r3
    have hv3 := hv2.append hr3
    have hx := head_of_stop hr3 hst
    obtain ⟨e, r1, h1, h2, h3⟩ := line_eol he hi.suf0 hi.ne
    have hline := spanTrue_of_reads hv3 (getline_end r3)
    unfold readline
    refine wp_bind (wp_bind (wp_getline (wp_bind (wp_get (wp_pure ?_)))))
    generalize (spanS (fun _ => true) r3).1 = x at *
    refine wp_bind (wp_setpos ?_)
    rw [setpos_line he hi]
    refine wp_bind (wp_getline (wp_bind (wp_get ?_)))
    rw [h1]
    have hsuf : r1 <:+ r0 := (List.suffix_cons e r1).trans h3.adv.suffix
    refine wp_call (linesUntil_spec he (hi.suf0.of_suffix hsuf)) ?_
    rintro ls r2 ⟨l, rfl, hl⟩
    refine wp_pure (.multi (.script (line := (spanS (fun _ => true) r0).1)
      (m := if x = [] then ['.'] else x) (r' := r2) hi.eaOK hi.cmd ?_ ?_) (hl.suffix.trans hsuf)
      (Or.inr (Or.inr (Or.inl hi.cmd))))
    · exact ⟨v0, w, x, by rw [hline], hws, hx, rfl⟩
    · exact ⟨r0, hi.suf0, hi.line, e, r1, l, h3, h2, hl, joinLines_eq _⟩
  · refine wp_bind (wp_setpos ?_)
    rw [setpos_line he hi]
    refine wp_bind (wp_getline (wp_pure ?_))
    have hscr : ScriptLine env ea := ⟨r, _, _, hi.raw (by simp), spanS_reads iswhite r, spanS_all _ _,
      spanS_stop_is _ _, fun r2 h => hm (congrArg Prod.fst (Starts.of_reads h).getn)⟩
    exact .add (.excmd hi.eaOK hi.cmd rfl (fun _ => hscr) ⟨r0, hi.suf0, hi.line, spanS_reads _ _,
      rawEnd_stop (Or.inl (getline_end _))⟩) (spanS_adv _ _)

theorem cmdFinish_spec (he : EnvOK env) {ea : ExArg} {cmd : Cmd} {r0 r : List Cell} {st : PState}
    (hi : HIn env ea .finish r0 r st) :
    wp tokGet env (cmdFinish ea cmd st) r (HOut env P r0 st) (SErr env) := by
  unfold cmdFinish
  refine wp_call (cmdCommon_spec (P := P) he hi rfl) ?_
  rintro st' r' ⟨h1, h2, s, rfl⟩
  refine wp_ite (fun _ => ?_) (fun _ => wp_pure h1)
  refine wp_bind (wp_seekEnd (wp_pure ⟨h1.steps, Or.inr ⟨List.nil_suffix, [_], _, rfl,
    List.mem_singleton.2 rfl, Or.inr (Or.inr (Or.inr hi.cmd))⟩⟩))

theorem cmdWincmd_spec (he : EnvOK env) {ea : ExArg} {r0 r : List Cell} {st : PState}
    (hi : HIn env ea .wincmd r0 r st) :
    wp T env (cmdWincmd ea st) r (HOut env P r0 st) (SErr env) := by
  unfold cmdWincmd
  refine wp_bind (wp_getn ?_)
  have h1 := hi.adv.trans (getnS_adv 1 r)
  refine wp_ite (fun _ => wp_errHere (err_pos (h1.suf hi.suf0))) (fun _ => ?_)
  wp_join (fun _ r' => Adv r0 r')
  · intro jp hjp
    refine wp_ite (fun _ => ?_) (fun _ => ?_)
    · exact wp_bind (wp_getn (wp_bind (wp_pure (hjp _ _ (h1.trans (getnS_adv _ _))))))
    · exact wp_bind (wp_pure (hjp _ _ h1))
  · intro bad r2 h2
    refine wp_ite (fun _ => wp_errHere (err_pos (h2.suf hi.suf0))) (fun _ => ?_)
    refine wp_bind (wp_getpos (wp_bind (wp_skipWhite (wp_bind (wp_peek ?_)))))
    have h3 := h2.trans (spanS_adv iswhite r2)
    refine wp_ite (fun _ => wp_errHere (err_pos (h3.suf hi.suf0))) (fun hst => ?_)
    refine wp_bind (wp_getstr (wp_pure ?_))
    simp only [Bool.not_eq_true', Bool.not_eq_false] at hst
    obtain ⟨r', hl⟩ := lineText he hi.suf0 hi.line ⟨r2, rfl, h2,
      rawEnd_of (spanS_reads _ _) (spanS_all _ _) (Or.inl (endsSym_iff.1 hst))⟩
    exact .add (.excmd hi.eaOK hi.cmd rfl (by simp) hl) h3

theorem cmdSyntax_spec (he : EnvOK env) {ea : ExArg} {r0 r : List Cell} {st : PState}
    (hi : HIn env ea .syntax r0 r st) :
    wp T env (cmdSyntax ea st) r (HOut env P r0 st) (SErr env) := by
  unfold cmdSyntax
  refine wp_call (P := fun q r' => OnLine env r0 q ∧ Adv r0 r') ?_ ?_
  · refine wp_loop (fun _ r' => Adv r0 r') hi.adv ?_
    intro _ r1 h1
    refine wp_bind (wp_getpos (wp_bind (wp_peek ?_)))
    have pat : ∀ {c : Char} {d : Str}, headSym r1 = .ch c →
        wp T env (do let _ ← getn 1; let _ ← parsePattern d; let _ ← getn 1; pure (.inl ())) r1
          (fun (x : Unit ⊕ Pos) r' => x = .inl () ∧ r'.length < r1.length ∧ Adv r0 r') (SErr env) := by
      intro c d hc
      refine wp_bind (wp_getn ?_)
      have h2 := getnS_head hc 0
      refine wp_call (parsePattern_spec ((h1.trans h2.1).suf hi.suf0)) ?_
      intro x r3 hx
      have h3 := (h2.trans_adv hx.1.adv).trans_adv (getnS_adv 1 r3)
      exact wp_bind (wp_getn (wp_pure ⟨rfl, h3.lt, h1.trans h3.1⟩))
    refine wp_ite (fun hc => ?_) (fun _ => ?_)
    · rcases hc with hc | hc | hc <;> exact wp_mono (pat hc) (by rintro _ _ ⟨rfl, h⟩; exact h)
    refine wp_ite (fun hc => wp_mono (pat hc) (by rintro _ _ ⟨rfl, h⟩; exact h)) (fun _ => ?_)
    refine wp_ite (fun hst => wp_pure ⟨⟨r1, rfl, h1, rawEnd_stop (endsSym_iff.1 hst)⟩, h1⟩) (fun hn => ?_)
    cases hc : headSym r1 with
    | eof => rw [hc] at hn; exact absurd rfl hn
    | eol => rw [hc] at hn; exact absurd rfl hn
    | ch c =>
      exact wp_bind (wp_getn (wp_pure ⟨(getnS_head hc 0).lt, h1.trans (getnS_head hc 0).1⟩))
  · rintro q r' ⟨hq, ha⟩
    refine wp_bind (wp_getstr (wp_pure ?_))
    obtain ⟨r1, hl⟩ := lineText he hi.suf0 hi.line hq
    exact .add (.excmd hi.eaOK hi.cmd rfl (by simp) hl) ha

/-! ### Expressions and left-hand sides -/

theorem parseExprlist_spec (he : EnvOK env) (hP : Closed env P) {r : List Cell} (hs : Suf env r) :
    wp tokGet env parseExprlist r (fun l r' => (∀ e ∈ l, DerE env P e) ∧ Adv r r') (SErr env) := by
  unfold parseExprlist
  refine wp_loop (fun l r' => (∀ e ∈ l, DerE env P e) ∧ Adv r r') ⟨by simp, Adv.refl r⟩ ?_
  rintro l r1 ⟨hl, h1⟩
  refine wp_bind (wp_skipWhite (wp_bind (wp_peek ?_)))
  have h2 := h1.trans (spanS_adv iswhite r1)
  refine wp_ite (fun _ => wp_pure ⟨hl, h2⟩) (fun _ => ?_)
  refine wp_call (expr_spec he hP (h2.suf hs)) ?_
  intro e r3 hx
  refine wp_pure ⟨((spanS_adv iswhite r1).trans_sadv hx.der.adv).lt, ?_, h2.trans hx.der.adv.1⟩
  intro y hy
  rcases List.mem_append.1 hy with hy | hy
  · exact hl y hy
  · rw [List.mem_singleton] at hy
    exact hy ▸ hx.derE hP (by omega)

theorem parseLvalueFunc_spec (he : EnvOK env) (hP : Closed env P) {r : List Cell} (hs : Suf env r) :
    wp tokGet env parseLvalueFunc r (fun e r' => Ex env P 8 r e r' ∧ isLvalueFunc e = true) (SErr env) := by
  unfold parseLvalueFunc
  refine wp_call (lv_spec he hP hs) ?_
  intro e r1 hx
  exact wp_ite (fun h => wp_pure ⟨hx, h⟩) (fun _ => wp_errAt hx.pos)

/-- The expression is a target of an assignment. -/
structure Lval (env : Env) (P : Nat → ERel) (r : List Cell) (e : VExpr) (r' : List Cell) : Prop where
  ex : Ex env P 8 r e r'
  shape : isLvalue e = true
  name : badVarname e = none

theorem Lval.lvalE (hP : Closed env P) {r : List Cell} {e : VExpr} {r' : List Cell}
    (h : Lval env P r e r') : LvalE env P e := ⟨h.ex.derE hP (by omega), h.shape, h.name⟩

theorem parseLvalue_spec (he : EnvOK env) (hP : Closed env P) {r : List Cell} (hs : Suf env r) :
    wp tokGet env parseLvalue r (Lval env P r) (SErr env) := by
  unfold parseLvalue
  refine wp_call (lv_spec he hP hs) ?_
  intro e r1 hx
  cases hb : badVarname e with
  | some v => exact wp_errAt hx.pos
  | none => exact wp_ite (fun h => wp_pure ⟨hx, h, hb⟩) (fun _ => wp_errAt hx.pos)

theorem parseConstlvalue_spec (he : EnvOK env) (hP : Closed env P) {r : List Cell} (hs : Suf env r) :
    wp tokGet env parseConstlvalue r (fun e r' => Lval env P r e r' ∧ constTarget e = true)
      (SErr env) := by
  unfold parseConstlvalue
  refine wp_call (lv_spec he hP hs) ?_
  intro e r1 hx
  cases hb : badVarname e with
  | some v => exact wp_errAt hx.pos
  | none =>
    simp only
    split <;> first | exact wp_pure ⟨⟨hx, rfl, hb⟩, rfl⟩ | exact wp_errAt hx.pos

theorem snoc_all {Q : VExpr → Prop} {l : List VExpr} {e : VExpr} (hl : ∀ x ∈ l, Q x) (h : Q e) :
    ∀ x ∈ l ++ [e], Q x := by
  intro y hy
  rcases List.mem_append.1 hy with hy | hy
  · exact hl y hy
  · rw [List.mem_singleton] at hy
    exact hy ▸ h

theorem parseLvaluelist_spec (he : EnvOK env) (hP : Closed env P) {r : List Cell} (hs : Suf env r) :
    wp tokGet env parseLvaluelist r (fun l r' => ArgsOK env P l ∧ Adv r r') (SErr env) := by
  unfold parseLvaluelist
  refine wp_call (expr_spec he hP hs) ?_
  intro e r0 h0
  refine wp_loop (fun l r' => ArgsOK env P l ∧ Adv r r')
    ⟨⟨e, [], rfl, h0.derE hP (by omega), by simp⟩, h0.der.adv.1⟩ ?_
  rintro _ r1 ⟨⟨e, l, rfl, hf, hl⟩, h1⟩
  refine wp_bind (wp_skipWhite (wp_bind (wp_peek ?_)))
  have h2 := h1.trans (spanS_adv iswhite r1)
  refine wp_ite (fun _ => wp_pure ⟨⟨e, l, rfl, hf, hl⟩, h2⟩) (fun _ => ?_)
  refine wp_call (parseLvalue_spec he hP (h2.suf hs)) ?_
  intro e' r3 hx
  exact wp_pure ⟨((spanS_adv iswhite r1).trans_sadv hx.ex.der.adv).lt,
    ⟨e, l ++ [e'], rfl, hf, snoc_all hl (hx.lvalE hP)⟩, h2.trans hx.ex.der.adv.1⟩

theorem parseLhs_spec (he : EnvOK env) (hP : Closed env P) {single : Prog VExpr} {C : VExpr → Prop}
    {r : List Cell} (hs : Suf env r)
    (hsg : wp tokGet env single r (fun e r' => Lval env P r e r' ∧ C e) (SErr env)) :
    wp tokGet env (parseLhs single) r (fun lhs r' => LhsOK env P lhs ∧
      (∀ e, lhs.left = some e → C e) ∧ Adv r r') (SErr env) := by
  unfold parseLhs
  refine wp_tokpeekS he hs ?_
  intro t r1 ht hta
  refine wp_ite (fun hty => ?_) (fun _ => ?_)
  · refine wp_tokS he hs ?_
    intro t' r1' ht' hta' hs1
    rw [ht] at ht'
    cases ht'
    have ha1 : SAdv r r1 := hta'.sadv (by rw [hty]; decide) (by rw [hty]; decide)
    refine wp_loop (fun l r' => (∀ e ∈ l, LvalE env P e) ∧ Adv r r') ⟨by simp, ha1.1⟩ ?_
    rintro l r2 ⟨hl, h2⟩
    refine wp_call (parseLvalue_spec he hP (h2.suf hs)) ?_
    intro e r3 hx
    have h3 := h2.trans hx.ex.der.adv.1
    have hl' : ∀ y ∈ l ++ [e], LvalE env P y := snoc_all hl (hx.lvalE hP)
    refine wp_tokS he (h3.suf hs) ?_
    intro t2 r4 ht2 hta2 hs4
    refine wp_ite (fun h => ?_) (fun _ => ?_)
    · have h4 := hta2.sadv (by rw [h]; decide) (by rw [h]; decide)
      exact wp_pure ⟨.list (by simp) hl' (by simp), by simp, h3.trans h4.1⟩
    refine wp_ite (fun h => ?_) (fun _ => ?_)
    · have h4 := hta2.sadv (by rw [h]; decide) (by rw [h]; decide)
      exact wp_pure ⟨(hx.ex.der.adv.trans h4).lt, hl', h3.trans h4.1⟩
    refine wp_ite (fun h => ?_) (fun _ => wp_errAt (hta2.posOK (h3.suf hs)))
    have h4 := h3.trans (hta2.sadv (by rw [h]; decide) (by rw [h]; decide)).1
    refine wp_call (parseLvalue_spec he hP hs4) ?_
    intro e' r5 hx'
    have h5 := h4.trans hx'.ex.der.adv.1
    refine wp_tokS he (h5.suf hs) ?_
    intro t3 r6 ht3 hta3 hs6
    refine wp_ite (fun h => ?_) (fun _ => wp_errAt (hta3.posOK (h5.suf hs)))
    have h6 := hta3.sadv (by rw [h]; decide) (by rw [h]; decide)
    refine wp_pure ⟨.list (by simp) hl' ?_, by simp, h5.trans h6.1⟩
    rintro y hy
    simp only [Option.some.injEq] at hy
    exact hy ▸ hx'.lvalE hP
  · refine wp_call hsg ?_
    rintro e r2 ⟨hx, hc⟩
    refine wp_pure ⟨.one (hx.lvalE hP), ?_, hx.ex.der.adv.1⟩
    rintro y hy
    simp only [Option.some.injEq] at hy
    exact hy ▸ hc

/-! ### Functions -/

theorem parseParams_spec (he : EnvOK env) (hP : Closed env P) {r : List Cell} (hs : Suf env r) :
    wp tokGet env parseParams r (fun st r' => Adv r r' ∧ ∃ ps dots, FParams env P false [] r ps dots r' ∧
      st.rlist = ps.map (·.1) ++ dots ∧ st.defaults = ps.filterMap (·.2)) (SErr env) := by
  unfold parseParams
  refine wp_tokpeekS he hs ?_
  intro t r1 ht hta
  refine wp_ite (fun hty => ?_) (fun _ => ?_)
  · refine wp_tokS he hs ?_
    intro t' r1' ht' hta' hs1
    rw [ht] at ht'
    cases ht'
    exact wp_pure ⟨(hta'.sadv (by rw [hty]; decide) (by rw [hty]; decide)).1, [], [],
      .close ⟨ht, hty⟩, rfl, rfl⟩
  refine wp_loop (fun (st : ParamSt) r' => Adv r r' ∧ ∃ ps : List ((Pos × Str) × Option VExpr),
    st.rlist = ps.map (·.1) ∧ st.defaults = ps.filterMap (·.2) ∧
    ∀ qs dots r'', FParams env P (decide (0 < st.defaults.length)) st.named r' qs dots r'' →
      FParams env P false [] r (ps ++ qs) dots r'')
    ⟨Adv.refl r, [], rfl, rfl, fun _ _ _ h => h⟩ ?_
  rintro ⟨rlist, defs, named⟩ r2 ⟨h2, ps, hrl, hdf, hps⟩
  simp only at hrl hdf hps
  have hs2 := h2.suf hs
  refine wp_tokS he hs2 ?_
  intro t r3 ht3 hta3 hs3
  refine wp_ite (fun hid => ?_) (fun _ => ?_)
  · have a3 := hta3.sadv (by rw [hid]; decide) (by rw [hid]; decide)
    have htp := hta3.posOK hs2
    refine wp_ite (fun _ => wp_errAt htp) (fun hok => ?_)
    refine wp_ite (fun _ => wp_errAt htp) (fun hnd => ?_)
    simp only [Bool.or_eq_true, Bool.not_eq_true', beq_iff_eq, not_or, Bool.not_eq_false] at hok
    obtain ⟨⟨harg, hfl⟩, hll⟩ := hok
    simp only [Bool.not_eq_true, List.contains_eq_mem, decide_eq_false_iff_not] at hnd
    refine wp_tokpeekS he hs3 ?_
    intro t1 r3' ht1 hta1
    wp_join (fun dl r4 => Adv r3 r4 ∧ ∃ o : Option VExpr, dl = defs ++ o.toList ∧
      (decide (0 < defs.length) = true → o ≠ none) ∧
      (o = none ∧ r4 = r3 ∨ ∃ e t2 r5, o = some e ∧ Tk env r3 .eq t2 r5 ∧ Der env P 1 r5 e r4))
    · intro jp hjp
      refine wp_ite (fun heq => ?_) (fun _ => ?_)
      · refine wp_tokS he hs3 ?_
        intro t2 r5 ht2 hta2 hs5
        rw [ht1] at ht2
        cases ht2
        have a5 := hta2.sadv (by rw [heq]; decide) (by rw [heq]; decide)
        refine wp_call (expr_spec he hP hs5) ?_
        intro e r6 hx
        exact wp_bind (wp_pure (hjp _ _ ⟨a5.1.trans hx.der.adv.1, some e, rfl, by simp,
          Or.inr ⟨e, t1, r3', rfl, ⟨ht1, heq⟩, hx.der⟩⟩))
      · refine wp_ite (fun _ => wp_bind (wp_errAt htp)) (fun hl => ?_)
        exact wp_bind (wp_pure (hjp _ _ ⟨Adv.refl _, none, by simp, by simpa using hl,
          Or.inl ⟨rfl, rfl⟩⟩))
    · rintro dl r4 ⟨a4, o, rfl, hdo, ho⟩
      have hs4 := a4.suf hs3
      refine wp_call (P := fun _ r' => r' = r4) ?_ ?_
      · refine wp_pand (wp_pSat (p0_safe _) ?_)
        refine dite ((symAt 0 r4).is iswhite = true) (fun h => ?_) (fun h => ?_)
        · rw [h]
          exact wp_tokpeekS he hs4 (fun _ _ _ _ => wp_pure rfl)
        · rw [Bool.not_eq_true] at h
          rw [h]; rfl
      · rintro b r4' rfl
        refine wp_ite (fun _ => wp_errHere (err_pos hs4)) (fun _ => ?_)
        refine wp_tokS he hs4 ?_
        intro t2 r5 ht2 hta2 hs5
        have hadv : Adv r r4' := (h2.trans a3.1).trans a4
        have hmap : rlist ++ [(t.pos, t.value)] = (ps ++ [((t.pos, t.value), o)]).map (·.1) := by
          simp [hrl]
        have hfm : defs ++ o.toList = (ps ++ [((t.pos, t.value), o)]).filterMap (·.2) := by
          rw [List.filterMap_append, ← hdf]
          cases o <;> rfl
        have hd : (decide (0 < defs.length) || o.isSome) = decide (0 < (defs ++ o.toList).length) := by
          cases o <;> simp
        refine wp_ite (fun hcm => ?_) (fun _ => ?_)
        · have a5 := hta2.sadv (by rw [hcm]; decide) (by rw [hcm]; decide)
          have step : ∀ qs dots r'', FParams env P (decide (0 < (defs ++ o.toList).length))
              (t.value :: named) r5 qs dots r'' →
              FParams env P false [] r ((ps ++ [((t.pos, t.value), o)]) ++ qs) dots r'' := by
            intro qs dots r'' h
            rw [List.append_assoc]
            refine hps _ _ _ (.cons ⟨ht3, hid⟩ harg hfl hll hnd hdo ho ⟨ht2, hcm⟩ ?_)
            rw [hd]; exact h
          refine wp_tokpeekS he hs5 ?_
          intro t3 r6 ht6 hta6
          refine wp_ite (fun hpc => ?_) (fun _ => ?_)
          · refine wp_tokS he hs5 ?_
            intro t6' r6' ht6' hta6' hs6
            rw [ht6] at ht6'
            cases ht6'
            have a6 := hta6'.sadv (by rw [hpc]; decide) (by rw [hpc]; decide)
            refine wp_pure ⟨(hadv.trans a5.1).trans a6.1, ps ++ [((t.pos, t.value), o)], [], ?_, ?_, hfm⟩
            · have := step [] [] r6 (.close ⟨ht6, hpc⟩)
              rwa [List.append_nil] at this
            · rw [List.append_nil]; exact hmap
          · exact wp_pure ⟨(a3.trans_adv (a4.trans a5.1)).lt, hadv.trans a5.1, _, hmap, hfm, step⟩
        refine wp_ite (fun hpc => ?_) (fun _ => ?_)
        · have a5 := hta2.sadv (by rw [hpc]; decide) (by rw [hpc]; decide)
          refine wp_pure ⟨hadv.trans a5.1, ps ++ [((t.pos, t.value), o)], [], ?_, ?_, hfm⟩
          · exact hps _ _ _ (.last ⟨ht3, hid⟩ harg hfl hll hnd hdo ho ⟨ht2, hpc⟩)
          · rw [List.append_nil]; exact hmap
        · exact wp_monoF (unexpected_spec (Q := fun _ _ => False) hs4 hta2) (fun _ _ h => h.elim)
            (fun _ h => .of _ h)
  refine wp_ite (fun hdd => ?_) (fun _ => ?_)
  · have a3 := hta3.sadv (by rw [hdd]; decide) (by rw [hdd]; decide)
    refine wp_tokS he hs3 ?_
    intro t2 r4 ht4 hta4 hs4
    refine wp_ite (fun hpc => ?_) (fun _ => ?_)
    · have a4 := hta4.sadv (by rw [hpc]; decide) (by rw [hpc]; decide)
      refine wp_pure ⟨(h2.trans a3.1).trans a4.1, ps, [(t.pos, t.value)], ?_, by rw [← hrl], hdf⟩
      have := hps [] _ _ (.dots ⟨ht3, hdd⟩ ⟨ht4, hpc⟩)
      rwa [List.append_nil] at this
    · exact wp_monoF (unexpected_spec (Q := fun _ _ => False) hs3 hta4) (fun _ _ h => h.elim)
        (fun _ h => .of _ h)
  · exact wp_monoF (unexpected_spec (Q := fun _ _ => False) hs2 hta3) (fun _ _ h => h.elim)
      (fun _ h => .of _ h)

theorem Spec.AttrWords.snoc {r r1 r2 r' : List Cell} {ks : List Str} {w k : Str} (h : AttrWords r ks r1)
    (h1 : Reads r1 w r2) (hw : White w) (h2 : Reads r2 k r') (hk : Many1 isalpha k) :
    AttrWords r (ks ++ [k]) r' := by
  induction h with
  | nil => exact .cons h1 hw h2 hk .nil
  | cons a b c d _ ih => exact .cons a b c d (ih h1)

theorem parseFuncAttrs_spec {r : List Cell} (hs : Suf env r) :
    wp T env parseFuncAttrs r (fun a r' => AttrOK r a ∧ Adv r r') (SErr env) := by
  unfold parseFuncAttrs
  refine wp_loop (fun a r1 => Adv r r1 ∧ ∃ ks, AttrWords r ks r1 ∧
    (∀ k ∈ ks, k ∈ [cs!"range", cs!"abort", cs!"dict", cs!"closure"]) ∧
    a = ⟨ks.contains cs!"range", ks.contains cs!"abort", ks.contains cs!"dict", ks.contains cs!"closure"⟩)
    ⟨Adv.refl r, [], .nil, by simp, rfl⟩ ?_
  rintro a r1 ⟨h1, ks, hks, hin, rfl⟩
  refine wp_bind (wp_skipWhite (wp_bind (wp_getpos (wp_bind (wp_readWhile ?_)))))
  have h2 := h1.trans (spanS_adv iswhite r1)
  have h3 := h2.trans (spanS_adv isalpha _)
  refine wp_ite (fun hnil => wp_pure ⟨⟨ks, r1, _, _, hks, spanS_reads iswhite r1, spanS_all _ _, ?_, hin, rfl⟩,
    h3⟩) (fun hne => ?_)
  · have hr := spanS_reads isalpha (spanS iswhite r1).2
    have hst := spanS_stop_is isalpha (spanS iswhite r1).2
    rw [hnil] at hr
    rw [hr.unnil] at hst
    exact hst
  have hl : (spanS isalpha (spanS iswhite r1).2).2.length < r1.length :=
    ((spanS_adv iswhite r1).trans_sadv ((spanS_reads isalpha _).sadv hne)).lt
  have hsn := hks.snoc (spanS_reads iswhite r1) (spanS_all iswhite r1) (spanS_reads isalpha _)
    ⟨hne, spanS_all isalpha _⟩
  generalize (spanS isalpha (spanS iswhite r1).2).1 = k at *
  have hall : k ∈ [cs!"range", cs!"abort", cs!"dict", cs!"closure"] →
      ∀ x ∈ ks ++ [k], x ∈ [cs!"range", cs!"abort", cs!"dict", cs!"closure"] := by
    intro hk x hx
    rcases List.mem_append.1 hx with hx | hx
    · exact hin x hx
    · rw [List.mem_singleton] at hx
      exact hx ▸ hk
  refine wp_ite (fun hk => ?_) (fun _ => ?_)
  · subst hk
    exact wp_pure ⟨hl, h3, _, hsn, hall (by decide), by simp [List.contains_eq_mem]⟩
  refine wp_ite (fun hk => ?_) (fun _ => ?_)
  · subst hk
    exact wp_pure ⟨hl, h3, _, hsn, hall (by decide), by simp [List.contains_eq_mem]⟩
  refine wp_ite (fun hk => ?_) (fun _ => ?_)
  · subst hk
    exact wp_pure ⟨hl, h3, _, hsn, hall (by decide), by simp [List.contains_eq_mem]⟩
  refine wp_ite (fun hk => ?_) (fun _ => ?_)
  · subst hk
    exact wp_pure ⟨hl, h3, _, hsn, hall (by decide), by simp [List.contains_eq_mem]⟩
  exact wp_errAt (h2.suf hs).posOf

theorem cmdCommon_out (he : EnvOK env) {ea : ExArg} {cmd : Cmd} {h : Handler} {r0 r : List Cell}
    {st : PState} (hi : HIn env ea h r0 r st) (hk : keepsLine h = true)
    (hlua : h ≠ .lua := by simp) :
    wp tokGet env (cmdCommon ea cmd st) r (HOut env P r0 st) (SErr env) :=
  wp_mono (cmdCommon_spec he hi hk hlua) (fun _ _ h => h.1)

theorem checkFuncName_ne {e : VExpr} (h : ∀ q v, e = .atom q .identifier v → v ≠ []) :
    checkFuncName e ≠ none := by
  unfold checkFuncName
  split
  · exact absurd rfl (h _ _ rfl)
  · split <;> simp
  · simp

theorem cmdFunction_spec (he : EnvOK env) (hP : Closed env P) {ea : ExArg} {cmd : Cmd}
    {r0 r : List Cell} {st : PState} (hi : HIn env ea .function r0 r st) :
    wp tokGet env (cmdFunction ea cmd st) r (HOut env P r0 st) (SErr env) := by
  unfold cmdFunction
  refine wp_bind (wp_tell (wp_bind (wp_skipWhite (wp_bind (wp_peek ?_)))))
  have h1 := hi.adv.trans (spanS_adv iswhite r)
  refine wp_ite (fun _ => wp_bind (wp_seekSet (cmdCommon_out he hi rfl))) (fun _ => ?_)
  refine wp_bind (wp_peekn ?_)
  refine wp_ite (fun _ => wp_bind (wp_seekSet (cmdCommon_out he hi rfl))) (fun _ => ?_)
  refine wp_call (parseLvalueFunc_spec he hP (h1.suf hi.suf0)) ?_
  rintro e r2 ⟨hx, hlf⟩
  have h2 := (h1.trans hx.der.adv.1).trans (spanS_adv iswhite r2)
  refine wp_bind (wp_skipWhite ?_)
  cases hck : checkFuncName e with
  | none => exact absurd hck (checkFuncName_ne hx.name)
  | some o =>
    cases o with
    | some msg => exact wp_errAt hx.pos
    | none =>
      refine wp_bind (wp_peekn ?_)
      refine wp_ite (fun _ => wp_bind (wp_seekSet (cmdCommon_out he hi rfl))) (fun hpo => ?_)
      refine wp_bind (wp_getn ?_)
      have h3 := h2.trans (getnS_adv 1 _)
      have hpar := getnS_reads 1 (spanS iswhite r2).2
      simp only [ne_eq, Decidable.not_not] at hpo
      rw [hpo] at hpar
      refine wp_call (parseParams_spec he hP (h3.suf hi.suf0)) ?_
      rintro ps r4 ⟨h4, l, dots, hl, e1, e2⟩
      refine wp_call (parseFuncAttrs_spec ((h3.trans h4).suf hi.suf0)) ?_
      rintro at_ r5 ⟨hat, h5⟩
      refine wp_pure ?_
      rw [e1, e2]
      exact .one (.opens (.function hi.eaOK hi.cmd (hx.derE hP (by omega)) hlf hck
        (((hi.arg.adv (spanS_adv _ _)).adv hx.der.adv.1).adv (spanS_adv _ _)) hpar hl hat))
        ((h3.trans h4).trans h5)

end

end Viml
