/-
The errors of heredocs, `:let`, `:const` and `:function`.
-/
import Verif.Lemmas.FileErrArgs
import Verif.Lemmas.FileSimple

namespace Viml
open Prog Spec

section
variable {env : Env} {fn : Str} {r r' : List Cell} {st st' : PState} {ea : ExArg} {c : Cmd} {r0 ra : List Cell} {msg : Str} {q : Pos}

/-! ### Heredocs -/

theorem avoids_hereHead : Avoids Fail.isErr heredocHead := by
  rw [heredocHead_eq]
  unfold hereBody readWord
  avoid []

theorem span_nil_iff {f : Char → Bool} {r r' : List Cell} : Span f r [] r' ↔ r' = r ∧ (headSym r).is f = false := by
  constructor
  · rintro ⟨h1, _, h2⟩
    have := h1.nil_inv
    subst this
    exact ⟨rfl, h2⟩
  · rintro ⟨rfl, h⟩
    exact ⟨Reads.nil _, by simp, h⟩

theorem noMarker_sound {fs : List (Pos × Str)} (h : Ok env heredocHead r (fs, []) r') : NoMarker r r' := by
  rw [heredocHead_eq] at h
  refine loop_ind (P := fun _ r => NoMarker r r') ?_ ?_ h
  · intro rl r h
    obtain ⟨r1, h1, key, h2, ⟨rfl, h3⟩ | ⟨c, t, rfl, ⟨_, h3⟩ | ⟨_, h3⟩⟩⟩ := hereBody_iff.1 h
    · obtain ⟨rfl, h4⟩ := span_nil_iff.1 h2
      exact .none h1 h4
    · cases h3
    · cases h3
  · intro rl r s1 r1 h ih
    obtain ⟨r2, h1, key, h2, ⟨_, h3⟩ | ⟨c, t, rfl, ⟨_, h3⟩ | ⟨h4, h3⟩⟩⟩ := hereBody_iff.1 h
    · cases h3
    · cases h3
    · exact .flag h1 h2 h4 ih

theorem noMarker_complete (h : NoMarker r r') : ∀ rl, ∃ fs, Ok env (loop hereBody rl) r (fs, []) r' := by
  induction h with
  | none h1 h2 =>
    intro rl
    exact ⟨rl, loop_done (hereBody_iff.2 ⟨_, h1, [], span_nil_iff.2 ⟨rfl, h2⟩, .inl ⟨rfl, rfl⟩⟩)⟩
  | flag h1 h2 h3 _ ih =>
    intro rl
    obtain ⟨fs, h4⟩ := ih _
    exact ⟨fs, loop_more (hereBody_iff.2 ⟨_, h1, _, h2, .inr ⟨_, _, rfl, .inr ⟨h3, rfl⟩⟩⟩)
      (h1.adv.trans_sadv (h2.1.sadv (by simp))).lt h4⟩

theorem Spec.NoMarker.skip {r1 : List Cell} (h : Skip r r1) : NoMarker r1 r' ↔ NoMarker r r' := by
  constructor
  · intro h1
    cases h1 with
    | none h1 h2 => rw [← h.again.det h1] at h2 ⊢; exact .none h h2
    | flag h1 h2 h3 h4 => rw [← h.again.det h1] at h2; exact .flag h h2 h3 h4
  · intro h1
    cases h1 with
    | none h1 h2 => rw [← h.det h1] at h2 ⊢; exact .none h.again h2
    | flag h1 h2 h3 h4 => rw [← h.det h1] at h2; exact .flag h.again h2 h3 h4

theorem bad_hereLine {op : Str} {body : List (Pos × Str)} : Bad env (hereLine op body) r msg q ↔
    r = [] ∧ msg = cs!"E990: Missing end marker '" ++ op ++ cs!"'" ∧ q = env.eof := by
  unfold hereLine
  rw [badb_peek, bad_ite, eof_nil, bad_errHere]
  constructor
  · rintro (⟨rfl, h1, rfl⟩ | ⟨_, h⟩)
    · exact ⟨rfl, h1, rfl⟩
    · refine (Bad.avoid h ?_).elim
      avoid []
  · rintro ⟨rfl, h1, rfl⟩
    exact .inl ⟨rfl, h1, rfl⟩

theorem hLines_nil {m : Str} {ls : List (Pos × Str)} (hm : m ≠ []) : ¬ HLines env m [] ls r' := by
  intro h
  cases h with
  | done h1 _ =>
    cases m with
    | nil => exact hm rfl
    | cons c m => cases h1.head
  | cons h1 _ _ _ =>
    obtain ⟨p, hp, _⟩ := h1
    cases p <;> cases hp

theorem RestOf.det {l l' : Str} {r1 r2 : List Cell} (h : RestOf r l r1) (h' : RestOf r l' r2) : l = l' ∧ r1 = r2 :=
  (spanAll_iff.2 h).det (spanAll_iff.2 h')

theorem bad_hereLines (he : EnvOK env) (hs : Suf env r) {m : Str} (hm : m ≠ []) : Bad env (heredocBody m) r msg q ↔
    (∀ body r', ¬ HLines env m r body r') ∧ msg = cs!"E990: Missing end marker '" ++ m ++ cs!"'" ∧ q = env.eof := by
  rw [heredocBody_eq]
  have line : ∀ r, Suf env r → r ≠ [] → ∃ l e r1, RestOf r l (e :: r1) ∧ e.c = none := by
    intro r hs hne
    obtain ⟨l, r1, h⟩ := span_total (fun _ => true) r
    have h := spanAll_iff.1 h
    obtain ⟨e, r2, rfl, h2⟩ := rest_line (hs.tidy he) hne h
    exact ⟨l, e, r2, h, h2⟩
  refine bad_loop_iff (D := fun _ r => Suf env r) (B := fun (_ : List (Pos × Str)) r =>
    (∀ body r', ¬ HLines env m r body r') ∧ msg = cs!"E990: Missing end marker '" ++ m ++ cs!"'" ∧ q = env.eof) ?_ ?_ hs
  · intro s r s1 r1 hs h
    obtain ⟨h1, l, r2, h2, ⟨_, h3, _⟩ | ⟨_, h3, rfl⟩⟩ := hereLine_iff.1 h
    · cases h3
    · refine ⟨?_, (h2.1.adv.suf hs).tail⟩
      obtain ⟨e, r3, rfl, _⟩ := rest_line (hs.tidy he) (fun h => h1 (eof_nil.2 h)) h2
      have := h2.1.adv.length
      simp only [List.tail_cons, List.length_cons] at this ⊢
      omega
  · intro s r hs
    rw [bad_hereLine]
    by_cases hne : r = []
    · subst hne
      constructor
      · rintro ⟨_, h1, h2⟩; exact .inl ⟨rfl, h1, h2⟩
      · rintro (⟨_, h1, h2⟩ | ⟨s1, r1, h, _⟩)
        · exact ⟨fun _ _ => hLines_nil hm, h1, h2⟩
        · exact absurd rfl (hereLine_iff.1 h).1
    · obtain ⟨l, e, r1, h1, h2⟩ := line r hs hne
      constructor
      · rintro ⟨h3, h4⟩
        by_cases hl : l = m
        · subst hl
          exact absurd (.done h1.1 h1.2) (h3 [] _)
        · refine .inr ⟨_, r1, hereLine_iff.2 ⟨Suf.ne_eof hne, l, _, h1, .inr ⟨hl, rfl, rfl⟩⟩, fun body r' h5 => ?_, h4⟩
          exact h3 _ _ (.cons h1.1 h2 hl h5)
      · rintro (⟨h, _⟩ | ⟨s1, r2, h, h3, h4⟩)
        · exact absurd h hne
        refine ⟨fun body r' h5 => ?_, h4⟩
        obtain ⟨_, l', r3, h6, ⟨_, h7, _⟩ | ⟨hl, _, rfl⟩⟩ := hereLine_iff.1 h
        · cases h7
        obtain ⟨rfl, rfl⟩ := RestOf.det h1 h6
        cases h5 with
        | done k1 k2 => exact hl (RestOf.det h1 ⟨k1, k2⟩).1
        | cons k1 k2 _ k4 =>
          obtain ⟨_, k5⟩ := RestOf.det h1 ⟨k1, atEnd_cons k2⟩
          cases k5
          exact h3 _ _ k4

theorem bad_heredoc (he : EnvOK env) (hs : Suf env r) : Bad env (parseHeredoc ea st) r msg q ↔ HereErr env fn r msg q := by
  unfold parseHeredoc
  rw [badb_match avoids_hereHead.noBad]
  constructor
  · rintro ⟨⟨fs, m⟩, r1, h1, h⟩
    rcases bad_ite.1 h with ⟨hm, h⟩ | ⟨hm, h⟩
    · obtain ⟨rfl, rfl⟩ := bad_errHere.1 h
      subst hm
      exact .marker (noMarker_sound h1)
    have hh := hereHead_sound h1 hm
    have s1 := hh.adv.suf hs
    rcases bad_bind.1 h with h | ⟨st1, r2, h2, h⟩
    · exact .trail hh (bad_trail.1 h)
    obtain ⟨vs, cm, rfl, h3, h4⟩ := trail_sound (fn := fn) he s1 h2
    obtain ⟨k1, rfl, rfl⟩ := (bad_hereLines he (h4.suf s1) hm).1 (bad_then_pure.1 h)
    exact .body hh h4 k1
  · intro h
    cases h with
    | marker h1 =>
      obtain ⟨fs, h2⟩ := noMarker_complete (env := env) h1 []
      exact ⟨(fs, []), _, h2, bad_ite.2 (.inl ⟨rfl, bad_errHere.2 ⟨rfl, rfl⟩⟩)⟩
    | trail h1 h2 =>
      have := hereHead_complete h1 []
      exact ⟨_, _, this, bad_ite.2 (.inr ⟨h1.ne, bad_bind.2 (.inl (bad_trail.2 h2))⟩)⟩
    | body h1 h2 h3 =>
      have := hereHead_complete h1 []
      obtain ⟨vs, _, h5⟩ := trail_complete h2
      refine ⟨_, _, this, bad_ite.2 (.inr ⟨h1.ne, bad_bind.2 (.inr ⟨_, _, h5 st, ?_⟩)⟩)⟩
      exact bad_then_pure.2 ((bad_hereLines he (h2.suf (h1.adv.suf hs)) h1.ne).2 ⟨h3, rfl, rfl⟩)

theorem Spec.HereErr.skip {r1 : List Cell} (h : Skip r r1) : HereErr env fn r1 msg q ↔ HereErr env fn r msg q := by
  constructor
  · intro h1
    cases h1 with
    | marker h1 => exact .marker ((Spec.NoMarker.skip h).1 h1)
    | trail h1 h2 => exact .trail ((Spec.HereHead.skip h).1 h1) h2
    | body h1 h2 h3 => exact .body ((Spec.HereHead.skip h).1 h1) h2 h3
  · intro h1
    cases h1 with
    | marker h1 => exact .marker ((Spec.NoMarker.skip h).2 h1)
    | trail h1 h2 => exact .trail ((Spec.HereHead.skip h).2 h1) h2
    | body h1 h2 h3 => exact .body ((Spec.HereHead.skip h).2 h1) h2 h3

/-! ### :let and :const -/

theorem op_head {op : Str} (hop : op ∈ cs!"=<<" :: letOps) : ∃ a t, op = a :: t ∧ a ≠ '|' ∧ a ≠ '"' := by
  simp only [letOps, List.mem_cons, List.not_mem_nil, or_false] at hop
  rcases hop with rfl | rfl | rfl | rfl | rfl | rfl | rfl | rfl | rfl <;> exact ⟨_, _, rfl, by decide, by decide⟩

/-- `:let` lists variables if no operator follows. -/
theorem letCond_iff : (endsStr (getnS 1 r).1 || (!isOpAssign (letOp r) && letOp r != cs!"=<<" && (getnS 1 r).1 != cs!"=")) = true ↔
    ∀ op ∈ cs!"=<<" :: letOps, ¬ StartsWith r op := by
  constructor
  · intro h7 op hop hst
    rw [Bool.or_eq_true, Bool.and_eq_true, Bool.and_eq_true] at h7
    rcases h7 with h7 | ⟨⟨h7, h8⟩, h9⟩
    · rw [get1_ends] at h7
      obtain ⟨a, t, rfl, h8, h9⟩ := op_head hop
      obtain ⟨_, hst⟩ := hst
      have := hst.head
      rcases h7 with h7 | h7 | h7
      · exact atEnd_not h7 this
      · rw [h7] at this; cases this; exact h8 rfl
      · rw [h7] at this; cases this; exact h9 rfl
    · rcases List.mem_cons.1 hop with rfl | hop
      · simp [letOp_here.2 hst] at h8
      · by_cases he1 : op = cs!"="
        · subst he1
          simp [(peekn_eq (n := 1) (v := cs!"=") rfl).2 hst] at h9
        · have := isOpAssign_iff.2 ⟨hop, he1⟩
          rw [← (letOp_iff hop he1).2 hst] at this
          simp [this] at h7
  · intro h3
    rw [Bool.or_eq_true]
    right
    have g1 : isOpAssign (letOp r) = false := by
      rw [← Bool.not_eq_true]
      intro h
      exact h3 _ (List.mem_cons_of_mem _ (isOpAssign_iff.1 h).1) letOp_starts
    have g2 : letOp r ≠ cs!"=<<" := fun h => h3 _ (by simp) (letOp_here.1 h)
    have g3 : (getnS 1 r).1 ≠ cs!"=" := fun h => h3 cs!"=" (by simp [letOps]) ((peekn_eq (n := 1) rfl).1 h)
    simp [g1, g2, g3]

/-- After `=` there is no other operator. -/
theorem letOp_eq (h : StartsWith r cs!"=") : isOpAssign (letOp r) = false := by
  rw [← Bool.not_eq_true]
  intro h1
  obtain ⟨h8, h9⟩ := isOpAssign_iff.1 h1
  obtain ⟨_, h10⟩ := letOp_starts (r := r)
  obtain ⟨_, h⟩ := h
  have h11 := h.head
  generalize letOp r = o at h8 h9 h10
  simp only [letOps, List.mem_cons, List.not_mem_nil, or_false] at h8
  rcases h8 with rfl | rfl | rfl | rfl | rfl | rfl | rfl | rfl
  · exact h9 rfl
  all_goals
    have h12 := h10.head
    rw [h11] at h12
    cases h12

theorem bad_letTail (he : EnvOK env) (hs : Suf env r) {s : List Cell} {lhs : Lhs} :
    Bad env (letTail ea c st s lhs (getnS 1 r).1 (letOp r)) r msg q ↔
      ((∀ op ∈ cs!"=<<" :: letOps, ¬ StartsWith r op) ∧ Bad env (cmdCommon ea c st) s msg q) ∨
      (∃ r1, Reads r cs!"=<<" r1 ∧ HereErr env fn r1 msg q) ∨
      ∃ op r1, op ∈ letOps ∧ ¬ StartsWith r cs!"=<<" ∧ Reads r op r1 ∧ GErr env fn 1 r1 msg q := by
  have two : Bad env (letTail ea c st s lhs (getnS 1 r).1 (letOp r)) r msg q ↔
      (∀ op ∈ cs!"=<<" :: letOps, ¬ StartsWith r op) ∧ Bad env (cmdCommon ea c st) s msg q ∨
      ¬ (∀ op ∈ cs!"=<<" :: letOps, ¬ StartsWith r op) ∧
        (isOpAssign (letOp r) = true ∧ Bad env parseExpr1 (getnS (letOp r).length r).2 msg q ∨
         isOpAssign (letOp r) = false ∧
          (letOp r = cs!"=<<" ∧ (∃ r2, Skip (getnS 3 r).2 r2 ∧ Bad env (parseHeredoc ea st) r2 msg q) ∨
           letOp r ≠ cs!"=<<" ∧ (getnS 1 r).1 = cs!"=" ∧ Bad env parseExpr1 (getnS 1 r).2 msg q)) := by
    unfold letTail
    rw [bad_ite, letCond_iff]
    refine or_congr Iff.rfl (and_congr_right fun _ => ?_)
    cases ho : isOpAssign (letOp r) with
    | true =>
      rw [if_pos rfl, badb_getn, bad_then_pure]
      simp
    | false =>
      rw [if_neg (by simp)]
      by_cases hh : letOp r = cs!"=<<"
      · rw [if_pos hh, hh]
        have key : Bad env (getn 3 >>= fun _ => skipWhite >>= fun _ => parseHeredoc ea st >>= fun x =>
          pure (x.2.add (.let_ ea.cmdpos ea cs!"=<<" lhs x.1))) r msg q ↔
            ∃ r2, Skip (getnS 3 r).2 r2 ∧ Bad env (parseHeredoc ea st) r2 msg q := by
          rw [badb_getn, badb_skipWhite]
          simp only [bad_then_pure]
        simp only [Bool.false_eq_true, false_and, true_and, false_or, ne_eq, not_true, or_false]
        exact key
      · rw [if_neg hh, bad_ite]
        constructor
        · rintro (⟨h1, h2⟩ | ⟨_, h2⟩)
          · rw [badb_getn, bad_then_pure] at h2
            exact .inr ⟨rfl, .inr ⟨hh, h1, h2⟩⟩
          · cases h2
        · rintro (⟨h, _⟩ | ⟨_, ⟨h, _⟩ | ⟨_, h1, h2⟩⟩)
          · cases h
          · exact absurd h hh
          · refine .inl ⟨h1, ?_⟩
            rw [badb_getn, bad_then_pure]
            exact h2
  rw [two]
  refine or_congr Iff.rfl ?_
  constructor
  · rintro ⟨_, ⟨h1, h2⟩ | ⟨h1, ⟨h2, r2, h3, h4⟩ | ⟨h2, h3, h4⟩⟩⟩
    · obtain ⟨r5, hr⟩ := letOp_starts (r := r)
      rw [← ((getn_reads rfl).2 hr).2] at h2
      refine .inr ⟨letOp r, r5, (isOpAssign_iff.1 h1).1, fun h3 => ?_, hr, (parseExpr1_bad he (hr.adv.suf hs)).1 h2⟩
      rw [letOp_here.2 h3] at h1
      exact absurd h1 (by decide)
    · obtain ⟨r5, hr⟩ := letOp_here.1 h2
      rw [← ((getn_reads (n := 3) rfl).2 hr).2] at h3
      have s5 := hr.adv.suf hs
      exact .inl ⟨r5, hr, (Spec.HereErr.skip h3).1 ((bad_heredoc he (h3.adv.suf s5)).1 h4)⟩
    · have hr := (getn_reads (n := 1) (v := cs!"=") rfl).1 ⟨h3.symm, rfl⟩
      exact .inr ⟨cs!"=", _, by simp [letOps], fun h => h2 (letOp_here.2 h), hr, (parseExpr1_bad he (hr.adv.suf hs)).1 h4⟩
  · rintro (⟨r1, h1, h2⟩ | ⟨op, r1, h1, h2, h3, h4⟩)
    · refine ⟨fun h => h _ (by simp) ⟨_, h1⟩, .inr ?_⟩
      have ho := letOp_here.2 ⟨_, h1⟩
      refine ⟨by rw [ho]; decide, .inl ⟨ho, ?_⟩⟩
      obtain ⟨r5, hsk⟩ := skip_total r1
      rw [← ((getn_reads (n := 3) rfl).2 h1).2]
      have s5 := h1.adv.suf hs
      exact ⟨r5, hsk, (bad_heredoc he (hsk.adv.suf s5)).2 ((Spec.HereErr.skip hsk).2 h2)⟩
    · refine ⟨fun h => h op (List.mem_cons_of_mem _ h1) ⟨_, h3⟩, ?_⟩
      have hb := (parseExpr1_bad he (h3.adv.suf hs)).2 h4
      by_cases ho : op = cs!"="
      · subst ho
        refine .inr ⟨letOp_eq ⟨_, h3⟩, .inr ⟨fun h => h2 (letOp_here.1 h), (peekn_eq (n := 1) rfl).2 ⟨_, h3⟩, ?_⟩⟩
        rw [← ((getn_reads (n := 1) rfl).2 h3).2]
        exact hb
      · have hl := (letOp_iff h1 ho).2 ⟨_, h3⟩
        refine .inl ⟨by rw [hl]; exact isOpAssign_iff.2 ⟨h1, ho⟩, ?_⟩
        rw [hl, ← ((getn_reads rfl).2 h3).2]
        exact hb

/-- What is wrong in a `:let`. -/
theorem bad_let (he : EnvOK env) (hp : Apart env) (hi : HandlerAt env ea r0 ra r) :
    Bad env (cmdLet ea c st) r msg q ↔ ∃ r1, Skip r r1 ∧ (AtStop r1 ∧ RawErr env fn c ea.usefilter ra r msg q ∨
      ¬ AtStop r1 ∧ (LhsErr env fn (TargetErr env fn) r1 msg q ∨ ∃ (a : Option Ast.Expr × List Ast.Expr × Option Ast.Expr) (r2 : List Cell), LhsAt env fn (Target env fn) r1 a.1 a.2.1 a.2.2 r2 ∧
        ∃ r3, Skip r2 r3 ∧ (((∀ op ∈ cs!"=<<" :: letOps, ¬ StartsWith r3 op) ∧ RawErr env fn c ea.usefilter ra r msg q) ∨
      (∃ r4, Reads r3 cs!"=<<" r4 ∧ HereErr env fn r4 msg q) ∨
      ∃ op r4, op ∈ letOps ∧ ¬ StartsWith r3 cs!"=<<" ∧ Reads r3 op r4 ∧ GErr env fn 1 r4 msg q))) := by
  have hs := hi.sufR
  unfold cmdLet
  rw [badb_tell, badb_skipWhite]
  refine exists_congr fun r1 => and_congr_right fun h1 => ?_
  have s1 := h1.adv.suf hs
  rw [badb_peek, bad_ite, endsSym_stop, badb_seekSet, bad_common he hi]
  refine or_congr Iff.rfl (and_congr_right fun _ => ?_)
  refine (parB_letlhs (fn := fn) he hp).bind s1 fun lhs a r2 _ _ _ s2 => ?_
  rw [badb_skipWhite]
  refine exists_congr fun r3 => and_congr_right fun h3 => ?_
  rw [badb_peekn, badb_peekn]
  have key : Bad env (do
      let s2 ← if (getnS 2 r3).1 = cs!".." ∨ (getnS 2 r3).1 = cs!"=<" then peekn 3 else pure (getnS 2 r3).1
      letTail ea c st r lhs (getnS 1 r3).1 s2) r3 msg q ↔ Bad env (letTail ea c st r lhs (getnS 1 r3).1 (letOp r3)) r3 msg q := by
    unfold letOp
    by_cases h : (getnS 2 r3).1 = cs!".." ∨ (getnS 2 r3).1 = cs!"=<"
    · rw [if_pos h, if_pos h]; exact Iff.rfl
    · rw [if_neg h, if_neg h]; exact Iff.rfl
  refine key.trans ?_
  rw [bad_letTail (fn := fn) he (h3.adv.suf s2), bad_common he hi]

/-- What is wrong in a `:const`. -/
theorem bad_const (he : EnvOK env) (hp : Apart env) (hi : HandlerAt env ea r0 ra r) :
    Bad env (cmdConst ea c st) r msg q ↔ ∃ r1, Skip r r1 ∧ (AtStop r1 ∧ RawErr env fn c ea.usefilter ra r msg q ∨
      ¬ AtStop r1 ∧ (LhsErr env fn (ConstErr env fn) r1 msg q ∨ ∃ (a : Option Ast.Expr × List Ast.Expr × Option Ast.Expr) (r2 : List Cell), LhsAt env fn (ConstTarget env fn) r1 a.1 a.2.1 a.2.2 r2 ∧
        ∃ r3, Skip r2 r3 ∧ ((¬ StartsWith r3 cs!"=" ∧ RawErr env fn c ea.usefilter ra r msg q) ∨
      ∃ r4, Reads r3 cs!"=" r4 ∧ GErr env fn 1 r4 msg q))) := by
  have hs := hi.sufR
  unfold cmdConst
  rw [badb_tell, badb_skipWhite]
  refine exists_congr fun r1 => and_congr_right fun h1 => ?_
  have s1 := h1.adv.suf hs
  rw [badb_peek, bad_ite, endsSym_stop, badb_seekSet, bad_common he hi]
  refine or_congr Iff.rfl (and_congr_right fun _ => ?_)
  refine (parB_constlhs (fn := fn) he hp).bind s1 fun lhs a r2 _ _ _ s2 => ?_
  rw [badb_skipWhite]
  refine exists_congr fun r3 => and_congr_right fun h3 => ?_
  rw [badb_peekn, bad_ite, badb_seekSet, bad_common he hi, badb_getn, bad_then_pure]
  have hc : (endsStr (getnS 1 r3).1 = true ∨ (getnS 1 r3).1 ≠ cs!"=") ↔ ¬ StartsWith r3 cs!"=" := by
    rw [← peekn_eq (n := 1) rfl]
    constructor
    · rintro (h | h)
      · intro h1; rw [h1] at h; exact absurd h (by decide)
      · exact h
    · exact .inr
  rw [hc]
  refine or_congr Iff.rfl ?_
  constructor
  · rintro ⟨h, h4⟩
    obtain ⟨r4, hr⟩ := Classical.not_not.1 h
    rw [← ((getn_reads (n := 1) rfl).2 hr).2] at h4
    exact ⟨r4, hr, (parseExpr1_bad he (hr.adv.suf (h3.adv.suf s2))).1 h4⟩
  · rintro ⟨r4, hr, h4⟩
    refine ⟨fun h => h ⟨_, hr⟩, ?_⟩
    rw [← ((getn_reads (n := 1) rfl).2 hr).2]
    exact (parseExpr1_bad he (hr.adv.suf (h3.adv.suf s2))).2 h4

/-! ### :function -/

theorem funcName_bad {v : VExpr} {e : Ast.Expr} (h : Export.expr fn v = some e)
    (hne : ∀ q w, v = .atom q .identifier w → w ≠ []) {m : Str} :
    checkFuncName v = some (some m) ↔ ∃ i, e = .ident i ∧ ¬ FuncNameOK (.ident i) ∧
      m = cs!"E128: Function name must start with a capital or contain a colon: " ++ i.name := by
  constructor
  · intro h1
    have hno : ¬ FuncNameOK e := by
      rw [← funcName_iff h, h1]; simp
    unfold checkFuncName at h1
    split at h1
    · cases h1
    · split at h1
      · cases h1
        simp only [Export.expr, Export.atom, Option.some.injEq] at h
        subst h
        exact ⟨_, rfl, hno, rfl⟩
      · cases h1
    · cases h1
  · rintro ⟨i, rfl, h1, rfl⟩
    obtain ⟨q, rfl⟩ := expr_ident h
    rw [← funcName_iff h] at h1
    obtain ⟨p, w⟩ := i
    cases w with
    | nil => exact absurd rfl (hne _ _ rfl)
    | cons a t =>
      simp only [checkFuncName] at h1 ⊢
      split at h1
      · rename_i hc; rw [if_pos hc]
      · exact absurd rfl h1

theorem func_pos (he : EnvOK env) (hs : Suf env r) {v : VExpr} (h : Ok env parseLvalueFunc r v r') :
    PosOK env v.pos ∧ ∀ q w, v = .atom q .identifier w → w ≠ [] := by
  unfold parseLvalueFunc at h
  obtain ⟨v1, r1, h1, h⟩ := ok_bind.1 h
  rcases ok_ite.1 h with ⟨_, h⟩ | ⟨_, h⟩
  · obtain ⟨rfl, rfl⟩ := ok_pure.1 h
    exact lv8_pos he hs h1
  · exact (ok_errAt.1 h).elim

theorem bad_function (he : EnvOK env) (hp : Apart env) (hi : HandlerAt env ea r0 ra r) :
    Bad env (cmdFunction ea c st) r msg q ↔ FuncErr env fn r msg q ∨
      FuncListing env fn r ∧ RawErr env fn c ea.usefilter ra r msg q := by
  have hs := hi.sufR
  have mid : ∀ {r1 : List Cell}, Skip r r1 → (Bad env (do
      let left ← parseLvalueFunc
      skipWhite
      match checkFuncName left with
      | none => .fail .crash
      | some (some msg) => errAt msg left.pos
      | some none =>
        if (← peekn 1) ≠ cs!"(" then
          seekSet r
          cmdCommon ea c st
        else
          let _ ← getn 1
          let ps ← parseParams
          let attr ← parseFuncAttrs
          pure (st.push (.function ea.cmdpos ea left ps.rlist ps.defaults attr))) r1 msg q ↔
      FuncNameErr env fn r1 msg q ∨ ∃ e r2, FuncName env fn r1 e r2 ∧ ((∃ i, e = .ident i ∧ ¬ FuncNameOK (.ident i) ∧
        PlaceOf env fn i.pos q ∧ msg = cs!"E128: Function name must start with a capital or contain a colon: " ++ i.name) ∨
        FuncNameOK e ∧ ∃ r3, Skip r2 r3 ∧ (headSym r3 ≠ .ch '(' ∧ RawErr env fn c ea.usefilter ra r msg q ∨
          ∃ r4, Reads r3 ['('] r4 ∧ (ParamsErr env fn r4 msg q ∨ ∃ is ds r5, FuncParamsAt env fn r4 is ds r5 ∧
            AttrErr env r5 msg q)))) := by
    intro r1 h1
    have s1 := h1.adv.suf hs
    refine (parB_func (fn := fn) he hp).bind s1 fun v e r2 k1 k2 k3 s2 => ?_
    obtain ⟨g1, g2⟩ := func_pos he s1 k2
    rw [badb_skipWhite]
    cases hc : checkFuncName v with
    | none =>
      constructor
      · rintro ⟨_, _, h⟩; cases h
      · rintro (⟨i, h3, h4, h5, h6⟩ | ⟨h3, _⟩)
        · have := (funcName_bad k1 g2).2 ⟨i, h3, h4, rfl⟩
          rw [hc] at this; cases this
        · rw [(funcName_iff k1).2 h3] at hc; cases hc
    | some o =>
      cases o with
      | some m =>
        obtain ⟨i, rfl, h4, rfl⟩ := (funcName_bad k1 g2).1 hc
        constructor
        · rintro ⟨_, _, h⟩
          obtain ⟨rfl, rfl⟩ := bad_errAt.1 h
          exact .inl ⟨i, rfl, h4, (export_place hp k1 g1).2 rfl, rfl⟩
        · rintro (⟨i', h3, _, h5, rfl⟩ | ⟨h3, _⟩)
          · cases h3
            obtain ⟨r3, h6⟩ := skip_total r2
            exact ⟨r3, h6, bad_errAt.2 ⟨rfl, (export_place hp k1 g1).1 h5⟩⟩
          · exact absurd h3 h4
      | none =>
        have hok := (funcName_iff k1).1 hc
        constructor
        · rintro ⟨r3, h3, h⟩
          simp only at h
          refine .inr ⟨hok, r3, h3, ?_⟩
          rw [badb_peekn] at h
          rcases bad_ite.1 h with ⟨h4, h⟩ | ⟨h4, h⟩
          · exact .inl ⟨fun h => h4 (get1_ch.2 h), (bad_common he hi).1 h⟩
          · have h4 := Decidable.not_not.1 h4
            have hr := (getn_reads (n := 1) (v := cs!"(") rfl).1 ⟨h4.symm, rfl⟩
            have s4 := hr.adv.suf (h3.adv.suf s2)
            rw [badb_getn] at h
            refine .inr ⟨_, hr, ?_⟩
            have := ((parB_params (fn := fn) he).bind s4 (B := fun _ r5 => AttrErr env r5 msg q)
              fun ps a r5 _ _ _ s5 => by rw [bad_then_pure, bad_attrs]).1 h
            rcases this with h | ⟨⟨is, ds⟩, r5, h5, h6⟩
            · exact .inl h
            · exact .inr ⟨is, ds, r5, h5, h6⟩
        · rintro (⟨i', rfl, h3, _⟩ | ⟨_, r3, h3, h⟩)
          · exact absurd hok h3
          refine ⟨r3, h3, ?_⟩
          simp only
          rw [badb_peekn]
          rcases h with ⟨h4, h⟩ | ⟨r4, hr, h⟩
          · exact bad_ite.2 (.inl ⟨fun h => h4 (get1_ch.1 h), (bad_common he hi).2 h⟩)
          · refine bad_ite.2 (.inr ⟨fun h => h ((peekn_eq (n := 1) rfl).2 ⟨_, hr⟩), ?_⟩)
            have s4 := hr.adv.suf (h3.adv.suf s2)
            rw [badb_getn, ← ((getn_reads (n := 1) rfl).2 hr).2]
            refine ((parB_params (fn := fn) he).bind s4 (B := fun _ r5 => AttrErr env r5 msg q)
              fun ps a r5 _ _ _ s5 => by rw [bad_then_pure, bad_attrs]).2 ?_
            rcases h with h | ⟨is, ds, r5, h5, h6⟩
            · exact .inl h
            · exact .inr ⟨(is, ds), r5, h5, h6⟩
  unfold cmdFunction
  rw [badb_tell, badb_skipWhite]
  constructor
  · rintro ⟨r1, h1, h⟩
    rw [badb_peek, bad_ite, endsSym_stop] at h
    rcases h with ⟨h2, h⟩ | ⟨h2, h⟩
    · exact .inr ⟨.all h1 (.inl h2), (bad_common he hi).1 h⟩
    rw [badb_peekn, bad_ite, get1_ch] at h
    rcases h with ⟨h3, h⟩ | ⟨h3, h⟩
    · exact .inr ⟨.all h1 (.inr h3), (bad_common he hi).1 h⟩
    rcases (mid h1).1 h with h | ⟨e, r2, h4, ⟨i, rfl, h5, h6, rfl⟩ | ⟨h5, r3, h6, ⟨h7, h⟩ | ⟨r4, h7, h | ⟨is, ds, r5, h8, h⟩⟩⟩⟩
    · exact .inl (.name h1 h2 h3 h)
    · exact .inl (.illegal h1 h2 h3 h4 h5 h6)
    · exact .inr ⟨.one h1 h2 h3 h4 h5 h6 h7, h⟩
    · exact .inl (.params h1 h2 h3 h4 h5 h6 h7 h)
    · exact .inl (.attr h1 h2 h3 h4 h5 h6 h7 h8 h)
  · have fin : ∀ {r1 : List Cell}, ¬ AtStop r1 → headSym r1 ≠ .ch '/' → ∀ {m : Prog PState},
        Bad env m r1 msg q → Bad env (do
          if endsSym (← peek) then
            seekSet r
            cmdCommon ea c st
          else if (← peekn 1) = cs!"/" then
            seekSet r
            cmdCommon ea c st
          else m) r1 msg q := by
      intro r1 h2 h3 m h
      rw [badb_peek, bad_ite, endsSym_stop]
      refine .inr ⟨h2, ?_⟩
      rw [badb_peekn, bad_ite, get1_ch]
      exact .inr ⟨h3, h⟩
    rintro (h | ⟨h, h'⟩)
    · cases h with
      | name h1 h2 h3 h => exact ⟨_, h1, fin h2 h3 ((mid h1).2 (.inl h))⟩
      | illegal h1 h2 h3 h4 h5 h6 => exact ⟨_, h1, fin h2 h3 ((mid h1).2 (.inr ⟨_, _, h4, .inl ⟨_, rfl, h5, h6, rfl⟩⟩))⟩
      | params h1 h2 h3 h4 h5 h6 h7 h =>
        exact ⟨_, h1, fin h2 h3 ((mid h1).2 (.inr ⟨_, _, h4, .inr ⟨h5, _, h6, .inr ⟨_, h7, .inl h⟩⟩⟩))⟩
      | attr h1 h2 h3 h4 h5 h6 h7 h8 h =>
        exact ⟨_, h1, fin h2 h3 ((mid h1).2 (.inr ⟨_, _, h4, .inr ⟨h5, _, h6, .inr ⟨_, h7, .inr ⟨_, _, _, h8, h⟩⟩⟩⟩))⟩
    · cases h with
      | @all r1 h1 h2 =>
        refine ⟨r1, h1, ?_⟩
        rw [badb_peek, bad_ite, endsSym_stop]
        by_cases h4 : AtStop r1
        · exact .inl ⟨h4, (bad_common he hi).2 h'⟩
        · refine .inr ⟨h4, ?_⟩
          rw [badb_peekn, bad_ite, get1_ch]
          exact .inl ⟨h2.resolve_left h4, (bad_common he hi).2 h'⟩
      | one h1 h2 h3 h4 h5 h6 h7 =>
        exact ⟨_, h1, fin h2 h3 ((mid h1).2 (.inr ⟨_, _, h4, .inr ⟨h5, _, h6, .inl ⟨h7, h'⟩⟩⟩))⟩

end
end Viml
