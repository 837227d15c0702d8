/-
The errors of lists of expressions and targets, left-hand sides and function signatures.
-/
import Verif.Lemmas.FileErrLv
import Verif.Lemmas.FileFunc

namespace Viml
open Prog Spec

/-- The program `m` yields exactly what `S` describes, and fails exactly as `E` says. -/
structure ParB {α β : Type} (env : Env) (ex : α → Option β) (m : Prog α) (S : List Cell → β → List Cell → Prop)
    (E : List Cell → Str → Pos → Prop) : Prop where
  par : Par env ex m S
  bad : ∀ {r msg q}, Suf env r → (Bad env m r msg q ↔ E r msg q)

/-- Items separated by blanks up to a character of the kind `stop` are wrong. -/
inductive ListErr (S : List Cell → Ast.Expr → List Cell → Prop) (E : List Cell → Str → Pos → Prop) (stop : Sym → Prop) :
    List Cell → Str → Pos → Prop
  | first {r r1 m q} : Skip r r1 → ¬ stop (headSym r1) → E r1 m q → ListErr S E stop r m q
  | more {r r1 e r2 m q} : Skip r r1 → ¬ stop (headSym r1) → S r1 e r2 → ListErr S E stop r2 m q → ListErr S E stop r m q

section
variable {env : Env} {fn : Str} {r r' : List Cell} {msg : Str} {q : Pos}

theorem ParB.bind {α β γ : Type} {ex : α → Option β} {m : Prog α} {S : List Cell → β → List Cell → Prop}
    {E : List Cell → Str → Pos → Prop} (H : ParB env ex m S E) (hs : Suf env r) {f : α → Prog γ} {B : β → List Cell → Prop}
    (hf : ∀ v a r1, ex v = some a → Ok env m r v r1 → S r a r1 → Suf env r1 → (Bad env (f v) r1 msg q ↔ B a r1)) :
    Bad env (m >>= f) r msg q ↔ E r msg q ∨ ∃ a r1, S r a r1 ∧ B a r1 := by
  rw [bad_bind, H.bad hs]
  refine or_congr Iff.rfl ?_
  constructor
  · rintro ⟨v, r1, h1, h2⟩
    obtain ⟨a, k1, k2⟩ := H.par.sound hs h1
    exact ⟨a, r1, k2, (hf v a r1 k1 h1 k2 ((H.par.adv hs k2).suf hs)).1 h2⟩
  · rintro ⟨a, r1, k2, h2⟩
    obtain ⟨v, k1, h1⟩ := H.par.complete hs k2
    exact ⟨v, r1, h1, (hf v a r1 k1 h1 k2 ((H.par.adv hs k2).suf hs)).2 h2⟩

theorem parB_expr (he : EnvOK env) : ParB env (Export.expr fn) parseExpr1 (Gram env fn 1) (GErr env fn 1) :=
  ⟨par_expr he, fun hs => parseExpr1_bad he hs⟩
theorem parB_func (he : EnvOK env) (hp : Apart env) :
    ParB env (Export.expr fn) parseLvalueFunc (FuncName env fn) (FuncNameErr env fn) :=
  ⟨par_func he, fun hs => bad_lvalueFunc he hp hs⟩
theorem parB_target (he : EnvOK env) (hp : Apart env) :
    ParB env (Export.expr fn) parseLvalue (Target env fn) (TargetErr env fn) :=
  ⟨par_target he, fun hs => bad_lvalue he hp hs⟩
theorem parB_const (he : EnvOK env) (hp : Apart env) :
    ParB env (Export.expr fn) parseConstlvalue (ConstTarget env fn) (ConstErr env fn) :=
  ⟨par_const he, fun hs => bad_constlvalue he hp hs⟩

/-! ### Items separated by blanks -/

section
variable {S : List Cell → Ast.Expr → List Cell → Prop} {E : List Cell → Str → Pos → Prop} {m : Prog VExpr} {stop : Sym → Prop}
  [DecidablePred stop]

theorem bad_list (H : ParB env (Export.expr fn) m S E) (hs : Suf env r) {l : List VExpr} :
    Bad env (loop (sepListBody m stop) l) r msg q ↔ ListErr S E stop r msg q := by
  have hok : ∀ (l l1 : List VExpr) r r2, Suf env r → (Ok env (sepListBody m stop l) r (.inl l1) r2 →
      ∃ r1 e, Skip r r1 ∧ ¬ stop (headSym r1) ∧ S r1 e r2) := by
    intro l l1 r r2 hs h
    unfold sepListBody at h
    rw [bind_skipWhite] at h
    obtain ⟨r1, h1, h⟩ := h
    rw [bind_peek, ok_ite] at h
    rcases h with ⟨_, h⟩ | ⟨h2, h⟩
    · cases (ok_pure.1 h).1
    · rw [ok_bind] at h
      obtain ⟨e, _, h3, h⟩ := h
      obtain ⟨h, rfl⟩ := ok_pure.1 h
      obtain ⟨a, _, k2⟩ := H.par.sound (h1.adv.suf hs) h3
      exact ⟨r1, a, h1, h2, k2⟩
  have hbad : ∀ (l : List VExpr) r, Suf env r → (Bad env (sepListBody m stop l) r msg q ↔
      ∃ r1, Skip r r1 ∧ ¬ stop (headSym r1) ∧ E r1 msg q) := by
    intro l r hs
    unfold sepListBody
    rw [badb_skipWhite]
    refine exists_congr fun r1 => and_congr_right fun h1 => ?_
    rw [badb_peek, bad_ite, bad_pure, bad_then_pure, H.bad (h1.adv.suf hs)]
    simp
  refine bad_loop_iff (D := fun _ r => Suf env r) (B := fun _ r => ListErr S E stop r msg q) ?_ ?_ hs
  · intro l r l1 r2 hs h
    obtain ⟨r1, e, h1, _, h2⟩ := hok _ _ _ _ hs h
    have a := h1.adv.trans_sadv (H.par.adv (h1.adv.suf hs) h2)
    exact ⟨a.lt, a.suf hs⟩
  · intro l r hs
    rw [hbad l r hs]
    constructor
    · intro h
      cases h with
      | first h1 h2 h3 => exact .inl ⟨_, h1, h2, h3⟩
      | more h1 h2 h3 h4 =>
        obtain ⟨v, _, k2⟩ := H.par.complete (h1.adv.suf hs) h3
        refine .inr ⟨l ++ [v], _, ?_, h4⟩
        unfold sepListBody
        rw [bind_skipWhite]
        refine ⟨_, h1, ?_⟩
        rw [bind_peek, if_neg h2, ok_bind]
        exact ⟨v, _, k2, ok_pure.2 ⟨rfl, rfl⟩⟩
    · rintro (⟨r1, h1, h2, h3⟩ | ⟨l1, r2, h, h4⟩)
      · exact .first h1 h2 h3
      · obtain ⟨r1, e, h1, h2, h3⟩ := hok _ _ _ _ hs h
        exact .more h1 h2 h3 h4

end

theorem bad_exprlist (he : EnvOK env) (hs : Suf env r) : Bad env parseExprlist r msg q ↔ ExprsErr env fn r msg q := by
  rw [exprlist_eq, bad_list (parB_expr (fn := fn) he) hs]
  constructor
  · intro h
    induction h with
    | first h1 h2 h3 => exact .first h1 (fun h => h2 (exprStop.2 h)) h3
    | more h1 h2 h3 _ ih => exact .more h1 (fun h => h2 (exprStop.2 h)) h3 (ih ((gram_sadv he (h1.adv.suf hs) h3).suf (h1.adv.suf hs)))
  · intro h
    induction h with
    | first h1 h2 h3 => exact .first h1 (fun h => h2 (exprStop.1 h)) h3
    | more h1 h2 h3 _ ih => exact .more h1 (fun h => h2 (exprStop.1 h)) h3 (ih ((gram_sadv he (h1.adv.suf hs) h3).suf (h1.adv.suf hs)))

theorem targetsErr_list : TargetsErr env fn r msg q ↔ ListErr (Target env fn) (TargetErr env fn) targetEnd r msg q := by
  constructor
  · intro h
    induction h with
    | first h1 h2 h3 => exact .first h1 (fun h => h2 (endsSym_stop.1 h)) h3
    | more h1 h2 h3 _ ih => exact .more h1 (fun h => h2 (endsSym_stop.1 h)) h3 ih
  · intro h
    induction h with
    | first h1 h2 h3 => exact .first h1 (fun h => h2 (endsSym_stop.2 h)) h3
    | more h1 h2 h3 _ ih => exact .more h1 (fun h => h2 (endsSym_stop.2 h)) h3 ih

theorem bad_lvaluelist (he : EnvOK env) (hp : Apart env) (hs : Suf env r) :
    Bad env parseLvaluelist r msg q ↔ LockErr env fn r msg q := by
  rw [lvaluelist_eq, (parB_expr (fn := fn) he).bind hs (B := fun _ r1 => TargetsErr env fn r1 msg q)
    fun v a r1 _ _ _ hs1 => by rw [bad_list (parB_target (fn := fn) he hp) hs1, targetsErr_list]]
  constructor
  · rintro (h | ⟨a, r1, h1, h2⟩)
    · exact .first h
    · exact .more h1 h2
  · intro h
    cases h with
    | first h => exact .inl h
    | more h1 h2 => exact .inr ⟨_, _, h1, h2⟩

theorem avoids_depth : Avoids Fail.isErr parseDepth := by
  unfold parseDepth readDigit str2nr
  avoid []
  rename_i h
  obtain ⟨_, _, h⟩ := h
  cases h

/-! ### Left-hand sides -/

theorem listWant_iff {p : TT → Prop} : ListWant env p r msg q ↔ LexErr env r msg q ∨
    ∃ t r', Lex env r t r' ∧ ¬ p t.ty ∧ msg = cs!"E475 Invalid argument: " ++ t.value ∧ q = t.pos := by
  constructor
  · rintro (h | ⟨h1, h2⟩)
    · exact .inl h
    · exact .inr ⟨_, _, h1, h2, rfl, rfl⟩
  · rintro (h | ⟨t, r', h1, h2, rfl, rfl⟩)
    · exact .lex h
    · exact .token h1 h2

/-- The errors of one round over a bracketed list of targets. -/
def TargetItemErr (env : Env) (fn : Str) (r : List Cell) (msg : Str) (q : Pos) : Prop :=
  TargetErr env fn r msg q ∨ ∃ e r1, Target env fn r e r1 ∧
    (ListWant env (fun ty => ty = .sqclose ∨ ty = .comma ∨ ty = .semicolon) r1 msg q ∨
      ∃ q0 r2, Mark env fn r1 .semicolon q0 r2 ∧ (TargetErr env fn r2 msg q ∨ ∃ x r3, Target env fn r2 x r3 ∧
        ListWant env (· = .sqclose) r3 msg q))

theorem bad_lhsBody (he : EnvOK env) (hp : Apart env) (hs : Suf env r) {l : List VExpr} :
    Bad env (lhsBody l) r msg q ↔ TargetItemErr env fn r msg q := by
  unfold lhsBody TargetItemErr
  refine (parB_target (fn := fn) he hp).bind hs fun v a r1 _ _ _ hs1 => ?_
  rw [badb_tokget he hs1, listWant_iff]
  have hclose : ∀ {t : Token} {r2 : List Cell} {w : VExpr}, Suf env r2 → (Bad env (do
        let r ← parseLvalue
        let t ← tokget
        if t.ty = .sqclose then pure (.inr { list := l ++ [w], rest := some r })
        else errAt (cs!"E475 Invalid argument: " ++ t.value) t.pos : Prog (List VExpr ⊕ Lhs)) r2 msg q ↔
      TargetErr env fn r2 msg q ∨ ∃ x r3, Target env fn r2 x r3 ∧ ListWant env (· = .sqclose) r3 msg q) := by
    intro t r2 w hs2
    refine (parB_target (fn := fn) he hp).bind hs2 fun v a r3 _ _ _ hs3 => ?_
    rw [badb_tokget he hs3, listWant_iff]
    refine or_congr Iff.rfl (exists_congr fun t => exists_congr fun r4 => and_congr_right fun _ => ?_)
    rw [bad_ite, bad_pure, bad_errAt]
    simp
  constructor
  · rintro (h | ⟨t, r2, ht, h⟩)
    · exact .inl (.inl h)
    · by_cases k1 : t.ty = .sqclose
      · rw [if_pos k1] at h; cases h
      rw [if_neg k1] at h
      by_cases k2 : t.ty = .comma
      · rw [if_pos k2] at h; cases h
      rw [if_neg k2] at h
      by_cases k3 : t.ty = .semicolon
      · rw [if_pos k3, hclose (t := t) (ht.suf he hs1)] at h
        exact .inr ⟨_, r2, ⟨t, ht, k3, rfl⟩, h⟩
      rw [if_neg k3] at h
      refine .inl (.inr ⟨t, r2, ht, ?_, bad_errAt.1 h⟩)
      rintro (k | k | k)
      · exact k1 k
      · exact k2 k
      · exact k3 k
  · rintro ((h | ⟨t, r2, ht, hn, h⟩) | ⟨q0, r2, ⟨t, ht, hty, _⟩, h⟩)
    · exact .inl h
    · refine .inr ⟨t, r2, ht, ?_⟩
      rw [if_neg fun k => hn (.inl k), if_neg fun k => hn (.inr (.inl k)), if_neg fun k => hn (.inr (.inr k))]
      exact bad_errAt.2 h
    · refine .inr ⟨t, r2, ht, ?_⟩
      rw [if_neg (by simp [hty]), if_neg (by simp [hty]), if_pos hty, hclose (t := t) (ht.suf he hs1)]
      exact h

theorem lhsBody_more (he : EnvOK env) (hs : Suf env r) {l l1 : List VExpr} (h : Ok env (lhsBody l) r (.inl l1) r') :
    ∃ e r1 q, Target env fn r e r1 ∧ Mark env fn r1 .comma q r' := by
  unfold lhsBody at h
  rw [ok_bind] at h
  obtain ⟨e, r1, h1, h⟩ := h
  obtain ⟨a, k1, k2⟩ := (par_target (fn := fn) he).sound hs h1
  have s1 := ((par_target he).adv hs k2).suf hs
  rw [bind_tokget] at h
  obtain ⟨t, r2, ht, h⟩ := h
  rw [ok_ite] at h
  rcases h with ⟨_, h⟩ | ⟨_, h⟩
  · cases (ok_pure.1 h).1
  rw [ok_ite] at h
  rcases h with ⟨h2, h⟩ | ⟨_, h⟩
  · obtain ⟨_, rfl⟩ := ok_pure.1 h
    exact ⟨a, r1, _, k2, Tk.mark he s1 ⟨ht, h2⟩⟩
  rw [ok_ite] at h
  rcases h with ⟨h2, h⟩ | ⟨_, h⟩
  · rw [ok_bind] at h
    obtain ⟨e', r3, h3, h⟩ := h
    rw [bind_tokget] at h
    obtain ⟨t', r4, ht', h⟩ := h
    rw [ok_ite] at h
    rcases h with ⟨h4, h⟩ | ⟨_, h⟩
    · cases (ok_pure.1 h).1
    · exact (ok_errAt.1 h).elim
  · exact (ok_errAt.1 h).elim

theorem bad_lhsList (he : EnvOK env) (hp : Apart env) (hs : Suf env r) {l : List VExpr} :
    Bad env (loop lhsBody l) r msg q ↔ TargetListErr env fn r msg q := by
  refine bad_loop_iff (D := fun _ r => Suf env r) (B := fun _ r => TargetListErr env fn r msg q) ?_ ?_ hs
  · intro l r l1 r2 hs h
    obtain ⟨e, r1, q, h1, h2⟩ := lhsBody_more (fn := fn) he hs h
    have a := (par_target he).adv hs h1
    obtain ⟨t, ht, _⟩ := h2.tk he (a.suf hs)
    have b := a.trans (ht.sadv he (a.suf hs))
    exact ⟨b.lt, b.suf hs⟩
  · intro l r hs
    rw [bad_lhsBody (fn := fn) he hp hs]
    unfold TargetItemErr
    constructor
    · intro h
      cases h with
      | target h => exact .inl (.inl h)
      | sep h1 h2 => exact .inl (.inr ⟨_, _, h1, .inl h2⟩)
      | rest h1 h2 h3 => exact .inl (.inr ⟨_, _, h1, .inr ⟨_, _, h2, .inl h3⟩⟩)
      | close h1 h2 h3 h4 => exact .inl (.inr ⟨_, _, h1, .inr ⟨_, _, h2, .inr ⟨_, _, h3, h4⟩⟩⟩)
      | more h1 h2 h3 =>
        obtain ⟨v, k1, k2⟩ := (par_target he).complete hs h1
        have s1 := ((par_target he).adv hs h1).suf hs
        obtain ⟨t, ht, _⟩ := h2.tk he s1
        refine .inr ⟨l ++ [v], _, ?_, h3⟩
        unfold lhsBody
        rw [ok_bind]
        refine ⟨v, _, k2, bind_tokget.2 ⟨t, _, ht.1, ?_⟩⟩
        rw [if_neg (by simp [ht.2]), if_pos ht.2]
        exact ok_pure.2 ⟨rfl, rfl⟩
    · rintro ((h | ⟨e, r1, h1, h | ⟨q0, r2, h2, h | ⟨x, r3, h3, h⟩⟩⟩) | ⟨l1, r2, h, h3⟩)
      · exact .target h
      · exact .sep h1 h
      · exact .rest h1 h2 h
      · exact .close h1 h2 h3 h
      · obtain ⟨e, r1, q, h1, h2⟩ := lhsBody_more (fn := fn) he hs h
        exact .more h1 h2 h3

theorem parB_lhs (he : EnvOK env) (hp : Apart env) {m : Prog VExpr} {S : List Cell → Ast.Expr → List Cell → Prop}
    {E : List Cell → Str → Pos → Prop} (H : ParB env (Export.expr fn) m S E) :
    ParB env (lhsEx fn) (parseLhs m) (LhsOf env fn S) (LhsErr env fn E) := by
  refine ⟨par_lhs he H.par, fun {r msg q} hs => ?_⟩
  rw [parseLhs_eq, badb_tokpeek he hs]
  constructor
  · rintro (h | ⟨t, r1, ht, h⟩)
    · exact .lex h
    · by_cases k : t.ty = .sqopen
      · rw [if_pos k, badb_take he hs ht, bad_lhsList (fn := fn) he hp (ht.suf he hs)] at h
        exact .list ⟨t, ht, k, rfl⟩ h
      · rw [if_neg k, bad_then_pure, H.bad hs] at h
        exact .one ⟨t, r1, ht, k⟩ h
  · intro h
    cases h with
    | lex h => exact .inl h
    | one h1 h2 =>
      obtain ⟨t, r1, ht, k⟩ := h1
      refine .inr ⟨t, r1, ht, ?_⟩
      rw [if_neg k, bad_then_pure, H.bad hs]
      exact h2
    | list h1 h2 =>
      obtain ⟨t, ht, k, _⟩ := h1
      refine .inr ⟨t, _, ht, ?_⟩
      rw [if_pos k, badb_take he hs ht, bad_lhsList (fn := fn) he hp (ht.suf he hs)]
      exact h2

theorem parB_letlhs (he : EnvOK env) (hp : Apart env) :
    ParB env (lhsEx fn) parseLetlhs (LhsOf env fn (Target env fn)) (LhsErr env fn (TargetErr env fn)) :=
  parB_lhs he hp (parB_target he hp)
theorem parB_constlhs (he : EnvOK env) (hp : Apart env) :
    ParB env (lhsEx fn) parseConstlhs (LhsOf env fn (ConstTarget env fn)) (LhsErr env fn (ConstErr env fn)) :=
  parB_lhs he hp (parB_const he hp)

/-! ### Function attributes -/

theorem bad_attrBody {a : FuncAttr} : Bad env (attrBody a) r msg q ↔ ∃ r1 k r2, Skip r r1 ∧ Span isalpha r1 k r2 ∧ k ≠ [] ∧
    k ∉ [cs!"range", cs!"abort", cs!"dict", cs!"closure"] ∧ msg = cs!"unexpected token: " ++ k ∧ q = posOf env r1 := by
  unfold attrBody readAlpha
  rw [badb_skipWhite]
  refine exists_congr fun r1 => ?_
  rw [badb_getpos, badb_readWhile]
  constructor
  · rintro ⟨h1, k, r2, h2, h⟩
    refine ⟨k, r2, h1, h2, ?_⟩
    simp only [bad_ite, bad_pure, and_false, false_or, bad_errAt] at h
    simp only [List.mem_cons, List.not_mem_nil, not_or]
    exact ⟨h.1, ⟨h.2.1, h.2.2.1, h.2.2.2.1, h.2.2.2.2.1, not_false⟩, h.2.2.2.2.2⟩
  · rintro ⟨k, r2, h1, h2, hk, hn, h⟩
    refine ⟨h1, k, r2, h2, ?_⟩
    simp only [List.mem_cons, List.not_mem_nil, not_or] at hn
    rw [if_neg hk, if_neg hn.1, if_neg hn.2.1, if_neg hn.2.2.1, if_neg hn.2.2.2.1]
    exact bad_errAt.2 h

theorem bad_attrs : Bad env parseFuncAttrs r msg q ↔ AttrErr env r msg q := by
  rw [parseFuncAttrs_eq]
  have lt : ∀ {r r1 r' : List Cell} {k : Str}, Skip r r1 → Span isalpha r1 k r' →
      k ∈ [cs!"range", cs!"abort", cs!"dict", cs!"closure"] → r'.length < r.length := by
    intro r r1 r' k h1 h2 hk
    have h3 : k ≠ [] := by rintro rfl; revert hk; decide
    exact (h1.adv.trans_sadv (h2.1.sadv h3)).lt
  refine bad_loop_iff (D := fun _ _ => True) (B := fun _ r => AttrErr env r msg q) ?_ ?_ trivial
  · intro s r s1 r1 _ h
    obtain ⟨r2, h1, ⟨_, h, _⟩ | ⟨k, h2, hk, _⟩⟩ := attrBody_iff.1 h
    · cases h
    · exact ⟨lt h1 h2 hk, trivial⟩
  · intro a r _
    rw [bad_attrBody]
    constructor
    · intro h
      cases h with
      | word h1 h2 h3 h4 => exact .inl ⟨_, _, _, h1, h2, h3, h4, rfl, rfl⟩
      | more h1 h2 h3 h4 => exact .inr ⟨_, _, attrBody_iff.2 ⟨_, h1, .inr ⟨_, h2, h3, rfl⟩⟩, h4⟩
    · rintro (⟨r1, k, r2, h1, h2, h3, h4, rfl, rfl⟩ | ⟨s1, r1, h, h4⟩)
      · exact .word h1 h2 h3 h4
      · obtain ⟨r2, h1, ⟨_, h, _⟩ | ⟨k, h2, hk, h⟩⟩ := attrBody_iff.1 h
        · cases h
        · exact .more h1 h2 hk h4

/-! ### Parameters -/

/-- The errors of what follows a parameter. -/
def ParamTailErr (env : Env) (fn : Str) (r : List Cell) (msg : Str) (q : Pos) : Prop :=
  ((headSym r).is iswhite = true ∧ Next env r (· = .comma) ∧
    msg = cs!"E475: Invalid argument: White space is not allowed before comma" ∧ q = posOf env r) ∨
  Want env r (fun ty => ty = .comma ∨ ty = .pclose) msg q ∨
  ((headSym r).is iswhite = false ∧ ∃ q0 r2, Mark env fn r .comma q0 r2 ∧ LexErr env r2 msg q)

theorem badb_whiteComma (he : EnvOK env) (hs : Suf env r) {β : Type} {f : Bool → Prog β} :
    Bad env (pand (pSat 0 iswhite) (do return (← tokpeek).ty = .comma) >>= f) r msg q ↔
      ((headSym r).is iswhite = false ∧ Bad env (f false) r msg q) ∨
      ((headSym r).is iswhite = true ∧ (LexErr env r msg q ∨ ∃ t r1, Lex env r t r1 ∧ Bad env (f (decide (t.ty = .comma))) r msg q)) := by
  unfold pand pSat
  rw [badb_bind, badb_bind, badb_p0]
  show Bad env ((if (headSym r).is iswhite = true then _ else _) >>= f) r msg q ↔ _
  rw [badb_ite, badb_bind, badb_tokpeek he hs]
  constructor
  · rintro (⟨h, h1⟩ | ⟨h, h1⟩)
    · exact .inr ⟨h, h1⟩
    · exact .inl ⟨by simpa using h, h1⟩
  · rintro (⟨h, h1⟩ | ⟨h, h1⟩)
    · exact .inr ⟨by simp [h], h1⟩
    · exact .inl ⟨h, h1⟩

theorem bad_paramTail (he : EnvOK env) (hs : Suf env r) {out : ParamSt} :
    Bad env (paramTail out) r msg q ↔ ParamTailErr env fn r msg q := by
  have tail : Bad env (do
    let t2 ← tokget
    if t2.ty = .comma then
      let t3 ← tokpeek
      if t3.ty = .pclose then
        let _ ← tokget
        pure (.inr out)
      else pure (.inl out)
    else if t2.ty = .pclose then pure (.inr out)
    else unexpected t2 : Prog (ParamSt ⊕ ParamSt)) r msg q ↔ Want env r (fun ty => ty = .comma ∨ ty = .pclose) msg q ∨
      ∃ q0 r2, Mark env fn r .comma q0 r2 ∧ LexErr env r2 msg q := by
    rw [badb_tokget he hs, want_iff]
    constructor
    · rintro (h | ⟨t, r1, ht, h⟩)
      · exact .inl (.inl h)
      · by_cases k1 : t.ty = .comma
        · rw [if_pos k1, badb_tokpeek he (ht.suf he hs)] at h
          rcases h with h | ⟨t3, r3, ht3, h⟩
          · exact .inr ⟨_, r1, ⟨t, ht, k1, rfl⟩, h⟩
          · exfalso
            rw [bad_ite] at h
            rcases h with ⟨_, h⟩ | ⟨_, h⟩
            · rw [badb_take he (ht.suf he hs) ht3] at h; cases h
            · cases h
        · rw [if_neg k1] at h
          by_cases k2 : t.ty = .pclose
          · rw [if_pos k2] at h; cases h
          · rw [if_neg k2] at h
            exact .inl (.inr ⟨t, r1, ht, by simp [k1, k2], bad_unexpected.1 h⟩)
    · rintro ((h | ⟨t, r1, ht, hn, h⟩) | ⟨q0, r1, ⟨t, ht, hty, _⟩, h⟩)
      · exact .inl h
      · refine .inr ⟨t, r1, ht, ?_⟩
        rw [if_neg fun k => hn (.inl k), if_neg fun k => hn (.inr k)]
        exact bad_unexpected.2 h
      · refine .inr ⟨t, r1, ht, ?_⟩
        rw [if_pos hty, badb_tokpeek he (ht.suf he hs)]
        exact .inl h
  unfold paramTail ParamTailErr
  rw [badb_whiteComma he hs]
  by_cases hw : (headSym r).is iswhite = true
  · simp only [hw, Bool.true_eq_false, false_and, false_or, true_and, or_false]
    constructor
    · rintro (h | ⟨t, r1, ht, h⟩)
      · exact .inr (.lex h)
      · by_cases k : t.ty = .comma
        · rw [if_pos (by simpa using k)] at h
          exact .inl ⟨⟨t, r1, ht, k⟩, bad_errHere.1 h⟩
        · rw [if_neg (by simpa using k), tail] at h
          rcases h with h | ⟨q0, r2, ⟨t', ht', hty', _⟩, _⟩
          · exact .inr h
          · obtain ⟨rfl, rfl⟩ := ht.det he hs ht'
            exact absurd hty' k
    · rintro (⟨⟨t, r1, ht, k⟩, h⟩ | h)
      · refine .inr ⟨t, r1, ht, ?_⟩
        rw [if_pos (by simpa using k)]
        exact bad_errHere.2 h
      · cases h with
        | lex h => exact .inl h
        | @token t r1 ht hn =>
          refine .inr ⟨t, r1, ht, ?_⟩
          rw [if_neg (by simpa using fun k => hn (.inl k)), tail]
          exact .inl (.token ht hn)
  · have hw : (headSym r).is iswhite = false := by simpa using hw
    simp only [hw, true_and, Bool.false_eq_true, false_and, or_false, if_false, false_or]
    exact tail

/-- The errors of one parameter. -/
inductive ParamErr (env : Env) (fn : Str) (used : List Str) (d : Bool) : List Cell → Str → Pos → Prop
  | token {r m q} : Want env r (fun ty => ty = .identifier ∨ ty = .dotdotdot) m q → ParamErr env fn used d r m q
  | illegal {r t r'} : Lex env r t r' → t.ty = .identifier →
      isargname t.value = false ∨ t.value = cs!"firstline" ∨ t.value = cs!"lastline" →
      ParamErr env fn used d r (cs!"E125: Illegal argument: " ++ t.value) t.pos
  | twice {r t r'} : Lex env r t r' → t.ty = .identifier → isargname t.value = true →
      t.value ≠ cs!"firstline" → t.value ≠ cs!"lastline" → t.value ∈ used →
      ParamErr env fn used d r (cs!"E853: Duplicate argument name: " ++ t.value) t.pos
  | after {r t r1 m q} : Lex env r t r1 → ParamName used t → LexErr env r1 m q → ParamErr env fn used d r m q
  | default {r t r1 q0 r2 m q} : Lex env r t r1 → ParamName used t → Mark env fn r1 .eq q0 r2 →
      GErr env fn 1 r2 m q → ParamErr env fn used d r m q
  | noDefault {r t r1} : Lex env r t r1 → ParamName used t → Next env r1 (· ≠ .eq) → d = true →
      ParamErr env fn used d r cs!"E989: Non-default argument follows default argument" t.pos
  | dots {r q0 r1 m q} : Mark env fn r .dotdotdot q0 r1 → Want env r1 (· = .pclose) m q → ParamErr env fn used d r m q

theorem bad_paramBody (he : EnvOK env) (hs : Suf env r) {st : ParamSt} : Bad env (paramBody st) r msg q ↔
    ParamErr env fn st.named (!st.defaults.isEmpty) r msg q ∨
    ∃ i ds r1, Param env fn st.named (!st.defaults.isEmpty) r i ds r1 ∧ ParamTailErr env fn r1 msg q := by
  have hd : st.defaults.length > 0 ↔ (!st.defaults.isEmpty) = true := by cases st.defaults <;> simp

  have hname : ∀ t : Token, t.ty = .identifier → ((¬ (!isargname t.value || t.value == cs!"firstline" || t.value == cs!"lastline") = true) ∧
      ¬ st.named.contains t.value = true ↔ ParamName st.named t) := by
    intro t hty
    unfold ParamName
    simp [hty, and_assoc]
  have hrest : ∀ {t : Token} {r1 : List Cell}, Lex env r t r1 → ParamName st.named t → (Bad env (do
          let t1 ← tokpeek
          if t1.ty = .eq then do
              let _ ← tokget
              let e ← parseExpr1
              paramTail ⟨st.rlist ++ [(t.pos, t.value)], st.defaults ++ [e], t.value :: st.named⟩
            else if st.defaults.length > 0 then
              errAt cs!"E989: Non-default argument follows default argument" t.pos
            else paramTail ⟨st.rlist ++ [(t.pos, t.value)], st.defaults, t.value :: st.named⟩) r1 msg q ↔
      LexErr env r1 msg q ∨ (∃ q0 r2, Mark env fn r1 .eq q0 r2 ∧ (GErr env fn 1 r2 msg q ∨
        ∃ e r3, Gram env fn 1 r2 e r3 ∧ ParamTailErr env fn r3 msg q)) ∨
      (Next env r1 (· ≠ .eq) ∧ ((!st.defaults.isEmpty) = true ∧ msg = cs!"E989: Non-default argument follows default argument" ∧ q = t.pos ∨
        (!st.defaults.isEmpty) = false ∧ ParamTailErr env fn r1 msg q))) := by
    intro t r1 ht _
    have hs1 := ht.suf he hs
    rw [badb_tokpeek he hs1]
    refine or_congr Iff.rfl ?_
    have hdef : ∀ {r2}, Suf env r2 → (Bad env (do
              let e ← parseExpr1
              paramTail ⟨st.rlist ++ [(t.pos, t.value)], st.defaults ++ [e], t.value :: st.named⟩) r2 msg q ↔
        GErr env fn 1 r2 msg q ∨ ∃ e r3, Gram env fn 1 r2 e r3 ∧ ParamTailErr env fn r3 msg q) := fun hs2 =>
      (parB_expr (fn := fn) he).bind hs2 fun v a r3 _ _ _ hs3 => bad_paramTail he hs3
    constructor
    · rintro ⟨t1, r2, ht1, h⟩
      by_cases k : t1.ty = .eq
      · rw [if_pos k, badb_take he hs1 ht1, hdef (ht1.suf he hs1)] at h
        exact .inl ⟨_, r2, ⟨t1, ht1, k, rfl⟩, h⟩
      · rw [if_neg k, bad_ite, bad_errAt, bad_paramTail (fn := fn) he hs1, hd, Bool.not_eq_true] at h
        exact .inr ⟨⟨t1, r2, ht1, k⟩, h⟩
    · rintro (⟨q0, r2, ⟨t1, ht1, k, _⟩, h⟩ | ⟨⟨t1, r2, ht1, k⟩, h⟩)
      · refine ⟨t1, r2, ht1, ?_⟩
        rw [if_pos k, badb_take he hs1 ht1, hdef (ht1.suf he hs1)]
        exact h
      · refine ⟨t1, r2, ht1, ?_⟩
        rw [if_neg k, bad_ite, bad_errAt, bad_paramTail (fn := fn) he hs1, hd, Bool.not_eq_true]
        exact h
  unfold paramBody
  rw [badb_tokget he hs]
  constructor
  · rintro (h | ⟨t, r1, ht, h⟩)
    · exact .inl (.token (.lex h))
    have hs1 := ht.suf he hs
    by_cases k1 : t.ty = .identifier
    · rw [if_pos k1] at h
      by_cases k2 : (!isargname t.value || t.value == cs!"firstline" || t.value == cs!"lastline") = true
      · rw [if_pos k2] at h
        obtain ⟨rfl, rfl⟩ := bad_errAt.1 h
        refine .inl (.illegal ht k1 ?_)
        simpa [or_assoc] using k2
      rw [if_neg k2] at h
      by_cases k3 : st.named.contains t.value = true
      · rw [if_pos k3] at h
        obtain ⟨rfl, rfl⟩ := bad_errAt.1 h
        simp only [Bool.or_eq_true, Bool.not_eq_true', beq_iff_eq, not_or, Bool.not_eq_false] at k2
        exact .inl (.twice ht k1 k2.1.1 k2.1.2 k2.2 (by simpa using k3))
      rw [if_neg k3] at h
      have hn := (hname t k1).1 ⟨k2, k3⟩
      rcases (hrest ht hn).1 h with h | ⟨q0, r2, hm, h | ⟨e, r3, he', h⟩⟩ | ⟨hx, ⟨hd, rfl, rfl⟩ | ⟨hd, h⟩⟩
      · exact .inl (.after ht hn h)
      · exact .inl (.default ht hn hm h)
      · exact .inr ⟨_, _, _, .default ht k1 hn.2.1 hn.2.2 hm he', h⟩
      · exact .inl (.noDefault ht hn hx hd)
      · exact .inr ⟨_, _, _, .plain ht k1 hn.2.1 hn.2.2 hx hd, h⟩
    · rw [if_neg k1] at h
      by_cases k2 : t.ty = .dotdotdot
      · rw [if_pos k2] at h
        simp only at h
        rw [badb_tokget he hs1] at h
        refine .inl (.dots ⟨t, ht, k2, rfl⟩ ?_)
        rw [want_iff]
        refine h.imp id ?_
        rintro ⟨t2, r2, ht2, h⟩
        rw [bad_ite] at h
        rcases h with ⟨_, h⟩ | ⟨k, h⟩
        · cases h
        · exact ⟨t2, r2, ht2, k, bad_unexpected.1 h⟩
      · rw [if_neg k2] at h
        obtain ⟨rfl, rfl⟩ := bad_unexpected.1 h
        exact .inl (.token (.token ht (by simp [k1, k2])))
  · have name : ∀ {t r1}, Lex env r t r1 → ParamName st.named t → Bad env (do
          let t1 ← tokpeek
          if t1.ty = .eq then do
              let _ ← tokget
              let e ← parseExpr1
              paramTail ⟨st.rlist ++ [(t.pos, t.value)], st.defaults ++ [e], t.value :: st.named⟩
            else if st.defaults.length > 0 then
              errAt cs!"E989: Non-default argument follows default argument" t.pos
            else paramTail ⟨st.rlist ++ [(t.pos, t.value)], st.defaults, t.value :: st.named⟩) r1 msg q →
        LexErr env r msg q ∨ ∃ t r1, Lex env r t r1 ∧ Bad env (
      if t.ty = .identifier then
        if !isargname t.value || t.value == cs!"firstline" || t.value == cs!"lastline" then
          errAt (cs!"E125: Illegal argument: " ++ t.value) t.pos
        else if st.named.contains t.value then
          errAt (cs!"E853: Duplicate argument name: " ++ t.value) t.pos
        else do
          let t1 ← tokpeek
          if t1.ty = .eq then do
              let _ ← tokget
              let e ← parseExpr1
              paramTail ⟨st.rlist ++ [(t.pos, t.value)], st.defaults ++ [e], t.value :: st.named⟩
            else if st.defaults.length > 0 then
              errAt cs!"E989: Non-default argument follows default argument" t.pos
            else paramTail ⟨st.rlist ++ [(t.pos, t.value)], st.defaults, t.value :: st.named⟩
      else if t.ty = .dotdotdot then do
        let rlist := st.rlist ++ [(t.pos, t.value)]
        let t2 ← tokget
        if t2.ty = .pclose then pure (.inr ⟨rlist, st.defaults, st.named⟩)
        else unexpected t2
      else unexpected t) r1 msg q := by
      intro t r1 ht hn h
      obtain ⟨k2, k3⟩ := (hname t hn.1).2 hn
      refine .inr ⟨t, r1, ht, ?_⟩
      rw [if_pos hn.1, if_neg k2, if_neg k3]
      exact h
    rintro (h | ⟨i, ds, r1, hp, h⟩)
    · cases h with
      | token h =>
        cases h with
        | lex h => exact .inl h
        | @token t r1 ht hn =>
          refine .inr ⟨t, r1, ht, ?_⟩
          rw [if_neg fun k => hn (.inl k), if_neg fun k => hn (.inr k)]
          exact bad_unexpected.2 ⟨rfl, rfl⟩
      | @illegal t r1 ht k1 k2 =>
        refine .inr ⟨t, r1, ht, ?_⟩
        rw [if_pos k1, if_pos (by simpa [or_assoc] using k2)]
        exact bad_errAt.2 ⟨rfl, rfl⟩
      | @twice t r1 ht k1 k2 k3 k4 k5 =>
        refine .inr ⟨t, r1, ht, ?_⟩
        rw [if_pos k1, if_neg (by simp [k2, k3, k4]), if_pos (by simpa using k5)]
        exact bad_errAt.2 ⟨rfl, rfl⟩
      | after ht hn h => exact name ht hn ((hrest ht hn).2 (.inl h))
      | default ht hn hm h => exact name ht hn ((hrest ht hn).2 (.inr (.inl ⟨_, _, hm, .inl h⟩)))
      | noDefault ht hn hx hd => exact name ht hn ((hrest ht hn).2 (.inr (.inr ⟨hx, .inl ⟨hd, rfl, rfl⟩⟩)))
      | @dots q0 r1 _ _ hm h =>
        obtain ⟨t, ht, hty, _⟩ := hm
        refine .inr ⟨t, r1, ht, ?_⟩
        rw [if_neg (by simp [hty]), if_pos hty]
        simp only
        rw [badb_tokget he (ht.suf he hs)]
        refine (want_iff.1 h).imp id ?_
        rintro ⟨t2, r2, ht2, k, h⟩
        refine ⟨t2, r2, ht2, ?_⟩
        rw [if_neg k]
        exact bad_unexpected.2 h
    · cases hp with
      | plain ht k1 k2 k3 hx hd =>
        exact name ht ⟨k1, k2, k3⟩ ((hrest ht ⟨k1, k2, k3⟩).2 (.inr (.inr ⟨hx, .inr ⟨hd, h⟩⟩)))
      | default ht k1 k2 k3 hm hg =>
        exact name ht ⟨k1, k2, k3⟩ ((hrest ht ⟨k1, k2, k3⟩).2 (.inr (.inl ⟨_, _, hm, .inr ⟨_, _, hg, h⟩⟩)))

theorem exprs_isEmpty {es : List VExpr} {ds : List Ast.Expr} (h : Export.exprs fn es = some ds) : es.isEmpty = ds.isEmpty := by
  cases es with
  | nil => cases h; rfl
  | cons e es =>
    simp only [Export.exprs, Option.bind_eq_bind, Option.bind_eq_some_iff] at h
    obtain ⟨_, _, _, _, h⟩ := h
    cases h; rfl

theorem paramBody_more (he : EnvOK env) (hs : Suf env r) {st st1 : ParamSt} (h : Ok env (paramBody st) r (.inl st1) r') :
    ∃ i ds r1 q, Param env fn st.named (!st.defaults.isEmpty) r i ds r1 ∧ SAdv r r1 ∧ (headSym r1).is iswhite = false ∧
      Mark env fn r1 .comma q r' ∧ Next env r' (· ≠ .pclose) ∧ st1.named = i.name :: st.named ∧
      (!st1.defaults.isEmpty) = (!st.defaults.isEmpty || !ds.isEmpty) := by
  rcases param_sound (fn := fn) he hs h with ⟨_, _, _, _, _, _, h⟩ | ⟨q, n, es, ds, r1, h1, h2, h3, h⟩
  · cases h
  · have s1 := h3.suf hs
    rcases paramTail_iff.1 h with ⟨h, _⟩ | ⟨hw, t, r2, ht, ⟨h, _⟩ | ⟨h, rfl, t', r3, ht', hty'⟩⟩
    · cases h
    · cases h
    · cases h
      have s2 := (ht.sadv he s1).suf s1
      refine ⟨_, ds, r1, _, h1, h3, hw, ht.mark he s1, ⟨t', r3, (tokGet_iff he s2 _ _).1 ht', hty'⟩, rfl, ?_⟩
      rw [← exprs_isEmpty h2]
      cases st.defaults <;> simp

theorem paramListErr_iff {used : List Str} {d : Bool} : ParamListErr env fn used d r msg q ↔
    ParamErr env fn used d r msg q ∨ (∃ i ds r1, Param env fn used d r i ds r1 ∧ ParamTailErr env fn r1 msg q) ∨
    ∃ i ds r1 q0 r2, Param env fn used d r i ds r1 ∧ (headSym r1).is iswhite = false ∧ Mark env fn r1 .comma q0 r2 ∧
      Next env r2 (· ≠ .pclose) ∧ ParamListErr env fn (i.name :: used) (d || !ds.isEmpty) r2 msg q := by
  constructor
  · intro h
    cases h with
    | token h => exact .inl (.token h)
    | illegal h1 h2 h3 => exact .inl (.illegal h1 h2 h3)
    | twice h1 h2 h3 h4 h5 h6 => exact .inl (.twice h1 h2 h3 h4 h5 h6)
    | after h1 h2 h3 => exact .inl (.after h1 h2 h3)
    | default h1 h2 h3 h4 => exact .inl (.default h1 h2 h3 h4)
    | noDefault h1 h2 h3 => exact .inl (.noDefault h1 h2 h3 rfl)
    | white h1 h2 h3 => exact .inr (.inl ⟨_, _, _, h1, .inl ⟨h2, h3, rfl, rfl⟩⟩)
    | sep h1 h2 => exact .inr (.inl ⟨_, _, _, h1, .inr (.inl h2)⟩)
    | comma h1 h2 h3 h4 => exact .inr (.inl ⟨_, _, _, h1, .inr (.inr ⟨h2, _, _, h3, h4⟩)⟩)
    | more h1 h2 h3 h4 h5 => exact .inr (.inr ⟨_, _, _, _, _, h1, h2, h3, h4, h5⟩)
    | dots h1 h2 => exact .inl (.dots h1 h2)
  · rintro (h | ⟨i, ds, r1, h1, ⟨h2, h3, rfl, rfl⟩ | h | ⟨h2, q0, r2, h3, h⟩⟩ | ⟨i, ds, r1, q0, r2, h1, h2, h3, h4, h5⟩)
    · cases h with
      | token h => exact .token h
      | illegal h1 h2 h3 => exact .illegal h1 h2 h3
      | twice h1 h2 h3 h4 h5 h6 => exact .twice h1 h2 h3 h4 h5 h6
      | after h1 h2 h3 => exact .after h1 h2 h3
      | default h1 h2 h3 h4 => exact .default h1 h2 h3 h4
      | noDefault h1 h2 h3 h4 => subst h4; exact .noDefault h1 h2 h3
      | dots h1 h2 => exact .dots h1 h2
    · exact .white h1 h2 h3
    · exact .sep h1 h
    · exact .comma h1 h2 h3 h
    · exact .more h1 h2 h3 h4 h5

theorem bad_paramList (he : EnvOK env) (hs : Suf env r) {st : ParamSt} :
    Bad env (loop paramBody st) r msg q ↔ ParamListErr env fn st.named (!st.defaults.isEmpty) r msg q := by
  refine bad_loop_iff (D := fun _ r => Suf env r)
    (B := fun (st : ParamSt) r => ParamListErr env fn st.named (!st.defaults.isEmpty) r msg q) ?_ ?_ hs
  · intro st r st1 r2 hs h
    obtain ⟨i, ds, r1, q0, h1, a1, hw, hm, _⟩ := paramBody_more (fn := fn) he hs h
    obtain ⟨t, ht, _⟩ := hm.tk he (a1.suf hs)
    have b := a1.trans (ht.sadv he (a1.suf hs))
    exact ⟨b.lt, b.suf hs⟩
  · intro st r hs
    rw [bad_paramBody (fn := fn) he hs, paramListErr_iff, or_assoc]
    refine or_congr Iff.rfl (or_congr Iff.rfl ?_)
    constructor
    · rintro ⟨i, ds, r1, q0, r2, h1, h2, h3, h4, h5⟩
      obtain ⟨a1, p, n, es, rfl, k1, k2⟩ := param_complete he hs h1
      have s1 := a1.suf hs
      obtain ⟨t, ht, _⟩ := h3.tk he s1
      have s2 := (ht.sadv he s1).suf s1
      obtain ⟨t', r3, ht', hty'⟩ := h4
      refine ⟨_, r2, k2 st rfl rfl _ _ (paramTail_iff.2 (.inr ⟨h2, t, _, ht, .inr ⟨rfl, rfl, t', r3, (tokGet_iff he s2 _ _).2 ht', hty'⟩⟩)), ?_⟩
      rw [← exprs_isEmpty k1] at h5
      have : (!(st.defaults ++ es).isEmpty) = (!st.defaults.isEmpty || !es.isEmpty) := by cases st.defaults <;> simp
      rw [this]
      exact h5
    · rintro ⟨st1, r2, h, h5⟩
      obtain ⟨i, ds, r1, q0, h1, a1, h2, h3, h4, k1, k2⟩ := paramBody_more (fn := fn) he hs h
      rw [k1, k2] at h5
      exact ⟨i, ds, r1, q0, r2, h1, h2, h3, h4, h5⟩

theorem parB_params (he : EnvOK env) :
    ParB env (paramEx fn) parseParams (fun r a r' => FuncParamsAt env fn r a.1 a.2 r') (ParamsErr env fn) := by
  refine ⟨par_params he, fun {r msg q} hs => ?_⟩
  rw [parseParams_eq, badb_tokpeek he hs]
  constructor
  · rintro (h | ⟨t, r1, ht, h⟩)
    · exact .lex h
    · by_cases k : t.ty = .pclose
      · rw [if_pos k, badb_take he hs ht] at h; cases h
      · rw [if_neg k, bad_paramList (fn := fn) he hs] at h
        exact .list ⟨t, r1, ht, k⟩ h
  · intro h
    cases h with
    | lex h => exact .inl h
    | list h1 h2 =>
      obtain ⟨t, r1, ht, k⟩ := h1
      refine .inr ⟨t, r1, ht, ?_⟩
      rw [if_neg k, bad_paramList (fn := fn) he hs]
      exact h2

end
end Viml
