/-
The errors of assignment targets.
-/
import Verif.Lemmas.FileErrRaw
import Verif.Lemmas.ExprErrLevel
import Verif.Lemmas.OrderAll

namespace Viml
open Prog Spec

/-! ### Places -/

/-- Different places have different lines or columns. -/
def Apart (env : Env) : Prop :=
  ∀ q q', PosOK env q → PosOK env q' → q.lnum = q'.lnum → q.col = q'.col → q = q'

theorem mkEnv_apart (lines : List Str) : Apart (mkEnv lines) := by
  have hp := Props.C04_strictly_increasing lines
  intro q q' h h' hl hc
  rcases h with ⟨c, hm, rfl⟩ | rfl <;> rcases h' with ⟨c', hm', rfl⟩ | rfl
  · obtain ⟨i, hi, rfl⟩ := List.getElem_of_mem hm
    obtain ⟨j, hj, rfl⟩ := List.getElem_of_mem hm'
    rw [List.pairwise_iff_getElem] at hp
    rcases Nat.lt_trichotomy i j with k | rfl | k
    · have := hp i j hi hj k
      unfold lexLt at this; omega
    · rfl
    · have := hp j i hj hi k
      unfold lexLt at this; omega
  · have := Props.C04_before_eof lines c hm
    unfold lexLt at this; omega
  · have := Props.C04_before_eof lines c' hm'
    unfold lexLt at this; omega
  · rfl

section
variable {env : Env} {fn : Str} {r r' : List Cell} {msg : Str} {q : Pos} {n : Nat}

theorem place_of {q : Pos} (h : PosOK env q) : PlaceOf env fn (pubPos fn q) q := by
  rcases h with ⟨c, hm, rfl⟩ | rfl
  · obtain ⟨a, b, hb⟩ := List.append_of_mem hm
    exact ⟨c :: b, ⟨a, hb.symm⟩, rfl, rfl⟩
  · exact ⟨[], List.nil_suffix, rfl, rfl⟩

theorem place_eq (hp : Apart env) {q q' : Pos} (h : PosOK env q) (h' : PlaceOf env fn (pubPos fn q) q') : q' = q := by
  obtain ⟨r, h1, h2, rfl⟩ := h'
  refine hp _ _ (Suf.posOf h1) h ?_ ?_
  · exact congrArg Ast.Pos.line h2
  · exact congrArg Ast.Pos.column h2

theorem export_pos {v : VExpr} {a : Ast.Expr} (h : Export.expr fn v = some a) : nodePos a = pubPos fn v.pos := by
  cases v
  case atom q t v => cases t <;> simp [Export.expr, Export.atom] at h <;> subst h <;> rfl
  case method q l x =>
    cases x <;> simp only [Export.expr, Option.bind_eq_bind, Option.bind_eq_some_iff] at h
    all_goals first
      | (obtain ⟨_, _, _, _, _, _, ha⟩ := h; cases ha; rfl)
      | (obtain ⟨_, _, _, _, ha⟩ := h; cases ha; rfl)
      | (obtain ⟨_, _, ha⟩ := h; cases ha; rfl)
      | cases h
  case curlyname =>
    simp only [Export.expr, Option.bind_eq_bind, Option.bind_eq_some_iff] at h
    obtain ⟨_, _, ha⟩ := h
    split at ha <;> cases ha <;> rfl
  all_goals
    simp only [Export.expr, Option.bind_eq_bind, Option.bind_eq_some_iff, Option.some.injEq] at h
    first
      | (subst h; rfl)
      | (obtain ⟨_, _, _, _, _, _, ha⟩ := h; cases ha; rfl)
      | (obtain ⟨_, _, _, _, ha⟩ := h; cases ha; rfl)
      | (obtain ⟨_, _, ha⟩ := h; cases ha; rfl)

theorem export_place (hp : Apart env) {v : VExpr} {a : Ast.Expr} (h : Export.expr fn v = some a) (hv : PosOK env v.pos) :
    PlaceOf env fn (nodePos a) q ↔ q = v.pos := by
  rw [export_pos h]
  exact ⟨place_eq hp hv, by rintro rfl; exact place_of hv⟩

theorem lv8_pos (he : EnvOK env) (hs : Suf env r) {v : VExpr} (h : Ok env lv8 r v r') :
    PosOK env v.pos ∧ ∀ q w, v = .atom q .identifier w → w ≠ [] := by
  have := h.wp (lv_spec (P := PosRel env) he (posRel_closed he) hs)
  exact ⟨this.pos, this.name⟩

theorem expr1_pos (he : EnvOK env) (hs : Suf env r) {v : VExpr} (h : Ok env parseExpr1 r v r') : PosOK env v.pos :=
  (h.wp (expr_spec (P := PosRel env) he (posRel_closed he) hs)).pos

/-! ### The start of a target -/

theorem recB (fn : Str) (he : EnvOK env) (n : Nat) : RecB env fn n parseExpr1 where
  ok := fun hs _ => ⟨fun ⟨_, h⟩ => (expr_sound he hs h).elim fun a ha => ⟨a, ha.2⟩,
    fun ⟨_, h⟩ => (expr_complete he hs h).elim fun v hv => ⟨v, hv.1⟩⟩
  bad := fun hs _ => parseExpr1_bad he hs

/-- The errors of the first part of a target. -/
def LvStartErr (env : Env) (fn : Str) (r : List Cell) (m : Str) (q : Pos) : Prop :=
  LexErr env r m q ∨
  (∃ t r', Lex env r t r' ∧ ¬ LvOperand t.ty r' ∧ m = cs!"unexpected token: " ++ t.value ∧ q = t.pos) ∨
  (∃ r1, Next env r (fun ty => ty = .identifier ∨ ty = .copen) ∧ Blanks r r1 ∧ NameErr env fn r1 m q) ∨
  (∃ r1 v r2, Blanks r r1 ∧ Reads r1 v r2 ∧ equalci v cs!"<SID>" = true ∧ NameErr env fn r2 m q)

theorem LvStartErr.lv (h : LvStartErr env fn r msg q) : LvErr env fn r msg q := by
  rcases h with h | ⟨t, r1, h1, h2, rfl, rfl⟩ | ⟨r1, h1, h2, h3⟩ | ⟨r1, v, r2, h1, h2, h3, h4⟩
  · exact .lex h
  · exact .token h1 h2
  · exact .name h1 h2 h3
  · exact .sid h1 h2 h3 h4

theorem bad_lv9 (he : EnvOK env) (hs : Suf env r) : Bad env lv9 r msg q ↔ LvStartErr env fn r msg q := by
  unfold lv9 LvStartErr
  rw [badb_tell, badb_tokget he hs]
  refine or_congr Iff.rfl ?_
  have H := recB fn he r.length
  have hle := Nat.le_refl r.length
  constructor
  · rintro ⟨t, r1, ht, h⟩
    split at h
    case h_1 hty =>
      rw [badb_seekSet, curly_bad H he hs hle ht (.inl hty)] at h
      obtain ⟨r0, h1, h2⟩ := h
      exact .inr (.inl ⟨r0, ⟨t, r1, ht, .inr hty⟩, h1, h2⟩)
    case h_3 hty =>
      rw [badb_seekSet, word_bad H he hs hle ht (.inl hty)] at h
      obtain ⟨r0, h1, h2⟩ := h
      exact .inr (.inl ⟨r0, ⟨t, r1, ht, .inl hty⟩, h1, h2⟩)
    case h_4 hty =>
      rw [badb_peekn, bad_ite] at h
      rcases h with ⟨_, h⟩ | ⟨h0, h⟩
      · rw [badb_seekSet, sidName_bad H he hs hle ht hty] at h
        exact .inr (.inr h)
      · refine .inl ⟨t, r1, ht, ?_, bad_unexpected.1 h⟩
        rintro (k | k | k | k | k | ⟨_, k⟩)
        any_goals (rw [hty] at k; cases k)
        exact h0 (sid4_iff.2 k)
    case h_7 k1 k2 k3 k4 k5 k6 =>
      refine .inl ⟨t, r1, ht, ?_, bad_unexpected.1 h⟩
      rintro (k | k | k | k | k | ⟨k, _⟩)
      · exact k2 k
      · exact k5 k
      · exact k6 k
      · exact k3 k
      · exact k1 k
      · exact k4 k
    all_goals cases h
  · rintro (⟨t, r1, ht, hn, hm, hq⟩ | ⟨r0, ⟨t, r1, ht, hty⟩, h1, h2⟩ | ⟨r0, v, r2, h1, h2, h3, h4⟩)
    · refine ⟨t, r1, ht, ?_⟩
      split
      case h_1 hty => exact (hn (.inr (.inr (.inr (.inr (.inl hty)))))).elim
      case h_2 hty => exact (hn (.inl hty)).elim
      case h_3 hty => exact (hn (.inr (.inr (.inr (.inl hty))))).elim
      case h_4 hty =>
        rw [badb_peekn, if_neg fun k => hn (.inr (.inr (.inr (.inr (.inr ⟨hty, sid4_iff.1 k⟩)))))]
        exact bad_unexpected.2 ⟨hm, hq⟩
      case h_5 hty => exact (hn (.inr (.inl hty))).elim
      case h_6 hty => exact (hn (.inr (.inr (.inl hty)))).elim
      case h_7 => exact bad_unexpected.2 ⟨hm, hq⟩
    · refine ⟨t, r1, ht, ?_⟩
      rcases hty with hty | hty
      · rw [hty]
        simp only
        rw [badb_seekSet, word_bad H he hs hle ht (.inl hty)]
        exact ⟨r0, h1, h2⟩
      · rw [hty]
        simp only
        rw [badb_seekSet, curly_bad H he hs hle ht (.inl hty)]
        exact ⟨r0, h1, h2⟩
    · obtain ⟨t, r1, ht, hty, k⟩ := sid_lex he hs h1 h2 h3
      refine ⟨t, r1, ht, ?_⟩
      rw [hty]
      simp only
      rw [badb_peekn, if_pos k, badb_seekSet, sidName_bad H he hs hle ht hty]
      exact ⟨r0, v, r2, h1, h2, h3, h4⟩

/-! ### Subscripts and members -/

/-- The errors of what follows a target. -/
def LvMoreErr (env : Env) (fn : Str) (r : List Cell) (m : Str) (q : Pos) : Prop :=
  LexErr env r m q ∨
  ∃ q0 r2, (headSym r).is iswhite = false ∧ Mark env fn r .sqopen q0 r2 ∧ SubErr env fn r2 m q

theorem bad_lvBody (he : EnvOK env) (hs : Suf env r) {l : VExpr} : Bad env (lvBody l) r msg q ↔ LvMoreErr env fn r msg q := by
  unfold lvBody LvMoreErr
  rw [badb_tell, badb_peek, badb_tokget he hs]
  refine or_congr Iff.rfl ?_
  constructor
  · rintro ⟨t, r2, ht, h⟩
    by_cases hc : (headSym r).is iswhite = false ∧ t.ty = .sqopen
    · rw [if_pos (by simp [hc]), bad_then_pure,
        parseSubscript_bad (recB fn he (r2.length + 1)) he (ht.suf he hs) (Nat.lt_succ_self _)] at h
      exact ⟨_, r2, hc.1, ⟨t, ht, hc.2, rfl⟩, h⟩
    · rw [if_neg (by simpa using hc)] at h
      exfalso
      rw [bad_ite] at h
      rcases h with ⟨_, h⟩ | ⟨_, h⟩
      · rcases bad_bind.1 h with h | ⟨o, r3, _, h⟩
        · exact parseDot_bad h
        · cases o with
          | none => simp only at h; rw [badb_seekSet] at h; cases h
          | some e => cases h
      · rw [badb_seekSet] at h; cases h
  · rintro ⟨q0, r2, hw, ⟨t, ht, hty, _⟩, h⟩
    refine ⟨t, r2, ht, ?_⟩
    rw [if_pos (by simp [hw, hty]), bad_then_pure,
      parseSubscript_bad (recB fn he (r2.length + 1)) he (ht.suf he hs) (Nat.lt_succ_self _)]
    exact h

theorem lvBody_step (he : EnvOK env) (hs : Suf env r) {l l1 : VExpr} {a : Ast.Expr} {rc rc1 : List Cell}
    (ha : Export.expr fn l = some a) (hc : LvChain env fn r a rc) (h : Ok env (lvBody l) rc (.inl l1) rc1) :
    ∃ a1, Export.expr fn l1 = some a1 ∧ LvChain env fn r a1 rc1 := by
  have sc := (hc.adv he hs).suf hs
  unfold lvBody at h
  rw [bind_tell, bind_peek, bind_tokget] at h
  obtain ⟨t, r2, ht, h⟩ := h
  have lx := (tokGet_iff he sc _ _).1 ht
  have s2 : Suf env r2 := (tokGet_at he sc ht).suf sc
  rw [ok_ite] at h
  rcases h with ⟨g1, h⟩ | ⟨g1, h⟩
  · simp only [Bool.and_eq_true, Bool.not_eq_true', beq_iff_eq] at g1
    rw [ok_bind] at h
    obtain ⟨e, r3, h3, h⟩ := h
    obtain ⟨h5, rfl⟩ := ok_pure.1 h
    cases h5
    have hm : Mark env fn rc .sqopen (pubPos fn t.pos) r2 := ⟨t, lx, g1.2, rfl⟩
    have h4 := h3.wp (parseSubscript_spec (P := GP env fn) he (recOK he (r2.length + 1)) s2 (Nat.lt_succ_self _))
    cases h4 with
    | sub hx ht' =>
      obtain ⟨b, b1, b2⟩ := der1 hx
      exact ⟨.subscript (pubPos fn t.pos) a b, by simp [Export.expr, ha, b1]; rfl,
        .subscript hc g1.1 hm b2 (ht'.mark he hx.suf')⟩
    | @slice lo r3 t' r4 hi r5 t'' _ hlo ht' hhi ht'' =>
      obtain ⟨lo', l1, l2⟩ := opt_gram hlo
      obtain ⟨hi', i1, i2⟩ := opt_gram hhi
      have s3 : Suf env r3 := by
        rcases hlo with ⟨_, rfl⟩ | ⟨_, _, h⟩
        · exact s2
        · exact h.suf'
      have s4 := (ht'.sadv he s3).suf s3
      have s5 : Suf env r5 := by
        rcases hhi with ⟨_, rfl⟩ | ⟨_, _, h⟩
        · exact s4
        · exact h.suf'
      exact ⟨.slice a (pubPos fn t.pos) lo' hi', by simp [Export.expr, ha, l1, i1]; rfl,
        .slice hc g1.1 hm l2 (ht'.mark he s3) i2 (ht''.mark he s5)⟩
  · rw [ok_ite] at h
    rcases h with ⟨g2, h⟩ | ⟨g2, h⟩
    · simp only [Bool.and_eq_true, Bool.not_eq_true', beq_iff_eq] at g2
      rw [ok_bind] at h
      obtain ⟨o, r3, h3, h⟩ := h
      have h4 := h3.wp parseDot_spec
      cases o with
      | none =>
        rw [bind_seekSet] at h
        cases (ok_pure.1 h).1
      | some e =>
        obtain ⟨h5, rfl⟩ := ok_pure.1 h
        cases h5
        obtain ⟨j1, j2, j3, rfl, rfl⟩ := h4
        exact ⟨.dot a (pubPos fn t.pos) ⟨pubPos fn (posOf env r2), (spanS iswordc r2).1⟩,
          by simp [Export.expr, ha]; exact ⟨rfl, rfl⟩,
          .dot hc g2.1 (dotBase_of j1 ha) ⟨t, lx, g2.2, rfl⟩ (member_span j2 j3)⟩
    · rw [bind_seekSet] at h
      cases (ok_pure.1 h).1

theorem bad_loopN_mono {body : σ → Prog (σ ⊕ β)} {n : Nat} {s : σ} (h : Bad env (loopN body n s) r msg q) :
    ∀ m, n ≤ m → Bad env (loopN body m s) r msg q := by
  induction n generalizing s r with
  | zero => cases h
  | succ n ih =>
    intro m hm
    obtain ⟨m, rfl⟩ : ∃ k, m = k + 1 := ⟨m - 1, by omega⟩
    rw [loopN, bad_bind] at h ⊢
    rcases h with h | ⟨x, r1, h1, h2⟩
    · exact .inl h
    · refine .inr ⟨x, r1, h1, ?_⟩
      cases x with
      | inl s1 => exact ih h2 m (by omega)
      | inr b => cases h2

theorem bad_loop_more {body : σ → Prog (σ ⊕ β)} {s s1 : σ} {r1 : List Cell} (h : Ok env (body s) r (.inl s1) r1)
    (hl : r1.length < r.length) (h1 : Bad env (loop body s1) r1 msg q) : Bad env (loop body s) r msg q := by
  rw [bad_loop] at h1 ⊢
  rw [loopN, bad_bind]
  exact .inr ⟨_, _, h, bad_loopN_mono h1 _ (by omega)⟩

theorem bad_loop_now {body : σ → Prog (σ ⊕ β)} {s : σ} (h : Bad env (body s) r msg q) : Bad env (loop body s) r msg q := by
  rw [bad_loop, loopN, bad_bind]
  exact .inl h

/-- After a chain the parser is in its loop. -/
theorem chain_bad (he : EnvOK env) (hs : Suf env r) {a : Ast.Expr} {r1 : List Cell} (h : LvChain env fn r a r1) :
    ∃ v, Export.expr fn v = some a ∧ ∀ m q, Bad env (loop lvBody v) r1 m q → Bad env lv8 r m q := by
  induction h with
  | start h =>
    obtain ⟨_, v, h1, h2⟩ := lv9_complete he hs h
    refine ⟨v, h1, fun m q h3 => ?_⟩
    rw [lv8_eq, bad_bind]
    exact .inr ⟨v, _, h2, h3⟩
  | subscript hc hw hq hx hq' ih =>
    obtain ⟨v, v1, v2⟩ := ih
    have s1 := (hc.adv he hs).suf hs
    obtain ⟨t, ht, rfl⟩ := hq.tk he s1
    have a2 := ht.sadv he s1
    have s2 := a2.suf s1
    obtain ⟨vx, x1, x2⟩ := (gram_run he hx).qr s2
    obtain ⟨t', ht', _⟩ := hq'.tk he x2.suf'
    obtain ⟨t0, r0, f1, f2⟩ := x2.first
    refine ⟨.subscript t.pos v vx, by simp [Export.expr, v1, x1]; rfl, fun m q h3 => v2 m q ?_⟩
    refine bad_loop_more (lvBody_sub ht hw (parseSubscript_run f1 f2.1 x2.run1 ht'.1 ht'.2)) ?_ h3
    exact (a2.trans (x2.adv.trans (ht'.sadv he x2.suf'))).lt
  | slice hc hw hq hlo hq' hhi hq'' ih =>
    obtain ⟨v, v1, v2⟩ := ih
    have s1 := (hc.adv he hs).suf hs
    obtain ⟨t, ht, rfl⟩ := hq.tk he s1
    have a2 := ht.sadv he s1
    have s2 := a2.suf s1
    obtain ⟨a3, vlo, x1, x2⟩ := opt_run he hlo s2
    have s3 := a3.suf s2
    obtain ⟨t', ht', _⟩ := hq'.tk he s3
    have a4 := ht'.sadv he s3
    have s4 := a4.suf s3
    obtain ⟨a5, vhi, y1, y2⟩ := opt_run he hhi s4
    have s5 := a5.suf s4
    obtain ⟨t'', ht'', _⟩ := hq''.tk he s5
    refine ⟨.slice t.pos v vlo vhi, by simp [Export.expr, v1, x1, y1]; rfl, fun m q h3 => v2 m q ?_⟩
    refine bad_loop_more (lvBody_sub ht hw (parseSlice_run1 x2 ht' y2 ht'')) ?_ h3
    exact (a2.trans (a3.trans_sadv (a4.trans (a5.trans_sadv (ht''.sadv he s5))))).lt
  | dot hc hw hd hq hm ih =>
    obtain ⟨v, v1, v2⟩ := ih
    have s1 := (hc.adv he hs).suf hs
    obtain ⟨t, ht, rfl⟩ := hq.tk he s1
    rename_i r2 m _
    refine ⟨.dot t.pos v (posOf env r2) m, by simp [Export.expr, v1]; exact ⟨rfl, rfl⟩, fun m q h3 => v2 m q ?_⟩
    refine bad_loop_more ?_ ?_ h3
    · unfold lvBody
      rw [bind_tell, bind_peek, bind_tokget]
      refine ⟨t, _, ht.1, ?_⟩
      rw [if_neg (by simp [ht.2]), if_pos (by simp [hw, ht.2]), ok_bind]
      exact ⟨_, _, parseDot_some (dotLeft_of hd v1) hm, ok_pure.2 ⟨rfl, rfl⟩⟩
    · exact ((ht.sadv he s1).trans_adv hm.1.adv).lt

theorem bad_lv8 (he : EnvOK env) (hs : Suf env r) : Bad env lv8 r msg q ↔ LvErr env fn r msg q := by
  have more : ∀ {a r1}, LvChain env fn r a r1 → LvMoreErr env fn r1 msg q → Bad env lv8 r msg q := by
    intro a r1 hc h
    obtain ⟨v, _, k⟩ := chain_bad he hs hc
    exact k _ _ (bad_loop_now ((bad_lvBody he ((hc.adv he hs).suf hs)).2 h))
  have start : LvStartErr env fn r msg q → Bad env lv8 r msg q := by
    intro h
    rw [lv8_eq, bad_bind]
    exact .inl ((bad_lv9 he hs).2 h)
  constructor
  · intro h
    rw [lv8_eq, bad_bind] at h
    rcases h with h | ⟨l0, r1, h1, h⟩
    · exact ((bad_lv9 (fn := fn) he hs).1 h).lv
    · obtain ⟨a0, k1, k2⟩ := lv9_sound (fn := fn) he hs h1
      obtain ⟨l, rc, ⟨a, ha, hc⟩, h⟩ := bad_loop_reach
        (P := fun l rc => ∃ a, Export.expr fn l = some a ∧ LvChain env fn r a rc)
        (fun l rc l1 rc1 ⟨a, ha, hc⟩ h => lvBody_step he hs ha hc h) ⟨a0, k1, .start k2⟩ h
      rcases (bad_lvBody (fn := fn) he ((hc.adv he hs).suf hs)).1 h with h | ⟨q0, r2, hw, hm, h⟩
      · exact .after hc h
      · exact .subscript hc hw hm h
  · intro h
    cases h with
    | lex h => exact start (.inl h)
    | token h1 h2 => exact start (.inr (.inl ⟨_, _, h1, h2, rfl, rfl⟩))
    | name h1 h2 h3 => exact start (.inr (.inr (.inl ⟨_, h1, h2, h3⟩)))
    | sid h1 h2 h3 h4 => exact start (.inr (.inr (.inr ⟨_, _, _, h1, h2, h3, h4⟩)))
    | after hc h => exact more hc (.inl h)
    | subscript hc hw hm h => exact more hc (.inr ⟨_, _, hw, hm, h⟩)

/-! ### What is assigned to -/

theorem lv_kind {e : Ast.Expr} (h : Lv env fn r e r') : (∃ i, e = .ident i) ∨ (∃ p k v, e = .basicLit p k v ∧
    (k = .OPTION ∨ k = .ENV ∨ k = .REG)) ∨ (∃ p ps, e = .curlyName p ps) ∨ (∃ p l x, e = .subscript p l x) ∨
    (∃ l p lo hi, e = .slice l p lo hi) ∨ ∃ l p i, e = .dot l p i := by
  cases h.1 with
  | start h =>
    cases h with
    | lit _ _ h3 => exact .inr (.inl ⟨_, _, _, rfl, h3⟩)
    | name => 
      unfold nameNode
      split
      · exact .inl ⟨_, rfl⟩
      · exact .inr (.inr (.inl ⟨_, _, rfl⟩))
    | sid =>
      unfold nameNode
      split
      · exact .inl ⟨_, rfl⟩
      · exact .inr (.inr (.inl ⟨_, _, rfl⟩))
  | subscript => exact .inr (.inr (.inr (.inl ⟨_, _, _, rfl⟩)))
  | slice => exact .inr (.inr (.inr (.inr (.inl ⟨_, _, _, _, rfl⟩))))
  | dot => exact .inr (.inr (.inr (.inr (.inr ⟨_, _, _, rfl⟩))))

theorem bad_varname {v : VExpr} {a : Ast.Expr} {w : Str} (ha : Export.expr fn v = some a) :
    badVarname v = some w ↔ ∃ i, a = .ident i ∧ ¬ VarName i.name ∧ w = i.name := by
  constructor
  · intro h
    unfold badVarname at h
    split at h
    · split at h
      · cases h
      · rename_i hv
        cases h
        simp only [Export.expr, Export.atom, Option.some.injEq] at ha
        exact ⟨_, ha.symm, fun k => hv (isvarname_iff.2 k), rfl⟩
    · cases h
  · rintro ⟨i, rfl, hi, rfl⟩
    obtain ⟨q, rfl⟩ := expr_ident ha
    simp only [badVarname]
    rw [if_neg fun k => hi (isvarname_iff.1 k)]

theorem lv_target {e : Ast.Expr} (h : Lv env fn r e r') (hn : ∀ i, e = .ident i → VarName i.name) : target e := by
  rcases lv_kind h with ⟨i, rfl⟩ | ⟨p, k, v, rfl, hk⟩ | ⟨p, ps, rfl⟩ | ⟨p, l, x, rfl⟩ | ⟨l, p, lo, hi, rfl⟩ | ⟨l, p, i, rfl⟩
  · exact hn i rfl
  · rcases hk with rfl | rfl | rfl <;> simp [target]
  all_goals trivial

theorem bad_lvalue (he : EnvOK env) (hp : Apart env) (hs : Suf env r) :
    Bad env parseLvalue r msg q ↔ TargetErr env fn r msg q := by
  unfold parseLvalue
  rw [bad_bind, bad_lv8 (fn := fn) he hs]
  constructor
  · rintro (h | ⟨v, r1, h1, h⟩)
    · exact .lv h
    · obtain ⟨a, ha, hl⟩ := lv8_sound (fn := fn) he hs h1
      have hv := (lv8_pos he hs h1).1
      split at h
      · rename_i w hw
        obtain ⟨rfl, rfl⟩ := bad_errAt.1 h
        obtain ⟨i, rfl, hi, rfl⟩ := (bad_varname ha).1 hw
        exact .name hl hi ((export_place hp ha hv).2 rfl)
      · rename_i hw
        exfalso
        have ht : target a := lv_target hl fun i hi => by
          apply Classical.byContradiction
          intro hn
          have := (bad_varname ha (w := i.name)).2 ⟨i, hi, hn, rfl⟩
          rw [hw] at this; cases this
        rw [if_pos ((lvalue_iff ha).2 ht).1] at h
        cases h
  · intro h
    cases h with
    | lv h => exact .inl h
    | @name i r1 _ hl hi hq =>
      obtain ⟨v, ha, h1⟩ := lv8_complete he hs hl
      refine .inr ⟨v, r1, h1, ?_⟩
      rw [(bad_varname ha (w := i.name)).2 ⟨i, rfl, hi, rfl⟩]
      exact bad_errAt.2 ⟨rfl, (export_place hp ha (lv8_pos he hs h1).1).1 hq⟩

theorem bad_lvalueFunc (he : EnvOK env) (hp : Apart env) (hs : Suf env r) :
    Bad env parseLvalueFunc r msg q ↔ FuncNameErr env fn r msg q := by
  unfold parseLvalueFunc
  rw [bad_bind, bad_lv8 (fn := fn) he hs]
  constructor
  · rintro (h | ⟨v, r1, h1, h⟩)
    · exact .lv h
    · obtain ⟨a, ha, hl⟩ := lv8_sound (fn := fn) he hs h1
      rw [bad_ite] at h
      rcases h with ⟨_, h⟩ | ⟨hn, h⟩
      · cases h
      · obtain ⟨rfl, rfl⟩ := bad_errAt.1 h
        exact .kind hl (fun k => hn ((lvalueFunc_iff ha).2 k)) ((export_place hp ha (lv8_pos he hs h1).1).2 rfl)
  · intro h
    cases h with
    | lv h => exact .inl h
    | kind hl hn hq =>
      obtain ⟨v, ha, h1⟩ := lv8_complete he hs hl
      refine .inr ⟨v, _, h1, ?_⟩
      rw [if_neg fun k => hn ((lvalueFunc_iff ha).1 k)]
      exact bad_errAt.2 ⟨rfl, (export_place hp ha (lv8_pos he hs h1).1).1 hq⟩

theorem bad_constlvalue (he : EnvOK env) (hp : Apart env) (hs : Suf env r) :
    Bad env parseConstlvalue r msg q ↔ ConstErr env fn r msg q := by
  unfold parseConstlvalue
  rw [bad_bind, bad_lv8 (fn := fn) he hs]
  constructor
  · rintro (h | ⟨v, r1, h1, h⟩)
    · exact .target (.lv h)
    · obtain ⟨a, ha, hl⟩ := lv8_sound (fn := fn) he hs h1
      have hv := (lv8_pos he hs h1).1
      have hq : ∀ {q}, PlaceOf env fn (nodePos a) q ↔ q = v.pos := export_place hp ha hv
      split at h
      · rename_i w hw
        obtain ⟨rfl, rfl⟩ := bad_errAt.1 h
        obtain ⟨i, rfl, hi, rfl⟩ := (bad_varname ha).1 hw
        exact .target (.name hl hi (hq.2 rfl))
      · rename_i hw
        split at h
        · cases h
        · cases h
        · obtain ⟨rfl, rfl⟩ := bad_errAt.1 h
          refine .kind hl ?_ (hq.2 rfl)
          simp only [Export.expr, Option.bind_eq_bind, Option.bind_eq_some_iff] at ha
          obtain ⟨_, _, _, _, ha⟩ := ha; cases ha
          constructor
        · obtain ⟨rfl, rfl⟩ := bad_errAt.1 h
          refine .kind hl ?_ (hq.2 rfl)
          simp only [Export.expr, Option.bind_eq_bind, Option.bind_eq_some_iff] at ha
          obtain ⟨_, _, _, _, _, _, ha⟩ := ha; cases ha
          constructor
        · obtain ⟨rfl, rfl⟩ := bad_errAt.1 h
          refine .kind hl ?_ (hq.2 rfl)
          simp only [Export.expr, Option.bind_eq_bind, Option.bind_eq_some_iff] at ha
          obtain ⟨_, _, ha⟩ := ha; cases ha
          constructor
        · obtain ⟨rfl, rfl⟩ := bad_errAt.1 h
          refine .kind hl ?_ (hq.2 rfl)
          simp only [Export.expr, Export.atom, Option.some.injEq] at ha
          subst ha; constructor
        · obtain ⟨rfl, rfl⟩ := bad_errAt.1 h
          refine .kind hl ?_ (hq.2 rfl)
          simp only [Export.expr, Export.atom, Option.some.injEq] at ha
          subst ha; constructor
        · obtain ⟨rfl, rfl⟩ := bad_errAt.1 h
          refine .kind hl ?_ (hq.2 rfl)
          simp only [Export.expr, Export.atom, Option.some.injEq] at ha
          subst ha; constructor
        · rename_i k1 k2 k3 k4 k5 k6 k7 k8
          exfalso
          have ht : target a := lv_target hl fun i hi => by
            apply Classical.byContradiction
            intro hn
            have := (bad_varname ha (w := i.name)).2 ⟨i, hi, hn, rfl⟩
            rw [hw] at this; cases this
          have := ((lvalue_iff ha).2 ht).1
          unfold isLvalue at this
          split at this
          · exact k4 _ _ _ _ rfl
          · unfold isLvalueFunc at this
            split at this
            · exact k1 _ _ rfl
            · exact k6 _ _ rfl
            · exact k7 _ _ rfl
            · exact k8 _ _ rfl
            · exact k2 _ _ rfl
            · exact k3 _ _ _ rfl
            · exact k5 _ _ _ _ rfl
            · cases this
  · intro h
    cases h with
    | target h =>
      cases h with
      | lv h => exact .inl h
      | @name i r1 _ hl hi hq =>
        obtain ⟨v, ha, h1⟩ := lv8_complete he hs hl
        refine .inr ⟨v, r1, h1, ?_⟩
        rw [(bad_varname ha (w := i.name)).2 ⟨i, rfl, hi, rfl⟩]
        exact bad_errAt.2 ⟨rfl, (export_place hp ha (lv8_pos he hs h1).1).1 hq⟩
    | @kind a r1 _ _ hl hu hq =>
      obtain ⟨v, ha, h1⟩ := lv8_complete he hs hl
      refine .inr ⟨v, _, h1, ?_⟩
      have hq' := (export_place hp ha (lv8_pos he hs h1).1).1 hq
      have hn : badVarname v = none := by
        cases hb : badVarname v with
        | none => rfl
        | some w =>
          obtain ⟨i, rfl, _⟩ := (bad_varname ha).1 hb
          cases hu
      rw [hn]
      simp only
      cases v with
      | atom p t w =>
        cases t <;> simp only [Export.expr, Export.atom, Option.some.injEq] at ha <;> (try subst ha) <;>
          cases hu <;> exact bad_errAt.2 ⟨rfl, hq'⟩
      | subscript =>
        simp only [Export.expr, Option.bind_eq_bind, Option.bind_eq_some_iff] at ha
        obtain ⟨_, _, _, _, ha⟩ := ha; cases ha
        cases hu; exact bad_errAt.2 ⟨rfl, hq'⟩
      | slice =>
        simp only [Export.expr, Option.bind_eq_bind, Option.bind_eq_some_iff] at ha
        obtain ⟨_, _, _, _, _, _, ha⟩ := ha; cases ha
        cases hu; exact bad_errAt.2 ⟨rfl, hq'⟩
      | dot =>
        simp only [Export.expr, Option.bind_eq_bind, Option.bind_eq_some_iff] at ha
        obtain ⟨_, _, ha⟩ := ha; cases ha
        cases hu; exact bad_errAt.2 ⟨rfl, hq'⟩
      | curlyname =>
        simp only [Export.expr, Option.bind_eq_bind, Option.bind_eq_some_iff] at ha
        obtain ⟨_, _, ha⟩ := ha
        split at ha <;> cases ha <;> cases hu
      | method q l x =>
        exfalso
        cases x <;> simp only [Export.expr, Option.bind_eq_bind, Option.bind_eq_some_iff] at ha
        all_goals first
          | (obtain ⟨_, _, _, _, _, _, ha⟩ := ha; cases ha; cases hu)
          | (obtain ⟨_, _, _, _, ha⟩ := ha; cases ha; cases hu)
          | (obtain ⟨_, _, ha⟩ := ha; cases ha; cases hu)
          | cases ha
      | _ =>
        exfalso
        simp only [Export.expr, Option.bind_eq_bind, Option.bind_eq_some_iff, Option.some.injEq] at ha
        first
          | (subst ha; cases hu)
          | (obtain ⟨_, _, _, _, _, _, ha⟩ := ha; cases ha; cases hu)
          | (obtain ⟨_, _, _, _, ha⟩ := ha; cases ha; cases hu)
          | (obtain ⟨_, _, ha⟩ := ha; cases ha; cases hu)

end
end Viml
