/-
Where the expression parser fails, piece by piece: the parts of an expression that contain expressions, given
a parser for the inner expressions that fails as the specification says.
-/
import Verif.Lemmas.Bad

namespace Viml
open Prog Spec

section
variable {env : Env} {fn : Str} {α β σ : Type} {r : List Cell} {msg : Str} {q : Pos}

theorem badb_take (he : EnvOK env) (hs : Suf env r) {t : Token} {r1 : List Cell} (h : Lex env r t r1)
    {f : Token → Prog β} : Bad env (tokget >>= f) r msg q ↔ Bad env (f t) r1 msg q := by
  rw [badb_tokget he hs]
  constructor
  · rintro (h1 | ⟨t', r1', h1, h2⟩)
    · exact (h1.no he hs h).elim
    · obtain ⟨rfl, rfl⟩ := h.det he hs h1
      exact h2
  · intro h1; exact .inr ⟨t, r1, h, h1⟩

theorem badb_look (he : EnvOK env) (hs : Suf env r) {t : Token} {r1 : List Cell} (h : Lex env r t r1)
    {f : Token → Prog β} : Bad env (tokpeek >>= f) r msg q ↔ Bad env (f t) r msg q := by
  rw [badb_tokpeek he hs]
  constructor
  · rintro (h1 | ⟨t', r1', h1, h2⟩)
    · exact (h1.no he hs h).elim
    · obtain ⟨rfl, rfl⟩ := h.det he hs h1
      exact h2
  · intro h1; exact .inr ⟨t, r1, h, h1⟩

theorem bind_take (he : EnvOK env) (hs : Suf env r) {t : Token} {r1 : List Cell} (h : Lex env r t r1)
    {f : Token → Prog β} {b : β} {r' : List Cell} : Ok env (tokget >>= f) r b r' ↔ Ok env (f t) r1 b r' := by
  rw [bind_tokget]
  constructor
  · rintro ⟨t', r1', h1, h2⟩
    obtain ⟨rfl, rfl⟩ := h.det he hs ((tokGet_iff he hs _ _).1 h1)
    exact h2
  · intro h1; exact ⟨t, r1, (tokGet_iff he hs _ _).2 h, h1⟩

theorem bind_look (he : EnvOK env) (hs : Suf env r) {t : Token} {r1 : List Cell} (h : Lex env r t r1)
    {f : Token → Prog β} {b : β} {r' : List Cell} : Ok env (tokpeek >>= f) r b r' ↔ Ok env (f t) r b r' := by
  rw [bind_tokpeek]
  constructor
  · rintro ⟨t', r1', h1, h2⟩
    obtain ⟨rfl, rfl⟩ := h.det he hs ((tokGet_iff he hs _ _).1 h1)
    exact h2
  · intro h1; exact ⟨t, r1, (tokGet_iff he hs _ _).2 h, h1⟩

theorem bind_tokget' (he : EnvOK env) (hs : Suf env r) {f : Token → Prog β} {b : β} {r' : List Cell} :
    Ok env (tokget >>= f) r b r' ↔ ∃ t r1, Lex env r t r1 ∧ Ok env (f t) r1 b r' := by
  rw [bind_tokget]
  simp only [tokGet_iff he hs]

theorem bind_tokpeek' (he : EnvOK env) (hs : Suf env r) {f : Token → Prog β} {b : β} {r' : List Cell} :
    Ok env (tokpeek >>= f) r b r' ↔ ∃ t r1, Lex env r t r1 ∧ Ok env (f t) r b r' := by
  rw [bind_tokpeek]
  simp only [tokGet_iff he hs]

/-- The parser `rec` reads and fails as the specification says, where less than `n` cells are left. -/
structure RecB (env : Env) (fn : Str) (n : Nat) (rec : Prog VExpr) : Prop where
  ok : ∀ {r r1}, Suf env r → r.length < n → ((∃ v, Ok env rec r v r1) ↔ ∃ e, Gram env fn 1 r e r1)
  bad : ∀ {r m q}, Suf env r → r.length < n → (Bad env rec r m q ↔ GErr env fn 1 r m q)

theorem Spec.Gram.sadv (he : EnvOK env) (hs : Suf env r) {k : Nat} {e : Ast.Expr} {r1 : List Cell}
    (h : Gram env fn k r e r1) : SAdv r r1 := (gram_run he h hs).1

theorem Spec.Chain.sadv (he : EnvOK env) (hs : Suf env r) {k : Nat} {e : Ast.Expr} {r1 : List Cell}
    (h : Chain env fn k r e r1) : SAdv r r1 := (chain_run he h hs).1

theorem Spec.Gram.suf (he : EnvOK env) (hs : Suf env r) {k : Nat} {e : Ast.Expr} {r1 : List Cell}
    (h : Gram env fn k r e r1) : Suf env r1 := (h.sadv he hs).suf hs

theorem Spec.Gram.first (he : EnvOK env) (hs : Suf env r) {k : Nat} {e : Ast.Expr} {r1 : List Cell}
    (h : Gram env fn k r e r1) : Next env r (FirstTok k) := by
  obtain ⟨_, ⟨t, r1, h1, h2⟩, _⟩ := gram_run he h hs
  exact ⟨t, r1, (tokGet_iff he hs _ _).1 h1, h2⟩

variable {n : Nat} {rec : Prog VExpr}

theorem RecB.bind (H : RecB env fn n rec) (he : EnvOK env) (hs : Suf env r) (hn : r.length < n) {f : VExpr → Prog β}
    {B : List Cell → Prop}
    (hf : ∀ v r1, Suf env r1 → r1.length < r.length → (Bad env (f v) r1 msg q ↔ B r1)) :
    Bad env (rec >>= f) r msg q ↔ GErr env fn 1 r msg q ∨ ∃ e r1, Gram env fn 1 r e r1 ∧ B r1 := by
  rw [bad_bind, H.bad hs hn]
  refine or_congr Iff.rfl ?_
  constructor
  · rintro ⟨v, r1, h1, h2⟩
    obtain ⟨e, h3⟩ := (H.ok hs hn).1 ⟨v, h1⟩
    have ha := h3.sadv he hs
    exact ⟨e, r1, h3, (hf v r1 (ha.suf hs) ha.lt).1 h2⟩
  · rintro ⟨e, r1, h1, h2⟩
    have ha := h1.sadv he hs
    obtain ⟨v, h3⟩ := (H.ok hs hn).2 ⟨e, h1⟩
    exact ⟨v, r1, h3, (hf v r1 (ha.suf hs) ha.lt).2 h2⟩

/-! ### Arguments and lists -/

theorem argsErr_iff {c : TT} : ArgsErr env fn c r msg q ↔
    LexErr env r msg q ∨ Next env r (· ≠ c) ∧ ItemErr env fn c r msg q := by
  constructor
  · rintro (h | ⟨h1, h2⟩)
    · exact .inl h
    · exact .inr ⟨h1, h2⟩
  · rintro (h | ⟨h1, h2⟩)
    · exact .lex h
    · exact .item h1 h2

theorem itemErr_iff {c : TT} : ItemErr env fn c r msg q ↔ GErr env fn 1 r msg q ∨ ∃ e r1, Gram env fn 1 r e r1 ∧
    (Want env r1 (fun ty => ty = .comma ∨ ty = c) msg q ∨
      ∃ t r2, Lex env r1 t r2 ∧ t.ty = .comma ∧ ArgsErr env fn c r2 msg q) := by
  constructor
  · intro h
    cases h with
    | expr h => exact .inl h
    | close h1 h2 => exact .inr ⟨_, _, h1, .inl h2⟩
    | more h1 h2 h3 =>
      obtain ⟨t, h4, h5, _⟩ := h2
      exact .inr ⟨_, _, h1, .inr ⟨t, _, h4, h5, h3⟩⟩
  · rintro (h | ⟨e, r1, h1, h2 | ⟨t, r2, h2, h3, h4⟩⟩)
    · exact .expr h
    · exact .close h1 h2
    · exact .more (q0 := pubPos fn t.pos) h1 ⟨t, h2, h3, rfl⟩ h4

/-- A loop over expressions separated by commas. -/
theorem items_bad {body : σ → Prog (σ ⊕ β)} {c : TT}
    (hbad : ∀ s r, Suf env r → r.length < n → (Bad env (body s) r msg q ↔
      GErr env fn 1 r msg q ∨ ∃ e r1, Gram env fn 1 r e r1 ∧
        (Want env r1 (fun ty => ty = .comma ∨ ty = c) msg q ∨
          ∃ t r2, Lex env r1 t r2 ∧ t.ty = .comma ∧ LexErr env r2 msg q)))
    (hok : ∀ s r r2, Suf env r → r.length < n → ((∃ s1, Ok env (body s) r (.inl s1) r2) ↔
      ∃ e r1 t, Gram env fn 1 r e r1 ∧ Lex env r1 t r2 ∧ t.ty = .comma ∧ Next env r2 (· ≠ c)))
    (he : EnvOK env) (hs : Suf env r) (hn : r.length < n) {s : σ} :
    Bad env (loop body s) r msg q ↔ ItemErr env fn c r msg q := by
  refine bad_loop_iff (D := fun _ r => Suf env r ∧ r.length < n) (B := fun _ r => ItemErr env fn c r msg q) ?_ ?_ ⟨hs, hn⟩
  · rintro s r s1 r2 ⟨hs, hn⟩ h
    obtain ⟨e, r1, t, h1, h2, h3, _⟩ := (hok s r r2 hs hn).1 ⟨s1, h⟩
    have a1 := h1.sadv he hs
    have hs1 := a1.suf hs
    have := h2.lt he hs1 h3
    have := a1.lt
    exact ⟨by omega, h2.suf he hs1, by omega⟩
  · rintro s r ⟨hs, hn⟩
    rw [itemErr_iff, hbad s r hs hn, or_assoc]
    refine or_congr Iff.rfl ?_
    constructor
    · rintro ⟨e, r1, h1, h2 | ⟨t, r2, h2, h3, h4⟩⟩
      · exact .inl ⟨e, r1, h1, .inl h2⟩
      · rcases argsErr_iff.1 h4 with h4 | ⟨h4, h5⟩
        · exact .inl ⟨e, r1, h1, .inr ⟨t, r2, h2, h3, h4⟩⟩
        · obtain ⟨s1, h6⟩ := (hok s r r2 hs hn).2 ⟨e, r1, t, h1, h2, h3, h4⟩
          exact .inr ⟨s1, r2, h6, h5⟩
    · rintro (⟨e, r1, h1, h2 | ⟨t, r2, h2, h3, h4⟩⟩ | ⟨s1, r2, h1, h2⟩)
      · exact ⟨e, r1, h1, .inl h2⟩
      · exact ⟨e, r1, h1, .inr ⟨t, r2, h2, h3, .lex h4⟩⟩
      · obtain ⟨e, r1, t, h3, h4, h5, h6⟩ := (hok s r r2 hs hn).1 ⟨s1, h1⟩
        exact ⟨e, r1, h3, .inr ⟨t, r2, h4, h5, .item h6 h2⟩⟩

theorem sep_iff {c : TT} : (LexErr env r msg q ∨ ∃ t r2, Lex env r t r2 ∧
      (t.ty = .comma ∧ LexErr env r2 msg q ∨
        t.ty ≠ .comma ∧ t.ty ≠ c ∧ msg = cs!"unexpected token: " ++ t.value ∧ q = t.pos)) ↔
    (Want env r (fun ty => ty = .comma ∨ ty = c) msg q ∨
      ∃ t r2, Lex env r t r2 ∧ t.ty = .comma ∧ LexErr env r2 msg q) := by
  rw [want_iff]
  constructor
  · rintro (h | ⟨t, r2, h, h1 | ⟨h1, h2, h3⟩⟩)
    · exact .inl (.inl h)
    · exact .inr ⟨t, r2, h, h1⟩
    · exact .inl (.inr ⟨t, r2, h, by simp [h1, h2], h3⟩)
  · rintro ((h | ⟨t, r2, h, h1, h2⟩) | ⟨t, r2, h, h1, h2⟩)
    · exact .inl h
    · simp only [not_or] at h1
      exact .inr ⟨t, r2, h, .inr ⟨h1.1, h1.2, h2⟩⟩
    · exact .inr ⟨t, r2, h, .inl ⟨h1, h2⟩⟩

theorem listBody_bad (H : RecB env fn n rec) (he : EnvOK env) {p : Pos} {vs : List VExpr} (hs : Suf env r)
    (hn : r.length < n) : Bad env (listBody rec p vs) r msg q ↔
      GErr env fn 1 r msg q ∨ ∃ e r1, Gram env fn 1 r e r1 ∧
        (Want env r1 (fun ty => ty = .comma ∨ ty = .sqclose) msg q ∨
          ∃ t r2, Lex env r1 t r2 ∧ t.ty = .comma ∧ LexErr env r2 msg q) := by
  refine H.bind he hs hn fun v r1 hs1 _ => ?_
  rw [badb_tokpeek he hs1, ← sep_iff]
  refine or_congr Iff.rfl (exists_congr fun t => exists_congr fun r2 => and_congr_right fun ht => ?_)
  have hs2 := ht.suf he hs1
  rw [bad_ite, badb_take he hs1 ht, badb_tokpeek he hs2]
  refine or_congr (and_congr_right fun _ => ?_) (and_congr_right fun _ => ?_)
  · constructor
    · rintro (h | ⟨t2, r3, h, h1⟩)
      · exact h
      · rw [bad_ite] at h1
        rcases h1 with ⟨_, h1⟩ | ⟨_, h1⟩
        · rw [badb_take he hs2 h] at h1; cases h1
        · cases h1
    · exact .inl
  · rw [bad_ite, badb_take he hs1 ht, bad_pure, bad_unexpected, and_false, false_or]

theorem listBody_inl (H : RecB env fn n rec) (he : EnvOK env) {p : Pos} {vs : List VExpr} {r2 : List Cell}
    (hs : Suf env r) (hn : r.length < n) : (∃ vs1, Ok env (listBody rec p vs) r (.inl vs1) r2) ↔
      ∃ e r1 t, Gram env fn 1 r e r1 ∧ Lex env r1 t r2 ∧ t.ty = .comma ∧ Next env r2 (· ≠ .sqclose) := by
  unfold listBody
  constructor
  · rintro ⟨vs1, h⟩
    obtain ⟨v, r1, h1, h⟩ := ok_bind.1 h
    obtain ⟨e, h1⟩ := (H.ok hs hn).1 ⟨v, h1⟩
    have hs1 := h1.suf he hs
    obtain ⟨t, r3, ht, h⟩ := (bind_tokpeek' he hs1).1 h
    have hs2 := ht.suf he hs1
    rw [ok_ite, bind_take he hs1 ht] at h
    rcases h with ⟨hc, h⟩ | ⟨_, h⟩
    · obtain ⟨t2, r4, ht2, h⟩ := (bind_tokpeek' he hs2).1 h
      rw [ok_ite, bind_take he hs2 ht2] at h
      rcases h with ⟨_, h⟩ | ⟨hn2, h⟩
      · cases h
      · obtain ⟨_, rfl⟩ := ok_pure.1 h
        exact ⟨e, r1, t, h1, ht, hc, t2, r4, ht2, hn2⟩
    · rw [ok_ite, bind_take he hs1 ht] at h
      rcases h with ⟨_, h⟩ | ⟨_, h⟩ <;> cases h
  · rintro ⟨e, r1, t, h1, ht, hc, t2, r3, ht2, hn2⟩
    obtain ⟨v, h2⟩ := (H.ok hs hn).2 ⟨e, h1⟩
    have hs1 := h1.suf he hs
    refine ⟨vs ++ [v], ok_bind.2 ⟨v, r1, h2, ?_⟩⟩
    rw [bind_look he hs1 ht, if_pos hc, bind_take he hs1 ht, bind_look he (ht.suf he hs1) ht2, if_neg hn2]
    rfl

theorem parseListItems_bad (H : RecB env fn n rec) (he : EnvOK env) {p : Pos} (hs : Suf env r)
    (hn : r.length < n) : Bad env (parseListItems rec p) r msg q ↔ ArgsErr env fn .sqclose r msg q := by
  unfold parseListItems
  rw [badb_tokpeek he hs, argsErr_iff]
  refine or_congr Iff.rfl ?_
  have key := items_bad (n := n) (body := listBody rec p) (msg := msg) (q := q) (fun vs r => listBody_bad H he)
    (fun vs r r2 => listBody_inl H he) he hs hn (s := [])
  constructor
  · rintro ⟨t, r1, ht, h⟩
    rw [bad_ite, badb_take he hs ht] at h
    rcases h with ⟨_, h⟩ | ⟨hne, h⟩
    · cases h
    · exact ⟨⟨t, r1, ht, hne⟩, key.1 h⟩
  · rintro ⟨⟨t, r1, ht, hne⟩, h⟩
    exact ⟨t, r1, ht, by rw [if_neg hne]; exact key.2 h⟩

theorem argBody_bad (H : RecB env fn n rec) (he : EnvOK env) {vs : List VExpr} (hs : Suf env r)
    (hn : r.length < n) : Bad env (argBody rec vs) r msg q ↔
      GErr env fn 1 r msg q ∨ ∃ e r1, Gram env fn 1 r e r1 ∧
        (Want env r1 (fun ty => ty = .comma ∨ ty = .pclose) msg q ∨
          ∃ t r2, Lex env r1 t r2 ∧ t.ty = .comma ∧ LexErr env r2 msg q) := by
  refine H.bind he hs hn fun v r1 hs1 _ => ?_
  rw [badb_tokget he hs1, ← sep_iff]
  refine or_congr Iff.rfl (exists_congr fun t => exists_congr fun r2 => and_congr_right fun ht => ?_)
  have hs2 := ht.suf he hs1
  rw [bad_ite, badb_tokpeek he hs2]
  refine or_congr (and_congr_right fun _ => ?_) (and_congr_right fun _ => ?_)
  · constructor
    · rintro (h | ⟨t2, r3, h, h1⟩)
      · exact h
      · rw [bad_ite] at h1
        rcases h1 with ⟨_, h1⟩ | ⟨_, h1⟩
        · rw [badb_take he hs2 h] at h1; cases h1
        · cases h1
    · exact .inl
  · rw [bad_ite, bad_pure, bad_unexpected, and_false, false_or]

/-- A round of the loop over arguments. -/
theorem argBody_ok (H : RecB env fn n rec) (he : EnvOK env) {vs : List VExpr} {o : List VExpr ⊕ (List VExpr × Token)}
    {r' : List Cell} (hs : Suf env r) (hn : r.length < n) : Ok env (argBody rec vs) r o r' ↔
      ∃ v r1 t r2, Ok env rec r v r1 ∧ Lex env r1 t r2 ∧
        (t.ty = .comma ∧ (∃ t2 r3, Lex env r2 t2 r3 ∧
            (t2.ty = .pclose ∧ o = .inr (vs ++ [v], t) ∧ r' = r3 ∨ t2.ty ≠ .pclose ∧ o = .inl (vs ++ [v]) ∧ r' = r2)) ∨
          t.ty = .pclose ∧ o = .inr (vs ++ [v], t) ∧ r' = r2) := by
  unfold argBody
  rw [ok_bind]
  refine exists_congr fun v => exists_congr fun r1 => ?_
  constructor
  · rintro ⟨h1, h⟩
    obtain ⟨e, hg⟩ := (H.ok hs hn).1 ⟨v, h1⟩
    have hs1 := hg.suf he hs
    obtain ⟨t, r2, ht, h⟩ := (bind_tokget' he hs1).1 h
    have hs2 := ht.suf he hs1
    refine ⟨t, r2, h1, ht, ?_⟩
    rw [ok_ite] at h
    rcases h with ⟨hc, h⟩ | ⟨_, h⟩
    · obtain ⟨t2, r3, ht2, h⟩ := (bind_tokpeek' he hs2).1 h
      rw [ok_ite, bind_take he hs2 ht2] at h
      refine .inl ⟨hc, t2, r3, ht2, ?_⟩
      rcases h with ⟨hp, h⟩ | ⟨hp, h⟩
      · exact .inl ⟨hp, ok_pure.1 h⟩
      · exact .inr ⟨hp, ok_pure.1 h⟩
    · rw [ok_ite] at h
      rcases h with ⟨hp, h⟩ | ⟨_, h⟩
      · exact .inr ⟨hp, ok_pure.1 h⟩
      · cases h
  · rintro ⟨t, r2, h1, ht, h⟩
    obtain ⟨e, hg⟩ := (H.ok hs hn).1 ⟨v, h1⟩
    have hs1 := hg.suf he hs
    have hs2 := ht.suf he hs1
    refine ⟨h1, ?_⟩
    rw [bind_take he hs1 ht]
    rcases h with ⟨hc, t2, r3, ht2, h⟩ | ⟨hp, rfl, rfl⟩
    · rw [if_pos hc, bind_look he hs2 ht2]
      rcases h with ⟨hp, rfl, rfl⟩ | ⟨hp, rfl, rfl⟩
      · rw [if_pos hp, bind_take he hs2 ht2]; rfl
      · rw [if_neg hp]; rfl
    · rw [if_neg (by rw [hp]; decide), if_pos hp]; rfl

theorem argBody_inl (H : RecB env fn n rec) (he : EnvOK env) {vs : List VExpr} {r2 : List Cell}
    (hs : Suf env r) (hn : r.length < n) : (∃ vs1, Ok env (argBody rec vs) r (.inl vs1) r2) ↔
      ∃ e r1 t, Gram env fn 1 r e r1 ∧ Lex env r1 t r2 ∧ t.ty = .comma ∧ Next env r2 (· ≠ .pclose) := by
  simp only [argBody_ok H he hs hn]
  constructor
  · rintro ⟨vs1, v, r1, t, r3, h1, ht, h⟩
    obtain ⟨e, h1⟩ := (H.ok hs hn).1 ⟨v, h1⟩
    rcases h with ⟨hc, t2, r4, ht2, ⟨_, h, _⟩ | ⟨hp, _, rfl⟩⟩ | ⟨_, h, _⟩
    · cases h
    · exact ⟨e, r1, t, h1, ht, hc, t2, r4, ht2, hp⟩
    · cases h
  · rintro ⟨e, r1, t, h1, ht, hc, t2, r3, ht2, hp⟩
    obtain ⟨v, h2⟩ := (H.ok hs hn).2 ⟨e, h1⟩
    exact ⟨_, v, r1, t, r2, h2, ht, .inl ⟨hc, t2, r3, ht2, .inr ⟨hp, rfl, rfl⟩⟩⟩

/-- The loop over arguments counts them. -/
theorem args_counted (H : RecB env fn n rec) (he : EnvOK env) {k : Nat} {p : Pos} {vs : List VExpr} (hs : Suf env r)
    (hn : r.length < n) :
    (∃ ws t r', Ok env (loop (argBody rec) vs) r (ws, t) r' ∧ ws.length = vs.length + k ∧ t.pos = p) ↔
      Counted env fn k r p := by
  constructor
  · rintro ⟨ws, t, r', h, hl, hp⟩
    have key : ∃ k, ws.length = vs.length + k ∧ Counted env fn k r p := by
      refine loop_ind (b := (ws, t)) (P := fun vs r => Suf env r → r.length < n → ∃ k, ws.length = vs.length + k ∧
        Counted env fn k r p) ?_ ?_ h hs hn
      · intro vs r h hs hn
        rw [argBody_ok H he hs hn] at h
        obtain ⟨v, r1, t', r2, h1, ht, h⟩ := h
        obtain ⟨e, h1⟩ := (H.ok hs hn).1 ⟨v, h1⟩
        rcases h with ⟨hc, t2, r4, ht2, ⟨hpc, h, _⟩ | ⟨_, h, _⟩⟩ | ⟨hpc, h, _⟩
        · cases h
          subst hp
          exact ⟨1, by simp, .comma h1 ht hc ⟨t2, r4, ht2, hpc⟩⟩
        · cases h
        · cases h
          subst hp
          exact ⟨1, by simp, .last h1 ht hpc⟩
      · intro vs r vs1 r9 h ih hs hn
        rw [argBody_ok H he hs hn] at h
        obtain ⟨v, r1, t', r2, h1, ht, h⟩ := h
        obtain ⟨e, h1⟩ := (H.ok hs hn).1 ⟨v, h1⟩
        have a1 := h1.sadv he hs
        rcases h with ⟨hc, t2, r4, ht2, ⟨hpc, h, _⟩ | ⟨_, h, h2⟩⟩ | ⟨hpc, h, _⟩
        · cases h
        · cases h
          subst h2
          have hs2 := ht.suf he (a1.suf hs)
          have := a1.lt
          have := ht.lt he (a1.suf hs) hc
          obtain ⟨k, k1, k2⟩ := ih hs2 (by omega)
          exact ⟨k + 1, by simp at k1; omega, .more h1 ht hc k2⟩
        · cases h
    obtain ⟨k', h1, h2⟩ := key
    have : k' = k := by omega
    subst this
    exact h2
  · intro h
    induction h generalizing vs with
    | last h1 ht hp =>
      obtain ⟨v, h2⟩ := (H.ok hs hn).2 ⟨_, h1⟩
      exact ⟨_, _, _, loop_done ((argBody_ok H he hs hn).2 ⟨v, _, _, _, h2, ht, .inr ⟨hp, rfl, rfl⟩⟩), by simp, rfl⟩
    | comma h1 ht hc h3 =>
      obtain ⟨v, h2⟩ := (H.ok hs hn).2 ⟨_, h1⟩
      obtain ⟨t2, r3, ht2, hp⟩ := h3
      exact ⟨_, _, _, loop_done ((argBody_ok H he hs hn).2 ⟨v, _, _, _, h2, ht, .inl ⟨hc, t2, r3, ht2, .inl ⟨hp, rfl, rfl⟩⟩⟩),
        by simp, rfl⟩
    | @more k r e r1 t r2 p h1 ht hc h3 ih =>
      obtain ⟨v, h2⟩ := (H.ok hs hn).2 ⟨_, h1⟩
      have a1 := h1.sadv he hs
      have hs2 := ht.suf he (a1.suf hs)
      have hlt := ht.lt he (a1.suf hs) hc
      have := a1.lt
      obtain ⟨ws, t', r', k1, k2, k3⟩ := ih (vs := vs ++ [v]) hs2 (by omega)
      have hnx : Next env r2 (· ≠ .pclose) := by
        cases h3 with
        | last h => obtain ⟨t, r1, h, hf⟩ := h.first he hs2; exact ⟨t, r1, h, hf.2.1⟩
        | comma h => obtain ⟨t, r1, h, hf⟩ := h.first he hs2; exact ⟨t, r1, h, hf.2.1⟩
        | more h => obtain ⟨t, r1, h, hf⟩ := h.first he hs2; exact ⟨t, r1, h, hf.2.1⟩
      obtain ⟨t2, r3, ht2, hp⟩ := hnx
      refine ⟨ws, t', r', loop_more ((argBody_ok H he hs hn).2 ⟨v, r1, t, r2, h2, ht,
        .inl ⟨hc, t2, r3, ht2, .inr ⟨hp, rfl, rfl⟩⟩⟩) (by omega) k1, ?_, k3⟩
      simp at k2; omega

theorem parseRlist_bad (H : RecB env fn n rec) (he : EnvOK env) (hs : Suf env r) (hn : r.length < n) :
    Bad env (parseRlist rec) r msg q ↔ CallErr env fn r msg q := by
  have key := items_bad (n := n) (body := argBody rec) (msg := msg) (q := q) (fun vs r => argBody_bad H he)
    (fun vs r r2 => argBody_inl H he) he hs hn (s := [])
  have heq : parseRlist rec = tokpeek >>= fun t0 => tokpeek >>= fun t1 =>
      (if t1.ty = .pclose then tokget >>= fun _ => pure (([] : List VExpr), t0) else loop (argBody rec) []) >>=
        fun x => if x.1.length > 20 then errAt cs!"E740: Too many arguments for function" x.2.pos else pure x.1 := by
    unfold parseRlist
    refine congrArg _ (funext fun t0 => congrArg _ (funext fun t1 => ?_))
    by_cases h : t1.ty = .pclose
    · rw [if_pos h, if_pos h]; rfl
    · rw [if_neg h, if_neg h]; rfl
  rw [heq, badb_tokpeek he hs]
  constructor
  · rintro (h | ⟨t, r1, ht, h⟩)
    · exact .args (.lex h)
    · rw [badb_look he hs ht, badb_ite] at h
      rcases h with ⟨_, h⟩ | ⟨hp, h⟩
      · rw [badb_bind, badb_take he hs ht] at h; cases h
      · rw [bad_bind] at h
        rcases h with h | ⟨⟨ws, t'⟩, r', h1, h2⟩
        · exact .args (.item ⟨t, r1, ht, hp⟩ (key.1 h))
        · rw [bad_ite] at h2
          rcases h2 with ⟨h2, h3⟩ | ⟨_, h3⟩
          · obtain ⟨rfl, rfl⟩ := bad_errAt.1 h3
            refine .tooMany (n := ws.length) ((args_counted H he hs hn (vs := [])).1 ⟨ws, t', r', h1, by simp, rfl⟩) h2
          · cases h3
  · intro h
    cases h with
    | args h =>
      rcases argsErr_iff.1 h with h | ⟨⟨t, r1, ht, hp⟩, h⟩
      · exact .inl h
      · refine .inr ⟨t, r1, ht, ?_⟩
        rw [badb_look he hs ht, if_neg hp, bad_bind]
        exact .inl (key.2 h)
    | @tooMany k _ _ h hk =>
      have hnx : Next env r (· ≠ .pclose) := by
        cases h with
        | last h => obtain ⟨t, r1, h, hf⟩ := h.first he hs; exact ⟨t, r1, h, hf.2.1⟩
        | comma h => obtain ⟨t, r1, h, hf⟩ := h.first he hs; exact ⟨t, r1, h, hf.2.1⟩
        | more h => obtain ⟨t, r1, h, hf⟩ := h.first he hs; exact ⟨t, r1, h, hf.2.1⟩
      obtain ⟨t, r1, ht, hp⟩ := hnx
      obtain ⟨ws, t', r', h1, h2, h3⟩ := (args_counted H he hs hn (vs := [])).2 h
      refine .inr ⟨t, r1, ht, ?_⟩
      rw [badb_look he hs ht, if_neg hp, bad_bind]
      refine .inr ⟨_, _, h1, ?_⟩
      simp only [List.length_nil, Nat.zero_add] at h2
      rw [if_pos (by simp only; omega), h3]
      rfl

/-! ### Subscripts -/

theorem expectSqclose_bad (he : EnvOK env) (hs : Suf env r) :
    Bad env expectSqclose r msg q ↔ Want env r (· = .sqclose) msg q := by
  unfold expectSqclose
  rw [badb_tokget he hs, want_iff]
  refine or_congr Iff.rfl (exists_congr fun t => exists_congr fun r2 => and_congr_right fun ht => ?_)
  rw [bad_ite, bad_unexpected, bad_pure, and_false, or_false]

theorem sliceEnd_bad (H : RecB env fn n rec) (he : EnvOK env) (hs : Suf env r) (hn : r.length < n) {p : Pos}
    {left : VExpr} {lo : Option VExpr} : Bad env (sliceEnd rec p left lo) r msg q ↔ UpperErr env fn r msg q := by
  have heq : sliceEnd rec p left lo = tokpeek >>= fun t =>
      if t.ty ≠ .sqclose then rec >>= fun e => expectSqclose >>= fun _ => pure (.slice p left lo (some e))
      else expectSqclose >>= fun _ => pure (.slice p left lo none) := by
    unfold sliceEnd
    refine congrArg _ (funext fun t => ?_)
    by_cases h : t.ty ≠ .sqclose
    · rw [if_pos h, if_pos h]; rfl
    · rw [if_neg h, if_neg h]; rfl
  have hend : ∀ {hi r1}, Suf env r1 → (Bad env (expectSqclose >>= fun _ => pure (VExpr.slice p left lo hi)) r1 msg q ↔
      Want env r1 (· = .sqclose) msg q) := by
    intro hi r1 hs1
    rw [bad_bind, expectSqclose_bad he hs1]
    constructor
    · rintro (h | ⟨_, _, _, h⟩)
      · exact h
      · cases h
    · exact .inl
  rw [heq, badb_tokpeek he hs]
  constructor
  · rintro (h | ⟨t, r1, ht, h⟩)
    · exact .lex h
    · rw [bad_ite] at h
      rcases h with ⟨hp, h⟩ | ⟨hp, h⟩
      · rw [H.bind he hs hn (B := fun r1 => Want env r1 (· = .sqclose) msg q)
          (fun v r1 hs1 _ => hend hs1)] at h
        rcases h with h | ⟨e, r1, h1, h2⟩
        · exact .expr ⟨t, _, ht, hp⟩ h
        · exact .close h1 h2
      · rw [hend hs, want_iff] at h
        rcases h with h | ⟨t2, r2, ht2, h, _⟩
        · exact .lex h
        · obtain ⟨rfl, rfl⟩ := ht.det he hs ht2
          exact absurd h hp
  · intro h
    cases h with
    | lex h => exact .inl h
    | expr h1 h2 =>
      obtain ⟨t, r1, ht, hp⟩ := h1
      refine .inr ⟨t, r1, ht, ?_⟩
      rw [if_pos hp, bad_bind]
      exact .inl ((H.bad hs hn).2 h2)
    | close h1 h2 =>
      obtain ⟨t, r1, ht, hp⟩ := h1.first he hs
      refine .inr ⟨t, r1, ht, ?_⟩
      rw [if_pos hp.2.2.1, H.bind he hs hn (B := fun r1 => Want env r1 (· = .sqclose) msg q)
          (fun v r1 hs1 _ => hend hs1)]
      exact .inr ⟨_, _, h1, h2⟩

theorem parseSubscript_bad (H : RecB env fn n rec) (he : EnvOK env) (hs : Suf env r) (hn : r.length < n) {p : Pos}
    {left : VExpr} : Bad env (parseSubscript rec p left) r msg q ↔ SubErr env fn r msg q := by
  have hrest : ∀ v r1, Suf env r1 → r1.length < r.length → (Bad env (do
      let t ← tokpeek
      if t.ty = .colon then
        let _ ← tokget
        sliceEnd rec p left (some v)
      else
        expectSqclose
        pure (.subscript p left v)) r1 msg q ↔
      (Want env r1 (fun ty => ty = .colon ∨ ty = .sqclose) msg q ∨
        ∃ t r2, Lex env r1 t r2 ∧ t.ty = .colon ∧ UpperErr env fn r2 msg q)) := by
    intro v r1 hs1 hl
    rw [badb_tokpeek he hs1, want_iff]
    constructor
    · rintro (h | ⟨t, r2, ht, h⟩)
      · exact .inl (.inl h)
      · rw [bad_ite, badb_take he hs1 ht, sliceEnd_bad H he (ht.suf he hs1) (by have := ht.le he hs1; omega),
          bad_bind, expectSqclose_bad he hs1, want_iff] at h
        rcases h with ⟨hc, h⟩ | ⟨hc, (h | ⟨t2, r2, ht2, h1, h2⟩) | ⟨_, _, _, h⟩⟩
        · exact .inr ⟨t, r2, ht, hc, h⟩
        · exact .inl (.inl h)
        · obtain ⟨rfl, rfl⟩ := ht.det he hs1 ht2
          exact .inl (.inr ⟨_, _, ht, by simp [hc, h1], h2⟩)
        · cases h
    · rintro ((h | ⟨t, r2, ht, h1, h2⟩) | ⟨t, r2, ht, hc, h⟩)
      · exact .inl h
      · simp only [not_or] at h1
        refine .inr ⟨t, r2, ht, ?_⟩
        rw [if_neg h1.1, bad_bind, expectSqclose_bad he hs1, want_iff]
        exact .inl (.inr ⟨t, r2, ht, h1.2, h2⟩)
      · refine .inr ⟨t, r2, ht, ?_⟩
        rw [if_pos hc, badb_take he hs1 ht, sliceEnd_bad H he (ht.suf he hs1) (by have := ht.le he hs1; omega)]
        exact h
  unfold parseSubscript
  rw [badb_tokpeek he hs]
  constructor
  · rintro (h | ⟨t, r1, ht, h⟩)
    · exact .lex h
    · rw [bad_ite, badb_take he hs ht] at h
      rcases h with ⟨hc, h⟩ | ⟨hc, h⟩
      · rw [sliceEnd_bad H he (ht.suf he hs) (by have := ht.le he hs; omega)] at h
        exact .upper (q0 := pubPos fn t.pos) ⟨t, ht, hc, rfl⟩ h
      · rcases (H.bind he hs hn hrest).1 h with h | ⟨e, r1, h1, h2 | ⟨t2, r2, ht2, hc, h2⟩⟩
        · exact .index ⟨t, _, ht, hc⟩ h
        · exact .close h1 h2
        · exact .both (q0 := pubPos fn t2.pos) h1 ⟨t2, ht2, hc, rfl⟩ h2
  · intro h
    cases h with
    | lex h => exact .inl h
    | upper h1 h2 =>
      obtain ⟨t, ht, hc, _⟩ := h1
      refine .inr ⟨t, _, ht, ?_⟩
      rw [if_pos hc, badb_take he hs ht, sliceEnd_bad H he (ht.suf he hs) (by have := ht.le he hs; omega)]
      exact h2
    | index h1 h2 =>
      obtain ⟨t, r1, ht, hp⟩ := h1
      refine .inr ⟨t, r1, ht, ?_⟩
      rw [if_neg hp]
      exact (H.bind he hs hn hrest).2 (.inl h2)
    | close h1 h2 =>
      obtain ⟨t, r1, ht, hp⟩ := h1.first he hs
      refine .inr ⟨t, r1, ht, ?_⟩
      rw [if_neg hp.1]
      exact (H.bind he hs hn hrest).2 (.inr ⟨_, _, h1, .inl h2⟩)
    | both h1 h2 h3 =>
      obtain ⟨t, r1, ht, hp⟩ := h1.first he hs
      obtain ⟨t2, ht2, hc, _⟩ := h2
      refine .inr ⟨t, r1, ht, ?_⟩
      rw [if_neg hp.1]
      exact (H.bind he hs hn hrest).2 (.inr ⟨_, _, h1, .inr ⟨t2, _, ht2, hc, h3⟩⟩)

end
end Viml
