/-
Function parameters: the parser reads exactly those of the grammar.
-/
import Verif.Lemmas.FileArgs

namespace Viml
open Prog Spec

section
variable {env : Env} {fn : Str} {r r' : List Cell}

/-- What follows a parameter. -/
def paramTail (out : ParamSt) : Prog (ParamSt ⊕ ParamSt) := do
  if ← pand (pSat 0 iswhite) (do return (← tokpeek).ty = .comma) then
    errHere cs!"E475: Invalid argument: White space is not allowed before comma"
  else
    let t2 ← tokget
    if t2.ty = .comma then
      let t3 ← tokpeek
      if t3.ty = .pclose then
        let _ ← tokget
        pure (.inr out)
      else pure (.inl out)
    else if t2.ty = .pclose then pure (.inr out)
    else unexpected t2

def paramBody (st : ParamSt) : Prog (ParamSt ⊕ ParamSt) := do
      let t ← tokget
      if t.ty = .identifier then
        if !isargname t.value || t.value == cs!"firstline" || t.value == cs!"lastline" then
          errAt (cs!"E125: Illegal argument: " ++ t.value) t.pos
        else if st.named.contains t.value then
          errAt (cs!"E853: Duplicate argument name: " ++ t.value) t.pos
        else
          let t1 ← tokpeek
          if t1.ty = .eq then do
              let _ ← tokget
              let e ← parseExpr1
              paramTail ⟨st.rlist ++ [(t.pos, t.value)], st.defaults ++ [e], t.value :: st.named⟩
            else if st.defaults.length > 0 then
              errAt cs!"E989: Non-default argument follows default argument" t.pos
            else paramTail ⟨st.rlist ++ [(t.pos, t.value)], st.defaults, t.value :: st.named⟩
      else if t.ty = .dotdotdot then
        let rlist := st.rlist ++ [(t.pos, t.value)]
        let t2 ← tokget
        if t2.ty = .pclose then pure (.inr ⟨rlist, st.defaults, st.named⟩)
        else unexpected t2
      else unexpected t

theorem parseParams_eq : parseParams = (do
  let t ← tokpeek
  if t.ty = .pclose then
    let _ ← tokget
    pure {}
  else loop paramBody {}) := by
  unfold parseParams
  rfl

theorem exprs_append {l m : List VExpr} {as bs : List Ast.Expr} (h : Export.exprs fn l = some as)
    (h1 : Export.exprs fn m = some bs) : Export.exprs fn (l ++ m) = some (as ++ bs) := by
  induction l generalizing as with
  | nil => cases h; exact h1
  | cons x l ih =>
    simp only [Export.exprs, Option.bind_eq_bind, Option.bind_eq_some_iff] at h
    obtain ⟨b, hb, bs, hbs, h⟩ := h
    cases h
    simp [Export.exprs, hb, ih hbs]

theorem bind_whiteComma {β : Type} {f : Bool → Prog β} {b : β} :
    Ok env (pand (pSat 0 iswhite) (do return (← tokpeek).ty = .comma) >>= f) r b r' ↔
      ((headSym r).is iswhite = false ∧ Ok env (f false) r b r') ∨
      ((headSym r).is iswhite = true ∧ ∃ t r1, tokGet env r = .ok t r1 ∧ Ok env (f (decide (t.ty = .comma))) r b r') := by
  unfold pand pSat
  rw [bind_bind, bind_bind, bind_p0]
  show Ok env ((if (headSym r).is iswhite = true then _ else _) >>= f) r b r' ↔ _
  rw [bind_ite, bind_bind, bind_tokpeek]
  constructor
  · rintro (⟨h, h1⟩ | ⟨h, h1⟩)
    · exact .inr ⟨h, h1⟩
    · exact .inl ⟨by simpa using h, h1⟩
  · rintro (⟨h, h1⟩ | ⟨h, h1⟩)
    · exact .inr ⟨by simp [h], h1⟩
    · exact .inl ⟨h, h1⟩

theorem paramTail_iff {out : ParamSt} {x : ParamSt ⊕ ParamSt} : Ok env (paramTail out) r x r' ↔
    (x = .inr out ∧ ∃ t, Tk env r .pclose t r') ∨ ((headSym r).is iswhite = false ∧ ∃ t r1, Tk env r .comma t r1 ∧
      ((x = .inr out ∧ ∃ t', Tk env r1 .pclose t' r') ∨ (x = .inl out ∧ r' = r1 ∧ ∃ t' r2, tokGet env r1 = .ok t' r2 ∧ t'.ty ≠ .pclose))) := by
  have tail : Ok env (do
    let t2 ← tokget
    if t2.ty = .comma then
      let t3 ← tokpeek
      if t3.ty = .pclose then
        let _ ← tokget
        pure (.inr out)
      else pure (.inl out)
    else if t2.ty = .pclose then pure (.inr out)
    else unexpected t2) r x r' ↔ 
    (x = .inr out ∧ ∃ t, Tk env r .pclose t r') ∨ (∃ t r1, Tk env r .comma t r1 ∧
      ((x = .inr out ∧ ∃ t', Tk env r1 .pclose t' r') ∨ (x = .inl out ∧ r' = r1 ∧ ∃ t' r2, tokGet env r1 = .ok t' r2 ∧ t'.ty ≠ .pclose))) := by
    rw [bind_tokget]
    constructor
    · rintro ⟨t, r1, ht, h⟩
      rw [ok_ite] at h
      rcases h with ⟨h1, h⟩ | ⟨h1, h⟩
      · refine .inr ⟨t, r1, ⟨ht, h1⟩, ?_⟩
        rw [bind_tokpeek] at h
        obtain ⟨t', r2, ht', h⟩ := h
        rw [ok_ite] at h
        rcases h with ⟨h2, h⟩ | ⟨h2, h⟩
        · rw [bind_tokget] at h
          obtain ⟨t3, r3, ht3, h⟩ := h
          rw [ht'] at ht3
          cases ht3
          obtain ⟨rfl, rfl⟩ := ok_pure.1 h
          exact .inl ⟨rfl, t', ht', h2⟩
        · obtain ⟨rfl, rfl⟩ := ok_pure.1 h
          exact .inr ⟨rfl, rfl, t', r2, ht', h2⟩
      · rw [ok_ite] at h
        rcases h with ⟨h2, h⟩ | ⟨h2, h⟩
        · obtain ⟨rfl, rfl⟩ := ok_pure.1 h
          exact .inl ⟨rfl, t, ht, h2⟩
        · exact (ok_errAt.1 h).elim
    · rintro (⟨rfl, t, ht, hty⟩ | ⟨t, r1, ⟨ht, hty⟩, ⟨rfl, t', ht', hty'⟩ | ⟨rfl, rfl, t', r2, ht', hty'⟩⟩)
      · refine ⟨t, r', ht, ?_⟩
        rw [if_neg (by simp [hty]), if_pos hty]
        exact ok_pure.2 ⟨rfl, rfl⟩
      · refine ⟨t, r1, ht, ?_⟩
        rw [if_pos hty]
        refine bind_tokpeek.2 ⟨t', r', ht', ?_⟩
        rw [if_pos hty']
        exact bind_tokget.2 ⟨t', r', ht', ok_pure.2 ⟨rfl, rfl⟩⟩
      · refine ⟨t, r', ht, ?_⟩
        rw [if_pos hty]
        refine bind_tokpeek.2 ⟨t', r2, ht', ?_⟩
        rw [if_neg hty']
        exact ok_pure.2 ⟨rfl, rfl⟩
  unfold paramTail
  rw [bind_whiteComma]
  by_cases hw : (headSym r).is iswhite = true
  · simp only [hw, Bool.true_eq_false, false_and, false_or, true_and, or_false]
    constructor
    · rintro ⟨t, r1, ht, h⟩
      rw [ok_ite] at h
      rcases h with ⟨_, h⟩ | ⟨h1, h⟩
      · exact (ok_errHere.1 h).elim
      · rcases tail.1 h with h | ⟨t', r2, ht', _⟩
        · exact h
        · have := ht'.1
          rw [ht] at this
          cases this
          exact absurd ht'.2 (by simpa using h1)
    · intro h
      obtain ⟨h1, t, ht⟩ := h
      refine ⟨t, r', ht.1, ?_⟩
      rw [if_neg (by simp [ht.2])]
      exact tail.2 (.inl ⟨h1, t, ht⟩)
  · have hw : (headSym r).is iswhite = false := by simpa using hw
    simp only [hw, true_and, Bool.false_eq_true, false_and, or_false, if_false]
    exact tail

theorem param_sound (he : EnvOK env) (hs : Suf env r) {st : ParamSt} {x : ParamSt ⊕ ParamSt} (h : Ok env (paramBody st) r x r') :
    (∃ t r1 q, Lex env r t r1 ∧ t.ty = .dotdotdot ∧ Mark env fn r1 .pclose q r' ∧
      x = .inr ⟨st.rlist ++ [(t.pos, t.value)], st.defaults, st.named⟩) ∨
    ∃ q n es ds r1, Param env fn st.named (!st.defaults.isEmpty) r ⟨pubPos fn q, n⟩ ds r1 ∧ Export.exprs fn es = some ds ∧ SAdv r r1 ∧
      Ok env (paramTail ⟨st.rlist ++ [(q, n)], st.defaults ++ es, n :: st.named⟩) r1 x r' := by
  unfold paramBody at h
  rw [bind_tokget] at h
  obtain ⟨t, r1, ht, h⟩ := h
  have lx := (tokGet_iff he hs _ _).1 ht
  rw [ok_ite] at h
  rcases h with ⟨hty, h⟩ | ⟨_, h⟩
  · have a1 := Tk.sadv he hs ⟨ht, hty⟩
    have s1 := a1.suf hs
    rw [ok_ite] at h
    rcases h with ⟨_, h⟩ | ⟨h1, h⟩
    · exact (ok_errAt.1 h).elim
    rw [ok_ite] at h
    rcases h with ⟨_, h⟩ | ⟨h2, h⟩
    · exact (ok_errAt.1 h).elim
    have hn : isargname t.value = true := by
      cases hx : isargname t.value
      · simp [hx] at h1
      · rfl
    have hu : t.value ∉ cs!"firstline" :: cs!"lastline" :: st.named := by
      simp only [Bool.or_eq_true, not_or, Bool.not_eq_true', beq_iff_eq] at h1
      simp only [List.contains_iff_mem] at h2
      simp only [List.mem_cons, not_or]
      exact ⟨h1.1.2, h1.2, h2⟩
    rw [bind_tokpeek] at h
    obtain ⟨t1, r2, ht1, h⟩ := h
    rw [ok_ite] at h
    rcases h with ⟨h3, h⟩ | ⟨h3, h⟩
    · rw [bind_tokget] at h
      obtain ⟨t2, r3, ht2, h⟩ := h
      rw [ht1] at ht2
      cases ht2
      rw [ok_bind] at h
      obtain ⟨e, r4, h4, h⟩ := h
      have a2 := Tk.sadv he s1 ⟨ht1, h3⟩
      obtain ⟨a, k1, k2⟩ := (par_expr (fn := fn) he).sound (a2.suf s1) h4
      exact .inr ⟨t.pos, t.value, [e], [a], r4, .default lx hty hn hu (Tk.mark he s1 ⟨ht1, h3⟩) k2, exprs_cons k1 rfl,
        a1.trans (a2.trans ((par_expr he).adv (a2.suf s1) k2)), h⟩
    · rw [ok_ite] at h
      rcases h with ⟨_, h⟩ | ⟨h4, h⟩
      · exact (ok_errAt.1 h).elim
      · refine .inr ⟨t.pos, t.value, [], [], r1, .plain lx hty hn hu ⟨t1, r2, (tokGet_iff he s1 _ _).1 ht1, h3⟩ ?_, rfl,
          a1, by simpa using h⟩
        cases hd : st.defaults
        · rfl
        · rw [hd] at h4; simp at h4
  · rw [ok_ite] at h
    rcases h with ⟨hty, h⟩ | ⟨_, h⟩
    · rw [bind_tokget] at h
      obtain ⟨t2, r2, ht2, h⟩ := h
      rw [ok_ite] at h
      have s1 := (Tk.sadv he hs ⟨ht, hty⟩).suf hs
      rcases h with ⟨h3, h⟩ | ⟨_, h⟩
      · obtain ⟨rfl, rfl⟩ := ok_pure.1 h
        exact .inl ⟨t, r1, _, lx, hty, Tk.mark he s1 ⟨ht2, h3⟩, rfl⟩
      · exact (ok_errAt.1 h).elim
    · exact (ok_errAt.1 h).elim

theorem param_complete (he : EnvOK env) (hs : Suf env r) {used : List Str} {d : Bool} {i : Ast.Ident} {ds : List Ast.Expr}
    (h : Param env fn used d r i ds r') : SAdv r r' ∧ ∃ q n es, i = ⟨pubPos fn q, n⟩ ∧ Export.exprs fn es = some ds ∧
      ∀ st : ParamSt, st.named = used → (!st.defaults.isEmpty) = d → ∀ x r2,
        Ok env (paramTail ⟨st.rlist ++ [(q, n)], st.defaults ++ es, n :: st.named⟩) r' x r2 → Ok env (paramBody st) r x r2 := by
  have head : ∀ {t : Token} {r1 : List Cell} {st : ParamSt} {x : ParamSt ⊕ ParamSt} {r2 : List Cell}, Tk env r .identifier t r1 → isargname t.value = true →
      t.value ∉ cs!"firstline" :: cs!"lastline" :: st.named →
      Ok env (do
          let t1 ← tokpeek
          if t1.ty = .eq then do
              let _ ← tokget
              let e ← parseExpr1
              paramTail ⟨st.rlist ++ [(t.pos, t.value)], st.defaults ++ [e], t.value :: st.named⟩
            else if st.defaults.length > 0 then
              errAt cs!"E989: Non-default argument follows default argument" t.pos
            else paramTail ⟨st.rlist ++ [(t.pos, t.value)], st.defaults, t.value :: st.named⟩) r1 x r2 → Ok env (paramBody st) r x r2 := by
    intro t r1 st x r2 ht hn hu h
    simp only [List.mem_cons, not_or] at hu
    unfold paramBody
    refine bind_tokget.2 ⟨t, r1, ht.1, ?_⟩
    rw [if_pos ht.2, if_neg (by simp [hn, hu.1, hu.2.1]), if_neg (by simp [hu.2.2])]
    exact h
  cases h with
  | @plain t _ h1 h2 h3 h4 h5 h6 =>
    have tk : Tk env r .identifier t r' := ⟨(tokGet_iff he hs _ _).2 h1, h2⟩
    have a1 := tk.sadv he hs
    obtain ⟨t1, r2, ht1, h5⟩ := h5
    refine ⟨a1, t.pos, t.value, [], rfl, rfl, fun st hst hd x r3 h => ?_⟩
    subst hst
    refine head tk h3 h4 (bind_tokpeek.2 ⟨t1, r2, (tokGet_iff he (a1.suf hs) _ _).2 ht1, ?_⟩)
    rw [if_neg h5, if_neg]
    · simpa using h
    · subst hd
      simp only [Bool.not_eq_false'] at h6
      rw [List.isEmpty_iff.1 h6]
      simp
  | @default t r1 q r2 e _ h1 h2 h3 h4 h5 h6 =>
    have tk : Tk env r .identifier t r1 := ⟨(tokGet_iff he hs _ _).2 h1, h2⟩
    have a1 := tk.sadv he hs
    have s1 := a1.suf hs
    obtain ⟨t1, ht1, _⟩ := h5.tk he s1
    have a2 := ht1.sadv he s1
    have s2 := a2.suf s1
    obtain ⟨v, k1, k2⟩ := (par_expr he).complete s2 h6
    refine ⟨a1.trans (a2.trans ((par_expr he).adv s2 h6)), t.pos, t.value, [v], rfl, exprs_cons k1 rfl, fun st hst hd x r3 h => ?_⟩
    subst hst
    refine head tk h3 h4 (bind_tokpeek.2 ⟨t1, r2, ht1.1, ?_⟩)
    rw [if_pos ht1.2]
    refine bind_tokget.2 ⟨t1, r2, ht1.1, ?_⟩
    rw [ok_bind]
    exact ⟨v, r', k2, h⟩

theorem paramList_sound (he : EnvOK env) {st out : ParamSt} {as : List Ast.Expr} (hs : Suf env r) (ha : Export.exprs fn st.defaults = some as)
    (h : Ok env (loop paramBody st) r out r') : ∃ is ds, Export.idents fn out.rlist = Export.idents fn st.rlist ++ is ∧
      Export.exprs fn out.defaults = some (as ++ ds) ∧ ParamList env fn st.named (!st.defaults.isEmpty) r is ds r' := by
  refine loop_ind (P := fun st r => ∀ as, Suf env r → Export.exprs fn st.defaults = some as →
    ∃ is ds, Export.idents fn out.rlist = Export.idents fn st.rlist ++ is ∧
      Export.exprs fn out.defaults = some (as ++ ds) ∧ ParamList env fn st.named (!st.defaults.isEmpty) r is ds r') ?_ ?_ h as hs ha
  · intro st r h as hs ha
    rcases param_sound (fn := fn) he hs h with ⟨t, r1, q, h1, h2, h3, h⟩ | ⟨q, n, es, ds, r1, h1, h2, h3, h⟩
    · cases h
      exact ⟨[⟨pubPos fn t.pos, t.value⟩], [], by simp [Export.idents]; rfl, by simpa using ha, .dots h1 h2 h3⟩
    · have s1 := h3.suf hs
      have hi : Export.idents fn (st.rlist ++ [(q, n)]) = Export.idents fn st.rlist ++ [⟨pubPos fn q, n⟩] := by
        simp [Export.idents]; rfl
      rcases paramTail_iff.1 h with ⟨h, t, ht⟩ | ⟨hw, t, r2, ht, ⟨h, t', ht'⟩ | ⟨h, _⟩⟩
      · cases h
        exact ⟨[⟨pubPos fn q, n⟩], ds, hi, exprs_append ha h2, .last h1 (ht.mark he s1)⟩
      · cases h
        exact ⟨[⟨pubPos fn q, n⟩], ds, hi, exprs_append ha h2, .comma h1 hw (ht.mark he s1) (ht'.mark he ((ht.sadv he s1).suf s1))⟩
      · cases h
  · intro st r st1 r1 h ih as hs ha
    rcases param_sound (fn := fn) he hs h with ⟨_, _, _, _, _, _, h⟩ | ⟨q, n, es, ds, r1, h1, h2, h3, h⟩
    · cases h
    · have s1 := h3.suf hs
      have hi : Export.idents fn (st.rlist ++ [(q, n)]) = Export.idents fn st.rlist ++ [⟨pubPos fn q, n⟩] := by
        simp [Export.idents]; rfl
      rcases paramTail_iff.1 h with ⟨h, _⟩ | ⟨hw, t, r2, ht, ⟨h, _⟩ | ⟨h, rfl, t', r3, ht', hty'⟩⟩
      · cases h
      · cases h
      · cases h
        have s2 := (ht.sadv he s1).suf s1
        obtain ⟨is, ds', k1, k2, k3⟩ := ih _ s2 (exprs_append ha h2)
        refine ⟨⟨pubPos fn q, n⟩ :: is, ds ++ ds', ?_, ?_, .cons h1 hw (ht.mark he s1) ⟨t', r3, (tokGet_iff he s2 _ _).1 ht', hty'⟩ ?_⟩
        · rw [k1, hi]; simp
        · rw [k2]; simp
        · have : es.isEmpty = ds.isEmpty := by
            cases es with
            | nil => cases h2; rfl
            | cons e es =>
              simp only [Export.exprs, Option.bind_eq_bind, Option.bind_eq_some_iff] at h2
              obtain ⟨_, _, _, _, h2⟩ := h2
              cases h2; rfl
          rw [← this]
          have e2 : ((!st.defaults.isEmpty) || !es.isEmpty) = !(st.defaults ++ es).isEmpty := by
            cases st.defaults <;> simp
          rw [e2]
          exact k3

theorem paramList_complete (he : EnvOK env) {used : List Str} {d : Bool} {is : List Ast.Ident} {ds : List Ast.Expr}
    (h : ParamList env fn used d r is ds r') (hs : Suf env r) : SAdv r r' ∧ ∃ rl es, Export.idents fn rl = is ∧ Export.exprs fn es = some ds ∧
      ∀ st : ParamSt, st.named = used → (!st.defaults.isEmpty) = d → ∃ named,
        Ok env (loop paramBody st) r ⟨st.rlist ++ rl, st.defaults ++ es, named⟩ r' := by
  induction h with
  | @dots used d r t r1 q r' h1 h2 h3 =>
    have tk : Tk env r .dotdotdot t r1 := ⟨(tokGet_iff he hs _ _).2 h1, h2⟩
    have a1 := tk.sadv he hs
    obtain ⟨t', ht', _⟩ := h3.tk he (a1.suf hs)
    refine ⟨a1.trans (ht'.sadv he (a1.suf hs)), [(t.pos, t.value)], [], rfl, rfl, fun st _ _ => ⟨st.named, loop_done ?_⟩⟩
    unfold paramBody
    refine bind_tokget.2 ⟨t, r1, tk.1, ?_⟩
    rw [if_neg (by simp [h2]), if_pos h2]
    refine bind_tokget.2 ⟨t', r', ht'.1, ?_⟩
    rw [if_pos ht'.2]
    exact ok_pure.2 ⟨by simp, rfl⟩
  | last h1 h2 =>
    obtain ⟨a1, q, n, es, rfl, k1, k2⟩ := param_complete he hs h1
    obtain ⟨t, ht, _⟩ := h2.tk he (a1.suf hs)
    exact ⟨a1.trans (ht.sadv he (a1.suf hs)), [(q, n)], es, rfl, k1, fun st h3 h4 =>
      ⟨_, loop_done (k2 st h3 h4 _ _ (paramTail_iff.2 (.inl ⟨rfl, t, ht⟩)))⟩⟩
  | comma h1 h2 h3 h4 =>
    obtain ⟨a1, q, n, es, rfl, k1, k2⟩ := param_complete he hs h1
    have s1 := a1.suf hs
    obtain ⟨t, ht, _⟩ := h3.tk he s1
    have a2 := ht.sadv he s1
    obtain ⟨t', ht', _⟩ := h4.tk he (a2.suf s1)
    exact ⟨a1.trans (a2.trans (ht'.sadv he (a2.suf s1))), [(q, n)], es, rfl, k1, fun st h5 h6 =>
      ⟨_, loop_done (k2 st h5 h6 _ _ (paramTail_iff.2 (.inr ⟨h2, t, _, ht, .inl ⟨rfl, t', ht'⟩⟩)))⟩⟩
  | @cons _ _ _ _ ds _ _ _ _ _ _ h1 h2 h3 h4 _ ih =>
    obtain ⟨a1, q, n, es, rfl, k1, k2⟩ := param_complete he hs h1
    have s1 := a1.suf hs
    obtain ⟨t, ht, _⟩ := h3.tk he s1
    have a2 := ht.sadv he s1
    have s2 := a2.suf s1
    obtain ⟨a3, rl, es', j1, j2, j3⟩ := ih s2
    obtain ⟨t', r3, ht', hty'⟩ := h4
    refine ⟨a1.trans (a2.trans a3), (q, n) :: rl, es ++ es', by rw [← j1]; rfl, exprs_append k1 j2, fun st h5 h6 => ?_⟩
    have : es.isEmpty = ds.isEmpty := by
      cases es with
      | nil => cases k1; rfl
      | cons e es =>
        simp only [Export.exprs, Option.bind_eq_bind, Option.bind_eq_some_iff] at k1
        obtain ⟨_, _, _, _, h2⟩ := k1
        cases h2; rfl
    obtain ⟨named, h7⟩ := j3 ⟨st.rlist ++ [(q, n)], st.defaults ++ es, n :: st.named⟩ (by simp [h5]) (by
      rw [← this, ← h6]
      cases st.defaults <;> simp)
    refine ⟨named, loop_more (k2 st h5 h6 _ _ (paramTail_iff.2 (.inr ⟨h2, t, _, ht, .inr ⟨rfl, rfl, t', r3, (tokGet_iff he s2 _ _).2 ht', hty'⟩⟩)))
      (a1.trans a2).lt ?_⟩
    simpa using h7

def paramEx (fn : Str) (ps : ParamSt) : Option (List Ast.Ident × List Ast.Expr) := do
  let ds ← Export.exprs fn ps.defaults
  some (Export.idents fn ps.rlist, ds)

theorem par_params (he : EnvOK env) : Par env (paramEx fn) parseParams (fun r a r' => FuncParamsAt env fn r a.1 a.2 r') := by
  intro r hs
  rw [parseParams_eq]
  constructor
  · intro v r' h
    rw [bind_tokpeek] at h
    obtain ⟨t, r1, ht, h⟩ := h
    rw [ok_ite] at h
    rcases h with ⟨h2, h⟩ | ⟨h2, h⟩
    · rw [bind_tokget] at h
      obtain ⟨t', r2, ht', h⟩ := h
      rw [ht] at ht'
      cases ht'
      obtain ⟨rfl, rfl⟩ := ok_pure.1 h
      exact ⟨([], []), rfl, .none (Tk.mark he hs ⟨ht, h2⟩)⟩
    · obtain ⟨is, ds, k1, k2, k3⟩ := paramList_sound (fn := fn) he hs (as := []) rfl h
      exact ⟨(is, ds), by rw [show Export.idents fn ({} : ParamSt).rlist = [] from rfl, List.nil_append] at k1; simp [paramEx, k1, k2], .some ⟨t, r1, (tokGet_iff he hs _ _).1 ht, h2⟩ k3⟩
  · rintro ⟨is, ds⟩ r' (h : FuncParamsAt env fn r is ds r')
    cases h with
    | none h =>
      obtain ⟨t, ht, _⟩ := h.tk he hs
      refine ⟨ht.sadv he hs, {}, rfl, bind_tokpeek.2 ⟨t, _, ht.1, ?_⟩⟩
      rw [if_pos ht.2]
      exact bind_tokget.2 ⟨t, _, ht.1, ok_pure.2 ⟨rfl, rfl⟩⟩
    | some h1 h2 =>
      obtain ⟨t, r1, ht, h1⟩ := h1
      obtain ⟨a, rl, es, k1, k2, k3⟩ := paramList_complete he h2 hs
      obtain ⟨named, k4⟩ := k3 {} rfl rfl
      refine ⟨a, ⟨rl, es, named⟩, by simp [paramEx, k1, k2], bind_tokpeek.2 ⟨t, r1, (tokGet_iff he hs _ _).2 ht, ?_⟩⟩
      rw [if_neg h1]
      simpa using k4

end
end Viml
