/-
Lists of expressions and targets, left-hand sides and function signatures: the parser reads exactly those of the grammar.
-/
import Verif.Lemmas.FileLv

namespace Viml
open Prog Spec

/-- The program `m` yields exactly what `S` describes, converted by `ex`, and reads something. -/
def Par {α β : Type} (env : Env) (ex : α → Option β) (m : Prog α) (S : List Cell → β → List Cell → Prop) : Prop :=
  ∀ r, Suf env r → (∀ v r', Ok env m r v r' → ∃ a, ex v = some a ∧ S r a r') ∧
    ∀ a r', S r a r' → SAdv r r' ∧ ∃ v, ex v = some a ∧ Ok env m r v r'

/-- Items of the kind `S` separated by blanks up to a character of the kind `stop`. -/
inductive ListAt (S : List Cell → Ast.Expr → List Cell → Prop) (stop : Sym → Prop) : List Cell → List Ast.Expr → List Cell → Prop
  | nil {r r'} : Skip r r' → stop (headSym r') → ListAt S stop r [] r'
  | cons {r r1 e r2 es r'} : Skip r r1 → ¬ stop (headSym r1) → S r1 e r2 → ListAt S stop r2 es r' → ListAt S stop r (e :: es) r'

section
variable {env : Env} {fn : Str} {r r' : List Cell}

theorem Par.sound {α β : Type} {ex : α → Option β} {m : Prog α} {S : List Cell → β → List Cell → Prop} (h : Par env ex m S)
    (hs : Suf env r) {v : α} (h1 : Ok env m r v r') : ∃ a, ex v = some a ∧ S r a r' := (h r hs).1 v r' h1
theorem Par.adv {α β : Type} {ex : α → Option β} {m : Prog α} {S : List Cell → β → List Cell → Prop} (h : Par env ex m S)
    (hs : Suf env r) {a : β} (h1 : S r a r') : SAdv r r' := ((h r hs).2 a r' h1).1
theorem Par.complete {α β : Type} {ex : α → Option β} {m : Prog α} {S : List Cell → β → List Cell → Prop} (h : Par env ex m S)
    (hs : Suf env r) {a : β} (h1 : S r a r') : ∃ v, ex v = some a ∧ Ok env m r v r' := ((h r hs).2 a r' h1).2

theorem par_expr (he : EnvOK env) : Par env (Export.expr fn) parseExpr1 (Gram env fn 1) :=
  fun _ hs => ⟨fun _ _ h => expr_sound he hs h, fun _ _ h => ⟨gram_sadv he hs h, (expr_complete he hs h).imp fun _ h => ⟨h.2, h.1⟩⟩⟩
theorem par_func (he : EnvOK env) : Par env (Export.expr fn) parseLvalueFunc (FuncName env fn) :=
  fun _ hs => ⟨fun _ _ h => func_sound he hs h, fun _ _ h => ⟨h.1.adv he hs, func_complete he hs h⟩⟩
theorem par_target (he : EnvOK env) : Par env (Export.expr fn) parseLvalue (Target env fn) :=
  fun _ hs => ⟨fun _ _ h => lvalue_sound he hs h, fun _ _ h => ⟨h.1.adv he hs, lvalue_complete he hs h⟩⟩
theorem par_const (he : EnvOK env) : Par env (Export.expr fn) parseConstlvalue (ConstTarget env fn) :=
  fun _ hs => ⟨fun _ _ h => const_sound he hs h, fun _ _ h => ⟨h.1.1.adv he hs, const_complete he hs h⟩⟩

theorem exprs_snoc {l : List VExpr} {as : List Ast.Expr} {e : VExpr} {a : Ast.Expr} (h : Export.exprs fn l = some as)
    (h1 : Export.expr fn e = some a) : Export.exprs fn (l ++ [e]) = some (as ++ [a]) := by
  induction l generalizing as with
  | nil => cases h; simp [Export.exprs, h1]
  | cons x l ih =>
    simp only [Export.exprs, Option.bind_eq_bind, Option.bind_eq_some_iff] at h
    obtain ⟨b, hb, bs, hbs, h⟩ := h
    cases h
    simp [Export.exprs, hb, ih hbs]

theorem exprs_cons {e : VExpr} {a : Ast.Expr} {l : List VExpr} {as : List Ast.Expr} (h1 : Export.expr fn e = some a)
    (h : Export.exprs fn l = some as) : Export.exprs fn (e :: l) = some (a :: as) := by simp [Export.exprs, h, h1]

/-! ### Items separated by blanks -/

def sepListBody (m : Prog VExpr) (stop : Sym → Prop) [DecidablePred stop] (l : List VExpr) : Prog (List VExpr ⊕ List VExpr) := do
  skipWhite
  let c ← peek
  if stop c then pure (.inr l)
  else
    let e ← m
    pure (.inl (l ++ [e]))

variable {S : List Cell → Ast.Expr → List Cell → Prop} {m : Prog VExpr} {stop : Sym → Prop} [DecidablePred stop]

theorem list_sound (hm : Par env (Export.expr fn) m S) {l out : List VExpr} {as : List Ast.Expr} (hl : Export.exprs fn l = some as)
    (hs : Suf env r) (h : Ok env (loop (sepListBody m stop) l) r out r') :
    ∃ bs, Export.exprs fn out = some (as ++ bs) ∧ ListAt S stop r bs r' := by
  refine loop_ind (P := fun l r => ∀ as, Export.exprs fn l = some as → Suf env r →
    ∃ bs, Export.exprs fn out = some (as ++ bs) ∧ ListAt S stop r bs r') ?_ ?_ h as hl hs
  · intro l r h as hl hs
    unfold sepListBody at h
    rw [bind_skipWhite] at h
    obtain ⟨r1, h1, h⟩ := h
    rw [bind_peek, ok_ite] at h
    rcases h with ⟨h2, h⟩ | ⟨_, h⟩
    · obtain ⟨h, rfl⟩ := ok_pure.1 h
      cases h
      exact ⟨[], by simpa using hl, .nil h1 h2⟩
    · rw [ok_bind] at h
      obtain ⟨_, _, _, h⟩ := h
      cases (ok_pure.1 h).1
  · intro l r l1 r1 h ih as hl hs
    unfold sepListBody at h
    rw [bind_skipWhite] at h
    obtain ⟨r2, h1, h⟩ := h
    rw [bind_peek, ok_ite] at h
    rcases h with ⟨_, h⟩ | ⟨h2, h⟩
    · cases (ok_pure.1 h).1
    · rw [ok_bind] at h
      obtain ⟨e, _, h3, h⟩ := h
      obtain ⟨h, rfl⟩ := ok_pure.1 h
      cases h
      have s1 := h1.adv.suf hs
      obtain ⟨a, k1, k2⟩ := hm.sound s1 h3
      obtain ⟨bs, j1, j2⟩ := ih _ (exprs_snoc hl k1) ((hm.adv s1 k2).suf s1)
      exact ⟨a :: bs, by simpa using j1, .cons h1 h2 k2 j2⟩

theorem list_complete (hm : Par env (Export.expr fn) m S) {bs : List Ast.Expr} (h : ListAt S stop r bs r') (hs : Suf env r) :
    Adv r r' ∧ ∃ vs, Export.exprs fn vs = some bs ∧ ∀ l, Ok env (loop (sepListBody m stop) l) r (l ++ vs) r' := by
  induction h with
  | nil h1 h2 =>
    refine ⟨h1.adv, [], rfl, fun l => loop_done ?_⟩
    unfold sepListBody
    rw [bind_skipWhite]
    refine ⟨_, h1, ?_⟩
    rw [bind_peek, if_pos h2]
    exact ok_pure.2 ⟨by simp, rfl⟩
  | cons h1 h2 h3 _ ih =>
    have s1 := h1.adv.suf hs
    have a1 := hm.adv s1 h3
    obtain ⟨v, k1, k2⟩ := hm.complete s1 h3
    obtain ⟨a2, vs, j1, j2⟩ := ih (a1.suf s1)
    refine ⟨h1.adv.trans (a1.adv.trans a2), v :: vs, exprs_cons k1 j1, fun l => ?_⟩
    refine loop_more (s1 := l ++ [v]) ?_ (h1.adv.trans_sadv a1).lt (by simpa using j2 (l ++ [v]))
    unfold sepListBody
    rw [bind_skipWhite]
    refine ⟨_, h1, ?_⟩
    rw [bind_peek, if_neg h2, ok_bind]
    exact ⟨v, _, k2, ok_pure.2 ⟨rfl, rfl⟩⟩

/-! ### Expressions -/

theorem exprStop {r : List Cell} : (headSym r ≠ .ch '"' ∧ endsSym (headSym r) = true) ↔ AtEnd r ∨ headSym r = .ch '|' := by
  rw [endsSym_stop]
  unfold AtStop
  constructor
  · rintro ⟨h, h1 | h1 | h1⟩
    · exact .inl h1
    · exact .inr h1
    · exact absurd h1 h
  · rintro (h | h)
    · exact ⟨atEnd_not h, .inl h⟩
    · exact ⟨by rw [h]; simp, .inr (.inl h)⟩

abbrev exprEnd (c : Sym) : Prop := c ≠ .ch '"' ∧ endsSym c = true

theorem exprs_list {es : List Ast.Expr} : Exprs env fn r es r' ↔ ListAt (Gram env fn 1) exprEnd r es r' := by
  constructor
  · intro h
    induction h with
    | nil h1 h2 => exact .nil h1 (exprStop.2 h2)
    | cons h1 h2 h3 _ ih => exact .cons h1 (fun h => h2 (exprStop.1 h)) h3 ih
  · intro h
    induction h with
    | nil h1 h2 => exact .nil h1 (exprStop.1 h2)
    | cons h1 h2 h3 _ ih => exact .cons h1 (fun h => h2 (exprStop.2 h)) h3 ih

theorem exprlist_eq : parseExprlist = loop (sepListBody parseExpr1 exprEnd) [] := rfl

theorem exprlist_sound (he : EnvOK env) (hs : Suf env r) {vs : List VExpr} (h : Ok env parseExprlist r vs r') :
    ∃ es, Export.exprs fn vs = some es ∧ Exprs env fn r es r' := by
  rw [exprlist_eq] at h
  obtain ⟨bs, h1, h2⟩ := list_sound (par_expr (fn := fn) he) rfl hs h
  exact ⟨bs, h1, exprs_list.2 h2⟩

theorem exprlist_complete (he : EnvOK env) (hs : Suf env r) {es : List Ast.Expr} (h : Exprs env fn r es r') :
    Adv r r' ∧ ∃ vs, Export.exprs fn vs = some es ∧ Ok env parseExprlist r vs r' := by
  obtain ⟨a, vs, h1, h2⟩ := list_complete (par_expr he) (exprs_list.1 h) hs
  exact ⟨a, vs, h1, h2 []⟩

/-! ### Targets -/

abbrev targetEnd (c : Sym) : Prop := endsSym c = true

theorem targets_list {es : List Ast.Expr} : Targets env fn r es r' ↔ ListAt (Target env fn) targetEnd r es r' := by
  constructor
  · intro h
    induction h with
    | nil h1 h2 => exact .nil h1 (endsSym_stop.2 h2)
    | cons h1 h2 h3 _ ih => exact .cons h1 (fun h => h2 (endsSym_stop.1 h)) h3 ih
  · intro h
    induction h with
    | nil h1 h2 => exact .nil h1 (endsSym_stop.1 h2)
    | cons h1 h2 h3 _ ih => exact .cons h1 (fun h => h2 (endsSym_stop.2 h)) h3 ih

theorem lvaluelist_eq : parseLvaluelist = (parseExpr1 >>= fun e => loop (sepListBody parseLvalue targetEnd) [e]) := rfl

theorem lock_sound (he : EnvOK env) (hs : Suf env r) {vs : List VExpr} (h : Ok env parseLvaluelist r vs r') :
    ∃ es, Export.exprs fn vs = some es ∧ LockArgs env fn r es r' := by
  rw [lvaluelist_eq, ok_bind] at h
  obtain ⟨e, r1, h0, h⟩ := h
  obtain ⟨a, k1, k2⟩ := expr_sound (fn := fn) he hs h0
  obtain ⟨bs, h1, h2⟩ := list_sound (par_target (fn := fn) he) (exprs_cons k1 rfl) ((gram_sadv he hs k2).suf hs) h
  exact ⟨_, h1, .mk k2 (targets_list.2 h2)⟩

theorem lock_complete (he : EnvOK env) (hs : Suf env r) {es : List Ast.Expr} (h : LockArgs env fn r es r') :
    Adv r r' ∧ ∃ vs, Export.exprs fn vs = some es ∧ Ok env parseLvaluelist r vs r' := by
  cases h with
  | mk h1 h2 =>
    have a1 := gram_sadv he hs h1
    obtain ⟨v, k1, k2⟩ := (par_expr he).complete hs h1
    obtain ⟨a, vs, j1, j2⟩ := list_complete (par_target he) (targets_list.1 h2) (a1.suf hs)
    refine ⟨a1.adv.trans a, v :: vs, exprs_cons k1 j1, ?_⟩
    rw [lvaluelist_eq, ok_bind]
    exact ⟨v, _, k2, j2 [v]⟩

theorem ok_depth {n : Nat} : Ok env parseDepth r n r' ↔ Depth r n r' := by
  unfold parseDepth
  rw [bind_skipWhite]
  constructor
  · rintro ⟨r1, h1, h⟩
    rw [bind_peekn, get1_is1, ok_ite] at h
    rcases h with ⟨h2, h⟩ | ⟨h2, h⟩
    · unfold readDigit at h
      rw [bind_readWhile] at h
      obtain ⟨d, r2, h3, h⟩ := h
      obtain ⟨h4, rfl, rfl⟩ := ok_str2nr.1 h
      refine .num h1 ?_ h3 h4
      rintro rfl
      have := h3.1.nil_inv
      subst this
      exact absurd h2 (by rw [h3.2.2]; simp)
    · obtain ⟨rfl, rfl⟩ := ok_pure.1 h
      exact .none h1 (by simpa using h2)
  · intro h
    cases h with
    | @num r1 d _ h1 hd h2 h3 =>
      refine ⟨r1, h1, ?_⟩
      rw [bind_peekn, get1_is1, if_pos]
      · unfold readDigit
        rw [bind_readWhile]
        exact ⟨d, r', h2, ok_str2nr.2 ⟨h3, rfl, rfl⟩⟩
      · cases d with
        | nil => exact absurd rfl hd
        | cons c d =>
          rw [h2.1.head]
          exact h2.2.1 c (by simp)
    | none h1 h2 =>
      refine ⟨_, h1, ?_⟩
      rw [bind_peekn, get1_is1, if_neg (by simp [h2])]
      exact ok_pure.2 ⟨rfl, rfl⟩

theorem Spec.Depth.adv {n : Nat} (h : Depth r n r') : Adv r r' := by
  cases h with
  | num h1 _ h2 => exact h1.adv.trans h2.adv
  | none h1 => exact h1.adv

/-! ### Left-hand sides -/

def lhsEx (fn : Str) (lhs : Lhs) : Option (Option Ast.Expr × List Ast.Expr × Option Ast.Expr) := do
  let l ← Export.exprOpt fn lhs.left
  let ls ← Export.exprs fn lhs.list
  let x ← Export.exprOpt fn lhs.rest
  some (l, ls, x)

def lhsBody (l : List VExpr) : Prog (List VExpr ⊕ Lhs) := do
      let e ← parseLvalue
      let l := l ++ [e]
      let t ← tokget
      if t.ty = .sqclose then pure (.inr { list := l })
      else if t.ty = .comma then pure (.inl l)
      else if t.ty = .semicolon then
        let r ← parseLvalue
        let t ← tokget
        if t.ty = .sqclose then pure (.inr { list := l, rest := some r })
        else errAt (cs!"E475 Invalid argument: " ++ t.value) t.pos
      else errAt (cs!"E475 Invalid argument: " ++ t.value) t.pos

theorem parseLhs_eq (single : Prog VExpr) : parseLhs single = (do
  let t ← tokpeek
  if t.ty = .sqopen then
    let _ ← tokget
    loop lhsBody []
  else
    let e ← single
    pure { left := some e }) := rfl

theorem Spec.TargetList.adv (he : EnvOK env) {es : List Ast.Expr} {x : Option Ast.Expr} (h : TargetList env fn r es x r')
    (hs : Suf env r) : SAdv r r' := by
  induction h with
  | last h1 h2 =>
    have a := (par_target he).adv hs h1
    obtain ⟨t, ht, _⟩ := h2.tk he (a.suf hs)
    exact a.trans (ht.sadv he (a.suf hs))
  | cons h1 h2 _ ih =>
    have a := (par_target he).adv hs h1
    obtain ⟨t, ht, _⟩ := h2.tk he (a.suf hs)
    have b := a.trans (ht.sadv he (a.suf hs))
    exact b.trans (ih (b.suf hs))
  | rest h1 h2 h3 h4 =>
    have a := (par_target he).adv hs h1
    obtain ⟨t, ht, _⟩ := h2.tk he (a.suf hs)
    have b := a.trans (ht.sadv he (a.suf hs))
    have c := b.trans ((par_target he).adv (b.suf hs) h3)
    obtain ⟨t, ht, _⟩ := h4.tk he (c.suf hs)
    exact c.trans (ht.sadv he (c.suf hs))

theorem lhsList_sound (he : EnvOK env) {l : List VExpr} {as : List Ast.Expr} (hl : Export.exprs fn l = some as)
    (hs : Suf env r) {out : Lhs} (h : Ok env (loop lhsBody l) r out r') :
    ∃ bs x, lhsEx fn out = some (none, as ++ bs, x) ∧ TargetList env fn r bs x r' := by
  refine loop_ind (P := fun l r => ∀ as, Export.exprs fn l = some as → Suf env r →
    ∃ bs x, lhsEx fn out = some (none, as ++ bs, x) ∧ TargetList env fn r bs x r') ?_ ?_ h as hl hs
  · intro l r h as hl hs
    unfold lhsBody at h
    rw [ok_bind] at h
    obtain ⟨e, r1, h1, h⟩ := h
    obtain ⟨a, k1, k2⟩ := (par_target (fn := fn) he).sound hs h1
    have s1 := ((par_target he).adv hs k2).suf hs
    have hl1 := exprs_snoc hl k1
    rw [bind_tokget] at h
    obtain ⟨t, r2, ht, h⟩ := h
    rw [ok_ite] at h
    rcases h with ⟨h2, h⟩ | ⟨_, h⟩
    · obtain ⟨h, rfl⟩ := ok_pure.1 h
      cases h
      exact ⟨[a], none, by simp [lhsEx, hl1, Export.exprOpt], .last k2 (Tk.mark he s1 ⟨ht, h2⟩)⟩
    rw [ok_ite] at h
    rcases h with ⟨_, h⟩ | ⟨_, h⟩
    · cases (ok_pure.1 h).1
    rw [ok_ite] at h
    rcases h with ⟨h2, h⟩ | ⟨_, h⟩
    · rw [ok_bind] at h
      obtain ⟨e', r3, h3, h⟩ := h
      have s2 := (Tk.sadv he s1 ⟨ht, h2⟩).suf s1
      obtain ⟨a', j1, j2⟩ := (par_target (fn := fn) he).sound s2 h3
      have s3 := ((par_target he).adv s2 j2).suf s2
      rw [bind_tokget] at h
      obtain ⟨t', r4, ht', h⟩ := h
      rw [ok_ite] at h
      rcases h with ⟨h4, h⟩ | ⟨_, h⟩
      · obtain ⟨h, rfl⟩ := ok_pure.1 h
        cases h
        exact ⟨[a], some a', by simp [lhsEx, hl1, Export.exprOpt, j1], .rest k2 (Tk.mark he s1 ⟨ht, h2⟩) j2
          (Tk.mark he s3 ⟨ht', h4⟩)⟩
      · exact (ok_errAt.1 h).elim
    · exact (ok_errAt.1 h).elim
  · intro l r l1 r1 h ih as hl hs
    unfold lhsBody at h
    rw [ok_bind] at h
    obtain ⟨e, r1, h1, h⟩ := h
    obtain ⟨a, k1, k2⟩ := (par_target (fn := fn) he).sound hs h1
    have s1 := ((par_target he).adv hs k2).suf hs
    have hl1 := exprs_snoc hl k1
    rw [bind_tokget] at h
    obtain ⟨t, r2, ht, h⟩ := h
    rw [ok_ite] at h
    rcases h with ⟨_, h⟩ | ⟨_, h⟩
    · cases (ok_pure.1 h).1
    rw [ok_ite] at h
    rcases h with ⟨h2, h⟩ | ⟨_, h⟩
    · obtain ⟨h, rfl⟩ := ok_pure.1 h
      cases h
      obtain ⟨bs, x, j1, j2⟩ := ih _ hl1 ((Tk.sadv he s1 ⟨ht, h2⟩).suf s1)
      exact ⟨a :: bs, x, by simpa using j1, .cons k2 (Tk.mark he s1 ⟨ht, h2⟩) j2⟩
    rw [ok_ite] at h
    rcases h with ⟨h2, h⟩ | ⟨_, h⟩
    · rw [ok_bind] at h
      obtain ⟨e', r3, h3, h⟩ := h
      rw [bind_tokget] at h
      obtain ⟨t', r4, ht', h⟩ := h
      rw [ok_ite] at h
      rcases h with ⟨h4, h⟩ | ⟨_, h⟩
      · cases (ok_pure.1 h).1
      · exact (ok_errAt.1 h).elim
    · exact (ok_errAt.1 h).elim

theorem lhsList_complete (he : EnvOK env) {bs : List Ast.Expr} {x : Option Ast.Expr} (h : TargetList env fn r bs x r')
    (hs : Suf env r) : ∃ vs w, Export.exprs fn vs = some bs ∧ Export.exprOpt fn w = some x ∧
      ∀ l, Ok env (loop lhsBody l) r { list := l ++ vs, rest := w } r' := by
  induction h with
  | last h1 h2 =>
    obtain ⟨v, k1, k2⟩ := (par_target he).complete hs h1
    have s1 := ((par_target he).adv hs h1).suf hs
    obtain ⟨t, ht, _⟩ := h2.tk he s1
    refine ⟨[v], none, exprs_cons k1 rfl, rfl, fun l => loop_done ?_⟩
    unfold lhsBody
    rw [ok_bind]
    refine ⟨v, _, k2, bind_tokget.2 ⟨t, _, ht.1, ?_⟩⟩
    rw [if_pos ht.2]
    exact ok_pure.2 ⟨rfl, rfl⟩
  | cons h1 h2 _ ih =>
    obtain ⟨v, k1, k2⟩ := (par_target he).complete hs h1
    have a1 := (par_target he).adv hs h1
    have s1 := a1.suf hs
    obtain ⟨t, ht, _⟩ := h2.tk he s1
    have a2 := ht.sadv he s1
    obtain ⟨vs, w, j1, j2, j3⟩ := ih (a2.suf s1)
    refine ⟨v :: vs, w, exprs_cons k1 j1, j2, fun l => loop_more (s1 := l ++ [v]) ?_ (a1.trans a2).lt (by simpa using j3 (l ++ [v]))⟩
    unfold lhsBody
    rw [ok_bind]
    refine ⟨v, _, k2, bind_tokget.2 ⟨t, _, ht.1, ?_⟩⟩
    rw [if_neg (by simp [ht.2]), if_pos ht.2]
    exact ok_pure.2 ⟨rfl, rfl⟩
  | rest h1 h2 h3 h4 =>
    obtain ⟨v, k1, k2⟩ := (par_target he).complete hs h1
    have s1 := ((par_target he).adv hs h1).suf hs
    obtain ⟨t, ht, _⟩ := h2.tk he s1
    have s2 := (ht.sadv he s1).suf s1
    obtain ⟨v', j1, j2⟩ := (par_target he).complete s2 h3
    have s3 := ((par_target he).adv s2 h3).suf s2
    obtain ⟨t', ht', _⟩ := h4.tk he s3
    refine ⟨[v], some v', exprs_cons k1 rfl, by simp [Export.exprOpt, j1], fun l => loop_done ?_⟩
    unfold lhsBody
    rw [ok_bind]
    refine ⟨v, _, k2, bind_tokget.2 ⟨t, _, ht.1, ?_⟩⟩
    rw [if_neg (by simp [ht.2]), if_neg (by simp [ht.2]), if_pos ht.2, ok_bind]
    refine ⟨v', _, j2, bind_tokget.2 ⟨t', _, ht'.1, ?_⟩⟩
    rw [if_pos ht'.2]
    exact ok_pure.2 ⟨rfl, rfl⟩

/-- `LhsAt` as a relation to one value. -/
def LhsOf (env : Env) (fn : Str) (S : List Cell → Ast.Expr → List Cell → Prop) (r : List Cell)
    (a : Option Ast.Expr × List Ast.Expr × Option Ast.Expr) (r' : List Cell) : Prop := LhsAt env fn S r a.1 a.2.1 a.2.2 r'

theorem par_lhs (he : EnvOK env) (hm : Par env (Export.expr fn) m S) : Par env (lhsEx fn) (parseLhs m) (LhsOf env fn S) := by
  intro r hs
  rw [parseLhs_eq]
  constructor
  · intro v r' h
    rw [bind_tokpeek] at h
    obtain ⟨t, r1, ht, h⟩ := h
    rw [ok_ite] at h
    rcases h with ⟨h2, h⟩ | ⟨h2, h⟩
    · rw [bind_tokget] at h
      obtain ⟨t', r2, ht', h⟩ := h
      rw [ht] at ht'
      cases ht'
      obtain ⟨bs, x, k1, k2⟩ := lhsList_sound (fn := fn) he rfl ((Tk.sadv he hs ⟨ht, h2⟩).suf hs) h
      exact ⟨_, k1, .list (Tk.mark he hs ⟨ht, h2⟩) k2⟩
    · rw [ok_bind] at h
      obtain ⟨e, r2, h3, h⟩ := h
      obtain ⟨rfl, rfl⟩ := ok_pure.1 h
      obtain ⟨a, k1, k2⟩ := hm.sound hs h3
      exact ⟨(some a, [], none), by simp [lhsEx, Export.exprOpt, Export.exprs, k1],
        .one ⟨t, r1, (tokGet_iff he hs _ _).1 ht, h2⟩ k2⟩
  · rintro ⟨l, ls, x⟩ r' (h : LhsAt env fn S r l ls x r')
    cases h with
    | one h1 h2 =>
      obtain ⟨t, r1, ht, h1⟩ := h1
      obtain ⟨v, k1, k2⟩ := hm.complete hs h2
      refine ⟨hm.adv hs h2, { left := some v }, by simp [lhsEx, Export.exprOpt, Export.exprs, k1], ?_⟩
      refine bind_tokpeek.2 ⟨t, r1, (tokGet_iff he hs _ _).2 ht, ?_⟩
      rw [if_neg h1, ok_bind]
      exact ⟨v, _, k2, ok_pure.2 ⟨rfl, rfl⟩⟩
    | list h1 h2 =>
      obtain ⟨t, ht, _⟩ := h1.tk he hs
      have a1 := ht.sadv he hs
      obtain ⟨vs, w, k1, k2, k3⟩ := lhsList_complete he h2 (a1.suf hs)
      refine ⟨a1.trans (h2.adv he (a1.suf hs)), { list := vs, rest := w }, by simp [lhsEx, Export.exprOpt, k1, k2], ?_⟩
      refine bind_tokpeek.2 ⟨t, _, ht.1, ?_⟩
      rw [if_pos ht.2]
      exact bind_tokget.2 ⟨t, _, ht.1, k3 []⟩

theorem par_letlhs (he : EnvOK env) : Par env (lhsEx fn) parseLetlhs (LhsOf env fn (Target env fn)) :=
  par_lhs he (par_target he)
theorem par_constlhs (he : EnvOK env) : Par env (lhsEx fn) parseConstlhs (LhsOf env fn (ConstTarget env fn)) :=
  par_lhs he (par_const he)

/-! ### Function attributes -/

def attrBody (a : FuncAttr) : Prog (FuncAttr ⊕ FuncAttr) := do
    skipWhite
    let q ← getpos
    let key ← readAlpha
    if key = [] then pure (.inr a)
    else if key = cs!"range" then pure (.inl { a with range := true })
    else if key = cs!"abort" then pure (.inl { a with abort := true })
    else if key = cs!"dict" then pure (.inl { a with dict := true })
    else if key = cs!"closure" then pure (.inl { a with closure := true })
    else errAt (cs!"unexpected token: " ++ key) q

theorem parseFuncAttrs_eq : parseFuncAttrs = loop attrBody {} := rfl

/-- One more attribute. -/
def addAttr (a : FuncAttr) (k : Str) : FuncAttr :=
  ⟨a.range || decide (k = cs!"range"), a.abort || decide (k = cs!"abort"), a.dict || decide (k = cs!"dict"),
    a.closure || decide (k = cs!"closure")⟩

theorem attrBody_iff {a : FuncAttr} {x : FuncAttr ⊕ FuncAttr} : Ok env (attrBody a) r x r' ↔
    ∃ r1, Skip r r1 ∧ (((headSym r1).is isalpha = false ∧ x = .inr a ∧ r' = r1) ∨
      ∃ k, Span isalpha r1 k r' ∧ k ∈ [cs!"range", cs!"abort", cs!"dict", cs!"closure"] ∧ x = .inl (addAttr a k)) := by
  have e1 : ∀ k, Span isalpha r k r' → (k = [] ↔ (headSym r).is isalpha = false ∧ r' = r) := by
    intro k h
    constructor
    · rintro rfl
      have := h.1.nil_inv
      subst this
      exact ⟨h.2.2, rfl⟩
    · rintro ⟨h1, rfl⟩
      exact (h.det (⟨Reads.nil _, by simp, h1⟩ : Span isalpha r' [] r')).1
  clear e1
  unfold attrBody readAlpha
  rw [bind_skipWhite]
  simp only [bind_getpos, bind_readWhile]
  constructor
  · rintro ⟨r1, h1, k, r2, h2, h⟩
    refine ⟨r1, h1, ?_⟩
    rw [ok_ite] at h
    rcases h with ⟨rfl, h⟩ | ⟨_, h⟩
    · obtain ⟨rfl, rfl⟩ := ok_pure.1 h
      have := h2.1.nil_inv
      subst this
      exact .inl ⟨h2.2.2, rfl, rfl⟩
    right
    rw [ok_ite] at h
    rcases h with ⟨rfl, h⟩ | ⟨_, h⟩
    · obtain ⟨rfl, rfl⟩ := ok_pure.1 h
      exact ⟨_, h2, by simp, by simp [addAttr]⟩
    rw [ok_ite] at h
    rcases h with ⟨rfl, h⟩ | ⟨_, h⟩
    · obtain ⟨rfl, rfl⟩ := ok_pure.1 h
      exact ⟨_, h2, by simp, by simp [addAttr]⟩
    rw [ok_ite] at h
    rcases h with ⟨rfl, h⟩ | ⟨_, h⟩
    · obtain ⟨rfl, rfl⟩ := ok_pure.1 h
      exact ⟨_, h2, by simp, by simp [addAttr]⟩
    rw [ok_ite] at h
    rcases h with ⟨rfl, h⟩ | ⟨_, h⟩
    · obtain ⟨rfl, rfl⟩ := ok_pure.1 h
      exact ⟨_, h2, by simp, by simp [addAttr]⟩
    · exact (ok_errAt.1 h).elim
  · rintro ⟨r1, h1, ⟨h2, rfl, rfl⟩ | ⟨k, h2, hk, rfl⟩⟩
    · refine ⟨r', h1, [], r', ⟨Reads.nil _, by simp, h2⟩, ?_⟩
      rw [if_pos rfl]
      exact ok_pure.2 ⟨rfl, rfl⟩
    · refine ⟨r1, h1, k, r', h2, ?_⟩
      simp only [List.mem_cons, List.not_mem_nil, or_false] at hk
      rcases hk with rfl | rfl | rfl | rfl
      · rw [if_neg (by decide), if_pos rfl]; exact ok_pure.2 ⟨by simp [addAttr], rfl⟩
      · rw [if_neg (by decide), if_neg (by decide), if_pos rfl]; exact ok_pure.2 ⟨by simp [addAttr], rfl⟩
      · rw [if_neg (by decide), if_neg (by decide), if_neg (by decide), if_pos rfl]; exact ok_pure.2 ⟨by simp [addAttr], rfl⟩
      · rw [if_neg (by decide), if_neg (by decide), if_neg (by decide), if_neg (by decide), if_pos rfl]
        exact ok_pure.2 ⟨by simp [addAttr], rfl⟩

theorem addAttr_fold {ks : List Str} : ∀ {a : FuncAttr}, ks.foldl addAttr a =
    ⟨a.range || decide (cs!"range" ∈ ks), a.abort || decide (cs!"abort" ∈ ks), a.dict || decide (cs!"dict" ∈ ks),
      a.closure || decide (cs!"closure" ∈ ks)⟩ := by
  induction ks with
  | nil => intro a; simp
  | cons k ks ih =>
    intro a
    rw [List.foldl_cons, ih]
    simp only [addAttr, List.mem_cons, Bool.decide_or, Bool.or_assoc, eq_comm (a := k)]

theorem Spec.Attrs.adv {ks : List Str} (h : Attrs r ks r') : Adv r r' := by
  induction h with
  | nil h => exact h.adv
  | cons h1 h2 _ _ ih => exact h1.adv.trans (h2.adv.trans ih)

theorem attrs_iff {a : FuncAttr} : Ok env parseFuncAttrs r a r' ↔ ∃ ks, Attrs r ks r' ∧ a = attrsOf ks := by
  rw [parseFuncAttrs_eq]
  have lt : ∀ {r r1 r' : List Cell} {k : Str}, Skip r r1 → Span isalpha r1 k r' →
      k ∈ [cs!"range", cs!"abort", cs!"dict", cs!"closure"] → r'.length < r.length := by
    intro r r1 r' k h1 h2 hk
    have h3 : k ≠ [] := by rintro rfl; revert hk; decide
    exact (h1.adv.trans_sadv (h2.1.sadv h3)).lt
  rw [loop_iff (R := fun a r b r' => ∃ ks, Attrs r ks r' ∧ b = ks.foldl addAttr a)]
  · simp only [addAttr_fold, attrsOf, Bool.false_or]
  · intro s r s1 r1 h
    obtain ⟨r2, h1, ⟨_, h, _⟩ | ⟨k, h2, hk, _⟩⟩ := attrBody_iff.1 h
    · cases h
    · exact lt h1 h2 hk
  · intro a r b r'
    constructor
    · rintro ⟨ks, h, rfl⟩
      cases h with
      | nil h1 h2 => exact .inl (attrBody_iff.2 ⟨_, h1, .inl ⟨h2, rfl, rfl⟩⟩)
      | @cons _ r1 k r2 ks _ h1 h2 h3 h4 =>
        exact .inr ⟨addAttr a k, r2, attrBody_iff.2 ⟨_, h1, .inr ⟨k, h2, h3, rfl⟩⟩, ks, h4, rfl⟩
    · rintro (h | ⟨s1, r1, h, ks, h4, rfl⟩)
      · obtain ⟨r1, h1, ⟨h2, h3, rfl⟩ | ⟨k, _, _, h⟩⟩ := attrBody_iff.1 h
        · cases h3
          exact ⟨[], .nil h1 h2, rfl⟩
        · cases h
      · obtain ⟨r2, h1, ⟨_, h, _⟩ | ⟨k, h2, hk, h⟩⟩ := attrBody_iff.1 h
        · cases h
        · cases h
          exact ⟨k :: ks, .cons h1 h2 hk h4, rfl⟩

theorem funcName_iff {e : VExpr} {a : Ast.Expr} (ha : Export.expr fn e = some a) :
    checkFuncName e = some none ↔ FuncNameOK a := by
  refine ⟨fun h => funcName_good h ha, fun h => ?_⟩
  unfold checkFuncName
  split
  · simp only [Export.expr, Export.atom, Option.some.injEq] at ha
    obtain ⟨c, t, h1, _⟩ := h _ ha.symm
    cases h1
  · simp only [Export.expr, Export.atom, Option.some.injEq] at ha
    obtain ⟨c, t, h1, h2⟩ := h _ ha.symm
    cases h1
    rw [if_neg]
    simp only [Bool.and_eq_true, Bool.not_eq_true', bne_iff_ne, ne_eq, ← Bool.not_eq_true, List.contains_iff_mem]
    rintro ⟨⟨⟨⟨k1, k2⟩, k3⟩, k4⟩, k5⟩
    rcases h2 with h | h | h | h | h
    · exact k1 h
    · exact k2 h
    · exact k3 h
    · exact k4 h
    · exact k5 h
  · rfl

end
end Viml
