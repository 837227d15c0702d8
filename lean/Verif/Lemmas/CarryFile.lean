/-
Commands, blocks and scripts are carried over to another place.
-/
import Verif.Lemmas.CarryHead
import Verif.Lemmas.OrderFile
import Verif.Spec.Concat

namespace Viml
open Spec

section
variable {m : Ast.Pos → Ast.Pos}

theorem onPos_target (e : Ast.Expr) : target (e.onPos m) ↔ target e := by
  cases e <;> simp [Ast.Expr.onPos, target, Ast.Ident.onPos]

theorem onPos_funcTarget (e : Ast.Expr) : funcTarget (e.onPos m) ↔ funcTarget e := by
  cases e <;> simp [Ast.Expr.onPos, funcTarget]

theorem onPosS_append (a b : List Ast.Stmt) : Ast.Stmt.onPosL m (a ++ b) = Ast.Stmt.onPosL m a ++ Ast.Stmt.onPosL m b := by
  induction a with
  | nil => simp [Ast.Stmt.onPosL]
  | cons x a ih => simp [Ast.Stmt.onPosL, ih]

theorem onPos_funcNameOK (e : Ast.Expr) (h : FuncNameOK e) : FuncNameOK (e.onPos m) := by
  intro i hi
  cases e <;> simp only [Ast.Expr.onPos, Ast.Expr.ident.injEq, reduceCtorEq] at hi
  subst hi
  rename_i j
  exact h j rfl

end

namespace Carry
variable {env env' : Env} {fn : Str} {κ : Carry env env' fn} {r r' : List Cell}

/-! ### Places -/

theorem bd_in (h : κ.bd) : ∀ r, κ.In r
  | [] => .eof h
  | _ :: r => .cons (bd_in h r)

theorem nil_bd (h : κ.Up []) : κ.bd := by
  rcases h with h | h
  · cases h with | eof h => exact h
  · exact absurd rfl h.2

theorem To.in_of {s : List Cell} (h : κ.To r) (hs : s <:+ r) (hl : κ.q0.length < s.length ∨ κ.bd) : κ.In s := by
  rcases hl with hl | hl
  · rcases h with h | rfl
    · induction h with
      | eof h => exact bd_in h s
      | eol hc =>
        rcases List.suffix_cons_iff.1 hs with rfl | hs
        · exact .eol hc
        · have := hs.length_le; omega
      | cons h ih =>
        rcases List.suffix_cons_iff.1 hs with rfl | hs
        · exact .cons h
        · exact ih hs
    · have := hs.length_le; omega
  · exact bd_in hl s

theorem To.to_of {s : List Cell} (h : κ.To r) (hs : s <:+ r) (hl : κ.q0.length ≤ s.length) : κ.To s := by
  rcases Nat.lt_or_eq_of_le hl with hl | hl
  · exact .inl (h.in_of hs (.inl hl))
  · rcases h with h | rfl
    · induction h with
      | eof h => exact .inl (bd_in h s)
      | eol hc =>
        rcases List.suffix_cons_iff.1 hs with rfl | hs
        · exact .inl (.eol hc)
        · exact .inr (hs.eq_of_length hl.symm)
      | cons h ih =>
        rcases List.suffix_cons_iff.1 hs with rfl | hs
        · exact .inl (.cons h)
        · exact ih hs
    · exact .inr (hs.eq_of_length hl.symm)

/-- Before a place that is before the rest or where the rest starts. -/
theorem To.before {s t : List Cell} (h : κ.To r) (hs : s <:+ r) (ht : κ.To t) (hl : t.length < s.length) : κ.In s :=
  h.in_of hs (.inl (Nat.lt_of_le_of_lt ht.length hl))

theorem To.line {s t : List Cell} (h : κ.To r) (hs : s <:+ r) (ht : κ.Up t) (hl : t.length < s.length ∨ t = []) : κ.In s := by
  rcases hl with hl | rfl
  · exact h.before hs ht.to hl
  · exact bd_in (nil_bd ht) s

theorem To.upto {s t : List Cell} (h : κ.To r) (hs : s <:+ r) (ht : κ.To t) (hl : t <:+ s) : κ.To s :=
  h.to_of hs (Nat.le_trans ht.length hl.length_le)

theorem To.inTo {s t : List Cell} (h : κ.To r) (hs : s <:+ r) (ht : κ.In t) (hl : t <:+ s) : κ.In s := by
  refine h.in_of hs ?_
  rcases ht.lt with h | h
  · exact .inl (Nat.lt_of_lt_of_le h hl.length_le)
  · exact .inr h

theorem trail_len {cm : List Ast.Stmt} (h : Trail env fn r cm r') : r'.length < r.length ∨ r' = [] := by
  have key : ∀ {a b : List Cell} {v : Str}, Reads a v b → b.length ≤ a.length :=
    fun ⟨p, h, _⟩ => by rw [h]; simp
  cases h with
  | eof => exact .inr rfl
  | eol h1 =>
    obtain ⟨w, h1, _⟩ := h1
    have := key h1
    exact .inl (by simp only [List.length_cons] at this; omega)
  | bar h1 h2 =>
    obtain ⟨w, h1, _⟩ := h1
    obtain ⟨p, e, hp⟩ := h2
    have := key h1
    have : p.length = 1 := by simpa using congrArg List.length hp
    subst e
    simp only [List.length_append] at *
    exact .inl (by omega)
  | comment h1 h2 =>
    obtain ⟨w, h1, _⟩ := h1
    cases h2 with
    | mk h3 h4 =>
      have a := key h1
      have b := key h3
      have c := key h4
      simp only [List.length_cons] at c
      exact .inl (by omega)

/-! ### Following lines -/

theorem lines_suf {ls : List Str} (hl : Lines r ls r') : r' <:+ r := by
  induction hl with
  | nil => exact List.suffix_refl _
  | @cons _ _ e _ _ _ h1 _ _ ih =>
    obtain ⟨p, h, _⟩ := h1
    exact ih.trans ⟨p ++ [e], by rw [h]; simp⟩

theorem line_lt {l : Str} {e : Cell} {r1 : List Cell} (h : Reads r l (e :: r1)) : r1 <:+ r ∧ r1.length < r.length := by
  obtain ⟨p, h, _⟩ := h
  subst h
  exact ⟨⟨p ++ [e], by simp⟩, by simp only [List.length_append, List.length_cons]; omega⟩

theorem lines {ls : List Str} (hl : Lines r ls r') : κ.To r → κ.To r' → Lines (κ.tr r) ls (κ.tr r') := by
  induction hl with
  | nil => exact fun _ _ => .nil _
  | cons h1 h2 h3 ih =>
    intro h h'
    have i := h.before (List.suffix_refl _) h' (Nat.lt_of_le_of_lt (lines_suf h3).length_le (line_lt h1).2)
    obtain ⟨i1, a1⟩ := reads i h1
    obtain ⟨t, e, hc⟩ := end_ i1 h2
    rw [e] at a1
    exact .cons a1 hc (ih t h')

theorem suf {v : Str} (h : Reads r v r') : r' <:+ r := by obtain ⟨p, e, _⟩ := h; exact ⟨p, e.symm⟩

theorem linesTo {k : Str} {ls : List Str} (h : κ.To r) (h' : κ.In r') (hl : LinesTo k r ls r') :
    LinesTo k (κ.tr r) ls (κ.tr r') := by
  rcases hl with ⟨h1, rfl, h2⟩ | ⟨ls', r1, h1, h2, h3, h4, h5⟩
  · exact .inl ⟨lines h1 h h'.to, tr_nil (nil_bd h'.up), h2⟩
  · have i : κ.In r1 := h.inTo (lines_suf h2) h' (suf h4)
    exact .inr ⟨ls', κ.tr r1, h1, lines h2 h i.to, h3, (reads i h4).2, (atEnd h').2 h5⟩

theorem blockOf {k s : Str} (h : κ.In r) (h' : κ.In r') (hb : BlockOf r k s r') : BlockOf (κ.tr r) k s (κ.tr r') := by
  obtain ⟨line, e, r1, ls, h1, h2, h3, h4⟩ := hb
  obtain ⟨i1, a1⟩ := reads h h1
  obtain ⟨t, e1, hc⟩ := end_ i1 h2
  rw [e1] at a1
  exact ⟨line, _, _, ls, a1, hc, linesTo t h' h3, h4⟩

theorem raw {top f : Bool} {r0 ra : List Cell} {c : Cmd} {s : Str} (h0 : κ.In r0) (ha : κ.In ra) (h : κ.In r)
    (h' : κ.In r') (hr : Raw env fn top r0 ra f c r s r') :
    Raw env' fn top (κ.tr r0) (κ.tr ra) f c (κ.tr r) s (κ.tr r') := by
  cases hr with
  | common h1 h2 => exact .common h1 (rawText h0 ha h h2).2
  | finish h1 h2 h3 => exact .finish h1 h2 (rawText h0 ha h h3).2
  | finishTop h1 h2 h3 => rw [tr_nil (nil_bd h'.up)]; exact .finishTop h1 h2 (rawText h0 ha h h3).2
  | append h1 h2 => exact .append h1 (blockOf h0 h' h2)
  | keymap h1 h2 h3 =>
    have b := nil_bd h'.up
    have := lines h3 h0.to h'.to
    rw [tr_nil b] at this ⊢
    exact .keymap h1 h2 this
  | script h1 h2 h3 h4 h5 h6 =>
    obtain ⟨i1, a1⟩ := skip h h2
    obtain ⟨i2, a2⟩ := reads i1 h3
    obtain ⟨i3, a3⟩ := skip i2 h4
    obtain ⟨i4, a4⟩ := rest i3 h5
    exact .script h1 a1 a2 a3 a4 (blockOf h0 h' h6)
  | scriptLine h1 h2 h3 h4 =>
    obtain ⟨i1, a1⟩ := skip h h2
    exact .scriptLine h1 a1 (by rw [starts i1]; exact h3) (rest h0 h4).2
  | wincmd h1 h2 h3 h4 h5 =>
    obtain ⟨i1, a1⟩ := winArg h h2
    exact .wincmd h1 a1 (reads h0 h3).2 (skip i1 h4).2 ((atStop h').2 h5)
  | «syntax» h1 h2 h3 => exact .syntax h1 (synText h2 h).2 (reads h0 h3).2

/-! ### Ends of lines -/

theorem comment {s : Ast.Stmt} (h : κ.In r) (hc : Comment env fn r s r') :
    κ.To r' ∧ Comment env' fn (κ.tr r) (s.onPos κ.m) (κ.tr r') := by
  cases hc with
  | mk h1 h2 h3 =>
    obtain ⟨i1, a1⟩ := reads h h1
    obtain ⟨i2, a2⟩ := reads i1 h2
    obtain ⟨t, e, hc⟩ := end_ i2 h3
    rw [e] at a2
    refine ⟨t, ?_⟩
    rw [Ast.Stmt.onPos, ← Carry.here h]
    exact .mk a1 a2 hc

theorem trail {cm : List Ast.Stmt} (h : κ.In r) (ht : Trail env fn r cm r') :
    κ.To r' ∧ Trail env' fn (κ.tr r) (Ast.Stmt.onPosL κ.m cm) (κ.tr r') := by
  cases ht with
  | eof h1 =>
    obtain ⟨i, a⟩ := skip h h1
    rw [tr_nil (nil_bd i.up)] at a ⊢
    exact ⟨i.to, .eof a⟩
  | eol h1 h2 =>
    obtain ⟨i, a⟩ := skip h h1
    obtain ⟨t, e, hc⟩ := end_ i h2
    rw [e] at a
    exact ⟨t, .eol a hc⟩
  | bar h1 h2 =>
    obtain ⟨i, a⟩ := skip h h1
    obtain ⟨i2, a2⟩ := reads i h2
    exact ⟨i2.to, .bar a a2⟩
  | comment h1 h2 =>
    obtain ⟨i, a⟩ := skip h h1
    obtain ⟨t, a2⟩ := Carry.comment i h2
    exact ⟨t, .comment a a2⟩

/-! ### Targets -/

theorem lvStart {e : Ast.Expr} (h : κ.In r) (hl : LvStart env fn r e r') :
    κ.In r' ∧ LvStart env' fn (κ.tr r) (e.onPos κ.m) (κ.tr r') := by
  cases hl with
  | lit h1 h2 h3 =>
    obtain ⟨t', i, a, e1, e2, e3⟩ := lexT h h1 h2.ne_eol.1
    refine ⟨i, ?_⟩
    have := LvStart.lit (fn := fn) a (e1 ▸ h2) h3
    rw [e2, e3] at this
    exact this
  | name h1 h2 h3 h4 =>
    obtain ⟨i, a⟩ := blanks h h1
    obtain ⟨i2, a2⟩ := parts h3 i
    refine ⟨i2, ?_⟩
    rw [onPos_name, ← Carry.here i]
    exact .name a (next_ h h2) a2 (onPosL_ne _ h4)
  | sid h1 h2 h3 h4 =>
    obtain ⟨i, a⟩ := blanks h h1
    obtain ⟨i2, a2⟩ := reads i h2
    obtain ⟨i3, a3⟩ := parts h4 i2
    refine ⟨i3, ?_⟩
    rw [onPos_name, Ast.Expr.onPosL, Ast.Expr.onPos, ← Carry.here i]
    exact .sid a a2 h3 a3

theorem lvChain {e : Ast.Expr} (hl : LvChain env fn r e r') :
    κ.In r → κ.In r' ∧ LvChain env' fn (κ.tr r) (e.onPos κ.m) (κ.tr r') := by
  induction hl with
  | start h1 =>
    intro h
    obtain ⟨i, a⟩ := lvStart h h1
    exact ⟨i, .start a⟩
  | subscript _ h2 h3 h4 h5 ih =>
    intro h
    obtain ⟨i1, a1⟩ := ih h
    obtain ⟨i2, a2⟩ := mark i1 h3
    obtain ⟨i3, a3⟩ := gram h4 i2
    obtain ⟨i4, a4⟩ := mark i3 h5
    exact ⟨i4, .subscript a1 (by rw [head i1]; exact h2) a2 a3 a4⟩
  | slice _ h2 h3 h4 h5 h6 h7 ih =>
    intro h
    obtain ⟨i1, a1⟩ := ih h
    obtain ⟨i2, a2⟩ := mark i1 h3
    obtain ⟨i3, a3⟩ := opt h4 i2
    obtain ⟨i4, a4⟩ := mark i3 h5
    obtain ⟨i5, a5⟩ := opt h6 i4
    obtain ⟨i6, a6⟩ := mark i5 h7
    exact ⟨i6, .slice a1 (by rw [head i1]; exact h2) a2 a3 a4 a5 a6⟩
  | dot _ h2 h3 h4 h5 ih =>
    intro h
    obtain ⟨i1, a1⟩ := ih h
    obtain ⟨i2, a2⟩ := mark i1 h4
    obtain ⟨i3, a3⟩ := member i2 h5
    refine ⟨i3, ?_⟩
    rw [Ast.Expr.onPos, Ast.Ident.onPos, ← Carry.here i2]
    exact .dot a1 (by rw [head i1]; exact h2) ((onPos_dotBase _).2 h3) a2 a3

theorem lv {e : Ast.Expr} (h : κ.In r) (hl : Lv env fn r e r') : κ.In r' ∧ Lv env' fn (κ.tr r) (e.onPos κ.m) (κ.tr r') := by
  obtain ⟨h1, t, r2, h2, h3⟩ := hl
  obtain ⟨i, a⟩ := lvChain h1 h
  refine ⟨i, a, ?_⟩
  by_cases ht : t.ty = .eol
  · obtain ⟨t', r3, b, e1⟩ := next_ (p := (· = .eol)) i ⟨t, r2, h2, ht⟩
    exact ⟨t', r3, b, fun _ => ⟨by rw [e1]; simp, fun h => by rw [e1] at h; simp at h⟩⟩
  · obtain ⟨t', i2, b, e1, e2, e3⟩ := lexT i h2 ht
    refine ⟨t', _, b, fun hw => ?_⟩
    rw [head i] at hw
    obtain ⟨h4, h5⟩ := h3 hw
    rw [e1]
    refine ⟨h4, ?_⟩
    rintro ⟨h6, h7, v, r3, h8⟩
    exact h5 ⟨h6, (onPos_dotBase e).1 h7, v, member_back i2 h8⟩

theorem target_ {e : Ast.Expr} (h : κ.In r) (ht : Target env fn r e r') :
    κ.In r' ∧ Target env' fn (κ.tr r) (e.onPos κ.m) (κ.tr r') := by
  obtain ⟨i, a⟩ := lv h ht.1
  exact ⟨i, a, (onPos_target e).2 ht.2⟩

theorem funcName {e : Ast.Expr} (h : κ.In r) (ht : FuncName env fn r e r') :
    κ.In r' ∧ FuncName env' fn (κ.tr r) (e.onPos κ.m) (κ.tr r') := by
  obtain ⟨i, a⟩ := lv h ht.1
  exact ⟨i, a, (onPos_funcTarget e).2 ht.2⟩

theorem constTarget {e : Ast.Expr} (h : κ.In r) (ht : ConstTarget env fn r e r') :
    κ.In r' ∧ ConstTarget env' fn (κ.tr r) (e.onPos κ.m) (κ.tr r') := by
  obtain ⟨i, a⟩ := target_ h ht.1
  refine ⟨i, a, ?_⟩
  rcases ht.2 with ⟨x, rfl⟩ | ⟨q, ps, rfl⟩
  · exact .inl ⟨_, rfl⟩
  · exact .inr ⟨_, _, rfl⟩

theorem targetList {es : List Ast.Expr} {x : Option Ast.Expr} (hl : TargetList env fn r es x r') :
    κ.In r → κ.In r' ∧ TargetList env' fn (κ.tr r) (Ast.Expr.onPosL κ.m es) (Ast.Expr.onPosO κ.m x) (κ.tr r') := by
  induction hl with
  | last h1 h2 =>
    intro h
    obtain ⟨i, a⟩ := target_ h h1
    obtain ⟨i2, a2⟩ := mark i h2
    exact ⟨i2, .last a a2⟩
  | cons h1 h2 _ ih =>
    intro h
    obtain ⟨i, a⟩ := target_ h h1
    obtain ⟨i2, a2⟩ := mark i h2
    obtain ⟨i3, a3⟩ := ih i2
    exact ⟨i3, .cons a a2 a3⟩
  | rest h1 h2 h3 h4 =>
    intro h
    obtain ⟨i, a⟩ := target_ h h1
    obtain ⟨i2, a2⟩ := mark i h2
    obtain ⟨i3, a3⟩ := target_ i2 h3
    obtain ⟨i4, a4⟩ := mark i3 h4
    exact ⟨i4, .rest a a2 a3 a4⟩

/-- The targets of kind `S` are carried to targets of kind `S'`. -/
def Kinds (κ : Carry env env' fn) (S S' : List Cell → Ast.Expr → List Cell → Prop) : Prop :=
  ∀ {r e r'}, κ.In r → S r e r' → κ.In r' ∧ S' (κ.tr r) (e.onPos κ.m) (κ.tr r')

variable {S S' : List Cell → Ast.Expr → List Cell → Prop}

theorem lhsAt {l : Option Ast.Expr} {ls : List Ast.Expr} {x : Option Ast.Expr} (hS : Kinds κ S S') (h : κ.In r)
    (hl : LhsAt env fn S r l ls x r') : κ.In r' ∧
    LhsAt env' fn S' (κ.tr r) (Ast.Expr.onPosO κ.m l) (Ast.Expr.onPosL κ.m ls) (Ast.Expr.onPosO κ.m x) (κ.tr r') := by
  cases hl with
  | one h1 h2 =>
    obtain ⟨i, a⟩ := hS h h2
    exact ⟨i, .one (next_ h h1) a⟩
  | list h1 h2 =>
    obtain ⟨i, a⟩ := mark h h1
    obtain ⟨i2, a2⟩ := targetList h2 i
    exact ⟨i2, .list a a2⟩

theorem targets {es : List Ast.Expr} (hl : Targets env fn r es r') :
    κ.In r → κ.In r' ∧ Targets env' fn (κ.tr r) (Ast.Expr.onPosL κ.m es) (κ.tr r') := by
  induction hl with
  | nil h1 h2 =>
    intro h
    obtain ⟨i, a⟩ := skip h h1
    exact ⟨i, .nil a ((atStop i).2 h2)⟩
  | cons h1 h2 h3 _ ih =>
    intro h
    obtain ⟨i, a⟩ := skip h h1
    obtain ⟨i2, a2⟩ := target_ i h3
    obtain ⟨i3, a3⟩ := ih i2
    exact ⟨i3, .cons a (by rw [atStop i]; exact h2) a2 a3⟩

theorem lockArgs {es : List Ast.Expr} (h : κ.In r) (hl : LockArgs env fn r es r') :
    κ.In r' ∧ LockArgs env' fn (κ.tr r) (Ast.Expr.onPosL κ.m es) (κ.tr r') := by
  cases hl with
  | mk h1 h2 =>
    obtain ⟨i, a⟩ := gram h1 h
    obtain ⟨i2, a2⟩ := targets h2 i
    exact ⟨i2, .mk a a2⟩

theorem depth {n : Nat} (h : κ.In r) (hd : Depth r n r') : κ.In r' ∧ Depth (κ.tr r) n (κ.tr r') := by
  cases hd with
  | num h1 h2 h3 h4 =>
    obtain ⟨i, a⟩ := skip h h1
    obtain ⟨i2, a2⟩ := span i h3
    exact ⟨i2, .num a h2 a2 h4⟩
  | none h1 h2 =>
    obtain ⟨i, a⟩ := skip h h1
    exact ⟨i, .none a (by rw [head i]; exact h2)⟩

theorem exprs {es : List Ast.Expr} (hl : Exprs env fn r es r') :
    κ.In r → κ.In r' ∧ Exprs env' fn (κ.tr r) (Ast.Expr.onPosL κ.m es) (κ.tr r') := by
  induction hl with
  | nil h1 h2 =>
    intro h
    obtain ⟨i, a⟩ := skip h h1
    exact ⟨i, .nil a (by rw [atEnd i, head i]; exact h2)⟩
  | cons h1 h2 h3 _ ih =>
    intro h
    obtain ⟨i, a⟩ := skip h h1
    obtain ⟨i2, a2⟩ := gram h3 i
    obtain ⟨i3, a3⟩ := ih i2
    exact ⟨i3, .cons a (by rw [atEnd i, head i]; exact h2) a2 a3⟩

/-! ### Functions -/

theorem param {used : List Str} {d : Bool} {p : Ast.Ident} {ds : List Ast.Expr} (h : κ.In r)
    (hp : Param env fn used d r p ds r') :
    κ.In r' ∧ Param env' fn used d (κ.tr r) (p.onPos κ.m) (Ast.Expr.onPosL κ.m ds) (κ.tr r') := by
  cases hp with
  | plain h1 h2 h3 h4 h5 h6 =>
    obtain ⟨t', i, a, e1, e2, e3⟩ := lexT h h1 (by rw [h2]; simp)
    refine ⟨i, ?_⟩
    have := Param.plain (fn := fn) (used := used) a (e1 ▸ h2) (e2 ▸ h3) (e2 ▸ h4) (next_ i h5) h6
    rw [e2, e3] at this
    exact this
  | default h1 h2 h3 h4 h5 h6 =>
    obtain ⟨t', i, a, e1, e2, e3⟩ := lexT h h1 (by rw [h2]; simp)
    obtain ⟨i2, a2⟩ := mark i h5
    obtain ⟨i3, a3⟩ := gram h6 i2
    refine ⟨i3, ?_⟩
    have := Param.default (fn := fn) (used := used) (d := d) a (e1 ▸ h2) (e2 ▸ h3) (e2 ▸ h4) a2 a3
    rw [e2, e3] at this
    exact this

theorem isEmpty_onPos (ds : List Ast.Expr) : (Ast.Expr.onPosL κ.m ds).isEmpty = ds.isEmpty := by
  cases ds <;> rfl

theorem paramList {used : List Str} {d : Bool} {is : List Ast.Ident} {ds : List Ast.Expr}
    (hp : ParamList env fn used d r is ds r') : κ.In r →
    κ.In r' ∧ ParamList env' fn used d (κ.tr r) (is.map (Ast.Ident.onPos κ.m)) (Ast.Expr.onPosL κ.m ds) (κ.tr r') := by
  induction hp with
  | @dots u d _ _ _ _ _ h1 h2 h3 =>
    intro h
    obtain ⟨t', i, a, e1, e2, e3⟩ := lexT h h1 (by rw [h2]; simp)
    obtain ⟨i2, a2⟩ := mark i h3
    refine ⟨i2, ?_⟩
    have := ParamList.dots (fn := fn) (used := u) (d := d) a (e1.trans h2) a2
    rw [e2, e3] at this
    exact this
  | last h1 h2 =>
    intro h
    obtain ⟨i, a⟩ := param h h1
    obtain ⟨i2, a2⟩ := mark i h2
    exact ⟨i2, .last a a2⟩
  | comma h1 h2 h3 h4 =>
    intro h
    obtain ⟨i, a⟩ := param h h1
    obtain ⟨i2, a2⟩ := mark i h3
    obtain ⟨i3, a3⟩ := mark i2 h4
    exact ⟨i3, .comma a (by rw [head i]; exact h2) a2 a3⟩
  | cons h1 h2 h3 h4 _ ih =>
    intro h
    obtain ⟨i, a⟩ := param h h1
    obtain ⟨i2, a2⟩ := mark i h3
    obtain ⟨i3, a3⟩ := ih i2
    refine ⟨i3, ?_⟩
    rw [onPosL_append]
    exact .cons a (by rw [head i]; exact h2) a2 (next_ i2 h4) (by rw [isEmpty_onPos]; exact a3)

theorem funcParams {is : List Ast.Ident} {ds : List Ast.Expr} (h : κ.In r) (hp : FuncParamsAt env fn r is ds r') :
    κ.In r' ∧ FuncParamsAt env' fn (κ.tr r) (is.map (Ast.Ident.onPos κ.m)) (Ast.Expr.onPosL κ.m ds) (κ.tr r') := by
  cases hp with
  | none h1 =>
    obtain ⟨i, a⟩ := mark h h1
    exact ⟨i, .none a⟩
  | some h1 h2 =>
    obtain ⟨i, a⟩ := paramList h2 h
    exact ⟨i, .some (next_ h h1) a⟩

theorem attrs {ks : List Str} (ha : Attrs r ks r') : κ.In r → κ.In r' ∧ Attrs (κ.tr r) ks (κ.tr r') := by
  induction ha with
  | nil h1 h2 =>
    intro h
    obtain ⟨i, a⟩ := skip h h1
    exact ⟨i, .nil a (by rw [head i]; exact h2)⟩
  | cons h1 h2 h3 _ ih =>
    intro h
    obtain ⟨i, a⟩ := skip h h1
    obtain ⟨i2, a2⟩ := span i h2
    obtain ⟨i3, a3⟩ := ih i2
    exact ⟨i3, .cons a a2 h3 a3⟩

theorem funcListing (h : κ.In r) (hf : FuncListing env fn r) : FuncListing env' fn (κ.tr r) := by
  cases hf with
  | all h1 h2 =>
    obtain ⟨i, a⟩ := skip h h1
    exact .all a (by rw [atStop i, head i]; exact h2)
  | one h1 h2 h3 h4 h5 h6 h7 =>
    obtain ⟨i, a⟩ := skip h h1
    obtain ⟨i2, a2⟩ := funcName i h4
    obtain ⟨i3, a3⟩ := skip i2 h6
    exact .one a (by rw [atStop i]; exact h2) (by rw [head i]; exact h3) a2 (onPos_funcNameOK _ h5) a3 (by rw [head i3]; exact h7)

theorem funcHead {e : Ast.Expr} {is : List Ast.Ident} {ds : List Ast.Expr} {at_ : FuncAttr} (h : κ.In r)
    (hf : FuncHead env fn r e is ds at_ r') : κ.In r' ∧
    FuncHead env' fn (κ.tr r) (e.onPos κ.m) (is.map (Ast.Ident.onPos κ.m)) (Ast.Expr.onPosL κ.m ds) at_ (κ.tr r') := by
  cases hf with
  | mk h1 h2 h3 h4 h5 h6 h7 h8 h9 =>
    obtain ⟨i, a⟩ := skip h h1
    obtain ⟨i2, a2⟩ := funcName i h4
    obtain ⟨i3, a3⟩ := skip i2 h6
    obtain ⟨i4, a4⟩ := reads i3 h7
    obtain ⟨i5, a5⟩ := funcParams i4 h8
    obtain ⟨i6, a6⟩ := attrs h9 i5
    exact ⟨i6, .mk a (by rw [atStop i]; exact h2) (by rw [head i]; exact h3) a2 (onPos_funcNameOK _ h5) a3 a4 a5 a6⟩

/-! ### `:let` -/

theorem letLeft {l : Option Ast.Expr} {ls : List Ast.Expr} {x : Option Ast.Expr} (hS : Kinds κ S S') (h : κ.In r)
    (hl : LetLeft env fn S r l ls x r') : κ.In r' ∧
    LetLeft env' fn S' (κ.tr r) (Ast.Expr.onPosO κ.m l) (Ast.Expr.onPosL κ.m ls) (Ast.Expr.onPosO κ.m x) (κ.tr r') := by
  obtain ⟨r1, r2, h1, h2, h3, h4⟩ := hl
  obtain ⟨i, a⟩ := skip h h1
  obtain ⟨i2, a2⟩ := lhsAt hS i h3
  obtain ⟨i3, a3⟩ := skip i2 h4
  exact ⟨i3, _, _, a, by rw [atStop i]; exact h2, a2, a3⟩

theorem letListing {ops : List Str} (hS : Kinds κ S S') (h : κ.In r) (hl : LetListing env fn S ops r) :
    LetListing env' fn S' ops (κ.tr r) := by
  cases hl with
  | all h1 h2 =>
    obtain ⟨i, a⟩ := skip h h1
    exact .all a ((atStop i).2 h2)
  | some h1 h2 =>
    obtain ⟨i, a⟩ := letLeft hS h h1
    exact .some a fun op ho => by rw [starts i]; exact h2 op ho

theorem hereHead {fs : List (Pos × Str)} {k : Str} (hh : HereHead env r fs k r') : κ.In r → κ.In r' ∧
    ∃ fs', HereHead env' (κ.tr r) fs' k (κ.tr r') ∧ strNodes fn fs' = Ast.Expr.onPosL κ.m (strNodes fn fs) := by
  induction hh with
  | marker h1 h2 h3 =>
    intro h
    obtain ⟨i, a⟩ := skip h h1
    obtain ⟨i2, a2⟩ := span i h2
    exact ⟨i2, _, .marker a a2 h3, rfl⟩
  | flag h1 h2 h3 _ ih =>
    intro h
    obtain ⟨i, a⟩ := skip h h1
    obtain ⟨i2, a2⟩ := span i h2
    obtain ⟨i3, fs', a3, e⟩ := ih i2
    refine ⟨i3, _, .flag a a2 h3 a3, ?_⟩
    simp only [strNodes, List.map_cons, Ast.Expr.onPosL, Ast.Expr.onPos, pub i] at e ⊢
    rw [e]

theorem hLines_suf {k : Str} {ls : List (Pos × Str)} (hh : HLines env k r ls r') : r' <:+ r := by
  induction hh with
  | done h1 => exact suf h1
  | cons h1 _ _ _ ih => exact ih.trans (line_lt h1).1

theorem hLines {k : Str} {ls : List (Pos × Str)} (hh : HLines env k r ls r') : κ.To r → κ.In r' →
    ∃ ls', HLines env' k (κ.tr r) ls' (κ.tr r') ∧ strNodes fn ls' = Ast.Expr.onPosL κ.m (strNodes fn ls) := by
  induction hh with
  | done h1 h2 =>
    intro h h'
    have i := h.inTo (List.suffix_refl _) h' (suf h1)
    exact ⟨[], .done (reads i h1).2 ((atEnd h').2 h2), rfl⟩
  | cons h1 h2 h3 h4 ih =>
    intro h h'
    have i := h.inTo (List.suffix_refl _) h' ((hLines_suf h4).trans (line_lt h1).1)
    obtain ⟨i1, a1⟩ := reads i h1
    obtain ⟨t, e, hc⟩ := end_ i1 h2
    rw [e] at a1
    obtain ⟨ls', a2, e2⟩ := ih t h'
    refine ⟨_, .cons a1 hc h3 a2, ?_⟩
    simp only [strNodes, List.map_cons, Ast.Expr.onPosL, Ast.Expr.onPos, pub i] at e2 ⊢
    rw [e2]

/-! ### Simple commands -/

theorem simple {cx : Ctx} {r0 ra : List Cell} {ea : Ast.ExArg} {c : Cmd} {xs : List Ast.Stmt} (h0 : κ.In r0) (ha : κ.In ra)
    (h : κ.In r) (h' : κ.In r') (hs : Spec.Simple env fn cx r0 ra ea c r xs r') :
    Spec.Simple env' fn cx (κ.tr r0) (κ.tr ra) (ea.onPos κ.m) c (κ.tr r) (Ast.Stmt.onPosL κ.m xs) (κ.tr r') := by
  have kT : Kinds κ (Target env fn) (Target env' fn) := fun h ht => target_ h ht
  have kC : Kinds κ (ConstTarget env fn) (ConstTarget env' fn) := fun h ht => constTarget h ht
  cases hs with
  | raw h1 => exact .raw (raw h0 ha h h' h1)
  | funcListing h1 h2 h3 => exact .funcListing h1 (funcListing h h2) (rawText h0 ha h h3).2
  | delfunction h1 h2 => exact .delfunction h1 (funcName h h2).2
  | return_ h1 h2 h3 h4 h5 =>
    obtain ⟨i, a⟩ := skip h h3
    exact .return_ h1 h2 a (by rw [atEnd i, head i]; exact h4) (gram h5 i).2
  | returnNone h1 h2 h3 h4 =>
    obtain ⟨i, a⟩ := skip h h3
    exact .returnNone h1 h2 a (by rw [atEnd i, head i]; exact h4)
  | call h1 h2 h3 h4 =>
    obtain ⟨i, a⟩ := skip h h2
    exact .call h1 a (by rw [atStop i]; exact h3) (gram h4 i).2
  | letListing h1 h2 h3 => exact .letListing h1 (letListing kT h h2) (rawText h0 ha h h3).2
  | let_ h1 h2 h3 h4 h5 h6 =>
    obtain ⟨i, a⟩ := letLeft kT h h2
    obtain ⟨i2, a2⟩ := reads i h5
    exact .let_ h1 a h3 (by rw [starts i]; exact h4) a2 (gram h6 i2).2
  | heredoc h1 h2 h3 h4 h5 h6 =>
    obtain ⟨i, a⟩ := letLeft kT h h2
    obtain ⟨i2, a2⟩ := reads i h3
    obtain ⟨i3, fs', a3, e⟩ := hereHead h4 i2
    obtain ⟨t, a4⟩ := trail i3 h5
    obtain ⟨ls', a5, e2⟩ := hLines h6 t h'
    have := Spec.Simple.heredoc (cx := cx) (r0 := κ.tr r0) (ra := κ.tr ra) (ea := ea.onPos κ.m) h1 a a2 a3 a4 a5
    rw [e, e2] at this
    rw [onPosS_append]
    exact this
  | constListing h1 h2 h3 => exact .constListing h1 (letListing kC h h2) (rawText h0 ha h h3).2
  | const_ h1 h2 h3 h4 =>
    obtain ⟨i, a⟩ := letLeft kC h h2
    obtain ⟨i2, a2⟩ := reads i h3
    exact .const_ h1 a a2 (gram h4 i2).2
  | unlet h1 h2 => exact .unlet h1 (lockArgs h h2).2
  | lockvar h1 h2 h3 =>
    obtain ⟨i, a⟩ := depth h h2
    exact .lockvar h1 a (lockArgs i h3).2
  | unlockvar h1 h2 h3 =>
    obtain ⟨i, a⟩ := depth h h2
    exact .unlockvar h1 a (lockArgs i h3).2
  | continue_ h1 h2 => exact .continue_ h1 h2
  | break_ h1 h2 => exact .break_ h1 h2
  | throw h1 h2 => exact .throw h1 (gram h2 h).2
  | eval h1 h2 => exact .eval h1 (gram h2 h).2
  | echo h1 h2 => exact .echo h1 (exprs h2 h).2
  | echohl h1 h2 => exact .echohl h1 (span h h2).2
  | execute h1 h2 => exact .execute h1 (exprs h2 h).2

end Carry
end Viml
