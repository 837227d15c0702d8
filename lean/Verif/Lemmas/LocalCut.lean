/-
Errors in the first lines of a file do not depend on the lines that follow (`LocalFile.lean`).
-/
import Verif.Lemmas.LocalFile
import Verif.Lemmas.ConcatError
import Verif.Lemmas.Cut
import Verif.Lemmas.Message
import Verif.Lemmas.Moves

namespace Viml
open Spec

section
variable {env env' : Env} {fn : Str} {nv : Bool}

theorem opens_cut (κ : Cutter env env' fn) {α : Type} {n : Str} {A A' : List Cell → α → List Cell → Prop} {g : α → α}
    {used used' : List Str} {ea a cm} {r r' : List Cell} (hl : lowB n = true) (hA : Carry.Argument κ.κ A A' g) (i : κ.In r)
    (h : Spec.Opens nv env fn n A used r ea a cm used' r') (usedX : List Str) :
    Spec.Opens nv env' fn n A' usedX (κ.tr r) (ea.onPos κ.κ.m) (g a) (Ast.Stmt.onPosL κ.κ.m cm) usedX (κ.tr r') := by
  have hl' : Low n := by
    rintro c s rfl h
    simp [lowB, h] at hl
  obtain ⟨_, x, h1, h2⟩ := Carry.opens (κ := κ.κ) (U := []) (fun _ h => by cases h) hl' hA i h (Names.refl _).adds
  exact opens_any hl h2 usedX

theorem body_cut (κ : Cutter env env' fn) {cx used r ss used' r'} (i : κ.In r) (i' : κ.In r')
    (h : Body nv env fn cx used r ss used' r') (usedX : List Str) :
    ∃ ssX usedX', Body nv env' fn cx usedX (κ.tr r) ssX usedX' (κ.tr r') := by
  obtain ⟨y, hy, h2⟩ := Carry.body (κ := κ.κ) (U := []) (fun _ h => by cases h) h i.to i'.up
    (fun _ _ _ h => by cases h) (Names.refl _).adds
  exact body_any h2 usedX

/-- Correct lines at the start of the file are correct in the other file. -/
theorem front_cut (κ : Cutter env env' fn) (hs : κ.tr env.buf = env'.buf) {cx b used r} (h : Front nv env fn cx b used r) :
    κ.In r → ∃ usedX, Front nv env' fn cx b usedX (κ.tr r) := by
  have key : ∀ {cx b used} {r r' : List Cell}, Front nv env fn cx b used r → r' <:+ r → κ.In r' → κ.In r :=
    fun h h1 i => Carry.To.inTo κ.start.to (front_suffix h) i h1
  induction h with
  | start => exact fun _ => ⟨[], by rw [hs]; exact .start⟩
  | lines h0 h1 ih =>
    intro i'
    have i := key h0 (body_order h1).suffix i'
    obtain ⟨x, ih⟩ := ih i
    obtain ⟨_, y, h2⟩ := body_cut κ i i' h1 x
    exact ⟨y, .lines ih h2⟩
  | function h0 h1 ih =>
    intro i'
    have i := key h0 (opens_suf (fun h => (funcHead_track h).1.suffix) h1) i'
    obtain ⟨x, ih⟩ := ih i
    exact ⟨x, .function ih (opens_cut κ (by decide) Carry.argFunc i h1 x)⟩
  | while_ h0 h1 ih =>
    intro i'
    have i := key h0 (opens_suf leaves_gram h1) i'
    obtain ⟨x, ih⟩ := ih i
    exact ⟨x, .while_ ih (opens_cut κ (by decide) Carry.argGram i h1 x)⟩
  | for_ h0 h1 ih =>
    intro i'
    have i := key h0 (opens_suf (fun h => by
      cases h with
      | mk a b c d =>
        exact (((leaves_gram d).trans c.adv.suffix).trans b.adv.suffix).trans (leaves_lhs leaves_target a)) h1) i'
    obtain ⟨x, ih⟩ := ih i
    exact ⟨x, .for_ ih (opens_cut κ (by decide) Carry.argFor i h1 x)⟩
  | if_ h0 h1 ih =>
    intro i'
    have i := key h0 (opens_suf leaves_gram h1) i'
    obtain ⟨x, ih⟩ := ih i
    exact ⟨x, .if_ ih (opens_cut κ (by decide) Carry.argGram i h1 x)⟩
  | try_ h0 h1 ih =>
    intro i'
    have i := key h0 (opens_suf leaves_none h1) i'
    obtain ⟨x, ih⟩ := ih i
    exact ⟨x, .try_ ih (opens_cut κ (by decide) Carry.argNone i h1 x)⟩
  | elseif h0 hb h1 ih =>
    intro i'
    have i := key h0 (opens_suf leaves_gram h1) i'
    obtain ⟨x, ih⟩ := ih i
    exact ⟨x, .elseif ih hb (opens_cut κ (by decide) Carry.argGram i h1 x)⟩
  | else_ h0 hb h1 ih =>
    intro i'
    have i := key h0 (opens_suf leaves_none h1) i'
    obtain ⟨x, ih⟩ := ih i
    exact ⟨x, .else_ ih hb (opens_cut κ (by decide) Carry.argNone i h1 x)⟩
  | catch_ h0 hb h1 ih =>
    intro i'
    have i := key h0 (opens_suf leaves_catch h1) i'
    obtain ⟨x, ih⟩ := ih i
    exact ⟨x, .catch_ ih hb (opens_cut κ (by decide) Carry.argCatch i h1 x)⟩
  | finally_ h0 hb h1 ih =>
    intro i'
    have i := key h0 (opens_suf leaves_none h1) i'
    obtain ⟨x, ih⟩ := ih i
    exact ⟨x, .finally_ ih hb (opens_cut κ (by decide) Carry.argNone i h1 x)⟩

theorem fileErr_cut (κ : Cutter env env' fn) (hs : κ.tr env.buf = env'.buf) {m : Str} {q : Pos}
    (h : FileErr nv env fn m q) : FileErr nv env' fn m q ∨ κ.Out q := by
  cases h with
  | line h1 h2 =>
    rcases κ.suf κ.start (front_suffix h1) with i | i
    · obtain ⟨x, h3⟩ := front_cut κ hs h1 i
      exact Or.elim (lineErr_cut κ (Names.refl _) i h2) (fun c => .inl (.line h3 (lineErr_any c x))) .inr
    · exact .inr (lineErr_at i h2)
  | unclosed => exact .inr ⟨[], List.nil_suffix, rfl⟩

end

variable {fn : Str} {nv : Bool} {A B B' : List Str}

/-- The lines `A`, followed by `B` or by `B'`. -/
def cutter (fn : Str) (hA : A ≠ []) (hB : ∀ l, B.head? = some l → afterBackslash l = none)
    (hB' : ∀ l, B'.head? = some l → afterBackslash l = none) (hl : ¬ ∃ m q, LexErr (mkEnv B') (mkEnv B').buf m q) :
    Cutter (mkEnv (A ++ B)) (mkEnv (A ++ B')) fn where
  κ := cut fn A B ((mkEnv B').buf.map (moveCell A B' (mkEnv A).buf.length)) (mkEnv (A ++ B'))
  nbd := id
  f _ := rfl
  start := cut_in fn hA hB _ _
  buf := by rw [cut_tr fn hB, ← mkEnv_append hB']; exact List.suffix_rfl
  lex := by
    rcases lex_total (mkEnv_ok B') (r := (mkEnv B').buf) (List.suffix_refl _) with h | ⟨t, r, h⟩
    · exact absurd h hl
    · have := mv (moverB fn A hB') h
      rw [Mover.map] at this
      exact ⟨_, _, this⟩

theorem out_line (κ : Carry (mkEnv (A ++ B)) (mkEnv (A ++ B')) fn)
    (hq : κ.q0 = (mkEnv B).buf.map (moveCell A B (mkEnv A).buf.length)) {q : Pos}
    (h : At (mkEnv (A ++ B)) κ.q0 q) : A.length < q.lnum := by
  obtain ⟨s, h1, h2⟩ := h
  cases s with
  | nil =>
    have : (mkEnv (A ++ B)).eof.lnum = (A ++ B).length + 1 := rfl
    rw [← h2]
    show A.length < (mkEnv (A ++ B)).eof.lnum
    rw [this, List.length_append]
    omega
  | cons c s =>
    have hc : c ∈ κ.q0 := h1.subset (by simp)
    rw [hq, List.mem_map] at hc
    obtain ⟨d, hd, rfl⟩ := hc
    have := (mkEnv_lnum hd).1
    rw [← h2]
    show A.length < d.pos.lnum + A.length
    omega

theorem at_line {lines : List Str} {T : List Cell} (hT : T <:+ (mkEnv lines).buf) {q : Pos} (h : At (mkEnv lines) T q) :
    0 < q.lnum := by
  obtain ⟨s, h1, h2⟩ := h
  rw [← h2]
  cases s with
  | nil => exact Nat.succ_pos _
  | cons c s => exact (mkEnv_lnum (hT.subset (h1.subset (by simp)))).1

theorem fileErr_line {lines : List Str} {m : Str} {q : Pos} (h : FileErr nv (mkEnv lines) fn m q) : 0 < q.lnum := by
  cases h with
  | line h1 h2 => exact at_line List.suffix_rfl (lineErr_at (front_suffix h1) h2)
  | unclosed => exact Nat.succ_pos _

theorem fileErr_local (hB : ∀ l, B.head? = some l → afterBackslash l = none)
    (hB' : ∀ l, B'.head? = some l → afterBackslash l = none) (hl : ¬ ∃ m q, LexErr (mkEnv B') (mkEnv B').buf m q)
    {m : Str} {q : Pos} (h : FileErr nv (mkEnv (A ++ B)) fn m q) (hq : q.lnum ≤ A.length) :
    FileErr nv (mkEnv (A ++ B')) fn m q := by
  have hA : A ≠ [] := by
    rintro rfl
    have := fileErr_line h
    simp at hq
    omega
  rcases fileErr_cut (cutter fn hA hB hB' hl) (by rw [Cutter.tr, cutter, cut_tr fn hB, mkEnv_append hB']) h with h | h
  · exact h
  · exact absurd (out_line _ rfl h) (by omega)

theorem gErr_local (hB : ∀ l, B.head? = some l → afterBackslash l = none)
    (hB' : ∀ l, B'.head? = some l → afterBackslash l = none) (hl : ¬ ∃ m q, LexErr (mkEnv B') (mkEnv B').buf m q)
    {m : Str} {q : Pos} (h : GErr (mkEnv (A ++ B)) fn 1 (mkEnv (A ++ B)).buf m q) (hq : q.lnum ≤ A.length) :
    GErr (mkEnv (A ++ B')) fn 1 (mkEnv (A ++ B')).buf m q := by
  have hA : A ≠ [] := by
    rintro rfl
    have := at_line List.suffix_rfl (gErr_at List.suffix_rfl h)
    simp at hq
    omega
  rcases ctGErr (cutter fn hA hB hB' hl) h (cutter fn hA hB hB' hl).start with h | h
  · rwa [Cutter.tr, cutter, cut_tr fn hB, ← mkEnv_append hB'] at h
  · exact absurd (out_line _ rfl h) (by omega)

end Viml
