/-
The errors of a file behind another file (`MoverFile.lean`).
-/
import Verif.Lemmas.AnyNames
import Verif.Lemmas.Concat

namespace Viml
open Spec

section
variable {env env' : Env} {fn : Str} {nv : Bool}

theorem Names.refl (used : List Str) : Names used used := fun _ => Iff.rfl

/-- A block that is opened. -/
theorem opens_mv (μ : Mover env env' fn) {α : Type} {n : Str} {A A' : List Cell → α → List Cell → Prop} {g : α → α}
    {used used' : List Str} {ea a cm} {r r' : List Cell} (hl : lowB n = true) (hA : Carry.Argument μ.κ A A' g)
    (h : Spec.Opens nv env fn n A used r ea a cm used' r') (usedX : List Str) :
    Spec.Opens nv env' fn n A' usedX (μ.tr r) (ea.onPos μ.κ.m) (g a) (Ast.Stmt.onPosL μ.κ.m cm) usedX (μ.tr r') := by
  have hl' : Low n := by
    rintro c s rfl h
    simp [lowB, h] at hl
  obtain ⟨_, x, h1, h2⟩ := Carry.opens (κ := μ.κ) (U := []) (fun _ h => by cases h) hl' hA (μ.all r) h (Names.refl _).adds
  exact opens_any hl h2 usedX

/-- Correct statements behind other correct lines. -/
theorem body_mv (μ : Mover env env' fn) {cx used r ss used' r'} (h : Body nv env fn cx used r ss used' r')
    (usedX : List Str) : ∃ ssX usedX', Body nv env' fn cx usedX (μ.tr r) ssX usedX' (μ.tr r') := by
  obtain ⟨y, hy, h2⟩ := Carry.body (κ := μ.κ) (U := []) (fun _ h => by cases h) h (μ.all _).to (μ.all _).up
    (fun _ _ _ h => by cases h) (Names.refl _).adds
  exact body_any h2 usedX

/-- Correct lines behind other correct lines. -/
theorem front_mv (μ : Mover env env' fn) {used0 : List Str}
    (hs : Front nv env' fn { top := true } none used0 (μ.tr env.buf)) {cx b used r} (h : Front nv env fn cx b used r) :
    ∃ usedX, Front nv env' fn cx b usedX (μ.tr r) := by
  induction h with
  | start => exact ⟨used0, hs⟩
  | lines _ h1 ih =>
    obtain ⟨x, ih⟩ := ih
    obtain ⟨_, y, h2⟩ := body_mv μ h1 x
    exact ⟨y, .lines ih h2⟩
  | function _ h1 ih =>
    obtain ⟨x, ih⟩ := ih
    exact ⟨x, .function ih (opens_mv μ (by decide) Carry.argFunc h1 x)⟩
  | while_ _ h1 ih =>
    obtain ⟨x, ih⟩ := ih
    exact ⟨x, .while_ ih (opens_mv μ (by decide) Carry.argGram h1 x)⟩
  | for_ _ h1 ih =>
    obtain ⟨x, ih⟩ := ih
    exact ⟨x, .for_ ih (opens_mv μ (by decide) Carry.argFor h1 x)⟩
  | if_ _ h1 ih =>
    obtain ⟨x, ih⟩ := ih
    exact ⟨x, .if_ ih (opens_mv μ (by decide) Carry.argGram h1 x)⟩
  | try_ _ h1 ih =>
    obtain ⟨x, ih⟩ := ih
    exact ⟨x, .try_ ih (opens_mv μ (by decide) Carry.argNone h1 x)⟩
  | elseif _ hb h1 ih =>
    obtain ⟨x, ih⟩ := ih
    exact ⟨x, .elseif ih hb (opens_mv μ (by decide) Carry.argGram h1 x)⟩
  | else_ _ hb h1 ih =>
    obtain ⟨x, ih⟩ := ih
    exact ⟨x, .else_ ih hb (opens_mv μ (by decide) Carry.argNone h1 x)⟩
  | catch_ _ hb h1 ih =>
    obtain ⟨x, ih⟩ := ih
    exact ⟨x, .catch_ ih hb (opens_mv μ (by decide) Carry.argCatch h1 x)⟩
  | finally_ _ hb h1 ih =>
    obtain ⟨x, ih⟩ := ih
    exact ⟨x, .finally_ ih hb (opens_mv μ (by decide) Carry.argNone h1 x)⟩

end

variable {nv : Bool} {fn : Str} {A B : List Str}

theorem moverB_eof (A : List Str) (h : ∀ l, B.head? = some l → afterBackslash l = none) :
    (mkEnv (A ++ B)).eof = (moveCell A B (mkEnv A).buf.length ⟨none, (mkEnv B).eof⟩).pos := by
  have h1 := pub_move_eof (A := A) (B := B) []
  have h2 : (mkEnv (A ++ B)).buf.length = (mkEnv B).buf.length + (mkEnv A).buf.length := by
    rw [mkEnv_append h, List.length_append, List.length_map, Nat.add_comm]
  simp only [pubPos, shift, Ast.Pos.mk.injEq] at h1
  rw [show (mkEnv (A ++ B)).eof = ⟨(mkEnv (A ++ B)).buf.length, (mkEnv (A ++ B)).eof.lnum, (mkEnv (A ++ B)).eof.col,
    (mkEnv (A ++ B)).eof.offset⟩ from rfl]
  rw [h2, h1.1, h1.2.1, h1.2.2.1]
  rfl

/-- The place of a file `B` behind the file `A`. -/
def moverB (fn : Str) (A : List Str) (h : ∀ l, B.head? = some l → afterBackslash l = none) :
    Mover (mkEnv B) (mkEnv (A ++ B)) fn where
  κ := carryB fn A B
  bd := trivial
  mp p := (moveCell A B (mkEnv A).buf.length ⟨none, p⟩).pos
  pos _ := rfl
  eof := moverB_eof A h
  buf r hr := by
    refine ⟨(carryB fn A B).tr r, ?_, Carry.here (Carry.bd_in (κ := carryB fn A B) trivial r), ?_⟩
    · have e : (carryB fn A B).tr r = r.map (moveCell A B (mkEnv A).buf.length) := by simp [Carry.tr, carryB]
      rw [mkEnv_append h, e]
      exact (hr.map _).trans ⟨_, rfl⟩
    · cases r with
      | nil => rw [Carry.tr_nil trivial]; exact moverB_eof A h
      | cons c r => rw [Carry.tr_cons (Carry.bd_in (κ := carryB fn A B) trivial r).to]; rfl

/-- The lines of `A` before those of `B`. -/
theorem front_of {f : Ast.File} (hA : Complete nv fn A f) (h : ∀ l, B.head? = some l → afterBackslash l = none) :
    ∃ used0, Body nv (mkEnv (A ++ B)) fn { top := true } [] (mkEnv (A ++ B)).buf f.body used0
      ((moverB fn A h).tr (mkEnv B).buf) := by
  obtain ⟨hs, used, hu, hb⟩ := complete_body hA
  obtain ⟨used1, hu1, h1⟩ := hb ((mkEnv B).buf.map (moveCell A B (mkEnv A).buf.length)) (mkEnv (A ++ B))
  rw [← mkEnv_append h] at h1
  rw [Mover.map]
  exact ⟨_, h1⟩

theorem fileErr_append {f : Ast.File} (hA : Complete nv fn A f) (h : ∀ l, B.head? = some l → afterBackslash l = none)
    {m : Str} {q : Pos} (hB : FileErr nv (mkEnv B) fn m q) : FileErr nv (mkEnv (A ++ B)) fn m ((moverB fn A h).mp q) := by
  obtain ⟨used0, hs⟩ := front_of hA h
  cases hB with
  | line h1 h2 =>
    obtain ⟨x, h3⟩ := front_mv _ (.lines .start hs) h1
    exact .line h3 (lineErr_any (lineErr_mv _ (Names.refl _) h2) x)
  | unclosed h1 h2 =>
    obtain ⟨x, h3⟩ := front_mv _ (.lines .start hs) h1
    rw [Mover.nil] at h3
    rw [← Mover.eof]
    exact .unclosed h3 h2

theorem numErr_append {f : Ast.File} (hA : Complete nv fn A f) (h : ∀ l, B.head? = some l → afterBackslash l = none)
    (hB : NumErr nv (mkEnv B) fn) : NumErr nv (mkEnv (A ++ B)) fn := by
  obtain ⟨used0, hs⟩ := front_of hA h
  cases hB with
  | line h1 h2 =>
    obtain ⟨x, h3⟩ := front_mv _ (.lines .start hs) h1
    exact .line h3 (lineNum_any (lineNum_mv _ (Names.refl _) h2) x)

theorem script_any {f g : Ast.File} (hA : Complete nv fn A f) (h : ∀ l, B.head? = some l → afterBackslash l = none)
    (hB : Script nv (mkEnv B) fn g) : ∃ ss p, Script nv (mkEnv (A ++ B)) fn ⟨p, f.body ++ ss⟩ := by
  obtain ⟨used0, hs⟩ := front_of hA h
  obtain ⟨used, h1, _⟩ := hB
  obtain ⟨ss, y, h2⟩ := body_mv (moverB fn A h) h1 used0
  rw [Mover.nil] at h2
  exact ⟨ss, _, y, Body.append hs h2, rfl⟩

end Viml
