/-
The places between commands in a run of the parser: one comes after the other.
-/
import Verif.Lemmas.FileErrTop
import Verif.Lemmas.NumLine

namespace Viml
open Prog Spec Props

variable {nv : Bool} {fn : Str} {lines : List Str} {st st' st1 st2 : PState} {r r' r1 r2 q : List Cell}

/-- Commands from one place to the other. -/
inductive Later (lines : List Str) (st : PState) (r : List Cell) : PState → List Cell → Prop
  | refl : Later lines st r st r
  | next {st1 st2 : PState} {r1 r2 : List Cell} : Later lines st r st1 r1 → r1 ≠ [] → (parseOneCmd st1).run (mkEnv lines) r1 = .ok st2 r2 →
      Later lines st r st2 r2

theorem Later.reach (h : Reach nv lines st r) (h1 : Later lines st r st1 r1) : Reach nv lines st1 r1 := by
  induction h1 with
  | refl => exact h
  | next _ hne h2 ih => exact .next ih hne h2

theorem step_length (h : Reach nv lines st r) (hne : r ≠ []) (h1 : (parseOneCmd st).run (mkEnv lines) r = .ok st1 r1) :
    r1.length < r.length ∧ r1 <:+ r := by
  obtain ⟨ho, hs⟩ := h.ok
  have hw := wp_run (parseOneCmd_spec (mkEnv_ok lines) (good_closed (fn := []) (mkEnv_ok lines)) hs hne ho) h1
  exact ⟨hw.lt, hw.suffix⟩

theorem Later.suffix (h : Reach nv lines st r) (h1 : Later lines st r st1 r1) : r1 <:+ r := by
  induction h1 with
  | refl => exact List.suffix_rfl
  | next h2 hne h3 ih => exact (step_length (h2.reach h) hne h3).2.trans ih

theorem Later.head (h : (parseOneCmd st).run (mkEnv lines) r = .ok st1 r1) (hne : r ≠ []) (h1 : Later lines st1 r1 st2 r2) :
    Later lines st r st2 r2 := by
  induction h1 with
  | refl => exact .next .refl hne h
  | next _ h2 h3 ih => exact .next ih h2 h3

/-- The first step. -/
theorem Later.split (h : Later lines st r st2 r2) : (st = st2 ∧ r = r2) ∨
    ∃ st1 r1, r ≠ [] ∧ (parseOneCmd st).run (mkEnv lines) r = .ok st1 r1 ∧ Later lines st1 r1 st2 r2 := by
  induction h with
  | refl => exact .inl ⟨rfl, rfl⟩
  | next _ hne h1 ih =>
    rcases ih with ⟨rfl, rfl⟩ | ⟨st3, r3, h2, h3, h4⟩
    · exact .inr ⟨_, _, hne, h1, .refl⟩
    · exact .inr ⟨st3, r3, h2, h3, .next h4 hne h1⟩

/-- Of two places one comes after the other. -/
theorem reach_chain (h1 : Reach nv lines st1 r1) (h2 : Reach nv lines st2 r2) :
    Later lines st1 r1 st2 r2 ∨ Later lines st2 r2 st1 r1 := by
  induction h1 with
  | start =>
    left

    induction h2 with
    | start => exact .refl
    | next _ hne h ih => exact .next ih hne h
  | next h hne h3 ih =>
    rcases ih with h4 | h4
    · rcases h4.split with ⟨rfl, rfl⟩ | ⟨st5, r5, _, h5, h6⟩
      · exact .inr (.next .refl hne h3)
      · rw [h3] at h5
        cases h5
        exact .inl h6
    · exact .inr (.next h4 hne h3)

/-- No place between two commands is inside a command. -/
theorem reach_between (h : Reach nv lines st r) (hne : r ≠ []) (h1 : (parseOneCmd st).run (mkEnv lines) r = .ok st1 r1)
    (h2 : Reach nv lines st2 q) (hl : q.length < r.length) : q <:+ r1 := by
  rcases reach_chain h h2 with h3 | h3
  · rcases h3.split with ⟨rfl, rfl⟩ | ⟨st5, r5, _, h5, h6⟩
    · omega
    · rw [h1] at h5
      cases h5
      exact h6.suffix (.next h hne h1)
  · have := (h3.suffix h2).length_le
    omega

/-- No place is after a command that fails. -/
theorem reach_not_after {e : Fail} (h : Reach nv lines st r) (h1 : (parseOneCmd st).run (mkEnv lines) r = .fail e)
    (h2 : Reach nv lines st2 q) : r <:+ q := by
  rcases reach_chain h h2 with h3 | h3
  · rcases h3.split with ⟨rfl, rfl⟩ | ⟨st5, r5, _, h5, h6⟩
    · exact List.suffix_rfl
    · rw [h1] at h5
      cases h5
  · exact h3.suffix h2

/-! ### Places in front of which the lines are correct -/

variable {cx cx1 cx2 : Ctx} {b b1 b2 : Option Inner} {used used1 used2 used' : List Str}

/-- A statement does not reach behind the next such place. -/
theorem front_simple {r0 ra r2 r3 : List Cell} {ea c xs cm} (h : Front nv (mkEnv lines) fn cx b used r)
    (h1 : CmdHead nv (mkEnv lines) fn used r r0 ea c ra r2 used') (h2 : Spec.Simple (mkEnv lines) fn cx r0 ra ea c r2 xs r3)
    (h3 : Trail (mkEnv lines) fn r3 cm r') (hq : Front nv (mkEnv lines) fn cx1 b1 used1 q) (hl : q.length < r.length) : q <:+ r' := by
  obtain ⟨f, fs, ⟨cache, g1, g2⟩, rfl, rfl⟩ := front_run h
  obtain ⟨f1, fs1, ⟨cache1, _, g3⟩, _, _⟩ := front_run hq
  have hne : r ≠ [] := by
    rintro rfl
    simp at hl
  obtain ⟨cache', ea', k1, rfl, k3, k4, k5, k6, k7, k8⟩ := head_complete (mkEnv_ok lines) g2.ok.2 g1 h1
  have hne0 : r0 ≠ [] := by
    obtain ⟨ms, rg, rc, q1, b, q2, hb, _⟩ := h1.ex
    exact fun h => hb.2.2.1 (by rw [h]; exact .inr rfl)
  have ha : HandlerAt (mkEnv lines) ea' r0 ra r2 := ⟨k3, k5, hne0, k6, k6.trans k7⟩
  obtain ⟨ws, k9, k10⟩ := simple_complete (st := ⟨nv, f, fs, cache'⟩) (mkEnv_ok lines) ha k4 h2
  obtain ⟨us, k11, k12⟩ := trail_complete h3
  exact reach_between g2 hne (k8 _ rfl rfl _ _ _ _ k10 (k12 _)) g3 hl

/-- No such place comes after a wrong line. -/
theorem front_lineErr {m : Str} {p : Pos} (h : Front nv (mkEnv lines) fn cx b used r)
    (h1 : LineErr nv (mkEnv lines) fn cx b used r m p) (hq : Front nv (mkEnv lines) fn cx1 b1 used1 q) : r <:+ q := by
  obtain ⟨f, fs, ⟨cache, hc, hr⟩, rfl, rfl⟩ := front_run h
  obtain ⟨f1, fs1, ⟨cache1, _, g3⟩, _, _⟩ := front_run hq
  obtain ⟨ho, hs⟩ := hr.ok
  exact reach_not_after hr (line_bad_complete (st := ⟨nv, f, fs, cache⟩) (mkEnv_ok lines) (mkEnv_apart lines) hs ho hc h1) g3

theorem front_lineNum (h : Front nv (mkEnv lines) fn cx b used r) (h1 : LineNum nv (mkEnv lines) fn used r)
    (hq : Front nv (mkEnv lines) fn cx1 b1 used1 q) : r <:+ q := by
  obtain ⟨f, fs, ⟨cache, hc, hr⟩, rfl, rfl⟩ := front_run h
  obtain ⟨f1, fs1, ⟨cache1, _, g3⟩, _, _⟩ := front_run hq
  obtain ⟨ho, hs⟩ := hr.ok
  exact reach_not_after hr ((line_num (st := ⟨nv, f, fs, cache⟩) (mkEnv_ok lines) hs hc).2 h1) g3

end Viml
