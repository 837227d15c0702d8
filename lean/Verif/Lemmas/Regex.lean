/-
How expressions match, read from left to right.
-/
import Verif.Model.Pattern

namespace Viml.Spec.Re

/-- At the place between `p` and `x` the expression matches, and `K` holds of the place behind. -/
def At (r : Re) (p x : Str) (K : Str → Str → Prop) : Prop := ∃ m q, x = m ++ q ∧ r.M p m q ∧ K (p ++ m) q

variable {p x : Str} {K : Str → Str → Prop} {a b : Re}

theorem at_eps : At .eps p x K ↔ K p x := by
  constructor
  · rintro ⟨m, q, rfl, rfl, h⟩
    simpa using h
  · exact fun h => ⟨[], x, rfl, rfl, by simpa using h⟩

theorem at_seq : At (.seq a b) p x K ↔ At a p x fun p x => At b p x K := by
  constructor
  · rintro ⟨_, q, rfl, ⟨m1, m2, rfl, h1, h2⟩, h⟩
    exact ⟨m1, m2 ++ q, by simp, h1, m2, q, rfl, h2, by simpa using h⟩
  · rintro ⟨m1, _, rfl, h1, m2, q, rfl, h2, h⟩
    exact ⟨m1 ++ m2, q, by simp, ⟨m1, m2, rfl, h1, h2⟩, by simpa using h⟩

theorem at_alt : At (.alt a b) p x K ↔ At a p x K ∨ At b p x K := by
  constructor
  · rintro ⟨m, q, e, h1 | h1, h⟩
    · exact .inl ⟨m, q, e, h1, h⟩
    · exact .inr ⟨m, q, e, h1, h⟩
  · rintro (⟨m, q, e, h1, h⟩ | ⟨m, q, e, h1, h⟩)
    · exact ⟨m, q, e, .inl h1, h⟩
    · exact ⟨m, q, e, .inr h1, h⟩

theorem at_opt : At (.opt a) p x K ↔ K p x ∨ At a p x K := by
  constructor
  · rintro ⟨m, q, rfl, rfl | h1, h⟩
    · exact .inl (by simpa using h)
    · exact .inr ⟨m, q, rfl, h1, h⟩
  · rintro (h | ⟨m, q, e, h1, h⟩)
    · exact ⟨[], x, rfl, .inl rfl, by simpa using h⟩
    · exact ⟨m, q, e, .inr h1, h⟩

theorem at_start : At .start p x K ↔ p = [] ∧ K p x := by
  constructor
  · rintro ⟨m, q, rfl, ⟨rfl, rfl⟩, h⟩
    exact ⟨rfl, h⟩
  · rintro ⟨rfl, h⟩
    exact ⟨[], x, rfl, ⟨rfl, rfl⟩, by simpa using h⟩

theorem at_stop : At .stop p x K ↔ x = [] ∧ K p x := by
  constructor
  · rintro ⟨m, q, rfl, ⟨rfl, rfl⟩, h⟩
    exact ⟨rfl, by simpa using h⟩
  · rintro ⟨rfl, h⟩
    exact ⟨[], [], rfl, ⟨rfl, rfl⟩, by simpa using h⟩

theorem at_edge : At .edge p x K ↔ lastW p ≠ headW x ∧ K p x := by
  constructor
  · rintro ⟨m, q, rfl, ⟨rfl, h1⟩, h⟩
    exact ⟨by simpa using h1, by simpa using h⟩
  · rintro ⟨h1, h⟩
    exact ⟨[], x, rfl, ⟨rfl, by simpa using h1⟩, by simpa using h⟩

theorem at_set_nil {n : Bool} {rs} : ¬ At (.set n rs) p [] K := by
  rintro ⟨_, q, e, ⟨c, rfl, _⟩, _⟩
  cases e

theorem at_set {n : Bool} {rs} {c : Char} : At (.set n rs) p (c :: x) K ↔ within c rs = !n ∧ K (p ++ [c]) x := by
  constructor
  · rintro ⟨_, q, e, ⟨c, rfl, h1⟩, h⟩
    cases e
    exact ⟨h1, h⟩
  · rintro ⟨h1, h⟩
    exact ⟨[c], x, rfl, ⟨c, rfl, h1⟩, h⟩

theorem at_any_nil : ¬ At .any p [] K := by
  rintro ⟨_, q, e, ⟨c, rfl, _⟩, _⟩
  cases e

theorem at_any {c : Char} : At .any p (c :: x) K ↔ c ≠ '\n' ∧ K (p ++ [c]) x := by
  constructor
  · rintro ⟨_, q, e, ⟨c, rfl, h1⟩, h⟩
    cases e
    exact ⟨h1, h⟩
  · rintro ⟨h1, h⟩
    exact ⟨[c], x, rfl, ⟨c, rfl, h1⟩, h⟩

theorem at_star : At (.star a) p x K ↔ K p x ∨ At a p x fun p x => At (.star a) p x K := by
  constructor
  · rintro ⟨m, q, rfl, h1, h⟩
    cases h1 with
    | nil => exact .inl (by simpa using h)
    | @cons _ m1 m2 _ h2 h3 => exact .inr ⟨m1, m2 ++ q, by simp, h2, m2, q, rfl, h3, by simpa using h⟩
  · rintro (h | ⟨m1, _, rfl, h2, m2, q, rfl, h3, h⟩)
    · exact ⟨[], x, rfl, .nil, by simpa using h⟩
    · exact ⟨m1 ++ m2, q, by simp, .cons h2 h3, by simpa using h⟩

theorem search_iff {r : Re} {s : Str} : r.Search s ↔ ∃ p x, s = p ++ x ∧ At r p x fun _ _ => True := by
  constructor
  · rintro ⟨p, m, q, rfl, h⟩
    exact ⟨p, m ++ q, by simp, m, q, rfl, h, trivial⟩
  · rintro ⟨p, _, rfl, m, q, rfl, h, _⟩
    exact ⟨p, m, q, by simp, h⟩

theorem search_start {s : Str} : (Re.seq .start a).Search s ↔ At a [] s fun _ _ => True := by
  rw [search_iff]
  constructor
  · rintro ⟨p, x, rfl, h⟩
    rw [at_seq, at_start] at h
    obtain ⟨rfl, h⟩ := h
    exact h
  · intro h
    exact ⟨[], s, rfl, by rw [at_seq, at_start]; exact ⟨rfl, h⟩⟩

/-- One character of a set, any number of times, and then the end. -/
theorem at_star_set {n : Bool} {rs} : ∀ {p x : Str}, At (.star (.set n rs)) p x (fun _ x => x = []) ↔ ∀ c ∈ x, within c rs = !n
  | p, [] => by
    rw [at_star]
    simp
  | p, c :: x => by
    rw [at_star, at_set, at_star_set]
    simp

theorem search_alt {s : Str} : (Re.alt a b).Search s ↔ a.Search s ∨ b.Search s := by
  simp only [search_iff, at_alt]
  constructor
  · rintro ⟨p, x, e, h | h⟩
    · exact .inl ⟨p, x, e, h⟩
    · exact .inr ⟨p, x, e, h⟩
  · rintro (⟨p, x, e, h⟩ | ⟨p, x, e, h⟩)
    · exact ⟨p, x, e, .inl h⟩
    · exact ⟨p, x, e, .inr h⟩

/-- The text, and then `r`. -/
def lits : Str → Re → Re
  | [], r => r
  | c :: s, r => .seq (.set false [(c, c)]) (lits s r)

theorem within_self (c d : Char) : within c [(d, d)] = true ↔ c = d := by
  simp only [within, List.any_cons, List.any_nil, Bool.or_false, Bool.and_eq_true, decide_eq_true_eq]
  constructor
  · intro h
    exact Char.toNat_inj.1 (Nat.le_antisymm h.2 h.1)
  · rintro rfl
    simp

theorem at_lits {r : Re} : ∀ {s p x : Str}, At (lits s r) p x K ↔ ∃ y, x = s ++ y ∧ At r (p ++ s) y K
  | [], p, x => by simp [lits]
  | c :: s, p, x => by
    rw [lits, at_seq]
    cases x with
    | nil => simp [at_set_nil]
    | cons d x =>
      rw [at_set, at_lits]
      simp only [Bool.not_false, within_self, List.cons_append, List.cons.injEq]
      constructor
      · rintro ⟨rfl, y, rfl, h⟩
        exact ⟨y, ⟨rfl, rfl⟩, by simpa using h⟩
      · rintro ⟨y, ⟨rfl, rfl⟩, h⟩
        exact ⟨rfl, y, rfl, by simpa using h⟩

end Viml.Spec.Re

namespace Viml
open Spec

theorem eqregh_iff {s reg : Str} {r : Re} (h : (patVim2Go.lookup reg).bind Re.parse = some r) : Eqregh s reg ↔ r.Search s := by
  constructor
  · rintro ⟨g, r', h1, h2, h3⟩
    rw [h1, Option.bind_some, h2] at h
    cases h
    exact h3
  · intro h3
    cases h1 : patVim2Go.lookup reg with
    | none => rw [h1] at h; cases h
    | some g =>
      rw [h1] at h
      exact ⟨g, r, h1, h, h3⟩

end Viml
