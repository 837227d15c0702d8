/-
Characters of JSON output.
-/
import Verif.Spec.Json
import Verif.Lemmas.Json
import Verif.Props.Text

namespace Viml
open Spec

theorem safe_hexDigit : ∀ n < 16, JSafe (Json.hexDigit n) := by decide

theorem safe_hexEscape (n : Nat) : ∀ c ∈ Json.hexEscape n, JSafe c := by
  intro c h
  simp only [Json.hexEscape, List.mem_cons, List.not_mem_nil, or_false] at h
  rcases h with rfl | rfl | rfl | rfl | rfl | rfl
  · decide
  · decide
  all_goals exact safe_hexDigit _ (Nat.mod_lt _ (by decide))

theorem safe_escapeChar (sh : Bool) (c : Char) : ∀ x ∈ Json.escapeChar sh c, JSafe x ∧ x ≠ '\n' := by
  have hx : ∀ n, '\n' ∉ Json.hexEscape n := by
    intro n h
    have hd : ∀ n < 16, '\n' ≠ Json.hexDigit n := by decide
    simp only [Json.hexEscape, List.mem_cons, List.not_mem_nil, or_false] at h
    rcases h with h | h | h | h | h | h
    · cases h
    · cases h
    all_goals exact absurd h (hd _ (Nat.mod_lt _ (by decide)))
  unfold Json.escapeChar
  repeat' split
  iterate 7 decide
  · intro x hm; exact ⟨safe_hexEscape _ x hm, fun h => hx _ (h ▸ hm)⟩
  · rename_i h2 h3 h4 h5 h6 h7 h8 h
    intro x hx
    obtain rfl := List.mem_singleton.1 hx
    simp only [not_or, Nat.not_lt] at h
    refine ⟨.inr ⟨h.1, ?_, h.2.2.2.2.1, h.2.2.2.2.2⟩, h4⟩
    simp only [List.mem_cons, List.not_mem_nil, or_false, not_or]
    exact ⟨h.2.1, h.2.2.1, h.2.2.2.1⟩

theorem safe_append {a b : Str} (ha : ∀ c ∈ a, JSafe c) (hb : ∀ c ∈ b, JSafe c) : ∀ c ∈ a ++ b, JSafe c := by
  intro c h
  rcases List.mem_append.1 h with h | h
  · exact ha c h
  · exact hb c h

theorem safe_cons {x : Char} {b : Str} (hx : JSafe x) (hb : ∀ c ∈ b, JSafe c) : ∀ c ∈ x :: b, JSafe c := by
  intro c h
  rcases List.mem_cons.1 h with rfl | h
  · exact hx
  · exact hb c h

theorem safe_writeStr (sh : Bool) (s : Str) : ∀ c ∈ Json.writeStr sh s, JSafe c := by
  refine safe_cons (by decide) (safe_append (fun c h => ?_) (by decide))
  obtain ⟨x, _, hc⟩ := List.mem_flatMap.1 h
  exact (safe_escapeChar sh x c hc).1

theorem safe_newline (d : Nat) : ∀ c ∈ Json.newline d, JSafe c := by
  refine safe_cons (by decide) (fun c h => ?_)
  obtain ⟨_, rfl⟩ := List.mem_replicate.1 h
  decide

theorem safe_natStr (n : Nat) : ∀ c ∈ natStr n, JSafe c := by
  intro c h
  have hd : isdigit c = true := (Props.natStr_decimal n).1.2 c h
  simp only [isdigit, Bool.and_eq_true, decide_eq_true_eq] at hd
  have h1 : 48 ≤ c.toNat := hd.1
  have h2 : c.toNat ≤ 57 := hd.2
  refine .inr ⟨by omega, ?_, by omega, by omega⟩
  intro hm
  simp only [List.mem_cons, List.not_mem_nil, or_false] at hm
  rcases hm with rfl | rfl | rfl <;> revert h1 h2 <;> decide

mutual
theorem safe_write (sh : Bool) : ∀ (v : Json) (d : Nat), ∀ c ∈ Json.write sh d v, JSafe c
  | .null, d => by rw [Json.write]; decide
  | .bool true, d => by rw [Json.write]; decide
  | .bool false, d => by rw [Json.write]; decide
  | .num n, d => by rw [Json.write]; exact safe_natStr n
  | .str s, d => by rw [Json.write]; exact safe_writeStr sh s
  | .arr [], d => by rw [Json.write]; decide
  | .arr (v :: vs), d => by
    rw [Json.write]
    exact safe_cons (by decide) (safe_append (safe_append (safe_append (safe_append (safe_newline _)
      (safe_write sh v _)) (safe_items sh vs _)) (safe_newline _)) (by decide))
  | .obj [], d => by rw [Json.write]; decide
  | .obj ((k, v) :: ms), d => by
    rw [Json.write]
    exact safe_cons (by decide) (safe_append (safe_append (safe_append (safe_append (safe_append (safe_append
      (safe_newline _) (safe_writeStr sh k)) (by decide)) (safe_write sh v _)) (safe_members sh ms _)) (safe_newline _))
      (by decide))
theorem safe_items (sh : Bool) : ∀ (vs : List Json) (d : Nat), ∀ c ∈ Json.writeItems sh d vs, JSafe c
  | [], d => by rw [Json.writeItems]; decide
  | v :: vs, d => by
    rw [Json.writeItems]
    exact safe_cons (by decide) (safe_append (safe_append (safe_newline _) (safe_write sh v _)) (safe_items sh vs _))
theorem safe_members (sh : Bool) : ∀ (ms : List (Str × Json)) (d : Nat), ∀ c ∈ Json.writeMembers sh d ms, JSafe c
  | [], d => by rw [Json.writeMembers]; decide
  | (k, v) :: ms, d => by
    rw [Json.writeMembers]
    exact safe_cons (by decide) (safe_append (safe_append (safe_append (safe_append (safe_newline _)
      (safe_writeStr sh k)) (by decide)) (safe_write sh v _)) (safe_members sh ms _))
end

end Viml
