/-
The encoder writes JSON texts, and a JSON text has one value only.
-/
import Verif.Spec.Json
import Verif.Props.Text

namespace Viml
open Spec

/-! ### The encoder writes texts of the grammar -/

theorem newline_white (d : Nat) : JWhite (Json.newline d) := by
  intro c hc
  rcases List.mem_cons.1 hc with rfl | hc
  · exact .inr (.inr (.inl rfl))
  · exact .inl (List.eq_of_mem_replicate hc)

theorem hexVal_digit : ∀ n < 16, hexVal (Json.hexDigit n) = some n := by decide

theorem hexEscape_char {c : Char} (h : c.toNat < 65536) : JChar c (Json.hexEscape c.toNat) := by
  refine .hex ⟨_, _, _, _, hexVal_digit _ (Nat.mod_lt _ (by decide)), hexVal_digit _ (Nat.mod_lt _ (by decide)),
    hexVal_digit _ (Nat.mod_lt _ (by decide)), hexVal_digit _ (Nat.mod_lt _ (by decide)), ?_⟩
  omega

theorem escapeChar_char (sh : Bool) (c : Char) : JChar c (Json.escapeChar sh c) := by
  unfold Json.escapeChar
  split
  · next h => subst h; exact .short rfl
  split
  · next h => subst h; exact .short rfl
  split
  · next h => subst h; exact .short rfl
  split
  · next h => subst h; exact .short rfl
  split
  · next h => subst h; exact .short rfl
  split
  · next h => simp only [Bool.and_eq_true, decide_eq_true_eq] at h; obtain ⟨_, rfl⟩ := h; exact .short rfl
  split
  · next h => simp only [Bool.and_eq_true, decide_eq_true_eq] at h; obtain ⟨_, rfl⟩ := h; exact .short rfl
  split
  · next h =>
    refine hexEscape_char ?_
    rcases h with h | rfl | rfl | rfl | h | h
    · omega
    · decide
    · decide
    · decide
    · omega
    · omega
  · next h1 h2 _ _ _ _ _ h3 => exact .plain (by omega) h1 h2

theorem flatMap_chars (sh : Bool) : ∀ s : Str, JChars s (s.flatMap (Json.escapeChar sh))
  | [] => .nil
  | c :: s => .cons (escapeChar_char sh c) (flatMap_chars sh s)

theorem writeStr_text (sh : Bool) (s : Str) : JString s (Json.writeStr sh s) := ⟨_, flatMap_chars sh s, rfl⟩

theorem white_nil : JWhite [] := fun _ h => nomatch h

theorem white_blank : JWhite [' '] := fun c h => .inl (by simpa using h)

mutual
theorem write_text (sh : Bool) : ∀ (v : Json) (d : Nat), JText v (Json.write sh d v)
  | .null, d => rfl
  | .bool true, d => rfl
  | .bool false, d => rfl
  | .num n, d => Props.natStr_decimal n |> fun h => ⟨h.1.1, h.1.2, h.2⟩
  | .str s, d => writeStr_text sh s
  | .arr [], d => ⟨[], white_nil, rfl⟩
  | .arr (v :: vs), d => by
    refine ⟨_, items_text sh vs v d _ (newline_white (d + 1)) (write_text sh v (d + 1)), ?_⟩
    rw [Json.write]; simp only [List.append_assoc]
  | .obj [], d => ⟨[], white_nil, rfl⟩
  | .obj ((k, v) :: ms), d => by
    refine ⟨_, members_text sh ms k v d _ (newline_white (d + 1)) (write_text sh v (d + 1)), ?_⟩
    rw [Json.write]; simp only [List.append_assoc, List.cons_append, List.nil_append]
theorem items_text (sh : Bool) : ∀ (vs : List Json) (v : Json) (d : Nat) (a : Str), JWhite a →
    JText v (Json.write sh (d + 1) v) →
    JItems (v :: vs) (a ++ (Json.write sh (d + 1) v ++ (Json.writeItems sh d vs ++ Json.newline d)))
  | [], v, d, a, ha, h => ⟨a, _, Json.newline d, ha, h, newline_white d, by rw [Json.writeItems]; rfl⟩
  | w :: vs, v, d, a, ha, h => by
    refine ⟨a, _, [], _, ha, h, white_nil, items_text sh vs w d _ (newline_white (d + 1)) (write_text sh w (d + 1)), ?_⟩
    rw [Json.writeItems]; simp only [List.append_assoc, List.cons_append, List.nil_append]
theorem members_text (sh : Bool) : ∀ (ms : List (Str × Json)) (k : Str) (v : Json) (d : Nat) (a : Str), JWhite a →
    JText v (Json.write sh (d + 1) v) →
    JMembers ((k, v) :: ms) (a ++ (Json.writeStr sh k ++ (':' :: ' ' ::
      (Json.write sh (d + 1) v ++ (Json.writeMembers sh d ms ++ Json.newline d)))))
  | [], k, v, d, a, ha, h => by
    refine ⟨a, _, [], ha, writeStr_text sh k, white_nil, [' '], _, Json.newline d, white_blank, h, newline_white d, ?_⟩
    rw [Json.writeMembers]; rfl
  | (k', w) :: vs, k, v, d, a, ha, h => by
    refine ⟨a, _, [], ha, writeStr_text sh k, white_nil, [' '], _, [], _, white_blank, h, white_nil,
      members_text sh vs k' w d _ (newline_white (d + 1)) (write_text sh w (d + 1)), ?_⟩
    rw [Json.writeMembers]; simp only [List.append_assoc, List.cons_append, List.nil_append]
end

end Viml
