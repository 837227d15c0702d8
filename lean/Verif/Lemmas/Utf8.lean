/-
Lemmas about UTF-8 decoding.
-/
import Verif.Model.Input

namespace Viml

theorem charOfNat_eq {c : Char} {n : Nat} (h : n = c.toNat) : Char.ofNat n = c := by
  subst h; exact Char.ofNat_toNat c

theorem u8 (n : Nat) (h : n < 256) : (UInt8.ofNat n).toNat = n := by
  simp [Nat.mod_eq_of_lt h]

/-- Decoding undoes encoding, for one character. -/
theorem decodeRune_encode (c : Char) (rest : List UInt8) :
    ∃ b bs, String.utf8EncodeChar c ++ rest = b :: (bs ++ rest) ∧
      decodeRune b (bs ++ rest) = (c, c.utf8Size) ∧ bs.length + 1 = c.utf8Size := by
  have hv : c.val.toNat = c.toNat := rfl
  have hvalid : c.toNat < 0xd800 ∨ (0xdfff < c.toNat ∧ c.toNat < 0x110000) := c.valid
  have hs : c.utf8Size = (String.utf8EncodeChar c).length := (String.length_utf8EncodeChar c).symm
  rw [hs]
  generalize hn : c.toNat = v at *
  unfold String.utf8EncodeChar
  simp only [hv]
  by_cases h1 : v ≤ 0x7f
  · rw [if_pos h1]
    refine ⟨_, [], rfl, ?_, rfl⟩
    have : v < 0x80 := by omega
    simp only [decodeRune, u8 v (by omega), if_pos this, charOfNat_eq hn.symm, List.length_singleton]
  rw [if_neg h1]
  by_cases h2 : v ≤ 0x7ff
  · rw [if_pos h2]
    refine ⟨_, [_], rfl, ?_, rfl⟩
    have e0 := u8 (v / 64 % 0x20 + 0xc0) (by omega)
    have e1 := u8 (v % 0x40 + 0x80) (by omega)
    rw [decodeRune.eq_def, e0, if_neg (by omega)]
    simp only [List.cons_append, List.nil_append, inRange, isContByte, e0, e1]
    rw [if_pos (by simp; omega)]
    rw [charOfNat_eq (c := c) (by omega)]; rfl
  rw [if_neg h2]
  by_cases h3 : v ≤ 0xffff
  · rw [if_pos h3]
    refine ⟨_, [_, _], rfl, ?_, rfl⟩
    have e0 := u8 (v / 4096 % 0x10 + 0xe0) (by omega)
    have e1 := u8 (v / 64 % 0x40 + 0x80) (by omega)
    have e2 := u8 (v % 0x40 + 0x80) (by omega)
    rw [decodeRune.eq_def, e0, if_neg (by omega)]
    simp only [List.cons_append, List.nil_append, inRange, isContByte, e0, e1, e2]
    rw [if_neg (by simp), if_pos]
    · rw [charOfNat_eq (c := c) (by omega)]; rfl
    · simp only [Bool.and_eq_true, Bool.or_eq_true, decide_eq_true_eq]; omega
  rw [if_neg h3]
  refine ⟨_, [_, _, _], rfl, ?_, rfl⟩
  have e0 := u8 (v / 262144 % 0x08 + 0xf0) (by omega)
  have e1 := u8 (v / 4096 % 0x40 + 0x80) (by omega)
  have e2 := u8 (v / 64 % 0x40 + 0x80) (by omega)
  have e3 := u8 (v % 0x40 + 0x80) (by omega)
  rw [decodeRune.eq_def, e0, if_neg (by omega)]
  simp only [List.cons_append, List.nil_append, inRange, isContByte, e0, e1, e2, e3]
  rw [if_neg (by simp), if_neg, if_pos]
  · rw [charOfNat_eq (c := c) (by omega)]; rfl
  · simp only [Bool.and_eq_true, Bool.or_eq_true, decide_eq_true_eq]; omega
  · simp only [Bool.and_eq_true, Bool.or_eq_true, decide_eq_true_eq]; omega

theorem decodeGo_skip (k : Nat) : ∀ (bs rest : List UInt8), bs.length = k →
    decodeGo k (bs ++ rest) = decodeGo 0 rest := by
  induction k with
  | zero => intro bs rest h; cases bs with
    | nil => rfl
    | cons => simp at h
  | succ k ih =>
    intro bs rest h
    cases bs with
    | nil => simp at h
    | cons b bs => simp only [List.cons_append, decodeGo]; exact ih bs rest (by simpa using h)

theorem decodeUtf8_encode_append (c : Char) (rest : List UInt8) :
    decodeUtf8 (String.utf8EncodeChar c ++ rest) = c :: decodeUtf8 rest := by
  obtain ⟨b, bs, e, hd, hl⟩ := decodeRune_encode c rest
  rw [e]
  unfold decodeUtf8
  rw [decodeGo, hd]
  simp only [List.cons.injEq, true_and]
  exact decodeGo_skip _ bs rest (by omega)

theorem toNat_ofNat_valid {n : Nat} (h : n.isValidChar) : (Char.ofNat n).toNat = n := by
  unfold Char.ofNat
  rw [dif_pos h]
  simp only [Char.ofNatAux, Char.toNat]
  have : n < 4294967296 := by
    rcases h with h | h
    · exact Nat.lt_trans h (by decide)
    · exact Nat.lt_trans h.2 (by decide)
  rfl

theorem u8_eq {b : UInt8} {n : Nat} (h : n = b.toNat) : UInt8.ofNat n = b := by
  subst h; simp

/-- What one decoding step returns: either a character whose encoding is at the front of the bytes,
or the replacement character for one byte. -/
theorem decodeRune_sound (b : UInt8) (bs : List UInt8) :
    (∃ rest, b :: bs = String.utf8EncodeChar (decodeRune b bs).1 ++ rest ∧
      (decodeRune b bs).2 = (decodeRune b bs).1.utf8Size) ∨ decodeRune b bs = (replC, 1) := by
  have key : ∀ (n : Nat) (l : List UInt8) (rest : List UInt8), n.isValidChar →
      (let v := n
       ite (v ≤ 0x7f) [UInt8.ofNat v]
        (ite (v ≤ 0x7ff) [UInt8.ofNat (v / 64 % 0x20 + 0xc0), UInt8.ofNat (v % 0x40 + 0x80)]
        (ite (v ≤ 0xffff) [UInt8.ofNat (v / 4096 % 0x10 + 0xe0), UInt8.ofNat (v / 64 % 0x40 + 0x80),
          UInt8.ofNat (v % 0x40 + 0x80)]
          [UInt8.ofNat (v / 262144 % 0x08 + 0xf0), UInt8.ofNat (v / 4096 % 0x40 + 0x80),
            UInt8.ofNat (v / 64 % 0x40 + 0x80), UInt8.ofNat (v % 0x40 + 0x80)]))) = l →
      String.utf8EncodeChar (Char.ofNat n) = l ∧ (Char.ofNat n).utf8Size = l.length := by
    intro n l rest hn hl
    have h1 : String.utf8EncodeChar (Char.ofNat n) = l := by
      rw [← hl]; unfold String.utf8EncodeChar
      have : (Char.ofNat n).val.toNat = n := toNat_ofNat_valid hn
      simp only [this]
    exact ⟨h1, by rw [← String.length_utf8EncodeChar, h1]⟩
  have hb := b.toNat_lt
  unfold decodeRune
  by_cases h1 : b.toNat < 0x80
  · rw [if_pos h1]
    left
    obtain ⟨k1, k2⟩ := key b.toNat [b] bs (Or.inl (by omega)) (by
      simp only; rw [if_pos (by omega)]; simp)
    exact ⟨bs, by simp [k1], by simp [k2]⟩
  rw [if_neg h1]
  cases bs with
  | nil => right; rfl
  | cons b1 bs =>
  have hb1 := b1.toNat_lt
  simp only
  split
  · rename_i h
    simp only [inRange, isContByte, Bool.and_eq_true, decide_eq_true_eq] at h
    left
    obtain ⟨k1, k2⟩ := key ((b.toNat - 0xC0) * 64 + (b1.toNat - 0x80)) [b, b1] bs
      (Or.inl (by omega)) (by
        simp only; rw [if_neg (by omega), if_pos (by omega)]
        rw [u8_eq (b := b) (by omega), u8_eq (b := b1) (by omega)])
    exact ⟨bs, by simp [k1], by simp [k2]⟩
  · cases bs with
    | nil => right; rfl
    | cons b2 bs =>
    have hb2 := b2.toNat_lt
    simp only
    split
    · rename_i h
      simp only [inRange, isContByte, Bool.and_eq_true, Bool.or_eq_true, decide_eq_true_eq] at h
      left
      obtain ⟨k1, k2⟩ := key ((b.toNat - 0xE0) * 4096 + (b1.toNat - 0x80) * 64 + (b2.toNat - 0x80))
        [b, b1, b2] bs (by unfold Nat.isValidChar; omega) (by
          simp only; rw [if_neg (by omega), if_neg (by omega), if_pos (by omega)]
          rw [u8_eq (b := b) (by omega), u8_eq (b := b1) (by omega), u8_eq (b := b2) (by omega)])
      exact ⟨bs, by simp [k1], by simp [k2]⟩
    · cases bs with
      | nil => right; rfl
      | cons b3 bs =>
      have hb3 := b3.toNat_lt
      simp only
      split
      · rename_i h
        simp only [inRange, isContByte, Bool.and_eq_true, Bool.or_eq_true, decide_eq_true_eq] at h
        left
        obtain ⟨k1, k2⟩ := key ((b.toNat - 0xF0) * 262144 + (b1.toNat - 0x80) * 4096
          + (b2.toNat - 0x80) * 64 + (b3.toNat - 0x80))
          [b, b1, b2, b3] bs (by unfold Nat.isValidChar; omega) (by
            simp only; rw [if_neg (by omega), if_neg (by omega), if_neg (by omega)]
            rw [u8_eq (b := b) (by omega), u8_eq (b := b1) (by omega), u8_eq (b := b2) (by omega),
              u8_eq (b := b3) (by omega)])
        exact ⟨bs, by simp [k1], by simp [k2]⟩
      · right; rfl

/-- An ASCII byte of an encoding is the character itself. -/
theorem mem_encode_ascii {c : Char} {b : UInt8} (h : b ∈ String.utf8EncodeChar c)
    (hb : b.toNat < 128) : c.toNat = b.toNat := by
  unfold String.utf8EncodeChar at h
  have hv : c.val.toNat = c.toNat := rfl
  have hlt : c.toNat < 0x110000 := by
    rcases (c.valid : c.toNat < 0xd800 ∨ (0xdfff < c.toNat ∧ c.toNat < 0x110000)) with h | h <;>
      omega
  simp only [hv] at h
  have key : ∀ n, n < 256 → 128 ≤ n → b ≠ UInt8.ofNat n := by
    intro n hn hge e
    have := congrArg UInt8.toNat e
    rw [u8 n hn] at this
    omega
  generalize c.toNat = v at *
  split at h
  · have e : b = UInt8.ofNat v := by simpa using h
    rw [e, u8 v (by omega)]
  split at h
  · simp only [List.mem_cons, List.not_mem_nil, or_false] at h
    rcases h with h | h
    · exact absurd h (key _ (by omega) (by omega))
    · exact absurd h (key _ (by omega) (by omega))
  split at h
  · simp only [List.mem_cons, List.not_mem_nil, or_false] at h
    rcases h with h | h | h
    · exact absurd h (key _ (by omega) (by omega))
    · exact absurd h (key _ (by omega) (by omega))
    · exact absurd h (key _ (by omega) (by omega))
  · simp only [List.mem_cons, List.not_mem_nil, or_false] at h
    rcases h with h | h | h | h
    · exact absurd h (key _ (by omega) (by omega))
    · exact absurd h (key _ (by omega) (by omega))
    · exact absurd h (key _ (by omega) (by omega))
    · exact absurd h (key _ (by omega) (by omega))

end Viml
