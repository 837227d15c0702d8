/-
Lemmas about the construction of the reader buffer (Model/Input.lean).
-/
import Verif.Model.Input
import Verif.Spec.Input
import Verif.Lemmas.Utf8

namespace Viml

open Spec

/-! ### Bytes -/

theorem bytesLen_eq : ∀ l : Str, bytesLen l = bytes l
  | [] => rfl
  | c :: cs => by
    simp only [bytesLen, runeLen, bytes, List.flatMap_cons, List.length_append,
      String.length_utf8EncodeChar]
    rw [bytesLen_eq cs]; rfl

theorem bytes_append (a b : Str) : bytes (a ++ b) = bytes a + bytes b := by
  simp [bytes]

theorem bytes_cons (c : Char) (b : Str) : bytes (c :: b) = c.utf8Size + bytes b := by
  simp [bytes]

theorem bytes_nil : bytes [] = 0 := rfl

theorem totalLen_append (a b : List Str) : totalLen (a ++ b) = totalLen a + totalLen b := by
  induction a with
  | nil => simp [totalLen]
  | cons l ls ih => simp only [List.cons_append, totalLen, ih]; omega

theorem totalLen_eq (a : List Str) : totalLen a = (fileBytes a).length := by
  induction a with
  | nil => rfl
  | cons l ls ih =>
    simp only [totalLen, ih, bytesLen_eq, fileBytes, List.flatMap_cons, List.length_append,
      List.length_singleton, bytes]

/-! ### Continuation lines -/

theorem isSpaceRe_blank (c : Char) : isSpaceRe c = blank c := by
  simp only [isSpaceRe, blank, List.mem_cons, List.not_mem_nil, or_false, Bool.decide_or,
    Bool.or_assoc]
  rfl

theorem blank_backslash : blank '\\' = false := by decide

theorem isCont_iff : ∀ l : Str, isCont l = (afterBackslash l).isSome
  | [] => rfl
  | c :: cs => by
    unfold isCont afterBackslash
    by_cases h : c = '\\'
    · subst h; simp [blank_backslash]
    · have h' : (c == '\\') = false := by simpa using h
      rw [h', isSpaceRe_blank]
      simp only [Bool.false_eq_true, if_false]
      rw [List.dropWhile_cons]
      by_cases hb : blank c
      · rw [if_pos hb, hb, Bool.true_and, isCont_iff cs]; rfl
      · rw [if_neg hb]
        simp only [hb, Bool.false_and]
        split
        · rename_i heq; simp at heq; exact absurd heq.1 h
        · rfl

/-- The text seen on a continuation line is what follows its backslash. -/
theorem contCells_true_text (n : Nat) : ∀ (l : Str) (col : Nat),
    (afterBackslash l).isSome →
    (contCells n true col l).map Cell.c = ((afterBackslash l).getD []).map some
  | [], _, h => by simp [afterBackslash] at h
  | c :: cs, col, h => by
    unfold afterBackslash at h ⊢
    by_cases hc : c = '\\'
    · subst hc
      simp only [List.dropWhile_cons, blank_backslash, contCells, bne_self_eq_false,
        Bool.false_eq_true, if_false, Option.getD_some]
      have : ∀ (l : Str) (col : Nat), (contCells n false col l).map Cell.c = l.map some := by
        intro l; induction l with
        | nil => intro _; rfl
        | cons d ds ih => intro col; simp [contCells, ih]
      exact this _ _
    · have hbne : (c != '\\') = true := by simpa using hc
      rw [List.dropWhile_cons] at h ⊢
      by_cases hb : blank c
      · rw [if_pos hb] at h ⊢
        simp only [contCells, hbne]
        exact contCells_true_text n cs _ h
      · rw [if_neg hb] at h
        split at h
        · rename_i heq; simp at heq; exact absurd heq.1 hc
        · simp at h

theorem lineCells_text (n : Nat) : ∀ (l : Str) (col off : Nat),
    (lineCells n col off l).map Cell.c = l.map some
  | [], _, _ => rfl
  | c :: cs, col, off => by simp [lineCells, lineCells_text n cs]

theorem reindex_text : ∀ (cs : List Cell) (n : Nat), (reindex n cs).map Cell.c = cs.map Cell.c
  | [], _ => rfl
  | c :: cs, n => by simp [reindex, reindex_text cs]

theorem buildRest_text : ∀ (ls : List Str) (cur : Str) (n col off : Nat),
    cur.map some ++ (buildRest ls n col off).map Cell.c =
      (joinFrom cur ls).flatMap fun l => l.map some ++ [none]
  | [], cur, n, col, off => by simp [buildRest, joinFrom]
  | l :: ls, cur, n, col, off => by
    unfold buildRest joinFrom
    rw [isCont_iff]
    by_cases h : (afterBackslash l).isSome
    · rw [if_pos h]
      obtain ⟨rest, hr⟩ := Option.isSome_iff_exists.1 h
      have h1 := contCells_true_text (n + 2) l 0 h
      rw [List.map_append, h1, hr, Option.getD_some]
      simp only
      rw [← List.append_assoc, ← List.map_append]
      exact buildRest_text ls (cur ++ rest) _ _ _
    · rw [if_neg h]
      have hr : afterBackslash l = none := by simpa using h
      simp only [hr, List.map_cons, List.map_append, lineCells_text, List.flatMap_cons]
      rw [buildRest_text ls l]
      simp

theorem buildCells_text (lines : List Str) :
    (buildCells lines).map Cell.c = (logicalLines lines).flatMap fun l => l.map some ++ [none] := by
  cases lines with
  | nil => rfl
  | cons l ls =>
    simp only [buildCells, logicalLines, List.map_append, lineCells_text]
    exact buildRest_text ls l _ _ _

/-! ### Positions -/

/-- What a cell says apart from its index. -/
def Cell.key (c : Cell) : Option Char × Nat × Nat × Nat := (c.c, c.pos.lnum, c.pos.col, c.pos.offset)

theorem reindex_key : ∀ (cs : List Cell) (n : Nat), (reindex n cs).map Cell.key = cs.map Cell.key
  | [], _ => rfl
  | c :: cs, n => by simp [reindex, reindex_key cs, Cell.key]

theorem reindex_length : ∀ (cs : List Cell) (n : Nat), (reindex n cs).length = cs.length
  | [], _ => rfl
  | c :: cs, n => by simp [reindex, reindex_length cs]

theorem reindex_get : ∀ (cs : List Cell) (n k : Nat) (c : Cell),
    (reindex n cs)[k]? = some c → c.pos.i = n + k
  | [], _, _, _, h => by simp [reindex] at h
  | d :: ds, n, 0, c, h => by
    simp only [reindex, List.getElem?_cons_zero, Option.some.injEq] at h
    subst h; rfl
  | d :: ds, n, k + 1, c, h => by
    simp only [reindex, List.getElem?_cons_succ] at h
    have := reindex_get ds (n + 1) k c h
    omega

theorem mem_reindex {cs : List Cell} {n : Nat} {c : Cell} (h : c ∈ reindex n cs) :
    ∃ d ∈ cs, d.key = c.key := by
  have : c.key ∈ (reindex n cs).map Cell.key := List.mem_map_of_mem h
  rw [reindex_key] at this
  obtain ⟨d, hd, e⟩ := List.mem_map.1 this
  exact ⟨d, hd, e⟩

theorem mem_reindex' {cs : List Cell} {n : Nat} {c : Cell} (h : c ∈ cs) :
    ∃ d ∈ reindex n cs, d.key = c.key := by
  have : c.key ∈ cs.map Cell.key := List.mem_map_of_mem h
  rw [← reindex_key cs n] at this
  obtain ⟨d, hd, e⟩ := List.mem_map.1 this
  exact ⟨d, hd, e⟩

/-- Cells of an ordinary line. -/
theorem mem_lineCells (n : Nat) : ∀ (l : Str) (col off : Nat) (c : Cell),
    c ∈ lineCells n col off l ↔
      ∃ pre ch post, l = pre ++ ch :: post ∧
        c = ⟨some ch, ⟨0, n, col + bytes pre + 1, off + bytes pre⟩⟩
  | [], col, off, c => by simp [lineCells]
  | d :: ds, col, off, c => by
    simp only [lineCells, List.mem_cons, mem_lineCells n ds]
    constructor
    · rintro (h | ⟨pre, ch, post, h1, h2⟩)
      · exact ⟨[], d, ds, rfl, by simpa [bytes_nil] using h⟩
      · refine ⟨d :: pre, ch, post, by simp [h1], ?_⟩
        rw [h2]; simp only [bytes_cons, runeLen, Nat.add_assoc]
    · rintro ⟨pre, ch, post, h1, h2⟩
      cases pre with
      | nil =>
        simp only [List.nil_append, List.cons.injEq] at h1
        left; rw [h2, h1.1]; simp [bytes_nil]
      | cons e pre =>
        simp only [List.cons_append, List.cons.injEq] at h1
        right
        refine ⟨pre, ch, post, h1.2, ?_⟩
        rw [h2, h1.1]; simp only [bytes_cons, runeLen, Nat.add_assoc]

/-- Cells of the visible part of a continuation line. -/
theorem mem_contCells_false (n : Nat) : ∀ (l : Str) (col : Nat) (c : Cell),
    c ∈ contCells n false col l ↔
      ∃ pre ch post, l = pre ++ ch :: post ∧
        c = ⟨some ch, ⟨0, n, col + bytes pre + 1, 0⟩⟩
  | [], col, c => by simp [contCells]
  | d :: ds, col, c => by
    simp only [contCells, List.mem_cons, mem_contCells_false n ds]
    constructor
    · rintro (h | ⟨pre, ch, post, h1, h2⟩)
      · exact ⟨[], d, ds, rfl, by simpa [bytes_nil] using h⟩
      · refine ⟨d :: pre, ch, post, by simp [h1], ?_⟩
        rw [h2]; simp only [bytes_cons, runeLen, Nat.add_assoc]
    · rintro ⟨pre, ch, post, h1, h2⟩
      cases pre with
      | nil =>
        simp only [List.nil_append, List.cons.injEq] at h1
        left; rw [h2, h1.1]; simp [bytes_nil]
      | cons e pre =>
        simp only [List.cons_append, List.cons.injEq] at h1
        right
        refine ⟨pre, ch, post, h1.2, ?_⟩
        rw [h2, h1.1]; simp only [bytes_cons, runeLen, Nat.add_assoc]

/-- Cells of a continuation line: the characters after its first backslash. -/
theorem mem_contCells_true (n : Nat) : ∀ (l : Str) (col : Nat) (c : Cell),
    c ∈ contCells n true col l ↔
      ∃ pre ch post, l = pre ++ ch :: post ∧ '\\' ∈ pre ∧
        c = ⟨some ch, ⟨0, n, col + bytes pre + 1, 0⟩⟩
  | [], col, c => by simp [contCells]
  | d :: ds, col, c => by
    by_cases hd : d = '\\'
    · subst hd
      simp only [contCells, bne_self_eq_false, mem_contCells_false]
      constructor
      · rintro ⟨pre, ch, post, h1, h2⟩
        refine ⟨'\\' :: pre, ch, post, by simp [h1], by simp, ?_⟩
        rw [h2]; simp only [bytes_cons, runeLen, Nat.add_assoc]
      · rintro ⟨pre, ch, post, h1, hm, h2⟩
        cases pre with
        | nil => simp at hm
        | cons e pre =>
          simp only [List.cons_append, List.cons.injEq] at h1
          refine ⟨pre, ch, post, h1.2, ?_⟩
          rw [h2, ← h1.1]; simp only [bytes_cons, runeLen, Nat.add_assoc]
    · have hne : (d != '\\') = true := by simpa using hd
      simp only [contCells, hne, mem_contCells_true n ds]
      constructor
      · rintro ⟨pre, ch, post, h1, hm, h2⟩
        refine ⟨d :: pre, ch, post, by simp [h1], by simp [hm], ?_⟩
        rw [h2]; simp only [bytes_cons, runeLen, Nat.add_assoc]
      · rintro ⟨pre, ch, post, h1, hm, h2⟩
        cases pre with
        | nil => simp at hm
        | cons e pre =>
          simp only [List.cons_append, List.cons.injEq] at h1
          have hm' : '\\' ∈ pre := by
            rcases List.mem_cons.1 hm with h | h
            · exact absurd (h1.1.trans h.symm) hd
            · exact h
          refine ⟨pre, ch, post, h1.2, hm', ?_⟩
          rw [h2, ← h1.1]; simp only [bytes_cons, runeLen, Nat.add_assoc]

/-- A character cell of `buildRest`: where it comes from. -/
theorem mem_buildRest_char (lines : List Str) (ch : Char) (q : Pos) :
    ∀ (ls : List Str) (n col off : Nat), lines.drop (n + 1) = ls →
      off = totalLen (lines.take (n + 1)) - 1 → n < lines.length →
      (⟨some ch, q⟩ ∈ buildRest ls n col off ↔
        ∃ p : Place lines, n < p.n ∧ p.c = ch ∧ p.visible ∧
          q = ⟨0, p.n + 1, bytes p.pre + 1,
            if isCont p.line then 0 else totalLen (lines.take p.n) + bytes p.pre⟩)
  | [], n, col, off, hl, ho, hn => by
    simp only [buildRest, List.mem_singleton, Cell.mk.injEq, reduceCtorEq, false_and, false_iff]
    rintro ⟨p, h, _⟩
    have hp := p.ok
    have : lines.length ≤ n + 1 := by simpa using hl
    rw [List.getElem?_eq_none (by omega)] at hp
    simp at hp
  | l :: ls, n, col, off, hl, ho, hn => by
    have hlen : n + 1 < lines.length := by
      have := congrArg List.length hl
      simp only [List.length_drop, List.length_cons] at this; omega
    have hget : lines[n + 1]? = some l := by
      have : (lines.drop (n + 1))[0]? = some l := by rw [hl]; rfl
      simpa using this
    have hdrop : lines.drop (n + 1 + 1) = ls := by
      rw [← List.drop_drop, hl]; rfl
    have htake : lines.take (n + 1 + 1) = lines.take (n + 1) ++ [l] := by
      rw [List.take_add_one, hget]; rfl
    have hpos : 0 < totalLen (lines.take (n + 1)) := by
      have : 0 < (lines.take (n + 1)).length := by rw [List.length_take]; omega
      cases hh : lines.take (n + 1) with
      | nil => rw [hh] at this; simp at this
      | cons a b => simp only [totalLen]; omega
    have hoff : off + 1 = totalLen (lines.take (n + 1)) := by omega
    have hoff2 : off + bytesLen l + 1 = totalLen (lines.take (n + 1 + 1)) - 1 := by
      rw [htake, totalLen_append, ← hoff]; simp only [totalLen]; omega
    unfold buildRest
    by_cases hc : isCont l
    · rw [if_pos hc, List.mem_append, mem_contCells_true,
        mem_buildRest_char lines ch q ls (n + 1) _ _ hdrop hoff2 (by omega)]
      constructor
      · rintro (⟨pre, d, post, h1, h2, h3⟩ | ⟨p, h⟩)
        · simp only [Cell.mk.injEq, Option.some.injEq] at h3
          refine ⟨⟨n + 1, pre, d, post, by rw [hget, h1]⟩, Nat.lt_succ_self n, h3.1.symm,
            fun _ => h2, ?_⟩
          rw [h3.2]
          simp only [Place.line, ← h1, hc, if_true, Nat.zero_add]
        · exact ⟨p, by omega, h.2⟩
      · rintro ⟨p, h1, h2, h3, h4⟩
        by_cases hp : n + 1 < p.n
        · exact Or.inr ⟨p, hp, h2, h3, h4⟩
        · left
          have hpn : p.n = n + 1 := by omega
          have hok := p.ok
          rw [hpn, hget] at hok
          have hline : p.line = l := (Option.some.inj hok).symm
          refine ⟨p.pre, p.c, p.post, Option.some.inj hok, ?_, ?_⟩
          · apply h3
            refine ⟨by omega, ?_⟩
            rw [hline, ← isCont_iff]; exact hc
          · rw [h4, h2, hpn, hline]; simp [hc]
    · rw [if_neg hc, List.mem_cons, List.mem_append, mem_lineCells,
        mem_buildRest_char lines ch q ls (n + 1) _ _ hdrop (by rw [← hoff2]; omega) (by omega)]
      constructor
      · rintro (h | ⟨pre, d, post, h1, h3⟩ | ⟨p, h⟩)
        · simp at h
        · simp only [Cell.mk.injEq, Option.some.injEq] at h3
          refine ⟨⟨n + 1, pre, d, post, by rw [hget, h1]⟩, Nat.lt_succ_self n, h3.1.symm,
            fun hv => ?_, ?_⟩
          · exfalso
            apply hc
            rw [isCont_iff]
            have := hv.2
            simpa only [Place.line, ← h1] using this
          · rw [h3.2]
            simp only [Place.line, ← h1, Nat.zero_add, hoff]
            simp [hc]
        · exact ⟨p, by omega, h.2⟩
      · rintro ⟨p, h1, h2, h3, h4⟩
        by_cases hp : n + 1 < p.n
        · exact Or.inr (Or.inr ⟨p, hp, h2, h3, h4⟩)
        · right; left
          have hpn : p.n = n + 1 := by omega
          have hok := p.ok
          rw [hpn, hget] at hok
          have hline : p.line = l := (Option.some.inj hok).symm
          refine ⟨p.pre, p.c, p.post, Option.some.inj hok, ?_⟩
          rw [h4, h2, hpn, hline, hoff]; simp [hc]

/-- The character cells of the buffer are exactly the visible places, with these positions. -/
theorem mem_buildCells_char (lines : List Str) (ch : Char) (q : Pos) :
    ⟨some ch, q⟩ ∈ buildCells lines ↔
      ∃ p : Place lines, p.c = ch ∧ p.visible ∧
        q = ⟨0, p.n + 1, bytes p.pre + 1,
          if p.n ≠ 0 ∧ isCont p.line then 0 else totalLen (lines.take p.n) + bytes p.pre⟩ := by
  cases lines with
  | nil =>
    simp only [buildCells, List.not_mem_nil, false_iff]
    rintro ⟨p, _⟩
    have := p.ok; simp at this
  | cons l ls =>
    rw [buildCells, List.mem_append, mem_lineCells,
      mem_buildRest_char (l :: ls) ch q ls 0 _ _ rfl (by simp [totalLen]) (by simp)]
    constructor
    · rintro (⟨pre, d, post, h1, h2⟩ | ⟨p, h1, h2, h3, h4⟩)
      · simp only [Cell.mk.injEq, Option.some.injEq] at h2
        refine ⟨⟨0, pre, d, post, by simp [h1]⟩, h2.1.symm, fun hv => absurd rfl hv.1, ?_⟩
        rw [h2.2]; simp [totalLen]
      · refine ⟨p, h2, h3, ?_⟩
        rw [h4]
        have : p.n ≠ 0 := by omega
        simp [this]
    · rintro ⟨p, h2, h3, h4⟩
      by_cases hp : 0 < p.n
      · refine Or.inr ⟨p, hp, h2, h3, ?_⟩
        rw [h4]
        have : p.n ≠ 0 := by omega
        simp [this]
      · left
        have hpn : p.n = 0 := by omega
        have hok := p.ok
        rw [hpn] at hok
        refine ⟨p.pre, p.c, p.post, by simpa using hok, ?_⟩
        rw [h4, h2, hpn]; simp [totalLen]

/-- Line-end cells. -/
theorem mem_buildRest_eol (lines : List Str) (q : Pos) :
    ∀ (ls : List Str) (n col off : Nat), lines.drop (n + 1) = ls →
      off = totalLen (lines.take (n + 1)) - 1 → lines[n]?.map bytesLen = some col →
      (⟨none, q⟩ ∈ buildRest ls n col off ↔
        ∃ k l, n ≤ k ∧ lines[k]? = some l ∧ (∀ l', lines[k + 1]? = some l' → ¬ isCont l') ∧
          q = ⟨0, k + 1, bytes l + 1, totalLen (lines.take (k + 1)) - 1⟩)
  | [], n, col, off, hl, ho, hn => by
    obtain ⟨l0, hl0, hc0⟩ := Option.map_eq_some_iff.1 hn
    have hlen : lines.length ≤ n + 1 := by simpa using hl
    simp only [buildRest, List.mem_singleton, Cell.mk.injEq, true_and]
    constructor
    · intro h
      refine ⟨n, l0, Nat.le_refl _, hl0, ?_, ?_⟩
      · intro l' h'; rw [List.getElem?_eq_none hlen] at h'; simp at h'
      · rw [h, ho, ← hc0, bytesLen_eq]
    · rintro ⟨k, l, h1, h2, _, h4⟩
      have : k < lines.length := by
        rcases Nat.lt_or_ge k lines.length with h | h
        · exact h
        · rw [List.getElem?_eq_none h] at h2; simp at h2
      have hk : k = n := by omega
      subst hk
      rw [hl0] at h2
      rw [h4, ho, ← hc0, bytesLen_eq, Option.some.inj h2]
  | l :: ls, n, col, off, hl, ho, hn => by
    obtain ⟨l0, hl0, hc0⟩ := Option.map_eq_some_iff.1 hn
    have hget : lines[n + 1]? = some l := by
      have : (lines.drop (n + 1))[0]? = some l := by rw [hl]; rfl
      simpa using this
    have hdrop : lines.drop (n + 1 + 1) = ls := by
      rw [← List.drop_drop, hl]; rfl
    have htake : lines.take (n + 1 + 1) = lines.take (n + 1) ++ [l] := by
      rw [List.take_add_one, hget]; rfl
    have hpos : 0 < totalLen (lines.take (n + 1)) := by
      have : 0 < (lines.take (n + 1)).length := by
        rw [List.length_take]
        have : n < lines.length := by
          rcases Nat.lt_or_ge n lines.length with h | h
          · exact h
          · rw [List.getElem?_eq_none h] at hl0; simp at hl0
        omega
      cases hh : lines.take (n + 1) with
      | nil => rw [hh] at this; simp at this
      | cons a b => simp only [totalLen]; omega
    have hoff2 : off + bytesLen l + 1 = totalLen (lines.take (n + 1 + 1)) - 1 := by
      rw [htake, totalLen_append]; simp only [totalLen]; omega
    have hcol : lines[n + 1]?.map bytesLen = some (bytesLen l) := by rw [hget]; rfl
    unfold buildRest
    by_cases hc : isCont l
    · rw [if_pos hc, List.mem_append, mem_contCells_true,
        mem_buildRest_eol lines q ls (n + 1) _ _ hdrop hoff2 hcol]
      constructor
      · rintro (⟨pre, d, post, h1, h2, h3⟩ | ⟨k, l', h⟩)
        · simp at h3
        · exact ⟨k, l', by omega, h.2⟩
      · rintro ⟨k, l', h1, h2, h3, h4⟩
        right
        have : n ≠ k := by
          rintro rfl
          exact h3 l hget hc
        exact ⟨k, l', by omega, h2, h3, h4⟩
    · rw [if_neg hc, List.mem_cons, List.mem_append, mem_lineCells,
        mem_buildRest_eol lines q ls (n + 1) _ _ hdrop (by rw [← hoff2]; omega) hcol]
      constructor
      · rintro (h | ⟨pre, d, post, h1, h3⟩ | ⟨k, l', h⟩)
        · refine ⟨n, l0, Nat.le_refl _, hl0, ?_, ?_⟩
          · intro l' h'
            rw [hget] at h'; rw [← Option.some.inj h']; exact hc
          · simp only [Cell.mk.injEq, true_and] at h
            rw [h, ho, ← hc0, bytesLen_eq]
        · simp at h3
        · exact ⟨k, l', by omega, h.2⟩
      · rintro ⟨k, l', h1, h2, h3, h4⟩
        by_cases hk : k = n
        · left
          subst hk
          rw [hl0] at h2
          rw [h4, ho, ← hc0, bytesLen_eq, Option.some.inj h2]
        · exact Or.inr (Or.inr ⟨k, l', by omega, h2, h3, h4⟩)

theorem mem_buildCells_eol (lines : List Str) (q : Pos) :
    ⟨none, q⟩ ∈ buildCells lines ↔
      ∃ k l, lines[k]? = some l ∧ (∀ l', lines[k + 1]? = some l' → ¬ isCont l') ∧
        q = ⟨0, k + 1, bytes l + 1, totalLen (lines.take (k + 1)) - 1⟩ := by
  cases lines with
  | nil => simp [buildCells]
  | cons l ls =>
    rw [buildCells, List.mem_append, mem_lineCells,
      mem_buildRest_eol (l :: ls) q ls 0 _ _ rfl (by simp [totalLen]) (by simp)]
    constructor
    · rintro (⟨pre, d, post, h1, h2⟩ | ⟨k, l', _, h⟩)
      · simp at h2
      · exact ⟨k, l', h⟩
    · rintro ⟨k, l', h⟩
      exact Or.inr ⟨k, l', Nat.zero_le _, h⟩

/-! ### Order -/

/-- Strict order of two cells by (line, column). -/
def cellLt (a b : Cell) : Prop := lexLt a.pos.lnum a.pos.col b.pos.lnum b.pos.col

theorem lineCells_pairwise (n : Nat) : ∀ (l : Str) (col off : Nat),
    (lineCells n col off l).Pairwise cellLt
  | [], _, _ => List.Pairwise.nil
  | c :: cs, col, off => by
    rw [lineCells, List.pairwise_cons]
    refine ⟨?_, lineCells_pairwise n cs _ _⟩
    intro d hd
    obtain ⟨pre, ch, post, _, e⟩ := (mem_lineCells n cs _ _ d).1 hd
    subst e
    have := c.utf8Size_pos
    simp only [cellLt, lexLt, runeLen, true_and]
    omega

theorem contCells_false_pairwise (n : Nat) : ∀ (l : Str) (col : Nat),
    (contCells n false col l).Pairwise cellLt
  | [], _ => List.Pairwise.nil
  | c :: cs, col => by
    rw [contCells, List.pairwise_cons]
    refine ⟨?_, contCells_false_pairwise n cs _⟩
    intro d hd
    obtain ⟨pre, ch, post, _, e⟩ := (mem_contCells_false n cs _ d).1 hd
    subst e
    have := c.utf8Size_pos
    simp only [cellLt, lexLt, runeLen, true_and]
    omega

theorem contCells_true_pairwise (n : Nat) : ∀ (l : Str) (col : Nat),
    (contCells n true col l).Pairwise cellLt
  | [], _ => List.Pairwise.nil
  | c :: cs, col => by
    rw [contCells]
    cases (c != '\\')
    · exact contCells_false_pairwise n cs _
    · exact contCells_true_pairwise n cs _

theorem bytes_le_of_split {l pre post : Str} {c : Char} (h : l = pre ++ c :: post) :
    bytes pre < bytes l := by
  rw [h, bytes_append, bytes_cons]
  have := c.utf8Size_pos
  omega

/-- Cells of `buildRest` come after the text of the line before it. -/
theorem buildRest_lower : ∀ (ls : List Str) (n col off : Nat) (c : Cell),
    c ∈ buildRest ls n col off → lexLt (n + 1) col c.pos.lnum c.pos.col
  | [], n, col, off, c, h => by
    simp only [buildRest, List.mem_singleton] at h
    subst h; right; exact ⟨rfl, Nat.lt_succ_self _⟩
  | l :: ls, n, col, off, c, h => by
    unfold buildRest at h
    split at h
    · rcases List.mem_append.1 h with h | h
      · obtain ⟨_, _, _, _, _, e⟩ := (mem_contCells_true _ _ _ _).1 h
        subst e; left; simp
      · have := buildRest_lower ls _ _ _ c h
        left; rcases this with h | h <;> omega
    · rcases List.mem_cons.1 h with h | h
      · subst h; right; exact ⟨rfl, Nat.lt_succ_self _⟩
      rcases List.mem_append.1 h with h | h
      · obtain ⟨_, _, _, _, e⟩ := (mem_lineCells _ _ _ _ _).1 h
        subst e; left; simp
      · have := buildRest_lower ls _ _ _ c h
        left; rcases this with h | h <;> omega

theorem buildRest_pairwise : ∀ (ls : List Str) (n col off : Nat),
    (buildRest ls n col off).Pairwise cellLt
  | [], n, col, off => by simp [buildRest]
  | l :: ls, n, col, off => by
    unfold buildRest
    split
    · rw [List.pairwise_append]
      refine ⟨contCells_true_pairwise _ _ _, buildRest_pairwise ls _ _ _, ?_⟩
      intro a ha b hb
      obtain ⟨pre, ch, post, h1, _, e⟩ := (mem_contCells_true _ _ _ _).1 ha
      have := buildRest_lower ls _ _ _ b hb
      subst e
      have hlt := bytes_le_of_split h1
      rw [bytesLen_eq] at this
      unfold cellLt lexLt at *
      simp only
      omega
    · rw [List.pairwise_cons, List.pairwise_append]
      refine ⟨?_, lineCells_pairwise _ _ _ _, buildRest_pairwise ls _ _ _, ?_⟩
      · intro b hb
        left
        rcases List.mem_append.1 hb with hb | hb
        · obtain ⟨pre, ch, post, h1, e⟩ := (mem_lineCells _ _ _ _ _).1 hb
          subst e; simp
        · have := buildRest_lower ls _ _ _ b hb
          unfold lexLt at this
          simp only
          omega
      · intro a ha b hb
        obtain ⟨pre, ch, post, h1, e⟩ := (mem_lineCells _ _ _ _ _).1 ha
        have := buildRest_lower ls _ _ _ b hb
        subst e
        have hlt := bytes_le_of_split h1
        rw [bytesLen_eq] at this
        unfold cellLt lexLt at *
        simp only
        omega

theorem buildCells_pairwise (lines : List Str) : (buildCells lines).Pairwise cellLt := by
  cases lines with
  | nil => exact List.Pairwise.nil
  | cons l ls =>
    rw [buildCells, List.pairwise_append]
    refine ⟨lineCells_pairwise _ _ _ _, buildRest_pairwise ls _ _ _, ?_⟩
    intro a ha b hb
    obtain ⟨pre, ch, post, h1, e⟩ := (mem_lineCells _ _ _ _ _).1 ha
    have := buildRest_lower ls _ _ _ b hb
    subst e
    have hlt := bytes_le_of_split h1
    rw [bytesLen_eq] at this
    unfold cellLt lexLt at *
    simp only
    omega

theorem reindex_pairwise : ∀ (cs : List Cell) (n : Nat), cs.Pairwise cellLt →
    (reindex n cs).Pairwise cellLt
  | [], _, _ => List.Pairwise.nil
  | c :: cs, n, h => by
    rw [List.pairwise_cons] at h
    rw [reindex, List.pairwise_cons]
    refine ⟨?_, reindex_pairwise cs _ h.2⟩
    intro d hd
    obtain ⟨e, he, hk⟩ := mem_reindex hd
    have := h.1 e he
    simp only [Cell.key, Prod.mk.injEq] at hk
    unfold cellLt at *
    simp only
    rw [← hk.2.1, ← hk.2.2.1]
    exact this

/-- The buffer is empty or ends with a line end. -/
theorem buildRest_last : ∀ (ls : List Str) (n col off : Nat),
    ∃ init q, buildRest ls n col off = init ++ [⟨none, q⟩]
  | [], n, col, off => ⟨[], _, rfl⟩
  | l :: ls, n, col, off => by
    unfold buildRest
    split
    · obtain ⟨init, q, e⟩ := buildRest_last ls (n + 1) (bytesLen l) (off + bytesLen l + 1)
      exact ⟨contCells (n + 2) true 0 l ++ init, q, by rw [e, List.append_assoc]⟩
    · obtain ⟨init, q, e⟩ := buildRest_last ls (n + 1) (bytesLen l) (off + 1 + bytesLen l)
      exact ⟨⟨none, ⟨0, n + 1, col + 1, off⟩⟩ :: (lineCells (n + 2) 0 (off + 1) l ++ init), q, by
        rw [e]; simp [List.append_assoc]⟩

theorem buildCells_last (lines : List Str) :
    lines = [] ∨ ∃ init q, buildCells lines = init ++ [⟨none, q⟩] := by
  cases lines with
  | nil => exact Or.inl rfl
  | cons l ls =>
    obtain ⟨init, q, e⟩ := buildRest_last ls 0 (bytesLen l) (bytesLen l)
    exact Or.inr ⟨lineCells 1 0 0 l ++ init, q, by rw [buildCells, e, List.append_assoc]⟩

theorem reindex_append : ∀ (a b : List Cell) (n : Nat),
    reindex n (a ++ b) = reindex n a ++ reindex (n + a.length) b
  | [], b, n => by simp [reindex]
  | c :: a, b, n => by
    simp only [List.cons_append, reindex, List.length_cons, reindex_append a b (n + 1)]
    rw [show n + 1 + a.length = n + (a.length + 1) by omega]

/-! ### Lines of a byte sequence -/

theorem scanLines_line (l rest : List UInt8) (h : 10 ∉ l) : ∀ acc : List UInt8,
    scanLines acc (l ++ 10 :: rest) =
      if acc.length + l.length < maxTok then
        dropCR (acc.reverse ++ l) :: scanLines [] rest
      else if l = [] then dropCR (acc.reverse) :: scanLines [] rest else [] := by
  induction l with
  | nil => intro acc; simp [scanLines]
  | cons b l ih =>
    intro acc
    have hb : b ≠ 10 := fun e => h (by simp [e])
    have hl : 10 ∉ l := fun e => h (by simp [e])
    simp only [List.cons_append, scanLines, if_neg hb]
    by_cases hc : acc.length + 1 ≥ maxTok
    · rw [if_pos hc, if_neg (by simp only [List.length_cons]; omega)]; simp
    · rw [if_neg hc, ih hl]
      by_cases hd : acc.length + (b :: l).length < maxTok
      · rw [if_pos hd, if_pos (by simp only [List.length_cons] at *; omega)]; simp
      · rw [if_neg hd, if_neg (by simp only [List.length_cons] at *; omega)]
        have : l ≠ [] := by rintro rfl; simp at hd; omega
        simp [this]

theorem scanLines_last (l : List UInt8) (h : 10 ∉ l) : ∀ acc : List UInt8,
    acc ++ l ≠ [] →
    scanLines acc l =
      if acc.length + l.length < maxTok ∨ l = [] then [dropCR (acc.reverse ++ l)] else [] := by
  induction l with
  | nil =>
    intro acc ha
    have : acc ≠ [] := by simpa using ha
    simp [scanLines, this]
  | cons b l ih =>
    intro acc _
    have hb : b ≠ 10 := fun e => h (by simp [e])
    have hl : 10 ∉ l := fun e => h (by simp [e])
    simp only [scanLines, if_neg hb]
    by_cases hc : acc.length + 1 ≥ maxTok
    · rw [if_pos hc, if_neg (by simp only [List.length_cons]; simp; omega)]
    · rw [if_neg hc, ih hl _ (by simp)]
      by_cases hd : acc.length + (b :: l).length < maxTok
      · rw [if_pos (Or.inl hd), if_pos (by simp only [List.length_cons] at *; omega)]; simp
      · have : l ≠ [] := by rintro rfl; simp at hd; omega
        have e1 : ¬ (acc.length + (b :: l).length < maxTok ∨ b :: l = []) := by
          rintro (h | h)
          · exact hd h
          · cases h
        have e2 : ¬ ((b :: acc).length + l.length < maxTok ∨ l = []) := by
          rintro (h | h)
          · simp only [List.length_cons] at *; omega
          · exact this h
        rw [if_neg e1, if_neg e2]

theorem readlines_cons (l rest : List UInt8) (h : 10 ∉ l) :
    readlines (l ++ 10 :: rest) =
      if l.length < 65536 then dropCR l :: readlines rest else [] := by
  unfold readlines
  rw [scanLines_line l rest h]
  simp only [List.length_nil, Nat.zero_add, List.reverse_nil, List.nil_append, maxTok]
  split
  · rfl
  · rename_i hc
    have : l ≠ [] := by rintro rfl; simp at hc
    rw [if_neg this]

theorem readlines_last (l : List UInt8) (h : 10 ∉ l) (hne : l ≠ []) :
    readlines l = if l.length < 65536 then [dropCR l] else [] := by
  unfold readlines
  rw [scanLines_last l h [] (by simpa using hne)]
  simp [hne, maxTok]

end Viml
