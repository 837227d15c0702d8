/-
Search patterns and line ranges: the parser reads exactly those of the grammar.
-/
import Verif.Lemmas.RunIff

namespace Viml
open Prog Spec

section
variable {env : Env} {r r' : List Cell}

theorem ch_lt {c : Char} (h : headSym r = .ch c) : r.tail.length < r.length :=
  ((headSym_reads h).sadv (by simp)).lt

theorem tail_tail' (r : List Cell) : r.tail.tail = r.drop 2 := by
  match r with
  | [] => rfl
  | [_] => rfl
  | _ :: _ :: _ => rfl

theorem getn1_of {c : Char} (h : headSym r = .ch c) : getnS 1 r = ([c], r.tail) := by
  rcases getn1_cases r with ⟨c', hc, hg, _⟩ | ⟨h', _⟩
  · rw [h] at hc
    cases hc
    exact hg
  · exact absurd h (atEnd_not h')

/-! ### Patterns -/

def patBody (delim : Str) (st : Str × Int) : Prog ((Str × Int) ⊕ (Str × Str)) := do
  let (pat, inb) := st
  let c ← getn 1
  if c = [] then pure (.inr (pat, []))
  else if c = delim ∧ inb = 0 then pure (.inr (pat, c))
  else if c = cs!"\\" then
    let d ← peekn 1
    if d = [] then errHere cs!"E682: Invalid search pattern or delimiter"
    else
      let _ ← getn 1
      pure (.inl (pat ++ c ++ d, inb))
  else if c = cs!"[" then pure (.inl (pat ++ c, inb + 1))
  else if c = cs!"]" then pure (.inl (pat ++ c, inb - 1))
  else pure (.inl (pat ++ c, inb))

theorem parsePattern_eq (delim : Str) : parsePattern delim = loop (patBody delim) ([], 0) := rfl

theorem patBody_end {d : Char} {acc : Str} {n : Int} {x} {r1 : List Cell} (h : AtEnd r) :
    Ok env (patBody [d] (acc, n)) r x r1 ↔ x = .inr (acc, []) ∧ r1 = r := by
  rcases getn1_cases r with ⟨c, hc, _⟩ | ⟨_, hg⟩
  · exact absurd hc (atEnd_not h)
  unfold patBody
  simp only [bind_getn, hg, ok_ite, ok_pure]
  simp

theorem patBody_ch {d c : Char} {acc : Str} {n : Int} {x} {r1 : List Cell} (h : headSym r = .ch c) :
    Ok env (patBody [d] (acc, n)) r x r1 ↔
      (c = d ∧ n = 0) ∧ x = .inr (acc, [c]) ∧ r1 = r.tail ∨
      ¬ (c = d ∧ n = 0) ∧ (c = '\\' ∧ (∃ c2, headSym r.tail = .ch c2 ∧ x = .inl (acc ++ [c] ++ [c2], n) ∧ r1 = r.tail.tail) ∨
        c ≠ '\\' ∧ x = .inl (acc ++ [c], n + bracket c) ∧ r1 = r.tail) := by
  rcases getn1_cases r with ⟨c', hc, hg, _⟩ | ⟨h', _⟩
  rotate_left
  · exact absurd h (atEnd_not h')
  rw [h] at hc
  cases hc
  unfold patBody bracket
  simp only [bind_getn, bind_peekn, hg, ok_ite, ok_pure, ok_errHere]
  by_cases h1 : c = d ∧ n = 0
  · obtain ⟨rfl, rfl⟩ := h1
    simp
  · by_cases h2 : c = '\\'
    · subst h2
      rcases getn1_cases r.tail with ⟨c2, hc2, hg2, _⟩ | ⟨hc2, hg2⟩
      · simp [h1, hg2, hc2]
      · have : ∀ c, headSym r.tail ≠ .ch c := fun c => atEnd_not hc2
        simp [h1, hg2, this]
    · by_cases h3 : c = '['
      · subst h3; simp [h1]
      · by_cases h4 : c = ']'
        · subst h4; simp [h1]; simp [Int.sub_eq_add_neg]
        · simp [h1, h2, h3, h4]

theorem patLoop_iff {d : Char} {acc : Str} {n : Int} {P e : Str} :
    Ok env (loop (patBody [d]) (acc, n)) r (P, e) r' ↔ ∃ p, Pat d n r p e r' ∧ P = acc ++ p := by
  constructor
  · intro h0
    refine loop_ind (P := fun s r => ∃ p, Pat d s.2 r p e r' ∧ P = s.1 ++ p) ?_ ?_ h0
    · rintro ⟨acc, n⟩ r h
      by_cases ha : AtEnd r
      · rw [patBody_end ha] at h
        obtain ⟨h, rfl⟩ := h
        injection h with h
        injection h with h1 h2
        subst h1 h2
        exact ⟨[], .eol ha, by simp⟩
      · obtain ⟨c, hc⟩ := not_atEnd.1 ha
        rw [patBody_ch hc] at h
        rcases h with ⟨⟨rfl, rfl⟩, h, rfl⟩ | ⟨_, ⟨_, _, _, h, _⟩ | ⟨_, h, _⟩⟩
        · injection h with h
          injection h with h1 h2
          subst h1 h2
          exact ⟨[], .close (headSym_reads hc), by simp⟩
        · cases h
        · cases h
    · rintro ⟨acc, n⟩ r ⟨acc1, n1⟩ r1 h ⟨p, hp, hP⟩
      by_cases ha : AtEnd r
      · rw [patBody_end ha] at h
        cases h.1
      · obtain ⟨c, hc⟩ := not_atEnd.1 ha
        rw [patBody_ch hc] at h
        rcases h with ⟨_, h, _⟩ | ⟨h1, ⟨rfl, c2, hc2, h, rfl⟩ | ⟨h2, h, rfl⟩⟩
        · cases h
        · cases h
          exact ⟨_, .esc ((headSym_reads hc).append (headSym_reads hc2)) h1 hp, by simp [hP]⟩
        · cases h
          exact ⟨_, .char (headSym_reads hc) h2 h1 hp, by simp [hP]⟩
  · rintro ⟨p, hp, rfl⟩
    induction hp generalizing acc with
    | eol ha => exact loop_done ((patBody_end ha).2 (by simp))
    | close h =>
      obtain ⟨hc, rfl⟩ := reads_one_iff.1 h
      exact loop_done ((patBody_ch hc).2 (.inl (by simp)))
    | @esc n r c r1 p e r' h h1 _ ih =>
      obtain ⟨r2, h2, h3⟩ := Reads.split (v := ['\\']) (w := [c]) h
      obtain ⟨hc, rfl⟩ := reads_one_iff.1 h2
      obtain ⟨hc2, rfl⟩ := reads_one_iff.1 h3
      refine loop_more ((patBody_ch hc).2 (.inr ⟨h1, .inl ⟨rfl, c, hc2, rfl, rfl⟩⟩)) ?_ ?_
      · have := ch_lt hc; have := ch_lt hc2; omega
      · have := ih (acc := acc ++ ['\\'] ++ [c])
        simpa using this
    | @char n r c r1 p e r' h h1 h2 _ ih =>
      obtain ⟨hc, rfl⟩ := reads_one_iff.1 h
      refine loop_more ((patBody_ch hc).2 (.inr ⟨h2, .inr ⟨h1, rfl, rfl⟩⟩)) (ch_lt hc) ?_
      have := ih (acc := acc ++ [c])
      simpa using this

theorem ok_pattern {d : Char} {x : Str × Str} : Ok env (parsePattern [d]) r x r' ↔ Pat d 0 r x.1 x.2 r' := by
  obtain ⟨p, e⟩ := x
  rw [parsePattern_eq, patLoop_iff]
  simp

theorem Spec.Pat.adv {d : Char} {n : Int} {p e : Str} (h : Pat d n r p e r') : Adv r r' := by
  induction h with
  | eol => exact Adv.refl _
  | close h => exact h.adv
  | esc h _ _ ih => exact h.adv.trans ih
  | char h _ _ _ ih => exact h.adv.trans ih

/-- The end delimiter is read or missing. -/
theorem Spec.Pat.delim {d : Char} {n : Int} {p e : Str} (h : Pat d n r p e r') : e = [] ∨ e = [d] := by
  induction h with
  | eol => exact .inl rfl
  | close => exact .inr rfl
  | esc _ _ _ ih => exact ih
  | char _ _ _ _ ih => exact ih

/-! ### Ranges -/

theorem span_ne_head {f : Char → Bool} {v : Str} (h : Span f r v r') (hv : v ≠ []) : (headSym r).is f = true := by
  cases v with
  | nil => exact absurd rfl hv
  | cons c v => rw [h.1.head]; exact h.2.1 c (by simp)

theorem span_nil {f : Char → Bool} (h : (headSym r).is f = false) : Span f r [] r := ⟨Reads.nil r, by simp, h⟩

theorem span_empty {f : Char → Bool} (h : Span f r [] r') : r' = r ∧ (headSym r).is f = false := by
  have h1 := h.1.nil_inv
  subst h1
  exact ⟨rfl, h.2.2⟩

theorem span_lt {f : Char → Bool} {v : Str} (h : Span f r v r') (hv : v ≠ []) : r'.length < r.length :=
  (h.1.sadv hv).lt

def intsBody (ts : List Str) : Prog (List Str ⊕ List Str) := do
  skipWhite
  if (← peekn 1) = [] then pure (.inr ts)
  else
    let n ← readInteger
    if n = [] then pure (.inr ts) else pure (.inl (ts ++ [n]))

theorem rangeInts_eq (ts : List Str) : rangeInts ts = loop intsBody ts := rfl

theorem intsBody_inr {ts b : List Str} : Ok env (intsBody ts) r (.inr b) r' ↔
    b = ts ∧ Skip r r' ∧ (headSym r').is (fun c => c == '+' || c == '-' || isdigit c) = false := by
  unfold intsBody
  ok_simp
  simp only [ok_bind, ok_readInteger, ok_ite, ok_pure]
  constructor
  · rintro ⟨r1, hs, ⟨h, h2, rfl⟩ | ⟨h, v, r2, h1 | ⟨h1, h2, h3⟩, h4 | ⟨_, h4, _⟩⟩⟩
    · cases h2; exact ⟨rfl, hs, atEnd_is h⟩
    · obtain ⟨rfl, h5, rfl⟩ := h4
      obtain ⟨_, _, _, _, _, _, h⟩ := h1
      cases h
    · cases h4
    · obtain ⟨rfl, h5, rfl⟩ := h4
      cases h5
      obtain ⟨rfl, h6⟩ := span_empty h3
      refine ⟨rfl, hs, ?_⟩
      obtain ⟨c, hc⟩ := not_atEnd.1 h
      rw [hc] at h1 h2 h6 ⊢
      simp [Sym.is] at h1 h2 h6 ⊢
      exact ⟨⟨h1, h2⟩, h6⟩
    · cases h4
  · rintro ⟨rfl, hs, h⟩
    refine ⟨_, hs, ?_⟩
    by_cases ha : AtEnd r'
    · exact .inl ⟨ha, rfl, rfl⟩
    · refine .inr ⟨ha, [], r', .inr ?_, .inl ⟨rfl, rfl, rfl⟩⟩
      obtain ⟨c, hc⟩ := not_atEnd.1 ha
      rw [hc] at h
      simp [Sym.is] at h
      rw [hc]
      refine ⟨by simp [h.1.1], by simp [h.1.2], span_nil ?_⟩
      rw [hc]
      exact h.2

theorem intsBody_inl {ts ts' : List Str} : Ok env (intsBody ts) r (.inl ts') r' ↔
    ∃ r1, Skip r r1 ∧ ((∃ d, d ≠ [] ∧ Span isdigit r1 d r' ∧ ts' = ts ++ [d]) ∨
      ∃ s r2 d, (s = '+' ∨ s = '-') ∧ Reads r1 [s] r2 ∧ Span isdigit r2 d r' ∧ ts' = ts ++ [s :: d]) := by
  unfold intsBody
  ok_simp
  simp only [ok_bind, ok_readInteger, ok_ite, ok_pure]
  constructor
  · rintro ⟨r1, hs, ⟨h, h2, rfl⟩ | ⟨h, v, r2, h1 | ⟨h1, h2, h3⟩, ⟨_, h4, _⟩ | ⟨h5, h4, rfl⟩⟩⟩
    · cases h2
    · cases h4
    · cases h4
      obtain ⟨s, r2, d, h, h2, h3, rfl⟩ := h1
      exact ⟨r1, hs, .inr ⟨s, r2, d, h, h2, h3, rfl⟩⟩
    · cases h4
    · cases h4
      exact ⟨r1, hs, .inl ⟨_, h5, h3, rfl⟩⟩
  · rintro ⟨r1, hs, ⟨d, hd, h, rfl⟩ | ⟨s, r2, d, h, h2, h3, rfl⟩⟩
    · have hh := span_ne_head h hd
      refine ⟨r1, hs, .inr ⟨fun h => (by rw [atEnd_is h] at hh; cases hh), d, r', .inr ⟨?_, ?_, h⟩, .inr ⟨hd, rfl, rfl⟩⟩⟩
      · intro h; rw [h] at hh; simp [Sym.is, isdigit] at hh
      · intro h; rw [h] at hh; simp [Sym.is, isdigit] at hh
    · exact ⟨r1, hs, .inr ⟨fun ha => atEnd_not ha h2.head, _, r', .inl ⟨s, r2, d, h, h2, h3, rfl⟩, .inr ⟨by simp, rfl, rfl⟩⟩⟩

theorem ok_rangeInts {acc ts : List Str} : Ok env (rangeInts acc) r ts r' ↔ ∃ os, Offsets r os r' ∧ ts = acc ++ os := by
  rw [rangeInts_eq]
  refine loop_iff (R := fun acc r ts r' => ∃ os, Offsets r os r' ∧ ts = acc ++ os) ?_ ?_
  · intro s r s1 r1 h
    obtain ⟨r2, hs, ⟨d, hd, h, _⟩ | ⟨s, r3, d, _, h, h1, _⟩⟩ := intsBody_inl.1 h
    · have := hs.adv.length; have := span_lt h hd; omega
    · have := hs.adv.length; have := (h.sadv (by simp)).lt; have := h1.adv.length; omega
  · intro acc r ts r'
    rw [intsBody_inr]
    simp only [intsBody_inl]
    constructor
    · rintro ⟨os, h, rfl⟩
      cases h with
      | nil h1 h2 => exact .inl ⟨by simp, h1, h2⟩
      | num h1 h2 h3 h4 => exact .inr ⟨_, _, ⟨_, h1, .inl ⟨_, h2, h3, rfl⟩⟩, _, h4, by simp⟩
      | sign h1 h2 h3 h4 h5 => exact .inr ⟨_, _, ⟨_, h1, .inr ⟨_, _, _, h2, h3, h4, rfl⟩⟩, _, h5, by simp⟩
    · rintro (⟨rfl, h1, h2⟩ | ⟨s1, r1, ⟨r2, h1, ⟨d, hd, h2, rfl⟩ | ⟨s, r3, d, h2, h3, h4, rfl⟩⟩, os, h5, rfl⟩)
      · exact ⟨[], .nil h1 h2, by simp⟩
      · exact ⟨_, .num h1 hd h2 h5, by simp⟩
      · exact ⟨_, .sign h1 h2 h3 h4 h5, by simp⟩

theorem bind_pattern {β : Type} {d : Char} {f : Str × Str → Prog β} {b : β} :
    Ok env (parsePattern [d] >>= f) r b r' ↔ ∃ p e r1, Pat d 0 r p e r1 ∧ Ok env (f (p, e)) r1 b r' := by
  rw [ok_bind]
  simp only [ok_pattern]
  constructor
  · rintro ⟨⟨p, e⟩, r1, h⟩; exact ⟨p, e, r1, h⟩
  · rintro ⟨p, e, r1, h⟩; exact ⟨(p, e), r1, h⟩

/-- The first character decides which kind of address there is. -/
theorem ok_rangeAtom {acc : List Str} {c : Char} {x : Option (List Str)} (h : headSym r = .ch c) :
    Ok env (rangeAtom acc [c]) r x r' ↔ (∃ a, Address r a r' ∧ x = some (acc ++ a)) ∨
      (c = '\'' ∧ AtEnd r.tail ∧ r' = r.tail ∧ x = none) := by
  have hg := getn1_of h
  have hr := headSym_reads h
  have key : ∀ {d : Char} {w : Str} {r2}, Reads r (d :: w) r2 → d = c := by
    intro d w r2 h1
    have := h1.head
    rw [h] at this
    injection this with this
    exact this.symm
  unfold rangeAtom
  by_cases h1 : c = '.' ∨ c = '$'
  · rw [if_pos (by simpa using h1)]
    simp only [bind_getn, ok_pure, hg]
    constructor
    · rintro ⟨rfl, rfl⟩
      exact .inl ⟨_, .dot h1 hr, rfl⟩
    · rintro (⟨a, ha, rfl⟩ | ⟨rfl, _⟩)
      · cases ha with
        | dot h2 h3 => cases key h3; exact ⟨rfl, h3.rest_unique hr⟩
        | mark h3 => cases key h3; simp at h1
        | pat h2 h3 => cases key h3; rcases h1 with rfl | rfl <;> simp at h2
        | prev h2 h3 => cases key h3; simp at h1
        | num h2 h3 =>
          have := span_ne_head h3 h2
          rw [h] at this
          rcases h1 with rfl | rfl <;> simp [Sym.is, isdigit] at this
        | none h2 => rw [h] at h2; rcases h1 with rfl | rfl <;> simp [Sym.is] at h2
      · simp at h1
  rw [if_neg (by simpa using h1)]
  by_cases h2 : c = '\''
  · subst h2
    rw [if_pos rfl]
    simp only [bind_getn, hg]
    have notA : ∀ a, Address r a r' → ∃ m, Reads r ['\'', m] r' ∧ a = [['\'', m]] := by
      intro a ha
      cases ha with
      | dot h2 h3 => cases key h3; simp at h2
      | mark h3 => exact ⟨_, h3, rfl⟩
      | pat h2 h3 => cases key h3; simp at h2
      | prev h2 h3 => cases key h3
      | num h2 h3 =>
        have := span_ne_head h3 h2
        rw [h] at this
        simp [Sym.is, isdigit] at this
      | none h2 => rw [h] at h2; simp [Sym.is] at h2
    rcases getn1_cases r.tail with ⟨m, hm, hgm, hrm⟩ | ⟨ha, hgm⟩
    · rw [hgm]
      simp only [reduceCtorEq, if_false, ok_pure]
      constructor
      · rintro ⟨rfl, rfl⟩
        exact .inl ⟨_, .mark (hr.append hrm), rfl⟩
      · rintro (⟨a, ha, rfl⟩ | ⟨_, ha, _⟩)
        · obtain ⟨m', h3, rfl⟩ := notA a ha
          obtain ⟨r2, h4, h5⟩ := Reads.split (v := ['\'']) (w := [m']) h3
          obtain ⟨_, rfl⟩ := reads_one_iff.1 h4
          obtain ⟨h6, rfl⟩ := reads_one_iff.1 h5
          rw [hm] at h6
          cases h6
          exact ⟨rfl, rfl⟩
        · exact absurd hm (atEnd_not ha)
    · rw [hgm]
      simp only [if_true, ok_pure]
      constructor
      · rintro ⟨rfl, rfl⟩
        exact .inr ⟨trivial, ha, rfl, rfl⟩
      · rintro (⟨a, h3, rfl⟩ | ⟨_, _, rfl, rfl⟩)
        · obtain ⟨m', h6, rfl⟩ := notA a h3
          obtain ⟨r2, h4, h5⟩ := Reads.split (v := ['\'']) (w := [m']) h6
          obtain ⟨_, rfl⟩ := reads_one_iff.1 h4
          exact absurd h5.head (atEnd_not ha)
        · exact ⟨rfl, rfl⟩
  rw [if_neg (by simpa using h2)]
  by_cases h3 : c = '/' ∨ c = '?'
  · rw [if_pos (by simpa using h3)]
    simp only [bind_getn, hg, bind_pattern, ok_pure]
    constructor
    · rintro ⟨p, e, r1, hp, rfl, rfl⟩
      exact .inl ⟨_, .pat h3 hr hp, rfl⟩
    · rintro (⟨a, ha, rfl⟩ | ⟨rfl, _⟩)
      · cases ha with
        | dot h2 h4 => cases key h4; exact absurd h2 h1
        | mark h3 => cases key h3; exact absurd rfl h2
        | pat h2 h4 h5 => cases key h4; cases h4.rest_unique hr; exact ⟨_, _, _, h5, rfl, rfl⟩
        | prev h2 h4 => cases key h4; simp at h3
        | num h2 h4 =>
          have := span_ne_head h4 h2
          rw [h] at this
          rcases h3 with rfl | rfl <;> simp [Sym.is, isdigit] at this
        | none h2 => rw [h] at h2; rcases h3 with rfl | rfl <;> simp [Sym.is] at h2
      · exact absurd rfl h2
  rw [if_neg (by simpa using h3)]
  by_cases h4 : c = '\\'
  · subst h4
    rw [if_pos rfl]
    have hne : r ≠ [] := by rintro rfl; cases h
    simp only [bind_p1 hne, ok_ite, bind_seekCur, ok_pure, ok_errHere, and_false, or_false]
    constructor
    · rintro ⟨hl, hc, _, rfl, rfl⟩
      refine .inl ?_
      rcases hc with hc | hc | hc <;> rw [hc] <;>
      · refine ⟨_, .prev (by simp) ?_, rfl⟩
        have := hr.append (headSym_reads hc)
        rw [tail_tail'] at this
        exact this
    · rintro (⟨a, ha, rfl⟩ | ⟨h4, _⟩)
      · cases ha with
        | dot h2 h4 => cases key h4; exact absurd h2 h1
        | mark h3 => cases key h3
        | pat h2 h4 h5 => cases key h4; exact absurd h2 h3
        | @prev m _ h2 h4 =>
          obtain ⟨r2, h5, h6⟩ := Reads.split (v := ['\\']) (w := [m]) h4
          obtain ⟨_, rfl⟩ := reads_one_iff.1 h5
          obtain ⟨h7, rfl⟩ := reads_one_iff.1 h6
          rw [h7]
          have l1 := ch_lt h
          have l2 := ch_lt h7
          refine ⟨(by intro h; rw [h] at h7; cases h7), by simpa using h2, by omega, ?_, by rw [tail_tail']⟩
          rfl
        | num h2 h4 =>
          have := span_ne_head h4 h2
          rw [h] at this
          simp [Sym.is, isdigit] at this
        | none h2 => rw [h] at h2; simp [Sym.is] at h2
      · cases h4
  rw [if_neg (by simpa using h4)]
  rw [ok_ite]
  simp only [readDigit, bind_readWhile, ok_pure]
  have his : is1 isdigit [c] = isdigit c := rfl
  rw [his]
  constructor
  · rintro (⟨h5, v, r1, h6, rfl, rfl⟩ | ⟨h5, rfl, rfl⟩)
    · refine .inl ⟨_, .num ?_ h6, rfl⟩
      rintro rfl
      have := (span_empty h6).2
      rw [h] at this
      simp [Sym.is, h5] at this
    · refine .inl ⟨[], .none ?_, by simp⟩
      rw [h]
      simp only [not_or] at h1 h3
      simp [Sym.is, h1, h2, h3, h4, h5]
  · rintro (⟨a, ha, rfl⟩ | ⟨h5, _⟩)
    · cases ha with
      | dot h2 h4 => cases key h4; exact absurd h2 h1
      | mark h3 => cases key h3; exact absurd rfl h2
      | pat h2 h4 h5 => cases key h4; exact absurd h2 h3
      | prev h2 h3 => cases key h3; exact absurd rfl h4
      | num h5 h6 =>
        refine .inl ⟨?_, _, _, h6, rfl, rfl⟩
        have := span_ne_head h6 h5
        rw [h] at this
        exact this
      | none h5 =>
        rw [h] at h5
        refine .inr ⟨?_, by simp, rfl⟩
        simp only [Sym.is, Bool.or_eq_false_iff] at h5
        simp [h5.2]
    · exact absurd h5 h2

theorem Spec.Offsets.adv {os : List Str} (h : Offsets r os r') : Adv r r' := by
  induction h with
  | nil h _ => exact h.adv
  | num h1 _ h2 _ ih => exact (h1.adv.trans h2.adv).trans ih
  | sign h1 _ h2 h3 _ ih => exact ((h1.adv.trans h2.adv).trans h3.adv).trans ih

theorem Spec.Address.adv {a : List Str} (h : Address r a r') : Adv r r' := by
  cases h with
  | dot _ h => exact h.adv
  | mark h => exact h.adv
  | pat _ h1 h2 => exact h1.adv.trans h2.adv
  | prev _ h => exact h.adv
  | num _ h => exact h.adv
  | none => exact Adv.refl _

/-- Before a further pattern something was read. -/
theorem address_lt {r1 r2 : List Cell} {a os : List Str} (hs : Skip r r1) (ha : Address r1 a r2) (ho : Offsets r2 os r')
    (h : headSym r' = .ch '/' ∨ headSym r' = .ch '?') : r'.length < r.length := by
  have l1 := hs.adv.length
  have l3 := ho.adv.length
  cases ha with
  | dot _ h => have := (h.sadv (by simp)).lt; omega
  | mark h => have := (h.sadv (by simp)).lt; omega
  | pat _ h1 h2 => have := (h1.sadv (by simp)).lt; have := h2.adv.length; omega
  | prev _ h => have := (h.sadv (by simp)).lt; omega
  | num hd h => have := span_lt h hd; omega
  | none hn =>
    cases ho with
    | nil h1 _ =>
      cases h1.det hs.again
      rcases h with h | h <;> rw [h] at hn <;> simp [Sym.is] at hn
    | num h1 hd h2 h3 => have := h1.adv.length; have := span_lt h2 hd; have := h3.adv.length; omega
    | sign h1 _ h2 h3 h4 =>
      have := h1.adv.length; have := (h2.sadv (by simp)).lt; have := h3.adv.length; have := h4.adv.length; omega

def innerBody (ts : List Str) : Prog (List Str ⊕ List Str) := do
  skipWhite
  let c ← peekn 1
  if c = [] then pure (.inr ts)
  else
    let r ← rangeAtom ts c
    match r with
    | none => pure (.inr ts)
    | some ts =>
      let ts ← rangeInts ts
      let x ← p 0
      if x ≠ .ch '/' ∧ x ≠ .ch '?' then pure (.inr ts) else pure (.inl ts)

theorem rangeInner_eq (ts : List Str) : rangeInner ts = loop innerBody ts := rfl

theorem ok_innerBody {ts : List Str} {x : List Str ⊕ List Str} : Ok env (innerBody ts) r x r' ↔
    (Skip r r' ∧ AtEnd r' ∧ x = .inr ts) ∨ (∃ r1, Skip r r1 ∧ Reads r1 ['\''] r' ∧ AtEnd r' ∧ x = .inr ts) ∨
    ∃ r1 a r2 os, Skip r r1 ∧ ¬ AtEnd r1 ∧ Address r1 a r2 ∧ Offsets r2 os r' ∧
      ((headSym r' ≠ .ch '/' ∧ headSym r' ≠ .ch '?' ∧ x = .inr (ts ++ (a ++ os))) ∨
        ((headSym r' = .ch '/' ∨ headSym r' = .ch '?') ∧ x = .inl (ts ++ (a ++ os)))) := by
  unfold innerBody
  rw [bind_skipWhite]
  constructor
  · rintro ⟨r1, hs, h⟩
    rw [bind_peekn, ok_ite, get1_nil, ok_pure] at h
    rcases h with ⟨h, rfl, rfl⟩ | ⟨h, h1⟩
    · exact .inl ⟨hs, h, rfl⟩
    · refine .inr ?_
      obtain ⟨c, hc⟩ := not_atEnd.1 h
      rw [getn1_of hc, ok_bind] at h1
      obtain ⟨y, r2, h1, h2⟩ := h1
      rcases (ok_rangeAtom hc).1 h1 with ⟨a, ha, rfl⟩ | ⟨rfl, h3, rfl, rfl⟩
      · dsimp only at h2
        rw [ok_bind] at h2
        obtain ⟨z, r3, h2, h3⟩ := h2
        obtain ⟨os, ho, rfl⟩ := ok_rangeInts.1 h2
        rw [bind_p0, ok_ite, ok_pure, ok_pure] at h3
        refine .inr ⟨r1, a, r2, os, hs, h, ha, ?_⟩
        rcases h3 with ⟨h3, rfl, rfl⟩ | ⟨h3, rfl, rfl⟩
        · exact ⟨ho, .inl ⟨h3.1, h3.2, by simp⟩⟩
        · refine ⟨ho, .inr ⟨?_, by simp⟩⟩
          simp only [ne_eq, not_and, Classical.not_not] at h3
          by_cases h4 : headSym r' = .ch '/'
          · exact .inl h4
          · exact .inr (h3 h4)
      · obtain ⟨rfl, rfl⟩ := ok_pure.1 h2
        exact .inl ⟨r1, hs, headSym_reads hc, h3, rfl⟩
  · have go : ∀ {r1 c}, headSym r1 = .ch c → ∀ {y r2}, Ok env (rangeAtom ts [c]) r1 y r2 →
        Ok env (match y with
          | none => pure (.inr ts)
          | some ts => do
            let ts ← rangeInts ts
            let x ← p 0
            if x ≠ .ch '/' ∧ x ≠ .ch '?' then pure (.inr ts) else pure (.inl ts)) r2 x r' →
        Ok env (do
          let c ← peekn 1
          if c = [] then pure (.inr ts)
          else
            let r ← rangeAtom ts c
            match r with
            | none => pure (.inr ts)
            | some ts =>
              let ts ← rangeInts ts
              let x ← p 0
              if x ≠ .ch '/' ∧ x ≠ .ch '?' then pure (.inr ts) else pure (.inl ts)) r1 x r' := by
      intro r1 c hc y r2 h1 h2
      rw [bind_peekn, getn1_of hc, if_neg (by simp), ok_bind]
      exact ⟨_, _, h1, h2⟩
    rintro (⟨hs, ha, rfl⟩ | ⟨r1, hs, h1, ha, rfl⟩ | ⟨r1, a, r2, os, hs, hn, ha, ho, h⟩)
    · refine ⟨r', hs, ?_⟩
      rw [bind_peekn, if_pos (get1_nil.2 ha)]
      exact ok_pure.2 ⟨rfl, rfl⟩
    · refine ⟨r1, hs, ?_⟩
      obtain ⟨hc, rfl⟩ := reads_one_iff.1 h1
      exact go hc ((ok_rangeAtom hc).2 (.inr ⟨rfl, ha, rfl, rfl⟩)) (ok_pure.2 ⟨rfl, rfl⟩)
    · refine ⟨r1, hs, ?_⟩
      obtain ⟨c, hc⟩ := not_atEnd.1 hn
      refine go hc ((ok_rangeAtom hc).2 (.inl ⟨a, ha, rfl⟩)) ?_
      dsimp only
      rw [ok_bind]
      refine ⟨_, _, ok_rangeInts.2 ⟨os, ho, rfl⟩, ?_⟩
      rw [bind_p0, ok_ite, ok_pure, ok_pure]
      rcases h with ⟨h1, h2, rfl⟩ | ⟨h1, rfl⟩
      · exact .inl ⟨⟨h1, h2⟩, by simp, rfl⟩
      · refine .inr ⟨?_, by simp, rfl⟩
        rintro ⟨h2, h3⟩
        exact h1.elim h2 h3

theorem ok_rangeInner {acc ts : List Str} : Ok env (rangeInner acc) r ts r' ↔ ∃ as, Addresses r as r' ∧ ts = acc ++ as := by
  rw [rangeInner_eq]
  refine loop_iff (R := fun acc r ts r' => ∃ as, Addresses r as r' ∧ ts = acc ++ as) ?_ ?_
  · intro s r s1 r1 h
    rcases ok_innerBody.1 h with ⟨_, _, h⟩ | ⟨_, _, _, _, h⟩ | ⟨r2, a, r3, os, hs, _, ha, ho, ⟨_, _, h⟩ | ⟨h, _⟩⟩
    · cases h
    · cases h
    · cases h
    · exact address_lt hs ha ho h
  · intro acc r ts r'
    simp only [ok_innerBody]
    constructor
    · rintro ⟨as, h, rfl⟩
      cases h with
      | eol h1 h2 => exact .inl (.inl ⟨h1, h2, by simp⟩)
      | quote h1 h2 h3 => exact .inl (.inr (.inl ⟨_, h1, h2, h3, by simp⟩))
      | one h1 h2 h3 h4 h5 h6 => exact .inl (.inr (.inr ⟨_, _, _, _, h1, h2, h3, h4, .inl ⟨h5, h6, rfl⟩⟩))
      | more h1 h2 h3 h4 h5 h6 =>
        exact .inr ⟨_, _, .inr (.inr ⟨_, _, _, _, h1, h2, h3, h4, .inr ⟨h5, rfl⟩⟩), _, h6, by simp⟩
    · rintro ((⟨h1, h2, h⟩ | ⟨r1, h1, h2, h3, h⟩ | ⟨r1, a, r2, os, h1, h2, h3, h4, ⟨h5, h6, h⟩ | ⟨_, h⟩⟩) |
        ⟨ts1, r1, (⟨_, _, h⟩ | ⟨_, _, _, _, h⟩ | ⟨r2, a, r3, os, h1, h2, h3, h4, ⟨_, _, h⟩ | ⟨h5, h⟩⟩), as, h6, rfl⟩)
      · cases h; exact ⟨[], .eol h1 h2, by simp⟩
      · cases h; exact ⟨[], .quote h1 h2 h3, by simp⟩
      · cases h; exact ⟨_, .one h1 h2 h3 h4 h5 h6, rfl⟩
      · cases h
      · cases h
      · cases h
      · cases h
      · cases h
        exact ⟨_, .more h1 h2 h3 h4 h5 h6, by simp⟩

theorem Spec.Addresses.adv {as : List Str} (h : Addresses r as r') : Adv r r' := by
  induction h with
  | eol h _ => exact h.adv
  | quote h1 h2 _ => exact h1.adv.trans h2.adv
  | one h1 _ h2 h3 => exact (h1.adv.trans h2.adv).trans h3.adv
  | more h1 _ h2 h3 _ _ ih => exact ((h1.adv.trans h2.adv).trans h3.adv).trans ih

theorem Spec.WholeFile.adv {w : List Str} (h : WholeFile r w r') : Adv r r' := by
  cases h with
  | yes _ h => exact h.adv
  | no => exact Adv.refl _

def rangeBody (ts : List Str) : Prog (List Str ⊕ List Str) := do
  let ts ← rangeInner ts
  let c ← peekn 1
  let ts ← if c = cs!"%" ∨ c = cs!"*" then do
      let t ← getn 1
      pure (ts ++ [t])
    else pure ts
  let c ← peekn 1
  if c = cs!";" ∨ c = cs!"," then
    let t ← getn 1
    pure (.inl (ts ++ [t]))
  else pure (.inr ts)

theorem parseRange_eq : parseRange = loop rangeBody [] := rfl

/-- A program that reads one of some characters or does nothing. -/
theorem ok_rangeBody {ts : List Str} {x : List Str ⊕ List Str} : Ok env (rangeBody ts) r x r' ↔
    ∃ as r1 w r2, Addresses r as r1 ∧ WholeFile r1 w r2 ∧
      ((headSym r2 ≠ .ch ';' ∧ headSym r2 ≠ .ch ',' ∧ r' = r2 ∧ x = .inr (ts ++ (as ++ w))) ∨
        ∃ c, (c = ';' ∨ c = ',') ∧ Reads r2 [c] r' ∧ x = .inl (ts ++ (as ++ w ++ [[c]]))) := by
  have last : ∀ (ts : List Str) (r2 : List Cell), Ok env (do
      let c ← peekn 1
      if c = cs!";" ∨ c = cs!"," then
        let t ← getn 1
        pure (.inl (ts ++ [t]))
      else pure (.inr ts)) r2 x r' ↔
      ((headSym r2 ≠ .ch ';' ∧ headSym r2 ≠ .ch ',' ∧ r' = r2 ∧ x = .inr ts) ∨
        ∃ c, (c = ';' ∨ c = ',') ∧ Reads r2 [c] r' ∧ x = .inl (ts ++ [[c]])) := by
    intro ts r2
    rw [bind_peekn, ok_ite, bind_getn, ok_pure, ok_pure]
    simp only [get1_ch, reads_one_iff]
    constructor
    · rintro (⟨h | h, rfl, rfl⟩ | ⟨h, rfl, rfl⟩)
      · rw [getn1_of h]; exact .inr ⟨_, .inl rfl, ⟨h, rfl⟩, rfl⟩
      · rw [getn1_of h]; exact .inr ⟨_, .inr rfl, ⟨h, rfl⟩, rfl⟩
      · rw [not_or] at h; exact .inl ⟨h.1, h.2, rfl, rfl⟩
    · rintro (⟨h1, h2, rfl, rfl⟩ | ⟨c, h, ⟨hc, rfl⟩, rfl⟩)
      · exact .inr ⟨by simp [h1, h2], rfl, rfl⟩
      · refine .inl ⟨?_, by rw [getn1_of hc], by rw [getn1_of hc]⟩
        rw [hc]
        rcases h with rfl | rfl
        · exact .inl rfl
        · exact .inr rfl
  unfold rangeBody
  rw [ok_bind]
  simp only [ok_rangeInner]
  constructor
  · rintro ⟨_, r1, ⟨as, h1, rfl⟩, h⟩
    rw [bind_peekn, ok_ite, bind_getn, bind_pure', bind_pure', last, last, get1_ch, get1_ch] at h
    rcases h with ⟨h2, h3⟩ | ⟨h2, h3⟩
    · rcases h2 with h2 | h2
      · rw [getn1_of h2] at h3
        refine ⟨as, r1, _, _, h1, .yes (.inl rfl) (headSym_reads h2), ?_⟩
        simpa using h3
      · rw [getn1_of h2] at h3
        refine ⟨as, r1, _, _, h1, .yes (.inr rfl) (headSym_reads h2), ?_⟩
        simpa using h3
    · rw [not_or] at h2
      refine ⟨as, r1, _, _, h1, .no h2.1 h2.2, ?_⟩
      simpa using h3
  · rintro ⟨as, r1, w, r2, h1, h2, h3⟩
    refine ⟨_, r1, ⟨as, h1, rfl⟩, ?_⟩
    rw [bind_peekn, ok_ite, bind_getn, bind_pure', bind_pure', last, last, get1_ch, get1_ch]
    cases h2 with
    | yes hc h =>
      obtain ⟨hh, rfl⟩ := reads_one_iff.1 h
      rw [getn1_of hh, hh]
      refine .inl ⟨by simpa using hc, ?_⟩
      simpa using h3
    | no h4 h5 =>
      refine .inr ⟨by simp [h4, h5], ?_⟩
      simpa using h3

theorem ok_range {ts : List Str} : Ok env parseRange r ts r' ↔ Range r ts r' := by
  rw [parseRange_eq, loop_iff (R := fun acc r ts r' => ∃ as, Range r as r' ∧ ts = acc ++ as)]
  · simp
  · intro s r s1 r1 h
    obtain ⟨as, r2, w, r3, h1, h2, ⟨_, _, _, h⟩ | ⟨c, _, h3, _⟩⟩ := ok_rangeBody.1 h
    · cases h
    · have := h1.adv.length; have := h2.adv.length; have := (h3.sadv (by simp)).lt; omega
  · intro acc r ts r'
    simp only [ok_rangeBody]
    constructor
    · rintro ⟨as, h, rfl⟩
      cases h with
      | last h1 h2 h3 h4 => exact .inl ⟨_, _, _, _, h1, h2, .inl ⟨h3, h4, rfl, rfl⟩⟩
      | more h1 h2 h3 h4 h5 => exact .inr ⟨_, _, ⟨_, _, _, _, h1, h2, .inr ⟨_, h3, h4, rfl⟩⟩, _, h5, by simp⟩
    · rintro (⟨as, r1, w, r2, h1, h2, ⟨h3, h4, rfl, h⟩ | ⟨_, _, _, h⟩⟩ |
        ⟨ts1, r3, ⟨as, r1, w, r2, h1, h2, ⟨_, _, _, h⟩ | ⟨c, h3, h4, h⟩⟩, as', h5, rfl⟩)
      · cases h; exact ⟨_, .last h1 h2 h3 h4, rfl⟩
      · cases h
      · cases h
      · cases h; exact ⟨_, .more h1 h2 h3 h4 h5, by simp⟩

theorem Spec.Range.adv {as : List Str} (h : Range r as r') : Adv r r' := by
  induction h with
  | last h1 h2 => exact h1.adv.trans h2.adv
  | more h1 h2 _ h3 _ ih => exact ((h1.adv.trans h2.adv).trans h3.adv).trans ih

end
end Viml
