/-
Bang and options before the arguments of a command: the parser reads exactly those of the grammar.
-/
import Verif.Lemmas.FileName

namespace Viml
open Prog Spec

section
variable {env : Env} {fn : Str} {r r' : List Cell}

/-! ### The rest of the line -/

theorem reads_iff_line {v : Str} : Reads r v r' ↔ v <+: lineS r ∧ r' = r.drop v.length := by
  constructor
  · intro h
    obtain ⟨s, hs⟩ := lineIs_total r'
    have := lineIs_iff.1 (lineIs_split.2 ⟨r', h, hs⟩)
    exact ⟨⟨s, this⟩, reads_drop h⟩
  · rintro ⟨⟨s, hs⟩, rfl⟩
    obtain ⟨r1, h1, _⟩ := lineIs_split.1 (lineIs_iff.2 hs)
    have := reads_drop h1
    rwa [← this]

theorem startsWith_line {v : Str} : StartsWith r v ↔ v <+: lineS r := by
  constructor
  · rintro ⟨r', h⟩; exact (reads_iff_line.1 h).1
  · intro h; exact ⟨_, reads_iff_line.2 ⟨h, rfl⟩⟩

theorem Spec.Reads.line {v : Str} (h : Reads r v r') : lineS r = v ++ lineS r' := by
  obtain ⟨s, hs⟩ := lineIs_total r'
  rw [← lineIs_iff.1 hs]
  exact (lineIs_iff.1 (lineIs_split.2 ⟨r', h, hs⟩)).symm

theorem line_stops {f : Char → Bool} : StopsAt f (lineS r) ↔ (headSym r).is f = false :=
  stopsAt_iff (lineIs_iff.2 rfl)

theorem line_nil : lineS r = [] ↔ AtEnd r := by
  constructor
  · intro h
    obtain ⟨e, h1, h2⟩ := lineIs_iff.2 h.symm
    rwa [h1.unnil] at h2
  · intro h
    exact (lineIs_iff.1 ⟨r, Reads.nil r, h⟩).symm

theorem line_cons {c : Char} {s : Str} (h : lineS r = c :: s) : headSym r = .ch c := by
  obtain ⟨e, h1, _⟩ := lineIs_iff.2 h.symm
  exact h1.head

theorem getn_line (n : Nat) : (getnS n r).1 = (lineS r).take n := by rw [getnS_line]

/-- The rest of the input is empty or ends with a line end. -/
def Tidy (r : List Cell) : Prop := r ≠ [] → Ended r

theorem Suf.tidy (he : EnvOK env) (h : Suf env r) : Tidy r := fun hr => h.ended he hr

theorem Tidy.reads {v : Str} (h : Tidy r) (hr : Reads r v r') : Tidy r' := by
  intro h'
  refine (h ?_).to_reads hr
  rintro rfl
  obtain ⟨pre, h1, _⟩ := hr
  rw [List.nil_eq, List.append_eq_nil_iff] at h1
  exact h' h1.2

theorem ok_pIs0 {x : Char} {b : Bool} : Ok env (pIs 0 x) r b r' ↔ b = decide (headSym r = .ch x) ∧ r' = r := by
  unfold pIs
  rw [bind_p0]
  exact ok_pure

theorem bind_pIs0 {β : Type} {x : Char} {f : Bool → Prog β} {b : β} :
    Ok env (pIs 0 x >>= f) r b r' ↔ Ok env (f (decide (headSym r = .ch x))) r b r' := by
  rw [ok_bind]
  simp only [ok_pIs0]
  constructor
  · rintro ⟨_, _, ⟨rfl, rfl⟩, h⟩; exact h
  · intro h; exact ⟨_, _, ⟨rfl, rfl⟩, h⟩

theorem ok_pIs1 {x : Char} {b : Bool} (hr : r ≠ []) :
    Ok env (pIs 1 x) r b r' ↔ r.tail ≠ [] ∧ b = decide (headSym r.tail = .ch x) ∧ r' = r := by
  unfold pIs
  rw [bind_p1 hr]
  exact and_congr Iff.rfl ok_pure

theorem head_ne_nil {c : Char} (h : headSym r = .ch c) : r ≠ [] := by rintro rfl; cases h

theorem Tidy.tail {c : Char} (h : Tidy r) (hc : headSym r = .ch c) : r.tail ≠ [] := by
  have := (h (head_ne_nil hc)).lt (k := 0) (x := c) (by cases r <;> exact hc)
  intro h2
  have h3 : r.tail.length = 0 := by rw [h2]; rfl
  rw [List.length_tail] at h3
  omega

theorem startsWith2 {a b : Char} : StartsWith r [a, b] ↔ headSym r = .ch a ∧ headSym r.tail = .ch b := by
  constructor
  · rintro ⟨r', h⟩
    obtain ⟨r1, h1, h2⟩ := Reads.split (v := [a]) (w := [b]) h
    have := reads_one_iff.1 h1
    rw [this.2] at h2
    exact ⟨this.1, h2.head⟩
  · rintro ⟨h1, h2⟩
    exact ⟨_, Reads.append (v := [a]) (w := [b]) (headSym_reads h1) (headSym_reads h2)⟩

/-- Two characters ahead. -/
theorem ok_two {a b : Char} {x : Bool} (hg : Tidy r) :
    Ok env (pand (pIs 0 a) (pIs 1 b)) r x r' ↔ (x = true ↔ StartsWith r [a, b]) ∧ r' = r := by
  unfold pand
  rw [bind_pIs0, ok_ite, ok_pure, startsWith2]
  by_cases h : headSym r = .ch a
  · simp only [h, decide_true, true_and, not_true, false_and, or_false, true_and]
    rw [ok_pIs1 (head_ne_nil h)]
    simp only [ne_eq, hg.tail h, not_false_eq_true, true_and]
    constructor
    · rintro ⟨rfl, rfl⟩; simp
    · rintro ⟨h, rfl⟩
      refine ⟨?_, rfl⟩
      cases x <;> simp_all
  · simp only [h, decide_false, Bool.false_eq_true, false_and, not_false_eq_true, true_and, false_or, iff_false,
      Bool.not_eq_true]

theorem wordEnd_line : wordEnd (lineS r) = true ↔ (headSym r).is iswordc = false := by
  rw [← line_stops]
  cases lineS r with
  | nil => simp [wordEnd, StopsAt]
  | cons c s => simp [wordEnd, StopsAt]

theorem take_prefix {v l : Str} {n : Nat} (h : v.length ≤ n) : v.isPrefixOf (l.take n) = true ↔ v <+: l := by
  rw [List.isPrefixOf_iff_prefix]
  constructor
  · intro h1; exact h1.trans (List.take_prefix _ _)
  · intro h1; exact List.prefix_take_iff.2 ⟨h1, h⟩

theorem word_iff {pre : Str} {n : Nat} (hn : pre.length < n) :
    prefixWord pre (getnS n r).1 = true ↔ ∃ r', WordAt r pre r' := by
  unfold prefixWord
  rw [Bool.and_eq_true, getn_line, take_prefix (Nat.le_of_lt hn), ← startsWith_line]
  have key : ∀ r1, Reads r pre r1 → (wordEnd (((lineS r).take n).drop pre.length) = true ↔ (headSym r1).is iswordc = false) := by
    intro r1 h
    rw [← wordEnd_line, h.line, List.take_append, List.drop_append]
    have h1 : pre.length - n = 0 := by omega
    have h2 : List.take n pre = pre := List.take_of_length_le (Nat.le_of_lt hn)
    rw [h2]
    simp only [List.drop_length, List.nil_append, Nat.sub_self, List.drop_zero]
    cases lineS r1 with
    | nil => simp
    | cons c s =>
      obtain ⟨k, hk⟩ : ∃ k, n - pre.length = k + 1 := ⟨n - pre.length - 1, by omega⟩
      rw [hk]
      simp [wordEnd]
  constructor
  · rintro ⟨⟨r1, h1⟩, h2⟩
    exact ⟨r1, h1, (key r1 h1).1 h2⟩
  · rintro ⟨r1, h1, h2⟩
    exact ⟨⟨r1, h1⟩, (key r1 h1).2 h2⟩

theorem nonspace_iff {pre : Str} {n : Nat} (hn : pre.length < n) :
    prefixNonspace pre (getnS n r).1 = true ↔ ∃ r', Reads r pre r' ∧ ¬ AtEnd r' ∧ (headSym r').is isSpaceRe = false := by
  unfold prefixNonspace
  rw [Bool.and_eq_true, getn_line, take_prefix (Nat.le_of_lt hn), ← startsWith_line]
  have key : ∀ r1, Reads r pre r1 → ((match ((lineS r).take n).drop pre.length with | [] => false | c :: _ => !isSpaceRe c) = true ↔
      ¬ AtEnd r1 ∧ (headSym r1).is isSpaceRe = false) := by
    intro r1 h
    rw [← line_stops, ← line_nil, h.line, List.take_append, List.drop_append]
    have h2 : List.take n pre = pre := List.take_of_length_le (Nat.le_of_lt hn)
    rw [h2]
    simp only [List.drop_length, List.nil_append, Nat.sub_self, List.drop_zero]
    cases lineS r1 with
    | nil => simp
    | cons c s =>
      obtain ⟨k, hk⟩ : ∃ k, n - pre.length = k + 1 := ⟨n - pre.length - 1, by omega⟩
      rw [hk]
      simp [StopsAt]
  constructor
  · rintro ⟨⟨r1, h1⟩, h2⟩
    exact ⟨r1, h1, (key r1 h1).1 h2⟩
  · rintro ⟨r1, h1, h2⟩
    exact ⟨⟨r1, h1⟩, (key r1 h1).2 h2⟩

/-! ### Records -/

/-- The positions of a record are kept. -/
structure Keep (a b : ExArg) : Prop where
  linepos : b.linepos = a.linepos
  cmdpos : b.cmdpos = a.cmdpos
  argpos : b.argpos = a.argpos

theorem Keep.refl (a : ExArg) : Keep a a := ⟨rfl, rfl, rfl⟩
theorem Keep.trans {a b c : ExArg} (h : Keep a b) (h' : Keep b c) : Keep a c :=
  ⟨h'.1.trans h.1, h'.2.trans h.2, h'.3.trans h.3⟩

theorem Keep.ext {a b : ExArg} (h : Keep a b) (he : Export.exArg fn b = Export.exArg fn a) : b = a := by
  obtain ⟨h1, h2, h3⟩ := h
  cases a
  cases b
  simp only [Export.exArg, Ast.ExArg.mk.injEq] at he h1 h2 h3 ⊢
  simp [he, h1, h2, h3]

theorem keep_iff {a b : ExArg} {x : Ast.ExArg} (hx : x = Export.exArg fn a) (c : ExArg) (hc : Keep c a) :
    (Export.exArg fn b = x ∧ Keep c b) ↔ b = a := by
  subst hx
  constructor
  · rintro ⟨h1, h2⟩
    refine Keep.ext (fn := fn) ⟨?_, ?_, ?_⟩ h1
    · rw [h2.1, hc.1]
    · rw [h2.2, hc.2]
    · rw [h2.3, hc.3]
  · rintro rfl; exact ⟨rfl, hc⟩

theorem keep_eq {b c : ExArg} {x : Ast.ExArg} (a : ExArg) (hb : Export.exArg fn b = x) (hk : Keep c b)
    (hx : x = Export.exArg fn a) (hc : Keep c a) : b = a := (keep_iff hx c hc).1 ⟨hb, hk⟩

/-- The record with fields of a public record and positions of another. -/
def withPos (a : ExArg) (x : Ast.ExArg) : ExArg :=
  { forceit := x.forceit, doEcmdCmd := x.doEcmdCmd, append := x.append, usefilter := x.usefilter, amount := x.amount, forceBin := x.forceBin, readEdit := x.readEdit, forceFf := x.forceFf, forceEnc := x.forceEnc, badChar := x.badChar, linepos := a.linepos, cmdpos := a.cmdpos, argpos := a.argpos, cmd := x.cmd, modifiers := x.modifiers, range := x.range }

/-- Only fields that are no positions differ. -/
structure KeepX (a b : Ast.ExArg) : Prop where
  linepos : b.linepos = a.linepos
  cmdpos : b.cmdpos = a.cmdpos
  argpos : b.argpos = a.argpos

theorem withPos_ex {a : ExArg} {x : Ast.ExArg} (h : KeepX (Export.exArg fn a) x) : Export.exArg fn (withPos a x) = x := by
  obtain ⟨h1, h2, h3⟩ := h
  cases x
  simp only [Export.exArg, withPos] at h1 h2 h3 ⊢
  simp [h1, h2, h3]

theorem withPos_keep (a : ExArg) (x : Ast.ExArg) : Keep a (withPos a x) := ⟨rfl, rfl, rfl⟩

/-! ### The options -/

theorem ok_bang {c : Cmd} {b : Bool} : Ok env (parseBang c) r b r' ∧ (!c.has .BANG && b && !c.has .USERCMD) = false ↔
    Bang c r b r' := by
  unfold parseBang
  rw [bind_peekn, ok_ite, bind_getn, ok_pure, ok_pure, get1_ch]
  have hn : (c.name ≠ cs!"substitute" ∧ c.name ≠ cs!"smagic" ∧ c.name ≠ cs!"snomagic") ↔
      c.name ∉ [cs!"substitute", cs!"smagic", cs!"snomagic"] := by simp [not_or]
  constructor
  · rintro ⟨⟨⟨h1, h2⟩, rfl, rfl⟩ | ⟨h1, rfl, rfl⟩, h3⟩
    · rw [hn] at h2
      refine .yes ?_ h2 ?_
      · rw [getn1_of h1]; exact headSym_reads h1
      · simp only [Cmd.has, Bool.and_true, Bool.and_eq_false_iff, Bool.not_eq_false', List.contains_iff_mem] at h3
        exact h3
    · refine .no ?_
      rw [hn] at h1
      by_cases h : headSym r' = .ch '!'
      · right
        refine Classical.byContradiction fun h' => h1 ⟨h, h'⟩
      · exact .inl h
  · intro h
    cases h with
    | yes h1 h2 h3 =>
      obtain ⟨h4, rfl⟩ := reads_one_iff.1 h1
      refine ⟨.inl ⟨⟨h4, hn.2 h2⟩, rfl, (by rw [getn1_of h4])⟩, ?_⟩
      simp only [Cmd.has, Bool.and_true, Bool.and_eq_false_iff, Bool.not_eq_false', List.contains_iff_mem]
      exact h3
    | no h1 =>
      refine ⟨.inr ⟨?_, rfl, rfl⟩, by simp⟩
      rintro ⟨h2, h3⟩
      rcases h1 with h1 | h1
      · exact h1 h2
      · exact hn.1 h3 h1

theorem bind_two {β : Type} {a b : Char} {m m' : Prog β} {x : β} (hg : Tidy r) :
    Ok env (do if ← pand (pIs 0 a) (pIs 1 b) then m else m') r x r' ↔
      StartsWith r [a, b] ∧ Ok env m r x r' ∨ ¬ StartsWith r [a, b] ∧ Ok env m' r x r' := by
  rw [ok_bind]
  constructor
  · rintro ⟨y, r1, h1, h2⟩
    obtain ⟨h3, rfl⟩ := (ok_two hg).1 h1
    rw [← h3]
    exact ok_ite.1 h2
  · intro h
    by_cases hs : StartsWith r [a, b]
    · refine ⟨true, r, (ok_two hg).2 ⟨by simp [hs], rfl⟩, ?_⟩
      simpa [hs] using h
    · refine ⟨false, r, (ok_two hg).2 ⟨by simp [hs], rfl⟩, ?_⟩
      simpa [hs] using h

/-- One round of the loop over `++opt`. -/
def optBody (ea : ExArg) : Prog (ExArg ⊕ ExArg) := do
  if ← pand (pIs 0 '+') (pIs 1 '+') then
    let s ← peekn 20
    if prefixWord cs!"++bin" s then
      let _ ← getn 5
      skipWhite
      pure (.inl { ea with forceBin := 1 })
    else if prefixWord cs!"++nobin" s then
      let _ ← getn 7
      skipWhite
      pure (.inl { ea with forceBin := 2 })
    else if prefixWord cs!"++edit" s then
      let _ ← getn 6
      skipWhite
      pure (.inl { ea with readEdit := 1 })
    else if prefixFf cs!"++ff=" s then
      let _ ← getn 5
      let v ← readAlpha
      skipWhite
      pure (.inl { ea with forceFf := v })
    else if prefixFf cs!"++fileformat=" s then
      let _ ← getn 13
      let v ← readAlpha
      skipWhite
      pure (.inl { ea with forceFf := v })
    else if prefixNonspace cs!"++enc=" s then
      let _ ← getn 6
      let v ← readNonwhite
      skipWhite
      pure (.inl { ea with forceEnc := v })
    else if prefixNonspace cs!"++encoding=" s then
      let _ ← getn 11
      let v ← readNonwhite
      skipWhite
      pure (.inl { ea with forceEnc := v })
    else if prefixBad s then
      let _ ← getn 6
      let v ← if (cs!"++bad=keep").isPrefixOf s || (cs!"++bad=drop").isPrefixOf s then getn 4
        else getn 1
      skipWhite
      pure (.inl { ea with badChar := v })
    else if (cs!"++").isPrefixOf s then errHere cs!"E474: Invalid Argument"
    else pure (.inr ea)
  else pure (.inr ea)

theorem parseArgopt_eq (ea : ExArg) : parseArgopt ea = loop optBody ea := rfl

theorem ff_iff {pre : Str} (hn : pre.length < 16) : prefixFf pre (getnS 20 r).1 = true ↔
    ∃ w ∈ [cs!"dos", cs!"unix", cs!"mac"], ∃ r', WordAt r (pre ++ w) r' := by
  unfold prefixFf
  rw [List.any_eq_true]
  refine exists_congr fun w => and_congr_right fun hw => word_iff ?_
  rw [List.length_append]
  simp only [List.mem_cons, List.not_mem_nil, or_false] at hw
  rcases hw with rfl | rfl | rfl <;> simp <;> omega

theorem bad_iff : prefixBad (getnS 20 r).1 = true ↔ ∃ r1, Reads r cs!"++bad=" r1 ∧
    ((∃ w r', (w = cs!"keep" ∨ w = cs!"drop") ∧ WordAt r1 w r') ∨
      ∃ c r', Reads r1 [c] r' ∧ (headSym r').is iswordc = !iswordc c) := by
  unfold prefixBad
  rw [Bool.or_eq_true, Bool.or_eq_true, word_iff (by decide), word_iff (by decide), Bool.and_eq_true, getn_line,
    take_prefix (by decide), ← startsWith_line]
  have key : ∀ r1, Reads r cs!"++bad=" r1 → ((match ((lineS r).take 20).drop 6 with
      | [] => false | [c] => iswordc c | c :: d :: _ => iswordc c != iswordc d) = true ↔
      ∃ c r', Reads r1 [c] r' ∧ (headSym r').is iswordc = !iswordc c) := by
    intro r1 h
    rw [h.line]
    simp only [List.cons_append, List.nil_append, List.take_succ_cons, List.drop_succ_cons, List.drop_zero]
    rcases getn1_cases r1 with ⟨c, hc, _, hr⟩ | ⟨he, _⟩
    · rw [hr.line]
      have h1 : (∃ c r', Reads r1 [c] r' ∧ (headSym r').is iswordc = !iswordc c) ↔ (headSym r1.tail).is iswordc = !iswordc c := by
        constructor
        · rintro ⟨c', r', h1, h2⟩
          obtain ⟨h3, rfl⟩ := reads_one_iff.1 h1
          rw [hc] at h3
          cases h3
          exact h2
        · intro h; exact ⟨c, _, hr, h⟩
      rw [h1]
      rcases getn1_cases r1.tail with ⟨d, hd, _, hr'⟩ | ⟨he, _⟩
      · rw [hr'.line, hd]
        simp only [List.cons_append, List.nil_append, List.take_succ_cons, Sym.is]
        cases iswordc c <;> cases iswordc d <;> simp
      · rw [line_nil.2 he, atEnd_is he]
        simp
    · rw [line_nil.2 he]
      simp only [List.take_nil, Bool.false_eq_true, false_iff]
      rintro ⟨c, r', h1, _⟩
      exact atEnd_not he h1.head
  constructor
  · rintro ((⟨r', h1, h2⟩ | ⟨r', h1, h2⟩) | ⟨⟨r1, h1⟩, h2⟩)
    · obtain ⟨r1, h3, h4⟩ := Reads.split (v := cs!"++bad=") (w := cs!"keep") h1
      exact ⟨r1, h3, .inl ⟨_, r', .inl rfl, h4, h2⟩⟩
    · obtain ⟨r1, h3, h4⟩ := Reads.split (v := cs!"++bad=") (w := cs!"drop") h1
      exact ⟨r1, h3, .inl ⟨_, r', .inr rfl, h4, h2⟩⟩
    · exact ⟨r1, h1, .inr ((key r1 h1).1 h2)⟩
  · rintro ⟨r1, h1, ⟨w, r', rfl | rfl, h3, h4⟩ | h2⟩
    · exact .inl (.inl ⟨r', Reads.append h1 h3, h4⟩)
    · exact .inl (.inr ⟨r', Reads.append h1 h3, h4⟩)
    · exact .inr ⟨⟨r1, h1⟩, (key r1 h1).2 h2⟩

/-- Two texts that both start here: one starts with the other. -/
theorem starts_comparable {v w : Str} (h1 : StartsWith r v) (h2 : StartsWith r w) : v <+: w ∨ w <+: v :=
  List.prefix_or_prefix_of_prefix (startsWith_line.1 h1) (startsWith_line.1 h2)

theorem not_word {pre v : Str} {n : Nat} (h : StartsWith r v) (hn : pre.length < n)
    (hc : (pre.isPrefixOf v || v.isPrefixOf pre) = false) : ¬ prefixWord pre (getnS n r).1 = true := by
  rw [word_iff hn]
  rintro ⟨r', h1, _⟩
  rw [Bool.or_eq_false_iff, ← Bool.not_eq_true, ← Bool.not_eq_true, List.isPrefixOf_iff_prefix,
    List.isPrefixOf_iff_prefix] at hc
  rcases starts_comparable ⟨r', h1⟩ h with h | h
  · exact hc.1 h
  · exact hc.2 h

theorem not_nonspace {pre v : Str} {n : Nat} (h : StartsWith r v) (hn : pre.length < n)
    (hc : (pre.isPrefixOf v || v.isPrefixOf pre) = false) : ¬ prefixNonspace pre (getnS n r).1 = true := by
  rw [nonspace_iff hn]
  rintro ⟨r', h1, _⟩
  rw [Bool.or_eq_false_iff, ← Bool.not_eq_true, ← Bool.not_eq_true, List.isPrefixOf_iff_prefix,
    List.isPrefixOf_iff_prefix] at hc
  rcases starts_comparable ⟨r', h1⟩ h with h | h
  · exact hc.1 h
  · exact hc.2 h

theorem not_ff {pre v : Str} (h : StartsWith r v) (hn : pre.length < 16)
    (hc : (pre.isPrefixOf v || v.isPrefixOf pre) = false) : ¬ prefixFf pre (getnS 20 r).1 = true := by
  rw [ff_iff hn]
  rintro ⟨w, _, r', h1, _⟩
  obtain ⟨r1, h1, _⟩ := h1.split
  rw [Bool.or_eq_false_iff, ← Bool.not_eq_true, ← Bool.not_eq_true, List.isPrefixOf_iff_prefix,
    List.isPrefixOf_iff_prefix] at hc
  rcases starts_comparable ⟨r1, h1⟩ h with h | h
  · exact hc.1 h
  · exact hc.2 h

theorem getn_of {v : Str} (h : Reads r v r') (n : Nat) (hn : v.length = n) : getnS n r = (v, r') := by
  rw [← hn]; exact getnS_of_reads h

theorem alpha_word {c : Char} (h : isalpha c = true) : iswordc c = true := by
  simp [iswordc, isalnum, h]

/-- A word of letters is read whole. -/
theorem span_word {w : Str} (h : WordAt r w r') (hw : w ∈ [cs!"dos", cs!"unix", cs!"mac"]) : Span isalpha r w r' := by
  refine ⟨h.1, ?_, ?_⟩
  · simp only [List.mem_cons, List.not_mem_nil, or_false] at hw
    rcases hw with rfl | rfl | rfl <;> decide
  · have := h.2
    cases hh : headSym r' with
    | ch c =>
      rw [hh] at this
      cases ha : isalpha c with
      | false => exact ha
      | true => have := alpha_word ha; simp_all [Sym.is]
    | eol => rfl
    | eof => rfl

theorem argStep_sound {ea : ExArg} {x} (hg : Tidy r) (h : Ok env (optBody ea) r x r') :
    (x = .inr ea ∧ r' = r ∧ ¬ StartsWith r cs!"++") ∨
    ∃ ea1 r1, x = .inl ea1 ∧ ArgOpt (Export.exArg fn ea) r (Export.exArg fn ea1) r1 ∧ Keep ea ea1 ∧ Skip r1 r' := by
  unfold optBody at h
  rw [bind_two hg] at h
  rcases h with ⟨hs, h⟩ | ⟨hs, h⟩
  · right
    simp only [bind_peekn] at h
    by_cases h1 : prefixWord cs!"++bin" (getnS 20 r).1 = true
    · rw [if_pos h1, bind_getn, bind_skipWhite] at h
      obtain ⟨r1, hr⟩ := (word_iff (by decide)).1 h1
      rw [getn_of hr.1 5 rfl] at h
      obtain ⟨r2, h2, h⟩ := h
      obtain ⟨rfl, rfl⟩ := ok_pure.1 h
      exact ⟨_, r1, rfl, .bin hr, ⟨rfl, rfl, rfl⟩, h2⟩
    rw [if_neg h1] at h
    by_cases h1 : prefixWord cs!"++nobin" (getnS 20 r).1 = true
    · rw [if_pos h1, bind_getn, bind_skipWhite] at h
      obtain ⟨r1, hr⟩ := (word_iff (by decide)).1 h1
      rw [getn_of hr.1 7 rfl] at h
      obtain ⟨r2, h2, h⟩ := h
      obtain ⟨rfl, rfl⟩ := ok_pure.1 h
      exact ⟨_, r1, rfl, .nobin hr, ⟨rfl, rfl, rfl⟩, h2⟩
    rw [if_neg h1] at h
    by_cases h1 : prefixWord cs!"++edit" (getnS 20 r).1 = true
    · rw [if_pos h1, bind_getn, bind_skipWhite] at h
      obtain ⟨r1, hr⟩ := (word_iff (by decide)).1 h1
      rw [getn_of hr.1 6 rfl] at h
      obtain ⟨r2, h2, h⟩ := h
      obtain ⟨rfl, rfl⟩ := ok_pure.1 h
      exact ⟨_, r1, rfl, .edit hr, ⟨rfl, rfl, rfl⟩, h2⟩
    rw [if_neg h1] at h
    by_cases h1 : prefixFf cs!"++ff=" (getnS 20 r).1 = true
    · rw [if_pos h1, bind_getn, readAlpha, bind_readWhile] at h
      obtain ⟨w, hw, r1, hr⟩ := (ff_iff (by decide)).1 h1
      obtain ⟨r0, h2, h3⟩ := hr.1.split
      rw [getn_of h2 5 rfl] at h
      obtain ⟨v, r2, h4, h⟩ := h
      obtain ⟨rfl, rfl⟩ := (span_word ⟨h3, hr.2⟩ hw).det h4
      obtain ⟨r3, h5, h⟩ := bind_skipWhite.1 h
      obtain ⟨rfl, rfl⟩ := ok_pure.1 h
      exact ⟨_, r1, rfl, .ff (.inl rfl) hw hr, ⟨rfl, rfl, rfl⟩, h5⟩
    rw [if_neg h1] at h
    by_cases h1 : prefixFf cs!"++fileformat=" (getnS 20 r).1 = true
    · rw [if_pos h1, bind_getn, readAlpha, bind_readWhile] at h
      obtain ⟨w, hw, r1, hr⟩ := (ff_iff (by decide)).1 h1
      obtain ⟨r0, h2, h3⟩ := hr.1.split
      rw [getn_of h2 13 rfl] at h
      obtain ⟨v, r2, h4, h⟩ := h
      obtain ⟨rfl, rfl⟩ := (span_word ⟨h3, hr.2⟩ hw).det h4
      obtain ⟨r3, h5, h⟩ := bind_skipWhite.1 h
      obtain ⟨rfl, rfl⟩ := ok_pure.1 h
      exact ⟨_, r1, rfl, .ff (.inr rfl) hw hr, ⟨rfl, rfl, rfl⟩, h5⟩
    rw [if_neg h1] at h
    by_cases h1 : prefixNonspace cs!"++enc=" (getnS 20 r).1 = true
    · rw [if_pos h1, bind_getn, readNonwhite, bind_readWhile] at h
      obtain ⟨r0, h2, h3, h4⟩ := (nonspace_iff (by decide)).1 h1
      rw [getn_of h2 6 rfl] at h
      obtain ⟨v, r2, h5, h⟩ := h
      obtain ⟨r3, h6, h⟩ := bind_skipWhite.1 h
      obtain ⟨rfl, rfl⟩ := ok_pure.1 h
      exact ⟨_, r2, rfl, .enc (.inl rfl) h2 h3 h4 h5, ⟨rfl, rfl, rfl⟩, h6⟩
    rw [if_neg h1] at h
    by_cases h1 : prefixNonspace cs!"++encoding=" (getnS 20 r).1 = true
    · rw [if_pos h1, bind_getn, readNonwhite, bind_readWhile] at h
      obtain ⟨r0, h2, h3, h4⟩ := (nonspace_iff (by decide)).1 h1
      rw [getn_of h2 11 rfl] at h
      obtain ⟨v, r2, h5, h⟩ := h
      obtain ⟨r3, h6, h⟩ := bind_skipWhite.1 h
      obtain ⟨rfl, rfl⟩ := ok_pure.1 h
      exact ⟨_, r2, rfl, .enc (.inr rfl) h2 h3 h4 h5, ⟨rfl, rfl, rfl⟩, h6⟩
    rw [if_neg h1] at h
    by_cases h1 : prefixBad (getnS 20 r).1 = true
    · rw [if_pos h1, bind_getn] at h
      obtain ⟨r0, h2, h3⟩ := bad_iff.1 h1
      rw [getn_of h2 6 rfl] at h
      rcases h3 with ⟨w, r1, hw, h4, h5⟩ | ⟨c, r1, h4, h5⟩
      · have hk : ((cs!"++bad=keep").isPrefixOf (getnS 20 r).1 || (cs!"++bad=drop").isPrefixOf (getnS 20 r).1) = true := by
          have := startsWith_line.1 ⟨r1, Reads.append h2 h4⟩
          rw [Bool.or_eq_true, getn_line, take_prefix (by decide), take_prefix (by decide)]
          rcases hw with rfl | rfl
          · exact .inl this
          · exact .inr this
        rw [if_pos hk, bind_getn, getn_of h4 4 (by rcases hw with rfl | rfl <;> rfl), bind_skipWhite] at h
        obtain ⟨r3, h6, h⟩ := h
        obtain ⟨rfl, rfl⟩ := ok_pure.1 h
        exact ⟨_, r1, rfl, .bad hw ⟨Reads.append h2 h4, h5⟩, ⟨rfl, rfl, rfl⟩, h6⟩
      · have hk : ¬ ((cs!"++bad=keep").isPrefixOf (getnS 20 r).1 || (cs!"++bad=drop").isPrefixOf (getnS 20 r).1) = true := by
          have := (Reads.append h2 h4).line
          rw [Bool.or_eq_true, getn_line, take_prefix (by decide), take_prefix (by decide), this]
          simp only [List.cons_append, List.nil_append, List.cons_prefix_cons, true_and]
          rintro (⟨rfl, s, hs⟩ | ⟨rfl, s, hs⟩)
          · rw [line_cons hs.symm] at h5; cases h5
          · rw [line_cons hs.symm] at h5; cases h5
        rw [if_neg hk, bind_getn, getn_of h4 1 rfl, bind_skipWhite] at h
        obtain ⟨r3, h6, h⟩ := h
        obtain ⟨rfl, rfl⟩ := ok_pure.1 h
        exact ⟨_, r1, rfl, .badChar (Reads.append h2 h4) h5, ⟨rfl, rfl, rfl⟩, h6⟩
    rw [if_neg h1] at h
    rw [if_pos (by rw [getn_line, take_prefix (by decide)]; exact startsWith_line.1 hs)] at h
    exact (ok_errHere.1 h).elim
  · obtain ⟨rfl, rfl⟩ := ok_pure.1 h
    exact .inl ⟨rfl, rfl, hs⟩

theorem argStep_complete {ea : ExArg} {x : Ast.ExArg} {r1 : List Cell} (hg : Tidy r)
    (h : ArgOpt (Export.exArg fn ea) r x r1) (h2 : Skip r1 r') : Ok env (optBody ea) r (.inl (withPos ea x)) r' := by
  have hpp : StartsWith r cs!"++" := by
    cases h with
    | bin h => exact (h.1.split (v := cs!"++") (w := cs!"bin")).imp fun _ h => h.1
    | nobin h => exact (h.1.split (v := cs!"++") (w := cs!"nobin")).imp fun _ h => h.1
    | edit h => exact (h.1.split (v := cs!"++") (w := cs!"edit")).imp fun _ h => h.1
    | ff hp hw h =>
      rcases hp with rfl | rfl
      · exact (h.1.split (v := cs!"++") (w := cs!"ff=" ++ _)).imp fun _ h => h.1
      · exact (h.1.split (v := cs!"++") (w := cs!"fileformat=" ++ _)).imp fun _ h => h.1
    | enc hp h =>
      rcases hp with rfl | rfl
      · exact (h.split (v := cs!"++") (w := cs!"enc=")).imp fun _ h => h.1
      · exact (h.split (v := cs!"++") (w := cs!"encoding=")).imp fun _ h => h.1
    | bad hw h => exact (h.1.split (v := cs!"++") (w := cs!"bad=" ++ _)).imp fun _ h => h.1
    | badChar h => exact (h.split (v := cs!"++") (w := cs!"bad=" ++ _)).imp fun _ h => h.1
  unfold optBody
  rw [bind_two hg]
  refine .inl ⟨hpp, ?_⟩
  rw [bind_peekn]
  cases h with
  | bin h =>
    rw [if_pos ((word_iff (by decide)).2 ⟨_, h⟩), bind_getn, getn_of h.1 5 rfl, bind_skipWhite]
    exact ⟨_, h2, ok_pure.2 ⟨rfl, rfl⟩⟩
  | nobin h =>
    have hs : StartsWith r cs!"++nobin" := ⟨_, h.1⟩
    rw [if_neg (not_word hs (by decide) (by decide)), if_pos ((word_iff (by decide)).2 ⟨_, h⟩), bind_getn,
      getn_of h.1 7 rfl, bind_skipWhite]
    exact ⟨_, h2, ok_pure.2 ⟨rfl, rfl⟩⟩
  | edit h =>
    have hs : StartsWith r cs!"++edit" := ⟨_, h.1⟩
    rw [if_neg (not_word hs (by decide) (by decide)), if_neg (not_word hs (by decide) (by decide)),
      if_pos ((word_iff (by decide)).2 ⟨_, h⟩), bind_getn, getn_of h.1 6 rfl, bind_skipWhite]
    exact ⟨_, h2, ok_pure.2 ⟨rfl, rfl⟩⟩
  | @ff p w _ hp hw h =>
    obtain ⟨r0, h3, h4⟩ := h.1.split
    rcases hp with rfl | rfl
    · have hs : StartsWith r cs!"++ff=" := ⟨_, h3⟩
      rw [if_neg (not_word hs (by decide) (by decide)), if_neg (not_word hs (by decide) (by decide)),
        if_neg (not_word hs (by decide) (by decide)),
        if_pos ((ff_iff (by decide)).2 ⟨w, hw, _, h⟩), bind_getn, getn_of h3 5 rfl, readAlpha, bind_readWhile]
      exact ⟨w, _, span_word ⟨h4, h.2⟩ hw, bind_skipWhite.2 ⟨_, h2, ok_pure.2 ⟨rfl, rfl⟩⟩⟩
    · have hs : StartsWith r cs!"++fileformat=" := ⟨_, h3⟩
      rw [if_neg (not_word hs (by decide) (by decide)), if_neg (not_word hs (by decide) (by decide)),
        if_neg (not_word hs (by decide) (by decide)), if_neg (not_ff hs (by decide) (by decide)),
        if_pos ((ff_iff (by decide)).2 ⟨w, hw, _, h⟩), bind_getn, getn_of h3 13 rfl, readAlpha, bind_readWhile]
      exact ⟨w, _, span_word ⟨h4, h.2⟩ hw, bind_skipWhite.2 ⟨_, h2, ok_pure.2 ⟨rfl, rfl⟩⟩⟩
  | @enc p r0 v _ hp h3 h4 h5 h6 =>
    rcases hp with rfl | rfl
    · have hs : StartsWith r cs!"++enc=" := ⟨_, h3⟩
      rw [if_neg (not_word hs (by decide) (by decide)), if_neg (not_word hs (by decide) (by decide)),
        if_neg (not_word hs (by decide) (by decide)), if_neg (not_ff hs (by decide) (by decide)),
        if_neg (not_ff hs (by decide) (by decide)),
        if_pos ((nonspace_iff (by decide)).2 ⟨r0, h3, h4, h5⟩), bind_getn, getn_of h3 6 rfl, readNonwhite, bind_readWhile]
      exact ⟨v, _, h6, bind_skipWhite.2 ⟨_, h2, ok_pure.2 ⟨rfl, rfl⟩⟩⟩
    · have hs : StartsWith r cs!"++encoding=" := ⟨_, h3⟩
      rw [if_neg (not_word hs (by decide) (by decide)), if_neg (not_word hs (by decide) (by decide)),
        if_neg (not_word hs (by decide) (by decide)), if_neg (not_ff hs (by decide) (by decide)),
        if_neg (not_ff hs (by decide) (by decide)), if_neg (not_nonspace hs (by decide) (by decide)),
        if_pos ((nonspace_iff (by decide)).2 ⟨r0, h3, h4, h5⟩), bind_getn, getn_of h3 11 rfl, readNonwhite, bind_readWhile]
      exact ⟨v, _, h6, bind_skipWhite.2 ⟨_, h2, ok_pure.2 ⟨rfl, rfl⟩⟩⟩
  | @bad w _ hw h =>
    obtain ⟨r0, h3, h4⟩ := h.1.split
    have hs : StartsWith r cs!"++bad=" := ⟨_, h3⟩
    have hk : ((cs!"++bad=keep").isPrefixOf (getnS 20 r).1 || (cs!"++bad=drop").isPrefixOf (getnS 20 r).1) = true := by
      have := startsWith_line.1 ⟨_, h.1⟩
      rw [Bool.or_eq_true, getn_line, take_prefix (by decide), take_prefix (by decide)]
      rcases hw with rfl | rfl
      · exact .inl this
      · exact .inr this
    rw [if_neg (not_word hs (by decide) (by decide)), if_neg (not_word hs (by decide) (by decide)),
      if_neg (not_word hs (by decide) (by decide)), if_neg (not_ff hs (by decide) (by decide)),
      if_neg (not_ff hs (by decide) (by decide)), if_neg (not_nonspace hs (by decide) (by decide)),
      if_neg (not_nonspace hs (by decide) (by decide)), if_pos (bad_iff.2 ⟨r0, h3, .inl ⟨w, _, hw, h4, h.2⟩⟩), bind_getn,
      getn_of h3 6 rfl]
    show Ok env _ r0 _ _
    rw [if_pos hk, bind_getn, getn_of h4 4 (by rcases hw with rfl | rfl <;> rfl), bind_skipWhite]
    exact ⟨_, h2, ok_pure.2 ⟨rfl, rfl⟩⟩
  | @badChar c _ h h5 =>
    obtain ⟨r0, h3, h4⟩ := h.split
    have hs : StartsWith r cs!"++bad=" := ⟨_, h3⟩
    have hk : ¬ ((cs!"++bad=keep").isPrefixOf (getnS 20 r).1 || (cs!"++bad=drop").isPrefixOf (getnS 20 r).1) = true := by
      have := h.line
      rw [Bool.or_eq_true, getn_line, take_prefix (by decide), take_prefix (by decide), this]
      simp only [List.cons_append, List.nil_append, List.cons_prefix_cons, true_and]
      rintro (⟨rfl, s, hs⟩ | ⟨rfl, s, hs⟩)
      · rw [line_cons hs.symm] at h5; cases h5
      · rw [line_cons hs.symm] at h5; cases h5
    rw [if_neg (not_word hs (by decide) (by decide)), if_neg (not_word hs (by decide) (by decide)),
      if_neg (not_word hs (by decide) (by decide)), if_neg (not_ff hs (by decide) (by decide)),
      if_neg (not_ff hs (by decide) (by decide)), if_neg (not_nonspace hs (by decide) (by decide)),
      if_neg (not_nonspace hs (by decide) (by decide)), if_pos (bad_iff.2 ⟨r0, h3, .inr ⟨c, _, h4, h5⟩⟩), bind_getn,
      getn_of h3 6 rfl]
    show Ok env _ r0 _ _
    rw [if_neg hk, bind_getn, getn_of h4 1 rfl, bind_skipWhite]
    exact ⟨_, h2, ok_pure.2 ⟨rfl, rfl⟩⟩

theorem Spec.ArgOpt.keep {e x : Ast.ExArg} (h : ArgOpt e r x r') : KeepX e x := by
  cases h <;> exact ⟨rfl, rfl, rfl⟩

theorem Spec.ArgOpts.keep {e x : Ast.ExArg} (h : ArgOpts e r x r') : KeepX e x := by
  induction h with
  | nil => exact ⟨rfl, rfl, rfl⟩
  | cons h1 _ _ ih =>
    have := h1.keep
    exact ⟨ih.1.trans this.1, ih.2.trans this.2, ih.3.trans this.3⟩

theorem Spec.ArgOpt.reads {e x : Ast.ExArg} (h : ArgOpt e r x r') : ∃ v, v ≠ [] ∧ Reads r v r' := by
  cases h with
  | bin h => exact ⟨_, by simp, h.1⟩
  | nobin h => exact ⟨_, by simp, h.1⟩
  | edit h => exact ⟨_, by simp, h.1⟩
  | ff hp _ h => exact ⟨_, by rcases hp with rfl | rfl <;> simp, h.1⟩
  | enc hp h _ _ h2 => exact ⟨_, by rcases hp with rfl | rfl <;> simp, h.append h2.1⟩
  | bad _ h => exact ⟨_, by simp, h.1⟩
  | badChar h => exact ⟨_, by simp, h⟩

theorem Tidy.skip (h : Tidy r) (hs : Skip r r') : Tidy r' := hs.elim fun _ hs => h.reads hs.1

theorem reads_lt {v : Str} (h : Reads r v r') (hv : v ≠ []) : r'.length < r.length := by
  obtain ⟨pre, rfl, hp⟩ := h
  have := congrArg List.length hp
  simp at this
  have h2 : v.length ≠ 0 := by simpa using hv
  simp; omega

theorem argOpts_sound {ea ea' : ExArg} (hg : Tidy r) (h : Ok env (parseArgopt ea) r ea' r') :
    ArgOpts (Export.exArg fn ea) r (Export.exArg fn ea') r' ∧ Keep ea ea' := by
  rw [parseArgopt_eq] at h
  refine loop_ind (P := fun e r => Tidy r → ArgOpts (Export.exArg fn e) r (Export.exArg fn ea') r' ∧ Keep e ea')
    ?_ ?_ h hg
  · intro e r h hg
    rcases argStep_sound (fn := fn) hg h with ⟨hx, rfl, h1⟩ | ⟨_, _, hx, _⟩
    · injection hx with hx; subst hx; exact ⟨.nil h1, Keep.refl _⟩
    · exact absurd hx (by simp)
  · intro e r e1 r1 h ih hg
    rcases argStep_sound (fn := fn) hg h with ⟨hx, _⟩ | ⟨e2, r2, hx, h1, h2, h3⟩
    · exact absurd hx (by simp)
    · injection hx with hx
      subst hx
      obtain ⟨v, _, hv⟩ := h1.reads
      have := ih ((hg.reads hv).skip h3)
      exact ⟨.cons h1 h3 this.1, h2.trans this.2⟩

theorem argOpts_complete {x y : Ast.ExArg} (h : ArgOpts x r y r') : ∀ {ea : ExArg}, x = Export.exArg fn ea → Tidy r →
    ∃ ea', Ok env (parseArgopt ea) r ea' r' ∧ Export.exArg fn ea' = y ∧ Keep ea ea' := by
  induction h with
  | nil h =>
    rintro ea rfl hg
    refine ⟨ea, loop_done ?_, rfl, Keep.refl _⟩
    rw [bind_two hg]
    exact .inr ⟨h, ok_pure.2 ⟨rfl, rfl⟩⟩
  | @cons _ _ e1 r1 r2 _ _ h1 h2 h3 ih =>
    rintro ea rfl hg
    obtain ⟨v, hne, hv⟩ := h1.reads
    obtain ⟨ea', h4, h5, h6⟩ := ih (ea := withPos ea e1) (withPos_ex h1.keep).symm ((hg.reads hv).skip h2)
    refine ⟨ea', loop_more (argStep_complete hg h1 h2) ?_ h4, h5, (withPos_keep _ _).trans h6⟩
    have := reads_lt hv hne
    have := h2.adv.length
    omega

theorem startsWith1 {a : Char} : StartsWith r [a] ↔ headSym r = .ch a :=
  ⟨fun ⟨_, h⟩ => h.head, fun h => ⟨_, headSym_reads h⟩⟩

theorem ok_write {ea ea' : ExArg} {c : Cmd} : Ok env (parseWrite ea c) r ea' r' ↔
    WriteOpt c (Export.exArg fn ea) r (Export.exArg fn ea') r' ∧ Keep ea ea' := by
  unfold parseWrite
  rw [ok_ite, ok_pure]
  constructor
  · rintro (⟨hn, h⟩ | ⟨hn, rfl, rfl⟩)
    · rw [bind_pIs0, ok_ite] at h
      rcases h with ⟨h1, h⟩ | ⟨h1, h⟩
      · have h1 := of_decide_eq_true h1
        rw [ok_bind] at h
        obtain ⟨b, r1, h2, h⟩ := h
        obtain ⟨h3, rfl, rfl⟩ := (ok_pIs1 (head_ne_nil h1)).1 h2
        by_cases h4 : headSym r1.tail = .ch '>'
        · rw [if_neg (by simp [h4]), bind_seekCur, bind_skipWhite] at h
          obtain ⟨_, r2, h5, h⟩ := h
          obtain ⟨rfl, rfl⟩ := ok_pure.1 h
          have : Reads r1 cs!">>" (r1.drop 2) := by
            obtain ⟨r', hr⟩ := startsWith2.2 ⟨h1, h4⟩
            have := reads_drop hr
            rwa [this] at hr
          exact ⟨.append hn this h5, ⟨rfl, rfl, rfl⟩⟩
        · rw [if_pos (by simp [h4])] at h
          exact (ok_errAt.1 h).elim
      · rw [decide_eq_true_iff] at h1
        rw [bind_peekn, ok_ite, bind_getn, ok_pure, ok_pure, get1_ch] at h
        rcases h with ⟨⟨h2, h3⟩, rfl, rfl⟩ | ⟨h2, rfl, rfl⟩
        · rw [getn1_of h2]
          exact ⟨.filter h3 (headSym_reads h2), ⟨rfl, rfl, rfl⟩⟩
        · refine ⟨.none (fun _ => h1) (fun h3 h4 => h2 ⟨h4, h3⟩), Keep.refl _⟩
    · exact ⟨.none (fun h => absurd h hn) (fun h => absurd (.inl h) hn), Keep.refl _⟩
  · rintro ⟨h, hk⟩
    generalize hx : Export.exArg fn ea' = x at h
    cases h with
    | @append r1 _ hn h1 h2 =>
      obtain rfl := keep_eq { ea with append := 1 } hx hk rfl ⟨rfl, rfl, rfl⟩
      have h3 := startsWith2.1 ⟨_, h1⟩
      refine .inl ⟨hn, ?_⟩
      rw [bind_pIs0, if_pos (by simp [h3.1]), ok_bind]
      refine ⟨_, r, (ok_pIs1 (head_ne_nil h3.1)).2 ⟨head_ne_nil h3.2, rfl, rfl⟩, ?_⟩
      rw [if_neg (by simp [h3.2]), bind_seekCur, bind_skipWhite]
      have : r1 = r.drop 2 := reads_drop h1
      refine ⟨?_, r', (by rw [← this]; exact h2), ok_pure.2 ⟨rfl, rfl⟩⟩
      have := h1.len
      simp at this
      omega
    | filter hn h1 =>
      obtain rfl := keep_eq { ea with usefilter := true } hx hk rfl ⟨rfl, rfl, rfl⟩
      have h3 := reads_one_iff.1 h1
      refine .inl ⟨.inl hn, ?_⟩
      rw [bind_pIs0, if_neg (by simp [h3.1]), bind_peekn, if_pos ⟨get1_ch.2 h3.1, hn⟩, bind_getn, getn1_of h3.1]
      exact ok_pure.2 ⟨rfl, h3.2⟩
    | none h1 h2 =>
      obtain rfl := (keep_iff rfl ea (Keep.refl _)).1 ⟨hx, hk⟩
      by_cases hn : c.name = cs!"write" ∨ c.name = cs!"update"
      · refine .inl ⟨hn, ?_⟩
        rw [bind_pIs0, if_neg (by simp [h1 hn]), bind_peekn, if_neg (by rw [get1_ch]; exact fun h => h2 h.2 h.1)]
        exact ok_pure.2 ⟨rfl, rfl⟩
      · exact .inr ⟨hn, rfl, rfl⟩

theorem ok_read {ea ea' : ExArg} {c : Cmd} : Ok env (parseRead ea c) r ea' r' ↔
    ReadOpt c (Export.exArg fn ea) r (Export.exArg fn ea') r' ∧ Keep ea ea' := by
  unfold parseRead
  rw [ok_ite, ok_pure, ok_ite, ok_pure, bind_peekn, ok_ite, bind_getn, ok_pure, ok_pure, get1_ch]
  constructor
  · rintro (⟨hn, ⟨h, rfl, rfl⟩ | ⟨h, ⟨h1, rfl, rfl⟩ | ⟨h1, rfl, rfl⟩⟩⟩ | ⟨hn, rfl, rfl⟩)
    · exact ⟨.bang hn h, ⟨rfl, rfl, rfl⟩⟩
    · rw [getn1_of h1]
      exact ⟨.filter hn (show ea.forceit = false by simpa using h) (headSym_reads h1), ⟨rfl, rfl, rfl⟩⟩
    · exact ⟨.none fun _ => ⟨(show ea'.forceit = false by simpa using h), h1⟩, Keep.refl _⟩
    · exact ⟨.none fun h => absurd h hn, Keep.refl _⟩
  · rintro ⟨h, hk⟩
    generalize hx : Export.exArg fn ea' = x at h
    cases h with
    | bang hn h =>
      obtain rfl := keep_eq { ea with usefilter := true, forceit := false } hx hk rfl ⟨rfl, rfl, rfl⟩
      exact .inl ⟨hn, .inl ⟨h, rfl, rfl⟩⟩
    | filter hn h h1 =>
      obtain rfl := keep_eq { ea with usefilter := true } hx hk rfl ⟨rfl, rfl, rfl⟩
      have h3 := reads_one_iff.1 h1
      exact .inl ⟨hn, .inr ⟨(by rw [show ea.forceit = false from h]; simp), .inl ⟨h3.1, rfl, (by rw [getn1_of h3.1]; exact h3.2)⟩⟩⟩
    | none h =>
      obtain rfl := (keep_iff rfl ea (Keep.refl _)).1 ⟨hx, hk⟩
      by_cases hn : c.name = cs!"read"
      · obtain ⟨h1, h2⟩ := h hn
        exact .inl ⟨hn, .inr ⟨(by rw [show ea'.forceit = false from h1]; simp), .inr ⟨h2, rfl, rfl⟩⟩⟩
      · exact .inr ⟨hn, rfl, rfl⟩

/-- One round of the loop over `<` and `>`. -/
def amtBody (name : Str) (n : Nat) : Prog (Nat ⊕ Nat) := do
  if (← peekn 1) = name then
    let _ ← getn 1
    pure (.inl (n + 1))
  else pure (.inr n)

theorem ok_amount {x : Char} {k n : Nat} : Ok env (loop (amtBody [x]) k) r n r' ↔
    ∃ v, Span (· == x) r v r' ∧ n = k + v.length := by
  refine loop_iff (R := fun k r n r' => ∃ v, Span (· == x) r v r' ∧ n = k + v.length) ?_ ?_
  · intro s r s1 r1 h
    unfold amtBody at h
    rw [bind_peekn, ok_ite, bind_getn, ok_pure, ok_pure, get1_ch] at h
    rcases h with ⟨h1, _, rfl⟩ | ⟨_, h, _⟩
    · rw [getn1_of h1]; exact reads_lt (headSym_reads h1) (by simp)
    · exact absurd h (by simp)
  · intro s r b r'
    unfold amtBody
    simp only [bind_peekn, ok_ite, bind_getn, ok_pure, get1_ch]
    constructor
    · rintro ⟨v, h1, rfl⟩
      by_cases hx : headSym r = .ch x
      · right
        cases v with
        | nil =>
          have := h1.2.2
          rw [h1.1.unnil, hx] at this
          simp [Sym.is] at this
        | cons c v =>
          obtain ⟨r1, h3, h4⟩ := Reads.split (v := [c]) (w := v) h1.1
          obtain ⟨h5, rfl⟩ := reads_one_iff.1 h3
          refine ⟨s + 1, r.tail, .inl ⟨hx, rfl, (by rw [getn1_of hx])⟩, v, ⟨h4, fun d hd => h1.2.1 d (by simp [hd]), h1.2.2⟩, ?_⟩
          simp; omega
      · left
        refine .inr ⟨hx, ?_⟩
        cases v with
        | nil => exact ⟨by simp, h1.1.unnil⟩
        | cons c v =>
          have := h1.2.1 c (by simp)
          simp at this
          subst this
          exact absurd h1.1.head hx
    · rintro ((⟨_, h, _⟩ | ⟨hx, h, rfl⟩) | ⟨s1, r1, ⟨hx, h, rfl⟩ | ⟨_, h, _⟩, v, h1, rfl⟩)
      · exact absurd h (by simp)
      · injection h with h
        subst h
        refine ⟨[], ⟨Reads.nil _, by simp, ?_⟩, by simp⟩
        cases hh : headSym r' with
        | ch c =>
          have : c ≠ x := by rintro rfl; exact hx hh
          simpa [Sym.is] using this
        | eol => rfl
        | eof => rfl
      · injection h with h
        subst h
        rw [getn1_of hx] at h1
        refine ⟨x :: v, ⟨Reads.append (v := [x]) (headSym_reads hx) h1.1, ?_, h1.2.2⟩, by simp; omega⟩
        intro d hd
        rcases List.mem_cons.1 hd with rfl | hd
        · simp
        · exact h1.2.1 d hd
      · exact absurd h (by simp)

theorem ok_shift {ea ea' : ExArg} {c : Cmd} : Ok env (parseShift ea c) r ea' r' ↔
    ShiftOpt c (Export.exArg fn ea) r (Export.exArg fn ea') r' ∧ Keep ea ea' := by
  unfold parseShift
  rw [ok_ite, ok_pure, ok_bind]
  constructor
  · rintro (⟨hn, n, r1, h1, h2⟩ | ⟨hn, rfl, rfl⟩)
    · obtain ⟨x, hx, hx'⟩ : ∃ x, c.name = [x] ∧ (x = '<' ∨ x = '>') := by
        rcases hn with hn | hn
        · exact ⟨'<', hn, .inl rfl⟩
        · exact ⟨'>', hn, .inr rfl⟩
      rw [hx] at h1
      obtain ⟨v, h3, rfl⟩ := (ok_amount (k := 1)).1 h1
      rw [bind_skipWhite] at h2
      obtain ⟨r2, h4, h5⟩ := h2
      obtain ⟨rfl, rfl⟩ := ok_pure.1 h5
      rw [Nat.add_comm 1]
      exact ⟨.shift hx hx' h3 h4, ⟨rfl, rfl, rfl⟩⟩
    · rw [not_or] at hn
      exact ⟨.none hn.1 hn.2, Keep.refl _⟩
  · rintro ⟨h, hk⟩
    generalize hx : Export.exArg fn ea' = x at h
    cases h with
    | @shift x v r1 _ hn hn' h1 h2 =>
      obtain rfl := keep_eq { ea with amount := v.length + 1 } hx hk rfl ⟨rfl, rfl, rfl⟩
      refine .inl ⟨?_, 1 + v.length, r1, ?_, ?_⟩
      · rw [hn]; rcases hn' with rfl | rfl
        · exact .inl rfl
        · exact .inr rfl
      · rw [hn]; exact (ok_amount (k := 1)).2 ⟨v, h1, rfl⟩
      · rw [bind_skipWhite]
        exact ⟨r', h2, ok_pure.2 ⟨by rw [Nat.add_comm], rfl⟩⟩
    | none h1 h2 =>
      obtain rfl := (keep_iff rfl ea (Keep.refl _)).1 ⟨hx, hk⟩
      exact .inr ⟨by rw [not_or]; exact ⟨h1, h2⟩, rfl, rfl⟩

/-- One round of the loop over the argument of `+cmd`. -/
def cmdargBody (r : Str) : Prog (Str ⊕ Str) := do
  let c ← peekn 1
  if c = [] ∨ is1 iswhite c = true then pure (.inr r)
  else
    let _ ← getn 1
    if c = cs!"\\" then
      let d ← getn 1
      pure (.inl (r ++ d))
    else pure (.inl (r ++ c))

theorem ok_cmdarg {acc v : Str} : Ok env (loop cmdargBody acc) r v r' ↔ ∃ w, CmdArg r w r' ∧ v = acc ++ w := by
  refine loop_iff (R := fun acc r v r' => ∃ w, CmdArg r w r' ∧ v = acc ++ w) ?_ ?_
  · intro s r s1 r1 h
    unfold cmdargBody at h
    rw [bind_peekn, ok_ite, ok_pure] at h
    rcases h with ⟨_, h, _⟩ | ⟨h0, h⟩
    · exact absurd h (by simp)
    · rw [not_or, get1_nil] at h0
      obtain ⟨c, hc⟩ := not_atEnd.1 h0.1
      have h1 := reads_lt (headSym_reads hc) (by simp)
      rw [bind_getn, getn1_of hc, ok_ite, bind_getn, ok_pure, ok_pure] at h
      rcases h with ⟨_, _, rfl⟩ | ⟨_, _, rfl⟩
      · have := (getnS_reads 1 r.tail).adv.length
        dsimp only
        omega
      · exact h1
  · intro s r b r'
    have hstep : ∀ y r1, Ok env (cmdargBody s) r y r1 ↔
        ((AtEnd r ∨ (headSym r).is iswhite = true) ∧ y = .inr s ∧ r1 = r) ∨
        ∃ c, headSym r = .ch c ∧ iswhite c = false ∧
          ((c = '\\' ∧ y = .inl (s ++ (getnS 1 r.tail).1) ∧ r1 = (getnS 1 r.tail).2) ∨
           (c ≠ '\\' ∧ y = .inl (s ++ [c]) ∧ r1 = r.tail)) := by
      intro y r1
      unfold cmdargBody
      rw [bind_peekn, ok_ite, ok_pure, get1_nil, get1_is1]
      refine or_congr Iff.rfl ?_
      constructor
      · rintro ⟨h0, h⟩
        rw [not_or] at h0
        obtain ⟨c, hc⟩ := not_atEnd.1 h0.1
        refine ⟨c, hc, (by have := h0.2; rw [hc] at this; simpa [Sym.is] using this), ?_⟩
        rw [bind_getn, getn1_of hc, ok_ite, bind_getn, ok_pure, ok_pure] at h
        rcases h with ⟨h, h1, h2⟩ | ⟨h, h1, h2⟩
        · exact .inl ⟨by simpa using h, h1, h2⟩
        · exact .inr ⟨by simpa using h, h1, h2⟩
      · rintro ⟨c, hc, hw, h⟩
        refine ⟨?_, ?_⟩
        · rw [not_or]
          exact ⟨not_atEnd.2 ⟨c, hc⟩, by rw [hc]; simpa [Sym.is] using hw⟩
        · rw [bind_getn, getn1_of hc, ok_ite, bind_getn, ok_pure, ok_pure]
          rcases h with ⟨rfl, h1, h2⟩ | ⟨h, h1, h2⟩
          · exact .inl ⟨rfl, h1, h2⟩
          · exact .inr ⟨by simpa using h, h1, h2⟩
    constructor
    · rintro ⟨w, h, rfl⟩
      cases h with
      | stop h => exact .inl ((hstep _ _).2 (.inl ⟨h, by simp, rfl⟩))
      | @esc _ c r1 v _ h1 h2 =>
        obtain ⟨r2, h3, h4⟩ := Reads.split (v := ['\\']) (w := [c]) h1
        obtain ⟨h5, rfl⟩ := reads_one_iff.1 h3
        refine .inr ⟨s ++ [c], r1, (hstep _ _).2 (.inr ⟨_, h5, by decide, .inl ⟨rfl, ?_, ?_⟩⟩), v, h2, by simp⟩
        · rw [getn_of h4 1 rfl]
        · rw [getn_of h4 1 rfl]
      | escEnd h1 h2 =>
        obtain ⟨h5, rfl⟩ := reads_one_iff.1 h1
        have h6 : getnS 1 r.tail = ([], r.tail) := by
          rcases getn1_cases r.tail with ⟨c, hc, _⟩ | ⟨_, h⟩
          · exact absurd hc (atEnd_not h2)
          · exact h
        refine .inr ⟨s, r.tail, (hstep _ _).2 (.inr ⟨_, h5, by decide, .inl ⟨rfl, ?_, ?_⟩⟩), [], .stop (.inl h2), rfl⟩
        · rw [h6]; simp
        · rw [h6]
      | @char _ c r1 v _ h1 h2 h3 h4 =>
        obtain ⟨h5, rfl⟩ := reads_one_iff.1 h1
        exact .inr ⟨s ++ [c], r.tail, (hstep _ _).2 (.inr ⟨_, h5, h3, .inr ⟨h2, rfl, rfl⟩⟩), v, h4, by simp⟩
    · rintro (h | ⟨s1, r1, h, w, h1, rfl⟩)
      · rcases (hstep _ _).1 h with ⟨h, hx, rfl⟩ | ⟨c, _, _, ⟨_, hx, _⟩ | ⟨_, hx, _⟩⟩
        · injection hx with hx
          exact ⟨[], .stop h, by rw [hx]; simp⟩
        · exact absurd hx (by simp)
        · exact absurd hx (by simp)
      · rcases (hstep _ _).1 h with ⟨_, hx, _⟩ | ⟨c, hc, hw, ⟨rfl, hx, rfl⟩ | ⟨hb, hx, rfl⟩⟩
        · exact absurd hx (by simp)
        · injection hx with hx
          subst hx
          rcases getn1_cases r.tail with ⟨d, hd, hg, hr⟩ | ⟨he, hg⟩
          · rw [hg] at h1 ⊢
            exact ⟨d :: w, .esc (Reads.append (v := ['\\']) (headSym_reads hc) hr) h1, by simp⟩
          · rw [hg] at h1 ⊢
            cases h1 with
            | stop => exact ⟨[], .escEnd (headSym_reads hc) he, by simp⟩
            | esc h => exact absurd h.head (atEnd_not he)
            | escEnd h => exact absurd h.head (atEnd_not he)
            | char h => exact absurd h.head (atEnd_not he)
        · injection hx with hx
          subst hx
          exact ⟨c :: w, .char (headSym_reads hc) hb hw h1, by simp⟩

theorem ok_argcmd {ea ea' : ExArg} : Ok env (parseArgcmd ea) r ea' r' ↔
    PlusCmd (Export.exArg fn ea) r (Export.exArg fn ea') r' ∧ Keep ea ea' := by
  unfold parseArgcmd
  rw [bind_peekn, ok_ite, ok_pure, get1_ch, bind_getn, bind_peekn, ok_ite, ok_pure, get1_ch]
  have hl : ∀ {a b : List Cell} {v}, Ok env readCmdarg a v b ↔ CmdArg a v b := by
    intro a b v
    rw [show readCmdarg = loop cmdargBody [] from rfl, ok_cmdarg]
    simp
  constructor
  · rintro (⟨h, ⟨h1, rfl, rfl⟩ | ⟨h1, h2⟩⟩ | ⟨h, rfl, rfl⟩)
    · rw [getn1_of h] at h1 ⊢
      exact ⟨.last (headSym_reads h) h1, ⟨rfl, rfl, rfl⟩⟩
    · rw [getn1_of h] at h1 h2
      rw [ok_bind] at h2
      obtain ⟨v, r1, h2, h3⟩ := h2
      obtain ⟨rfl, rfl⟩ := ok_pure.1 h3
      exact ⟨.cmd (headSym_reads h) h1 (hl.1 h2), ⟨rfl, rfl, rfl⟩⟩
    · exact ⟨.none h, Keep.refl _⟩
  · rintro ⟨h, hk⟩
    generalize hx : Export.exArg fn ea' = x at h
    cases h with
    | last h1 h2 =>
      obtain rfl := keep_eq { ea with doEcmdCmd := cs!"$" } hx hk rfl ⟨rfl, rfl, rfl⟩
      obtain ⟨h3, rfl⟩ := reads_one_iff.1 h1
      rw [getn1_of h3]
      exact .inl ⟨h3, .inl ⟨h2, rfl, rfl⟩⟩
    | @cmd r1 v _ h1 h2 h4 =>
      obtain rfl := keep_eq { ea with doEcmdCmd := v } hx hk rfl ⟨rfl, rfl, rfl⟩
      obtain ⟨h3, rfl⟩ := reads_one_iff.1 h1
      rw [getn1_of h3]
      refine .inl ⟨h3, .inr ⟨h2, ?_⟩⟩
      rw [ok_bind]
      exact ⟨v, r', hl.2 h4, ok_pure.2 ⟨rfl, rfl⟩⟩
    | none h =>
      obtain rfl := (keep_iff rfl ea (Keep.refl _)).1 ⟨hx, hk⟩
      exact .inr ⟨h, rfl, rfl⟩

end
end Viml
