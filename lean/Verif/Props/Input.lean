/-
Properties C01-C04, C39, C40: how bytes become the character sequence the parser reads.
`mkEnv lines` is the reader built from physical lines, `(mkEnv lines).buf` its cells: characters
(`c = some ch`) and line ends (`c = none`), each with its position.
-/
import Verif.Lemmas.Input

namespace Viml.Props

open Viml Viml.Spec

/-! ### C01: line continuation -/

/-- C01.  The cell sequence is the logical lines, each followed by a line end. -/
theorem C01_logical_lines (lines : List Str) :
    (mkEnv lines).buf.map Cell.c =
      (logicalLines lines).flatMap fun l => l.map some ++ [none] := by
  simp only [mkEnv, reindex_text, buildCells_text]

/-- C01 for text: nothing is lost, duplicated or reordered.  The characters read are, in order, the
first line, and of every further line either all of it or what follows its backslash. -/
theorem C01_characters (l : Str) (ls : List Str) :
    (mkEnv (l :: ls)).buf.filterMap Cell.c =
      l ++ ls.flatMap fun m => (afterBackslash m).getD m := by
  have key : ∀ (ls : List Str) (cur : Str),
      (joinFrom cur ls).flatten = cur ++ ls.flatMap fun m => (afterBackslash m).getD m := by
    intro ls
    induction ls with
    | nil => intro cur; simp [joinFrom]
    | cons m ls ih =>
      intro cur
      unfold joinFrom
      cases h : afterBackslash m with
      | none => simp [ih, h]
      | some rest => simp [ih, h]
  have h := C01_logical_lines (l :: ls)
  have h2 : (mkEnv (l :: ls)).buf.filterMap Cell.c =
      ((mkEnv (l :: ls)).buf.map Cell.c).filterMap id := by
    rw [List.filterMap_map]; rfl
  rw [h2, h]
  have h3 : ∀ L : List Str, (L.flatMap fun l => l.map some ++ [none]).filterMap id = L.flatten := by
    intro L
    induction L with
    | nil => rfl
    | cons a L ih =>
      simp only [List.flatMap_cons, List.filterMap_append, ih, List.flatten_cons]
      congr 1
      simp
  rw [h3]
  exact key ls l

/-- C01: the number of logical lines is the number of physical lines that are not continuations. -/
theorem C01_count (l : Str) (ls : List Str) :
    (mkEnv (l :: ls)).buf.countP (fun c => c.c.isNone) =
      1 + ls.countP (fun m => (afterBackslash m).isNone) := by
  have h : (mkEnv (l :: ls)).buf.countP (fun c => c.c.isNone) =
      ((mkEnv (l :: ls)).buf.map Cell.c).countP Option.isNone := by
    rw [List.countP_map]; rfl
  rw [h, C01_logical_lines]
  have h3 : ∀ L : List Str,
      (L.flatMap fun l => l.map some ++ [none]).countP Option.isNone = L.length := by
    intro L
    induction L with
    | nil => rfl
    | cons a L ih =>
      simp only [List.flatMap_cons, List.countP_append, ih, List.length_cons]
      have : (a.map some).countP Option.isNone = 0 := by
        rw [List.countP_eq_zero]; intro x hx
        obtain ⟨y, _, rfl⟩ := List.mem_map.1 hx; simp
      rw [this]; simp; omega
  rw [h3]
  have key : ∀ (ls : List Str) (cur : Str),
      (joinFrom cur ls).length = 1 + ls.countP (fun m => (afterBackslash m).isNone) := by
    intro ls
    induction ls with
    | nil => intro cur; rfl
    | cons m ls ih =>
      intro cur
      unfold joinFrom
      cases h : afterBackslash m with
      | none => simp [ih, h]; omega
      | some rest => simp [ih, h]
  exact key ls l

example : logicalLines [cs!"let x = [", cs!"  \\ 1,", cs!"\t\\2]", cs!"echo x", cs!"", cs!"\\ y"] =
    [cs!"let x = [ 1,2]", cs!"echo x", cs!" y"] := by decide

/-! ### C02: line and column -/

/-- C02.  Every character read comes from a visible place of the input; its line number is that of
the place's physical line (1-based), its column one plus the bytes before the place on that line. -/
theorem C02_line_col (lines : List Str) (cell : Cell) (h : cell ∈ (mkEnv lines).buf) (ch : Char)
    (hc : cell.c = some ch) :
    ∃ p : Place lines, p.c = ch ∧ p.visible ∧
      cell.pos.lnum = p.n + 1 ∧ cell.pos.col = 1 + bytes p.pre := by
  obtain ⟨d, hd, hk⟩ := mem_reindex h
  simp only [Cell.key, Prod.mk.injEq] at hk
  have hd' : (⟨some ch, d.pos⟩ : Cell) ∈ buildCells lines := by
    rw [← hc, ← hk.1]; exact hd
  obtain ⟨p, h1, h2, h3⟩ := (mem_buildCells_char lines ch d.pos).1 hd'
  refine ⟨p, h1, h2, ?_, ?_⟩
  · rw [← hk.2.1, h3]
  · rw [← hk.2.2.1, h3]; simp only; omega

/-- C02, converse: every visible place of the input is read, with that line and column. -/
theorem C02_complete (lines : List Str) (p : Place lines) (hv : p.visible) :
    ∃ cell ∈ (mkEnv lines).buf, cell.c = some p.c ∧
      cell.pos.lnum = p.n + 1 ∧ cell.pos.col = 1 + bytes p.pre := by
  have := (mem_buildCells_char lines p.c _).2 ⟨p, rfl, hv, rfl⟩
  obtain ⟨d, hd, hk⟩ := mem_reindex' (n := 0) this
  simp only [Cell.key, Prod.mk.injEq] at hk
  refine ⟨d, hd, hk.1, hk.2.1, ?_⟩
  rw [hk.2.2.1]; omega

/-- C02 for line ends: a line end sits just after the last byte of the last physical line of a
logical line, that is, of a line whose successor is not a continuation line. -/
theorem C02_line_end (lines : List Str) (cell : Cell) (h : cell ∈ (mkEnv lines).buf)
    (hc : cell.c = none) :
    ∃ l, 0 < cell.pos.lnum ∧ lines[cell.pos.lnum - 1]? = some l ∧ cell.pos.col = 1 + bytes l ∧
      (∀ l', lines[cell.pos.lnum]? = some l' → afterBackslash l' = none) := by
  obtain ⟨d, hd, hk⟩ := mem_reindex h
  simp only [Cell.key, Prod.mk.injEq] at hk
  have hd' : (⟨none, d.pos⟩ : Cell) ∈ buildCells lines := by
    rw [← hc, ← hk.1]; exact hd
  obtain ⟨k, l, h1, h2, h3⟩ := (mem_buildCells_eol lines d.pos).1 hd'
  have hl : cell.pos.lnum = k + 1 := by rw [← hk.2.1, h3]
  refine ⟨l, by omega, by rw [hl]; exact h1, ?_, ?_⟩
  · rw [← hk.2.2.1, h3]; simp only; omega
  · intro l' hl'
    rw [hl] at hl'
    have := h2 l' hl'
    rw [isCont_iff] at this
    simpa using this

/-- A visible place on a continuation line after multi-byte text: `x` has line 2 and column 7. -/
example : ∃ p : Place [cs!"é", cs!"  \\é x"], p.c = 'x' ∧ p.visible ∧ p.n + 1 = 2 ∧
    1 + bytes p.pre = 7 := by
  refine ⟨⟨1, cs!"  \\é ", 'x', [], rfl⟩, rfl, fun _ => by decide, rfl, by decide⟩

/-! ### C03: byte offset -/

/-- C03.  On lines that are not continuation lines the offset is the number of bytes of the file
(its lines with LF line ends) before the character; on continuation lines it is 0. -/
theorem C03_offset (lines : List Str) (cell : Cell) (h : cell ∈ (mkEnv lines).buf)
    (ch : Char) (hc : cell.c = some ch) :
    ∃ p : Place lines, p.c = ch ∧ cell.pos.lnum = p.n + 1 ∧ cell.pos.col = 1 + bytes p.pre ∧
      (p.onCont → cell.pos.offset = 0) ∧
      (¬ p.onCont → ∃ before after, before.length = cell.pos.offset ∧
        fileBytes lines = before ++ String.utf8EncodeChar ch ++ after ∧
        before = fileBytes (lines.take p.n) ++ p.pre.flatMap String.utf8EncodeChar) := by
  obtain ⟨d, hd, hk⟩ := mem_reindex h
  simp only [Cell.key, Prod.mk.injEq] at hk
  have hd' : (⟨some ch, d.pos⟩ : Cell) ∈ buildCells lines := by
    rw [← hc, ← hk.1]; exact hd
  obtain ⟨p, h1, h2, h3⟩ := (mem_buildCells_char lines ch d.pos).1 hd'
  refine ⟨p, h1, by rw [← hk.2.1, h3], by rw [← hk.2.2.1, h3]; simp only; omega, ?_, ?_⟩
  · intro hn
    rw [← hk.2.2.2, h3]
    exact if_pos ⟨hn.1, by rw [isCont_iff]; exact hn.2⟩
  intro hn
  have hcond : ¬ (p.n ≠ 0 ∧ isCont p.line = true) := by
    rw [isCont_iff]; exact hn
  refine ⟨_, p.post.flatMap String.utf8EncodeChar ++ [10] ++ fileBytes (lines.drop (p.n + 1)),
    ?_, ?_, rfl⟩
  · rw [← hk.2.2.2, h3]
    simp only [if_neg hcond, List.length_append, totalLen_eq]
    rfl
  · have hs : lines = lines.take p.n ++ (p.pre ++ p.c :: p.post) :: lines.drop (p.n + 1) := by
      have hlt : p.n < lines.length := by
        rcases Nat.lt_or_ge p.n lines.length with h | h
        · exact h
        · have := p.ok; rw [List.getElem?_eq_none h] at this; simp at this
      have hg : lines[p.n] = p.pre ++ p.c :: p.post := by
        have := p.ok; rw [List.getElem?_eq_getElem hlt] at this; exact Option.some.inj this
      rw [← hg, List.getElem_cons_drop, List.take_append_drop]
    conv => lhs; rw [hs]
    simp [fileBytes, h1, List.flatMap_append, List.flatMap_cons]

/-- Line ends, on every kind of line: the offset is that of the line terminator. -/
theorem C03_offset_line_end (lines : List Str) (cell : Cell) (h : cell ∈ (mkEnv lines).buf)
    (hc : cell.c = none) :
    (fileBytes (lines.take cell.pos.lnum)).length = cell.pos.offset + 1 := by
  obtain ⟨d, hd, hk⟩ := mem_reindex h
  simp only [Cell.key, Prod.mk.injEq] at hk
  have hd' : (⟨none, d.pos⟩ : Cell) ∈ buildCells lines := by
    rw [← hc, ← hk.1]; exact hd
  obtain ⟨k, l, h1, h2, h3⟩ := (mem_buildCells_eol lines d.pos).1 hd'
  have hl : cell.pos.lnum = k + 1 := by rw [← hk.2.1, h3]
  rw [← hk.2.2.2, h3, hl, totalLen_eq]
  have : 0 < (fileBytes (lines.take (k + 1))).length := by
    rw [List.take_add_one, h1]
    simp only [fileBytes, Option.toList_some, List.flatMap_append, List.flatMap_cons,
      List.flatMap_nil, List.append_nil, List.length_append, List.length_singleton]
    omega
  simp only
  omega

/-- The number of bytes before the character is not the offset on all lines. -/
theorem C03_false_on_continuation :
    ¬ ∀ (lines : List Str), ∀ cell ∈ (mkEnv lines).buf, ∀ ch, cell.c = some ch →
      ∃ p : Place lines, p.c = ch ∧ cell.pos.lnum = p.n + 1 ∧ cell.pos.col = 1 + bytes p.pre ∧
        cell.pos.offset = (fileBytes (lines.take p.n)).length + bytes p.pre := by
  intro h
  obtain ⟨p, hp1, hp2, hp3, hp4⟩ := h [cs!"echo 1", cs!"\\ + x"]
    ⟨some 'x', ⟨9, 2, 5, 0⟩⟩ (by decide) 'x' rfl
  have hn : p.n = 1 := by simp at hp2; omega
  rw [hn] at hp4
  have : (fileBytes ([cs!"echo 1", cs!"\\ + x"].take 1)).length = 7 := by decide
  rw [this] at hp4
  simp only at hp4
  omega

/-- C03, for each place: every visible character of a continuation line carries offset 0. -/
theorem C03_continuation_zero (lines : List Str) (p : Place lines) (hv : p.visible)
    (hc : p.onCont) :
    ∃ cell ∈ (mkEnv lines).buf, cell.c = some p.c ∧ cell.pos.lnum = p.n + 1 ∧
      cell.pos.col = 1 + bytes p.pre ∧ cell.pos.offset = 0 := by
  have := (mem_buildCells_char lines p.c _).2 ⟨p, rfl, hv, rfl⟩
  obtain ⟨d, hd, hk⟩ := mem_reindex' (n := 0) this
  simp only [Cell.key, Prod.mk.injEq] at hk
  refine ⟨d, hd, hk.1, hk.2.1, by rw [hk.2.2.1]; omega, ?_⟩
  rw [hk.2.2.2, if_pos ⟨hc.1, by rw [isCont_iff]; exact hc.2⟩]

/-- A place the first theorem speaks about: `x` on the second line of a two-line file, offset 8. -/
example : (⟨some 'x', ⟨7, 2, 4, 8⟩⟩ : Cell) ∈ (mkEnv [cs!"lét", cs!"if x"]).buf := by decide

/-! ### C04: order -/

/-- C04.  Reading forward, (line, column) strictly increases. -/
theorem C04_strictly_increasing (lines : List Str) :
    (mkEnv lines).buf.Pairwise fun a b => lexLt a.pos.lnum a.pos.col b.pos.lnum b.pos.col :=
  reindex_pairwise _ _ (buildCells_pairwise lines)

/-- C04: every character and line end comes before the end-of-file position. -/
theorem C04_before_eof (lines : List Str) (c : Cell) (h : c ∈ (mkEnv lines).buf) :
    lexLt c.pos.lnum c.pos.col (mkEnv lines).eof.lnum (mkEnv lines).eof.col := by
  left
  show c.pos.lnum < lines.length + 1
  cases hc : c.c with
  | none =>
    obtain ⟨l, h0, h1, _⟩ := C02_line_end lines c h hc
    obtain ⟨h2, _⟩ := List.getElem?_eq_some_iff.1 h1
    omega
  | some ch =>
    obtain ⟨p, _, _, h1, _⟩ := C02_line_col lines c h ch hc
    obtain ⟨h2, _⟩ := List.getElem?_eq_some_iff.1 p.ok
    omega

/-- C04: different cells never share (line, column). -/
theorem C04_injective (lines : List Str) (i j : Nat) (a b : Cell)
    (ha : (mkEnv lines).buf[i]? = some a) (hb : (mkEnv lines).buf[j]? = some b)
    (hl : a.pos.lnum = b.pos.lnum) (hcol : a.pos.col = b.pos.col) : i = j := by
  have hp := C04_strictly_increasing lines
  rw [List.pairwise_iff_getElem] at hp
  obtain ⟨hi, rfl⟩ := List.getElem?_eq_some_iff.1 ha
  obtain ⟨hj, rfl⟩ := List.getElem?_eq_some_iff.1 hb
  rcases Nat.lt_trichotomy i j with h | h | h
  · have := hp i j hi hj h
    unfold lexLt at this; omega
  · exact h
  · have := hp j i hj hi h
    unfold lexLt at this; omega

example : (mkEnv [cs!"a", cs!" \\", cs!"b"]).buf.map (fun c => (c.pos.lnum, c.pos.col)) =
    [(1, 1), (2, 3), (3, 1), (3, 2)] := by decide

/-! ### C39: lines of a byte sequence -/

theorem chopCR_eq (l : List UInt8) : dropCR l = chopCR l := by
  unfold dropCR chopCR
  rcases List.eq_nil_or_concat l with rfl | ⟨a, x, rfl⟩
  · simp
  · by_cases hx : x = 13
    · subst hx; simp
    · have h1 : ¬ [13] <:+ a ++ [x] := by
        rintro ⟨t, ht⟩
        have := List.append_inj_right' ht rfl
        simp at this; exact hx this.symm
      simp [hx, h1]

/-- Every byte sequence is LF-free segments each followed by LF, and an LF-free rest. -/
theorem C39_decompose (bs : List UInt8) : ∃ (segs : List (List UInt8)) (last : List UInt8),
    (∀ s ∈ segs, (10 : UInt8) ∉ s) ∧ (10 : UInt8) ∉ last ∧
      bs = segs.flatMap (fun s => s ++ [10]) ++ last := by
  induction bs with
  | nil => exact ⟨[], [], by simp, by simp, rfl⟩
  | cons b bs ih =>
    obtain ⟨segs, last, h1, h2, h3⟩ := ih
    by_cases hb : b = 10
    · exact ⟨[] :: segs, last, by simpa using h1, h2, by simp [hb, h3]⟩
    · cases segs with
      | nil => exact ⟨[], b :: last, by simp, by simp [h2, Ne.symm hb], by simp [h3]⟩
      | cons s segs =>
        refine ⟨(b :: s) :: segs, last, ?_, h2, by simp [h3]⟩
        intro t ht
        rcases List.mem_cons.1 ht with rfl | ht
        · have := h1 s (by simp); simp [this, Ne.symm hb]
        · exact h1 t (by simp [ht])

/-- C39, exact: the lines read are the LF-terminated segments (and a non-empty unterminated rest),
each without one trailing CR, up to the first line of 65536 or more bytes. -/
theorem C39_lines (segs : List (List UInt8)) (last : List UInt8)
    (hs : ∀ s ∈ segs, (10 : UInt8) ∉ s) (hl : (10 : UInt8) ∉ last) :
    readlines (segs.flatMap (fun s => s ++ [10]) ++ last) =
      ((linesOf segs last).takeWhile fun s => s.length < 65536).map chopCR := by
  induction segs with
  | nil =>
    by_cases h : last = []
    · subst h; rfl
    · simp only [List.flatMap_nil, List.nil_append, linesOf, if_neg h]
      rw [readlines_last last hl h, List.takeWhile_cons]
      by_cases hlen : last.length < 65536
      · simp [hlen, chopCR_eq]
      · simp [hlen]
  | cons s segs ih =>
    have := ih (fun t ht => hs t (by simp [ht]))
    simp only [List.flatMap_cons, List.append_assoc, List.cons_append,
      List.nil_append]
    rw [readlines_cons s _ (hs s (by simp)), this]
    simp only [linesOf, List.cons_append, List.takeWhile_cons]
    by_cases hlen : s.length < 65536
    · simp [hlen, chopCR_eq]
    · simp [hlen]

/-- C39, re-joining: if every line is shorter than 64 KiB, the input is the lines read, each followed
by its terminator: LF or CRLF, for the last line also CR or nothing. -/
theorem C39_rejoin (segs : List (List UInt8)) (last : List UInt8)
    (hs : ∀ s ∈ segs, (10 : UInt8) ∉ s ∧ s.length < 65536)
    (hl : (10 : UInt8) ∉ last ∧ last.length < 65536) :
    ∃ ts : List (List UInt8),
      ts.length = (readlines (segs.flatMap (fun s => s ++ [10]) ++ last)).length ∧
      (∀ t ∈ ts.dropLast, t = [10] ∨ t = [13, 10]) ∧
      (∀ t ∈ ts, t = [10] ∨ t = [13, 10] ∨ t = [] ∨ t = [13]) ∧
      (List.zipWith (· ++ ·) (readlines (segs.flatMap (fun s => s ++ [10]) ++ last)) ts).flatten =
        segs.flatMap (fun s => s ++ [10]) ++ last := by
  have hchop : ∀ s : List UInt8, ∃ t, (t = [] ∨ t = [13]) ∧ chopCR s ++ t = s := by
    intro s
    unfold chopCR
    split
    · rename_i h
      obtain ⟨a, rfl⟩ := h
      exact ⟨[13], Or.inr rfl, by simp⟩
    · exact ⟨[], Or.inl rfl, by simp⟩
  induction segs with
  | nil =>
    by_cases h : last = []
    · subst h; exact ⟨[], rfl, by simp, by simp, rfl⟩
    · simp only [List.flatMap_nil, List.nil_append]
      rw [readlines_last last hl.1 h, if_pos hl.2]
      obtain ⟨t, ht, e⟩ := hchop last
      refine ⟨[t], rfl, by simp, ?_, by simp [chopCR_eq, e]⟩
      intro x hx
      have : x = t := by simpa using hx
      subst this
      rcases ht with h | h <;> simp [h]
  | cons s segs ih =>
    obtain ⟨ts, h1, h2, h3, h4⟩ := ih (fun t ht => hs t (by simp [ht]))
    simp only [List.flatMap_cons, List.append_assoc, List.cons_append,
      List.nil_append]
    rw [readlines_cons s _ (hs s (by simp)).1, if_pos (hs s (by simp)).2]
    obtain ⟨t, ht, e⟩ := hchop s
    refine ⟨(t ++ [10]) :: ts, by simp [h1], ?_, ?_, ?_⟩
    · intro x hx
      cases ts with
      | nil => simp at hx
      | cons a ts =>
        simp only [List.dropLast_cons_of_ne_nil (List.cons_ne_nil a ts), List.mem_cons] at hx
        rcases hx with rfl | hx
        · rcases ht with h | h <;> simp [h]
        · exact h2 x hx
    · intro x hx
      rcases List.mem_cons.1 hx with rfl | hx
      · rcases ht with h | h <;> simp [h]
      · exact h3 x hx
    · simp only [List.zipWith_cons_cons, List.flatten_cons, h4, chopCR_eq]
      rw [← List.append_assoc, ← List.append_assoc (chopCR s), e]; simp

/-- C39, the limit: a line of 64 KiB or more hides itself and all the rest of the input. -/
theorem C39_limit (segs : List (List UInt8)) (long rest : List UInt8)
    (hs : ∀ s ∈ segs, (10 : UInt8) ∉ s ∧ s.length < 65536)
    (hl : (10 : UInt8) ∉ long) (hlen : 65536 ≤ long.length) :
    readlines (segs.flatMap (fun s => s ++ [10]) ++ (long ++ 10 :: rest)) = segs.map chopCR := by
  induction segs with
  | nil =>
    simp only [List.flatMap_nil, List.nil_append, List.map_nil]
    rw [readlines_cons long _ hl, if_neg (by omega)]
  | cons s segs ih =>
    simp only [List.flatMap_cons, List.append_assoc, List.map_cons, List.cons_append,
      List.nil_append]
    rw [readlines_cons s _ (hs s (by simp)).1, if_pos (hs s (by simp)).2,
      ih (fun t ht => hs t (by simp [ht])), chopCR_eq]

example : readlines [97, 13, 10, 10, 98, 13] = [[97], [], [98]] := by decide
/-- An input that meets the hypotheses of `C39_limit`. -/
example : (10 : UInt8) ∉ List.replicate 65536 (97 : UInt8) ∧
    65536 ≤ (List.replicate 65536 (97 : UInt8)).length :=
  ⟨fun h => absurd (List.eq_of_mem_replicate h) (by decide), Nat.le_of_eq List.length_replicate.symm⟩

/-! ### C40: UTF-8 -/

/-- C40: decoding undoes encoding, in any context. -/
theorem C40_decode_char (c : Char) (rest : List UInt8) :
    decodeUtf8 (String.utf8EncodeChar c ++ rest) = c :: decodeUtf8 rest :=
  decodeUtf8_encode_append c rest

/-- C40 for valid UTF-8 text. -/
theorem C40_decode_encode (text : Str) :
    decodeUtf8 (text.flatMap String.utf8EncodeChar) = text := by
  induction text with
  | nil => rfl
  | cons c cs ih => rw [List.flatMap_cons, decodeUtf8_encode_append, ih]

/-- C40: a byte at which no character's encoding starts is one replacement character. -/
theorem C40_invalid_byte (b : UInt8) (bs : List UInt8)
    (h : ∀ c : Char, ¬ String.utf8EncodeChar c <+: b :: bs) :
    decodeUtf8 (b :: bs) = Char.ofNat 0xFFFD :: decodeUtf8 bs := by
  rcases decodeRune_sound b bs with ⟨rest, h1, _⟩ | h2
  · exact absurd ⟨rest, h1.symm⟩ (h _)
  · unfold decodeUtf8
    rw [decodeGo, h2]; rfl

/-- The two cases of C40 cover every input: at each byte either a character's encoding starts or
`C40_invalid_byte` applies, and at most one character fits. -/
theorem C40_unique (c d : Char) (bs : List UInt8) (hc : String.utf8EncodeChar c <+: bs)
    (hd : String.utf8EncodeChar d <+: bs) : c = d := by
  obtain ⟨r, rfl⟩ := hc
  obtain ⟨s, hs⟩ := hd
  have h1 := C40_decode_char c r
  rw [← hs, C40_decode_char d s] at h1
  simpa using (List.cons.inj h1).1.symm

/-- C03 and C40 together on bytes: the file made of the given lines is read as those lines. -/
theorem C40_file (lines : List Str)
    (h : ∀ l ∈ lines, '\n' ∉ l ∧ ¬ ['\r'] <:+ l ∧ bytes l < 65536) :
    (readlines (fileBytes lines)).map decodeUtf8 = lines := by
  have hten : ∀ l : Str, '\n' ∉ l → (10 : UInt8) ∉ l.flatMap String.utf8EncodeChar := by
    intro l hl hm
    obtain ⟨c, hc, hb⟩ := List.mem_flatMap.1 hm
    have hne : c ≠ '\n' := fun e => hl (e ▸ hc)
    apply hne
    rw [← Char.ofNat_toNat c, mem_encode_ascii hb (by decide)]; rfl
  have hcr : ∀ l : Str, ¬ ['\r'] <:+ l → dropCR (l.flatMap String.utf8EncodeChar) =
      l.flatMap String.utf8EncodeChar := by
    intro l hl
    unfold dropCR
    rw [if_neg]
    intro hlast
    rcases List.eq_nil_or_concat l with rfl | ⟨a, c, rfl⟩
    · simp at hlast
    · rw [List.concat_eq_append] at hl
      rw [List.concat_eq_append, List.flatMap_append] at hlast
      have hne : c ≠ '\r' := fun e => hl ⟨a, by rw [e]⟩
      have hmem : ∀ (xs ys : List UInt8), ys ≠ [] → (xs ++ ys).getLast? = some 13 →
          13 ∈ ys := by
        intro xs ys hy hg
        rw [List.getLast?_append] at hg
        cases hz : ys.getLast? with
        | none => exact absurd (List.getLast?_eq_none_iff.1 hz) hy
        | some z =>
          rw [hz] at hg
          simp at hg
          exact hg ▸ List.mem_of_getLast? hz
      have hm := hmem _ _ (by
        intro e
        have := congrArg List.length e
        simp [String.length_utf8EncodeChar] at this
        have := c.utf8Size_pos
        omega) hlast
      simp only [List.flatMap_cons, List.flatMap_nil, List.append_nil] at hm
      apply hne
      rw [← Char.ofNat_toNat c, mem_encode_ascii hm (by decide)]; rfl
  induction lines with
  | nil => rfl
  | cons l ls ih =>
    have hl := h l (by simp)
    have e : fileBytes (l :: ls) = l.flatMap String.utf8EncodeChar ++ 10 :: fileBytes ls := by
      simp [fileBytes]
    rw [e, readlines_cons _ _ (hten l hl.1), if_pos (show (l.flatMap String.utf8EncodeChar).length < 65536 from hl.2.2),
      List.map_cons,
      ih (fun m hm => h m (by simp [hm])), hcr l hl.2.1, C40_decode_encode]

example : ∀ c : Char, ¬ String.utf8EncodeChar c <+: [0xC3, 0x28] := by
  intro c hc
  have h1 : (decodeUtf8 [0xC3, 0x28]) = [Char.ofNat 0xFFFD, '('] := by decide
  obtain ⟨r, hr⟩ := hc
  have h2 := C40_decode_char c r
  rw [hr, h1] at h2
  have h3 : c = Char.ofNat 0xFFFD := (List.cons.inj h2).1.symm
  subst h3
  revert hr
  rw [show String.utf8EncodeChar (Char.ofNat 0xFFFD) = [0xEF, 0xBF, 0xBD] by decide]
  simp

end Viml.Props
