/-
C80: the parser tests characters and names with the patterns of Vim.
-/
import Verif.Lemmas.Regex
import Verif.Model.VimLParser
import Verif.Model.Json
import Verif.Model.Input

namespace Viml.Props
open Spec Re

/-- A pattern for one character. -/
theorem one_char {f : Char → Bool} {reg s : Str} {n : Bool} {rs : List (Char × Char)}
    (h : (patVim2Go.lookup reg).bind Re.parse = some (.seq .start (.seq (.set n rs) (.seq .stop .eps))))
    (hf : ∀ c, f c = (within c rs == !n)) : is1 f s = true ↔ Eqregh s reg := by
  rw [eqregh_iff h, search_start, at_seq]
  match s with
  | [] => simp [is1, at_set_nil]
  | [c] => simp [is1, at_set, at_seq, at_stop, at_eps, hf]
  | c :: d :: s => simp [is1, at_set, at_seq, at_stop]

theorem eq_range (c d : Char) : (c == d) = (decide (d.toNat ≤ c.toNat) && decide (c.toNat ≤ d.toNat)) := by
  rw [Bool.eq_iff_iff]
  simp only [beq_iff_eq, Bool.and_eq_true, decide_eq_true_eq]
  constructor
  · rintro rfl; simp
  · intro h
    exact Char.toNat_inj.1 (Nat.le_antisymm h.2 h.1)

theorem eq_char (c d : Char) : (c = d) ↔ (d.toNat ≤ c.toNat ∧ c.toNat ≤ d.toNat) := by
  have := eq_range c d
  rw [Bool.eq_iff_iff] at this
  simpa using this

/-- What `peek` and `p` return is tested as `peekn(1)`: the marks for the ends of lines and of the file are in no class. -/
theorem C80_peek (f : Char → Bool) (s : Sym) : s.is f = is1 f s.str := by cases s <;> rfl

example : (Sym.ch 'a').is isalpha = true ∧ Sym.eol.is isalpha = false := by decide

/-- C80.  `isalpha`, `isalnum`, `isdigit`, `isodigit` and `isxdigit` are the patterns, go/vimlparser.go:175-193. -/
theorem C80_digits (s : Str) :
    (is1 isalpha s = true ↔ Eqregh s cs!"^[A-Za-z]$") ∧ (is1 isalnum s = true ↔ Eqregh s cs!"^[0-9A-Za-z]$") ∧
    (is1 isdigit s = true ↔ Eqregh s cs!"^[0-9]$") ∧ (is1 isodigit s = true ↔ Eqregh s cs!"^[0-7]$") ∧
    (is1 isxdigit s = true ↔ Eqregh s cs!"^[0-9A-Fa-f]$") := by
  refine ⟨one_char (n := false) (rs := [('A', 'Z'), ('a', 'z')]) (by decide +kernel) ?_,
    one_char (n := false) (rs := [('0', '9'), ('A', 'Z'), ('a', 'z')]) (by decide +kernel) ?_,
    one_char (n := false) (rs := [('0', '9')]) (by decide +kernel) ?_,
    one_char (n := false) (rs := [('0', '7')]) (by decide +kernel) ?_,
    one_char (n := false) (rs := [('0', '9'), ('A', 'F'), ('a', 'f')]) (by decide +kernel) ?_⟩ <;>
    intro c <;> simp [isalpha, isUpperC, isLowerC, isalnum, isdigit, isodigit, isxdigit, within, Bool.or_assoc]

example : Eqregh cs!"f" cs!"^[0-9A-Fa-f]$" := (C80_digits _).2.2.2.2.1 (by decide)
example : ¬ Eqregh cs!"g" cs!"^[0-9A-Fa-f]$" := fun h => absurd ((C80_digits _).2.2.2.2.2 h) (by decide)
example : ¬ Eqregh cs!"ab" cs!"^[A-Za-z]$" := fun h => absurd ((C80_digits _).1.2 h) (by decide)

/-- C80.  `iswordc`, `isidc`, `iswordc1`, `isnamec1`, `iswhite`, `isnamec`, `isupper` and `islower` are the patterns,
go/vimlparser.go:195-213 and 223-234. -/
theorem C80_words (s : Str) :
    (is1 iswordc s = true ↔ Eqregh s cs!"^[0-9A-Za-z_]$") ∧ (is1 iswordc1 s = true ↔ Eqregh s cs!"^[A-Za-z_]$") ∧
    (is1 iswhite s = true ↔ Eqregh s cs!"^[ \\t]$") ∧ (is1 isnamec s = true ↔ Eqregh s cs!"^[0-9A-Za-z_:#]$") ∧
    (is1 isupper s = true ↔ Eqregh s cs!"^[A-Z]$") ∧ (is1 islower s = true ↔ Eqregh s cs!"^[a-z]$") := by
  refine ⟨one_char (n := false) (rs := [('0', '9'), ('A', 'Z'), ('a', 'z'), ('_', '_')]) (by decide +kernel) ?_,
    one_char (n := false) (rs := [('A', 'Z'), ('a', 'z'), ('_', '_')]) (by decide +kernel) ?_,
    one_char (n := false) (rs := [(' ', ' '), ('\t', '\t')]) (by decide +kernel) ?_,
    one_char (n := false) (rs := [('0', '9'), ('A', 'Z'), ('a', 'z'), ('_', '_'), (':', ':'), ('#', '#')]) (by decide +kernel) ?_,
    one_char (n := false) (rs := [('A', 'Z')]) (by decide +kernel) ?_,
    one_char (n := false) (rs := [('a', 'z')]) (by decide +kernel) ?_⟩ <;>
    intro c <;> simp only [isupper, islower, iswordc, iswordc1, iswhite, isnamec, isalpha, isUpperC, isLowerC, isalnum, isdigit,
      within, Bool.or_assoc, eq_range, List.any_cons, List.any_nil] <;> simp

example : Eqregh cs!"#" cs!"^[0-9A-Za-z_:#]$" := (C80_words _).2.2.2.1.1 (by decide)
example : ¬ Eqregh cs!"é" cs!"^[0-9A-Za-z_]$" := fun h => absurd ((C80_words _).1.2 h) (by decide)

theorem within_word (c : Char) : within c wordRanges = iswordc c := by
  simp only [within, wordRanges, iswordc, isalnum, isalpha, isUpperC, isLowerC, isdigit, Bool.or_assoc, eq_range, List.any_cons, List.any_nil]
  simp

theorem within_hash (c : Char) : within c [('0', '9'), ('A', 'Z'), ('a', 'z'), ('_', '_'), ('#', '#')] = (iswordc c || c == '#') := by
  simp only [within, iswordc, isalnum, isalpha, isUpperC, isLowerC, isdigit, Bool.or_assoc, eq_range, List.any_cons, List.any_nil]
  simp

theorem within_word1 (c : Char) : within c [('A', 'Z'), ('a', 'z'), ('_', '_')] = iswordc1 c := by
  simp only [within, iswordc1, isalpha, isUpperC, isLowerC, Bool.or_assoc, eq_range, List.any_cons, List.any_nil]
  simp

theorem within_xdigit (c : Char) : within c [('0', '9'), ('A', 'F'), ('a', 'f')] = isxdigit c := by
  simp only [within, isxdigit, isdigit, Bool.or_assoc, List.any_cons, List.any_nil]
  simp

theorem within_space (c : Char) : within c spaceRanges = isSpaceRe c := by
  have h : ∀ n : Nat, (9 ≤ n ∧ n ≤ 10 ∨ 12 ≤ n ∧ n ≤ 13 ∨ n = 32) ↔ (n = 32 ∨ n = 9 ∨ n = 10 ∨ n = 12 ∨ n = 13) := by omega
  have e : ∀ n : Nat, (32 ≤ n ∧ n ≤ 32) ↔ n = 32 := by omega
  have := h c.toNat
  have hc : ∀ d : Char, c = d ↔ c.toNat = d.toNat := fun d => Char.toNat_inj.symm
  rw [Bool.eq_iff_iff]
  simp only [within, spaceRanges, isSpaceRe, List.any_cons, List.any_nil, Bool.or_eq_true, Bool.and_eq_true, decide_eq_true_eq,
    beq_iff_eq, hc, Bool.or_false]
  simpa [e, or_assoc] using this

theorem within_one (c d : Char) : within c [(d, d)] = (c == d) := by
  simp [within, eq_range]

/-- C80.  `isargname` is the pattern, go/vimlparser.go:215-217. -/
theorem C80_isargname (s : Str) : isargname s = true ↔ Eqregh s cs!"^[A-Za-z_][0-9A-Za-z_]*$" := by
  rw [eqregh_iff (r := .seq .start (.seq (.set false [('A', 'Z'), ('a', 'z'), ('_', '_')]) (.seq (.star (.set false wordRanges))
    (.seq .stop .eps)))) (by decide +kernel), search_start, at_seq]
  cases s with
  | nil => simp [isargname, at_set_nil]
  | cons c s =>
    rw [at_set, at_seq]
    simp only [at_seq, at_stop, at_eps, and_true, at_star_set, within_word1, within_word]
    simp [isargname]

example : Eqregh cs!"_x1" cs!"^[A-Za-z_][0-9A-Za-z_]*$" := (C80_isargname _).1 (by decide)
example : ¬ Eqregh cs!"1x" cs!"^[A-Za-z_][0-9A-Za-z_]*$" := fun h => absurd ((C80_isargname _).2 h) (by decide)

theorem within_scope (c : Char) : within c [('v', 'v'), ('g', 'g'), ('s', 's'), ('l', 'l'), ('a', 'a'), ('b', 'b'), ('w', 'w'), ('t', 't')] =
    isScopeC c := by
  rw [Bool.eq_iff_iff]
  simp only [within, isScopeC, List.any_cons, List.any_nil, Bool.or_eq_true, Bool.and_eq_true, decide_eq_true_eq, Bool.or_false,
    List.contains_iff_mem, List.mem_cons, List.not_mem_nil, or_false, eq_char]

theorem varBody_at (s : Str) (p : Str) : isVarBody s = true ↔ At (.seq (.set false [('A', 'Z'), ('a', 'z'), ('_', '_')])
    (.seq (.star (.set false [('0', '9'), ('A', 'Z'), ('a', 'z'), ('_', '_'), ('#', '#')])) (.seq .stop .eps))) p s fun _ _ => True := by
  rw [at_seq]
  cases s with
  | nil => simp [isVarBody, at_set_nil]
  | cons c s =>
    rw [at_set, at_seq]
    simp only [at_seq, at_stop, at_eps, and_true, at_star_set, within_word1, within_hash]
    simp [isVarBody]

/-- C80.  `isvarname` is the pattern, go/vimlparser.go:219-221. -/
theorem C80_isvarname (s : Str) :
    isvarname s = true ↔ Eqregh s cs!"^[vgslabwt]:$\\|^\\([vgslabwt]:\\)\\?[A-Za-z_][0-9A-Za-z_#]*$" := by
  let sc : Re := .set false [('v', 'v'), ('g', 'g'), ('s', 's'), ('l', 'l'), ('a', 'a'), ('b', 'b'), ('w', 'w'), ('t', 't')]
  let body : Re := .seq (.set false [('A', 'Z'), ('a', 'z'), ('_', '_')])
    (.seq (.star (.set false [('0', '9'), ('A', 'Z'), ('a', 'z'), ('_', '_'), ('#', '#')])) (.seq .stop .eps))
  rw [eqregh_iff (r := .alt (.seq .start (.seq sc (lits cs!":" (.seq .stop .eps))))
    (.seq .start (.seq (.opt (.seq sc (lits cs!":" .eps))) body))) (by decide +kernel), search_alt, search_start, search_start]
  have colon : ∀ (c : Char), c = ':' → isVarBody (c :: []) = false := by rintro _ rfl; decide
  simp only [at_seq, at_opt, at_lits, at_stop, at_eps, and_true]
  have key : ∀ p s, At body p s (fun _ _ => True) ↔ isVarBody s = true := fun p s => (varBody_at s p).symm
  have hsc : ∀ c, within c [('v', 'v'), ('g', 'g'), ('s', 's'), ('l', 'l'), ('a', 'a'), ('b', 'b'), ('w', 'w'), ('t', 't')] = isScopeC c :=
    within_scope
  match s with
  | [] => simp [sc, at_set_nil, key, isvarname, isVarBody]
  | [c] => simp [sc, at_set, key, isvarname]
  | c :: d :: s =>
    simp only [sc, at_set, key, isvarname, hsc]
    have hd : isVarBody (c :: ':' :: s) = false := by
      have : iswordc ':' = false := by decide
      simp [isVarBody, this]
    by_cases h1 : d = ':'
    · subst h1
      rw [hd]
      cases isScopeC c <;> simp
    · cases isScopeC c <;> simp [h1]

example : Eqregh cs!"g:a#b" cs!"^[vgslabwt]:$\\|^\\([vgslabwt]:\\)\\?[A-Za-z_][0-9A-Za-z_#]*$" := (C80_isvarname _).1 (by decide)
example : ¬ Eqregh cs!"g:1" cs!"^[vgslabwt]:$\\|^\\([vgslabwt]:\\)\\?[A-Za-z_][0-9A-Za-z_#]*$" := fun h => absurd ((C80_isvarname _).2 h) (by decide)

/-- C80.  The patterns of the reader of blobs, go/vimlparser.go:3444-3448. -/
theorem C80_blob (s : Str) :
    (isHexPair s = true ↔ Eqregh s cs!"^[0-9A-Fa-f][0-9A-Fa-f]$") ∧ (isDotHex s = true ↔ Eqregh s cs!"^\\.[0-9A-Fa-f]$") ∧
    (isHexNonHex s = true ↔ Eqregh s cs!"^[0-9A-Fa-f][^0-9A-Fa-f]$") := by
  let x : List (Char × Char) := [('0', '9'), ('A', 'F'), ('a', 'f')]
  have hx : ∀ c, within c x = isxdigit c := within_xdigit
  rw [eqregh_iff (r := .seq .start (.seq (.set false x) (.seq (.set false x) (.seq .stop .eps)))) (by decide +kernel),
    eqregh_iff (r := .seq .start (.seq (.set false [('.', '.')]) (.seq (.set false x) (.seq .stop .eps)))) (by decide +kernel),
    eqregh_iff (r := .seq .start (.seq (.set false x) (.seq (.set true x) (.seq .stop .eps)))) (by decide +kernel)]
  simp only [search_start, at_seq, at_stop, at_eps, and_true]
  match s with
  | [] => simp [at_set_nil, isHexPair, isDotHex, isHexNonHex]
  | [c] => simp [at_set, at_set_nil, isHexPair, isDotHex, isHexNonHex]
  | [c, d] => simp [at_set, hx, within_one, isHexPair, isDotHex, isHexNonHex]
  | c :: d :: e :: s => simp [at_set, isHexPair, isDotHex, isHexNonHex]

example : Eqregh cs!".f" cs!"^\\.[0-9A-Fa-f]$" ∧ ¬ Eqregh cs!"xf" cs!"^\\.[0-9A-Fa-f]$" :=
  ⟨(C80_blob _).2.1.1 (by decide), fun h => absurd ((C80_blob _).2.1.2 h) (by decide)⟩

/-- C80.  The test for continuation lines, go/type.go:207. -/
theorem C80_continued (s : Str) : isCont s = true ↔ Eqregh s cs!"^\\s*\\\\" := by
  rw [eqregh_iff (r := .seq .start (.seq (.star (.set false spaceRanges)) (lits cs!"\\" .eps))) (by decide +kernel), search_start, at_seq]
  have key : ∀ (s p : Str), At (.star (.set false spaceRanges)) p s (fun p x => At (lits cs!"\\" .eps) p x fun _ _ => True) ↔ isCont s = true := by
    intro s
    induction s with
    | nil =>
      intro p
      rw [at_star, at_lits]
      simp [at_set_nil, isCont]
    | cons c s ih =>
      intro p
      rw [at_star, at_lits, at_set, ih, within_space, isCont]
      by_cases h : c = '\\'
      · subst h
        simp [at_eps]
      · simp [h]
  exact (key s []).symm

example : Eqregh cs!" \t\\ x" cs!"^\\s*\\\\" ∧ ¬ Eqregh cs!"x \\" cs!"^\\s*\\\\" :=
  ⟨(C80_continued _).1 (by decide), fun h => absurd ((C80_continued _).2 h) (by decide)⟩

/-- C80.  The patterns for the names of commands, go/vimlparser.go:818, 821, 829 and 862. -/
theorem C80_names (s : Str) :
    (isShortSubstitute s = true ↔ Eqregh s cs!"\\v^s%(c[^sr][^i][^p]|g|i[^mlg]|I|r[^e])") ∧
    (∀ c, isPunctCmd [c] = true ↔ Eqregh [c] cs!"[@*!=><&~#]") ∧ ¬ Eqregh [] cs!"[@*!=><&~#]" ∧ isPunctCmd [] = false ∧
    (isDeleteLP s = true ↔ Eqregh s cs!"\\v^d%[elete][lp]$") ∧
    (startsUpper s = true ↔ Eqregh s cs!"^[A-Z]") := by
  refine ⟨?_, ?_, ?_, rfl, ?_, ?_⟩
  · rw [eqregh_iff (r := .seq .start (lits cs!"s" (.seq (.alt (lits cs!"c" (.seq (.set true [('s', 's'), ('r', 'r')]) (.seq (.set true [('i', 'i')])
      (.seq (.set true [('p', 'p')]) .eps)))) (.alt (lits cs!"g" .eps) (.alt (lits cs!"i" (.seq (.set true [('m', 'm'), ('l', 'l'), ('g', 'g')]) .eps))
      (.alt (lits cs!"I" .eps) (lits cs!"r" (.seq (.set true [('e', 'e')]) .eps)))))) .eps))) (by decide +kernel), search_start]
    have w2 : ∀ c a b : Char, within c [(a, a), (b, b)] = (c == a || c == b) := by
      intro c a b
      simp [within, eq_range]
    have w3 : ∀ c a b d : Char, within c [(a, a), (b, b), (d, d)] = (c == a || c == b || c == d) := by
      intro c a b d
      simp [within, eq_range, Bool.or_assoc]
    simp only [lits, at_seq, at_alt, at_eps]
    match s with
    | [] => simp [at_set_nil, isShortSubstitute]
    | [c] => simp [at_set_nil, at_set, isShortSubstitute]
    | c :: d :: s =>
      by_cases h1 : c = 's'
      · subst h1
        by_cases h2 : d = 'c'
        · subst h2
          match s with
          | [] => simp [at_set, at_set_nil, within_one, isShortSubstitute]
          | [e] => simp [at_set, at_set_nil, within_one, isShortSubstitute]
          | [e, f] => simp [at_set, at_set_nil, within_one, isShortSubstitute]
          | e :: f :: g :: s => simp [at_set, within_one, w2, isShortSubstitute, and_assoc]
        by_cases h3 : d = 'g'
        · subst h3
          simp [at_set, within_one, isShortSubstitute]
        by_cases h4 : d = 'i'
        · subst h4
          cases s with
          | nil => simp [at_set, at_set_nil, within_one, isShortSubstitute]
          | cons e s => simp [at_set, within_one, w3, isShortSubstitute, and_assoc]
        by_cases h5 : d = 'I'
        · subst h5
          simp [at_set, within_one, isShortSubstitute]
        by_cases h6 : d = 'r'
        · subst h6
          cases s with
          | nil => simp [at_set, at_set_nil, within_one, isShortSubstitute]
          | cons e s => simp [at_set, within_one, isShortSubstitute]
        simp [at_set, within_one, isShortSubstitute, h2, h3, h4, h5, h6]
      · simp [at_set, within_one, isShortSubstitute, h1]
  · intro c
    rw [eqregh_iff (r := .seq (.set false [('@', '@'), ('*', '*'), ('!', '!'), ('=', '='), ('>', '>'), ('<', '<'), ('&', '&'), ('~', '~'), ('#', '#')]) .eps)
      (by decide +kernel), search_iff]
    have key : within c [('@', '@'), ('*', '*'), ('!', '!'), ('=', '='), ('>', '>'), ('<', '<'), ('&', '&'), ('~', '~'), ('#', '#')] = true ↔
        isPunctCmd [c] = true := by
      simp only [within, isPunctCmd, List.any_cons, List.any_nil, Bool.or_eq_true, Bool.and_eq_true, decide_eq_true_eq, Bool.or_false,
        List.contains_iff_mem, List.mem_cons, List.not_mem_nil, or_false, eq_char]
    rw [← key]
    constructor
    · intro h
      exact ⟨[], [c], rfl, by rw [at_seq, at_set, at_eps]; exact ⟨h, trivial⟩⟩
    · rintro ⟨p, x, e, h⟩
      rw [at_seq] at h
      cases x with
      | nil => exact absurd h at_set_nil
      | cons d x =>
        rw [at_set] at h
        cases p with
        | nil =>
          cases e
          exact h.1
        | cons a p => simp at e
  · rw [eqregh_iff (r := .seq (.set false [('@', '@'), ('*', '*'), ('!', '!'), ('=', '='), ('>', '>'), ('<', '<'), ('&', '&'), ('~', '~'), ('#', '#')]) .eps)
      (by decide +kernel), search_iff]
    rintro ⟨p, x, e, h⟩
    have := (List.append_eq_nil_iff.1 e.symm).2
    subst this
    rw [at_seq] at h
    exact at_set_nil h
  · rw [eqregh_iff (r := .seq .start (lits cs!"d" (.seq (.alt (lits cs!"elete" .eps) (.alt (lits cs!"elet" .eps) (.alt (lits cs!"ele" .eps)
      (.alt (lits cs!"el" .eps) (lits cs!"e" .eps))))) (.seq (.set false [('l', 'l'), ('p', 'p')]) (.seq .stop .eps))))) (by decide +kernel), search_start]
    have w2 : ∀ c a b : Char, within c [(a, a), (b, b)] = (c == a || c == b) := by
      intro c a b
      simp [within, eq_range]
    have hend : ∀ p y, At (.seq (.set false [('l', 'l'), ('p', 'p')]) (.seq .stop .eps)) p y (fun _ _ => True) ↔ y = cs!"l" ∨ y = cs!"p" := by
      intro p y
      rw [at_seq]
      match y with
      | [] => simp [at_set_nil]
      | [c] => simp [at_set, at_seq, at_stop, at_eps, w2]
      | c :: d :: y => simp [at_set, at_seq, at_stop]
    rw [at_lits]
    have hmid : ∀ p y, At (.seq (.alt (lits cs!"elete" .eps) (.alt (lits cs!"elet" .eps) (.alt (lits cs!"ele" .eps)
        (.alt (lits cs!"el" .eps) (lits cs!"e" .eps))))) (.seq (.set false [('l', 'l'), ('p', 'p')]) (.seq .stop .eps))) p y (fun _ _ => True) ↔
        ∃ w ∈ [cs!"elete", cs!"elet", cs!"ele", cs!"el", cs!"e"], y = w ++ cs!"l" ∨ y = w ++ cs!"p" := by
      intro p y
      rw [at_seq]
      have one : ∀ w : Str, (∃ z, y = w ++ z ∧ (z = cs!"l" ∨ z = cs!"p")) ↔ (y = w ++ cs!"l" ∨ y = w ++ cs!"p") := by
        intro w
        constructor
        · rintro ⟨z, rfl, rfl | rfl⟩
          · exact .inl rfl
          · exact .inr rfl
        · rintro (h | h)
          · exact ⟨_, h, .inl rfl⟩
          · exact ⟨_, h, .inr rfl⟩
      simp only [at_alt, at_lits, at_eps, hend, one, List.mem_cons, List.not_mem_nil, or_false, exists_eq_or_imp, exists_eq_left]
    simp only [hmid]
    constructor
    · intro h
      obtain ⟨b, hb, h⟩ := List.any_eq_true.1 h
      simp only [List.mem_cons, List.not_mem_nil, or_false] at hb
      simp only [Bool.or_eq_true, beq_iff_eq] at h
      rcases hb with rfl | rfl | rfl | rfl | rfl
      · exact ⟨s.drop 1, by rcases h with rfl | rfl <;> rfl, cs!"elete", by simp, by rcases h with rfl | rfl <;> simp⟩
      · exact ⟨s.drop 1, by rcases h with rfl | rfl <;> rfl, cs!"elet", by simp, by rcases h with rfl | rfl <;> simp⟩
      · exact ⟨s.drop 1, by rcases h with rfl | rfl <;> rfl, cs!"ele", by simp, by rcases h with rfl | rfl <;> simp⟩
      · exact ⟨s.drop 1, by rcases h with rfl | rfl <;> rfl, cs!"el", by simp, by rcases h with rfl | rfl <;> simp⟩
      · exact ⟨s.drop 1, by rcases h with rfl | rfl <;> rfl, cs!"e", by simp, by rcases h with rfl | rfl <;> simp⟩
    · rintro ⟨y, rfl, w, hw, h⟩
      simp only [List.mem_cons, List.not_mem_nil, or_false] at hw
      rcases hw with rfl | rfl | rfl | rfl | rfl <;> rcases h with rfl | rfl <;> decide
  · rw [eqregh_iff (r := .seq .start (.seq (.set false [('A', 'Z')]) .eps)) (by decide +kernel), search_start, at_seq]
    cases s with
    | nil => simp [startsUpper, at_set_nil]
    | cons c s => simp [startsUpper, at_set, at_eps, within, isUpperC]

example : Eqregh cs!"delep" cs!"\\v^d%[elete][lp]$" ∧ ¬ Eqregh cs!"dp" cs!"\\v^d%[elete][lp]$" :=
  ⟨(C80_names _).2.2.2.2.1.1 (by decide), fun h => absurd ((C80_names _).2.2.2.2.1.2 h) (by decide)⟩
example : Eqregh cs!"scabc" cs!"\\v^s%(c[^sr][^i][^p]|g|i[^mlg]|I|r[^e])" ∧ ¬ Eqregh cs!"scrip" cs!"\\v^s%(c[^sr][^i][^p]|g|i[^mlg]|I|r[^e])" :=
  ⟨(C80_names _).1.1 (by decide), fun h => absurd ((C80_names _).1.2 h) (by decide)⟩

/-! ### Options of commands -/

theorem headW_wordEnd (y : Str) : headW y = !wordEnd y := by
  cases y with
  | nil => rfl
  | cons c y => simp [headW, wordEnd, within_word]

theorem prefix_iff (s pre : Str) (P : Str → Prop) : (∃ y, s = pre ++ y ∧ P y) ↔ pre.isPrefixOf s = true ∧ P (s.drop pre.length) := by
  rw [List.isPrefixOf_iff_prefix]
  constructor
  · rintro ⟨y, rfl, h⟩
    exact ⟨List.prefix_append _ _, by simpa using h⟩
  · rintro ⟨⟨y, rfl⟩, h⟩
    exact ⟨y, rfl, by simpa using h⟩

/-- A word that starts the text. -/
theorem word_iff {s pre reg : Str} (h : (patVim2Go.lookup reg).bind Re.parse = some (.seq .start (lits pre (.seq .edge .eps))))
    (hp : lastW pre = true) : prefixWord pre s = true ↔ Eqregh s reg := by
  rw [eqregh_iff h, search_start, at_lits]
  simp only [at_seq, at_edge, at_eps, and_true, List.nil_append]
  rw [prefix_iff, hp, headW_wordEnd, prefixWord]
  simp

/-- A text and one more character. -/
theorem nonspace_iff {s pre reg : Str} (h : (patVim2Go.lookup reg).bind Re.parse = some (.seq .start (lits pre (.seq (.set true spaceRanges) .eps)))) :
    prefixNonspace pre s = true ↔ Eqregh s reg := by
  rw [eqregh_iff h, search_start, at_lits, prefix_iff, prefixNonspace, Bool.and_eq_true]
  refine and_congr Iff.rfl ?_
  rw [at_seq]
  cases s.drop pre.length with
  | nil => simp [at_set_nil]
  | cons c y => simp [at_set, at_eps, within_space]

theorem start_iff {s pre reg : Str} (h : (patVim2Go.lookup reg).bind Re.parse = some (.seq .start (lits pre .eps))) :
    pre.isPrefixOf s = true ↔ Eqregh s reg := by
  rw [eqregh_iff h, search_start, at_lits, prefix_iff, at_eps]
  simp

theorem ff_iff {s pre reg : Str} (h : (patVim2Go.lookup reg).bind Re.parse = some (.seq .start (lits pre (.seq
    (.alt (lits cs!"dos" .eps) (.alt (lits cs!"unix" .eps) (lits cs!"mac" .eps))) (.seq .edge .eps))))) :
    prefixFf pre s = true ↔ Eqregh s reg := by
  rw [eqregh_iff h, search_start, at_lits]
  have hmid : ∀ p y, At (.seq (.alt (lits cs!"dos" .eps) (.alt (lits cs!"unix" .eps) (lits cs!"mac" .eps))) (.seq .edge .eps)) p y (fun _ _ => True) ↔
      ∃ w ∈ [cs!"dos", cs!"unix", cs!"mac"], ∃ z, y = w ++ z ∧ headW z = false := by
    intro p y
    have e1 : lastW (p ++ cs!"dos") = true := by simp [lastW]; decide
    have e2 : lastW (p ++ cs!"unix") = true := by simp [lastW]; decide
    have e3 : lastW (p ++ cs!"mac") = true := by simp [lastW]; decide
    simp [at_seq, at_alt, at_lits, at_eps, at_edge, e1, e2, e3]
  simp only [hmid, prefixFf, List.any_eq_true, prefixWord, Bool.and_eq_true]
  constructor
  · rintro ⟨w, hw, h1, h2⟩
    obtain ⟨z, rfl⟩ := List.isPrefixOf_iff_prefix.1 h1
    refine ⟨w ++ z, by simp, w, hw, z, rfl, ?_⟩
    rw [List.drop_left] at h2
    rw [headW_wordEnd, h2]
    rfl
  · rintro ⟨_, rfl, w, hw, z, rfl, h⟩
    refine ⟨w, hw, List.isPrefixOf_iff_prefix.2 ⟨z, by simp⟩, ?_⟩
    rw [← List.append_assoc, List.drop_left]
    rw [headW_wordEnd] at h
    simpa using h

/-- C80.  The patterns for `++opt`, go/vimlparser.go:880-910.  In the pattern of `++bad=` the dot matches no line feed; the
reader's lines have none. -/
theorem C80_options (s : Str) :
    (prefixWord cs!"++bin" s = true ↔ Eqregh s cs!"^++bin\\>") ∧ (prefixWord cs!"++nobin" s = true ↔ Eqregh s cs!"^++nobin\\>") ∧
    (prefixWord cs!"++edit" s = true ↔ Eqregh s cs!"^++edit\\>") ∧
    (prefixFf cs!"++ff=" s = true ↔ Eqregh s cs!"^++ff=\\(dos\\|unix\\|mac\\)\\>") ∧
    (prefixFf cs!"++fileformat=" s = true ↔ Eqregh s cs!"^++fileformat=\\(dos\\|unix\\|mac\\)\\>") ∧
    (prefixNonspace cs!"++enc=" s = true ↔ Eqregh s cs!"^++enc=\\S") ∧
    (prefixNonspace cs!"++encoding=" s = true ↔ Eqregh s cs!"^++encoding=\\S") ∧
    ('\n' ∉ s → (prefixBad s = true ↔ Eqregh s cs!"^++bad=\\(keep\\|drop\\|.\\)\\>")) ∧
    ((cs!"++bad=keep").isPrefixOf s = true ↔ Eqregh s cs!"^++bad=keep") ∧
    ((cs!"++bad=drop").isPrefixOf s = true ↔ Eqregh s cs!"^++bad=drop") ∧
    ((cs!"++").isPrefixOf s = true ↔ Eqregh s cs!"^++") := by
  refine ⟨word_iff (by decide +kernel) (by decide), word_iff (by decide +kernel) (by decide), word_iff (by decide +kernel) (by decide),
    ff_iff (by decide +kernel), ff_iff (by decide +kernel), nonspace_iff (by decide +kernel), nonspace_iff (by decide +kernel), ?_,
    start_iff (by decide +kernel), start_iff (by decide +kernel), start_iff (by decide +kernel)⟩
  intro hn
  rw [eqregh_iff (r := .seq .start (lits cs!"++bad=" (.seq (.alt (lits cs!"keep" .eps) (.alt (lits cs!"drop" .eps) (.seq .any .eps)))
    (.seq .edge .eps)))) (by decide +kernel), search_start, at_lits]
  have e1 : ∀ p, lastW (p ++ cs!"keep") = true := by intro p; simp [lastW]; decide
  have e2 : ∀ p, lastW (p ++ cs!"drop") = true := by intro p; simp [lastW]; decide
  have e3 : ∀ p c, lastW (p ++ [c]) = iswordc c := by intro p c; simp [lastW, within_word]
  have hw : ∀ w p y, (∀ p, lastW (p ++ w) = true) → ((∃ z, y = w ++ z ∧ lastW (p ++ w) ≠ headW z) ↔ prefixWord w y = true) := by
    intro w p y hp
    rw [prefix_iff y w fun z => lastW (p ++ w) ≠ headW z, hp, headW_wordEnd, prefixWord]
    simp
  have hd : ∀ p y, '\n' ∉ y → (At .any p y (fun p y => lastW p ≠ headW y) ↔ (match y with
      | [] => false
      | [c] => iswordc c
      | c :: d :: _ => iswordc c != iswordc d) = true) := by
    intro p y hy
    match y with
    | [] => simp [at_any_nil]
    | [c] =>
      have : c ≠ '\n' := by rintro rfl; simp at hy
      simp [at_any, e3, headW, this]
    | c :: d :: y =>
      have : c ≠ '\n' := by rintro rfl; simp at hy
      simp [at_any, e3, headW, this, within_word]
  have hmid : ∀ p y, '\n' ∉ y → (At (.seq (.alt (lits cs!"keep" .eps) (.alt (lits cs!"drop" .eps) (.seq .any .eps))) (.seq .edge .eps)) p y (fun _ _ => True) ↔
      prefixWord cs!"keep" y = true ∨ prefixWord cs!"drop" y = true ∨ (match y with
      | [] => false
      | [c] => iswordc c
      | c :: d :: _ => iswordc c != iswordc d) = true) := by
    intro p y hy
    rw [← hd p y hy, ← hw cs!"keep" p y e1, ← hw cs!"drop" p y e2]
    simp only [at_seq, at_alt, at_lits, at_eps, at_edge, and_true]
  have hp : ∀ w : Str, prefixWord (cs!"++bad=" ++ w) s = true ↔ ((cs!"++bad=").isPrefixOf s = true ∧ prefixWord w (s.drop 6) = true) := by
    intro w
    simp only [prefixWord, Bool.and_eq_true, List.isPrefixOf_iff_prefix]
    constructor
    · rintro ⟨⟨z, rfl⟩, h⟩
      refine ⟨⟨w ++ z, by simp⟩, ⟨z, by simp⟩, ?_⟩
      simpa using h
    · rintro ⟨⟨y, rfl⟩, ⟨z, h1⟩, h2⟩
      have h1 : w ++ z = y := by simpa using h1
      subst h1
      exact ⟨⟨z, by simp⟩, by simpa using h2⟩
  rw [prefix_iff]
  have hs : '\n' ∉ s.drop (cs!"++bad=").length := fun h => hn (List.mem_of_mem_drop h)
  rw [hmid _ _ hs, prefixBad, Bool.or_eq_true, Bool.or_eq_true, Bool.and_eq_true]
  rw [show cs!"++bad=keep" = cs!"++bad=" ++ cs!"keep" from rfl, show cs!"++bad=drop" = cs!"++bad=" ++ cs!"drop" from rfl, hp, hp]
  rw [and_or_left, and_or_left, or_assoc]
  exact Iff.rfl

example : Eqregh cs!"++bin x" cs!"^++bin\\>" ∧ ¬ Eqregh cs!"++binx" cs!"^++bin\\>" :=
  ⟨(C80_options _).1.1 (by decide), fun h => absurd ((C80_options _).1.2 h) (by decide)⟩
example : Eqregh cs!"++bad=?x" cs!"^++bad=\\(keep\\|drop\\|.\\)\\>" ∧ ¬ Eqregh cs!"++bad=xx" cs!"^++bad=\\(keep\\|drop\\|.\\)\\>" :=
  ⟨((C80_options _).2.2.2.2.2.2.2.1 (by decide)).1 (by decide), fun h => absurd (((C80_options _).2.2.2.2.2.2.2.1 (by decide)).2 h) (by decide)⟩

/-! ### Flags of commands -/

/-- The word stands in the text, with no part of a word before it and behind it. -/
def WordIn (w s : Str) : Prop := ∃ p x, s = p ++ (w ++ x) ∧ lastW p = false ∧ headW x = false

theorem headW_of {c : Char} {x : Str} : headW (c :: x) = iswordc c := by simp [headW, within_word]

theorem lastW_append {p : Str} {c : Char} : lastW (p ++ [c]) = iswordc c := by simp [lastW, within_word]

theorem snoc_cases (p : Str) : p = [] ∨ ∃ q c, p = q ++ [c] := by
  rcases List.eq_nil_or_concat p with h | ⟨q, c, h⟩
  · exact .inl h
  · exact .inr ⟨q, c, by simpa using h⟩

theorem lastW_word {p : Str} (h : ∀ c ∈ p, iswordc c = true) (hl : lastW p = false) : p = [] := by
  rcases snoc_cases p with rfl | ⟨p, c, rfl⟩
  · rfl
  · rw [lastW_append, h c (by simp)] at hl
    cases hl

theorem headW_word {x : Str} (h : ∀ c ∈ x, iswordc c = true) (hx : headW x = false) : x = [] := by
  cases x with
  | nil => rfl
  | cons c x =>
    rw [headW_of, h c (by simp)] at hx
    cases hx

theorem lastW_cons {n p : Str} {c : Char} : lastW (n ++ c :: p) = lastW (c :: p) := by
  rcases snoc_cases p with rfl | ⟨p, d, rfl⟩
  · rw [lastW_append, show [c] = [] ++ [c] from rfl, lastW_append]
  · rw [show n ++ c :: (p ++ [d]) = (n ++ c :: p) ++ [d] by simp, lastW_append, show c :: (p ++ [d]) = (c :: p) ++ [d] from rfl, lastW_append]

theorem lastW_bar {p : Str} : lastW ('|' :: p) = lastW p := by
  rcases snoc_cases p with rfl | ⟨p, d, rfl⟩
  · decide
  · rw [lastW_append, show '|' :: (p ++ [d]) = ('|' :: p) ++ [d] from rfl, lastW_append]

theorem flagName_word (f : Flag) : ∀ c ∈ Json.flagName f, iswordc c = true := by cases f <;> decide

theorem flagName_inj {f g : Flag} (h : Json.flagName f = Json.flagName g) : f = g := by
  cases f <;> cases g <;> first | rfl | exact absurd h (by decide)

theorem flags_word {w : Str} (hw : ∀ c ∈ w, iswordc c = true) (h0 : w ≠ []) :
    ∀ fs : List Flag, WordIn w (Json.flags fs) ↔ ∃ f ∈ fs, Json.flagName f = w
  | [] => by
    constructor
    · rintro ⟨p, x, e, _, _⟩
      have := List.append_eq_nil_iff.1 e.symm
      exact absurd (List.append_eq_nil_iff.1 this.2).1 h0
    · rintro ⟨_, h, _⟩
      cases h
  | [f] => by
    rw [Json.flags]
    constructor
    · rintro ⟨p, x, e, h1, h2⟩
      have hn := flagName_word f
      rw [e] at hn
      have hp := lastW_word (fun c h => hn c (by simp [h])) h1
      have hx := headW_word (fun c h => hn c (by simp [h])) h2
      subst hp hx
      exact ⟨f, by simp, by simpa using e⟩
    · rintro ⟨g, hg, rfl⟩
      simp only [List.mem_singleton] at hg
      subst hg
      exact ⟨[], [], by simp, rfl, rfl⟩
  | f :: g :: fs => by
    have ih := flags_word hw h0 (g :: fs)
    have hn := flagName_word f
    have hb : iswordc '|' = false := by decide
    rw [Json.flags]
    constructor
    · rintro ⟨p, x, e, h1, h2⟩
      rcases List.append_eq_append_iff.1 e with ⟨a, e0, e'⟩ | ⟨b, e1, e'⟩
      · cases a with
        | nil =>
          cases w with
          | nil => exact absurd rfl h0
          | cons c w =>
            have hc := (List.cons.inj e').1
            rw [hc, hw _ (by simp)] at hb
            cases hb
        | cons c a =>
          obtain ⟨rfl, e2⟩ := List.cons.inj e'
          rw [e0, lastW_cons, lastW_bar] at h1
          obtain ⟨k, hk, e⟩ := ih.1 ⟨a, x, e2, h1, h2⟩
          exact ⟨k, List.mem_cons_of_mem _ hk, e⟩
      · have hp := lastW_word (fun c h => hn c (by rw [e1]; simp [h])) h1
        subst hp
        simp only [List.nil_append] at e1
        subst e1
        rcases List.append_eq_append_iff.1 e' with ⟨c, e3, e4⟩ | ⟨c, e3, e4⟩
        · have hc : c = [] := by
            cases c with
            | nil => rfl
            | cons d c =>
              subst e4
              rw [List.cons_append, headW_of, hn d (by rw [e3]; simp)] at h2
              cases h2
          subst hc
          exact ⟨f, by simp, by simpa using e3⟩
        · have hc : c = [] := by
            cases c with
            | nil => rfl
            | cons d c =>
              have hc := (List.cons.inj e4).1
              rw [hw '|' (by rw [e3, hc]; simp)] at hb
              cases hb
          subst hc
          exact ⟨f, by simp, by simpa using e3.symm⟩
    · rintro ⟨k, hk, e⟩
      rcases List.mem_cons.1 hk with rfl | hk
      · exact ⟨[], '|' :: Json.flags (g :: fs), by rw [e]; rfl, rfl, by rw [headW_of, hb]⟩
      · obtain ⟨p, x, e, h1, h2⟩ := ih.2 ⟨k, hk, e⟩
        refine ⟨Json.flagName f ++ '|' :: p, x, by rw [e]; simp, ?_, h2⟩
        rw [lastW_cons, lastW_bar, h1]

theorem edge_word {w : Str} (hw : ∀ c ∈ w, iswordc c = true) (h0 : w ≠ []) (p x : Str) :
    (lastW p ≠ headW x ∧ ∃ y, x = w ++ y ∧ lastW (p ++ w) ≠ headW y) ↔ ∃ y, x = w ++ y ∧ lastW p = false ∧ headW y = false := by
  have hh : ∀ y, headW (w ++ y) = true := by
    intro y
    cases w with
    | nil => exact absurd rfl h0
    | cons c w => rw [List.cons_append, headW_of, hw c (by simp)]
  have hl : lastW (p ++ w) = true := by
    rcases snoc_cases w with rfl | ⟨v, c, rfl⟩
    · exact absurd rfl h0
    · rw [← List.append_assoc, lastW_append, hw c (by simp)]
  constructor
  · rintro ⟨h1, y, rfl, h2⟩
    rw [hh] at h1
    rw [hl] at h2
    exact ⟨y, rfl, by simpa using h1, by simpa using h2.symm⟩
  · rintro ⟨y, rfl, h1, h2⟩
    exact ⟨by rw [h1, hh]; decide, y, rfl, by rw [hl, h2]; decide⟩

/-- A pattern for one flag. -/
theorem flag_iff {reg : Str} (f : Flag) (h : (patVim2Go.lookup reg).bind Re.parse = some (.seq .edge (lits (Json.flagName f) (.seq .edge .eps))))
    (h0 : Json.flagName f ≠ []) (fs : List Flag) : fs.contains f = true ↔ Eqregh (Json.flags fs) reg := by
  have hw := flagName_word f
  rw [eqregh_iff h, search_iff, List.contains_iff_mem]
  simp only [at_seq, at_edge, at_lits, at_eps, and_true, edge_word hw h0]
  constructor
  · intro hf
    obtain ⟨p, x, e, h1, h2⟩ := (flags_word hw h0 fs).2 ⟨f, hf, rfl⟩
    exact ⟨p, _, e, x, rfl, h1, h2⟩
  · rintro ⟨p, _, e, x, rfl, h1, h2⟩
    obtain ⟨g, hg, e⟩ := (flags_word hw h0 fs).1 ⟨p, x, e, h1, h2⟩
    rw [← flagName_inj e]
    exact hg

/-- C80.  The parser asks for the flags of a command with patterns on the text of the flags, go/vimlparser.go:663-1059; the model
keeps the list of the flags.  The answers are the same. -/
theorem C80_flags (c : Cmd) :
    (c.has .ARGOPT = true ↔ Eqregh (Json.flags c.flags) cs!"\\<ARGOPT\\>") ∧
    (c.has .BANG = true ↔ Eqregh (Json.flags c.flags) cs!"\\<BANG\\>") ∧
    (c.has .EDITCMD = true ↔ Eqregh (Json.flags c.flags) cs!"\\<EDITCMD\\>") ∧
    (c.has .NOTRLCOM = true ↔ Eqregh (Json.flags c.flags) cs!"\\<NOTRLCOM\\>") ∧
    (c.has .TRLBAR = true ↔ Eqregh (Json.flags c.flags) cs!"\\<TRLBAR\\>") ∧
    (c.has .USECTRLV = true ↔ Eqregh (Json.flags c.flags) cs!"\\<USECTRLV\\>") ∧
    (c.has .USERCMD = true ↔ Eqregh (Json.flags c.flags) cs!"\\<USERCMD\\>") ∧
    ((c.has .XFILE = true ∨ c.has .FILES = true ∨ c.has .FILE1 = true) ↔
      Eqregh (Json.flags c.flags) cs!"\\<\\(XFILE\\|FILES\\|FILE1\\)\\>") := by
  refine ⟨flag_iff _ (by decide +kernel) (by decide) _, flag_iff _ (by decide +kernel) (by decide) _, flag_iff _ (by decide +kernel) (by decide) _,
    flag_iff _ (by decide +kernel) (by decide) _, flag_iff _ (by decide +kernel) (by decide) _, flag_iff _ (by decide +kernel) (by decide) _,
    flag_iff _ (by decide +kernel) (by decide) _, ?_⟩
  have a1 : ∀ f ∈ [Flag.XFILE, .FILES, .FILE1], c.has f = true ↔ ∃ p x, Json.flags c.flags = p ++ x ∧
      (lastW p ≠ headW x ∧ ∃ y, x = Json.flagName f ++ y ∧ lastW (p ++ Json.flagName f) ≠ headW y) := by
    intro f hf
    have h0 : Json.flagName f ≠ [] := by cases f <;> decide
    have hw := flagName_word f
    simp only [edge_word hw h0, Cmd.has, List.contains_iff_mem]
    constructor
    · intro hf
      obtain ⟨p, x, e, h1, h2⟩ := (flags_word hw h0 _).2 ⟨f, hf, rfl⟩
      exact ⟨p, _, e, x, rfl, h1, h2⟩
    · rintro ⟨p, _, e, x, rfl, h1, h2⟩
      obtain ⟨g, hg, e⟩ := (flags_word hw h0 _).1 ⟨p, x, e, h1, h2⟩
      rw [← flagName_inj e]
      exact hg
  rw [a1 .XFILE (by simp), a1 .FILES (by simp), a1 .FILE1 (by simp)]
  rw [eqregh_iff (r := .seq .edge (.seq (.alt (lits cs!"XFILE" .eps) (.alt (lits cs!"FILES" .eps) (lits cs!"FILE1" .eps))) (.seq .edge .eps)))
    (by decide +kernel), search_iff]
  simp only [at_seq, at_edge, at_alt, at_lits, at_eps, and_true, and_or_left, exists_or, Json.flagName]

example : Eqregh cs!"BANG|TRLBAR|CMDWIN" cs!"\\<TRLBAR\\>" ∧ ¬ Eqregh cs!"BANG|CMDWIN" cs!"\\<TRLBAR\\>" :=
  ⟨(C80_flags { name := cs!"x", minlen := 1, flags := [.BANG, .TRLBAR, .CMDWIN], parser := [] }).2.2.2.2.1.1 (by decide),
    fun h => absurd ((C80_flags { name := cs!"x", minlen := 1, flags := [.BANG, .CMDWIN], parser := [] }).2.2.2.2.1.2 h) (by decide)⟩

end Viml.Props
