/-
C10, C25, C27: which command a line is.
-/
import Verif.Lemmas.LookupFile
import Verif.Lemmas.Codes

namespace Viml.Props
open Viml Prog Spec

theorem lineIs_iff {r : List Cell} {l : Str} : LineIs r l ↔ l = lineS r := by
  constructor
  · rintro ⟨e, h, he⟩
    exact (congrArg Prod.fst (spanTrue_of_reads h he)).symm
  · rintro rfl
    refine ⟨(spanS (fun _ => true) r).2, spanS_reads _ _, ?_⟩
    cases h : headSym (spanS (fun _ => true) r).2 with
    | eol => exact .inl h
    | eof => exact .inr h
    | ch c => cases spanS_stop _ _ _ h

theorem cmdT_le (nv : Bool) (l : Str) (c : Cmd) (h : (cmdT nv l).1 = some c) : (cmdT nv l).2 ≤ l.length := by
  unfold cmdT at h ⊢
  split at h
  · cases h
  rename_i hne
  have hk := (nameT_le l).resolve_left hne
  rw [if_neg hne]
  split
  · have : ((l.drop (nameT l).2).takeWhile isalnum).length ≤ (l.drop (nameT l).2).length :=
      (List.takeWhile_sublist _).length_le
    rw [List.length_drop] at this
    simp only
    omega
  · exact hk

theorem reads_drop {r : List Cell} {t : Str} (h : t <+: lineS r) : Reads r t (r.drop t.length) := by
  obtain ⟨s, hs⟩ := h
  have := getnS_reads t.length r
  rw [getnS_line, ← hs, List.take_left] at this
  rwa [Nat.min_eq_left (by simp)] at this

theorem reads_drop_eq {r r' : List Cell} {t : Str} (h : Reads r t r') : r' = r.drop t.length := by
  obtain ⟨pre, rfl, h2⟩ := h
  have : pre.length = t.length := by simpa using congrArg List.length h2
  rw [← this, List.drop_left]

theorem Clash.digit {nv : Bool} {cache : List (Str × Option Cmd)} {l : Str} (h : Clash nv cache l) :
    DigitWord nv l := by
  obtain ⟨h1, _, h3⟩ := h
  have hu := userName_iff.1 h1
  have hne : (nameT l).1 ≠ [] := by
    intro h
    rw [h] at hu
    obtain ⟨⟨_, _, e, _⟩, _⟩ := hu
    cases e
  obtain ⟨e, ha, hs⟩ := (nameT_spec (l := l) (n := (nameT l).1) (k := (nameT l).2) rfl hne).upper hu.1
  cases hd : l.drop (nameT l).2 with
  | nil => rw [hd] at h3; simp at h3
  | cons d s =>
    refine ⟨(nameT l).1, d, s, ?_, ha, hu, ?_⟩
    · rw [← hd]
      conv => rhs; lhs; rw [← e]
      exact (List.take_append_drop _ _).symm
    · rw [hd] at h3
      have hdn : isalnum d = true := by
        refine Classical.byContradiction fun hc => h3 ?_
        simp only [List.takeWhile_cons, if_neg hc]
      have := hs d (by rw [hd]; rfl)
      simpa [isalnum, this] using hdn

/-! ### C25: the command a line starts with -/

/-- C25.  Wherever the parser is about to look up a command, `c` is found exactly if the text of the line starts
with a name for `c` (`CmdOf`), and then it is the name that has been read.  Names of user commands followed by a
digit are excluded; see C10. -/
theorem C25_command (nv : Bool) (lines : List Str) (st : PState) (r rc r' : List Cell) (l : Str) (c : Cmd)
    (hr : Reach nv lines st r) (hl : LineIs rc l)
    (hd : ¬ DigitWord nv l) :
    (∃ cache, (findCommand st.neovim st.cache).run (mkEnv lines) rc = .ok (some c, cache) r') ↔
      ∃ t s, l = t ++ s ∧ CmdOf nv c t s ∧ Reads rc t r' := by
  obtain rfl := lineIs_iff.1 hl
  obtain rfl := hr.neovim
  have ho := hr.ok.1
  have hw := findCommand_run (T := tokGet) (env := mkEnv lines) ho.cache (mt Clash.digit hd) (F := fun _ => False)
  obtain ⟨c', cache', r1, h1, _⟩ := findCommand_total (T := tokGet) (env := mkEnv lines) rc ho.cache
  obtain ⟨h2, h3⟩ := wp_run hw h1
  simp only at h2 h3
  unfold Prog.run
  rw [h1]
  constructor
  · rintro ⟨cache, h⟩
    simp only [Res.ok.injEq, Prod.mk.injEq] at h
    obtain ⟨⟨rfl, _⟩, rfl⟩ := h
    have hle := cmdT_le _ _ _ h2.symm
    refine ⟨(lineS rc).take (cmdT st.neovim (lineS rc)).2, (lineS rc).drop (cmdT st.neovim (lineS rc)).2,
      (List.take_append_drop _ _).symm, cmdOf_iff.2 ?_, ?_⟩
    · rw [List.take_append_drop, List.length_take, Nat.min_eq_left hle, h2]
    · have := reads_drop (r := rc) (List.take_prefix (cmdT st.neovim (lineS rc)).2 (lineS rc))
      rwa [List.length_take, Nat.min_eq_left hle, ← h3] at this
  · rintro ⟨t, s, hts, hc, ht⟩
    rw [hts, cmdOf_iff.1 hc] at h2 h3
    simp only at h2 h3
    subst h2
    rw [reads_drop_eq ht, h3]
    exact ⟨_, rfl⟩

-- `:ec x` is `:echo`, `:s` with the flag `g` is `:substitute`, `:dell` is `:delete` with a flag, `:Foo2` is a user
-- command
example : ((cmdT false cs!"ec x").1.map (·.name), (cmdT false cs!"ec x").2) = (some cs!"echo", 2) := by decide +kernel
example : ((cmdT false cs!"sg").1.map (·.name), (cmdT false cs!"sg").2) = (some cs!"substitute", 1) := by
  decide +kernel
example : ((cmdT false cs!"dell").1.map (·.name), (cmdT false cs!"dell").2) = (some cs!"delete", 3) := by
  decide +kernel
example : CmdOf false ⟨cs!"Foo2", 0, [.USERCMD], cs!"parse_cmd_usercmd"⟩ cs!"Foo2" cs!"!" :=
  cmdOf_iff.2 (by decide +kernel)
example : LineIs (mkEnv [cs!"ec x", cs!"y"]).buf cs!"ec x" := lineIs_iff.2 (by decide +kernel)
example : ¬ DigitWord false cs!"ec x" := by
  rintro ⟨a, d, s, h, _, ⟨⟨c, a', rfl, hc⟩, _⟩, _⟩
  simp only [List.cons_append, List.cons.injEq] at h
  rw [← h.1] at hc
  exact absurd hc (by decide)

/-- C25: the command and the extent of its name are determined by the text. -/
theorem C25_unique (nv : Bool) (l t t' s s' : Str) (c c' : Cmd) (h1 : l = t ++ s) (h2 : l = t' ++ s')
    (hc : CmdOf nv c t s) (hc' : CmdOf nv c' t' s') : c = c' ∧ t = t' ∧ s = s' := by
  have e1 := cmdOf_iff.1 hc
  have e2 := cmdOf_iff.1 hc'
  rw [← h1] at e1
  rw [← h2, e1] at e2
  simp only [Prod.mk.injEq, Option.some.injEq] at e2
  have := List.append_inj (h1.symm.trans h2) e2.2
  exact ⟨e2.1, this⟩

/-- C25.  If the text at the place of the command is the name of no command, the parse fails with E492, the rest of
the line in the message, at that place. -/
theorem C25_unknown (nv : Bool) (fn : Str) (lines : List Str) (st : PState) (r rc : List Cell) (l : Str)
    (hr : Reach nv lines st r) (hne : r ≠ []) (hp : CmdPlace (mkEnv lines) r rc) (hl : LineIs rc l)
    (hn : ∀ c t s, l = t ++ s → ¬ CmdOf nv c t s) :
    parseFileLines nv fn lines = some ⟨none, some (.parse fn (posOf (mkEnv lines) rc).i (posOf (mkEnv lines) rc).lnum
      (posOf (mkEnv lines) rc).col (cs!"E492: Not an editor command: " ++ l))⟩ := by
  obtain rfl := lineIs_iff.1 hl
  obtain rfl := hr.neovim
  have ho := hr.ok.1
  have hcm : (cmdT st.neovim (lineS rc)).1 = none := by
    cases hc : (cmdT st.neovim (lineS rc)).1 with
    | none => rfl
    | some c =>
      have hle := cmdT_le _ _ _ hc
      exact absurd (cmdOf_iff.2 (by
        rw [List.take_append_drop, List.length_take, Nat.min_eq_left hle, ← hc]))
        (hn c _ _ (List.take_append_drop (cmdT st.neovim (lineS rc)).2 _).symm)
  have hd : ¬ Clash st.neovim st.cache (lineS rc) := by
    rintro ⟨h1, _, _⟩
    unfold cmdT at hcm
    split at hcm
    · rename_i he
      rw [he] at h1
      simp [userName, startsUpper] at h1
    · cases hcm
  have hw := findCommand_run (T := tokGet) (env := mkEnv lines) ho.cache hd (F := fun _ => False)
  obtain ⟨c', cache', r1, h1, _⟩ := findCommand_total (T := tokGet) (env := mkEnv lines) rc ho.cache
  obtain ⟨h2, _⟩ := wp_run hw h1
  simp only [hcm] at h2
  subst h2
  have hf := hr.fail hne (parseOneCmd_unknown (mkEnv_ok lines) hr.ok.2 hp h1)
  unfold parseFileLines
  simp only [hf]
  rfl

/-- C25, for text: a line of blanks and colons `b`, a word `w` that is no modifier, and the rest `s`, such that
`w ++ s` does not start with a name of a command, is E492 at `w`. -/
theorem C25_unknown_word (nv : Bool) (fn : Str) (lines : List Str) (st : PState) (r rc : List Cell) (b w s : Str)
    (hr : Reach nv lines st r) (hne : r ≠ []) (hb : Reads r b rc) (hb' : ∀ c ∈ b, iswhite c = true ∨ c = ':')
    (hl : LineIs rc (w ++ s)) (hw : w ≠ []) (hw' : ∀ c ∈ w, isalpha c = true) (hs : StopsAt isalpha s)
    (hm : ∀ name m, (name, m) ∈ vimModifiers → w <+: name → w.length < m)
    (hn : ∀ c t s', w ++ s = t ++ s' → ¬ CmdOf nv c t s') :
    parseFileLines nv fn lines = some ⟨none, some (.parse fn (posOf (mkEnv lines) rc).i (posOf (mkEnv lines) rc).lnum
      (posOf (mkEnv lines) rc).col (cs!"E492: Not an editor command: " ++ (w ++ s)))⟩ := by
  obtain ⟨c, w', rfl⟩ : ∃ c w', w = c :: w' := by
    cases w with
    | nil => exact absurd rfl hw
    | cons c w => exact ⟨c, w, rfl⟩
  have hc : isalpha c = true := hw' c List.mem_cons_self
  have hhead : headSym rc = .ch c := by
    obtain ⟨e, h, _⟩ := hl
    exact h.head
  have hcw : (iswhite c || c == ':') = false := by
    rw [alpha_not_white hc, Bool.false_or]
    cases hcc : c == ':' with
    | false => rfl
    | true =>
      simp only [beq_iff_eq] at hcc
      subst hcc
      exact absurd hc (by decide)
  have hrc : skipWC r = rc := by
    have := spanS_of_reads (f := fun c => iswhite c || c == ':') hb (by simpa using hb')
      (by rw [hhead]; exact hcw)
    exact congrArg Prod.snd this
  have hspan : (spanS isalpha rc).1 = c :: w' := by
    rw [spanS_line, ← lineIs_iff.1 hl]
    exact takeWhile_of hw' hs
  refine C25_unknown nv fn lines st r rc _ hr hne ?_ hl hn
  subst hrc
  refine cmdPlace_word ?_ hhead hc ?_
  · intro h0
    have hg := getnS_reads 2 r
    rw [h0] at hg
    have h1 : headSym r = .ch '#' := hg.head
    cases b with
    | nil =>
      have : r = skipWC r := (reads_drop_eq hb).symm
      rw [this, hhead] at h1
      cases h1
      exact absurd hc (by decide)
    | cons d b =>
      rw [hb.head] at h1
      cases h1
      exact absurd (hb' '#' List.mem_cons_self) (by decide)
  · rw [hspan]
    cases hf : findModifier (c :: w') with
    | none => rfl
    | some name =>
      obtain ⟨m, h1, h2, h3⟩ := findModifier_some hf
      exact absurd (hm name m (modifierTable_sub _ h1) h2) (Nat.not_lt.2 h3)

-- ` :xyzzy 1` is in the scope of the theorem
theorem C25_example (fn : Str) : parseFileLines false fn [cs!" :xyzzy 1"] =
    some ⟨none, some (.parse fn 2 1 3 cs!"E492: Not an editor command: xyzzy 1")⟩ := by
  refine C25_unknown_word false fn [cs!" :xyzzy 1"] _ _ ((mkEnv [cs!" :xyzzy 1"]).buf.drop 2) cs!" :" cs!"xyzzy" cs!" 1"
    Reach.start (by decide +kernel) ⟨(mkEnv [cs!" :xyzzy 1"]).buf.take 2, rfl, by decide +kernel⟩ (by decide)
    (lineIs_iff.2 (by decide +kernel)) (by decide) (by decide) (fun c h => by cases h; rfl) ?_ ?_
  · have : ∀ x ∈ vimModifiers, ¬ cs!"xyzzy" <+: x.1 := by decide
    exact fun name m h1 h2 => absurd h2 (this _ h1)
  · intro c t s' h hc
    have := cmdOf_iff.1 hc
    rw [← h] at this
    exact absurd (congrArg Prod.fst this) (by
      rw [show (cmdT false (cs!"xyzzy" ++ cs!" 1")).1 = none by decide +kernel]
      simp)

theorem minlen_le : ∀ c ∈ builtinCommands, c.minlen ≤ c.name.length ∧ c.name ≠ cs!"tc" := by
  decide +kernel

/-- C25: an abbreviation of an entry of the table of built-in commands (a prefix of its name of the minimum length or
more) stands for that command.  There is one exception: `:tc` is documented to be `:tcd` but is `:tcl`. -/
theorem C25_abbrev (c : Cmd) (n : Str) (hc : c ∈ builtinCommands) (hn : Abbrev n c) :
    ∃ d, TableCmd false n d ∧ (d.name = c.name ∨ n = cs!"tc" ∧ c.name = cs!"tcd" ∧ d.name = cs!"tcl") := by
  cases hl : lookupTable false n with
  | none =>
    exfalso
    exact find_none_iff.1 (show builtinCommands.find? (·.matches n) = none from hl) c hc hn
  | some d =>
    have hd : FirstOf builtinCommands n d := lookupTable_iff.1 hl
    refine ⟨d, hd, ?_⟩
    rcases firstOf_name hc hn hd with h | ⟨h1, h2⟩
    · exact .inl h
    · refine .inr ⟨?_, h1, h2⟩
      obtain ⟨_, _, _, h3, _⟩ := hd
      have p1 := hn.1
      have p2 := h3.1
      rw [h1] at p1
      rw [h2] at p2
      have hm : 2 ≤ n.length := by
        have : ∀ x ∈ builtinCommands, x.name = cs!"tcd" → 2 ≤ x.minlen := by decide +kernel
        exact Nat.le_trans (this c hc h1) hn.2
      obtain ⟨u, hu⟩ := p1
      obtain ⟨v, hv⟩ := p2
      match n, hm with
      | [a, b], _ =>
        simp only [List.cons_append, List.cons.injEq] at hu
        rw [hu.1, hu.2.1]
      | a :: b :: d :: n, _ =>
        simp only [List.cons_append, List.cons.injEq] at hu hv
        exact absurd (hu.2.2.1.symm.trans hv.2.2.1) (by decide)

-- `:ec` is `:echo`; and the exception
example : Abbrev cs!"ec" ⟨cs!"echo", 2, [], []⟩ := ⟨⟨cs!"ho", rfl⟩, by decide⟩
example : (lookupTable false cs!"ec").map (·.name) = some cs!"echo" := by decide +kernel
example : (lookupTable false cs!"tc").map (·.name) = some cs!"tcl" := by decide +kernel
example : ∃ c ∈ builtinCommands, Abbrev cs!"tc" c ∧ c.name = cs!"tcd" :=
  ⟨⟨cs!"tcd", 2, [.BANG, .FILE1, .TRLBAR, .CMDWIN], cs!"parse_cmd_common"⟩, by decide +kernel,
    ⟨⟨cs!"d", rfl⟩, by decide⟩, rfl⟩

/-- C25: the full name of an entry of the table stands for it. -/
theorem C25_full (c : Cmd) (hc : c ∈ builtinCommands) : ∃ d, TableCmd false c.name d ∧ d.name = c.name := by
  obtain ⟨h1, h2⟩ := minlen_le c hc
  obtain ⟨d, hd, h | ⟨h, _⟩⟩ := C25_abbrev c c.name hc ⟨List.prefix_rfl, h1⟩
  · exact ⟨d, hd, h⟩
  · exact absurd h h2

/-! ### C10: earlier lines -/

/-- C10.  What one command does is the same after any two histories: the parser in a state `st` reached in any file, and
the same parser with the lookup cache of a state reached in any other file, have the same outcome, except for the
cache.  The exception is a name of a user command with a digit in it (`C10_counterexample`). -/
theorem C10_command (nv : Bool) (lines lines' : List Str) (st st' : PState) (r r' : List Cell)
    (hr : Reach nv lines st r) (hr' : Reach nv lines' st' r')
    (hd : ∀ rc l, CmdPlace (mkEnv lines) r rc → LineIs rc l → ¬ DigitWord nv l) :
    ∃ (res : Res PState) (c1 c2 : List (Str × Option Cmd)),
      (parseOneCmd st).run (mkEnv lines) r = res.map (fun s => { s with cache := c1 }) ∧
      (parseOneCmd { st with cache := st'.cache }).run (mkEnv lines) r = res.map (fun s => { s with cache := c2 }) := by
  have hn := hr.neovim
  have hn' := hr'.neovim
  have ho := hr.ok.1.cache
  have ho' := hr'.ok.1.cache
  rw [hn] at ho
  rw [hn'] at ho'
  obtain ⟨c1, c2, _, res, h1, h2⟩ := parseOneCmd_twin (env := mkEnv lines) (st := st) (x := nv) (y := st'.cache) (r := r)
    (R := fun _ _ => True) trivial (by
      intro rc hp
      have hd := hd rc _ hp (lineIs_iff.2 rfl)
      obtain ⟨a, ca, ra, e1, _⟩ := findCommand_total (T := tokGet) (env := mkEnv lines) rc ho
      obtain ⟨b, cb, rb, e2, _⟩ := findCommand_total (T := tokGet) (env := mkEnv lines) rc ho'
      have w1 := wp_run (findCommand_run (T := tokGet) (env := mkEnv lines) ho (mt Clash.digit hd)
        (F := fun _ => False)) e1
      have w2 := wp_run (findCommand_run (T := tokGet) (env := mkEnv lines) ho' (mt Clash.digit hd)
        (F := fun _ => False)) e2
      simp only at w1 w2
      refine ⟨a, ca, cb, ra, hn ▸ e1, ?_, trivial⟩
      rw [e2, w1.1, w1.2, w2.1, w2.2])
  refine ⟨res.map (·.swap nv []), c1, c2, ?_, ?_⟩
  · rw [h1]
    cases res <;> simp [Res.map, PState.swap, hn]
  · rw [show ({ st with cache := st'.cache } : PState) = st.swap nv st'.cache by simp [PState.swap, ← hn], h2]
    cases res <;> simp [Res.map, PState.swap]

-- the hypothesis for the first line of a file
example (rc : List Cell) (l : Str) (hp : CmdPlace (mkEnv [cs!"ec x"]) (mkEnv [cs!"ec x"]).buf rc) (hl : LineIs rc l) :
    ¬ DigitWord false l := by
  obtain ⟨_, _, ms, r1, rg, r2, h1, h2, rfl, _⟩ := hp
  have e0 : skipWC (mkEnv [cs!"ec x"]).buf = (mkEnv [cs!"ec x"]).buf := rfl
  rw [e0, Prog.run, parseModifiers_word (c := 'e') rfl rfl (by decide +kernel)] at h1
  cases h1
  rw [Prog.run, parseRange_letter (c := 'e') rfl rfl] at h2
  cases h2
  obtain rfl := lineIs_iff.1 hl
  rintro ⟨a, d, s, h, _, ⟨⟨c, a', rfl, hc⟩, _⟩, _⟩
  rw [show lineS (skipWC (mkEnv [cs!"ec x"]).buf) = cs!"ec x" by decide +kernel] at h
  simp only [List.cons_append, List.cons.injEq] at h
  rw [← h.1] at hc
  exact absurd hc (by decide)

/-- C10 is false in general: `:Foo1` is the command `Foo1` in a file of its own, and `Foo` after a line `:Foo`. -/
theorem C10_counterexample :
    (match parseFileLines false [] [cs!"Foo1"], parseFileLines false [] [cs!"Foo", cs!"Foo1"] with
    | some ⟨some ⟨_, [.excmd _ ea _]⟩, none⟩, some ⟨some ⟨_, [_, .excmd _ ea' _]⟩, none⟩ =>
      ea.cmd.map (·.name) == some cs!"Foo1" && ea'.cmd.map (·.name) == some cs!"Foo"
    | _, _ => false) = true := by decide +kernel

/-! ### C27: the Neovim option -/

/-- The commands that the Neovim option adds or removes. -/
def nvChanged : List Cmd := neovimAdditionalCommands ++ neovimRemovedCommands

theorem tables_same {n : Str} (h : ∀ x ∈ nvChanged, ¬ Abbrev n x) (c : Cmd) :
    TableCmd true n c ↔ TableCmd false n c := by
  have h1 : ∀ x ∈ neovimAdditionalCommands, ¬ Abbrev n x := fun x hx => h x (List.mem_append_left _ hx)
  have h2 : ∀ x ∈ neovimRemovedCommands, ¬ Abbrev n x := fun x hx => h x (List.mem_append_right _ hx)
  show _ ∧ _ ↔ _
  constructor
  · rintro ⟨_, ⟨a, b, e, hc, _⟩ | ⟨_, hc⟩⟩
    · exact absurd hc (h1 c (by rw [e]; simp))
    · exact hc
  · exact fun hc => ⟨h2, .inr ⟨h1, hc⟩⟩

theorem lookup_same {n : Str} (h : ∀ x ∈ nvChanged, ¬ Abbrev n x) : lookupTable true n = lookupTable false n := by
  have this : ∀ c, lookupTable true n = some c ↔ lookupTable false n = some c := fun c => by
    rw [lookupTable_iff, lookupTable_iff, tables_same h c]
  cases h1 : lookupTable true n with
  | some c => exact ((this c).1 h1).symm
  | none =>
    cases h2 : lookupTable false n with
    | some c => rw [(this c).2 h2] at h1; cases h1
    | none => rfl

/-- The names that abbreviate commands which the option adds or removes. -/
def nvNames : List Str := nvChanged.flatMap fun x =>
  ((List.range (x.name.length + 1)).filter fun k => x.minlen ≤ k).map fun k => x.name.take k

theorem nvNames_of {n : Str} {x : Cmd} (hx : x ∈ nvChanged) (h : Abbrev n x) : n ∈ nvNames := by
  refine List.mem_flatMap.2 ⟨x, hx, List.mem_map.2 ⟨n.length, List.mem_filter.2 ⟨?_, by simpa using h.2⟩, ?_⟩⟩
  · have := h.1.length_le
    rw [List.mem_range]
    omega
  · exact (List.prefix_iff_eq_take.1 h.1).symm

theorem nvNames_differ : ∀ n ∈ nvNames, lookupTable true n ≠ lookupTable false n := by decide +kernel

/-- C27 for names: the tables have the same command for a name with and without the option exactly if it
does not abbreviate one of the commands added or removed. -/
theorem C27_names (n : Str) :
    (∀ c, TableCmd true n c ↔ TableCmd false n c) ↔ ∀ x ∈ nvChanged, ¬ Abbrev n x := by
  refine ⟨fun h x hx hn => nvNames_differ n (nvNames_of hx hn) ?_, fun h => tables_same h⟩
  have this : ∀ c, lookupTable true n = some c ↔ lookupTable false n = some c := fun c => by
    rw [lookupTable_iff, lookupTable_iff, h c]
  cases h1 : lookupTable true n with
  | some c => exact ((this c).1 h1).symm
  | none =>
    cases h2 : lookupTable false n with
    | some c => rw [(this c).2 h2] at h1; cases h1
    | none => rfl

example : ¬ (∀ c, TableCmd true cs!"rsh" c ↔ TableCmd false cs!"rsh" c) := by
  rw [C27_names]
  intro h
  exact h ⟨cs!"rshada", 3, [.BANG, .FILE1, .TRLBAR, .CMDWIN], cs!"parse_cmd_common"⟩ (by decide +kernel) ⟨⟨cs!"ada", rfl⟩, by decide⟩
example : ∀ c, TableCmd true cs!"echo" c ↔ TableCmd false cs!"echo" c := by
  rw [C27_names]
  unfold Abbrev
  decide +kernel

/-- The option makes no difference for `n`. -/
def SameName (n : Str) : Prop :=
  userName true n = userName false n ∧ (userName false n = false → lookupTable true n = lookupTable false n)

theorem sameName_of {n : Str} (h : ∀ x ∈ nvChanged, x.name ≠ cs!"Print" → ¬ Abbrev n x) : SameName n := by
  by_cases hp : ∀ x ∈ nvChanged, ¬ Abbrev n x
  · have e := lookup_same hp
    exact ⟨by unfold userName; rw [e], fun _ => e⟩
  · obtain ⟨x, hx, hn⟩ : ∃ x ∈ nvChanged, Abbrev n x := by
      refine Classical.byContradiction fun hc => hp fun x hx hn => hc ⟨x, hx, hn⟩
    have hxn : x.name = cs!"Print" := Classical.byContradiction fun hc => h x hx hc hn
    have hm : x.minlen = 1 := by
      have : ∀ x ∈ nvChanged, x.name = cs!"Print" → x.minlen = 1 := by decide +kernel
      exact this x hx hxn
    obtain ⟨h1, h2⟩ := hn
    rw [hxn] at h1
    rw [hm] at h2
    have hk : n.length ≤ 5 := h1.length_le
    have hn := List.prefix_iff_eq_take.1 h1
    have key : ∀ k, 1 ≤ k → k ≤ 5 → userName true ((cs!"Print").take k) = true ∧
        userName false ((cs!"Print").take k) = true := by
      intro k h1 h2
      match k, h1, h2 with
      | 1, _, _ => decide +kernel
      | 2, _, _ => decide +kernel
      | 3, _, _ => decide +kernel
      | 4, _, _ => decide +kernel
      | 5, _, _ => decide +kernel
    have := key n.length h2 hk
    rw [← hn] at this
    exact ⟨this.1.trans this.2.symm, fun hf => by rw [this.2] at hf; cases hf⟩

theorem sameFind_nv {T : Env → List Cell → Res Token} {env : Env} {nv : Bool} {c : List (Str × Option Cmd)}
    {r : List Cell} (h : (nameT (lineS r)).1 ≠ [] → SameName (nameT (lineS r)).1) :
    (findCommand nv c).runWith T env r = (findCommand (!nv) c).runWith T env r := by
  have hn := readCmdName_run (T := T) (env := env) (r := r) (F := fun _ => False)
  unfold wp at hn
  cases hr : readCmdName.runWith T env r with
  | fail e => rw [hr] at hn; exact hn.elim
  | ok n r1 =>
    rw [hr] at hn
    obtain ⟨rfl, _⟩ := hn
    generalize (nameT (lineS r)).1 = n at *
    unfold findCommand
    rw [run_ok hr, run_ok hr]
    by_cases he : n = []
    · rw [if_pos he, if_pos he]
    rw [if_neg he, if_neg he]
    cases c.lookup n with
    | some hit => rfl
    | none =>
      obtain ⟨h1, h2⟩ := h he
      simp only
      have hu : userName nv n = userName (!nv) n := by cases nv <;> simp [h1]
      by_cases hc : userName nv n = true
      · exact (congrArg (fun m => Prog.runWith T env m r1) (if_pos hc)).trans
          (congrArg (fun m => Prog.runWith T env m r1) (if_pos (hu.symm.trans hc))).symm
      · refine (congrArg (fun m => Prog.runWith T env m r1) (if_neg hc)).trans
          (Eq.trans ?_ (congrArg (fun m => Prog.runWith T env m r1) (if_neg (fun h => hc (hu.trans h)))).symm)
        have : lookupTable nv n = lookupTable (!nv) n := by
          have hf : userName false n = false := by
            cases nv
            · simpa using hc
            · simpa [h1] using hc
          have := h2 hf
          cases nv <;> simp [this]
        rw [this]

/-- C27 for files: with and without the option a file is parsed alike (same tree or same error), if none of its command
names abbreviates a command that the option adds or removes.  (`:Print` may occur: it is taken for a user command in
either case.) -/
theorem C27_file (nv : Bool) (fn : Str) (lines : List Str)
    (h : ∀ st r rc l n t s, Reach nv lines st r → CmdPlace (mkEnv lines) r rc → LineIs rc l → l = t ++ s →
      NameOf n t s → ∀ x ∈ nvChanged, x.name ≠ cs!"Print" → ¬ Abbrev n x) :
    parseFileLines nv fn lines = parseFileLines (!nv) fn lines := by
  have := parseToplevel_twin (nv := nv) (x := !nv) (lines := lines)
    (R := fun c1 c2 => c1 = c2 ∧ CacheOK (!nv) c2) (fun _ _ h => h.2)
    ⟨rfl, fun x hx => by cases hx⟩ (by
      rintro st r rc y hr hne ⟨rfl, hc⟩ hp
      obtain ⟨c, cc, r', e1, e2⟩ := findCommand_total (T := tokGet) (env := mkEnv lines) rc hc
      refine ⟨c, cc, cc, r', ?_, e1, rfl, e2⟩
      rw [hr.neovim, ← e1]
      refine sameFind_nv fun hn => sameName_of ?_
      have := nameT_spec (l := lineS rc) (n := (nameT (lineS rc)).1) (k := (nameT (lineS rc)).2) rfl hn
      exact h st r rc _ _ _ _ hr hp (lineIs_iff.2 rfl) (List.take_append_drop _ _).symm this)
  unfold parseFileLines
  simp only [this]

-- a file in the scope of the theorem, and a file whose parse depends on the option
example : (match parseFileLines true [] [cs!"if x", cs!"Print", cs!"endif"],
      parseFileLines false [] [cs!"if x", cs!"Print", cs!"endif"] with
    | some ⟨some ⟨_, [.if_ _ _ [.excmd _ ea _] _ _ _ _]⟩, none⟩, some ⟨some ⟨_, [.if_ _ _ [.excmd _ ea' _] _ _ _ _]⟩, none⟩ =>
      ea.cmd == ea'.cmd
    | _, _ => false) = true := by decide +kernel
example : (match parseFileLines true [] [cs!"tearoff"], parseFileLines false [] [cs!"tearoff"] with
    | some ⟨none, some (.parse _ 0 1 1 _)⟩, some ⟨some _, none⟩ => true
    | _, _ => false) = true := by decide +kernel

end Viml.Props
