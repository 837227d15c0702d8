/-
C82: a modifier before a command.
-/
import Verif.Lemmas.ModifyComp
import Verif.Props.Indent
import Verif.Props.Layout

namespace Viml.Props
open Spec

variable {nv : Bool} {fn : Str} {A B : List Str} {l w x : Str} {m : Modifier}

theorem start_modify {f : Ast.File} (hw : afterBackslash (w ++ l) = none) (hl : afterBackslash l = none)
    (h : Script nv (mkEnv (A ++ l :: B)) fn f) :
    here (mkEnv (A ++ (w ++ l) :: B)) fn (mkEnv (A ++ (w ++ l) :: B)).buf = startIn fn A w f.start := by
  obtain ⟨_, _, e⟩ := h
  rw [e]
  unfold startIn
  cases A with
  | cons a A =>
    rw [if_neg (by simp), indent_all hw, mkEnv_append (noCont_cons hl)]
    rcases buildCells_last (a :: A) with h1 | ⟨i, p, h1⟩
    · cases h1
    · have e : (mkEnv (a :: A)).buf = reindex 0 i ++ [⟨none, { p with i := i.length }⟩] := by
        simp only [mkEnv, h1, reindex_append, reindex, Nat.zero_add]
      rw [e]
      cases reindex 0 i <;> rfl
  | nil =>
    cases w with
    | nil => rfl
    | cons c w => rfl

/-- C82.  If a file is accepted, it is accepted with the modifier `w` before one of its commands.  The statements behind `w`
are moved.  One record is changed, that of the command: it has the modifier `m` before its other ones and its line starts
where `w` starts.  If the command is kept as text, this text has `w` before it. -/
theorem C82_tree (nv : Bool) (fn : Str) (A : List Str) (w l : Str) (B : List Str) (x : Str) (m : Modifier) (f : Ast.File)
    (hA : Between nv fn A) (hl : afterBackslash l = none) (hs : ¬ Shebang l B) (hb : Begins l)
    (hx : (logicalLines (l :: B)).head? = some x) (hm : ModText x w m) (hd : ¬ Dropped x)
    (h : parseFileLines nv fn (A ++ l :: B) = some ⟨some f, none⟩) :
    ∃ ss, parseFileLines nv fn (A ++ (w ++ l) :: B) = some ⟨some ⟨startIn fn A w f.start, ss⟩, none⟩ ∧
      ModdedL ⟨(fileBytes A).length + bytes w, A.length + 1, 1 + bytes w, fn⟩ ⟨(fileBytes A).length, A.length + 1, 1, fn⟩ m w 1
        (Ast.Stmt.onPosL (indentBy A w l B) f.body) ss := by
  obtain ⟨ι, h1, _, _, h2, h3, h4, h5, _⟩ := modified hA hl hs hb hx hm hd
  have h := (C52_lines ..).1 h
  obtain ⟨ss, h6, h7⟩ := ι.script h
  rw [start_modify (modText_noCont hm) hl h] at h7
  refine ⟨ss, (C52_lines ..).2 h7, ?_⟩
  unfold Modifies.As at h6
  rw [h1, h2, h3, h4, h5] at h6
  exact h6

/-- C82.  If a file is rejected, it is rejected with the same message. -/
theorem C82_error (nv : Bool) (fn : Str) (A : List Str) (w l : Str) (B : List Str) (x : Str) (m : Modifier) (e : ApiErr)
    (hA : Between nv fn A) (hl : afterBackslash l = none) (hs : ¬ Shebang l B) (hb : Begins l)
    (hx : (logicalLines (l :: B)).head? = some x) (hm : ModText x w m) (hd : ¬ Dropped x)
    (h : parseFileLines nv fn (A ++ l :: B) = some ⟨none, some e⟩) :
    parseFileLines nv fn (A ++ (w ++ l) :: B) = some ⟨none, some (errIndent A w e)⟩ := by
  obtain ⟨ι, h1, h2, h3, _, _, _, _, ω⟩ := modified hA hl hs hb hx hm hd
  rcases C55_total nv fn (A ++ l :: B) with ⟨g, h0⟩ | ⟨m, q, h0⟩ | h0
  · rw [(C52_lines ..).2 h0] at h
    cases h
  · have hq : A.length < q.lnum := by
      have := ι.fileErr_at h0
      rw [h3] at this
      exact out_line (B' := l :: B) (cut fn A (l :: B) [] _) rfl this
    have h5 := ι.fileErr (fun _ h x => ω.lineErr (lineErr_any (lineErr_mv ι.μ (Names.refl _) h) x)) h0
    rw [h2] at h5
    have e : ∃ o, indentPos A w l B q = ⟨q.i + w.length, q.lnum, if q.lnum = A.length + 1 then q.col + bytes w else q.col, o⟩ := by
      unfold indentPos
      rw [if_neg (by omega)]
      split <;> exact ⟨_, rfl⟩
    obtain ⟨o, e⟩ := e
    rw [e] at h5
    rw [(C54_lines nv fn (A ++ l :: B) none fn q.i q.lnum q.col m).2 ⟨rfl, rfl, q, rfl, rfl, rfl, h0⟩] at h
    cases h
    rw [(C54_lines nv fn (A ++ (w ++ l) :: B) none fn (q.i + w.length) q.lnum _ m).2
        ⟨rfl, rfl, ⟨q.i + w.length, q.lnum, _, o⟩, rfl, rfl, rfl, h5⟩]
    rfl
  · rw [(other_lines nv fn (A ++ l :: B) none).2 ⟨rfl, h0⟩] at h
    cases h
    exact (other_lines nv fn (A ++ (w ++ l) :: B) none).2
      ⟨rfl, ι.numErr (fun _ h x => ω.lineNum (lineNum_any (lineNum_mv ι.μ (Names.refl _) h) x)) h0⟩

/-- C82.  Two files that differ in a modifier only are both accepted or both rejected. -/
theorem C82_accepted (nv : Bool) (fn : Str) (A : List Str) (w l : Str) (B : List Str) (x : Str) (m : Modifier)
    (hA : Between nv fn A) (hl : afterBackslash l = none) (hs : ¬ Shebang l B) (hb : Begins l)
    (hx : (logicalLines (l :: B)).head? = some x) (hm : ModText x w m) (hd : ¬ Dropped x) :
    (∃ g, parseFileLines nv fn (A ++ (w ++ l) :: B) = some ⟨some g, none⟩) ↔
      ∃ f, parseFileLines nv fn (A ++ l :: B) = some ⟨some f, none⟩ := by
  constructor
  · rintro ⟨g, h⟩
    rcases C55_total nv fn (A ++ l :: B) with ⟨f, h0⟩ | ⟨m, q, h0⟩ | h0
    · exact ⟨f, (C52_lines ..).2 h0⟩
    · have h1 := (C54_lines nv fn (A ++ l :: B) none fn q.i q.lnum q.col m).2 ⟨rfl, rfl, q, rfl, rfl, rfl, h0⟩
      rw [C82_error nv fn A w l B x _ _ hA hl hs hb hx hm hd h1] at h
      cases h
    · have h1 := (other_lines nv fn (A ++ l :: B) none).2 ⟨rfl, h0⟩
      rw [C82_error nv fn A w l B x _ _ hA hl hs hb hx hm hd h1] at h
      cases h
  · rintro ⟨f, h⟩
    obtain ⟨ss, h, _⟩ := C82_tree nv fn A w l B x m f hA hl hs hb hx hm hd h
    exact ⟨_, h⟩

theorem modText_chars (hm : ModText x w m) : ∀ c ∈ w, isalpha c = true ∨ isdigit c = true ∨ iswhite c = true ∨ c = '!' := by
  intro c hc
  cases hm with
  | @plain d b k b' name n bang count g1 g2 g3 g4 g5 g6 g7 g8 =>
    simp only [List.mem_append] at hc
    rcases hc with ((hc | hc) | hc) | hc
    · exact .inr (.inl (g1 c hc))
    · exact .inr (.inr (.inl (g2 c hc)))
    · exact .inl (g4 c hc)
    · exact .inr (.inr (.inl (g8 c hc)))
  | @bang k b' g1 g2 g3 g4 g5 =>
    simp only [List.mem_append, List.mem_singleton] at hc
    rcases hc with (hc | hc) | hc
    · exact .inl (g1 c hc)
    · exact .inr (.inr (.inr hc))
    · exact .inr (.inr (.inl (g4 c hc)))

theorem modText_bs (hm : ModText x w m) : bs w = w := by
  have key : ∀ w : Str, (∀ c ∈ w, isalpha c = true ∨ isdigit c = true ∨ iswhite c = true ∨ c = '!') → bs w = w := by
    intro w
    induction w with
    | nil => exact fun _ => rfl
    | cons c w ih =>
      intro h
      have e : ¬ (c = '\\' ∨ c = '"') := by
        rcases h c (by simp) with h | h | h | h <;> rintro (rfl | rfl) <;> revert h <;> decide
      have := ih fun c hc => h c (by simp [hc])
      unfold bs at this ⊢
      rw [List.flatMap_cons, if_neg e, this]
      rfl
  exact key w (modText_chars hm)

/-- C82.  The compiler prints the same for both files; if the command is kept as text, the modifier is printed before this
text, and nothing else is changed. -/
theorem C82_compile (nv : Bool) (fn : Str) (A : List Str) (w l : Str) (B : List Str) (x : Str) (m : Modifier) (f f' : Ast.File)
    (hn : ∀ y ∈ A ++ l :: B, '\n' ∉ y)
    (hA : Between nv fn A) (hl : afterBackslash l = none) (hs : ¬ Shebang l B) (hb : Begins l)
    (hx : (logicalLines (l :: B)).head? = some x) (hm : ModText x w m) (hd : ¬ Dropped x)
    (h : parseFileLines nv fn (A ++ l :: B) = some ⟨some f, none⟩)
    (h' : parseFileLines nv fn (A ++ (w ++ l) :: B) = some ⟨some f', none⟩) :
    ∃ ls ls' : List Str, Comp.compileFile f = .text (unlines ls) ∧ Comp.compileFile f' = .text (unlines ls') ∧
      (ls' = ls ∨ ∃ a b d u, ls = a ++ (List.replicate (2 * d) ' ' ++ cs!"(excmd \"" ++ u) :: b ∧
        ls' = a ++ (List.replicate (2 * d) ' ' ++ cs!"(excmd \"" ++ w ++ u) :: b) := by
  obtain ⟨ss, h1, h2⟩ := C82_tree nv fn A w l B x m f hA hl hs hb hx hm hd h
  rw [h1] at h'
  cases h'
  have hw : '\n' ∉ w := fun hc => absurd (modText_chars hm _ hc) (by decide)
  have p1 := (parseFileLines_all h).2
  have p2 := (parseFileLines_all h1).2
  refine ⟨_, _, Comp.compileFile_eq (p1.all.imp fun _ _ hs => hs.printable (mkEnv_nl hn)) p1.parts,
    Comp.compileFile_eq (p2.all.imp fun _ _ hs => hs.printable (mkEnv_nl ?_)) p2.parts, ?_⟩
  rotate_left
  · intro y hy
    rcases List.mem_append.1 hy with hy | hy
    · exact hn y (by simp [hy])
    · rcases List.mem_cons.1 hy with rfl | hy
      · simp only [List.mem_append, not_or]
        exact ⟨hw, hn l (by simp)⟩
      · exact hn y (by simp [hy])
  · have h3 := (linesMod_stmts 0 h2).one
    rw [linesL_pos, modText_bs hm] at h3
    exact h3

/-! ### Examples -/

theorem begins_of (h : (l.head?.all fun c => !iswhite c && c != ':' && c != '"') && !l.isEmpty) : Begins l := by
  cases l with
  | nil => cases h
  | cons c t =>
    simp at h
    exact ⟨c, t, rfl, h.1.1, h.1.2, h.2⟩

theorem modWord_letters {name t : Str} (hx : x.head?.all (fun c => !isdigit c) = true) (h : ModWord x name t) :
    ∃ n, (name, n) ∈ vimModifiers ∧ x.takeWhile isalpha <+: name ∧ n ≤ (x.takeWhile isalpha).length ∧ x = x.takeWhile isalpha ++ t := by
  obtain ⟨d, b, k, n, rfl, h1, h2, h3, h4, h5, h6, h7, h8⟩ := h
  cases d with
  | cons c d =>
    rw [List.cons_append, List.cons_append, List.cons_append] at hx
    simp [h1 c (by simp)] at hx
  | nil =>
    rw [h3 rfl, List.append_nil, List.nil_append]
    have e : (k ++ t).takeWhile isalpha = k := by
      rw [List.takeWhile_append_of_pos h4]
      cases t with
      | nil => simp
      | cons c t => rw [List.takeWhile_cons_of_neg (by simp [h5 c rfl]), List.append_nil]
    rw [e]
    exact ⟨n, h6, h7, h8, rfl⟩

theorem noModWord_of (h : (x.head?.all (fun c => !isdigit c) &&
    vimModifiers.all fun p => !((x.takeWhile isalpha).isPrefixOf p.1 && decide (p.2 ≤ (x.takeWhile isalpha).length))) = true)
    (name t : Str) : ¬ ModWord x name t := by
  intro h0
  rw [Bool.and_eq_true] at h
  obtain ⟨n, h1, h2, h3, _⟩ := modWord_letters h.1 h0
  have := List.all_eq_true.1 h.2 _ h1
  rw [List.isPrefixOf_iff_prefix.2 h2, decide_eq_true h3] at this
  cases this

theorem notDropped_of (h : (x.head?.all (fun c => !isdigit c && c != 'h' && c != '\'') && !x.isEmpty) = true) : ¬ Dropped x := by
  cases x with
  | nil => cases h
  | cons c x =>
    simp at h
    rintro (⟨t, h0, _⟩ | h0)
    · obtain ⟨n, h1, h2, h3, h4⟩ := modWord_letters (by simp [h.1.1]) h0
      have := modifiers_min _ h1
      cases e : List.takeWhile isalpha (c :: x) with
      | nil => rw [e] at h3; exact absurd (Nat.le_trans this h3) (by simp)
      | cons d u =>
        rw [e] at h2 h4
        obtain ⟨u', h2⟩ := h2
        injection h2 with h2
        injection h4 with h4
        exact h.1.2 (h4.trans h2)
    · injection h0 with h0
      exact h.2 h0

/-- A count and an abbreviated modifier before a command on two lines in blocks. -/
def modA : List Str := [cs!"function F()", cs!"if x"]
def modL : Str := cs!"let y ="
def modB : List Str := [cs!" \\ 'z'", cs!"endif", cs!"endfunction"]

example : Between false cs!"f" modA ∧ afterBackslash modL = none ∧ ¬ Shebang modL modB ∧ Begins modL ∧
    (logicalLines (modL :: modB)).head? = some cs!"let y = 'z'" ∧ ModText cs!"let y = 'z'" cs!"3 verb\t" ⟨cs!"verbose", none, some 3⟩ ∧
    ¬ Dropped cs!"let y = 'z'" ∧ errOf (parseFileLines false cs!"f" (modA ++ modL :: modB)) = none := by
  refine ⟨between_of (o := 18) (by decide +kernel), by decide +kernel,
    notShebang (x := cs!"let y = 'z'") (by decide +kernel) (by decide), begins_of (by decide), by decide +kernel, ?_,
    notDropped_of (by decide), by decide +kernel⟩
  exact .plain (d := cs!"3") (b := cs!" ") (k := cs!"verb") (b' := cs!"\t") (name := cs!"verbose") (n := 4) (by decide)
    (by simp [White, iswhite]) (by decide) (by decide) (by decide) ⟨cs!"ose", rfl⟩ (by decide) (by simp [White, iswhite])
    (by decide) rfl rfl (by rintro _ ⟨⟩; decide)

/-- The modifier is in the record of the end of a block. -/
example : Between false cs!"f" [cs!"if x"] ∧ afterBackslash cs!"endif" = none ∧ ¬ Shebang cs!"endif" [] ∧ Begins cs!"endif" ∧
    (logicalLines [cs!"endif"]).head? = some cs!"endif" ∧ ModText cs!"endif" cs!"sil!" ⟨cs!"silent", some 1, none⟩ ∧
    ¬ Dropped cs!"endif" ∧
    ((parseFileLines false cs!"f" [cs!"if x", cs!"sil!endif"]).bind (·.node)).map (fun f => f.body.map fun
      | .if_ _ ea _ _ _ _ ⟨q, e⟩ => (ea.modifiers.length, q, e.linepos, e.modifiers)
      | _ => (0, ⟨0, 0, 0, []⟩, ⟨0, 0, 0, []⟩, [])) =
      some [(0, ⟨9, 2, 5, cs!"f"⟩, ⟨5, 2, 1, cs!"f"⟩, [⟨cs!"silent", some 1, none⟩])] := by
  refine ⟨between_of (o := 5) (by decide +kernel), by decide +kernel,
    notShebang (x := cs!"endif") (by decide +kernel) (by decide), begins_of (by decide), by decide +kernel, ?_,
    notDropped_of (by decide), by decide +kernel⟩
  exact .bang (k := cs!"sil") (b' := []) (by decide) ⟨cs!"ent", rfl⟩ (by decide) (by simp [White]) (noModWord_of (by decide))

/-- A command that is kept as text. -/
example : Begins cs!"normal! gg" ∧ ModText cs!"normal! gg" cs!"keepj " ⟨cs!"keepjumps", none, none⟩ ∧ ¬ Dropped cs!"normal! gg" ∧
    ((parseFileLines false [] [cs!"keepj normal! gg"]).bind (·.node)).map (fun f => f.body.map fun
      | .excmd _ ea s => (ea.modifiers, s)
      | _ => ([], [])) = some [([⟨cs!"keepjumps", none, none⟩], cs!"keepj normal! gg")] := by
  refine ⟨begins_of (by decide), ?_, notDropped_of (by decide), by decide +kernel⟩
  exact .plain (d := []) (b := []) (k := cs!"keepj") (b' := cs!" ") (name := cs!"keepjumps") (n := 5) (by decide)
    (by simp [White]) (by decide) (by decide) (by decide) ⟨cs!"umps", rfl⟩ (by decide) (by simp [White, iswhite])
    (by decide) rfl rfl (by rintro _ ⟨⟩)

/-- What is printed for commands that are not kept as text, and for one that is. -/
def modPrinted (ls : List Str) : Option Comp.Out := ((parseFileLines false [] ls).bind (·.node)).map Comp.compileFile

example : modPrinted [cs!"if x", cs!"let y = 1", cs!"normal gg", cs!"endif"] =
      some (.text cs!"(if x\n  (let = y 1)\n  (excmd \"normal gg\"))\n") ∧
    modPrinted [cs!"if x", cs!"silent let y = 1", cs!"normal gg", cs!"endif"] =
      some (.text cs!"(if x\n  (let = y 1)\n  (excmd \"normal gg\"))\n") ∧
    modPrinted [cs!"if x", cs!"let y = 1", cs!"silent normal gg", cs!"endif"] =
      some (.text cs!"(if x\n  (let = y 1)\n  (excmd \"silent normal gg\"))\n") := by decide +kernel

/-- A rejected file. -/
example : errOf (parseFileLines false cs!"f" ([cs!"try"] ++ cs!"endif" :: [])) =
      some (.parse cs!"f" 4 2 1 cs!"E580: :endif without :if") ∧
    errOf (parseFileLines false cs!"f" ([cs!"try"] ++ (cs!"silent " ++ cs!"endif") :: [])) =
      some (.parse cs!"f" 11 2 8 cs!"E580: :endif without :if") := by decide +kernel

/-- The modifiers of each command that is kept as text. -/
def modNames (ls : List Str) : Option (List (List Str)) := ((parseFileLines false [] ls).bind (·.node)).map fun f => f.body.map fun
  | .excmd _ ea _ => ea.modifiers.map (·.name)
  | _ => []

/-- Behind `silent!` and a blank the parser sees no other modifier: it takes its name for the name of a command. -/
example : modNames [cs!"noautocmd write"] = some [[cs!"noautocmd"]] ∧
    modNames [cs!"silent noautocmd write"] = some [[cs!"silent", cs!"noautocmd"]] ∧
    modNames [cs!"silent! noautocmd write"] = some [[cs!"silent"]] := by decide +kernel

/-- The number of statements. -/
def stmtCount (ls : List Str) : Option Nat := ((parseFileLines false [] ls).bind (·.node)).map fun f => f.body.length

/-- A bare `:hide` and a quote without a mark are no statements; with a modifier before
them they are statements. -/
example : stmtCount [cs!"hide"] = some 0 ∧ stmtCount [cs!"silent hide"] = some 1 ∧
    stmtCount [cs!"'"] = some 0 ∧ stmtCount [cs!"silent '"] = some 1 := by decide +kernel

/-- Behind a modifier and a colon neither. -/
example : modNames [cs!":noautocmd write"] = some [[cs!"noautocmd"]] ∧
    modNames [cs!"silent :noautocmd write"] = some [[cs!"silent"]] := by decide +kernel

end Viml.Props
