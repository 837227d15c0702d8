/-
C75: the spelling of command names does not matter.
-/
import Verif.Lemmas.RespellAt
import Verif.Props.Indent

namespace Viml.Props
open Spec

variable {nv : Bool} {fn : Str} {A B : List Str} {t t' s u : Str} {c : Cmd}

theorem start_respell {f : Ast.File} (h : Spells nv t u c) (h' : Spells nv t' u c)
    (hf : Script nv (mkEnv (A ++ (t ++ s) :: B)) fn f) :
    here (mkEnv (A ++ (t' ++ s) :: B)) fn (mkEnv (A ++ (t' ++ s) :: B)).buf = f.start := by
  obtain ⟨_, _, e⟩ := hf
  rw [e, indent_all (letter_noCont h.letters.1 h.letters.2), indent_all (letter_noCont h'.letters.1 h'.letters.2)]
  cases A with
  | nil =>
    show pubPos fn _ = pubPos fn _
    simp only [show (mkEnv []).buf = [] from rfl, List.nil_append]
    rw [name_first h.letters.1, name_first h'.letters.1]
  | cons a A =>
    rcases buildCells_last (a :: A) with h1 | ⟨i, p, h1⟩
    · cases h1
    · have e : (mkEnv (a :: A)).buf = reindex 0 i ++ [⟨none, { p with i := i.length }⟩] := by
        simp only [mkEnv, h1, reindex_append, reindex, Nat.zero_add]
      rw [e]
      cases reindex 0 i <;> rfl

/-- C75.  If a file is accepted, it is accepted with the other name `t'` for the command `c` instead of `t`; the statements
are the same, those behind the name are moved.  Only if the command itself is kept as text, this text shows the name. -/
theorem C75_tree (nv : Bool) (fn : Str) (A : List Str) (t t' s : Str) (B : List Str) (u : Str) (c : Cmd) (f : Ast.File)
    (hA : Between nv fn A) (hu : (logicalLines (s :: B)).head? = some u) (ht : Spells nv t u c) (ht' : Spells nv t' u c)
    (h : parseFileLines nv fn (A ++ (t ++ s) :: B) = some ⟨some f, none⟩) :
    ∃ ss, parseFileLines nv fn (A ++ (t' ++ s) :: B) = some ⟨some ⟨f.start, ss⟩, none⟩ ∧
      RespelledL ⟨(fileBytes A).length, A.length + 1, 1, fn⟩ t t' (Ast.Stmt.onPosL (respellBy A t t' s B) f.body) ss := by
  obtain ⟨ι, h1, _, _, h2, h3, h4, _⟩ := renamed hA hu ht ht'
  have h := (C52_lines ..).1 h
  obtain ⟨ss, h5, h6⟩ := ι.script h
  rw [start_respell ht ht' h] at h6
  refine ⟨ss, (C52_lines ..).2 h6, ?_⟩
  unfold Renamed.As at h5
  rw [h1, h2, h3, h4] at h5
  exact h5

/-- C75.  If a file is rejected, it is rejected with the same message. -/
theorem C75_error (nv : Bool) (fn : Str) (A : List Str) (t t' s : Str) (B : List Str) (u : Str) (c : Cmd) (e : ApiErr)
    (hA : Between nv fn A) (hu : (logicalLines (s :: B)).head? = some u) (ht : Spells nv t u c) (ht' : Spells nv t' u c)
    (h : parseFileLines nv fn (A ++ (t ++ s) :: B) = some ⟨none, some e⟩) :
    parseFileLines nv fn (A ++ (t' ++ s) :: B) = some ⟨none, some (errRespell A t t' e)⟩ := by
  obtain ⟨ι, h1, h2, h3, _, _, _, ha⟩ := renamed hA hu ht ht'
  rcases C55_total nv fn (A ++ (t ++ s) :: B) with ⟨g, h0⟩ | ⟨m, q, h0⟩ | h0
  · rw [(C52_lines ..).2 h0] at h
    cases h
  · have hq : A.length < q.lnum := by
      have := ι.fileErr_at h0
      rw [h3] at this
      exact out_line (B' := (t ++ s) :: B) (cut fn A ((t ++ s) :: B) [] _) rfl this
    have h5 := ι.fileErr (fun _ h x => ha.lineErr (lineErr_any (lineErr_mv ι.μ (Names.refl _) h) x)) h0
    rw [h2] at h5
    rw [(C54_lines nv fn (A ++ (t ++ s) :: B) none fn q.i q.lnum q.col m).2 ⟨rfl, rfl, q, rfl, rfl, rfl, h0⟩] at h
    cases h
    have e : ∃ i col o, respellPos A t t' s B q = ⟨i, q.lnum, col, o⟩ ∧
        errRespell A t t' (.parse fn q.i q.lnum q.col m) = .parse fn i q.lnum col m := by
      unfold respellPos errRespell
      rw [if_neg (by omega)]
      simp only
      split
      · split <;> exact ⟨_, _, _, rfl, rfl⟩
      · exact ⟨_, _, _, rfl, rfl⟩
    obtain ⟨i, col, o, e1, e2⟩ := e
    rw [e1] at h5
    rw [e2]
    exact (C54_lines nv fn (A ++ (t' ++ s) :: B) none fn i q.lnum col m).2 ⟨rfl, rfl, ⟨i, q.lnum, col, o⟩, rfl, rfl, rfl, h5⟩
  · rw [(other_lines nv fn (A ++ (t ++ s) :: B) none).2 ⟨rfl, h0⟩] at h
    cases h
    exact (other_lines nv fn (A ++ (t' ++ s) :: B) none).2 ⟨rfl, ι.numErr (fun _ h x => ha.lineNum (lineNum_any (lineNum_mv ι.μ (Names.refl _) h) x)) h0⟩

/-- C75.  Two files that differ in a name only are both accepted or both rejected. -/
theorem C75_accepted (nv : Bool) (fn : Str) (A : List Str) (t t' s : Str) (B : List Str) (u : Str) (c : Cmd)
    (hA : Between nv fn A) (hu : (logicalLines (s :: B)).head? = some u) (ht : Spells nv t u c) (ht' : Spells nv t' u c) :
    (∃ g, parseFileLines nv fn (A ++ (t' ++ s) :: B) = some ⟨some g, none⟩) ↔
      ∃ f, parseFileLines nv fn (A ++ (t ++ s) :: B) = some ⟨some f, none⟩ := by
  constructor <;> rintro ⟨f, h⟩
  · obtain ⟨ss, h, _⟩ := C75_tree nv fn A t' t s B u c f hA hu ht' ht h
    exact ⟨_, h⟩
  · obtain ⟨ss, h, _⟩ := C75_tree nv fn A t t' s B u c f hA hu ht ht' h
    exact ⟨_, h⟩

theorem spells_plain (ht : Spells nv t u c) : afterBackslash (t ++ s) = none ∧ ¬ Shebang (t ++ s) B := by
  refine ⟨letter_noCont ht.letters.1 ht.letters.2, ?_⟩
  rintro ⟨x, h⟩
  obtain ⟨⟨h1, h2⟩, _⟩ := ht
  cases t with
  | nil => exact h1 rfl
  | cons y t =>
    have hy := alpha_not (h2 y (by simp))
    obtain ⟨e, e1, _⟩ := line_of (f := id) (fun _ => rfl) h
    obtain ⟨r, e1⟩ := e1.cons_inv
    rw [List.map_id, show (y :: t ++ s) = [y] ++ (t ++ s) from rfl, mkEnv_ind] at e1
    simp only [wCells, lineCells, reindex, List.cons_append, List.nil_append] at e1
    obtain ⟨_, e1, _⟩ := e1
    injection e1 with e1
    injection e1 with e1
    injection e1 with e1
    exact hy.2.2.2.2.1 e1

/-- C75.  The same, if there are blanks, tabs and colons before the name. -/
theorem C75_accepted_blank (nv : Bool) (fn : Str) (A : List Str) (w t t' s : Str) (B : List Str) (u : Str) (c : Cmd)
    (hA : Between nv fn A) (hw : Blank w) (hu : (logicalLines (s :: B)).head? = some u) (ht : Spells nv t u c)
    (ht' : Spells nv t' u c) :
    (∃ g, parseFileLines nv fn (A ++ (w ++ (t' ++ s)) :: B) = some ⟨some g, none⟩) ↔
      ∃ f, parseFileLines nv fn (A ++ (w ++ (t ++ s)) :: B) = some ⟨some f, none⟩ := by
  have h1 := spells_plain (s := s) (B := B) ht
  have h2 := spells_plain (s := s) (B := B) ht'
  rw [C66_accepted nv fn A w (t' ++ s) B hA hw h2.1 h2.2, C66_accepted nv fn A w (t ++ s) B hA hw h1.1 h1.2,
    C75_accepted nv fn A t t' s B u c hA hu ht ht']

/-! ### Examples -/

theorem spells_of (h : (!t.isEmpty && t.all isalpha && u.head?.all (fun x => !isalpha x) &&
    (nameT (t ++ u) == (t, t.length)) && !userName nv t &&
    vimModifiers.all (fun p => !(t.isPrefixOf p.1 && decide (p.2 ≤ t.length)))) = true)
    (hc : lookupTable nv t = some c) : Spells nv t u c := by
  simp only [Bool.and_eq_true, List.all_eq_true, beq_iff_eq, Bool.not_eq_true'] at h
  obtain ⟨⟨⟨⟨⟨h1, h2⟩, h3⟩, h4⟩, h5⟩, h6⟩ := h
  have h0 : t ≠ [] := by rintro rfl; cases h1
  refine ⟨⟨h0, h2⟩, ?_, nameOf_iff.2 ⟨h0, h4⟩, lookupTable_iff.1 hc, fun h => ?_, ?_⟩
  · intro x hx
    rw [hx] at h3
    simpa using h3
  · rw [userName_iff.2 h] at h5
    cases h5
  · rintro p hp ⟨h7, h8⟩
    have := h6 p hp
    rw [List.isPrefixOf_iff_prefix.2 h7, decide_eq_true h8] at this
    cases this

def cmdExecute : Cmd := ⟨cs!"execute", 3, [.EXTRA, .NOTRLCOM, .SBOXOK, .CMDWIN], cs!"parse_cmd_execute"⟩
def cmdNormal : Cmd :=
  ⟨cs!"normal", 4, [.RANGE, .BANG, .EXTRA, .NEEDARG, .NOTRLCOM, .USECTRLV, .SBOXOK, .CMDWIN], cs!"parse_cmd_common"⟩
def cmdEndif : Cmd := ⟨cs!"endif", 2, [.TRLBAR, .SBOXOK, .CMDWIN], cs!"parse_cmd_endif"⟩

/-- A command on two lines in a block. -/
def respA : List Str := [cs!"function F()", cs!"if x"]
def respS : Str := cs!" x ."
def respB : List Str := [cs!"  \\ 'y'", cs!"endif", cs!"normal! gg", cs!"endfunction"]

example : Between false cs!"f" respA ∧ (logicalLines (respS :: respB)).head? = some cs!" x . 'y'" ∧
    Spells false cs!"exe" cs!" x . 'y'" cmdExecute ∧ Spells false cs!"execute" cs!" x . 'y'" cmdExecute ∧
    errOf (parseFileLines false cs!"f" (respA ++ (cs!"exe" ++ respS) :: respB)) = none :=
  ⟨between_of (o := 18) (by decide +kernel), by decide +kernel, spells_of (by decide +kernel) (by decide +kernel),
    spells_of (by decide +kernel) (by decide +kernel), by decide +kernel⟩

/-- A command that is kept as text: the text shows the name. -/
def textOf (r : Option (ApiRes Ast.File)) : Option (List Str) :=
  (r.bind (·.node)).map fun f => f.body.map fun
    | .excmd _ _ s => s
    | _ => []

example : Spells false cs!"norm" cs!"! gg" cmdNormal ∧ Spells false cs!"normal" cs!"! gg" cmdNormal ∧
    textOf (parseFileLines false [] ([] ++ (cs!"norm" ++ cs!"! gg") :: [])) = some [cs!"norm! gg"] ∧
    textOf (parseFileLines false [] ([] ++ (cs!"normal" ++ cs!"! gg") :: [])) = some [cs!"normal! gg"] :=
  ⟨spells_of (by decide +kernel) (by decide +kernel), spells_of (by decide +kernel) (by decide +kernel), by decide +kernel,
    by decide +kernel⟩

/-- Rejected files: the message is the same, and for an error at the command so is the position. -/
example : Between false cs!"f" [cs!"try"] ∧ Spells false cs!"en" [] cmdEndif ∧ Spells false cs!"endif" [] cmdEndif ∧
    errOf (parseFileLines false cs!"f" ([cs!"try"] ++ (cs!"en" ++ []) :: [])) =
      some (.parse cs!"f" 4 2 1 cs!"E580: :endif without :if") ∧
    errOf (parseFileLines false cs!"f" ([cs!"try"] ++ (cs!"endif" ++ []) :: [])) =
      some (.parse cs!"f" 4 2 1 cs!"E580: :endif without :if") ∧
    errOf (parseFileLines false cs!"f" ([] ++ (cs!"exe" ++ cs!" (") :: [])) =
      some (.parse cs!"f" 5 1 6 cs!"unexpected token: <EOL>") ∧
    errOf (parseFileLines false cs!"f" ([] ++ (cs!"execute" ++ cs!" (") :: [])) =
      some (.parse cs!"f" 9 1 10 cs!"unexpected token: <EOL>") :=
  ⟨between_of (o := 4) (by decide +kernel), spells_of (by decide +kernel) (by decide +kernel),
    spells_of (by decide +kernel) (by decide +kernel), by decide +kernel, by decide +kernel, by decide +kernel, by decide +kernel⟩

/-- The place must be between statements: a here-document ends at a line that is just its marker. -/
example : sizes (parseFileLines false [] ([cs!"python << exe"] ++ (cs!"exe" ++ []) :: [cs!"exe"])) = some [0, 0] ∧
    sizes (parseFileLines false [] ([cs!"python << exe"] ++ (cs!"execute" ++ []) :: [cs!"exe"])) = some [0] := by decide +kernel

/-- The name must end on its line: letters of a continuation line may follow. -/
example :
    errOf (parseFileLines false [] ([] ++ (cs!"exe" ++ []) :: [cs!"\\cute 1"])) = none ∧
    errOf (parseFileLines false [] ([] ++ (cs!"execute" ++ []) :: [cs!"\\cute 1"])) ≠ none := by decide +kernel

end Viml.Props
