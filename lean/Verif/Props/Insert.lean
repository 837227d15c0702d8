/-
C65: blank lines and comment lines between statements.
-/
import Verif.Lemmas.InsertAt
import Verif.Props.ConcatError

namespace Viml
open Spec

mutual

theorem Spec.Into.same {a b : List Ast.Stmt} : Into [] a b → a = b
  | .here a b => by simp
  | .sub a b h => by rw [IntoS.same h]

theorem Spec.IntoS.same {a b : Ast.Stmt} : IntoS [] a b → a = b
  | .function h | .while_ h | .for_ h | .if_ h | .elseIf h | .else_ h | .try_ h | .catch_ h | .finally_ h => by rw [Into.same h]
  | .elseIfs h | .elsePart h | .catches h | .finallyPart h => by rw [IntoS.same h]

end

namespace Props

/-- Where a file starts after lines are inserted: blank lines at its start are part of it. -/
def startAt (fn : Str) (A W : List Str) (q : Ast.Pos) : Ast.Pos := if A = [] ∧ W ≠ [] then ⟨0, 1, 1, fn⟩ else q

theorem start_insert {nv : Bool} {fn : Str} {A W B : List Str} {f : Ast.File} (hW : ∀ l ∈ W, Quiet l)
    (hB : ∀ l, B.head? = some l → afterBackslash l = none) (h : Script nv (mkEnv (A ++ B)) fn f) :
    here (mkEnv (A ++ W ++ B)) fn (mkEnv (A ++ W ++ B)).buf = startAt fn A W f.start := by
  have hW' : ∀ l, W.head? = some l → afterBackslash l = none := fun l hl =>
    quiet_none (hW l (List.mem_of_mem_head? (by rw [hl]; rfl)))
  obtain ⟨_, _, e⟩ := h
  rw [e]
  unfold startAt
  cases A with
  | cons a A =>
    rw [if_neg (by simp), AWB_buf (a :: A) hW' hB, mkEnv_append hB]
    rcases buildCells_last (a :: A) with h1 | ⟨i, p, h1⟩
    · cases h1
    · have e : (mkEnv (a :: A)).buf = reindex 0 i ++ [⟨none, { p with i := i.length }⟩] := by
        simp only [mkEnv, h1, reindex_append, reindex, Nat.zero_add]
      rw [e]
      cases reindex 0 i <;> rfl
  | nil =>
    cases W with
    | nil => rfl
    | cons l W =>
      rw [if_pos (by simp)]
      have hc : ∀ x, (W ++ B).head? = some x → isCont x = false := by
        intro x hx
        cases W with
        | nil => rw [isCont_iff, hB x hx]; rfl
        | cons w W =>
          cases hx
          exact quiet_noCont _ (hW _ (by simp))
      show here _ fn (reindex 0 (lineCells 1 0 0 l ++ buildRest (W ++ B) 0 (bytesLen l) (bytesLen l))) = _
      cases l with
      | cons c l => rfl
      | nil =>
        cases e : W ++ B with
        | nil => rfl
        | cons x X =>
          rw [e] at hc
          simp only [lineCells, buildRest, hc x rfl]
          rfl

/-- C65.  If a file is accepted, it is accepted with blank and comment lines `W` between two of its statements; the
statements are the same, those behind `W` are moved, and the comments of `W` come in at one place. -/
theorem C65_tree (nv : Bool) (fn : Str) (A W B : List Str) (f : Ast.File) (hA : Between nv fn A) (hW : ∀ l ∈ W, Quiet l)
    (hn : B ≠ []) (hB : ∀ l, B.head? = some l → afterBackslash l = none)
    (h : parseFileLines nv fn (A ++ B) = some ⟨some f, none⟩) :
    ∃ ss, parseFileLines nv fn (A ++ W ++ B) = some ⟨some ⟨startAt fn A W f.start, ss⟩, none⟩ ∧
      Into (commentsAt fn A W) (Ast.Stmt.onPosL (spread A W B) f.body) ss := by
  obtain ⟨ι, h1, h2, _, _, h5⟩ := inserted hA hW hB hn
  have h := (C52_lines ..).1 h
  obtain ⟨ss, h3, h4⟩ := ι.script h fun n _ => comments_good h1 h5 n
  rw [start_insert hW hB h] at h3
  rw [h1, h2] at h4
  exact ⟨ss, (C52_lines ..).2 h3, h4⟩

/-- C65.  The file is rejected exactly if it is rejected without the lines, with the same message at the same place of the
same line, which is behind them. -/
theorem C65_error (nv : Bool) (fn : Str) (A W B : List Str) (hA : Between nv fn A) (hW : ∀ l ∈ W, Quiet l)
    (hn : B ≠ []) (hB : ∀ l, B.head? = some l → afterBackslash l = none) :
    (parseFileLines nv fn (A ++ W ++ B)).bind (·.err) =
      ((parseFileLines nv fn (A ++ B)).bind (·.err)).map (errSpread W) := by
  obtain ⟨ι, h1, h2, h3, h4, _⟩ := inserted hA hW hB hn
  rcases C55_total nv fn (A ++ B) with ⟨g, h⟩ | ⟨m, q, h⟩ | h
  · obtain ⟨ss, h5⟩ := ι.script_any h
    rw [(C52_lines ..).2 h, (C52_lines ..).2 h5]
    rfl
  · have hl : A.length < q.lnum := by
      have := ι.fileErr_at h
      rw [h4] at this
      exact out_line (B' := B) (cut fn A B [] _) rfl this
    have h5 := ι.fileErr h
    rw [h3, spreadPos, if_neg (by omega), ← readLen_eq] at h5
    rw [(C54_lines nv fn (A ++ B) none fn q.i q.lnum q.col m).2 ⟨rfl, rfl, q, rfl, rfl, rfl, h⟩,
      (C54_lines nv fn (A ++ W ++ B) none fn (q.i + readLen W) (q.lnum + W.length) q.col m).2
        ⟨rfl, rfl, ⟨q.i + readLen W, q.lnum + W.length, q.col, _⟩, rfl, rfl, rfl, h5⟩]
    rfl
  · rw [(other_lines nv fn (A ++ B) none).2 ⟨rfl, h⟩, (other_lines nv fn (A ++ W ++ B) none).2 ⟨rfl, ι.numErr h⟩]
    rfl

/-- C65.  No error is before such a place. -/
theorem C65_behind (nv : Bool) (fn : Str) (A B : List Str) (hA : Between nv fn A) (hn : B ≠ [])
    (hB : ∀ l, B.head? = some l → afterBackslash l = none) {n f o l c m}
    (h : parseFileLines nv fn (A ++ B) = some ⟨n, some (.parse f o l c m)⟩) : A.length < l := by
  obtain ⟨ι, h1, h2, h3, h4, _⟩ := inserted (W := []) hA (fun _ h => by cases h) hB hn
  obtain ⟨_, _, q, _, rfl, _, h⟩ := (C54_lines ..).1 h
  have := ι.fileErr_at h
  rw [h4] at this
  exact out_line (B' := B) (cut fn A B [] _) rfl this

/-- A line of blanks, tabs and colons. -/
def Empty (l : Str) : Prop := ∀ c ∈ l, c = ' ' ∨ c = '\t' ∨ c = ':'

theorem lead_empty : ∀ {l : Str}, Empty l → lead l = l
  | [], _ => rfl
  | c :: l, h => by
    unfold lead
    rw [if_pos (h c (by simp)), lead_empty fun c hc => h c (by simp [hc])]

theorem Empty.after {l : Str} (h : Empty l) : afterLead l = [] := by
  rw [afterLead, lead_empty h]; simp

theorem commentsAt_empty (fn : Str) : ∀ (W A : List Str), (∀ l ∈ W, Empty l) → commentsAt fn A W = []
  | [], _, _ => rfl
  | l :: W, A, h => by
    rw [commentsAt, commentsAt_empty fn W _ fun l hl => h l (by simp [hl])]
    simp [commentAt, (h l (by simp)).after]

/-- C65.  Blank lines between two statements change nothing but positions, whatever is said about the file. -/
theorem C65_blank (nv : Bool) (fn : Str) (A W B : List Str) (hA : Between nv fn A) (hW : ∀ l ∈ W, Empty l)
    (hn : B ≠ []) (hB : ∀ l, B.head? = some l → afterBackslash l = none) :
    parseFileLines nv fn (A ++ W ++ B) = (parseFileLines nv fn (A ++ B)).map fun x =>
      ⟨x.node.map fun f => ⟨startAt fn A W f.start, Ast.Stmt.onPosL (spread A W B) f.body⟩, x.err.map (errSpread W)⟩ := by
  have hW' : ∀ l ∈ W, Quiet l := fun l hl => .inl (hW l hl).after
  have he := C65_error nv fn A W B hA hW' hn hB
  rcases C55_total nv fn (A ++ B) with ⟨g, h⟩ | ⟨m, q, h⟩ | h
  · have h := (C52_lines ..).2 h
    obtain ⟨ss, h1, h2⟩ := C65_tree nv fn A W B g hA hW' hn hB h
    rw [commentsAt_empty fn W A hW] at h2
    rw [h, h1, ← h2.same]
    rfl
  · have h := (C54_lines nv fn (A ++ B) none fn q.i q.lnum q.col m).2 ⟨rfl, rfl, q, rfl, rfl, rfl, h⟩
    rw [h] at he ⊢
    cases hp : parseFileLines nv fn (A ++ W ++ B) with
    | none => rw [hp] at he; cases he
    | some x =>
      obtain ⟨n, e⟩ := x
      rw [hp] at he
      obtain rfl : e = _ := he
      cases ((C54_lines ..).1 hp).1
      rfl
  · have h := (other_lines nv fn (A ++ B) none).2 ⟨rfl, h⟩
    rw [h] at he ⊢
    cases hp : parseFileLines nv fn (A ++ W ++ B) with
    | none => rw [hp] at he; cases he
    | some x =>
      obtain ⟨n, e⟩ := x
      rw [hp] at he
      obtain rfl : e = _ := he
      cases ((other_lines ..).1 hp).1
      rfl

/-- C65.  The file is accepted exactly if it is accepted without the lines. -/
theorem C65_accepted (nv : Bool) (fn : Str) (A W B : List Str) (hA : Between nv fn A) (hW : ∀ l ∈ W, Quiet l)
    (hn : B ≠ []) (hB : ∀ l, B.head? = some l → afterBackslash l = none) :
    (∃ g, parseFileLines nv fn (A ++ W ++ B) = some ⟨some g, none⟩) ↔
      ∃ f, parseFileLines nv fn (A ++ B) = some ⟨some f, none⟩ := by
  constructor
  · rintro ⟨g, h⟩
    have he := C65_error nv fn A W B hA hW hn hB
    rw [h] at he
    rcases C55_total nv fn (A ++ B) with ⟨g, h⟩ | ⟨m, q, h⟩ | h
    · exact ⟨g, (C52_lines ..).2 h⟩
    · rw [(C54_lines nv fn (A ++ B) none fn q.i q.lnum q.col m).2 ⟨rfl, rfl, q, rfl, rfl, rfl, h⟩] at he
      cases he
    · rw [(other_lines nv fn (A ++ B) none).2 ⟨rfl, h⟩] at he
      cases he
  · rintro ⟨f, h⟩
    obtain ⟨ss, h, _⟩ := C65_tree nv fn A W B f hA hW hn hB h
    exact ⟨_, h⟩

/-! ### Examples -/

theorem between_of {nv : Bool} {fn : Str} {A : List Str} {o : Nat} (h : errOf (parseFileLines nv fn (A ++ [cs!"xyzzy"])) =
    some (.parse fn o (A.length + 1) 1 cs!"E492: Not an editor command: xyzzy")) : Between nv fn A := by
  cases e : parseFileLines nv fn (A ++ [cs!"xyzzy"]) with
  | none => rw [e] at h; cases h
  | some x =>
    obtain ⟨n, er⟩ := x
    rw [e] at h
    obtain rfl : er = _ := h
    exact ⟨n, o, e⟩

/-- In blocks, behind a continuation line; a here-document follows. -/
def insA : List Str := [cs!"function F()", cs!"  if x", cs!"    let y = [1,", cs!"      \\ 2]"]
def insB : List Str := [cs!"    echo y", cs!"  else", cs!"    let z =<< E", cs!"xyzzy", cs!"E", cs!"  endif", cs!"endfunction"]
def insW : List Str := [cs!"", cs!" : \" é", cs!"\t "]

example : Between false cs!"f" insA :=
  between_of (o := 39) (by decide +kernel)
example : ∀ l ∈ insW, Quiet l := by
  simp [insW, Quiet, afterLead, lead]
example : errOf (parseFileLines false cs!"f" (insA ++ insB)) = none := by decide +kernel
example : commentsAt cs!"f" insA insW = [.comment ⟨51, 6, 4, cs!"f"⟩ cs!" é"] := by rfl

/-- Rejected files: in both the message is the same. -/
example : Between false cs!"f" [cs!"try", cs!"catch /e/"] ∧
    errOf (parseFileLines false cs!"f" ([cs!"try", cs!"catch /e/"] ++ [cs!"echo", cs!"endif"])) =
      some (.parse cs!"f" 19 4 1 cs!"E580: :endif without :if") ∧
    errOf (parseFileLines false cs!"f" ([cs!"try", cs!"catch /e/"] ++ insW ++ [cs!"echo", cs!"endif"])) =
      some (.parse cs!"f" 30 7 1 cs!"E580: :endif without :if") :=
  ⟨between_of (o := 14) (by decide +kernel), by decide +kernel, by decide +kernel⟩

/-- The number of statements, and of the lines of here-documents. -/
def sizes (r : Option (ApiRes Ast.File)) : Option (List Nat) :=
  (r.bind (·.node)).map fun f => f.body.map fun
    | .let_ _ _ _ _ _ _ (.heredoc _ _ _ b) => b.length
    | _ => 0

/-- The place must be between statements: a comment line in a here-document is text. -/
example : sizes (parseFileLines false [] ([cs!"let z =<< E"] ++ [cs!"E"])) = some [0] ∧
    sizes (parseFileLines false [] ([cs!"let z =<< E"] ++ [cs!"\" c"] ++ [cs!"E"])) = some [1] := by decide +kernel

/-- The same, and behind `:finish` comments are no statements. -/
example : sizes (parseFileLines false [] ([cs!"finish"] ++ [cs!"\" c"] ++ [cs!"echo"])) = some [0] ∧
    sizes (parseFileLines false [] ([cs!"echo"] ++ [cs!"\" c"] ++ [cs!"echo"])) = some [0, 0, 0] := by decide +kernel

/-- The lines behind the place must not continue a line. -/
example : errOf (parseFileLines false [] ([cs!"echo 1"] ++ [cs!"\\ - xyzzy"])) = none ∧
    errOf (parseFileLines false [] ([cs!"echo 1"] ++ [cs!""] ++ [cs!"\\ - xyzzy"])) ≠ none ∧
    Between false [] [cs!"echo 1"] :=
  ⟨by decide +kernel, by decide +kernel, between_of (o := 7) (by decide +kernel)⟩

end Props
end Viml
