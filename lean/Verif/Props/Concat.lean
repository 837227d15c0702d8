/-
C61: scripts one after the other.
-/
import Verif.Lemmas.Concat
import Verif.Props.Compiler
import Verif.Props.Relabel

namespace Viml.Props
open Spec

/-- C61.  The tree of a whole script `A` followed by an accepted file `B` consists of the statements of `A` as they are
and of those of `B` with their positions shifted by the length of `A`, if the first line of `B` is no continuation line and
no user command of `B` starts with the name of a shorter one of `A`. -/
theorem C61_append (nv : Bool) (fn : Str) (A B : List Str) (f g : Ast.File) (hA : Complete nv fn A f)
    (hB : parseFileLines nv fn B = some ⟨some g, none⟩) (hl : ∀ l, B.head? = some l → afterBackslash l = none)
    (hc : ∀ n s, s ≠ [] → UserCmd f.body n → ¬ UserCmd g.body (n ++ s)) :
    parseFileLines nv fn (A ++ B) = some ⟨some ⟨if A = [] then g.start else f.start,
      f.body ++ Ast.Stmt.onPosL (shift A B) g.body⟩, none⟩ :=
  (C52_lines nv fn _ _).2 (script_append hA ((C52_lines nv fn _ _).1 hB) hl hc)

theorem noUser_nil (n : Str) : ¬ UserCmd [] n := by
  rintro ⟨x, ea, h, _⟩
  cases h with
  | mem h => cases h
  | sub h _ => cases h

/-- C61.  A whole script is accepted on its own, with the same statements. -/
theorem C61_alone (nv : Bool) (fn : Str) (A : List Str) (f : Ast.File) (hA : Complete nv fn A f) :
    ∃ p, parseFileLines nv fn A = some ⟨some ⟨p, f.body⟩, none⟩ ∧ (A ≠ [] → p = f.start) := by
  have hB : Script nv (mkEnv []) fn ⟨here (mkEnv []) fn [], []⟩ := ⟨[], .nil, rfl⟩
  have h := C61_append nv fn A [] f _ hA ((C52_lines ..).2 hB) (by simp) (fun n s _ _ => noUser_nil _)
  rw [List.append_nil] at h
  refine ⟨if A = [] then here (mkEnv []) fn [] else f.start, h.trans ?_, fun e => if_neg e⟩
  simp [Ast.Stmt.onPosL]

theorem onCont_append (B : List Str) (n col : Nat) : onContLine (B ++ [commentLine]) n col = onContLine B n col := by
  unfold onContLine
  rcases Nat.lt_trichotomy (n - 1) B.length with h | h | h
  · rw [List.getElem?_append_left h]
  · rw [h, List.getElem?_append_right (Nat.le_refl _), List.getElem?_eq_none (Nat.le_refl _)]
    simp only [Nat.sub_self, List.getElem?_cons_zero, Option.any_some, Option.any_none]
    rw [show (afterBackslash commentLine).isSome = false by decide]
    simp
  · rw [List.getElem?_eq_none (by simp; omega), List.getElem?_eq_none (by omega)]

theorem noUser_comment {g : List Ast.Stmt} {p : Ast.Pos} {t n : Str} (h : UserCmd (g ++ [.comment p t]) n) : UserCmd g n := by
  obtain ⟨x, ea, h1, h2, h3⟩ := h
  refine ⟨x, ea, ?_, h2, h3⟩
  have : ∀ {l x}, PartS l x → l = g ++ [.comment p t] → exArgOf x ≠ none → PartS g x := by
    intro l x h
    cases h with
    | mem h =>
      rintro rfl h2
      rcases List.mem_append.1 h with h | h
      · exact .mem h
      · cases List.mem_singleton.1 h
        exact absurd rfl h2
    | sub h h' =>
      rintro rfl h2
      rcases List.mem_append.1 h with h | h
      · exact .sub h h'
      · cases List.mem_singleton.1 h
        cases h' with
        | mem h => cases h
        | sub h _ => cases h
  exact this h1 rfl (by rw [h2]; simp)

/-- C61.  Whole scripts one after the other are a whole script. -/
theorem C61_complete (nv : Bool) (fn : Str) (A B : List Str) (f g : Ast.File) (hA : Complete nv fn A f)
    (hB : Complete nv fn B g) (hl : ∀ l, B.head? = some l → afterBackslash l = none)
    (hc : ∀ n s, s ≠ [] → UserCmd f.body n → ¬ UserCmd g.body (n ++ s)) :
    Complete nv fn (A ++ B) ⟨if A = [] then g.start else f.start, f.body ++ Ast.Stmt.onPosL (shift A B) g.body⟩ := by
  have h := C61_append nv fn A (B ++ [commentLine]) f _ hA hB (by
    intro l h
    cases B with
    | nil => cases h; decide
    | cons x B => exact hl l h) (fun n s hs h1 h2 => hc n s hs h1 (noUser_comment h2))
  unfold Complete
  rw [List.append_assoc, h]
  have e : shift A (B ++ [commentLine]) = shift A B := by
    funext q
    simp only [shift, onCont_append]
  have e2 : onContLine B (B.length + 1) 1 = false := by
    rw [← onCont_append]
    simp [onContLine]
    intro _
    rw [show afterBackslash commentLine = none by decide]
    simp
  rw [e, onPosS_append, ← List.append_assoc]
  simp only [Ast.Stmt.onPosL, Ast.Stmt.onPos, shift, e2]
  simp [fileBytes]
  omega

/-- Only blanks and tabs. -/
def blankLine (l : Str) : Prop := ∀ c ∈ l, c = ' ' ∨ c = '\t'

theorem blank_complete (nv : Bool) (fn : Str) (l : Str) (h : blankLine l) : Complete nv fn [l] ⟨⟨0, 1, 1, fn⟩, []⟩ := by
  have hb : (mkEnv [l]).buf.map Cell.c = l.map some ++ [none] := by
    simp only [mkEnv, reindex_text, buildCells_text, logicalLines, joinFrom]
    simp
  obtain ⟨pre, e, e1, e2, e3⟩ : ∃ pre e, (mkEnv [l]).buf = pre ++ [e] ∧ pre.map Cell.c = l.map some ∧ e.c = none := by
    obtain ⟨a, b, h1, h2, h3⟩ := List.map_eq_append_iff.1 hb
    cases b with
    | nil => cases h3
    | cons x b =>
      cases b with
      | nil => exact ⟨a, x, h1, h2, by simpa using h3⟩
      | cons y b => simp at h3
  have hs : SkipC (mkEnv [l, commentLine]).buf (e :: commentCells [l]) := by
    refine ⟨l, ⟨pre, ?_, e2⟩, fun c hc => ?_, ?_⟩
    · rw [show [l, commentLine] = [l] ++ [commentLine] from rfl, mkEnv_comment, e1]
      simp
    · rcases h c hc with rfl | rfl <;> decide
    · obtain ⟨c, p⟩ := e
      simp only at e3
      subst e3
      rfl
  refine (C52_lines ..).2 ⟨[], .comment (ss := []) (.empty .nil hs e3) ⟨[], ⟨[], rfl, rfl⟩, by simp, rfl⟩ ?_, ?_⟩
  · exact Comment.mk (e := ⟨none, ⟨(mkEnv [l]).buf.length + 1, 2, 2, (fileBytes [l]).length + 1⟩⟩) (t := []) (r' := [])
      (r1 := [⟨none, ⟨(mkEnv [l]).buf.length + 1, 2, 2, (fileBytes [l]).length + 1⟩⟩]) ⟨[_], rfl, rfl⟩ ⟨[], rfl, rfl⟩ rfl
  · rw [show [l] ++ [commentLine] = [l] ++ [commentLine] from rfl]
    show _ = here (mkEnv ([l] ++ [commentLine])) fn _
    cases l with
    | nil => rfl
    | cons c l => rfl

/-- C61.  Blank lines after a whole script change nothing, so that what follows is only shifted. -/
theorem C61_blank (nv : Bool) (fn : Str) (A : List Str) (f : Ast.File) (hA : Complete nv fn A f) (ws : List Str)
    (hw : ∀ l ∈ ws, blankLine l) : Complete nv fn (A ++ ws) ⟨if A = [] then ⟨0, 1, 1, fn⟩ else f.start, f.body⟩ := by
  induction ws generalizing A f with
  | nil =>
    rw [List.append_nil]
    split
    · rename_i e
      subst e
      obtain ⟨b1, b2⟩ := f
      have e := (complete_body hA).1
      dsimp only at e
      subst e
      exact hA
    · exact hA
  | cons l ws ih =>
    have hl := hw l (by simp)
    have h1 := C61_complete nv fn A [l] f _ hA (blank_complete nv fn l hl) (by
      intro l' h'
      cases h'
      cases h : afterBackslash l with
      | none => rfl
      | some rest =>
        exfalso
        have h1 := (isCont_iff l).trans (show _ = true by rw [h]; rfl)
        have : ∀ l : Str, blankLine l → isCont l = false := by
          intro l hl
          induction l with
          | nil => rfl
          | cons c l ih =>
            rw [isCont]
            rcases hl c (by simp) with rfl | rfl
            · exact ih fun c hc => hl c (by simp [hc])
            · exact ih fun c hc => hl c (by simp [hc])
        rw [this l hl] at h1
        cases h1) (fun n s _ _ => noUser_nil _)
    have h2 := ih (A ++ [l]) _ h1 (fun l hl => hw l (by simp [hl]))
    rw [List.append_assoc] at h2
    simpa [Ast.Stmt.onPosL] using h2

/-! ### Examples -/

/-- Whether a script is whole can be computed. -/
def isComplete (nv : Bool) (fn : Str) (A : List Str) : Bool :=
  match parseFileLines nv fn (A ++ [commentLine]) with
  | some ⟨some f, none⟩ =>
    match f.body.getLast? with
    | some (.comment q []) => q == ⟨(fileBytes A).length, A.length + 1, 1, fn⟩
    | _ => false
  | _ => false

theorem complete_of {nv : Bool} {fn : Str} {A : List Str} (h : isComplete nv fn A = true) : ∃ f, Complete nv fn A f := by
  unfold isComplete at h
  split at h
  · rename_i f hf
    split at h
    · rename_i q hq
      obtain ⟨i, e⟩ := List.getLast?_eq_some_iff.1 hq
      refine ⟨⟨f.start, i⟩, ?_⟩
      rw [Complete, hf, ← eq_of_beq h]
      simp only [← e]
    · cases h
  · cases h

/-- The positions of the statements and their expressions. -/
def placesOf (r : Option (ApiRes Ast.File)) : Option (List (Ast.Pos × List Ast.Pos)) :=
  r.bind fun x => x.node.map fun f => f.body.map fun s => (stmtPos s, (exprsOf s).map nodePos)

/-- A whole script with a continuation line and a user command. -/
def sA : List Str := [cs!"function F()", cs!"  return", cs!"    \\ 1", cs!"endfunction", cs!"Foo"]
def sB : List Str := [cs!"let x =", cs!"\\ F()", cs!"Foo | Bar"]

example : isComplete false cs!"f" sA = true := by decide +kernel
example : placesOf (parseFileLines false cs!"f" sB) = some
    [(⟨0, 1, 1, cs!"f"⟩, [⟨4, 1, 5, cs!"f"⟩, ⟨0, 2, 4, cs!"f"⟩]), (⟨14, 3, 1, cs!"f"⟩, [])] := by
  decide +kernel
example : (fileBytes sA).length = 46 := by decide +kernel
example : placesOf (parseFileLines false cs!"f" (sA ++ sB)) = some
    [(⟨0, 1, 1, cs!"f"⟩, [⟨9, 1, 10, cs!"f"⟩]), (⟨42, 5, 1, cs!"f"⟩, []),
     (⟨46, 6, 1, cs!"f"⟩, [⟨50, 6, 5, cs!"f"⟩, ⟨0, 7, 4, cs!"f"⟩]), (⟨60, 8, 1, cs!"f"⟩, [])] := by
  decide +kernel

/-- No user commands and no blocks. -/
def plain (ss : List Ast.Stmt) : Bool :=
  ss.all fun s => (subStmts s).isEmpty && ((exArgOf s).bind (·.cmd)).all fun c => c ≠ userCommand c.name

theorem noUser_plain {ss : List Ast.Stmt} (h : plain ss = true) (n : Str) : ¬ UserCmd ss n := by
  rw [plain, List.all_eq_true] at h
  rintro ⟨x, ea, h1, h2, h3⟩
  cases h1 with
  | mem hm =>
    have := (Bool.and_eq_true_iff.1 (h _ hm)).2
    rw [h2, Option.bind_some, h3, Option.all_some] at this
    simp only [ne_eq, decide_not, Bool.not_eq_eq_eq_not, Bool.not_true, decide_eq_false_iff_not] at this
    exact this rfl
  | sub hm hp =>
    have := (Bool.and_eq_true_iff.1 (h _ hm)).1
    rw [List.isEmpty_iff.1 this] at hp
    cases hp with
    | mem h => cases h
    | sub h _ => cases h

/-- The hypotheses of C61 for two scripts. -/
example : ∃ f g, Complete false [] sA f ∧ parseFileLines false [] [cs!"let x =", cs!"\\ F()"] = some ⟨some g, none⟩ ∧
    parseFileLines false [] (sA ++ [cs!"let x =", cs!"\\ F()"]) = some ⟨some ⟨f.start, f.body ++
      Ast.Stmt.onPosL (shift sA [cs!"let x =", cs!"\\ F()"]) g.body⟩, none⟩ := by
  obtain ⟨f, hf⟩ := complete_of (show isComplete false [] sA = true by decide +kernel)
  have h : (match parseFileLines false [] [cs!"let x =", cs!"\\ F()"] with
    | some ⟨some g, none⟩ => plain g.body | _ => false) = true := by decide +kernel
  split at h
  · rename_i g hg
    exact ⟨f, g, hf, hg, C61_append _ _ _ _ f g hf hg (by intro l h; cases h; decide) fun _ _ _ _ => noUser_plain h _⟩
  · cases h

/-- Scripts which are not whole: nothing is read after `:finish`; a here-document without end, the lines of an unfinished
`:append` (all three are accepted) and a block without end. -/
example : ∀ A ∈ [[cs!"finish"], [cs!"python << E"], [cs!"append", cs!"x"], [cs!"if 1"]], isComplete false [] A = false := by
  decide +kernel

/-- The names of the commands. -/
def namesIn (r : Option (ApiRes Ast.File)) : Option (List Str) :=
  r.bind fun x => x.node.map fun f => f.body.map fun s => ((exArgOf s).map nameOf).getD []

/-- The condition on user commands is needed: `Foo2` is the command `Foo2`, but after `Foo` it is `Foo` with an argument. -/
example : namesIn (parseFileLines false [] [cs!"Foo2"]) = some [cs!"Foo2"] ∧
    namesIn (parseFileLines false [] [cs!"Foo", cs!"Foo2"]) = some [cs!"Foo", cs!"Foo"] := by decide +kernel

theorem names_onPos (m : Ast.Pos → Ast.Pos) : ∀ l : List Ast.Stmt,
    (Ast.Stmt.onPosL m l).map (fun s => ((exArgOf s).map nameOf).getD []) = l.map fun s => ((exArgOf s).map nameOf).getD []
  | [] => rfl
  | s :: l => by
    rw [Ast.Stmt.onPosL, List.map_cons, List.map_cons, names_onPos m l]
    congr 1
    cases s <;> rfl

/-- C61 without the condition on user commands is false. -/
theorem C61_counterexample : ∃ A B f g, Complete false [] A f ∧ parseFileLines false [] B = some ⟨some g, none⟩ ∧
    (∀ l, B.head? = some l → afterBackslash l = none) ∧ parseFileLines false [] (A ++ B) ≠
      some ⟨some ⟨f.start, f.body ++ Ast.Stmt.onPosL (shift A B) g.body⟩, none⟩ := by
  obtain ⟨f, hf⟩ := complete_of (show isComplete false [] [cs!"Foo"] = true by decide +kernel)
  have h2 : namesIn (parseFileLines false [] [cs!"Foo2"]) = some [cs!"Foo2"] ∧
    (parseFileLines false [] [cs!"Foo2"]).bind (·.err) = none := by decide +kernel
  match hg : parseFileLines false [] [cs!"Foo2"] with
  | none => rw [hg] at h2; cases h2.1
  | some ⟨none, _⟩ => rw [hg] at h2; cases h2.1
  | some ⟨some g, some _⟩ => rw [hg] at h2; cases h2.2
  | some ⟨some g, none⟩ =>
    refine ⟨_, _, f, g, hf, hg, by intro l h; cases h; decide, fun h => ?_⟩
    obtain ⟨p, h1, _⟩ := C61_alone _ _ _ _ hf
    have h3 : namesIn (parseFileLines false [] [cs!"Foo"]) = some [cs!"Foo"] ∧
      namesIn (parseFileLines false [] [cs!"Foo", cs!"Foo2"]) = some [cs!"Foo", cs!"Foo"] := by decide +kernel
    rw [hg] at h2
    rw [h1, show [cs!"Foo", cs!"Foo2"] = [cs!"Foo"] ++ [cs!"Foo2"] from rfl, h] at h3
    obtain ⟨h3, h4⟩ := h3
    simp only [namesIn, Option.bind_some, Option.map_some, Option.some.injEq, List.map_append] at h2 h3 h4
    rw [h3, names_onPos, h2.1] at h4
    exact absurd h4 (by decide)

/-! ### Output -/

theorem readlines_append : ∀ (segs : List (List UInt8)) (src : List UInt8), (∀ l ∈ segs, 10 ∉ l ∧ l.length < 65536) →
    readlines (segs.flatMap (fun l => l ++ [10]) ++ src) =
      readlines (segs.flatMap fun l => l ++ [10]) ++ readlines src
  | [], src, _ => rfl
  | l :: segs, src, h => by
    have hl := h l (by simp)
    have e : ∀ x, (l :: segs).flatMap (fun l => l ++ [10]) ++ x = l ++ 10 :: (segs.flatMap (fun l => l ++ [10]) ++ x) := by
      simp
    have e' := e []
    rw [List.append_nil, List.append_nil] at e'
    rw [e, e', readlines_cons l _ hl.1, readlines_cons l _ hl.1, if_pos hl.2, if_pos hl.2,
      readlines_append segs src (fun x hx => h x (by simp [hx]))]
    rfl

theorem linesL_append (fl : Nat → Ast.Expr → List Ast.Ident → List Ast.Expr → Str) (d : Nat) (b : List Ast.Stmt) :
    ∀ a : List Ast.Stmt, linesL fl d (a ++ b) = linesL fl d a ++ linesL fl d b
  | [] => rfl
  | s :: a => by rw [List.cons_append, linesL, linesL_append fl d b a, linesL, List.append_assoc]

/-- C61.  The command prints for a file that consists of a whole script and another file what it prints for them one after
the other. -/
theorem C61_output (nv : Bool) (fn : Str) (segs : List (List UInt8)) (srcB : List UInt8) (f g : Ast.File)
    (hs : ∀ l ∈ segs, 10 ∉ l ∧ l.length < 65536)
    (hA : Complete nv fn ((readlines (segs.flatMap fun l => l ++ [10])).map decodeUtf8) f)
    (hB : parseFile nv fn srcB = some ⟨some g, none⟩)
    (hl : ∀ l, ((readlines srcB).map decodeUtf8).head? = some l → afterBackslash l = none)
    (hc : ∀ n s, s ≠ [] → UserCmd f.body n → ¬ UserCmd g.body (n ++ s)) :
    ∃ a b, Cmdline.parseFile none nv fn (segs.flatMap fun l => l ++ [10]) = .ok a ∧
      Cmdline.parseFile none nv fn srcB = .ok b ∧
      Cmdline.parseFile none nv fn (segs.flatMap (fun l => l ++ [10]) ++ srcB) = .ok (a ++ b) := by
  have key : ∀ src h, parseFile nv fn src = some ⟨some h, none⟩ →
      Cmdline.parseFile none nv fn src = .ok (unlines (linesL funcLine' 0 h.body)) := by
    intro src h hp
    have hr := parseFile_printable hp
    have := Comp.compileFile_eq hr.1 hr.2
    unfold Cmdline.parseFile
    rw [hp]
    simp only [this]
  obtain ⟨p, h1, _⟩ := C61_alone nv fn _ f hA
  have h2 := C61_append nv fn _ _ f g hA hB hl hc
  rw [← List.map_append, ← readlines_append segs srcB hs] at h2
  refine ⟨_, _, key _ _ h1, key _ _ hB, (key _ _ h2).trans ?_⟩
  rw [linesL_append, Comp.unlines_append]
  congr 2
  have hr := parseFile_printable h2
  have hg := parseFile_printable hB
  have e1 := Comp.compileFile_eq hg.1 hg.2
  have e2 := C57_compile_file (shift ((readlines (segs.flatMap fun l => l ++ [10])).map decodeUtf8)
    ((readlines srcB).map decodeUtf8)) g
  have hx : Comp.compileFile (g.onPos (shift ((readlines (segs.flatMap fun l => l ++ [10])).map decodeUtf8)
      ((readlines srcB).map decodeUtf8))) = _ :=
    Comp.compileFile_eq (fun s hs => hr.1 s (List.mem_append_right _ hs)) (fun s hs => hr.2 s (List.mem_append_right _ hs))
  rw [hx, e1] at e2
  injection e2

end Viml.Props
