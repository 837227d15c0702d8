/-
C87: statements can be commented out.
-/
import Verif.Props.Delete
import Verif.Spec.CommentOut

namespace Viml.Props
open Spec

variable {nv : Bool} {fn : Str}

theorem commentOut_quiet {W : List Str} : ∀ l ∈ commentOut W, Quiet l := by
  intro l hl
  obtain ⟨x, _, rfl⟩ := List.mem_map.1 hl
  exact .inr ⟨x, rfl⟩

theorem commentOut_comments (fn : Str) (A W : List Str) :
    noOffset (commentsAt fn A (commentOut W)) = lineComments fn (A.length + 1) W := by
  induction W generalizing A with
  | nil => rfl
  | cons l W ih =>
    have ih := ih (A ++ ['"' :: l])
    rw [List.length_append, List.length_singleton] at ih
    unfold noOffset at ih ⊢
    rw [show commentOut (l :: W) = ('"' :: l) :: commentOut W from rfl, commentsAt, onPosS_append, ih]
    rfl

/-- C87.  Commenting out a whole script anywhere between the statements of a file changes no error of the file but for its
offset: none comes, none goes, and line, column and message stay. -/
theorem C87_error (nv : Bool) (fn : Str) (A W B : List Str) (hA : Between nv fn A) (hW : Whole nv fn W) (hn : B ≠ [])
    (hB : ∀ l, B.head? = some l → afterBackslash l = none) :
    ((parseFileLines nv fn (A ++ commentOut W ++ B)).bind (·.err)).map errPlace =
      ((parseFileLines nv fn (A ++ W ++ B)).bind (·.err)).map errPlace := by
  obtain ⟨⟨g, hg⟩, hl⟩ := hW
  rw [C68_error nv fn A W B g hA hg hn hl hB, C65_error nv fn A (commentOut W) B hA commentOut_quiet hn hB, Option.map_map,
    Option.map_map]
  congr 1
  funext e
  cases e <;> simp [errSpread, errPlace, commentOut]

/-- C87.  The file is accepted with the script commented out exactly if it is accepted with it. -/
theorem C87_accepted (nv : Bool) (fn : Str) (A W B : List Str) (hA : Between nv fn A) (hW : Whole nv fn W) (hn : B ≠ [])
    (hB : ∀ l, B.head? = some l → afterBackslash l = none) :
    (∃ f, parseFileLines nv fn (A ++ commentOut W ++ B) = some ⟨some f, none⟩) ↔
      ∃ f, parseFileLines nv fn (A ++ W ++ B) = some ⟨some f, none⟩ := by
  rw [no_error_iff, no_error_iff, ← Option.map_eq_none_iff (f := errPlace), C87_error nv fn A W B hA hW hn hB, Option.map_eq_none_iff]

/-- C87, the tree: with and without the comment characters it is the tree of the file without the lines, with either a
comment for each line or the statements of the script put in. -/
theorem C87_into (nv : Bool) (fn : Str) (A W B : List Str) (f g : Ast.File) (hA : Between nv fn A) (hg : Complete nv fn W g)
    (hW : ∀ l, W.head? = some l → afterBackslash l = none) (hn : B ≠ [])
    (hB : ∀ l, B.head? = some l → afterBackslash l = none) (h : parseFileLines nv fn (A ++ W ++ B) = some ⟨some f, none⟩) :
    ∃ e f' cs, parseFileLines nv fn (A ++ B) = some ⟨some e, none⟩ ∧
      parseFileLines nv fn (A ++ commentOut W ++ B) = some ⟨some f', none⟩ ∧
      noOffset cs = lineComments fn (A.length + 1) W ∧ Into cs (Ast.Stmt.onPosL (spread A (commentOut W) B) e.body) f'.body ∧
      (NamesApart e.body g.body → NamesApart g.body e.body →
        Into (Ast.Stmt.onPosL (shift A W) g.body) (Ast.Stmt.onPosL (spread A W B) e.body) f.body) := by
  obtain ⟨e, he⟩ := (C68_accepted nv fn A W B g hA hg hn hW hB).1 ⟨f, h⟩
  obtain ⟨ss, h1, h2⟩ := C65_tree nv fn A (commentOut W) B e hA commentOut_quiet hn hB he
  refine ⟨e, _, _, he, h1, commentOut_comments fn A W, h2, fun n1 n2 => ?_⟩
  obtain ⟨ss', h3, h4⟩ := C68_tree nv fn A W B e g hA hg hn hW hB he n1 n2
  rw [h] at h3
  cases h3
  exact h4

theorem commentOut_whole (nv : Bool) (fn : Str) (W : List Str) :
    ∃ p, Complete nv fn (commentOut W) ⟨p, commentsAt fn [] (commentOut W)⟩ := quiet_complete nv fn commentOut_quiet

theorem noOffset_shift (A W : List Str) (g : List Ast.Stmt) :
    noOffset (Ast.Stmt.onPosL (shift A W) g) =
      Ast.Stmt.onPosL (fun p => ⟨0, p.line + A.length, p.column, p.filename⟩) g := by
  unfold noOffset
  rw [onPos_stmtL]
  rfl

theorem noOffset_append (a b : List Ast.Stmt) : noOffset (a ++ b) = noOffset a ++ noOffset b := onPosS_append ..

theorem comments_at_lines (fn : Str) (A W : List Str) :
    noOffset (Ast.Stmt.onPosL (shift A (commentOut W)) (commentsAt fn [] (commentOut W))) = lineComments fn (A.length + 1) W := by
  rw [comments_shift (commentOut W) (noCont_line fun l hl => quiet_none (commentOut_quiet l hl)), List.append_nil]
  exact commentOut_comments fn _ W

/-- C87 by positions.  The lines of an accepted file from one statement to before another can be commented out: the file has a
comment for each of the lines, with the line as its text, and the other statements with the same lines and columns. -/
theorem C87_statements (nv : Bool) (fn : Str) (A : List Str) (l : Str) (W : List Str) (l' : Str) (B : List Str) (f : Ast.File)
    (s s' : Ast.Stmt) (ea ea' : Ast.ExArg)
    (h : parseFileLines nv fn (A ++ (l :: W ++ l' :: B)) = some ⟨some f, none⟩)
    (hl : afterBackslash l = none) (hl' : afterBackslash l' = none)
    (hs : s ∈ f.body) (he : exArgOf s = some ea) (h1 : ea.linepos.line = A.length + 1) (h2 : ea.linepos.column = bytes (lead l) + 1)
    (hs' : s' ∈ f.body) (he' : exArgOf s' = some ea') (h1' : ea'.linepos.line = A.length + W.length + 2)
    (h2' : ea'.linepos.column = bytes (lead l') + 1) :
    ∃ f' ps ms ss, parseFileLines nv fn (A ++ (commentOut (l :: W) ++ l' :: B)) = some ⟨some f', none⟩ ∧
      f.body = ps ++ ms ++ ss ∧ (∃ p, Complete nv fn A ⟨p, ps⟩) ∧ s' ∈ ss ∧
      (∀ g, parseFileLines nv fn (l' :: B) = some ⟨some g, none⟩ → NamesApart f.body g.body →
        noOffset f'.body = noOffset ps ++ lineComments fn (A.length + 1) (l :: W) ++ noOffset ss) := by
  obtain ⟨p, ps, p', ws, ms, ss, g, a1, a2, a3, a4, a5, a6, a7⟩ :=
    C85_whole nv fn A l W l' B f s s' ea ea' h hl hl' hs he h1 h2 hs' he' h1' h2'
  obtain ⟨p2, c1⟩ := commentOut_whole nv fn (l :: W)
  have hV : ∀ y, (commentOut (l :: W) ++ l' :: B).head? = some y → afterBackslash y = none := by
    rintro _ ⟨⟩
    exact quiet_none (commentOut_quiet (W := l :: W) ('"' :: l) (by simp [commentOut]))
  have b1 := C61_append nv fn (commentOut (l :: W)) (l' :: B) _ g c1 a3 (head_cons hl')
    fun n t _ hu => absurd hu (no_user_comments _ _)
  obtain ⟨q, xs, b2⟩ := (C62_accepted nv fn A _ _ a1 hV).2 ⟨_, b1⟩
  refine ⟨_, ps, ms, ss, b2, a4, ⟨p, a1⟩, a5, fun g' hg hn => ?_⟩
  rw [a3] at hg
  cases hg
  have up : ∀ {n}, UserCmd (ps ++ ms) n → UserCmd f.body n := by
    rintro n ⟨x, ea, k1, k2⟩
    exact ⟨x, ea, k1.mono fun y hy => by rw [a4]; exact List.mem_append_left _ hy, k2⟩
  have up' : ∀ {n}, UserCmd ps n → UserCmd f.body n := by
    rintro n ⟨x, ea, k1, k2⟩
    exact up ⟨x, ea, k1.mono fun y hy => List.mem_append_left _ hy, k2⟩
  have e1 := a7 fun n t ht hu => hn n t ht (up hu)
  have b3 := C61_append nv fn A _ _ _ a1 b1 hV fun n t ht hu hu' => by
    rcases userCmd_append hu' with k | k
    · exact absurd k (no_user_comments _ _)
    · exact hn n t ht (up' hu) (userCmd_onPos _ |>.1 k)
  rw [b2] at b3
  simp only [Option.some.injEq, ApiRes.mk.injEq, Ast.File.mk.injEq, and_true] at b3
  have e2 := List.append_cancel_left b3.2
  show noOffset (ps ++ xs) = _
  rw [e2, e1, onPosS_append, noOffset_append, noOffset_append, ← List.append_assoc]
  congr 1
  · congr 1
    rw [noOffset_shift, ← noOffset_shift A (commentOut (l :: W)), comments_at_lines]
  · rw [noOffset_shift, noOffset_shift, onPos_stmtL]
    congr 1
    funext q
    simp [shift, commentOut]
    omega

theorem lines_comments (fn : Str) (n : Nat) (W : List Str) : linesL funcLine' 0 (lineComments fn n W) = W.map (';' :: ·) := by
  induction W generalizing n with
  | nil => rfl
  | cons l W ih =>
    rw [lineComments, linesL, ih]
    rfl

/-- C87 for the compiler: the output has a line for each of the commented lines instead of the output of the statements, and is
otherwise the same. -/
theorem C87_output (nv : Bool) (fn : Str) (A : List Str) (l : Str) (W : List Str) (l' : Str) (B : List Str) (f g : Ast.File)
    (s s' : Ast.Stmt) (ea ea' : Ast.ExArg)
    (h : parseFileLines nv fn (A ++ (l :: W ++ l' :: B)) = some ⟨some f, none⟩)
    (hl : afterBackslash l = none) (hl' : afterBackslash l' = none)
    (hs : s ∈ f.body) (he : exArgOf s = some ea) (h1 : ea.linepos.line = A.length + 1) (h2 : ea.linepos.column = bytes (lead l) + 1)
    (hs' : s' ∈ f.body) (he' : exArgOf s' = some ea') (h1' : ea'.linepos.line = A.length + W.length + 2)
    (h2' : ea'.linepos.column = bytes (lead l') + 1) (hg : parseFileLines nv fn (l' :: B) = some ⟨some g, none⟩)
    (hn : NamesApart f.body g.body) (hnl : ∀ y ∈ A ++ (l :: W ++ l' :: B), '\n' ∉ y) :
    ∃ f' a m b, parseFileLines nv fn (A ++ (commentOut (l :: W) ++ l' :: B)) = some ⟨some f', none⟩ ∧
      Comp.compileFile f = .text (a ++ m ++ b) ∧
      Comp.compileFile f' = .text (a ++ ((l :: W).flatMap fun x => ';' :: x ++ ['\n']) ++ b) := by
  obtain ⟨f', ps, ms, ss, k1, k2, _, _, k3⟩ := C87_statements nv fn A l W l' B f s s' ea ea' h hl hl' hs he h1 h2 hs' he' h1' h2'
  have k3 := k3 g hg hn
  have same : ∀ x : List Ast.Stmt, linesL funcLine' 0 (noOffset x) = linesL funcLine' 0 x := fun x => linesL_pos _ 0 x
  refine ⟨f', unlines (linesL funcLine' 0 ps), unlines (linesL funcLine' 0 ms), unlines (linesL funcLine' 0 ss), k1, ?_, ?_⟩
  · rw [compile_lines (f := f) (q := f.start) h hnl, k2, linesL_append, linesL_append, unlines_append, unlines_append]
  · rw [compile_lines (f := f') (q := f'.start) k1, ← same, k3, linesL_append, linesL_append, unlines_append, unlines_append, same,
      same, lines_comments]
    · congr 3
      exact List.flatMap_map ..
    · intro y hy
      rcases List.mem_append.1 hy with hy | hy
      · exact hnl y (by simp [hy])
      · rcases List.mem_append.1 hy with hy | hy
        · obtain ⟨x, hx, rfl⟩ := List.mem_map.1 hy
          have := hnl x (List.mem_append_right _ (List.mem_append_left _ hx))
          simpa using this
        · exact hnl y (List.mem_append_right _ (List.mem_append_right _ hy))

/-- C87 for the last statements of a file. -/
theorem C87_last (nv : Bool) (fn : Str) (A : List Str) (l : Str) (B : List Str) (f : Ast.File) (s : Ast.Stmt) (ea : Ast.ExArg)
    (h : parseFileLines nv fn (A ++ l :: B) = some ⟨some f, none⟩) (hl : afterBackslash l = none) (hs : s ∈ f.body)
    (he : exArgOf s = some ea) (h1 : ea.linepos.line = A.length + 1) (h2 : ea.linepos.column = bytes (lead l) + 1) :
    ∃ f' ps ss, parseFileLines nv fn (A ++ commentOut (l :: B)) = some ⟨some f', none⟩ ∧ f.body = ps ++ ss ∧ s ∈ ss ∧
      noOffset f'.body = noOffset ps ++ lineComments fn (A.length + 1) (l :: B) := by
  obtain ⟨p, ps, ss, g, a1, a2, a3, _⟩ := C84_cut nv fn A l B f s ea h hl hs he h1 h2
  obtain ⟨p2, c1⟩ := commentOut_whole nv fn (l :: B)
  obtain ⟨p3, c2, _⟩ := C61_alone nv fn _ _ c1
  have b := C61_append nv fn A (commentOut (l :: B)) _ _ a1 c2 (Quiet.heads commentOut_quiet)
    fun n t _ _ hu => absurd hu (no_user_comments _ _)
  refine ⟨_, ps, ss, b, a2, a3, ?_⟩
  show noOffset (ps ++ Ast.Stmt.onPosL (shift A (commentOut (l :: B))) (commentsAt fn [] (commentOut (l :: B)))) = _
  rw [noOffset_append, comments_at_lines]

/-! ### Examples -/

/-- In a function, before an error: a script of three lines, one of them a continuation line. -/
example : ((parseFileLines false cs!"f" ([cs!"function F()"] ++ [cs!"\"let x =", cs!"\"  \\ 1", cs!"\"echo x"] ++ [cs!"endif"])).bind (·.err)).map errPlace =
    some (some (cs!"f", 5, 1, cs!"E580: :endif without :if")) := by
  refine (C87_error false cs!"f" [cs!"function F()"] [cs!"let x =", cs!"  \\ 1", cs!"echo x"] [cs!"endif"] (between_of (o := 13) (by decide +kernel))
    (whole_of (by decide +kernel) (by decide)) (by simp) (by rintro _ ⟨⟩; decide)).trans ?_
  decide +kernel

/-- The statement with its here-document, the comment behind it, and what the compiler prints then. -/
example : ∃ f f' ps ms ss a m b, parseFileLines false [] (delA ++ (cs!" let y =<< E" :: delW ++ cs!"call F()" :: delB)) = some ⟨some f, none⟩ ∧
    parseFileLines false [] (delA ++ (commentOut (cs!" let y =<< E" :: delW) ++ cs!"call F()" :: delB)) = some ⟨some f', none⟩ ∧
    f.body = ps ++ ms ++ ss ∧
    noOffset f'.body = noOffset ps ++ [.comment ⟨0, 2, 1, []⟩ cs!" let y =<< E", .comment ⟨0, 3, 1, []⟩ cs!"x",
      .comment ⟨0, 4, 1, []⟩ cs!"E", .comment ⟨0, 5, 1, []⟩ cs!"\" why"] ++ noOffset ss ∧
    Comp.compileFile f = .text (a ++ m ++ b) ∧ Comp.compileFile f' = .text (a ++ cs!"; let y =<< E\n;x\n;E\n;\" why\n" ++ b) := by
  obtain ⟨f, s, ea, s', ea', h, ⟨a1, a2, a3, a4⟩, b1, b2, b3, b4⟩ := two_statements (nv := false) (fn := [])
    (lines := delA ++ (cs!" let y =<< E" :: delW ++ cs!"call F()" :: delB)) (l1 := 2) (c1 := 2) (l2 := 6) (c2 := 1) (by decide +kernel)
  obtain ⟨g, e, hp⟩ := show ∃ g, parseFileLines false [] (cs!"call F()" :: delB) = some ⟨some g, none⟩ ∧ ∀ n, ¬ UserCmd g.body n by
    have hp : (parseFileLines false [] (cs!"call F()" :: delB)).any (fun r => r.err.isNone && r.node.any fun g => plain g.body) = true := by
      decide +kernel
    match e : parseFileLines false [] (cs!"call F()" :: delB), hp with
    | some ⟨some g, none⟩, hp => exact ⟨g, rfl, noUser_plain (by simpa using hp)⟩
  obtain ⟨f', ps, ms, ss, c1, c2, _, _, c4⟩ := C87_statements false [] delA cs!" let y =<< E" delW cs!"call F()" delB f s s' ea ea' h
    (by decide) (by decide) a1 a2 a3 a4 b1 b2 b3 b4
  obtain ⟨f'', a, m, b, d1, d2, d3⟩ := C87_output false [] delA cs!" let y =<< E" delW cs!"call F()" delB f g s s' ea ea' h
    (by decide) (by decide) a1 a2 a3 a4 b1 b2 b3 b4 e (fun n t _ _ => hp _) (by decide)
  rw [c1] at d1
  cases d1
  exact ⟨f, f', ps, ms, ss, a, m, b, h, c1, c2, c4 g e fun n t _ _ => hp _, d2, d3⟩

/-- Commenting out only the first line of a statement of more lines gives other errors. -/
example : errOf (parseFileLines false [] [cs!"if 1", cs!"echo", cs!"endif"]) = none ∧
    (errOf (parseFileLines false [] [cs!"\"if 1", cs!"echo", cs!"endif"])).isSome = true := by decide +kernel

/-- The body of a function. -/
example : ∃ e f' cs, parseFileLines false [] ([cs!"function F()"] ++ [cs!"endfunction"]) = some ⟨some e, none⟩ ∧
    parseFileLines false [] ([cs!"function F()"] ++ [cs!"\"  echo 1", cs!"\"  \\ + 2"] ++ [cs!"endfunction"]) = some ⟨some f', none⟩ ∧
    noOffset cs = [.comment ⟨0, 2, 1, []⟩ cs!"  echo 1", .comment ⟨0, 3, 1, []⟩ cs!"  \\ + 2"] ∧
    Into cs (Ast.Stmt.onPosL (spread [cs!"function F()"] [cs!"\"  echo 1", cs!"\"  \\ + 2"] [cs!"endfunction"]) e.body) f'.body := by
  obtain ⟨g, hg⟩ := complete_of (show isComplete false [] [cs!"  echo 1", cs!"  \\ + 2"] = true by decide +kernel)
  obtain ⟨f, h⟩ := no_error_iff (nv := false) (fn := [])
    (ls := [cs!"function F()"] ++ [cs!"  echo 1", cs!"  \\ + 2"] ++ [cs!"endfunction"]) |>.2 (by decide +kernel)
  obtain ⟨e, f', cs, h1, h2, h3, h4, _⟩ := C87_into false [] [cs!"function F()"] [cs!"  echo 1", cs!"  \\ + 2"] [cs!"endfunction"] f g
    (between_of (o := 13) (by decide +kernel)) hg (by rintro _ ⟨⟩; decide) (by simp) (by rintro _ ⟨⟩; decide) h
  exact ⟨e, f', cs, h1, h2, h3, h4⟩

/-- The last statement, whose text the end of the file ends. -/
example : ∃ f' ps, parseFileLines false [] ([cs!"echo 1"] ++ commentOut [cs!"append", cs!"text"]) = some ⟨some f', none⟩ ∧
    noOffset f'.body = noOffset ps ++ [.comment ⟨0, 2, 1, []⟩ cs!"append", .comment ⟨0, 3, 1, []⟩ cs!"text"] := by
  obtain ⟨f, s, ea, h, a1, a2, a3, a4⟩ := statement_at (nv := false) (fn := []) (lines := [cs!"echo 1", cs!"append", cs!"text"])
    (ln := 2) (c := 1) (by decide +kernel)
  obtain ⟨f', ps, ss, b1, _, _, b2⟩ := C87_last false [] [cs!"echo 1"] cs!"append" [cs!"text"] f s ea h (by decide) a1 a2 a3 a4
  exact ⟨f', ps, b1, b2⟩

end Viml.Props
