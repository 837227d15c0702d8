/-
C68: a whole script between two statements of another.
-/
import Verif.Lemmas.NestPlace
import Verif.Spec.Nest
import Verif.Props.InsertEnd

namespace Viml
open Spec

namespace Props
variable {nv : Bool} {fn : Str} {A B W : List Str}

/-- Where a file starts after the script `g` is inserted. -/
def startNest (A W : List Str) (f g : Ast.File) : Ast.Pos := if A = [] ∧ W ≠ [] then g.start else f.start

theorem start_nest {f g : Ast.File} (hg : Complete nv fn W g) (hW : ∀ l, W.head? = some l → afterBackslash l = none)
    (hB : ∀ l, B.head? = some l → afterBackslash l = none) (h : Script nv (mkEnv (A ++ B)) fn f) :
    here (mkEnv (A ++ W ++ B)) fn (mkEnv (A ++ W ++ B)).buf = startNest A W f g := by
  have last : ∀ X : List Str, X ≠ [] → ∃ c b, (mkEnv X).buf = c :: b := by
    intro X hX
    cases e : (mkEnv X).buf with
    | cons c b => exact ⟨c, b, rfl⟩
    | nil =>
      rcases buildCells_last X with h1 | ⟨i, p, h1⟩
      · exact absurd h1 hX
      · simp only [mkEnv, h1, reindex_append] at e
        simp [reindex] at e
  obtain ⟨_, _, e⟩ := h
  unfold startNest
  by_cases hA : A = []
  · subst hA
    by_cases hw : W = []
    · subst hw
      simpa using e.symm
    · rw [if_pos ⟨rfl, hw⟩, (complete_body hg).1, mkEnv_comment, List.nil_append, mkEnv_append hB]
      obtain ⟨c, b, e⟩ := last W hw
      rw [e]
      rfl
  · rw [if_neg (fun h => hA h.1), e, AWB_buf A hW hB, mkEnv_append hB]
    obtain ⟨c, b, e⟩ := last A hA
    rw [e]
    rfl

/-- C68.  If a file is accepted, it is accepted with a whole script `W` between two of its statements; the statements of the
file are the same, those behind `W` are moved, and the statements of `W`, moved, come in at one place. -/
theorem C68_tree (nv : Bool) (fn : Str) (A W B : List Str) (f g : Ast.File) (hA : Between nv fn A) (hg : Complete nv fn W g)
    (hn : B ≠ []) (hW : ∀ l, W.head? = some l → afterBackslash l = none)
    (hB : ∀ l, B.head? = some l → afterBackslash l = none)
    (h : parseFileLines nv fn (A ++ B) = some ⟨some f, none⟩) (h1 : NamesApart f.body g.body) (h2 : NamesApart g.body f.body) :
    ∃ ss, parseFileLines nv fn (A ++ W ++ B) = some ⟨some ⟨startNest A W f g, ss⟩, none⟩ ∧
      Into (Ast.Stmt.onPosL (shift A W) g.body) (Ast.Stmt.onPosL (spread A W B) f.body) ss := by
  obtain ⟨ι, i1, i2, _, _, i5⟩ := nested hA hg hW hB hn
  have h := (C52_lines ..).1 h
  obtain ⟨ss, h3, h4⟩ := ι.script h fun n hn => ⟨fun a ha b hb e => h2 a b hb (i5 a ha) (e ▸ hn), fun m hm b hb e => by
    rw [i1, userCmd_onPos] at hm
    exact h1 n b hb hn (e ▸ hm)⟩
  rw [start_nest hg hW hB h] at h3
  rw [i1, i2] at h4
  exact ⟨ss, (C52_lines ..).2 h3, h4⟩

/-- C68.  The file is rejected exactly if it is rejected without the script, with the same message at the same place of the
same line, which is behind it. -/
theorem C68_error (nv : Bool) (fn : Str) (A W B : List Str) (g : Ast.File) (hA : Between nv fn A) (hg : Complete nv fn W g)
    (hn : B ≠ []) (hW : ∀ l, W.head? = some l → afterBackslash l = none)
    (hB : ∀ l, B.head? = some l → afterBackslash l = none) :
    (parseFileLines nv fn (A ++ W ++ B)).bind (·.err) =
      ((parseFileLines nv fn (A ++ B)).bind (·.err)).map (errSpread W) := by
  obtain ⟨ι, h1, h2, h3, h4, _⟩ := nested hA hg hW hB hn
  rcases C55_total nv fn (A ++ B) with ⟨g, h⟩ | ⟨m, q, h⟩ | h
  · obtain ⟨ss, h5⟩ := ι.script_any h
    rw [(C52_lines ..).2 h, (C52_lines ..).2 h5]
    rfl
  · have hl : A.length < q.lnum := by
      have := ι.fileErr_at h
      rw [h4] at this
      exact out_line (B' := B) (cut fn A B [] _) rfl this
    have h5 := ι.fileErr h
    rw [h3, spreadPos, if_neg (by omega), ← readLen_eq] at h5
    rw [(C54_lines nv fn (A ++ B) none fn q.i q.lnum q.col m).2 ⟨rfl, rfl, q, rfl, rfl, rfl, h⟩,
      (C54_lines nv fn (A ++ W ++ B) none fn (q.i + readLen W) (q.lnum + W.length) q.col m).2
        ⟨rfl, rfl, ⟨q.i + readLen W, q.lnum + W.length, q.col, _⟩, rfl, rfl, rfl, h5⟩]
    rfl
  · rw [(other_lines nv fn (A ++ B) none).2 ⟨rfl, h⟩, (other_lines nv fn (A ++ W ++ B) none).2 ⟨rfl, ι.numErr h⟩]
    rfl

theorem endOf_onPos (m : Ast.Pos → Ast.Pos) (s : Ast.Stmt) : endOf (s.onPos m) = (endOf s).map (·.onPos m) := by
  cases s <;> rfl

theorem stmtPos_onPos (m : Ast.Pos → Ast.Pos) (s : Ast.Stmt) : stmtPos (s.onPos m) = m (stmtPos s) := by
  cases s <;> rfl

/-- C68.  If the place is inside a block of the file (which starts before it and ends behind it), the statements of `W` come in
inside this block, and nothing else changes but positions. -/
theorem C68_block (nv : Bool) (fn : Str) (A W B : List Str) (f g : Ast.File) (hA : Between nv fn A) (hg : Complete nv fn W g)
    (hn : B ≠ []) (hW : ∀ l, W.head? = some l → afterBackslash l = none)
    (hB : ∀ l, B.head? = some l → afterBackslash l = none)
    (h : parseFileLines nv fn (A ++ B) = some ⟨some f, none⟩) (h1 : NamesApart f.body g.body) (h2 : NamesApart g.body f.body)
    (a b : List Ast.Stmt) (s : Ast.Stmt) (e : Ast.EndCmd) (hf : f.body = a ++ s :: b) (he : endOf s = some e)
    (hs : (stmtPos s).line ≤ A.length) (hl : A.length < e.pos.line) :
    ∃ s', parseFileLines nv fn (A ++ W ++ B) = some ⟨some ⟨startNest A W f g,
        Ast.Stmt.onPosL (spread A W B) a ++ s' :: Ast.Stmt.onPosL (spread A W B) b⟩, none⟩ ∧
      IntoS (Ast.Stmt.onPosL (shift A W) g.body) (s.onPos (spread A W B)) s' := by
  obtain ⟨ss, h3, h4⟩ := C68_tree nv fn A W B f g hA hg hn hW hB h h1 h2
  rw [hf, onPosS_append, Ast.Stmt.onPosL] at h4
  have he' : endOf (s.onPos (spread A W B)) = some (e.onPos (spread A W B)) := by rw [endOf_onPos, he]; rfl
  have hne : endOf (s.onPos (spread A W B)) ≠ none := by rw [he']; simp
  cases hws : g.body with
  | nil =>
    rw [hws] at h4
    rw [← h4.same] at h3
    exact ⟨_, h3, intoS_refl hne⟩
  | cons w0 l0 =>
    have hw0 : w0 ∈ g.body := by rw [hws]; simp
    have hw := (mem_onPosL (shift A W)).2 ⟨w0, hw0, rfl⟩
    have hlw : A.length < (stmtPos (w0.onPos (shift A W))).line ∧
        (stmtPos (w0.onPos (shift A W))).line ≤ A.length + W.length := by
      obtain ⟨b1, b2⟩ := complete_lines hg w0 hw0
      rw [stmtPos_onPos]
      show _ < (stmtPos w0).line + A.length ∧ (stmtPos w0).line + A.length ≤ _
      omega
    have hls : (stmtPos (s.onPos (spread A W B))).line ≤ A.length := by
      rw [stmtPos_onPos, spread, if_pos hs]
      exact hs
    have hle : A.length + W.length < (e.onPos (spread A W B)).pos.line := by
      show _ < (spread A W B e.pos).line
      rw [spread, if_neg (by omega)]
      show _ < e.pos.line + W.length
      omega
    obtain ⟨used, h5, _⟩ := (C52_lines ..).1 h3
    obtain ⟨⟨l, h6, h7⟩, _⟩ := body_order h5
    have h8 := track_le h7 (List.suffix_refl _)
    rw [← hws]
    rcases into_split h4 with ⟨s', rfl, h⟩ | ⟨p, rfl, h⟩ | ⟨q, rfl, h⟩
    · exact ⟨s', h3, h⟩
    · exfalso
      obtain ⟨l1, l2, l3, rfl, g1, g2, g3⟩ := written_split hne h6
      have m1 := (writtenL_mem g1 (into_part hw h)).1 _ (List.mem_cons_self ..)
      have m2 := (written_mem g2 (.inl rfl)).1 _ (List.mem_cons_self ..)
      have := (List.pairwise_append.1 h8).2.2 _ m1 _ (List.mem_append_left _ m2)
      rcases this with h | h <;> omega
    · exfalso
      obtain ⟨l1, l2, l3, rfl, g1, g2, g3⟩ := written_split hne h6
      have m1 := (writtenL_mem g3 (into_part hw h)).1 _ (List.mem_cons_self ..)
      have m2 := (written_mem g2 (.inl rfl)).1 (e.onPos (spread A W B)).pos (by simp [stmtOwnPos, he'])
      have := (List.pairwise_append.1 (List.pairwise_append.1 h8).2.1).2.2 _ m2 _ m1
      rcases this with h | h <;> omega

theorem into_nil {ws ss : List Ast.Stmt} (h : Into ws [] ss) : ss = ws := by
  generalize e : ([] : List Ast.Stmt) = t at h
  cases h with
  | here a b =>
    obtain ⟨rfl, rfl⟩ := List.append_eq_nil_iff.1 e.symm
    simp
  | sub a b h => simp at e

/-- C68.  A whole script as the body of a block: if the lines `A ++ B` are one block without statements in it, then with `W`
between them they are the block with the statements of `W` as its body. -/
theorem C68_wrap (nv : Bool) (fn : Str) (A W B : List Str) (f g : Ast.File) (hA : Between nv fn A) (hg : Complete nv fn W g)
    (hn : B ≠ []) (hW : ∀ l, W.head? = some l → afterBackslash l = none)
    (hB : ∀ l, B.head? = some l → afterBackslash l = none)
    (h : parseFileLines nv fn (A ++ B) = some ⟨some f, none⟩) (h1 : NamesApart f.body g.body) (h2 : NamesApart g.body f.body)
    (s : Ast.Stmt) (e : Ast.EndCmd) (hf : f.body = [s]) (he : endOf s = some e) (hsub : subStmts s = [])
    (hs : (stmtPos s).line ≤ A.length) (hl : A.length < e.pos.line) :
    parseFileLines nv fn (A ++ W ++ B) = some ⟨some ⟨startNest A W f g,
      [withBody (Ast.Stmt.onPosL (shift A W) g.body) (s.onPos (spread A W B))]⟩, none⟩ := by
  obtain ⟨s', h3, h4⟩ := C68_block nv fn A W B f g hA hg hn hW hB h h1 h2 [] [] s e hf he hs hl
  have hsub : subStmts (s.onPos (spread A W B)) = [] := by rw [subStmts_onPos, hsub]; rfl
  have he' : endOf (s.onPos (spread A W B)) ≠ none := by rw [endOf_onPos, he]; simp
  rw [h3]
  have : s' = withBody (Ast.Stmt.onPosL (shift A W) g.body) (s.onPos (spread A W B)) := by
    generalize s.onPos (spread A W B) = t at *
    cases h4 with
    | function h => cases hsub; rw [into_nil h]; rfl
    | while_ h => cases hsub; rw [into_nil h]; rfl
    | for_ h => cases hsub; rw [into_nil h]; rfl
    | if_ h =>
      simp only [subStmts, List.append_eq_nil_iff] at hsub
      obtain ⟨⟨rfl, _⟩, _⟩ := hsub
      rw [into_nil h]; rfl
    | try_ h =>
      simp only [subStmts, List.append_eq_nil_iff] at hsub
      obtain ⟨⟨rfl, _⟩, _⟩ := hsub
      rw [into_nil h]; rfl
    | elseIfs h => simp [subStmts] at hsub
    | elsePart h => simp [subStmts] at hsub
    | catches h => simp [subStmts] at hsub
    | finallyPart h => simp [subStmts] at hsub
    | _ => exact absurd rfl he'
  rw [this]
  rfl

theorem noErr_iff (nv : Bool) (fn : Str) (L : List Str) :
    (∃ f, parseFileLines nv fn L = some ⟨some f, none⟩) ↔ (parseFileLines nv fn L).bind (·.err) = none := by
  constructor
  · rintro ⟨f, h⟩
    rw [h]
    rfl
  · intro he
    rcases C55_total nv fn L with ⟨g, h⟩ | ⟨m, q, h⟩ | h
    · exact ⟨g, (C52_lines ..).2 h⟩
    · rw [(C54_lines nv fn L none fn q.i q.lnum q.col m).2 ⟨rfl, rfl, q, rfl, rfl, rfl, h⟩] at he
      cases he
    · rw [(other_lines nv fn L none).2 ⟨rfl, h⟩] at he
      cases he

/-- C68.  The file is accepted exactly if it is accepted without the script. -/
theorem C68_accepted (nv : Bool) (fn : Str) (A W B : List Str) (g : Ast.File) (hA : Between nv fn A) (hg : Complete nv fn W g)
    (hn : B ≠ []) (hW : ∀ l, W.head? = some l → afterBackslash l = none)
    (hB : ∀ l, B.head? = some l → afterBackslash l = none) :
    (∃ f, parseFileLines nv fn (A ++ W ++ B) = some ⟨some f, none⟩) ↔
      ∃ f, parseFileLines nv fn (A ++ B) = some ⟨some f, none⟩ := by
  rw [noErr_iff, noErr_iff, C68_error nv fn A W B g hA hg hn hW hB]
  simp

theorem commentsAt_append (fn : Str) : ∀ (V W A : List Str), commentsAt fn A (V ++ W) = commentsAt fn A V ++ commentsAt fn (A ++ V) W
  | [], W, A => by simp [commentsAt]
  | l :: V, W, A => by
    rw [List.cons_append, commentsAt, commentsAt_append fn V, commentsAt, List.append_assoc, List.append_assoc]
    rfl

/-- Blank lines and comment lines are a whole script. -/
theorem quiet_complete (nv : Bool) (fn : Str) (hW : ∀ l ∈ W, Quiet l) :
    ∃ p, Complete nv fn W ⟨p, commentsAt fn [] W⟩ := by
  have h : ∀ l ∈ W ++ [commentLine], Quiet l := by
    intro l hl
    rcases List.mem_append.1 hl with hl | hl
    · exact hW l hl
    · rw [List.mem_singleton.1 hl]
      exact .inr ⟨[], rfl⟩
  have := (C52_lines ..).2 (quiet_script (nv := nv) (fn := fn) h)
  rw [commentsAt_append] at this
  exact ⟨_, this⟩

/-- C65.  If the place is inside a block of the file, the comments come in inside this block. -/
theorem C65_block (nv : Bool) (fn : Str) (A W B : List Str) (f : Ast.File) (hA : Between nv fn A) (hW : ∀ l ∈ W, Quiet l)
    (hn : B ≠ []) (hB : ∀ l, B.head? = some l → afterBackslash l = none)
    (h : parseFileLines nv fn (A ++ B) = some ⟨some f, none⟩)
    (a b : List Ast.Stmt) (s : Ast.Stmt) (e : Ast.EndCmd) (hf : f.body = a ++ s :: b) (he : endOf s = some e)
    (hs : (stmtPos s).line ≤ A.length) (hl : A.length < e.pos.line) :
    ∃ p s', parseFileLines nv fn (A ++ W ++ B) = some ⟨some ⟨p,
        Ast.Stmt.onPosL (spread A W B) a ++ s' :: Ast.Stmt.onPosL (spread A W B) b⟩, none⟩ ∧
      IntoS (commentsAt fn A W) (s.onPos (spread A W B)) s' := by
  obtain ⟨p, hg⟩ := quiet_complete nv fn hW
  obtain ⟨s', h1, h2⟩ := C68_block nv fn A W B f _ hA hg hn (Quiet.heads hW) hB h (fun n _ _ _ => no_user_comments _ _)
    (fun n _ _ h => absurd h (no_user_comments _ _)) a b s e hf he hs hl
  rw [comments_shift W (noCont_line fun l hl => quiet_none (hW l hl)), List.append_nil] at h2
  exact ⟨_, s', h1, h2⟩

/-- C68 at the end of a file.  If a block is open behind the lines `A`, then `A` and `A ++ W` are both rejected with the same
message at the end of the file; otherwise `A` is a whole script (see C61). -/
theorem C68_end (nv : Bool) (fn : Str) (A W : List Str) (g : Ast.File) (hA : Between nv fn A) (hg : Complete nv fn W g)
    (hW : ∀ l, W.head? = some l → afterBackslash l = none) :
    (∃ f, Complete nv fn A f) ∨
    ∃ m, parseFileLines nv fn A = some ⟨none, some (.parse fn (readLen A) (A.length + 1) 0 m)⟩ ∧
      parseFileLines nv fn (A ++ W) = some ⟨none, some (.parse fn (readLen (A ++ W)) (A.length + W.length + 1) 0 m)⟩ := by
  obtain ⟨cx, b, h⟩ := between_fronts hA
  cases b with
  | none =>
    left
    have hq : ∀ l ∈ [commentLine], Quiet l := by
      intro l hl
      rw [List.mem_singleton.1 hl]
      exact .inr ⟨[], rfl⟩
    obtain ⟨u3, h3⟩ := h [commentLine] (Quiet.heads hq)
    obtain ⟨rfl, ss, h4⟩ := front_none h3 rfl
    have h5 := Body.append h4 (quiet_here (mkEnv (A ++ [commentLine])) hq { top := true } u3)
    exact ⟨⟨_, ss⟩, (C52_lines ..).2 ⟨u3, h5, rfl⟩⟩
  | some b =>
    right
    obtain ⟨u1, h1⟩ := h [] (by simp)
    obtain ⟨u2, h2⟩ := h W hW
    rw [List.append_nil] at h1
    obtain ⟨U, _, hn⟩ := nest_body hg
    obtain ⟨_, _, h3⟩ := hn A [] (mkEnv (A ++ W)) cx [] (fun _ h => by cases h) (fun _ _ _ h => by cases h)
    rw [List.append_nil] at h3
    obtain ⟨_, _, h3⟩ := body_any h3 u2
    have h2 := h2.lines h3
    obtain ⟨m, hm⟩ : ∃ m, Unclosed b m := by
      cases b
      · exact ⟨_, .function⟩
      · exact ⟨_, .while_⟩
      · exact ⟨_, .for_⟩
      · exact ⟨_, .if_ (.inl (.inl rfl))⟩
      · exact ⟨_, .if_ (.inl (.inr rfl))⟩
      · exact ⟨_, .if_ (.inr rfl)⟩
      · exact ⟨_, .try_ (.inl (.inl rfl))⟩
      · exact ⟨_, .try_ (.inl (.inr rfl))⟩
      · exact ⟨_, .try_ (.inr rfl)⟩
    refine ⟨m, (C54_lines ..).2 ⟨rfl, rfl, _, readLen_eq A, rfl, rfl, .unclosed h1 hm⟩,
      (C54_lines ..).2 ⟨rfl, rfl, _, readLen_eq _, ?_, rfl, .unclosed h2 hm⟩⟩
    show _ = (A ++ W).length + 1
    simp

/-! ### Examples -/

/-- A script with blocks, functions, here-documents, continuation lines and user commands. -/
def nestW : List Str := [cs!"function! s:g(a)", cs!"  return a:a +", cs!"    \\ 1", cs!"endfunction", cs!"let z =<< E", cs!"endif", cs!"E",
  cs!"Bar", cs!"while 1 | break | endwhile"]

/-- In a function, in an `:if`. -/
example : Between false cs!"f" insA ∧ isComplete false cs!"f" nestW = true ∧
    errOf (parseFileLines false cs!"f" (insA ++ insB)) = none :=
  ⟨between_of (o := 39) (by decide +kernel), by decide +kernel, by decide +kernel⟩

/-- Numbers of statements, with those in blocks one level down. -/
def outlineSizes (r : Option (ApiRes Ast.File)) : Option (List (Nat × List Nat)) :=
  (r.bind (·.node)).map fun f => f.body.map fun s => ((subStmts s).length, (subStmts s).map fun x => (subStmts x).length)

example : outlineSizes (parseFileLines false cs!"f" nestW) = some [(1, [0]), (0, []), (0, []), (1, [0])] ∧
    outlineSizes (parseFileLines false cs!"f" (insA ++ insB)) = some [(1, [3])] ∧
    outlineSizes (parseFileLines false cs!"f" (insA ++ nestW ++ insB)) = some [(1, [7])] := by decide +kernel

/-- Any whole script in an `:if`. -/
example (W : List Str) (g : Ast.File) (hg : Complete false [] W g) (hW : ∀ l, W.head? = some l → afterBackslash l = none) :
    ∃ p ea x e, parseFileLines false [] ([cs!"if x"] ++ W ++ [cs!"endif"]) =
      some ⟨some ⟨p, [.if_ ⟨0, 1, 1, []⟩ ea (Ast.Stmt.onPosL (shift [cs!"if x"] W) g.body) x [] none e]⟩, none⟩ := by
  have h : (match parseFileLines false [] ([cs!"if x"] ++ [cs!"endif"]) with
    | some ⟨some ⟨_, [.if_ p _ [] _ [] none e]⟩, none⟩ => p = ⟨0, 1, 1, []⟩ && decide (1 < e.pos.line)
    | _ => false) = true := by decide +kernel
  have h' : (match parseFileLines false [] ([cs!"if x"] ++ [cs!"endif"]) with
    | some ⟨some f, none⟩ => plain f.body
    | _ => false) = true := by decide +kernel
  split at h
  · rename_i p q ea x e hf
    rw [hf] at h'
    simp only [Bool.and_eq_true, decide_eq_true_eq] at h
    obtain ⟨rfl, he⟩ := h
    have no := noUser_plain h'
    exact ⟨_, _, _, _, C68_wrap false [] [cs!"if x"] W [cs!"endif"] _ g (between_of (o := 5) (by decide +kernel)) hg (by simp) hW
      (by intro l h; cases h; decide) hf (fun n _ _ h => absurd h (no n)) (fun _ _ _ _ => no _) _ e rfl rfl rfl
      (Nat.le_refl 1) he⟩
  · cases h

/-- Rejected files: the same message, nine lines further down. -/
example : Between false cs!"f" [cs!"try", cs!"catch /e/"] ∧
    errOf (parseFileLines false cs!"f" ([cs!"try", cs!"catch /e/"] ++ [cs!"echo", cs!"endif"])) =
      some (.parse cs!"f" 19 4 1 cs!"E580: :endif without :if") ∧
    errOf (parseFileLines false cs!"f" ([cs!"try", cs!"catch /e/"] ++ nestW ++ [cs!"echo", cs!"endif"])) =
      some (.parse cs!"f" (19 + readLen nestW) 13 1 cs!"E580: :endif without :if") :=
  ⟨between_of (o := 14) (by decide +kernel), by decide +kernel, by decide +kernel⟩

/-- What is accepted inside of a block need not be accepted as a script, so the script must be whole: `:break` is not, and `:finish`
ends a script, but not at a place inside a block. -/
example : isComplete false [] [cs!"break"] = false ∧ isComplete false [] [cs!"finish"] = false ∧
    errOf (parseFileLines false [] ([cs!"while 1"] ++ [cs!"break", cs!"finish"] ++ [cs!"endwhile"])) = none := by decide +kernel

/-- Both conditions on the names of user commands are needed for the statements to be the same. -/
example : namesIn (parseFileLines false [] ([cs!"echo"] ++ [cs!"Foo2"])) = some [cs!"echo", cs!"Foo2"] ∧
    namesIn (parseFileLines false [] ([cs!"echo"] ++ [cs!"Foo"] ++ [cs!"Foo2"])) = some [cs!"echo", cs!"Foo", cs!"Foo"] ∧
    namesIn (parseFileLines false [] ([cs!"Foo"] ++ [cs!"echo"])) = some [cs!"Foo", cs!"echo"] ∧
    namesIn (parseFileLines false [] ([cs!"Foo"] ++ [cs!"Foo2"] ++ [cs!"echo"])) = some [cs!"Foo", cs!"Foo", cs!"echo"] := by
  decide +kernel

end Props
end Viml
