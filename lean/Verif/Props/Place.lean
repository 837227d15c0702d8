/-
C84: the tree shows where a file can be cut.
-/
import Verif.Lemmas.Place
import Verif.Props.Modify
import Verif.Props.Nest
import Verif.Props.ConcatError

namespace Viml
open Spec

variable {p q : Ast.Pos} {m : Modifier} {w : Str}

theorem commandAt_self {s : Ast.Stmt} (h : RecordAt s p) : CommandAt [s] p := ⟨s, .mem (by simp), h⟩

theorem commandAt_sub {s : Ast.Stmt} {ss : List Ast.Stmt} (h : CommandAt ss p) (hs : ∀ x ∈ ss, x ∈ subStmts s) : CommandAt [s] p := by
  obtain ⟨x, h1, h2⟩ := h
  exact ⟨x, .sub (List.mem_singleton.2 rfl) (h1.mono hs), h2⟩

theorem recMod_at {n ea ea'} (h : RecMod p q m n ea ea') (hn : n ≠ 0) : ea.linepos = p := by
  cases h with
  | same => exact absurd rfl hn
  | mod h => exact h

mutual

theorem modded_at {n s s'} : Modded p q m w n s s' → n ≠ 0 → CommandAt [s] p
  | .same _, hn => absurd rfl hn
  | .simple (ea := ea) h1 h2, _ => by
    refine commandAt_self (.inl ⟨ea, ?_, h2⟩)
    cases s <;> first | exact h1 | (cases h1; done)
  | .function (i := i) (j := j) (k := k) h1 h2 h3, hn => by
    by_cases hi : i = 0
    · by_cases hj : j = 0
      · exact commandAt_self (.inr ⟨_, rfl, recMod_at h3 (by omega)⟩)
      · exact commandAt_sub (moddedL_at h2 hj) (by simp [subStmts])
    · exact commandAt_self (.inl ⟨_, rfl, recMod_at h1 hi⟩)
  | .while_ (i := i) (j := j) (k := k) h1 h2 h3, hn => by
    by_cases hi : i = 0
    · by_cases hj : j = 0
      · exact commandAt_self (.inr ⟨_, rfl, recMod_at h3 (by omega)⟩)
      · exact commandAt_sub (moddedL_at h2 hj) (by simp [subStmts])
    · exact commandAt_self (.inl ⟨_, rfl, recMod_at h1 hi⟩)
  | .for_ (i := i) (j := j) (k := k) h1 h2 h3, hn => by
    by_cases hi : i = 0
    · by_cases hj : j = 0
      · exact commandAt_self (.inr ⟨_, rfl, recMod_at h3 (by omega)⟩)
      · exact commandAt_sub (moddedL_at h2 hj) (by simp [subStmts])
    · exact commandAt_self (.inl ⟨_, rfl, recMod_at h1 hi⟩)
  | .if_ (i := i) (j := j) (k := k) (l := l) (o := o) h1 h2 h3 h4 h5, hn => by
    by_cases hi : i = 0
    · by_cases hj : j = 0
      · by_cases hk : k = 0
        · by_cases hl : l = 0
          · exact commandAt_self (.inr ⟨_, rfl, recMod_at h5 (by omega)⟩)
          · exact commandAt_sub (moddedL_at h4 hl) fun x hx => by simp only [subStmts, List.mem_append, hx, or_true]
        · exact commandAt_sub (moddedL_at h3 hk) fun x hx => by simp only [subStmts, List.mem_append, hx, or_true, true_or]
      · exact commandAt_sub (moddedL_at h2 hj) fun x hx => by simp only [subStmts, List.mem_append, hx, true_or]
    · exact commandAt_self (.inl ⟨_, rfl, recMod_at h1 hi⟩)
  | .try_ (i := i) (j := j) (k := k) (l := l) (o := o) h1 h2 h3 h4 h5, hn => by
    by_cases hi : i = 0
    · by_cases hj : j = 0
      · by_cases hk : k = 0
        · by_cases hl : l = 0
          · exact commandAt_self (.inr ⟨_, rfl, recMod_at h5 (by omega)⟩)
          · exact commandAt_sub (moddedL_at h4 hl) fun x hx => by simp only [subStmts, List.mem_append, hx, or_true]
        · exact commandAt_sub (moddedL_at h3 hk) fun x hx => by simp only [subStmts, List.mem_append, hx, or_true, true_or]
      · exact commandAt_sub (moddedL_at h2 hj) fun x hx => by simp only [subStmts, List.mem_append, hx, true_or]
    · exact commandAt_self (.inl ⟨_, rfl, recMod_at h1 hi⟩)
  | .elseIf (i := i) (j := j) h1 h2, hn => by
    by_cases hi : i = 0
    · exact commandAt_sub (moddedL_at h2 (by omega)) (by simp [subStmts])
    · exact commandAt_self (.inl ⟨_, rfl, recMod_at h1 hi⟩)
  | .else_ (i := i) (j := j) h1 h2, hn => by
    by_cases hi : i = 0
    · exact commandAt_sub (moddedL_at h2 (by omega)) (by simp [subStmts])
    · exact commandAt_self (.inl ⟨_, rfl, recMod_at h1 hi⟩)
  | .catch_ (i := i) (j := j) h1 h2, hn => by
    by_cases hi : i = 0
    · exact commandAt_sub (moddedL_at h2 (by omega)) (by simp [subStmts])
    · exact commandAt_self (.inl ⟨_, rfl, recMod_at h1 hi⟩)
  | .finally_ (i := i) (j := j) h1 h2, hn => by
    by_cases hi : i = 0
    · exact commandAt_sub (moddedL_at h2 (by omega)) (by simp [subStmts])
    · exact commandAt_self (.inl ⟨_, rfl, recMod_at h1 hi⟩)

theorem moddedL_at {n ss ss'} : ModdedL p q m w n ss ss' → n ≠ 0 → CommandAt ss p
  | .nil, hn => absurd rfl hn
  | .cons (i := i) (j := j) h1 h2, hn => by
    by_cases hi : i = 0
    · obtain ⟨x, h3, h4⟩ := moddedL_at h2 (by omega)
      exact ⟨x, h3.mono fun _ h => List.mem_cons_of_mem _ h, h4⟩
    · obtain ⟨x, h3, h4⟩ := modded_at h1 hi
      exact ⟨x, h3.mono (by simp), h4⟩

end

theorem commandAt_of_onPos {g : Ast.Pos → Ast.Pos} {ss : List Ast.Stmt} (h : CommandAt (Ast.Stmt.onPosL g ss) p) :
    ∃ p', CommandAt ss p' ∧ g p' = p := by
  obtain ⟨y, h1, h2⟩ := h
  obtain ⟨x, h3, rfl⟩ := partS_of_onPos g h1 rfl
  rcases h2 with ⟨ea, e1, e2⟩ | ⟨e, e1, e2⟩
  · rw [exArgOf_onPos] at e1
    obtain ⟨a, e3, rfl⟩ := Option.map_eq_some_iff.1 e1
    exact ⟨a.linepos, ⟨x, h3, .inl ⟨a, e3, rfl⟩⟩, e2⟩
  · rw [Props.endOf_onPos] at e1
    obtain ⟨a, e3, rfl⟩ := Option.map_eq_some_iff.1 e1
    exact ⟨a.ea.linepos, ⟨x, h3, .inr ⟨a, e3, rfl⟩⟩, e2⟩

end Viml

namespace Viml.Props
open Spec

/-- C84.  If the tree of a file has a command, or the end of a block, whose line starts at the first text of the line `l`, then
before `l` is a place between statements. -/
theorem C84_place (nv : Bool) (fn : Str) (A : List Str) (l : Str) (B : List Str) (f : Ast.File) (p : Ast.Pos)
    (h : parseFileLines nv fn (A ++ l :: B) = some ⟨some f, none⟩) (hl : afterBackslash l = none) (hp : CommandAt f.body p)
    (h1 : p.line = A.length + 1) (h2 : p.column = bytes (lead l) + 1) : Between nv fn A := by
  obtain ⟨u, hb, _⟩ := (C52_lines ..).1 h
  obtain ⟨cx, b, used, r, r0, g1, g2, g3, rfl⟩ := body_place hb .start hp
  obtain rfl := front_restB hl g1 g2 g3 h1 h2
  exact front_between hl g1

/-- C84, the converse.  If before `l` is a place between statements and `l` starts with a command, then the tree has a command,
or the end of a block, whose line starts there. -/
theorem C84_shown (nv : Bool) (fn : Str) (A : List Str) (l : Str) (B : List Str) (f : Ast.File) (x : Str)
    (h : parseFileLines nv fn (A ++ l :: B) = some ⟨some f, none⟩) (hl : afterBackslash l = none) (hs : ¬ Shebang l B)
    (hb : Begins l) (hx : (logicalLines (l :: B)).head? = some x) (hd : ¬ Dropped x) (hA : Between nv fn A) :
    CommandAt f.body ⟨(fileBytes A).length, A.length + 1, 1, fn⟩ := by
  obtain ⟨ss, _, h1⟩ := C82_tree nv fn A cs!"silent " l B x _ f hA hl hs hb hx
    (.plain (d := []) (b := []) (k := cs!"silent") (b' := cs!" ") (by simp) (by simp [White]) (fun _ => rfl) (by decide)
      (show (cs!"silent", 3) ∈ vimModifiers by decide) (List.prefix_refl _) (by decide) (by simp [White, iswhite]) (by simp) rfl rfl
      (by intro c hc; simp at hc)) hd h
  obtain ⟨p', h2, h3⟩ := commandAt_of_onPos (moddedL_at h1 (by decide))
  suffices e : p' = ⟨(fileBytes A).length, A.length + 1, 1, fn⟩ from e ▸ h2
  obtain ⟨o, ln, c, n⟩ := p'
  simp only [indentBy] at h3
  split at h3
  · cases h3
    omega
  · split at h3
    · simp only [Ast.Pos.mk.injEq] at h3 ⊢
      refine ⟨by omega, h3.2.1, by omega, h3.2.2.2⟩
    · simp only [Ast.Pos.mk.injEq] at h3
      omega

/-- C84.  Of a line that starts with a command: a file can be cut before it if and only if the tree has a command, or the end of
a block, there. -/
theorem C84_iff (nv : Bool) (fn : Str) (A : List Str) (l : Str) (B : List Str) (f : Ast.File) (x : Str)
    (h : parseFileLines nv fn (A ++ l :: B) = some ⟨some f, none⟩) (hl : afterBackslash l = none) (hs : ¬ Shebang l B)
    (hb : Begins l) (hx : (logicalLines (l :: B)).head? = some x) (hd : ¬ Dropped x) :
    Between nv fn A ↔ CommandAt f.body ⟨(fileBytes A).length, A.length + 1, 1, fn⟩ := by
  refine ⟨C84_shown nv fn A l B f x h hl hs hb hx hd, fun hp => C84_place nv fn A l B f _ h hl hp rfl ?_⟩
  obtain ⟨c, t, rfl, h1, h2, _⟩ := hb
  have : lead (c :: t) = [] := by
    rw [lead, if_neg]
    rintro (rfl | rfl | rfl)
    · cases h1
    · cases h1
    · exact h2 rfl
  rw [this]
  rfl

/-- C84.  A file can be cut in two before each of its statements that starts a line: the lines before it are a whole script
with the statements before it, and the lines from it on are accepted.  The file has the statements of both. -/
theorem C84_cut (nv : Bool) (fn : Str) (A : List Str) (l : Str) (B : List Str) (f : Ast.File) (s : Ast.Stmt) (ea : Ast.ExArg)
    (h : parseFileLines nv fn (A ++ l :: B) = some ⟨some f, none⟩) (hl : afterBackslash l = none) (hs : s ∈ f.body)
    (he : exArgOf s = some ea) (h1 : ea.linepos.line = A.length + 1) (h2 : ea.linepos.column = bytes (lead l) + 1) :
    ∃ p ps ss g, Complete nv fn A ⟨p, ps⟩ ∧ f.body = ps ++ ss ∧ s ∈ ss ∧
      parseFileLines nv fn (l :: B) = some ⟨some g, none⟩ ∧
      ((∀ n t, t ≠ [] → UserCmd ps n → ¬ UserCmd g.body (n ++ t)) → ss = Ast.Stmt.onPosL (shift A (l :: B)) g.body) := by
  have hB : ∀ y, (l :: B).head? = some y → afterBackslash y = none := by rintro _ ⟨⟩; exact hl
  obtain ⟨u, hb, _⟩ := (C52_lines ..).1 h
  obtain ⟨ps, ss, used, r, r0, g1, g2, g3, g4, g5, g6⟩ := body_split ⟨ea, he, rfl⟩ hb hs
  obtain rfl := front_restB hl (.lines .start g3) g4 g5 (g6 ▸ h1) (g6 ▸ h2)
  obtain ⟨p, hc⟩ := body_upto hl g3
  obtain ⟨st, bd⟩ := f
  dsimp only at g1
  subst g1
  obtain ⟨g, hg⟩ := (C62_accepted nv fn A (l :: B) _ hc hB).1 ⟨st, ss, h⟩
  refine ⟨p, ps, ss, g, hc, rfl, g2, hg, fun hu => ?_⟩
  have := C61_append nv fn A (l :: B) _ g hc hg hB hu
  rw [h] at this
  simp only [Option.some.injEq, ApiRes.mk.injEq, Ast.File.mk.injEq, and_true] at this
  exact List.append_cancel_left this.2

/-! ### Examples -/

theorem not_between {nv : Bool} {fn : Str} {A : List Str} {ln c : Nat} {o : Nat} {m : Str}
    (h : errOf (parseFileLines nv fn (A ++ [cs!"xyzzy"])) = some (.parse fn o ln c m))
    (hm : m ≠ cs!"E492: Not an editor command: xyzzy") : ¬ Between nv fn A := by
  rintro ⟨n, o, e⟩
  rw [e] at h
  cases h
  exact hm rfl

/-- A statement of an accepted file whose line starts in the line `ln` and column `c`. -/
theorem statement_at {nv : Bool} {fn : Str} {lines : List Str} {ln c : Nat}
    (h : (parseFileLines nv fn lines).any (fun r => r.err.isNone && r.node.any fun f => f.body.any fun s =>
      (exArgOf s).any fun ea => ea.linepos.line == ln && ea.linepos.column == c) = true) :
    ∃ f s ea, parseFileLines nv fn lines = some ⟨some f, none⟩ ∧ s ∈ f.body ∧ exArgOf s = some ea ∧ ea.linepos.line = ln ∧
      ea.linepos.column = c := by
  match e : parseFileLines nv fn lines with
  | none => rw [e] at h; cases h
  | some ⟨none, er⟩ => rw [e] at h; simp at h
  | some ⟨some f, some er⟩ => rw [e] at h; simp at h
  | some ⟨some f, none⟩ =>
    rw [e] at h
    simp only [Option.any_some, Option.isNone_none, Bool.true_and, List.any_eq_true] at h
    obtain ⟨s, h1, h2⟩ := h
    cases he : exArgOf s with
    | none => rw [he] at h2; simp at h2
    | some ea =>
      rw [he] at h2
      simp only [Option.any_some, Bool.and_eq_true, beq_iff_eq] at h2
      exact ⟨f, s, ea, rfl, h1, he, h2.1, h2.2⟩

/-- A block with a here-document in it: the file can be cut before the `:let`, not before the text of the here-document. -/
def placeLines : List Str := [cs!"if x", cs!"let y =<< E", cs!"echo 1", cs!"E", cs!"endif"]

example : ∃ f, parseFileLines false cs!"f" placeLines = some ⟨some f, none⟩ ∧ CommandAt f.body ⟨5, 2, 1, cs!"f"⟩ ∧
    ¬ CommandAt f.body ⟨17, 3, 1, cs!"f"⟩ ∧ CommandAt f.body ⟨26, 5, 1, cs!"f"⟩ := by
  obtain ⟨f, s, ea, h, _⟩ := statement_at (nv := false) (fn := cs!"f") (lines := placeLines) (ln := 1) (c := 1) (by decide +kernel)
  have g1 := C84_iff false cs!"f" [cs!"if x"] cs!"let y =<< E" [cs!"echo 1", cs!"E", cs!"endif"] f cs!"let y =<< E" h (by decide)
    (notShebang (x := cs!"let y =<< E") (by decide +kernel) (by decide)) (begins_of (by decide)) (by decide +kernel) (notDropped_of (by decide))
  have g2 := C84_iff false cs!"f" [cs!"if x", cs!"let y =<< E"] cs!"echo 1" [cs!"E", cs!"endif"] f cs!"echo 1" h (by decide)
    (notShebang (x := cs!"echo 1") (by decide +kernel) (by decide)) (begins_of (by decide)) (by decide +kernel) (notDropped_of (by decide))
  have g3 := C84_iff false cs!"f" [cs!"if x", cs!"let y =<< E", cs!"echo 1", cs!"E"] cs!"endif" [] f cs!"endif" h (by decide)
    (notShebang (x := cs!"endif") (by decide +kernel) (by decide)) (begins_of (by decide)) (by decide +kernel) (notDropped_of (by decide))
  have e1 : (fileBytes [cs!"if x"]).length = 5 := by decide +kernel
  have e2 : (fileBytes [cs!"if x", cs!"let y =<< E"]).length = 17 := by decide +kernel
  have e3 : (fileBytes [cs!"if x", cs!"let y =<< E", cs!"echo 1", cs!"E"]).length = 26 := by decide +kernel
  rw [e1] at g1
  rw [e2] at g2
  rw [e3] at g3
  refine ⟨f, h, g1.1 (between_of (o := 5) (by decide +kernel)), fun hp => ?_, g3.1 (between_of (o := 26) (by decide +kernel))⟩
  exact not_between (o := 23) (ln := 4) (c := 0) (m := cs!"E990: Missing end marker 'E'") (by decide +kernel) (by decide) (g2.2 hp)

/-- A statement behind blanks and a colon, after a continuation line. -/
example : ∃ f p ps ss g, parseFileLines false [] [cs!"let x = [1,", cs!"  \\ 2]", cs!" :echo x", cs!"call F()"] = some ⟨some f, none⟩ ∧
    Complete false [] [cs!"let x = [1,", cs!"  \\ 2]"] ⟨p, ps⟩ ∧ f.body = ps ++ ss ∧
    parseFileLines false [] [cs!" :echo x", cs!"call F()"] = some ⟨some g, none⟩ := by
  obtain ⟨f, s, ea, h, h1, h2, h3, h4⟩ := statement_at (nv := false) (fn := [])
    (lines := [cs!"let x = [1,", cs!"  \\ 2]", cs!" :echo x", cs!"call F()"]) (ln := 3) (c := 3) (by decide +kernel)
  obtain ⟨p, ps, ss, g, g1, g2, _, g3, _⟩ := C84_cut false [] [cs!"let x = [1,", cs!"  \\ 2]"] cs!" :echo x" [cs!"call F()"] f s ea h
    (by decide) h1 h2 h3 h4
  exact ⟨f, p, ps, ss, g, h, g1, g2, g3⟩

end Viml.Props
