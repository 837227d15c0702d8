/-
C85: statements can be deleted.
-/
import Verif.Props.Place
import Verif.Props.Permute
import Verif.Props.InsertEnd

namespace Viml.Props
open Spec

variable {nv : Bool} {fn : Str} {A W : List Str}

theorem head_cons {l : Str} {B : List Str} (hl : afterBackslash l = none) : ∀ y, (l :: B).head? = some y → afterBackslash y = none := by
  rintro _ ⟨⟩
  exact hl

/-- An accepted file whose end is a place between statements is a whole script. -/
theorem complete_of_between {f : Ast.File} (h : Between nv fn W) (hf : parseFileLines nv fn W = some ⟨some f, none⟩) :
    ∃ p, Complete nv fn W ⟨p, f.body⟩ := by
  rcases C65_end nv fn W [commentLine] h (by intro l hl; rw [List.mem_singleton.1 hl]; exact .inr ⟨[], rfl⟩) with
    ⟨p, p', ss, h1, h2, _⟩ | ⟨m, h1, _⟩
  · rw [hf] at h1
    cases h1
    exact ⟨p', h2⟩
  · rw [hf] at h1
    cases h1

/-- Behind a whole script: the end of more lines is a place between statements only if it is one of these lines. -/
theorem between_tail {g : Ast.File} (hA : Complete nv fn A g) (hW : ∀ l, W.head? = some l → afterBackslash l = none)
    (h : Between nv fn (A ++ W)) : Between nv fn W := by
  obtain ⟨n, o, h⟩ := h
  have hX : ∀ l, (W ++ [cs!"xyzzy"]).head? = some l → afterBackslash l = none := by
    cases W with
    | nil => rintro _ ⟨⟩; decide +kernel
    | cons x W => exact hW
  have e := C62_error nv fn A (W ++ [cs!"xyzzy"]) g hA hX
  rw [← List.append_assoc, h] at e
  cases e1 : parseFileLines nv fn (W ++ [cs!"xyzzy"]) with
  | none => rw [e1] at e; cases e
  | some r =>
    obtain ⟨n', er⟩ := r
    rw [e1] at e
    match er, e with
    | some (.parse fn' o' l c m), e =>
      simp only [Option.bind_some, Option.map_some, errBehind, Option.some.injEq, ApiErr.parse.injEq, List.length_append] at e
      obtain ⟨rfl, -, e2, rfl, rfl⟩ := e
      obtain rfl : l = W.length + 1 := by omega
      exact ⟨n', o', e1⟩

/-- C85.  Lines of an accepted file from one statement to before another are a whole script (see C61, C68 and C83 for what this
means). -/
theorem C85_whole (nv : Bool) (fn : Str) (A : List Str) (l : Str) (W : List Str) (l' : Str) (B : List Str) (f : Ast.File)
    (s s' : Ast.Stmt) (ea ea' : Ast.ExArg)
    (h : parseFileLines nv fn (A ++ (l :: W ++ l' :: B)) = some ⟨some f, none⟩)
    (hl : afterBackslash l = none) (hl' : afterBackslash l' = none)
    (hs : s ∈ f.body) (he : exArgOf s = some ea) (h1 : ea.linepos.line = A.length + 1) (h2 : ea.linepos.column = bytes (lead l) + 1)
    (hs' : s' ∈ f.body) (he' : exArgOf s' = some ea') (h1' : ea'.linepos.line = A.length + W.length + 2)
    (h2' : ea'.linepos.column = bytes (lead l') + 1) :
    ∃ p ps p' ws ms ss g, Complete nv fn A ⟨p, ps⟩ ∧ Complete nv fn (l :: W) ⟨p', ws⟩ ∧
      parseFileLines nv fn (l' :: B) = some ⟨some g, none⟩ ∧ f.body = ps ++ ms ++ ss ∧ s' ∈ ss ∧
      ((∀ n t, t ≠ [] → UserCmd ps n → ¬ UserCmd ws (n ++ t)) → ms = Ast.Stmt.onPosL (shift A (l :: W)) ws) ∧
      ((∀ n t, t ≠ [] → UserCmd (ps ++ ms) n → ¬ UserCmd g.body (n ++ t)) →
        ss = Ast.Stmt.onPosL (shift (A ++ l :: W) (l' :: B)) g.body) := by
  obtain ⟨p, ps, xs, g1, a1, a2, a3, a4, _⟩ := C84_cut nv fn A l (W ++ l' :: B) f s ea h hl hs he h1 h2
  have h0 := h
  rw [← List.append_assoc] at h0
  have hp' : ea'.linepos.line = (A ++ l :: W).length + 1 := by rw [h1']; simp; omega
  obtain ⟨q, ps', ss, g, b1, b2, b3, b4, b5⟩ := C84_cut nv fn (A ++ l :: W) l' B f s' ea' h0 hl' hs' he' hp' h2'
  have hb : Between nv fn (l :: W) := between_tail a1 (head_cons hl)
    (C84_place nv fn (A ++ l :: W) l' B f _ h0 hl' ⟨s', .mem hs', .inl ⟨ea', he', rfl⟩⟩ hp' h2')
  obtain ⟨q', c1, _⟩ := C61_alone nv fn _ _ b1
  have c2 : (parseFileLines nv fn (l :: W)).bind (·.err) = none := by
    have := C62_error nv fn A (l :: W) _ a1 (head_cons hl)
    rw [c1] at this
    exact Option.map_eq_none_iff.1 this.symm
  obtain ⟨⟨p0, ws⟩, c3⟩ := no_error_iff.2 c2
  obtain ⟨p', c4⟩ := complete_of_between hb c3
  obtain ⟨q2, ms, c5⟩ := (C62_accepted nv fn A (l :: W) _ a1 (head_cons hl)).2 ⟨_, c3⟩
  have e : ps' = ps ++ ms := by
    rw [c1] at c5
    cases c5
    rfl
  subst e
  refine ⟨p, ps, p', ws, ms, ss, g, a1, c4, b4, b2, b3, fun hc => ?_, b5⟩
  have c6 := C61_append nv fn A (l :: W) _ _ a1 c3 (head_cons hl) hc
  rw [c5] at c6
  simp only [Option.some.injEq, ApiRes.mk.injEq, Ast.File.mk.injEq, and_true] at c6
  exact List.append_cancel_left c6.2

/-- C85.  Statements of an accepted file can be deleted: without the lines from one statement to before another the file is
accepted, and it has the other statements, the same but for positions. -/
theorem C85_delete (nv : Bool) (fn : Str) (A : List Str) (l : Str) (W : List Str) (l' : Str) (B : List Str) (f : Ast.File)
    (s s' : Ast.Stmt) (ea ea' : Ast.ExArg)
    (h : parseFileLines nv fn (A ++ (l :: W ++ l' :: B)) = some ⟨some f, none⟩)
    (hl : afterBackslash l = none) (hl' : afterBackslash l' = none)
    (hs : s ∈ f.body) (he : exArgOf s = some ea) (h1 : ea.linepos.line = A.length + 1) (h2 : ea.linepos.column = bytes (lead l) + 1)
    (hs' : s' ∈ f.body) (he' : exArgOf s' = some ea') (h1' : ea'.linepos.line = A.length + W.length + 2)
    (h2' : ea'.linepos.column = bytes (lead l') + 1) :
    ∃ f' ps ms ss, parseFileLines nv fn (A ++ l' :: B) = some ⟨some f', none⟩ ∧ f.body = ps ++ ms ++ ss ∧
      (∃ p, Complete nv fn A ⟨p, ps⟩) ∧ s' ∈ ss ∧ (∀ g, parseFileLines nv fn (l' :: B) = some ⟨some g, none⟩ →
        NamesApart f.body g.body → noPos f'.body = noPos (ps ++ ss)) := by
  obtain ⟨p, ps, p', ws, ms, ss, g, a1, a2, a3, a4, a5, a6, a7⟩ :=
    C85_whole nv fn A l W l' B f s s' ea ea' h hl hl' hs he h1 h2 hs' he' h1' h2'
  obtain ⟨q, xs, b1⟩ := (C62_accepted nv fn A (l' :: B) _ a1 (head_cons hl')).2 ⟨g, a3⟩
  refine ⟨_, ps, ms, ss, b1, a4, ⟨p, a1⟩, a5, fun g' hg hn => ?_⟩
  rw [a3] at hg
  cases hg
  have up : ∀ {n}, UserCmd (ps ++ ms) n → UserCmd f.body n := by
    rintro n ⟨x, ea, k1, k2⟩
    exact ⟨x, ea, k1.mono fun y hy => by rw [a4]; exact List.mem_append_left _ hy, k2⟩
  have up' : ∀ {n}, UserCmd ps n → UserCmd f.body n := by
    rintro n ⟨x, ea, k1, k2⟩
    exact up ⟨x, ea, k1.mono fun y hy => List.mem_append_left _ hy, k2⟩
  rw [a7 fun n t ht hu => hn n t ht (up hu)]
  have b2 := C61_append nv fn A (l' :: B) _ _ a1 a3 (head_cons hl') fun n t ht hu => hn n t ht (up' hu)
  rw [b1] at b2
  simp only [Option.some.injEq, ApiRes.mk.injEq, Ast.File.mk.injEq, and_true] at b2
  show noPos (ps ++ xs) = _
  rw [b2.2]
  unfold noPos
  rw [onPosS_append, onPosS_append]
  congr 1
  exact (noPos_onPos _ g.body).trans (noPos_onPos _ g.body).symm

theorem unlines_append (a b : List Str) : unlines (a ++ b) = unlines a ++ unlines b := by
  simp [unlines]

/-- C85 for the compiler: what is printed for the lines before and behind is unchanged. -/
theorem C85_output (nv : Bool) (fn : Str) (A : List Str) (l : Str) (W : List Str) (l' : Str) (B : List Str) (f g : Ast.File)
    (s s' : Ast.Stmt) (ea ea' : Ast.ExArg)
    (h : parseFileLines nv fn (A ++ (l :: W ++ l' :: B)) = some ⟨some f, none⟩)
    (hl : afterBackslash l = none) (hl' : afterBackslash l' = none)
    (hs : s ∈ f.body) (he : exArgOf s = some ea) (h1 : ea.linepos.line = A.length + 1) (h2 : ea.linepos.column = bytes (lead l) + 1)
    (hs' : s' ∈ f.body) (he' : exArgOf s' = some ea') (h1' : ea'.linepos.line = A.length + W.length + 2)
    (h2' : ea'.linepos.column = bytes (lead l') + 1) (hg : parseFileLines nv fn (l' :: B) = some ⟨some g, none⟩)
    (hn : NamesApart f.body g.body) (hnl : ∀ y ∈ A ++ (l :: W ++ l' :: B), '\n' ∉ y) :
    ∃ f' e a m b, parseFileLines nv fn (A ++ l' :: B) = some ⟨some f', none⟩ ∧ parseFileLines nv fn A = some ⟨some e, none⟩ ∧
      Comp.compileFile f = .text (a ++ m ++ b) ∧ Comp.compileFile f' = .text (a ++ b) ∧
      Comp.compileFile e = .text a ∧ Comp.compileFile g = .text b := by
  obtain ⟨p, ps, p', ws, ms, ss, g', a1, a2, a3, a4, a5, a6, a7⟩ :=
    C85_whole nv fn A l W l' B f s s' ea ea' h hl hl' hs he h1 h2 hs' he' h1' h2'
  rw [hg] at a3
  cases a3
  have up : ∀ {n}, UserCmd (ps ++ ms) n → UserCmd f.body n := by
    rintro n ⟨x, ea, k1, k2⟩
    exact ⟨x, ea, k1.mono fun y hy => by rw [a4]; exact List.mem_append_left _ hy, k2⟩
  have up' : ∀ {n}, UserCmd ps n → UserCmd f.body n := by
    rintro n ⟨x, ea, k1, k2⟩
    exact up ⟨x, ea, k1.mono fun y hy => List.mem_append_left _ hy, k2⟩
  have e1 := a7 fun n t ht hu => hn n t ht (up hu)
  have b2 := C61_append nv fn A (l' :: B) _ _ a1 hg (head_cons hl') fun n t ht hu => hn n t ht (up' hu)
  obtain ⟨q, b3, _⟩ := C61_alone nv fn A _ a1
  have eb : linesL funcLine' 0 ss = linesL funcLine' 0 g.body := by rw [e1, linesL_pos]
  refine ⟨_, _, unlines (linesL funcLine' 0 ps), unlines (linesL funcLine' 0 ms), unlines (linesL funcLine' 0 g.body), b2, b3, ?_, ?_,
    compile_lines (f := ⟨q, ps⟩) b3 fun y hy => hnl y (by simp [hy]), compile_lines (f := g) (q := g.start) hg fun y hy => hnl y ?_⟩
  · rw [compile_lines (f := f) (q := f.start) h hnl, a4, linesL_append, linesL_append, unlines_append, unlines_append, eb]
  · rw [compile_lines (f := ⟨_, ps ++ Ast.Stmt.onPosL (shift A (l' :: B)) g.body⟩) b2 fun y hy => hnl y ?_]
    · show Comp.Out.text _ = _
      rw [linesL_append, unlines_append, linesL_pos]
    · rcases List.mem_append.1 hy with hy | hy
      · simp [hy]
      · exact List.mem_append_right _ (List.mem_append_right _ hy)
  · exact List.mem_append_right _ (List.mem_append_right _ hy)

/-- C85 for the last statements of a file. -/
theorem C85_last (nv : Bool) (fn : Str) (A : List Str) (l : Str) (B : List Str) (f : Ast.File) (s : Ast.Stmt) (ea : Ast.ExArg)
    (h : parseFileLines nv fn (A ++ l :: B) = some ⟨some f, none⟩) (hl : afterBackslash l = none) (hs : s ∈ f.body)
    (he : exArgOf s = some ea) (h1 : ea.linepos.line = A.length + 1) (h2 : ea.linepos.column = bytes (lead l) + 1) :
    ∃ p ps ss, parseFileLines nv fn A = some ⟨some ⟨p, ps⟩, none⟩ ∧ f.body = ps ++ ss ∧ s ∈ ss := by
  obtain ⟨p, ps, ss, g, a1, a2, a3, _⟩ := C84_cut nv fn A l B f s ea h hl hs he h1 h2
  obtain ⟨q, b1, _⟩ := C61_alone nv fn A _ a1
  exact ⟨q, ps, ss, b1, a2, a3⟩

/-- C85.  The statements can be replaced by those of a whole script. -/
theorem C85_replace (nv : Bool) (fn : Str) (A : List Str) (l : Str) (W : List Str) (l' : Str) (B : List Str) (V : List Str) (f : Ast.File)
    (s s' : Ast.Stmt) (ea ea' : Ast.ExArg)
    (h : parseFileLines nv fn (A ++ (l :: W ++ l' :: B)) = some ⟨some f, none⟩)
    (hl : afterBackslash l = none) (hl' : afterBackslash l' = none)
    (hs : s ∈ f.body) (he : exArgOf s = some ea) (h1 : ea.linepos.line = A.length + 1) (h2 : ea.linepos.column = bytes (lead l) + 1)
    (hs' : s' ∈ f.body) (he' : exArgOf s' = some ea') (h1' : ea'.linepos.line = A.length + W.length + 2)
    (h2' : ea'.linepos.column = bytes (lead l') + 1) (hV : Whole nv fn V) :
    ∃ f', parseFileLines nv fn (A ++ (V ++ l' :: B)) = some ⟨some f', none⟩ := by
  obtain ⟨p, ps, p', ws, ms, ss, g, a1, a2, a3, a4, a5, a6, a7⟩ :=
    C85_whole nv fn A l W l' B f s s' ea ea' h hl hl' hs he h1 h2 hs' he' h1' h2'
  obtain ⟨⟨v, hv⟩, hh⟩ := hV
  obtain ⟨q, xs, b1⟩ := (C62_accepted nv fn V (l' :: B) _ hv (head_cons hl')).2 ⟨g, a3⟩
  have hX : ∀ y, (V ++ l' :: B).head? = some y → afterBackslash y = none := by
    cases V with
    | nil => exact head_cons hl'
    | cons x V => exact hh
  obtain ⟨q2, ys, b2⟩ := (C62_accepted nv fn A (V ++ l' :: B) _ a1 hX).2 ⟨_, b1⟩
  exact ⟨_, b2⟩

/-! ### Examples -/

/-- The second statement, with its here-document and the comment behind it, can be deleted. -/
def delA : List Str := [cs!"let x = 1"]
def delW : List Str := [cs!"x", cs!"E", cs!"\" why"]
def delB : List Str := [cs!"  echo x"]

theorem two_statements {nv : Bool} {fn : Str} {lines : List Str} {l1 c1 l2 c2 : Nat}
    (h : (parseFileLines nv fn lines).any (fun r => r.err.isNone && r.node.any fun f =>
      (f.body.any fun s => (exArgOf s).any fun ea => ea.linepos.line == l1 && ea.linepos.column == c1) &&
      f.body.any fun s => (exArgOf s).any fun ea => ea.linepos.line == l2 && ea.linepos.column == c2) = true) :
    ∃ f s ea s' ea', parseFileLines nv fn lines = some ⟨some f, none⟩ ∧
      (s ∈ f.body ∧ exArgOf s = some ea ∧ ea.linepos.line = l1 ∧ ea.linepos.column = c1) ∧
      (s' ∈ f.body ∧ exArgOf s' = some ea' ∧ ea'.linepos.line = l2 ∧ ea'.linepos.column = c2) := by
  have h1 : (parseFileLines nv fn lines).any (fun r => r.err.isNone && r.node.any fun f => f.body.any fun s =>
      (exArgOf s).any fun ea => ea.linepos.line == l1 && ea.linepos.column == c1) = true := by
    cases e : parseFileLines nv fn lines with
    | none => rw [e] at h; cases h
    | some r =>
      obtain ⟨n, er⟩ := r
      rw [e] at h
      cases n <;> simp_all
  have h2 : (parseFileLines nv fn lines).any (fun r => r.err.isNone && r.node.any fun f => f.body.any fun s =>
      (exArgOf s).any fun ea => ea.linepos.line == l2 && ea.linepos.column == c2) = true := by
    cases e : parseFileLines nv fn lines with
    | none => rw [e] at h; cases h
    | some r =>
      obtain ⟨n, er⟩ := r
      rw [e] at h
      cases n <;> simp_all
  obtain ⟨f, s, ea, k1, k2⟩ := statement_at h1
  obtain ⟨f', s', ea', k1', k2'⟩ := statement_at h2
  rw [k1] at k1'
  cases k1'
  exact ⟨f, s, ea, s', ea', k1, k2, k2'⟩

example : ∃ f f' ps ms ss, parseFileLines false [] (delA ++ (cs!" let y =<< E" :: delW ++ cs!"call F()" :: delB)) = some ⟨some f, none⟩ ∧
    parseFileLines false [] (delA ++ cs!"call F()" :: delB) = some ⟨some f', none⟩ ∧ f.body = ps ++ ms ++ ss ∧ ss ≠ [] ∧
    noPos f'.body = noPos (ps ++ ss) := by
  obtain ⟨f, s, ea, s', ea', h, ⟨a1, a2, a3, a4⟩, b1, b2, b3, b4⟩ := two_statements (nv := false) (fn := [])
    (lines := delA ++ (cs!" let y =<< E" :: delW ++ cs!"call F()" :: delB)) (l1 := 2) (c1 := 2) (l2 := 6) (c2 := 1) (by decide +kernel)
  obtain ⟨f', ps, ms, ss, c1, c2, _, c3, c4⟩ := C85_delete false [] delA cs!" let y =<< E" delW cs!"call F()" delB f s s' ea ea' h (by decide)
    (by decide) a1 a2 a3 a4 b1 b2 b3 b4
  refine ⟨f, f', ps, ms, ss, h, c1, c2, List.ne_nil_of_mem c3, ?_⟩
  have hp : (parseFileLines false [] (cs!"call F()" :: delB)).any (fun r => r.err.isNone && r.node.any fun g => plain g.body) = true := by
    decide +kernel
  match e : parseFileLines false [] (cs!"call F()" :: delB), hp with
  | some ⟨some g, none⟩, hp => exact c4 g e fun n t _ _ => noUser_plain (by simpa using hp) _

/-- And replaced by a block. -/
example : ∃ f', parseFileLines false [] (delA ++ ([cs!"if x", cs!"endif"] ++ cs!"call F()" :: delB)) = some ⟨some f', none⟩ := by
  obtain ⟨f, s, ea, s', ea', h, ⟨a1, a2, a3, a4⟩, b1, b2, b3, b4⟩ := two_statements (nv := false) (fn := [])
    (lines := delA ++ (cs!" let y =<< E" :: delW ++ cs!"call F()" :: delB)) (l1 := 2) (c1 := 2) (l2 := 6) (c2 := 1) (by decide +kernel)
  exact C85_replace false [] delA cs!" let y =<< E" delW cs!"call F()" delB [cs!"if x", cs!"endif"] f s s' ea ea' h (by decide)
    (by decide) a1 a2 a3 a4 b1 b2 b3 b4 (whole_of (by decide +kernel) (by decide))

/-- The condition on names is needed for the tree: after `Foo`, `Foo2` is `Foo` with an argument. -/
example : namesIn (parseFileLines false [] [cs!"let x = 1", cs!"Foo", cs!"Foo2"]) = some [cs!"let", cs!"Foo", cs!"Foo"] ∧
    namesIn (parseFileLines false [] [cs!"let x = 1", cs!"Foo2"]) = some [cs!"let", cs!"Foo2"] := by decide +kernel

/-- Lines that start no statement cannot be deleted. -/
example : errOf (parseFileLines false [] [cs!"let x = [", cs!"\\ 1", cs!"\\ ]"]) = none ∧
    (errOf (parseFileLines false [] [cs!"let x = [", cs!"\\ 1"])).isSome = true := by decide +kernel

end Viml.Props
