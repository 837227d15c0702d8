/-
C86: a file falls into parts that can be combined freely.
-/
import Verif.Props.Delete
import Verif.Spec.Cut

namespace Viml.Props
open Spec

variable {nv : Bool} {fn : Str}

/-- The lists follow the lines `A`, and each of them starts with a statement of `f`. -/
inductive Cuts (f : Ast.File) : List Str → List (List Str) → Prop
  | nil {A} : Cuts f A []
  | cons {A l q qs} : startsHere f (A.length + 1) l = true → Cuts f (A ++ l :: q) qs → Cuts f A ((l :: q) :: qs)

theorem cutLines_flat (f : Ast.File) (n : Nat) (B : List Str) : (cutLines f n B).1 ++ (cutLines f n B).2.flatten = B := by
  induction B generalizing n with
  | nil => rfl
  | cons l ls ih =>
    rw [cutLines]
    split <;> simp [ih (n + 1)]

theorem cutLines_cuts (f : Ast.File) (A B : List Str) :
    Cuts f (A ++ (cutLines f (A.length + 1) B).1) (cutLines f (A.length + 1) B).2 := by
  induction B generalizing A with
  | nil => exact .nil
  | cons l ls ih =>
    have := ih (A ++ [l])
    rw [show (A ++ [l]).length + 1 = A.length + 1 + 1 by simp, List.append_assoc, List.singleton_append] at this
    rw [cutLines]
    split
    · rename_i h
      rw [List.append_nil]
      exact .cons h this
    · exact this

theorem startsHere_iff {f : Ast.File} {n : Nat} {l : Str} (h : startsHere f n l = true) : afterBackslash l = none ∧
    ∃ s ea, s ∈ f.body ∧ exArgOf s = some ea ∧ ea.linepos.line = n ∧ ea.linepos.column = bytes (lead l) + 1 := by
  unfold startsHere at h
  rw [Bool.and_eq_true, Option.isNone_iff_eq_none, List.any_eq_true] at h
  obtain ⟨h1, s, h2, h3⟩ := h
  cases e : exArgOf s with
  | none => rw [e] at h3; cases h3
  | some ea =>
    rw [e, Option.any_some, Bool.and_eq_true] at h3
    exact ⟨h1, s, ea, h2, e, by simpa using h3.1, by simpa using h3.2⟩

/-- The parts but the last are whole scripts, and the last is accepted. -/
theorem cuts_whole {f : Ast.File} {A : List Str} {ps : List (List Str)} (hc : Cuts f A ps)
    (h : parseFileLines nv fn (A ++ ps.flatten) = some ⟨some f, none⟩) :
    (∀ P ∈ ps.dropLast, Whole nv fn P) ∧ ∀ L ∈ ps.getLast?, (∃ g, parseFileLines nv fn L = some ⟨some g, none⟩) ∧
      ∀ l, L.head? = some l → afterBackslash l = none := by
  induction hc with
  | nil => exact ⟨by simp, by simp⟩
  | @cons A l q qs h1 h2 ih =>
    obtain ⟨k1, s, ea, k2, k3, k4, k5⟩ := startsHere_iff h1
    have ih := ih (by simpa using h)
    cases h2 with
    | nil =>
      refine ⟨by simp, ?_⟩
      rintro _ ⟨⟩
      rw [List.flatten_singleton] at h
      obtain ⟨_, _, _, g, _, _, _, hg, _⟩ := C84_cut nv fn A l q f s ea h k1 k2 k3 k4 k5
      exact ⟨⟨g, hg⟩, head_cons k1⟩
    | @cons _ l' q' qs' h3 h4 =>
      obtain ⟨m1, s', ea', m2, m3, m4, m5⟩ := startsHere_iff h3
      have h0 : parseFileLines nv fn (A ++ (l :: q ++ l' :: (q' ++ qs'.flatten))) = some ⟨some f, none⟩ := by simpa using h
      obtain ⟨_, _, p', ws, _, _, _, _, hw, _⟩ := C85_whole nv fn A l q l' (q' ++ qs'.flatten) f s s' ea ea' h0 k1 m1 k2 k3 k4 k5 m2 m3
        (by rw [m4]; simp; omega) m5
      refine ⟨?_, ih.2⟩
      intro P hP
      rw [List.dropLast_cons_cons, List.mem_cons] at hP
      rcases hP with rfl | hP
      · exact ⟨⟨_, hw⟩, head_cons k1⟩
      · exact ih.1 P hP

/-- C86.  An accepted file, cut before each line that starts with one of its statements: the parts but the last are whole
scripts, and the last is accepted. -/
theorem C86_parts (nv : Bool) (fn : Str) (W : List Str) (f : Ast.File) (A : List Str) (ps : List (List Str))
    (h : parseFileLines nv fn W = some ⟨some f, none⟩) (hW : ∀ l, W.head? = some l → afterBackslash l = none)
    (hc : cutLines f 1 W = (A, ps)) :
    (A :: ps).flatten = W ∧ (∀ P ∈ (A :: ps).dropLast, Whole nv fn P) ∧
      ∀ L ∈ (A :: ps).getLast?, (∃ g, parseFileLines nv fn L = some ⟨some g, none⟩) ∧
        ∀ l, L.head? = some l → afterBackslash l = none := by
  have h1 := cutLines_flat f 1 W
  have h2 := cutLines_cuts f [] W
  rw [hc] at h1
  rw [show ([] : List Str).length + 1 = 1 from rfl, hc, List.nil_append] at h2
  dsimp only at h1 h2
  refine ⟨h1, ?_⟩
  have h3 := cuts_whole (nv := nv) (fn := fn) h2 (h1 ▸ h)
  cases h2 with
  | nil =>
    refine ⟨by simp, ?_⟩
    rintro _ ⟨⟩
    rw [List.flatten_nil, List.append_nil] at h1
    subst h1
    exact ⟨⟨f, h⟩, hW⟩
  | @cons _ l q qs k1 k2 =>
    refine ⟨?_, h3.2⟩
    intro P hP
    rw [List.dropLast_cons_cons, List.mem_cons] at hP
    rcases hP with rfl | hP
    · obtain ⟨m1, s, ea, m2, m3, m4, m5⟩ := startsHere_iff k1
      have h0 : parseFileLines nv fn (P ++ l :: (q ++ qs.flatten)) = some ⟨some f, none⟩ := by
        have : P ++ l :: (q ++ qs.flatten) = W := by rw [← h1]; simp
        rw [this]
        exact h
      obtain ⟨_, _, _, _, hw, _⟩ := C84_cut nv fn P l _ f s ea h0 m1 m2 m3 m4 m5
      refine ⟨⟨_, hw⟩, fun y hy => hW y ?_⟩
      cases P with
      | nil => cases hy
      | cons x P => rw [← h1]; exact hy
    · exact h3.1 P hP

/-- Whole scripts before lines: the errors are those of the lines. -/
theorem wholes_err {B : List Str} {Qs : List (List Str)} (hq : ∀ Q ∈ Qs, Whole nv fn Q)
    (hB : ∀ l, B.head? = some l → afterBackslash l = none) :
    (∃ f, parseFileLines nv fn (Qs.flatten ++ B) = some ⟨some f, none⟩) ↔ ∃ f, parseFileLines nv fn B = some ⟨some f, none⟩ := by
  induction Qs with
  | nil => exact Iff.rfl
  | cons Q Qs ih =>
    obtain ⟨⟨g, hg⟩, hl⟩ := hq Q (by simp)
    have h1 : ∀ l, (Qs.flatten ++ B).head? = some l → afterBackslash l = none :=
      head_flatten (fun W h => (hq W (by simp [h])).2) hB
    rw [← ih fun Q h => hq Q (by simp [h]), List.flatten_cons, List.append_assoc, no_error_iff, no_error_iff,
      C62_error nv fn Q _ g hg h1, Option.map_eq_none_iff]

/-- C86.  The parts but the last can be combined freely: any list of them, in any order, with or without repetitions, is an
accepted file, and so it is with the last part behind it. -/
theorem C86_combine (nv : Bool) (fn : Str) (W : List Str) (f : Ast.File) (A : List Str) (ps : List (List Str))
    (h : parseFileLines nv fn W = some ⟨some f, none⟩) (hW : ∀ l, W.head? = some l → afterBackslash l = none)
    (hc : cutLines f 1 W = (A, ps)) (Qs : List (List Str)) (hQ : ∀ Q ∈ Qs, Q ∈ (A :: ps).dropLast) :
    (∃ f', parseFileLines nv fn Qs.flatten = some ⟨some f', none⟩) ∧
      ∀ L ∈ (A :: ps).getLast?, ∃ f', parseFileLines nv fn (Qs.flatten ++ L) = some ⟨some f', none⟩ := by
  obtain ⟨_, h1, h2⟩ := C86_parts nv fn W f A ps h hW hc
  refine ⟨?_, fun L hL => (wholes_err (fun Q hq => h1 Q (hQ Q hq)) (h2 L hL).2).2 (h2 L hL).1⟩
  have := (wholes_err (B := []) (fun Q hq => h1 Q (hQ Q hq)) (by simp)).2 ⟨⟨Spec.here (mkEnv []) fn [], []⟩, (C52_lines nv fn [] _).2 ⟨[], .nil, rfl⟩⟩
  rwa [List.append_nil] at this

theorem joined_names {l : List (List Str × Ast.File)} (h : WholeParts nv fn l) :
    ∃ g, Complete nv fn (joined l) g ∧ (noPos g.body = l.flatMap fun p => noPos p.2.body) ∧
      ∀ n, UserCmd g.body n → ∃ p ∈ l, UserCmd p.2.body n := by
  obtain ⟨g, h1, h2⟩ := C83_whole nv fn l h
  refine ⟨g, h1, h2, fun n hn => ?_⟩
  have hn := (userCmd_onPos fun _ => ⟨0, 0, 0, []⟩).2 hn
  change UserCmd (noPos g.body) n at hn
  rw [h2] at hn
  clear h1 h2 h
  induction l with
  | nil => exact absurd hn (noUser_nil n)
  | cons p l ih =>
    rw [List.flatMap_cons] at hn
    rcases userCmd_append hn with hn | hn
    · exact ⟨p, by simp, (userCmd_onPos _).1 hn⟩
    · obtain ⟨q, hq, h4⟩ := ih hn
      exact ⟨q, by simp [hq], h4⟩

theorem parts_behind {l : List (List Str × Ast.File)} (h : WholeParts nv fn l) {L : List Str} {g : Ast.File}
    (hg : parseFileLines nv fn L = some ⟨some g, none⟩) (hL : ∀ x, L.head? = some x → afterBackslash x = none)
    (ha : ∀ p ∈ l, NamesApart p.2.body g.body) :
    ∃ f', parseFileLines nv fn (joined l ++ L) = some ⟨some f', none⟩ ∧
      noPos f'.body = (l.flatMap fun p => noPos p.2.body) ++ noPos g.body := by
  obtain ⟨e, h1, h2, h3⟩ := joined_names h
  refine ⟨_, C61_append nv fn (joined l) L e g h1 hg hL fun n s hs hn => ?_, ?_⟩
  · obtain ⟨p, hp, hn⟩ := h3 n hn
    exact ha p hp n s hs hn
  · have e1 : noPos (Ast.Stmt.onPosL (shift (joined l) L) g.body) = noPos g.body := noPos_onPos ..
    unfold noPos at e1 h2 ⊢
    rw [onPosS_append, e1, h2]

/-- C86.  If no user command of a part has the name of one of another with something appended, then the combined file has the
statements of the parts, the same but for positions.  For `l` all parts but the last in their order, the combined file is the
file itself. -/
theorem C86_tree (nv : Bool) (fn : Str) (W : List Str) (f : Ast.File) (A : List Str) (ps : List (List Str))
    (h : parseFileLines nv fn W = some ⟨some f, none⟩) (hW : ∀ l, W.head? = some l → afterBackslash l = none)
    (hc : cutLines f 1 W = (A, ps)) (l : List (List Str × Ast.File))
    (hl : ∀ p ∈ l, p.1 ∈ (A :: ps).dropLast ∧ Complete nv fn p.1 p.2)
    (ha : l.Pairwise fun p q => NamesApart p.2.body q.2.body ∧ NamesApart q.2.body p.2.body)
    (L : List Str) (hL : L ∈ (A :: ps).getLast?) (g : Ast.File) (hg : parseFileLines nv fn L = some ⟨some g, none⟩)
    (hn : ∀ p ∈ l, NamesApart p.2.body g.body) :
    ∃ f', parseFileLines nv fn (joined l ++ L) = some ⟨some f', none⟩ ∧
      noPos f'.body = (l.flatMap fun p => noPos p.2.body) ++ noPos g.body := by
  obtain ⟨_, h1, h2⟩ := C86_parts nv fn W f A ps h hW hc
  exact parts_behind ⟨fun p hp => (hl p hp).2, fun p hp => (h1 p.1 (hl p hp).1).2, ha⟩ hg (h2 L hL).2 hn

/-- C86 for the compiler: the output of the combined file is the outputs of the parts. -/
theorem C86_output (nv : Bool) (fn : Str) (W : List Str) (f : Ast.File) (A : List Str) (ps : List (List Str))
    (h : parseFileLines nv fn W = some ⟨some f, none⟩) (hW : ∀ l, W.head? = some l → afterBackslash l = none)
    (hc : cutLines f 1 W = (A, ps)) (l : List (List Str × Ast.File))
    (hl : ∀ p ∈ l, p.1 ∈ (A :: ps).dropLast ∧ Complete nv fn p.1 p.2)
    (ha : l.Pairwise fun p q => NamesApart p.2.body q.2.body ∧ NamesApart q.2.body p.2.body)
    (L : List Str) (hL : L ∈ (A :: ps).getLast?) (g : Ast.File) (hg : parseFileLines nv fn L = some ⟨some g, none⟩)
    (hn : ∀ p ∈ l, NamesApart p.2.body g.body) (hnl : ∀ y ∈ W, '\n' ∉ y) :
    ∃ (f' : Ast.File) (out : List Str × Ast.File → Str) (o : Str), parseFileLines nv fn (joined l ++ L) = some ⟨some f', none⟩ ∧
      (∀ p ∈ l, Comp.compileFile p.2 = .text (out p)) ∧ Comp.compileFile g = .text o ∧
      Comp.compileFile f' = .text (l.flatMap out ++ o) := by
  obtain ⟨h0, h1, h2⟩ := C86_parts nv fn W f A ps h hW hc
  obtain ⟨f', k1, k2⟩ := C86_tree nv fn W f A ps h hW hc l hl ha L hL g hg hn
  have m1 : ∀ P ∈ A :: ps, ∀ y ∈ P, '\n' ∉ y := fun P hP y hy => hnl y (h0 ▸ List.mem_flatten.2 ⟨P, hP, hy⟩)
  have m2 : ∀ p ∈ l, ∀ y ∈ p.1, '\n' ∉ y := fun p hp => m1 p.1 ((List.dropLast_sublist _).subset (hl p hp).1)
  have m3 : ∀ y ∈ L, '\n' ∉ y := m1 L (List.mem_of_getLast? hL)
  refine ⟨f', fun p => unlines (linesL funcLine' 0 p.2.body), unlines (linesL funcLine' 0 g.body), k1, fun p hp => ?_,
    compile_lines (f := g) (q := g.start) hg m3, ?_⟩
  · obtain ⟨s', h4, _⟩ := C61_alone nv fn _ p.2 (hl p hp).2
    exact compile_lines h4 (m2 p hp)
  · rw [compile_lines (f := f') (q := f'.start) k1]
    · have e : linesL funcLine' 0 f'.body = linesL funcLine' 0 (noPos f'.body) := (linesL_pos _ 0 _).symm
      have e1 : linesL funcLine' 0 (noPos g.body) = linesL funcLine' 0 g.body := linesL_pos _ 0 _
      rw [e, k2, linesL_append, linesL_flat, unlines_append, e1]
      congr 2
      clear hl ha hn k1 k2 e m2
      induction l with
      | nil => rfl
      | cons p l ih => rw [List.flatMap_cons, List.flatMap_cons, unlines_append, ih]
    · intro y hy
      rcases List.mem_append.1 hy with hy | hy
      · obtain ⟨P, hP, hy⟩ := List.mem_flatten.1 hy
        obtain ⟨p, hp, rfl⟩ := List.mem_map.1 hP
        exact m2 p hp y hy
      · exact m3 y hy

/-! ### Examples -/

def partHead : List Str := [cs!"\" head"]
def partLet : List Str := [cs!"let x = [1,", cs!"  \\ 2] | echo x", cs!"\" behind"]
def partFunc : List Str := [cs!"function F()", cs!"  return 1", cs!"endfunction", cs!""]
def partDoc : List Str := [cs!"  let y =<< E", cs!"if", cs!"E"]
/-- Text that the end of the file ends. -/
def partLast : List Str := [cs!"append", cs!"text"]

theorem cut_of {nv : Bool} {fn : Str} {W A : List Str} {ps : List (List Str)}
    (h : (parseFileLines nv fn W).any (fun r => r.err.isNone && r.node.any fun f => cutLines f 1 W == (A, ps)) = true) :
    ∃ f, parseFileLines nv fn W = some ⟨some f, none⟩ ∧ cutLines f 1 W = (A, ps) := by
  match e : parseFileLines nv fn W, h with
  | some ⟨some f, none⟩, h => exact ⟨f, rfl, by simpa using h⟩

theorem cut_example : ∃ f, parseFileLines false [] (partHead ++ partLet ++ partFunc ++ partDoc ++ partLast) = some ⟨some f, none⟩ ∧
    cutLines f 1 (partHead ++ partLet ++ partFunc ++ partDoc ++ partLast) = (partHead, [partLet, partFunc, partDoc, partLast]) :=
  cut_of (by decide +kernel)

/-- The parts, one of them twice, in another order. -/
example : ∃ f', parseFileLines false [] ([partDoc, partLet, partDoc, partHead].flatten ++ partLast) = some ⟨some f', none⟩ := by
  obtain ⟨f, h1, h2⟩ := cut_example
  exact (C86_combine false [] _ f _ _ h1 (by rintro _ ⟨⟩; decide) h2 [partDoc, partLet, partDoc, partHead] (by simp)).2 _ (by simp)

/-- The last part need not be a whole script: what follows it would be its text. -/
example : (parseFileLines false [] (partLast ++ partFunc)).any (fun r => r.node.any fun f => f.body.length == 1) = true ∧
    ¬ Whole false [] partLast := by
  refine ⟨by decide +kernel, ?_⟩
  rintro ⟨⟨g, h⟩, _⟩
  have h1 : (parseFileLines false [] (partLast ++ [commentLine])).any (fun r => r.node.any fun f => f.body.length == 1 &&
    f.body.all fun s => (exArgOf s).isSome) = true := by decide +kernel
  rw [show parseFileLines false [] (partLast ++ [commentLine]) = _ from h] at h1
  simp [exArgOf] at h1

theorem plain_accepted {nv : Bool} {fn : Str} {W : List Str}
    (h : (parseFileLines nv fn W).any (fun r => r.err.isNone && r.node.any fun g => plain g.body) = true) :
    ∃ g, parseFileLines nv fn W = some ⟨some g, none⟩ ∧ ∀ n, ¬ UserCmd g.body n := by
  match e : parseFileLines nv fn W, h with
  | some ⟨some g, none⟩, h => exact ⟨g, rfl, noUser_plain (by simpa using h)⟩

/-- The statements of the combined file, and what the compiler prints. -/
example : ∃ gL gD g f' f'' a b c, Complete false [] partLet gL ∧ Complete false [] partDoc gD ∧
    parseFileLines false [] partLast = some ⟨some g, none⟩ ∧
    parseFileLines false [] (partDoc ++ (partLet ++ []) ++ partLast) = some ⟨some f', none⟩ ∧
    noPos f'.body = noPos gD.body ++ (noPos gL.body ++ []) ++ noPos g.body ∧
    parseFileLines false [] (partDoc ++ (partLet ++ []) ++ partLast) = some ⟨some f'', none⟩ ∧
    Comp.compileFile gD = .text a ∧ Comp.compileFile gL = .text b ∧ Comp.compileFile g = .text c ∧
    Comp.compileFile f'' = .text (a ++ (b ++ []) ++ c) := by
  obtain ⟨f, h1, h2⟩ := cut_example
  obtain ⟨gL, hL, pL⟩ := plain_part (nv := false) (fn := []) (W := partLet) (by decide +kernel) (by decide +kernel)
  obtain ⟨gD, hD, pD⟩ := plain_part (nv := false) (fn := []) (W := partDoc) (by decide +kernel) (by decide +kernel)
  obtain ⟨g, e, hp⟩ := plain_accepted (nv := false) (fn := []) (W := partLast) (by decide +kernel)
  have hl : ∀ p ∈ [(partDoc, gD), (partLet, gL)], p.1 ∈ [partHead, partLet, partFunc, partDoc, partLast].dropLast ∧
      Complete false [] p.1 p.2 := by
    intro p hp
    simp only [List.mem_cons, List.not_mem_nil, or_false] at hp
    rcases hp with rfl | rfl
    · exact ⟨by simp, hD⟩
    · exact ⟨by simp, hL⟩
  have ha : [(partDoc, gD), (partLet, gL)].Pairwise fun p q => NamesApart p.2.body q.2.body ∧ NamesApart q.2.body p.2.body := by
    simp only [List.pairwise_cons, List.mem_singleton, forall_eq]
    exact ⟨⟨fun n t _ h => absurd h (pD n), fun n t _ h => absurd h (pL n)⟩, by simp⟩
  have hn : ∀ p ∈ [(partDoc, gD), (partLet, gL)], NamesApart p.2.body g.body :=
    fun p _ n t _ _ => hp _
  have h0 : ∀ l, (partHead ++ partLet ++ partFunc ++ partDoc ++ partLast).head? = some l → afterBackslash l = none := by
    rintro _ ⟨⟩; decide
  obtain ⟨f', k1, k2⟩ := C86_tree false [] _ f _ _ h1 h0 h2 _ hl ha partLast (by simp) g e hn
  obtain ⟨f'', out, o, m1, m2, m3, m4⟩ := C86_output false [] _ f _ _ h1 h0 h2 _ hl ha partLast (by simp) g e hn (by decide)
  exact ⟨gL, gD, g, f', f'', _, _, _, hL, hD, e, k1, k2, m1, m2 (partDoc, gD) (by simp), m2 (partLet, gL) (by simp), m3, m4⟩

/-- Without the condition on names the combined file is accepted, but its statements may be others. -/
example : namesIn (parseFileLines false [] [cs!"Foo2", cs!"Foo", cs!"echo"]) = some [cs!"Foo2", cs!"Foo", cs!"echo"] ∧
    namesIn (parseFileLines false [] [cs!"Foo", cs!"Foo2", cs!"echo"]) = some [cs!"Foo", cs!"Foo", cs!"echo"] := by decide +kernel

end Viml.Props
