/-
C83: the order of whole scripts does not matter.
-/
import Verif.Spec.Permute
import Verif.Lemmas.ModifyComp
import Verif.Lemmas.Layout
import Verif.Props.Nest
import Verif.Props.Concat
import Verif.Props.Name

namespace Viml.Props
open Spec

variable {nv : Bool} {fn : Str} {A B W : List Str} {Ws Ws' : List (List Str)}

/-- Behind a whole script is a place between statements. -/
theorem between_behind (hA : Between nv fn A) (hW : Whole nv fn W) : Between nv fn (A ++ W) := by
  obtain ⟨⟨g, hg⟩, hl⟩ := hW
  have h := C68_error nv fn A W [cs!"xyzzy"] g hA hg (by simp) hl (by rintro _ ⟨⟩; decide)
  obtain ⟨n, o, e⟩ := hA
  rw [e] at h
  cases e1 : parseFileLines nv fn (A ++ W ++ [cs!"xyzzy"]) with
  | none => rw [e1] at h; cases h
  | some x =>
    obtain ⟨n', er⟩ := x
    rw [e1] at h
    replace h : er = _ := h
    subst h
    refine ⟨n', o + readLen W, ?_⟩
    rw [e1]
    show some _ = some _
    simp only [Option.bind_some, Option.map_some, errSpread, List.length_append]
    rw [show A.length + 1 + W.length = A.length + W.length + 1 by omega]

theorem head_flatten (hw : ∀ W ∈ Ws, ∀ l, W.head? = some l → afterBackslash l = none)
    (hB : ∀ l, B.head? = some l → afterBackslash l = none) : ∀ l, (Ws.flatten ++ B).head? = some l → afterBackslash l = none := by
  induction Ws with
  | nil => exact hB
  | cons W Ws ih =>
    cases W with
    | nil => exact ih fun W h => hw W (by simp [h])
    | cons x W => exact fun l h => hw (x :: W) (by simp) l h

/-- C83.  Whole scripts between two statements of a file can be put in any order: the file has the same error or none. -/
theorem C83_error (nv : Bool) (fn : Str) (A B : List Str) (Ws Ws' : List (List Str)) (hA : Between nv fn A)
    (hw : ∀ W ∈ Ws, Whole nv fn W) (hn : B ≠ []) (hB : ∀ l, B.head? = some l → afterBackslash l = none) (hp : Ws.Perm Ws') :
    (parseFileLines nv fn (A ++ Ws.flatten ++ B)).bind (·.err) = (parseFileLines nv fn (A ++ Ws'.flatten ++ B)).bind (·.err) := by
  induction hp generalizing A with
  | nil => rfl
  | @cons W Ws Ws' _ ih =>
    have := ih (A ++ W) (between_behind hA (hw W (by simp))) fun W h => hw W (by simp [h])
    simpa only [List.flatten_cons, List.append_assoc] using this
  | swap W V Ws =>
    have hV := hw V (by simp)
    have hW := hw W (by simp)
    have h0 : ∀ l, (Ws.flatten ++ B).head? = some l → afterBackslash l = none :=
      head_flatten (fun W h => (hw W (by simp [h])).2) hB
    have h1 : ∀ {X Y : List Str}, Whole nv fn X → Whole nv fn Y →
        (parseFileLines nv fn (A ++ (X ++ (Y ++ (Ws.flatten ++ B))))).bind (·.err) =
          (((parseFileLines nv fn (A ++ (Ws.flatten ++ B))).bind (·.err)).map (errSpread X)).map (errSpread Y) := by
      rintro X Y ⟨⟨g, hg⟩, hl⟩ ⟨⟨g', hg'⟩, hl'⟩
      have e1 := C68_error nv fn (A ++ X) Y (Ws.flatten ++ B) g' (between_behind hA ⟨⟨g, hg⟩, hl⟩) hg' (by simp [hn]) hl' h0
      have e2 := C68_error nv fn A X (Ws.flatten ++ B) g hA hg (by simp [hn]) hl h0
      rw [e2] at e1
      simpa only [List.append_assoc] using e1
    simp only [List.flatten_cons, List.append_assoc]
    rw [h1 hV hW, h1 hW hV]
    cases (parseFileLines nv fn (A ++ (Ws.flatten ++ B))).bind (·.err) with
    | none => rfl
    | some e =>
      cases e with
      | other => rfl
      | parse f o l c m =>
        simp only [Option.map_some, errSpread]
        rw [show o + readLen V + readLen W = o + readLen W + readLen V by omega,
          show l + V.length + W.length = l + W.length + V.length by omega]
  | trans h1 _ ih1 ih2 => exact (ih1 A hA hw).trans (ih2 A hA fun W h => hw W (h1.mem_iff.2 h))

theorem no_error_iff {ls : List Str} : (∃ f, parseFileLines nv fn ls = some ⟨some f, none⟩) ↔
    (parseFileLines nv fn ls).bind (·.err) = none := by
  constructor
  · rintro ⟨f, h⟩
    rw [h]
    rfl
  · intro h
    rcases C55_total nv fn ls with ⟨f, h0⟩ | ⟨m, q, h0⟩ | h0
    · exact ⟨f, (C52_lines ..).2 h0⟩
    · rw [(C54_lines nv fn ls none fn q.i q.lnum q.col m).2 ⟨rfl, rfl, q, rfl, rfl, rfl, h0⟩] at h
      cases h
    · rw [(other_lines nv fn ls none).2 ⟨rfl, h0⟩] at h
      cases h

/-- C83.  It is accepted in any order or in none. -/
theorem C83_accepted (nv : Bool) (fn : Str) (A B : List Str) (Ws Ws' : List (List Str)) (hA : Between nv fn A)
    (hw : ∀ W ∈ Ws, Whole nv fn W) (hn : B ≠ []) (hB : ∀ l, B.head? = some l → afterBackslash l = none) (hp : Ws.Perm Ws') :
    (∃ f, parseFileLines nv fn (A ++ Ws.flatten ++ B) = some ⟨some f, none⟩) ↔
      ∃ f, parseFileLines nv fn (A ++ Ws'.flatten ++ B) = some ⟨some f, none⟩ := by
  rw [no_error_iff, no_error_iff, C83_error nv fn A B Ws Ws' hA hw hn hB hp]

theorem userCmd_append {a b : List Ast.Stmt} {n : Str} (h : UserCmd (a ++ b) n) : UserCmd a n ∨ UserCmd b n := by
  obtain ⟨x, ea, h1, h2⟩ := h
  cases h1 with
  | mem h =>
    rcases List.mem_append.1 h with h | h
    · exact .inl ⟨x, ea, .mem h, h2⟩
    · exact .inr ⟨x, ea, .mem h, h2⟩
  | sub h h' =>
    rcases List.mem_append.1 h with h | h
    · exact .inl ⟨x, ea, .sub h h', h2⟩
    · exact .inr ⟨x, ea, .sub h h', h2⟩

theorem head_joined {l : List (List Str × Ast.File)} (h : WholeParts nv fn l) :
    ∀ x, (joined l).head? = some x → afterBackslash x = none := by
  have := head_flatten (Ws := l.map (·.1)) (B := []) (fun W hW => by
    obtain ⟨p, hp, rfl⟩ := List.mem_map.1 hW
    exact h.start p hp) (by simp)
  rwa [List.append_nil] at this

/-- C83.  Whole scripts one after the other are a whole script; its statements are theirs, but for positions. -/
theorem C83_whole (nv : Bool) (fn : Str) (l : List (List Str × Ast.File)) (h : WholeParts nv fn l) :
    ∃ g, Complete nv fn (joined l) g ∧ noPos g.body = l.flatMap fun p => noPos p.2.body := by
  suffices ∃ g, Complete nv fn (joined l) g ∧ (noPos g.body = l.flatMap fun p => noPos p.2.body) ∧
      ∀ n, UserCmd g.body n → ∃ p ∈ l, UserCmd p.2.body n by
    obtain ⟨g, h1, h2, _⟩ := this
    exact ⟨g, h1, h2⟩
  induction l with
  | nil =>
    refine ⟨⟨⟨0, 1, 1, fn⟩, []⟩, ?_, rfl, fun n h => absurd h (noUser_nil n)⟩
    have h0 : parseFileLines nv [] [commentLine] = some ⟨some ⟨⟨0, 1, 1, []⟩, [.comment ⟨0, 1, 1, []⟩ []]⟩, none⟩ := by
      cases nv <;> rfl
    exact (C81_lines nv [] fn _).trans (congrArg _ h0)
  | cons p l ih =>
    have h0 := List.pairwise_cons.1 h.apart
    have hl : WholeParts nv fn l := ⟨fun q hq => h.whole q (by simp [hq]), fun q hq => h.start q (by simp [hq]), h0.2⟩
    obtain ⟨g, h1, h2, h3⟩ := ih hl
    refine ⟨_, C61_complete nv fn p.1 (joined l) p.2 g (h.whole p (by simp)) h1 (head_joined hl) ?_, ?_, ?_⟩
    · intro n s hs hn hg
      obtain ⟨q, hq, h4⟩ := h3 _ hg
      exact (h0.1 q hq).1 n s hs hn h4
    · show noPos (p.2.body ++ _) = _
      have e : noPos (Ast.Stmt.onPosL (shift p.1 (joined l)) g.body) = noPos g.body := noPos_onPos ..
      unfold noPos at e h2 ⊢
      rw [onPosS_append, e, h2]
      rfl
    · intro n hn
      rcases userCmd_append hn with hn | hn
      · exact ⟨p, by simp, hn⟩
      · obtain ⟨q, hq, h4⟩ := h3 n ((userCmd_onPos _).1 hn)
        exact ⟨q, by simp [hq], h4⟩

theorem parts_perm {l l' : List (List Str × Ast.File)} (h : WholeParts nv fn l) (hp : l.Perm l') : WholeParts nv fn l' :=
  ⟨fun p hp' => h.whole p (hp.mem_iff.2 hp'), fun p hp' => h.start p (hp.mem_iff.2 hp'),
    (hp.pairwise_iff fun h => ⟨h.2, h.1⟩).1 h.apart⟩

/-- C83.  Whole scripts in any order are accepted; the statements of each are the same in any order, but for positions. -/
theorem C83_tree (nv : Bool) (fn : Str) (l l' : List (List Str × Ast.File)) (h : WholeParts nv fn l) (hp : l.Perm l') :
    ∃ f f', parseFileLines nv fn (joined l) = some ⟨some f, none⟩ ∧ parseFileLines nv fn (joined l') = some ⟨some f', none⟩ ∧
      (noPos f.body = l.flatMap fun p => noPos p.2.body) ∧ (noPos f'.body = l'.flatMap fun p => noPos p.2.body) := by
  obtain ⟨g, h1, h2⟩ := C83_whole nv fn l h
  obtain ⟨g', h1', h2'⟩ := C83_whole nv fn l' (parts_perm h hp)
  obtain ⟨p, h3, _⟩ := C61_alone nv fn _ g h1
  obtain ⟨p', h3', _⟩ := C61_alone nv fn _ g' h1'
  exact ⟨_, _, h3, h3', h2, h2'⟩

theorem linesL_flat (l : List (List Str × Ast.File)) : linesL funcLine' 0 (l.flatMap fun p => noPos p.2.body) =
    l.flatMap fun p => linesL funcLine' 0 p.2.body := by
  have app : ∀ a b : List Ast.Stmt, linesL funcLine' 0 (a ++ b) = linesL funcLine' 0 a ++ linesL funcLine' 0 b := by
    intro a b
    induction a with
    | nil => rfl
    | cons s a ih => simp only [List.cons_append, linesL, ih, List.append_assoc]
  induction l with
  | nil => rfl
  | cons p l ih =>
    simp only [List.flatMap_cons]
    rw [app, ih]
    unfold noPos
    rw [linesL_pos]

theorem compile_lines {ls : List Str} {f : Ast.File} {q : Ast.Pos} (h : parseFileLines nv fn ls = some ⟨some ⟨q, f.body⟩, none⟩) (hn : ∀ y ∈ ls, '\n' ∉ y) :
    Comp.compileFile f = .text (unlines (linesL funcLine' 0 f.body)) := by
  have p1 := (parseFileLines_all h).2
  exact Comp.compileFile_eq (p1.all.imp fun _ _ hs => hs.printable (mkEnv_nl hn)) p1.parts

theorem compile_joined {l : List (List Str × Ast.File)} (h : WholeParts nv fn l) (hn : ∀ p ∈ l, ∀ y ∈ p.1, '\n' ∉ y) :
    ∃ f, parseFileLines nv fn (joined l) = some ⟨some f, none⟩ ∧
      Comp.compileFile f = .text (l.flatMap fun p => unlines (linesL funcLine' 0 p.2.body)) := by
  obtain ⟨g, h1, h2⟩ := C83_whole nv fn l h
  obtain ⟨s, h3, _⟩ := C61_alone nv fn _ g h1
  refine ⟨_, h3, (compile_lines (f := ⟨s, g.body⟩) h3 ?_).trans ?_⟩
  · intro y hy
    obtain ⟨W, hW, hy⟩ := List.mem_flatten.1 hy
    obtain ⟨p, hp, rfl⟩ := List.mem_map.1 hW
    exact hn p hp y hy
  · have e : linesL funcLine' 0 g.body = l.flatMap fun p => linesL funcLine' 0 p.2.body := by
      rw [← linesL_flat, ← h2]
      exact (linesL_pos _ 0 g.body).symm
    show Comp.Out.text (unlines (linesL funcLine' 0 g.body)) = _
    rw [e]
    simp [unlines, List.flatMap_assoc]

/-- C83.  Each of the whole scripts has its output, and the compiler prints the outputs in the order of the scripts: nothing
else in the output depends on the order. -/
theorem C83_output (nv : Bool) (fn : Str) (l l' : List (List Str × Ast.File)) (h : WholeParts nv fn l) (hp : l.Perm l')
    (hn : ∀ p ∈ l, ∀ y ∈ p.1, '\n' ∉ y) :
    ∃ (f f' : Ast.File) (out : List Str × Ast.File → Str),
      (∀ p ∈ l, Comp.compileFile p.2 = .text (out p)) ∧
      parseFileLines nv fn (joined l) = some ⟨some f, none⟩ ∧ Comp.compileFile f = .text (l.flatMap out) ∧
      parseFileLines nv fn (joined l') = some ⟨some f', none⟩ ∧ Comp.compileFile f' = .text (l'.flatMap out) := by
  obtain ⟨f, h1, h2⟩ := compile_joined h hn
  obtain ⟨f', h1', h2'⟩ := compile_joined (parts_perm h hp) fun p h => hn p (hp.mem_iff.2 h)
  refine ⟨f, f', _, fun p hp => ?_, h1, h2, h1', h2'⟩
  obtain ⟨s', h4, _⟩ := C61_alone nv fn _ p.2 (h.whole p hp)
  exact compile_lines h4 (hn p hp)

/-! ### Examples -/

def wOne : List Str := [cs!"let x =", cs!"  \\ 1"]
def wTwo : List Str := [cs!"if x", cs!"  echo 'two'", cs!"endif"]
def wThree : List Str := [cs!"Foo bar | Baz", cs!"\" three"]

theorem whole_of {nv : Bool} {fn : Str} {W : List Str} (h : isComplete nv fn W = true)
    (h' : ((W.head?).all fun l => (afterBackslash l).isNone) = true) : Whole nv fn W := by
  refine ⟨complete_of h, fun l e => ?_⟩
  rw [e] at h'
  exact Option.isNone_iff_eq_none.1 h'

/-- In a function, before an error: three scripts in two orders. -/
example : (parseFileLines false cs!"f" ([cs!"function F()"] ++ [wOne, wTwo, wThree].flatten ++ [cs!"endif"])).bind (·.err) =
    (parseFileLines false cs!"f" ([cs!"function F()"] ++ [wThree, wOne, wTwo].flatten ++ [cs!"endif"])).bind (·.err) :=
  C83_error false cs!"f" _ _ _ _ (between_of (o := 13) (by decide +kernel))
    (by
      intro W h
      simp only [List.mem_cons, List.not_mem_nil, or_false] at h
      rcases h with rfl | rfl | rfl <;> exact whole_of (by decide +kernel) (by decide +kernel))
    (by simp) (by rintro _ ⟨⟩; rfl)
    (by decide)

example : (parseFileLines false cs!"f" ([cs!"function F()"] ++ [wThree, wOne, wTwo].flatten ++ [cs!"endif"])).bind (·.err) =
    errOf (parseFileLines false cs!"f" ([cs!"function F()"] ++ [wOne, wTwo, wThree].flatten ++ [cs!"endif"])) := by
  decide +kernel

/-- Scripts that are not whole cannot be put in another order. -/
example : ((parseFileLines false cs!"f" ([cs!"if x"] ++ [cs!"endif"])).bind (·.err)).isNone = true ∧
    ((parseFileLines false cs!"f" ([cs!"endif"] ++ [cs!"if x"])).bind (·.err)).isNone = false := by
  decide +kernel

theorem plain_part {W : List Str} (h : isComplete nv fn W = true) (h' : ((parseFileLines nv fn (W ++ [commentLine])).bind fun x =>
    x.node.map fun f => plain f.body) = some true) : ∃ f, Complete nv fn W f ∧ ∀ n, ¬ UserCmd f.body n := by
  obtain ⟨f, hf⟩ := complete_of h
  refine ⟨f, hf, noUser_plain ?_⟩
  rw [hf] at h'
  simp only [Option.bind_some, Option.map_some, Option.some.injEq, plain, List.all_append, Bool.and_eq_true] at h'
  exact h'.1

def wFour : List Str := [cs!"echo 'four'", cs!"\" four", cs!"call f(x,", cs!"  \\ 4)"]

/-- The hypotheses for three scripts: they are accepted in any order. -/
example : ∃ f g h, WholeParts false [] [(wOne, f), (wThree, g), (wFour, h)] ∧
    ∀ l, [(wOne, f), (wThree, g), (wFour, h)].Perm l → ∃ t, parseFileLines false [] (joined l) = some ⟨some t, none⟩ := by
  obtain ⟨f, hf, nf⟩ := plain_part (W := wOne) (nv := false) (fn := []) (by decide +kernel) (by decide +kernel)
  obtain ⟨g, hg⟩ := complete_of (show isComplete false [] wThree = true by decide +kernel)
  obtain ⟨h, hh, nh⟩ := plain_part (W := wFour) (nv := false) (fn := []) (by decide +kernel) (by decide +kernel)
  have w : WholeParts false [] [(wOne, f), (wThree, g), (wFour, h)] := by
    refine ⟨?_, ?_, ?_⟩
    · simp [hf, hg, hh]
    · simp [wOne, wThree, wFour]
      decide
    · simp only [List.pairwise_cons, List.mem_cons, List.not_mem_nil, or_false, forall_eq_or_imp, forall_eq]
      exact ⟨⟨⟨fun n _ _ x => absurd x (nf n), fun _ _ _ _ => nf _⟩, fun n _ _ x => absurd x (nf n), fun _ _ _ _ => nf _⟩,
        ⟨fun _ _ _ _ => nh _, fun n _ _ x => absurd x (nh n)⟩, by simp⟩
  refine ⟨f, g, h, w, fun l hp => ?_⟩
  obtain ⟨_, t, _, ht, _⟩ := C83_tree false [] _ l w hp
  exact ⟨t, ht⟩

def outOf (ls : List Str) : Option Comp.Out :=
  (parseFileLines false [] ls).bind fun x => x.node.map Comp.compileFile

example : outOf (wOne ++ wTwo ++ wFour) =
      some (.text cs!"(let = x 1)\n(if x\n  (echo 'two'))\n(echo 'four')\n; four\n(call (f x 4))\n") ∧
    outOf (wFour ++ wOne ++ wTwo) =
      some (.text cs!"(echo 'four')\n; four\n(call (f x 4))\n(let = x 1)\n(if x\n  (echo 'two'))\n") := by
  decide +kernel

end Viml.Props
