/-
Blanks, tabs and colons before the first command of a line (`Indent.lean`).
-/
import Verif.Lemmas.Indent
import Verif.Lemmas.InsertAt
import Verif.Spec.Indent

namespace Viml
open Spec

/-! ### The characters of the lines -/

/-- The position after `k` characters, `d` bytes, are inserted at the start of the first of the lines `L`. -/
def indPos (L : List Str) (d k : Nat) (p : Pos) : Pos :=
  if p.lnum = 1 then ⟨p.i + k, p.lnum, p.col + d, p.offset + d⟩
  else ⟨p.i + k, p.lnum, p.col, if onContLine L p.lnum p.col then 0 else p.offset + d⟩

def indCell (L : List Str) (d k : Nat) (c : Cell) : Cell := ⟨c.c, indPos L d k c.pos⟩

section
variable {L : List Str} {d : Nat}

theorem lineCells_ind1 : ∀ (l : Str) (col off : Nat),
    lineCells 1 (col + d) (off + d) l = (lineCells 1 col off l).map (indCell L d 0)
  | [], _, _ => rfl
  | c :: l, col, off => by
    simp only [lineCells, List.map_cons]
    rw [show col + d + runeLen c = col + runeLen c + d by omega, show off + d + runeLen c = off + runeLen c + d by omega,
      lineCells_ind1 l]
    simp only [indCell, indPos, if_true, Nat.add_zero]
    rw [show col + d + 1 = col + 1 + d by omega]

theorem lineCells_ind (n : Nat) (hn : ∀ col, onContLine L (n + 2) col = false) : ∀ (l : Str) (col off : Nat),
    lineCells (n + 2) col (off + d) l = (lineCells (n + 2) col off l).map (indCell L d 0)
  | [], _, _ => rfl
  | c :: l, col, off => by
    simp only [lineCells, List.map_cons]
    rw [show off + d + runeLen c = off + runeLen c + d by omega, lineCells_ind n hn l]
    simp [indCell, indPos, hn]

theorem contCells_ind (n : Nat) (bound : Nat) (hn : ∀ col, col ≤ bound → onContLine L (n + 2) col = true) :
    ∀ (l : Str) (s : Bool) (col : Nat), col + bytesLen l ≤ bound →
    contCells (n + 2) s col l = (contCells (n + 2) s col l).map (indCell L d 0)
  | [], s, _, _ => by cases s <;> rfl
  | c :: l, s, col, h => by
    have : 1 ≤ runeLen c := Char.utf8Size_pos c
    simp only [bytesLen] at h
    cases s with
    | true =>
      simp only [contCells]
      exact contCells_ind n bound hn l _ _ (by omega)
    | false =>
      simp only [contCells, List.map_cons]
      rw [← contCells_ind n bound hn l _ _ (by omega)]
      simp [indCell, indPos, hn (col + 1) (by omega)]

theorem buildRest_ind : ∀ (ls pre : List Str) (x : Str) (n off : Nat), L = pre ++ x :: ls → pre.length = n →
    buildRest ls n (bytesLen x + if n = 0 then d else 0) (off + d) = (buildRest ls n (bytesLen x) off).map (indCell L d 0) := by
  intro ls
  induction ls with
  | nil =>
    intro pre x n off hL hn
    have e1 : onContLine L (n + 1) (bytesLen x + 1) = false := by
      subst hL hn
      simp only [onContLine, Nat.add_sub_cancel, List.getElem?_append_right (Nat.le_refl _), Nat.sub_self,
        List.getElem?_cons_zero, Option.any_some, bytesLen_eq]
      simp
    by_cases h0 : n = 0
    · subst h0
      simp [buildRest, indCell, indPos, Nat.add_right_comm]
    · simp [buildRest, indCell, indPos, e1, h0]
  | cons l ls ih =>
    intro pre x n off hL hn
    have hl : L[n + 1]? = some l := by
      subst hL hn
      rw [List.getElem?_append_right (by omega)]
      simp
    have e1 : onContLine L (n + 1) (bytesLen x + 1) = false := by
      subst hL hn
      simp only [onContLine, Nat.add_sub_cancel, List.getElem?_append_right (Nat.le_refl _), Nat.sub_self,
        List.getElem?_cons_zero, Option.any_some, bytesLen_eq]
      simp
    have ih := fun off => ih (pre ++ [x]) l (n + 1) off (by simp [hL]) (by simp [hn])
    simp only [Nat.add_eq_zero_iff, Nat.one_ne_zero, and_false, if_false, Nat.add_zero] at ih
    simp only [buildRest]
    split
    · rename_i hc
      have hc' : (afterBackslash l).isSome = true := by rw [← isCont_iff]; exact hc
      rw [List.map_append, ← ih, ← contCells_ind n (bytesLen l) ?_ l true 0 (by omega)]
      · rw [show off + d + bytesLen l + 1 = off + bytesLen l + 1 + d by omega]
      · intro col hcol
        rw [bytesLen_eq] at hcol
        simp [onContLine, hl, hc', hcol]
    · rename_i hc
      have hc' : (afterBackslash l).isSome = false := by rw [← isCont_iff]; simpa using hc
      rw [List.map_cons, List.map_append, ← ih, ← lineCells_ind n ?_ l 0 (off + 1)]
      · rw [show off + d + 1 + bytesLen l = off + 1 + bytesLen l + d by omega, show off + d + 1 = off + 1 + d by omega]
        by_cases h0 : n = 0
        · subst h0
          simp [indCell, indPos, Nat.add_right_comm]
        · simp [indCell, indPos, e1, h0]
      · intro col
        simp [onContLine, hl, hc']

end

theorem bytesLen_append (a b : Str) : bytesLen (a ++ b) = bytesLen a + bytesLen b := by
  induction a with
  | nil => simp [bytesLen]
  | cons c a ih => simp only [List.cons_append, bytesLen, ih]; omega

theorem buildCells_ind (w l : Str) (B : List Str) : buildCells ((w ++ l) :: B) =
    lineCells 1 0 0 w ++ (buildCells (l :: B)).map (indCell (l :: B) (bytesLen w) 0) := by
  simp only [buildCells, List.map_append]
  have h := buildRest_ind (L := l :: B) (d := bytesLen w) B [] l 0 (bytesLen l) rfl rfl
  rw [lineCells_append, ← lineCells_ind1, ← h, List.append_assoc, bytesLen_append]
  simp [Nat.add_comm]

theorem reindex_ind {L : List Str} {d : Nat} (k : Nat) : ∀ (cs : List Cell) (n : Nat),
    reindex (n + k) (cs.map (indCell L d 0)) = (reindex n cs).map (indCell L d k)
  | [], _ => rfl
  | c :: cs, n => by
    simp only [List.map_cons, reindex]
    rw [show n + k + 1 = n + 1 + k by omega, reindex_ind k cs]
    congr 1
    simp only [indCell, indPos]
    split <;> rfl

theorem lineCells_length (n : Nat) (s : Str) (col off : Nat) : (lineCells n col off s).length = s.length := by
  have := congrArg List.length (lineCells_text n s col off)
  simpa using this

/-- The cells of the inserted text. -/
abbrev wCells (w : Str) : List Cell := reindex 0 (lineCells 1 0 0 w)

theorem mkEnv_ind (w l : Str) (B : List Str) : (mkEnv ((w ++ l) :: B)).buf =
    wCells w ++ (mkEnv (l :: B)).buf.map (indCell (l :: B) (bytesLen w) w.length) := by
  simp only [mkEnv]
  rw [buildCells_ind, reindex_append, ← reindex_ind, lineCells_length, Nat.zero_add]

/-! ### Behind other lines -/

/-- The position after the text `w` is inserted behind the lines `A`. -/
def indentPos (A : List Str) (w l : Str) (B : List Str) (p : Pos) : Pos :=
  if p.lnum ≤ A.length then p
  else if p.lnum = A.length + 1 then ⟨p.i + w.length, p.lnum, p.col + bytes w, p.offset + bytes w⟩
  else ⟨p.i + w.length, p.lnum, p.col, if onContLine (l :: B) (p.lnum - A.length) p.col then 0 else p.offset + bytes w⟩

def indentCell (A : List Str) (w l : Str) (B : List Str) (c : Cell) : Cell := ⟨c.c, indentPos A w l B c.pos⟩

variable {nv : Bool} {fn : Str} {A B : List Str} {w l : Str}

theorem pub_indent (p : Pos) : pubPos fn (indentPos A w l B p) = indentBy A w l B (pubPos fn p) := by
  unfold indentPos indentBy
  show _ = if p.lnum ≤ A.length then _ else if p.lnum = A.length + 1 then _ else _
  split
  · rfl
  · split <;> rfl

theorem onCont_head (x y : Str) (n col : Nat) : onContLine (x :: B) n col = onContLine (y :: B) n col := by
  unfold onContLine
  by_cases h : 2 ≤ n
  · obtain ⟨m, rfl⟩ : ∃ m, n = m + 2 := ⟨n - 2, by omega⟩
    simp
  · simp [h]

theorem indent_move (k0 : Nat) (x : Option Char) {p : Pos} (h : 0 < p.lnum) :
    indentPos A w l B (moveCell A (l :: B) k0 ⟨x, p⟩).pos =
      (moveCell A ((w ++ l) :: B) k0 ⟨x, indPos (l :: B) (bytesLen w) w.length p⟩).pos := by
  have h1 : ¬ p.lnum + A.length ≤ A.length := by omega
  have hb : bytes w = bytesLen w := (bytesLen_eq w).symm
  by_cases h2 : p.lnum = 1
  · have e : ∀ (L : List Str) col, onContLine L 1 col = false := fun L col => by simp [onContLine]
    have h3 : ¬ 1 + A.length ≤ A.length := by omega
    have h4 : 1 + A.length = A.length + 1 := by omega
    simp only [indentPos, hb, moveCell, h3, if_false, h2, indPos, e, Bool.false_eq_true, if_true]
    rw [if_pos h4]
    simp only [Pos.mk.injEq, true_and]
    omega
  · have h3 : ¬ p.lnum + A.length = A.length + 1 := by omega
    simp only [indentPos, hb, moveCell, h1, if_false, h2, h3, indPos, Nat.add_sub_cancel, onCont_head (w ++ l) l]
    split
    · simp [Nat.add_right_comm]
    · simp [Nat.add_right_comm]

theorem indent_before {c : Cell} (h : c ∈ (mkEnv A).buf) : indentCell A w l B c = c := by
  have := (mkEnv_lnum h).2
  simp only [indentCell, indentPos, show c.pos.lnum ≤ A.length by omega, if_true]

theorem indent_buf : (restB A (l :: B)).map (indentCell A w l B) =
    ((mkEnv (l :: B)).buf.map (indCell (l :: B) (bytesLen w) w.length)).map (moveCell A ((w ++ l) :: B) (mkEnv A).buf.length) := by
  rw [restB, List.map_map, List.map_map]
  refine List.map_congr_left fun c hc => ?_
  have := indent_move (A := A) (w := w) (l := l) (B := B) (mkEnv A).buf.length c.c (mkEnv_lnum hc).1
  show (⟨_, _⟩ : Cell) = _
  rw [this]
  rfl

/-- The cells of the inserted text behind the lines `A`. -/
abbrev wAt (A : List Str) (w l : Str) (B : List Str) : List Cell :=
  (wCells w).map (moveCell A ((w ++ l) :: B) (mkEnv A).buf.length)

section
variable (hw : afterBackslash (w ++ l) = none) (hl : afterBackslash l = none)
include hw

theorem indent_all : (mkEnv (A ++ (w ++ l) :: B)).buf =
    (mkEnv A).buf ++ (wAt A w l B ++ (restB A (l :: B)).map (indentCell A w l B)) := by
  rw [mkEnv_append (B := (w ++ l) :: B) (by rintro _ ⟨⟩; exact hw), mkEnv_ind, List.map_append, indent_buf]

include hl

theorem indent_eof : (mkEnv (A ++ (w ++ l) :: B)).eof = indentPos A w l B (mkEnv (A ++ l :: B)).eof := by
  rw [moverB_eof A (by rintro _ ⟨⟩; exact hw), moverB_eof A (by rintro _ ⟨⟩; exact hl),
    indent_move _ _ (mkEnv_eof_lnum _)]
  have e : (mkEnv ((w ++ l) :: B)).eof = indPos (l :: B) (bytesLen w) w.length (mkEnv (l :: B)).eof := by
    have h1 : (mkEnv ((w ++ l) :: B)).buf.length = (mkEnv (l :: B)).buf.length + w.length := by
      rw [mkEnv_ind]
      simp [wCells, reindex_length, lineCells_length, Nat.add_comm]
    show (⟨(mkEnv ((w ++ l) :: B)).buf.length, _, _, _⟩ : Pos) = indPos _ _ _ ⟨(mkEnv (l :: B)).buf.length, _, _, _⟩
    rw [h1]
    simp [indPos, totalLen, onContLine, bytesLen_append]
    omega
  rw [e]

end

theorem noCont_cons {x : Str} (h : afterBackslash x = none) : ∀ y, (x :: B).head? = some y → afterBackslash y = none := by
  rintro _ ⟨⟩; exact h

/-! ### The place -/

theorem noCont_blank (hb : Blank w) (hl : afterBackslash l = none) : afterBackslash (w ++ l) = none := by
  have h : isCont l = false := by rw [isCont_iff, hl]; rfl
  have : isCont (w ++ l) = false := by
    induction w with
    | nil => exact h
    | cons c w ih =>
      have hc : c ≠ '\\' := by rcases hb c (by simp) with rfl | rfl | rfl <;> decide
      have := ih fun c hc => hb c (by simp [hc])
      simp [isCont, hc, this]
  rw [isCont_iff] at this
  simpa using this

section
variable (fn) (A) (hw : afterBackslash (w ++ l) = none) (hl : afterBackslash l = none)

/-- The text behind the place is moved. -/
def indentCarry : Carry (mkEnv (A ++ l :: B)) (mkEnv (A ++ (w ++ l) :: B)) fn where
  q0 := []
  q := []
  f := indentCell A w l B
  m := indentBy A w l B
  bd := True
  char _ := rfl
  pos c := pub_indent c.pos
  eof _ := ⟨rfl, rfl, by rw [indent_eof hw hl, pub_indent]⟩

include hw hl

include fn in
theorem indent_place {r : List Cell} (hr : r <:+ (mkEnv (A ++ l :: B)).buf) : ∃ r', r' <:+ (mkEnv (A ++ (w ++ l) :: B)).buf ∧
    posOf (mkEnv (A ++ (w ++ l) :: B)) r' = indentPos A w l B (posOf (mkEnv (A ++ l :: B)) r) := by
  have hB := noCont_cons (B := B) hl
  let ι : Fore (A ++ l :: B) (mkEnv (A ++ l :: B)) fn := foreOf fn hB hB (by simp)
  rcases Fore.suf ι.start hr with i | i
  · obtain ⟨c, p, rfl, hp⟩ := in_lnum ι.κ hB rfl id hr i
    refine ⟨c :: p ++ (wAt A w l B ++ (restB A (l :: B)).map (indentCell A w l B)), ?_, ?_⟩
    · obtain ⟨t, ht⟩ := hp
      rw [indent_all hw, ← ht]
      exact ⟨t, by simp⟩
    · have hc : c ∈ (mkEnv A).buf := hp.subset (by simp)
      have := congrArg Cell.pos (indent_before (w := w) (l := l) (B := B) hc)
      exact this.symm
  · refine ⟨r.map (indentCell A w l B), ?_, ?_⟩
    · refine (i.map _).trans ?_
      rw [indent_all hw]
      exact ⟨(mkEnv A).buf ++ wAt A w l B, by rw [List.append_assoc]; rfl⟩
    · cases r with
      | nil => exact indent_eof hw hl
      | cons c r => rfl

def indentMover : Mover (mkEnv (A ++ l :: B)) (mkEnv (A ++ (w ++ l) :: B)) fn where
  κ := indentCarry fn A hw hl
  bd := trivial
  mp := indentPos A w l B
  pos _ := rfl
  eof := indent_eof hw hl
  buf r hr := by
    obtain ⟨r', h1, h2⟩ := indent_place fn A hw hl hr
    refine ⟨r', h1, ?_, h2⟩
    show pubPos fn _ = indentBy A w l B (pubPos fn _)
    rw [h2, pub_indent]

end

theorem wAt_text : (wAt A w l B).map Cell.c = w.map some := by
  rw [moveCell_text, reindex_text, lineCells_text]

theorem starts_text {r : List Cell} {a b : Char} (h : StartsWith r [a, b]) :
    ∃ t, r.map Cell.c = some a :: some b :: t := by
  obtain ⟨r', cs, rfl, h⟩ := h
  exact ⟨r'.map Cell.c, by rw [List.map_append, h]; rfl⟩

theorem shebang_of {f : Cell → Cell} (hf : ∀ c, (f c).c = c.c) (h : StartsWith (((mkEnv (l :: B)).buf).map f) cs!"#!") :
    Shebang l B := by
  obtain ⟨t, h⟩ := starts_text h
  rw [List.map_map, show Cell.c ∘ f = Cell.c from funext hf] at h
  simp only [mkEnv, reindex_text, buildCells_text] at h
  unfold Shebang
  cases e : logicalLines (l :: B) with
  | nil => rw [e] at h; cases h
  | cons x L =>
    rw [e] at h
    rcases x with _ | ⟨a, _ | ⟨b, x⟩⟩
    · cases h
    · simp at h
    · simp only [List.flatMap_cons, List.map_cons, List.cons_append, List.cons.injEq, Option.some.injEq] at h
      obtain ⟨rfl, rfl, _⟩ := h
      exact ⟨x, rfl⟩

theorem lead_of (hb : Blank w) (hs : ¬ Shebang l B) :
    Lead (wAt A w l B ++ (restB A (l :: B)).map (indentCell A w l B)) ((restB A (l :: B)).map (indentCell A w l B)) := by
  have hn : ¬ StartsWith ((restB A (l :: B)).map (indentCell A w l B)) cs!"#!" := by
    intro h
    rw [restB, List.map_map] at h
    exact hs (shebang_of (f := indentCell A w l B ∘ moveCell A (l :: B) (mkEnv A).buf.length) (fun _ => rfl) h)
  refine ⟨?_, ?_, hn⟩
  · rintro r0 ⟨v, ⟨cs, e, hv⟩, h1, h2⟩
    refine ⟨w ++ v, ⟨wAt A w l B ++ cs, by rw [e, List.append_assoc], by rw [List.map_append, wAt_text, hv, List.map_append]⟩,
      ?_, h2⟩
    intro c hc
    rcases List.mem_append.1 hc with hc | hc
    · rcases hb c hc with rfl | rfl | rfl <;> decide
    · exact h1 c hc
  · intro h
    cases w with
    | nil => exact hn h
    | cons c w =>
      obtain ⟨t, h⟩ := starts_text h
      rw [List.map_append, wAt_text] at h
      injection h with h _
      injection h with h
      subst h
      rcases hb '#' (by simp) with h | h | h <;> exact absurd h (by decide)

theorem indented (h : Between nv fn A) (hb : Blank w) (hl : afterBackslash l = none) (hs : ¬ Shebang l B) :
    ∃ ι : Indented nv (A ++ l :: B) (mkEnv (A ++ (w ++ l) :: B)) fn, ι.κ.m = indentBy A w l B ∧
      ι.μ.mp = indentPos A w l B ∧ ι.κ.q0 = restB A (l :: B) := by
  have hw := noCont_blank hb hl
  have hB := noCont_cons (B := B) hl
  obtain ⟨cx, b, used, hf⟩ := between_front h hB
  let κ : Carry (mkEnv (A ++ l :: B)) (mkEnv (A ++ (w ++ l) :: B)) fn :=
    { q0 := restB A (l :: B), q := wAt A w l B ++ (restB A (l :: B)).map (indentCell A w l B),
      f := indentCell A w l B, m := indentBy A w l B, bd := False, char := fun _ => rfl,
      pos := fun c => pub_indent c.pos, eof := False.elim }
  refine ⟨⟨⟨κ, id, restB_ne (by simp), to_restB κ hB rfl, ?_⟩, indentMover fn A hw hl, rfl, ?_, cx, b, used, hf⟩,
    rfl, rfl, rfl⟩
  · rw [indent_all hw, mkEnv_append hB]
    show List.map _ (List.take _ _) ++ κ.q = _
    have e : List.take (((mkEnv A).buf ++ List.map (moveCell A (l :: B) (mkEnv A).buf.length) (mkEnv (l :: B)).buf).length - κ.q0.length)
        ((mkEnv A).buf ++ List.map (moveCell A (l :: B) (mkEnv A).buf.length) (mkEnv (l :: B)).buf) = (mkEnv A).buf := by
      show List.take (_ - (restB A (l :: B)).length) _ = _
      simp [restB]
    rw [e]
    congr 1
    exact (List.map_congr_left (g := id) fun c hc => indent_before hc).trans (List.map_id _)
  · rw [Mover.map]
    exact lead_of hb hs

end Viml
