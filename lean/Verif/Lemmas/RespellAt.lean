/-
A name at the start of a line is spelled in another way (`RespellMid.lean`): the characters of the lines.
-/
import Verif.Lemmas.RespellMid
import Verif.Lemmas.IndentAt

namespace Viml
open Spec

/-- The position of what is at `p`, if the name `t` at the start of the line behind the lines `A` is replaced by `t'`. -/
def respellPos (A : List Str) (t t' s : Str) (B : List Str) (p : Pos) : Pos :=
  if p.lnum ≤ A.length then p
  else if p.lnum = A.length + 1 then
    if p.col ≤ t.length then ⟨p.i - (p.col - 1), p.lnum, 1, p.offset - (p.col - 1)⟩
    else ⟨p.i - t.length + t'.length, p.lnum, p.col - t.length + t'.length, p.offset - t.length + t'.length⟩
  else ⟨p.i - t.length + t'.length, p.lnum, p.col,
    if onContLine (s :: B) (p.lnum - A.length) p.col then 0 else p.offset - t.length + t'.length⟩

def respellCell (A : List Str) (t t' s : Str) (B : List Str) (c : Cell) : Cell := ⟨c.c, respellPos A t t' s B c.pos⟩

variable {nv : Bool} {fn : Str} {A B : List Str} {t t' s u : Str} {c : Cmd}

theorem pub_respell (p : Pos) : pubPos fn (respellPos A t t' s B p) = respellBy A t t' s B (pubPos fn p) := by
  unfold respellPos respellBy
  show _ = if p.lnum ≤ A.length then _ else if p.lnum = A.length + 1 then if p.col ≤ t.length then _ else _ else _
  split
  · rfl
  · split
    · split <;> rfl
    · rfl

theorem letters_bytes : ∀ t : Str, (∀ x ∈ t, isalpha x = true) → bytesLen t = t.length
  | [], _ => rfl
  | x :: t, h => by
    have h1 := h x (by simp)
    have h2 : runeLen x = 1 := by
      show x.utf8Size = 1
      simp only [isalpha, isUpperC, isLowerC, Bool.or_eq_true, Bool.and_eq_true, decide_eq_true_eq] at h1
      have : x.toNat ≤ 127 := by
        rcases h1 with ⟨_, h⟩ | ⟨_, h⟩
        · have : x.toNat ≤ 'Z'.toNat := h
          have e : 'Z'.toNat = 90 := by decide
          omega
        · have : x.toNat ≤ 'z'.toNat := h
          have e : 'z'.toNat = 122 := by decide
          omega
      rw [Char.utf8Size]
      split
      · rfl
      · rename_i hh
        exact absurd (UInt32.le_iff_toNat_le.2 (by simpa using this)) hh
    simp only [bytesLen, List.length_cons, h2, letters_bytes t fun y hy => h y (by simp [hy])]
    omega

theorem letters_cells : ∀ (t : Str) (n col off : Nat), (∀ x ∈ t, isalpha x = true) →
    ∀ c ∈ reindex n (lineCells 1 col off t), ∃ j, j < t.length ∧ c.pos = ⟨n + j, 1, col + j + 1, off + j⟩
  | [], _, _, _, _, c, hc => by cases hc
  | x :: t, n, col, off, h, c, hc => by
    have h1 : runeLen x = 1 := by
      have := letters_bytes [x] fun y hy => h y (by simp_all)
      simpa [bytesLen] using this
    simp only [lineCells, reindex, List.mem_cons] at hc
    rcases hc with rfl | hc
    · exact ⟨0, by simp, rfl⟩
    · obtain ⟨j, hj, e⟩ := letters_cells t _ _ _ (fun y hy => h y (by simp [hy])) c hc
      rw [h1] at e
      refine ⟨j + 1, by simp only [List.length_cons]; omega, ?_⟩
      rw [e]
      simp only [Pos.mk.injEq, true_and]
      omega

/-- The position of the name. -/
def nameAt (A : List Str) : Pos := ⟨(mkEnv A).buf.length, A.length + 1, 1, (fileBytes A).length⟩

theorem name_cell (h : ∀ x ∈ t, isalpha x = true) {c : Cell} (hc : c ∈ wAt A t s B) :
    respellPos A t t' s B c.pos = nameAt A ∧ A.length < c.pos.lnum := by
  obtain ⟨d, hd, rfl⟩ := List.mem_map.1 hc
  obtain ⟨j, hj, e⟩ := letters_cells t _ _ _ h d hd
  have e0 : ∀ (L : List Str) col, onContLine L 1 col = false := fun L col => by simp [onContLine]
  simp only [moveCell, e, e0, Bool.false_eq_true, if_false]
  refine ⟨?_, by omega⟩
  unfold respellPos
  rw [if_neg (by simp only; omega), if_pos (by simp only; omega), if_pos (by simp only; omega)]
  simp only [nameAt, Pos.mk.injEq, true_and]
  omega

theorem name_first (ht : t' ≠ []) (r : List Cell) (env : Env) : posOf env (wAt A t' s B ++ r) = nameAt A := by
  cases t' with
  | nil => exact absurd rfl ht
  | cons x t' =>
    have e0 : ∀ (L : List Str) col, onContLine L 1 col = false := fun L col => by simp [onContLine]
    simp only [wAt, wCells, lineCells, reindex, List.map_cons, List.cons_append, posOf, moveCell, nameAt, e0,
      Bool.false_eq_true, if_false, Pos.mk.injEq, true_and]
    omega

theorem respell_indent (h : ∀ x ∈ t, isalpha x = true) (h' : ∀ x ∈ t', isalpha x = true) {p : Pos}
    (hp : A.length < p.lnum) (hc : p.lnum = A.length + 1 → 0 < p.col) :
    respellPos A t t' s B (indentPos A t s B p) = indentPos A t' s B p := by
  have b1 : bytes t = t.length := by rw [← bytesLen_eq, letters_bytes t h]
  have b2 : bytes t' = t'.length := by rw [← bytesLen_eq, letters_bytes t' h']
  by_cases e : p.lnum = A.length + 1
  · have := hc e
    simp only [indentPos, if_neg (Nat.not_le.2 hp), if_pos e, b1, b2]
    simp only [respellPos, if_neg (Nat.not_le.2 hp), if_pos e]
    rw [if_neg (by omega)]
    simp only [Pos.mk.injEq, true_and]
    omega
  · simp only [indentPos, if_neg (Nat.not_le.2 hp), if_neg e, b1, b2]
    simp only [respellPos, if_neg (Nat.not_le.2 hp), if_neg e]
    simp only [Pos.mk.injEq, true_and]
    split
    · exact ⟨by omega, rfl⟩
    · omega

/-! ### Columns -/

theorem lineCells_col (n : Nat) : ∀ (l : Str) (col off : Nat), ∀ c ∈ lineCells n col off l, 0 < c.pos.col
  | [], _, _, _, h => by cases h
  | x :: l, col, off, c, h => by
    simp only [lineCells, List.mem_cons] at h
    rcases h with rfl | h
    · exact Nat.succ_pos _
    · exact lineCells_col n l _ _ c h

theorem contCells_col (n : Nat) : ∀ (l : Str) (b : Bool) (col : Nat), ∀ c ∈ contCells n b col l, 0 < c.pos.col
  | [], b, _, _, h => by cases b <;> cases h
  | x :: l, true, col, c, h => by
    simp only [contCells] at h
    exact contCells_col n l _ _ c h
  | x :: l, false, col, c, h => by
    simp only [contCells, List.mem_cons] at h
    rcases h with rfl | h
    · exact Nat.succ_pos _
    · exact contCells_col n l _ _ c h

theorem buildRest_col : ∀ (ls : List Str) (n col off : Nat), ∀ c ∈ buildRest ls n col off, 0 < c.pos.col
  | [], _, _, _, c, h => by
    simp only [buildRest, List.mem_singleton] at h
    subst h
    exact Nat.succ_pos _
  | l :: ls, n, col, off, c, h => by
    simp only [buildRest] at h
    split at h
    · rcases List.mem_append.1 h with h | h
      · exact contCells_col _ _ _ _ c h
      · exact buildRest_col ls _ _ _ c h
    · rcases List.mem_cons.1 h with rfl | h
      · exact Nat.succ_pos _
      · rcases List.mem_append.1 h with h | h
        · exact lineCells_col _ _ _ _ c h
        · exact buildRest_col ls _ _ _ c h

theorem reindex_mem : ∀ {cs : List Cell} {n : Nat} {c : Cell}, c ∈ reindex n cs → ∃ d ∈ cs, d.pos.col = c.pos.col
  | d :: cs, n, c, h => by
    simp only [reindex, List.mem_cons] at h
    rcases h with rfl | h
    · exact ⟨d, by simp, rfl⟩
    · obtain ⟨e, he, h⟩ := reindex_mem h
      exact ⟨e, by simp [he], h⟩

theorem restB_col {L : List Str} {c : Cell} (h : c ∈ restB A L) : 0 < c.pos.col ∧ A.length < c.pos.lnum := by
  obtain ⟨d, hd, rfl⟩ := List.mem_map.1 h
  have h1 := (mkEnv_lnum hd).1
  obtain ⟨e, he, e1⟩ := reindex_mem hd
  refine ⟨?_, by simp only [moveCell]; omega⟩
  show 0 < d.pos.col
  rw [← e1]
  cases L with
  | nil => cases he
  | cons l L =>
    simp only [buildCells] at he
    rcases List.mem_append.1 he with h | h
    · exact lineCells_col _ _ _ _ e h
    · exact buildRest_col _ _ _ _ e h

/-! ### The place -/

theorem alpha_noSpace {x : Char} (h : isalpha x = true) : isSpaceRe x = false := by
  have key : ∀ y, isSpaceRe y = true → isalpha y = false := by
    intro y hy
    simp only [isSpaceRe, Bool.or_eq_true, beq_iff_eq] at hy
    rcases hy with ((((rfl | rfl) | rfl) | rfl) | rfl) <;> rfl
  cases e : isSpaceRe x with
  | false => rfl
  | true => rw [key x e] at h; cases h

theorem letter_noCont (ht : t ≠ []) (h : ∀ x ∈ t, isalpha x = true) : afterBackslash (t ++ s) = none := by
  cases t with
  | nil => exact absurd rfl ht
  | cons x t =>
    have hx := alpha_not (h x (by simp))
    have : isCont (x :: t ++ s) = false := by
      have h1 : x ≠ '\\' := fun e => hx.2.2.2.2.2 (by subst e; decide)
      simp [isCont, h1, alpha_noSpace (h x (by simp))]
    rw [isCont_iff] at this
    simpa using this

theorem restB_ind (w l : Str) : restB A ((w ++ l) :: B) = wAt A w l B ++ (restB A (l :: B)).map (indentCell A w l B) := by
  rw [restB, mkEnv_ind, List.map_append, indent_buf]

theorem eof_ind {w l : Str} (hw : afterBackslash (w ++ l) = none) : (mkEnv (A ++ (w ++ l) :: B)).eof =
    indentPos A w l B (moveCell A (l :: B) (mkEnv A).buf.length ⟨none, (mkEnv (l :: B)).eof⟩).pos := by
  rw [moverB_eof A (by rintro _ ⟨⟩; exact hw), indent_move _ _ (mkEnv_eof_lnum _)]
  have e : (mkEnv ((w ++ l) :: B)).eof = indPos (l :: B) (bytesLen w) w.length (mkEnv (l :: B)).eof := by
    have h1 : (mkEnv ((w ++ l) :: B)).buf.length = (mkEnv (l :: B)).buf.length + w.length := by
      rw [mkEnv_ind]
      simp [wCells, reindex_length, lineCells_length, Nat.add_comm]
    show (⟨(mkEnv ((w ++ l) :: B)).buf.length, _, _, _⟩ : Pos) = indPos _ _ _ ⟨(mkEnv (l :: B)).buf.length, _, _, _⟩
    rw [h1]
    simp [indPos, totalLen, onContLine, bytesLen_append]
    omega
  rw [e]

section
variable (ht : t ≠ []) (h : ∀ x ∈ t, isalpha x = true) (ht' : t' ≠ []) (h' : ∀ x ∈ t', isalpha x = true)
include ht h ht' h'

theorem respell_eof : (mkEnv (A ++ (t' ++ s) :: B)).eof = respellPos A t t' s B (mkEnv (A ++ (t ++ s) :: B)).eof := by
  rw [eof_ind (letter_noCont ht' h'), eof_ind (letter_noCont ht h), respell_indent h h']
  · simp only [moveCell]
    have := mkEnv_eof_lnum (s :: B)
    omega
  · intro e
    simp only [moveCell, mkEnv, List.length_cons] at e
    omega

omit ht ht' in
theorem respell_rest : ((restB A (s :: B)).map (indentCell A t s B)).map (respellCell A t t' s B) =
    (restB A (s :: B)).map (indentCell A t' s B) := by
  rw [List.map_map]
  refine List.map_congr_left fun c hc => ?_
  obtain ⟨h1, h2⟩ := restB_col hc
  show (⟨_, _⟩ : Cell) = ⟨_, _⟩
  rw [show (indentCell A t s B c).pos = indentPos A t s B c.pos from rfl, respell_indent h h' h2 fun _ => h1]
  rfl

theorem respell_place {r : List Cell} (hr : r <:+ (mkEnv (A ++ (t ++ s) :: B)).buf) :
    ∃ r', r' <:+ (mkEnv (A ++ (t' ++ s) :: B)).buf ∧
      posOf (mkEnv (A ++ (t' ++ s) :: B)) r' = respellPos A t t' s B (posOf (mkEnv (A ++ (t ++ s) :: B)) r) := by
  have hB := noCont_cons (B := B) (letter_noCont (s := s) ht h)
  have hw' := letter_noCont (s := s) ht' h'
  let ι : Fore (A ++ (t ++ s) :: B) (mkEnv (A ++ (t ++ s) :: B)) [] := foreOf [] hB hB (by simp)
  rcases Fore.suf ι.start hr with i | i
  · obtain ⟨c, p, rfl, hp⟩ := in_lnum ι.κ hB rfl id hr i
    refine ⟨c :: p ++ (wAt A t' s B ++ (restB A (s :: B)).map (indentCell A t' s B)), ?_, ?_⟩
    · obtain ⟨t, ht⟩ := hp
      rw [indent_all hw', ← ht]
      exact ⟨t, by simp⟩
    · have hc : c ∈ (mkEnv A).buf := hp.subset (by simp)
      have := (mkEnv_lnum hc).2
      show c.pos = respellPos A t t' s B c.pos
      unfold respellPos
      rw [if_pos (by omega)]
  · change r <:+ restB A ((t ++ s) :: B) at i
    rw [restB_ind] at i
    have hi : r <:+ (restB A (s :: B)).map (indentCell A t s B) ∨
        ∃ p, p <:+ wAt A t s B ∧ r = p ++ (restB A (s :: B)).map (indentCell A t s B) ∧ p ≠ [] := by
      obtain ⟨q, hq⟩ := i
      rcases List.append_eq_append_iff.1 hq with ⟨a, h1, h2⟩ | ⟨a, h1, h2⟩
      · cases a with
        | nil => exact .inl (by rw [h2]; exact List.suffix_refl _)
        | cons y a => exact .inr ⟨y :: a, ⟨q, h1.symm⟩, h2, by simp⟩
      · exact .inl ⟨a, h2.symm⟩
    rcases hi with i | ⟨p, hp, rfl, hn⟩
    · refine ⟨r.map (respellCell A t t' s B), ?_, ?_⟩
      · refine (i.map _).trans ?_
        rw [respell_rest h h', indent_all hw']
        exact ⟨(mkEnv A).buf ++ wAt A t' s B, by rw [List.append_assoc]⟩
      · cases r with
        | nil => exact respell_eof ht h ht' h'
        | cons c r => rfl
    · refine ⟨wAt A t' s B ++ (restB A (s :: B)).map (indentCell A t' s B), ?_, ?_⟩
      · rw [indent_all hw']
        exact ⟨(mkEnv A).buf, rfl⟩
      · rw [name_first ht']
        cases p with
        | nil => exact absurd rfl hn
        | cons c p => exact (name_cell h (hp.subset (by simp))).1.symm

end

section
variable (fn) (A B) (s) (ht : t ≠ []) (h : ∀ x ∈ t, isalpha x = true) (ht' : t' ≠ []) (h' : ∀ x ∈ t', isalpha x = true)

/-- The text behind the name is moved. -/
def respellCarry : Carry (mkEnv (A ++ (t ++ s) :: B)) (mkEnv (A ++ (t' ++ s) :: B)) fn where
  q0 := []
  q := []
  f := respellCell A t t' s B
  m := respellBy A t t' s B
  bd := True
  char _ := rfl
  pos c := pub_respell c.pos
  eof _ := ⟨rfl, rfl, by rw [respell_eof ht h ht' h', pub_respell]⟩

def respellMover : Mover (mkEnv (A ++ (t ++ s) :: B)) (mkEnv (A ++ (t' ++ s) :: B)) fn where
  κ := respellCarry fn A B s ht h ht' h'
  bd := trivial
  mp := respellPos A t t' s B
  pos _ := rfl
  eof := respell_eof ht h ht' h'
  buf r hr := by
    obtain ⟨r', h1, h2⟩ := respell_place ht h ht' h' hr
    refine ⟨r', h1, ?_, h2⟩
    show pubPos fn _ = respellBy A t t' s B (pubPos fn _)
    rw [h2, pub_respell]

end

theorem line_of {f : Cell → Cell} (hf : ∀ c, (f c).c = c.c) (h : (logicalLines (s :: B)).head? = some u) :
    LineIs (((mkEnv (s :: B)).buf).map f) u := by
  have e : (((mkEnv (s :: B)).buf).map f).map Cell.c = (logicalLines (s :: B)).flatMap fun l => l.map some ++ [none] := by
    rw [List.map_map, show Cell.c ∘ f = Cell.c from funext hf]
    simp only [mkEnv, reindex_text, buildCells_text]
  cases e1 : logicalLines (s :: B) with
  | nil => rw [e1] at h; cases h
  | cons l ls =>
    rw [e1] at h e
    cases h
    simp only [List.flatMap_cons, List.append_assoc] at e
    obtain ⟨a, b, e2, e3, e4⟩ := List.map_eq_append_iff.1 e
    refine ⟨b, ⟨a, e2, e3⟩, ?_⟩
    cases b with
    | nil => cases e4
    | cons y b =>
      simp only [List.map_cons, List.singleton_append, List.cons.injEq] at e4
      exact .inl (by simp [headSym, Cell.sym, e4.1])

theorem renamed (hA : Between nv fn A) (hu : (logicalLines (s :: B)).head? = some u) (h : Spells nv t u c)
    (h' : Spells nv t' u c) :
    ∃ ι : Renamed nv (A ++ (t ++ s) :: B) (mkEnv (A ++ (t' ++ s) :: B)) fn, ι.κ.m = respellBy A t t' s B ∧
      ι.μ.mp = respellPos A t t' s B ∧ ι.κ.q0 = restB A ((t ++ s) :: B) ∧ ι.t = t ∧ ι.t' = t' ∧
      Spec.here (mkEnv (A ++ (t' ++ s) :: B)) fn (ι.μ.tr ι.κ.q0) = pubPos fn (nameAt A) ∧
      Alias nv (mkEnv (A ++ (t' ++ s) :: B)) t t' c ι.κ.q (ι.μ.tr ι.κ.q0) := by
  have hw := letter_noCont (s := s) h.letters.1 h.letters.2
  have hw' := letter_noCont (s := s) h'.letters.1 h'.letters.2
  have hB := noCont_cons (B := B) hw
  obtain ⟨cx, b, used, hf⟩ := between_front hA hB
  let μ := respellMover fn A B s h.letters.1 h.letters.2 h'.letters.1 h'.letters.2
  let κ : Carry (mkEnv (A ++ (t ++ s) :: B)) (mkEnv (A ++ (t' ++ s) :: B)) fn :=
    { q0 := restB A ((t ++ s) :: B), q := wAt A t' s B ++ (restB A (s :: B)).map (indentCell A t' s B),
      f := respellCell A t t' s B, m := respellBy A t t' s B, bd := False, char := fun _ => rfl,
      pos := fun c => pub_respell c.pos, eof := False.elim }
  have e1 : μ.tr κ.q0 = (wAt A t s B).map (respellCell A t t' s B) ++ (restB A (s :: B)).map (indentCell A t' s B) := by
    rw [Mover.map]
    show List.map (respellCell A t t' s B) (restB A ((t ++ s) :: B)) = _
    rw [restB_ind, List.map_append, respell_rest h.letters.2 h'.letters.2]
  have e2 : posOf (mkEnv (A ++ (t' ++ s) :: B)) (μ.tr κ.q0) = nameAt A := by
    rw [e1]
    cases e : wAt A t s B with
    | nil =>
      have := congrArg List.length (wAt_text (A := A) (w := t) (l := s) (B := B))
      rw [e] at this
      exact absurd (List.eq_nil_of_length_eq_zero (by simpa using this.symm)) h.letters.1
    | cons c r => exact (name_cell h.letters.2 (by rw [e]; simp)).1
  have ha : Alias nv (mkEnv (A ++ (t' ++ s) :: B)) t t' c κ.q (μ.tr κ.q0) := by
    refine ⟨⟨(restB A (s :: B)).map (indentCell A t' s B), u, ?_, ?_, ?_, h, h'⟩, ?_⟩
    · rw [e1]
      refine ⟨_, rfl, ?_⟩
      rw [List.map_map, show Cell.c ∘ respellCell A t t' s B = Cell.c from rfl, wAt_text]
    · exact ⟨_, rfl, wAt_text⟩
    · rw [restB, List.map_map]
      exact line_of (fun _ => rfl) hu
    · rw [e2]
      exact name_first h'.letters.1 _ _
  refine ⟨⟨⟨κ, id, restB_ne (by simp), to_restB κ hB rfl, ?_⟩, μ, rfl, t, t', ha.subst, cx, b, used, hf⟩,
    rfl, rfl, rfl, rfl, rfl, ?_, ha⟩
  · rw [indent_all hw', mkEnv_append hB]
    show List.map _ (List.take _ _) ++ κ.q = _
    have e : List.take (((mkEnv A).buf ++ List.map (moveCell A ((t ++ s) :: B) (mkEnv A).buf.length) (mkEnv ((t ++ s) :: B)).buf).length - κ.q0.length)
        ((mkEnv A).buf ++ List.map (moveCell A ((t ++ s) :: B) (mkEnv A).buf.length) (mkEnv ((t ++ s) :: B)).buf) = (mkEnv A).buf := by
      show List.take (_ - (restB A ((t ++ s) :: B)).length) _ = _
      simp [restB]
    rw [e]
    congr 1
    refine (List.map_congr_left (g := id) fun c hc => ?_).trans (List.map_id _)
    have := (mkEnv_lnum hc).2
    show (⟨c.c, respellPos A t t' s B c.pos⟩ : Cell) = c
    unfold respellPos
    rw [if_pos (by omega)]
  · show pubPos fn _ = _
    rw [e2]

end Viml
