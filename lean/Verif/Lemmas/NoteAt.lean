/-
A comment behind a command (`Bars.lean`): the characters of the lines.
-/
import Verif.Lemmas.BarOk

namespace Viml
open Spec

/-- The position of what is at `p`, if the line behind the lines `A` gets a comment of `k` characters. -/
def notePos (A : List Str) (t : Str) (B : List Str) (p : Pos) : Pos :=
  if p.lnum ≤ A.length + 1 then p else
    ⟨p.i + (t.length + 1), p.lnum, p.col,
      if onContLine B (p.lnum - (A.length + 1)) p.col then 0 else p.offset + (bytes t + 1)⟩

def noteCell (A : List Str) (t : Str) (B : List Str) (c : Cell) : Cell := ⟨c.c, notePos A t B c.pos⟩

variable {nv : Bool} {fn : Str} {A B : List Str} {l t n s : Str} {c : Cmd}

theorem pub_note (p : Pos) : pubPos fn (notePos A t B p) = noteBy A t B (pubPos fn p) := by
  unfold notePos noteBy
  show _ = if p.lnum ≤ A.length + 1 then _ else _
  split <;> rfl

theorem runeLen_dquote : runeLen '"' = 1 := by decide

theorem note_bytes : (fileBytes (A ++ [l ++ '"' :: t])).length = (fileBytes (A ++ [l])).length + (bytes t + 1) := by
  rw [← totalLen_eq, ← totalLen_eq, totalLen_append, totalLen_append, ← bytesLen_eq]
  simp only [totalLen, bytesLen_append, bytesLen, runeLen_dquote]
  omega

/-! ### The cells -/

/-- The cells of the comment behind `"`. -/
def noteC (A : List Str) (l t : Str) : List Cell := reindex ((buildCells A).length + l.length + 1)
  (lineCells (A.length + 1) (bytesLen l + 1) (totalLen A + bytesLen l + 1) t)

theorem noteC_text : (noteC A l t).map Cell.c = t.map some := by rw [noteC, reindex_text, lineCells_text]

theorem lineC_note : lineC A (l ++ '"' :: t) = lineC A l ++ ⟨some '"', lineE A l⟩ :: noteC A l t := by
  rw [lineC, lineCells_append, reindex_append, lineCells_length]
  simp only [lineCells, reindex, runeLen_dquote, Nat.zero_add]
  rfl

theorem line_buf (h : isCont l = false) : (mkEnv (A ++ [l])).buf = (mkEnv A).buf ++ (lineC A l ++ [⟨none, lineE A l⟩]) := by
  rw [mkEnv_append (noCont_cons (noCont_iff.1 h))]
  show _ ++ restB A [l] = _
  rw [restB_cells h, reindex_append, lineCells_length]
  rfl

theorem note_move (k : Nat) (x : Option Char) {p : Pos} (h : 0 < p.lnum) :
    notePos A t B (moveCell (A ++ [l]) B k ⟨x, p⟩).pos = (moveCell (A ++ [l ++ '"' :: t]) B (k + (t.length + 1)) ⟨x, p⟩).pos := by
  have h1 : ¬ p.lnum + (A ++ [l]).length ≤ A.length + 1 := by simp; omega
  have h2 : (A ++ [l ++ '"' :: t]).length = A.length + 1 := by simp
  have h3 : (A ++ [l]).length = A.length + 1 := by simp
  simp only [notePos, moveCell, note_bytes, h2, h3, Nat.add_sub_cancel]
  rw [h3] at h1
  rw [if_neg h1]
  split
  · simp [Nat.add_assoc]
  · simp [Nat.add_assoc]

section
variable (h : isCont l = false) (h' : isCont (l ++ '"' :: t) = false) (hB : ∀ x, B.head? = some x → afterBackslash x = none)

include h h' in
theorem note_len : (mkEnv (A ++ [l ++ '"' :: t])).buf.length = (mkEnv (A ++ [l])).buf.length + (t.length + 1) := by
  have : (noteC A l t).length = t.length := by simpa using congrArg List.length (noteC_text (A := A) (l := l) (t := t))
  rw [line_buf h, line_buf h', lineC_note]
  simp [this]
  omega

include h h' in
theorem note_rest : (restB (A ++ [l]) B).map (noteCell A t B) = restB (A ++ [l ++ '"' :: t]) B := by
  rw [restB, List.map_map]
  refine List.map_congr_left fun c hc => ?_
  have := note_move (A := A) (l := l) (t := t) (B := B) (mkEnv (A ++ [l])).buf.length c.c (mkEnv_lnum hc).1
  rw [note_len h h']
  show (⟨_, _⟩ : Cell) = _
  rw [this]
  rfl

include hB

include h in
theorem src_buf : (mkEnv (A ++ l :: B)).buf =
    (mkEnv A).buf ++ (lineC A l ++ ⟨none, lineE A l⟩ :: restB (A ++ [l]) B) := by
  have := mkEnv_append (A := A ++ [l]) hB
  rw [List.append_assoc] at this
  rw [show A ++ l :: B = A ++ ([l] ++ B) from rfl, this]
  show (mkEnv (A ++ [l])).buf ++ restB (A ++ [l]) B = _
  rw [line_buf h]
  simp

include h' in
theorem dst_buf : (mkEnv (A ++ (l ++ '"' :: t) :: B)).buf = (mkEnv A).buf ++ (lineC A l ++ ⟨some '"', lineE A l⟩ ::
    (noteC A l t ++ ⟨none, lineE A (l ++ '"' :: t)⟩ :: restB (A ++ [l ++ '"' :: t]) B)) := by
  rw [src_buf h' hB, lineC_note]
  simp

include h in
theorem src_rest : restB A (l :: B) = lineC A l ++ ⟨none, lineE A l⟩ :: restB (A ++ [l]) B := by
  have h1 := src_buf (A := A) h hB
  rw [mkEnv_append (noCont_cons (noCont_iff.1 h))] at h1
  exact List.append_cancel_left h1

include h h'

theorem note_eof : (mkEnv (A ++ (l ++ '"' :: t) :: B)).eof = notePos A t B (mkEnv (A ++ l :: B)).eof := by
  rw [show A ++ (l ++ '"' :: t) :: B = A ++ [l ++ '"' :: t] ++ B by simp, show A ++ l :: B = A ++ [l] ++ B by simp,
    moverB_eof _ hB, moverB_eof _ hB, note_move _ _ (mkEnv_eof_lnum B), note_len h h']

end

theorem note_fix {p : Pos} (h : p.lnum ≤ A.length + 1) : notePos A t B p = p := by
  unfold notePos
  rw [if_pos h]

theorem lineC_fix : (lineC A l).map (noteCell A t B) = lineC A l := by
  refine (List.map_congr_left (g := id) fun c hc => ?_).trans (List.map_id _)
  show (⟨c.c, notePos A t B c.pos⟩ : Cell) = c
  rw [note_fix (by have := lineC_lnum hc; omega)]

theorem before_fix : (mkEnv A).buf.map (noteCell A t B) = (mkEnv A).buf := by
  refine (List.map_congr_left (g := id) fun c hc => ?_).trans (List.map_id _)
  show (⟨c.c, notePos A t B c.pos⟩ : Cell) = c
  rw [note_fix (by have := (mkEnv_lnum hc).2; omega)]

theorem lineE_fix (o : Option Char) : noteCell A t B ⟨o, lineE A l⟩ = ⟨o, lineE A l⟩ := by
  show (⟨o, notePos A t B (lineE A l)⟩ : Cell) = _
  rw [note_fix (by simp [lineE])]

/-! ### The place -/

section
variable (h : isCont l = false) (h' : isCont (l ++ '"' :: t) = false) (hB : ∀ x, B.head? = some x → afterBackslash x = none)
include h h' hB

theorem note_place {r : List Cell} (hr : r <:+ (mkEnv (A ++ l :: B)).buf) :
    ∃ r', r' <:+ (mkEnv (A ++ (l ++ '"' :: t) :: B)).buf ∧
      posOf (mkEnv (A ++ (l ++ '"' :: t) :: B)) r' = notePos A t B (posOf (mkEnv (A ++ l :: B)) r) := by
  have he := note_eof (A := A) h h' hB
  have eR := note_rest (A := A) (B := B) h h'
  have hs := src_buf (A := A) h hB
  have hd := dst_buf (A := A) h' hB
  generalize mkEnv (A ++ l :: B) = X at *
  generalize mkEnv (A ++ (l ++ '"' :: t) :: B) = Y at *
  generalize hP : (mkEnv A).buf ++ (lineC A l ++ [⟨none, lineE A l⟩]) = P
  have hfix : ∀ c ∈ P, notePos A t B c.pos = c.pos := by
    intro c hc
    refine note_fix ?_
    rw [← hP] at hc
    simp only [List.mem_append, List.mem_singleton] at hc
    rcases hc with hc | hc | rfl
    · have := (mkEnv_lnum hc).2; omega
    · have := lineC_lnum hc; omega
    · simp [lineE]
  generalize hP' : (mkEnv A).buf ++ (lineC A l ++ [⟨some '"', lineE A l⟩]) = P'
  have hpos : P'.map Cell.pos = P.map Cell.pos := by rw [← hP, ← hP']; simp
  have hs : X.buf = P ++ restB (A ++ [l]) B := by rw [hs, ← hP]; simp
  have hd : ∃ Z, Y.buf = P' ++ (Z ++ restB (A ++ [l ++ '"' :: t]) B) :=
    ⟨noteC A l t ++ [⟨none, lineE A (l ++ '"' :: t)⟩], by rw [hd, ← hP']; simp⟩
  obtain ⟨Z, hd⟩ := hd
  obtain ⟨u, hu⟩ := hr
  have key : r <:+ restB (A ++ [l]) B → ∃ r', r' <:+ Y.buf ∧ posOf Y r' = notePos A t B (posOf X r) := by
    intro i
    refine ⟨r.map (noteCell A t B), ?_, ?_⟩
    · refine (i.map _).trans ?_
      rw [eR, hd]
      exact ⟨P' ++ Z, by simp⟩
    · cases r with
      | nil => exact he
      | cons c r => rfl
  rw [hs] at hu
  rcases List.append_eq_append_iff.1 hu with ⟨a, e1, e2⟩ | ⟨a, e1, e2⟩
  · cases a with
    | nil => exact key (by rw [e2]; exact List.suffix_rfl)
    | cons c a =>
      refine ⟨P'.drop u.length ++ (Z ++ restB (A ++ [l ++ '"' :: t]) B), ?_, ?_⟩
      · rw [hd]
        exact ⟨P'.take u.length, by rw [← List.append_assoc, List.take_append_drop]⟩
      · have e : (P'.drop u.length).map Cell.pos = (c :: a).map Cell.pos := by
          rw [List.map_drop, hpos, ← List.map_drop, e1, List.drop_left]
        rw [e2]
        cases ey : P'.drop u.length with
        | nil => rw [ey] at e; cases e
        | cons d y =>
          rw [ey] at e
          injection e with e
          show d.pos = notePos A t B c.pos
          rw [hfix c (by rw [e1]; simp), e]
  · exact key ⟨a, e2.symm⟩

end

section
variable (fn) (A) (h : isCont l = false) (h' : isCont (l ++ '"' :: t) = false)
  (hB : ∀ x, B.head? = some x → afterBackslash x = none)

def noteCarry : Carry (mkEnv (A ++ l :: B)) (mkEnv (A ++ (l ++ '"' :: t) :: B)) fn where
  q0 := []
  q := []
  f := noteCell A t B
  m := noteBy A t B
  bd := True
  char _ := rfl
  pos c := pub_note c.pos
  eof _ := ⟨rfl, rfl, by rw [note_eof h h' hB, pub_note]⟩

def noteMover : Mover (mkEnv (A ++ l :: B)) (mkEnv (A ++ (l ++ '"' :: t) :: B)) fn where
  κ := noteCarry fn A h h' hB
  bd := trivial
  mp := notePos A t B
  pos _ := rfl
  eof := note_eof h h' hB
  buf r hr := by
    obtain ⟨r', h1, e⟩ := note_place h h' hB hr
    refine ⟨r', h1, ?_, e⟩
    show pubPos fn _ = noteBy A t B (pubPos fn _)
    rw [e, pub_note]

end

/-- Environments that are carried to one of a file. -/
theorem oneWay_of {env env' : Env} {x : List Cell} (κ : Carry env' env fn) (hb : κ.bd) (he : EnvOK env)
    (hs : κ.tr x <:+ env.buf) : OneWay env' fn x := by
  have key : ∀ r, κ.tr r = r.map κ.f := by
    intro r
    have : ∀ r, κ.In r := fun r => Carry.bd_in hb r
    induction r with
    | nil => exact Carry.tr_nil hb
    | cons c r ih => rw [Carry.tr_cons (this r).to, ih]; rfl
  have hs' : ∀ {r}, r <:+ x → κ.tr r <:+ env.buf := by
    intro r hr
    rw [key] at hs ⊢
    exact (hr.map _).trans hs
  have same : ∀ {r r1 r2}, r1 <:+ r → r2 <:+ r → κ.tr r1 = κ.tr r2 → r1 = r2 := by
    intro r r1 r2 h1 h2 e
    rw [key, key] at e
    have hl : r1.length = r2.length := by simpa using congrArg List.length e
    exact (List.suffix_of_suffix_length_le h1 h2 (by omega)).eq_of_length hl
  have lhs : ∀ {S' : List Cell → Ast.Expr → List Cell → Prop} {S m} (hS : Carry.Kinds κ S' S)
      (hL : ∀ {r e r'}, S' r e r' → r' <:+ r)
      (hm : Par env (Export.expr fn) m S), ∀ {r l ls y l' ls' y' r1 r2}, r <:+ x → LhsAt env' fn S' r l ls y r1 →
      LhsAt env' fn S' r l' ls' y' r2 → r1 = r2 := by
    intro S' S m hS hL hm r l ls y l' ls' y' r1 r2 hr h1 h2
    have g1 := (Carry.lhsAt hS (Carry.bd_in hb _) h1).2
    have g2 := (Carry.lhsAt hS (Carry.bd_in hb _) h2).2
    obtain ⟨_, _, _, o1⟩ := (par_lhs he hm _ (hs' hr)).2 (_, _, _) _ g1
    obtain ⟨_, _, _, o2⟩ := (par_lhs he hm _ (hs' hr)).2 (_, _, _) _ g2
    exact same (leaves_lhs hL h1) (leaves_lhs hL h2) (o1.det o2).2
  refine ⟨?_, lhs Carry.target_ leaves_target (par_target he), lhs Carry.constTarget (fun h => leaves_target h.1) (par_const he)⟩
  intro k r a b r1 r2 hr h1 h2
  have g1 := (Carry.gram (κ := κ) h1 (Carry.bd_in hb _)).2
  have g2 := (Carry.gram (κ := κ) h2 (Carry.bd_in hb _)).2
  exact same (leaves_gram h1) (leaves_gram h2) (gram_unique he (hs' hr) g1 g2).2

/-- Behind the blanks there is an expression. -/
theorem gram_starts {env : Env} {k : Nat} {e : Ast.Expr} {r r' ra : List Cell} (h : Gram env fn k r e r') (hs : Skip r ra) :
    ¬ (AtEnd ra ∨ headSym ra = .ch '|') := by
  obtain ⟨w, h1, h2, _⟩ := hs
  rintro (he | he)
  · obtain ⟨v, r2, h3, x, hx, hw⟩ := gram_solid h
    rcases reads_prefix h3 h1 with ⟨y, rfl⟩ | ⟨y, rfl⟩
    · have := h2 x (by simp [hx])
      rw [this] at hw
      cases hw
    · obtain ⟨r3, h4, h5⟩ := h3.split
      rw [h4.rest_unique h1] at h5
      cases y with
      | nil =>
        have := h2 x (by simpa using hx)
        rw [this] at hw
        cases hw
      | cons z y => rcases he with he | he <;> rw [reads_head h5] at he <;> cases he
  · exact gram_bar h ⟨w, _, h1, h2, he⟩

/-- The comment in the lines. -/
def noteHang (env : Env) (fn : Str) (p : Pos) (Q q1 : List Cell) : Hang env env fn fn where
  e0 := ⟨none, p⟩
  q0 := Q
  q := ⟨some '"', p⟩ :: q1
  f := id
  m := id
  t := ⟨.dquote, ['"'], p⟩
  t' := q1
  nl := rfl
  char _ := rfl
  pos _ := rfl
  pend := rfl
  head_q := .inr ⟨'"', by decide, rfl⟩
  tok := .text [] _ _ .dquote ['"'] _ (Reads.nil _) (by simp) ⟨[_], rfl, rfl⟩ (.dquote _)
  closing := by simp [Closing]

section
variable {env : Env} {p : Pos} {Q q1 : List Cell}

theorem noteHang_tr : ∀ (X : List Cell), (noteHang env fn p Q q1).tr (X ++ ⟨none, p⟩ :: Q) = X ++ ⟨some '"', p⟩ :: q1 := by
  intro X
  show List.map id (List.take ((X ++ ⟨none, p⟩ :: Q).length - (Q.length + 1)) _) ++ _ = _
  have : (X ++ ⟨none, p⟩ :: Q).length - (Q.length + 1) = X.length := by simp
  rw [this, List.take_left, List.map_id]
  rfl

theorem noteHang_in {l : Str} (hp : Plain l) : ∀ (X : List Cell) (u v : Str), u ++ v = l →
    X.map Cell.c = v.map some → (noteHang env fn p Q q1).In (X ++ ⟨none, p⟩ :: Q)
  | [], u, v, _, _ => .stop
  | c :: X, u, [], _, e => by cases e
  | c :: X, u, y :: v, h, e => by
    injection e with e1 e2
    refine .cons e1 (.inr ⟨fun e3 => ?_, ?_⟩) (noteHang_in hp X (u ++ [y]) v (by simpa using h) e2)
    · have hX : X = [] := by
        have : (X ++ ⟨none, p⟩ :: Q).length = (Q.length + 1) := congrArg List.length e3
        simp only [List.length_append, List.length_cons] at this
        exact List.eq_nil_of_length_eq_zero (by omega)
      subst hX
      have hv : v = [] := by cases v with | nil => rfl | cons => cases e2
      subst hv
      subst h
      have e : (u ++ [y]).getLast? = some y := by simp
      have h1 := hp.1
      rw [e] at h1
      exact ⟨fun e => h1 (by rw [e]), fun e => by cases e⟩
    · rintro rfl t ⟨q, h1, h2⟩
      have hq : q = X := by
        have h1 : X ++ (⟨none, p⟩ :: Q) = q ++ (⟨none, p⟩ :: Q) := h1
        exact (List.append_cancel_right h1).symm
      subst hq
      have : t = v := (List.map_inj_right fun _ _ h => Option.some.inj h).1 (h2.symm.trans e2)
      subst this
      exact hp.2 u t h.symm

end

theorem noted (hA : Between nv fn A) (hn : l = n ++ s) (ht : TableCmd nv n c) (hc : c.name ∈ noteCmds) (hs : StopsAt isalpha s)
    (hp : Plain l) (hB : ∀ x, B.head? = some x → afterBackslash x = none) (ok : BarOk fn c s)
    (hv : c.name = cs!"return" → ∃ l e, s = ' ' :: l ∧ Phrase l e) :
    ∃ ι : Attached nv (A ++ l :: B) (mkEnv (A ++ (l ++ '"' :: t) :: B)) fn, ι.κ.m = noteBy A t B ∧
      ι.μ.mp = notePos A t B ∧ ι.κ.q0 = restB A (l :: B) ∧ ι.ws = [noteAt fn A l t] := by
  subst hn
  have hcb := note_bar _ hc
  have hsp : Spells nv n s c := bar_spells ht hcb hs
  have hw_ := letter_noCont (s := s) hsp.letters.1 hsp.letters.2
  have hw' := letter_noCont (s := s ++ '"' :: t) hsp.letters.1 hsp.letters.2
  rw [← List.append_assoc] at hw'
  have i1 := noCont_iff.2 hw_
  have i3 := noCont_iff.2 hw'
  obtain ⟨cx, b, used, hf⟩ := between_front (B := (n ++ s) :: B) hA (noCont_cons hw_)
  let E := mkEnv (A ++ (n ++ s) :: B)
  let E' := mkEnv (A ++ (n ++ s ++ '"' :: t) :: B)
  let μ := noteMover fn A i1 i3 hB
  let Q := restB (A ++ [n ++ s ++ '"' :: t]) B
  let q1 := noteC A (n ++ s) t ++ ⟨none, lineE A (n ++ s ++ '"' :: t)⟩ :: Q
  let κ : Carry E E' fn :=
    { q0 := restB A ((n ++ s) :: B), q := lineC A (n ++ s) ++ ⟨some '"', lineE A (n ++ s)⟩ :: q1,
      f := noteCell A t B, m := noteBy A t B, bd := False, char := fun _ => rfl,
      pos := fun c => pub_note c.pos, eof := False.elim }
  have e1 : μ.tr κ.q0 = lineC A (n ++ s) ++ ⟨none, lineE A (n ++ s)⟩ :: Q := by
    rw [Mover.map]
    show List.map (noteCell A t B) (restB A ((n ++ s) :: B)) = _
    rw [src_rest i1 hB, List.map_append, List.map_cons, lineC_fix, lineE_fix, note_rest i1 i3]
  let η := noteHang E' fn (lineE A (n ++ s)) Q q1
  have e2 : κ.q = η.tr (μ.tr κ.q0) := by rw [e1]; exact (noteHang_tr _).symm
  have hx : ∃ X Y, lineC A (n ++ s) = X ++ Y ∧ X.map Cell.c = n.map some ∧ Y.map Cell.c = s.map some ∧
      Y = reindex ((buildCells A).length + n.length) (lineCells (A.length + 1) (bytesLen n) (totalLen A + bytesLen n) s) := by
    refine ⟨reindex (buildCells A).length (lineCells (A.length + 1) 0 (totalLen A) n), _, ?_, ?_, ?_, rfl⟩
    · rw [lineC, lineCells_append, reindex_append, lineCells_length, Nat.zero_add]
    · rw [reindex_text, lineCells_text]
    · rw [reindex_text, lineCells_text]
  obtain ⟨X, Y, ex, hX, hY, hY'⟩ := hx
  have hin : η.In (μ.tr κ.q0) := by
    rw [e1]
    exact noteHang_in hp _ [] (n ++ s) rfl (by rw [lineC_text])
  have hw : Barred nv E' fn n c η [noteAt fn A (n ++ s) t] (μ.tr κ.q0) := by
    refine ⟨rfl, .inr rfl, ?_, hin, ?_, hcb⟩
    · have e : noteAt fn A (n ++ s) t = .comment (Spec.here E' fn η.q) t := by
        rw [noteAt]
        show _ = Ast.Stmt.comment (pubPos fn (lineE A (n ++ s))) t
        rw [← totalLen_eq, ← bytesLen_eq]
        rfl
      rw [e]
      exact .comment (skip_self rfl) (.mk (r1 := q1) ⟨[_], rfl, rfl⟩ ⟨noteC A (n ++ s) t, rfl, noteC_text⟩ rfl)
    obtain ⟨u', hu'⟩ := exists_line (η.tr (Y ++ ⟨none, lineE A (n ++ s)⟩ :: Q))
    have hst : StopsAt isalpha u' := by
      refine line_halts hu' ?_
      rw [show η.tr (Y ++ ⟨none, lineE A (n ++ s)⟩ :: Q) = _ from noteHang_tr _]
      cases s with
      | nil =>
        have : Y = [] := List.map_eq_nil_iff.1 hY
        rw [this]
        rfl
      | cons y s =>
        cases Y with
        | nil => cases hY
        | cons d Y =>
          injection hY with e _
          simp only [List.cons_append, headSym, Cell.sym, e]
          exact hs y rfl
    refine ⟨Y ++ ⟨none, lineE A (n ++ s)⟩ :: Q, s, u', ?_, ?_, hu', hsp, bar_spells ht hcb hst, ?_⟩
    · rw [e1, ex, List.append_assoc]
      exact ⟨X, rfl, hX⟩
    · exact ⟨_, ⟨Y, rfl, hY⟩, .inl rfl⟩
    · intro b r2 ra h1 h2
      have ow : OneWay E' fn (Y ++ ⟨none, lineE A (n ++ s)⟩ :: Q) := by
        let g : Cell → Cell := fun c => ⟨c.c, ⟨if c.pos.lnum ≤ A.length + 1 then c.pos.i else c.pos.i - (t.length + 1), 0, 0, 0⟩⟩
        let E2 : Env := ⟨(E.buf.map (noteCell A t B)).map g, ⟨E.buf.length, 0, 0, 0⟩⟩
        let δ : Carry E' E2 fn :=
          { q0 := [], q := [], f := g, m := fun _ => ⟨0, 0, 0, fn⟩, bd := True,
            char := fun _ => rfl
            pos := fun _ => rfl
            eof := fun _ => ⟨rfl, rfl, rfl⟩ }
        refine oneWay_of δ trivial (env := E2) ⟨?_, ?_, ?_⟩ ?_
        · intro k c hk
          simp only [E2, List.getElem?_map, Option.map_eq_some_iff] at hk
          obtain ⟨_, ⟨d, hd, rfl⟩, rfl⟩ := hk
          have := (mkEnv_ok _).idx k d hd
          rw [← this]
          by_cases hd' : d.pos.lnum ≤ A.length + 1
          · simp [g, noteCell, notePos, hd']
          · simp [g, noteCell, notePos, hd']
        · simp [E2]
        · rcases (mkEnv_ok (A ++ (n ++ s) :: B)).last with e | ⟨i, q, e⟩
          · left
            show (E.buf.map _).map _ = []
            rw [show E.buf = _ from e]
            rfl
          · right
            refine ⟨(i.map (noteCell A t B)).map g, (g (noteCell A t B ⟨none, q⟩)).pos, ?_⟩
            show (E.buf.map _).map _ = _
            rw [show E.buf = _ from e, List.map_append, List.map_append]
            rfl
        · have key : ∀ r, δ.tr r = r.map g := by
            intro r
            have : ∀ r, δ.In r := fun r => Carry.bd_in trivial r
            induction r with
            | nil => exact Carry.tr_nil trivial
            | cons c r ih => rw [Carry.tr_cons (this r).to, ih]; rfl
          rw [key]
          refine List.IsSuffix.map _ ?_
          rw [show E.buf = _ from src_buf i1 hB, List.map_append, List.map_append, List.map_cons, lineC_fix, lineE_fix,
            note_rest i1 i3, ex, List.append_assoc]
          exact ((List.suffix_append X _).trans (List.suffix_append _ _))
      subst hY'
      have he : η.e0 = ⟨none, ⟨(buildCells A).length + n.length + s.length, A.length + 1, bytesLen n + bytesLen s + 1,
          totalLen A + bytesLen n + bytesLen s⟩⟩ := by
        show (⟨none, lineE A (n ++ s)⟩ : Cell) = _
        simp only [lineE, List.length_append, bytesLen_append, Cell.mk.injEq, Pos.mk.injEq, true_and]
        omega
      have hret : c.name = cs!"return" → ∀ {b r2 ra r1}, Bang c (reindex ((buildCells A).length + n.length)
          (lineCells (A.length + 1) (bytesLen n) (totalLen A + bytesLen n) s) ++ η.e0 :: η.q0) b r2 → Skip r2 ra →
          Skip ra r1 → ¬ (AtEnd r1 ∨ headSym r1 = .ch '|') := by
        intro er b r2 ra r1 b1 b2 b3
        obtain ⟨l, e, rfl, hph⟩ := hv er
        have hr : runeLen ' ' = 1 := by decide
        obtain ⟨e', y, g1, _⟩ := hph.at_end (env := E') (fn := fn) (N := (buildCells A).length + n.length + 1) (K := A.length + 1)
          (C := bytesLen n + 1) (O := totalLen A + bytesLen n + 1) (Q := η.q0) (e0 := η.e0) (by
            rw [he]
            simp only [List.length_cons, bytesLen, hr, Cell.mk.injEq, Pos.mk.injEq, true_and]
            omega)
        simp only [lineCells, reindex, hr, List.cons_append] at b1
        have hb : ∀ {x : List Cell}, Bang c x b r2 → headSym x = .ch ' ' → r2 = x := by
          intro x b1 hx
          cases b1 with
          | yes hB =>
            rw [reads_head hB] at hx
            cases hx
          | no => rfl
        rw [hb b1 rfl] at b2
        have b4 := b2
        obtain ⟨w, _, _, h⟩ := b2
        have e3 : ra = r1 := (skip_self h).det b3
        rw [← e3]
        exact gram_starts (gram_lead g1 ⟨[' '], ⟨[_], rfl, rfl⟩, by decide⟩) b4
      have ok := ok η he rfl (.inr rfl) (fun _ => ⟨hc, hret⟩)
        (Hang.reads hin ⟨X, by rw [e1, ex, List.append_assoc]; rfl, hX⟩).1 ow h1 h2
      exact ⟨ok.1, fun _ => ⟨hc, fun er _ h3 => hret er h1 h2 h3⟩, fun h3 h4 => ok.2 h3 h4⟩
  refine ⟨⟨⟨κ, id, restB_ne (by simp), to_restB κ (noCont_cons hw_) rfl, ?_⟩, μ, rfl, _, e2 ▸ hw.attach, cx, b, used, hf⟩,
    rfl, rfl, rfl, rfl⟩
  rw [show E'.buf = _ from dst_buf i3 hB, mkEnv_append (noCont_cons hw_)]
  show List.map _ (List.take _ _) ++ κ.q = _
  have e : List.take (((mkEnv A).buf ++ restB A ((n ++ s) :: B)).length - κ.q0.length)
      ((mkEnv A).buf ++ restB A ((n ++ s) :: B)) = (mkEnv A).buf := by
    show List.take (_ - (restB A ((n ++ s) :: B)).length) _ = _
    simp
  have e' := congrArg (fun y => List.map κ.f y ++ κ.q) e
  refine e'.trans ?_
  show (mkEnv A).buf.map (noteCell A t B) ++ _ = _
  rw [before_fix]

end Viml
