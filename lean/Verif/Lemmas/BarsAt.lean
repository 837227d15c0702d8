/-
A bar instead of the end of a line (`Bars.lean`): the characters of the lines.
-/
import Verif.Lemmas.Bars
import Verif.Lemmas.RespellAt

namespace Viml
open Spec

/-- The position of what is at `p`, if the line `l` behind the lines `A` is joined with the next one. -/
def joinPos (A : List Str) (l : Str) (p : Pos) : Pos :=
  if p.lnum ≤ A.length + 1 then p
  else if p.lnum = A.length + 2 then ⟨p.i, A.length + 1, p.col + bytesLen l + 1, p.offset⟩
  else ⟨p.i, p.lnum - 1, p.col, p.offset⟩

def joinCell (A : List Str) (l : Str) (c : Cell) : Cell := ⟨c.c, joinPos A l c.pos⟩

variable {nv : Bool} {fn : Str} {A B : List Str} {l l2 n s : Str} {c : Cmd}

theorem pub_join (p : Pos) : pubPos fn (joinPos A l p) = joinBy A l (pubPos fn p) := by
  unfold joinPos joinBy
  show _ = if p.lnum ≤ A.length + 1 then _ else if p.lnum = A.length + 2 then _ else _
  rw [← bytesLen_eq]
  split
  · rfl
  · split <;> rfl

/-! ### The cells behind -/

theorem lineCells_join : ∀ (s : Str) (col off : Nat), (lineCells (A.length + 2) col off s).map (joinCell A l) =
    lineCells (A.length + 1) (col + bytesLen l + 1) off s
  | [], _, _ => rfl
  | x :: s, col, off => by
    simp only [lineCells, List.map_cons, lineCells_join s]
    simp only [joinCell, joinPos, if_neg (show ¬ A.length + 2 ≤ A.length + 1 by omega), if_true]
    rw [show col + 1 + bytesLen l + 1 = col + bytesLen l + 1 + 1 by omega,
      show col + runeLen x + bytesLen l + 1 = col + bytesLen l + 1 + runeLen x by omega]

theorem lineCells_later {n : Nat} (hn : A.length + 2 ≤ n) : ∀ (s : Str) (col off : Nat),
    (lineCells (n + 1) col off s).map (joinCell A l) = lineCells n col off s
  | [], _, _ => rfl
  | x :: s, col, off => by
    simp only [lineCells, List.map_cons, lineCells_later hn s]
    simp only [joinCell, joinPos, if_neg (show ¬ n + 1 ≤ A.length + 1 by omega), if_neg (show ¬ n + 1 = A.length + 2 by omega)]
    rfl

theorem contCells_later {n : Nat} (hn : A.length + 2 ≤ n) : ∀ (s : Str) (b : Bool) (col : Nat),
    (contCells (n + 1) b col s).map (joinCell A l) = contCells n b col s
  | [], b, _ => by cases b <;> rfl
  | x :: s, true, col => by
    simp only [contCells]
    exact contCells_later hn s _ _
  | x :: s, false, col => by
    simp only [contCells, List.map_cons, contCells_later hn s]
    simp only [joinCell, joinPos, if_neg (show ¬ n + 1 ≤ A.length + 1 by omega), if_neg (show ¬ n + 1 = A.length + 2 by omega)]
    rfl

theorem buildRest_later : ∀ (ls : List Str) (n col off : Nat), A.length + 1 ≤ n →
    (buildRest ls (n + 1) col off).map (joinCell A l) = buildRest ls n col off
  | [], n, col, off, hn => by
    simp only [buildRest, List.map_cons, List.map_nil]
    simp only [joinCell, joinPos, if_neg (show ¬ n + 1 + 1 ≤ A.length + 1 by omega),
      if_neg (show ¬ n + 1 + 1 = A.length + 2 by omega)]
    rfl
  | x :: ls, n, col, off, hn => by
    simp only [buildRest]
    split
    · rw [List.map_append, buildRest_later ls (n + 1) _ _ (by omega), contCells_later (n := n + 2) (by omega)]
    · rw [List.map_cons, List.map_append, buildRest_later ls (n + 1) _ _ (by omega), lineCells_later (n := n + 2) (by omega)]
      simp only [joinCell, joinPos, if_neg (show ¬ n + 1 + 1 ≤ A.length + 1 by omega),
        if_neg (show ¬ n + 1 + 1 = A.length + 2 by omega)]
      rfl

theorem buildRest_join (ls : List Str) (col off : Nat) : (buildRest ls (A.length + 1) col off).map (joinCell A l) =
    buildRest ls A.length (col + bytesLen l + 1) off := by
  have e : joinCell A l ⟨none, ⟨0, A.length + 1 + 1, col + 1, off⟩⟩ = ⟨none, ⟨0, A.length + 1, col + bytesLen l + 1 + 1, off⟩⟩ := by
    simp only [joinCell, joinPos, if_neg (show ¬ A.length + 1 + 1 ≤ A.length + 1 by omega), if_true]
    rw [show col + 1 + bytesLen l + 1 = col + bytesLen l + 1 + 1 by omega]
  cases ls with
  | nil => simp only [buildRest, List.map_cons, List.map_nil, e]
  | cons x ls =>
    simp only [buildRest]
    split
    · rw [List.map_append, buildRest_later ls _ _ _ (Nat.le_refl _), contCells_later (n := A.length + 2) (Nat.le_refl _)]
    · rw [List.map_cons, List.map_append, buildRest_later ls _ _ _ (Nat.le_refl _), lineCells_later (n := A.length + 2) (Nat.le_refl _), e]

theorem reindex_join : ∀ (cs : List Cell) (n : Nat), (reindex n cs).map (joinCell A l) = reindex n (cs.map (joinCell A l))
  | [], _ => rfl
  | c :: cs, n => by
    simp only [reindex, List.map_cons, reindex_join cs]
    congr 1
    simp only [joinCell, joinPos]
    split
    · rfl
    · split <;> rfl

/-- The cells of the line `l` behind the lines `A` and of what follows. -/
theorem restB_cells (h : isCont l = false) (R : List Str) : restB A (l :: R) = reindex (buildCells A).length
    (lineCells (A.length + 1) 0 (totalLen A) l ++ buildRest R A.length (bytesLen l) (totalLen A + bytesLen l)) := by
  have hh : ∀ y, (l :: R).head? = some y → afterBackslash y = none := by
    refine noCont_cons ?_
    rw [isCont_iff] at h
    simpa using h
  have e := mkEnv_append (A := A) hh
  have e2 : buildCells (A ++ l :: R) = buildCells A ++
      (lineCells (A.length + 1) 0 (totalLen A) l ++ buildRest R A.length (bytesLen l) (totalLen A + bytesLen l)) := by
    cases A with
    | nil => simp [buildCells, totalLen]
    | cons a A =>
      simp only [List.cons_append, buildCells, buildRest_append h, List.append_assoc]
      simp only [totalLen, List.length_cons, Nat.zero_add]
      rw [show A.length + 1 + 1 = A.length + 2 by omega, show bytesLen a + totalLen A + 1 = bytesLen a + 1 + totalLen A by omega]
  have e3 : (mkEnv (A ++ l :: R)).buf = (mkEnv A).buf ++ reindex (buildCells A).length
      (lineCells (A.length + 1) 0 (totalLen A) l ++ buildRest R A.length (bytesLen l) (totalLen A + bytesLen l)) := by
    show reindex 0 _ = reindex 0 _ ++ _
    rw [e2, reindex_append, Nat.zero_add]
  exact List.append_cancel_left (e.symm.trans e3)

/-- The cells of the line. -/
def lineC (A : List Str) (l : Str) : List Cell := reindex (buildCells A).length (lineCells (A.length + 1) 0 (totalLen A) l)

/-- The position of its end. -/
def lineE (A : List Str) (l : Str) : Pos :=
  ⟨(buildCells A).length + l.length, A.length + 1, bytesLen l + 1, totalLen A + bytesLen l⟩

/-- The cells behind it. -/
def lineQ (A : List Str) (l l2 : Str) (B : List Str) : List Cell := reindex ((buildCells A).length + l.length + 1)
  (lineCells (A.length + 2) 0 (totalLen A + bytesLen l + 1) l2 ++
    buildRest B (A.length + 1) (bytesLen l2) (totalLen A + bytesLen l + 1 + bytesLen l2))

theorem two_lines (h : isCont l = false) (h2 : isCont l2 = false) :
    restB A (l :: l2 :: B) = lineC A l ++ ⟨none, lineE A l⟩ :: lineQ A l l2 B := by
  rw [restB_cells h, reindex_append, lineCells_length]
  simp only [buildRest, h2, Bool.false_eq_true, if_false, reindex]
  rfl

theorem one_line (h : isCont (l ++ '|' :: l2) = false) :
    restB A ((l ++ '|' :: l2) :: B) = lineC A l ++ ⟨some '|', lineE A l⟩ :: (lineQ A l l2 B).map (joinCell A l) := by
  have hb : bytesLen (l ++ '|' :: l2) = bytesLen l2 + bytesLen l + 1 := by
    have : runeLen '|' = 1 := by decide
    rw [bytesLen_append, bytesLen, this]
    omega
  rw [restB_cells h, lineCells_append, List.append_assoc, reindex_append, lineCells_length]
  simp only [lineCells, List.cons_append, reindex]
  rw [lineQ, reindex_join, List.map_append, lineCells_join, buildRest_join, hb]
  have : runeLen '|' = 1 := by decide
  simp only [this, Nat.zero_add, lineE, lineC]
  rw [show totalLen A + (bytesLen l2 + bytesLen l + 1) = totalLen A + bytesLen l + 1 + bytesLen l2 by omega]

theorem lineC_lnum {c : Cell} (h : c ∈ lineC A l) : c.pos.lnum = A.length + 1 := by
  have key : ∀ (s : Str) (n col off k : Nat), ∀ c ∈ reindex n (lineCells k col off s), c.pos.lnum = k := by
    intro s
    induction s with
    | nil => intro n col off k c h; cases h
    | cons x s ih =>
      intro n col off k c h
      simp only [lineCells, reindex, List.mem_cons] at h
      rcases h with rfl | h
      · rfl
      · exact ih _ _ _ _ c h
  exact key _ _ _ _ _ c h

theorem lineC_join : (lineC A l).map (joinCell A l) = lineC A l := by
  refine (List.map_congr_left (g := id) fun c hc => ?_).trans (List.map_id _)
  have := lineC_lnum hc
  show (⟨c.c, joinPos A l c.pos⟩ : Cell) = c
  unfold joinPos
  rw [if_pos (by omega)]

theorem before_join : (mkEnv A).buf.map (joinCell A l) = (mkEnv A).buf := by
  refine (List.map_congr_left (g := id) fun c hc => ?_).trans (List.map_id _)
  have := (mkEnv_lnum hc).2
  show (⟨c.c, joinPos A l c.pos⟩ : Cell) = c
  unfold joinPos
  rw [if_pos (by omega)]

theorem lineE_join (o : Option Char) : joinCell A l ⟨o, lineE A l⟩ = ⟨o, lineE A l⟩ := by
  show (⟨o, joinPos A l (lineE A l)⟩ : Cell) = _
  unfold joinPos
  rw [if_pos (by simp [lineE])]

theorem lineC_text : (lineC A l).map Cell.c = l.map some := by
  rw [lineC, reindex_text, lineCells_text]

/-! ### The place -/

theorem noCont_iff {l : Str} : isCont l = false ↔ afterBackslash l = none := by
  rw [isCont_iff]
  cases afterBackslash l <;> simp

section
variable (h : isCont l = false) (h2 : isCont l2 = false) (h' : isCont (l ++ '|' :: l2) = false)
include h h2 h'

omit h' in
theorem two_buf : (mkEnv (A ++ l :: l2 :: B)).buf = (mkEnv A).buf ++ (lineC A l ++ ⟨none, lineE A l⟩ :: lineQ A l l2 B) := by
  rw [mkEnv_append (noCont_cons (noCont_iff.1 h)), ← two_lines h h2]

omit h h2 in
theorem one_buf : (mkEnv (A ++ (l ++ '|' :: l2) :: B)).buf =
    (mkEnv A).buf ++ (lineC A l ++ ⟨some '|', lineE A l⟩ :: (lineQ A l l2 B).map (joinCell A l)) := by
  rw [mkEnv_append (noCont_cons (noCont_iff.1 h')), ← one_line h']

theorem join_len : (mkEnv (A ++ (l ++ '|' :: l2) :: B)).buf.length = (mkEnv (A ++ l :: l2 :: B)).buf.length := by
  rw [two_buf h h2, one_buf h']
  simp

theorem join_eof : (mkEnv (A ++ (l ++ '|' :: l2) :: B)).eof = joinPos A l (mkEnv (A ++ l :: l2 :: B)).eof := by
  have hl := join_len (A := A) (B := B) h h2 h'
  show (⟨(mkEnv (A ++ (l ++ '|' :: l2) :: B)).buf.length, _, _, _⟩ : Pos) = joinPos A l ⟨(mkEnv (A ++ l :: l2 :: B)).buf.length, _, _, _⟩
  rw [hl]
  have hr : runeLen '|' = 1 := by decide
  simp only [joinPos, List.length_append, List.length_cons, if_neg (show ¬ A.length + (B.length + 1 + 1) + 1 ≤ A.length + 1 by omega),
    if_neg (show ¬ A.length + (B.length + 1 + 1) + 1 = A.length + 2 by omega), Pos.mk.injEq, true_and, totalLen_append, totalLen,
    bytesLen_append, bytesLen, hr]
  omega

theorem join_pos : (mkEnv (A ++ (l ++ '|' :: l2) :: B)).buf.map Cell.pos =
    (mkEnv (A ++ l :: l2 :: B)).buf.map fun c => joinPos A l c.pos := by
  have key : ∀ cs : List Cell, (cs.map fun c => joinPos A l c.pos) = (cs.map (joinCell A l)).map Cell.pos := by
    intro cs
    rw [List.map_map]
    rfl
  rw [key, two_buf h h2, one_buf h']
  simp only [List.map_append, List.map_cons, before_join, lineC_join, lineE_join]

theorem join_place {r : List Cell} (hr : r <:+ (mkEnv (A ++ l :: l2 :: B)).buf) :
    ∃ r', r' <:+ (mkEnv (A ++ (l ++ '|' :: l2) :: B)).buf ∧
      posOf (mkEnv (A ++ (l ++ '|' :: l2) :: B)) r' = joinPos A l (posOf (mkEnv (A ++ l :: l2 :: B)) r) := by
  have hp := join_pos (A := A) (B := B) h h2 h'
  have he := join_eof (A := A) (B := B) h h2 h'
  generalize mkEnv (A ++ l :: l2 :: B) = X at *
  generalize mkEnv (A ++ (l ++ '|' :: l2) :: B) = Y at *
  obtain ⟨t, ht⟩ := hr
  refine ⟨Y.buf.drop t.length, List.drop_suffix _ _, ?_⟩
  have e : (Y.buf.drop t.length).map Cell.pos = r.map fun c => joinPos A l c.pos := by
    rw [List.map_drop, hp, ← List.map_drop, ← ht, List.drop_left]
  cases r with
  | nil =>
    rw [List.map_eq_nil_iff.1 e]
    exact he
  | cons c r =>
    cases ey : Y.buf.drop t.length with
    | nil => rw [ey] at e; cases e
    | cons d y =>
      rw [ey] at e
      injection e

end

section
variable (fn) (A B) (h : isCont l = false) (h2 : isCont l2 = false) (h' : isCont (l ++ '|' :: l2) = false)

def joinCarry : Carry (mkEnv (A ++ l :: l2 :: B)) (mkEnv (A ++ (l ++ '|' :: l2) :: B)) fn where
  q0 := []
  q := []
  f := joinCell A l
  m := joinBy A l
  bd := True
  char _ := rfl
  pos c := pub_join c.pos
  eof _ := ⟨rfl, rfl, by rw [join_eof h h2 h', pub_join]⟩

def joinMover : Mover (mkEnv (A ++ l :: l2 :: B)) (mkEnv (A ++ (l ++ '|' :: l2) :: B)) fn where
  κ := joinCarry fn A B h h2 h'
  bd := trivial
  mp := joinPos A l
  pos _ := rfl
  eof := join_eof h h2 h'
  buf r hr := by
    obtain ⟨r', h1, e⟩ := join_place h h2 h' hr
    refine ⟨r', h1, ?_, e⟩
    show pubPos fn _ = joinBy A l (pubPos fn _)
    rw [e, pub_join]

end

/-- The expressions and targets at the rests of `x` end at one place only. -/
structure OneWay (env : Env) (fn : Str) (x : List Cell) : Prop where
  gram : ∀ {k r a b r1 r2}, r <:+ x → Gram env fn k r a r1 → Gram env fn k r b r2 → r1 = r2
  targ : ∀ {r l ls y l' ls' y' r1 r2}, r <:+ x → LhsAt env fn (Target env fn) r l ls y r1 →
    LhsAt env fn (Target env fn) r l' ls' y' r2 → r1 = r2
  const : ∀ {r l ls y l' ls' y' r1 r2}, r <:+ x → LhsAt env fn (ConstTarget env fn) r l ls y r1 →
    LhsAt env fn (ConstTarget env fn) r l' ls' y' r2 → r1 = r2

/-- Behind the name of the command `c` and `s` the line ends, whatever follows it: there is no comment, no bar and no
further line. -/
def BarOk (fn : Str) (c : Cmd) (s : Str) : Prop :=
  ∀ {env : Env} {N K C O : Nat} {x : List Cell} (κ : Hang env env fn fn),
    κ.e0 = ⟨none, ⟨N + s.length, K, C + bytesLen s + 1, O + bytesLen s⟩⟩ →
    x = reindex N (lineCells K C O s) ++ κ.e0 :: κ.q0 → κ.Stops →
    (headSym κ.q = .ch '"' → c.name ∈ noteCmds ∧ (c.name = cs!"return" → ∀ {b r2 ra r1}, Bang c x b r2 → Skip r2 ra →
      Skip ra r1 → ¬ (AtEnd r1 ∨ headSym r1 = .ch '|'))) → κ.In x →
    OneWay env fn x → ∀ {b r2 ra}, Bang c x b r2 → Skip r2 ra → Assigns env fn c ra ∧
    ∀ {cx r ea r3 cm r'}, ArgsDone env fn cx r ra ea c ra r3 → Trail env fn r3 cm r' → cm = [] ∧ r' = κ.q0

/-- Environments that differ in nothing but the text. -/
theorem oneWay {env env' : Env} {x : List Cell} (he : EnvOK env) (hs : x <:+ env.buf) (hf : env'.eof = env.eof) :
    OneWay env' fn x := by
  let κ : Carry env' env fn :=
    { q0 := [], q := [], f := id, m := id, bd := True,
      char := fun _ => rfl
      pos := fun _ => rfl
      eof := fun _ => ⟨rfl, rfl, by rw [hf]; rfl⟩ }
  have key : ∀ r, κ.tr r = r := by
    intro r
    have : ∀ r, κ.In r := fun r => Carry.bd_in trivial r
    induction r with
    | nil => exact Carry.tr_nil trivial
    | cons c r ih => rw [Carry.tr_cons (this r).to, ih]; rfl
  have lhs : ∀ {S' : List Cell → Ast.Expr → List Cell → Prop} {S m} (hS : Carry.Kinds κ S' S)
      (hm : Par env (Export.expr fn) m S), ∀ {r l ls y l' ls' y' r1 r2}, r <:+ x → LhsAt env' fn S' r l ls y r1 →
      LhsAt env' fn S' r l' ls' y' r2 → r1 = r2 := by
    intro S' S m hS hm r l ls y l' ls' y' r1 r2 hr h1 h2
    have g1 := (Carry.lhsAt hS (Carry.bd_in trivial _) h1).2
    have g2 := (Carry.lhsAt hS (Carry.bd_in trivial _) h2).2
    rw [key, key] at g1 g2
    obtain ⟨_, _, _, o1⟩ := (par_lhs he hm _ (hr.trans hs)).2 (_, _, _) _ g1
    obtain ⟨_, _, _, o2⟩ := (par_lhs he hm _ (hr.trans hs)).2 (_, _, _) _ g2
    exact (o1.det o2).2
  refine ⟨?_, lhs Carry.target_ (par_target he), lhs Carry.constTarget (par_const he)⟩
  intro k r a b r1 r2 hr h1 h2
  have g1 := (Carry.gram (κ := κ) h1 (Carry.bd_in trivial _)).2
  have g2 := (Carry.gram (κ := κ) h2 (Carry.bd_in trivial _)).2
  rw [key, key] at g1 g2
  exact (gram_unique he (hr.trans hs) g1 g2).2

theorem exists_line : ∀ r : List Cell, ∃ u, LineIs r u
  | [] => ⟨[], [], Reads.nil _, .inr rfl⟩
  | ⟨none, p⟩ :: r => ⟨[], _, Reads.nil _, .inl rfl⟩
  | ⟨some y, p⟩ :: r => by
    obtain ⟨u, e, ⟨q, h1, h2⟩, h3⟩ := exists_line r
    exact ⟨y :: u, e, ⟨⟨some y, p⟩ :: q, by rw [h1]; rfl, by simp [h2]⟩, h3⟩

theorem line_halts {r : List Cell} {u : Str} {g : Char → Bool} (h : LineIs r u) (hr : (headSym r).is g = false) : StopsAt g u := by
  intro y hy
  obtain ⟨e, h1, _⟩ := h
  cases u with
  | nil => cases hy
  | cons z u =>
    cases hy
    have := reads_head h1
    rw [this] at hr
    exact hr

/-- The bar in the lines. -/
def barHang (env : Env) (fn : Str) (p : Pos) (Q : List Cell) (hQ : headSym Q ≠ .ch '|') : Hang env env fn fn where
  e0 := ⟨none, p⟩
  q0 := Q
  q := ⟨some '|', p⟩ :: Q
  f := id
  m := id
  t := ⟨.or_, ['|'], p⟩
  t' := Q
  nl := rfl
  char _ := rfl
  pos _ := rfl
  pend := rfl
  head_q := .inr ⟨'|', by decide, rfl⟩
  tok := .text [] _ _ .or_ ['|'] _ (Reads.nil _) (by simp) ⟨[_], rfl, rfl⟩ (.or_ _ hQ)
  closing := by simp [Closing]

section
variable {env : Env} {p : Pos} {Q : List Cell} (hQ : headSym Q ≠ .ch '|')

theorem barHang_tr : ∀ (X : List Cell), (barHang env fn p Q hQ).tr (X ++ ⟨none, p⟩ :: Q) = X ++ ⟨some '|', p⟩ :: Q := by
  intro X
  show List.map id (List.take ((X ++ ⟨none, p⟩ :: Q).length - (Q.length + 1)) _) ++ _ = _
  have : (X ++ ⟨none, p⟩ :: Q).length - (Q.length + 1) = X.length := by simp
  rw [this, List.take_left, List.map_id]
  rfl

theorem barHang_in {l : Str} (hp : Plain l) (hl : l.getLast? ≠ some '|') : ∀ (X : List Cell) (u v : Str), u ++ v = l →
    X.map Cell.c = v.map some → (barHang env fn p Q hQ).In (X ++ ⟨none, p⟩ :: Q)
  | [], u, v, _, _ => .stop
  | c :: X, u, [], _, e => by cases e
  | c :: X, u, y :: v, h, e => by
    injection e with e1 e2
    refine .cons e1 (.inr ⟨fun e3 => ?_, ?_⟩) (barHang_in hp hl X (u ++ [y]) v (by simpa using h) e2)
    · have hX : X = [] := by
        have : (X ++ ⟨none, p⟩ :: Q).length = (Q.length + 1) := congrArg List.length e3
        simp only [List.length_append, List.length_cons] at this
        exact List.eq_nil_of_length_eq_zero (by omega)
      subst hX
      have hv : v = [] := by cases v with | nil => rfl | cons => cases e2
      subst hv
      subst h
      have e : (u ++ [y]).getLast? = some y := by simp
      rw [e] at hl
      have h1 := hp.1
      rw [e] at h1
      exact ⟨fun e => h1 (by rw [e]), fun _ e => hl (by rw [e])⟩
    · rintro rfl t ⟨q, h1, h2⟩
      have hq : q = X := by
        have h1 : X ++ (⟨none, p⟩ :: Q) = q ++ (⟨none, p⟩ :: Q) := h1
        exact (List.append_cancel_right h1).symm
      subst hq
      have : t = v := (List.map_inj_right fun _ _ h => Option.some.inj h).1 (h2.symm.trans e2)
      subst this
      exact hp.2 u t h.symm

end

theorem barred (hA : Between nv fn A) (hn : l = n ++ s) (ht : TableCmd nv n c) (hc : c.name ∈ barCmds) (hs : StopsAt isalpha s)
    (hp : Plain l) (hl : l.getLast? ≠ some '|') (h2 : afterBackslash l2 = none) (hb : l2.head? ≠ some '|')
    (hB : l2 = [] → ∀ x, B.head? = some x → afterBackslash x = none) (ok : BarOk fn c s) :
    ∃ ι : Renamed nv (A ++ l :: l2 :: B) (mkEnv (A ++ (l ++ '|' :: l2) :: B)) fn, ι.κ.m = joinBy A l ∧
      ι.μ.mp = joinPos A l ∧ ι.κ.q0 = restB A (l :: l2 :: B) ∧ ι.t = [] ∧ ι.t' = [] := by
  subst hn
  have hsp : Spells nv n s c := bar_spells ht hc hs
  have hw_ := letter_noCont (s := s) hsp.letters.1 hsp.letters.2
  have hw' := letter_noCont (s := s ++ '|' :: l2) hsp.letters.1 hsp.letters.2
  rw [← List.append_assoc] at hw'
  have i1 := noCont_iff.2 hw_
  have i2 := noCont_iff.2 h2
  have i3 := noCont_iff.2 hw'
  obtain ⟨cx, b, used, hf⟩ := between_front (B := (n ++ s) :: l2 :: B) hA (noCont_cons hw_)
  let E := mkEnv (A ++ (n ++ s) :: l2 :: B)
  let E' := mkEnv (A ++ (n ++ s ++ '|' :: l2) :: B)
  let μ := joinMover fn A B i1 i2 i3
  let Q := (lineQ A (n ++ s) l2 B).map (joinCell A (n ++ s))
  let κ : Carry E E' fn :=
    { q0 := restB A ((n ++ s) :: l2 :: B), q := lineC A (n ++ s) ++ ⟨some '|', lineE A (n ++ s)⟩ :: Q,
      f := joinCell A (n ++ s), m := joinBy A (n ++ s), bd := False, char := fun _ => rfl,
      pos := fun c => pub_join c.pos, eof := False.elim }
  have e1 : μ.tr κ.q0 = lineC A (n ++ s) ++ ⟨none, lineE A (n ++ s)⟩ :: Q := by
    rw [Mover.map]
    show List.map (joinCell A (n ++ s)) (restB A ((n ++ s) :: l2 :: B)) = _
    rw [two_lines i1 i2, List.map_append, List.map_cons, lineC_join, lineE_join]
  have hQ : headSym Q ≠ .ch '|' := by
    show headSym ((lineQ A (n ++ s) l2 B).map _) ≠ _
    cases l2 with
    | nil =>
      have hB := hB rfl
      cases B with
      | nil => simp [lineQ, lineCells, buildRest, reindex, headSym, Cell.sym, joinCell]
      | cons x B =>
        have := noCont_iff.2 (hB x rfl)
        simp [lineQ, lineCells, buildRest, reindex, this, headSym, Cell.sym, joinCell]
    | cons y l2 =>
      simp only [lineQ, lineCells, List.cons_append, reindex, List.map_cons, headSym, Cell.sym, joinCell]
      intro e
      cases e
      exact hb rfl
  let η := barHang E' fn (lineE A (n ++ s)) Q hQ
  have e2 : κ.q = η.tr (μ.tr κ.q0) := by rw [e1]; exact (barHang_tr hQ _).symm
  have hx : ∃ X Y, lineC A (n ++ s) = X ++ Y ∧ X.map Cell.c = n.map some ∧ Y.map Cell.c = s.map some ∧
      Y = reindex ((buildCells A).length + n.length) (lineCells (A.length + 1) (bytesLen n) (totalLen A + bytesLen n) s) := by
    refine ⟨reindex (buildCells A).length (lineCells (A.length + 1) 0 (totalLen A) n), _, ?_, ?_, ?_, rfl⟩
    · rw [lineC, lineCells_append, reindex_append, lineCells_length, Nat.zero_add]
    · rw [reindex_text, lineCells_text]
    · rw [reindex_text, lineCells_text]
  obtain ⟨X, Y, ex, hX, hY, hY'⟩ := hx
  have hin : η.In (μ.tr κ.q0) := by
    rw [e1]
    exact barHang_in hQ hp hl _ [] (n ++ s) rfl (by rw [lineC_text])
  have hw : Barred nv E' fn n c η [] (μ.tr κ.q0) := by
    refine ⟨rfl, .inl rfl, .bar (skip_self rfl) ⟨[_], rfl, rfl⟩, hin, ?_, hc⟩
    obtain ⟨u', hu'⟩ := exists_line (η.tr (Y ++ ⟨none, lineE A (n ++ s)⟩ :: Q))
    have hst : StopsAt isalpha u' := by
      refine line_halts hu' ?_
      rw [show η.tr (Y ++ ⟨none, lineE A (n ++ s)⟩ :: Q) = _ from barHang_tr hQ _]
      cases s with
      | nil =>
        have : Y = [] := List.map_eq_nil_iff.1 hY
        rw [this]
        rfl
      | cons y s =>
        cases Y with
        | nil => cases hY
        | cons d Y =>
          injection hY with e _
          simp only [List.cons_append, headSym, Cell.sym, e]
          exact hs y rfl
    refine ⟨Y ++ ⟨none, lineE A (n ++ s)⟩ :: Q, s, u', ?_, ?_, hu', hsp, bar_spells ht hc hst, ?_⟩
    · rw [e1, ex, List.append_assoc]
      exact ⟨X, rfl, hX⟩
    · exact ⟨_, ⟨Y, rfl, hY⟩, .inl rfl⟩
    · intro b r2 ra h1 h2
      have ow : OneWay E' fn (Y ++ ⟨none, lineE A (n ++ s)⟩ :: Q) := by
        refine oneWay (env' := E') (env := ⟨E.buf.map (joinCell A (n ++ s)), E'.eof⟩) ⟨?_, ?_, ?_⟩ ?_ rfl
        · intro k c hk
          simp only [List.getElem?_map, Option.map_eq_some_iff] at hk
          obtain ⟨d, hd, rfl⟩ := hk
          have := (mkEnv_ok _).idx k d hd
          rw [← this]
          simp only [joinCell, joinPos]
          split
          · rfl
          · split <;> rfl
        · show E'.eof.i = (E.buf.map _).length
          rw [List.length_map, ← join_len i1 i2 i3]
          rfl
        · rcases (mkEnv_ok (A ++ (n ++ s) :: l2 :: B)).last with e | ⟨i, q, e⟩
          · left
            show E.buf.map _ = []
            rw [show E.buf = _ from e]
            rfl
          · right
            refine ⟨i.map (joinCell A (n ++ s)), joinPos A (n ++ s) q, ?_⟩
            show E.buf.map _ = _
            rw [show E.buf = _ from e, List.map_append]
            rfl
        · show _ <:+ E.buf.map _
          rw [show E.buf = _ from two_buf i1 i2, List.map_append, List.map_append, List.map_cons, lineC_join, lineE_join, ex,
            List.append_assoc]
          exact ((List.suffix_append X _).trans (List.suffix_append _ _))
      subst hY'
      have ok := ok η (by
        show (⟨none, lineE A (n ++ s)⟩ : Cell) = _
        simp only [lineE, List.length_append, bytesLen_append, Cell.mk.injEq, Pos.mk.injEq, true_and]
        omega) rfl (.inl rfl) (fun e => by cases e) (Hang.reads hin ⟨X, by rw [e1, ex, List.append_assoc]; rfl, hX⟩).1 ow h1 h2
      exact ⟨ok.1, (fun e => by cases e), fun h3 h4 => ok.2 h3 h4⟩
  refine ⟨⟨⟨κ, id, restB_ne (by simp), to_restB κ (noCont_cons hw_) rfl, ?_⟩, μ, rfl, [], [], e2 ▸ hw.subst, cx, b, used, hf⟩,
    rfl, rfl, rfl, rfl, rfl⟩
  rw [show E'.buf = _ from one_buf i3, mkEnv_append (noCont_cons hw_)]
  show List.map _ (List.take _ _) ++ κ.q = _
  have e : List.take (((mkEnv A).buf ++ restB A ((n ++ s) :: l2 :: B)).length - κ.q0.length)
      ((mkEnv A).buf ++ restB A ((n ++ s) :: l2 :: B)) = (mkEnv A).buf := by
    show List.take (_ - (restB A ((n ++ s) :: l2 :: B)).length) _ = _
    simp
  have e' := congrArg (fun y => List.map κ.f y ++ κ.q) e
  refine e'.trans ?_
  show (mkEnv A).buf.map (joinCell A (n ++ s)) ++ _ = _
  rw [before_join]

end Viml
