/-
Blank lines and comment lines inserted between two statements (`Insert.lean`).
-/
import Verif.Lemmas.Insert
import Verif.Props.NumError

namespace Viml
open Spec

/-! ### The inserted lines -/

theorem lineCells_append (n : Nat) : ∀ (a b : Str) (col off : Nat),
    lineCells n col off (a ++ b) = lineCells n col off a ++ lineCells n (col + bytesLen a) (off + bytesLen a) b
  | [], _, _, _ => by simp [lineCells, bytesLen]
  | c :: a, b, col, off => by
    simp only [List.cons_append, lineCells, bytesLen, lineCells_append n a b]
    rw [Nat.add_assoc, Nat.add_assoc]

theorem moveCell_text (A B : List Str) (k : Nat) (cs : List Cell) :
    (cs.map (moveCell A B k)).map Cell.c = cs.map Cell.c := by
  rw [List.map_map]; rfl

theorem lead_append : ∀ l : Str, l = lead l ++ afterLead l
  | [] => rfl
  | c :: l => by
    have ih := lead_append l
    by_cases h : c = ' ' ∨ c = '\t' ∨ c = ':'
    · have e : afterLead (c :: l) = afterLead l := by simp [afterLead, lead, h]
      rw [e]
      simp only [lead, h, if_true, List.cons_append]
      rw [← ih]
    · simp [afterLead, lead, h]

theorem lead_chars : ∀ l : Str, ∀ c ∈ lead l, (iswhite c || c == ':') = true
  | [], c, h => by cases h
  | x :: l, c, h => by
    unfold lead at h
    split at h
    · rename_i hx
      rcases List.mem_cons.1 h with rfl | h
      · rcases hx with rfl | rfl | rfl <;> decide
      · exact lead_chars l c h
    · cases h

theorem quiet_noCont : ∀ l : Str, Quiet l → isCont l = false
  | [], _ => rfl
  | c :: l, hq => by
    by_cases h : c = ' ' ∨ c = '\t' ∨ c = ':'
    · have e : afterLead (c :: l) = afterLead l := by simp [afterLead, lead, h]
      have ih : isCont l = false := quiet_noCont l (by unfold Quiet at hq; rw [e] at hq; exact hq)
      have hc : c ≠ '\\' := by rcases h with rfl | rfl | rfl <;> decide
      simp [isCont, hc, ih]
    · have e : afterLead (c :: l) = c :: l := by simp [afterLead, lead, h]
      unfold Quiet at hq
      rw [e] at hq
      rcases hq with hq | ⟨t, hq⟩
      · cases hq
      · injection hq with h1 _
        subst h1
        rfl

theorem quiet_none {l : Str} (h : Quiet l) : afterBackslash l = none := by
  have := (isCont_iff l).symm.trans (quiet_noCont l h)
  simpa using this

theorem noCont_line {W : List Str} (h : ∀ l ∈ W, afterBackslash l = none) (n col : Nat) : onContLine W n col = false := by
  unfold onContLine
  cases e : W[n - 1]? with
  | none => simp
  | some l => simp [h l (List.mem_of_getElem? e)]

variable {nv : Bool} {fn : Str}

/-- The cells of one line. -/
theorem quiet_line (env' : Env) (cx : Ctx) (used : List Str) (A W : List Str) (k : Nat)
    (hW : ∀ n col, onContLine W n col = false) (l : Str) (hl : Quiet l) (rest : List Cell) :
    Body nv env' fn cx used ((mkEnv [l]).buf.map (moveCell A W k) ++ rest) (commentAt fn A l) used rest := by
  have e : (mkEnv [l]).buf.map (moveCell A W k) ++ rest =
      (reindex 0 (lineCells 1 0 0 (lead l))).map (moveCell A W k) ++
        ((reindex (lead l).length (lineCells 1 (bytes (lead l)) (bytes (lead l)) (afterLead l))).map (moveCell A W k) ++
        (moveCell A W k ⟨none, ⟨(lead l).length + (afterLead l).length, 1, bytesLen l + 1, bytesLen l⟩⟩ :: rest)) := by
    have e1 : ∀ (s : Str) n col off, (lineCells n col off s).length = s.length := fun s n col off => by
      have := congrArg List.length (lineCells_text n s col off)
      simpa using this
    have e2 : buildCells [l] = lineCells 1 0 0 (lead l) ++ (lineCells 1 (bytes (lead l)) (bytes (lead l)) (afterLead l) ++
        [⟨none, ⟨0, 1, bytesLen l + 1, bytesLen l⟩⟩]) := by
      simp only [buildCells, buildRest]
      rw [← bytesLen_eq]
      have := lineCells_append 1 (lead l) (afterLead l) 0 0
      rw [← lead_append, Nat.zero_add] at this
      rw [this, List.append_assoc]
    simp only [mkEnv, e2, reindex_append, reindex, List.map_append, List.map_cons, List.map_nil, List.append_assoc, e1,
      Nat.zero_add, List.singleton_append]
  rw [e]
  have hs : ∀ r, (headSym r).is (fun c => iswhite c || c == ':') = false →
      SkipC ((reindex 0 (lineCells 1 0 0 (lead l))).map (moveCell A W k) ++ r) r := fun r hr =>
    ⟨lead l, ⟨_, rfl, by rw [moveCell_text, reindex_text, lineCells_text]⟩, lead_chars l, hr⟩
  rcases hl with h | ⟨t, h⟩
  · have : commentAt fn A l = [] := by simp [commentAt, h]
    rw [this, h]
    exact .empty .nil (hs _ rfl) rfl
  · have e2 : commentAt fn A l =
        [] ++ [.comment ⟨(fileBytes A).length + bytes (lead l), A.length + 1, bytes (lead l) + 1, fn⟩ t] := by
      simp [commentAt, h]
    rw [e2, h]
    have hc : ∀ r, Spec.here env' fn ((reindex (lead l).length (lineCells 1 (bytes (lead l)) (bytes (lead l)) ('"' :: t))).map
        (moveCell A W k) ++ r) = ⟨(fileBytes A).length + bytes (lead l), A.length + 1, bytes (lead l) + 1, fn⟩ := by
      intro r
      simp only [lineCells, reindex, List.map_cons, List.cons_append, Spec.here, posOf, pubPos, moveCell, hW]
      simp only [Ast.Pos.mk.injEq, and_true, Bool.false_eq_true, if_false]
      omega
    refine .comment .nil (hs _ rfl) ?_
    rw [← hc]
    exact .mk (r1 := (reindex ((lead l).length + 1) (lineCells 1 (bytes (lead l) + runeLen '"') (bytes (lead l) + runeLen '"') t)).map
        (moveCell A W k) ++ _) ⟨[_], rfl, rfl⟩ ⟨_, rfl, by rw [moveCell_text, reindex_text, lineCells_text]⟩ rfl

theorem moveCell_twice {W : List Str} {l : Str} (A : List Str) (k k1 : Nat) (h1 : ∀ n col, onContLine (l :: W) n col = false)
    (h2 : ∀ n col, onContLine W n col = false) (c : Cell) :
    moveCell A (l :: W) k (moveCell [l] W k1 c) = moveCell (A ++ [l]) W (k1 + k) c := by
  simp only [moveCell, h1, h2, Bool.false_eq_true, if_false, List.length_append, List.length_singleton, Nat.add_assoc,
    fileBytes, List.flatMap_append]
  simp only [Nat.add_comm, Nat.add_left_comm]

/-- The cells of the lines. -/
theorem quiet_body (env' : Env) (cx : Ctx) (used : List Str) (rest : List Cell) : ∀ (W A : List Str) (k : Nat),
    (∀ l ∈ W, Quiet l) →
    Body nv env' fn cx used ((mkEnv W).buf.map (moveCell A W k) ++ rest) (commentsAt fn A W) used rest
  | [], _, _, _ => .nil
  | l :: W, A, k, h => by
    have h0 : ∀ l' ∈ W, Quiet l' := fun l' hl' => h l' (by simp [hl'])
    have hc : ∀ n col, onContLine (l :: W) n col = false := noCont_line fun l hl => quiet_none (h l hl)
    have hc0 : ∀ n col, onContLine W n col = false := noCont_line fun l hl => quiet_none (h0 l hl)
    have e : (mkEnv (l :: W)).buf.map (moveCell A (l :: W) k) ++ rest = (mkEnv [l]).buf.map (moveCell A (l :: W) k) ++
        ((mkEnv W).buf.map (moveCell (A ++ [l]) W ((mkEnv [l]).buf.length + k)) ++ rest) := by
      rw [show l :: W = [l] ++ W from rfl, mkEnv_append (A := [l]) (B := W) fun l' hl' =>
        quiet_none (h0 l' (List.mem_of_mem_head? (by rw [hl']; rfl)))]
      rw [List.map_append, List.map_map, List.append_assoc]
      congr 2
      refine List.map_congr_left fun c _ => ?_
      exact moveCell_twice A k _ hc hc0 c
    rw [e]
    exact Body.append (quiet_line env' cx used A _ k hc l (h l (by simp)) _) (quiet_body env' cx used rest W _ _ h0)

/-! ### Positions behind the inserted lines -/

/-- The position of a cell behind the inserted lines; `k` characters are read from them. -/
def spreadPos (A W B : List Str) (k : Nat) (p : Pos) : Pos :=
  if p.lnum ≤ A.length then p else
    ⟨p.i + k, p.lnum + W.length, p.col,
      if onContLine B (p.lnum - A.length) p.col then 0 else p.offset + (fileBytes W).length⟩

def spreadCell (A W B : List Str) (k : Nat) (c : Cell) : Cell := ⟨c.c, spreadPos A W B k c.pos⟩

variable {A W B : List Str}

theorem pub_spread (k : Nat) (p : Pos) : pubPos fn (spreadPos A W B k p) = spread A W B (pubPos fn p) := by
  unfold spreadPos spread
  show _ = if p.lnum ≤ A.length then _ else _
  split <;> rfl

theorem spread_move (k k0 : Nat) (x : Option Char) {p : Pos} (h : 0 < p.lnum) :
    spreadPos A W B k (moveCell A B k0 ⟨x, p⟩).pos = (moveCell (A ++ W) B (k0 + k) ⟨x, p⟩).pos := by
  have h1 : ¬ p.lnum + A.length ≤ A.length := by omega
  simp only [spreadPos, moveCell, h1, if_false, Nat.add_sub_cancel, List.length_append, fileBytes, List.flatMap_append,
    Nat.add_assoc, Pos.mk.injEq, true_and]
  split
  · rfl
  · simp [Nat.add_assoc]

theorem spread_before {k : Nat} {c : Cell} (h : c ∈ (mkEnv A).buf) : spreadCell A W B k c = c := by
  have := (mkEnv_lnum h).2
  simp only [spreadCell, spreadPos, show c.pos.lnum ≤ A.length by omega, if_true]

theorem mkEnv_eof_lnum (lines : List Str) : 0 < (mkEnv lines).eof.lnum := Nat.succ_pos _

section
variable (hW : ∀ l, W.head? = some l → afterBackslash l = none) (hB : ∀ l, B.head? = some l → afterBackslash l = none)
include hW

theorem length_AW : (mkEnv (A ++ W)).buf.length = (mkEnv A).buf.length + (mkEnv W).buf.length := by
  rw [mkEnv_append hW]; simp

theorem spread_buf : ((mkEnv B).buf.map (moveCell A B (mkEnv A).buf.length)).map (spreadCell A W B (mkEnv W).buf.length) =
    (mkEnv B).buf.map (moveCell (A ++ W) B (mkEnv (A ++ W)).buf.length) := by
  rw [List.map_map]
  refine List.map_congr_left fun c hc => ?_
  have := spread_move (A := A) (W := W) (B := B) (mkEnv W).buf.length (mkEnv A).buf.length c.c (mkEnv_lnum hc).1
  rw [length_AW hW]
  show (⟨_, _⟩ : Cell) = _
  rw [this]
  rfl

include hB

theorem spread_eof : (mkEnv (A ++ W ++ B)).eof = spreadPos A W B (mkEnv W).buf.length (mkEnv (A ++ B)).eof := by
  rw [moverB_eof (A ++ W) hB, moverB_eof A hB, spread_move _ _ _ (mkEnv_eof_lnum B), length_AW hW]

end

/-- The rest of the lines `A ++ B` at `B`. -/
abbrev restB (A B : List Str) : List Cell := (mkEnv B).buf.map (moveCell A B (mkEnv A).buf.length)

theorem restB_ne (hB : B ≠ []) : restB A B ≠ [] := by
  intro h
  rcases buildCells_last B with h1 | ⟨i, p, h1⟩
  · exact hB h1
  · have := congrArg List.length h
    simp only [restB, mkEnv, h1, List.length_map, reindex_length, List.length_append, List.length_singleton,
      List.length_nil] at this
    omega

theorem in_of_append {env env' : Env} (κ : Carry env env' fn) {i : List Cell} {e : Cell} (he : e.c = none) :
    κ.In ((i ++ [e]) ++ κ.q0) := by
  induction i with
  | nil => exact .eol he
  | cons c i ih => exact .cons ih

theorem to_restB {env env' : Env} (κ : Carry env env' fn) (hB : ∀ l, B.head? = some l → afterBackslash l = none)
    (hq : κ.q0 = restB A B) : κ.To (mkEnv (A ++ B)).buf := by
  rw [mkEnv_append hB]
  show κ.To ((mkEnv A).buf ++ restB A B)
  rw [← hq]
  rcases buildCells_last A with rfl | ⟨i, p, h⟩
  · exact .inr rfl
  · left
    have e : (mkEnv A).buf = reindex 0 i ++ [⟨none, { p with i := i.length }⟩] := by
      simp only [mkEnv, h, reindex_append, reindex, Nat.zero_add]
    rw [e]
    exact in_of_append κ rfl

theorem in_lnum {env' : Env} (κ : Carry (mkEnv (A ++ B)) env' fn) (hB : ∀ l, B.head? = some l → afterBackslash l = none)
    (hq : κ.q0 = restB A B) (hb : ¬ κ.bd) {r : List Cell} (hr : r <:+ (mkEnv (A ++ B)).buf) (h : κ.In r) :
    ∃ c p, r = c :: p ++ restB A B ∧ c :: p <:+ (mkEnv A).buf := by
  rw [mkEnv_append hB] at hr
  have h1 : restB A B <:+ (mkEnv A).buf ++ restB A B := ⟨_, rfl⟩
  have hl : (restB A B).length < r.length := by rw [← hq]; exact h.lt.resolve_right hb
  obtain ⟨p, e⟩ := List.suffix_of_suffix_length_le h1 hr (by omega)
  subst e
  cases p with
  | nil => simp at hl
  | cons c p =>
    refine ⟨c, p, rfl, ?_⟩
    obtain ⟨t, ht⟩ := hr
    refine ⟨t, ?_⟩
    rw [← List.append_assoc] at ht
    exact List.append_cancel_right ht

/-! ### The place -/

theorem suffix_same {a b : List Cell} (h1 : a <:+ b) (h2 : b <:+ a) : a = b :=
  h1.eq_of_length (Nat.le_antisymm h1.length_le h2.length_le)

/-- The lines `A` are the start of two files. -/
def foreOf (fn : Str) {A B B' : List Str} (hB : ∀ l, B.head? = some l → afterBackslash l = none)
    (hB' : ∀ l, B'.head? = some l → afterBackslash l = none) (hn : B ≠ []) : Fore (A ++ B) (mkEnv (A ++ B')) fn where
  κ := cut fn A B (restB A B') (mkEnv (A ++ B'))
  nbd := id
  ne := restB_ne hn
  start := to_restB _ hB rfl
  buf := by rw [cut_tr fn hB, ← mkEnv_append hB']

theorem between_front (h : Between nv fn A) (hB : ∀ l, B.head? = some l → afterBackslash l = none) :
    ∃ cx b used, Front nv (mkEnv (A ++ B)) fn cx b used (restB A B) := by
  have hX : ∀ l, [cs!"xyzzy"].head? = some l → afterBackslash l = none := by
    intro l hl
    cases hl
    decide +kernel
  obtain ⟨n, o, h⟩ := h
  obtain ⟨_, _, q, _, hl, hc, h⟩ := (Props.C54_lines ..).1 h
  let ι : Fore (A ++ [cs!"xyzzy"]) (mkEnv (A ++ B)) fn := foreOf fn hX hB (by simp)
  have key : ∀ {cx b used r}, Front nv (mkEnv (A ++ [cs!"xyzzy"])) fn cx b used r →
      LineErr nv (mkEnv (A ++ [cs!"xyzzy"])) fn cx b used r cs!"E492: Not an editor command: xyzzy" q → r = ι.κ.q0 := by
    intro cx b used r hf he
    have hsr := front_suffix hf
    rcases lineErr_message0 (front_suffix hf) he with he | ⟨r0, ms, rg, rc, l, r', h1, _, _, _, _, _, h2⟩
    · exact absurd rfl (he.ne cs!"xyzzy")
    · have hs : rc <:+ r := h1.adv.suffix.trans h1.2.1.adv.suffix
      rcases Fore.suf ι.start (front_suffix hf) with i | i
      · obtain ⟨c, p, e, hp⟩ := in_lnum ι.κ hX rfl ι.nbd (hs.trans hsr) (Carry.before i h1).2.1
        have hc : c ∈ (mkEnv A).buf := hp.subset (by simp)
        have h3 := (mkEnv_lnum hc).2
        have h4 : q.lnum = c.pos.lnum := by rw [h2, e]; rfl
        omega
      · have hs' := hs.trans i
        have e : rc = ι.κ.q0 := by
          change rc <:+ restB A [cs!"xyzzy"] at hs'
          show rc = restB A [cs!"xyzzy"]
          simp only [restB, mkEnv, buildCells, lineCells, buildRest, List.cons_append, List.nil_append, reindex, List.map_cons,
            List.map_nil, List.suffix_cons_iff, List.suffix_nil] at hs' ⊢
          rcases hs' with e | e | e | e | e | e | e
          · exact e
          all_goals
            subst e
            rw [h2] at hc
            first
              | exact absurd (show 1 = 0 from hc) (by decide)
              | exact absurd (show 1 = 2 from hc) (by decide)
              | exact absurd (show 1 = 3 from hc) (by decide)
              | exact absurd (show 1 = 4 from hc) (by decide)
              | exact absurd (show 1 = 5 from hc) (by decide)
              | exact absurd (show 1 = 6 from hc) (by decide)
        exact suffix_same i (e ▸ hs)
  cases h with
  | line h1 h2 =>
    obtain rfl := key h1 h2
    obtain ⟨x, h3⟩ := Fore.front_before h1 (.inr rfl)
    rw [Carry.tr_end] at h3
    exact ⟨_, _, x, h3⟩
  | unclosed h1 h2 => exact absurd rfl ((unclosed_message (env := mkEnv A) (fn := fn) (q := ⟨0, 0, 0, 0⟩) h2).ne cs!"xyzzy")

/-! ### The lines behind the place -/

section
variable (fn) (A) (hW : ∀ l, W.head? = some l → afterBackslash l = none) (hB : ∀ l, B.head? = some l → afterBackslash l = none)
  (hn : B ≠ [])

/-- The text behind the place is moved. -/
def spreadCarry : Carry (mkEnv (A ++ B)) (mkEnv (A ++ W ++ B)) fn where
  q0 := []
  q := []
  f := spreadCell A W B (mkEnv W).buf.length
  m := spread A W B
  bd := True
  char _ := rfl
  pos c := pub_spread _ c.pos
  eof _ := ⟨rfl, rfl, by rw [spread_eof hW hB, pub_spread]⟩

include hW hB

theorem AWB_buf : (mkEnv (A ++ W ++ B)).buf = (mkEnv A).buf ++
    ((mkEnv W).buf.map (moveCell A W (mkEnv A).buf.length) ++ restB (A ++ W) B) := by
  rw [mkEnv_append hB]
  show _ ++ restB (A ++ W) B = _
  rw [mkEnv_append hW, List.append_assoc]

include hn

include fn in
theorem spread_place {r : List Cell} (hr : r <:+ (mkEnv (A ++ B)).buf) : ∃ r', r' <:+ (mkEnv (A ++ W ++ B)).buf ∧
    posOf (mkEnv (A ++ W ++ B)) r' = spreadPos A W B (mkEnv W).buf.length (posOf (mkEnv (A ++ B)) r) := by
  let ι : Fore (A ++ B) (mkEnv (A ++ B)) fn := foreOf fn hB hB hn
  rcases Fore.suf ι.start hr with i | i
  · obtain ⟨c, p, rfl, hp⟩ := in_lnum ι.κ hB rfl id hr i
    refine ⟨c :: p ++ ((mkEnv W).buf.map (moveCell A W (mkEnv A).buf.length) ++ restB (A ++ W) B), ?_, ?_⟩
    · obtain ⟨t, ht⟩ := hp
      rw [AWB_buf A hW hB, ← ht]
      exact ⟨t, by simp⟩
    · have hc : c ∈ (mkEnv A).buf := hp.subset (by simp)
      have := congrArg Cell.pos (spread_before (W := W) (B := B) (k := (mkEnv W).buf.length) hc)
      exact this.symm
  · refine ⟨r.map (spreadCell A W B (mkEnv W).buf.length), ?_, ?_⟩
    · refine (i.map _).trans ?_
      show (restB A B).map _ <:+ _
      rw [spread_buf hW, AWB_buf A hW hB]
      exact ⟨(mkEnv A).buf ++ (mkEnv W).buf.map (moveCell A W (mkEnv A).buf.length), by simp⟩
    · cases r with
      | nil => exact spread_eof hW hB
      | cons c r => rfl

def spreadMover : Mover (mkEnv (A ++ B)) (mkEnv (A ++ W ++ B)) fn where
  κ := spreadCarry fn A hW hB
  bd := trivial
  mp := spreadPos A W B (mkEnv W).buf.length
  pos _ := rfl
  eof := spread_eof hW hB
  buf r hr := by
    obtain ⟨r', h1, h2⟩ := spread_place fn A hW hB hn hr
    refine ⟨r', h1, ?_, h2⟩
    show pubPos fn _ = spread A W B (pubPos fn _)
    rw [h2, pub_spread]

end

/-- Lines `W` that are statements `ws` everywhere, between two statements; `U` are the user commands among them. -/
theorem inserted_of (h : Between nv fn A) (hW : ∀ l, W.head? = some l → afterBackslash l = none)
    (hB : ∀ l, B.head? = some l → afterBackslash l = none) (hn : B ≠ []) (ws : List Ast.Stmt) (U : List Str)
    (hU : ∀ a ∈ U, Upper a)
    (new : ∀ cx used, (∀ a ∈ used, Upper a) → (∀ n, UserCmd ws n → Carry.Okay used n) → ∃ used', Carry.Adds U used used' ∧
      Body nv (mkEnv (A ++ W ++ B)) fn cx used ((mkEnv W).buf.map (moveCell A W (mkEnv A).buf.length) ++ restB (A ++ W) B) ws
        used' (restB (A ++ W) B)) :
    ∃ ι : Inserted nv (A ++ B) (mkEnv (A ++ W ++ B)) fn, ι.ws = ws ∧ ι.κ.m = spread A W B ∧
      ι.μ.mp = spreadPos A W B (mkEnv W).buf.length ∧ ι.κ.q0 = restB A B ∧ ι.U = U := by
  obtain ⟨cx, b, used, hf⟩ := between_front h hB
  let κ : Carry (mkEnv (A ++ B)) (mkEnv (A ++ W ++ B)) fn :=
    { q0 := restB A B, q := (mkEnv W).buf.map (moveCell A W (mkEnv A).buf.length) ++ restB (A ++ W) B,
      f := spreadCell A W B (mkEnv W).buf.length, m := spread A W B, bd := False, char := fun _ => rfl,
      pos := fun c => pub_spread _ c.pos, eof := False.elim }
  refine ⟨⟨⟨κ, id, restB_ne hn, to_restB κ hB rfl, ?_⟩, spreadMover fn A hW hB hn, ws, rfl, U, hU, ?_, cx, b, used, hf⟩,
    rfl, rfl, rfl, rfl, rfl⟩
  · rw [AWB_buf A hW hB, mkEnv_append hB]
    show List.map _ (List.take _ _) ++ κ.q = _
    have e : List.take (((mkEnv A).buf ++ List.map (moveCell A B (mkEnv A).buf.length) (mkEnv B).buf).length - κ.q0.length)
        ((mkEnv A).buf ++ List.map (moveCell A B (mkEnv A).buf.length) (mkEnv B).buf) = (mkEnv A).buf := by
      show List.take (_ - (restB A B).length) _ = _
      simp [restB]
    rw [e]
    congr 1
    exact (List.map_congr_left (g := id) fun c hc => spread_before hc).trans (List.map_id _)
  · intro cx used hu hc
    rw [Mover.map]
    show ∃ used', _ ∧ Body _ _ _ _ _ _ _ _ ((restB A B).map (spreadCell A W B (mkEnv W).buf.length))
    rw [spread_buf hW]
    exact new cx used hu hc

/-- Blank lines and comment lines between two statements. -/
theorem inserted (h : Between nv fn A) (hW : ∀ l ∈ W, Quiet l) (hB : ∀ l, B.head? = some l → afterBackslash l = none)
    (hn : B ≠ []) : ∃ ι : Inserted nv (A ++ B) (mkEnv (A ++ W ++ B)) fn, ι.ws = commentsAt fn A W ∧ ι.κ.m = spread A W B ∧
      ι.μ.mp = spreadPos A W B (mkEnv W).buf.length ∧ ι.κ.q0 = restB A B ∧ ι.U = [] := by
  have hW' : ∀ l, W.head? = some l → afterBackslash l = none := fun l hl =>
    quiet_none (hW l (List.mem_of_mem_head? (by rw [hl]; rfl)))
  exact inserted_of h hW' hB hn _ [] (fun _ h => by cases h) fun cx used _ _ =>
    ⟨used, Carry.adds_nil _, quiet_body _ cx used _ W A _ hW⟩

theorem no_user_comments {n : Str} : ∀ (W X : List Str), ¬ UserCmd (commentsAt fn X W) n := by
  have key : ∀ (W X : List Str), ∀ x ∈ commentsAt fn X W, ∃ q t, x = .comment q t := by
    intro W
    induction W with
    | nil => intro X x hx; cases hx
    | cons l W ih =>
      intro X x hx
      rw [commentsAt] at hx
      rcases List.mem_append.1 hx with hx | hx
      · unfold commentAt at hx
        split at hx
        · exact ⟨_, _, List.mem_singleton.1 hx⟩
        · cases hx
      · exact ih _ x hx
  rintro W X ⟨x, ea, h, h1, _⟩
  cases h with
  | mem h =>
    obtain ⟨q, t, rfl⟩ := key W X x h
    cases h1
  | sub h h2 =>
    obtain ⟨q, t, rfl⟩ := key W X _ h
    cases h2 with
    | mem h => cases h
    | sub h _ => cases h

theorem comments_good {lines X : List Str} {env' : Env} {ι : Inserted nv lines env' fn} (h1 : ι.ws = commentsAt fn X W)
    (h2 : ι.U = []) (n : Str) : Carry.Okay ι.U n ∧ Inserted.Fit ι n :=
  ⟨fun a ha => by (rw [h2] at ha; cases ha), fun m hm => by (rw [h1] at hm; exact absurd hm (no_user_comments _ _))⟩

end Viml
