/-
C22 for files made of block commands, one on each line.
-/
import Verif.Props.Blocks
import Verif.Props.Printer

namespace Viml.Spec

/-- Minimum length of the abbreviations of block commands. -/
def blkMin : Blk → Nat
  | .function => 2
  | .endfunction => 4
  | .if_ => 2
  | .elseif => 5
  | .else_ => 2
  | .endif => 2
  | .while_ => 2
  | .endwhile => 4
  | .for_ => 3
  | .endfor => 5
  | .try_ => 3
  | .catch_ => 3
  | .finally_ => 4
  | .endtry => 4

/-- `t` is the name of a block command or an abbreviation of it. -/
def BlkWord (b : Blk) (t : Str) : Prop := t <+: b.name ∧ blkMin b ≤ t.length

/-- Text of an expression: what the printer prints for a well-formed tree. -/
def ExprText (s : Str) : Prop := ∃ e, Everywhere leafOK e ∧ Everywhere cmpOK e ∧ Print.fprintExpr e = .text s

/-- Text of arguments of a block command. -/
inductive ArgText : Blk → Str → Prop
  | bare {b : Blk} : b ∉ [.if_, .elseif, .while_, .for_, .function] → ArgText b []
  | cond {b : Blk} {s : Str} : b ∈ [.if_, .elseif, .while_] → ExprText s → ArgText b (' ' :: s)
  | for_ {s : Str} : ExprText s → ArgText .for_ (cs!" x in " ++ s)
  | function : ArgText .function cs!" F()"

/-- A line with a block command. -/
def BlockLine (b : Blk) (l : Str) : Prop :=
  ∃ w t s, l = w ++ (t ++ s) ∧ (∀ c ∈ w, c = ' ' ∨ c = '\t' ∨ c = ':') ∧ BlkWord b t ∧ ArgText b s

/-- A file with one block command on each line. -/
inductive BlockFile : List Blk → List Str → Prop
  | nil : BlockFile [] []
  | cons {b : Blk} {l : Str} {bs : List Blk} {ls : List Str} : BlockLine b l → BlockFile bs ls → BlockFile (b :: bs) (l :: ls)

end Viml.Spec

namespace Viml
open Prog Spec Props

/-! ### Words -/

theorem blk_table : ∀ nv ∈ [false, true], ∀ b ∈ allBlks, ∀ k ∈ List.range 12, blkMin b ≤ k → k ≤ b.name.length →
    (lookupTable nv (b.name.take k)).map Cmd.name = some b.name := by decide +kernel

theorem blk_chars : ∀ b ∈ allBlks, ∀ c ∈ b.name, isalpha c = true := by decide +kernel
theorem blk_first : ∀ b ∈ allBlks, b.name.head?.all (fun c => c ∉ ['k', 's', 'p', 'd'] ∧ ¬ ('A' ≤ c ∧ c ≤ 'Z')) := by
  decide +kernel
theorem blk_mods : ∀ b ∈ allBlks, ∀ k ∈ List.range 12, blkMin b ≤ k → k ≤ b.name.length →
    findModifier (b.name.take k) = none := by decide +kernel

theorem blkWord_take {b : Blk} {t : Str} (h : BlkWord b t) :
    t = b.name.take t.length ∧ t.length ≤ b.name.length ∧ t.length ∈ List.range 12 ∧ t ≠ [] := by
  obtain ⟨⟨u, hu⟩, h2⟩ := h
  have h3 : t = b.name.take t.length := by rw [← hu, List.take_left]
  have h4 : t.length ≤ b.name.length := by rw [← hu, List.length_append]; omega
  have h5 : b.name.length ≤ 11 := by cases b <;> decide
  have h6 : 2 ≤ blkMin b := by cases b <;> decide
  refine ⟨h3, h4, List.mem_range.2 (by omega), ?_⟩
  rintro rfl
  simp at h2
  omega

theorem blkWord_cmd {nv : Bool} {b : Blk} {t s : Str} (h : BlkWord b t) (hs : StopsAt isalpha s) :
    ∃ c, CmdOf nv c t s ∧ c.name = b.name := by
  obtain ⟨h1, h2, h3, h4⟩ := blkWord_take h
  have h5 := blk_table nv (by cases nv <;> simp) b (mem_allBlks b) _ h3 h.2 h2
  rw [← h1] at h5
  cases hl : lookupTable nv t with
  | none => rw [hl] at h5; cases h5
  | some c =>
    rw [hl] at h5
    simp only [Option.map_some, Option.some.injEq] at h5
    have hb := blk_first b (mem_allBlks b)
    obtain ⟨x, t', rfl⟩ : ∃ x t', t = x :: t' := by
      cases t with
      | nil => exact absurd rfl h4
      | cons x t => exact ⟨x, t, rfl⟩
    obtain ⟨u, hu⟩ := h.1
    rw [← hu] at hb
    simp at hb
    refine ⟨c, .table (.word h4 ?_ hs ?_ ?_ ?_ ?_) (lookupTable_iff.1 hl) ?_, h5⟩
    · intro y hy
      exact blk_chars b (mem_allBlks b) y (by rw [← hu]; exact List.mem_append_left _ hy)
    · rintro ⟨v, hv⟩
      simp at hv
      exact hb.1.1 hv.1.symm
    · rintro ⟨v, _, ⟨y, hv⟩⟩
      simp at hv
      exact hb.1.2.1 hv.1.symm
    · rintro ⟨v, hv⟩
      simp at hv
      exact hb.1.2.2.1 hv.1.symm
    · rintro ⟨_, v, y, hv, hm, _⟩
      have : (x :: t').head? = some 'd' := by
        rw [hv]
        simp [deleteAbbrevs] at hm
        rcases hm with rfl | rfl | rfl | rfl | rfl <;> rfl
      simp at this
      exact hb.1.2.2.2 this
    · rintro ⟨⟨y, v, hv, hy⟩, _⟩
      simp at hv
      rw [← hv.1] at hy
      rcases hb.2 with h | h
      · exact absurd hy.1 (Char.not_le.2 h)
      · exact absurd hy.2 (Char.not_le.2 h)

/-! ### Arguments -/

theorem exprText_prn {s : Str} (h : ExprText s) : ∃ k e, Prn k e s := by
  obtain ⟨e, h1, h2, h3⟩ := h
  have hp := (C17_text e).1 ⟨s, h3⟩
  have h0 : Print.expr1 e 0 = some s := by
    unfold Print.fprintExpr at h3
    split at h3 <;> cases h3
    assumption
  obtain ⟨k, h4, _⟩ := prn_print hp h1 h2 (Nat.zero_le _) h0
  exact ⟨k, _, h4⟩

theorem exprText_run {env : Env} (he : EnvOK env) {s w : Str} (h : ExprText s) {r r1 re : List Cell} (hs : Suf env r)
    (h0 : Reads r w r1) (hw : ∀ c ∈ w, iswhite c = true) (hr : Reads r1 s re) (hz : headSym re = .eol) :
    ∃ v, parseExpr1.run env r = .ok v re := by
  obtain ⟨k, e, hp⟩ := exprText_prn h
  obtain ⟨v, h1, _⟩ := (prn_run (fn := []) he hp hs h0 hw hr (Nat.le_refl _)).full 1 (Nat.le_refl _) hp.ne_nil.2
    (.fin (by rw [hz]; rfl))
  exact ⟨v, h1.run⟩

theorem argStart_of {w : Str} {rn r : List Cell} (h : Reads rn w r) (hw : ∀ c ∈ w, iswhite c = true)
    (h1 : (headSym r).is iswhite = false) (h2 : headSym rn ≠ .ch '!') : argStart rn = r := by
  have : afterBang rn = rn := if_neg h2
  unfold argStart
  rw [this, spanS_of_reads h hw h1]

theorem blockText_args {env : Env} (he : EnvOK env) {b : Blk} {s : Str} {rn re : List Cell} (hs : Suf env rn)
    (h : ArgText b s) (hr : Reads rn s re) (hz : headSym re = .eol) : BlockArgs env b rn re := by
  cases h with
  | bare hb =>
    obtain rfl := hr.nil_inv
    have ha : argStart rn = rn := argStart_of (.nil _) (by simp) (by rw [hz]; rfl) (by rw [hz]; simp)
    have key : ∀ b, b ∈ [Blk.else_, .endif, .endwhile, .endfor, .try_, .finally_, .endtry] → BlockArgs env b rn rn := by
      intro b hb
      have := BlockArgs.bare (env := env) (rn := rn) hb
      rwa [ha] at this
    cases b <;> simp at hb
    case endfunction => exact .endfunction (s := []) (by rw [ha]; exact .nil _) (.inl hz)
    case catch_ =>
      have := BlockArgs.catchAll (env := env) (rn := rn) (by rw [ha, hz]; rfl)
      rwa [ha] at this
    all_goals exact key _ (by decide)
  | @cond _ s hb ht =>
    obtain ⟨q, r1, e, h1⟩ := hr.cons_inv
    obtain ⟨k, x, hp⟩ := exprText_prn ht
    obtain ⟨c, t, rfl, _, _, _, hc⟩ := hp.head
    have hr1 : Reads rn [' '] r1 := by rw [e]; exact .one rfl
    have ha : argStart rn = r1 := argStart_of hr1 (by decide) (by rw [h1.head]; exact hc) (by rw [hr.head]; simp)
    obtain ⟨v, hv⟩ := exprText_run he ht (hr1.adv.suf hs) (.nil r1) (by simp) h1 hz
    exact .cond hb (by rw [ha]; exact hv)
  | @for_ s ht =>
    obtain ⟨q1, r1, rfl, h1⟩ := hr.cons_inv
    obtain ⟨q2, r2, rfl, h2⟩ := h1.cons_inv
    obtain ⟨q3, r3, rfl, h3⟩ := h2.cons_inv
    obtain ⟨q4, r4, rfl, h4⟩ := h3.cons_inv
    obtain ⟨q5, r5, rfl, h5⟩ := h4.cons_inv
    obtain ⟨q6, r6, rfl, h6⟩ := h5.cons_inv
    have hb : Reads (⟨some ' ', q6⟩ :: r6) [' '] r6 := .one rfl
    obtain ⟨v, hv⟩ := exprText_run he ht (r := ⟨some ' ', q6⟩ :: r6)
      (List.IsSuffix.trans ⟨[⟨some ' ', q1⟩, ⟨some 'x', q2⟩, ⟨some ' ', q3⟩, ⟨some 'i', q4⟩, ⟨some 'n', q5⟩], rfl⟩ hs)
      hb (by decide) h6 hz
    exact .for_ (l := { left := some (.atom q2 .identifier ['x']) })
      (r1 := ⟨some ' ', q3⟩ :: ⟨some 'i', q4⟩ :: ⟨some 'n', q5⟩ :: ⟨some ' ', q6⟩ :: r6) (r2 := ⟨some ' ', q6⟩ :: r6)
      rfl (.cons rfl (.cons rfl (.nil _))) rfl hv
  | function =>
    obtain ⟨q1, r1, rfl, h1⟩ := hr.cons_inv
    obtain ⟨q2, r2, rfl, h2⟩ := h1.cons_inv
    obtain ⟨q3, r3, rfl, h3⟩ := h2.cons_inv
    obtain ⟨q4, r4, rfl, h4⟩ := h3.cons_inv
    obtain rfl := h4.nil_inv
    obtain ⟨q, r, rfl⟩ : ∃ q r, r4 = ⟨none, q⟩ :: r := by
      cases r4 with
      | nil => cases hz
      | cons c r =>
        obtain ⟨c, q⟩ := c
        cases c with
        | none => exact ⟨q, r, rfl⟩
        | some c => cases hz
    exact .function (l := .atom q2 .identifier ['F']) (r1 := ⟨some '(', q3⟩ :: ⟨some ')', q4⟩ :: ⟨none, q⟩ :: r)
      (r2 := ⟨some ')', q4⟩ :: ⟨none, q⟩ :: r) (r3 := ⟨none, q⟩ :: r) (ps := {}) (at_ := {})
      rfl (by simp [argStart, afterBang]; exact fun h => nomatch h) rfl rfl (.one rfl) rfl rfl

/-! ### Lines -/

/-- Character, line and column of cells. -/
def keyOf (c : Cell) : Option Char × Nat × Nat := (c.c, c.pos.lnum, c.pos.col)

def lineKeys (n : Nat) : Nat → Str → List (Option Char × Nat × Nat)
  | _, [] => []
  | col, c :: cs => (some c, n, col + 1) :: lineKeys n (col + runeLen c) cs

def fileKeys : Nat → List Str → List (Option Char × Nat × Nat)
  | _, [] => []
  | n, l :: ls => lineKeys n 0 l ++ (none, n, bytesLen l + 1) :: fileKeys (n + 1) ls

theorem lineKeys_cells (n : Nat) : ∀ (l : Str) (col off : Nat), (lineCells n col off l).map keyOf = lineKeys n col l
  | [], _, _ => rfl
  | c :: l, col, off => by simp [lineCells, lineKeys, lineKeys_cells n l, keyOf]

theorem fileKeys_rest : ∀ (ls : List Str) (n col off : Nat), (∀ l ∈ ls, isCont l = false) →
    (buildRest ls n col off).map keyOf = (none, n + 1, col + 1) :: fileKeys (n + 2) ls
  | [], _, _, _, _ => rfl
  | l :: ls, n, col, off, h => by
    simp [buildRest, h l (by simp), fileKeys, lineKeys_cells, fileKeys_rest ls _ _ _ fun x hx => h x (by simp [hx]), keyOf]

theorem reindex_keys : ∀ (cs : List Cell) (n : Nat), (reindex n cs).map keyOf = cs.map keyOf
  | [], _ => rfl
  | c :: cs, n => by simp [reindex, reindex_keys cs, keyOf]

theorem buf_keys {lines : List Str} (h : ∀ l ∈ lines, isCont l = false) : (mkEnv lines).buf.map keyOf = fileKeys 1 lines := by
  simp only [mkEnv, reindex_keys]
  cases lines with
  | nil => rfl
  | cons l ls => simp [buildCells, fileKeys, lineKeys_cells, fileKeys_rest ls _ _ _ fun x hx => h x (by simp [hx])]

theorem reads_keys {n : Nat} : ∀ {l : Str} {col : Nat} {r : List Cell} {y}, r.map keyOf = lineKeys n col l ++ y →
    ∃ re, Reads r l re ∧ re.map keyOf = y
  | [], _, r, _, h => ⟨r, .nil r, h⟩
  | c :: l, col, [], y, h => by simp [lineKeys] at h
  | c :: l, col, d :: r, y, h => by
    simp only [lineKeys, List.map_cons, List.cons_append, List.cons.injEq] at h
    obtain ⟨re, h1, h2⟩ := reads_keys h.2
    refine ⟨re, .cons ?_ h1, h2⟩
    have := h.1
    simp only [keyOf, Prod.mk.injEq] at this
    exact this.1

theorem lineKeys_append (n : Nat) : ∀ (a b : Str) (col : Nat), lineKeys n col (a ++ b) =
    lineKeys n col a ++ lineKeys n (col + bytesLen a) b
  | [], b, col => by simp [lineKeys, bytesLen]
  | c :: a, b, col => by
    simp [lineKeys, lineKeys_append n a b, bytesLen, Nat.add_assoc]

/-- A line of the file: its text is read, then its end, then the other lines; and the position of its parts. -/
theorem line_keys {n : Nat} {a b : Str} {ls : List Str} {r : List Cell} (h : r.map keyOf = fileKeys n ((a ++ b) :: ls)) :
    ∃ r1 re, Reads r a r1 ∧ Reads r1 b re ∧ headSym re = .eol ∧ re.tail.map keyOf = fileKeys (n + 1) ls ∧
      (b ≠ [] → ∀ env, (posOf env r1).lnum = n ∧ (posOf env r1).col = bytesLen a + 1) := by
  rw [fileKeys, lineKeys_append, List.append_assoc] at h
  obtain ⟨r1, h1, h2⟩ := reads_keys h
  obtain ⟨re, h3, h4⟩ := reads_keys h2
  refine ⟨r1, re, h1, h3, ?_, ?_, ?_⟩
  · cases re with
    | nil => cases h4
    | cons c re =>
      obtain ⟨c, q⟩ := c
      simp [keyOf] at h4
      rw [h4.1.1]
      rfl
  · cases re with
    | nil => cases h4
    | cons c re =>
      simp only [List.map_cons, List.cons.injEq] at h4
      exact h4.2
  · intro hb env
    cases b with
    | nil => exact absurd rfl hb
    | cons x b =>
      cases r1 with
      | nil => cases h2
      | cons c r1 =>
        simp only [List.map_cons, lineKeys, List.cons_append, List.cons.injEq, keyOf, Prod.mk.injEq] at h2
        exact ⟨h2.1.2.1, by rw [show (posOf env (c :: r1)) = c.pos from rfl, h2.1.2.2]; omega⟩

theorem argText_stops {b : Blk} {s : Str} (h : ArgText b s) : StopsAt isalpha s ∧ ∀ s', s ≠ '!' :: s' := by
  cases h <;> exact ⟨fun c hc => by cases hc <;> rfl, fun s' h => by cases h⟩

theorem blank_len : ∀ {w : Str}, (∀ c ∈ w, c = ' ' ∨ c = '\t' ∨ c = ':') → bytesLen w = w.length
  | [], _ => rfl
  | c :: w, h => by
    have h1 : runeLen c = 1 := by rcases h c (by simp) with rfl | rfl | rfl <;> rfl
    rw [bytesLen, h1, blank_len fun x hx => h x (by simp [hx]), List.length_cons, Nat.add_comm]

/-- Where the parts of a line with a block command are. -/
theorem line_parts {nv : Bool} {env : Env} {n : Nat} {b : Blk} {w t s : Str} {ls : List Str} {r : List Cell}
    (hw : ∀ c ∈ w, c = ' ' ∨ c = '\t' ∨ c = ':') (ht : BlkWord b t) (hs : ArgText b s)
    (h : r.map keyOf = fileKeys n ((w ++ (t ++ s)) :: ls)) :
    ∃ rc rn re c, CmdPlace env r rc ∧ LineIs rc (t ++ s) ∧ CmdOf nv c t s ∧ c.name = b.name ∧ Reads r w rc ∧ Reads rc t rn ∧
      Reads rn s re ∧ headSym re = .eol ∧ re.tail.map keyOf = fileKeys (n + 1) ls ∧
      (posOf env rc).lnum = n ∧ (posOf env rc).col = w.length + 1 := by
  obtain ⟨_, _, _, hne⟩ := blkWord_take ht
  obtain ⟨rc, re, h1, h2, h3, h4, h5⟩ := line_keys h
  obtain ⟨p1, p2⟩ := h5 (by simp [hne]) env
  obtain ⟨rn, h6, h7⟩ := h2.split
  obtain ⟨c, h8, h9⟩ := blkWord_cmd (nv := nv) ht (argText_stops hs).1
  rw [blank_len hw] at p2
  refine ⟨rc, rn, re, c, ?_, ⟨re, h2, .inl h3⟩, h8, h9, h1, h6, h7, h3, h4, p1, p2⟩
  have halpha : ∀ c ∈ t, isalpha c = true := by
    intro c hc
    obtain ⟨u, hu⟩ := ht.1
    exact blk_chars b (mem_allBlks b) c (by rw [← hu]; exact List.mem_append_left _ hc)
  obtain ⟨x, t', rfl⟩ : ∃ x t', t = x :: t' := by
    cases t with
    | nil => exact absurd rfl hne
    | cons x t => exact ⟨x, t, rfl⟩
  have hx := halpha x (by simp)
  have hwc : (iswhite x || x == ':') = false := by
    rw [alpha_not_white hx, Bool.false_or]
    cases hcc : x == ':' with
    | false => rfl
    | true =>
      simp only [beq_iff_eq] at hcc
      subst hcc
      exact absurd hx (by decide)
  have hsk : skipWC r = rc := by
    have := spanS_of_reads (f := fun c => iswhite c || c == ':') h1 (fun c hc => by
      rcases hw c hc with rfl | rfl | rfl <;> rfl) (by rw [h6.head]; exact hwc)
    show (spanS _ r).2 = rc
    rw [this]
  have hsp : (spanS isalpha rc).1 = x :: t' := by
    rw [spanS_of_reads h6 halpha]
    have := (argText_stops hs).1
    cases s with
    | nil => rw [h7.nil_inv, h3]; rfl
    | cons y s => rw [h7.head]; exact this y rfl
  have := cmdPlace_word (env := env) (r := r) (c := x) ?_ (by rw [hsk]; exact h6.head) hx (by
    rw [hsk, hsp]
    obtain ⟨e1, e2, e3, _⟩ := blkWord_take ht
    rw [e1]
    exact blk_mods b (mem_allBlks b) _ e3 ht.2 e2)
  · rwa [hsk] at this
  · intro hg
    have hh := getnS_reads 2 r
    rw [hg] at hh
    have hh := hh.head
    cases w with
    | nil =>
      rw [h1.nil_inv, h6.head] at hh
      cases hh
      exact absurd hx (by decide)
    | cons y w =>
      rw [h1.head] at hh
      cases hh
      exact absurd (hw '#' (by simp)) (by decide)

theorem viable_prefix {a b : List Blk} (h : Viable (a ++ b)) : Viable a := by
  obtain ⟨r, h⟩ := h
  exact ⟨b ++ r, by rwa [← List.append_assoc]⟩

theorem lines_trace {nv : Bool} {lines l3 : List Str} {bs2 : List Blk} {l2 : List Str} (h : BlockFile bs2 l2) :
    ∀ {bs1 : List Blk} {st : PState} {r : List Cell} {n : Nat}, Trace nv lines bs1 st r →
      r.map keyOf = fileKeys n (l2 ++ l3) → Viable (bs1 ++ bs2) →
      ∃ st' r', Trace nv lines (bs1 ++ bs2) st' r' ∧ r'.map keyOf = fileKeys (n + bs2.length) l3 := by
  induction h with
  | nil =>
    intro bs1 st r n ht hk _
    exact ⟨st, r, by simpa using ht, hk⟩
  | @cons b l bs ls hb _ ih =>
    intro bs1 st r n ht hk hv
    obtain ⟨w, t, s, rfl, hw, hwd, hs⟩ := hb
    obtain ⟨rc, rn, re, c, a1, a2, a3, a4, a5, a6, a7, a8, a9, _⟩ := line_parts (nv := nv) (env := mkEnv lines) hw hwd hs hk
    have hsuf : Suf (mkEnv lines) rn := a6.adv.suf (a5.adv.suf ht.reach.ok.2)
    have ha := blockText_args (mkEnv_ok lines) hsuf hs a7 a8
    have hsp : (spanS iswhite re).2 = re := by
      rw [spanS_of_reads (.nil re) (by simp) (by rw [a8]; rfl)]
    have htr : afterTrail re = re.tail := by
      unfold afterTrail
      rw [hsp, if_neg (by rw [a8]; simp)]
    have hv' : Viable ((bs1 ++ [b]) ++ bs) := by simpa using hv
    have hne : r ≠ [] := by
      rintro rfl
      simp [fileKeys] at hk
    obtain ⟨st', ht'⟩ := C22_accept nv lines bs1 st r rc rn re b c t s ht hne a1 a2 a3 a4
      (fun _ => (argText_stops hs).2) a6 ha (by rw [hsp, a8]; rfl) (viable_prefix hv')
    rw [htr] at ht'
    obtain ⟨st2, r2, h1, h2⟩ := ih ht' a9 hv'
    refine ⟨st2, r2, by simpa using h1, ?_⟩
    rw [h2, List.length_cons]
    congr 1
    omega

theorem blockLine_cont {b : Blk} {l : Str} (h : BlockLine b l) : isCont l = false := by
  obtain ⟨w, t, s, rfl, hw, ht, hs⟩ := h
  obtain ⟨_, _, _, hne⟩ := blkWord_take ht
  obtain ⟨x, t', rfl⟩ : ∃ x t', t = x :: t' := by
    cases t with
    | nil => exact absurd rfl hne
    | cons x t => exact ⟨x, t, rfl⟩
  have hx : isalpha x = true := by
    obtain ⟨u, hu⟩ := ht.1
    exact blk_chars b (mem_allBlks b) x (by rw [← hu]; simp)
  induction w with
  | nil =>
    have h1 : x ≠ '\\' := by rintro rfl; exact absurd hx (by decide)
    have h2 : isSpaceRe x = false := by
      cases h : isSpaceRe x with
      | false => rfl
      | true =>
        simp only [isSpaceRe, Bool.or_eq_true, beq_iff_eq] at h
        rcases h with (((rfl | rfl) | rfl) | rfl) | rfl <;> exact absurd hx (by decide)
    simp [isCont, h1, h2]
  | cons y w ih =>
    have ih := ih fun c hc => hw c (by simp [hc])
    have hy : y ≠ '\\' := by
      rintro rfl
      exact absurd (hw '\\' List.mem_cons_self) (by decide)
    simp only [List.cons_append, isCont] at ih ⊢
    simp [hy, ih]

theorem blockFile_cont {bs : List Blk} {ls : List Str} (h : BlockFile bs ls) : ∀ l ∈ ls, isCont l = false := by
  induction h with
  | nil => simp
  | cons hb _ ih =>
    intro l hl
    rcases List.mem_cons.1 hl with rfl | hl
    · exact blockLine_cont hb
    · exact ih l hl

theorem first_bad (bs : List Blk) : ∀ (a : List Blk), Viable a → ¬ Viable (a ++ bs) →
    ∃ pre b post, bs = pre ++ b :: post ∧ Viable (a ++ pre) ∧ ¬ Viable (a ++ pre ++ [b]) := by
  induction bs with
  | nil =>
    intro a h1 h2
    simp at h2
    exact absurd h1 h2
  | cons b bs ih =>
    intro a h1 h2
    by_cases hb : Viable (a ++ [b])
    · obtain ⟨pre, c, post, rfl, h3, h4⟩ := ih (a ++ [b]) hb (by simpa using h2)
      exact ⟨b :: pre, c, post, rfl, by simpa using h3, by simpa using h4⟩
    · exact ⟨[], b, bs, rfl, by simpa using h1, by simpa using hb⟩

theorem open_of {bs : List Blk} (h : Viable bs) :
    ∃ o : Option Blk, match o with | none => Blocks bs | some x => Innermost bs x := by
  obtain ⟨s, hs⟩ := viable_iff.1 h
  cases s with
  | nil => exact ⟨none, blocks_iff.2 hs⟩
  | cons x s => exact ⟨some x, (innermost_iff hs x).2 rfl⟩

theorem Spec.BlockFile.split {pre post : List Blk} {b : Blk} : ∀ {ls : List Str}, BlockFile (pre ++ b :: post) ls →
    ∃ l1 l l2, ls = l1 ++ l :: l2 ∧ BlockFile pre l1 ∧ BlockLine b l ∧ BlockFile post l2 := by
  induction pre with
  | nil =>
    intro ls h
    cases h with
    | cons h1 h2 => exact ⟨[], _, _, rfl, .nil, h1, h2⟩
  | cons c pre ih =>
    intro ls h
    cases h with
    | cons h1 h2 =>
      obtain ⟨l1, l, l2, rfl, a1, a2, a3⟩ := ih h2
      exact ⟨_ :: l1, l, l2, rfl, .cons h1 a1, a2, a3⟩

theorem whole_trace (nv : Bool) {bs : List Blk} {lines : List Str} (h : BlockFile bs lines) (hv : Viable bs) :
    ∃ st, Trace nv lines bs st [] := by
  obtain ⟨st, r, ht, hk⟩ := lines_trace (nv := nv) (lines := lines) (l3 := []) h .start (n := 1)
    (by simpa using buf_keys (blockFile_cont h)) (by simpa using hv)
  simp only [fileKeys, List.map_eq_nil_iff] at hk
  subst hk
  exact ⟨st, by simpa using ht⟩

end Viml

namespace Viml.Props
open Viml Prog Spec

section
variable (nv : Bool) (fn : Str)

/-- C22 for such files: the first block command that does not fit is an error at its line and column. -/
theorem C22_lines_reject (pre post : List Blk) (b : Blk) (l1 l2 : List Str) (w t s : Str) (o : Option Blk)
    (h1 : BlockFile pre l1) (h2 : BlockFile post l2) (hw : ∀ c ∈ w, c = ' ' ∨ c = '\t' ∨ c = ':') (ht : BlkWord b t)
    (hs : ArgText b s) (hp : Viable pre) (hv : ¬ Viable (pre ++ [b]))
    (ho : match o with | none => Blocks pre | some h => Innermost pre h) :
    ∃ off, parseFileLines nv fn (l1 ++ (w ++ (t ++ s)) :: l2) =
      some ⟨none, some (.parse fn off (pre.length + 1) (w.length + 1) (blockError o b))⟩ := by
  have hbl : BlockLine b (w ++ (t ++ s)) := ⟨w, t, s, rfl, hw, ht, hs⟩
  have hc : ∀ l ∈ l1 ++ (w ++ (t ++ s)) :: l2, isCont l = false := by
    intro l hl
    rcases List.mem_append.1 hl with hl | hl
    · exact blockFile_cont h1 l hl
    · rcases List.mem_cons.1 hl with rfl | hl
      · exact blockLine_cont hbl
      · exact blockFile_cont h2 l hl
  generalize hlines : l1 ++ (w ++ (t ++ s)) :: l2 = lines at *
  obtain ⟨st, r, htr, hk⟩ := lines_trace (nv := nv) (lines := lines) (l3 := (w ++ (t ++ s)) :: l2) h1 .start
    (n := 1) (by rw [hlines]; exact buf_keys hc) (by simpa using hp)
  obtain ⟨rc, rn, re, c, a1, a2, a3, a4, a5, a6, a7, a8, a9, a10, a11⟩ :=
    line_parts (nv := nv) (env := mkEnv lines) hw ht hs hk
  have hne : r ≠ [] := by
    rintro rfl
    simp [fileKeys] at hk
  have := C22_reject nv fn lines pre st r rc b c t s o (by simpa using htr) hne a1 a2 a3 a4 (argText_stops hs).2 hv ho
  rw [a10, a11] at this
  exact ⟨_, by rw [this, Nat.add_comm]⟩

/-- C22 for such files: a block that is left open is an error at the end of the file. -/
theorem C22_lines_missing (bs : List Blk) (lines : List Str) (h : BlockFile bs lines) (x : Blk) (hv : Viable bs)
    (hx : Innermost bs x) : ∃ off, parseFileLines nv fn lines =
      some ⟨none, some (.parse fn off (bs.length + 1) 0 (missingError x))⟩ := by
  obtain ⟨st, ht⟩ := whole_trace nv h hv
  have hl : bs.length = lines.length := by
    clear ht hx hv
    induction h with
    | nil => rfl
    | cons _ _ ih => simp [ih]
  exact ⟨_, by rw [(C22_end nv fn lines bs st ht).2 x hx, hl]; rfl⟩

/-- C22 for files with one block command on each line: such a file is accepted exactly when its block commands are
a sequence of the grammar. -/
theorem C22_lines (bs : List Blk) (lines : List Str) (h : BlockFile bs lines) :
    (∃ f, parseFileLines nv fn lines = some ⟨some f, none⟩) ↔ Blocks bs := by
  constructor
  · rintro ⟨f, hf⟩
    by_cases hv : Viable bs
    · obtain ⟨s, hs⟩ := viable_iff.1 hv
      cases s with
      | nil => exact blocks_iff.2 hs
      | cons x s =>
        obtain ⟨off, e⟩ := C22_lines_missing nv fn bs lines h x hv ((innermost_iff hs x).2 rfl)
        rw [hf] at e
        cases e
    · exfalso
      obtain ⟨pre, b, post, rfl, h1, h2⟩ := first_bad bs [] ⟨[], .nil⟩ hv
      simp only [List.nil_append] at h1 h2
      obtain ⟨l1, l, l2, rfl, a1, ⟨w, t, s, rfl, a2, a3, a4⟩, a5⟩ := h.split
      obtain ⟨o, ho⟩ := open_of h1
      obtain ⟨off, e⟩ := C22_lines_reject nv fn pre post b l1 l2 w t s o a1 a5 a2 a3 a4 h1 h2 ho
      rw [hf] at e
      cases e
  · intro hb
    obtain ⟨st, ht⟩ := whole_trace nv h ⟨[], by simpa using hb⟩
    exact (C22_end nv fn lines bs st ht).1 hb

end

/-! ### Examples -/

theorem exprText_idn : ExprText ['a'] := ⟨idn 'a', idn_leaf (by decide), idn_cmp _, rfl⟩

/-- A file with all kinds of block commands. -/
def blockFile : List Str := [cs!"fu F()", cs!"  :for x in a", cs!"try", cs!"if a", cs!"elseif a", cs!"el", cs!"endif", cs!"cat",
  cs!"fina", cs!"wh a", cs!"endw", cs!"endt", cs!"endfo", cs!"\tendf"]
def blockCmds : List Blk := [.function, .for_, .try_, .if_, .elseif, .else_, .endif, .catch_, .finally_, .while_,
  .endwhile, .endtry, .endfor, .endfunction]

theorem wordOK {b : Blk} {t : Str} (h : t.isPrefixOf b.name = true) (h' : blkMin b ≤ t.length) : BlkWord b t :=
  ⟨List.isPrefixOf_iff_prefix.1 h, h'⟩

theorem blockFile_ok : BlockFile blockCmds blockFile := by
  have e := exprText_idn
  refine .cons ⟨[], cs!"fu", _, rfl, by decide, wordOK rfl (by decide), .function⟩ ?_
  refine .cons ⟨cs!"  :", cs!"for", _, rfl, by decide, wordOK rfl (by decide), .for_ e⟩ ?_
  refine .cons ⟨[], cs!"try", [], rfl, by decide, wordOK rfl (by decide), .bare (by decide)⟩ ?_
  refine .cons ⟨[], cs!"if", _, rfl, by decide, wordOK rfl (by decide), .cond (by decide) e⟩ ?_
  refine .cons ⟨[], cs!"elseif", _, rfl, by decide, wordOK rfl (by decide), .cond (by decide) e⟩ ?_
  refine .cons ⟨[], cs!"el", [], rfl, by decide, wordOK rfl (by decide), .bare (by decide)⟩ ?_
  refine .cons ⟨[], cs!"endif", [], rfl, by decide, wordOK rfl (by decide), .bare (by decide)⟩ ?_
  refine .cons ⟨[], cs!"cat", [], rfl, by decide, wordOK rfl (by decide), .bare (by decide)⟩ ?_
  refine .cons ⟨[], cs!"fina", [], rfl, by decide, wordOK rfl (by decide), .bare (by decide)⟩ ?_
  refine .cons ⟨[], cs!"wh", _, rfl, by decide, wordOK rfl (by decide), .cond (by decide) e⟩ ?_
  refine .cons ⟨[], cs!"endw", [], rfl, by decide, wordOK rfl (by decide), .bare (by decide)⟩ ?_
  refine .cons ⟨[], cs!"endt", [], rfl, by decide, wordOK rfl (by decide), .bare (by decide)⟩ ?_
  refine .cons ⟨[], cs!"endfo", [], rfl, by decide, wordOK rfl (by decide), .bare (by decide)⟩ ?_
  exact .cons ⟨cs!"\t", cs!"endf", [], rfl, by decide, wordOK rfl (by decide), .bare (by decide)⟩ .nil

theorem blockCmds_ok : Blocks blockCmds :=
  .function (b := [.for_, .try_, .if_, .elseif, .else_, .endif, .catch_, .finally_, .while_, .endwhile, .endtry, .endfor])
    (.for_ (b := [.try_, .if_, .elseif, .else_, .endif, .catch_, .finally_, .while_, .endwhile, .endtry])
      (.try_ (b := [.if_, .elseif, .else_, .endif]) (t := [.catch_, .finally_, .while_, .endwhile, .endtry])
        (.if_ (b := []) (t := [.elseif, .else_, .endif]) .nil (.elseif (b := []) .nil (.else_ (b := []) .nil)) .nil)
        (.catch_ (b := []) .nil (.finally_ (b := [.while_, .endwhile]) (.while_ (b := []) .nil .nil)))
        .nil)
      .nil)
    .nil

-- the file is accepted, and its commands form a trace
example : ∃ f, parseFileLines false [] blockFile = some ⟨some f, none⟩ :=
  (C22_lines false [] _ _ blockFile_ok).2 blockCmds_ok
example : ∃ st, Trace true blockFile blockCmds st [] := whole_trace true blockFile_ok ⟨[], by simpa using blockCmds_ok⟩

-- `:endif` in the body of a loop is rejected at its line, with a message
example : ∃ off, parseFileLines false cs!"f" [cs!"if a", cs!"while a", cs!" endif", cs!"endwhile"] =
    some ⟨none, some (.parse cs!"f" off 3 2 cs!"E580: :endif without :if")⟩ := by
  have e := exprText_idn
  exact C22_lines_reject false cs!"f" [.if_, .while_] [.endwhile] .endif [cs!"if a", cs!"while a"] [cs!"endwhile"] [' ']
    cs!"endif" [] (some .while_)
    (.cons ⟨[], cs!"if", _, rfl, by decide, wordOK rfl (by decide), .cond (by decide) e⟩
      (.cons ⟨[], cs!"while", _, rfl, by decide, wordOK rfl (by decide), .cond (by decide) e⟩ .nil))
    (.cons ⟨[], cs!"endwhile", [], rfl, by decide, wordOK rfl (by decide), .bare (by decide)⟩ .nil)
    (by decide) (wordOK rfl (by decide)) (.bare (by decide)) (viable_iff.2 ⟨_, rfl⟩)
    (fun h => by obtain ⟨s, h⟩ := viable_iff.1 h; cases h) ⟨[.if_], [], rfl, .nil, by decide⟩

-- an open block at the end of the file
example : ∃ off, parseFileLines false cs!"f" [cs!"try"] =
    some ⟨none, some (.parse cs!"f" off 2 0 cs!"E600: Missing :endtry:    TOPLEVEL")⟩ :=
  C22_lines_missing false cs!"f" [.try_] [cs!"try"]
    (.cons ⟨[], cs!"try", [], rfl, by decide, wordOK rfl (by decide), .bare (by decide)⟩ .nil) .try_
    (viable_iff.2 ⟨_, rfl⟩) ⟨[], [], rfl, .nil, by decide⟩

-- a bang after a block command other than `:function`
example : (match parseFileLines false cs!"f" [cs!"if! 1"] with
    | some ⟨none, some (.parse _ 0 1 1 m)⟩ => m == cs!"E477: No ! allowed" | _ => false) = true := by decide +kernel

end Viml.Props
