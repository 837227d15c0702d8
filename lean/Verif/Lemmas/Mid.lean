/-
`:try`, `:else`, `:catch` and `:finally` in lines of their own.
-/
import Verif.Lemmas.Close
import Verif.Spec.Mid

namespace Viml
open Spec

variable {nv : Bool} {env : Env} {fn : Str} {cx : Ctx} {b : Option Inner} {used used' : List Str} {r r' : List Cell} {st : List Str}
  {n : Str} {A B : List Str}

theorem part_entry (nv : Bool) (t : Str) (ht : t ∈ partCmds) :
    ∃ c, TableCmd nv t c ∧ c.name = t ∧ .ARGOPT ∉ c.flags ∧ .EDITCMD ∉ c.flags := by
  have h : (lookupTable nv t).any (fun c => c.name == t && !c.flags.contains .ARGOPT && !c.flags.contains .EDITCMD) = true := by
    simp only [partCmds, List.mem_cons, List.not_mem_nil, or_false] at ht
    rcases ht with rfl | rfl | rfl | rfl <;> cases nv <;> decide +kernel
  cases hl : lookupTable nv t with
  | none => rw [hl] at h; cases h
  | some c =>
    rw [hl] at h
    simp only [Option.any_some, Bool.and_eq_true, beq_iff_eq, Bool.not_eq_true', List.contains_eq_mem,
      decide_eq_false_iff_not] at h
    exact ⟨c, lookupTable_iff.1 hl, h.1.1, h.1.2, h.2⟩

theorem part_alpha : ∀ t ∈ partCmds, ∀ x ∈ t, isalpha x = true := by decide

theorem part_noMod : ∀ t ∈ partCmds, ∀ p ∈ vimModifiers, ¬ t <+: p.1 := by decide

theorem part_noCont : ∀ t ∈ partCmds, afterBackslash t = none := by decide +kernel

theorem part_pos : ∀ t ∈ partCmds, (mkEnv [t]).buf.head?.map (fun c => (c.pos.i, c.pos.lnum, c.pos.col)) = some (0, 1, 1) := by
  decide +kernel

theorem part_text : ∀ t ∈ partCmds, (mkEnv [t]).buf.map Cell.c = t.map some ++ [none] := by decide +kernel

theorem part_head (nv : Bool) (env : Env) (fn : Str) (used : List Str) {t : Str} (ht : t ∈ partCmds)
    {r re : List Cell} (h : Reads r t re) (he : headSym re = .eol) :
    ∃ ea c, c.name = t ∧ HeadAt nv env fn used r r r ea c re re used := by
  obtain ⟨c, hc, hn, hf1, hf2⟩ := part_entry nv t ht
  have ha : ∀ x ∈ t, isalpha x = true := part_alpha t ht
  have hm : ∀ p ∈ vimModifiers, ¬ t <+: p.1 := part_noMod t ht
  obtain ⟨x, hx, hx2⟩ : ∃ x, headSym r = .ch x ∧ (x = 't' ∨ x = 'e' ∨ x = 'c' ∨ x = 'f') := by
    simp only [partCmds, List.mem_cons, List.not_mem_nil, or_false] at ht
    rcases ht with rfl | rfl | rfl | rfl
    · exact ⟨_, h.head, .inl rfl⟩
    · exact ⟨_, h.head, .inr (.inl rfl)⟩
    · exact ⟨_, h.head, .inr (.inr (.inl rfl))⟩
    · exact ⟨_, h.head, .inr (.inr (.inr rfl))⟩
  simp only [partCmds, List.mem_cons, List.not_mem_nil, or_false] at ht
  have hne : ¬ AtEnd r := by rintro (h | h) <;> rw [hx] at h <;> cases h
  have hq : headSym r ≠ .ch '"' := by
    rw [hx]
    rcases hx2 with rfl | rfl | rfl | rfl <;> decide
  have hz : (headSym re).is isalpha = false := by rw [he]; rfl
  refine ⟨{ forceit := false, linepos := here env fn r, cmdpos := here env fn r, argpos := some (here env fn re), cmd := some c, modifiers := [], range := [] }, c, hn, _, ⟨[], [], re, false, re, ⟨⟨?_, ⟨[], .nil r, by simp, ?_⟩, hne, hq, r, r, .nil ?_, ?_, ?_,
    ⟨[], .nil r, by simp, ?_⟩⟩, hne, hq, ?_⟩, ?_, ?_, rfl⟩, ?_⟩
  · rintro ⟨r', h'⟩
    have := h'.head
    rw [hx] at this
    rcases hx2 with rfl | rfl | rfl | rfl <;> cases this
  · rw [hx]; rcases hx2 with rfl | rfl | rfl | rfl <;> rfl
  · rintro m r' ⟨a1, a2, a3, a4, a5, a6, a7, a8, a9, a10, a11, a12, a13, a14, a15, a16⟩
    rename_i d w k w' b name mm bang count r1 r2 r3
    have hd : d = [] := by
      cases d with
      | nil => rfl
      | cons y d =>
        have := a1.head
        rw [hx] at this
        cases this
        have := a2 x (by simp)
        rcases hx2 with rfl | rfl | rfl | rfl <;> cases this
    subst hd
    obtain rfl := a4 rfl
    obtain rfl := a1.nil_inv
    obtain rfl := reads_alpha ha h hz a6 a5 a7
    exact hm _ a8 a9
  · intro m hm; exact nomatch hm
  · have hs : Skip r r := ⟨[], .nil r, by simp, by rw [hx]; rcases hx2 with rfl | rfl | rfl | rfl <;> rfl⟩
    refine .last (as := []) (w := []) (r1 := r) ?_ (.no ?_ ?_) ?_ ?_
    · refine .one (a := []) (os := []) hs hne (.none ?_) (.nil hs ?_) ?_ ?_ <;>
        rw [hx] <;> rcases hx2 with rfl | rfl | rfl | rfl <;> decide
    all_goals rw [hx] <;> rcases hx2 with rfl | rfl | rfl | rfl <;> decide
  · rw [hx]; rcases hx2 with rfl | rfl | rfl | rfl <;> rfl
  · refine .table (n := t) (t := t) (s := []) ⟨re, by simpa using h, .inl he⟩ (.word ?_ ha ?_ ?_ ?_ ?_ ?_) hc ?_ h
    · rcases ht with rfl | rfl | rfl | rfl <;> decide
    · intro c hs; cases hs
    · rcases ht with rfl | rfl | rfl | rfl <;> decide
    · rintro ⟨y, _, hy⟩
      rcases ht with rfl | rfl | rfl | rfl <;> obtain ⟨z, hz⟩ := hy <;> cases hz
    · rcases ht with rfl | rfl | rfl | rfl <;> decide
    · rintro ⟨_, z, y, hz, hd, _⟩
      have hl := congrArg List.head? hz
      rcases ht with rfl | rfl | rfl | rfl <;>
        (simp only [deleteAbbrevs, List.mem_cons, List.not_mem_nil, or_false] at hd
         rcases hd with rfl | rfl | rfl | rfl | rfl <;> cases hl)
    · rintro ⟨⟨y, s, hy, hu⟩, _⟩
      rcases ht with rfl | rfl | rfl | rfl <;> cases hy <;> revert hu <;> decide
  · exact .no (.inl (by rw [he]; simp))
  · refine .inr ⟨by rw [hn]; rcases ht with rfl | rfl | rfl | rfl <;> decide, [], .nil re, by simp, by rw [he]; rfl⟩
  · refine ⟨_, re, _, re, _, re, _, re, .inr ⟨hf1, rfl, rfl⟩, .none ?_ ?_, .none ?_, .none ?_ ?_,
      .inr ⟨fun hh => hf2 hh.1, rfl, rfl⟩⟩ <;> rw [hn] <;> rcases ht with rfl | rfl | rfl | rfl <;>
      first | decide | (intro hh; exact absurd hh (by decide))

/-- The line of such a command. -/
theorem part_line (hn : n ∈ partCmds) (hB : ∀ l, B.head? = some l → afterBackslash l = none) :
    ∃ p c, restB A (n :: B) = p ++ c :: restB (A ++ [n]) B ∧ p.map Cell.c = n.map some ∧ c.c = none ∧
      (posOf (mkEnv (A ++ n :: B)) (restB A (n :: B))).i = (mkEnv A).buf.length ∧
      (posOf (mkEnv (A ++ n :: B)) (restB A (n :: B))).lnum = A.length + 1 ∧
      (posOf (mkEnv (A ++ n :: B)) (restB A (n :: B))).col = 1 := by
  have ht : (restB A [n]).map Cell.c = n.map some ++ [none] := by
    rw [← part_text n hn]
    exact moveCell_text ..
  obtain ⟨p, q, e, h1, h2⟩ := List.map_eq_append_iff.1 ht
  obtain ⟨c, hq, h3⟩ := List.map_eq_singleton_iff.1 h2
  subst hq
  rw [restB_cons (part_noCont n hn) hB]
  refine ⟨p, c, by rw [e]; simp, h1, h3, ?_⟩
  have hp := part_pos n hn
  cases hb : (mkEnv [n]).buf with
  | nil => rw [hb] at hp; cases hp
  | cons x r =>
    rw [hb] at hp
    simp only [List.head?_cons, Option.map_some, Option.some.injEq, Prod.mk.injEq] at hp
    simp only [restB, hb, List.map_cons, List.cons_append, posOf, moveCell, hp]
    refine ⟨?_, ?_, trivial⟩ <;> omega


/-- Behind the lines `A` the innermost open block is `b`, and the commands `st` end the open blocks. -/
def OpenIn (nv : Bool) (fn : Str) (A : List Str) (b : Option Inner) (st : List Str) : Prop :=
  ∀ B : List Str, (∀ l, B.head? = some l → afterBackslash l = none) →
    ∃ cx used, OpenFront nv (mkEnv (A ++ B)) fn cx b used (restB A B) st

theorem OpenIn.at (h : OpenIn nv fn A b st) : OpenAt nv fn A st := fun B hB =>
  let ⟨cx, used, h⟩ := h B hB
  ⟨cx, b, used, h⟩

theorem OpenAt.in (h : OpenAt nv fn A st) : ∃ b, OpenIn nv fn A b st := by
  have hX : ∀ l, [commentLine].head? = some l → afterBackslash l = none := by
    intro l hl
    cases hl
    decide +kernel
  obtain ⟨cx, b, used, hf⟩ := h [commentLine] hX
  refine ⟨b, fun B hB => ?_⟩
  let ι : Fore (A ++ [commentLine]) (mkEnv (A ++ B)) fn := foreOf fn hX hB (by simp)
  obtain ⟨x, h3⟩ := Fore.openFront_before (ι := ι) hf (.inr rfl)
  have e : ι.κ.tr (restB A [commentLine]) = restB A B := Carry.tr_end
  rw [e] at h3
  exact ⟨cx, x, h3⟩

theorem OpenIn.script {W : List Str} {g : Ast.File} (h : OpenIn nv fn A b st) (hg : Complete nv fn W g)
    (hW : ∀ l, W.head? = some l → afterBackslash l = none) : OpenIn nv fn (A ++ W) b st := by
  intro B hB
  obtain ⟨cx, used, h⟩ := h (W ++ B) (by
    intro y hy
    cases W with
    | nil => exact hB y hy
    | cons l W => exact hW y hy)
  rw [restB_append hW hB, ← List.append_assoc] at h
  obtain ⟨U, _, hn⟩ := nest_body hg
  obtain ⟨_, _, h3⟩ := hn A (restB (A ++ W) B) (mkEnv (A ++ W ++ B)) cx [] (fun _ h => by cases h) (fun _ _ _ h => by cases h)
  obtain ⟨_, _, h3⟩ := body_any h3 used
  exact ⟨cx, _, h.lines h3⟩

/-- The part that `n` starts. -/
def midInner (n : Str) : Inner := if n = cs!"else" then .else_ else if n = cs!"catch" then .catch_ else .finally_

/-- `n` can stand in the block `b`. -/
def Fits (b : Option Inner) (n : Str) : Prop := if n = cs!"else" then ifLike b else tryLike b

theorem mid_part (hn : n ∈ midCmds) : n ∈ partCmds := List.mem_cons_of_mem _ hn

theorem OpenAt.try_ (h : OpenAt nv fn A st) : OpenIn nv fn (A ++ [cs!"try"]) (some .try_) (cs!"endtry" :: st) := by
  intro B hB
  have hn : cs!"try" ∈ partCmds := by decide
  obtain ⟨cx, b, used, h⟩ := h (cs!"try" :: B) (by rintro _ ⟨⟩; exact part_noCont _ hn)
  obtain ⟨p, c, e, h1, h3, _⟩ := part_line (A := A) hn hB
  have he : headSym (c :: restB (A ++ [cs!"try"]) B) = .eol := by simp [headSym, Cell.sym, h3]
  have hr : Reads (restB A (cs!"try" :: B)) cs!"try" (c :: restB (A ++ [cs!"try"]) B) := ⟨p, e, h1⟩
  obtain ⟨ea, c', k1, k2⟩ := part_head nv (mkEnv (A ++ cs!"try" :: B)) fn used hn hr he
  rw [show A ++ [cs!"try"] ++ B = A ++ cs!"try" :: B by simp]
  exact ⟨_, _, h.try_ (a := ()) ⟨_, _, _, _, _, k1, HeadAt.cmdHead k2, rfl, eol_trail he⟩⟩

theorem OpenIn.mid (h : OpenIn nv fn A b st) (hn : n ∈ midCmds) (hb : Fits b n) :
    OpenIn nv fn (A ++ [n]) (some (midInner n)) st := by
  intro B hB
  obtain ⟨cx, used, h⟩ := h (n :: B) (by rintro _ ⟨⟩; exact part_noCont n (mid_part hn))
  obtain ⟨p, c, e, h1, h3, _⟩ := part_line (A := A) (mid_part hn) hB
  have he : headSym (c :: restB (A ++ [n]) B) = .eol := by simp [headSym, Cell.sym, h3]
  have hr : Reads (restB A (n :: B)) n (c :: restB (A ++ [n]) B) := ⟨p, e, h1⟩
  obtain ⟨ea, c', k1, k2⟩ := part_head nv (mkEnv (A ++ n :: B)) fn used (mid_part hn) hr he
  rw [show A ++ [n] ++ B = A ++ n :: B by simp]
  simp only [midCmds, List.mem_cons, List.not_mem_nil, or_false] at hn
  rcases hn with rfl | rfl | rfl
  · exact ⟨_, _, h.else_ hb (a := ()) ⟨_, _, _, _, _, k1, HeadAt.cmdHead k2, rfl, eol_trail he⟩⟩
  · exact ⟨_, _, h.catch_ hb (a := []) ⟨_, _, _, _, _, k1, HeadAt.cmdHead k2,
      .none ⟨[], Reads.nil _, by simp, by rw [he]; rfl⟩ (.inl (.inl he)), eol_trail he⟩⟩
  · exact ⟨_, _, h.finally_ hb (a := ()) ⟨_, _, _, _, _, k1, HeadAt.cmdHead k2, rfl, eol_trail he⟩⟩

/-- The message for `n` in the block `b`. -/
def midErr (b : Option Inner) (n : Str) : Str := if b = some .finally_ then late n else stray n

theorem OpenIn.noMid (h : OpenIn nv fn A b st) (hn : n ∈ midCmds) (hb : ¬ Fits b n)
    (hB : ∀ l, B.head? = some l → afterBackslash l = none) :
    parseFileLines nv fn (A ++ n :: B) = some ⟨none, some (.parse fn (readLen A) (A.length + 1) 1 (midErr b n))⟩ := by
  obtain ⟨cx, used, h⟩ := h (n :: B) (by rintro _ ⟨⟩; exact part_noCont n (mid_part hn))
  obtain ⟨p, c, e, h1, h3, g1, g2, g3⟩ := part_line (A := A) (mid_part hn) hB
  have hr : Reads (restB A (n :: B)) n (c :: restB (A ++ [n]) B) := ⟨p, e, h1⟩
  obtain ⟨ea, c', k1, k2⟩ := part_head nv (mkEnv (A ++ n :: B)) fn used (mid_part hn) hr (by simp [headSym, Cell.sym, h3])
  have hm : Spec.Misplaced cx b c'.name (midErr b n) := by
    rw [k1]
    simp only [midCmds, List.mem_cons, List.not_mem_nil, or_false] at hn
    unfold midErr
    rcases hn with rfl | rfl | rfl
    · split <;> exact .else_ hb
    · split
      · rename_i hf; exact .catchLate hf
      · rename_i hf; exact .catch_ fun h => h.elim hb hf
    · split <;> exact .finally_ hb
  exact (Props.C54_lines ..).2 ⟨rfl, rfl, _, (Props.readLen_eq A).trans g1.symm, g2.symm, g3.symm, .line h.front (.place k2 hm)⟩

/-- The innermost block and its end command. -/
theorem OpenIn.head (h : OpenIn nv fn A b st) :
    (inIf b ↔ st.head? = some cs!"endif") ∧ (inTry b ↔ st.head? = some cs!"endtry") := by
  obtain ⟨cx, used, h⟩ := h [] (by simp)
  rcases openFront_part h with ⟨rfl, rfl⟩ | ⟨i, m, st', cx0, b0, used0, r0, rfl, rfl, _, p⟩
  · simp [inIf, ifLike, inTry, tryLike]
  · cases p with
    | if_ h1 => rcases h1 with h | h <;> cases h <;> simp [inIf, ifLike, inTry, tryLike]
    | try_ h1 => rcases h1 with h | h <;> cases h <;> simp [inIf, ifLike, inTry, tryLike]
    | _ => simp [inIf, ifLike, inTry, tryLike]

end Viml
