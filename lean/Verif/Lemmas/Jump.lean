/-
`:break`, `:continue` and `:return` in lines of their own.
-/
import Verif.Lemmas.Close
import Verif.Spec.Jump

namespace Viml
open Spec

variable {nv : Bool} {env : Env} {fn : Str} {cx : Ctx} {b : Option Inner} {used used' : List Str} {r r' : List Cell} {st : List Str}
  {n : Str} {A B : List Str}

theorem jump_entry (nv : Bool) (t : Str) (ht : t ∈ jumpCmds) :
    ∃ c, TableCmd nv t c ∧ c.name = t ∧ .ARGOPT ∉ c.flags ∧ .EDITCMD ∉ c.flags := by
  have h : (lookupTable nv t).any (fun c => c.name == t && !c.flags.contains .ARGOPT && !c.flags.contains .EDITCMD) = true := by
    simp only [jumpCmds, List.mem_cons, List.not_mem_nil, or_false] at ht
    rcases ht with rfl | rfl | rfl <;> cases nv <;> decide +kernel
  cases hl : lookupTable nv t with
  | none => rw [hl] at h; cases h
  | some c =>
    rw [hl] at h
    simp only [Option.any_some, Bool.and_eq_true, beq_iff_eq, Bool.not_eq_true', List.contains_eq_mem,
      decide_eq_false_iff_not] at h
    exact ⟨c, lookupTable_iff.1 hl, h.1.1, h.1.2, h.2⟩

theorem jump_alpha : ∀ t ∈ jumpCmds, ∀ x ∈ t, isalpha x = true := by decide

theorem jump_noMod : ∀ t ∈ jumpCmds, ∀ p ∈ vimModifiers, ¬ t <+: p.1 := by decide

theorem jump_noCont : ∀ t ∈ jumpCmds, afterBackslash t = none := by decide +kernel

theorem jump_pos : ∀ t ∈ jumpCmds, (mkEnv [t]).buf.head?.map (fun c => (c.pos.i, c.pos.lnum, c.pos.col)) = some (0, 1, 1) := by
  decide +kernel

theorem jump_text : ∀ t ∈ jumpCmds, (mkEnv [t]).buf.map Cell.c = t.map some ++ [none] := by decide +kernel

theorem jump_head (nv : Bool) (env : Env) (fn : Str) (used : List Str) {t : Str} (ht : t ∈ jumpCmds)
    {r re : List Cell} (h : Reads r t re) (he : headSym re = .eol) :
    ∃ ea c, c.name = t ∧ HeadAt nv env fn used r r r ea c re re used := by
  obtain ⟨c, hc, hn, hf1, hf2⟩ := jump_entry nv t ht
  have ha : ∀ x ∈ t, isalpha x = true := jump_alpha t ht
  have hm : ∀ p ∈ vimModifiers, ¬ t <+: p.1 := jump_noMod t ht
  obtain ⟨x, hx, hx2⟩ : ∃ x, headSym r = .ch x ∧ (x = 'b' ∨ x = 'c' ∨ x = 'r') := by
    simp only [jumpCmds, List.mem_cons, List.not_mem_nil, or_false] at ht
    rcases ht with rfl | rfl | rfl
    · exact ⟨_, h.head, .inl rfl⟩
    · exact ⟨_, h.head, .inr (.inl rfl)⟩
    · exact ⟨_, h.head, .inr (.inr rfl)⟩
  simp only [jumpCmds, List.mem_cons, List.not_mem_nil, or_false] at ht
  have hne : ¬ AtEnd r := by rintro (h | h) <;> rw [hx] at h <;> cases h
  have hq : headSym r ≠ .ch '"' := by
    rw [hx]
    rcases hx2 with rfl | rfl | rfl <;> decide
  have hz : (headSym re).is isalpha = false := by rw [he]; rfl
  refine ⟨{ forceit := false, linepos := here env fn r, cmdpos := here env fn r, argpos := some (here env fn re), cmd := some c, modifiers := [], range := [] }, c, hn, _, ⟨[], [], re, false, re, ⟨⟨?_, ⟨[], .nil r, by simp, ?_⟩, hne, hq, r, r, .nil ?_, ?_, ?_,
    ⟨[], .nil r, by simp, ?_⟩⟩, hne, hq, ?_⟩, ?_, ?_, rfl⟩, ?_⟩
  · rintro ⟨r', h'⟩
    have := h'.head
    rw [hx] at this
    rcases hx2 with rfl | rfl | rfl <;> cases this
  · rw [hx]; rcases hx2 with rfl | rfl | rfl <;> rfl
  · rintro m r' ⟨a1, a2, a3, a4, a5, a6, a7, a8, a9, a10, a11, a12, a13, a14, a15, a16⟩
    rename_i d w k w' b name mm bang count r1 r2 r3
    have hd : d = [] := by
      cases d with
      | nil => rfl
      | cons y d =>
        have := a1.head
        rw [hx] at this
        cases this
        have := a2 x (by simp)
        rcases hx2 with rfl | rfl | rfl <;> cases this
    subst hd
    obtain rfl := a4 rfl
    obtain rfl := a1.nil_inv
    obtain rfl := reads_alpha ha h hz a6 a5 a7
    exact hm _ a8 a9
  · intro m hm; exact nomatch hm
  · have hs : Skip r r := ⟨[], .nil r, by simp, by rw [hx]; rcases hx2 with rfl | rfl | rfl <;> rfl⟩
    refine .last (as := []) (w := []) (r1 := r) ?_ (.no ?_ ?_) ?_ ?_
    · refine .one (a := []) (os := []) hs hne (.none ?_) (.nil hs ?_) ?_ ?_ <;>
        rw [hx] <;> rcases hx2 with rfl | rfl | rfl <;> decide
    all_goals rw [hx] <;> rcases hx2 with rfl | rfl | rfl <;> decide
  · rw [hx]; rcases hx2 with rfl | rfl | rfl <;> rfl
  · refine .table (n := t) (t := t) (s := []) ⟨re, by simpa using h, .inl he⟩ (.word ?_ ha ?_ ?_ ?_ ?_ ?_) hc ?_ h
    · rcases ht with rfl | rfl | rfl <;> decide
    · intro c hs; cases hs
    · rcases ht with rfl | rfl | rfl <;> decide
    · rintro ⟨y, _, hy⟩
      rcases ht with rfl | rfl | rfl <;> obtain ⟨z, hz⟩ := hy <;> cases hz
    · rcases ht with rfl | rfl | rfl <;> decide
    · rintro ⟨_, z, y, hz, hd, _⟩
      have hl := congrArg List.head? hz
      rcases ht with rfl | rfl | rfl <;>
        (simp only [deleteAbbrevs, List.mem_cons, List.not_mem_nil, or_false] at hd
         rcases hd with rfl | rfl | rfl | rfl | rfl <;> cases hl)
    · rintro ⟨⟨y, s, hy, hu⟩, _⟩
      rcases ht with rfl | rfl | rfl <;> cases hy <;> revert hu <;> decide
  · exact .no (.inl (by rw [he]; simp))
  · refine .inr ⟨by rw [hn]; rcases ht with rfl | rfl | rfl <;> decide, [], .nil re, by simp, by rw [he]; rfl⟩
  · refine ⟨_, re, _, re, _, re, _, re, .inr ⟨hf1, rfl, rfl⟩, .none ?_ ?_, .none ?_, .none ?_ ?_,
      .inr ⟨fun hh => hf2 hh.1, rfl, rfl⟩⟩ <;> rw [hn] <;> rcases ht with rfl | rfl | rfl <;>
      first | decide | (intro hh; exact absurd hh (by decide))

/-- The line of such a command. -/
theorem jump_line (hn : n ∈ jumpCmds) (hB : ∀ l, B.head? = some l → afterBackslash l = none) :
    ∃ p c, restB A (n :: B) = p ++ c :: restB (A ++ [n]) B ∧ p.map Cell.c = n.map some ∧ c.c = none ∧
      (posOf (mkEnv (A ++ n :: B)) (restB A (n :: B))).i = (mkEnv A).buf.length ∧
      (posOf (mkEnv (A ++ n :: B)) (restB A (n :: B))).lnum = A.length + 1 ∧
      (posOf (mkEnv (A ++ n :: B)) (restB A (n :: B))).col = 1 := by
  have ht : (restB A [n]).map Cell.c = n.map some ++ [none] := by
    rw [← jump_text n hn]
    exact moveCell_text ..
  obtain ⟨p, q, e, h1, h2⟩ := List.map_eq_append_iff.1 ht
  obtain ⟨c, hq, h3⟩ := List.map_eq_singleton_iff.1 h2
  subst hq
  rw [restB_cons (jump_noCont n hn) hB]
  refine ⟨p, c, by rw [e]; simp, h1, h3, ?_⟩
  have hp := jump_pos n hn
  cases hb : (mkEnv [n]).buf with
  | nil => rw [hb] at hp; cases hp
  | cons x r =>
    rw [hb] at hp
    simp only [List.head?_cons, Option.map_some, Option.some.injEq, Prod.mk.injEq] at hp
    simp only [restB, hb, List.map_cons, List.cons_append, posOf, moveCell, hp]
    refine ⟨?_, ?_, trivial⟩ <;> omega


/-- The context is told by the end commands. -/
theorem openFront_cx (h : OpenFront nv env fn cx b used r st) :
    (cx.inFunction = true ↔ cs!"endfunction" ∈ st) ∧ (cx.inLoop = true ↔ cs!"endwhile" ∈ st ∨ cs!"endfor" ∈ st) := by
  induction h with
  | start => simp
  | lines _ _ ih | elseif _ _ _ ih | else_ _ _ _ ih | catch_ _ _ _ ih | finally_ _ _ _ ih => exact ih
  | function _ _ ih => simp [Ctx.fun, ih.2]
  | while_ _ _ ih => simp [Ctx.loop, ih.1]
  | for_ _ _ ih => simp [Ctx.loop, ih.1]
  | if_ _ _ ih => simp [Ctx.block, ih.1, ih.2]
  | try_ _ _ ih => simp [Ctx.block, ih.1, ih.2]

/-- The command is correct. -/
theorem OpenAt.jump (h : OpenAt nv fn A st) (hn : n ∈ jumpCmds) (ha : Allows st n) : OpenAt nv fn (A ++ [n]) st := by
  intro B hB
  obtain ⟨cx, b, used, h⟩ := h (n :: B) (by rintro _ ⟨⟩; exact jump_noCont n hn)
  have hc := openFront_cx h
  obtain ⟨p, c, e, h1, h3, _⟩ := jump_line (A := A) hn hB
  have he : headSym (c :: restB (A ++ [n]) B) = .eol := by simp [headSym, Cell.sym, h3]
  have hr : Reads (restB A (n :: B)) n (c :: restB (A ++ [n]) B) := ⟨p, e, h1⟩
  obtain ⟨ea, c', k1, k2⟩ := jump_head nv (mkEnv (A ++ n :: B)) fn used hn hr he
  have hs : ∃ xs, Spec.Simple (mkEnv (A ++ n :: B)) fn cx (restB A (n :: B)) (c :: restB (A ++ [n]) B) ea c' (c :: restB (A ++ [n]) B) xs
      (c :: restB (A ++ [n]) B) := by
    simp only [jumpCmds, List.mem_cons, List.not_mem_nil, or_false] at hn
    unfold Allows at ha
    rcases hn with rfl | rfl | rfl
    · exact ⟨_, .break_ k1 (hc.2.2 ha)⟩
    · exact ⟨_, .continue_ k1 (hc.2.2 ha)⟩
    · exact ⟨_, .returnNone k1 (hc.1.2 ha) ⟨[], Reads.nil _, by simp, by rw [he]; rfl⟩ (.inl (.inl he))⟩
  obtain ⟨xs, hs⟩ := hs
  rw [show A ++ [n] ++ B = A ++ n :: B by simp]
  exact ⟨cx, b, used, h.lines (.simple .nil (HeadAt.cmdHead k2) hs (eol_trail he))⟩

/-- The command is an error. -/
theorem OpenAt.noJump (h : OpenAt nv fn A st) (hn : n ∈ jumpCmds) (ha : ¬ Allows st n)
    (hB : ∀ l, B.head? = some l → afterBackslash l = none) :
    parseFileLines nv fn (A ++ n :: B) = some ⟨none, some (.parse fn (readLen A) (A.length + 1) 1 (outside n))⟩ := by
  obtain ⟨cx, b, used, h⟩ := h (n :: B) (by rintro _ ⟨⟩; exact jump_noCont n hn)
  have hc := openFront_cx h
  obtain ⟨p, c, e, h1, h3, g1, g2, g3⟩ := jump_line (A := A) hn hB
  have hr : Reads (restB A (n :: B)) n (c :: restB (A ++ [n]) B) := ⟨p, e, h1⟩
  obtain ⟨ea, c', k1, k2⟩ := jump_head nv (mkEnv (A ++ n :: B)) fn used hn hr (by simp [headSym, Cell.sym, h3])
  have hm : Spec.Misplaced cx b c'.name (outside n) := by
    rw [k1]
    simp only [jumpCmds, List.mem_cons, List.not_mem_nil, or_false] at hn
    unfold Allows at ha
    rcases hn with rfl | rfl | rfl
    · exact .break_ (by rw [← Bool.not_eq_true]; exact fun h => ha (hc.2.1 h))
    · exact .continue_ (by rw [← Bool.not_eq_true]; exact fun h => ha (hc.2.1 h))
    · exact .return_ (by rw [← Bool.not_eq_true]; exact fun h => ha (hc.1.1 h))
  exact (Props.C54_lines ..).2 ⟨rfl, rfl, _, (Props.readLen_eq A).trans g1.symm, g2.symm, g3.symm, .line h.front (.place k2 hm)⟩

end Viml
