/-
`:finish` in a line of its own.
-/
import Verif.Lemmas.Close
import Verif.Spec.Finish

namespace Viml
open Spec

variable {nv : Bool} {env : Env} {fn : Str} {cx : Ctx} {b : Option Inner} {used used' : List Str} {r r' : List Cell} {st : List Str}
  {n : Str} {A B : List Str}

theorem fin_entry (nv : Bool) (t : Str) (ht : t ∈ finCmds) :
    ∃ c, TableCmd nv t c ∧ c.name = t ∧ .ARGOPT ∉ c.flags ∧ .EDITCMD ∉ c.flags ∧ .TRLBAR ∈ c.flags ∧ .NOTRLCOM ∉ c.flags := by
  have h : (lookupTable nv t).any (fun c => c.name == t && !c.flags.contains .ARGOPT && !c.flags.contains .EDITCMD && c.flags.contains .TRLBAR && !c.flags.contains .NOTRLCOM) = true := by
    simp only [finCmds, List.mem_cons, List.not_mem_nil, or_false] at ht
    rcases ht with rfl <;> cases nv <;> decide +kernel
  cases hl : lookupTable nv t with
  | none => rw [hl] at h; cases h
  | some c =>
    rw [hl] at h
    simp only [Option.any_some, Bool.and_eq_true, beq_iff_eq, Bool.not_eq_true', List.contains_eq_mem,
      decide_eq_false_iff_not, decide_eq_true_eq] at h
    exact ⟨c, lookupTable_iff.1 hl, h.1.1.1.1, h.1.1.1.2, h.1.1.2, h.1.2, h.2⟩

theorem fin_alpha : ∀ t ∈ finCmds, ∀ x ∈ t, isalpha x = true := by decide

theorem fin_noMod : ∀ t ∈ finCmds, ∀ p ∈ vimModifiers, ¬ t <+: p.1 := by decide

theorem fin_noCont : ∀ t ∈ finCmds, afterBackslash t = none := by decide +kernel

theorem fin_pos : ∀ t ∈ finCmds, (mkEnv [t]).buf.head?.map (fun c => (c.pos.i, c.pos.lnum, c.pos.col, c.pos.offset)) = some (0, 1, 1, 0) := by
  decide +kernel

theorem fin_text : ∀ t ∈ finCmds, (mkEnv [t]).buf.map Cell.c = t.map some ++ [none] := by decide +kernel

theorem fin_cont : ∀ t ∈ finCmds, onContLine [t] 1 1 = false := by decide +kernel

theorem fin_head (nv : Bool) (env : Env) (fn : Str) (used : List Str) {t : Str} (ht : t ∈ finCmds)
    {r re : List Cell} (h : Reads r t re) (he : headSym re = .eol) :
    ∃ ea c, c.name = t ∧ .TRLBAR ∈ c.flags ∧ .NOTRLCOM ∉ c.flags ∧ ea.usefilter = false ∧ ea.cmdpos = here env fn r ∧
      HeadAt nv env fn used r r r ea c re re used := by
  obtain ⟨c, hc, hn, hf1, hf2, hf3, hf4⟩ := fin_entry nv t ht
  have ha : ∀ x ∈ t, isalpha x = true := fin_alpha t ht
  have hm : ∀ p ∈ vimModifiers, ¬ t <+: p.1 := fin_noMod t ht
  obtain ⟨x, hx, hx2⟩ : ∃ x, headSym r = .ch x ∧ x = 'f' := by
    simp only [finCmds, List.mem_cons, List.not_mem_nil, or_false] at ht
    rcases ht with rfl
    exact ⟨_, h.head, rfl⟩
  simp only [finCmds, List.mem_cons, List.not_mem_nil, or_false] at ht
  have hne : ¬ AtEnd r := by rintro (h | h) <;> rw [hx] at h <;> cases h
  have hq : headSym r ≠ .ch '"' := by
    rw [hx]
    rcases hx2 with rfl <;> decide
  have hz : (headSym re).is isalpha = false := by rw [he]; rfl
  refine ⟨{ forceit := false, linepos := here env fn r, cmdpos := here env fn r, argpos := some (here env fn re), cmd := some c, modifiers := [], range := [] }, c, hn, hf3, hf4, rfl, rfl, _, ⟨[], [], re, false, re, ⟨⟨?_, ⟨[], .nil r, by simp, ?_⟩, hne, hq, r, r, .nil ?_, ?_, ?_,
    ⟨[], .nil r, by simp, ?_⟩⟩, hne, hq, ?_⟩, ?_, ?_, rfl⟩, ?_⟩
  · rintro ⟨r', h'⟩
    have := h'.head
    rw [hx] at this
    rcases hx2 with rfl <;> cases this
  · rw [hx]; rcases hx2 with rfl <;> rfl
  · rintro m r' ⟨a1, a2, a3, a4, a5, a6, a7, a8, a9, a10, a11, a12, a13, a14, a15, a16⟩
    rename_i d w k w' b name mm bang count r1 r2 r3
    have hd : d = [] := by
      cases d with
      | nil => rfl
      | cons y d =>
        have := a1.head
        rw [hx] at this
        cases this
        have := a2 x (by simp)
        rcases hx2 with rfl <;> cases this
    subst hd
    obtain rfl := a4 rfl
    obtain rfl := a1.nil_inv
    obtain rfl := reads_alpha ha h hz a6 a5 a7
    exact hm _ a8 a9
  · intro m hm; exact nomatch hm
  · have hs : Skip r r := ⟨[], .nil r, by simp, by rw [hx]; rcases hx2 with rfl <;> rfl⟩
    refine .last (as := []) (w := []) (r1 := r) ?_ (.no ?_ ?_) ?_ ?_
    · refine .one (a := []) (os := []) hs hne (.none ?_) (.nil hs ?_) ?_ ?_ <;>
        rw [hx] <;> rcases hx2 with rfl <;> decide
    all_goals rw [hx] <;> rcases hx2 with rfl <;> decide
  · rw [hx]; rcases hx2 with rfl <;> rfl
  · refine .table (n := t) (t := t) (s := []) ⟨re, by simpa using h, .inl he⟩ (.word ?_ ha ?_ ?_ ?_ ?_ ?_) hc ?_ h
    · rcases ht with rfl <;> decide
    · intro c hs; cases hs
    · rcases ht with rfl <;> decide
    · rintro ⟨y, _, hy⟩
      rcases ht with rfl <;> obtain ⟨z, hz⟩ := hy <;> cases hz
    · rcases ht with rfl <;> decide
    · rintro ⟨_, z, y, hz, hd, _⟩
      have hl := congrArg List.head? hz
      rcases ht with rfl <;>
        (simp only [deleteAbbrevs, List.mem_cons, List.not_mem_nil, or_false] at hd
         rcases hd with rfl | rfl | rfl | rfl | rfl <;> cases hl)
    · rintro ⟨⟨y, s, hy, hu⟩, _⟩
      rcases ht with rfl <;> cases hy <;> revert hu <;> decide
  · exact .no (.inl (by rw [he]; simp))
  · refine .inr ⟨by rw [hn]; rcases ht with rfl <;> decide, [], .nil re, by simp, by rw [he]; rfl⟩
  · refine ⟨_, re, _, re, _, re, _, re, .inr ⟨hf1, rfl, rfl⟩, .none ?_ ?_, .none ?_, .none ?_ ?_,
      .inr ⟨fun hh => hf2 hh.1, rfl, rfl⟩⟩ <;> rw [hn] <;> rcases ht with rfl <;>
      first | decide | (intro hh; exact absurd hh (by decide))

/-- The line of such a command. -/
theorem fin_line (hn : n ∈ finCmds) (hB : ∀ l, B.head? = some l → afterBackslash l = none) :
    ∃ p c, restB A (n :: B) = p ++ c :: restB (A ++ [n]) B ∧ p.map Cell.c = n.map some ∧ c.c = none ∧
      (posOf (mkEnv (A ++ n :: B)) (restB A (n :: B))).i = (mkEnv A).buf.length ∧
      (posOf (mkEnv (A ++ n :: B)) (restB A (n :: B))).lnum = A.length + 1 ∧
      (posOf (mkEnv (A ++ n :: B)) (restB A (n :: B))).col = 1 ∧
      (posOf (mkEnv (A ++ n :: B)) (restB A (n :: B))).offset = (fileBytes A).length := by
  have ht : (restB A [n]).map Cell.c = n.map some ++ [none] := by
    rw [← fin_text n hn]
    exact moveCell_text ..
  obtain ⟨p, q, e, h1, h2⟩ := List.map_eq_append_iff.1 ht
  obtain ⟨c, hq, h3⟩ := List.map_eq_singleton_iff.1 h2
  subst hq
  rw [restB_cons (fin_noCont n hn) hB]
  refine ⟨p, c, by rw [e]; simp, h1, h3, ?_⟩
  have hp := fin_pos n hn
  cases hb : (mkEnv [n]).buf with
  | nil => rw [hb] at hp; cases hp
  | cons x r =>
    rw [hb] at hp
    simp only [List.head?_cons, Option.map_some, Option.some.injEq, Prod.mk.injEq] at hp
    simp only [restB, hb, List.map_cons, List.cons_append, posOf, moveCell, hp]
    rw [fin_cont n hn]
    refine ⟨?_, ?_, trivial, ?_⟩ <;> first | omega | simp


/-- At the top level no block is open. -/
theorem openFront_top (h : OpenFront nv env fn cx b used r st) : cx.top = true ↔ st = [] := by
  induction h with
  | start => simp
  | lines _ _ ih | elseif _ _ _ ih | else_ _ _ _ ih | catch_ _ _ _ ih | finally_ _ _ _ ih => exact ih
  | function _ _ ih => simp [Ctx.fun]
  | while_ _ _ ih => simp [Ctx.loop]
  | for_ _ _ ih => simp [Ctx.loop]
  | if_ _ _ ih => simp [Ctx.block]
  | try_ _ _ ih => simp [Ctx.block]

theorem fin_text' {ra re : List Cell} {c : Cmd} (h1 : c.name = cs!"finish") (h2 : .TRLBAR ∈ c.flags) (h3 : .NOTRLCOM ∉ c.flags)
    (hr : Reads r cs!"finish" re) (he : headSym re = .eol) : RawText env fn c false r ra re cs!"finish" re := by
  refine .bar h2 rfl (fun h => ?_) (fun _ => rfl) (.eol (.inl he)) ?_
  · rw [h1] at h; exact absurd h (by decide)
  · rw [if_neg h3]
    unfold trimmed
    split <;> exact hr

/-- In a block the lines behind it are read. -/
theorem OpenAt.finish (h : OpenAt nv fn A st) (hs : st ≠ []) : OpenAt nv fn (A ++ [cs!"finish"]) st := by
  intro B hB
  have hn : cs!"finish" ∈ finCmds := by decide
  obtain ⟨cx, b, used, h⟩ := h (cs!"finish" :: B) (by rintro _ ⟨⟩; exact fin_noCont _ hn)
  have ht : cx.top = false := by
    cases e : cx.top with
    | false => rfl
    | true => exact absurd ((openFront_top h).1 e) hs
  obtain ⟨p, c, e, h1, h3, _⟩ := fin_line (A := A) hn hB
  have he : headSym (c :: restB (A ++ [cs!"finish"]) B) = .eol := by simp [headSym, Cell.sym, h3]
  have hr : Reads (restB A (cs!"finish" :: B)) cs!"finish" (c :: restB (A ++ [cs!"finish"]) B) := ⟨p, e, h1⟩
  obtain ⟨ea, c', k1, k2, k3, k4, _, k5⟩ := fin_head nv (mkEnv (A ++ cs!"finish" :: B)) fn used hn hr he
  rw [show A ++ [cs!"finish"] ++ B = A ++ cs!"finish" :: B by simp]
  exact ⟨cx, b, used, h.lines (.simple .nil (HeadAt.cmdHead k5) (.raw (.finish k1 ht (by rw [k4]; exact fin_text' k1 k2 k3 hr he))) (eol_trail he))⟩

/-- At the top level it is the last line. -/
theorem finish_script {f : Ast.File} (hA : Complete nv fn A f) (hB : ∀ l, B.head? = some l → afterBackslash l = none) :
    ∃ s ea, Script nv (mkEnv (A ++ cs!"finish" :: B)) fn
      ⟨s, f.body ++ [.excmd (here (mkEnv (A ++ cs!"finish" :: B)) fn (restB A (cs!"finish" :: B))) ea cs!"finish"]⟩ := by
  have hn : cs!"finish" ∈ finCmds := by decide
  have hc : ∀ l, (cs!"finish" :: B).head? = some l → afterBackslash l = none := by rintro _ ⟨⟩; exact fin_noCont _ hn
  obtain ⟨hs, used, hu, hb⟩ := complete_body hA
  obtain ⟨used1, hu1, h0⟩ := hb (restB A (cs!"finish" :: B)) (mkEnv (A ++ cs!"finish" :: B))
  rw [← show (mkEnv (A ++ cs!"finish" :: B)).buf = (mkEnv A).buf ++ restB A (cs!"finish" :: B) from mkEnv_append hc] at h0
  obtain ⟨p, c, e, h1, h3, _⟩ := fin_line (A := A) hn hB
  have he : headSym (c :: restB (A ++ [cs!"finish"]) B) = .eol := by simp [headSym, Cell.sym, h3]
  have hr : Reads (restB A (cs!"finish" :: B)) cs!"finish" (c :: restB (A ++ [cs!"finish"]) B) := ⟨p, e, h1⟩
  obtain ⟨ea, c', k1, k2, k3, k4, k6, k5⟩ := fin_head nv (mkEnv (A ++ cs!"finish" :: B)) fn used1 hn hr he
  have h2 := Body.simple (cm := []) h0 (HeadAt.cmdHead k5) (.raw (.finishTop k1 rfl (by rw [k4]; exact fin_text' k1 k2 k3 hr he)))
    (.eof ⟨[], Reads.nil _, by simp, rfl⟩)
  rw [List.append_nil, k6] at h2
  exact ⟨_, ea, used1, h2, rfl⟩

end Viml
