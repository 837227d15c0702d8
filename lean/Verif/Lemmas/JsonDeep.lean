/-
Files whose trees are nested as deeply as one likes: `:try` and `:endtry`.
-/
import Verif.Lemmas.JsonShape
import Verif.Props.BlockLines
import Verif.Props.File

namespace Viml
open Spec

theorem try_entry (nv : Bool) (t : Str) (ht : t = cs!"try" ∨ t = cs!"endtry") :
    ∃ c, TableCmd nv t c ∧ c.name = t ∧ .ARGOPT ∉ c.flags ∧ .EDITCMD ∉ c.flags := by
  have h : (lookupTable nv t).any (fun c => c.name == t && !c.flags.contains .ARGOPT && !c.flags.contains .EDITCMD) = true := by
    rcases ht with rfl | rfl <;> cases nv <;> decide +kernel
  cases hl : lookupTable nv t with
  | none => rw [hl] at h; cases h
  | some c =>
    rw [hl] at h
    simp only [Option.any_some, Bool.and_eq_true, beq_iff_eq, Bool.not_eq_true', List.contains_eq_mem,
      decide_eq_false_iff_not] at h
    exact ⟨c, lookupTable_iff.1 hl, h.1.1, h.1.2, h.2⟩

theorem try_noMod : ∀ p ∈ vimModifiers, (¬ cs!"try" <+: p.1) ∧ ¬ cs!"endtry" <+: p.1 := by decide

theorem reads_alpha {r r1 r2 : List Cell} {t k : Str} (ht : ∀ c ∈ t, isalpha c = true) (h : Reads r t r1)
    (he : (headSym r1).is isalpha = false) (hk : ∀ c ∈ k, isalpha c = true) (h' : Reads r k r2)
    (he' : (headSym r2).is isalpha = false) : t = k := by
  have h1 := spanS_of_reads h ht he
  rw [spanS_of_reads h' hk he'] at h1
  cases h1
  rfl

theorem try_head (nv : Bool) (env : Env) (fn : Str) (used : List Str) {t : Str} (ht : t = cs!"try" ∨ t = cs!"endtry")
    {r re : List Cell} (h : Reads r t re) (he : headSym re = .eol) :
    ∃ ea c, c.name = t ∧ CmdHead nv env fn used r r ea c re re used := by
  obtain ⟨c, hc, hn, hf1, hf2⟩ := try_entry nv t ht
  have ha : ∀ x ∈ t, isalpha x = true := by rcases ht with rfl | rfl <;> decide
  have hx : ∃ x, headSym r = .ch x ∧ isalpha x = true ∧ (x = 't' ∨ x = 'e') := by
    rcases ht with rfl | rfl
    · exact ⟨'t', h.head, by decide, .inl rfl⟩
    · exact ⟨'e', h.head, by decide, .inr rfl⟩
  obtain ⟨x, hx, hxa, hx2⟩ := hx
  have hne : ¬ AtEnd r := by rintro (h | h) <;> rw [hx] at h <;> cases h
  have hq : headSym r ≠ .ch '"' := by
    rw [hx]
    rcases hx2 with rfl | rfl <;> decide
  have hz : (headSym re).is isalpha = false := by rw [he]; rfl
  refine ⟨{ forceit := false, linepos := here env fn r, cmdpos := here env fn r, argpos := some (here env fn re), cmd := some c, modifiers := [], range := [] }, c, hn, ⟨[], [], r, re, false, re, ⟨?_, ⟨[], .nil r, by simp, ?_⟩, hne, hq, r, r, .nil ?_, ?_, ?_,
    ⟨[], .nil r, by simp, ?_⟩⟩, hne, hq, ?_, ?_, ?_, ?_⟩⟩
  · rintro ⟨r', h'⟩
    have := h'.head
    rw [hx] at this
    rcases hx2 with rfl | rfl <;> cases this
  · rw [hx]; rcases hx2 with rfl | rfl <;> rfl
  · rintro m r' ⟨a1, a2, a3, a4, a5, a6, a7, a8, a9, a10, a11, a12, a13, a14, a15, a16⟩
    rename_i d w k w' b name mm bang count r1 r2 r3
    have hd : d = [] := by
      cases d with
      | nil => rfl
      | cons y d =>
        have := a1.head
        rw [hx] at this
        cases this
        have := a2 x (by simp)
        rcases hx2 with rfl | rfl <;> cases this
    subst hd
    obtain rfl := a4 rfl
    obtain rfl := a1.nil_inv
    obtain rfl := reads_alpha ha h hz a6 a5 a7
    have := try_noMod _ a8
    rcases ht with rfl | rfl
    · exact this.1 a9
    · exact this.2 a9
  · intro m hm; exact nomatch hm
  · have hs : Skip r r := ⟨[], .nil r, by simp, by rw [hx]; rcases hx2 with rfl | rfl <;> rfl⟩
    refine .last (as := []) (w := []) (r1 := r) ?_ (.no ?_ ?_) ?_ ?_
    · refine .one (a := []) (os := []) hs hne (.none ?_) (.nil hs ?_) ?_ ?_ <;>
        rw [hx] <;> rcases hx2 with rfl | rfl <;> decide
    all_goals rw [hx] <;> rcases hx2 with rfl | rfl <;> decide
  · rw [hx]; rcases hx2 with rfl | rfl <;> rfl
  · refine .table (n := t) (t := t) (s := []) ⟨re, by simpa using h, .inl he⟩ (.word ?_ ha ?_ ?_ ?_ ?_ ?_) hc ?_ h
    · rcases ht with rfl | rfl <;> decide
    · intro c hs; cases hs
    · rcases ht with rfl | rfl <;> decide
    · rintro ⟨y, _, hy⟩
      rcases ht with rfl | rfl <;> obtain ⟨z, hz⟩ := hy <;> cases hz
    · rcases ht with rfl | rfl <;> decide
    · rintro ⟨_, z, y, hz, hm, _⟩
      have hl := congrArg List.head? hz
      rcases ht with rfl | rfl <;>
        (simp only [deleteAbbrevs, List.mem_cons, List.not_mem_nil, or_false] at hm
         rcases hm with rfl | rfl | rfl | rfl | rfl <;> cases hl)
    · rintro ⟨⟨y, s, hy, hu⟩, _⟩
      rcases ht with rfl | rfl <;> cases hy <;> revert hu <;> decide
  · exact .no (.inl (by rw [he]; simp))
  · refine .inr ⟨by rw [hn]; rcases ht with rfl | rfl <;> decide, [], .nil re, by simp, by rw [he]; rfl⟩
  · refine ⟨_, re, _, re, _, re, _, re, .inr ⟨hf1, rfl, rfl⟩, .none ?_ ?_, .none ?_, .none ?_ ?_,
      .inr ⟨fun hh => hf2 hh.1, rfl, rfl⟩⟩ <;> rw [hn] <;> rcases ht with rfl | rfl <;>
      first | decide | (intro hh; exact absurd hh (by decide))

theorem eol_trail {env : Env} {fn : Str} {re : List Cell} (he : headSym re = .eol) : Trail env fn re [] re.tail := by
  cases re with
  | nil => cases he
  | cons e re =>
    refine .eol (e := e) (r' := re) ⟨[], .nil _, by simp, by rw [he]; rfl⟩ ?_
    cases hc : e.c with
    | none => rfl
    | some c => simp [headSym, Cell.sym, hc] at he

theorem deep_body (nv : Bool) (env : Env) (fn : Str) (used : List Str) (n : Nat) :
    ∀ (cx : Ctx) (ls : List Str) (k : Nat) (r : List Cell),
      r.map keyOf = fileKeys k (List.replicate n cs!"try" ++ (List.replicate n cs!"endtry" ++ ls)) →
      ∃ ss r' k', Body nv env fn cx used r ss used r' ∧ r'.map keyOf = fileKeys k' ls ∧
        JNested (2 * n) (Json.nilArr (Json.stmts ss)) := by
  induction n with
  | zero => intro cx ls k r h; exact ⟨[], r, k, .nil, h, .zero⟩
  | succ n ih =>
    intro cx ls k r h
    have e : List.replicate (n + 1) cs!"try" ++ (List.replicate (n + 1) cs!"endtry" ++ ls) =
        (cs!"try" ++ []) :: (List.replicate n cs!"try" ++ (List.replicate n cs!"endtry" ++ ((cs!"endtry" ++ []) :: ls))) := by
      rw [List.replicate_succ, List.replicate_succ' (a := cs!"endtry")]
      simp
    rw [e] at h
    obtain ⟨r1, r1', h1, h2, h3, h4, _⟩ := line_keys h
    obtain rfl := h2.nil_inv
    obtain ⟨ss, r2, k2, b1, b2, b3⟩ := ih cx.block _ _ _ h4
    obtain ⟨r3, r3', g1, g2, g3, g4, _⟩ := line_keys b2
    obtain rfl := g2.nil_inv
    obtain ⟨ea, c, c1, c2⟩ := try_head nv env fn used (.inl rfl) h1 h3
    obtain ⟨ea', c', c1', c2'⟩ := try_head nv env fn used (.inr rfl) g1 g3
    refine ⟨_, _, _, .block .nil (.try_ (.try_ ⟨r, c, _, _, _, c1, c2, rfl, eol_trail h3⟩ b1)
      ⟨r2, ea', c', _, _, c1', c2', rfl, rfl⟩) (eol_trail g3), g4, ?_⟩
    simp only [List.nil_append, List.append_nil, Json.stmts, Json.stmt, Json.nilArr, List.isEmpty_cons, if_false,
      Bool.false_eq_true]
    refine .arr (n := 2 * n + 1) (List.mem_cons_self ..) (.obj (k := cs!"Body") (n := 2 * n) ?_ b3)
    simp only [Json.nilArr]
    simp

/-- There are files nested deeper than any number. -/
theorem deep_file (nv : Bool) (fn : Str) (n : Nat) :
    ∃ lines f, (∀ l ∈ lines, l = cs!"try" ∨ l = cs!"endtry") ∧ parseFileLines nv fn lines = some ⟨some f, none⟩ ∧ JNested (2 * n + 1) (Json.file f) := by
  have hc : ∀ l ∈ List.replicate n cs!"try" ++ (List.replicate n cs!"endtry" ++ []), isCont l = false := by
    intro l hl
    simp only [List.append_nil, List.mem_append, List.mem_replicate] at hl
    rcases hl with ⟨_, rfl⟩ | ⟨_, rfl⟩ <;> decide
  obtain ⟨ss, r, k, h1, h2, h3⟩ := deep_body nv (mkEnv _) fn [] n { top := true } [] 1 _ (buf_keys hc)
  simp only [fileKeys, List.map_eq_nil_iff] at h2
  subst h2
  refine ⟨_, ⟨_, ss⟩, ?_, (Props.C52_lines nv fn _ _).2 ⟨[], h1, rfl⟩, .obj (k := cs!"Body") ?_ h3⟩
  · intro l hl
    simp only [List.append_nil, List.mem_append, List.mem_replicate] at hl
    exact hl.imp And.right And.right
  · exact List.mem_cons_of_mem _ (List.mem_cons_self ..)

end Viml
