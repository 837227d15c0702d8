/-
Wrong lines behind lines with open blocks.
-/
import Verif.Lemmas.Within
import Verif.Lemmas.ConcatError
import Verif.Spec.Within

namespace Viml
open Spec

section
variable {nv : Bool} {env env' : Env} {fn : Str} {cx cx0 cx' : Ctx} {b b0 : Option Inner} {used used' used0 : List Str}
  {r r' : List Cell} {m n : Str} {q : Pos}

theorem misplaced_msg (h : Spec.Misplaced cx b n m) : m ∈ blockMsgs := by cases h <;> decide

theorem unclosed_msg {i : Inner} (h : Spec.Unclosed i m) : m ∈ blockMsgs := by cases h <;> decide

/-- Correct lines behind lines with open blocks. -/
theorem front_in (μ : Mover env env' fn) (hs : Front nv env' fn cx0 b0 used0 (μ.tr env.buf)) (h : Front nv env fn cx b used r) :
    r ≠ [] → ∃ cx' usedX, (∀ q, q ≠ [] → Wider cx cx' q) ∧ Front nv env' fn cx' (b.or b0) usedX (μ.tr r) := by
  have ne : ∀ {r r' : List Cell}, r' ≠ [] → r' <:+ r → r ≠ [] := by
    rintro r r' h1 h2 rfl
    exact h1 (List.suffix_nil.1 h2)
  induction h with
  | start =>
    refine fun _ => ⟨cx0, used0, fun q hq => ⟨fun h => (by cases h), fun h => (by cases h), ?_⟩, hs⟩
    cases e : cx0.top with
    | true => exact .inl rfl
    | false => exact .inr ⟨rfl, hq⟩
  | lines _ h1 ih =>
    intro hr
    obtain ⟨c, x, w, ih⟩ := ih (ne hr (body_order h1).suffix)
    obtain ⟨_, y, h2⟩ := body_mv μ (body_cx h1 (w _ hr)) x
    exact ⟨c, y, w, .lines ih h2⟩
  | function _ h1 ih =>
    intro hr
    obtain ⟨c, x, w, ih⟩ := ih (ne hr (opens_suf (fun h => (funcHead_track h).1.suffix) h1))
    exact ⟨_, x, fun q hq => (w q hq).inFun, .function ih (opens_mv μ (by decide) Carry.argFunc h1 x)⟩
  | while_ _ h1 ih =>
    intro hr
    obtain ⟨c, x, w, ih⟩ := ih (ne hr (opens_suf leaves_gram h1))
    exact ⟨_, x, fun q hq => (w q hq).inLoop, .while_ ih (opens_mv μ (by decide) Carry.argGram h1 x)⟩
  | for_ _ h1 ih =>
    intro hr
    obtain ⟨c, x, w, ih⟩ := ih (ne hr (opens_suf (fun h => by
      cases h with
      | mk a b c d => exact (((leaves_gram d).trans c.adv.suffix).trans b.adv.suffix).trans (leaves_lhs leaves_target a)) h1))
    exact ⟨_, x, fun q hq => (w q hq).inLoop, .for_ ih (opens_mv μ (by decide) Carry.argFor h1 x)⟩
  | if_ _ h1 ih =>
    intro hr
    obtain ⟨c, x, w, ih⟩ := ih (ne hr (opens_suf leaves_gram h1))
    exact ⟨_, x, fun q hq => (w q hq).inBlock, .if_ ih (opens_mv μ (by decide) Carry.argGram h1 x)⟩
  | try_ _ h1 ih =>
    intro hr
    obtain ⟨c, x, w, ih⟩ := ih (ne hr (opens_suf leaves_none h1))
    exact ⟨_, x, fun q hq => (w q hq).inBlock, .try_ ih (opens_mv μ (by decide) Carry.argNone h1 x)⟩
  | elseif _ hb h1 ih =>
    intro hr
    obtain ⟨c, x, w, ih⟩ := ih (ne hr (opens_suf leaves_gram h1))
    rw [or_like (.inl hb)] at ih
    exact ⟨c, x, w, .elseif ih hb (opens_mv μ (by decide) Carry.argGram h1 x)⟩
  | else_ _ hb h1 ih =>
    intro hr
    obtain ⟨c, x, w, ih⟩ := ih (ne hr (opens_suf leaves_none h1))
    rw [or_like (.inl hb)] at ih
    exact ⟨c, x, w, .else_ ih hb (opens_mv μ (by decide) Carry.argNone h1 x)⟩
  | catch_ _ hb h1 ih =>
    intro hr
    obtain ⟨c, x, w, ih⟩ := ih (ne hr (opens_suf leaves_catch h1))
    rw [or_like (.inr hb)] at ih
    exact ⟨c, x, w, .catch_ ih hb (opens_mv μ (by decide) Carry.argCatch h1 x)⟩
  | finally_ _ hb h1 ih =>
    intro hr
    obtain ⟨c, x, w, ih⟩ := ih (ne hr (opens_suf leaves_none h1))
    rw [or_like (.inr hb)] at ih
    exact ⟨c, x, w, .finally_ ih hb (opens_mv μ (by decide) Carry.argNone h1 x)⟩

/-- A command that can stand somewhere can stand there within further blocks. -/
theorem placed_in {x : List Cell} (w : Wider cx cx' x) (hn : ∀ m, ¬ Spec.Misplaced cx b n m) (m : Str) :
    ¬ Spec.Misplaced cx' (b.or b0) n m := by
  have hf : cx'.inFunction = false → cx.inFunction = false := fun h => by
    cases e : cx.inFunction with
    | false => rfl
    | true => rw [w.fn e] at h; cases h
  have hl : cx'.inLoop = false → cx.inLoop = false := fun h => by
    cases e : cx.inLoop with
    | false => rfl
    | true => rw [w.loop e] at h; cases h
  intro h
  cases b with
  | none =>
    cases h with
    | continue_ h => exact hn _ (.continue_ (hl h))
    | break_ h => exact hn _ (.break_ (hl h))
    | return_ h => exact hn _ (.return_ (hf h))
    | elseif => exact hn _ (.elseif (by simp [ifLike]))
    | else_ => exact hn _ (.else_ (by simp [ifLike]))
    | endif => exact hn _ (.endif (by simp [inIf, ifLike]))
    | endwhile => exact hn _ (.endwhile (by simp))
    | endfor => exact hn _ (.endfor (by simp))
    | catchLate | catch_ => exact hn _ (.catch_ (by simp [inTry, tryLike]))
    | finally_ => exact hn _ (.finally_ (by simp [tryLike]))
    | endtry => exact hn _ (.endtry (by simp [inTry, tryLike]))
    | _ => exact hn _ (.endfunction rfl)
  | some i =>
    rw [Option.some_or] at h
    cases h with
    | continue_ h => exact hn _ (.continue_ (hl h))
    | break_ h => exact hn _ (.break_ (hl h))
    | return_ h => exact hn _ (.return_ (hf h))
    | elseif h => exact hn _ (.elseif h)
    | else_ h => exact hn _ (.else_ h)
    | endif h => exact hn _ (.endif h)
    | endwhile h => exact hn _ (.endwhile h)
    | endfor h => exact hn _ (.endfor h)
    | catchLate h => exact hn _ (.catchLate h)
    | catch_ h => exact hn _ (.catch_ h)
    | finally_ h => exact hn _ (.finally_ h)
    | endtry h => exact hn _ (.endtry h)
    | endfunctionIf h => exact hn _ (.endfunctionIf h)
    | endfunctionTry h => exact hn _ (.endfunctionTry h)
    | endfunctionWhile h => exact hn _ (.endfunctionWhile h)
    | endfunctionFor h => exact hn _ (.endfunctionFor h)
    | endfunction h => exact hn _ (.endfunction h)

theorem argsDone_cx {r0 ra : List Cell} {ea c} (w : Wider cx cx' r') (h : ArgsDone env fn cx r0 ra ea c r r') :
    ArgsDone env fn cx' r0 ra ea c r r' := by
  cases h with
  | simple h => exact .simple (simple_cx w h)
  | function a b => exact .function a b
  | expr a b => exact .expr a b
  | for_ a b => exact .for_ a b
  | catch_ a b => exact .catch_ a b
  | endfunction a b => exact .endfunction a b
  | none a => exact .none a

theorem skipC_some {r0 : List Cell} (h : SkipC r r0) (h1 : ¬ AtEnd r0) : r ≠ [] := by
  rintro rfl
  cases List.suffix_nil.1 h.adv.suffix
  exact h1 (.inr rfl)

theorem before_some {r0 rc : List Cell} {ms rg} (h : Before r r0 ms rg rc) : r ≠ [] := skipC_some h.2.1 h.2.2.1

theorem headAt_ne {r0 rc ra : List Cell} {ea c} (h : HeadAt nv env fn used r r0 rc ea c ra r' used') : r ≠ [] := by
  obtain ⟨_, ⟨ms, rg, r1, b, r2, ⟨h1, _⟩, _⟩, _⟩ := h
  exact before_some h1

theorem headErr_ne (h : HeadErr nv env fn used r m q) : r ≠ [] := by
  cases h with
  | range _ h1 h2 => exact skipC_some h1 h2
  | name h => exact before_some h
  | bang h => exact before_some h.1
  | argOpt h =>
    obtain ⟨ms, rg, r1, b, r2, ⟨h1, _⟩, _⟩ := h
    exact before_some h1
  | write h =>
    obtain ⟨ms, rg, r1, b, r2, ⟨h1, _⟩, _⟩ := h
    exact before_some h1

/-- A line that is wrong, but not its place. -/
theorem lineErr_in (hw : ∀ q, q ≠ [] → Wider cx cx' q) (hm : m ∉ blockMsgs) (h : LineErr nv env fn cx b used r m q) :
    r ≠ [] ∧ LineErr nv env fn cx' (b.or b0) used r m q := by
  cases h with
  | head h => exact ⟨headErr_ne h, .head h⟩
  | place _ h => exact absurd (misplaced_msg h) hm
  | args h1 h2 h3 => exact ⟨headAt_ne h1, .args h1 (placed_in (hw [⟨none, default⟩] (by simp)) h2) h3⟩
  | trail h1 h2 h3 h4 =>
    refine ⟨headAt_ne h1, .trail h1 (placed_in (hw [⟨none, default⟩] (by simp)) h2) (argsDone_cx (hw _ ?_) h3) h4⟩
    rintro rfl
    cases h4 with
    | mk a b =>
      cases List.suffix_nil.1 a.adv.suffix
      cases b

theorem lineNum_ne (h : LineNum nv env fn used r) : r ≠ [] := by
  cases h with
  | mods _ h1 h2 => exact skipC_some h1 h2
  | depth h => exact headAt_ne h

end

variable {nv : Bool} {fn : Str} {A B : List Str}

theorem start_in (hA : Between nv fn A) (h : ∀ l, B.head? = some l → afterBackslash l = none) :
    ∃ cx b used, Front nv (mkEnv (A ++ B)) fn cx b used ((moverB fn A h).tr (mkEnv B).buf) := by
  obtain ⟨cx, b, used, h1⟩ := between_front hA h
  rw [Mover.map]
  exact ⟨cx, b, used, h1⟩

theorem fileErr_in (hA : Between nv fn A) (h : ∀ l, B.head? = some l → afterBackslash l = none) {m : Str} {q : Pos}
    (hm : m ∉ blockMsgs) (hB : FileErr nv (mkEnv B) fn m q) : FileErr nv (mkEnv (A ++ B)) fn m ((moverB fn A h).mp q) := by
  obtain ⟨cx0, b0, used0, hs⟩ := start_in hA h
  cases hB with
  | line h1 h2 =>
    obtain ⟨hr, _⟩ := lineErr_in (b0 := b0) (cx' := _) (fun q hq => ⟨id, id, .inl rfl⟩) hm h2
    obtain ⟨cx', x, w, h3⟩ := front_in _ hs h1 hr
    exact .line h3 (lineErr_any (lineErr_mv _ (Names.refl _) (lineErr_in w hm h2).2) x)
  | unclosed _ h2 => exact absurd (unclosed_msg h2) hm

theorem numErr_in (hA : Between nv fn A) (h : ∀ l, B.head? = some l → afterBackslash l = none)
    (hB : NumErr nv (mkEnv B) fn) : NumErr nv (mkEnv (A ++ B)) fn := by
  obtain ⟨cx0, b0, used0, hs⟩ := start_in hA h
  cases hB with
  | line h1 h2 =>
    obtain ⟨cx', x, w, h3⟩ := front_in _ hs h1 (lineNum_ne h2)
    exact .line h3 (lineNum_any (lineNum_mv _ (Names.refl _) h2) x)

end Viml
