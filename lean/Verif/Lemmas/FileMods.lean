/-
Command modifiers: the parser reads exactly those of the grammar.
-/
import Verif.Lemmas.FileRange

namespace Viml
open Prog Spec

section
variable {env : Env} {r r' : List Cell}

/-- The count before a modifier. -/
def modDigits (r : List Cell) : Str := if (headSym r).is isdigit = true then (spanS isdigit r).1 else []

def modRest (ms : List Modifier) (s : List Cell) (d : Str) : Prog (List Modifier ⊕ List Modifier) := do
  let k ← readAlpha
  let c ← peekn 1
  skipWhite
  match findModifier k with
  | none =>
    seekSet s
    pure (.inr ms)
  | some name =>
    if name = cs!"hide" then
      if endsStr c then pure (.inr ms)
      else pure (.inl (ms ++ [{ name := name }]))
    else if name = cs!"silent" then
      if c = cs!"!" then
        let _ ← get
        pure (.inl (ms ++ [{ name := name, bang := some 1 }]))
      else pure (.inl (ms ++ [{ name := name, bang := some 0 }]))
    else if name = cs!"tab" then
      if d ≠ [] then
        let n ← str2nr d
        pure (.inl (ms ++ [{ name := name, count := some n }]))
      else pure (.inl (ms ++ [{ name := name }]))
    else if name = cs!"verbose" then
      if d ≠ [] then
        let n ← str2nr d
        pure (.inl (ms ++ [{ name := name, count := some n }]))
      else pure (.inl (ms ++ [{ name := name, count := some 1 }]))
    else pure (.inl (ms ++ [{ name := name }]))

def modBody (ms : List Modifier) : Prog (List Modifier ⊕ List Modifier) := do
  let s ← tell
  let c ← peekn 1
  if is1 isdigit c then do
    let d ← readDigit
    skipWhite
    modRest ms s d
  else modRest ms s []

theorem parseModifiers_eq : parseModifiers = loop modBody [] := rfl

theorem ok_modBody {ms : List Modifier} {x} :
    Ok env (modBody ms) r x r' ↔ Ok env (modRest ms r (modDigits r)) (modStart r) x r' := by
  unfold modBody modDigits modStart
  rw [bind_tell, bind_peekn, get1_is1]
  by_cases h : (headSym r).is isdigit = true
  · rw [if_pos h, if_pos h, if_pos h]
    exact Iff.rfl
  · rw [if_neg h, if_neg h, if_neg h]

/-- The count of the modifier `name`. -/
def modCount (name d : Str) : Option Nat :=
  if name = cs!"tab" then (if d = [] then none else some (decVal d))
  else if name = cs!"verbose" then (if d = [] then some 1 else some (decVal d)) else none

theorem bind_str2nr {β : Type} {s : Str} {f : Nat → Prog β} {b : β} :
    Ok env (str2nr s >>= f) r b r' ↔ decVal s < 2147483648 ∧ Ok env (f (decVal s)) r b r' := by
  rw [ok_bind]
  simp only [ok_str2nr]
  constructor
  · rintro ⟨_, _, ⟨h, rfl, rfl⟩, h2⟩; exact ⟨h, h2⟩
  · rintro ⟨h, h2⟩; exact ⟨_, _, ⟨h, rfl, rfl⟩, h2⟩

/-- What a round of the loop does if there is a modifier. -/
theorem ok_modRest {ms : List Modifier} {s r0 r2 r3 : List Cell} {d k name : Str} {x}
    (hk : spanS isalpha r = (k, r2)) (hw : Skip r2 r3) (hf : findModifier k = some name)
    (h0 : r0 = if name = cs!"silent" ∧ headSym r2 = .ch '!' then r3.tail else r3) :
    Ok env (modRest ms s d) r x r' ↔
      (name = cs!"hide" ∧ AtStop r2 ∧ x = .inr ms ∧ r' = r3) ∨
      (¬ (name = cs!"hide" ∧ AtStop r2) ∧ (∀ n, modCount name d = some n → n < 2147483648) ∧
        x = .inl (ms ++ [⟨name, if name = cs!"silent" then some (if headSym r2 = .ch '!' then 1 else 0) else none,
          modCount name d⟩]) ∧ r' = r0) := by
  unfold modRest
  rw [readAlpha, bind_readWhile]
  have e : ∀ {P : Str → List Cell → Prop}, (∃ v r1, Span isalpha r v r1 ∧ P v r1) ↔ P k r2 := by
    intro P
    constructor
    · rintro ⟨v, r1, h1, h2⟩
      have := span_iff.1 h1
      rw [hk] at this
      cases this
      exact h2
    · intro h; exact ⟨k, r2, span_iff.2 hk, h⟩
  rw [e, bind_peekn, bind_skipWhite]
  have e : ∀ {P : List Cell → Prop}, (∃ r1, Skip r2 r1 ∧ P r1) ↔ P r3 := by
    intro P
    constructor
    · rintro ⟨r1, h1, h2⟩
      cases h1.det hw
      exact h2
    · intro h; exact ⟨r3, hw, h⟩
  rw [e, hf]
  dsimp only
  by_cases h1 : name = cs!"hide"
  · subst h1
    simp only [if_true, ok_ite, get1_ends, ok_pure]
    have : r0 = r3 := by rw [h0, if_neg (by simp)]
    rw [this]
    constructor
    · rintro (⟨h, rfl, rfl⟩ | ⟨h, rfl, rfl⟩)
      · exact .inl ⟨trivial, h, rfl, rfl⟩
      · exact .inr ⟨by simpa using h, by simp [modCount], rfl, rfl⟩
    · rintro (⟨_, h, rfl, rfl⟩ | ⟨h, _, rfl, rfl⟩)
      · exact .inl ⟨h, rfl, rfl⟩
      · exact .inr ⟨by simpa using h, rfl, rfl⟩
  rw [if_neg h1]
  simp only [h1, false_and, not_false_eq_true, true_and, false_or]
  by_cases h2 : name = cs!"silent"
  · subst h2
    simp only [if_true, ok_ite, get1_ch, bind_get, ok_pure]
    simp only [true_and] at h0
    by_cases h3 : headSym r2 = .ch '!'
    · rw [if_pos h3] at h0
      simp [h3, h0, modCount]
    · rw [if_neg h3] at h0
      simp [h3, h0, modCount]
  rw [if_neg h2]
  simp only [h2, false_and, if_false] at h0 ⊢
  subst h0
  unfold modCount
  by_cases h3 : name = cs!"tab"
  · simp only [h3, if_true]
    by_cases hd : d = []
    · simp [hd, ok_pure]
    · simp [hd, bind_str2nr, ok_pure]
  rw [if_neg h3]
  simp only [h3, if_false]
  by_cases h4 : name = cs!"verbose"
  · simp only [h4, if_true]
    by_cases hd : d = []
    · simp [hd, ok_pure]
    · simp [hd, bind_str2nr, ok_pure]
  rw [if_neg h4]
  simp [h4, ok_pure]

/-- A round of the loop. -/
theorem ok_modStep {ms : List Modifier} {x} : Ok env (modBody ms) r x r' ↔
    ((∀ m r1, ¬ ModAt r m r1) ∧ x = .inr ms ∧ r' = r) ∨ (BareHide r r' ∧ x = .inr ms) ∨
    ∃ m, ModAt r m r' ∧ ¬ BareHide r r' ∧ (∀ n, m.count = some n → n < 2147483648) ∧ x = .inl (ms ++ [m]) := by
  rw [ok_modBody]
  have hk := spanS_reads isalpha (modStart r)
  have hka := spanS_all isalpha (modStart r)
  have hks := spanS_stop_is isalpha (modStart r)
  cases hf : findModifier (spanS isalpha (modStart r)).1 with
  | none =>
    have hno : ∀ m r1, ¬ ModAt r m r1 := by
      intro m r1 hm
      have := modAt_start hm
      rw [hf] at this
      cases this
    have : Ok env (modRest ms r (modDigits r)) (modStart r) x r' ↔ x = .inr ms ∧ r' = r := by
      unfold modRest
      rw [readAlpha, bind_readWhile]
      constructor
      · rintro ⟨v, r1, h1, h2⟩
        have := span_iff.1 h1
        rw [this] at hf
        rw [bind_peekn, bind_skipWhite] at h2
        obtain ⟨r2, _, h2⟩ := h2
        rw [hf] at h2
        exact ok_pure.1 (bind_seekSet.1 h2)
      · rintro ⟨rfl, rfl⟩
        refine ⟨_, _, span_iff.2 rfl, ?_⟩
        rw [bind_peekn, bind_skipWhite]
        obtain ⟨r2, h2⟩ := skip_total (spanS isalpha (modStart r')).2
        refine ⟨r2, h2, ?_⟩
        rw [hf]
        exact bind_seekSet.2 (ok_pure.2 ⟨rfl, rfl⟩)
    rw [this]
    constructor
    · rintro ⟨rfl, rfl⟩; exact .inl ⟨hno, rfl, rfl⟩
    · rintro (⟨_, h⟩ | ⟨h, _⟩ | ⟨m, h, _⟩)
      · exact h
      · exact absurd h.1 (hno _ _)
      · exact absurd h (hno _ _)
  | some name =>
    obtain ⟨m, ht, hp, hm⟩ := findModifier_some hf
    obtain ⟨w, hr, hd, hw, hdw⟩ : ∃ w, Reads r (modDigits r ++ w) (modStart r) ∧ (∀ c ∈ modDigits r, isdigit c = true) ∧
        (∀ c ∈ w, iswhite c = true) ∧ (modDigits r = [] → w = []) := by
      unfold modDigits modStart
      by_cases hc : (headSym r).is isdigit = true
      · rw [if_pos hc, if_pos hc]
        refine ⟨(spanS iswhite (spanS isdigit r).2).1, (spanS_reads _ _).append (spanS_reads _ _), spanS_all _ _,
          spanS_all _ _, ?_⟩
        intro hd
        obtain ⟨c, h, hf⟩ := Sym.is_ch hc
        exact absurd hd (spanS_many1 ⟨h, trivial⟩ hf).1
      · rw [if_neg hc, if_neg hc]
        exact ⟨[], Reads.nil _, by simp, by simp, by simp⟩
    have hw2 := spanS_reads iswhite (spanS isalpha (modStart r)).2
    have hw2a := spanS_all iswhite (spanS isalpha (modStart r)).2
    have hw2s := spanS_stop_is iswhite (spanS isalpha (modStart r)).2
    have hsk : Skip (spanS isalpha (modStart r)).2 (spanS iswhite (spanS isalpha (modStart r)).2).2 :=
      ⟨_, span_iff.2 rfl⟩
    rw [ok_modRest (r2 := (spanS isalpha (modStart r)).2) rfl hsk hf rfl]
    generalize hkk : (spanS isalpha (modStart r)).1 = k at *
    generalize (spanS isalpha (modStart r)).2 = r2 at *
    generalize hw' : (spanS iswhite r2).1 = w' at *
    generalize hr3 : (spanS iswhite r2).2 = r3 at *
    have hkne : k ≠ [] := by
      rintro rfl
      have := modifierTable_min _ ht
      simp at hm this; omega
    have stay : (headSym r2).is iswhite = false → w' = [] ∧ r3 = r2 := by
      intro h
      have : spanS iswhite r2 = ([], r2) := spanS_of_reads (Reads.nil _) (by simp) h
      rw [← hw', ← hr3, this]; exact ⟨rfl, rfl⟩
    generalize hr0 : (if name = cs!"silent" ∧ headSym r2 = .ch '!' then r3.tail else r3) = r0
    have hmo : ModAt r ⟨name, if name = cs!"silent" then some (if headSym r2 = .ch '!' then 1 else 0) else none,
        modCount name (modDigits r)⟩ r0 := by
      by_cases h1 : name = cs!"silent"
      · by_cases h2 : headSym r2 = .ch '!'
        · obtain ⟨e1, e2⟩ := stay (by rw [h2]; rfl)
          rw [if_pos ⟨h1, h2⟩] at hr0
          rw [if_pos h1, if_pos h2]
          have hb : Reads r3 ['!'] r3.tail := headSym_reads (e2 ▸ h2)
          rw [hr0] at hb
          exact ModAt.mk hr hd hw hdw hk hka hks (modifierTable_sub _ ht) hp hm hw2 hw2a hw2s hb
            (.inl ⟨h1, .inl ⟨rfl, e1, rfl⟩⟩) rfl
        · rw [if_neg (fun h => h2 h.2)] at hr0
          rw [if_pos h1, if_neg h2, ← hr0]
          exact ModAt.mk hr hd hw hdw hk hka hks (modifierTable_sub _ ht) hp hm hw2 hw2a hw2s (Reads.nil _)
            (.inl ⟨h1, .inr ⟨rfl, rfl, h2⟩⟩) rfl
      · rw [if_neg (fun h => h1 h.1)] at hr0
        rw [if_neg h1, ← hr0]
        exact ModAt.mk hr hd hw hdw hk hka hks (modifierTable_sub _ ht) hp hm hw2 hw2a hw2s (Reads.nil _)
          (.inr ⟨h1, rfl, rfl⟩) rfl
    have hbare : BareHide r r0 ↔ name = cs!"hide" ∧ AtStop r2 := by
      constructor
      · rintro ⟨h1, h2, v, c, hv, hcw⟩
        have e1 : name = cs!"hide" := congrArg Modifier.name (hmo.unique h1).1
        subst e1
        rw [if_neg (by simp)] at hr0
        subst hr0
        refine ⟨rfl, ?_⟩
        have hall := (hr.append hk).append hw2
        rcases List.eq_nil_or_concat w' with rfl | ⟨a, l, e⟩
        · rw [hw2.unnil] at h2; exact h2
        · rw [List.concat_eq_append] at e
          subst e
          have := hall.det hv
          rw [← List.append_assoc] at this
          have := List.append_inj_right' this rfl
          simp only [List.cons.injEq, and_true] at this
          have h3 := hw2a l (by simp)
          rw [this, hcw] at h3
          exact absurd h3 (by decide)
      · rintro ⟨rfl, h2⟩
        rw [if_neg (by simp)] at hr0
        subst hr0
        have hst : (headSym r2).is iswhite = false := by
          rcases h2 with (h2 | h2) | h2 | h2 <;> rw [h2] <;> rfl
        obtain ⟨e1, e2⟩ := stay hst
        refine ⟨hmo, e2 ▸ h2, ?_⟩
        obtain ⟨a, l, e⟩ := (List.eq_nil_or_concat k).resolve_left hkne
        rw [List.concat_eq_append] at e
        refine ⟨modDigits r ++ w ++ a, l, ?_, alpha_not_white (hka l (by rw [e]; simp))⟩
        have := hr.append hk
        rw [e2, List.append_assoc, ← e]; exact this
    rw [← hbare]
    constructor
    · rintro (⟨h1, h2, rfl, rfl⟩ | ⟨h1, h2, rfl, rfl⟩)
      · have := hbare.2 ⟨h1, h2⟩
        rw [if_neg (by simp [h1])] at hr0
        rw [hr0]
        exact .inr (.inl ⟨this, rfl⟩)
      · exact .inr (.inr ⟨_, hmo, h1, h2, rfl⟩)
    · rintro (⟨h1, _⟩ | ⟨h1, rfl⟩ | ⟨mo, h1, h2, h3, rfl⟩)
      · exact absurd hmo (h1 _ _)
      · obtain ⟨e1, rfl⟩ := hmo.unique h1.1
        obtain ⟨h3, h4⟩ := hbare.1 h1
        rw [if_neg (by simp [h3])] at hr0
        exact .inl ⟨h3, h4, rfl, hr0.symm⟩
      · obtain ⟨rfl, rfl⟩ := hmo.unique h1
        exact .inr ⟨h2, h3, rfl, rfl⟩

theorem Spec.ModAt.sadv {m : Modifier} (h : ModAt r m r') : SAdv r r' := by
  obtain @⟨d, w, k, w', b, name, m, bang, count, r1, r2, r3, _, h1, h2, h3, h4, h5, h6, h7, h8, h9, h10,
    h11, h12, h13, h14, h15, h16⟩ := h
  have hk : k ≠ [] := by
    rintro rfl
    have := modifierTable_min _ (vimModifiers_sub _ h8)
    simp at h10 this; omega
  exact h1.adv.trans_sadv ((h5.sadv hk).trans_adv (h11.adv.trans h14.adv))

theorem ok_mods {ms : List Modifier} : Ok env parseModifiers r ms r' ↔ Mods r ms r' ∧ CountsOK ms := by
  rw [parseModifiers_eq, loop_iff (R := fun acc r ms r' => ∃ l, Mods r l r' ∧ CountsOK l ∧ ms = acc ++ l)]
  · simp
  · intro s r s1 r1 h
    rcases ok_modStep.1 h with ⟨_, h, _⟩ | ⟨_, h⟩ | ⟨m, h, _⟩
    · cases h
    · cases h
    · exact h.sadv.lt
  · intro acc r ms r'
    simp only [ok_modStep]
    constructor
    · rintro ⟨l, h, hc, rfl⟩
      cases h with
      | nil h => exact .inl (.inl ⟨h, by simp, rfl⟩)
      | hide h => exact .inl (.inr (.inl ⟨h, by simp⟩))
      | @cons _ m _ ms _ h1 h2 h3 =>
        exact .inr ⟨_, _, .inr (.inr ⟨_, h1, h2, hc _ (by simp), rfl⟩), ms, h3, fun m hm => hc m (by simp [hm]), by simp⟩
    · rintro ((⟨h, h', rfl⟩ | ⟨h, h'⟩ | ⟨_, _, _, _, h'⟩) |
        ⟨ts, r1, (⟨_, h', _⟩ | ⟨_, h'⟩ | ⟨m, h1, h2, h3, h'⟩), l, h4, h5, rfl⟩)
      · cases h'; exact ⟨[], .nil h, by intro m hm; simp at hm, by simp⟩
      · cases h'; exact ⟨[], .hide h, by intro m hm; simp at hm, by simp⟩
      · cases h'
      · cases h'
      · cases h'
      · cases h'
        refine ⟨m :: l, .cons h1 h2 h4, ?_, by simp⟩
        intro m' hm'
        rcases List.mem_cons.1 hm' with rfl | hm'
        · exact h3
        · exact h5 m' hm'

theorem Spec.Mods.adv {ms : List Modifier} (h : Mods r ms r') : Adv r r' := by
  induction h with
  | nil => exact Adv.refl _
  | hide h => exact h.1.sadv.1
  | cons h _ _ ih => exact h.sadv.1.trans ih

end
end Viml
