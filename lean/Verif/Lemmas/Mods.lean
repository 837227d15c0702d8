/-
The specification of command modifiers determines which modifiers a text has.
-/
import Verif.Lemmas.StmtSound

namespace Viml
open Spec

theorem Spec.Reads.rest_unique {r a b : List Cell} {v : Str} (h1 : Reads r v a) (h2 : Reads r v b) : a = b := by
  obtain ⟨p, rfl, hp⟩ := h1
  obtain ⟨q, hq, hq2⟩ := h2
  have hl : p.length = q.length := by
    have h1 := congrArg List.length hp
    have h2 := congrArg List.length hq2
    simp at h1 h2
    omega
  exact (List.append_inj hq hl).2

/-- The parts of a modifier are determined by the text. -/
theorem modAt_parts {r r1 r2 r3 : List Cell} {d w k w' name : Str} {m : Nat} (h1 : Reads r (d ++ w) r1)
    (h2 : ∀ c ∈ d, isdigit c = true) (h3 : ∀ c ∈ w, iswhite c = true) (h4 : d = [] → w = [])
    (h5 : Reads r1 k r2) (h6 : ∀ c ∈ k, isalpha c = true) (h7 : (headSym r2).is isalpha = false)
    (h8 : (name, m) ∈ vimModifiers) (h10 : m ≤ k.length)
    (h11 : Reads r2 w' r3) (h12 : ∀ c ∈ w', iswhite c = true) (h13 : (headSym r3).is iswhite = false) :
    spanS isdigit r = (d, if d = [] then r1 else (spanS isdigit r).2) ∧ (d = [] → r1 = r) ∧
    (d ≠ [] → r1 = (spanS iswhite (spanS isdigit r).2).2) ∧
    spanS isalpha r1 = (k, r2) ∧ spanS iswhite r2 = (w', r3) := by
  replace h8 := vimModifiers_sub _ h8
  have hk : k ≠ [] := by
    rintro rfl
    have := modifierTable_min _ h8
    simp at h10 this; omega
  obtain ⟨c, k', rfl⟩ := List.exists_cons_of_ne_nil hk
  have hc := h6 c (by simp)
  obtain ⟨x, hd, hw⟩ := h1.split
  have hx : spanS isdigit r = (d, x) := by
    refine spanS_of_reads hd h2 ?_
    cases w with
    | nil =>
      have e2 := hw.unnil; subst e2
      rw [h5.head]; exact alpha_not_digit hc
    | cons z w => rw [hw.head]; exact white_not_digit (h3 z (by simp))
  refine ⟨?_, ?_, ?_, spanS_of_reads h5 h6 h7, spanS_of_reads h11 h12 h13⟩
  · rw [hx]
    split
    · rename_i e
      subst e
      obtain rfl := h4 rfl
      rw [hw.unnil]
    · rfl
  · rintro rfl
    obtain rfl := h4 rfl
    rw [hw.unnil, hd.unnil]
  · intro _
    rw [hx]
    have : spanS iswhite x = (w, r1) := by
      refine spanS_of_reads hw h3 ?_
      rw [h5.head]; exact alpha_not_white hc
    rw [this]

theorem Spec.ModAt.unique {r ra rb : List Cell} {m n : Modifier} (hm : ModAt r m ra) (hn : ModAt r n rb) :
    m = n ∧ ra = rb := by
  obtain @⟨d, w, k, w', b, name, m, bang, count, r1, r2, r3, _, h1, h2, h3, h4, h5, h6, h7, h8, h9, h10,
    h11, h12, h13, h14, h15, h16⟩ := hm
  obtain @⟨d', v, l, v', b', name', m', bang', count', s1, s2, s3, _, k1, k2, k3, k4, k5, k6, k7, k8, k9, k10,
    k11, k12, k13, k14, k15, k16⟩ := hn
  obtain ⟨a1, a2, a3, a4, a5⟩ := modAt_parts h1 h2 h3 h4 h5 h6 h7 h8 h10 h11 h12 h13
  obtain ⟨c1, c2, c3, c4, c5⟩ := modAt_parts k1 k2 k3 k4 k5 k6 k7 k8 k10 k11 k12 k13
  have e1 : d = d' := by
    have := congrArg Prod.fst (a1.symm.trans c1)
    exact this
  subst e1
  have e2 : r1 = s1 := by
    by_cases hd : d = []
    · rw [a2 hd, c2 hd]
    · rw [a3 hd, c3 hd]
  subst e2
  rw [a4, Prod.mk.injEq] at c4
  obtain ⟨rfl, rfl⟩ := c4
  rw [a5, Prod.mk.injEq] at c5
  obtain ⟨rfl, rfl⟩ := c5
  have e3 := modifier_unique (vimModifiers_sub _ h8) (vimModifiers_sub _ k8) h9 k9 h10 k10
  subst e3
  have e4 : bang = bang' ∧ b = b' := by
    have bang_of : ∀ {x : List Cell}, w' = [] → Reads r3 cs!"!" x → headSym r2 = .ch '!' := by
      intro x hw' hr
      subst hw'
      rw [← h11.unnil]
      exact hr.head
    rcases h15 with ⟨_, ⟨rfl, p2, rfl⟩ | ⟨rfl, rfl, p3⟩⟩ | ⟨hn, rfl, rfl⟩ <;>
      rcases k15 with ⟨_, ⟨rfl, q2, rfl⟩ | ⟨rfl, rfl, q3⟩⟩ | ⟨hn', rfl, rfl⟩
    · exact ⟨rfl, rfl⟩
    · exact absurd (bang_of p2 h14) q3
    · exact absurd ‹_› hn'
    · exact absurd (bang_of q2 k14) p3
    · exact ⟨rfl, rfl⟩
    · exact absurd ‹_› hn'
    · exact absurd ‹_› hn
    · exact absurd ‹_› hn
    · exact ⟨rfl, rfl⟩
  obtain ⟨rfl, rfl⟩ := e4
  exact ⟨by rw [h16, k16], h14.rest_unique k14⟩

theorem Spec.Mods.unique {r ra rb : List Cell} {ms ns : List Modifier} (h : Mods r ms ra) (k : Mods r ns rb) :
    ms = ns ∧ ra = rb := by
  induction h generalizing ns rb with
  | nil h =>
    cases k with
    | nil _ => exact ⟨rfl, rfl⟩
    | hide k => exact absurd k.1 (h _ _)
    | cons k _ _ => exact absurd k (h _ _)
  | hide h =>
    cases k with
    | nil k => exact absurd h.1 (k _ _)
    | hide k => exact ⟨rfl, (h.1.unique k.1).2⟩
    | cons k k' _ => exact absurd ((h.1.unique k).2 ▸ h) k'
  | cons h h' _ ih =>
    cases k with
    | nil k => exact absurd h (k _ _)
    | hide k => exact absurd ((k.1.unique h).2 ▸ k) h'
    | cons k _ k2 =>
      obtain ⟨rfl, rfl⟩ := h.unique k
      obtain ⟨rfl, rfl⟩ := ih k2
      exact ⟨rfl, rfl⟩

end Viml
