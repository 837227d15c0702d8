/-
The errors of search patterns and line ranges.
-/
import Verif.Lemmas.Avoid
import Verif.Lemmas.FileRaw
import Verif.Spec.FileError

namespace Viml
open Prog Spec

section
variable {env : Env} {r r' : List Cell} {msg : Str} {q : Pos}

theorem Bad.notOk {α : Type} {m : Prog α} {a : α} (h : Bad env m r msg q) (h' : Ok env m r a r') : False := by
  unfold Bad at h
  unfold Ok at h'
  rw [h'] at h
  cases h

theorem Bad.det {α : Type} {m : Prog α} {msg' : Str} {q' : Pos} (h : Bad env m r msg q) (h' : Bad env m r msg' q') :
    msg = msg' ∧ q = q' := by
  unfold Bad at h h'
  rw [h'] at h
  cases h
  exact ⟨rfl, rfl⟩

theorem Bad.avoid {α : Type} {m : Prog α} (h : Bad env m r msg q) (h' : Avoids Fail.isErr m) : False := h'.noBad.1 h

theorem badb_match {α β : Type} {m : Prog α} {f : α → Prog β} (h : ∀ {msg q}, Bad env m r msg q ↔ False) :
    Bad env (m >>= f) r msg q ↔ ∃ a r1, Ok env m r a r1 ∧ Bad env (f a) r1 msg q := by
  rw [bad_bind, h, false_or]

theorem badb_pattern {β : Type} {d : Char} {f : Str × Str → Prog β} :
    Bad env (parsePattern [d] >>= f) r msg q ↔ Bad env (parsePattern [d]) r msg q ∨
      ∃ p e r1, Pat d 0 r p e r1 ∧ Bad env (f (p, e)) r1 msg q := by
  rw [bad_bind]
  refine or_congr Iff.rfl ?_
  simp only [ok_pattern]
  constructor
  · rintro ⟨⟨p, e⟩, r1, h⟩; exact ⟨p, e, r1, h⟩
  · rintro ⟨p, e, r1, h⟩; exact ⟨(p, e), r1, h⟩

/-! ### Patterns -/

theorem bad_patBody {d : Char} {acc : Str} {n : Int} : Bad env (patBody [d] (acc, n)) r msg q ↔
    msg = e682 ∧ headSym r = .ch '\\' ∧ ¬ ('\\' = d ∧ n = 0) ∧ AtEnd r.tail ∧ q = posOf env r.tail := by
  unfold patBody
  dsimp only
  rw [badb_getn]
  rcases getn1_cases r with ⟨c, hc, hg, _⟩ | ⟨ha, hg⟩
  · rw [hg]
    dsimp only
    rw [if_neg (by simp), hc]
    by_cases h1 : c = d ∧ n = 0
    · obtain ⟨rfl, rfl⟩ := h1
      rw [if_pos ⟨rfl, rfl⟩, bad_pure]
      constructor
      · exact False.elim
      · rintro ⟨_, h, h2, _⟩
        cases h
        exact h2 ⟨rfl, rfl⟩
    · rw [if_neg (by simpa using h1)]
      by_cases h2 : c = '\\'
      · subst h2
        rw [if_pos rfl, badb_peekn]
        rcases getn1_cases r.tail with ⟨c2, hc2, hg2, _⟩ | ⟨ha2, hg2⟩
        · rw [hg2, if_neg (by simp), badb_getn, bad_pure]
          constructor
          · exact False.elim
          · rintro ⟨_, _, _, h, _⟩
            exact atEnd_not h hc2
        · rw [hg2, if_pos rfl, bad_errHere]
          constructor
          · rintro ⟨rfl, rfl⟩; exact ⟨rfl, rfl, h1, ha2, rfl⟩
          · rintro ⟨rfl, _, _, _, rfl⟩; exact ⟨rfl, rfl⟩
      · rw [if_neg (by simpa using h2), bad_ite, bad_ite, bad_pure, bad_pure, bad_pure]
        simp only [and_false, or_false, false_iff]
        rintro ⟨_, h, _⟩
        exact h2 (Sym.ch.inj h)
  · rw [hg]
    dsimp only
    rw [if_pos rfl, bad_pure]
    constructor
    · exact False.elim
    · rintro ⟨_, h, _⟩; exact atEnd_not ha h

theorem bad_pattern {d : Char} : Bad env (parsePattern [d]) r msg q ↔ msg = e682 ∧ PatErr env d 0 r q := by
  rw [parsePattern_eq]
  refine bad_loop_iff (D := fun _ _ => True) (B := fun (s : Str × Int) r => msg = e682 ∧ PatErr env d s.2 r q) ?_ ?_ trivial
  · rintro ⟨acc, n⟩ r ⟨acc1, n1⟩ r1 _ h
    refine ⟨?_, trivial⟩
    by_cases ha : AtEnd r
    · rw [patBody_end ha] at h; cases h.1
    · obtain ⟨c, hc⟩ := not_atEnd.1 ha
      rw [patBody_ch hc] at h
      have := ch_lt hc
      rcases h with ⟨_, h, _⟩ | ⟨_, ⟨_, c2, hc2, _, rfl⟩ | ⟨_, _, rfl⟩⟩
      · cases h
      · have := ch_lt hc2; omega
      · omega
  · rintro ⟨acc, n⟩ r _
    rw [bad_patBody]
    constructor
    · rintro ⟨rfl, h⟩
      cases h with
      | last h1 h2 h3 =>
        obtain ⟨hc, rfl⟩ := reads_one_iff.1 h1
        exact .inl ⟨rfl, hc, h2, h3, rfl⟩
      | @esc _ _ c r1 _ h1 h2 h3 =>
        obtain ⟨r2, k1, k2⟩ := Reads.split (v := ['\\']) (w := [c]) h1
        obtain ⟨hc, rfl⟩ := reads_one_iff.1 k1
        obtain ⟨hc2, rfl⟩ := reads_one_iff.1 k2
        exact .inr ⟨(_, n), _, (patBody_ch hc).2 (.inr ⟨h2, .inl ⟨rfl, c, hc2, rfl, rfl⟩⟩), rfl, h3⟩
      | @char _ _ c r1 _ h1 h2 h3 h4 =>
        obtain ⟨hc, rfl⟩ := reads_one_iff.1 h1
        exact .inr ⟨(_, n + bracket c), _, (patBody_ch hc).2 (.inr ⟨h3, .inr ⟨h2, rfl, rfl⟩⟩), rfl, h4⟩
    · rintro (⟨rfl, h1, h2, h3, rfl⟩ | ⟨⟨acc1, n1⟩, r1, h, rfl, hp⟩)
      · exact ⟨rfl, .last (headSym_reads h1) h2 h3⟩
      · refine ⟨rfl, ?_⟩
        by_cases ha : AtEnd r
        · rw [patBody_end ha] at h; cases h.1
        · obtain ⟨c, hc⟩ := not_atEnd.1 ha
          rw [patBody_ch hc] at h
          rcases h with ⟨_, h, _⟩ | ⟨h1, ⟨rfl, c2, hc2, h, rfl⟩ | ⟨h2, h, rfl⟩⟩
          · cases h
          · cases h
            exact .esc ((headSym_reads hc).append (headSym_reads hc2)) h1 hp
          · cases h
            exact .char (headSym_reads hc) h2 h1 hp

/-! ### Ranges -/

theorem avoids_rangeInts {F : Fail → Prop} (hF : Proper F) {ts : List Str} : Avoids F (rangeInts ts) := by
  unfold rangeInts readInteger readDigit
  avoid []

theorem bad_rangeAtom {acc : List Str} {c : Char} (hg : Tidy r) (h : headSym r = .ch c) :
    Bad env (rangeAtom acc [c]) r msg q ↔ AddressErr env r msg q := by
  have hgn := getn1_of h
  have hr := headSym_reads h
  have key : ∀ {d : Char} {w : Str} {r2}, Reads r (d :: w) r2 → d = c := by
    intro d w r2 h1
    have := h1.head
    rw [h] at this
    injection this with this
    exact this.symm
  have no : c ≠ '/' → c ≠ '?' → c ≠ '\\' → ¬ AddressErr env r msg q := by
    intro k1 k2 k3 h
    cases h with
    | pat hd hr => have := key hr; subst this; rcases hd with rfl | rfl <;> contradiction
    | prev hr => exact k3 (key hr).symm
  unfold rangeAtom
  by_cases h1 : c = '.' ∨ c = '$'
  · rw [if_pos (by simpa using h1), badb_getn, bad_pure]
    simp only [false_iff]
    apply no <;> rcases h1 with rfl | rfl <;> decide
  rw [if_neg (by simpa using h1)]
  by_cases h2 : c = '\''
  · subst h2
    rw [if_pos rfl, badb_getn, badb_getn, bad_ite, bad_pure, bad_pure]
    simp only [and_false, or_false, false_iff]
    apply no <;> decide
  rw [if_neg (by simpa using h2)]
  by_cases h3 : c = '/' ∨ c = '?'
  · rw [if_pos (by simpa using h3), badb_getn, hgn, badb_pattern, bad_pattern]
    simp only [bad_pure, and_false, exists_false, or_false]
    constructor
    · rintro ⟨rfl, h4⟩; exact .pat h3 hr h4
    · intro h4
      cases h4 with
      | pat _ h5 h6 =>
        have := key h5
        subst this
        cases h5.rest_unique hr
        exact ⟨rfl, h6⟩
      | prev h5 => have := key h5; subst this; simp at h3
  rw [if_neg (by simpa using h3)]
  by_cases h4 : c = '\\'
  · subst h4
    rw [if_pos rfl]
    have hne := hg.tail h
    have : ∀ f : Sym → Prog (Option (List Str)), Bad env (p 1 >>= f) r msg q ↔ Bad env (f (headSym r.tail)) r msg q := by
      intro f
      match r, hne with
      | a :: b :: r, _ => exact Iff.rfl
    rw [this, bad_ite]
    have hs : ∀ m : Sym, ¬ Bad env (do
        seekCur 2
        pure (some (acc ++ [cs!"\\" ++ m.str]))) r msg q := by
      intro m hb
      exact ((avoids_bind (avoids_seekCur proper_err) fun _ => avoids_pure).noBad).1 hb
    simp only [hs, and_false, false_or, bad_errHere, not_or]
    constructor
    · rintro ⟨⟨h5, h6, h7⟩, rfl, rfl⟩
      exact .prev hr h5 h6 h7
    · intro h8
      cases h8 with
      | pat hd h5 => have := key h5; subst this; simp at hd
      | prev h5 h6 h7 h8 =>
        cases h5.rest_unique hr
        exact ⟨⟨h6, h7, h8⟩, rfl, rfl⟩
  rw [if_neg (by simpa using h4), bad_ite, bad_pure]
  simp only [readDigit, badb_readWhile, bad_pure, and_false, exists_false, or_false, false_iff]
  simp only [not_or] at h3
  exact no h3.1 h3.2 h4

theorem bad_innerBody {ts : List Str} (hg : Tidy r) : Bad env (innerBody ts) r msg q ↔
    ∃ r1, Skip r r1 ∧ AddressErr env r1 msg q := by
  unfold innerBody
  rw [badb_skipWhite]
  refine exists_congr fun r1 => and_congr_right fun hs => ?_
  rw [badb_peekn]
  by_cases ha : AtEnd r1
  · rw [if_pos (get1_nil.2 ha), bad_pure]
    constructor
    · exact False.elim
    · intro h
      cases h with
      | pat _ h => exact atEnd_not ha h.head
      | prev h => exact atEnd_not ha h.head
  · obtain ⟨c, hc⟩ := not_atEnd.1 ha
    rw [getn1_of hc, if_neg (by simp), bad_bind, bad_rangeAtom (hg.skip hs) hc]
    constructor
    · rintro (h | ⟨x, r2, _, h⟩)
      · exact h
      · exfalso
        cases x with
        | none => exact bad_pure.1 h
        | some ts =>
          dsimp only at h
          have : Avoids Fail.isErr (do
              let ts ← rangeInts ts
              let x ← p 0
              if x ≠ .ch '/' ∧ x ≠ .ch '?' then pure (.inr ts) else pure (.inl ts) : Prog (List Str ⊕ List Str)) := by
            avoid [avoids_rangeInts proper_err]
          exact this.noBad.1 h
    · exact .inl

theorem Tidy.adv (hg : Tidy r) (h : Adv r r') : Tidy r' := by
  obtain ⟨v, rfl, hv⟩ := h
  clear hv
  intro hne
  obtain ⟨init, q, h⟩ := hg (by simp [hne])
  obtain ⟨init', x, rfl⟩ : ∃ i x, r' = i ++ [x] :=
    ⟨_, _, (List.dropLast_concat_getLast hne).symm⟩
  rw [← List.append_assoc] at h
  obtain ⟨_, h⟩ := List.append_inj' h rfl
  cases h
  exact ⟨init', q, rfl⟩

theorem bad_rangeInner {acc : List Str} (hg : Tidy r) : Bad env (rangeInner acc) r msg q ↔ AddressesErr env r msg q := by
  rw [rangeInner_eq]
  refine bad_loop_iff (D := fun _ r => Tidy r) (B := fun _ r => AddressesErr env r msg q) ?_ ?_ hg
  · intro s r s1 r1 hg h
    rcases ok_innerBody.1 h with ⟨_, _, h⟩ | ⟨_, _, _, _, h⟩ | ⟨r2, a, r3, os, hs, _, ha, ho, ⟨_, _, h⟩ | ⟨h, _⟩⟩
    · cases h
    · cases h
    · cases h
    · exact ⟨address_lt hs ha ho h, hg.adv (hs.adv.trans (ha.adv.trans ho.adv))⟩
  · intro s r hg
    rw [bad_innerBody hg]
    constructor
    · intro h
      cases h with
      | first h1 h2 => exact .inl ⟨_, h1, h2⟩
      | more h1 h2 h3 h4 h5 h6 =>
        exact .inr ⟨_, _, ok_innerBody.2 (.inr (.inr ⟨_, _, _, _, h1, h2, h3, h4, .inr ⟨h5, rfl⟩⟩)), h6⟩
    · rintro (⟨r1, h1, h2⟩ | ⟨s1, r1, h, h6⟩)
      · exact .first h1 h2
      · rcases ok_innerBody.1 h with ⟨_, _, h⟩ | ⟨_, _, _, _, h⟩ | ⟨r2, a, r3, os, h1, h2, h3, h4, ⟨_, _, h⟩ | ⟨h5, _⟩⟩
        · cases h
        · cases h
        · cases h
        · exact .more h1 h2 h3 h4 h5 h6

theorem bad_rangeBody {ts : List Str} (hg : Tidy r) : Bad env (rangeBody ts) r msg q ↔ AddressesErr env r msg q := by
  unfold rangeBody
  rw [bad_bind, bad_rangeInner hg]
  constructor
  · rintro (h | ⟨x, r2, _, h⟩)
    · exact h
    · exfalso
      refine Bad.avoid h ?_
      avoid []
  · exact .inl

theorem bad_range (hg : Tidy r) : Bad env parseRange r msg q ↔ RangeErr env r msg q := by
  rw [parseRange_eq]
  refine bad_loop_iff (D := fun _ r => Tidy r) (B := fun _ r => RangeErr env r msg q) ?_ ?_ hg
  · intro s r s1 r1 hg h
    obtain ⟨as, r2, w, r3, h1, h2, ⟨_, _, _, h⟩ | ⟨c, hc, h3, _⟩⟩ := ok_rangeBody.1 h
    · cases h
    · refine ⟨?_, hg.adv (h1.adv.trans (h2.adv.trans h3.adv))⟩
      have := h1.adv.length
      have := h2.adv.length
      have := (h3.sadv (by simp)).lt
      omega
  · intro s r hg
    rw [bad_rangeBody hg]
    constructor
    · intro h
      cases h with
      | first h => exact .inl h
      | more h1 h2 h3 h4 h5 =>
        exact .inr ⟨_, _, ok_rangeBody.2 ⟨_, _, _, _, h1, h2, .inr ⟨_, h3, h4, rfl⟩⟩, h5⟩
    · rintro (h | ⟨s1, r1, h, h6⟩)
      · exact .first h
      · obtain ⟨as, r2, w, r3, h1, h2, ⟨_, _, _, h⟩ | ⟨c, hc, h3, _⟩⟩ := ok_rangeBody.1 h
        · cases h
        · exact .more h1 h2 hc h3 h6

end
end Viml
