/-
The tokenizer: specification of one token read.
-/
import Verif.Lemmas.Wp
import Verif.Spec.Token

namespace Viml
open Prog Spec

/-! ### `Reads` -/

theorem Spec.Reads.nil (r : List Cell) : Reads r [] r := ⟨[], rfl, rfl⟩

theorem Spec.Reads.append {a b c : List Cell} {v w : Str} (h1 : Reads a v b) (h2 : Reads b w c) :
    Reads a (v ++ w) c := by
  obtain ⟨p, rfl, hp⟩ := h1
  obtain ⟨q, rfl, hq⟩ := h2
  exact ⟨p ++ q, by simp, by simp [hp, hq]⟩

theorem Spec.Reads.cons {c : Cell} {ch : Char} {r r' : List Cell} {v : Str} (h : c.c = some ch)
    (h2 : Reads r v r') : Reads (c :: r) (ch :: v) r' := by
  obtain ⟨q, rfl, hq⟩ := h2
  exact ⟨c :: q, rfl, by simp [h, hq]⟩

theorem Spec.Reads.one {c : Cell} {ch : Char} {r : List Cell} (h : c.c = some ch) :
    Reads (c :: r) [ch] r := Reads.cons h (Reads.nil r)

theorem Spec.Reads.adv {a b : List Cell} {v : Str} (h : Reads a v b) : Adv a b := by
  obtain ⟨p, rfl, hp⟩ := h
  refine ⟨p, rfl, ?_⟩
  intro c hc he
  have : c.c ∈ v.map some := hp ▸ List.mem_map.2 ⟨c, hc, rfl⟩
  rw [he] at this
  simp at this

theorem Spec.Reads.len {a b : List Cell} {v : Str} (h : Reads a v b) :
    a.length = v.length + b.length := by
  obtain ⟨p, rfl, hp⟩ := h
  have := congrArg List.length hp
  simp only [List.length_map] at this
  simp [this]

theorem Spec.Reads.sadv {a b : List Cell} {v : Str} (h : Reads a v b) (hv : v ≠ []) : SAdv a b := by
  refine ⟨h.adv, ?_⟩
  have := h.len
  have : 0 < v.length := List.length_pos_iff.2 hv
  omega

theorem Spec.Reads.of_adv {a b : List Cell} (h : Adv a b) : ∃ v, Reads a v b := by
  obtain ⟨p, rfl, hp⟩ := h
  refine ⟨p.filterMap Cell.c, p, rfl, ?_⟩
  induction p with
  | nil => rfl
  | cons x p ih =>
    have := hp x (by simp)
    cases hx : x.c with
    | none => exact absurd hx this
    | some ch => simp [hx, ih (fun c hc => hp c (by simp [hc]))]

theorem Spec.Reads.det {a b : List Cell} {v w : Str} (h1 : Reads a v b) (h2 : Reads a w b) : v = w := by
  obtain ⟨p, rfl, hp⟩ := h1
  obtain ⟨q, hq, hqe⟩ := h2
  have : p = q := List.append_cancel_right hq
  subst this
  have : v.map some = w.map some := hp ▸ hqe
  exact List.map_inj_right (fun _ _ h => Option.some.inj h) |>.1 this

theorem spanS_reads (f : Char → Bool) (r : List Cell) : Reads r (spanS f r).1 (spanS f r).2 :=
  spanS_text f r

theorem getnS_reads (n : Nat) (r : List Cell) : Reads r (getnS n r).1 (getnS n r).2 :=
  getnS_text n r

theorem headSym_reads {r : List Cell} {ch : Char} (h : headSym r = .ch ch) : Reads r [ch] r.tail := by
  obtain ⟨c, r', rfl, hc⟩ := headSym_ch h
  exact Reads.one hc

/-! ### Look-ahead -/

theorem symAt_succ (k : Nat) (r : List Cell) : symAt (k + 1) r = symAt k r.tail := by
  cases r with
  | nil => rfl
  | cons c r => simp [symAt]

/-- `r` starts with the text `s`. -/
def Starts : Str → List Cell → Prop
  | [], _ => True
  | ch :: s, r => headSym r = .ch ch ∧ Starts s r.tail

theorem Starts.len {s : Str} {r : List Cell} (h : Starts s r) : s.length ≤ r.length := by
  induction s generalizing r with
  | nil => simp
  | cons ch s ih =>
    obtain ⟨c, r', rfl, hc⟩ := headSym_ch h.1
    have := ih h.2
    simpa using this

theorem Starts.reads {s : Str} {r : List Cell} (h : Starts s r) : Reads r s (r.drop s.length) := by
  induction s generalizing r with
  | nil => exact Reads.nil r
  | cons ch s ih =>
    obtain ⟨c, r', rfl, hc⟩ := headSym_ch h.1
    exact Reads.cons hc (ih h.2)

theorem Starts.of_reads {s : Str} {r r' : List Cell} (h : Reads r s r') : Starts s r := by
  induction s generalizing r with
  | nil => trivial
  | cons ch s ih =>
    obtain ⟨p, rfl, hp⟩ := h
    cases p with
    | nil => simp at hp
    | cons c p =>
      simp only [List.map_cons, List.cons.injEq] at hp
      exact ⟨by simp [headSym, Cell.sym, hp.1], ih ⟨p, rfl, hp.2⟩⟩

theorem Starts.getn {s : Str} {r : List Cell} (h : Starts s r) :
    getnS s.length r = (s, r.drop s.length) := by
  induction s generalizing r with
  | nil => rfl
  | cons ch s ih =>
    obtain ⟨c, r', rfl, hc⟩ := headSym_ch h.1
    have := ih h.2
    simp only [List.tail_cons] at this
    simp [getnS, hc, this]

/-- Looking `k` cells ahead is safe when the `k` cells before are characters. -/
theorem Starts.safe {env : Env} (he : EnvOK env) {r : List Cell} (hs : Suf env r) {s : Str} {k : Nat}
    (h : Starts s r) (hk : k = s.length) : r = [] ∨ k < r.length := by
  subst hk
  rcases hs.last he with h0 | ⟨init, q, rfl⟩
  · exact Or.inl h0
  · right
    refine Classical.byContradiction fun hc => ?_
    have hlen := h.len
    have heq : s.length = (init ++ [(⟨none, q⟩ : Cell)]).length := by omega
    have hr := h.reads
    rw [heq, List.drop_length] at hr
    obtain ⟨p, hp, hpe⟩ := hr
    simp only [List.append_nil] at hp
    have : (⟨none, q⟩ : Cell) ∈ p := by rw [← hp]; simp
    have : none ∈ s.map some := hpe ▸ List.mem_map.2 ⟨_, this, rfl⟩
    simp at this

theorem Starts.snoc {s : Str} {r : List Cell} {ch : Char} (h : Starts s r)
    (hc : symAt s.length r = .ch ch) : Starts (s ++ [ch]) r := by
  induction s generalizing r with
  | nil => rw [List.length_nil, symAt_zero] at hc; exact ⟨hc, trivial⟩
  | cons d s ih =>
    rw [List.length_cons, symAt_succ] at hc
    exact ⟨h.1, ih h.2 hc⟩

theorem Sym.is_ch {s : Sym} {f : Char → Bool} (h : s.is f = true) : ∃ c, s = .ch c ∧ f c = true := by
  cases s with
  | ch c => exact ⟨c, rfl, h⟩
  | eol => simp [Sym.is] at h
  | eof => simp [Sym.is] at h

/-! ### One token -/

section
variable {T : Env → List Cell → Res Token} {env : Env}

/-- Postcondition of `get2` on a text token. -/
def GetTok (env : Env) (r : List Cell) (t : Token) (r' : List Cell) : Prop :=
  t.pos = posOf env r ∧ Reads r t.value r' ∧ t.value ≠ [] ∧ Shape t.ty t.value

theorem advTok_spec {r : List Cell} {ty : TT} {s : Str} (h : Starts s r) (hne : s ≠ [])
    (hs : Shape ty s) {F : Fail → Prop} :
    wp T env (advTok ty s (posOf env r)) r (GetTok env r) F := by
  unfold advTok
  exact wp_bind (wp_seekCur h.len (wp_pure ⟨rfl, h.reads, hne, hs⟩))

theorem cmpTok_spec (he : EnvOK env) {r : List Cell} (hs : Suf env r) {k : CmpK}
    (h : Starts (cmpText k) r) {F : Fail → Prop} :
    wp T env (cmpTok k (cmpText k) (posOf env r)) r (GetTok env r) F := by
  unfold cmpTok
  have hne : cmpText k ≠ [] := by cases k <;> simp [cmpText]
  refine wp_bind (wp_p (h.safe he hs rfl) ?_)
  apply wp_ite
  · intro hc
    have h2 := h.snoc hc
    refine wp_bind (wp_seekCur (by simpa using h2.len) (wp_pure ⟨rfl, ?_, by simp, rfl⟩))
    simpa using h2.reads
  · intro _
    apply wp_ite
    · intro hc
      have h2 := h.snoc hc
      refine wp_bind (wp_seekCur (by simpa using h2.len) (wp_pure ⟨rfl, ?_, by simp, rfl⟩))
      simpa using h2.reads
    · intro _
      exact wp_bind (wp_seekCur h.len (wp_pure ⟨rfl, h.reads, hne, by simp [Shape, caseText]⟩))

/-- Symbolic evaluation of look-ahead conditions. -/
theorem wp_pIs_starts (he : EnvOK env) {r : List Cell} (hs : Suf env r) {s : Str}
    (h : Starts s r) {k : Nat} (hk : k = s.length) {c : Char} {Q : Bool → List Cell → Prop}
    {F : Fail → Prop} (ht : Starts (s ++ [c]) r → Q true r) (hf : Q false r) :
    wp T env (pIs k c) r Q F := by
  refine wp_pIs (h.safe he hs hk) ?_
  by_cases hc : symAt k r = .ch c
  · subst hk
    rw [decide_eq_true hc]
    exact ht (h.snoc hc)
  · rw [decide_eq_false hc]
    exact hf

theorem wp_pSat_starts (he : EnvOK env) {r : List Cell} (hs : Suf env r) {s : Str}
    (h : Starts s r) {k : Nat} (hk : k = s.length) {f : Char → Bool} {Q : Bool → List Cell → Prop}
    {F : Fail → Prop} (ht : ∀ c, f c = true → Starts (s ++ [c]) r → Q true r) (hf : Q false r) :
    wp T env (pSat k f) r Q F := by
  refine wp_pSat (h.safe he hs hk) ?_
  cases hc : (symAt k r).is f with
  | false => exact hf
  | true =>
    obtain ⟨c, e, hfc⟩ := Sym.is_ch hc
    subst hk
    exact ht c hfc (h.snoc e)

theorem wp_not {m : Prog Bool} {r : List Cell} {Q : Bool → List Cell → Prop} {F : Fail → Prop}
    (h : wp T env m r (fun b r' => Q (!b) r') F) :
    wp T env (do return !(← m)) r Q F := wp_bind (wp_mono h fun _ _ h => wp_pure h)

theorem wp_if_bool {α : Type} {m : Prog Bool} {a b : Prog α} {r : List Cell}
    {Q : α → List Cell → Prop} {F : Fail → Prop}
    (h : wp T env m r (fun x r' => if x then wp T env a r' Q F else wp T env b r' Q F) F) :
    wp T env (do if ← m then a else b) r Q F := by
  refine wp_bind (wp_mono h ?_)
  intro x r' hx
  cases x <;> simpa using hx

end

/-- Unfold the outcome of a decided condition. -/
macro "bsimp" : tactic => `(tactic|
  simp only [if_true, Bool.false_eq_true, if_false, Bool.not_true, Bool.not_false, ite_self])

section
variable {T : Env → List Cell → Res Token} {env : Env}

theorem wp_spanTok {r r1 : List Cell} {f : Char → Bool} {s : Str} {ty : TT} {F : Fail → Prop}
    (h : Reads r s r1) (hne : s ≠ []) (hs : ∀ t, (∀ x ∈ t, f x = true) → Shape ty (s ++ t)) :
    wp T env (do let t ← readWhile f; mkTok ty (s ++ t) (posOf env r)) r1 (GetTok env r) F := by
  refine wp_bind (wp_readWhile (wp_pure ⟨rfl, h.append (spanS_reads f r1), by simp [hne], ?_⟩))
  exact hs _ (spanS_all f r1)

theorem get2Punct_spec (he : EnvOK env) {r : List Cell} (hs : Suf env r) {c : Char}
    (h : Starts [c] r) :
    wp T env (get2Punct c (posOf env r)) r (GetTok env r) (ErrOK env) := by
  have simple : ∀ ty, Shape ty [c] → wp T env (advTok ty [c] (posOf env r)) r (GetTok env r) (ErrOK env) :=
    fun ty h2 => advTok_spec h (by simp) h2
  unfold get2Punct
  apply wp_ite
  · rintro rfl; exact cmpTok_spec (k := .greater) he hs h
  intro _; apply wp_ite
  · rintro rfl; exact cmpTok_spec (k := .smaller) he hs h
  intro _; apply wp_ite
  · rintro rfl; exact simple _ rfl
  intro _; apply wp_ite
  · rintro rfl
    refine wp_if_bool (wp_pIs_starts he hs h rfl (fun hst => ?_) ?_) <;> bsimp
    · exact advTok_spec hst (by simp) (by rfl)
    · exact simple _ rfl
  intro _; apply wp_ite
  · rintro rfl
    have tl : wp T env (pIs 1 '.' >>= fun b => if b = true then advTok .dotdot cs!".." (posOf env r)
        else advTok .dot cs!"." (posOf env r)) r (GetTok env r) (ErrOK env) := by
      refine wp_if_bool (wp_pIs_starts he hs h rfl (fun hst => ?_) ?_) <;> bsimp
      · exact advTok_spec hst (by simp) (by rfl)
      · exact simple _ rfl
    refine wp_if_bool (wp_pand (wp_pIs_starts he hs h rfl (fun hst => ?_) ?_)) <;> bsimp
    · refine wp_pIs_starts he hs hst rfl (fun hst => ?_) ?_ <;> bsimp
      · exact advTok_spec hst (by simp) (by rfl)
      · exact tl
    · exact tl
  intro _; apply wp_ite
  · rintro rfl; exact simple _ rfl
  intro _; apply wp_ite
  · rintro rfl; exact simple _ rfl
  intro _; apply wp_ite
  · rintro rfl; exact simple _ rfl
  intro _; apply wp_ite
  · rintro rfl; exact simple _ rfl
  intro _; apply wp_ite
  · rintro rfl; exact simple _ rfl
  intro _; apply wp_ite
  · rintro rfl; exact simple _ rfl
  intro _; apply wp_ite
  · rintro rfl
    refine wp_if_bool (wp_pIs_starts he hs h rfl (fun hst => ?_) ?_) <;> bsimp
    · exact advTok_spec hst (by simp) (by rfl)
    · exact simple _ rfl
  intro _; apply wp_ite
  · rintro rfl; exact simple _ rfl
  intro _; apply wp_ite
  · rintro rfl; exact simple _ rfl
  intro _; apply wp_ite
  · rintro rfl; exact simple _ rfl
  intro _; apply wp_ite
  · rintro rfl; exact simple _ rfl
  intro _; apply wp_ite
  · rintro rfl; exact simple _ rfl
  intro _; apply wp_ite
  · rintro rfl; exact simple _ rfl
  intro _; apply wp_ite
  · rintro rfl; exact simple _ rfl
  intro _; apply wp_ite
  · rintro rfl; exact simple _ rfl
  intro _; apply wp_ite
  · rintro rfl; exact simple _ rfl
  intro _; apply wp_ite
  · rintro rfl
    refine wp_bind (wp_getn ?_)
    rw [show getnS 1 r = _ from h.getn]
    exact wp_spanTok h.reads (by simp) fun t ht => ⟨t, rfl, ht⟩
  intro _; apply wp_ite
  · rintro rfl
    obtain ⟨c, r', rfl, hc⟩ := headSym_ch h.1
    refine wp_bind (wp_getn (wp_pure ⟨rfl, getnS_reads 2 _, ?_, ?_⟩))
    · simp [getnS, hc]
    · have hl := getnS_length 1 r'
      simp only [getnS, hc, Shape] at hl ⊢
      cases hx : r' with
      | nil => simp [getnS]
      | cons d r' =>
        cases hd : d.c <;> simp [getnS, hd]
  intro _; apply wp_ite
  · rintro rfl
    have tl : wp T env (do let s ← getn 1; let t ← readWord; mkTok .option (s ++ t) (posOf env r))
        r (GetTok env r) (ErrOK env) := by
      refine wp_bind (wp_getn ?_)
      rw [show getnS 1 r = _ from h.getn]
      exact wp_spanTok h.reads (by simp) fun t ht => ⟨_, t, Or.inl rfl, ht, rfl⟩
    have gl : ∀ g, g = 'g' ∨ g = 'l' → Starts ['&', g, ':'] r →
        wp T env (do let s ← getn 3; let t ← readWord; mkTok .option (s ++ t) (posOf env r))
        r (GetTok env r) (ErrOK env) := by
      intro g hg hst
      refine wp_bind (wp_getn ?_)
      rw [show getnS 3 r = _ from hst.getn]
      refine wp_spanTok hst.reads (by simp) fun t ht => ⟨_, t, Or.inr ?_, ht, rfl⟩
      rcases hg with rfl | rfl
      · exact Or.inl rfl
      · exact Or.inr rfl
    refine wp_if_bool (wp_pand (wp_por (wp_pIs_starts he hs h rfl (fun hst => ?_) ?_))) <;> bsimp
    · refine wp_pIs_starts he hs hst rfl (fun hst => ?_) ?_ <;> bsimp
      · exact gl 'g' (Or.inl rfl) hst
      · exact tl
    · refine wp_pIs_starts he hs h rfl (fun hst => ?_) ?_ <;> bsimp
      · refine wp_pIs_starts he hs hst rfl (fun hst => ?_) ?_ <;> bsimp
        · exact gl 'l' (Or.inr rfl) hst
        · exact tl
      · exact tl
  intro _; apply wp_ite
  · rintro rfl; exact simple _ rfl
  intro _; apply wp_ite
  · rintro rfl; exact simple _ rfl
  intro _; apply wp_ite
  · rintro rfl; exact simple _ rfl
  intro _; apply wp_ite
  · rintro rfl; exact simple _ rfl
  intro _
  exact wp_errHere hs.posOf

theorem Starts.nil (r : List Cell) : Starts [] r := trivial

theorem many1_append {f : Char → Bool} {a : Str} {c : Char} {b : Str} (hc : f c = true)
    (ha : ∀ x ∈ a, f x = true) (hb : ∀ x ∈ b, f x = true) : Many1 f (a ++ c :: b) := by
  refine ⟨by simp, ?_⟩
  intro x hx
  simp only [List.mem_append, List.mem_cons] at hx
  rcases hx with h | rfl | h
  · exact ha x h
  · exact hc
  · exact hb x h

theorem spanS_many1 {f : Char → Bool} {r : List Cell} {c : Char} (h : Starts [c] r)
    (hc : f c = true) : Many1 f (spanS f r).1 := by
  refine ⟨?_, spanS_all f r⟩
  obtain ⟨d, r', rfl, hd⟩ := headSym_ch h.1
  simp [spanS, hd, hc]

theorem get2Number_spec (he : EnvOK env) {r : List Cell} (hs : Suf env r) {c : Char}
    (h : Starts [c] r) (hc : isdigit c = true) :
    wp T env (get2Number (posOf env r)) r (GetTok env r) (ErrOK env) := by
  unfold get2Number
  refine wp_bind (wp_readWhile ?_)
  have hm := spanS_many1 h hc
  have hr := spanS_reads isdigit r
  generalize (spanS isdigit r).1 = d at *
  generalize (spanS isdigit r).2 = r1 at *
  have hs1 := hr.adv.suf hs
  have e0 : wp T env (mkTok .number d (posOf env r)) r1 (GetTok env r) (ErrOK env) :=
    wp_pure ⟨rfl, hr, hm.1, .dec d hm⟩
  refine wp_if_bool (wp_pand (wp_pIs_starts he hs1 (Starts.nil r1) rfl (fun hst => ?_) ?_)) <;> bsimp
  rotate_left
  · exact e0
  refine wp_pSat_starts he hs1 hst rfl (fun c1 hc1 hst1 => ?_) ?_ <;> bsimp
  rotate_left
  · exact e0
  refine wp_bind (wp_getn ?_)
  rw [show getnS 1 r1 = _ from Starts.getn (s := ['.']) hst]
  refine wp_bind (wp_readWhile ?_)
  have hr1 := hst.reads
  have hst2 : Starts [c1] (r1.drop 1) := by
    obtain ⟨x, r2, rfl, hx⟩ := headSym_ch hst1.1
    exact hst1.2
  have hm1 := spanS_many1 hst2 hc1
  have hr2 := spanS_reads isdigit (r1.drop 1)
  have hrr : Reads r (d ++ ['.'] ++ (spanS isdigit (r1.drop 1)).1) (spanS isdigit (r1.drop 1)).2 :=
    (hr.append hr1).append hr2
  simp only [List.length_cons, List.length_nil, Nat.zero_add]
  generalize (spanS isdigit (r1.drop 1)).1 = f at *
  generalize (spanS isdigit (r1.drop 1)).2 = r2 at *
  have hs2 := hrr.adv.suf hs
  have e1 : wp T env (mkTok .number (d ++ ['.'] ++ f) (posOf env r)) r2 (GetTok env r) (ErrOK env) := by
    refine wp_pure ⟨rfl, hrr, by simp, ?_⟩
    have := Number.float d f hm hm1
    simpa [Shape] using this
  have fin : ∀ e sgn c2, (e = 'e' ∨ e = 'E') → (sgn = [] ∨ sgn = ['+'] ∨ sgn = ['-']) →
      isdigit c2 = true → Starts (e :: (sgn ++ [c2])) r2 →
      wp T env (do let e ← getn 2; let u ← readDigit
                   mkTok .number (d ++ ['.'] ++ f ++ e ++ u) (posOf env r)) r2
        (GetTok env r) (ErrOK env) := by
    intro e sgn c2 h1 h2 h3 h4
    refine wp_bind (wp_getn (wp_bind (wp_readWhile (wp_pure ?_))))
    have hg : getnS 2 r2 = (e :: ((sgn ++ [c2]).take 1), r2.drop 2) ∧
        Starts ((sgn ++ [c2]).drop 1) (r2.drop 2) := by
      have h5 : Starts ((e :: (sgn ++ [c2])).take 2) r2 := by
        rcases h2 with rfl | rfl | rfl
        · exact h4
        · exact ⟨h4.1, h4.2.1, trivial⟩
        · exact ⟨h4.1, h4.2.1, trivial⟩
      have h6 := h5.getn
      have hl : ((e :: (sgn ++ [c2])).take 2).length = 2 := by
        rcases h2 with rfl | rfl | rfl <;> rfl
      rw [hl] at h6
      refine ⟨by simpa using h6, ?_⟩
      obtain ⟨x, r3, rfl, hx⟩ := headSym_ch h4.1
      rcases h2 with rfl | rfl | rfl
      · trivial
      · obtain ⟨y, r4, hy, hx⟩ := headSym_ch h4.2.1
        simp only [List.tail_cons] at hy
        subst hy
        exact h4.2.2
      · obtain ⟨y, r4, hy, hx⟩ := headSym_ch h4.2.1
        simp only [List.tail_cons] at hy
        subst hy
        exact h4.2.2
    have hg2 := getnS_reads 2 r2
    rw [hg.1] at hg2 ⊢
    have hd := spanS_all isdigit (r2.drop 2)
    have hrd := spanS_reads isdigit (r2.drop 2)
    refine ⟨rfl, (hrr.append hg2).append hrd, by simp, ?_⟩
    have := Number.exp d f (e :: ((sgn ++ [c2]).take 1) ++ (spanS isdigit (r2.drop 2)).1) hm hm1
      ⟨e, sgn, (spanS isdigit (r2.drop 2)).1 |> fun u => if sgn = [] then c2 :: u else u, h1, h2, ?_, ?_⟩
    · simpa [Shape] using this
    · rcases h2 with rfl | rfl | rfl
      · exact many1_append (a := []) h3 (by simp) hd
      · exact spanS_many1 hg.2 h3
      · exact spanS_many1 hg.2 h3
    · rcases h2 with rfl | rfl | rfl <;> simp
  have tail : ∀ e, (e = 'e' ∨ e = 'E') → Starts [e] r2 →
      wp T env (Prog.por (pSat 1 isdigit) (pand (por (pIs 1 '-') (pIs 1 '+')) (pSat 2 isdigit))) r2
      (fun x r' => if x = true then wp T env (do
            let e ← getn 2
            let u ← readDigit
            mkTok .number (d ++ ['.'] ++ f ++ e ++ u) (posOf env r)) r' (GetTok env r) (ErrOK env)
        else wp T env (mkTok .number (d ++ ['.'] ++ f) (posOf env r)) r' (GetTok env r) (ErrOK env))
      (ErrOK env) := by
    intro e h1 hst
    refine wp_por (wp_pSat_starts he hs2 hst rfl (fun c2 hc2 hst2 => ?_) ?_) <;> bsimp
    · exact fin e [] c2 h1 (Or.inl rfl) hc2 hst2
    refine wp_pand (wp_por (wp_pIs_starts he hs2 hst rfl (fun hst2 => ?_) ?_)) <;> bsimp
    · refine wp_pSat_starts he hs2 hst2 rfl (fun c2 hc2 hst3 => ?_) ?_ <;> bsimp
      · exact fin e ['-'] c2 h1 (Or.inr (Or.inr rfl)) hc2 hst3
      · exact e1
    · refine wp_pIs_starts he hs2 hst rfl (fun hst2 => ?_) ?_ <;> bsimp
      · refine wp_pSat_starts he hs2 hst2 rfl (fun c2 hc2 hst3 => ?_) ?_ <;> bsimp
        · exact fin e ['+'] c2 h1 (Or.inr (Or.inl rfl)) hc2 hst3
        · exact e1
      · exact e1
  refine wp_if_bool (wp_pand (wp_por (wp_pIs_starts he hs2 (Starts.nil r2) rfl (fun hst => ?_) ?_)))
    <;> bsimp
  · exact tail 'E' (Or.inr rfl) hst
  · refine wp_pIs_starts he hs2 (Starts.nil r2) rfl (fun hst => ?_) ?_ <;> bsimp
    · exact tail 'e' (Or.inl rfl) hst
    · exact e1

theorem isHexPair_spec {s : Str} (h : isHexPair s = true) :
    ∃ a b, s = [a, b] ∧ isxdigit a = true ∧ isxdigit b = true := by
  unfold isHexPair at h
  split at h
  · rename_i a b
    simp only [Bool.and_eq_true] at h
    exact ⟨a, b, rfl, h⟩
  · simp at h

theorem isDotHex_spec {s : Str} (h : isDotHex s = true) : ∃ b, s = ['.', b] ∧ isxdigit b = true := by
  unfold isDotHex at h
  split at h
  · rename_i a b
    simp only [Bool.and_eq_true, beq_iff_eq] at h
    obtain ⟨rfl, h⟩ := h
    exact ⟨b, rfl, h⟩
  · simp at h

theorem Starts.take {s t : Str} {r : List Cell} (h : Starts (s ++ t) r) : Starts s r := by
  induction s generalizing r with
  | nil => trivial
  | cons c s ih => exact ⟨h.1, ih h.2⟩

theorem readBlob_spec {r : List Cell} (hs : Suf env r) :
    wp T env readBlob r (fun v r' => Reads r v r' ∧ BlobBody v) (ErrOK env) := by
  unfold readBlob
  refine wp_loop (fun v r' => Reads r v r' ∧ BlobBody v) ⟨Reads.nil r, .nil⟩ ?_
  rintro v r1 ⟨h1, h2⟩
  refine wp_bind (wp_peekn ?_)
  have hrd := getnS_reads 2 r1
  apply wp_ite
  · intro hp
    obtain ⟨a, b, e, ha, hb⟩ := isHexPair_spec hp
    refine wp_bind (wp_getn (wp_pure ?_))
    rw [e] at hrd ⊢
    exact ⟨(hrd.sadv (by simp)).lt, h1.append hrd, .pair v a b h2 ha hb⟩
  intro _; apply wp_ite
  · intro hp
    obtain ⟨b, e, hb⟩ := isDotHex_spec hp
    rw [e] at hrd
    have hst : Starts ['.'] r1 := (Starts.of_reads hrd).take (t := [b])
    refine wp_bind (wp_getn (wp_pure ?_))
    rw [show getnS 1 r1 = _ from hst.getn]
    exact ⟨(hst.reads.sadv (by simp)).lt, h1.append hst.reads, .dot v h2⟩
  intro _; apply wp_ite
  · intro _
    exact wp_errHere (h1.adv.suf hs).posOf
  · intro _
    exact wp_pure ⟨h1, h2⟩

theorem wp_guard {b : Bool} {m : Prog Bool} {r : List Cell} {Q : Bool → List Cell → Prop}
    {F : Fail → Prop} (ht : b = true → wp T env m r Q F) (hf : Q false r) :
    wp T env (Prog.pand (pure b) m) r Q F := by
  refine wp_pand (wp_pure ?_)
  cases b with
  | true => exact ht rfl
  | false => exact hf

theorem wp_cond {α : Type} {m : Prog Bool} {a b : Prog α} {r : List Cell} {G : Prop}
    {Q : α → List Cell → Prop} {F : Fail → Prop}
    (h : wp T env m r (fun x r' => r' = r ∧ (x = true → G)) F)
    (ha : G → wp T env a r Q F) (hb : wp T env b r Q F) :
    wp T env (do if ← m then a else b) r Q F := by
  refine wp_bind (wp_mono h ?_)
  rintro x r' ⟨rfl, hx⟩
  cases x with
  | true => exact ha (hx rfl)
  | false => exact hb

theorem wp_false {r : List Cell} {G : Prop} : r = r ∧ (false = true → G) := ⟨rfl, by simp⟩

theorem get2_spec (he : EnvOK env) {r : List Cell} (hs : Suf env r)
    (hw : ∀ c, headSym r = .ch c → iswhite c = false) :
    wp T env get2 r (fun t r' =>
      (r = [] ∧ t = ⟨.eof, cs!"<EOF>", env.eof⟩ ∧ r' = []) ∨
      (∃ c, r = c :: r' ∧ c.c = none ∧ t = ⟨.eol, cs!"<EOL>", c.pos⟩) ∨
      GetTok env r t r') (ErrOK env) := by
  unfold get2
  refine wp_bind (wp_getpos (wp_bind (wp_peek ?_)))
  cases hh : headSym r with
  | eof =>
    have := headSym_eof hh
    subst this
    exact wp_pure (Or.inl ⟨rfl, rfl, rfl⟩)
  | eol =>
    obtain ⟨c, r', rfl, hc⟩ := headSym_eol hh
    exact wp_bind (wp_seekCur (by simp) (wp_pure (Or.inr (Or.inl ⟨c, rfl, hc, rfl⟩))))
  | ch c =>
    have h : Starts [c] r := ⟨hh, trivial⟩
    simp only [hw c hh]
    refine wp_mono (Q := GetTok env r) ?_ (fun t r' ht => Or.inr (Or.inr ht))
    have two : ∀ (a b : Char) (x y : Prog Token),
        (c = a → Starts [a, b] r → wp T env x r (GetTok env r) (ErrOK env)) →
        wp T env y r (GetTok env r) (ErrOK env) →
        wp T env (do if ← Prog.pand (pure (c == a)) (pIs 1 b) then x else y) r (GetTok env r)
          (ErrOK env) := by
      intro a b x y hx hy
      refine wp_if_bool (wp_guard (fun hc => ?_) hy)
      have hc' : c = a := by simpa using hc
      subst hc'
      refine wp_pIs_starts he hs h rfl (fun hst => ?_) ?_ <;> bsimp
      · exact hx rfl hst
      · exact hy
    have s9 := get2Punct_spec (T := T) he hs h
    have s8 := two '!' '~' (cmpTok .nomatch cs!"!~" (posOf env r)) _
      (fun _ h2 => cmpTok_spec (k := .nomatch) he hs h2) s9
    have s7 := two '=' '~' (cmpTok .match_ cs!"=~" (posOf env r)) _
      (fun _ h2 => cmpTok_spec (k := .match_) he hs h2) s8
    have s6 := two '<' '=' (cmpTok .sequal cs!"<=" (posOf env r)) _
      (fun _ h2 => cmpTok_spec (k := .sequal) he hs h2) s7
    have s5 := two '>' '=' (cmpTok .gequal cs!">=" (posOf env r)) _
      (fun _ h2 => cmpTok_spec (k := .gequal) he hs h2) s6
    have s4 := two '!' '=' (cmpTok .nequal cs!"!=" (posOf env r)) _
      (fun _ h2 => cmpTok_spec (k := .nequal) he hs h2) s5
    have s3 := two '=' '=' (cmpTok .equal cs!"==" (posOf env r)) _
      (fun _ h2 => cmpTok_spec (k := .equal) he hs h2) s4
    have s2 := two '&' '&' (advTok .andand cs!"&&" (posOf env r)) _
      (fun _ h2 => advTok_spec h2 (by simp) (by rfl)) s3
    have s1 := two '|' '|' (advTok .oror cs!"||" (posOf env r)) _
      (fun _ h2 => advTok_spec h2 (by simp) (by rfl)) s2
    have sName : iswordc1 c = true →
        wp T env (do let s ← readName; mkTok .identifier s (posOf env r)) r (GetTok env r)
          (ErrOK env) := by
      intro hc1
      have hn : isnamec c = true := by
        simp only [iswordc1, isnamec, iswordc, isalnum, Bool.or_eq_true] at hc1 ⊢
        rcases hc1 with h | h
        · simp [h]
        · simp [h]
      refine wp_bind (wp_readWhile (wp_pure ⟨rfl, spanS_reads _ r, (spanS_many1 h hn).1, ?_⟩))
      obtain ⟨d, r', rfl, hd⟩ := headSym_ch hh
      refine ⟨c, (spanS isnamec r').1, ?_, hc1, spanS_all _ r'⟩
      simp [spanS, hd, hn]
    -- the conditions of the chain, last first
    have t1 := wp_ite (c := iswordc1 c = true) sName (fun _ => s1)
    have chr : ∀ {a : Char} {P : Prop}, (c = a → P) → ((c == a) = true → P) := by
      intro a P h hc; exact h (by simpa using hc)
    have t2 := wp_cond (T := T) (env := env) (r := r) (F := ErrOK env) (Q := GetTok env r)
      (m := pand (pure (c == 'i')) (pand (pIs 1 's') (pand (pIs 2 'n') (pand (pIs 3 'o')
        (pand (pIs 4 't') (do return !(← pSat 5 iswordc)))))))
      (G := Starts (cmpText .isnot) r)
      (by
        refine wp_guard (chr fun hc => ?_) wp_false
        subst hc
        refine wp_pand (wp_pIs_starts he hs h rfl (fun h => ?_) ?_) <;> bsimp
        · refine wp_pand (wp_pIs_starts he hs h rfl (fun h => ?_) ?_) <;> bsimp
          · refine wp_pand (wp_pIs_starts he hs h rfl (fun h => ?_) ?_) <;> bsimp
            · refine wp_pand (wp_pIs_starts he hs h rfl (fun h => ?_) ?_) <;> bsimp
              · exact wp_not (wp_pSat_starts he hs h rfl (fun _ _ _ => ⟨rfl, fun _ => h⟩)
                  ⟨rfl, fun _ => h⟩)
              · exact ⟨trivial, nofun⟩
            · exact ⟨trivial, nofun⟩
          · exact ⟨trivial, nofun⟩
        · exact ⟨trivial, nofun⟩)
      (fun h => cmpTok_spec (k := .isnot) he hs h) t1
    have t3 := wp_cond (T := T) (env := env) (r := r) (F := ErrOK env) (Q := GetTok env r)
      (m := pand (pure (c == 'i')) (pand (pIs 1 's') (do return !(← pSat 2 iswordc))))
      (G := Starts (cmpText .is_) r)
      (by
        refine wp_guard (chr fun hc => ?_) wp_false
        subst hc
        refine wp_pand (wp_pIs_starts he hs h rfl (fun h => ?_) ?_) <;> bsimp
        · exact wp_not (wp_pSat_starts he hs h rfl (fun _ _ _ => ⟨rfl, fun _ => h⟩)
            ⟨rfl, fun _ => h⟩)
        · exact ⟨trivial, nofun⟩)
      (fun h => cmpTok_spec (k := .is_) he hs h) t2
    have t4 := wp_ite (c := isdigit c = true) (fun hd => get2Number_spec (T := T) he hs h hd)
      (fun _ => t3)
    have t5 := wp_cond (T := T) (env := env) (r := r) (F := ErrOK env) (Q := GetTok env r)
      (m := pand (pure (c == '0'))
        (pand (Prog.por (pIs 1 'Z') (pIs 1 'z')) (do return !(← pIs 2 '.'))))
      (a := do let s ← getn 2; let t ← readBlob; mkTok .blob (s ++ t) (posOf env r))
      (G := ∃ z, (z = 'z' ∨ z = 'Z') ∧ Starts ['0', z] r)
      (by
        refine wp_guard (chr fun hc => ?_) wp_false
        subst hc
        refine wp_pand (wp_por (wp_pIs_starts he hs h rfl (fun h => ?_) ?_)) <;> bsimp
        · exact wp_not (wp_pIs_starts he hs h rfl (fun _ => ⟨rfl, fun _ => ⟨_, Or.inr rfl, h⟩⟩)
            ⟨rfl, fun _ => ⟨_, Or.inr rfl, h⟩⟩)
        · refine wp_pIs_starts he hs h rfl (fun h => ?_) ?_ <;> bsimp
          · exact wp_not (wp_pIs_starts he hs h rfl (fun _ => ⟨rfl, fun _ => ⟨_, Or.inl rfl, h⟩⟩)
              ⟨rfl, fun _ => ⟨_, Or.inl rfl, h⟩⟩)
          · exact ⟨trivial, nofun⟩)
      (by
        rintro ⟨z, hz, h⟩
        refine wp_bind (wp_getn ?_)
        rw [show getnS 2 r = _ from h.getn]
        refine wp_call (readBlob_spec (h.reads.adv.suf hs)) ?_
        rintro v r' ⟨hr, hb⟩
        exact wp_pure ⟨rfl, h.reads.append hr, by simp, z, v, hz, hb, rfl⟩) t4
    have t6 := wp_cond (T := T) (env := env) (r := r) (F := ErrOK env) (Q := GetTok env r)
      (m := pand (pure (c == '0'))
        (pand (Prog.por (pIs 1 'B') (pIs 1 'b')) (Prog.por (pIs 2 '0') (pIs 2 '1'))))
      (a := do let s ← getn 3; let t ← readBdigit; mkTok .number (s ++ t) (posOf env r))
      (G := ∃ x d, (x = 'b' ∨ x = 'B') ∧ (d = '0' ∨ d = '1') ∧ Starts ['0', x, d] r)
      (by
        refine wp_guard (chr fun hc => ?_) wp_false
        subst hc
        have tl : ∀ x, (x = 'b' ∨ x = 'B') → Starts ['0', x] r →
            wp T env (Prog.por (pIs 2 '0') (pIs 2 '1')) r (fun y r' => r' = r ∧ (y = true →
              ∃ x d, (x = 'b' ∨ x = 'B') ∧ (d = '0' ∨ d = '1') ∧ Starts ['0', x, d] r)) (ErrOK env) := by
          intro x hx h
          refine wp_por (wp_pIs_starts he hs h rfl (fun h => ?_) ?_) <;> bsimp
          · exact ⟨trivial, fun _ => ⟨x, '0', hx, Or.inl rfl, h⟩⟩
          · refine wp_pIs_starts he hs h rfl (fun h => ⟨rfl, fun _ => ?_⟩) wp_false
            exact ⟨x, '1', hx, Or.inr rfl, h⟩
        refine wp_pand (wp_por (wp_pIs_starts he hs h rfl (fun h => ?_) ?_)) <;> bsimp
        · exact tl _ (Or.inr rfl) h
        · refine wp_pIs_starts he hs h rfl (fun h => ?_) ?_ <;> bsimp
          · exact tl _ (Or.inl rfl) h
          · exact ⟨trivial, nofun⟩)
      (by
        rintro ⟨x, d, hx, hd, h⟩
        refine wp_bind (wp_getn ?_)
        rw [show getnS 3 r = _ from h.getn]
        refine wp_spanTok h.reads (by simp) fun t ht => ?_
        refine .bin x (d :: t) hx (many1_append (a := []) ?_ (by simp) ht)
        rcases hd with rfl | rfl <;> rfl) t5
    have t7 := wp_cond (T := T) (env := env) (r := r) (F := ErrOK env) (Q := GetTok env r)
      (m := pand (pure (c == '0'))
        (pand (Prog.por (pIs 1 'X') (pIs 1 'x')) (pSat 2 isxdigit)))
      (a := do let s ← getn 3; let t ← readXdigit; mkTok .number (s ++ t) (posOf env r))
      (G := ∃ x d, (x = 'x' ∨ x = 'X') ∧ isxdigit d = true ∧ Starts ['0', x, d] r)
      (by
        refine wp_guard (chr fun hc => ?_) wp_false
        subst hc
        refine wp_pand (wp_por (wp_pIs_starts he hs h rfl (fun h => ?_) ?_)) <;> bsimp
        · refine wp_pSat_starts he hs h rfl (fun d hd h => ⟨rfl, fun _ => ?_⟩) wp_false
          exact ⟨_, d, Or.inr rfl, hd, h⟩
        · refine wp_pIs_starts he hs h rfl (fun h => ?_) ?_ <;> bsimp
          · refine wp_pSat_starts he hs h rfl (fun d hd h => ⟨rfl, fun _ => ?_⟩) wp_false
            exact ⟨_, d, Or.inl rfl, hd, h⟩
          · exact ⟨trivial, nofun⟩)
      (by
        rintro ⟨x, d, hx, hd, h⟩
        refine wp_bind (wp_getn ?_)
        rw [show getnS 3 r = _ from h.getn]
        refine wp_spanTok h.reads (by simp) fun t ht => ?_
        exact .hex x (d :: t) hx (many1_append (a := []) hd (by simp) ht)) t6
    exact t7

theorem tok_spec (he : EnvOK env) {r : List Cell} (hs : Suf env r) :
    wp T env getUncached r (TokAt env r) (ErrOK env) := by
  unfold getUncached
  refine wp_bind (wp_skipWhite ?_)
  have hr := spanS_reads iswhite r
  have ha := spanS_all iswhite r
  have hst := spanS_stop iswhite r
  refine wp_mono (get2_spec he (hr.adv.suf hs) hst) ?_
  generalize (spanS iswhite r).1 = w at *
  generalize (spanS iswhite r).2 = r1 at *
  rintro t r' (⟨rfl, rfl, rfl⟩ | ⟨c, rfl, hc, rfl⟩ | ⟨h1, h2, h3, h4⟩)
  · exact .eof w r hr ha
  · exact .eol w r c r' hr ha hc
  · cases t with
    | mk ty v q =>
      simp only at h1 h2 h3 h4
      subst h1
      refine .text w r r1 ty v r' hr ha h2 h3 h4 ?_
      intro c hc
      apply hst
      obtain ⟨p, rfl, hp⟩ := h2
      cases v with
      | nil => simp at hc
      | cons d v =>
        cases p with
        | nil => simp at hp
        | cons x p =>
          simp only [List.map_cons, List.cons.injEq] at hp
          simp only [List.head?_cons, Option.some.injEq] at hc
          subst hc
          simp [headSym, Cell.sym, hp.1]

/-- Every token read has the shape described by `TokAt`. -/
theorem tokGet_at (he : EnvOK env) {r : List Cell} (hs : Suf env r) {t : Token} {r' : List Cell}
    (h : tokGet env r = .ok t r') : TokAt env r t r' :=
  wp_run (tok_spec he hs) h

/-- Token errors carry a position of the input; the tokenizer never crashes. -/
theorem tokGet_err (he : EnvOK env) {r : List Cell} (hs : Suf env r) {e : Fail}
    (h : tokGet env r = .fail e) : ErrOK env e :=
  wp_runF (tok_spec he hs) h

/-! ### Consequences used by the parser -/

theorem TokAt.suffix {r : List Cell} {t : Token} {r' : List Cell} (h : TokAt env r t r') :
    r' <:+ r := by
  cases h with
  | eof w r h1 h2 => exact h1.adv.suffix
  | eol w r c r' h1 h2 h3 => exact (List.suffix_cons c r').trans h1.adv.suffix
  | text w r r1 ty v r' h1 h2 h3 h4 h5 => exact h3.adv.suffix.trans h1.adv.suffix

theorem TokAt.suf {r : List Cell} {t : Token} {r' : List Cell} (h : TokAt env r t r')
    (hs : Suf env r) : Suf env r' := hs.of_suffix h.suffix

theorem TokAt.posOK {r : List Cell} {t : Token} {r' : List Cell} (h : TokAt env r t r')
    (hs : Suf env r) : PosOK env t.pos := by
  cases h with
  | eof w r h1 h2 => exact Or.inr rfl
  | eol w r c r' h1 h2 h3 => exact (h1.adv.suf hs).posOf
  | text w r r1 ty v r' h1 h2 h3 h4 h5 => exact (h1.adv.suf hs).posOf

theorem TokAt.sadv {r : List Cell} {t : Token} {r' : List Cell} (h : TokAt env r t r')
    (h1 : t.ty ≠ .eof) (h2 : t.ty ≠ .eol) : SAdv r r' := by
  cases h with
  | eof w r => exact absurd rfl h1
  | eol w r c r' => exact absurd rfl h2
  | text w r r1 ty v r' k1 k2 k3 k4 k5 => exact k1.adv.trans_sadv (k3.sadv k4)

theorem TokAt.shape {r : List Cell} {t : Token} {r' : List Cell} (h : TokAt env r t r')
    (h1 : t.ty ≠ .eof) (h2 : t.ty ≠ .eol) : Shape t.ty t.value := by
  cases h with
  | eof w r => exact absurd rfl h1
  | eol w r c r' => exact absurd rfl h2
  | text w r r1 ty v r' h1 h2 h3 h4 h5 => exact h5

/-- The text of the token is what stands at its position. -/
theorem TokAt.at_pos {r : List Cell} {t : Token} {r' : List Cell} (h : TokAt env r t r')
    (h1 : t.ty ≠ .eof) (h2 : t.ty ≠ .eol) :
    ∃ w r1, Reads r w r1 ∧ (∀ c ∈ w, iswhite c = true) ∧ t.pos = posOf env r1 ∧
      Reads r1 t.value r' ∧ t.value ≠ [] := by
  cases h with
  | eof w r => exact absurd rfl h1
  | eol w r c r' => exact absurd rfl h2
  | text w r r1 ty v r' k1 k2 k3 k4 k5 => exact ⟨w, r1, k1, k2, rfl, k3, k4⟩

theorem wp_tok {α : Type} {k : Token → Prog α} {Q : α → List Cell → Prop}
    (he : EnvOK env) {r : List Cell} (hs : Suf env r)
    (h : ∀ t r', tokGet env r = .ok t r' → TokAt env r t r' → Suf env r' →
      wp tokGet env (k t) r' Q (ErrOK env)) :
    wp tokGet env (tokget >>= k) r Q (ErrOK env) := by
  show wp tokGet env (.tok _) r Q _
  unfold wp
  simp only [Prog.runWith]
  cases ht : tokGet env r with
  | ok t r' =>
    have ha := tokGet_at he hs ht
    exact h t r' ht ha (ha.suf hs)
  | fail e => exact tokGet_err he hs ht

theorem wp_tokpeek {α : Type} {k : Token → Prog α} {Q : α → List Cell → Prop}
    (he : EnvOK env) {r : List Cell} (hs : Suf env r)
    (h : ∀ t r', tokGet env r = .ok t r' → TokAt env r t r' →
      wp tokGet env (k t) r Q (ErrOK env)) :
    wp tokGet env (tokpeek >>= k) r Q (ErrOK env) := by
  refine wp_bind ?_
  unfold tokpeek
  refine wp_bind (wp_tell (wp_tok he hs ?_))
  intro t r' ht ha _
  exact wp_bind (wp_seekSet (wp_pure (h t r' ht ha)))

end

end Viml
