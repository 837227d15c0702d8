/-
A modifier before the first command of a line (`ModifyMid.lean`).
-/
import Verif.Lemmas.ModifyMid
import Verif.Lemmas.RespellAt

namespace Viml
open Spec

theorem modifiers_min : ∀ p ∈ vimModifiers, 2 ≤ p.2 := by decide

/-- The first character of a modifier. -/
theorem modText_head {x w : Str} {m : Modifier} (h : ModText x w m) :
    ∃ c v, w = c :: v ∧ (isalpha c = true ∨ isdigit c = true) := by
  have key : ∀ {d b k : Str} {n : Nat} (u : Str) {name : Str}, (∀ c ∈ d, isdigit c = true) → (d = [] → b = []) →
      (∀ c ∈ k, isalpha c = true) → (name, n) ∈ vimModifiers → n ≤ k.length →
      ∃ c v, d ++ b ++ k ++ u = c :: v ∧ (isalpha c = true ∨ isdigit c = true) := by
    intro d b k n u name h1 h2 h3 h4 h5
    have := modifiers_min _ h4
    cases d with
    | cons c d => exact ⟨c, _, rfl, .inr (h1 c (by simp))⟩
    | nil =>
      rw [h2 rfl]
      cases k with
      | nil => exact absurd (Nat.le_trans this h5) (by simp)
      | cons c k => exact ⟨c, _, rfl, .inl (h3 c (by simp))⟩
  cases h with
  | plain h1 h2 h3 h4 h5 h6 h7 h8 h9 => exact key _ h1 h3 h4 h5 h7
  | @bang k b' h1 h2 h3 h4 =>
    have := key (d := []) (b := []) (k := k) (n := 3) (name := cs!"silent") (cs!"!" ++ b') (by simp) (fun _ => rfl) h1
      (by decide) h3
    rw [List.append_assoc]
    exact this

theorem alnum_not {c : Char} (h : isalpha c = true ∨ isdigit c = true) :
    iswhite c = false ∧ c ≠ ':' ∧ c ≠ '"' ∧ c ≠ '#' ∧ c ≠ '\\' ∧ isSpaceRe c = false := by
  refine ⟨?_, ?_, ?_, ?_, ?_, ?_⟩
  · cases e : iswhite c with
    | false => rfl
    | true =>
      have : c = ' ' ∨ c = '\t' := by simpa [iswhite] using e
      rcases this with rfl | rfl <;> revert h <;> decide
  · rintro rfl; revert h; decide
  · rintro rfl; revert h; decide
  · rintro rfl; revert h; decide
  · rintro rfl; revert h; decide
  · cases e : isSpaceRe c with
    | false => rfl
    | true =>
      simp only [isSpaceRe, Bool.or_eq_true, beq_iff_eq] at e
      rcases e with ((((rfl | rfl) | rfl) | rfl) | rfl) <;> revert h <;> decide

theorem begin_spans {c : Char} {r : List Cell} (hh : headSym r = .ch c) (h1 : iswhite c = false) (h2 : c ≠ ':') (h3 : c ≠ '"') :
    SkipC r r ∧ Skip r r ∧ ¬ AtEnd r ∧ headSym r ≠ .ch '"' := by
  refine ⟨⟨[], Reads.nil _, by simp, by rw [hh]; simp [Sym.is, h1, h2]⟩, ⟨[], Reads.nil _, by simp, by rw [hh]; simp [Sym.is, h1]⟩,
    by simp [AtEnd, hh], by rw [hh]; simpa using h3⟩

/-- A modifier at `r` is one in the line there. -/
theorem modWord_of {r r' : List Cell} {x : Str} {m : Modifier} (hx : LineIs r x) (h : ModAt r m r') :
    ∃ t r2, ModWord x m.name t ∧ LineIs r2 t ∧ ∃ w b, Reads r2 (w ++ b) r' ∧ White w ∧ (m.name ≠ cs!"silent" → b = []) ∧ ∃ v, Reads r v r2 := by
  obtain @⟨d, b, k, b', e, name, n, bang, count, r1, r2, r3, _, h1, h2, h3, h4, h5, h6, h7, h8, h9, h10,
    h11, h12, h13, h14, h15, h16⟩ := h
  have h0 := h1.append h5
  obtain ⟨t, ht⟩ := lineIs_total r2
  have : x = d ++ b ++ k ++ t := by
    rw [lineIs_iff.1 hx, h0.line, lineIs_iff.1 ht]
  refine ⟨t, r2, ⟨d, b, k, n, this, h2, h3, h4, h6, (stopsAt_iff ht).2 h7, h8, h9, h10⟩, ht, b', e, h11.append h14, h12, ?_⟩
  refine ⟨?_, _, h0⟩
  intro hn
  rcases h15 with ⟨h15, _⟩ | ⟨_, _, h15⟩
  · exact absurd h15 hn
  · exact h15

/-- Blanks before a range. -/
theorem range_blank {t r : List Cell} {b : Str} (hb : White b) (h : Reads t b r) : SameRange t r := by
  have sk : ∀ {r0}, Skip r r0 → Skip t r0 := by
    rintro r0 ⟨v, h1, h2, h3⟩
    refine ⟨b ++ v, h.append h1, ?_, h3⟩
    intro c hc
    rcases List.mem_append.1 hc with hc | hc
    · exact hb c hc
    · exact h2 c hc
  have ad : ∀ {ts r1}, Addresses r ts r1 → Addresses t ts r1 := by
    intro ts r1 h
    cases h with
    | eol h h1 => exact .eol (sk h) h1
    | quote h h1 h2 => exact .quote (sk h) h1 h2
    | one h h1 h2 h3 h4 h5 => exact .one (sk h) h1 h2 h3 h4 h5
    | more h h1 h2 h3 h4 h5 => exact .more (sk h) h1 h2 h3 h4 h5
  refine ⟨?_, ?_⟩
  · intro rg r2 h
    cases h with
    | last h h1 h2 h3 => exact .last (ad h) h1 h2 h3
    | more h h1 h2 h3 h4 => exact .more (ad h) h1 h2 h3 h4
  · intro env m q h
    cases h with
    | first h =>
      cases h with
      | first h h1 => exact .first (.first (sk h) h1)
      | more h h1 h2 h3 h4 h5 => exact .first (.more (sk h) h1 h2 h3 h4 h5)
    | more h h1 h2 h3 h4 => exact .more (ad h) h1 h2 h3 h4

theorem noMod_blank {t r : List Cell} {c : Char} {b : Str} (hc : iswhite c = true) (h : Reads t (c :: b) r) {m : Modifier}
    {r' : List Cell} : ¬ ModAt t m r' := by
  have hh := reads_head h
  have ha : isalpha c = false ∧ isdigit c = false := by
    have : c = ' ' ∨ c = '\t' := by simpa [iswhite] using hc
    rcases this with rfl | rfl <;> decide
  intro hm
  obtain @⟨d, _, k, _, _, name, n, bang, count, r1, r2, r3, _, h1, h2, h3, h4, h5, h6, h7, h8, h9, h10, _⟩ := hm
  · cases d with
    | cons z d =>
      have := reads_head h1
      rw [hh] at this
      cases this
      have := h2 _ (List.mem_cons_self ..)
      rw [ha.2] at this
      cases this
    | nil =>
      rw [h4 rfl] at h1
      cases h1.nil_inv
      cases k with
      | nil => exact absurd (Nat.le_trans (modifiers_min _ h8) h10) (by simp)
      | cons z k =>
        have := reads_head h5
        rw [hh] at this
        cases this
        have := h6 _ (List.mem_cons_self ..)
        rw [ha.1] at this
        cases this

theorem modif_of {s r : List Cell} {x w : Str} {m : Modifier} {c : Char} (hx : LineIs r x) (ht : Reads s w r)
    (hm : ModText x w m) (hh : headSym r = .ch c) (h1 : iswhite c = false) (h2 : c ≠ ':') (h3 : c ≠ '"')
    (hd : ¬ Dropped x) (hs : ¬ StartsWith r cs!"#!") : Modif m w s r := by
  obtain ⟨y, v, e, hy⟩ := modText_head hm
  have hhs : headSym s = .ch y := reads_head (e ▸ ht)
  have hy := alnum_not hy
  obtain ⟨sp, _, ne, nq⟩ := begin_spans hhs hy.1 hy.2.1 hy.2.2.1
  obtain ⟨sp', _, ne', nq'⟩ := begin_spans hh h1 h2 h3
  have hw : (headSym r).is iswhite = false := by rw [hh]; exact h1
  refine ⟨ht, ?_, hs, sp, sp', ne, ne', nq, nq', ?_, ?_, ?_, ?_⟩
  · rintro ⟨r', h⟩
    have := reads_head h
    rw [hhs] at this
    cases this
    exact hy.2.2.2.1 rfl
  · intro n hn
    cases List.mem_singleton.1 hn
    cases hm with
    | plain _ _ _ _ _ _ _ _ _ _ _ h => exact h
    | bang => intro c h; cases h
  · intro ms r1 h
    cases hm with
    | @plain d b k b' name n bang count g1 g2 g3 g4 g5 g6 g7 g8 g9 g10 g11 g12 =>
      obtain ⟨s2, k1, k2⟩ := ht.split
      obtain ⟨s1, k3, k4⟩ := k1.split
      have hb : ∃ z, iswhite z = true ∧ headSym s2 = .ch z := by
        cases b' with
        | nil => exact absurd rfl g9
        | cons z b' => exact ⟨z, g8 z (by simp), reads_head k2⟩
      obtain ⟨z, hz, hh2⟩ := hb
      have hz' : isalpha z = false ∧ z ≠ '!' := by
        have : z = ' ' ∨ z = '\t' := by simpa [iswhite] using hz
        rcases this with rfl | rfl <;> decide
      refine ⟨r1, .cons (.mk k3 g1 g2 g3 k4 g4 (by rw [hh2]; exact hz'.1) g5 g6 g7 k2 g8 hw (Reads.nil _) ?_ g11) ?_ h, .refl _⟩
      · rw [g10]
        by_cases hn : name = cs!"silent"
        · exact .inl ⟨hn, .inr ⟨if_pos hn, rfl, by rw [hh2]; simpa using hz'.2⟩⟩
        · exact .inr ⟨hn, if_neg hn, rfl⟩
      · rintro ⟨_, _, v, c, h4, h5⟩
        have e := h4.det ht
        have : c ∈ b' := by
          rcases List.eq_nil_or_concat b' with e' | ⟨b0, c', rfl⟩
          · exact absurd e' g9
          · rw [List.concat_eq_append, ← List.append_assoc] at e
            have := List.append_inj_right' e rfl
            cases this
            simp
        rw [g8 c this] at h5
        cases h5
    | @bang k b' g1 g2 g3 g4 g5 =>
      obtain ⟨t, k1, k2⟩ := ht.split
      obtain ⟨s2, k3, k4⟩ := k1.split
      have hh2 := reads_head k4
      have hr : ∀ m r', ¬ ModAt r m r' := fun m r' h => by
        obtain ⟨t, _, h, _⟩ := modWord_of hx h
        exact g5 _ _ h
      obtain ⟨rfl, rfl⟩ := h.unique (.nil hr)
      have hn : ∀ m r', ¬ ModAt t m r' := by
        cases b' with
        | nil =>
          cases k2.nil_inv
          exact hr
        | cons z b' => exact fun _ _ => noMod_blank (g4 z (by simp)) k2
      refine ⟨t, .cons (.mk (d := []) (w := []) (w' := []) (Reads.nil _) (by simp) (by simp) (fun _ => rfl) k3 g1
        (by rw [hh2]; decide) (by decide : (cs!"silent", 3) ∈ vimModifiers) g2 g3 (Reads.nil _) (by simp) (by rw [hh2]; decide) k4
        (.inl ⟨rfl, .inl ⟨rfl, rfl, rfl⟩⟩) rfl) ?_ (.nil hn), range_blank g4 k2⟩
      rintro ⟨h4, _⟩
      obtain ⟨e, _⟩ := h4.unique (.mk (d := []) (w := []) (w' := []) (Reads.nil _) (by simp) (by simp) (fun _ => rfl) k3 g1
        (by rw [hh2]; decide) (by decide : (cs!"silent", 3) ∈ vimModifiers) g2 g3 (Reads.nil _) (by simp) (by rw [hh2]; decide) k4
        (.inl ⟨rfl, .inl ⟨rfl, rfl, rfl⟩⟩) rfl)
      injection e with e
      exact absurd e (by decide)
  · intro r1 h
    obtain ⟨g1, g2, z, c, g3, g4⟩ := h
    obtain ⟨t, r2, k1, k2, w', b, k3, k4, k5, v', k6⟩ := modWord_of hx g1
    rw [k5 (by decide), List.append_nil] at k3
    refine hd (.inl ⟨t, k1, ?_⟩)
    have e : w' = [] := by
      rcases List.eq_nil_or_concat w' with e' | ⟨b0, c', rfl⟩
      · exact e'
      · have e := g3.det (k6.append k3)
        rw [List.concat_eq_append, ← List.append_assoc] at e
        cases List.append_inj_right' e rfl
        rw [k4 c (by simp)] at g4
        cases g4
    subst e
    cases k3.nil_inv
    cases t with
    | nil => exact .inl rfl
    | cons y t =>
      obtain ⟨_, k2, _⟩ := k2
      have := reads_head k2
      rcases g2 with g2 | g2 | g2
      · simp [AtEnd, this] at g2
      · rw [this] at g2
        cases g2
        exact .inr (.inl rfl)
      · rw [this] at g2
        cases g2
        exact .inr (.inr rfl)
  · intro r1 h h'
    apply hd
    refine .inr ?_
    rw [lineIs_iff.1 hx, h.line, ← lineIs_iff.1 ⟨r1, Reads.nil _, h'⟩]
    rfl

variable {nv : Bool} {fn : Str} {A B : List Str} {l w x : Str} {m : Modifier}

theorem modText_noCont (h : ModText x w m) : afterBackslash (w ++ l) = none := by
  obtain ⟨c, v, rfl, hc⟩ := modText_head h
  have hc := alnum_not hc
  have : isCont (c :: v ++ l) = false := by simp [isCont, hc.2.2.2.2.1, hc.2.2.2.2.2]
  rw [isCont_iff] at this
  simpa using this

theorem modified (hA : Between nv fn A) (hl : afterBackslash l = none) (hs : ¬ Shebang l B) (hb : Begins l)
    (hx : (logicalLines (l :: B)).head? = some x) (hm : ModText x w m) (hd : ¬ Dropped x) :
    ∃ ι : Modifies nv (A ++ l :: B) (mkEnv (A ++ (w ++ l) :: B)) fn, ι.κ.m = indentBy A w l B ∧
      ι.μ.mp = indentPos A w l B ∧ ι.κ.q0 = restB A (l :: B) ∧ ι.mo = m ∧ ι.w = w ∧
      ι.p = ⟨(fileBytes A).length + bytes w, A.length + 1, 1 + bytes w, fn⟩ ∧
      ι.q = ⟨(fileBytes A).length, A.length + 1, 1, fn⟩ ∧ Modif m w ι.κ.q (ι.μ.tr ι.κ.q0) := by
  have hw := modText_noCont (l := l) hm
  have hB := noCont_cons (B := B) hl
  have w0 : w ≠ [] := by
    obtain ⟨c, v, rfl, _⟩ := modText_head hm
    simp
  obtain ⟨c, v, e0, b1, b2, b3⟩ := hb
  obtain ⟨cx, b, used, hf⟩ := between_front hA hB
  let μ := indentMover fn A hw hl (B := B)
  let κ : Carry (mkEnv (A ++ l :: B)) (mkEnv (A ++ (w ++ l) :: B)) fn :=
    { q0 := restB A (l :: B), q := wAt A w l B ++ (restB A (l :: B)).map (indentCell A w l B),
      f := indentCell A w l B, m := indentBy A w l B, bd := False, char := fun _ => rfl,
      pos := fun c => pub_indent c.pos, eof := False.elim }
  have e1 : μ.tr κ.q0 = (restB A (l :: B)).map (indentCell A w l B) := Mover.map ..
  have e2 : ∃ d r, restB A (l :: B) = d :: r ∧ d.c = some c ∧ d.pos = nameAt A := by
    have e2 := restB_ind (A := A) (B := B) [c] v
    have e3 := name_first (A := A) (B := B) (s := v) (t' := [c]) (by simp) ((restB A (v :: B)).map (indentCell A [c] v B)) (mkEnv A)
    have e4 := wAt_text (A := A) (w := [c]) (l := v) (B := B)
    rw [e0, show c :: v = [c] ++ v from rfl, e2]
    cases e : wAt A [c] v B with
    | nil => rw [e] at e4; cases e4
    | cons d r =>
      rw [e] at e3 e4
      injection e4 with e4
      exact ⟨d, _, rfl, e4, e3⟩
  obtain ⟨d, r, e2, e3, e4⟩ := e2
  have ha : Modif m w κ.q (μ.tr κ.q0) := by
    rw [e1]
    refine modif_of (c := c) (x := x) ?_ ⟨_, rfl, wAt_text⟩ hm ?_ b1 b2 b3 hd ?_
    · rw [restB, List.map_map]
      exact line_of (fun _ => rfl) hx
    · rw [e2]
      simp [headSym, Cell.sym, indentCell, e3]
    · intro h
      rw [restB, List.map_map] at h
      exact hs (shebang_of (f := indentCell A w l B ∘ moveCell A (l :: B) (mkEnv A).buf.length) (fun _ => rfl) h)
  refine ⟨⟨⟨κ, id, restB_ne (by simp), to_restB κ hB rfl, ?_⟩, μ, rfl, m, w, ha, cx, b, used, hf⟩,
    rfl, rfl, rfl, rfl, rfl, ?_, ?_, ha⟩
  · rw [indent_all hw, mkEnv_append hB]
    show List.map _ (List.take _ _) ++ κ.q = _
    have e : List.take (((mkEnv A).buf ++ List.map (moveCell A (l :: B) (mkEnv A).buf.length) (mkEnv (l :: B)).buf).length - κ.q0.length)
        ((mkEnv A).buf ++ List.map (moveCell A (l :: B) (mkEnv A).buf.length) (mkEnv (l :: B)).buf) = (mkEnv A).buf := by
      show List.take (_ - (restB A (l :: B)).length) _ = _
      simp [restB]
    rw [e]
    congr 1
    exact (List.map_congr_left (g := id) fun c hc => indent_before hc).trans (List.map_id _)
  · show pubPos fn (posOf _ (μ.tr κ.q0)) = _
    rw [e1, e2]
    show pubPos fn (indentPos A w l B d.pos) = _
    rw [pub_indent, e4]
    simp [pubPos, nameAt, indentBy]
    intro h
    omega
  · show pubPos fn (posOf _ κ.q) = _
    rw [name_first w0]
    rfl

end Viml
