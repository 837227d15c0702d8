/-
Expressions inside larger ones: the text of one line, cut in two.
-/
import Verif.Spec.Phrase
import Verif.Lemmas.Hang
import Verif.Lemmas.Input
import Verif.Lemmas.GramApi

namespace Viml
open Spec

/-- The position in the first line behind the text `u`. -/
def posn (u : Str) : Pos := ⟨u.length, 1, bytes u + 1, bytes u⟩

/-- What the reader has left behind the text `u` of the line `u ++ v`, if it is the only one. -/
def lineAt : Str → Str → List Cell
  | u, [] => [⟨none, posn u⟩]
  | u, c :: v => ⟨some c, posn u⟩ :: lineAt (u ++ [c]) v

theorem cut_ne (u v : Str) : lineAt u v ≠ [] := by cases v <;> simp [lineAt]

theorem posOf_cut (env : Env) (u v : Str) : posOf env (lineAt u v) = posn u := by cases v <;> rfl

theorem runeLen_bytes (c : Char) : runeLen c = bytes [c] := by
  rw [← bytesLen_eq]; simp [bytesLen]

theorem cut_cells : ∀ (v u : Str), lineAt u v = reindex u.length (lineCells 1 (bytes u) (bytes u) v ++
    buildRest [] 0 (bytes (u ++ v)) (bytes (u ++ v)))
  | [], u => by simp [lineAt, posn, lineCells, buildRest, reindex]
  | c :: v, u => by
    rw [lineAt, cut_cells v (u ++ [c])]
    simp [lineCells, reindex, posn, bytes_append, runeLen_bytes]

theorem cut_buf (l : Str) : (mkEnv [l]).buf = lineAt [] l := by
  rw [cut_cells]
  simp [mkEnv, buildCells, bytesLen_eq, bytes]

theorem cut_reads : ∀ (v u w : Str), Reads (lineAt u (v ++ w)) v (lineAt (u ++ v) w)
  | [], u, w => by simpa using ⟨[], rfl, rfl⟩
  | c :: v, u, w => by
    obtain ⟨p, h1, h2⟩ := cut_reads v (u ++ [c]) w
    refine ⟨⟨some c, posn u⟩ :: p, ?_, by simp [h2]⟩
    simp only [List.cons_append, lineAt, h1, List.append_assoc, List.nil_append]

theorem head_cut (u v : Str) : headSym (lineAt u v) = match v with | [] => .eol | c :: _ => .ch c := by
  cases v <;> rfl

theorem pub_cut (env : Env) (fn u v : Str) : pubPos fn (posOf env (lineAt u v)) = posAt fn (bytes u) := by
  rw [posOf_cut]; rfl

/-- A place of the text of one line is where its text is. -/
theorem reads_cut {u l v : Str} {r' : List Cell} (h : Reads (lineAt u l) v r') : ∃ l', l = v ++ l' ∧ r' = lineAt (u ++ v) l' := by
  induction v generalizing u l with
  | nil => cases h.nil_inv; exact ⟨l, rfl, by simp⟩
  | cons c v ih =>
    obtain ⟨q, r1, e, h1⟩ := h.cons_inv
    cases l with
    | nil => cases e
    | cons d l =>
      cases e
      obtain ⟨l', rfl, e⟩ := ih h1
      exact ⟨l', rfl, by rw [e]; simp⟩

section
variable {env : Env} {fn : Str}

/-- One token of the text. -/
theorem mark_cut {u w v b : Str} {ty : TT} (hw : ∀ c ∈ w, iswhite c = true) (h : Lexeme ty v (lineAt (u ++ w ++ v) b)) :
    Lex env (lineAt u (w ++ v ++ b)) ⟨ty, v, posn (u ++ w)⟩ (lineAt (u ++ w ++ v) b) := by
  have h1 := cut_reads w u (v ++ b)
  have h2 := cut_reads v (u ++ w) b
  rw [show posn (u ++ w) = posOf env (lineAt (u ++ w) (v ++ b)) from (posOf_cut _ _ _).symm, List.append_assoc]
  exact .text w _ _ ty v _ h1 hw h2 h

theorem pub_posn (fn u : Str) : pubPos fn (posn u) = posAt fn (bytes u) := rfl

/-- A phrase that is followed by a bracket or so. -/
structure HangOK (env : Env) (l u b : Str) : Prop where
  head : b = [] ∨ Plain l ∧ ∃ c ∈ closers, ∃ b', b = c :: b'
  tok : ∃ t t', Lex env (lineAt u b) t t' ∧ Closing t.ty

/-- The place of the line `l` behind `a` in the line `a ++ l ++ b`. -/
def hang (env : Env) (fn a l b : Str) (t : Token) (t' : List Cell) (hh : headSym (lineAt (a ++ l) b) = .eol ∨
    ∃ c ∈ closers, headSym (lineAt (a ++ l) b) = .ch c) (ht : Lex env (lineAt (a ++ l) b) t t') (hc : Closing t.ty) :
    Hang (mkEnv [l]) env [] fn where
  e0 := ⟨none, posn l⟩
  q0 := []
  q := lineAt (a ++ l) b
  f c := ⟨c.c, ⟨c.pos.i + a.length, c.pos.lnum, c.pos.col + bytes a, c.pos.offset + bytes a⟩⟩
  m := moveTo fn (bytes a)
  t := t
  t' := t'
  nl := rfl
  char _ := rfl
  pos _ := rfl
  pend := by
    rw [pub_cut]
    simp [posAt, moveTo, pubPos, posn, bytes_append]
    omega
  head_q := hh.imp id fun ⟨c, h1, h2⟩ => ⟨c, List.mem_cons_of_mem _ (List.mem_cons_of_mem _ h1), h2⟩
  tok := ht
  closing := hc

theorem hang_tr {a l b : Str} {t : Token} {t' : List Cell} (hh ht hc) : ∀ (v u : Str), u ++ v = l →
    (hang env fn a l b t t' hh ht hc).tr (lineAt u v) = lineAt (a ++ u) (v ++ b)
  | [], u, h => by
    subst h
    simp [Hang.tr, hang, lineAt]
  | c :: v, u, h => by
    have ih := hang_tr hh ht hc v (u ++ [c]) (by simpa using h)
    have hl : (lineAt (u ++ [c]) v).length = v.length + 1 := by
      have : ∀ (v u : Str), (lineAt u v).length = v.length + 1 := by
        intro v
        induction v with
        | nil => intro u; rfl
        | cons c v ih => intro u; simp [lineAt, ih]
      exact this v _
    unfold Hang.tr at ih ⊢
    simp only [lineAt, List.length_cons, hl, List.cons_append] at ih ⊢
    simp only [hang, List.length_nil] at ih ⊢
    rw [show v.length + 1 + 1 - (0 + 1) = (v.length + 1 - (0 + 1)) + 1 by omega]
    simp only [List.take_succ_cons, List.map_cons, List.cons_append, ih]
    simp [posn, bytes_append]
    omega

theorem hang_in {a l b : Str} {t : Token} {t' : List Cell} (hh ht hc) (hp : b = [] ∨ Plain l) : ∀ (v u : Str), u ++ v = l →
    (hang env fn a l b t t' hh ht hc).In (lineAt u v)
  | [], u, h => by
    have e : u = l := by simpa using h
    rw [e]
    exact .stop
  | c :: v, u, h => by
    refine .cons (x := c) rfl ?_ (hang_in hh ht hc hp v (u ++ [c]) (by simpa using h))
    rcases hp with rfl | ⟨h1, h2⟩
    · left; rfl
    right
    refine ⟨?_, ?_⟩
    · refine fun e => ⟨?_, fun e1 => ?_⟩
      · rintro rfl
        cases v with
        | nil =>
          apply h1
          rw [← h]
          simp
        | cons d v => cases e
      · rcases hh with e2 | ⟨d, hd, e2⟩
        · cases e1.symm.trans e2
        · cases e1.symm.trans e2
          exact absurd hd (by decide)
    · rintro rfl t ht
      obtain ⟨l', e, e2⟩ := reads_cut ht
      have : l' = [] := by
        cases l' with
        | nil => rfl
        | cons => injection e2 with e3; cases e3
      rw [this, List.append_nil] at e
      exact h2 u t (by rw [← h, e])

/-- A phrase inside a line. -/
theorem Spec.Phrase.inside {l : Str} {e : Ast.Expr} (h : Phrase l e) {u a b : Str} (hu : u = a ++ l) (ha : HangOK env l u b) :
    ∃ w u', a ++ l = u' ++ w ∧ (∀ c ∈ w, iswhite c = true) ∧
      Gram env fn 1 (lineAt a (l ++ b)) (e.onPos (moveTo fn (bytes a))) (lineAt u' (w ++ b)) := by
  subst hu
  obtain ⟨r', w, c, h1, h2, h3, h4⟩ := h
  obtain ⟨hd, t, t', ht, hc⟩ := ha
  have hh : headSym (lineAt (a ++ l) b) = .eol ∨ ∃ c ∈ closers, headSym (lineAt (a ++ l) b) = .ch c := by
    rcases hd with rfl | ⟨_, c, hc, b', rfl⟩
    · exact .inl rfl
    · exact .inr ⟨c, hc, rfl⟩
  rw [cut_buf] at h1
  obtain ⟨i, h5⟩ := Hang.gram (κ := hang env fn a l b t t' hh ht hc) h1
    (hang_in hh ht hc (hd.imp id (·.1)) l [] rfl)
  rw [hang_tr hh ht hc l [] rfl, List.append_nil] at h5
  have hs : r' <:+ lineAt [] l := leaves_gram h1
  have hr : ∀ (l u : Str) (r : List Cell), r <:+ lineAt u l → r ≠ [] → ∃ v l', l = v ++ l' ∧ r = lineAt (u ++ v) l' := by
    intro l
    induction l with
    | nil =>
      intro u r h hr
      rcases List.suffix_cons_iff.1 h with rfl | h
      · exact ⟨[], [], rfl, by simp [lineAt]⟩
      · exact absurd (List.suffix_nil.1 h) hr
    | cons c l ih =>
      intro u r h hr
      rcases List.suffix_cons_iff.1 h with rfl | h
      · exact ⟨[], c :: l, rfl, by simp [lineAt]⟩
      · obtain ⟨v, l', rfl, rfl⟩ := ih _ _ h hr
        exact ⟨c :: v, l', rfl, by simp⟩
  have hne : r' ≠ [] := by
    rintro rfl
    obtain ⟨p, e, _⟩ := h2
    simp at e
  obtain ⟨v, l', rfl, rfl⟩ := hr l [] r' hs hne
  rw [List.nil_append] at *
  rw [hang_tr hh ht hc l' v rfl] at h5
  obtain ⟨l'', e, e2⟩ := reads_cut h2
  cases l'' with
  | cons => simp [lineAt] at e2; exact absurd e2.2 (cut_ne _ _)
  | nil =>
    have hl : l' = w := by simpa using e
    subst hl
    exact ⟨l', a ++ v, by simp, h3, h5⟩

/-- A phrase and the token behind it. -/
theorem Spec.Phrase.mark {l : Str} {e : Ast.Expr} (h : Phrase l e) {a b w v : Str} {ty : TT} (hw : ∀ c ∈ w, iswhite c = true)
    (hp : Plain l) (hc : ∃ c ∈ closers, ∃ b', w ++ v = c :: b')
    (ht : Lexeme ty v (lineAt (a ++ l ++ w ++ v) b)) (hty : Closing ty) :
    ∃ r', Gram env fn 1 (lineAt a (l ++ (w ++ v ++ b))) (e.onPos (moveTo fn (bytes a))) r' ∧
      Mark env fn r' ty (posAt fn (bytes (a ++ l ++ w))) (lineAt (a ++ l ++ w ++ v) b) := by
  obtain ⟨c, hc, b', e0⟩ := hc
  have hl : Lex env (lineAt (a ++ l) (w ++ v ++ b)) ⟨ty, v, posn (a ++ l ++ w)⟩ (lineAt (a ++ l ++ w ++ v) b) := mark_cut hw ht
  obtain ⟨w', u', e1, hw', hg⟩ := h.inside (env := env) (fn := fn) (a := a) (b := w ++ v ++ b) rfl
    ⟨.inr ⟨hp, c, hc, b' ++ b, by rw [e0]; rfl⟩, _, _, hl, hty⟩
  refine ⟨_, hg, ⟨ty, v, posn (a ++ l ++ w)⟩, ?_, rfl, rfl⟩
  have := mark_cut (env := env) (u := u') (w := w' ++ w) (v := v) (b := b) (ty := ty)
    (fun c hc => (List.mem_append.1 hc).elim (hw' c) (hw c))
    (by rw [← List.append_assoc, ← e1]; exact ht)
  rw [← List.append_assoc u' w' w, ← e1] at this
  simpa using this

/-- A phrase up to the end of the line. -/
theorem Spec.Phrase.last {l : Str} {e : Ast.Expr} (h : Phrase l e) (a : Str) :
    ∃ r' w, Gram env fn 1 (lineAt a l) (e.onPos (moveTo fn (bytes a))) r' ∧ Reads r' w (lineAt (a ++ l) []) ∧
      ∀ c ∈ w, iswhite c = true := by
  obtain ⟨w', u', e1, hw', hg⟩ := h.inside (env := env) (fn := fn) (a := a) (b := []) rfl
    ⟨.inl rfl, _, _, .eol [] _ _ [] ⟨[], rfl, rfl⟩ (by simp) rfl, by simp [Closing]⟩
  have hr := cut_reads w' u' []
  rw [← e1] at hr
  rw [List.append_nil] at hr hg
  rw [List.append_nil] at hg
  exact ⟨_, w', hg, hr, hw'⟩

end

end Viml
