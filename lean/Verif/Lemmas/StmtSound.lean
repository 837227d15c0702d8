/-
Soundness of the command parser: every function of `Model/VimLParser.lean` meets its specification.
-/
import Verif.Lemmas.StmtSteps

namespace Viml
open Prog Spec

section
variable {env : Env} {P : Nat → ERel} {T : Env → List Cell → Res Token}

/-! ### Positions of expressions -/

/-- Extra facts about parsed expressions: a real position and, for identifiers, a non-empty name. -/
def PosRel (env : Env) : Nat → ERel := fun _ _ e _ =>
  PosOK env e.pos ∧ ∀ q v, e = .atom q .identifier v → v ≠ []

theorem atomTok_ident {ty : TT} (h : atomTok ty = some .identifier) : False := by
  unfold atomTok at h; split at h <;> simp at h

theorem atomTok_ne {ty : TT} {a : AtomTy} (h : atomTok ty = some a) : a ≠ .identifier := by
  rintro rfl; exact atomTok_ident h

theorem identNode_pos (q : Pos) (ps : List VExpr) : (identNode q ps).pos = q := by
  unfold identNode; split <;> rfl

theorem Tk.posOK (he : EnvOK env) {r : List Cell} (hs : Suf env r) {ty : TT} {t : Token}
    {r' : List Cell} (h : Tk env r ty t r') : PosOK env t.pos := (h.at he hs).posOK hs

theorem parts_name_ne {Q : ERel} {r : List Cell} {ps : List VExpr} {r' : List Cell}
    (h : IdParts env Q r ps r') {q : Pos} {v : Str} (hp : ps = [.atom q .curlynamepart v]) :
    v ≠ [] := by
  cases h with
  | plain _ h =>
    cases h with
    | nil => simp at hp
    | name hh _ =>
      simp only [List.cons.injEq, VExpr.atom.injEq] at hp
      obtain ⟨c, hc, hf⟩ := Sym.is_ch hh
      rw [← hp.1.2.2]
      exact (spanS_many1 ⟨hc, trivial⟩ hf).1
    | expr => simp at hp
  | sid hh _ h =>
    simp only [List.cons.injEq, VExpr.atom.injEq] at hp
    obtain ⟨c, r', rfl, hc⟩ := headSym_ch hh
    rw [← hp.1.2.2]
    simp [getnS, hc]

theorem posRel_closed (he : EnvOK env) : Closed env (PosRel env) where
  up := fun _ h => h.p
  atom := fun hs ht ha => ⟨ht.posOK he hs, fun q v e => by
    simp only [VExpr.atom.injEq] at e; exact absurd e.2.1 (atomTok_ne ha)⟩
  dstring := fun hs h1 _ _ _ => ⟨(h1.adv.suf hs).posOf, by simp⟩
  sstring := fun hs h1 _ _ _ _ => ⟨(h1.adv.suf hs).posOf, by simp⟩
  list := fun hs ht _ => ⟨ht.posOK he hs, by simp⟩
  paren := fun hs ht _ _ => ⟨ht.posOK he hs, by simp⟩
  dict := fun hs ht _ => ⟨ht.posOK he hs, by simp⟩
  litdict := fun hs ht _ => ⟨ht.posOK he hs, by simp⟩
  lambda := fun hs ht _ _ _ => ⟨ht.elim (·.posOK he hs) (·.posOK he hs), by simp⟩
  ident := fun {r w r1 ps r'} hs h1 _ hp _ _ => by
    refine ⟨identNode_pos _ ps ▸ (h1.adv.suf hs).posOf, ?_⟩
    intro q v e
    unfold identNode at e
    split at e
    · simp only [VExpr.atom.injEq] at e
      exact e.2.2 ▸ parts_name_ne hp rfl
    · simp at e
  subscript := fun h1 _ ht _ _ => ⟨ht.posOK he h1.suf', by simp⟩
  slice := fun h1 _ ht _ _ _ _ => ⟨ht.posOK he h1.suf', by simp⟩
  method := fun h1 ht h2 ht' _ _ => ⟨ht'.posOK he h2.suf', by simp⟩
  call := fun h1 ht _ _ => ⟨ht.posOK he h1.suf', by simp⟩
  dot := fun h1 _ ht _ _ _ => ⟨ht.posOK he h1.suf', by simp⟩
  unary := fun hs ht _ _ => ⟨ht.posOK he hs, by simp⟩
  binary := fun _ h1 ht _ => ⟨ht.posOK he h1.suf', by simp⟩
  compare := fun _ h1 ht _ => ⟨ht.posOK he h1.suf', by simp⟩
  ternary := fun h1 ht _ _ _ => ⟨ht.posOK he h1.suf', by simp⟩

/-! ### Rules for the command parser -/

/-- Facts about a parsed expression. -/
structure Ex (env : Env) (P : Nat → ERel) (k : Nat) (r : List Cell) (e : VExpr) (r' : List Cell) : Prop
    where
  der : Der env P k r e r'
  pos : PosOK env e.pos
  name : ∀ q v, e = .atom q .identifier v → v ≠ []

theorem expr_spec (he : EnvOK env) (hP : Closed env P) {r : List Cell} (hs : Suf env r) :
    wp tokGet env parseExpr1 r (Ex env P 1 r) (SErr env) :=
  wp_monoF (wp_and (parseExpr1_spec he hP hs) (parseExpr1_spec he (posRel_closed he) hs))
    (fun _ _ h => ⟨h.1, h.2.p.1, h.2.p.2⟩) (fun _ h => .of _ h.1)

theorem lv_spec (he : EnvOK env) (hP : Closed env P) {r : List Cell} (hs : Suf env r) :
    wp tokGet env lv8 r (Ex env P 8 r) (SErr env) :=
  wp_monoF (wp_and (lv8_spec he hP hs) (lv8_spec he (posRel_closed he) hs))
    (fun _ _ h => ⟨h.1, h.2.p.1, h.2.p.2⟩) (fun _ h => .of _ h.1)

theorem Der.one (hP : Closed env P) {k : Nat} (hk : 1 ≤ k) {r : List Cell} {e : VExpr}
    {r' : List Cell} (h : Der env P k r e r') : Der env P 1 r e r' := by
  induction k with
  | zero => omega
  | succ k ih =>
    cases k with
    | zero => exact h
    | succ k => exact ih (by omega) (h.up hP (by omega))

theorem Ex.derE (hP : Closed env P) {k : Nat} (hk : 1 ≤ k) {r : List Cell} {e : VExpr}
    {r' : List Cell} (h : Ex env P k r e r') : DerE env P e := ⟨r, r', h.der.one hP hk⟩

theorem wp_tokS {α : Type} {k : Token → Prog α} {Q : α → List Cell → Prop}
    (he : EnvOK env) {r : List Cell} (hs : Suf env r)
    (h : ∀ t r', tokGet env r = .ok t r' → TokAt env r t r' → Suf env r' →
      wp tokGet env (k t) r' Q (SErr env)) :
    wp tokGet env (tokget >>= k) r Q (SErr env) := by
  show wp tokGet env (.tok _) r Q _
  unfold wp
  simp only [Prog.runWith]
  cases ht : tokGet env r with
  | ok t r' => exact h t r' ht (tokGet_at he hs ht) ((tokGet_at he hs ht).suf hs)
  | fail e => exact .of _ (tokGet_err he hs ht)

theorem wp_tokpeekS {α : Type} {k : Token → Prog α} {Q : α → List Cell → Prop}
    (he : EnvOK env) {r : List Cell} (hs : Suf env r)
    (h : ∀ t r', tokGet env r = .ok t r' → TokAt env r t r' →
      wp tokGet env (k t) r Q (SErr env)) :
    wp tokGet env (tokpeek >>= k) r Q (SErr env) := by
  refine wp_bind ?_
  unfold tokpeek
  refine wp_bind (wp_tell (wp_tokS he hs fun t r' ht ha hs' => ?_))
  exact wp_bind (wp_seekSet (wp_pure (h t r' ht ha)))

theorem err_pos {r : List Cell} (hs : Suf env r) {m : Str} : SErr env (.err m (posOf env r)) := hs.posOf

theorem Suf.adv {r r' : List Cell} (hs : Suf env r) (h : Adv r r') : Suf env r' := h.suf hs

/-- The text between two places of a line. -/
theorem getstr_reads (he : EnvOK env) {r0 r1 : List Cell} (hs : Suf env r0) (ha : Adv r0 r1) :
    Reads r0 (cellsText ((env.buf.drop (posOf env r0).i).take
      ((posOf env r1).i - (posOf env r0).i))) r1 := by
  have h0 := hs.index he
  have h1 := (ha.suf hs).index he
  rw [hs.drop_pos he]
  obtain ⟨p, rfl, hp⟩ := ha
  rw [List.length_append] at h0
  have : (posOf env r1).i - (posOf env (p ++ r1)).i = p.length := by omega
  rw [this, List.take_left']
  · refine ⟨p, rfl, ?_⟩
    clear h0 h1 this hs
    induction p with
    | nil => rfl
    | cons c p ih =>
      simp only [cellsText, List.map_cons, List.mem_cons, forall_eq_or_imp] at hp ⊢
      cases hc : c.c with
      | none => exact absurd hc hp.1
      | some ch =>
        simp only [Option.getD_some, List.cons.injEq, true_and]
        exact ih hp.2
  · rfl

/-- At the end of its line the reader is at a line end or at the end of the input. -/
theorem getline_end (r : List Cell) : AtEnd (spanS (fun _ => true) r).2 := by
  have := spanS_stop (fun _ => true) r
  unfold AtEnd
  cases h : headSym (spanS (fun _ => true) r).2 with
  | ch c => exact absurd (this c h) (by simp)
  | eol => exact Or.inl rfl
  | eof => exact Or.inr rfl

/-- A state with a rest of the input left keeps one on the same line. -/
theorem Adv.ne_nil (he : EnvOK env) {r r' : List Cell} (hs : Suf env r) (hr : r ≠ []) (h : Adv r r') :
    r' ≠ [] := by
  rintro rfl
  obtain ⟨p, rfl, hp⟩ := h
  rcases hs.last he with h | ⟨init, q, h⟩
  · exact hr h
  · rw [List.append_nil] at h
    exact hp ⟨none, q⟩ (by rw [h]; simp) rfl

/-! ### Modifiers and ranges -/

theorem str2nr_spec {r r0 : List Cell} {d : Str} {r1 : List Cell} (hs : Suf env r0) (hd : Reads r0 d r1)
    (hm : Many1 isdigit d) {Q : Nat → List Cell → Prop} (h : Q (decVal d) r) :
    wp T env (str2nr d) r Q (SErr env) := by
  unfold str2nr
  refine wp_ite (fun _ => wp_pure h) (fun hn => wp_fail ⟨r0, d, r1, hs, hd, hm, ?_⟩)
  exact Nat.not_lt.1 hn

/-- What `peekn(1)` returns. -/
theorem peek1 (r : List Cell) :
    (∃ c, headSym r = .ch c ∧ getnS 1 r = ([c], r.tail)) ∨ (AtEnd r ∧ getnS 1 r = ([], r)) := by
  cases r with
  | nil => exact Or.inr ⟨Or.inr rfl, rfl⟩
  | cons c r =>
    cases hc : c.c with
    | none => exact Or.inr ⟨Or.inl (by simp [headSym, Cell.sym, hc]), by simp [getnS, hc]⟩
    | some ch => exact Or.inl ⟨ch, by simp [headSym, Cell.sym, hc], by simp [getnS, hc]⟩

theorem peek1_eq {r : List Cell} {c : Char} (h : (getnS 1 r).1 = [c]) : headSym r = .ch c := by
  rcases peek1 r with ⟨d, h1, h2⟩ | ⟨_, h2⟩
  · rw [h2] at h
    simp only [List.cons.injEq, and_true] at h
    rw [h1, h]
  · rw [h2] at h; simp at h

theorem peek1_nil {r : List Cell} (h : (getnS 1 r).1 = []) : AtEnd r := by
  rcases peek1 r with ⟨d, h1, h2⟩ | ⟨h1, h2⟩
  · rw [h2] at h; simp at h
  · exact h1

theorem peek1_is {r : List Cell} {f : Char → Bool} : is1 f (getnS 1 r).1 = (headSym r).is f := by
  rcases peek1 r with ⟨d, h1, h2⟩ | ⟨h1, h2⟩
  · rw [h2, h1]; rfl
  · rw [h2]
    rcases h1 with h1 | h1 <;> rw [h1] <;> rfl

theorem peek1_ends (r : List Cell) : endsStr (getnS 1 r).1 = endsSym (headSym r) := by
  rcases peek1 r with ⟨d, h1, h2⟩ | ⟨h1, h2⟩
  · rw [h2, h1]; rfl
  · rw [h2]
    rcases h1 with h1 | h1 <;> rw [h1] <;> rfl

theorem Spec.Reads.split {a b : List Cell} {v w : Str} (h : Reads a (v ++ w) b) :
    ∃ c, Reads a v c ∧ Reads c w b := by
  induction v generalizing a with
  | nil => exact ⟨a, Reads.nil a, h⟩
  | cons x v ih =>
    obtain ⟨p, rfl, hp⟩ := h
    cases p with
    | nil => simp at hp
    | cons y p =>
      simp only [List.map_cons, List.cons_append, List.cons.injEq] at hp
      obtain ⟨c, h1, h2⟩ := ih (a := p ++ b) ⟨p, rfl, hp.2⟩
      exact ⟨c, Reads.cons hp.1 h1, h2⟩

theorem Spec.Reads.head {r r' : List Cell} {c : Char} {s : Str} (h : Reads r (c :: s) r') :
    headSym r = .ch c := (Starts.of_reads h).1

theorem Spec.Reads.unnil {r r' : List Cell} (h : Reads r [] r') : r' = r := by
  obtain ⟨p, rfl, hp⟩ := h
  simp only [List.map_nil, List.map_eq_nil_iff] at hp
  subst hp; rfl

/-- A span is determined by its text and what follows. -/
theorem spanS_of_reads {f : Char → Bool} {r r' : List Cell} {v : Str} (h : Reads r v r')
    (hv : ∀ c ∈ v, f c = true) (hstop : (headSym r').is f = false) : spanS f r = (v, r') := by
  induction v generalizing r with
  | nil =>
    have := h.unnil
    subst this
    cases r' with
    | nil => rfl
    | cons c r =>
      cases hc : c.c with
      | none => simp [spanS, hc]
      | some ch =>
        simp only [headSym, Cell.sym, hc, Sym.is] at hstop
        simp [spanS, hc, hstop]
  | cons x v ih =>
    obtain ⟨p, rfl, hp⟩ := h
    cases p with
    | nil => simp at hp
    | cons y p =>
      simp only [List.map_cons, List.cons.injEq] at hp
      have := ih (r := p ++ r') ⟨p, rfl, hp.2⟩ (fun c hc => hv c (by simp [hc]))
      rw [List.cons_append]
      simp only [spanS, hp.1, hv x (by simp), if_true, this]

theorem spanS_stop_is (f : Char → Bool) (r : List Cell) : (headSym (spanS f r).2).is f = false := by
  cases h : headSym (spanS f r).2 with
  | ch c => exact spanS_stop f r c h
  | eol => rfl
  | eof => rfl

theorem white_not_digit {c : Char} (h : iswhite c = true) : isdigit c = false := by
  simp only [iswhite, Bool.or_eq_true, beq_iff_eq] at h
  rcases h with rfl | rfl <;> decide

theorem alpha_not_digit {c : Char} (h : isalpha c = true) : isdigit c = false := by
  simp only [isalpha, isUpperC, isLowerC, isdigit, Bool.or_eq_true, Bool.and_eq_true,
    decide_eq_true_eq, Bool.and_eq_false_iff, decide_eq_false_iff_not] at h ⊢
  omega

theorem alpha_not_white {c : Char} (h : isalpha c = true) : iswhite c = false := by
  cases hw : iswhite c with
  | false => rfl
  | true =>
    simp only [iswhite, Bool.or_eq_true, beq_iff_eq] at hw
    rcases hw with rfl | rfl <;> exact absurd h (by decide)

/-- Where the name of a modifier may start: after an optional count. -/
def modStart (r : List Cell) : List Cell :=
  if (headSym r).is isdigit = true then (spanS iswhite (spanS isdigit r).2).2 else r

theorem findModifier_some {k name : Str} (h : findModifier k = some name) :
    ∃ m, (name, m) ∈ modifierTable ∧ k <+: name ∧ m ≤ k.length := by
  unfold findModifier at h
  rw [Option.map_eq_some_iff] at h
  obtain ⟨⟨n, m⟩, h1, h2⟩ := h
  simp only at h2
  subst h2
  have h3 := List.find?_some h1
  simp only [Bool.and_eq_true, decide_eq_true_eq, List.isPrefixOf_iff_prefix] at h3
  exact ⟨m, List.mem_of_find?_eq_some h1, h3.1, h3.2⟩

theorem modifierTable_sub : ∀ x ∈ modifierTable, x ∈ vimModifiers := by decide

theorem vimModifiers_sub : ∀ x ∈ vimModifiers, x ∈ modifierTable := by decide

theorem endsSym_iff {r : List Cell} : endsSym (headSym r) = true ↔ AtStop r := by
  unfold AtStop AtEnd
  cases headSym r <;> simp [endsSym]

theorem modifierTable_min : ∀ x ∈ modifierTable, 2 ≤ x.2 := by decide

theorem modifierTable_unique : ∀ x ∈ modifierTable, ∀ y ∈ modifierTable,
    x.1.take (max x.2 y.2) = y.1.take (max x.2 y.2) → x.1 = y.1 := by decide +kernel

/-- An abbreviation stands for one modifier only. -/
theorem modifier_unique {n n' k : Str} {m m' : Nat} (h1 : (n, m) ∈ modifierTable)
    (h2 : (n', m') ∈ modifierTable) (h3 : k <+: n) (h4 : k <+: n') (h5 : m ≤ k.length)
    (h6 : m' ≤ k.length) : n = n' := by
  refine modifierTable_unique _ h1 _ h2 ?_
  obtain ⟨a, rfl⟩ := h3
  obtain ⟨b, rfl⟩ := h4
  have : max m m' ≤ k.length := Nat.max_le.2 ⟨h5, h6⟩
  simp only
  rw [List.take_append_of_le_length this, List.take_append_of_le_length this]

theorem modAt_start {r : List Cell} {m : Modifier} {r' : List Cell} (h : ModAt r m r') :
    findModifier (spanS isalpha (modStart r)).1 = some m.name := by
  obtain @⟨d, w, k, w', b, name, m, bang, count, r1, r2, r3, _, h1, h2, h3, h4, h5, h6, h7, h8, h9, h10,
    _⟩ := h
  replace h8 := vimModifiers_sub _ h8
  have hk : k ≠ [] := by
    rintro rfl
    have := modifierTable_min _ h8
    simp at h10 this; omega
  obtain ⟨c, k', rfl⟩ := List.exists_cons_of_ne_nil hk
  have hc := h6 c (by simp)
  obtain ⟨x, hd, hw⟩ := h1.split
  have hms : modStart r = r1 := by
    unfold modStart
    cases d with
    | nil =>
      have := h4 rfl; subst this
      have e1 := hd.unnil; subst e1
      have e2 := hw.unnil; subst e2
      rw [h5.head]
      simp [Sym.is, alpha_not_digit hc]
    | cons y d =>
      rw [hd.head]
      have : spanS isdigit r = (y :: d, x) := by
        refine spanS_of_reads hd h2 ?_
        cases w with
        | nil =>
          have e2 := hw.unnil; subst e2
          rw [h5.head]; exact alpha_not_digit hc
        | cons z w => rw [hw.head]; exact white_not_digit (h3 z (by simp))
      rw [if_pos (show (Sym.ch y).is isdigit = true from h2 y (by simp)), this]
      have : spanS iswhite x = (w, r1) := by
        refine spanS_of_reads hw h3 ?_
        rw [h5.head]; exact alpha_not_white hc
      rw [this]
  rw [hms, spanS_of_reads h5 h6 h7]
  cases hf : findModifier (c :: k') with
  | none =>
    unfold findModifier at hf
    simp only [Option.map_eq_none_iff] at hf
    rw [List.find?_eq_none] at hf
    have := hf _ h8
    simp only [Bool.and_eq_true, decide_eq_true_eq, List.isPrefixOf_iff_prefix] at this
    exact absurd ⟨h9, h10⟩ this
  | some name' =>
    obtain ⟨m', ht', hp', hm'⟩ := findModifier_some hf
    rw [modifier_unique ht' h8 hp' h9 hm' h10]

theorem isalpha_bang : isalpha '!' = false := by decide

theorem parseModifiers_spec {r : List Cell} (hs : Suf env r) :
    wp T env parseModifiers r (fun ms r' => Mods r ms r' ∧ Adv r r') (SErr env) := by
  unfold parseModifiers
  refine wp_loop (fun ms r1 => Adv r r1 ∧ ∀ ms' r', Mods r1 ms' r' → Mods r (ms ++ ms') r')
    ⟨Adv.refl r, fun _ _ h => h⟩ ?_
  rintro ms r1 ⟨h1, h2⟩
  refine wp_bind (wp_tell (wp_bind (wp_peekn ?_)))
  wp_join (fun d x => ∃ w, Reads r1 (d ++ w) x ∧ (∀ c ∈ d, isdigit c = true) ∧
    (∀ c ∈ w, iswhite c = true) ∧ (d = [] → w = []) ∧ x = modStart r1)
  · intro jp hjp
    rw [peek1_is]
    refine wp_ite (fun hc => ?_) (fun hc => ?_)
    · refine wp_bind (wp_readWhile (wp_bind (wp_skipWhite (wp_bind (wp_pure ?_)))))
      refine hjp _ _ ⟨(spanS iswhite (spanS isdigit r1).2).1, ?_, spanS_all _ _, spanS_all _ _, ?_, ?_⟩
      · exact (spanS_reads _ _).append (spanS_reads _ _)
      · intro hd
        obtain ⟨c, h, hf⟩ := Sym.is_ch hc
        exact absurd hd (spanS_many1 ⟨h, trivial⟩ hf).1
      · unfold modStart; rw [if_pos hc]
    · refine wp_bind (wp_pure (hjp _ _ ⟨[], Reads.nil _, by simp, by simp, by simp, ?_⟩))
      unfold modStart; rw [if_neg hc]
  · rintro d x ⟨w, hr, hd, hw, hdw, hx⟩
    refine wp_bind (wp_readWhile (wp_bind (wp_peekn (wp_bind (wp_skipWhite ?_)))))
    have hk := spanS_reads isalpha x
    have hka := spanS_all isalpha x
    have hks := spanS_stop_is isalpha x
    cases hf : findModifier (spanS isalpha x).1 with
    | none =>
      refine wp_bind (wp_seekSet (wp_pure ⟨?_, h1⟩))
      have := h2 [] r1 (.nil ?_)
      · rwa [List.append_nil] at this
      · intro m r' hm
        have := modAt_start hm
        rw [← hx, hf] at this
        simp at this
    | some name =>
      obtain ⟨m, ht, hp, hm⟩ := findModifier_some hf
      have hw2 := spanS_reads iswhite (spanS isalpha x).2
      have hw2a := spanS_all iswhite (spanS isalpha x).2
      have hw2s := spanS_stop_is iswhite (spanS isalpha x).2
      generalize hkk : (spanS isalpha x).1 = k at *
      generalize (spanS isalpha x).2 = r2 at *
      generalize hw' : (spanS iswhite r2).1 = w' at *
      generalize hr3 : (spanS iswhite r2).2 = r3 at *
      have hkne : k ≠ [] := by
        rintro rfl
        have := modifierTable_min _ ht
        simp at hm this; omega
      have hadv : SAdv r1 r3 := hr.adv.trans_sadv ((hk.sadv hkne).trans_adv hw2.adv)
      have mk : ∀ bang count b r', Reads r3 b r' →
          (name = cs!"silent" ∧ (bang = some 1 ∧ w' = [] ∧ b = cs!"!" ∨
            bang = some 0 ∧ b = [] ∧ ¬ headSym r2 = .ch '!') ∨
            name ≠ cs!"silent" ∧ bang = none ∧ b = []) →
          (count = if name = cs!"tab" then (if d = [] then none else some (decVal d))
            else if name = cs!"verbose" then (if d = [] then some 1 else some (decVal d)) else none) →
          ModAt r1 ⟨name, bang, count⟩ r' := fun bang count b r' hb h3 h4 =>
        ModAt.mk hr hd hw hdw hk hka hks (modifierTable_sub _ ht) hp hm hw2 hw2a hw2s hb h3 h4
      -- continue with the modifier `mo`, ending at `r'`
      have next : ∀ mo r', Adv r3 r' → ModAt r1 mo r' → ¬ BareHide r1 r' →
          r'.length < r1.length ∧ Adv r r' ∧
            ∀ ms' r'', Mods r' ms' r'' → Mods r (ms ++ [mo] ++ ms') r'' := by
        intro mo r' ha hmo hne
        refine ⟨(hadv.trans_adv ha).lt, h1.trans (hadv.trans_adv ha).1, ?_⟩
        intro ms' r'' hms
        rw [List.append_assoc]
        exact h2 _ _ (.cons hmo hne hms)
      have nohide : name ≠ cs!"hide" → ∀ r', ¬ BareHide r1 r' := by
        intro hne r' hb
        have := modAt_start hb.1
        rw [← hx, hkk, hf] at this
        exact hne (Option.some.inj this)
      have plain : name ≠ cs!"hide" → name ≠ cs!"silent" → ∀ count,
          (count = if name = cs!"tab" then (if d = [] then none else some (decVal d))
            else if name = cs!"verbose" then (if d = [] then some 1 else some (decVal d)) else none) →
          r3.length < r1.length ∧ Adv r r3 ∧
            ∀ ms' r'', Mods r3 ms' r'' → Mods r (ms ++ [⟨name, none, count⟩] ++ ms') r'' :=
        fun hh hsl count hc => next _ _ (Adv.refl _)
          (mk none count [] r3 (Reads.nil _) (Or.inr ⟨hsl, rfl, rfl⟩) hc) (nohide hh _)
      have hdd : d ≠ [] → ∃ x1, Reads r1 d x1 ∧ Many1 isdigit d := fun h =>
        ⟨_, hr.split.choose_spec.1, h, hd⟩
      refine wp_ite (fun hn => ?_) (fun hh => ?_)
      · subst hn
        have hmod := mk none none [] r3 (Reads.nil _) (Or.inr ⟨by decide, rfl, rfl⟩) rfl
        rw [peek1_ends]
        refine wp_ite (fun hc => wp_pure ⟨?_, h1.trans hadv.1⟩) (fun hc => wp_pure ?_)
        · have hw0 : w' = [] ∧ r3 = r2 := by
            have : spanS iswhite r2 = ([], r2) := by
              refine spanS_of_reads (Reads.nil _) (by simp) ?_
              cases hh : headSym r2 with
              | ch c =>
                rw [hh] at hc
                simp only [endsSym, Bool.or_eq_true, beq_iff_eq] at hc
                rcases hc with rfl | rfl <;> decide
              | eol => rfl
              | eof => rfl
            rw [← hw', ← hr3, this]; exact ⟨rfl, rfl⟩
          have := h2 [] r3 (.hide ⟨hmod, endsSym_iff.1 (hw0.2 ▸ hc), ?_⟩)
          · rwa [List.append_nil] at this
          · obtain ⟨a, l, e⟩ := (List.eq_nil_or_concat k).resolve_left hkne
            rw [List.concat_eq_append] at e
            refine ⟨d ++ w ++ a, l, ?_, alpha_not_white (hka l (by rw [e]; simp))⟩
            have := hr.append hk
            rw [hw0.2, List.append_assoc, ← e]; exact this
        · refine next _ _ (Adv.refl _) hmod ?_
          rintro ⟨_, he, v, c, hv, hcw⟩
          have hall := (hr.append hk).append hw2
          rcases List.eq_nil_or_concat w' with rfl | ⟨a, l, e⟩
          · rw [hw2.unnil] at he; exact hc (endsSym_iff.2 he)
          · rw [List.concat_eq_append] at e
            subst e
            have := hall.det hv
            rw [← List.append_assoc] at this
            have := List.append_inj_right' this rfl
            simp only [List.cons.injEq, and_true] at this
            have h3 := hw2a l (by simp)
            rw [this, hcw] at h3
            exact absurd h3 (by decide)
      · refine wp_ite (fun hn => ?_) (fun hsl => ?_)
        · subst hn
          refine wp_ite (fun hc => ?_) (fun hc => ?_)
          · have hb := peek1_eq hc
            have hw0 : w' = [] ∧ r3 = r2 := by
              have : spanS iswhite r2 = ([], r2) := by
                refine spanS_of_reads (Reads.nil _) (by simp) ?_
                rw [hb]; rfl
              rw [← hw', ← hr3, this]; exact ⟨rfl, rfl⟩
            have hrb : Reads r3 ['!'] r3.tail := headSym_reads (hw0.2 ▸ hb)
            refine wp_bind (wp_get (wp_pure ?_))
            exact next _ _ hrb.adv (mk (some 1) none _ _ hrb (Or.inl ⟨rfl, Or.inl ⟨rfl, hw0.1, rfl⟩⟩) rfl)
              (nohide (by decide) _)
          · refine wp_pure ?_
            refine next _ _ (Adv.refl _) (mk (some 0) none [] r3 (Reads.nil _)
              (Or.inl ⟨rfl, Or.inr ⟨rfl, rfl, ?_⟩⟩) rfl) (nohide (by decide) _)
            intro hb
            apply hc
            rcases peek1 r2 with ⟨c, h3, h4⟩ | ⟨h3, _⟩
            · rw [h4]
              rw [h3] at hb
              simp only [Sym.ch.injEq] at hb
              subst hb; rfl
            · rcases h3 with h3 | h3 <;> rw [h3] at hb <;> simp at hb
        · refine wp_ite (fun hn => ?_) (fun ht => ?_)
          · refine wp_ite (fun hd0 => ?_) (fun hd0 => wp_pure ?_)
            · obtain ⟨x1, hx1, hx2⟩ := hdd hd0
              refine wp_bind (str2nr_spec (h1.suf hs) hx1 hx2 (wp_pure ?_))
              exact plain hh hsl _ (by rw [if_pos hn, if_neg hd0])
            · exact plain hh hsl _ (by rw [if_pos hn, if_pos (by simpa using hd0)])
          · refine wp_ite (fun hn => ?_) (fun hv => ?_)
            · refine wp_ite (fun hd0 => ?_) (fun hd0 => wp_pure ?_)
              · obtain ⟨x1, hx1, hx2⟩ := hdd hd0
                refine wp_bind (str2nr_spec (h1.suf hs) hx1 hx2 (wp_pure ?_))
                exact plain hh hsl _ (by rw [if_neg ht, if_pos hn, if_neg hd0])
              · exact plain hh hsl _ (by rw [if_neg ht, if_pos hn, if_pos (by simpa using hd0)])
            · exact wp_pure (plain hh hsl _ (by rw [if_neg ht, if_neg hv]))

theorem getnS_sadv {n : Nat} {r : List Cell} (h : (getnS n r).1 ≠ []) : SAdv r (getnS n r).2 :=
  (getnS_reads n r).sadv h

/-- Pattern text up to the delimiter `x.2` (empty at the end of the line). -/
theorem parsePattern_spec {delim : Str} {r : List Cell} (hs : Suf env r) :
    wp T env (parsePattern delim) r (fun x r' => Reads r (x.1 ++ x.2) r' ∧
      (x.2 = delim ∨ x.2 = [] ∧ AtEnd r')) (SErr env) := by
  unfold parsePattern
  refine wp_loop (fun st r1 => Reads r st.1 r1) (Reads.nil r) ?_
  rintro ⟨pat, inb⟩ r1 h1
  simp only at h1
  refine wp_bind (wp_getn ?_)
  have hr := getnS_reads 1 r1
  refine wp_ite (fun hc => ?_) (fun hc => ?_)
  · rw [hc] at hr
    refine wp_pure ⟨h1.append (w := []) hr, Or.inr ⟨rfl, ?_⟩⟩
    have := peek1_nil hc
    rwa [hr.unnil]
  · have hlt := (getnS_sadv hc).lt
    have hap := h1.append hr
    refine wp_ite (fun hd => ?_) (fun _ => ?_)
    · exact wp_pure ⟨hap, Or.inl hd.1⟩
    · refine wp_ite (fun hb => ?_) (fun _ => ?_)
      · refine wp_bind (wp_peekn ?_)
        refine wp_ite (fun he => wp_errHere (err_pos (hap.adv.suf hs))) (fun he => ?_)
        refine wp_bind (wp_getn (wp_pure ?_))
        exact ⟨by have := (getnS_adv 1 (getnS 1 r1).2).length; omega, hap.append (getnS_reads 1 _)⟩
      · refine wp_ite (fun _ => wp_pure ⟨hlt, hap⟩) (fun _ => ?_)
        exact wp_ite (fun _ => wp_pure ⟨hlt, hap⟩) (fun _ => wp_pure ⟨hlt, hap⟩)

theorem readInteger_spec {r : List Cell} {F : Fail → Prop} :
    wp T env readInteger r (fun v r' => Reads r v r' ∧ (v ≠ [] → RangeTok v)) F := by
  unfold readInteger
  refine wp_bind (wp_peekn ?_)
  refine wp_ite (fun hc => ?_) (fun _ => wp_readWhile ⟨spanS_reads _ _, fun hne =>
    Or.inr (Or.inr ⟨[], _, rfl, hne, Or.inl rfl, spanS_all _ _⟩)⟩)
  refine wp_bind (wp_getn (wp_bind (wp_readWhile (wp_pure ⟨?_, fun hne => ?_⟩))))
  · exact (getnS_reads 1 r).append (spanS_reads _ _)
  · exact Or.inr (Or.inr ⟨_, _, rfl, hne, Or.inr (hc.symm.imp id id), spanS_all _ _⟩)

theorem Spec.RangeText.append {a b : Str} {x y : List Str} (h1 : RangeText a x) (h2 : RangeText b y) :
    RangeText (a ++ b) (x ++ y) := by
  induction h2 with
  | nil => simpa using h1
  | skip _ hw ih => rw [← List.append_assoc]; exact .skip ih hw
  | quote _ ih => rw [← List.append_assoc]; exact .quote ih
  | tok _ ht ih => rw [← List.append_assoc, ← List.append_assoc]; exact .tok ih ht
  | pat _ hd he ih =>
    rw [← List.append_assoc, ← List.append_assoc, ← List.append_assoc]; exact .pat ih hd he

/-- The tokens `ts'` are `ts` and the range text read between `r` and `r'`. -/
def Took (ts : List Str) (r : List Cell) (ts' : List Str) (r' : List Cell) : Prop :=
  ∃ n v, ts' = ts ++ n ∧ Reads r v r' ∧ RangeText v n

theorem Took.refl (ts : List Str) (r : List Cell) : Took ts r ts r :=
  ⟨[], [], by simp, Reads.nil r, .nil⟩

theorem Took.trans {a b c : List Str} {x y z : List Cell} (h1 : Took a x b y) (h2 : Took b y c z) :
    Took a x c z := by
  obtain ⟨n, v, rfl, h3, h4⟩ := h1
  obtain ⟨m, w, rfl, h5, h6⟩ := h2
  exact ⟨n ++ m, v ++ w, by simp, h3.append h5, h4.append h6⟩

theorem Took.skip (ts : List Str) (r : List Cell) : Took ts r ts (spanS iswhite r).2 :=
  ⟨[], _, by simp, spanS_reads _ _, .skip (v := []) .nil (spanS_all _ _)⟩

theorem Took.one (ts : List Str) {r r' : List Cell} {t : Str} (h : Reads r t r') (ht : RangeTok t) :
    Took ts r (ts ++ [t]) r' := ⟨[t], t, rfl, h, .tok (v := []) .nil ht⟩

theorem Took.adv {a b : List Str} {x y : List Cell} (h : Took a x b y) : Adv x y := by
  obtain ⟨_, _, _, h, _⟩ := h
  exact h.adv

theorem rangeInts_spec {r : List Cell} {ts : List Str} {F : Fail → Prop} :
    wp T env (rangeInts ts) r (fun ts' r' => Took ts r ts' r') F := by
  unfold rangeInts
  refine wp_loop (fun ts' r1 => Took ts r ts' r1) (Took.refl ts r) ?_
  intro ts r1 h1
  refine wp_bind (wp_skipWhite (wp_bind (wp_peekn ?_)))
  have hw := h1.trans (Took.skip _ r1)
  refine wp_ite (fun _ => wp_pure hw) (fun _ => ?_)
  refine wp_call readInteger_spec ?_
  rintro n r2 ⟨hn, ht⟩
  refine wp_ite (fun hc => ?_) (fun hc => ?_)
  · rw [hc] at hn; rw [hn.unnil]; exact wp_pure hw
  · refine wp_pure ⟨?_, hw.trans (.one _ hn (ht hc))⟩
    have := (hn.sadv hc).lt
    have := (spanS_adv iswhite r1).length
    omega

theorem rangeAtom_spec (he : EnvOK env) {r : List Cell} (hs : Suf env r) {ts : List Str}
    (hne : (getnS 1 r).1 ≠ []) :
    wp T env (rangeAtom ts (getnS 1 r).1) r (fun o r' => Took ts r (o.getD ts) r' ∧
      (headSym r = .ch '/' ∨ headSym r = .ch '?' → SAdv r r')) (SErr env) := by
  obtain ⟨c, hh, hg⟩ : ∃ c, headSym r = .ch c ∧ getnS 1 r = ([c], r.tail) := by
    rcases peek1 r with h | ⟨_, h⟩
    · exact h
    · rw [h] at hne; simp at hne
  have hs1 : SAdv r (getnS 1 r).2 := getnS_sadv hne
  have hr1 := getnS_reads 1 r
  rw [hg] at hr1 hs1
  rw [hg]
  unfold rangeAtom
  refine wp_ite (fun hc => ?_) (fun _ => ?_)
  · refine wp_bind (wp_getn (wp_pure ⟨?_, fun _ => ?_⟩))
    · rw [hg]
      refine .one _ hr1 (Or.inl ?_)
      rcases hc with hc | hc <;> simp only [List.cons.injEq, and_true] at hc <;> simp [hc]
    · rw [hg]; exact hs1
  refine wp_ite (fun hq => ?_) (fun _ => ?_)
  · refine wp_bind (wp_getn (wp_bind (wp_getn ?_)))
    rw [hg]
    rw [hq] at hr1
    have := hs1.trans_adv (getnS_adv 1 r.tail)
    have hr2 := getnS_reads 1 r.tail
    refine wp_ite (fun hm => wp_pure ⟨?_, fun _ => this⟩) (fun hm => wp_pure ⟨?_, fun _ => this⟩)
    · simp only [hm] at hr2
      rw [hr2.unnil]
      exact ⟨[], _, by simp, hr1, .quote (v := []) .nil⟩
    · refine .one _ (hr1.append hr2) (Or.inr (Or.inl ?_))
      rcases peek1 r.tail with ⟨c, _, h⟩ | ⟨_, h⟩
      · exact ⟨c, by simp [h]⟩
      · exact absurd (by simp [h]) hm
  refine wp_ite (fun hd => ?_) (fun h3 => ?_)
  · refine wp_bind (wp_getn ?_)
    refine wp_call (parsePattern_spec ((getnS_adv 1 r).suf hs)) ?_
    intro x r' hx
    rw [hg] at hx
    refine wp_pure ⟨⟨[x.1], c :: x.1 ++ x.2, rfl, ?_, ?_⟩, fun _ => hs1.trans_adv hx.1.adv⟩
    · simpa using hr1.append hx.1
    · refine .pat (v := []) (ts := []) .nil ?_ ?_
      · simpa using hd
      · exact hx.2.imp id (·.1)
  have key : ¬ (headSym r = .ch '/' ∨ headSym r = .ch '?') := by
    refine fun hc => absurd ?_ h3
    rw [hh] at hc
    simp only [Sym.ch.injEq] at hc
    rcases hc with rfl | rfl
    · exact Or.inl rfl
    · exact Or.inr rfl
  refine wp_ite (fun hb => ?_) (fun _ => ?_)
  · simp only [List.cons.injEq, and_true] at hb
    subst hb
    have h1 : Starts ['\\'] r := ⟨hh, trivial⟩
    refine wp_bind (wp_p (h1.safe he hs rfl) ?_)
    refine wp_ite (fun hm => ?_) (fun _ => wp_errHere (err_pos hs))
    have h2 : ∃ c, symAt 1 r = .ch c ∧ Starts ['\\', c] r ∧ RangeTok ['\\', c] := by
      rcases hm with hm | hm | hm
      · exact ⟨_, hm, h1.snoc hm, Or.inl (by simp)⟩
      · exact ⟨_, hm, h1.snoc hm, Or.inl (by simp)⟩
      · exact ⟨_, hm, h1.snoc hm, Or.inl (by simp)⟩
    obtain ⟨c, h2', h2, h2t⟩ := h2
    refine wp_bind (wp_seekCur h2.len (wp_pure ⟨?_, fun h => absurd h key⟩))
    rw [h2']
    exact .one _ h2.reads h2t
  refine wp_ite (fun hd => ?_) (fun _ => wp_pure ⟨.refl _ _, fun h => absurd h key⟩)
  refine wp_bind (wp_readWhile (wp_pure ⟨?_, fun h => absurd h key⟩))
  refine .one _ (spanS_reads _ _) (Or.inr (Or.inr ⟨[], _, rfl, ?_, Or.inl rfl, spanS_all _ _⟩))
  intro h
  have hd' : isdigit c = true := by simpa [is1] using hd
  have := (spanS_sadv (f := isdigit) (r := r) (by rw [hh]; exact hd')).lt
  have h2 := (spanS_reads isdigit r).len
  rw [h] at h2
  simp at h2
  omega

theorem Adv.sadv_ne {a b : List Cell} (h : Adv a b) (hne : b ≠ a) : SAdv a b := by
  refine ⟨h, ?_⟩
  obtain ⟨p, rfl, _⟩ := h
  cases p with
  | nil => simp at hne
  | cons x p => simp; omega

/-- A round of the address loop that is repeated consumes something: the next address starts with
`/` or `?`. -/
theorem rangeInner_spec (he : EnvOK env) {r : List Cell} (hs : Suf env r) {ts : List Str} :
    wp T env (rangeInner ts) r (fun ts' r' => Took ts r ts' r') (SErr env) := by
  unfold rangeInner
  refine wp_loop (fun ts' r1 => Took ts r ts' r1) (Took.refl ts r) ?_
  intro ts r1 h1
  refine wp_bind (wp_skipWhite (wp_bind (wp_peekn ?_)))
  have hw := h1.trans (Took.skip _ r1)
  have hwl := (spanS_adv iswhite r1).length
  generalize (spanS iswhite r1).2 = r2 at *
  refine wp_ite (fun _ => wp_pure hw) (fun hne => ?_)
  refine wp_call (rangeAtom_spec he (hw.adv.suf hs) hne) ?_
  rintro o r3 ⟨h3t, h3s⟩
  have h3 := h3t.adv
  cases o with
  | none => exact wp_pure (hw.trans h3t)
  | some ts =>
    refine wp_call rangeInts_spec ?_
    intro ts r4 h4
    have hall := (hw.trans h3t).trans h4
    refine wp_bind (wp_p (p0_safe _) ?_)
    refine wp_ite (fun _ => wp_pure hall) (fun hc => ?_)
    refine wp_pure ⟨?_, hall⟩
    rw [symAt_zero] at hc
    have hc' : headSym r4 = .ch '/' ∨ headSym r4 = .ch '?' := by
      by_cases h : headSym r4 = .ch '/'
      · exact Or.inl h
      · exact Or.inr (by simpa [h] using hc)
    have : SAdv r2 r4 := by
      by_cases h : r4 = r2
      · subst h
        exact (h3s hc').trans_adv h4.adv
      · exact (h3.trans h4.adv).sadv_ne h
    have := this.lt
    omega

theorem parseRange_spec (he : EnvOK env) {r : List Cell} (hs : Suf env r) :
    wp T env parseRange r (fun ts r' => ∃ v, Reads r v r' ∧ RangeText v ts) (SErr env) := by
  refine wp_mono (Q := fun ts r' => Took [] r ts r') ?_ (by
    rintro ts r' ⟨n, v, e, h1, h2⟩
    exact ⟨v, h1, by simpa [e] using h2⟩)
  unfold parseRange
  refine wp_loop (fun ts r1 => Took [] r ts r1) (Took.refl [] r) ?_
  intro ts r1 h1
  refine wp_call (rangeInner_spec he (h1.adv.suf hs)) ?_
  intro ts r2 h2
  refine wp_bind (wp_peekn ?_)
  wp_join (fun ts' r3 => Took ts r2 ts' r3)
  · intro jp hjp
    refine wp_ite (fun _ => ?_) (fun _ => ?_)
    · rename_i hc
      refine wp_bind (wp_getn (wp_bind (wp_pure (hjp _ _ (.one _ (getnS_reads _ _) (Or.inl ?_))))))
      rcases hc with hc | hc <;> rw [hc] <;> simp
    · exact wp_bind (wp_pure (hjp _ _ (.refl _ _)))
  · intro ts r3 h3
    refine wp_bind (wp_peekn ?_)
    have hall := (h1.trans h2).trans h3
    refine wp_ite (fun hc => ?_) (fun _ => wp_pure hall)
    have : (getnS 1 r3).1 ≠ [] := by
      rcases hc with hc | hc <;> rw [hc] <;> simp
    refine wp_bind (wp_getn (wp_pure ⟨?_, hall.trans (.one _ (getnS_reads _ _) (Or.inl ?_))⟩))
    · exact ((h2.adv.trans h3.adv).trans_sadv (getnS_sadv this)).lt
    · rcases hc with hc | hc <;> rw [hc] <;> simp

/-! ### Command names -/

/-- The typed name: the text read, but `substitute` for `:s`. -/
theorem readCmdName_spec {r : List Cell} {F : Fail → Prop} :
    wp T env readCmdName r (fun name r' => ∃ t, Reads r t r' ∧
      (t = name ∨ t = cs!"s" ∧ name = cs!"substitute")) F := by
  unfold readCmdName
  refine wp_bind (wp_peekn ?_)
  refine wp_ite (fun h => wp_bind (wp_getn (wp_pure ⟨_, h ▸ getnS_reads _ _, Or.inl rfl⟩))) (fun _ => ?_)
  refine wp_bind (wp_peekn ?_)
  refine wp_ite (fun h => wp_bind (wp_getn (wp_pure ⟨_, h.1 ▸ getnS_reads _ _, Or.inr ⟨rfl, rfl⟩⟩)))
    (fun _ => ?_)
  refine wp_ite (fun _ => wp_bind (wp_getn (wp_pure ⟨_, getnS_reads _ _, Or.inl rfl⟩))) (fun _ => ?_)
  refine wp_bind (wp_peekn ?_)
  refine wp_ite (fun _ => wp_readWhile ⟨_, spanS_reads _ _, Or.inl rfl⟩) (fun _ => ?_)
  refine wp_bind (wp_tell (wp_bind (wp_readWhile ?_)))
  refine wp_ite (fun _ => ?_) (fun _ => wp_pure ⟨_, spanS_reads _ _, Or.inl rfl⟩)
  exact wp_bind (wp_seekSet (wp_getn ⟨_, getnS_reads _ _, Or.inl rfl⟩))

theorem lookupTable_known {nv : Bool} {name : Str} {c : Cmd} (h : lookupTable nv name = some c) :
    (c ∈ builtinCommands ∨ c ∈ neovimAdditionalCommands) ∧ c.matches name = true := by
  unfold lookupTable at h
  cases nv with
  | false =>
    have h : builtinCommands.find? (·.matches name) = some c := by simpa using h
    exact ⟨Or.inl (List.mem_of_find?_eq_some h), by simpa using List.find?_some h⟩
  | true =>
    simp only [if_true] at h
    split at h
    · simp at h
    · split at h
      · rename_i x hx
        rw [Option.some.injEq] at h
        subst h
        exact ⟨Or.inr (List.mem_of_find?_eq_some hx), by simpa using List.find?_some hx⟩
      · exact ⟨Or.inl (List.mem_of_find?_eq_some h), by simpa using List.find?_some h⟩

theorem lookup_mem {α β : Type} [BEq α] [LawfulBEq α] {l : List (α × β)} {a : α} {b : β}
    (h : l.lookup a = some b) : (a, b) ∈ l := by
  induction l with
  | nil => simp at h
  | cons x l ih =>
    obtain ⟨k, v⟩ := x
    rw [List.lookup_cons] at h
    cases hk : a == k with
    | true =>
      rw [hk] at h
      simp only [Option.some.injEq] at h
      rw [eq_of_beq hk, h]; simp
    | false =>
      rw [hk] at h
      exact List.mem_cons_of_mem _ (ih h)

theorem substitute_minlen : ∀ c ∈ builtinCommands ++ neovimAdditionalCommands,
    cs!"substitute".isPrefixOf c.name = true → c.minlen ≤ 1 := by decide +kernel

/-- The typed text abbreviates the command it stands for. -/
theorem matches_typed {c : Cmd} {t name : Str} (hk : Known c) (hm : c.matches name = true)
    (ht : t = name ∨ t = cs!"s" ∧ name = cs!"substitute") : t <+: c.name ∧ c.minlen ≤ t.length := by
  have hm' := hm
  simp only [Cmd.matches, Bool.and_eq_true, decide_eq_true_eq, List.isPrefixOf_iff_prefix] at hm
  rcases ht with rfl | ⟨rfl, rfl⟩
  · exact hm
  · refine ⟨List.IsPrefix.trans (by decide) hm.1, ?_⟩
    show c.minlen ≤ 1
    rcases hk with hk | hk | ⟨_, hk⟩
    · exact substitute_minlen c (List.mem_append_left _ hk) (List.isPrefixOf_iff_prefix.2 hm.1)
    · exact substitute_minlen c (List.mem_append_right _ hk) (List.isPrefixOf_iff_prefix.2 hm.1)
    · rw [hk]; exact Nat.zero_le _

theorem resolve_known {nv : Bool} {n : Str} {c : Cmd} (h : resolve nv n = some c) :
    Known c ∧ c.matches n = true := by
  unfold resolve at h
  split at h
  · rename_i hu
    cases h
    refine ⟨Or.inr (Or.inr ⟨?_, rfl⟩), by simp [Cmd.matches, userCmd]⟩
    unfold userName at hu
    simp only [Bool.and_eq_true] at hu
    exact hu.2
  · exact ⟨(lookupTable_known h).1.elim Or.inl (fun h => Or.inr (Or.inl h)), (lookupTable_known h).2⟩

/-- Upper case names of the tables. -/
theorem upper_entries : ∀ c ∈ builtinCommands ++ neovimAdditionalCommands,
    startsUpper c.name = true → c.minlen ≤ 1 ∧ (c.name ∈ [cs!"Next", cs!"Print", cs!"X"]) := by decide +kernel

theorem upper_removed : ∀ c ∈ neovimRemovedCommands, startsUpper c.name = true → c.name = cs!"Print" := by decide +kernel

theorem upper_head {m n : Str} (h : m <+: n) (hu : startsUpper m = true) : startsUpper n = true ∧ n.head? = m.head? := by
  obtain ⟨t, rfl⟩ := h
  cases m with
  | nil => cases hu
  | cons c m => exact ⟨hu, rfl⟩

/-- A longer name than that of a user command is also one of a user command. -/
theorem userName_append {nv : Bool} {n : Str} (m : Str) (h : userName nv n = true) : userName nv (n ++ m) = true := by
  unfold userName at h ⊢
  simp only [Bool.and_eq_true] at h ⊢
  obtain ⟨h1, hu⟩ := h
  obtain ⟨hu', hh⟩ := upper_head (List.prefix_append n m) hu
  refine ⟨?_, hu'⟩
  cases hl : lookupTable nv (n ++ m) with
  | none => rfl
  | some c =>
    simp only [beq_iff_eq]
    obtain ⟨hc, hm⟩ := lookupTable_known hl
    have hm' : n ++ m <+: c.name := by
      simp only [Cmd.matches, Bool.and_eq_true, decide_eq_true_eq, List.isPrefixOf_iff_prefix] at hm
      exact hm.1
    have hn : n ≠ [] := by rintro rfl; cases hu
    have hnp : n <+: c.name := (List.prefix_append n m).trans hm'
    obtain ⟨hcu, hch⟩ := upper_head hnp hu
    have hc' : c ∈ builtinCommands ++ neovimAdditionalCommands := List.mem_append.2 hc
    obtain ⟨k1, k2⟩ := upper_entries c hc' hcu
    have hcn : c.matches n = true := by
      simp only [Cmd.matches, Bool.and_eq_true, decide_eq_true_eq, List.isPrefixOf_iff_prefix]
      refine ⟨hnp, ?_⟩
      have : 0 < n.length := List.length_pos_iff.2 hn
      omega
    -- the first entry for `n`
    have first : ∀ d, lookupTable nv n = some d → d.name = c.name := by
      intro d hd
      obtain ⟨hd1, hdm⟩ := lookupTable_known hd
      have hdp : n <+: d.name := by
        simp only [Cmd.matches, Bool.and_eq_true, decide_eq_true_eq, List.isPrefixOf_iff_prefix] at hdm
        exact hdm.1
      obtain ⟨hdu, hdh⟩ := upper_head hdp hu
      have k3 := (upper_entries d (List.mem_append.2 hd1) hdu).2
      have hdc : d.name.head? = c.name.head? := by rw [hdh, hch]
      simp only [List.mem_cons, List.not_mem_nil, or_false] at k2 k3
      rcases k2 with k2 | k2 | k2 <;> rcases k3 with k3 | k3 | k3 <;> rw [k2, k3] at hdc ⊢ <;> simp at hdc
    cases hn' : lookupTable nv n with
    | some d =>
      rw [hn'] at h1
      simp only [beq_iff_eq] at h1
      rw [← first d hn', h1]
    | none =>
      exfalso
      unfold lookupTable at hn' hl
      have hb : ∀ {l : List Cmd}, l.find? (·.matches n) = none → c ∉ l := by
        intro l hl hm
        rw [List.find?_eq_none] at hl
        exact hl c hm hcn
      cases nv with
      | false =>
        simp only [Bool.false_eq_true, if_false] at hn' hl
        exact hb hn' (List.mem_of_find?_eq_some hl)
      | true =>
        simp only [if_true] at hn' hl
        split at hl
        · cases hl
        rename_i hrm
        split at hn'
        · rename_i hr
          apply hrm
          rw [List.any_eq_true] at hr ⊢
          obtain ⟨x, hx, hxm⟩ := hr
          refine ⟨x, hx, ?_⟩
          have hxp : n <+: x.name := by
            simp only [Cmd.matches, Bool.and_eq_true, decide_eq_true_eq, List.isPrefixOf_iff_prefix] at hxm
            exact hxm.1
          obtain ⟨hxu, hxh⟩ := upper_head hxp hu
          have hxn := upper_removed x hx hxu
          have hcn' : c.name = x.name := by
            have hdc : x.name.head? = c.name.head? := by rw [hxh, hch]
            simp only [List.mem_cons, List.not_mem_nil, or_false] at k2
            rw [hxn] at hdc ⊢
            rcases k2 with k2 | k2 | k2 <;> rw [k2] at hdc ⊢ <;> simp at hdc
          simp only [Cmd.matches, Bool.and_eq_true, decide_eq_true_eq, List.isPrefixOf_iff_prefix] at hxm ⊢
          refine ⟨hcn' ▸ hm', ?_⟩
          rw [List.length_append]
          omega
        · split at hn'
          · cases hn'
          · rename_i hadd
            rcases hc with hc | hc
            · exact hb hn' hc
            · exact hb hadd hc

theorem findCommand_spec {r : List Cell} {nv : Bool} {cache : List (Str × Option Cmd)}
    (hc : CacheOK nv cache) {F : Fail → Prop} :
    wp T env (findCommand nv cache) r (fun x r' => CacheOK nv x.2 ∧ Adv r r' ∧ ∀ c, x.1 = some c → Known c ∧
      ∃ t, Reads r t r' ∧ t ≠ [] ∧ t <+: c.name ∧ c.minlen ≤ t.length)
      F := by
  unfold findCommand
  refine wp_call readCmdName_spec ?_
  rintro name r1 ⟨t, h1, ht⟩
  have h1a := h1.adv
  refine wp_ite (fun _ => wp_pure ⟨hc, h1a, by simp⟩) (fun hne => ?_)
  have htn : t ≠ [] := by
    rcases ht with rfl | ⟨rfl, _⟩
    · exact hne
    · simp
  cases hl : cache.lookup name with
  | some hit =>
    refine wp_pure ⟨hc, h1a, ?_⟩
    rintro c rfl
    obtain ⟨hk, hm⟩ := resolve_known (hc _ (lookup_mem hl)).symm
    exact ⟨hk, t, h1, htn, matches_typed hk hm ht⟩
  | none =>
    have cons : ∀ n o, o = resolve nv n → CacheOK nv ((n, o) :: cache) := by
      intro n o h x hx
      rcases List.mem_cons.1 hx with rfl | hx
      · exact h
      · exact hc x hx
    refine wp_ite (fun hu => ?_) (fun hu => ?_)
    · refine wp_bind (wp_readWhile (wp_pure ?_))
      have hres := userName_append (spanS isalnum r1).1 (show userName nv name = true from hu)
      have hup := (Bool.and_eq_true _ _ ▸ hu).2
      have htt : t = name := by
        rcases ht with h | ⟨_, rfl⟩
        · exact h
        · exact absurd hup (by decide)
      subst htt
      have this : some (userCmd (t ++ (spanS isalnum r1).1)) = resolve nv (t ++ (spanS isalnum r1).1) := by
        rw [resolve, if_pos hres]
      refine ⟨cons _ _ this, h1a.trans (spanS_adv _ _), ?_⟩
      intro c hcm
      obtain ⟨hk, hm⟩ := resolve_known (this.symm.trans hcm)
      exact ⟨hk, _, h1.append (spanS_reads _ _), by simp [htn], matches_typed hk hm (Or.inl rfl)⟩
    · have this : lookupTable nv name = resolve nv name := by
        rw [resolve, if_neg (show ¬ userName nv name = true from hu)]
      refine wp_pure ⟨cons _ _ this, h1a, ?_⟩
      intro c hcm
      obtain ⟨hk, hm⟩ := resolve_known (this.symm.trans hcm)
      exact ⟨hk, t, h1, htn, matches_typed hk hm ht⟩

/-! ### Command arguments -/

/-- `ea'` differs from `ea` only in the fields set by command arguments. -/
structure Same (ea ea' : ExArg) : Prop where
  line : ea'.linepos = ea.linepos
  cmdpos : ea'.cmdpos = ea.cmdpos
  arg : ea'.argpos = ea.argpos
  cmd : ea'.cmd = ea.cmd
  mods : ea'.modifiers = ea.modifiers
  range : ea'.range = ea.range
  bang : ea'.forceit = true → ea.forceit = true

theorem Same.refl (ea : ExArg) : Same ea ea := ⟨rfl, rfl, rfl, rfl, rfl, rfl, id⟩

theorem Same.trans {a b c : ExArg} (h1 : Same a b) (h2 : Same b c) : Same a c :=
  ⟨h2.1.trans h1.1, h2.2.trans h1.2, h2.3.trans h1.3, h2.4.trans h1.4, h2.5.trans h1.5, h2.6.trans h1.6,
    fun h => h1.7 (h2.7 h)⟩

theorem EaAt.same {r0 rc : List Cell} {ea ea' : ExArg} (h : EaAt env r0 rc ea) (hs : Same ea ea') :
    EaAt env r0 rc ea' := by
  refine ⟨h.suf, h.ne, hs.line ▸ h.line, hs.mods ▸ hs.range ▸ h.mods, hs.cmdpos ▸ h.cmd, ?_, ?_⟩
  · intro hn
    rw [hs.arg]; exact h.none_ (hs.cmd ▸ hn)
  · intro c hc
    obtain ⟨ra, h1, t, b, w, h2, h3, h4, h5, h6, h7, h8⟩ := h.name c (hs.cmd ▸ hc)
    exact ⟨ra, hs.arg ▸ h1, t, b, w, h2, h3, h4, h5, h6, fun hb => h7 (hs.bang hb), h8⟩

theorem getnS_head {r : List Cell} {c : Char} (h : headSym r = .ch c) (n : Nat) :
    SAdv r (getnS (n + 1) r).2 := by
  refine getnS_sadv ?_
  obtain ⟨d, r', rfl, hd⟩ := headSym_ch h
  simp [getnS, hd]

theorem parseArgopt_spec (he : EnvOK env) {r : List Cell} (hs : Suf env r) {ea : ExArg} :
    wp T env (parseArgopt ea) r (fun ea' r' => Same ea ea' ∧ Adv r r') (SErr env) := by
  unfold parseArgopt
  refine wp_loop (fun ea' r1 => Same ea ea' ∧ Adv r r1) ⟨.refl ea, Adv.refl r⟩ ?_
  rintro ea1 r1 ⟨hsame, h1⟩
  have hs1 := h1.suf hs
  refine wp_cond (G := headSym r1 = .ch '+') ?_ (fun hp => ?_) (wp_pure ⟨hsame, h1⟩)
  · refine wp_pand (wp_pIs_starts he hs1 (Starts.nil r1) rfl (fun h => ?_) wp_false)
    exact wp_pIs_starts he hs1 h rfl (fun h' => ⟨rfl, fun _ => h'.1⟩) wp_false
  refine wp_bind (wp_peekn ?_)
  have step : ∀ n r2 ea2, Same ea1 ea2 → Adv (getnS (n + 1) r1).2 r2 →
      r2.length < r1.length ∧ Same ea ea2 ∧ Adv r r2 := fun n r2 ea2 h2 h3 =>
    ⟨((getnS_head hp n).trans_adv h3).lt, hsame.trans h2, h1.trans ((getnS_head hp n).1.trans h3)⟩
  have word : ∀ n f, Adv (getnS (n + 1) r1).2
      (spanS iswhite (spanS f (getnS (n + 1) r1).2).2).2 := fun n f =>
    (spanS_adv _ _).trans (spanS_adv _ _)
  refine wp_ite (fun _ => ?_) (fun _ => ?_)
  · exact wp_bind (wp_getn (wp_bind (wp_skipWhite (wp_pure
      (step 4 _ _ ⟨rfl, rfl, rfl, rfl, rfl, rfl, id⟩ (spanS_adv _ _))))))
  refine wp_ite (fun _ => ?_) (fun _ => ?_)
  · exact wp_bind (wp_getn (wp_bind (wp_skipWhite (wp_pure
      (step 6 _ _ ⟨rfl, rfl, rfl, rfl, rfl, rfl, id⟩ (spanS_adv _ _))))))
  refine wp_ite (fun _ => ?_) (fun _ => ?_)
  · exact wp_bind (wp_getn (wp_bind (wp_skipWhite (wp_pure
      (step 5 _ _ ⟨rfl, rfl, rfl, rfl, rfl, rfl, id⟩ (spanS_adv _ _))))))
  refine wp_ite (fun _ => ?_) (fun _ => ?_)
  · exact wp_bind (wp_getn (wp_bind (wp_readWhile (wp_bind (wp_skipWhite (wp_pure
      (step 4 _ _ ⟨rfl, rfl, rfl, rfl, rfl, rfl, id⟩ (word _ _))))))))
  refine wp_ite (fun _ => ?_) (fun _ => ?_)
  · exact wp_bind (wp_getn (wp_bind (wp_readWhile (wp_bind (wp_skipWhite (wp_pure
      (step 12 _ _ ⟨rfl, rfl, rfl, rfl, rfl, rfl, id⟩ (word _ _))))))))
  refine wp_ite (fun _ => ?_) (fun _ => ?_)
  · exact wp_bind (wp_getn (wp_bind (wp_readWhile (wp_bind (wp_skipWhite (wp_pure
      (step 5 _ _ ⟨rfl, rfl, rfl, rfl, rfl, rfl, id⟩ (word _ _))))))))
  refine wp_ite (fun _ => ?_) (fun _ => ?_)
  · exact wp_bind (wp_getn (wp_bind (wp_readWhile (wp_bind (wp_skipWhite (wp_pure
      (step 10 _ _ ⟨rfl, rfl, rfl, rfl, rfl, rfl, id⟩ (word _ _))))))))
  refine wp_ite (fun _ => ?_) (fun _ => ?_)
  · refine wp_bind (wp_getn ?_)
    wp_join (fun _ r2 => Adv (getnS 6 r1).2 r2)
    · intro jp hjp
      refine wp_ite (fun _ => ?_) (fun _ => ?_)
      · exact wp_bind (wp_getn (hjp _ _ (getnS_adv _ _)))
      · exact wp_bind (wp_getn (hjp _ _ (getnS_adv _ _)))
    · intro v r2 h2
      exact wp_bind (wp_skipWhite (wp_pure
        (step 5 _ _ ⟨rfl, rfl, rfl, rfl, rfl, rfl, id⟩ (h2.trans (spanS_adv _ _)))))
  refine wp_ite (fun _ => wp_errHere (err_pos hs1)) (fun _ => wp_pure ⟨hsame, h1⟩)

theorem readCmdarg_spec {r : List Cell} {F : Fail → Prop} :
    wp T env readCmdarg r (fun _ r' => Adv r r') F := by
  unfold readCmdarg
  refine wp_loop (fun _ r1 => Adv r r1) (Adv.refl r) ?_
  intro v r1 h1
  refine wp_bind (wp_peekn ?_)
  refine wp_ite (fun _ => wp_pure h1) (fun hc => ?_)
  have hne : (getnS 1 r1).1 ≠ [] := fun h => hc (Or.inl h)
  have hl := (getnS_sadv hne).lt
  refine wp_bind (wp_getn ?_)
  refine wp_ite (fun _ => ?_) (fun _ => wp_pure ⟨hl, h1.trans (getnS_adv _ _)⟩)
  refine wp_bind (wp_getn (wp_pure ⟨?_, (h1.trans (getnS_adv _ _)).trans (getnS_adv _ _)⟩))
  have := (getnS_adv 1 (getnS 1 r1).2).length
  omega

theorem parseArgcmd_spec {r : List Cell} {ea : ExArg} {F : Fail → Prop} :
    wp T env (parseArgcmd ea) r (fun ea' r' => Same ea ea' ∧ Adv r r') F := by
  unfold parseArgcmd
  refine wp_bind (wp_peekn ?_)
  refine wp_ite (fun _ => ?_) (fun _ => wp_pure ⟨.refl ea, Adv.refl r⟩)
  refine wp_bind (wp_getn (wp_bind (wp_peekn ?_)))
  refine wp_ite (fun _ => wp_pure ⟨⟨rfl, rfl, rfl, rfl, rfl, rfl, id⟩, getnS_adv _ _⟩) (fun _ => ?_)
  refine wp_call readCmdarg_spec ?_
  intro v r' h
  exact wp_pure ⟨⟨rfl, rfl, rfl, rfl, rfl, rfl, id⟩, (getnS_adv _ _).trans h⟩

theorem parseAmount_spec {name : Str} (hn : name ≠ []) {r : List Cell} {F : Fail → Prop} :
    wp T env (parseAmount name) r (fun _ r' => Adv r r') F := by
  unfold parseAmount
  refine wp_loop (fun _ r1 => Adv r r1) (Adv.refl r) ?_
  intro n r1 h1
  refine wp_bind (wp_peekn ?_)
  refine wp_ite (fun h => ?_) (fun _ => wp_pure h1)
  refine wp_bind (wp_getn (wp_pure ⟨(getnS_sadv ?_).lt, h1.trans (getnS_adv _ _)⟩))
  rw [h]; exact hn

theorem parseWrite_spec (he : EnvOK env) {r : List Cell} (hs : Suf env r) {ea : ExArg} {cmd : Cmd}
    (hq : PosOK env ea.cmdpos) :
    wp T env (parseWrite ea cmd) r (fun ea' r' => Same ea ea' ∧ Adv r r' ∧
      (cmd.name ∉ [cs!"write", cs!"update"] → r' = r)) (SErr env) := by
  unfold parseWrite
  refine wp_ite (fun hn => ?_) (fun _ => wp_pure ⟨.refl ea, Adv.refl r, fun _ => rfl⟩)
  have hn' : cmd.name ∈ [cs!"write", cs!"update"] := by simpa using hn
  refine wp_cond (G := Starts ['>'] r) ?_ (fun h1 => ?_) ?_
  · exact wp_pIs_starts he hs (Starts.nil r) rfl (fun h => ⟨rfl, fun _ => h⟩) wp_false
  · refine wp_bind ?_
    refine wp_pIs_starts he hs h1 rfl (fun h2 => ?_) ?_
    · refine wp_ite (fun h => absurd h (by simp)) (fun _ => ?_)
      refine wp_bind (wp_seekCur h2.len (wp_bind (wp_skipWhite (wp_pure ?_))))
      exact ⟨⟨rfl, rfl, rfl, rfl, rfl, rfl, id⟩, h2.reads.adv.trans (spanS_adv _ _), fun h => absurd hn' h⟩
    · exact wp_ite (fun _ => wp_errAt hq) (fun h => absurd rfl h)
  · refine wp_bind (wp_peekn ?_)
    refine wp_ite (fun _ => ?_) (fun _ => wp_pure ⟨.refl ea, Adv.refl r, fun _ => rfl⟩)
    exact wp_bind (wp_getn (wp_pure ⟨⟨rfl, rfl, rfl, rfl, rfl, rfl, id⟩, getnS_adv _ _,
      fun h => absurd hn' h⟩))

theorem parseRead_spec {r : List Cell} {ea : ExArg} {cmd : Cmd} {F : Fail → Prop} :
    wp T env (parseRead ea cmd) r (fun ea' r' => Same ea ea' ∧ Adv r r' ∧
      (cmd.name ≠ cs!"read" → r' = r)) F := by
  unfold parseRead
  refine wp_ite (fun hn => ?_) (fun _ => wp_pure ⟨.refl ea, Adv.refl r, fun _ => rfl⟩)
  refine wp_ite (fun _ => wp_pure ⟨⟨rfl, rfl, rfl, rfl, rfl, rfl, by simp⟩, Adv.refl r, fun _ => rfl⟩)
    (fun _ => ?_)
  refine wp_bind (wp_peekn ?_)
  refine wp_ite (fun _ => ?_) (fun _ => wp_pure ⟨.refl ea, Adv.refl r, fun _ => rfl⟩)
  exact wp_bind (wp_getn (wp_pure ⟨⟨rfl, rfl, rfl, rfl, rfl, rfl, id⟩, getnS_adv _ _,
    fun h => absurd hn h⟩))

theorem parseShift_spec {r : List Cell} {ea : ExArg} {cmd : Cmd} {F : Fail → Prop} :
    wp T env (parseShift ea cmd) r (fun ea' r' => Same ea ea' ∧ Adv r r' ∧
      (cmd.name ∉ [cs!"<", cs!">"] → r' = r)) F := by
  unfold parseShift
  refine wp_ite (fun h => ?_) (fun _ => wp_pure ⟨.refl ea, Adv.refl r, fun _ => rfl⟩)
  have hn : cmd.name ≠ [] := by
    rcases h with h | h <;> rw [h] <;> simp
  refine wp_call (parseAmount_spec hn) ?_
  intro n r1 h1
  exact wp_bind (wp_skipWhite (wp_pure
    ⟨⟨rfl, rfl, rfl, rfl, rfl, rfl, id⟩, h1.trans (spanS_adv _ _), fun h' => absurd (by simpa using h) h'⟩))

theorem parseBang_spec {r : List Cell} {cmd : Cmd} {F : Fail → Prop} :
    wp T env (parseBang cmd) r (fun b r' => Reads r (if b = true then ['!'] else []) r') F := by
  unfold parseBang
  refine wp_bind (wp_peekn ?_)
  refine wp_ite (fun h => ?_) (fun _ => wp_pure (Reads.nil r))
  exact wp_bind (wp_getn (wp_pure (h.1 ▸ getnS_reads 1 r)))

end

end Viml
