/-
Successful runs of programs as propositions: what it means that a program returns, primitive by primitive,
and rules for loops.
-/
import Verif.Lemmas.GramApi
import Verif.Lemmas.LookupFile
import Verif.Spec.File

namespace Viml
open Prog Spec

/-- `m` run at `r` returns `a` and stops at `r'`. -/
def Ok {α : Type} (env : Env) (m : Prog α) (r : List Cell) (a : α) (r' : List Cell) : Prop :=
  m.runWith tokGet env r = .ok a r'

section
variable {env : Env} {α β σ : Type} {r r' : List Cell}

theorem ok_pure {a b : α} : Ok env (pure a) r b r' ↔ b = a ∧ r' = r := by
  show Res.ok a r = .ok b r' ↔ _
  constructor
  · intro h; cases h; exact ⟨rfl, rfl⟩
  · rintro ⟨rfl, rfl⟩; rfl

theorem ok_ret {a b : α} : Ok env (.ret a) r b r' ↔ b = a ∧ r' = r := ok_pure

theorem ok_bind {m : Prog α} {f : α → Prog β} {b : β} :
    Ok env (m >>= f) r b r' ↔ ∃ a r1, Ok env m r a r1 ∧ Ok env (f a) r1 b r' := by
  unfold Ok
  rw [runWith_bind]
  cases h : m.runWith tokGet env r with
  | ok a r1 =>
    constructor
    · intro h2; exact ⟨a, r1, rfl, h2⟩
    · rintro ⟨a', r1', h1, h2⟩; cases h1; exact h2
  | fail e =>
    constructor
    · intro h2; cases h2
    · rintro ⟨_, _, h1, _⟩; cases h1

theorem ok_ite {c : Prop} [Decidable c] {m n : Prog α} {b : α} :
    Ok env (if c then m else n) r b r' ↔ c ∧ Ok env m r b r' ∨ ¬ c ∧ Ok env n r b r' := by
  by_cases h : c
  · simp [h]
  · simp [h]

theorem ok_fail {e : Fail} {b : α} : Ok env (.fail e) r b r' ↔ False := by
  constructor
  · intro h; cases h
  · exact False.elim

theorem ok_errAt {msg : Str} {q : Pos} {b : α} : Ok env (errAt msg q) r b r' ↔ False := ok_fail

theorem ok_errHere {msg : Str} {b : α} : Ok env (errHere msg) r b r' ↔ False := by
  unfold errHere
  rw [ok_bind]
  simp [ok_fail]

theorem ok_tell {s : List Cell} : Ok env tell r s r' ↔ s = r ∧ r' = r := ok_pure (env := env)
theorem ok_seekSet {s : List Cell} {u : Unit} : Ok env (seekSet s) r u r' ↔ r' = s := by
  show Res.ok () s = .ok u r' ↔ _
  constructor
  · intro h; cases h; rfl
  · rintro rfl; rfl
theorem ok_seekEnd {u : Unit} : Ok env seekEnd r u r' ↔ r' = [] := ok_seekSet (env := env) (r := r)
theorem ok_getpos {q : Pos} : Ok env getpos r q r' ↔ q = posOf env r ∧ r' = r := by
  unfold Ok
  rw [getpos_run]
  exact ok_pure (env := env)
theorem ok_peek {c : Sym} : Ok env peek r c r' ↔ c = headSym r ∧ r' = r := by
  unfold Ok
  rw [peek_run']
  exact ok_pure (env := env)
theorem ok_get {c : Sym} : Ok env get r c r' ↔ c = headSym r ∧ r' = r.tail := by
  cases r <;> exact ok_pure (env := env)
theorem ok_getn {n : Nat} {v : Str} : Ok env (getn n) r v r' ↔ v = (getnS n r).1 ∧ r' = (getnS n r).2 :=
  ok_pure (env := env) (r := (getnS n r).2)
theorem ok_peekn {n : Nat} {v : Str} : Ok env (peekn n) r v r' ↔ v = (getnS n r).1 ∧ r' = r :=
  ok_pure (env := env)
theorem ok_setpos {q : Pos} {u : Unit} : Ok env (setpos q) r u r' ↔ r' = env.buf.drop q.i := ok_seekSet (env := env) (r := r)
theorem ok_tokget {t : Token} : Ok env tokget r t r' ↔ tokGet env r = .ok t r' := by
  unfold Ok
  rw [tokget_run]
theorem ok_tokpeek {t : Token} : Ok env tokpeek r t r' ↔ r' = r ∧ ∃ r1, tokGet env r = .ok t r1 := by
  unfold tokpeek
  simp only [ok_bind, ok_tell, ok_tokget, ok_seekSet, ok_pure]
  constructor
  · rintro ⟨_, _, ⟨rfl, rfl⟩, t', r1, h, _, _, rfl, rfl, rfl⟩
    exact ⟨rfl, r1, h⟩
  · rintro ⟨rfl, r1, h⟩
    exact ⟨_, _, ⟨rfl, rfl⟩, t, r1, h, (), _, rfl, rfl, rfl⟩

theorem ok_str2nr {s : Str} {n : Nat} :
    Ok env (str2nr s) r n r' ↔ decVal s < 2147483648 ∧ n = decVal s ∧ r' = r := by
  unfold str2nr
  rw [ok_ite, ok_pure, ok_fail]
  simp only [and_false, or_false]
  rfl

/-! ### Spans -/

theorem span_iff {f : Char → Bool} {v : Str} : Span f r v r' ↔ spanS f r = (v, r') := by
  constructor
  · rintro ⟨h1, h2, h3⟩
    exact spanS_of_reads h1 h2 h3
  · intro h
    have h1 := spanS_reads f r
    have h2 := spanS_all f r
    have h3 := spanS_stop f r
    rw [h] at h1 h2 h3
    refine ⟨h1, h2, ?_⟩
    cases hh : headSym r' with
    | ch c => exact h3 c hh
    | eol => rfl
    | eof => rfl

theorem ok_readWhile {f : Char → Bool} {v : Str} : Ok env (readWhile f) r v r' ↔ Span f r v r' := by
  rw [span_iff]
  show Res.ok (spanS f r).1 (spanS f r).2 = .ok v r' ↔ _
  constructor
  · intro h; cases h; rfl
  · intro h; rw [h]

theorem ok_getline {v : Str} : Ok env getline r v r' ↔ Span (fun _ => true) r v r' := ok_readWhile

theorem ok_skipWhite {u : Unit} : Ok env skipWhite r u r' ↔ Skip r r' := by
  unfold Skip
  simp only [span_iff]
  show Res.ok () (spanS iswhite r).2 = .ok u r' ↔ _
  constructor
  · intro h; cases h; exact ⟨_, rfl⟩
  · rintro ⟨w, h⟩; rw [h]

theorem ok_skipWC {u : Unit} : Ok env skipWhiteAndColon r u r' ↔ SkipC r r' := by
  unfold SkipC
  simp only [span_iff]
  show Res.ok () (spanS (fun c => iswhite c || c == ':') r).2 = .ok u r' ↔ _
  constructor
  · intro h; cases h; exact ⟨_, rfl⟩
  · rintro ⟨w, h⟩; rw [h]

theorem ok_readline {v : Str} : Ok env readline r v r' ↔ ∃ r1, Span (fun _ => true) r v r1 ∧ r' = r1.tail := by
  unfold readline
  simp only [ok_bind, ok_getline, ok_get, ok_pure]
  constructor
  · rintro ⟨_, r1, h, _, _, ⟨_, rfl⟩, rfl, rfl⟩; exact ⟨r1, h, rfl⟩
  · rintro ⟨r1, h, rfl⟩; exact ⟨_, r1, h, _, _, ⟨rfl, rfl⟩, rfl, rfl⟩

/-! ### Characters -/

theorem atEnd_iff : AtEnd r ↔ (getnS 1 r).1 = [] := by
  match r with
  | [] => simp [AtEnd, headSym, getnS]
  | ⟨none, q⟩ :: t => simp [AtEnd, headSym, getnS, Cell.sym]
  | ⟨some c, q⟩ :: t => simp [AtEnd, headSym, getnS, Cell.sym]

theorem get1_nil : (getnS 1 r).1 = [] ↔ AtEnd r := atEnd_iff.symm

theorem get1_ch {c : Char} : (getnS 1 r).1 = [c] ↔ headSym r = .ch c := by
  match r with
  | [] => simp [headSym, getnS]
  | ⟨none, q⟩ :: t => simp [headSym, getnS, Cell.sym]
  | ⟨some c, q⟩ :: t => simp [headSym, getnS, Cell.sym]

theorem get1_ne {c : Char} : ¬ (getnS 1 r).1 = [c] ↔ headSym r ≠ .ch c := not_congr get1_ch

theorem get1_is1 {f : Char → Bool} : is1 f (getnS 1 r).1 = (headSym r).is f := by
  match r with
  | [] => rfl
  | ⟨none, q⟩ :: t => rfl
  | ⟨some c, q⟩ :: t => rfl

theorem get1_ends : endsStr (getnS 1 r).1 = true ↔ AtStop r := by
  match r with
  | [] => simp [AtStop, AtEnd, headSym, getnS, endsStr]
  | ⟨none, q⟩ :: t => simp [AtStop, AtEnd, headSym, getnS, Cell.sym, endsStr]
  | ⟨some c, q⟩ :: t => simp [AtStop, AtEnd, headSym, getnS, Cell.sym, endsStr]

theorem endsSym_stop : endsSym (headSym r) = true ↔ AtStop r := by
  match r with
  | [] => simp [AtStop, AtEnd, headSym, endsSym]
  | ⟨none, q⟩ :: t => simp [AtStop, AtEnd, headSym, Cell.sym, endsSym]
  | ⟨some c, q⟩ :: t => simp [AtStop, AtEnd, headSym, Cell.sym, endsSym]

theorem endsSym_false : endsSym (headSym r) = false ↔ ¬ AtStop r := by
  rw [← endsSym_stop, Bool.not_eq_true]

theorem reads_one_iff {c : Char} : Reads r [c] r' ↔ headSym r = .ch c ∧ r' = r.tail := by
  constructor
  · intro h
    refine ⟨h.head, ?_⟩
    exact h.rest_unique (headSym_reads h.head)
  · rintro ⟨h, rfl⟩
    exact headSym_reads h

theorem getn_reads {n : Nat} {v : Str} (hn : v.length = n) : v = (getnS n r).1 ∧ r' = (getnS n r).2 ↔ Reads r v r' := by
  constructor
  · rintro ⟨rfl, rfl⟩; exact getnS_reads n r
  · intro h
    have := getnS_of_reads h
    rw [hn] at this
    rw [this]; exact ⟨rfl, rfl⟩

/-- `peekn` compared with a text of that length. -/
theorem peekn_eq {n : Nat} {v : Str} (hn : v.length = n) : (getnS n r).1 = v ↔ StartsWith r v := by
  constructor
  · rintro rfl; exact ⟨_, getnS_reads n r⟩
  · rintro ⟨r', h⟩
    exact ((getn_reads hn).2 h).1.symm

/-- What `getn(1)` does. -/
theorem getn1_cases (r : List Cell) : (∃ c, headSym r = .ch c ∧ getnS 1 r = ([c], r.tail) ∧ Reads r [c] r.tail) ∨
    (AtEnd r ∧ getnS 1 r = ([], r)) := by
  match r with
  | [] => exact .inr ⟨.inr rfl, rfl⟩
  | ⟨none, q⟩ :: t => exact .inr ⟨.inl rfl, rfl⟩
  | ⟨some c, q⟩ :: t => exact .inl ⟨c, rfl, rfl, Reads.one rfl⟩

theorem atEnd_not {c : Char} (h : AtEnd r) : headSym r ≠ .ch c := by
  rcases h with h | h <;> rw [h] <;> simp

theorem not_atEnd : ¬ AtEnd r ↔ ∃ c, headSym r = .ch c := by
  unfold AtEnd
  cases headSym r <;> simp

theorem atEnd_is {f : Char → Bool} (h : AtEnd r) : (headSym r).is f = false := by
  rcases h with h | h <;> rw [h] <;> rfl

theorem is_ch {f : Char → Bool} : (headSym r).is f = true ↔ ∃ c, headSym r = .ch c ∧ f c = true := by
  cases headSym r <;> simp [Sym.is]

/-! ### Reading is deterministic -/

theorem Spec.Span.det {f : Char → Bool} {v w : Str} {a b : List Cell} (h1 : Span f r v a) (h2 : Span f r w b) :
    v = w ∧ a = b := by
  rw [span_iff] at h1 h2
  rw [h1] at h2
  cases h2
  exact ⟨rfl, rfl⟩

theorem Spec.Skip.det {a b : List Cell} (h1 : Skip r a) (h2 : Skip r b) : a = b := by
  obtain ⟨_, h1⟩ := h1
  obtain ⟨_, h2⟩ := h2
  exact (h1.det h2).2

theorem Spec.SkipC.det {a b : List Cell} (h1 : SkipC r a) (h2 : SkipC r b) : a = b := by
  obtain ⟨_, h1⟩ := h1
  obtain ⟨_, h2⟩ := h2
  exact (h1.det h2).2

theorem Ok.det {m : Prog α} {a b : α} {r1 r2 : List Cell} (h1 : Ok env m r a r1) (h2 : Ok env m r b r2) :
    a = b ∧ r1 = r2 := by
  unfold Ok at h1 h2
  rw [h1] at h2
  cases h2
  exact ⟨rfl, rfl⟩

theorem Spec.Span.adv {f : Char → Bool} {v : Str} (h : Span f r v r') : Adv r r' := h.1.adv
theorem Spec.Skip.adv (h : Skip r r') : Adv r r' := h.elim fun _ h => h.adv
theorem Spec.SkipC.adv (h : SkipC r r') : Adv r r' := h.elim fun _ h => h.adv

theorem span_total (f : Char → Bool) (r : List Cell) : ∃ v r', Span f r v r' :=
  ⟨_, _, span_iff.2 rfl⟩
theorem skip_total (r : List Cell) : ∃ r', Skip r r' := ⟨_, _, span_iff.2 rfl⟩
theorem skipC_total (r : List Cell) : ∃ r', SkipC r r' := ⟨_, _, span_iff.2 rfl⟩

/-- Nothing to skip. -/
theorem skip_self (h : (headSym r).is iswhite = false) : Skip r r := ⟨[], Reads.nil r, by simp, h⟩
theorem Spec.Skip.stop (h : Skip r r') : (headSym r').is iswhite = false := h.elim fun _ h => h.2.2
theorem Spec.Skip.again (h : Skip r r') : Skip r' r' := skip_self h.stop
theorem Spec.Skip.blanks (h : Skip r r') : Blanks r r' := h.elim fun w h => ⟨w, h.1, h.2.1⟩

theorem spanAll_iff {v : Str} : Span (fun _ => true) r v r' ↔ RestOf r v r' := by
  constructor
  · rintro ⟨h1, _, h3⟩
    refine ⟨h1, ?_⟩
    refine Classical.byContradiction fun h => ?_
    obtain ⟨c, hc⟩ := not_atEnd.1 h
    rw [hc] at h3
    cases h3
  · rintro ⟨h1, h2⟩
    exact ⟨h1, by simp, atEnd_is h2⟩

/-! ### Steps of a program -/

theorem bind_pure' {a : α} {f : α → Prog β} {b : β} : Ok env (pure a >>= f) r b r' ↔ Ok env (f a) r b r' := Iff.rfl
theorem bind_fail {e : Fail} {f : α → Prog β} {b : β} : Ok env (.fail e >>= f) r b r' ↔ False := ok_fail (env := env) (r := r)
theorem bind_errAt {msg : Str} {q : Pos} {f : α → Prog β} {b : β} : Ok env (errAt msg q >>= f) r b r' ↔ False :=
  ok_fail (env := env) (r := r)
theorem bind_errHere {msg : Str} {f : α → Prog β} {b : β} : Ok env (errHere msg >>= f) r b r' ↔ False := by
  rw [ok_bind]
  simp [ok_errHere]
theorem bind_bind {m : Prog α} {f : α → Prog σ} {g : σ → Prog β} {b : β} :
    Ok env (m >>= f >>= g) r b r' ↔ Ok env (m >>= fun a => f a >>= g) r b r' := by
  simp only [ok_bind]
  constructor
  · rintro ⟨x, r1, ⟨a, r2, h1, h2⟩, h3⟩; exact ⟨a, r2, h1, x, r1, h2, h3⟩
  · rintro ⟨a, r2, h1, x, r1, h2, h3⟩; exact ⟨x, r1, ⟨a, r2, h1, h2⟩, h3⟩
theorem bind_ite {c : Prop} [Decidable c] {m n : Prog α} {f : α → Prog β} {b : β} :
    Ok env ((if c then m else n) >>= f) r b r' ↔ c ∧ Ok env (m >>= f) r b r' ∨ ¬ c ∧ Ok env (n >>= f) r b r' := by
  by_cases h : c
  · simp [h]
  · simp [h]
theorem bind_tell {f : List Cell → Prog β} {b : β} : Ok env (tell >>= f) r b r' ↔ Ok env (f r) r b r' := Iff.rfl
theorem bind_seekSet {s : List Cell} {f : Unit → Prog β} {b : β} :
    Ok env (seekSet s >>= f) r b r' ↔ Ok env (f ()) s b r' := Iff.rfl
theorem bind_seekEnd {f : Unit → Prog β} {b : β} : Ok env (seekEnd >>= f) r b r' ↔ Ok env (f ()) [] b r' := Iff.rfl
theorem bind_getpos {f : Pos → Prog β} {b : β} : Ok env (getpos >>= f) r b r' ↔ Ok env (f (posOf env r)) r b r' := by
  cases r <;> exact Iff.rfl
theorem bind_peek {f : Sym → Prog β} {b : β} : Ok env (peek >>= f) r b r' ↔ Ok env (f (headSym r)) r b r' := by
  cases r <;> exact Iff.rfl
theorem bind_get {f : Sym → Prog β} {b : β} : Ok env (get >>= f) r b r' ↔ Ok env (f (headSym r)) r.tail b r' := by
  cases r <;> exact Iff.rfl
theorem bind_getn {n : Nat} {f : Str → Prog β} {b : β} :
    Ok env (getn n >>= f) r b r' ↔ Ok env (f (getnS n r).1) (getnS n r).2 b r' := Iff.rfl
theorem bind_peekn {n : Nat} {f : Str → Prog β} {b : β} :
    Ok env (peekn n >>= f) r b r' ↔ Ok env (f (getnS n r).1) r b r' := Iff.rfl
theorem bind_setpos {q : Pos} {f : Unit → Prog β} {b : β} :
    Ok env (setpos q >>= f) r b r' ↔ Ok env (f ()) (env.buf.drop q.i) b r' := Iff.rfl
theorem bind_readWhile {g : Char → Bool} {f : Str → Prog β} {b : β} :
    Ok env (readWhile g >>= f) r b r' ↔ ∃ v r1, Span g r v r1 ∧ Ok env (f v) r1 b r' := by
  simp only [ok_bind, ok_readWhile]
theorem bind_skipWhite {f : Unit → Prog β} {b : β} :
    Ok env (skipWhite >>= f) r b r' ↔ ∃ r1, Skip r r1 ∧ Ok env (f ()) r1 b r' := by
  simp only [ok_bind, ok_skipWhite]
  constructor
  · rintro ⟨_, r1, h⟩; exact ⟨r1, h⟩
  · rintro ⟨r1, h⟩; exact ⟨(), r1, h⟩
theorem bind_skipWC {f : Unit → Prog β} {b : β} :
    Ok env (skipWhiteAndColon >>= f) r b r' ↔ ∃ r1, SkipC r r1 ∧ Ok env (f ()) r1 b r' := by
  simp only [ok_bind, ok_skipWC]
  constructor
  · rintro ⟨_, r1, h⟩; exact ⟨r1, h⟩
  · rintro ⟨r1, h⟩; exact ⟨(), r1, h⟩
theorem bind_getline {f : Str → Prog β} {b : β} :
    Ok env (getline >>= f) r b r' ↔ ∃ v r1, RestOf r v r1 ∧ Ok env (f v) r1 b r' := by
  simp only [ok_bind, ok_getline, spanAll_iff]
theorem bind_tokget {f : Token → Prog β} {b : β} :
    Ok env (tokget >>= f) r b r' ↔ ∃ t r1, tokGet env r = .ok t r1 ∧ Ok env (f t) r1 b r' := by
  simp only [ok_bind, ok_tokget]
theorem bind_tokpeek {f : Token → Prog β} {b : β} :
    Ok env (tokpeek >>= f) r b r' ↔ ∃ t r1, tokGet env r = .ok t r1 ∧ Ok env (f t) r b r' := by
  simp only [ok_bind, ok_tokpeek]
  constructor
  · rintro ⟨t, _, ⟨rfl, r1, h⟩, h2⟩; exact ⟨t, r1, h, h2⟩
  · rintro ⟨t, r1, h, h2⟩; exact ⟨t, _, ⟨rfl, r1, h⟩, h2⟩

/-! ### Loops -/

theorem ok_loopN_mono {body : σ → Prog (σ ⊕ β)} {n : Nat} {s : σ} {b : β} (h : Ok env (loopN body n s) r b r') :
    ∀ m, n ≤ m → Ok env (loopN body m s) r b r' := by
  induction n generalizing s r with
  | zero => cases h
  | succ n ih =>
    intro m hm
    obtain ⟨m, rfl⟩ : ∃ k, m = k + 1 := ⟨m - 1, by omega⟩
    rw [loopN, ok_bind] at h ⊢
    obtain ⟨x, r1, h1, h2⟩ := h
    refine ⟨x, r1, h1, ?_⟩
    cases x with
    | inl s' => exact ih h2 m (by omega)
    | inr b' => exact h2

theorem ok_loop {body : σ → Prog (σ ⊕ β)} {s : σ} {b : β} :
    Ok env (loop body s) r b r' ↔ Ok env (loopN body (r.length + 1) s) r b r' := Iff.rfl

theorem loop_done {body : σ → Prog (σ ⊕ β)} {s : σ} {b : β} (h : Ok env (body s) r (.inr b) r') :
    Ok env (loop body s) r b r' := by
  rw [ok_loop, loopN, ok_bind]
  exact ⟨_, _, h, ok_pure.2 ⟨rfl, rfl⟩⟩

theorem loop_more {body : σ → Prog (σ ⊕ β)} {s s1 : σ} {b : β} {r1 : List Cell}
    (h : Ok env (body s) r (.inl s1) r1) (hl : r1.length < r.length) (h1 : Ok env (loop body s1) r1 b r') :
    Ok env (loop body s) r b r' := by
  rw [ok_loop, loopN, ok_bind]
  refine ⟨_, _, h, ?_⟩
  exact ok_loopN_mono h1 _ (by omega)

/-- Induction over the rounds of a loop that returns. -/
theorem loop_ind {body : σ → Prog (σ ⊕ β)} {b : β} {P : σ → List Cell → Prop}
    (hd : ∀ s r, Ok env (body s) r (.inr b) r' → P s r)
    (hm : ∀ s r s1 r1, Ok env (body s) r (.inl s1) r1 → P s1 r1 → P s r) {s : σ} (h : Ok env (loop body s) r b r') :
    P s r := by
  rw [ok_loop] at h
  generalize r.length + 1 = n at h
  induction n generalizing s r with
  | zero => cases h
  | succ n ih =>
    rw [loopN, ok_bind] at h
    obtain ⟨x, r1, h1, h2⟩ := h
    cases x with
    | inl s' => exact hm _ _ _ _ h1 (ih h2)
    | inr b' =>
      obtain ⟨rfl, rfl⟩ := ok_pure.1 h2
      exact hd _ _ h1

/-- A loop each round of which consumes input does what a relation says that satisfies the equation of the loop. -/
theorem loop_iff {body : σ → Prog (σ ⊕ β)} {R : σ → List Cell → β → List Cell → Prop}
    (hdec : ∀ s r s1 r1, Ok env (body s) r (.inl s1) r1 → r1.length < r.length)
    (hstep : ∀ s r b r', R s r b r' ↔ Ok env (body s) r (.inr b) r' ∨
      ∃ s1 r1, Ok env (body s) r (.inl s1) r1 ∧ R s1 r1 b r') {s : σ} {b : β} :
    Ok env (loop body s) r b r' ↔ R s r b r' := by
  constructor
  · intro h
    exact loop_ind (P := fun s r => R s r b r') (fun s r h => (hstep s r b r').2 (.inl h))
      (fun s r s1 r1 h h1 => (hstep s r b r').2 (.inr ⟨s1, r1, h, h1⟩)) h
  · intro h
    suffices ∀ n s r, r.length ≤ n → R s r b r' → Ok env (loop body s) r b r' from this _ s r (Nat.le_refl _) h
    intro n
    induction n with
    | zero =>
      intro s r hl h
      rcases (hstep s r b r').1 h with h | ⟨s1, r1, h1, h2⟩
      · exact loop_done h
      · have := hdec _ _ _ _ h1; omega
    | succ n ih =>
      intro s r hl h
      rcases (hstep s r b r').1 h with h | ⟨s1, r1, h1, h2⟩
      · exact loop_done h
      · have := hdec _ _ _ _ h1
        exact loop_more h1 this (ih _ _ (by omega) h2)

theorem bind_p0 {f : Sym → Prog β} {b : β} : Ok env (p 0 >>= f) r b r' ↔ Ok env (f (headSym r)) r b r' := by
  cases r <;> exact Iff.rfl
theorem bind_p1 {f : Sym → Prog β} {b : β} (h : r ≠ []) :
    Ok env (p 1 >>= f) r b r' ↔ r.tail ≠ [] ∧ Ok env (f (headSym r.tail)) r b r' := by
  match r with
  | [] => exact absurd rfl h
  | [a] =>
    simp only [List.tail_cons, ne_eq, not_true, false_and, iff_false]
    exact fun h => by cases h
  | a :: c :: r =>
    simp only [List.tail_cons, ne_eq, reduceCtorEq, not_false_eq_true, true_and]
    exact Iff.rfl
theorem bind_seekCur {n : Nat} {f : Unit → Prog β} {b : β} :
    Ok env (seekCur n >>= f) r b r' ↔ n ≤ r.length ∧ Ok env (f ()) (r.drop n) b r' := by
  unfold seekCur
  show ((if n ≤ r.length then Prog.seek (r.drop n) (pure ()) else .fail .crash : Prog Unit).bind f).runWith tokGet env r
    = _ ↔ _
  by_cases h : n ≤ r.length
  · simp only [h, if_true, true_and]; exact Iff.rfl
  · simp only [h, if_false, false_and, iff_false]; exact fun h => by cases h

theorem ok_readInteger {v : Str} : Ok env readInteger r v r' ↔
    (∃ s r1 d, (s = '+' ∨ s = '-') ∧ Reads r [s] r1 ∧ Span isdigit r1 d r' ∧ v = s :: d) ∨
    (headSym r ≠ .ch '+' ∧ headSym r ≠ .ch '-' ∧ Span isdigit r v r') := by
  unfold readInteger
  simp only [bind_peekn, ok_ite, bind_getn, readDigit, bind_readWhile, ok_pure, ok_readWhile, get1_ch, not_or]
  rcases getn1_cases r with ⟨c, hc, hg, hr⟩ | ⟨h, hg⟩
  · rw [hg, hc]
    constructor
    · rintro (⟨h, d, r1, h1, rfl, rfl⟩ | ⟨h, h1⟩)
      · refine .inl ⟨c, r.tail, d, ?_, hr, h1, rfl⟩
        simpa [or_comm] using h
      · exact .inr ⟨h.2, h.1, h1⟩
    · rintro (⟨s, r1, d, h, h1, h2, rfl⟩ | ⟨h, h', h1⟩)
      · obtain ⟨h3, rfl⟩ := reads_one_iff.1 h1
        rw [hc] at h3
        cases h3
        exact .inl ⟨by simpa [or_comm] using h, d, _, h2, rfl, rfl⟩
      · exact .inr ⟨⟨h', h⟩, h1⟩
  · simp only [atEnd_not h]
    constructor
    · rintro (⟨h, _⟩ | ⟨h, h1⟩)
      · simp at h
      · exact .inr ⟨atEnd_not ‹_›, atEnd_not ‹_›, h1⟩
    · rintro (⟨s, r1, d, _, h1, h2, rfl⟩ | ⟨_, _, h1⟩)
      · exact absurd h1.head (atEnd_not h)
      · exact .inr ⟨by simp, h1⟩

end

/-- Unfold the steps of a program in a statement that it returns. -/
macro "ok_simp" loc:(Lean.Parser.Tactic.location)? : tactic =>
  `(tactic| simp only [bind_pure', bind_fail, bind_errAt, bind_errHere, bind_bind, bind_ite, bind_tell, bind_seekSet,
    bind_seekEnd, bind_getpos, bind_peek, bind_get, bind_getn, bind_peekn, bind_setpos, bind_readWhile, bind_skipWhite,
    bind_skipWC, bind_getline, bind_tokget, bind_tokpeek, bind_p0, bind_seekCur, ok_pure, ok_ite, ok_fail, ok_errAt, ok_errHere, readAlpha,
    readAlnum, readDigit, readWord, readNonwhite, get1_nil, get1_ch, get1_ends, get1_is1, endsSym_stop, endsSym_false,
    Bool.not_eq_true', and_false, false_and, or_false, false_or] $(loc)?)

end Viml
