/-
A program logic for `Prog`.  `wp T env m r Q F`: running `m` from the remaining input `r` either
returns `a, r'` with `Q a r'` or fails with `F e`.
-/
import Lean.Elab.Tactic
import Verif.Model.Token
import Verif.Lemmas.Input
import Verif.Spec.Token

namespace Viml
open Prog

/-! ### Environments and remaining input -/

/-- What every reader built by `mkEnv` satisfies. -/
structure EnvOK (env : Env) : Prop where
  idx : ∀ (k : Nat) (c : Cell), env.buf[k]? = some c → c.pos.i = k
  eofi : env.eof.i = env.buf.length
  last : env.buf = [] ∨ ∃ init q, env.buf = init ++ [⟨none, q⟩]

theorem mkEnv_ok (lines : List Str) : EnvOK (mkEnv lines) := by
  refine ⟨?_, rfl, ?_⟩
  · intro k c h
    have := reindex_get _ 0 k c h
    omega
  · rcases buildCells_last lines with rfl | ⟨init, q, e⟩
    · exact Or.inl rfl
    · right
      refine ⟨reindex 0 init, { q with i := 0 + init.length }, ?_⟩
      show reindex 0 (buildCells lines) = _
      rw [e, reindex_append]; rfl

/-- `r` is a state of the reader. -/
def Suf (env : Env) (r : List Cell) : Prop := r <:+ env.buf

theorem Suf.posOf {env : Env} {r : List Cell} (h : Suf env r) : PosOK env (posOf env r) := by
  cases r with
  | nil => exact Or.inr rfl
  | cons c r => exact Or.inl ⟨c, h.subset (by simp), rfl⟩

theorem Suf.nil (env : Env) : Suf env [] := List.nil_suffix

theorem Suf.self (env : Env) : Suf env env.buf := List.suffix_rfl

theorem Suf.of_suffix {env : Env} {r r' : List Cell} (h : Suf env r) (h' : r' <:+ r) : Suf env r' :=
  h'.trans h

theorem Suf.drop {env : Env} (n : Nat) : Suf env (env.buf.drop n) := List.drop_suffix _ _

/-- A non-empty rest ends with a line end. -/
theorem Suf.last {env : Env} (he : EnvOK env) {r : List Cell} (h : Suf env r) :
    r = [] ∨ ∃ init q, r = init ++ [⟨none, q⟩] := by
  rcases List.eq_nil_or_concat r with rfl | ⟨a, x, rfl⟩
  · exact Or.inl rfl
  · right
    obtain ⟨pre, hp⟩ := h
    rcases he.last with hl | ⟨init, q, hl⟩
    · rw [hl] at hp; simp at hp
    · rw [hl, List.concat_eq_append, ← List.append_assoc] at hp
      have := List.append_inj_right' hp rfl
      exact ⟨a, q, by rw [List.concat_eq_append, this]⟩

/-- The index of the reader position. -/
theorem Suf.index {env : Env} (he : EnvOK env) {r : List Cell} (h : Suf env r) :
    (Viml.posOf env r).i + r.length = env.buf.length := by
  obtain ⟨pre, hp⟩ := h
  cases r with
  | nil => simp [Viml.posOf, he.eofi]
  | cons c r =>
    have : env.buf[pre.length]? = some c := by rw [← hp]; simp
    have hi := he.idx _ _ this
    have hl := congrArg List.length hp
    simp only [List.length_append, List.length_cons] at hl
    simp only [Viml.posOf, List.length_cons, hi]
    omega

/-- Seeking to the position of a reader state restores that state. -/
theorem Suf.drop_pos {env : Env} (he : EnvOK env) {r : List Cell} (h : Suf env r) :
    env.buf.drop (Viml.posOf env r).i = r := by
  have hi := h.index he
  obtain ⟨pre, hp⟩ := h
  have hl := congrArg List.length hp
  rw [List.length_append] at hl
  have : (Viml.posOf env r).i = pre.length := by omega
  rw [this, ← hp]; simp

/-! ### Moving on the same line -/

/-- `r'` is reached from `r` by reading characters only, no line end. -/
def Adv (r r' : List Cell) : Prop := ∃ pre, r = pre ++ r' ∧ ∀ c ∈ pre, c.c ≠ none

/-- `Adv` with at least one character read. -/
def SAdv (r r' : List Cell) : Prop := Adv r r' ∧ r'.length < r.length

theorem Adv.refl (r : List Cell) : Adv r r := ⟨[], rfl, by simp⟩

theorem Adv.trans {a b c : List Cell} (h1 : Adv a b) (h2 : Adv b c) : Adv a c := by
  obtain ⟨p, rfl, hp⟩ := h1
  obtain ⟨q, rfl, hq⟩ := h2
  refine ⟨p ++ q, by simp, ?_⟩
  intro x hx
  rcases List.mem_append.1 hx with h | h
  · exact hp x h
  · exact hq x h

theorem Adv.length {a b : List Cell} (h : Adv a b) : b.length ≤ a.length := by
  obtain ⟨p, rfl, _⟩ := h; simp

theorem Adv.suffix {a b : List Cell} (h : Adv a b) : b <:+ a := by
  obtain ⟨p, rfl, _⟩ := h; exact ⟨p, rfl⟩

theorem Adv.suf {env : Env} {a b : List Cell} (h : Adv a b) (hs : Suf env a) : Suf env b :=
  hs.of_suffix h.suffix

theorem SAdv.adv {a b : List Cell} (h : SAdv a b) : Adv a b := h.1
theorem SAdv.lt {a b : List Cell} (h : SAdv a b) : b.length < a.length := h.2

theorem SAdv.trans_adv {a b c : List Cell} (h1 : SAdv a b) (h2 : Adv b c) : SAdv a c :=
  ⟨h1.1.trans h2, Nat.lt_of_le_of_lt h2.length h1.2⟩

theorem Adv.trans_sadv {a b c : List Cell} (h1 : Adv a b) (h2 : SAdv b c) : SAdv a c :=
  ⟨h1.trans h2.1, Nat.lt_of_lt_of_le h2.2 h1.length⟩

theorem SAdv.trans {a b c : List Cell} (h1 : SAdv a b) (h2 : SAdv b c) : SAdv a c :=
  h1.trans_adv h2.1

theorem SAdv.suf {env : Env} {a b : List Cell} (h : SAdv a b) (hs : Suf env a) : Suf env b :=
  h.1.suf hs

theorem SAdv.cons {c : Cell} {r : List Cell} (h : c.c ≠ none) : SAdv (c :: r) r :=
  ⟨⟨[c], rfl, by simpa using h⟩, by simp⟩

/-- Two states reached from the same one on the same line are comparable, and the part between
them has no line end. -/
theorem Adv.split {a b c : List Cell} (h1 : Adv a b) (h2 : Adv a c) (hl : c.length ≤ b.length) :
    Adv b c := by
  obtain ⟨p, rfl, hp⟩ := h1
  obtain ⟨q, hq, hqe⟩ := h2
  have hlen := congrArg List.length hq
  simp only [List.length_append] at hlen
  refine ⟨b.take (b.length - c.length), ?_, ?_⟩
  · have : c <:+ p ++ b := ⟨q, hq.symm⟩
    have h2 : b <:+ p ++ b := ⟨p, rfl⟩
    have h3 : c <:+ b := List.suffix_of_suffix_length_le this h2 hl
    obtain ⟨t, ht⟩ := h3
    have hll := congrArg List.length ht
    simp only [List.length_append] at hll
    have : b.length - c.length = t.length := by omega
    rw [this]
    have e2 : b.take t.length = t := by rw [← ht]; simp
    rw [e2, ht]
  · intro x hx
    apply hqe
    have hpq : p ++ b.take (b.length - c.length) = q := by
      have h3 : c <:+ b := List.suffix_of_suffix_length_le ⟨q, hq.symm⟩ ⟨p, rfl⟩ hl
      obtain ⟨t, ht⟩ := h3
      have hll := congrArg List.length ht
      simp only [List.length_append] at hll
      have e1 : b.length - c.length = t.length := by omega
      rw [e1]
      have e2 : b.take t.length = t := by rw [← ht]; simp
      rw [e2]
      have : (p ++ t) ++ c = q ++ c := by rw [List.append_assoc, ht, hq]
      exact List.append_cancel_right this
    rw [← hpq]
    exact List.mem_append_right _ hx

/-! ### Weakest preconditions -/

/-- Running `m` from `r` returns with `Q` or fails with `F`. -/
def wp {α : Type} (T : Env → List Cell → Res Token) (env : Env) (m : Prog α) (r : List Cell)
    (Q : α → List Cell → Prop) (F : Fail → Prop) : Prop :=
  match m.runWith T env r with
  | .ok a r' => Q a r'
  | .fail e => F e

theorem runWith_bind {α β : Type} (T : Env → List Cell → Res Token) (env : Env) (m : Prog α)
    (f : α → Prog β) (r : List Cell) :
    (m >>= f).runWith T env r =
      match m.runWith T env r with
      | .ok a r' => (f a).runWith T env r'
      | .fail e => .fail e := by
  show (Prog.bind m f).runWith T env r = _
  induction m generalizing r with
  | ret a => rfl
  | fail e => rfl
  | ask k ih => exact ih env r
  | tell k ih => exact ih r r
  | seek s k ih => exact ih s
  | tok k ih =>
    simp only [Prog.bind, Prog.runWith]
    cases T env r with
    | ok t r' => exact ih t r'
    | fail e => rfl

section
variable {T : Env → List Cell → Res Token} {env : Env} {r : List Cell} {F : Fail → Prop}

theorem wp_bind {α β : Type} {m : Prog α} {f : α → Prog β} {Q : β → List Cell → Prop}
    (h : wp T env m r (fun a r' => wp T env (f a) r' Q F) F) : wp T env (m >>= f) r Q F := by
  unfold wp at *
  rw [runWith_bind]
  cases h' : m.runWith T env r with
  | ok a r' => rw [h'] at h; exact h
  | fail e => rw [h'] at h; exact h

theorem wp_mono {α : Type} {m : Prog α} {Q Q' : α → List Cell → Prop}
    (h : wp T env m r Q F) (hq : ∀ a r', Q a r' → Q' a r') : wp T env m r Q' F := by
  unfold wp at *
  cases h' : m.runWith T env r with
  | ok a r' => rw [h'] at h; exact hq a r' h
  | fail e => rw [h'] at h; exact h

theorem wp_monoF {α : Type} {m : Prog α} {Q Q' : α → List Cell → Prop} {F' : Fail → Prop}
    (h : wp T env m r Q F) (hq : ∀ a r', Q a r' → Q' a r') (hf : ∀ e, F e → F' e) :
    wp T env m r Q' F' := by
  unfold wp at *
  cases h' : m.runWith T env r with
  | ok a r' => rw [h'] at h; exact hq a r' h
  | fail e => rw [h'] at h; exact hf e h

theorem wp_and {α : Type} {m : Prog α} {Q Q' : α → List Cell → Prop} {F' : Fail → Prop}
    (h : wp T env m r Q F) (h2 : wp T env m r Q' F') :
    wp T env m r (fun a r' => Q a r' ∧ Q' a r') (fun e => F e ∧ F' e) := by
  unfold wp at *
  cases h' : m.runWith T env r with
  | ok a r' => rw [h'] at h h2; exact ⟨h, h2⟩
  | fail e => rw [h'] at h h2; exact ⟨h, h2⟩

/-- Use of a specification inside a `do` block. -/
theorem wp_call {α β : Type} {m : Prog α} {f : α → Prog β} {P : α → List Cell → Prop}
    {Q : β → List Cell → Prop}
    (h : wp T env m r P F) (hf : ∀ a r', P a r' → wp T env (f a) r' Q F) :
    wp T env (m >>= f) r Q F :=
  wp_bind (wp_mono h hf)

theorem wp_run {α : Type} {m : Prog α} {Q : α → List Cell → Prop}
    (h : wp T env m r Q F) {a : α} {r' : List Cell} (e : m.runWith T env r = .ok a r') : Q a r' := by
  unfold wp at h; rw [e] at h; exact h

theorem wp_runF {α : Type} {m : Prog α} {Q : α → List Cell → Prop}
    (h : wp T env m r Q F) {e : Fail} (he : m.runWith T env r = .fail e) : F e := by
  unfold wp at h; rw [he] at h; exact h

theorem wp_pure {α : Type} {a : α} {Q : α → List Cell → Prop} (h : Q a r) :
    wp T env (pure a) r Q F := h

theorem wp_fail {α : Type} {e : Fail} {Q : α → List Cell → Prop} (h : F e) :
    wp T env (.fail e : Prog α) r Q F := h

theorem wp_tell {Q : List Cell → List Cell → Prop} (h : Q r r) : wp T env tell r Q F := h

theorem wp_seekSet {s : List Cell} {Q : Unit → List Cell → Prop} (h : Q () s) :
    wp T env (seekSet s) r Q F := h

theorem wp_seekEnd {Q : Unit → List Cell → Prop} (h : Q () []) : wp T env seekEnd r Q F := h

theorem wp_seekCur {n : Nat} {Q : Unit → List Cell → Prop} (hn : n ≤ r.length)
    (h : Q () (r.drop n)) : wp T env (seekCur n) r Q F := by
  unfold wp seekCur
  simp only [Prog.runWith, if_pos hn]
  exact h

/-- The symbol `k` cells ahead. -/
def symAt (k : Nat) (r : List Cell) : Sym :=
  match r[k]? with
  | some c => c.sym
  | none => .eof

theorem symAt_zero (r : List Cell) : symAt 0 r = headSym r := by cases r <;> rfl

theorem wp_peek {Q : Sym → List Cell → Prop} (h : Q (headSym r) r) : wp T env peek r Q F := by
  cases r <;> exact h

theorem wp_get {Q : Sym → List Cell → Prop} (h : Q (headSym r) r.tail) : wp T env get r Q F := by
  cases r <;> exact h

theorem wp_p {k : Nat} {Q : Sym → List Cell → Prop} (hs : r = [] ∨ k < r.length)
    (h : Q (symAt k r) r) : wp T env (p k) r Q F := by
  unfold wp p
  cases r with
  | nil => exact h
  | cons c cs =>
    have hk : k < (c :: cs).length := by simpa using hs
    simp only [Prog.runWith]
    unfold symAt at h
    rw [List.getElem?_eq_getElem hk] at h ⊢
    exact h

theorem wp_eof {Q : Bool → List Cell → Prop} (h : Q r.isEmpty r) : wp T env eof r Q F := h

theorem wp_getn {n : Nat} {Q : Str → List Cell → Prop} (h : Q (getnS n r).1 (getnS n r).2) :
    wp T env (getn n) r Q F := h
theorem wp_peekn {n : Nat} {Q : Str → List Cell → Prop} (h : Q (getnS n r).1 r) :
    wp T env (peekn n) r Q F := h
theorem wp_getline {Q : Str → List Cell → Prop}
    (h : Q (spanS (fun _ => true) r).1 (spanS (fun _ => true) r).2) :
    wp T env getline r Q F := h
theorem wp_peekline {Q : Str → List Cell → Prop} (h : Q (spanS (fun _ => true) r).1 r) :
    wp T env peekline r Q F := h
theorem wp_readWhile {f : Char → Bool} {Q : Str → List Cell → Prop}
    (h : Q (spanS f r).1 (spanS f r).2) : wp T env (readWhile f) r Q F := h
theorem wp_skipWhite {Q : Unit → List Cell → Prop} (h : Q () (spanS iswhite r).2) :
    wp T env skipWhite r Q F := h
theorem wp_skipWhiteAndColon {Q : Unit → List Cell → Prop}
    (h : Q () (spanS (fun c => iswhite c || c == ':') r).2) :
    wp T env skipWhiteAndColon r Q F := h
theorem wp_getpos {Q : Pos → List Cell → Prop} (h : Q (posOf env r) r) :
    wp T env getpos r Q F := by cases r <;> exact h
theorem wp_setpos {q : Pos} {Q : Unit → List Cell → Prop} (h : Q () (env.buf.drop q.i)) :
    wp T env (setpos q) r Q F := h
theorem wp_getstr {b e : Pos} {Q : Str → List Cell → Prop}
    (h : Q (cellsText ((env.buf.drop b.i).take (e.i - b.i))) r) :
    wp T env (getstr b e) r Q F := h
theorem wp_errAt {α : Type} {msg : Str} {q : Pos} {Q : α → List Cell → Prop} (h : F (.err msg q)) :
    wp T env (errAt msg q : Prog α) r Q F := h
theorem wp_errHere {α : Type} {msg : Str} {Q : α → List Cell → Prop}
    (h : F (.err msg (posOf env r))) : wp T env (errHere msg : Prog α) r Q F := by
  cases r <;> exact h

theorem wp_pand {a b : Prog Bool} {Q : Bool → List Cell → Prop}
    (h : wp T env a r (fun x r' => if x then wp T env b r' Q F else Q false r') F) :
    wp T env (pand a b) r Q F := by
  unfold pand
  refine wp_bind (wp_mono h ?_)
  intro x r' hx
  cases x <;> exact hx

theorem wp_por {a b : Prog Bool} {Q : Bool → List Cell → Prop}
    (h : wp T env a r (fun x r' => if x then Q true r' else wp T env b r' Q F) F) :
    wp T env (por a b) r Q F := by
  unfold por
  refine wp_bind (wp_mono h ?_)
  intro x r' hx
  cases x <;> exact hx

theorem wp_pIs {k : Nat} {c : Char} {Q : Bool → List Cell → Prop} (hs : r = [] ∨ k < r.length)
    (h : Q (decide (symAt k r = .ch c)) r) : wp T env (pIs k c) r Q F :=
  wp_bind (wp_p hs (wp_pure h))

theorem wp_pSat {k : Nat} {f : Char → Bool} {Q : Bool → List Cell → Prop}
    (hs : r = [] ∨ k < r.length)
    (h : Q ((symAt k r).is f) r) : wp T env (pSat k f) r Q F :=
  wp_bind (wp_p hs (wp_pure h))

theorem wp_ite {α : Type} {c : Prop} [Decidable c] {a b : Prog α} {Q : α → List Cell → Prop}
    (h1 : c → wp T env a r Q F) (h2 : ¬ c → wp T env b r Q F) :
    wp T env (if c then a else b) r Q F := by
  split
  · exact h1 ‹_›
  · exact h2 ‹_›

/-- The join point after a conditional statement in the middle of a `do` block. -/
theorem wp_jp {α β : Type} {f : β → Prog α} {body : (β → Prog α) → Prog α}
    {Q : α → List Cell → Prop} (R : β → List Cell → Prop)
    (hb : ∀ jp : β → Prog α, (∀ x r', R x r' → wp T env (jp x) r' Q F) → wp T env (body jp) r Q F)
    (hf : ∀ x r', R x r' → wp T env (f x) r' Q F) :
    wp T env (body f) r Q F := hb f hf

/-- Loops: an invariant, and every further iteration consumes input. -/
theorem wp_loop {σ β : Type} {body : σ → Prog (σ ⊕ β)} {s : σ} {Q : β → List Cell → Prop}
    (I : σ → List Cell → Prop) (h0 : I s r)
    (hb : ∀ s r, I s r → wp T env (body s) r
      (fun x r' => match x with
        | .inl s' => r'.length < r.length ∧ I s' r'
        | .inr b => Q b r') F) :
    wp T env (loop body s) r Q F := by
  have key : ∀ n s r, r.length < n → I s r → wp T env (loopN body n s) r Q F := by
    intro n
    induction n with
    | zero => intro s r h; omega
    | succ n ih =>
      intro s r hn hi
      unfold loopN
      refine wp_call (hb s r hi) ?_
      intro x r' hx
      cases x with
      | inl s' => exact ih s' r' (by omega) hx.2
      | inr b => exact hx
  exact key (r.length + 1) s r (Nat.lt_succ_self _) h0

end

open Lean Elab Tactic Meta in
/-- `wp_join R` splits a goal `wp (have jp := f; body) ..` into the specification of the body, where
the join point `jp` may be assumed to meet `R`, and the proof that `f` meets it.  Other local
definitions in front are substituted. -/
elab "wp_join " R:term:max : tactic => do
  let g ← getMainGoal
  g.withContext do
    let tgt ← instantiateMVars (← g.getType)
    let tgt := tgt.consumeMData
    let args := tgt.getAppArgs
    unless tgt.isAppOf ``wp && args.size == 7 do throwError "wp_join: goal is not a wp"
    let mut m := args[3]!.consumeMData
    while m.isLet && !m.letType!.isForall do
      m := (m.letBody!.instantiate1 m.letValue!).consumeMData
    match m with
    | .letE n t v b _ =>
      let f ← Term.exprToSyntax v
      let body ← Term.exprToSyntax (.lam n t b .default)
      evalTactic (← `(tactic| refine wp_jp (f := $f) (body := $body) $R ?_ ?_))
    | _ => throwError "wp_join: no join point"

/-! ### Spans -/

theorem getnS_adv (n : Nat) (r : List Cell) : Adv r (getnS n r).2 := by
  induction n generalizing r with
  | zero => exact Adv.refl r
  | succ n ih =>
    cases r with
    | nil => exact Adv.refl _
    | cons c r =>
      unfold getnS
      cases hc : c.c with
      | none => exact Adv.refl _
      | some ch => exact (SAdv.cons (by simp [hc])).1.trans (ih r)

theorem spanS_adv (f : Char → Bool) (r : List Cell) : Adv r (spanS f r).2 := by
  induction r with
  | nil => exact Adv.refl _
  | cons c r ih =>
    unfold spanS
    cases hc : c.c with
    | none => exact Adv.refl _
    | some ch =>
      simp only
      split
      · exact (SAdv.cons (by simp [hc])).1.trans ih
      · exact Adv.refl _

/-- The cells of a span are the characters returned. -/
theorem spanS_text (f : Char → Bool) (r : List Cell) :
    ∃ pre, r = pre ++ (spanS f r).2 ∧ pre.map Cell.c = (spanS f r).1.map some := by
  induction r with
  | nil => exact ⟨[], rfl, rfl⟩
  | cons c r ih =>
    unfold spanS
    cases hc : c.c with
    | none => exact ⟨[], rfl, rfl⟩
    | some ch =>
      simp only
      split
      · obtain ⟨pre, h1, h2⟩ := ih
        exact ⟨c :: pre, by simp [← h1], by simp [hc, h2]⟩
      · exact ⟨[], rfl, rfl⟩

theorem spanS_all (f : Char → Bool) (r : List Cell) : ∀ c ∈ (spanS f r).1, f c = true := by
  induction r with
  | nil => simp [spanS]
  | cons c r ih =>
    unfold spanS
    cases hc : c.c with
    | none => simp
    | some ch =>
      simp only
      split
      · intro x hx
        rcases List.mem_cons.1 hx with rfl | hx
        · assumption
        · exact ih x hx
      · simp

/-- A span is maximal. -/
theorem spanS_stop (f : Char → Bool) (r : List Cell) (ch : Char)
    (h : headSym (spanS f r).2 = .ch ch) : f ch = false := by
  induction r with
  | nil => simp [spanS, headSym] at h
  | cons c r ih =>
    unfold spanS at h
    cases hc : c.c with
    | none => rw [hc] at h; simp [headSym, Cell.sym, hc] at h
    | some d =>
      rw [hc] at h
      simp only at h
      by_cases hf : f d
      · rw [if_pos hf] at h; exact ih h
      · rw [if_neg hf] at h
        simp only [headSym, Cell.sym, hc, Sym.ch.injEq] at h
        subst h
        simpa using hf

theorem getnS_text (n : Nat) (r : List Cell) :
    ∃ pre, r = pre ++ (getnS n r).2 ∧ pre.map Cell.c = (getnS n r).1.map some := by
  induction n generalizing r with
  | zero => exact ⟨[], rfl, rfl⟩
  | succ n ih =>
    cases r with
    | nil => exact ⟨[], rfl, rfl⟩
    | cons c r =>
      unfold getnS
      cases hc : c.c with
      | none => exact ⟨[], rfl, rfl⟩
      | some ch =>
        obtain ⟨pre, h1, h2⟩ := ih r
        exact ⟨c :: pre, by simp [← h1], by simp [hc, h2]⟩

theorem getnS_length (n : Nat) (r : List Cell) : (getnS n r).1.length ≤ n := by
  induction n generalizing r with
  | zero => simp [getnS]
  | succ n ih =>
    cases r with
    | nil => simp [getnS]
    | cons c r =>
      unfold getnS
      cases hc : c.c with
      | none => simp
      | some ch => simp only [List.length_cons]; have := ih r; omega

theorem headSym_cons (c : Cell) (r : List Cell) : headSym (c :: r) = c.sym := rfl

theorem headSym_ch {r : List Cell} {ch : Char} (h : headSym r = .ch ch) :
    ∃ c r', r = c :: r' ∧ c.c = some ch := by
  cases r with
  | nil => simp [headSym] at h
  | cons c r =>
    refine ⟨c, r, rfl, ?_⟩
    simp only [headSym, Cell.sym] at h
    cases hc : c.c with
    | none => rw [hc] at h; simp at h
    | some d => rw [hc] at h; simpa using h

theorem headSym_eol {r : List Cell} (h : headSym r = .eol) :
    ∃ c r', r = c :: r' ∧ c.c = none := by
  cases r with
  | nil => simp [headSym] at h
  | cons c r =>
    refine ⟨c, r, rfl, ?_⟩
    simp only [headSym, Cell.sym] at h
    cases hc : c.c with
    | none => rfl
    | some d => rw [hc] at h; simp at h

theorem headSym_eof {r : List Cell} (h : headSym r = .eof) : r = [] := by
  cases r with
  | nil => rfl
  | cons c r =>
    simp only [headSym, Cell.sym] at h
    cases hc : c.c <;> rw [hc] at h <;> simp at h

end Viml
