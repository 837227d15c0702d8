/-
Carrying the errors of a file over to another place.

`Carry` (`Carry.lean`) carries correct text; here the whole text of a file is moved behind other text, and the errors in
it are moved too.  The premises of the error rules are carried one by one: `Mv μ P Q` says that `P` about a place gives
`Q` about the place it is moved to, and `Mi` that they are equivalent.
-/
import Verif.Lemmas.CarryBlock
import Verif.Spec.NumError

namespace Viml
open Spec Ast

namespace Carry
variable {env env' : Env} {fn : Str} {κ : Carry env env' fn} {r : List Cell}

theorem blobRun_back {s : Str} {t : List Cell} (h : κ.In r) (hs : BlobRun s t) : t = κ.tr r → BlobRun s r := by
  induction hs with
  | stop t h1 h2 h3 =>
    rintro rfl
    rw [getn 2 h] at h1 h2 h3
    exact .stop _ h1 h2 h3
  | pair a b s t h1 h2 _ ih => exact fun e => .pair a b s _ h1 h2 (ih e)
  | dot s t h1 _ ih =>
    rintro rfl
    rw [nextSym h] at h1
    exact .dot s _ h1 (ih rfl)

theorem lexeme_back {ty : TT} {v : Str} (h : κ.In r) (hl : Lexeme ty v (κ.tr r)) : Lexeme ty v r := by
  cases hl
  case dec h1 h2 h3 h4 =>
    rw [head h] at h2 h3
    refine .dec _ _ h1 h2 ?_ (fun e => by rw [← zeroPrefix h]; exact h4 e)
    rintro ⟨e1, e2⟩
    exact h3 ⟨e1, by rw [after h e1]; exact e2⟩
  case float h1 h2 h3 h4 =>
    rw [head h] at h3; rw [expStart h] at h4
    exact .float _ _ _ h1 h2 h3 h4
  case blob h1 h2 h3 =>
    rw [nextSym h] at h2
    exact .blob _ _ _ h1 h2 (blobRun_back h h3 rfl)
  case bin h1 h2 h3 => rw [head h] at h3; exact .bin _ _ _ h1 h2 h3
  case exp h1 h2 h3 h4 => rw [head h] at h4; exact .exp _ _ _ _ h1 h2 h3 h4
  case option h1 h2 h3 h4 => rw [head h] at h2 h3 h4; exact .option _ _ h1 h2 h3 h4
  case optScope h1 h2 h3 => rw [head h] at h3; exact .optScope _ _ _ h1 h2 h3
  case reg => exact .reg _ _
  case regEnd h1 => rw [head h] at h1; exact .regEnd _ h1
  all_goals constructor <;> first | assumption | (rw [← head h]; assumption)

end Carry

/-- The text of `env` stands in `env'`; `mp` moves the positions. -/
structure Mover (env env' : Env) (fn : Str) where
  κ : Carry env env' fn
  bd : κ.bd
  mp : Pos → Pos
  pos : ∀ c, (κ.f c).pos = mp c.pos
  eof : env'.eof = mp env.eof
  buf : ∀ r, r <:+ env.buf → ∃ r', r' <:+ env'.buf ∧ Spec.here env' fn r' = κ.m (Spec.here env fn r) ∧
    Viml.posOf env' r' = mp (Viml.posOf env r)

namespace Mover
variable {env env' : Env} {fn : Str} (μ : Mover env env' fn) {r r' : List Cell}

/-- The place `r` is moved to. -/
abbrev tr (r : List Cell) : List Cell := μ.κ.tr r

/-- A moved token. -/
@[reducible] def tok (t : Token) : Token := ⟨t.ty, t.value, μ.mp t.pos⟩

theorem all (r : List Cell) : μ.κ.In r := Carry.bd_in μ.bd r

theorem nil : μ.tr [] = [] := Carry.tr_nil μ.bd

theorem cons (c : Cell) (r : List Cell) : μ.tr (c :: r) = μ.κ.f c :: μ.tr r := Carry.tr_cons (μ.all r).to

theorem posOf (r : List Cell) : Viml.posOf env' (μ.tr r) = μ.mp (Viml.posOf env r) := by
  cases r with
  | nil => rw [nil]; exact μ.eof
  | cons c r => rw [cons]; exact μ.pos c

theorem tail (r : List Cell) : (μ.tr r).tail = μ.tr r.tail := by
  cases r with
  | nil => rw [nil]; exact μ.nil.symm
  | cons c r => rw [cons]; rfl

theorem map (r : List Cell) : μ.tr r = r.map μ.κ.f := by
  induction r with
  | nil => exact μ.nil
  | cons c r ih => rw [cons, ih]; rfl

theorem suf {r s : List Cell} (h : r <:+ s) : μ.tr r <:+ μ.tr s := by
  rw [map, map]; exact h.map _

end Mover

/-- A claim about a place and the claim about the place it is moved to. -/
class Mv {env env' : Env} {fn : Str} (μ : Mover env env' fn) (P : Prop) (Q : outParam Prop) : Prop where
  mv : P → Q

/-- The same, in both directions. -/
class Mi {env env' : Env} {fn : Str} (μ : Mover env env' fn) (P : Prop) (Q : outParam Prop) : Prop where
  mi : P ↔ Q

variable {env env' : Env} {fn : Str} {μ : Mover env env' fn} {r r' r1 r2 rc : List Cell} {P P' Q Q' : Prop}

theorem mv (μ : Mover env env' fn) [Mv μ P Q] (h : P) : Q := Mv.mv μ h

instance (priority := 10) : Mi μ P P := ⟨Iff.rfl⟩
instance (priority := 500) [Mi μ P Q] : Mv μ P Q := ⟨(Mi.mi μ).1⟩
instance [Mv μ P Q] [Mv μ P' Q'] : Mv μ (P ∧ P') (Q ∧ Q') := ⟨fun h => ⟨mv μ h.1, mv μ h.2⟩⟩
instance [Mv μ P Q] [Mv μ P' Q'] : Mv μ (P ∨ P') (Q ∨ Q') := ⟨Or.imp (mv μ) (mv μ)⟩
instance [Mi μ P Q] : Mi μ (¬ P) (¬ Q) := ⟨not_congr (Mi.mi μ)⟩
instance [Mi μ P Q] [Mi μ P' Q'] : Mi μ (P ∧ P') (Q ∧ Q') := ⟨and_congr (Mi.mi μ) (Mi.mi μ)⟩
instance [Mi μ P Q] [Mi μ P' Q'] : Mi μ (P ∨ P') (Q ∨ Q') := ⟨or_congr (Mi.mi μ) (Mi.mi μ)⟩

/-! ### Text -/

instance {s : Sym} : Mi μ (headSym r = s) (headSym (μ.tr r) = s) := ⟨by rw [Carry.head (μ.all r)]⟩
instance {s : Sym} : Mi μ (headSym r ≠ s) (headSym (μ.tr r) ≠ s) := ⟨by rw [Carry.head (μ.all r)]⟩
instance {f : Char → Bool} {b : Bool} : Mi μ ((headSym r).is f = b) ((headSym (μ.tr r)).is f = b) :=
  ⟨by rw [Carry.head (μ.all r)]⟩
instance : Mi μ (AtEnd r) (AtEnd (μ.tr r)) := ⟨(Carry.atEnd (μ.all r)).symm⟩
instance : Mi μ (AtStop r) (AtStop (μ.tr r)) := ⟨(Carry.atStop (μ.all r)).symm⟩
instance {v : Str} : Mi μ (StartsWith r v) (StartsWith (μ.tr r) v) := ⟨(Carry.starts (μ.all r) v).symm⟩
instance {v : Str} : Mv μ (Reads r v r') (Reads (μ.tr r) v (μ.tr r')) := ⟨fun h => (Carry.reads (μ.all r) h).2⟩
instance {g : Char → Bool} {v : Str} : Mv μ (Span g r v r') (Span g (μ.tr r) v (μ.tr r')) :=
  ⟨fun h => (Carry.span (μ.all r) h).2⟩
instance : Mv μ (Skip r r') (Skip (μ.tr r) (μ.tr r')) := ⟨fun h => (Carry.skip (μ.all r) h).2⟩
instance : Mv μ (SkipC r r') (SkipC (μ.tr r) (μ.tr r')) := ⟨fun h => (Carry.skipC (μ.all r) h).2⟩
instance : Mv μ (Blanks r r') (Blanks (μ.tr r) (μ.tr r')) := ⟨fun h => (Carry.blanks (μ.all r) h).2⟩
instance {l : Str} : Mv μ (RestOf r l r') (RestOf (μ.tr r) l (μ.tr r')) := ⟨fun h => (Carry.rest (μ.all r) h).2⟩
instance : Mv μ (r = r') (μ.tr r = μ.tr r') := ⟨congrArg _⟩

theorem reads_back (μ : Mover env env' fn) {v : Str} {t : List Cell} (h : Reads (μ.tr r) v t) :
    ∃ r', Reads r v r' ∧ t = μ.tr r' := by
  obtain ⟨r', h1, _, h2⟩ := Carry.reads_back (μ.all r) h
  exact ⟨r', h1, h2⟩

theorem span_back (μ : Mover env env' fn) {g : Char → Bool} {v : Str} {t : List Cell} (h : Span g (μ.tr r) v t) :
    ∃ r', Span g r v r' ∧ t = μ.tr r' := by
  obtain ⟨h1, h2, h3⟩ := h
  obtain ⟨r', h4, rfl⟩ := reads_back μ h1
  exact ⟨r', ⟨h4, h2, by rw [← Carry.head (μ.all r')]; exact h3⟩, rfl⟩

/-! ### Tokens -/

instance {t : Token} : Mv μ (Lex env r t r') (Lex env' (μ.tr r) (μ.tok t) (μ.tr r')) := ⟨fun hl => by
  cases hl with
  | eof w r h1 h2 =>
    have h3 := mv μ h1
    rw [μ.nil] at h3 ⊢
    have := Lex.eof (env := env') w _ h3 h2
    rw [μ.eof] at this
    exact this
  | eol w r c r' h1 h2 h3 =>
    have h4 := mv μ h1
    rw [μ.cons] at h4
    have := Lex.eol (env := env') w _ _ _ h4 h2 (by rw [μ.κ.char, h3])
    rw [μ.pos] at this
    exact this
  | text w r r1 ty v r' h1 h2 h3 h4 =>
    have := Lex.text (env := env') w _ _ ty v _ (mv μ h1) h2 (mv μ h3) (Carry.lexeme (μ.all _) h4)
    rw [μ.posOf] at this
    exact this⟩

theorem lex_back (μ : Mover env env' fn) {t : Token} {s : List Cell} (hl : Lex env' (μ.tr r) t s) :
    ∃ t0 r', Lex env r t0 r' ∧ t.ty = t0.ty ∧ s = μ.tr r' := by
  cases hl with
  | eof w _ h1 h2 =>
    obtain ⟨r', h3, h4⟩ := reads_back μ h1
    cases r' with
    | nil => exact ⟨_, _, .eof w _ h3 h2, rfl, h4⟩
    | cons c r' => rw [μ.cons] at h4; cases h4
  | eol w _ c s h1 h2 h3 =>
    obtain ⟨r', h4, h5⟩ := reads_back μ h1
    cases r' with
    | nil => rw [μ.nil] at h5; cases h5
    | cons c0 r' =>
      rw [μ.cons] at h5
      injection h5 with e1 e2
      exact ⟨_, _, .eol w _ _ _ h4 h2 (by rw [← μ.κ.char, ← e1, h3]), rfl, e2⟩
  | text w _ s1 ty v _ h1 h2 h3 h4 =>
    obtain ⟨a, h5, rfl⟩ := reads_back μ h1
    obtain ⟨b, h6, rfl⟩ := reads_back μ h3
    exact ⟨_, _, .text w _ _ ty v _ h5 h2 h6 (Carry.lexeme_back (μ.all _) h4), rfl, rfl⟩

instance {ty : TT} {q : Ast.Pos} : Mv μ (Mark env fn r ty q r') (Mark env' fn (μ.tr r) ty (μ.κ.m q) (μ.tr r')) := ⟨by
  rintro ⟨t, h1, h2, rfl⟩
  refine ⟨_, mv μ h1, h2, ?_⟩
  obtain ⟨c, e⟩ : ∃ c : Cell, c.pos = t.pos := ⟨⟨none, t.pos⟩, rfl⟩
  show _ = pubPos fn (μ.mp t.pos)
  rw [← e, ← μ.pos, μ.κ.pos]⟩

instance {p : TT → Prop} : Mv μ (Next env r p) (Next env' (μ.tr r) p) := ⟨by
  rintro ⟨t, r', h1, h2⟩
  exact ⟨_, _, mv μ h1, h2⟩⟩

instance : Mv μ (NotLambda env r) (NotLambda env' (μ.tr r)) := ⟨Carry.notLambda (μ.all r) (.inr μ.bd)⟩

instance {used : List Str} {ps : List Ident} : Mv μ (LamParams env fn used r ps r')
    (LamParams env' fn used (μ.tr r) (ps.map (Ident.onPos μ.κ.m)) (μ.tr r')) :=
  ⟨fun h => (Carry.lamParams h (μ.all r)).2⟩

/-! ### Expressions -/

instance {k : Nat} {e : Expr} : Mv μ (Gram env fn k r e r') (Gram env' fn k (μ.tr r) (e.onPos μ.κ.m) (μ.tr r')) :=
  ⟨fun h => (Carry.gram h (μ.all r)).2⟩
instance {k : Nat} {e : Expr} : Mv μ (Chain env fn k r e r') (Chain env' fn k (μ.tr r) (e.onPos μ.κ.m) (μ.tr r')) :=
  ⟨fun h => (Carry.chain h (μ.all r)).2⟩
instance {lit : Bool} {k : Expr} : Mv μ (Key env fn lit r k r') (Key env' fn lit (μ.tr r) (k.onPos μ.κ.m) (μ.tr r')) :=
  ⟨fun h => (Carry.key h (μ.all r)).2⟩

/-- The last step of moving a rule of an error. -/
macro "moved " t:term : tactic =>
  `(tactic| first | exact $t | (rw [← Mover.posOf]; exact $t) | (rw [← Mover.eof]; exact $t))

end Viml
