/-
Errors in the first lines of a file do not depend on the lines that follow.

`Cutter` is a `Carry` that leaves the cells of the first lines as they are.  The premises of the error rules are carried one
by one: `Fw κ P Q` says that `P` about a place in the first lines gives `Q` about it in the other file, and that the place
after it is in the first lines too; `Ft` is the same for premises that read nothing; and `Fe` is for errors, which are
carried or point behind the first lines.
-/
import Verif.Lemmas.Forward
import Verif.Lemmas.MoverFile

namespace Viml
open Spec Ast

/-- The lines before the rest `κ.q0` are followed by `κ.q` instead, which starts with a token. -/
structure Cutter (env env' : Env) (fn : Str) where
  κ : Carry env env' fn
  nbd : ¬ κ.bd
  f : ∀ c, κ.f c = c
  start : κ.In env.buf
  buf : κ.tr env.buf <:+ env'.buf
  lex : ∃ t r', Lex env' κ.q t r'

namespace Cutter
variable {env env' : Env} {fn : Str} (κ : Cutter env env' fn) {r r' s : List Cell}

/-- `r` is in the first lines. -/
abbrev In (r : List Cell) : Prop := κ.κ.In r

/-- The place `r` in the other file. -/
abbrev tr (r : List Cell) : List Cell := κ.κ.tr r

/-- The position `q` is behind the first lines. -/
abbrev Out (q : Pos) : Prop := At env κ.κ.q0 q

theorem cons (h : κ.In r) : ∃ c s, r = c :: s := by
  cases h with
  | eof h => exact absurd h κ.nbd
  | eol => exact ⟨_, _, rfl⟩
  | cons => exact ⟨_, _, rfl⟩

theorem posOf (h : κ.In r) : Viml.posOf env' (κ.tr r) = Viml.posOf env r := by
  obtain ⟨c, s, rfl⟩ := κ.cons h
  rw [Cutter.tr, Carry.tr_cons h.tail, κ.f]
  rfl

theorem suf (h : κ.In r) (hs : s <:+ r) : κ.In s ∨ s <:+ κ.κ.q0 := by
  induction h with
  | eof h => exact absurd h κ.nbd
  | eol h =>
    rcases List.suffix_cons_iff.1 hs with rfl | hs
    · exact .inl (.eol h)
    · exact .inr hs
  | cons h ih =>
    rcases List.suffix_cons_iff.1 hs with rfl | hs
    · exact .inl (.cons h)
    · exact ih hs

theorem tr_suf (h : κ.κ.To r) (hs : s <:+ r) (h' : κ.κ.To s) : κ.tr s <:+ κ.tr r := by
  obtain ⟨p, rfl⟩ := hs
  induction p with
  | nil => exact List.suffix_rfl
  | cons c p ih =>
    have h1 : κ.κ.To (p ++ s) := by
      rcases h with h | h
      · exact h.tail
      · have := h'.length
        rw [← h] at this
        simp at this
        omega
    rw [List.cons_append, show κ.tr (c :: (p ++ s)) = κ.κ.f c :: κ.tr (p ++ s) from Carry.tr_cons h1]
    exact (ih h1).trans (List.suffix_cons _ _)

theorem lexFw {t : Token} (h : κ.In r) (hl : Lex env r t r') :
    Lex env' (κ.tr r) t (κ.tr r') ∧ (t.ty ≠ .eol → κ.In r') := by
  cases hl with
  | eof w r h1 h2 =>
    have := (Carry.reads h h1).1
    cases this with | eof h => exact absurd h κ.nbd
  | eol w r c r' h1 h2 h3 =>
    obtain ⟨i, h4⟩ := Carry.reads h h1
    obtain ⟨i1, e1, e2⟩ := Carry.end_ i h3
    rw [e1] at h4
    have := Lex.eol (env := env') w _ _ _ h4 h2 e2
    rw [κ.f] at this
    exact ⟨this, fun h => absurd rfl h⟩
  | text w r r1 ty v r' h1 h2 h3 h4 =>
    obtain ⟨i, h5⟩ := Carry.reads h h1
    obtain ⟨i1, h6⟩ := Carry.reads i h3
    have := Lex.text (env := env') w _ _ ty v _ h5 h2 h6 (Carry.lexeme i1 h4)
    rw [κ.posOf i] at this
    exact ⟨this, fun _ => i1⟩

theorem lexTo {t : Token} (h : κ.In r) (hl : Lex env r t r') : κ.In r' ∨ r' = κ.κ.q0 := by
  obtain ⟨_, _, _, _, _, h, _⟩ := Carry.lex h hl
  exact h

end Cutter

variable {env env' : Env} {fn : Str}

class Fw (κ : Cutter env env' fn) (P : Prop) (r r' : outParam (List Cell)) (Q : outParam Prop) : Prop where
  fw : κ.In r → P → κ.In r' ∧ Q

class Ft (κ : Cutter env env' fn) (P : Prop) (r : outParam (List Cell)) (Q : outParam Prop) : Prop where
  ft : κ.In r → P → Q

class Fe (κ : Cutter env env' fn) (P : Prop) (r : outParam (List Cell)) (Q : outParam Prop) (q : outParam Pos) : Prop where
  fe : κ.In r → P → Q ∨ κ.Out q

variable {κ : Cutter env env' fn} {r r' r1 r2 rc : List Cell} {P P' Q Q' : Prop}

theorem fw (κ : Cutter env env' fn) [Fw κ P r r' Q] (h : κ.In r) (hp : P) : κ.In r' ∧ Q := Fw.fw h hp
theorem ft (κ : Cutter env env' fn) [Ft κ P r Q] (h : κ.In r) (hp : P) : Q := Ft.ft (κ := κ) h hp
theorem fe (κ : Cutter env env' fn) {q} [Fe κ P r Q q] (h : κ.In r) (hp : P) : Q ∨ κ.Out q := Fe.fe h hp

/-! ### Text -/

instance {s : Sym} : Ft κ (headSym r = s) r (headSym (κ.tr r) = s) := ⟨fun i h => by rw [Carry.head i]; exact h⟩
instance {s : Sym} : Ft κ (headSym r ≠ s) r (headSym (κ.tr r) ≠ s) := ⟨fun i h => by rw [Carry.head i]; exact h⟩
instance {f : Char → Bool} {b : Bool} : Ft κ ((headSym r).is f = b) r ((headSym (κ.tr r)).is f = b) :=
  ⟨fun i h => by rw [Carry.head i]; exact h⟩
instance : Ft κ (AtEnd r) r (AtEnd (κ.tr r)) := ⟨fun i => (Carry.atEnd i).2⟩
instance : Ft κ (¬ AtEnd r) r (¬ AtEnd (κ.tr r)) := ⟨fun i h => h ∘ (Carry.atEnd i).1⟩
instance : Ft κ (AtStop r) r (AtStop (κ.tr r)) := ⟨fun i => (Carry.atStop i).2⟩
instance : Ft κ (¬ AtStop r) r (¬ AtStop (κ.tr r)) := ⟨fun i h => h ∘ (Carry.atStop i).1⟩
instance {c : Char} : Ft κ (¬ (AtEnd r ∨ headSym r = .ch c)) r (¬ (AtEnd (κ.tr r) ∨ headSym (κ.tr r) = .ch c)) :=
  ⟨fun i h => by rw [Carry.atEnd i, Carry.head i]; exact h⟩
instance {v : Str} : Ft κ (StartsWith r v) r (StartsWith (κ.tr r) v) := ⟨fun i => (Carry.starts i v).2⟩
instance {v : Str} : Ft κ (¬ StartsWith r v) r (¬ StartsWith (κ.tr r) v) := ⟨fun i h => h ∘ (Carry.starts i v).1⟩
instance [Ft κ P r Q] [Ft κ P' r Q'] : Ft κ (P ∨ P') r (Q ∨ Q') := ⟨fun i => Or.imp (ft κ i) (ft κ i)⟩
instance {v : Str} : Fw κ (Reads r v r') r r' (Reads (κ.tr r) v (κ.tr r')) := ⟨Carry.reads⟩
instance {g : Char → Bool} {v : Str} : Fw κ (Span g r v r') r r' (Span g (κ.tr r) v (κ.tr r')) := ⟨Carry.span⟩
instance : Fw κ (Skip r r') r r' (Skip (κ.tr r) (κ.tr r')) := ⟨Carry.skip⟩
instance : Fw κ (SkipC r r') r r' (SkipC (κ.tr r) (κ.tr r')) := ⟨Carry.skipC⟩
instance : Fw κ (Blanks r r') r r' (Blanks (κ.tr r) (κ.tr r')) := ⟨Carry.blanks⟩
instance {l : Str} : Fw κ (RestOf r l r') r r' (RestOf (κ.tr r) l (κ.tr r')) := ⟨Carry.rest⟩

/-! ### Tokens -/

instance {p : TT → Prop} : Ft κ (Next env r p) r (Next env' (κ.tr r) p) := ⟨by
  rintro i ⟨t, r', h1, h2⟩
  exact ⟨_, _, (κ.lexFw i h1).1, h2⟩⟩

instance : Ft κ (NotLambda env r) r (NotLambda env' (κ.tr r)) := ⟨by
  rintro i ⟨t, r1, h1, h2, h3⟩
  obtain ⟨a, _⟩ := κ.lexFw i h1
  refine ⟨t, _, a, h2, ?_⟩
  rcases h3 with h3 | h3 | ⟨t2, r2, h3, h4⟩
  · exact .inl h3
  · exact .inr (.inl h3)
  · refine .inr (.inr ?_)
    rcases κ.lexTo i h1 with i1 | rfl
    · exact ⟨t2, _, (κ.lexFw i1 h3).1, h4⟩
    · obtain ⟨t2, r', h5⟩ := κ.lex
      rw [Cutter.tr, Carry.tr_end]
      refine ⟨t2, r', h5, fun h => ?_⟩
      have : t.ty = .eol := by
        false_or_by_contra
        rename_i he
        have := ((κ.lexFw i h1).2 he).lt
        rcases this with h | h
        · exact absurd h (Nat.lt_irrefl _)
        · exact κ.nbd h
      simp [this] at h⟩

instance {used : List Str} {ps : List Ident} : Fw κ (LamParams env fn used r ps r') r r'
    (LamParams env' fn used (κ.tr r) (ps.map (Ident.onPos κ.κ.m)) (κ.tr r')) := ⟨fun i h => Carry.lamParams h i⟩

/-! ### Expressions -/

instance {k : Nat} {e : Expr} : Fw κ (Gram env fn k r e r') r r' (Gram env' fn k (κ.tr r) (e.onPos κ.κ.m) (κ.tr r')) :=
  ⟨fun i h => Carry.gram h i⟩
instance {k : Nat} {e : Expr} : Fw κ (Chain env fn k r e r') r r' (Chain env' fn k (κ.tr r) (e.onPos κ.κ.m) (κ.tr r')) :=
  ⟨fun i h => Carry.chain h i⟩
instance {lit : Bool} {k : Expr} : Fw κ (Key env fn lit r k r') r r' (Key env' fn lit (κ.tr r) (k.onPos κ.κ.m) (κ.tr r')) :=
  ⟨fun i h => Carry.key h i⟩

/-- The token is no end of the line. -/
macro "no_eol" : tactic => `(tactic| (intro e; first
  | (simp_all; done)
  | exact IsOp.ne_eol (by assumption) e
  | exact (IsUn.ne_eol (by assumption)).1 e))

/-- The last step of carrying a rule of an error. -/
macro "carried " t:term : tactic =>
  `(tactic| (refine Or.inl ?_; first | exact $t | (rw [← Cutter.posOf]; (· exact $t); assumption)))

end Viml
