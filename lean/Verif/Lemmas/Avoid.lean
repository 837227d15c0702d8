/-
Kinds of failure that a program does not contain.
-/
import Verif.Lemmas.Bad

namespace Viml
open Prog Spec

/-- The failures `F` do not occur in the program. -/
def Avoids {α : Type} (F : Fail → Prop) : Prog α → Prop
  | .ret _ => True
  | .fail e => ¬ F e
  | .ask k => ∀ e, Avoids F (k e)
  | .tell k => ∀ r, Avoids F (k r)
  | .seek _ k => Avoids F k
  | .tok k => (∀ env r e, tokGet env r = .fail e → ¬ F e) ∧ ∀ t, Avoids F (k t)

/-- Errors with a message. -/
def Fail.isErr (e : Fail) : Prop := ∃ msg q, e = .err msg q
/-- Numbers out of range. -/
def Fail.isNum (e : Fail) : Prop := e = .num

/-- `F` contains none of the failures that are proved not to happen. -/
structure Proper (F : Fail → Prop) : Prop where
  crash : ¬ F .crash
  fuel : ¬ F .fuel

theorem proper_err : Proper Fail.isErr := ⟨(fun ⟨_, _, h⟩ => nomatch h), (fun ⟨_, _, h⟩ => nomatch h)⟩
theorem proper_num : Proper Fail.isNum := ⟨(fun h => nomatch h), (fun h => nomatch h)⟩

section
variable {F : Fail → Prop} {α β σ : Type}

theorem avoids_run {T : Env → List Cell → Res Token} {m : Prog α} (h : Avoids F m)
    (hT : (∀ env r e, tokGet env r = .fail e → ¬ F e) → ∀ env r e, T env r = .fail e → ¬ F e) {env : Env} :
    ∀ {r : List Cell} {e : Fail}, m.runWith T env r = .fail e → ¬ F e := by
  induction m with
  | ret a => intro r e h1; cases h1
  | fail e => intro r e h1; cases h1; exact h
  | ask k ih => intro r e h1; exact ih env (h env) h1
  | tell k ih => intro r e h1; exact ih r (h r) h1
  | seek s k ih => intro r e h1; exact ih h h1
  | tok k ih =>
    intro r e h1
    simp only [runWith] at h1
    split at h1
    · exact ih _ (h.2 _) h1
    · rename_i e' he
      cases h1
      exact hT h.1 _ _ _ he

theorem avoids_pure {a : α} : Avoids F (pure a : Prog α) := trivial
theorem avoids_ret {a : α} : Avoids F (.ret a : Prog α) := trivial

theorem avoids_bind {m : Prog α} {f : α → Prog β} (h : Avoids F m) (hf : ∀ a, Avoids F (f a)) : Avoids F (m >>= f) := by
  induction m with
  | ret a => exact hf a
  | fail e => exact h
  | ask k ih => exact fun e => ih e (h e)
  | tell k ih => exact fun r => ih r (h r)
  | seek s k ih => exact ih h
  | tok k ih => exact ⟨h.1, fun t => ih t (h.2 t)⟩

theorem avoids_ite {c : Prop} [Decidable c] {m n : Prog α} (h : Avoids F m) (h' : Avoids F n) :
    Avoids F (if c then m else n) := by
  split
  · exact h
  · exact h'

theorem avoids_loopN (hF : Proper F) {body : σ → Prog (σ ⊕ β)} (h : ∀ s, Avoids F (body s)) :
    ∀ (n : Nat) (s : σ), Avoids F (loopN body n s) := by
  intro n
  induction n with
  | zero => intro s; exact hF.fuel
  | succ n ih =>
    intro s
    refine avoids_bind (h s) ?_
    rintro (s1 | b)
    · exact ih s1
    · trivial

theorem avoids_loop (hF : Proper F) {body : σ → Prog (σ ⊕ β)} {s : σ} (h : ∀ s, Avoids F (body s)) :
    Avoids F (loop body s) := fun _ => avoids_loopN hF h _ _

theorem avoids_tell : Avoids F tell := fun _ => trivial
theorem avoids_seekSet {s : List Cell} : Avoids F (seekSet s) := trivial
theorem avoids_seekEnd : Avoids F seekEnd := trivial
theorem avoids_setpos {q : Pos} : Avoids F (setpos q) := fun _ => trivial
theorem avoids_getpos : Avoids F getpos := by
  intro e r
  cases r <;> trivial
theorem avoids_peek : Avoids F peek := by
  intro r
  cases r <;> trivial
theorem avoids_get : Avoids F get := by
  intro r
  cases r <;> trivial
theorem avoids_getn {n : Nat} : Avoids F (getn n) := fun _ => trivial
theorem avoids_peekn {n : Nat} : Avoids F (peekn n) := fun _ => trivial
theorem avoids_getline : Avoids F getline := fun _ => trivial
theorem avoids_peekline : Avoids F peekline := fun _ => trivial
theorem avoids_readWhile {f : Char → Bool} : Avoids F (readWhile f) := fun _ => trivial
theorem avoids_skipWhite : Avoids F skipWhite := fun _ => trivial
theorem avoids_skipWC : Avoids F skipWhiteAndColon := fun _ => trivial
theorem avoids_getstr {a b : Pos} : Avoids F (getstr a b) := fun _ => trivial
theorem avoids_p (hF : Proper F) {k : Nat} : Avoids F (p k) := by
  intro r
  cases r with
  | nil => trivial
  | cons c r =>
    dsimp only
    split
    · trivial
    · exact hF.crash
theorem avoids_seekCur (hF : Proper F) {k : Nat} : Avoids F (seekCur k) := by
  intro r
  dsimp only
  split
  · trivial
  · exact hF.crash
theorem avoids_crash (hF : Proper F) : Avoids F (.fail .crash : Prog α) := hF.crash
theorem avoids_errAt {msg : Str} {q : Pos} : Avoids Fail.isNum (errAt msg q : Prog α) := by rintro ⟨⟩
theorem avoids_errHere {msg : Str} : Avoids Fail.isNum (errHere msg : Prog α) :=
  avoids_bind avoids_getpos fun _ => by rintro ⟨⟩

end

/-- Proves that some failures do not occur in a program, by its structure. -/
syntax "avoid" "[" term,* "]" : tactic
macro_rules
  | `(tactic| avoid [$ts,*]) => do
    let alts ← ts.getElems.mapM fun t => `(tacticSeq| exact $t)
    `(tactic| repeat' (first
      $[| $alts]*
      | with_reducible exact avoids_pure | with_reducible exact avoids_ret
      | with_reducible exact avoids_tell | with_reducible exact avoids_seekSet | with_reducible exact avoids_seekEnd
      | with_reducible exact avoids_setpos | with_reducible exact avoids_getpos | with_reducible exact avoids_peek
      | with_reducible exact avoids_get | with_reducible exact avoids_getn | with_reducible exact avoids_peekn
      | with_reducible exact avoids_getline | with_reducible exact avoids_peekline
      | with_reducible exact avoids_readWhile | with_reducible exact avoids_skipWhite
      | with_reducible exact avoids_skipWC | with_reducible exact avoids_getstr
      | with_reducible exact avoids_errAt | with_reducible exact avoids_errHere
      | with_reducible exact avoids_p (by first | exact proper_err | exact proper_num | assumption)
      | with_reducible exact avoids_seekCur (by first | exact proper_err | exact proper_num | assumption)
      | with_reducible exact avoids_crash (by first | exact proper_err | exact proper_num | assumption)
      | with_reducible refine avoids_loop (by first | exact proper_err | exact proper_num | assumption) ?_
      | with_reducible refine avoids_bind ?_ ?_ | intro _ | with_reducible refine avoids_ite ?_ ?_ | split
      | dsimp only))

section
variable {F : Fail → Prop}

theorem avoids_pIs (hF : Proper F) {k : Nat} {c : Char} : Avoids F (pIs k c) := by unfold pIs; avoid []
theorem avoids_pSat (hF : Proper F) {k : Nat} {f : Char → Bool} : Avoids F (pSat k f) := by unfold pSat; avoid []
theorem avoids_pand {a b : Prog Bool} (ha : Avoids F a) (hb : Avoids F b) : Avoids F (pand a b) := by
  unfold pand; avoid [ha, hb]
theorem avoids_por {a b : Prog Bool} (ha : Avoids F a) (hb : Avoids F b) : Avoids F (por a b) := by
  unfold por; avoid [ha, hb]
theorem avoids_readline : Avoids F readline := by unfold readline; avoid []

theorem Avoids.noBad {α : Type} {m : Prog α} (h : Avoids Fail.isErr m) {env : Env} {r : List Cell} {msg : Str} {q : Pos} :
    Bad env m r msg q ↔ False := by
  constructor
  · intro hb
    exact avoids_run h (fun h => h) hb ⟨_, _, rfl⟩
  · exact False.elim

end
end Viml
