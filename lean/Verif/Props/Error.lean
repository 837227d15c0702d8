/-
C53: which expressions are rejected, with which message and at which position.  The specification is `GErr` of
`Spec/ExprError.lean`.
-/
import Verif.Lemmas.ExprErrLevel
import Verif.Lemmas.GramApi

namespace Viml.Props
open Viml Viml.Spec

/-- C53, on decoded lines. -/
theorem C53_lines (lines : List Str) (e : ApiErr) :
    parseExprLines lines = some ⟨none, some e⟩ ↔
      ∃ m q, e = .parse [] q.i q.lnum q.col m ∧ GErr (mkEnv lines) [] 1 (mkEnv lines).buf m q := by
  have he := mkEnv_ok lines
  have hs : Suf (mkEnv lines) (mkEnv lines).buf := List.suffix_refl _
  have hb : ∀ m q, Bad (mkEnv lines) parseExpr1 (mkEnv lines).buf m q ↔ GErr (mkEnv lines) [] 1 (mkEnv lines).buf m q :=
    fun m q => parseExpr1_bad he hs
  constructor
  · intro h
    rcases parseExprLines_good lines with ⟨a, h1, _⟩ | ⟨msg, q, h1, _⟩
    · rw [h1] at h; cases h
    · rw [h1] at h
      cases h
      unfold parseExprLines at h1
      simp only at h1
      cases hr : parseExpr1.run (mkEnv lines) (mkEnv lines).buf with
      | ok v r' =>
        rw [hr] at h1
        simp only at h1
        split at h1 <;> cases h1
      | fail f =>
        rw [hr] at h1
        cases f with
        | err m p =>
          simp only [recoverFail, Option.map_some, Option.some.injEq, ApiRes.mk.injEq, ApiErr.parse.injEq, true_and] at h1
          obtain ⟨h2, h3, h4, h5⟩ := h1
          exact ⟨m, p, by rw [h2, h3, h4, h5], (hb m p).1 hr⟩
        | num => cases h1
        | crash => cases h1
        | fuel => cases h1
  · rintro ⟨m, q, rfl, h⟩
    have h1 : parseExpr1.run (mkEnv lines) (mkEnv lines).buf = .fail (.err m q) := (hb m q).2 h
    unfold parseExprLines
    simp only [h1]
    rfl

/-- C53.  `ParseExpr` returns an error if and only if the text has the fault that the specification describes: the
error carries the message of the fault and the offset, line and column of the place. -/
theorem C53_parseExpr (src : List UInt8) (e : ApiErr) :
    parseExpr src = some ⟨none, some e⟩ ↔
      ∃ m q, e = .parse [] q.i q.lnum q.col m ∧
        GErr (mkEnv ((readlines src).map decodeUtf8)) [] 1 (mkEnv ((readlines src).map decodeUtf8)).buf m q :=
  C53_lines _ e

/-- C53, wherever in a file an expression is read (`parse_expr1`). -/
theorem C53_inside (lines : List Str) (fn : Str) (r : List Cell) (hs : r <:+ (mkEnv lines).buf) (m : Str) (q : Pos) :
    parseExpr1.run (mkEnv lines) r = .fail (.err m q) ↔ GErr (mkEnv lines) fn 1 r m q :=
  parseExpr1_bad (mkEnv_ok lines) hs

/-- C53.  A text has at most one fault: the message and the position are determined. -/
theorem C53_unique (lines : List Str) (fn : Str) (r : List Cell) (hs : r <:+ (mkEnv lines).buf) (m m' : Str) (q q' : Pos)
    (h : GErr (mkEnv lines) fn 1 r m q) (h' : GErr (mkEnv lines) fn 1 r m' q') : m = m' ∧ q = q' :=
  ((parseExpr1_bad (mkEnv_ok lines) hs).2 h).det ((parseExpr1_bad (mkEnv_ok lines) hs).2 h')

/-- C53.  Every text either starts with an expression or has a fault, and not both. -/
theorem C53_either (lines : List Str) (fn : Str) (r : List Cell) (hs : r <:+ (mkEnv lines).buf) :
    (∃ m q, GErr (mkEnv lines) fn 1 r m q) ↔ ¬ ∃ a r', Gram (mkEnv lines) fn 1 r a r' := by
  have he := mkEnv_ok lines
  constructor
  · rintro ⟨m, q, h⟩ ⟨a, r', h1⟩
    obtain ⟨v, h2⟩ := ((parseExpr1F_bad fn he (r.length + 1)).ok hs (Nat.lt_succ_self _)).2 ⟨a, h1⟩
    exact ((parseExpr1_bad (fn := fn) he hs).2 h).no h2
  · intro h
    have h1 : wp tokGet (mkEnv lines) parseExpr1 r _ _ := recOK' (fn := fn) he (r.length + 1) r hs (Nat.lt_succ_self _)
    unfold wp at h1
    cases hr : parseExpr1.runWith tokGet (mkEnv lines) r with
    | ok v r' =>
      obtain ⟨a, h2⟩ := ((parseExpr1F_bad fn he (r.length + 1)).ok hs (Nat.lt_succ_self _)).1 ⟨v, hr⟩
      exact absurd ⟨a, r', h2⟩ h
    | fail f =>
      rw [hr] at h1
      cases f with
      | err m q => exact ⟨m, q, (parseExpr1_bad he hs).1 hr⟩
      | num => exact h1.elim
      | crash => exact h1.elim
      | fuel => exact h1.elim

/-- The error of an expression, to write examples: message, offset, line and column. -/
def exprErr (lines : List Str) : Option (Str × Nat × Nat × Nat) :=
  match parseExprLines lines with
  | some ⟨_, some (.parse _ off line col msg)⟩ => some (msg, off, line, col)
  | _ => none

-- operands and closing brackets
example : exprErr [cs!"1 + )"] = some (cs!"unexpected token: )", 4, 1, 5) := by decide +kernel
example : exprErr [cs!"(1 2)"] = some (cs!"unexpected token: 2", 3, 1, 4) := by decide +kernel
example : exprErr [cs!"[1 2]"] = some (cs!"unexpected token: 2", 3, 1, 4) := by decide +kernel
example : exprErr [cs!"a ? b ;"] = some (cs!"unexpected token: ;", 6, 1, 7) := by decide +kernel
example : exprErr [cs!"a[1:2:3]"] = some (cs!"unexpected token: :", 5, 1, 6) := by decide +kernel
example : exprErr [cs!"x->y"] = some (cs!"E107: Missing parentheses: lambda", 4, 1, 5) := by decide +kernel
-- strings and blobs
example : exprErr [cs!"\"ab"] = some (cs!"unexpectd EOL", 3, 1, 4) := by decide +kernel
example : exprErr [cs!"\"ab\\"] = some (cs!"ExprTokenizer: unexpected EOL", 4, 1, 5) := by decide +kernel
example : exprErr [cs!"'ab"] = some (cs!"unexpected EOL", 3, 1, 4) := by decide +kernel
-- lambdas, dictionaries and names
example : exprErr [cs!"{a, a -> 1}"] = some (cs!"E853: Duplicate argument name: a", 4, 1, 5) := by decide +kernel
example : exprErr [cs!"{a , b -> 1}"] =
    some (cs!"E475: Invalid argument: White space is not allowed before comma", 2, 1, 3) := by decide +kernel
example : exprErr [cs!"{'a' 1}"] = some (cs!"unexpected token: 1", 5, 1, 6) := by decide +kernel
example : exprErr [cs!"{a, 1 -> 2}"] = some (cs!"unexpected token: ,", 2, 1, 3) := by decide +kernel
example : exprErr [cs!"#{+: 1}"] = some (cs!"unexpected character: +", 2, 1, 3) := by decide +kernel
example : exprErr [cs!"x{1"] = some (cs!"unexpected token: <EOL>", 3, 1, 4) := by decide +kernel

/-- What the examples say about the specification. -/
theorem exprErr_gErr {lines : List Str} {m : Str} {o l c : Nat} (h : exprErr lines = some (m, o, l, c)) :
    ∃ q, GErr (mkEnv lines) [] 1 (mkEnv lines).buf m q ∧ q.i = o ∧ q.lnum = l ∧ q.col = c := by
  rcases parseExprLines_good lines with ⟨a, h1, _⟩ | ⟨msg, q, h1, _⟩
  · unfold exprErr at h; rw [h1] at h; cases h
  · obtain ⟨m', q', h2, h3⟩ := (C53_lines lines _).1 h1
    unfold exprErr at h
    rw [h1, h2] at h
    cases h
    exact ⟨q', h3, rfl, rfl, rfl⟩

/-- The hypotheses are met: a text with a fault and where it is. -/
example : ∃ q, GErr (mkEnv [cs!"1 + )"]) [] 1 (mkEnv [cs!"1 + )"]).buf cs!"unexpected token: )" q ∧ q.i = 4 ∧ q.lnum = 1 ∧
    q.col = 5 := exprErr_gErr (by decide +kernel)

end Viml.Props
