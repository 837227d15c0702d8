/-
The tokenizer's memo table, go/vimlparser.go:1988-2011.
-/
import Verif.Model.Token

namespace Viml

/-- `ExprTokenizer.cache`, go/type.go:140-143: reader position to (position after the token, token).
The key is the remaining input instead of the index into the same buffer; the two determine each
other. -/
abbrev TokCache := List (List Cell × List Cell × Token)

/-- `self.cache[r.i]`, nil if absent -/
def TokCache.find (c : TokCache) (r : List Cell) : Option (List Cell × Token) :=
  (c.find? fun e => e.1 == r).map fun e => e.2

/-- `ExprTokenizer.get`, go/vimlparser.go:1999-2011, with its table. -/
def cachedGet (env : Env) (c : TokCache) (r : List Cell) : Res Token × TokCache :=
  match c.find r with
  | some (r', t) => (.ok t r', c)
  | none =>
    match tokGet env r with
    | .ok t r' => (.ok t r', (r, r', t) :: c)
    | .fail e => (.fail e, c)

/-- Execution of a program whose token reads go through memo tables.  Every tokenizer has a table of its
own that is empty in the beginning (go/type.go:145-150), and several of them read the same reader
(go/vimlparser.go:1241, 1787, 1869, 1902, 2363).  `ts i` is the table of the `i`-th tokenizer.  Which
tokenizer is asked for a token is left open: the relation allows every choice. -/
inductive RunsC (env : Env) {α : Type} : Prog α → List Cell → (Nat → TokCache) → Res α → (Nat → TokCache) → Prop
  | ret {a r ts} : RunsC env (.ret a) r ts (.ok a r) ts
  | fail {e r ts} : RunsC env (.fail e) r ts (.fail e) ts
  | ask {k r ts x ts'} : RunsC env (k env) r ts x ts' → RunsC env (.ask k) r ts x ts'
  | tell {k r ts x ts'} : RunsC env (k r) r ts x ts' → RunsC env (.tell k) r ts x ts'
  | seek {s k r ts x ts'} : RunsC env k s ts x ts' → RunsC env (.seek s k) r ts x ts'
  | tokOk {k r ts t r' c x ts'} (i : Nat) : cachedGet env (ts i) r = (.ok t r', c) →
      RunsC env (k t) r' (fun j => if j = i then c else ts j) x ts' → RunsC env (.tok k) r ts x ts'
  | tokFail {k r ts e c} (i : Nat) : cachedGet env (ts i) r = (.fail e, c) →
      RunsC env (.tok k) r ts (.fail e) (fun j => if j = i then c else ts j)

end Viml
