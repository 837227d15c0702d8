/-
Regular expressions, as package regexp of Go has them: the part of the syntax that occurs in go/vimlfunc.go, and when an
expression matches.  Used by C80.
-/
import Verif.Model.Basic

namespace Viml.Spec

/-- Regular expressions. -/
inductive Re
  | eps
  /-- One of the characters in the ranges, or none of them. -/
  | set (neg : Bool) (rs : List (Char × Char))
  /-- `.` -/
  | any
  /-- `^` -/
  | start
  /-- `$` -/
  | stop
  /-- `\b` -/
  | edge
  | seq (a b : Re)
  | alt (a b : Re)
  | opt (a : Re)
  | star (a : Re)
deriving DecidableEq

namespace Re

/-- The character is in one of the ranges. -/
def within (c : Char) (rs : List (Char × Char)) : Bool := rs.any fun r => r.1.toNat ≤ c.toNat && c.toNat ≤ r.2.toNat

/-- The characters of words. -/
def wordRanges : List (Char × Char) := [('0', '9'), ('A', 'Z'), ('a', 'z'), ('_', '_')]

/-- A word ends with the text. -/
def lastW (p : Str) : Bool := p.getLast?.any (within · wordRanges)
/-- A word starts with the text. -/
def headW (q : Str) : Bool := q.head?.any (within · wordRanges)

/-- One after the other any number of times. -/
inductive Iter (P : Str → Str → Str → Prop) : Str → Str → Str → Prop
  | nil {p q} : Iter P p [] q
  | cons {p m1 m2 q} : P p m1 (m2 ++ q) → Iter P (p ++ m1) m2 q → Iter P p (m1 ++ m2) q

/-- In the text `p ++ m ++ q` the part `m` is matched. -/
def M : Re → Str → Str → Str → Prop
  | .eps, _, m, _ => m = []
  | .set neg rs, _, m, _ => ∃ c, m = [c] ∧ within c rs = !neg
  | .any, _, m, _ => ∃ c, m = [c] ∧ c ≠ '\n'
  | .start, p, m, _ => p = [] ∧ m = []
  | .stop, _, m, q => m = [] ∧ q = []
  | .edge, p, m, q => m = [] ∧ lastW p ≠ headW q
  | .seq a b, p, m, q => ∃ m1 m2, m = m1 ++ m2 ∧ a.M p m1 (m2 ++ q) ∧ b.M (p ++ m1) m2 q
  | .alt a b, p, m, q => a.M p m q ∨ b.M p m q
  | .opt a, p, m, q => m = [] ∨ a.M p m q
  | .star a, p, m, q => Iter a.M p m q

/-- `MatchString`: the expression matches some part of the text. -/
def Search (r : Re) (s : Str) : Prop := ∃ p m q, s = p ++ m ++ q ∧ r.M p m q

/-! ### Syntax -/

/-- `\s` -/
def spaceRanges : List (Char × Char) := [('\t', '\n'), ('\x0c', '\r'), (' ', ' ')]

/-- What follows a backslash outside of brackets. -/
def escape : Char → Option Re
  | 'b' => some .edge
  | 's' => some (.set false spaceRanges)
  | 'S' => some (.set true spaceRanges)
  | 'd' => some (.set false [('0', '9')])
  | c => if within c wordRanges then none else some (.set false [(c, c)])

/-- What is in brackets. -/
def ranges : Str → Option (List (Char × Char) × Str)
  | [] => none
  | ']' :: s => some ([], s)
  | '\\' :: 't' :: s => (ranges s).map fun x => (('\t', '\t') :: x.1, x.2)
  | '\\' :: _ => none
  | c :: '-' :: ']' :: s => some ([(c, c), ('-', '-')], s)
  | c :: '-' :: d :: s => (ranges s).map fun x => ((c, d) :: x.1, x.2)
  | c :: s => (ranges s).map fun x => ((c, c) :: x.1, x.2)

/-- An expression without bar, quantifier and sequence; expressions in parentheses are read with `sub`. -/
def atom (sub : Str → Option (Re × Str)) : Str → Option (Re × Str)
  | '^' :: s => some (.start, s)
  | '$' :: s => some (.stop, s)
  | '.' :: s => some (.any, s)
  | '\\' :: c :: s => (escape c).map fun r => (r, s)
  | '[' :: '^' :: s => (ranges s).map fun x => (.set true x.1, x.2)
  | '[' :: s => (ranges s).map fun x => (.set false x.1, x.2)
  | '(' :: s => match sub s with
    | some (r, ')' :: s) => some (r, s)
    | _ => none
  | c :: s => if c ∈ cs!"\\|)*+?{}]" then none else some (.set false [(c, c)], s)
  | [] => none

/-- With a quantifier. -/
def item (sub : Str → Option (Re × Str)) (s : Str) : Option (Re × Str) :=
  match atom sub s with
  | some (a, '*' :: s) => some (.star a, s)
  | some (a, '+' :: s) => some (.seq a (.star a), s)
  | some (a, '?' :: s) => some (.opt a, s)
  | x => x

/-- The next part goes before an expression; a bar separates more than sequences. -/
def before (a : Re) : Re → Re
  | .alt b c => .alt (.seq a b) c
  | b => .seq a b

/-- Sequences with bars between them, up to a closing parenthesis; the number bounds the length of the text. -/
def expr : Nat → Str → Option (Re × Str)
  | 0, _ => none
  | _ + 1, [] => some (.eps, [])
  | _ + 1, ')' :: s => some (.eps, ')' :: s)
  | n + 1, '|' :: s => (expr n s).map fun x => (.alt .eps x.1, x.2)
  | n + 1, s => match item (expr n) s with
    | some (a, s) => (expr n s).map fun x => (before a x.1, x.2)
    | none => none

/-- The expression that is written so. -/
def parse (s : Str) : Option Re :=
  match expr (s.length + 1) s with
  | some (r, []) => some r
  | _ => none

end Re
end Viml.Spec
