/-
C43: the command-line tool.
-/
import Verif.Model.Cmdline
import Verif.Props.Compiler
import Verif.Props.Stmt

namespace Viml.Props
open Viml Viml.Spec

/-- What one input contributes: text or an error.  `ParseFile` is the only part of the program this refers to. -/
inductive Outcome (json : Option (Ast.File → Option Str)) (nv : Bool) : Cmdline.Arg → Except Cmdline.Report Str → Prop
  | open_ {n : Str} : Outcome json nv ⟨n, none⟩ (.error (.open_ n))
  | parse {n : Str} {src : List UInt8} {e : ApiErr} : parseFile nv n src = some ⟨none, some e⟩ →
      Outcome json nv ⟨n, some src⟩ (.error (.parse e))
  | text {n : Str} {src : List UInt8} {f : Ast.File} : parseFile nv n src = some ⟨some f, none⟩ → json = none →
      Outcome json nv ⟨n, some src⟩ (.ok (unlines (linesL funcLine' 0 f.body)))
  | json {n : Str} {src : List UInt8} {f : Ast.File} {enc : Ast.File → Option Str} {t : Str} :
      parseFile nv n src = some ⟨some f, none⟩ → json = some enc → enc f = some t → Outcome json nv ⟨n, some src⟩ (.ok t)
  | write {n : Str} {src : List UInt8} {f : Ast.File} {enc : Ast.File → Option Str} :
      parseFile nv n src = some ⟨some f, none⟩ → json = some enc → enc f = none →
      Outcome json nv ⟨n, some src⟩ (.error (.write n))

/-- Every input has exactly one outcome, which is what the tool's `parseFile` returns. -/
theorem outcome_iff (json : Option (Ast.File → Option Str)) (nv : Bool) (n : Str) (src : List UInt8)
    (x : Except Cmdline.Report Str) : Outcome json nv ⟨n, some src⟩ x ↔
      Cmdline.parseFile json nv n src = (match x with | .ok t => .ok t | .error e => .failed e) := by
  obtain ⟨⟨nd, er⟩, h1, h2⟩ := C05_parseFile nv n src
  simp only at h2
  constructor
  · intro h
    unfold Cmdline.parseFile
    cases h with
    | parse h => rw [h]
    | text h hj => rw [h, hj]; simp only; rw [C31_compiles h]
    | json h hj he => rw [h, hj]; simp only; rw [he]
    | write h hj he => rw [h, hj]; simp only; rw [he]
  · intro h
    unfold Cmdline.parseFile at h
    rw [h1] at h
    cases er with
    | some e =>
      cases nd with
      | some f => simp at h2
      | none =>
        cases x <;> simp at h
        subst h
        exact .parse h1
    | none =>
      cases nd with
      | none => simp at h2
      | some f =>
        cases json with
        | none =>
          simp only [C31_compiles h1] at h
          cases x <;> simp at h
          subst h
          exact .text h1 rfl
        | some enc =>
          cases he : enc f with
          | none =>
            simp only [he] at h
            cases x <;> simp at h
            subst h
            exact .write h1 rfl he
          | some t =>
            simp only [he] at h
            cases x <;> simp at h
            subst h
            exact .json h1 rfl he

theorem outcome_total (json : Option (Ast.File → Option Str)) (nv : Bool) (a : Cmdline.Arg) :
    ∃ x, Outcome json nv a x := by
  obtain ⟨n, c⟩ := a
  cases c with
  | none => exact ⟨_, .open_⟩
  | some src =>
    obtain ⟨⟨nd, er⟩, h1, h2⟩ := C05_parseFile nv n src
    cases er with
    | some e =>
      cases nd with
      | some f => simp at h2
      | none => exact ⟨_, .parse h1⟩
    | none =>
      cases nd with
      | none => simp at h2
      | some f =>
        cases json with
        | none => exact ⟨_, .text h1 rfl⟩
        | some enc =>
          cases he : enc f with
          | none => exact ⟨_, .write h1 rfl he⟩
          | some t => exact ⟨_, .json h1 rfl he⟩

/-- The outcomes of a list of inputs. -/
inductive Outcomes (json : Option (Ast.File → Option Str)) (nv : Bool) :
    List Cmdline.Arg → List (Except Cmdline.Report Str) → Prop
  | nil : Outcomes json nv [] []
  | cons {a : Cmdline.Arg} {x : Except Cmdline.Report Str} {as : List Cmdline.Arg}
      {xs : List (Except Cmdline.Report Str)} : Outcome json nv a x → Outcomes json nv as xs →
      Outcomes json nv (a :: as) (x :: xs)

/-- Texts of the successful inputs, in order. -/
def texts (xs : List (Except Cmdline.Report Str)) : List Str :=
  xs.filterMap fun | .ok t => some t | .error _ => none

/-- Errors of the others, in order. -/
def errors (xs : List (Except Cmdline.Report Str)) : List Cmdline.Report :=
  xs.filterMap fun | .ok _ => none | .error e => some e

theorem files_eq {json : Option (Ast.File → Option Str)} {nv : Bool} {as : List Cmdline.Arg}
    {xs : List (Except Cmdline.Report Str)} (h : Outcomes json nv as xs) (i : Nat) (st : Cmdline.Proc) :
    Cmdline.files json nv i as st =
      { out := st.out ++ (texts xs).flatten, errors := st.errors ++ errors xs,
        exit := if errors xs = [] then st.exit else 1,
        usage := st.usage || (i == 0 && as.head?.any (·.content.isNone)) } := by
  induction h generalizing i st with
  | nil => simp [Cmdline.files, texts, errors]
  | @cons a x as xs h1 h2 ih =>
    obtain ⟨n, c⟩ := a
    rw [Cmdline.files]
    cases c with
    | none =>
      cases h1
      simp [ih, texts, errors]
    | some src =>
      have h3 := (outcome_iff _ _ _ _ _).1 h1
      simp only [h3]
      cases x with
      | ok t => simp [ih, texts, errors]
      | error e => simp [ih, texts, errors]

/-- C43.  With arguments the tool writes the texts of the good files in order, reports one error for each of
the others in order, exits with 1 if there is one and with 0 otherwise (never with 2, the status of a panic), and
prints its usage if the first file cannot be opened. -/
theorem C43_files {json : Option (Ast.File → Option Str)} {nv : Bool} {as : List Cmdline.Arg} (hne : as ≠ [])
    {xs : List (Except Cmdline.Report Str)} (h : Outcomes json nv as xs) (stdin : List UInt8) :
    Cmdline.main json nv as stdin =
      { out := (texts xs).flatten, errors := errors xs, exit := if errors xs = [] then 0 else 1,
        usage := as.head?.any (·.content.isNone) } := by
  unfold Cmdline.main
  rw [if_neg (by simpa using hne), files_eq h]
  simp

/-- C43.  Without arguments standard input is dealt with like a file without name. -/
theorem C43_stdin {json : Option (Ast.File → Option Str)} {nv : Bool} {stdin : List UInt8}
    {x : Except Cmdline.Report Str} (h : Outcome json nv ⟨[], some stdin⟩ x) :
    Cmdline.main json nv [] stdin =
      { out := (texts [x]).flatten, errors := errors [x], exit := if errors [x] = [] then 0 else 1 } := by
  have h3 := (outcome_iff _ _ _ _ _).1 h
  unfold Cmdline.main
  simp only [List.isEmpty_nil, if_true, h3]
  cases x <;> simp [texts, errors]

/-- C43.  Without `-json` the tool exits with 0 if and only if every file can be opened and parsed. -/
theorem C43_exit {nv : Bool} {as : List Cmdline.Arg} (hne : as ≠ []) (stdin : List UInt8) :
    (Cmdline.main none nv as stdin).exit = 0 ↔
      ∀ a ∈ as, ∃ src f, a.content = some src ∧ parseFile nv a.name src = some ⟨some f, none⟩ := by
  obtain ⟨xs, hxs⟩ : ∃ xs, Outcomes none nv as xs := by
    clear hne
    induction as with
    | nil => exact ⟨[], .nil⟩
    | cons a as ih =>
      obtain ⟨xs, h⟩ := ih
      obtain ⟨x, hx⟩ := outcome_total none nv a
      exact ⟨x :: xs, .cons hx h⟩
  rw [C43_files hne hxs]
  have : errors xs = [] ↔ ∀ a ∈ as, ∃ src f, a.content = some src ∧ parseFile nv a.name src = some ⟨some f, none⟩ := by
    clear hne
    induction hxs with
    | nil => simp [errors]
    | @cons a x as xs h1 _ ih =>
      rw [List.forall_mem_cons, ← ih]
      cases h1 with
      | open_ => simp [errors]
      | parse h => simp [errors, h]
      | text h _ => simp [errors, h]
      | json _ hj => cases hj
      | write _ hj => cases hj
  rw [← this]
  by_cases he : errors xs = [] <;> simp only [he, if_true, if_false] <;> decide

example : Cmdline.main none false [⟨cs!"a", some "echo 1".toUTF8.toList⟩, ⟨cs!"b", none⟩, ⟨cs!"c", some "endif".toUTF8.toList⟩,
      ⟨cs!"d", some "if 1 | endif".toUTF8.toList⟩] [] =
    { out := cs!"(echo 1)\n(if 1)\n", exit := 1, usage := false,
      errors := [.open_ cs!"b", .parse (.parse cs!"c" 0 1 1 cs!"E580: :endif without :if")] } ∧
    Cmdline.main none false [⟨cs!"a", some "echo 1".toUTF8.toList⟩] [] = { out := cs!"(echo 1)\n" } ∧
    Cmdline.main none false [⟨cs!"a", none⟩] [] = { errors := [.open_ cs!"a"], exit := 1, usage := true } ∧
    Cmdline.main none true [] "call f(".toUTF8.toList =
      { errors := [.parse (.parse [] 7 1 8 cs!"unexpected token: <EOL>")], exit := 1 } := by decide +kernel

end Viml.Props
