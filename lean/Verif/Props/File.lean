/-
C52: the parser of files accepts exactly the file grammar.
-/
import Verif.Lemmas.FileComplete
import Verif.Spec.Sexp

namespace Viml.Props
open Spec

/-- C52.  A list of lines is accepted with the tree `a` exactly when it is a script with the tree `a`. -/
theorem C52_lines (nv : Bool) (fn : Str) (lines : List Str) (a : Ast.File) :
    parseFileLines nv fn lines = some ⟨some a, none⟩ ↔ Script nv (mkEnv lines) fn a := by
  constructor
  · intro h
    unfold parseFileLines at h
    cases hr : (parseToplevel nv).run (mkEnv lines) (mkEnv lines).buf with
    | fail e =>
      simp only [hr] at h
      cases e <;> simp [recoverFail] at h
    | ok f r =>
      simp only [hr] at h
      cases he : Export.file fn f with
      | none => rw [he] at h; cases h
      | some b =>
        rw [he] at h
        cases h
        exact script_sound hr he
  · intro h
    obtain ⟨f, r, h1, h2⟩ := script_complete h
    unfold parseFileLines
    simp only [h1, h2]

/-- C52.  `ParseFile` returns the tree `a` exactly when the lines of the file are a script with the tree `a`. -/
theorem C52_parseFile (nv : Bool) (fn : Str) (src : List UInt8) (a : Ast.File) :
    parseFile nv fn src = some ⟨some a, none⟩ ↔ Script nv (mkEnv ((readlines src).map decodeUtf8)) fn a :=
  C52_lines nv fn _ a

/-- C52.  All other files are rejected: an error and no tree is returned. -/
theorem C52_reject (nv : Bool) (fn : Str) (src : List UInt8) :
    (∃ er, parseFile nv fn src = some ⟨none, some er⟩) ↔
      ¬ ∃ a, Script nv (mkEnv ((readlines src).map decodeUtf8)) fn a := by
  constructor
  · rintro ⟨er, h⟩ ⟨a, ha⟩
    rw [(C52_parseFile nv fn src a).2 ha] at h
    cases h
  · intro h
    rcases parseFileLines_good nv fn ((readlines src).map decodeUtf8) with ⟨a, h1, _⟩ | ⟨msg, q, h1, _⟩ | ⟨h1, _⟩
    · exact absurd ⟨a, (C52_parseFile nv fn src a).1 h1⟩ h
    · exact ⟨_, h1⟩
    · exact ⟨_, h1⟩

/-- C52.  The grammar is unambiguous: a list of lines is a script in at most one way. -/
theorem C52_unambiguous (nv : Bool) (fn : Str) (lines : List Str) (a b : Ast.File) (ha : Script nv (mkEnv lines) fn a)
    (hb : Script nv (mkEnv lines) fn b) : a = b := by
  have h := (C52_lines nv fn lines a).2 ha
  rw [(C52_lines nv fn lines b).2 hb] at h
  cases h
  rfl

/-! ### Examples -/

/-- The tree of the lines as an indented text. -/
def treeOf (lines : List Str) : Option (List Str) :=
  match parseFileLines false [] lines with
  | some ⟨some a, none⟩ => some (linesL funcLine 0 a.body)
  | _ => none

/-- The lines are a script with this tree. -/
theorem treeOf_script {lines : List Str} {t : List Str} (h : treeOf lines = some t) :
    ∃ a, Script false (mkEnv lines) [] a ∧ linesL funcLine 0 a.body = t := by
  unfold treeOf at h
  split at h
  · rename_i a h'
    exact ⟨a, (C52_lines _ _ _ a).1 h', by simpa using h⟩
  · cases h

theorem treeOf_none {lines : List Str} (h : treeOf lines = none) : ¬ ∃ a, Script false (mkEnv lines) [] a := by
  rintro ⟨a, ha⟩
  unfold treeOf at h
  rw [(C52_lines _ _ _ a).2 ha] at h
  cases h

-- functions, loops, tries, commands on one line, comments
example : ∃ a, Script false (mkEnv [cs!"function! s:f(a, ...) abort dict", cs!"  for [x, y] in items | let x.y += 1 \" c", cs!"  endfor",
      cs!"  return", cs!"endfunction", cs!"try | throw 1 | catch /a|b/ | finally", cs!"endtry"]) [] a ∧
    linesL funcLine 0 a.body = [cs!"(function (s:f a . ...)", cs!"  (for (x y) items", cs!"    (let += (dot x y) 1)", cs!"    ; c)",
      cs!"  (return))", cs!"(try", cs!"  (throw 1)", cs!" catch /a|b/", cs!" finally)"] := treeOf_script (by decide +kernel)
-- modifiers, user commands, the parts of an `:if`
example : treeOf [cs!"silent! if a", cs!"  Foo | Bar", cs!"elseif b \" x", cs!"else | echo 1 2", cs!"endif | Xyz"] =
    some [cs!"(if a", cs!"  (excmd \"Foo | Bar\")", cs!" elseif b", cs!"  ; x", cs!" else", cs!"  (echo 1 2))", cs!"(excmd \"Xyz\")"] := by
  decide +kernel
-- lines of their own
example : treeOf [cs!"append", cs!"foo", cs!".", cs!"#! x", [], cs!" ::", cs!"1,2"] =
    some [cs!"(excmd \"append\nfoo\n.\")", cs!"(excmd \"1,2\")"] := by decide +kernel
-- no scripts
example : ¬ ∃ a, Script false (mkEnv [cs!"if 1"]) [] a := treeOf_none (by decide +kernel)
example : ¬ ∃ a, Script false (mkEnv [cs!"if 1", cs!"endwhile"]) [] a := treeOf_none (by decide +kernel)
example : ¬ ∃ a, Script false (mkEnv [cs!"if 1 | else | elseif 2 | endif"]) [] a := treeOf_none (by decide +kernel)
example : ¬ ∃ a, Script false (mkEnv [cs!"break"]) [] a := treeOf_none (by decide +kernel)
example : ¬ ∃ a, Script false (mkEnv [cs!"return"]) [] a := treeOf_none (by decide +kernel)
-- the end marker of a heredoc with `trim` may not be indented
example : ¬ ∃ a, Script false (mkEnv [cs!"let x =<< trim E", cs!"  a", cs!"  E"]) [] a := treeOf_none (by decide +kernel)

end Viml.Props
