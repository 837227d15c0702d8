/-
C54: which files are rejected with a parse error, with which message and at which position.  The specification is
`FileErr` of `Spec/FileError.lean`.
-/
import Verif.Lemmas.FileErrTop

namespace Viml.Props
open Viml Viml.Spec

/-- C54, on decoded lines. -/
theorem C54_lines (nv : Bool) (fn : Str) (lines : List Str) (n : Option Ast.File) (f : Str) (o l c : Nat) (m : Str) :
    parseFileLines nv fn lines = some ⟨n, some (.parse f o l c m)⟩ ↔
      n = none ∧ f = fn ∧ ∃ q : Pos, o = q.i ∧ l = q.lnum ∧ c = q.col ∧ FileErr nv (mkEnv lines) fn m q := by
  constructor
  · intro h
    unfold parseFileLines at h
    simp only at h
    cases hr : (parseToplevel nv).run (mkEnv lines) (mkEnv lines).buf with
    | ok v r' =>
      rw [hr] at h
      simp only at h
      split at h <;> cases h
    | fail e =>
      rw [hr] at h
      cases e with
      | err m' p =>
        simp only [recoverFail, Option.map_some, Option.some.injEq, ApiRes.mk.injEq, ApiErr.parse.injEq] at h
        obtain ⟨rfl, rfl, rfl, rfl, rfl, rfl⟩ := h
        exact ⟨rfl, rfl, p, rfl, rfl, rfl, file_err.1 hr⟩
      | num => cases h
      | crash => cases h
      | fuel => cases h
  · rintro ⟨rfl, rfl, q, rfl, rfl, rfl, h⟩
    have h1 := file_err.2 h
    unfold parseFileLines
    simp only [h1]
    rfl

/-- C54.  `ParseFile` returns a parse error if and only if the file has the fault that the specification describes: the
lines before follow the file grammar and the blocks left open are `b`, and the line has the fault, or the file ends
inside a block.  The error carries the message of the fault and the offset, line and column of the place. -/
theorem C54_parseFile (nv : Bool) (fn : Str) (src : List UInt8) (n : Option Ast.File) (f : Str) (o l c : Nat) (m : Str) :
    parseFile nv fn src = some ⟨n, some (.parse f o l c m)⟩ ↔
      n = none ∧ f = fn ∧ ∃ q : Pos, o = q.i ∧ l = q.lnum ∧ c = q.col ∧
        FileErr nv (mkEnv ((readlines src).map decodeUtf8)) fn m q :=
  C54_lines nv fn _ n f o l c m

/-- C54.  A file has at most one fault: the message and the position are determined. -/
theorem C54_unique (nv : Bool) (lines : List Str) (fn fn' : Str) (m m' : Str) (q q' : Pos)
    (h : FileErr nv (mkEnv lines) fn m q) (h' : FileErr nv (mkEnv lines) fn' m' q') : m = m' ∧ q = q' := by
  have h1 := file_err.2 h
  rw [file_err.2 h'] at h1
  cases h1
  exact ⟨rfl, rfl⟩

/-- C54.  A file with a fault is no script. -/
theorem C54_no_script (nv : Bool) (lines : List Str) (fn : Str) (m : Str) (q : Pos) (a : Ast.File)
    (h : FileErr nv (mkEnv lines) fn m q) : ¬ Script nv (mkEnv lines) fn a := by
  intro ha
  obtain ⟨f, r, h1, _⟩ := script_complete ha
  rw [file_err.2 h] at h1
  cases h1

/-- The error of a file, to write examples: message, offset, line and column. -/
def fileErr (lines : List Str) : Option (Str × Nat × Nat × Nat) :=
  match parseFileLines false [] lines with
  | some ⟨_, some (.parse _ off line col msg)⟩ => some (msg, off, line, col)
  | _ => none

-- before the arguments
example : fileErr [cs!"echo 1", cs!"foo 1"] = some (cs!"E492: Not an editor command: foo 1", 7, 2, 1) := by decide +kernel
example : fileErr [cs!"  echo! 1"] = some (cs!"E477: No ! allowed", 2, 1, 3) := by decide +kernel
example : fileErr [cs!"edit ++foo x"] = some (cs!"E474: Invalid Argument", 5, 1, 6) := by decide +kernel
example : fileErr [cs!"write > x"] = some (cs!"E494: Use w or w>>", 0, 1, 1) := by decide +kernel
example : fileErr [cs!"/abc\\"] = some (cs!"E682: Invalid search pattern or delimiter", 5, 1, 6) := by decide +kernel
-- blocks
example : fileErr [cs!"if 1", cs!"else", cs!"elseif 2"] = some (cs!"E582: :elseif without :if", 10, 3, 1) := by decide +kernel
example : fileErr [cs!"while 1", cs!" endif"] = some (cs!"E580: :endif without :if", 9, 2, 2) := by decide +kernel
example : fileErr [cs!"break"] = some (cs!"E587: :break without :while or :for", 0, 1, 1) := by decide +kernel
example : fileErr [cs!"function F()", cs!"if 1", cs!"endfunction"] =
    some (cs!"E171: Missing :endif:    ENDFUNCTION", 18, 3, 1) := by decide +kernel
example : fileErr [cs!"for x in [1]", cs!"echo x"] = some (cs!"E170: Missing :endfor:    TOPLEVEL", 20, 3, 0) := by decide +kernel
-- arguments
example : fileErr [cs!"let 1 = 2"] = some (cs!"unexpected token: 1", 4, 1, 5) := by decide +kernel
example : fileErr [cs!"function F(a,a)"] = some (cs!"E853: Duplicate argument name: a", 13, 1, 14) := by decide +kernel
example : fileErr [cs!"vimgrep /a\\"] = some (cs!"E682: Invalid search pattern or delimiter", 11, 1, 12) := by decide +kernel
example : fileErr [cs!"wincmd"] = some (cs!"E471: Argument required", 6, 1, 7) := by decide +kernel
example : fileErr [cs!"for x on y"] = some (cs!"Missing \"in\" after :for", 6, 1, 7) := by decide +kernel
example : fileErr [cs!"function f()"] = some (cs!"E128: Function name must start with a capital or contain a colon: f", 9, 1, 10) := by
  decide +kernel
example : fileErr [cs!"endif x"] = some (cs!"E580: :endif without :if", 0, 1, 1) := by decide +kernel
-- after the arguments
example : fileErr [cs!"if 1", cs!"endif x"] = some (cs!"E488: Trailing characters: x", 11, 2, 7) := by decide +kernel

/-- What the examples say about the specification. -/
theorem fileErr_spec {lines : List Str} {m : Str} {o l c : Nat} (h : fileErr lines = some (m, o, l, c)) :
    ∃ q, FileErr false (mkEnv lines) [] m q ∧ q.i = o ∧ q.lnum = l ∧ q.col = c := by
  unfold fileErr at h
  split at h
  · rename_i h1
    obtain ⟨_, _, q, h2, h3, h4, h5⟩ := (C54_lines false [] lines _ _ _ _ _ _).1 h1
    cases h
    exact ⟨q, h5, h2.symm, h3.symm, h4.symm⟩
  · cases h

/-- The hypotheses are met: a file with a fault and where it is. -/
example : ∃ q, FileErr false (mkEnv [cs!"while 1", cs!" endif"]) [] cs!"E580: :endif without :if" q ∧ q.i = 9 ∧ q.lnum = 2 ∧
    q.col = 2 := fileErr_spec (by decide +kernel)

end Viml.Props
