/-
cmd/vimlparser/main.go: the command-line tool.
-/
import Verif.Model.Api
import Verif.Model.Compiler

namespace Viml
namespace Cmdline

/-- An error reported on standard error: a file that cannot be opened, an error of `ParseFile`, or one of
`Compile` or the JSON encoder. -/
inductive Report
  | open_ (name : Str)
  | parse (e : ApiErr)
  | write (name : Str)
deriving DecidableEq, Repr, Inhabited

/-- How the tool deals with one input: text written to standard output or the error that is returned;
or a panic that ends the process (exit status 2). -/
inductive FileRes
  | ok (out : Str)
  | failed (e : Report)
  | panicked
deriving DecidableEq, Repr, Inhabited

/-- `parseFile`, cmd/vimlparser/main.go:52-68.  The JSON encoder is a parameter: `none` is an
encoding error.  An input is its name and its bytes. -/
def parseFile (json : Option (Ast.File → Option Str)) (neovim : Bool) (name : Str)
    (src : List UInt8) : FileRes :=
  match Viml.parseFile neovim name src with
  | some ⟨_, some e⟩ => .failed (.parse e)
  | some ⟨some f, none⟩ =>
    match json with
    | some enc =>
      match enc f with
      | some s => .ok s
      | none => .failed (.write name)
    | none =>
      match Comp.compileFile f with
      | .text s => .ok s
      | .err => .failed (.write name)
      | .panic => .panicked
  | some ⟨none, none⟩ => .panicked
  | none => .panicked

/-- A command-line argument: its name and the bytes of the file, `none` if it cannot be opened. -/
structure Arg where
  name : Str
  content : Option (List UInt8)
deriving Repr, Inhabited

/-- What the process leaves behind: standard output, the errors reported on standard error,
exit status, and whether the usage message was printed. -/
structure Proc where
  out : Str := []
  errors : List Report := []
  exit : Nat := 0
  usage : Bool := false
deriving DecidableEq, Repr, Inhabited

/-- The loop over arguments, cmd/vimlparser/main.go:30-48; `i` is the index of the next argument. -/
def files (json : Option (Ast.File → Option Str)) (neovim : Bool) : Nat → List Arg → Proc → Proc
  | _, [], st => st
  | i, a :: as, st =>
    match a.content with
    | none =>
      files json neovim (i + 1) as
        { st with errors := st.errors ++ [.open_ a.name], exit := 1, usage := st.usage || i == 0 }
    | some src =>
      match parseFile json neovim a.name src with
      | .ok s => files json neovim (i + 1) as { st with out := st.out ++ s }
      | .failed e => files json neovim (i + 1) as { st with errors := st.errors ++ [e], exit := 1 }
      | .panicked => { st with exit := 2 }

/-- `main`, cmd/vimlparser/main.go:17-49 -/
def main (json : Option (Ast.File → Option Str)) (neovim : Bool) (args : List Arg)
    (stdin : List UInt8) : Proc :=
  if args.isEmpty then
    match parseFile json neovim [] stdin with
    | .ok s => { out := s }
    | .failed e => { errors := [e], exit := 1 }
    | .panicked => { exit := 2 }
  else files json neovim 0 args {}

end Cmdline
end Viml
