/-
Checks during the build that no declaration of the project depends on an axiom other than the three
standard ones.
-/
import Lean.Util.CollectAxioms
import Lean.Elab.Command
import Verif.Props.Input
import Verif.Props.Token
import Verif.Props.Expr
import Verif.Props.Stmt
import Verif.Props.Text
import Verif.Props.Compiler
import Verif.Props.Cmdline
import Verif.Props.Cache
import Verif.Props.Lookup
import Verif.Props.Walk
import Verif.Props.Printer
import Verif.Props.Blocks
import Verif.Props.BlockLines
import Verif.Props.Grammar
import Verif.Props.File
import Verif.Props.Order
import Verif.Props.Error
import Verif.Props.FileError
import Verif.Props.NumError
import Verif.Props.Relabel
import Verif.Props.Json
import Verif.Props.Concat
import Verif.Props.ConcatError
import Verif.Props.ErrorLocal
import Verif.Props.Insert
import Verif.Props.Indent
import Verif.Props.InsertEnd
import Verif.Props.Layout
import Verif.Props.Nest
import Verif.Props.LineEnds
import Verif.Props.Readable
import Verif.Props.ReadableFile
import Verif.Props.Respell
import Verif.Props.Size
import Verif.Props.Bar
import Verif.Props.Note
import Verif.Props.Style
import Verif.Props.Pattern
import Verif.Props.Name
import Verif.Props.Modify
import Verif.Props.Permute
import Verif.Props.Place
import Verif.Props.Delete
import Verif.Props.Parts
import Verif.Props.CommentOut
import Verif.Props.Close
import Verif.Props.Match
import Verif.Props.Jump
import Verif.Props.Mid
import Verif.Props.Within
import Verif.Props.WithinError
import Verif.Props.Finish
import Verif.Props.HolderError
import Verif.Props.Holder
import Verif.Props.Phrase
import Verif.Props.Message
import Verif.Props.Local

open Lean in
run_cmd do
  let env ← getEnv
  let ok := [``propext, ``Classical.choice, ``Quot.sound]
  let mut n : Nat := 0
  for (name, info) in env.constants.map₁.toList do
    if (`Viml.Props).isPrefixOf name then
      unless info matches .thmInfo _ do continue
      n := n + 1
      for a in ← collectAxioms name do
        unless ok.contains a do throwError "{name} depends on axiom {a}"
  logInfo m!"{n} theorems in Viml.Props checked"
