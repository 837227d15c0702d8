import Verif.Model.Basic
import Verif.Model.Prog
import Verif.Model.Token
import Verif.Model.Input
import Verif.Model.Node
import Verif.Model.ExprParser
import Verif.Model.Commands
import Verif.Model.Stmt
import Verif.Model.VimLParser
import Verif.Model.Tok
import Verif.Model.Ast
import Verif.Model.Export
import Verif.Model.Api
import Verif.Model.RefCompiler
import Verif.Model.Compiler
import Verif.Model.Walk
import Verif.Model.Printer
import Verif.Model.Cache
import Verif.Model.Cmdline
import Verif.Spec.Input
import Verif.Lemmas.Utf8
import Verif.Lemmas.Input
import Verif.Props.Input
import Verif.Spec.Token
import Verif.Spec.Expr
import Verif.Spec.Command
import Verif.Spec.Stmt
import Verif.Lemmas.Wp
import Verif.Spec.Lex
import Verif.Lemmas.Token
import Verif.Lemmas.Lex
import Verif.Lemmas.ExprGrammar
import Verif.Lemmas.ExprSound
import Verif.Lemmas.ExprAst
import Verif.Lemmas.Api
import Verif.Lemmas.StmtSteps
import Verif.Lemmas.StmtSound
import Verif.Lemmas.StmtHandlers
import Verif.Lemmas.StmtCmds
import Verif.Lemmas.StmtAst
import Verif.Lemmas.ApiFile
import Verif.Lemmas.Mods
import Verif.Props.Token
import Verif.Props.Expr
import Verif.Props.Stmt
import Verif.Props.Text
import Verif.Spec.Sexp
import Verif.Lemmas.Comp
import Verif.Lemmas.CompFile
import Verif.Lemmas.CompIndent
import Verif.Lemmas.CompTwice
import Verif.Lemmas.RefComp
import Verif.Props.Compiler
import Verif.Props.Cmdline
import Verif.Props.Cache
import Verif.Spec.Lookup
import Verif.Lemmas.Swap
import Verif.Lemmas.Lookup
import Verif.Lemmas.LookupRun
import Verif.Lemmas.LookupFile
import Verif.Lemmas.Codes
import Verif.Props.Lookup
import Verif.Spec.Walk
import Verif.Lemmas.Walk
import Verif.Props.Walk
import Verif.Spec.Printer
import Verif.Lemmas.ExprRun
import Verif.Lemmas.LeafRun
import Verif.Lemmas.PrintRun
import Verif.Lemmas.Print
import Verif.Props.Printer
import Verif.Spec.Blocks
import Verif.Lemmas.Blocks
import Verif.Lemmas.BlocksRun
import Verif.Props.Blocks
import Verif.Props.BlockLines
import Verif.Spec.Grammar
import Verif.Lemmas.GramSound
import Verif.Lemmas.GramRun
import Verif.Lemmas.GramComplete
import Verif.Lemmas.GramApi
import Verif.Spec.File
import Verif.Lemmas.RunIff
import Verif.Lemmas.FileRange
import Verif.Lemmas.FileMods
import Verif.Lemmas.FileName
import Verif.Lemmas.FileOpts
import Verif.Lemmas.FileHead
import Verif.Lemmas.FileLine
import Verif.Lemmas.FileRaw
import Verif.Lemmas.FileLv
import Verif.Lemmas.FileArgs
import Verif.Lemmas.FileFunc
import Verif.Lemmas.FileSimple
import Verif.Lemmas.FileBlocks
import Verif.Lemmas.FileStep
import Verif.Lemmas.FileSound
import Verif.Lemmas.FileComplete
import Verif.Props.File
import Verif.Spec.Order
import Verif.Lemmas.OrderExpr
import Verif.Lemmas.OrderFile
import Verif.Lemmas.OrderAll
import Verif.Props.Order
import Verif.Spec.LexError
import Verif.Spec.ExprError
import Verif.Lemmas.Bad
import Verif.Lemmas.ExprErr
import Verif.Lemmas.ExprErrLeaf
import Verif.Lemmas.ExprErrBrace
import Verif.Lemmas.ExprErr9
import Verif.Lemmas.ExprErrLevel
import Verif.Props.Error
import Verif.Spec.FileError
import Verif.Lemmas.Avoid
import Verif.Lemmas.FileErrRange
import Verif.Lemmas.FileErrText
import Verif.Lemmas.FileErrRaw
import Verif.Lemmas.FileErrLv
import Verif.Lemmas.FileErrArgs
import Verif.Lemmas.FileErrLet
import Verif.Lemmas.FileErrHandlers
import Verif.Lemmas.FileErrLine
import Verif.Lemmas.FileErrTop
import Verif.Props.FileError
import Verif.Spec.NumError
import Verif.Lemmas.NoNum
import Verif.Lemmas.NumLine
import Verif.Props.NumError
import Verif.Spec.Relabel
import Verif.Lemmas.LabAttr
import Verif.Lemmas.Lab
import Verif.Lemmas.LabExpr
import Verif.Lemmas.LabStmt
import Verif.Lemmas.LabExport
import Verif.Lemmas.Moves
import Verif.Lemmas.PosFree
import Verif.Props.Relabel
import Verif.Model.Json
import Verif.Spec.Json
import Verif.Lemmas.Json
import Verif.Lemmas.JsonUnique
import Verif.Lemmas.JsonTree
import Verif.Lemmas.JsonSafe
import Verif.Lemmas.JsonShape
import Verif.Lemmas.JsonDeep
import Verif.Spec.JsonFields
import Verif.Lemmas.JsonFields
import Verif.Props.Json
import Verif.Spec.Concat
import Verif.Lemmas.Carry
import Verif.Lemmas.CarryExpr
import Verif.Lemmas.CarryHead
import Verif.Lemmas.CarryFile
import Verif.Lemmas.CarryBlock
import Verif.Lemmas.ConcatInput
import Verif.Lemmas.Concat
import Verif.Props.Concat
import Verif.Lemmas.Mover
import Verif.Lemmas.MoverExpr
import Verif.Lemmas.MoverFile
import Verif.Lemmas.AnyNames
import Verif.Lemmas.ConcatError
import Verif.Props.ConcatError
import Verif.Props.ErrorLocal
import Verif.Props.Insert
import Verif.Props.Indent
import Verif.Props.Layout
import Verif.Props.Nest
import Verif.Props.LineEnds
import Verif.Props.Readable
import Verif.Props.ReadableFile
import Verif.Props.Respell
import Verif.Props.Size
import Verif.Props.Bar
import Verif.Props.Note
import Verif.Props.Style
import Verif.Props.Pattern
import Verif.Props.Name
import Verif.Props.Modify
import Verif.Props.Permute
import Verif.Props.Place
import Verif.Props.Delete
import Verif.Props.Parts
import Verif.Props.CommentOut
import Verif.Props.Close
import Verif.Props.Match
import Verif.Props.Jump
import Verif.Props.Mid
import Verif.Props.Within
import Verif.Props.WithinError
import Verif.Props.Finish
import Verif.Props.HolderError
import Verif.Lemmas.HolderError
import Verif.Props.Holder
import Verif.Props.Phrase
import Verif.Lemmas.HolderBlock
import Verif.Lemmas.Holder
import Verif.Lemmas.PhraseIn
import Verif.Lemmas.Phrase
import Verif.Lemmas.Hang
import Verif.Spec.Holder
import Verif.Spec.Phrase
import Verif.Lemmas.NestPlace
import Verif.Lemmas.Nest
import Verif.Spec.Nest
import Verif.Props.InsertEnd
import Verif.Lemmas.Layout
import Verif.Spec.Layout
import Verif.Lemmas.IndentAt
import Verif.Lemmas.Indent
import Verif.Spec.Indent
import Verif.Lemmas.InsertAt
import Verif.Lemmas.Insert
import Verif.Lemmas.RunChain
import Verif.Spec.Insert
import Verif.Spec.ErrorLocal
import Verif.Lemmas.LocalCut
import Verif.Lemmas.LocalFile
import Verif.Lemmas.LocalExpr
import Verif.Lemmas.Local
import Verif.Lemmas.Forward
import Verif.Props.Local
import Verif.Lemmas.Cut
import Verif.Lemmas.PrintLine
import Verif.Props.Message
import Verif.Lemmas.Message
import Verif.Spec.Message
import Verif.Lemmas.Suffix
import Verif.Props.Grammar
import Verif.Axioms
