# Formal model of go-vimlparser

Source: `/repo` (go-vimlparser at the pinned commit), read as text, never built or run.
Model and proofs: `/verif/lean` (Lean 4.33.0).  Build: `cd lean && lake build`.

## Layout

* `properties.jsonl`: the properties C01, C02, ...
* `lean/Verif/Model/*.lean`: the model, one definition per Go function (or per branch of a long one),
  each with the file and lines it was read from.  `scripts/cites.py` prints every citation with the
  first and last cited source line, for review.  `Commands.lean` is generated from
  `go/builtin_commands.go` by `scripts/gen_commands.py`.
* `lean/Verif/Spec/*.lean`: specification vocabulary; nothing there refers to the parser.
* `lean/Verif/Lemmas/*.lean`: helper lemmas.  `Wp` is the program logic; `Token`, `Expr*` and `Stmt*`
  are the specifications of the tokenizer, the expression parser and the command parser.
* `lean/Verif/Props/*.lean`: the property theorems, each next to its specification and to concrete
  `example`s that meet its hypotheses.
* `MANIFEST.json`: which theorem covers which property.
* `seeded/LOG.jsonl`: mutation tests of the theorems.

## Trusted base

* The Lean kernel; axioms `propext`, `Classical.choice`, `Quot.sound` only (no own axiom, no `sorry`,
  no `native_decide`, no `bv_decide`).  `lean/Verif/Axioms.lean` checks during the build that the property
  theorems depend on no other axiom.
* The translation of Go to Lean by hand.  It was checked against the repository's own expected
  outputs: the model, run on all 56 `test/*.vim` files with an `.ok` file, prints the expected
  text with both compilers (this is a test, not part of the proofs).
* Go library behaviour written down from its documentation: `bufio.Scanner` with `ScanLines` and the
  64 KiB limit, `utf8` decoding in `range` loops, the regular expressions of `go/vimlfunc.go`,
  `strconv.ParseInt(s, 10, 32)` on digit strings, `fmt` with `%s`/`%d`/no arguments,
  `encoding/json` on structs, pointers, slices, maps with string keys, strings, integers and booleans, with indentation
  (`Model/Json.lean`; its nesting limit and its short escapes, which depend on the version, are parameters).

### Modelled

`vimlparser.go` (`ParseFile`, `ParseExpr`, `readlines`, error text), `go/type.go` (reader
construction, positions, compiler output helpers), `go/vimlparser.go` complete, `go/vimlfunc.go`,
`go/builtin_commands.go`, `go/export.go`, `ast/` (`Walk`, `Inspect`, `Pos`), `token/`, `compiler/`,
`printer/`, `cmd/vimlparser/main.go`.

### Not modelled

`_test.go` files, the Vim script `autoload/vimlparser.vim`, I/O errors of the
reader and writer, memory exhaustion and stack overflow, `fmt` argument indexes and `*` in the
stray-format-verb case, the exact text of errors that are not `*ErrVimlParser`.

### How Go behaviour is represented

* A reader index is the remaining suffix of the buffer.  Parser code is a `Prog`: a tree of the
  primitive effects (read position, seek, read token, fail); `Prog.run` interprets it.
* A Go panic is `Fail.err` (a located parse error), `Fail.num` (number out of range) or `Fail.crash`
  (index out of range, nil dereference, failed assertion, unknown dispatch).  `Fail.fuel` is the
  model's own step bound for loops; C05 proves that it is never reached, so the bound does not
  restrict the model.
* The context stack of the Go parser shares mutable nodes with the tree; the model links a child into
  its parent when the child is closed (nothing is added to the parent in between).
* Map, pointer and interface values are lists, values and options; every such simplification is in
  the comment of the definition.

## Proof method

* *Reader/position properties* (C01-C04, C39, C40): induction over the list of lines / bytes.
* *Parser properties*: one program logic.  `wp T env m r Q F` says that running `m` from the suffix `r`
  either fails with an error that satisfies `F` (a parse error with a valid position, or a number out
  of range; never a crash, never out of steps) or returns `a, r'` with `Q a r'`.  Rules for bind, loops and
  recursion are proved once; every parser function gets one specification, proved by stepping through
  its text.  Termination (C05), crash freedom (C06), error positions (C07) and line locality (C41) are
  in the logic itself; tree properties (C08, C12, C13, C18-C21, C23, C24) are invariants of the
  returned node, stated as a condition on every node of the tree.
* *Tree properties through the exporter*: one transfer theorem from the internal tree to the public
  AST; user-visible theorems are about the tree returned by `ParseFile` / `ParseExpr`.
* *Compilers and Walk* (C28-C36): structural induction on the tree.
* *Finite tables* (C25-C27, C37): `decide +kernel` over the whole table plus a general lemma for all
  strings.

## Plan per property

| id | model | statement / proof |
|----|-------|-------------------|
| C01 | `mkEnv` | characters of the buffer = independent spec `logicalLines` of the physical lines; induction on lines |
| C02 | `mkEnv` | every cell's line/column is that of an index `(line, k)` of the physical text it was read from |
| C03 | `mkEnv` | offset = bytes before, for cells not on continuation lines, and 0 on continuation lines |
| C04 | `mkEnv` | `Pairwise` lexicographic order of (line, column) |
| C05 | `parseFile` | never `none` (no fuel), exactly one of node/err set; by the program logic |
| C06 | `parseFile`, `parseExpr` | error is `parse ..` or the number error; no crash; the number error exactly for `Spec/NumError`: `NN` (no `.num` inside) for all programs but three, `Num` characterised for those and for lines and files (`NumLine`) |
| C07 | same | position of an error is a cell position or EOF |
| C08 | same | every position in the tree is a cell position or EOF, with the caller's file name |
| C09 | `RunsC` | run with memo table = run without, by invariant "every entry is what `tokGet` returns" |
| C10 | `parseOneCmd` | every handler commutes with a change of the cache (`Lemmas/Swap`); the lookup equals the cache-free lookup for every reachable cache when the name is not followed by a digit; negation witness |
| C11 | `tokGet` | text consumed = white space ++ token text; strict progress unless EOF |
| C12 | `parseExpr` | literal nodes carry the source text at their position |
| C13 | `parseExpr` | precedence predicate on all nodes |
| C14-C16 | `Print`, parser | `Prn`: a tree with its text at a level; the parser run on such a text returns the tree (`Lemmas/PrintRun`, induction on the derivation, for every rest of the line that may follow); the printed text is such a text of the tree with the parentheses put in (`Lemmas/Print`) |
| C17 | `Print` | exact characterisation of the domain |
| C18 | parser | all calls have at most 20 arguments |
| C19, C20 | parser | predicate on all function and lambda nodes |
| C21 | parser | end nodes present, sub-block kinds right |
| C22 | parser | block commands accepted iff derivable in a grammar (`Spec/Blocks`): the stack of open blocks is a run of a small automaton (`Lemmas/Blocks`), each handler is a step of it (`Lemmas/BlocksRun`), and the automaton accepts the grammar |
| C23 | parser | context-indexed predicate on all statements |
| C24 | parser | text = slice of the buffer at the node's position |
| C25, C27 | `CmdOf` | lookup of the parser = textual specification at every reachable state; pairs of table entries compared through numeric codes (`Lemmas/Codes`) |
| C26 | tables | general lemma + whole-table check |
| C28-C30 | `walk` | event trace equals the preorder/postorder trace of a generic rose tree |
| C31 | compiler | no panic, no error for trees produced by the parser |
| C32 | compiler | indentation restored, for every tree |
| C33 | compiler | same output twice for trees without `...`; witness otherwise |
| C34 | compiler | output is the S-expression if it has no percent sign; witness otherwise |
| C35 | both compilers | outputs equal for files without nested functions |
| C36 | escapes | left inverse; witness for the heredoc variant |
| C37 | tokens | whole-table check |
| C38 | `parseExpr` | consumed text is a non-empty prefix of the first logical line |
| C39, C40 | `readlines`, `decodeUtf8` | inverse functions |
| C41 | parser | consumed cells contain no line end |
| C42 | parser | body lines are the lines of the buffer up to the marker |
| C43 | `Cmdline` | exit status 0 iff all files ok |
| C44 | error text | injective in line and column |
| C45 | modifiers | consumed text stays on the line; recorded names are table entries with the typed prefix |
| C51 | `parseExpr`, `parseExpr1` | grammar `Spec/Grammar`; soundness: the tree and the extent of every parse are derivable (`GramSound`, an instance of the closure conditions of `ExprSound`); completeness: mutual induction on the derivation, each rule is a run of the parser (`GramRun`, `GramComplete`) |
| C52 | `parseFile`, `parseToplevel`, all commands | grammar `Spec/File`; each primitive of the reader is characterised by an equivalence (`RunIff`), each command by a sound and a complete direction (`FileRange` … `FileSimple`); soundness: the invariant `Cur` relates the stack of open blocks to a derivation (`FileBlocks`, `FileStep`, `FileSound`); completeness: mutual induction on the derivation (`FileComplete`) |
| C46 | `parseExpr`, `parseFile` | by induction on the grammars of C51 and C52 every position is that of a place after the previous one (`Track`, `OrderExpr`, `OrderFile`); C04 turns the order of places into that of lines and columns |
| C53 | `parseExpr`, expression parser and tokenizer | fault grammar `Spec/ExprError` over the grammar of C51; `Bad` (a program fails with a message at a place) is characterised by an equivalence for each primitive, each construct and each level (`Bad`, `ExprErr*`); loops by the state they reach before the failing round |
| C54 | `parseFile`, whole file parser | fault grammar `Spec/FileError` over the grammars of C51, C52 and the faults of C53; `Bad` is characterised for each command parser (`FileErrArgs`, `FileErrLet`, `FileErrRaw`, `FileErrText`, `FileErrLv`, `FileErrRange`), for the dispatch (`FileErrHandlers`), for a line (`FileErrLine`) and for the file by the stack invariant of C52 (`FileErrTop`); `Avoids` shows which programs cannot fail with a message |
| C55 | `parseFile` | trichotomy of `Script`, `FileErr` and `NumErr` from C05, C52, C54 and C06 |
| C56 | `parseFile`, `parseExpr` | relabelling of positions (`Lab`): each program run on a relabelled buffer gives the relabelled result (`LSim`, a logical relation over `Prog`), so does the exporter; equal logical lines give buffers equal up to relabelling |
| C57 | `compileFile`, `fprintExpr` | structural induction over trees |
| C58 | `parseFile` of the command with `-json` | induction over JSON values: the text written satisfies the grammar; the grammar is uniquely readable (values and rest of the text, with white space maximal); the value has the fields of the tree (`Shows` of `Spec/JsonFields.lean`, whose names and order were first transcribed from the model and then compared with the structures of ast/node.go, exarg.go and pos.go by a script) |
| C59 | same | field names of the node types are pairwise different (finite table), then induction over trees |
| C60 | same | induction over JSON values |
| C61 | `ParseFile`, `Parse`, `find_command` | through the grammar of C52: a derivation is carried from one buffer to another that starts or ends differently (`Lemmas/Carry*.lean`); the derivation of A is cut at the comment line after it |
| C62 | `ParseFile`, `Parse`, `find_command`, `Err` | through C52, C54 and C55: every derivation of an error is carried to the place behind the other lines (`Lemmas/Mover*.lean`); a user command takes the rest of its line, so the names seen before do not matter for acceptance (`Lemmas/AnyNames.lean`) |
| C63 | every call of `Err` | by induction over the derivations of C53 and C54; what is quoted is read from the source (`Lemmas/Suffix.lean`) |
| C64 | the whole parser | derivations of C54 are carried to the other file, or their error is behind the shared lines (`Lemmas/Local*.lean`, `Forward.lean`) |
| C65 | the whole parser | a derivation is split at the place: what is before it is carried, what is behind it is moved (`Lemmas/Insert.lean`); statements do not reach over the place (`RunChain.lean`) |
| C66 | the whole parser | as for C65; every line of a derivation starts with blanks, tabs and colons, so more of them may be there (`Lead` in `Lemmas/Indent.lean`) |
| C67 | the whole parser, compiler, command | C56, C65, C66 and C57 put together; the relation `Layout` is the least equivalence that contains the single changes |
| C68 | the whole parser | the insertion of C65 for lines that are statements anywhere; a script does not depend on the blocks around it (`body_cx`), source order (C46) gives the place |
| C69 | expression parser and tokenizer | a reading that ends at the end of the line goes on in front of a bracket, comma, colon or blank (`Hang`): tokens at the end of the part do not take what follows |
| C70 | expression arguments of commands | C69 behind the head of a command; C52 turns readings into trees; `Carry` puts a line behind others |
| C71 | expression arguments of commands, errors | C53 gives the fault of the expression, `Mover` puts it behind the command, C54 turns it into the error of the file |
| C72 | `readlines` and everything behind it | equality of the lines read (C01), then congruence |
| C73 | `Comp.expr` on the trees of C51, C52 | reader of S-expressions: a term is determined by a prefix of the text; induction over terms; names with braces by induction over the grammar |
| C74 | `Comp.compileFile` on the trees of C52 | lines with their blanks and open blocks determine the text and are determined by it; first line determines node; blocks by induction over statements |
| C75 | `parseCommandName`, `findCommand` and the rest of the parser | a line that starts with a name of a command has the same derivations with another name, but for text; text before is carried, text behind is moved (as in C66) |
| C76 | the whole parser, `Walk`, `Inspect` | by induction over the grammars of C51 and C52: every node has a character or line end of the text of its own |
| C77 | `parse_one_cmd`, `ends_excmds`, the parsers of the commands that end at a bar | the two texts have the same characters except one, and the grammars of C51 and C52 are carried over from one to the other; the parsers of the command stop at the bar as at the line end |
| C78 | as C77, and `parse_trail`, `parse_comment` | as C77: the parsers of the command stop at the `"` as at the line end, and the statement behind is the comment; the rest of the file is carried over |
| C79 | as C67, C77, C78 | the closure of the steps of C67, C77 and C78, by induction on the number of steps |
| C80 | `patVim2Go`, `viml_eqregh`, all its uses | Spec/Regex.lean parses the Go expressions of the table (by evaluation, one by one) and says what they match; the tests of the model (Model/Basic.lean and others) are shown equal for all texts, so these are no longer translations by hand that have to be trusted |
| C81 | `ParseFile`, exporter, `cmd/vimlparser` | the parser proper does not get the name; the exporter commutes with changes of positions and names (Lemmas/LabExport.lean); C57 for the command |
| C82 | the parser | C52 and C54 for both files; the modifier is read by `Mods`, all else is moved as for C66 (Lemmas/Modify*.lean); `Modded` counts the changed records (Spec/Modify.lean) |
| C83 | the parser, the compiler | induction on the permutation; C68 moves an error behind a whole script, C61 joins the trees, positions are not printed |
| C84 | the parser, the reader | induction on the derivation of the tree: correct lines lead to each command; they end behind a line end or a bar, and positions are not repeated (C04), so they end before the line; C61, C62 and C82 for the parts and the converse |
| C85 | the parser, the compiler | C84 cuts the file at both statements; C62 shows that the lines between are accepted and end between statements, C65 that they are whole; C61 joins the rest |
| C86 | the parser, the compiler | induction on the lines finds the cuts; C84 and C85 show that the parts are whole; C62 and C83 combine them |
| C87 | the parser, the compiler | commented lines are a whole script of comments (C65); C68 puts either script at the place, C85 finds the lines |
| C88 | the parser | `OpenFront` is the place between statements (`Front`) with the stack of end commands; the innermost open block is a `Part`, which its end command makes a `Block` |
| C89 | the parser | the stack of `OpenFront` (C88) decides which `Misplaced` applies; induction over the list of end commands |
| C90 | the parser | the stack of `OpenFront` (C88) determines the context `Ctx`, by induction |
| C91 | the parser | `OpenFront` (C88) with the innermost open part fixed for all lines that follow |
| C92 | the parser | `openFront_within`: the lines carried behind others (`carryW`), in a wider context, by induction |
| C93 | the parser | `front_in`: as C92 with the text behind moved too (`Mover`); a command in its place stays so in a wider context |
| C94 | the parser | `fin_head`, `fin_line`: the line `finish` in the grammar; `openFront_top`: the context is the top level iff no block is open |

## Findings in the code

* Characters on continuation lines get byte offset 0 (`go/type.go:218`).  With CRLF line ends or
  invalid UTF-8 offsets drift.
* `ErrVimlParser.Offset` is an index into the reader's buffer, not a byte offset.
* `readlines` ignores `scanner.Err()`: a line of 64 KiB or more silently ends the file.
* `:99999999999tab echo` and `:lockvar 99999999999 x` give an error that is not an `*ErrVimlParser`.
* `find_command` caches under the extended name: the line `Foo1 bar` parses differently after a line
  `Foo`.
* `:break`/`:continue` are accepted in a function defined inside a loop.
* `reader.getpos() != ea.argpos` compares pointers and is always true.
* `ParseExpr` ignores trailing input.
* Compiler: `let [dot, a, b] = x` and `let a.b = x` give the same output, and so do `lockvar 0 2 x` (the parser accepts a
  number as the first target) and `lockvar 2 x`, and heredocs with the lines `a" "b` and `a`, `b` (C74).
* Compiler: `[1]` and `list(1)` give the same output `(list 1)`, and so do `a is b` and `is(a, b)`, `a[:2]` and
  `a[nil : 2]`, and calls of the other names in `headWords` of `Spec/Readable.lean` (C73).
* Printer: no precedence for `=~` and `=~?` (panic); comparisons nested on the left do not round-trip;
  `((x))` is printed as `(x)`.  The blob read from `0z12.A` is `0z12.`, and its printed text does not parse.
* `Walk` skips the body of lambdas and the default arguments of functions; `Inspect` never calls its
  function with nil although the comment says so.
* `compiler`: a bare expression is used as a format string; `compileFunction` overwrites
  `node.Params`; functions inside a block are indented differently from the reference compiler;
  `ExArg.Cmd` is nil for lines that have only modifiers or a range, so `Excmd.Cmd()` would dereference
  nil.
* The position of a key in `#{key: ..}` is one past its first character.
* `vim9script` is shadowed in the command table; `:const` is in it twice.
* The shadowed second `:const` entry names `parse_cmd_common`; no entry names
  `parse_cmd_modifier_range`, so that branch of the dispatcher is dead.
* After `silent!` blanks are not skipped, so a modifier that follows is taken for the command
  (`silent! verbose echo 1` is a raw `:verbose` command).
* Heredocs: if a bar follows the end marker on the head line, the rest of that line becomes the first
  body line; a comment on the head line is added to the body before the `:let` node.
* Parameters of lambdas are not checked against `firstline` and `lastline`.
* `:change` is parsed as a command of one line (unlike `:append` and `:insert`).
* `:hide` alone gives no node; `hide|echo 1` is rejected with E492.  A line `'` gives no node either.  With a modifier before
  them (`silent hide`, `silent '`) both give one (C82).
* The text of a raw command starts at `Linepos`, not at the position of the node.
* A blob with an odd number of digits at the end of a line (`0zA`, `0z12.A`) is accepted; E973 is given only
  if another character follows.
* `compiler`: an error of a statement inside a block is dropped (only a part of a block outside of its block
  gives one; no parsed tree has that); `:echo` and `:execute` without arguments print `(echo )`.
* A lookahead may read the first token of the next line and report its error there: the error of `echo {` is in its own
  line if `echo` follows, and in the next line if `~` follows (`C64_lookahead`).
* `:tc` is documented as `:tcd` (minimum length 2) but resolves to `:tcl`, which is earlier in the table.  It is
  the only admissible abbreviation that resolves to another command.
* `:Print` and its abbreviations are taken for user commands, with and without the Neovim option.
* `#{a:b, c:d}` is rejected with E125: the text after `#{` is read as a token, the name `a:b`, and with the comma
  it looks like the parameters of a lambda.  `{a->f(): 1}` is rejected for the same reason.  `#{0z1: 2}` is rejected
  with E973, because a token is read before each bare key.
* `x->f().y(1)` is the concatenation of `x->f()` and `y(1)`: `parse_dot` does not accept the result of a method call
  on its left.  `1 == 2 == 3` ends after the first comparison, `a [0]` before the blank.
* The word `trim` of a heredoc has no effect on where the heredoc ends: an indented end marker is not recognised, the
  file is rejected with E990.
* `Pos()` is documented as the position of the first character belonging to the node (ast/node.go:11).  For binary,
  ternary, subscript, slice, call, method and dot nodes it is the position of the operator, bracket or dot
  (`C46_pos_not_first`); for a heredoc it is the position of its command.
* The comment on the line of a heredoc is put before the `:let` in the body (`C46_heredoc_comment`).
* `silent "c` gives two statements with the same position (`C46_equal_positions`).
* `-json` writes `null` for some empty lists (bodies, arguments, list values) and `[]` for others (parameters, default
  arguments, dictionary entries, modifiers); a comment has a member `"Statement": null` from an embedded interface.
* `-json` fails for trees nested more than 10000 levels (Go 1.15 and later), without `-json` such files are printed
  (`C58_too_deep`).
* `@` alone is accepted as an expression (a register without a name), `(@)` and `[@]` are not: the bracket is taken as
  the name of the register (`C69_register`).
* The user commands seen so far change how later names are read: `Foo2` is the user command `Foo2`, but after a line `Foo`
  it is `Foo` with the argument `2` (`C61_counterexample`).  So a file can have another tree after another file.
