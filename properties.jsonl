{"id": "C01", "title": "Line continuation joins lines exactly", "statement": "Parsing sees the file as logical lines: a physical line whose first non-blank character is a backslash is appended, without its leading blanks and that backslash, to the logical line it follows; every other physical line starts a new logical line; no character of the input is lost, duplicated or reordered.", "quantifier": "every list of physical lines", "why_tests_cant": "Unit tests fix a handful of continuation shapes (one level, two levels); the claim covers any number of continuation and ordinary lines in any order, including empty lines and lines of blanks only.", "anchors": ["go/type.go:StringReader.__init__", "go/type.go:NewStringReader"]}
{"id": "C02", "title": "Line and column of every source character", "statement": "The line number attached to a character is the 1-based number of the physical line it is on, and its column is one plus the number of UTF-8 bytes before it on that physical line, also on continuation lines.", "quantifier": "every list of physical lines and every character in it", "why_tests_cant": "Depends on the mix of multi-byte characters, blanks and continuation lines; the number of combinations is unbounded.", "anchors": ["go/type.go:StringReader.__init__"]}
{"id": "C03", "title": "Byte offset of source characters", "statement": "On files with LF line endings the offset attached to a character of a line that is no continuation line is the number of bytes that precede it in the file, and the offset of a line end is the number of bytes before the line terminator, on every line. The offset attached to a character of a continuation line is 0; there the number of preceding bytes is never recorded.", "quantifier": "every list of physical lines and every character in it", "why_tests_cant": "The tests check a few node offsets only; whether the running sum is right needs an invariant over all lines.", "anchors": ["go/type.go:StringReader.__init__", "ast/pos.go:Pos"]}
{"id": "C04", "title": "Positions follow source order", "statement": "Reading forward through the input, (line, column) strictly increases; two different characters never carry the same (line, column).", "quantifier": "every list of physical lines and every pair of characters in it", "why_tests_cant": "Pairs of characters over arbitrary inputs cannot be enumerated.", "anchors": ["go/type.go:StringReader.__init__"]}
{"id": "C05", "title": "ParseFile always returns, with exactly one of node and error", "statement": "For every input and every option ParseFile terminates and returns either a non-nil file and a nil error or a nil file and a non-nil error; no panic escapes and no loop runs forever.", "quantifier": "every byte sequence, file name and option", "why_tests_cant": "Termination and the absence of escaping panics are universally quantified over inputs; fuzzing can only sample.", "anchors": ["vimlparser.go:ParseFile", "go/vimlparser.go:VimLParser.parse", "go/export.go:newAstNode"]}
{"id": "C06", "title": "Rejections are located parse errors, with one exception", "statement": "If ParseFile or ParseExpr rejects an input, the error is an *ErrVimlParser with a position, in particular never from an index out of range or a nil dereference. For ParseExpr there is no exception. For ParseFile the exception is exact: another error is returned if and only if the count of a modifier (:tab, :verbose) or the depth of :lockvar or :unlockvar is 2^31 or more, the lines before it follow the file grammar (C52), and nothing is wrong in the line before it.", "quantifier": "every input", "why_tests_cant": "Requires that no reachable state indexes the reader out of bounds or dereferences nil, over all inputs, and that no other number is converted.", "anchors": ["vimlparser.go:ParseFile", "vimlparser.go:ParseExpr", "go/type.go:Err", "go/vimlfunc.go:viml_str2nr"]}
{"id": "C07", "title": "Error positions lie inside the file", "statement": "The line/column of a parse error is the position of a real character or line end of the input, or the end-of-file position (last line + 1, column 0).", "quantifier": "every rejected input", "why_tests_cant": "Error positions are computed at more than a hundred throw sites from saved positions; tests look at a few.", "anchors": ["go/type.go:Err", "go/vimlparser.go:VimLParser.parse", "vimlparser.go:ErrVimlParser"]}
{"id": "C08", "title": "Every AST position is a real source position", "statement": "Every position stored in the returned tree (nodes, command arguments, end positions) is the position of a character, line end or the end of file of the input, and carries the file name passed by the caller.", "quantifier": "every accepted input and every node of its tree", "why_tests_cant": "Must hold for each of ~40 node kinds at any depth.", "anchors": ["go/export.go:newPos", "go/export.go:newAstNode", "ast/node.go"]}
{"id": "C09", "title": "Token cache is invisible", "statement": "The expression tokenizer memoises tokens per reader index; the result of any parse (tree, error, position) is the same as without the memo table, whatever was memoised before.", "quantifier": "every expression parser run and every history of earlier token reads on the same reader", "why_tests_cant": "The cache is shared between backtracking passes; correctness is a statement about all histories.", "anchors": ["go/vimlparser.go:ExprTokenizer.get", "go/vimlparser.go:ExprTokenizer.peek", "go/vimlparser.go:ExprTokenizer.get2"]}
{"id": "C10", "title": "Command lookup does not depend on earlier lines", "statement": "What the parser does with one command depends only on the text and the open blocks, not on the commands looked up before it, in this file or any other: the parser state with any other reachable lookup cache has the same outcome (same tree, same error, same rest of the input).  The one exception is a user command name with a digit in it: `Foo1` is parsed as the command `Foo` if `Foo` occurred earlier.", "quantifier": "every pair of (history of parsed lines, next line)", "why_tests_cant": "The cache makes resolution history dependent; tests parse independent files.", "anchors": ["go/vimlparser.go:VimLParser.find_command", "go/type.go:VimLParser.find_command_cache"]}
{"id": "C11", "title": "Tokens tile the source line", "statement": "Consecutive expression tokens never overlap and never skip anything but white space: each token's text is exactly the source text it was read from (string-quote tokens and operators included) and reading always advances unless at the end of input. Which token is read is determined by a lexical grammar (longest match with its documented exceptions), and there is an error exactly where no token starts.", "quantifier": "every reader content and every position in it", "why_tests_cant": "Any mix of operators, numbers, blanks and multi-byte characters.", "anchors": ["go/vimlparser.go:ExprTokenizer.get2", "go/vimlparser.go:ExprTokenizer.get"]}
{"id": "C12", "title": "Literals are kept verbatim", "statement": "The value of a string, number, blob, option, environment or register literal in the tree is exactly the source text of that literal, quotes and escapes included.", "quantifier": "every accepted expression", "why_tests_cant": "Escapes and quote doubling give infinitely many literal shapes.", "anchors": ["go/vimlparser.go:ExprTokenizer.get_sstring", "go/vimlparser.go:ExprTokenizer.get_dstring", "go/vimlparser.go:ExprParser.parse_expr9"]}
{"id": "C13", "title": "Trees respect Vim operator precedence", "statement": "In every tree the parser returns, each operand sits at a strictly tighter level than its operator on the non-associative side and not looser on the associative side (?: < || < && < comparison < + - . .. < * / % < unary < subscript/call < atoms); parentheses appear only as explicit paren nodes.", "quantifier": "every accepted expression", "why_tests_cant": "Precedence of arbitrarily deep nestings.", "anchors": ["go/vimlparser.go:ExprParser.parse_expr1", "go/vimlparser.go:ExprParser.parse_expr2", "go/vimlparser.go:ExprParser.parse_expr8"]}
{"id": "C14", "title": "Printing then parsing gives the same tree", "statement": "For every expression tree returned by the parser (ParseExpr or ParseFile) that the printer supports, the printed text parses again, to the same tree up to positions, where parentheses directly inside parentheses are written once.  (False for a tree that contains a blob literal cut off after a dot, as read from `0z12.A`; proved for trees without cut-off literals.)", "quantifier": "every accepted expression in the printer's fragment", "why_tests_cant": "Round trip over all trees; tests use a fixed list of strings.", "anchors": ["printer/printer.go:Fprint", "printer/expr.go", "vimlparser.go:ParseExpr"]}
{"id": "C15", "title": "Printing is idempotent", "statement": "Formatting an already formatted expression changes nothing: print(parse(print(e))) = print(e).", "quantifier": "every accepted expression in the printer's fragment", "why_tests_cant": "Over all expressions.", "anchors": ["printer/printer.go:Fprint", "printer/expr.go"]}
{"id": "C16", "title": "Printer inserts the parentheses a tree needs", "statement": "For hand-built trees (no explicit paren nodes needed) the printed text parses back to the same tree modulo inserted parentheses.  (False for a comparison nested on the left of a comparison; proved for the rest.)", "quantifier": "every tree built from the printer's fragment", "why_tests_cant": "Paren insertion depends on every operator pair at every depth.", "anchors": ["printer/expr.go", "printer/opprec.go:opprec"]}
{"id": "C17", "title": "Printer is total on its fragment", "statement": "Fprint returns text and no error for every expression of the supported node kinds and operators, and the set of unsupported nodes/operators (which panic or return an error) is exactly known.", "quantifier": "every expression tree", "why_tests_cant": "A missing operator in a table is only seen when that operator is printed; every tree must be considered.", "anchors": ["printer/printer.go:Fprint", "printer/opprec.go:opprec", "printer/expr.go"]}
{"id": "C18", "title": "At most 20 call arguments", "statement": "Every function and method call in a returned tree has at most 20 arguments. An expression that starts with a call of more than 20 arguments is rejected with E740 at the token after the last argument, and E740 is reported for nothing else: there is a parenthesis in the source that is followed by more than 20 arguments, the last of which ends where the error points.", "quantifier": "every expression and file, accepted or not", "why_tests_cant": "Nested calls at any depth.", "anchors": ["go/vimlparser.go:ExprParser.parse_rlist"]}
{"id": "C19", "title": "Parameters are distinct valid names", "statement": "The parameter names of every accepted function definition and lambda are valid, pairwise distinct identifiers, and `...` may only come last; those of functions are not firstline or lastline (lambdas do not check this).", "quantifier": "every accepted input", "why_tests_cant": "Any number of parameters.", "anchors": ["go/vimlparser.go:VimLParser.parse_cmd_function", "go/vimlparser.go:ExprParser.parse_expr9"]}
{"id": "C20", "title": "Default arguments form a contiguous tail", "statement": "In an accepted function definition parameters with default values come after those without, the number of defaults never exceeds the number of parameters, so printing the i-th default next to its parameter never goes out of range.", "quantifier": "every accepted function definition", "why_tests_cant": "Any number of parameters and defaults.", "anchors": ["go/vimlparser.go:VimLParser.parse_cmd_function", "compiler/compiler.go:Compiler.compileFunction"]}
{"id": "C21", "title": "Blocks are closed", "statement": "In every accepted file each :function, :if, :while, :for and :try node has its matching end command recorded (non-nil), :else/:elseif/:catch/:finally hang under the right opener.", "quantifier": "every accepted file and every block in it", "why_tests_cant": "Nesting depth and interleavings are unbounded.", "anchors": ["go/vimlparser.go:VimLParser.parse", "go/export.go:newAstNode"]}
{"id": "C22", "title": "Block structure accepted exactly when well nested", "statement": "The sequence of block commands of a file is accepted iff it is generated by the block grammar (if elseif* else? endif, while/endwhile, for/endfor, try catch* finally? endtry, function/endfunction); otherwise a specific error is raised at the offending command or at end of file.", "quantifier": "every sequence of block commands", "why_tests_cant": "Dyck-like language: all nestings.", "anchors": ["go/vimlparser.go:VimLParser.parse_cmd_if", "go/vimlparser.go:VimLParser.check_missing_endif", "go/vimlparser.go:VimLParser.find_context", "go/vimlparser.go:VimLParser.parse"]}
{"id": "C23", "title": "return/break/continue only where allowed", "statement": "In every accepted file :return occurs only inside a :function and :break/:continue only inside a :while or :for.  (Enclosing means anywhere up the context stack: a loop outside the function counts.)", "quantifier": "every accepted file", "why_tests_cant": "All nestings.", "anchors": ["go/vimlparser.go:VimLParser.parse_cmd_return", "go/vimlparser.go:VimLParser.parse_cmd_break", "go/vimlparser.go:VimLParser.find_context"]}
{"id": "C24", "title": "Comments and raw commands are verbatim", "statement": "The text stored in a comment node is what follows the quote at the node's position up to the end of the logical line; the text of a raw Ex command node is a contiguous slice of the logical line that starts at ExArg.Linepos (before modifiers and range) and ends at the end of the line, a bar or a comment.", "quantifier": "every accepted file", "why_tests_cant": "Any text.", "anchors": ["go/vimlparser.go:VimLParser.parse_comment", "go/vimlparser.go:VimLParser.parse_cmd_common"]}
{"id": "C25", "title": "Command abbreviations resolve like Vim's table", "statement": "A command name is the longest text that Vim's rules for command names allow (word, `k`, `s` with flags, `delete` with flag, punctuation, `py3`), and it resolves to the first table entry of which it is a prefix at least as long as the entry's minimum length, or to a user command.  The result is unique, every admissible abbreviation of a built-in command resolves to that command (except `tc`, which is documented as `tcd` but is `tcl`), and a line that starts with no command name is rejected with E492 at the name.", "quantifier": "every command position reachable in every source; every typed name", "why_tests_cant": "All prefixes of all table entries and all non-members.", "anchors": ["go/vimlparser.go:VimLParser.find_command", "go/builtin_commands.go:builtin_commands"]}
{"id": "C26", "title": "Every command has a parser", "statement": "Every command of the table names a parse routine the dispatcher knows, so dispatch never falls through or panics.", "quantifier": "every command of the (finite) table and every user command", "why_tests_cant": "The table is data; a typo in one entry only shows when that command is parsed.", "anchors": ["go/vimlparser.go:VimLParser._parse_command", "go/builtin_commands.go:builtin_commands"]}
{"id": "C27", "title": "Neovim option only changes the documented commands", "statement": "With and without the Neovim option a name resolves identically if and only if it does not abbreviate a command that the option adds or removes, and a file in which no such name occurs in command position has the same outcome (same tree or same error) with and without the option.", "quantifier": "every typed name; every source", "why_tests_cant": "All names.", "anchors": ["go/vimlparser.go:VimLParser.find_command", "go/builtin_commands.go:neovim_additional_commands", "go/builtin_commands.go:neovim_removed_commands"]}
{"id": "C28", "title": "Walk visits every node once in source order, except lambda bodies and default arguments", "statement": "A Walk whose visitor never prunes visits every node of the tree exactly once, parents before children and children in source order, if and only if the tree contains no lambda and no default values of parameters (whose bodies and values Walk skips); every Walk visits each node at most once, in that order.", "quantifier": "every tree and every visitor", "why_tests_cant": "Over all trees.", "anchors": ["ast/walk.go:Walk"]}
{"id": "C29", "title": "Walk enter/leave calls are balanced", "statement": "For every visitor, Walk makes exactly the documented sequence of calls: Visit(node); nothing else below the node if that returns nil; otherwise the children with the returned visitor and then exactly one Visit(nil) on it.", "quantifier": "every tree and every (stateful) visitor", "why_tests_cant": "Visitors are arbitrary functions.", "anchors": ["ast/walk.go:Walk"]}
{"id": "C30", "title": "Inspect passes only real nodes", "statement": "Inspect calls its function with the node and, where that returned true, with the children, in depth-first order and never with nil (contrary to its documentation).", "quantifier": "every tree and function", "why_tests_cant": "Over all trees and callbacks.", "anchors": ["ast/walk.go:Inspect"]}
{"id": "C31", "title": "Compiling a parsed file succeeds", "statement": "Compile of a file returned by ParseFile neither panics nor returns an error (other than one from the writer); it writes the specified indented S-expression lines.", "quantifier": "every accepted file", "why_tests_cant": "Over all parse results; relies on operators and node kinds the parser can produce.", "anchors": ["compiler/compiler.go:Compiler.Compile", "compiler/compiler.go:Compiler.compile"]}
{"id": "C32", "title": "Compiler indentation is balanced", "statement": "After compiling a node the indentation level is back to what it was before, so every top-level form starts in column 0 and a Compiler can be reused for a sequence of nodes.", "quantifier": "every tree", "why_tests_cant": "Every nesting of blocks.", "anchors": ["compiler/compiler.go:Compiler.fprint", "compiler/compiler.go:Compiler.compileIf", "compiler/compiler.go:Compiler.compileTry"]}
{"id": "C33", "title": "Compiling twice gives the same output", "statement": "Compiling the same tree twice yields the same text if no function has a final `...` parameter; for parsed files only then, since Compile removes that parameter from the tree (a counterexample is proved).", "quantifier": "every tree", "why_tests_cant": "Aliasing effect over arbitrary trees.", "anchors": ["compiler/compiler.go:Compiler.compileFunction"]}
{"id": "C34", "title": "Compiling a bare expression prints its S-expression", "statement": "Compile of an expression node writes exactly the S-expression of that node, provided this contains no percent sign (which is interpreted as a format verb; a counterexample is proved).", "quantifier": "every expression tree", "why_tests_cant": "Any text may occur in literals.", "anchors": ["compiler/compiler.go:Compiler.compile", "compiler/compiler.go:Compiler.fprint"]}
{"id": "C35", "title": "Public and internal compilers agree", "statement": "For every accepted file the public compiler and the internal reference compiler print the same lines up to the head lines of functions; the texts are equal if and only if functions are defined at the top level only.", "quantifier": "every accepted file", "why_tests_cant": "All trees; two independent implementations.", "anchors": ["compiler/compiler.go", "go/vimlparser.go:Compiler.compile"]}
{"id": "C36", "title": "Literal escaping is injective", "statement": "Escaping used when raw text is put into double quotes (backslash and quote) can be undone, so different texts never compile to the same form; the heredoc variant is not injective.", "quantifier": "every text", "why_tests_cant": "All strings.", "anchors": ["compiler/compiler.go:escape", "go/vimlfunc.go:viml_escape"]}
{"id": "C37", "title": "Operator tokens and their spelling agree", "statement": "Every operator the parser can produce is spelt by token.String as in the source, and is the whole token at its position, as is every literal that is no string; spellings of distinct operators are distinct up to the documented case suffixes.", "quantifier": "every operator token", "why_tests_cant": "Finite table plus any tree.", "anchors": ["token/token.go:Token.String", "go/export.go:opToken"]}
{"id": "C38", "title": "ParseExpr consumes a prefix of the first line", "statement": "When ParseExpr succeeds it has consumed a non-empty prefix of the first logical line; whatever follows that prefix is silently ignored (ParseExpr(\"1 2\") succeeds with the tree of \"1\").", "quantifier": "every input to ParseExpr", "why_tests_cant": "All inputs.", "anchors": ["vimlparser.go:ParseExpr"]}
{"id": "C39", "title": "Reading lines loses nothing but line ends", "statement": "Splitting the input into lines drops only LF / CRLF terminators: re-joining gives the input back; but as soon as a line reaches 64 KiB it and everything after it are silently dropped.", "quantifier": "every byte sequence", "why_tests_cant": "All inputs; the limit needs huge inputs.", "anchors": ["vimlparser.go:readlines"]}
{"id": "C40", "title": "UTF-8 decoding is faithful", "statement": "For valid UTF-8 the characters the parser sees are exactly the decoded code points, and byte columns are sums of their encoded widths; each invalid byte counts as one replacement character.", "quantifier": "every byte sequence", "why_tests_cant": "All byte sequences.", "anchors": ["go/type.go:StringReader.__init__"]}
{"id": "C41", "title": "Expressions and commands stay on their logical line", "statement": "Parsing an expression, a command argument or a lookahead never moves past the end of the logical line it started on; only heredocs, :append/:insert, :loadkeymap, script blocks and :finish read following lines.", "quantifier": "every reader content", "why_tests_cant": "All inputs.", "anchors": ["go/vimlparser.go:ExprTokenizer.get2", "go/vimlparser.go:VimLParser.separate_nextcmd"]}
{"id": "C42", "title": "Multi-line bodies are verbatim", "statement": "The text stored for :append/:insert and :lua <<EOF style blocks is the command's logical line and the following ones up to and including the end marker; the body of a heredoc is the sequence of logical lines between the head line and the end marker, excluding both (if a bar follows the marker on the head line, the rest of that line is the first body line).", "quantifier": "every accepted file", "why_tests_cant": "All bodies and markers.", "anchors": ["go/vimlparser.go:VimLParser.parse_heredoc", "go/vimlparser.go:VimLParser.parse_cmd_append", "go/vimlparser.go:VimLParser.parse_cmd_lua"]}
{"id": "C43", "title": "Command-line tool exit status", "statement": "The vimlparser command exits 0 iff every named file can be opened and parsed; otherwise it exits 1 (never with the status of a panic), reports one error per failing file in order, and writes the text of the good files in order.", "quantifier": "every list of files and every outcome of each", "why_tests_cant": "All outcome combinations and orders.", "anchors": ["cmd/vimlparser/main.go:main", "cmd/vimlparser/main.go:parseFile"]}
{"id": "C44", "title": "Error text identifies the position", "statement": "ErrVimlParser.Error and Pos.String render the position as file:line:col (or line L col C without a file name); for the same file name and message, distinct line/column give distinct text.", "quantifier": "every error value", "why_tests_cant": "All values.", "anchors": ["vimlparser.go:ErrVimlParser.Error", "ast/pos.go:Pos.String"]}
{"id": "C45", "title": "Ranges and modifiers terminate and are recorded verbatim", "statement": "Parsing command modifiers and line ranges always consumes only text of the current line and records exactly the consumed modifiers.", "quantifier": "every line", "why_tests_cant": "All prefixes.", "anchors": ["go/vimlparser.go:VimLParser.parse_command_modifiers", "go/vimlparser.go:VimLParser.parse_range"]}
{"id": "C46", "title": "Tree positions are in source order", "statement": "Read in the order in which the text is written (left operand, operator, right operand; command, arguments, body, end command; parameters interleaved with their defaults), the positions of a returned tree never go back; inside one expression they strictly increase, apart from names with braces, whose own position is that of their first part. Exceptions: the comment on the line of a heredoc is put before its :let, and a command without name and its comment have the same position. Pos() is not always the position of the first character of a node as its documentation says: it is for nodes without a left operand.", "quantifier": "every accepted input of ParseExpr and ParseFile, every node", "why_tests_cant": "Order between any two positions of any tree; tests compare a few positions of sample trees.", "anchors": ["ast/node.go:Node", "go/export.go:newAstNode", "go/export.go:newPos", "go/vimlparser.go:ExprTokenizer.get", "go/vimlparser.go:VimLParser.parse_one_cmd", "go/vimlparser.go:VimLParser.parse_heredoc"]}
{"id": "C47", "title": "Nodes belong to their command", "statement": "Every statement node of a returned file comes from a command of that name: an If node from :if, a Let node from :let or :const, an EchoCmd node from the echo command it names, and so on; commands with a node type of their own never appear as raw Ex commands.", "quantifier": "every accepted file and every node of its tree", "why_tests_cant": "All files, all abbreviations.", "anchors": ["go/vimlparser.go:VimLParser.parse_command", "go/vimlparser.go:VimLParser.parse_cmd_echo", "go/export.go:newAstNode"]}
{"id": "C48", "title": "Assignment targets are assignable", "statement": "The left-hand side of every accepted :let, :const and :for is one assignable expression (variable with a valid name, option, environment variable, register, item, slice, member or curly name) or a non-empty list of such with an optional rest; constants are plain names; names of functions are names, members, items or curly names, and plain names start with a capital or underscore or contain a colon or hash.", "quantifier": "every accepted file", "why_tests_cant": "All expressions as left-hand sides.", "anchors": ["go/vimlparser.go:VimLParser.parse_lvalue", "go/vimlparser.go:VimLParser.parse_letlhs", "go/vimlparser.go:VimLParser.parse_cmd_function"]}
{"id": "C49", "title": "Function attributes are those written", "statement": "The attributes range, abort, dict and closure of a function node are set exactly if the word stands after the closing parenthesis; no other word is accepted there.", "quantifier": "every accepted function definition", "why_tests_cant": "All sequences of words.", "anchors": ["go/vimlparser.go:VimLParser.parse_cmd_function"]}
{"id": "C50", "title": "Operators, depths, patterns and groups are the source text", "statement": "The operator of a Let node, the depth of :lockvar/:unlockvar, the pattern of :catch and the group of :echohl are the text that stands in the source after the command.", "quantifier": "every accepted file", "why_tests_cant": "All texts.", "anchors": ["go/vimlparser.go:VimLParser.parse_cmd_let", "go/vimlparser.go:VimLParser.parse_cmd_lockvar", "go/vimlparser.go:VimLParser.parse_cmd_catch", "go/vimlparser.go:VimLParser.parse_cmd_echohl"]}
{"id": "C51", "title": "The expression parser accepts exactly the expression grammar", "statement": "ParseExpr returns the tree a if and only if the input starts with an expression whose tree is a according to the expression grammar (precedence levels 1-9, associativity, postfix operators without white space before them, lists, dictionaries, lambdas, curly names); otherwise it returns an ErrVimlParser. The grammar is unambiguous: an input has at most one tree and one extent. The same holds at every place of a file where an expression is read.", "quantifier": "every byte string; every position of every file", "why_tests_cant": "Both directions of an equivalence over all texts: tests sample accepted texts, they cannot show that no other text is accepted or that the tree is the only one.", "anchors": ["vimlparser.go:ParseExpr", "go/vimlparser.go:ExprParser.parse_expr1", "go/vimlparser.go:ExprParser.parse_expr2", "go/vimlparser.go:ExprParser.parse_expr3", "go/vimlparser.go:ExprParser.parse_expr4", "go/vimlparser.go:ExprParser.parse_expr5", "go/vimlparser.go:ExprParser.parse_expr6", "go/vimlparser.go:ExprParser.parse_expr7", "go/vimlparser.go:ExprParser.parse_expr8", "go/vimlparser.go:ExprParser.parse_expr9", "go/vimlparser.go:ExprParser.parse_dot", "go/vimlparser.go:ExprParser.parse_identifier"]}
{"id": "C52", "title": "The file parser accepts exactly the file grammar", "statement": "ParseFile returns the tree a if and only if the lines of the file are a script with the tree a according to the file grammar: lines with modifiers, range, command name, bang and ++/+cmd options; the arguments of every command that has its own parser, raw text for the others; comments and bars; functions, loops, :if and :try with their parts, properly nested; :break, :continue and :return only where allowed. Every other file is rejected with an error and no tree. The grammar is unambiguous: a file has at most one tree.", "quantifier": "every byte string, both option values, every file name", "why_tests_cant": "Both directions of an equivalence over all files: tests sample accepted files, they cannot show that no other file is accepted or that the tree (with all its positions and records) is the only one.", "anchors": ["vimlparser.go:ParseFile", "go/vimlparser.go:VimLParser.parse", "go/vimlparser.go:VimLParser.parse_one_cmd", "go/vimlparser.go:VimLParser.parse_command", "go/vimlparser.go:VimLParser.find_command", "go/vimlparser.go:VimLParser.parse_trail", "go/export.go:newAstNode"]}
{"id": "C53", "title": "Which expressions are rejected, with which message and where", "statement": "ParseExpr reports a parse error with a given message, line and column exactly if the text has that fault: the grammar of C51 is followed up to the faulty token and that token (or the character no token starts with) is reported, with the message of the construct it interrupts and at the position of the token that the construct names (its own, that of an opening bracket, or that of a name). A text has a fault if and only if no expression of the grammar starts there, and it has at most one: message and position are determined.", "quantifier": "every input of ParseExpr, every message and every position", "why_tests_cant": "Both directions over all texts and all positions; tests compare the message of a few sample errors.", "anchors": ["go/vimlparser.go:ExprParser", "go/vimlparser.go:ExprTokenizer", "vimlparser.go:ParseExpr", "go/vimlparser.go:Err"]}
{"id": "C54", "title": "Which files are rejected, with which message and where", "statement": "ParseFile reports a parse error with a given message, offset, line and column exactly if the file has that fault. Either a line is faulty: the lines before follow the file grammar (C52), with some blocks left open, and in this line the range, the command name, the bang, a ++ option, the arguments (one rule per error of every command parser), the place of the command with respect to the innermost open block and the context, or the text after the arguments is wrong; the error is located at the command, or at the character or token that the rule names. Or the file ends inside a block: the error names the missing end command and is located at the end of the file. A file has at most one fault, and a file with a fault is not in the grammar. The error carries the given file name and no tree is returned.", "quantifier": "every byte string, both option values, every file name, every message and position", "why_tests_cant": "Both directions over all files and all positions; tests compare the message of a few sample errors.", "anchors": ["vimlparser.go:ParseFile", "go/vimlparser.go:VimLParser.parse_one_cmd", "go/vimlparser.go:VimLParser.parse_command", "go/vimlparser.go:VimLParser.parse_trail", "go/vimlparser.go:VimLParser.check_missing_endfunction", "go/vimlparser.go:Err", "go/type.go:Err"]}
{"id": "C55", "title": "Every file is a script, faulty, or has a number out of range", "statement": "Every file is in exactly one of three classes, each described by a specification of its own: the scripts of the file grammar (C52), the files with a fault (C54), and the files with a number out of range (C06). The class decides the result of ParseFile: the tree of the script and no error; no tree and the parse error with the message and the position of the fault; no tree and another error.", "quantifier": "every byte string, both option values, every file name", "why_tests_cant": "That the three specifications leave no file out and do not overlap is a statement about all files.", "anchors": ["vimlparser.go:ParseFile", "go/vimlparser.go:VimLParser.parse", "go/vimlfunc.go:viml_str2nr"]}
{"id": "C56", "title": "Only the logical lines matter, and positions move with the text", "statement": "If two files have the same logical lines (lines after joining continuation lines), ParseFile returns the same for both, except that the positions in the tree or the error are those of the same characters in the other file; the offset of an error stays the same. Likewise ParseExpr. In particular a line may be broken anywhere, also in the middle of a name, a string, a comment or a here-document: the rest of the line goes on a line of its own after blanks and a backslash. The only exception is a continuation line broken within its leading blanks.", "quantifier": "every pair of files with the same logical lines, both option values, every file name", "why_tests_cant": "Says of every parser function that it never looks at line, column or byte offset and never sees a line break that is continued.", "anchors": ["go/type.go:NewStringReader", "go/vimlparser.go:VimLParser.parse", "go/vimlparser.go:ExprParser.parse", "go/export.go:newAstNode"]}
{"id": "C57", "title": "Output does not depend on positions", "statement": "Compile and Fprint return the same for two trees that differ in their positions only. Hence the command prints the same for two accepted files with the same logical lines.", "quantifier": "every tree, every change of positions; every pair of files with the same logical lines", "why_tests_cant": "Quantifies over all trees and all positions.", "anchors": ["compiler/compiler.go:Compiler.compile", "printer/expr.go:printer.expr1", "cmd/vimlparser/main.go:parseFile"]}
{"id": "C58", "title": "JSON output is well formed and unambiguous", "statement": "What the command writes with -json for a file is one JSON text (RFC 8259) followed by a line feed. The value of this text is the tree that ParseFile returns, field by field; a text has only one value, and no object has two members of the same name. A file that is accepted is always written, unless its tree is nested more deeply than encoding/json admits when it indents (10000 levels since Go 1.15); then the command reports an error although the file is valid, and there are such files.", "quantifier": "every file, both option values, every file name, every version of the library", "why_tests_cant": "Every string, name, comment and pattern of every file has to be escaped correctly; the nesting limit is out of reach of ordinary tests.", "anchors": ["cmd/vimlparser/main.go:parseFile", "ast/node.go", "ast/exarg.go:ExArg", "ast/pos.go:Pos"]}
{"id": "C59", "title": "JSON output determines the tree", "statement": "Two trees with the same JSON output are equal, including all positions and file names, although objects do not carry the type of their node: nodes of different types have different sets of fields. If the command writes the same for two inputs, ParseFile returns the same tree for both.", "quantifier": "every pair of trees, every pair of files", "why_tests_cant": "Injectivity over all pairs of trees; one field left out or two node types with the same fields would break it for some trees only.", "anchors": ["cmd/vimlparser/main.go:parseFile", "ast/node.go", "ast/exarg.go:ExArg"]}
{"id": "C60", "title": "JSON output is free of control and HTML characters", "statement": "The JSON output contains no control character other than line feed, none of the characters < > &, and no Unicode line or paragraph separator, whatever the source contains. The text of a string contains no line feed, so every line feed belongs to the layout.", "quantifier": "every tree", "why_tests_cant": "Quantifies over every character in every string of every tree.", "anchors": ["cmd/vimlparser/main.go:parseFile"]}
{"id": "C61", "title": "Files can be concatenated", "statement": "Call a script whole if a comment line appended to it is parsed as a comment (no open block, no :finish, no text still expected). A whole script is accepted on its own. If a whole script A is followed by a file B that is accepted on its own, the concatenation is accepted, and its tree consists of the statements of A, unchanged, and the statements of B, with A's number of lines and bytes added to every position. What the command prints is the output for A followed by the output for B. Whole scripts one after the other, and whole scripts followed by blank lines, are whole. Conditions: B does not start with a continuation line, and no user command in B has the name of a user command of A with further characters appended; without the latter the claim is false.", "quantifier": "every whole script, every accepted file, both option values", "why_tests_cant": "The parser works on one buffer with absolute positions and remembers the user commands it has seen; that nothing else of A influences how any B is read is a statement about all pairs of files.", "anchors": ["vimlparser.go:ParseFile", "go/vimlparser.go:VimLParser.parse", "go/vimlparser.go:VimLParser.find_command", "go/type.go:NewStringReader"]}
{"id": "C62", "title": "A whole script before a file does not change its errors", "statement": "Let A be a whole script (see C61) and B any file that does not start with a continuation line. A followed by B is accepted exactly if B is accepted, and the tree then starts with the statements of A. A followed by B is rejected exactly if B is rejected, with the same kind of error, the same message and file name and the same column, on the line with A's number of lines added, and at the offset with the number of characters that are read from A added. Hence user commands of A never make B valid or invalid. If moreover no user command of B has the name of one of A with characters appended, the whole result for A followed by B is the result for B with the positions moved and the statements of A in front.", "quantifier": "every whole script, every other file accepted or not, both option values", "why_tests_cant": "An error may come from any of the parser's some ninety error sites, after any number of open blocks; that none of them depends on what was parsed before is a statement about all pairs of files.", "anchors": ["vimlparser.go:ParseFile", "go/vimlparser.go:VimLParser.parse", "go/vimlparser.go:Err", "go/vimlparser.go:VimLParser.find_command", "go/type.go:NewStringReader"]}
{"id": "C63", "title": "Error messages form a closed catalogue", "statement": "Every parse error of ParseFile and ParseExpr has one of 43 fixed messages, or one of 10 fixed beginnings followed by a piece of one line of the source or by <EOL> or <EOF>, or one of two other fixed forms with such a piece in it (`unexpected token: X, type: N` and `E990: Missing end marker 'X'`). A message is never empty and is a single line. Each of the fixed messages and of the beginnings is reported for some file.", "quantifier": "every file and every expression that is rejected with a parse error, both option values", "why_tests_cant": "A test sees the messages of some inputs; that no other text can ever appear, and that a message cannot contain a line break taken from the source, is a statement about all inputs and about every error site.", "anchors": ["go/vimlparser.go:Err", "go/vimlparser.go:VimLParser.parse", "go/vimlparser.go:ExprTokenizer.get2", "vimlparser.go:ParseFile", "vimlparser.go:ParseExpr"]}
{"id": "C64", "title": "An error does not depend on the lines behind it", "statement": "If a file is rejected with a parse error in its first n lines, then every file with the same first n lines is rejected with the same error: the same message, line, column and offset. Line n+1 must not be a continuation line in either file, and in the second file the first token behind line n must be readable (it is if nothing, a blank line or a word follows). So a file that is cut off behind the logical line of its error gives the same error, and two such files agree on whether there is an error in the lines they share. The same holds for ParseExpr. The condition on the token is needed: behind a `{` at the end of a line the parser looks at the next line.", "quantifier": "every two files with the same first lines, any number of them; every message and position; both option values", "why_tests_cant": "A test compares a few pairs of files; that no command, block, heredoc or lookahead can make an error depend on later text is a statement about all continuations of a file.", "anchors": ["go/vimlparser.go:VimLParser.parse", "go/vimlparser.go:ExprTokenizer.peek", "go/vimlparser.go:ExprParser.parse_expr9", "vimlparser.go:ParseFile", "vimlparser.go:ParseExpr"]}
{"id": "C65", "title": "Blank lines and comment lines between statements do not change the rest", "statement": "Between two statements of a file, at any depth of blocks, blank lines and comment lines can be inserted or deleted: the file is accepted exactly if it was accepted, every statement and expression is the same, positions before the place stay and positions behind it are moved by the inserted lines and bytes, and exactly the inserted comments come in, in order, at one place of the tree. If the file is rejected, it is rejected with the same message at the same column of the moved line; no error is before the place. The place behind the lines A is between statements if a line that is no command is reported there; the line behind the place must not be a continuation line. Both conditions are needed (here-documents, :append, :finish).", "quantifier": "every file, accepted or rejected; every place between two of its lines that is between statements; every list of blank and comment lines; both option values", "why_tests_cant": "Tests insert a line at a few places of a few files; that no command, block, here-document or lookahead sees the inserted lines is a statement about all files and all places.", "anchors": ["go/vimlparser.go:VimLParser.parse_one_cmd", "go/vimlparser.go:VimLParser.parse_comment", "go/type.go:NewStringReader", "vimlparser.go:ParseFile"]}
{"id": "C66", "title": "Indentation does not matter", "statement": "Blanks, tabs and colons before the first command of a line change nothing but positions, at any depth of blocks: the file is accepted exactly if it is accepted without them, the tree is the same with the positions on this line moved by the inserted columns and bytes and the offsets of the later lines moved by the bytes; if it is rejected, it is with the same message at the moved place. The line must be between statements (no text of a here-document), must be no continuation line, and its logical line must not start with #!. All three conditions are needed.", "quantifier": "every file, accepted or rejected; every line of it that is between statements; every text of blanks, tabs and colons; both option values", "why_tests_cant": "Tests have a few indented files; that no command depends on the column it starts at is a statement about all commands and all texts.", "anchors": ["go/vimlparser.go:VimLParser.parse_one_cmd", "go/vimlparser.go:VimLParser.skip_white_and_colon", "go/type.go:NewStringReader", "vimlparser.go:ParseFile"]}
{"id": "C67", "title": "Layout does not matter", "statement": "Two files that can be got from each other by any number of changes of layout (inserting or deleting blank lines between statements, adding or removing blanks, tabs and colons before commands, continuing lines or joining continued lines) are both accepted with trees that differ in positions only, or both rejected with the same message; the command prints the same for both. With comment lines inserted or deleted as well, the trees differ in positions and comments only, and messages are the same.", "quantifier": "every pair of files related by any sequence of such changes; both option values", "why_tests_cant": "There are infinitely many layouts of a script; the claim is that no sequence of changes is observable.", "anchors": ["go/vimlparser.go:VimLParser.parse_one_cmd", "go/type.go:NewStringReader", "compiler/compiler.go:Compiler.compile", "vimlparser.go:ParseFile"]}
{"id": "C68", "title": "A whole script can be put anywhere between the statements of another", "statement": "Let W be a whole script (see C61) and A, B the lines of a file before and behind a place between two statements, at any depth of blocks. A, W, B is accepted exactly if A, B is accepted, and rejected with the same kind of error and the same message at the same column of the same line, W's number of lines further down. If it is accepted, its tree is that of A, B with the positions behind W moved and with the statements of W, moved behind A, inserted at one place; if the place is inside a block, they are inserted inside this block. In particular the lines that open and close an empty block, put around a whole script, give this block with the statements of the script as its body. At the end of a file with an open block, W does not change the message. Conditions: neither W nor B starts with a continuation line, and, for the tree only, no user command in one of the two has the name of one in the other with further characters appended.", "quantifier": "every whole script; every file, accepted or rejected; every place between its lines that is between statements; both option values", "why_tests_cant": "The parser keeps a stack of open blocks, remembers user commands and treats :finish, :return and :break by context; that no script in any block changes what the rest means, or means something else there, is a statement about all pairs of scripts and all places.", "anchors": ["go/vimlparser.go:VimLParser.parse_one_cmd", "go/vimlparser.go:VimLParser.parse_command", "go/vimlparser.go:VimLParser.find_command", "go/type.go:NewStringReader", "vimlparser.go:ParseFile"]}
{"id": "C69", "title": "The meaning of an expression is put together from the meaning of its parts", "statement": "Call a line that is an expression and possibly blanks a phrase; ParseExpr returns exactly one tree for it. Phrases put into larger expressions keep their trees: in parentheses, behind a unary operator, on both sides of any binary operator (in parentheses), in the three places of ?:, as any number of items of a list, as up to 20 arguments of a call, as an index, as any number of values of a dictionary and as the body of a lambda, the larger text is a phrase and ParseExpr returns the node of this kind with the trees of the parts, in which every position is moved by the number of bytes before the part. Two conditions on the text of a part are needed: it does not end with @ (a register without a name, which takes the closing bracket as its name) and it does not end with 0z and an odd number of hexadecimal digits. A part that ends with a bracket needs no condition. Whatever ParseExpr accepts up to the end of the line is a phrase.", "quantifier": "every phrase as part, every operator, every length of lists, dictionaries and argument lists up to 20", "why_tests_cant": "It is a statement about all expressions in all places of all other expressions: no list of samples shows that a part cannot run into what follows it, and it is false for parts that end with @.", "anchors": ["go/vimlparser.go:ExprParser.parse", "go/vimlparser.go:ExprParser.parse_expr1", "go/vimlparser.go:ExprParser.parse_expr9", "go/vimlparser.go:ExprTokenizer.get", "go/vimlparser.go:ExprTokenizer.get2", "vimlparser.go:ParseExpr"]}
{"id": "C70", "title": "An expression means the same to every command", "statement": "Let l be a line that ParseExpr accepts as a whole with the tree e. With l as argument of :eval, :throw, :echo, :echon, :echomsg, :echoerr, :execute, of :let and :const behind a variable and an assignment operator, of :call (if e is a call), as condition of :if, of any number of :elseif and of :while, as list of :for and as value of :return in a function, ParseFile accepts the file, and the statement has the tree e with every position moved to where l is in the file. The statement itself is the one of the command, at the position of the command, with all other fields of its record empty. This is so for every abbreviation of the command names. The lines without blocks are whole scripts (C61), so that they mean the same anywhere in a file (C68).", "quantifier": "every expression of one line; every abbreviation of the commands; every variable name and assignment operator; every number of :elseif; both option values; every file name", "why_tests_cant": "Each command reads its expression with a fresh expression parser on the shared reader, behind its own scanning of names, ranges and bangs; that none of them takes away or leaves behind a part of any expression is a statement about all expressions.", "anchors": ["go/vimlparser.go:VimLParser.parse_cmd_let", "go/vimlparser.go:VimLParser.parse_cmd_call", "go/vimlparser.go:VimLParser.parse_cmd_if", "go/vimlparser.go:VimLParser.parse_cmd_for", "go/vimlparser.go:VimLParser.parse_cmd_return", "go/vimlparser.go:VimLParser.parse_cmd_echo", "go/vimlparser.go:VimLParser.parse_exprlist", "vimlparser.go:ParseFile"]}
{"id": "C71", "title": "A wrong expression gives the same error in every command", "statement": "Let l be a line for which ParseExpr returns an error. With l as argument of :eval, :throw, :echo, :echon, :echomsg, :echoerr, :execute, :if, :while, :call (l not blank at the start and not starting with | and, for :call, not with a double quote), of :let and :const behind a variable and an assignment operator, of :for behind a variable and in, of :elseif in an :if block and of :return in a function, ParseFile returns no tree and the error with the same message. Its file name is that of the file. Its offset is larger by the number of characters in front of l on the line (and by the characters and line ends of the lines before), its line by the number of lines before, and its column by the number of bytes in front of l on the line.", "quantifier": "every line that ParseExpr rejects; every abbreviation of the commands; every variable name and assignment operator; both option values; every file name", "why_tests_cant": "It relates two parsers on all wrong inputs; the position of an error is counted in characters and in bytes in different fields, and commands decide on the first characters of their argument whether there is an expression at all.", "anchors": ["go/vimlparser.go:VimLParser.parse_cmd_let", "go/vimlparser.go:VimLParser.parse_cmd_call", "go/vimlparser.go:VimLParser.parse_cmd_for", "go/vimlparser.go:VimLParser.parse_exprlist", "go/vimlparser.go:Err", "vimlparser.go:ParseFile", "vimlparser.go:ParseExpr"]}
{"id": "C72", "title": "Line ends do not matter", "statement": "For lines that contain no LF, do not end with CR and are shorter than 65535 bytes: whether each line ends with LF or with CRLF (mixed in any way), and whether the last line, if not empty, has a line end at all, ParseFile and ParseExpr return the same: tree, positions and errors; and the command prints the same, as S-expressions and as JSON. Both conditions are needed: of a line that ends with CR, followed by LF, the CR is lost; and of two files with a line of 65535 bytes, ended by LF or by CRLF, the first is read and the second gives no lines at all.", "quantifier": "every list of lines and every choice of a line end for each of them", "why_tests_cant": "It relates all files that differ in line ends only, of any length; the limit on the line length counts the CR.", "anchors": ["vimlparser.go:ParseFile", "vimlparser.go:ParseExpr", "vimlparser.go:readlines", "cmd/vimlparser/main.go:parseFile"]}
{"id": "C73", "title": "S-expressions of expressions are unambiguous", "statement": "Two expressions accepted by ParseExpr, or expressions of two files accepted by ParseFile (other than heredocs), have the same S-expression if and only if they are the same up to positions and parentheses. So operators, operands and their grouping, literals with their exact text, names with braces and the kind of every node can be read back from the output. Excluded are expressions that contain a call of a function named like a word of the output (list, dict, lambda, subscript, slice, method, dot, concat, is, isnot, is#, isnot#), a slice with a bound named nil, or a register @ without a name: list(1) and [1], a[nil : 2] and a[:2] are written in the same way. For Compile of an expression the output must contain no percent sign (see C34).", "quantifier": "every pair of accepted expressions, of any size", "why_tests_cant": "It compares all pairs of expressions; the grouping has to be recovered from text without separators for arbitrarily nested expressions, strings with parentheses and quotes, and names with braces.", "anchors": ["compiler/compiler.go:compileExpr", "vimlparser.go:ParseExpr", "vimlparser.go:ParseFile"]}
{"id": "C74", "title": "The output of the compiler determines the script", "statement": "The compiler writes the same text for two files accepted by ParseFile if and only if they consist of the same statements with the same nesting, up to what the compiler never writes: positions, parentheses around expressions, modifiers, ranges and bangs of commands that have their own node, attributes of functions and the spelling of end commands. So the kind of every statement, which block or part of a block it belongs to, all its expressions, operators and targets, the parameters of functions and their default values, the text of comments and of raw commands can be read back from the output. Excluded are files with heredocs, with expressions excluded in C73, with a list of targets that starts with a variable named subscript, slice or dot, and with a lockvar command whose depth is 0 and whose first target is a number: let [dot, a, b] = x and let a.b = x, lockvar 0 2 x and lockvar 2 x, and heredocs whose lines contain quotes are written in the same way.", "quantifier": "every pair of accepted files, of any length and nesting", "why_tests_cant": "It compares all pairs of scripts: the blocks have to be recovered from indentation and closing parentheses that may also be text of raw commands over several lines.", "anchors": ["compiler/compiler.go:Compile", "compiler/compiler.go:compileFunction", "compiler/compiler.go:compileLet", "vimlparser.go:ParseFile"]}
{"id": "C75", "title": "The spelling of command names does not matter", "statement": "If the name of a command at the start of a line between two statements of a file is replaced by another name of the same command (its full name or an abbreviation), ParseFile accepts the new file if and only if it accepts the old one. The statements and their nesting are the same, in the whole file; the positions before the name and of the command itself stay, those behind it on its line move with the text, and on later lines only offsets change. The only difference is in a command that the parser keeps as text: its text starts with the new name. A rejected file is rejected with the same message, at the same place of the text. Names that are also modifiers or free for user commands are excluded. Blanks, tabs and colons before the name do not matter for what is accepted.", "quantifier": "every file, every place between two of its statements, every command of the tables and all its spellings, both settings of the Neovim option", "why_tests_cant": "It speaks about all commands, spellings, surrounding blocks and rests of the file.", "anchors": ["go/vimlparser.go:parse_command", "go/vimlparser.go:find_command", "go/vimlparser.go:parse_cmd_common", "vimlparser.go:ParseFile"]}
{"id": "C76", "title": "Trees are no larger than their source", "statement": "The tree that ParseFile returns for a source of n bytes has at most n + 2 nodes, counting all nodes once (also bodies of lambdas, default values and end commands); the tree that ParseExpr returns has at most n. So no tree is nested deeper than that, Inspect calls its function at most n + 2 times and Walk calls Visit at most 2 * (n + 2) times, whatever the visitor does.", "quantifier": "every source, both settings of the Neovim option, every visitor", "why_tests_cant": "A bound on all trees; tests see the sizes of some.", "anchors": ["vimlparser.go:ParseFile", "vimlparser.go:ParseExpr", "ast/walk.go:Walk", "ast/walk.go:Inspect"]}
{"id": "C77", "title": "A bar is as good as the end of a line", "statement": "Let a line start with a command that `|` can follow (:echo and the like, :let, :const, :call, :return, :unlet, :lockvar, :unlockvar, :break, :continue, :if, :elseif, :else, :while, :for, :try, :finally), with no comment and no bar behind the command: its argument is an expression (which may hold `|` and `\"`), or an assignment of one to a variable, or has no `|` and no `\"`. Let it end in none of `@`, `|` and half a blob literal. Then replacing the end of the line by `|` gives the same tree up to positions: same offsets, and the lines and columns of what followed are those of the joined line. If the lines up to and including that line are right and the file is rejected for what follows, so is the joined file, with the same message at the corresponding place; so one is accepted if and only if the other is. Outside of these conditions it is not so: behind `@` the bar names a register, after :normal it is text, after `\"` it is part of a comment.", "quantifier": "every file, every place between commands in it, every such line, every next line that is no continuation line and starts with no bar, both settings of the Neovim option", "why_tests_cant": "Relates two runs of the parser on different texts, for all files around them; tests compare some.", "anchors": ["go/vimlparser.go:parse_one_cmd", "go/vimlparser.go:ends_excmds", "go/vimlparser.go:ExprTokenizer.get", "go/vimlparser.go:parse_exprlist"]}
{"id": "C78", "title": "A comment behind a command adds the comment and changes nothing else", "statement": "Let a line start with a command that a comment can follow (:let, :const, :call, :return with a value, :unlet, :lockvar, :unlockvar, :throw, :eval, :break, :continue, :if, :elseif, :else, :while, :for, :try, :finally), with no comment and no bar behind the command: its argument is an expression (which may hold `|` and `\"`), or an assignment of one to a variable, or has no `|` and no `\"`. Then writing `\"` and any text behind it gives the same tree with one more statement, the Comment with that text at the place of the `\"`, in one of the bodies; all else is as before, and positions in the following lines differ by the added bytes in their offset only. If the file is rejected because of a later line, it is rejected with the comment, with the same message at the same line and column; so one is accepted if and only if the other is. Outside of these conditions it is not so: behind :echo and :return without a value `\"` starts a string, behind `@` it names a register, after :normal it is text, and before a continuation line it swallows that line.", "quantifier": "every file, every place between commands in it, every such line, every text of the comment, both settings of the Neovim option", "why_tests_cant": "Relates two runs of the parser on different texts, for all files around them and all texts of the comment; tests compare some.", "anchors": ["go/vimlparser.go:parse_one_cmd", "go/vimlparser.go:parse_comment", "go/vimlparser.go:ends_excmds", "go/vimlparser.go:parse_trail", "go/vimlparser.go:ExprTokenizer.get"]}
{"id": "C79", "title": "Style does not matter", "statement": "Two files that can be got from each other by any number of changes of style (the changes of layout of C67; joining the line of a command with the next one by `|`, or splitting there, under the conditions of C77) are both accepted with trees that differ in positions only, or both rejected with the same message; the command prints the same for both. In particular any number of commands, each in its line, can be joined with bars to one line. With comments inserted or deleted as well, in lines of their own or behind commands under the conditions of C78, the trees differ in positions and comments only, and messages are the same.", "quantifier": "all pairs of files connected by any number of such steps, at all places between commands, both settings of the Neovim option", "why_tests_cant": "Relates runs on infinitely many pairs of files; tests compare some.", "anchors": ["go/vimlparser.go:parse_one_cmd", "go/vimlparser.go:parse_trail", "go/vimlparser.go:parse_comment", "go/vimlparser.go:StringReader.__init__", "compiler/compiler.go:Compile"]}
{"id": "C80", "title": "Characters, names, options and flags are tested as Vim's patterns say", "statement": "Wherever the parser asks whether a character is a letter, a digit, an octal or hexadecimal digit, part of a word or of a name, white, upper or lower case; whether a text is the name of a parameter or of a variable; whether a line continues the one before; how the next bytes of a blob literal look; which command name or `++opt` comes; and whether a command has a flag, the answer for every text is whether the Go regular expression that the table `patVim2Go` gives for Vim's pattern matches the text. The regular expressions are read from the text of the table by the syntax of Go's package regexp, with `\\b`, `\\s` and `.` as there: only ASCII letters, digits and `_` are parts of words. For the pattern of `++bad=` the text must have no line feed; the reader's lines have none.", "quantifier": "all texts (all lists of characters), all commands with all lists of flags", "why_tests_cant": "There are infinitely many texts, and even the classes of single characters have over a million members; tests try some.", "anchors": ["go/vimlfunc.go:patVim2Go", "go/vimlfunc.go:viml_eqregh", "go/vimlparser.go:isalpha", "go/vimlparser.go:isvarname", "go/vimlparser.go:parse_argopt", "go/vimlparser.go:find_command", "go/vimlparser.go:get_blob", "go/type.go:NewStringReader"]}
{"id": "C81", "title": "The name of a file is only a label", "statement": "ParseFile with another file name accepts the same inputs; trees differ in the file name of their positions only, errors in their file name only. The command, called for files with other names but the same contents, prints the same, exits with the same status and reports the same errors but for the names; with the contents on standard input it does what it does for one file.", "quantifier": "all inputs, all pairs of file names, all lists of arguments of the command, both settings of the Neovim option", "why_tests_cant": "Relates two runs for all inputs; tests use some files and names.", "anchors": ["vimlparser.go:ParseFile", "go/export.go:newPos", "cmd/vimlparser/main.go:main"]}
{"id": "C82", "title": "A modifier before a command only adds the modifier", "statement": "Put a command modifier (:silent, :3verbose, :keepjumps, ... in full or abbreviated, with blanks, or :silent!) before a command or range at the start of a line of a file, wherever a statement may start (not before a bare :hide or a quote without a mark, which the parser drops; :silent! not before another modifier; counts below 2^31): the file is accepted if and only if it was accepted before. The tree is the same but for moved positions and for the record of exactly one command, the one whose line starts there: it has the modifier before its other modifiers, and its line starts at the modifier; if the command is kept as text, the text starts with the modifier. A rejected file is rejected with the same message at the moved place. The compiler prints the same for both files, but for the modifier before a command that is kept as text.", "quantifier": "all files, all places between statements (in blocks too), all modifiers with all abbreviations, counts and blanks, both settings of the Neovim option", "why_tests_cant": "Relates two parses for all files, places and modifiers; tests parse some modified commands.", "anchors": ["go/vimlparser.go:parse_command_modifiers", "go/vimlparser.go:parse_one_cmd", "go/export.go:newExArg", "compiler/compiler.go:compileExcommand"]}
{"id": "C83", "title": "The order of whole scripts does not matter", "statement": "Scripts that are whole (a comment line after one of them is a comment) can be put in any order between two statements of a file: the file is accepted in one order if and only if it is accepted in any other, and a rejected file has the same error at the same place. On their own they are accepted in any order; the statements are those of the scripts, in the order of the scripts, the same but for positions; and the compiler prints the output of each script, in the order of the scripts.", "quantifier": "all lists of whole scripts that do not start with a continuation line, all permutations, all files around them (in blocks too, with a line behind that does not continue the scripts), both settings of the Neovim option; for the trees and the output: no user command of one script has the name of one of another with something appended", "why_tests_cant": "There is one statement for each list of scripts and each permutation; tests parse single scripts.", "anchors": ["go/vimlparser.go:parse", "go/vimlparser.go:parse_one_cmd", "go/vimlparser.go:find_command", "compiler/compiler.go:Compile"]}
{"id": "C84", "title": "The tree shows where a file can be cut", "statement": "The positions in a tree are the places where statements start. If a command of an accepted file, or the end command of a block, has a line position at the first text of a line, then before this line is a place between statements: a line that is no command is reported there as such, so it is not in the middle of a string, a here-document or a continued line. Conversely, before a line that starts with a command, such a place is always shown in the tree. Before each statement that starts a line the file can be cut in two: the lines before it are a whole script with exactly the statements before it, the lines from it on are accepted, and the file has the statements of both, those of the second part moved.", "quantifier": "all accepted files, all commands in them (in blocks too; for the cut: on the top level), both settings of the Neovim option; for the converse: lines without indentation that are no `#!` line and none of the two kinds of lines the parser drops; for the tree of the second part: no user command of it has the name of one of the first part with something appended", "why_tests_cant": "It relates every position in every tree to the result of parsing other files, the two parts; tests compare the printed trees of given files and these have no positions.", "anchors": ["go/vimlparser.go:parse_one_cmd", "go/vimlparser.go:parse_trail", "go/vimlparser.go:parse_command", "go/type.go:StringReader", "go/export.go:newExArg"]}
{"id": "C85", "title": "Statements can be deleted by their positions", "statement": "In an accepted file the lines from one statement to before another, found by the line positions in the tree, are a whole script. Without them the file is accepted; it has the other statements, the same but for positions; and the compiler prints the same text without that of the deleted lines. The last statements can be deleted too. The lines can be replaced by any other whole script, and the file is accepted.", "quantifier": "all accepted files, all pairs of statements on the top level whose lines start with them, both settings of the Neovim option; for the tree and the output: no user command of the lines behind has the name of one of the lines before with something appended", "why_tests_cant": "It relates each tree to the results of parsing all files obtained by deleting or replacing statements; tests parse given files and print trees without positions.", "anchors": ["go/vimlparser.go:parse", "go/vimlparser.go:parse_one_cmd", "go/vimlparser.go:parse_trail", "go/export.go:newExArg", "compiler/compiler.go:Compile"]}
{"id": "C86", "title": "A file falls into parts that can be combined freely", "statement": "Cut an accepted file before each line where, by the line positions in the tree, a statement of the top level starts. All parts but the last are whole scripts, and the last is accepted. Any list of these parts, in any order, with parts left out or repeated, is an accepted file, with or without the last part behind it. Its statements are those of the parts, the same but for positions, and the compiler prints for it what it prints for the parts.", "quantifier": "all accepted files whose first line is no continuation line, all lists of parts, both settings of the Neovim option; for the tree and the output: no user command of a part has the name of one of another with something appended", "why_tests_cant": "It relates one tree to the results of parsing every file made of the parts, of which there are infinitely many.", "anchors": ["go/vimlparser.go:parse", "go/vimlparser.go:parse_one_cmd", "go/vimlparser.go:parse_trail", "go/export.go:newExArg", "compiler/compiler.go:Compile"]}
{"id": "C87", "title": "Statements can be commented out", "statement": "A double quote put before each line of a whole script, anywhere between the statements of a file, changes no error of the file but for its offset: none comes, none goes, and line, column and message stay. If the file is accepted, the statements of the script are replaced by one comment for each line, with the line as its text, and the others keep their lines and columns; the compiler prints the comments instead. This holds for the lines from one statement to before another, found by the line positions in the tree.", "quantifier": "all files, all places between statements, also inside blocks, all whole scripts, both settings of the Neovim option; for the tree and the output: the lines from a statement on the top level to before another or to the end, and no user command of the lines behind has the name of one of the lines before with something appended", "why_tests_cant": "It relates the results of parsing two files for all files, places and scripts, including here-documents, continuation lines and text of :append.", "anchors": ["go/vimlparser.go:parse", "go/vimlparser.go:parse_comment", "go/vimlparser.go:parse_one_cmd", "go/type.go:NewStringReader", "compiler/compiler.go:Compile"]}
{"id": "C88", "title": "Open blocks can be closed by the commands the messages name", "statement": "If the lines of a file end between statements, possibly inside blocks, then the file is a whole script, or it is rejected at its end with the message that a certain end command (:endfunction, :endwhile, :endfor, :endif or :endtry) is missing, and with this command in a further line the file again ends between statements. Going on like this comes to an end: there is exactly one list of end commands so that the file with some but not all of them is rejected with the message that the next one is missing, and with all of them it is accepted and is a whole script. A whole script behind the lines does not change this list. In particular an accepted file can be cut before any line in which a command of its tree starts, and be completed this way.", "quantifier": "all files that end between statements (a further wrong command is reported in its own line), at any depth of blocks, both settings of the Neovim option; not inside the text of :append or a here-document, where the commands would be text", "why_tests_cant": "Depth and kinds of the open blocks are unbounded, and it relates the results for a file and all its completions.", "anchors": ["go/vimlparser.go:check_missing_endfunction", "go/vimlparser.go:check_missing_endif", "go/vimlparser.go:check_missing_endtry", "go/vimlparser.go:check_missing_endwhile", "go/vimlparser.go:check_missing_endfor", "go/vimlparser.go:find_context", "go/vimlparser.go:parse"]}
{"id": "C89", "title": "End commands must match the open blocks", "statement": "If the lines of a file end between statements, then of all lists of end commands (:endfunction, :endwhile, :endfor, :endif, :endtry, one to a line) exactly one makes them an accepted file: the list of C88. An end command is correct behind them if and only if it is the first of this list. Any other is an error in its line, in the first column, whatever lines follow: the message is that there is no :if, :while, :for or :try for it, or, for :endfunction, that the end command of the innermost block is missing or that it is not inside a function.", "quantifier": "all files that end between statements, at any depth of blocks, all lists of end commands, all lines behind a wrong one (but continuation lines of it), both settings of the Neovim option", "why_tests_cant": "It is a statement about matching brackets of any depth and all lists of end commands.", "anchors": ["go/vimlparser.go:parse_cmd_endfunction", "go/vimlparser.go:parse_cmd_endif", "go/vimlparser.go:parse_cmd_endwhile", "go/vimlparser.go:parse_cmd_endfor", "go/vimlparser.go:parse_cmd_endtry", "go/vimlparser.go:check_missing_endfunction"]}
{"id": "C90", "title": ":break, :continue and :return stand exactly where a loop or function is open", "statement": "Let the lines of a file end between statements, and let E be the end commands that are missing there (see C88). :break and :continue in the next line are accepted if and only if :endwhile or :endfor is in E, :return if and only if :endfunction is in E; the same commands are then missing behind it. Otherwise the command is an error in the first column of its line, with the message that it is without a loop or not inside a function, whatever lines follow. (A loop outside of the function counts, unlike in Vim.)", "quantifier": "all files that end between statements, at any depth of blocks, all lines behind a wrong command (but continuation lines of it), both settings of the Neovim option; the commands alone in their line", "why_tests_cant": "The depth of blocks between the command and its loop or function is unbounded.", "anchors": ["go/vimlparser.go:parse_cmd_break", "go/vimlparser.go:parse_cmd_continue", "go/vimlparser.go:parse_cmd_return", "go/vimlparser.go:find_context"]}
{"id": "C91", "title": "Where :else, :catch and :finally can stand", "statement": "Let the lines of a file end between statements, and let E be the end commands that are missing there (see C88). :else in the next line is an error in its first column unless the first command of E is :endif, :catch and :finally unless it is :endtry, whatever lines follow, even if such a block is open further out. If it is, the command is accepted and leaves the same commands missing, or it is an error because the last part of the block is open (with a message of its own for :catch after :finally, and the same message as above otherwise). The latter is so behind an accepted :else (for :else) or :finally (for :catch and :finally) and any whole script; the former behind :try or an accepted :catch and any whole script, and behind any lines of a whole script behind which the command is accepted there. :try is accepted everywhere and then :endtry is missing first.", "quantifier": "all files that end between statements, at any depth of blocks, all whole scripts between the parts, all lines behind a wrong command (but continuation lines of it), both settings of the Neovim option; the commands alone in their line", "why_tests_cant": "The blocks around the command, the scripts in the parts before it and the lines behind it are unbounded.", "anchors": ["go/vimlparser.go:parse_cmd_else", "go/vimlparser.go:parse_cmd_catch", "go/vimlparser.go:parse_cmd_finally", "go/vimlparser.go:parse_cmd_try"]}
{"id": "C92", "title": "Open blocks nest: lines behind lines", "statement": "Let the lines A of a file end between statements, and let the lines W alone do so as well (both possibly with open blocks, both possibly defining user commands). Then A followed by W ends between statements, and the end commands that are missing there are those missing behind W followed by those missing behind A; the file with all of them is accepted. If a block is open behind W, :else, :catch and :finally are accepted behind A and W if and only if they are behind W alone.", "quantifier": "all pairs of such lists of lines, at any depth of blocks, where the first line of W is no continuation line; both settings of the Neovim option", "why_tests_cant": "Two unbounded files are combined; the claim is that what one of them has open, defines or contains never influences the blocks of the other.", "anchors": ["go/vimlparser.go:parse", "go/vimlparser.go:push_context", "go/vimlparser.go:pop_context", "go/vimlparser.go:find_context"]}
{"id": "C93", "title": "The blocks before a wrong line do not matter", "statement": "Let the lines B alone be rejected, and let the message not be one of the 22 about blocks (a command without its block, a block without its end). Behind any lines A that end between statements, at whatever depth of open blocks, they are rejected with the same message, in the same column, and the line and offset moved by the lines of A. The same holds for the error about a number out of range. In other words: if lines with open blocks before B change its error in any way, the error of B was about blocks.", "quantifier": "all files B that are rejected, all lists of lines A that end between statements, where the first line of B is no continuation line; both settings of the Neovim option", "why_tests_cant": "Two unbounded files are combined; no state of the parser that the lines of A leave (open blocks, user commands, position) may influence how lines of B are read.", "anchors": ["go/vimlparser.go:parse", "go/vimlparser.go:parse_one_cmd", "go/vimlparser.go:parse_command", "go/vimlparser.go:find_context"]}
{"id": "C94", "title": "Nothing behind :finish is read at the top level, everything in a block", "statement": "Let the lines A be a whole script and let a line `finish` follow. Then the file is accepted whatever lines come behind, and its statements are those of A and the command `finish` at column 1 of its line; no line behind is a place between statements. If blocks are open behind the lines A, the lines behind `finish` are read: the place behind it is again between statements, and the same end commands are missing as before. So the place behind `finish` is between statements if and only if A is not a whole script.", "quantifier": "all lists of lines A that are a whole script or end between statements, all lists of lines B behind (the first no continuation line); both settings of the Neovim option", "why_tests_cant": "The lines behind are arbitrary and may be wrong in any way; the lines before are an unbounded script with blocks of any depth.", "anchors": ["go/vimlparser.go:parse_cmd_finish", "go/vimlparser.go:parse_cmd_common", "go/vimlparser.go:parse", "go/vimlparser.go:seek_end"]}
