{
 "claims": [
  {
   "property": "C01",
   "status": "proved",
   "theorems": [
    "Viml.Props.C01_logical_lines",
    "Viml.Props.C01_characters",
    "Viml.Props.C01_count"
   ],
   "note": "The reader's cell sequence equals an independently specified list of logical lines."
  },
  {
   "property": "C02",
   "status": "proved",
   "theorems": [
    "Viml.Props.C02_line_col",
    "Viml.Props.C02_complete",
    "Viml.Props.C02_line_end"
   ],
   "note": "Both directions: every character read has the line/column of a place in the input, every visible place is read."
  },
  {
   "property": "C03",
   "status": "proved",
   "theorems": [
    "Viml.Props.C03_offset",
    "Viml.Props.C03_offset_line_end",
    "Viml.Props.C03_false_on_continuation",
    "Viml.Props.C03_continuation_zero"
   ],
   "note": "Exact offset of every character and line end. That the offset is not the number of preceding bytes on continuation lines is proved as well (C03_false_on_continuation)."
  },
  {
   "property": "C04",
   "status": "proved",
   "theorems": [
    "Viml.Props.C04_strictly_increasing",
    "Viml.Props.C04_before_eof",
    "Viml.Props.C04_injective"
   ],
   "note": ""
  },
  {
   "property": "C05",
   "status": "proved",
   "theorems": [
    "Viml.Props.C05_parseFile",
    "Viml.Props.C05_parseExpr"
   ],
   "note": "Termination: the step bound of the model is never reached."
  },
  {
   "property": "C06",
   "status": "proved",
   "theorems": [
    "Viml.Props.C06_parseFile",
    "Viml.Props.C06_parseExpr",
    "Viml.Props.C06_other",
    "Viml.Props.C06_exception"
   ],
   "note": "The claim without exception is false of the code (C06_exception: lockvar 99999999999 x). C06_other says exactly which files are the exception, in both directions."
  },
  {
   "property": "C07",
   "status": "proved",
   "theorems": [
    "Viml.Props.C07_parseFile",
    "Viml.Props.C07_parseExpr"
   ],
   "note": "Second half of the conclusion."
  },
  {
   "property": "C08",
   "status": "proved",
   "theorems": [
    "Viml.Props.C08_parseFile",
    "Viml.Props.C08_parseExpr"
   ],
   "note": ""
  },
  {
   "property": "C09",
   "status": "proved",
   "theorems": [
    "Viml.Props.C09_same",
    "Viml.Props.C09_exists",
    "Viml.Props.C09_parseFile"
   ],
   "note": "With any number of tokenizers, each with its own memo table, and any valid tables to begin with, every run of every parser program has exactly the result of the run without tables; such a run always exists; stated for programs and for whole files."
  },
  {
   "property": "C10",
   "status": "proved",
   "theorems": [
    "Viml.Props.C10_command",
    "Viml.Props.C10_counterexample"
   ],
   "note": "Command level: reachable state with its cache replaced by any reachable cache gives the same result up to the cache.  The exception (user command followed by a digit) is witnessed by C10_counterexample."
  },
  {
   "property": "C11",
   "status": "proved",
   "theorems": [
    "Viml.Props.C11_exact",
    "Viml.Props.C11_token",
    "Viml.Props.C11_tiling",
    "Viml.Props.C11_progress"
   ],
   "note": "Exact: the tokenizer returns a token iff the lexical specification does."
  },
  {
   "property": "C12",
   "status": "proved",
   "theorems": [
    "Viml.Props.C12_verbatim",
    "Viml.Props.C12_parseFile"
   ],
   "note": ""
  },
  {
   "property": "C13",
   "status": "proved",
   "theorems": [
    "Viml.Props.C13_precedence",
    "Viml.Props.C13_parseFile"
   ],
   "note": ""
  },
  {
   "property": "C14",
   "status": "proved",
   "theorems": [
    "Viml.Props.C14_roundtrip",
    "Viml.Props.C14_parseFile",
    "Viml.Props.C14_bytes",
    "Viml.Props.C14_same",
    "Viml.Props.C14_double",
    "Viml.Props.C14_cutoff",
    "Viml.Props.C14_line"
   ],
   "note": "Trees without cut-off literals (@ at the end of a line, a blob ending in a dot); C14_cutoff shows that the text of a cut-off blob does not parse, C14_double that nested parentheses are printed once."
  },
  {
   "property": "C15",
   "status": "proved",
   "theorems": [
    "Viml.Props.C15_idempotent",
    "Viml.Props.C14_parseFile",
    "Viml.Props.C16_handmade"
   ],
   "note": "For the trees of C14, and for the hand-built trees of C16."
  },
  {
   "property": "C16",
   "status": "proved",
   "theorems": [
    "Viml.Props.C16_handmade",
    "Viml.Props.C16_comparison"
   ],
   "note": "Leaves must be well formed and no comparison the left operand of a comparison; C16_comparison shows that the last condition is needed."
  },
  {
   "property": "C17",
   "status": "proved",
   "theorems": [
    "Viml.Props.C17_text",
    "Viml.Props.C17_panic",
    "Viml.Props.C17_error",
    "Viml.Props.C17_operators"
   ],
   "note": "All trees."
  },
  {
   "property": "C18",
   "status": "proved",
   "theorems": [
    "Viml.Props.C18_arguments",
    "Viml.Props.C18_parseFile",
    "Viml.Props.C18_rejected",
    "Viml.Props.C18_only",
    "Viml.Props.C18_onlyExpr"
   ],
   "note": ""
  },
  {
   "property": "C19",
   "status": "proved",
   "theorems": [
    "Viml.Props.C19_parseFile",
    "Viml.Props.C19_lambda"
   ],
   "note": ""
  },
  {
   "property": "C20",
   "status": "proved",
   "theorems": [
    "Viml.Props.C20_defaults"
   ],
   "note": ""
  },
  {
   "property": "C21",
   "status": "proved",
   "theorems": [
    "Viml.Props.C21_blocks"
   ],
   "note": ""
  },
  {
   "property": "C22",
   "status": "proved",
   "theorems": [
    "Viml.Props.C22_lines",
    "Viml.Props.C22_lines_reject",
    "Viml.Props.C22_lines_missing",
    "Viml.Props.C22_file",
    "Viml.Props.C22_trace",
    "Viml.Props.C22_viable",
    "Viml.Props.C22_accept",
    "Viml.Props.C22_reject",
    "Viml.Props.C22_bang",
    "Viml.Props.C22_end"
   ],
   "note": "The grammar of block sequences is an inductive definition that does not mention the parser. C22_lines: for every sequence of block commands written one per line, with any blanks, any abbreviation and any printed expression as condition, the file is accepted iff the sequence is in the grammar; the errors with line, column and message are given by C22_lines_reject and C22_lines_missing. The other theorems are for arbitrary files: each command changes the open blocks as the grammar says."
  },
  {
   "property": "C23",
   "status": "proved",
   "theorems": [
    "Viml.Props.C23_context"
   ],
   "note": ""
  },
  {
   "property": "C24",
   "status": "proved",
   "theorems": [
    "Viml.Props.C24_text"
   ],
   "note": ""
  },
  {
   "property": "C25",
   "status": "proved",
   "theorems": [
    "Viml.Props.C25_command",
    "Viml.Props.C25_unique",
    "Viml.Props.C25_unknown",
    "Viml.Props.C25_unknown_word",
    "Viml.Props.C25_abbrev",
    "Viml.Props.C25_full"
   ],
   "note": "C25_command is an equivalence between the lookup of the parser and the textual specification CmdOf at every reachable state; user command names followed by a digit are excluded (C10)."
  },
  {
   "property": "C26",
   "status": "proved",
   "theorems": [
    "Viml.Props.C26_dispatch"
   ],
   "note": ""
  },
  {
   "property": "C27",
   "status": "proved",
   "theorems": [
    "Viml.Props.C27_names",
    "Viml.Props.C27_file"
   ],
   "note": "C27_names is an equivalence; C27_file is about the whole result of parsing a file."
  },
  {
   "property": "C28",
   "status": "proved",
   "theorems": [
    "Viml.Props.C28_order",
    "Viml.Props.C28_nodes",
    "Viml.Props.C28_visits",
    "Viml.Props.C28_all"
   ],
   "note": "All trees and visitors.  C28_all is an equivalence: the skipped parts are exactly lambda bodies and default values."
  },
  {
   "property": "C29",
   "status": "proved",
   "theorems": [
    "Viml.Props.C29_walk",
    "Viml.Props.C29_unique",
    "Viml.Props.C29_balanced"
   ],
   "note": "All trees and visitors with any state; the log of calls is compared with a relational specification."
  },
  {
   "property": "C30",
   "status": "proved",
   "theorems": [
    "Viml.Props.C30_inspect"
   ],
   "note": "All trees and callbacks with any state."
  },
  {
   "property": "C31",
   "status": "proved",
   "theorems": [
    "Viml.Props.C31_compiles",
    "Viml.Props.C31_printable"
   ],
   "note": ""
  },
  {
   "property": "C32",
   "status": "proved",
   "theorems": [
    "Viml.Props.C32_balanced",
    "Viml.Props.C32_balanced_list",
    "Viml.Props.C32_concat"
   ],
   "note": ""
  },
  {
   "property": "C33",
   "status": "proved",
   "theorems": [
    "Viml.Props.C33_unchanged",
    "Viml.Props.C33_iff",
    "Viml.Props.C33_counterexample"
   ],
   "note": "Scoped: the claim is false for functions with `...`; exact condition proved."
  },
  {
   "property": "C34",
   "status": "proved",
   "theorems": [
    "Viml.Props.C34_expr",
    "Viml.Props.C34_counterexample"
   ],
   "note": "Scoped: false for texts with a percent sign."
  },
  {
   "property": "C35",
   "status": "proved",
   "theorems": [
    "Viml.Props.C35_lines",
    "Viml.Props.C35_agree",
    "Viml.Props.C35_iff"
   ],
   "note": "Scoped: exact condition proved."
  },
  {
   "property": "C36",
   "status": "proved",
   "theorems": [
    "Viml.Props.C36_escape",
    "Viml.Props.C36_injective",
    "Viml.Props.C36_internal",
    "Viml.Props.C36_heredoc_not_injective"
   ],
   "note": "The literal the compiler writes decodes to the value; heredoc lines are written unescaped, so injectivity fails there, which is proved."
  },
  {
   "property": "C37",
   "status": "proved",
   "theorems": [
    "Viml.Props.C37_source",
    "Viml.Props.C37_parseFile",
    "Viml.Props.C37_injective"
   ],
   "note": "Longest match: the operator of a node is the whole token at its position; .. is read as the DOT operator."
  },
  {
   "property": "C38",
   "status": "proved",
   "theorems": [
    "Viml.Props.C38_prefix",
    "Viml.Props.C38_ignored"
   ],
   "note": ""
  },
  {
   "property": "C39",
   "status": "proved",
   "theorems": [
    "Viml.Props.C39_decompose",
    "Viml.Props.C39_lines",
    "Viml.Props.C39_rejoin",
    "Viml.Props.C39_limit"
   ],
   "note": "Exact description of the lines read, including the 64 KiB cut-off."
  },
  {
   "property": "C40",
   "status": "proved",
   "theorems": [
    "Viml.Props.C40_decode_char",
    "Viml.Props.C40_decode_encode",
    "Viml.Props.C40_invalid_byte",
    "Viml.Props.C40_unique",
    "Viml.Props.C40_file"
   ],
   "note": "Encoding of a character is Lean core's String.utf8EncodeChar."
  },
  {
   "property": "C41",
   "status": "proved",
   "theorems": [
    "Viml.Props.C41_command",
    "Viml.Props.C41_expr",
    "Viml.Props.C41_lvalue"
   ],
   "note": "About successful parses; a failing lookahead may report an error at the next line."
  },
  {
   "property": "C42",
   "status": "proved",
   "theorems": [
    "Viml.Props.C42_append",
    "Viml.Props.C42_script",
    "Viml.Props.C42_heredoc"
   ],
   "note": ""
  },
  {
   "property": "C43",
   "status": "proved",
   "theorems": [
    "Viml.Props.C43_files",
    "Viml.Props.C43_stdin",
    "Viml.Props.C43_exit"
   ],
   "note": ""
  },
  {
   "property": "C44",
   "status": "proved",
   "theorems": [
    "Viml.Props.C44_file",
    "Viml.Props.C44_no_file",
    "Viml.Props.C44_error_injective",
    "Viml.Props.C44_pos",
    "Viml.Props.C44_pos_injective"
   ],
   "note": ""
  },
  {
   "property": "C45",
   "status": "proved",
   "theorems": [
    "Viml.Props.C45_line",
    "Viml.Props.C45_unique"
   ],
   "note": ""
  },
  {
   "property": "C46",
   "status": "proved",
   "theorems": [
    "Viml.Props.C46_parseExpr",
    "Viml.Props.C46_parseExpr_all",
    "Viml.Props.C46_parseFile",
    "Viml.Props.C46_exprs",
    "Viml.Props.C46_places_all",
    "Viml.Props.C46_written_all",
    "Viml.Props.C46_pos_first",
    "Viml.Props.C46_pos_not_first",
    "Viml.Props.C46_heredoc_comment",
    "Viml.Props.C46_equal_positions"
   ],
   "note": "Order of Spec/Order.lean (places, Written); C46_places_all and C46_written_all show that these lists leave no position out. The documented contract of Pos() is refuted by C46_pos_not_first."
  },
  {
   "property": "C47",
   "status": "proved",
   "theorems": [
    "Viml.Props.C47_names"
   ],
   "note": ""
  },
  {
   "property": "C48",
   "status": "proved",
   "theorems": [
    "Viml.Props.C48_targets"
   ],
   "note": ""
  },
  {
   "property": "C49",
   "status": "proved",
   "theorems": [
    "Viml.Props.C49_attributes"
   ],
   "note": ""
  },
  {
   "property": "C50",
   "status": "proved",
   "theorems": [
    "Viml.Props.C50_text"
   ],
   "note": ""
  },
  {
   "property": "C51",
   "status": "proved",
   "theorems": [
    "Viml.Props.C51_parseExpr",
    "Viml.Props.C51_lines",
    "Viml.Props.C51_reject",
    "Viml.Props.C51_inside",
    "Viml.Props.C51_unambiguous"
   ],
   "note": "Equivalence with the grammar Gram of Spec/Grammar.lean, written in terms of tokens (Lex) and characters."
  },
  {
   "property": "C52",
   "status": "proved",
   "theorems": [
    "Viml.Props.C52_parseFile",
    "Viml.Props.C52_lines",
    "Viml.Props.C52_reject",
    "Viml.Props.C52_unambiguous"
   ],
   "note": "Equivalence with the grammar Script of Spec/File.lean. The command tables are data shared by grammar and model."
  },
  {
   "property": "C53",
   "status": "proved",
   "theorems": [
    "Viml.Props.C53_lines",
    "Viml.Props.C53_parseExpr",
    "Viml.Props.C53_inside",
    "Viml.Props.C53_unique",
    "Viml.Props.C53_either"
   ],
   "note": "Faults of Spec/LexError.lean and Spec/ExprError.lean, one rule per error of the expression parser, over the grammar of C51. Equivalence in both directions, with message and position."
  },
  {
   "property": "C54",
   "status": "proved",
   "theorems": [
    "Viml.Props.C54_lines",
    "Viml.Props.C54_parseFile",
    "Viml.Props.C54_unique",
    "Viml.Props.C54_no_script"
   ],
   "note": "Faults of Spec/FileError.lean, one rule per error of the file parser, over the grammars of C51 and C52 and the faults of C53. Equivalence in both directions, with message and position. Errors that are no parse errors (numbers out of range) are the subject of C06."
  },
  {
   "property": "C55",
   "status": "proved",
   "theorems": [
    "Viml.Props.C55_total",
    "Viml.Props.C55_disjoint",
    "Viml.Props.C55_result"
   ],
   "note": "Classes of Spec/File.lean, Spec/FileError.lean and Spec/NumError.lean."
  },
  {
   "property": "C56",
   "status": "proved",
   "theorems": [
    "Viml.Props.C56_moves",
    "Viml.Props.C56_file",
    "Viml.Props.C56_expr",
    "Viml.Props.C56_file_bytes",
    "Viml.Props.C56_expr_bytes",
    "Viml.Props.C56_break",
    "Viml.Props.C56_same_error"
   ],
   "note": "Spec: logicalLines of Spec/Input.lean (what they are for the reader is C01), onPos and Moves of Spec/Relabel.lean (the places of the characters are those of C02-C04)."
  },
  {
   "property": "C57",
   "status": "proved",
   "theorems": [
    "Viml.Props.C57_compile_file",
    "Viml.Props.C57_compile_expr",
    "Viml.Props.C57_compile_stmt",
    "Viml.Props.C57_print",
    "Viml.Props.C57_command"
   ],
   "note": "onPos of Spec/Relabel.lean replaces every position of a tree."
  },
  {
   "property": "C58",
   "status": "proved",
   "theorems": [
    "Viml.Props.C58_value",
    "Viml.Props.C58_text",
    "Viml.Props.C58_unambiguous",
    "Viml.Props.C58_distinct",
    "Viml.Props.C58_member",
    "Viml.Props.C58_written",
    "Viml.Props.C58_too_deep"
   ],
   "note": "Grammar of JSON: JText of Spec/Json.lean (numbers: non-negative integers only). Members of the objects: Shows of Spec/JsonFields.lean, one list of names and values for each structure of package ast. The library encoding/json is modelled from its documentation (Model/Json.lean); short escapes and nesting limit are parameters."
  },
  {
   "property": "C59",
   "status": "proved",
   "theorems": [
    "Viml.Props.C59_injective",
    "Viml.Props.C59_tool"
   ],
   "note": "The model does not distinguish nil from empty slices in trees; which of the two the parser produces is recorded in Model/Json.lean."
  },
  {
   "property": "C60",
   "status": "proved",
   "theorems": [
    "Viml.Props.C60_safe",
    "Viml.Props.C60_string"
   ],
   "note": "JSafe of Spec/Json.lean."
  },
  {
   "property": "C61",
   "status": "proved",
   "theorems": [
    "Viml.Props.C61_append",
    "Viml.Props.C61_alone",
    "Viml.Props.C61_complete",
    "Viml.Props.C61_blank",
    "Viml.Props.C61_output",
    "Viml.Props.C61_counterexample"
   ],
   "note": "Complete, shift and UserCmd of Spec/Concat.lean. Offsets of characters on continuation lines are 0 in the concatenation as in B alone (C04)."
  },
  {
   "property": "C62",
   "status": "proved",
   "theorems": [
    "Viml.Props.C62_error",
    "Viml.Props.C62_accepted",
    "Viml.Props.C62_behind"
   ],
   "note": "errBehind, readLen and behind of Spec/Concat.lean."
  },
  {
   "property": "C63",
   "status": "proved",
   "theorems": [
    "Viml.Props.C63_expr",
    "Viml.Props.C63_file",
    "Viml.Props.C63_line",
    "Viml.Props.C63_lineExpr",
    "Viml.Props.C63_fixed",
    "Viml.Props.C63_quoting"
   ],
   "note": "Message, fixedMessages and quotingMessages of Spec/Message.lean."
  },
  {
   "property": "C64",
   "status": "proved",
   "theorems": [
    "Viml.Props.C64_file",
    "Viml.Props.C64_same",
    "Viml.Props.C64_cut",
    "Viml.Props.C64_bytes",
    "Viml.Props.C64_expr",
    "Viml.Props.C64_lookahead"
   ],
   "note": "Readable and errIn of Spec/ErrorLocal.lean; readable_word, readable_blank and readable_nil give readable first tokens."
  },
  {
   "property": "C65",
   "status": "proved",
   "theorems": [
    "Viml.Props.C65_tree",
    "Viml.Props.C65_error",
    "Viml.Props.C65_behind",
    "Viml.Props.C65_blank",
    "Viml.Props.C65_accepted",
    "Viml.Props.C65_end",
    "Viml.Props.C65_block"
   ],
   "note": "Between, Quiet, commentsAt, spread and Into of Spec/Insert.lean; C65_end is for the end of the file."
  },
  {
   "property": "C66",
   "status": "proved",
   "theorems": [
    "Viml.Props.C66_file",
    "Viml.Props.C66_tree",
    "Viml.Props.C66_accepted"
   ],
   "note": "Blank, Shebang, indentBy and errIndent of Spec/Indent.lean; Between of Spec/Insert.lean."
  },
  {
   "property": "C67",
   "status": "proved",
   "theorems": [
    "Viml.Props.C67_comments",
    "Viml.Props.C67_layout",
    "Viml.Props.C67_accepted",
    "Viml.Props.C67_message",
    "Viml.Props.C67_output"
   ],
   "note": "Layout, outline, plainL and noPos of Spec/Layout.lean."
  },
  {
   "property": "C68",
   "status": "proved",
   "theorems": [
    "Viml.Props.C68_tree",
    "Viml.Props.C68_error",
    "Viml.Props.C68_block",
    "Viml.Props.C68_wrap",
    "Viml.Props.C68_accepted",
    "Viml.Props.C68_end"
   ],
   "note": "Between, spread and Into of Spec/Insert.lean; Complete and shift of Spec/Concat.lean; NamesApart and withBody of Spec/Nest.lean."
  },
  {
   "property": "C69",
   "status": "proved",
   "theorems": [
    "Viml.Props.C69_value",
    "Viml.Props.C69_unique",
    "Viml.Props.C69_covers",
    "Viml.Props.C69_lead",
    "Viml.Props.C69_paren",
    "Viml.Props.C69_unary",
    "Viml.Props.C69_binary",
    "Viml.Props.C69_ternary",
    "Viml.Props.C69_list",
    "Viml.Props.C69_call",
    "Viml.Props.C69_index",
    "Viml.Props.C69_dict",
    "Viml.Props.C69_lambda",
    "Viml.Props.C69_plain",
    "Viml.Props.C69_register"
   ],
   "note": "Phrase, Plain, moveTo of Spec/Phrase.lean. C69_register shows that the condition about @ is needed."
  },
  {
   "property": "C70",
   "status": "proved",
   "theorems": [
    "Viml.Props.C70_command",
    "Viml.Props.C70_let",
    "Viml.Props.C70_const",
    "Viml.Props.C70_call",
    "Viml.Props.C70_if",
    "Viml.Props.C70_while",
    "Viml.Props.C70_for",
    "Viml.Props.C70_return"
   ],
   "note": "Only, record, exprStmt of Spec/Holder.lean; Complete and shift of Spec/Concat.lean."
  },
  {
   "property": "C71",
   "status": "proved",
   "theorems": [
    "Viml.Props.C71_command",
    "Viml.Props.C71_let",
    "Viml.Props.C71_const",
    "Viml.Props.C71_for",
    "Viml.Props.C71_return",
    "Viml.Props.C71_elseif"
   ],
   "note": "errorAt, errorBehind of Spec/Holder.lean."
  },
  {
   "property": "C72",
   "status": "proved",
   "theorems": [
    "Viml.Props.C72_lines",
    "Viml.Props.C72_last",
    "Viml.Props.C72_parseFile",
    "Viml.Props.C72_parseExpr",
    "Viml.Props.C72_command",
    "Viml.Props.C72_counterexample",
    "Viml.Props.C72_long"
   ],
   "note": "withEnds, FileLine of Spec/Input.lean."
  },
  {
   "property": "C73",
   "status": "proved",
   "theorems": [
    "Viml.Props.C73_text",
    "Viml.Props.C73_compile",
    "Viml.Props.C73_same",
    "Viml.Props.C73_file",
    "Viml.Props.C73_counterexample",
    "Viml.Props.C73_counterexample_nil"
   ],
   "note": "bare and clear of Spec/Readable.lean; sx of Spec/Sexp.lean."
  },
  {
   "property": "C74",
   "status": "proved",
   "theorems": [
    "Viml.Props.C74_file",
    "Viml.Props.C74_same",
    "Viml.Props.C74_counterexample",
    "Viml.Props.C74_counterexample_dot",
    "Viml.Props.C74_counterexample_lock"
   ],
   "note": "plain and clearS of Spec/Readable.lean."
  },
  {
   "property": "C75",
   "status": "proved",
   "theorems": [
    "Viml.Props.C75_tree",
    "Viml.Props.C75_error",
    "Viml.Props.C75_accepted",
    "Viml.Props.C75_accepted_blank"
   ],
   "note": "Spells, Respelled and respellBy of Spec/Respell.lean."
  },
  {
   "property": "C76",
   "status": "proved",
   "theorems": [
    "Viml.Props.C76_lines",
    "Viml.Props.C76_parseFile",
    "Viml.Props.C76_parseExpr",
    "Viml.Props.C76_depth",
    "Viml.Props.C76_walk",
    "Viml.Props.C76_inspect"
   ],
   "note": "Nodes are counted with Preorder parts of Spec/Walk.lean."
  },
  {
   "property": "C77",
   "status": "proved",
   "theorems": [
    "Viml.Props.C77_tree",
    "Viml.Props.C77_error",
    "Viml.Props.C77_accepted"
   ],
   "note": "The conditions are in Spec/Bar.lean."
  },
  {
   "property": "C78",
   "status": "proved",
   "theorems": [
    "Viml.Props.C78_tree",
    "Viml.Props.C78_error",
    "Viml.Props.C78_accepted"
   ],
   "note": "The conditions are in Spec/Note.lean."
  },
  {
   "property": "C79",
   "status": "proved",
   "theorems": [
    "Viml.Props.C79_comments",
    "Viml.Props.C79_style",
    "Viml.Props.C79_accepted",
    "Viml.Props.C79_message",
    "Viml.Props.C79_output",
    "Viml.Props.C79_fold"
   ],
   "note": "The steps are in Spec/Style.lean and Spec/Layout.lean."
  },
  {
   "property": "C80",
   "status": "proved",
   "theorems": [
    "Viml.Props.C80_peek",
    "Viml.Props.C80_digits",
    "Viml.Props.C80_words",
    "Viml.Props.C80_isargname",
    "Viml.Props.C80_isvarname",
    "Viml.Props.C80_blob",
    "Viml.Props.C80_continued",
    "Viml.Props.C80_names",
    "Viml.Props.C80_options",
    "Viml.Props.C80_flags"
   ],
   "note": "Regular expressions and what they match are in Spec/Regex.lean; the table is in Model/Pattern.lean. Package regexp itself is not modelled: the meaning of expressions is by definition."
  },
  {
   "property": "C81",
   "status": "proved",
   "theorems": [
    "Viml.Props.C81_lines",
    "Viml.Props.C81_file",
    "Viml.Props.C81_command",
    "Viml.Props.C81_stdin"
   ],
   "note": "The command without -json."
  },
  {
   "property": "C82",
   "status": "proved",
   "theorems": [
    "Viml.Props.C82_tree",
    "Viml.Props.C82_error",
    "Viml.Props.C82_accepted",
    "Viml.Props.C82_compile"
   ],
   "note": "Excluded, with examples: a line that starts with a blank, colon or comment; a modifier behind :silent!; a bare :hide and a quote without a mark, which the parser drops."
  },
  {
   "property": "C83",
   "status": "proved",
   "theorems": [
    "Viml.Props.C83_error",
    "Viml.Props.C83_accepted",
    "Viml.Props.C83_whole",
    "Viml.Props.C83_tree",
    "Viml.Props.C83_output"
   ],
   "note": "The condition on user commands is that of C61; see there for the witness that it is needed."
  },
  {
   "property": "C84",
   "status": "proved",
   "theorems": [
    "Viml.Props.C84_place",
    "Viml.Props.C84_shown",
    "Viml.Props.C84_iff",
    "Viml.Props.C84_cut"
   ],
   "note": "Comments have no line position and are not covered. The condition on user commands is that of C61. That the parser drops a bare `:hide` and a lone quote is recorded with C82."
  },
  {
   "property": "C85",
   "status": "proved",
   "theorems": [
    "Viml.Props.C85_whole",
    "Viml.Props.C85_delete",
    "Viml.Props.C85_output",
    "Viml.Props.C85_last",
    "Viml.Props.C85_replace"
   ],
   "note": "On the top level. In blocks C68 says the same of lines that are a whole script on their own. The example on names shows that the condition is needed."
  },
  {
   "property": "C86",
   "status": "proved",
   "theorems": [
    "Viml.Props.C86_parts",
    "Viml.Props.C86_combine",
    "Viml.Props.C86_tree",
    "Viml.Props.C86_output"
   ],
   "note": "The parts are computed from the lines and the tree alone (Spec/Cut.lean). Examples show that the last part need not be a whole script and that the condition on names is needed."
  },
  {
   "property": "C87",
   "status": "proved",
   "theorems": [
    "Viml.Props.C87_error",
    "Viml.Props.C87_accepted",
    "Viml.Props.C87_into",
    "Viml.Props.C87_statements",
    "Viml.Props.C87_output",
    "Viml.Props.C87_last"
   ],
   "note": "C87_into describes the tree inside blocks too: both files have the tree of the file without the lines, with the comments or the statements put in."
  },
  {
   "property": "C88",
   "status": "proved",
   "theorems": [
    "Viml.Props.C88_close",
    "Viml.Props.C88_accepted",
    "Viml.Props.C88_step",
    "Viml.Props.C88_unique",
    "Viml.Props.C88_cut",
    "Viml.Props.C88_within"
   ],
   "note": "C88_close and C88_step need no accepted continuation of the file: only that the place is between statements."
  },
  {
   "property": "C89",
   "status": "proved",
   "theorems": [
    "Viml.Props.C89_wrong",
    "Viml.Props.C89_right",
    "Viml.Props.C89_match",
    "Viml.Props.C89_missing",
    "Viml.Props.C89_top"
   ],
   "note": "Missing and misfit in Spec/Close.lean give the messages as functions of the missing commands."
  },
  {
   "property": "C90",
   "status": "proved",
   "theorems": [
    "Viml.Props.C90_kept",
    "Viml.Props.C90_wrong",
    "Viml.Props.C90_accepted",
    "Viml.Props.C90_top"
   ],
   "note": "C23 says where the commands are in accepted trees; this is the converse too, and the error."
  },
  {
   "property": "C91",
   "status": "proved",
   "theorems": [
    "Viml.Props.C91_wrong",
    "Viml.Props.C91_either",
    "Viml.Props.C91_last",
    "Viml.Props.C91_more",
    "Viml.Props.C91_first",
    "Viml.Props.C91_try"
   ],
   "note": ":elseif has an argument and is not among the commands of the theorems; `Misplaced` (C54) has it."
  },
  {
   "property": "C92",
   "status": "proved",
   "theorems": [
    "Viml.Props.C92_between",
    "Viml.Props.C92_missing",
    "Viml.Props.C92_part"
   ],
   "note": "W alone must be correct: :break in W for a loop in A is not covered here (C90 has it)."
  },
  {
   "property": "C93",
   "status": "proved",
   "theorems": [
    "Viml.Props.C93_error",
    "Viml.Props.C93_blocks"
   ],
   "note": "C62 is this for whole scripts A, for all messages. For messages about blocks see C89, C90 and C91."
  },
  {
   "property": "C94",
   "status": "proved",
   "theorems": [
    "Viml.Props.C94_top",
    "Viml.Props.C94_last",
    "Viml.Props.C94_block",
    "Viml.Props.C94_iff"
   ],
   "note": "`finish` stands in a line of its own, spelled out. The values of the command's ExArg are left open in C94_top; C52 determines them."
  }
 ]
}
