{
 "claims": [
  {
   "property": "C01",
   "status": "proved",
   "theorems": [
    "Ws.Properties.scan_never_panics"
   ],
   "note": "for every source and every environment whose f64 parser accepts digits[.digits]"
  },
  {
   "property": "C02",
   "status": "partial",
   "theorems": [
    "Ws.Properties.scan_terminates_partial",
    "Ws.Properties.scan_terminates_false",
    "Ws.Properties.scan_hangs_partial",
    "Ws.Properties.outdent_loop_partial",
    "Ws.Properties.scan_hangs_iff"
   ],
   "note": "false of the code (scan_terminates_false); the sources on which it does not return are characterised exactly (scan_hangs_iff); it returns in particular unless an indented line, a deeper line and a line in between occur in that order"
  },
  {
   "property": "C03",
   "status": "proved",
   "theorems": [
    "Ws.Properties.one_eof"
   ],
   "note": ""
  },
  {
   "property": "C04",
   "status": "proved",
   "theorems": [
    "Ws.Properties.blocks_balanced"
   ],
   "note": ""
  },
  {
   "property": "C05",
   "status": "proved",
   "theorems": [
    "Ws.Properties.lossless"
   ],
   "note": ""
  },
  {
   "property": "C06",
   "status": "proved",
   "theorems": [
    "Ws.Properties.token_location",
    "Ws.Properties.tokens_in_order",
    "Ws.Properties.eof_location"
   ],
   "note": ""
  },
  {
   "property": "C07",
   "status": "proved",
   "theorems": [
    "Ws.Properties.keyword_iff",
    "Ws.Properties.identifier_text",
    "Ws.Properties.operator_text"
   ],
   "note": ""
  },
  {
   "property": "C08",
   "status": "proved",
   "theorems": [
    "Ws.Properties.string_value",
    "Ws.Properties.quotes_closed"
   ],
   "note": ""
  },
  {
   "property": "C09",
   "status": "proved",
   "theorems": [
    "Ws.Properties.number_value"
   ],
   "note": ""
  },
  {
   "property": "C10",
   "status": "proved",
   "theorems": [
    "Ws.Properties.tabs_illegal"
   ],
   "note": ""
  },
  {
   "property": "C11",
   "status": "partial",
   "theorems": [
    "Ws.Properties.statement_column_partial",
    "Ws.Properties.statement_column_plain_partial",
    "Ws.Properties.statement_column_false"
   ],
   "note": "false of the code when a lone CR or a backslash starts a line without tokens (statement_column_false); proved for all other sources"
  },
  {
   "property": "C12",
   "status": "proved",
   "theorems": [
    "Ws.Properties.terminator_after_proper",
    "Ws.Properties.terminator_iff"
   ],
   "note": ""
  },
  {
   "property": "C13",
   "status": "partial",
   "theorems": [
    "Ws.Properties.trailing_operator_partial",
    "Ws.Properties.trailing_operator_false",
    "Ws.Properties.trailing_operator_exact"
   ],
   "note": "false when a space or comment follows the operator (trailing_operator_false); proved when the operator is the last cluster of its line; trailing_operator_exact says that these are the only exceptions, in every source, also with errors"
  },
  {
   "property": "C14",
   "status": "proved",
   "theorems": [
    "Ws.Properties.blank_line"
   ],
   "note": "after complete lines, that is lines which scan without error and end in a newline"
  },
  {
   "property": "C15",
   "status": "partial",
   "theorems": [
    "Ws.Properties.trailing_comment_partial",
    "Ws.Properties.comment_line_partial",
    "Ws.Properties.comment_line_exact_partial",
    "Ws.Properties.comment_before_line_partial",
    "Ws.Properties.comment_line_run_partial",
    "Ws.Properties.comment_before_line_run_partial",
    "Ws.Properties.comments_false",
    "Ws.Properties.comment_after_operator_false"
   ],
   "note": "false for some comment lines and after a continuing operator. Proved: comments after a statement and comment lines at the block's indentation change only locations; a comment line before a line of code changes only locations and the text of Indent and Outdent tokens exactly when its indentation is that of the block, of the next line, or of a block the next line closes, and then the program is the same"
  },
  {
   "property": "C16",
   "status": "partial",
   "theorems": [
    "Ws.Properties.crlf_partial",
    "Ws.Properties.crlf_false",
    "Ws.Properties.crlf_comment_partial",
    "Ws.Properties.crlf_source_partial"
   ],
   "note": "false of the code: CRLF outside strings and comments always makes the scan fail (crlf_partial), witness crlf_false; and it does not end a comment, so the lines after it are silently ignored up to a lone LF (crlf_comment_partial), and a source that begins with a comment and has no lone LF is the empty program (crlf_source_partial)"
  },
  {
   "property": "C17",
   "status": "proved",
   "theorems": [
    "Ws.Properties.errors_located"
   ],
   "note": ""
  },
  {
   "property": "C18",
   "status": "proved",
   "theorems": [
    "Ws.Properties.parse_never_panics",
    "Ws.Properties.parse_expression_panics_iff"
   ],
   "note": ""
  },
  {
   "property": "C19",
   "status": "proved",
   "theorems": [
    "Ws.Properties.parse_terminates",
    "Ws.Properties.parse_expression_terminates"
   ],
   "note": ""
  },
  {
   "property": "C20",
   "status": "proved",
   "theorems": [
    "Ws.Properties.accepted_derivable",
    "Ws.Properties.accepted_expression_derivable"
   ],
   "note": ""
  },
  {
   "property": "C21",
   "status": "proved",
   "theorems": [
    "Ws.Properties.precedence"
   ],
   "note": ""
  },
  {
   "property": "C22",
   "status": "proved",
   "theorems": [
    "Ws.Properties.write_then_parse_within",
    "Ws.Properties.write_then_parse_expression",
    "Ws.Properties.write_then_parse",
    "Ws.Properties.write_injective"
   ],
   "note": "proved for whole programs too"
  },
  {
   "property": "C23",
   "status": "proved",
   "theorems": [
    "Ws.Properties.limits",
    "Ws.Properties.call_within_limit",
    "Ws.Properties.call_beyond_limit",
    "Ws.Properties.bare_call_within_limit",
    "Ws.Properties.bare_call_beyond_limit",
    "Ws.Properties.function_within_limit",
    "Ws.Properties.function_beyond_limit",
    "Ws.Properties.first_fault"
   ],
   "note": "the boundary cases are stated for any callee, arguments, parameters and body; first_fault covers them inside any program"
  },
  {
   "property": "C24",
   "status": "proved",
   "theorems": [
    "Ws.Properties.distinct_keys",
    "Ws.Properties.map_distinct",
    "Ws.Properties.map_repeated",
    "Ws.Properties.first_fault"
   ],
   "note": "maps in braces on their own; first_fault covers maps anywhere in a program, with or without braces"
  },
  {
   "property": "C25",
   "status": "proved",
   "theorems": [
    "Ws.Properties.break_in_loop",
    "Ws.Properties.break_in_other_function"
   ],
   "note": ""
  },
  {
   "property": "C26",
   "status": "proved",
   "theorems": [
    "Ws.Properties.assignment_targets",
    "Ws.Properties.assignment_accepted",
    "Ws.Properties.assignment_rejected",
    "Ws.Properties.first_fault"
   ],
   "note": "first_fault covers assignments anywhere in a program"
  },
  {
   "property": "C27",
   "status": "proved",
   "theorems": [
    "Ws.Properties.function_kinds",
    "Ws.Properties.method_kinds"
   ],
   "note": ""
  },
  {
   "property": "C28",
   "status": "proved",
   "theorems": [
    "Ws.Properties.repl_conservative"
   ],
   "note": "For every source, without any assumption on the environment; an example shows that the converse fails."
  },
  {
   "property": "C29",
   "status": "proved",
   "theorems": [
    "Ws.Properties.parse_errors_located"
   ],
   "note": ""
  },
  {
   "property": "C30",
   "status": "proved",
   "theorems": [
    "Ws.Properties.names_from_tokens",
    "Ws.Properties.names_not_keywords"
   ],
   "note": ""
  },
  {
   "property": "C31",
   "status": "partial",
   "theorems": [
    "Ws.Properties.braced_newline_rejected",
    "Ws.Properties.brace_newline_rejected",
    "Ws.Properties.brace_newline_partial",
    "Ws.Properties.block_between_false",
    "Ws.Properties.block_newline_rejected",
    "Ws.Properties.braced_body_newline_rejected",
    "Ws.Properties.declaration_not_newline"
   ],
   "note": "false of the code; proved rejected: braced bodies of if, while and for and braced functions and classes anywhere in a source; any group in braces anywhere in a source that does not begin like a map and is not the body of a function expression; and no declaration starts with a newline. Missing: bare blocks that begin like a map, other than at the start of a source."
  },
  {
   "property": "C32",
   "status": "partial",
   "theorems": [
    "Ws.Properties.else_newline_rejected"
   ],
   "note": "false of the code; proved that every source with an else followed by a newline is rejected"
  },
  {
   "property": "C33",
   "status": "partial",
   "theorems": [
    "Ws.Properties.for_expression_rejected",
    "Ws.Properties.for_expression_rejected_anywhere"
   ],
   "note": "false of the code; proved that every source with such a for loop is rejected, in files and in the REPL"
  },
  {
   "property": "C34",
   "status": "proved",
   "theorems": [
    "Ws.Properties.for_loops"
   ],
   "note": ""
  },
  {
   "property": "C35",
   "status": "proved",
   "theorems": [
    "Ws.Properties.locations",
    "Ws.Properties.locations_new"
   ],
   "note": ""
  },
  {
   "property": "C36",
   "status": "partial",
   "theorems": [
    "Ws.Properties.slots_partial",
    "Ws.Properties.slots_alias",
    "Ws.Properties.slots_exact",
    "Ws.Properties.slots_shared_iff"
   ],
   "note": "false of the code beyond 256 names in a scope (slots_alias); proved for scopes of at most 256 names, and in general that one name has one slot; slots_exact and slots_shared_iff say when slots are shared in all cases: exactly by names that are a multiple of 256 places apart in their scope"
  },
  {
   "property": "C37",
   "status": "proved",
   "theorems": [
    "Ws.Properties.state_restored"
   ],
   "note": ""
  },
  {
   "property": "C38",
   "status": "proved",
   "theorems": [
    "Ws.Properties.return_in_function",
    "Ws.Properties.initializer_returns"
   ],
   "note": ""
  },
  {
   "property": "C39",
   "status": "proved",
   "theorems": [
    "Ws.Properties.this_and_super"
   ],
   "note": "for programs that the parser accepts, in a session of such programs"
  },
  {
   "property": "C40",
   "status": "proved",
   "theorems": [
    "Ws.Properties.resolve_total",
    "Ws.Properties.too_deep",
    "Ws.Properties.nested_blocks"
   ],
   "note": ""
  },
  {
   "property": "C41",
   "status": "proved",
   "theorems": [
    "Ws.Properties.only_locations"
   ],
   "note": ""
  },
  {
   "property": "C42",
   "status": "proved",
   "theorems": [
    "Ws.Properties.annotations_ignored",
    "Ws.Properties.resolve_again"
   ],
   "note": ""
  },
  {
   "property": "C43",
   "status": "proved",
   "theorems": [
    "Ws.Properties.globals_kept",
    "Ws.Properties.globals_kept_onward",
    "Ws.Properties.global_slot",
    "Ws.Properties.global_slots_stable"
   ],
   "note": ""
  },
  {
   "property": "C44",
   "status": "proved",
   "theorems": [
    "Ws.Properties.no_redeclaration",
    "Ws.Properties.redeclared_global"
   ],
   "note": ""
  },
  {
   "property": "C45",
   "status": "partial",
   "theorems": [
    "Ws.Properties.no_own_initializer_partial",
    "Ws.Properties.failed_initializer",
    "Ws.Properties.read_iff",
    "Ws.Properties.variable_declares",
    "Ws.Properties.function_declares",
    "Ws.Properties.class_declares",
    "Ws.Properties.other_statement",
    "Ws.Properties.new_unbroken"
   ],
   "note": "the second half is false of the code (failed_initializer); the first half is proved; read_iff and the four theorems after it say exactly which globals cannot be read after any history (with room for globals)"
  },
  {
   "property": "C46",
   "status": "proved",
   "theorems": [
    "Ws.Properties.no_own_superclass"
   ],
   "note": ""
  },
  {
   "property": "C47",
   "status": "proved",
   "theorems": [
    "Ws.Properties.renamed"
   ],
   "note": ""
  },
  {
   "property": "C48",
   "status": "proved",
   "theorems": [
    "Ws.Properties.run_stages",
    "Ws.Properties.parseString_stages",
    "Ws.Properties.exit_code",
    "Ws.Properties.run_file_ends",
    "Ws.Properties.run_total"
   ],
   "note": ""
  },
  {
   "property": "C49",
   "status": "partial",
   "theorems": [
    "Ws.Properties.repl_never_ends",
    "Ws.Properties.repl_ends"
   ],
   "note": "false of the code; proved that the REPL loops forever at the end of every input, and only returns after a read error"
  },
  {
   "property": "C50",
   "status": "partial",
   "theorems": [
    "Ws.Properties.rejected_line_partial",
    "Ws.Properties.rejected_line_false",
    "Ws.Properties.rejected_program_partial",
    "Ws.Properties.rejected_undeclaring_partial"
   ],
   "note": "false for lines that only the resolver rejects (rejected_line_false); proved for lines that fail to scan or parse, and, as to errors and acceptance, for later lines that read no name declared by the rejected line (with room for globals)"
  },
  {
   "property": "C51",
   "status": "proved",
   "theorems": [
    "Ws.Properties.paren_abutting_iff"
   ],
   "note": ""
  },
  {
   "property": "C52",
   "status": "proved",
   "theorems": [
    "Ws.Properties.accepted_nested"
   ],
   "note": ""
  },
  {
   "property": "C53",
   "status": "proved",
   "theorems": [
    "Ws.Properties.derived_accepted",
    "Ws.Properties.derived_expression",
    "Ws.Properties.derived_unambiguous"
   ],
   "note": ""
  },
  {
   "property": "C54",
   "status": "proved",
   "theorems": [
    "Ws.Properties.accepted_iff_derived",
    "Ws.Properties.rejected_iff_underived",
    "Ws.Properties.expression_iff_derived"
   ],
   "note": ""
  },
  {
   "property": "C55",
   "status": "proved",
   "theorems": [
    "Ws.Properties.first_fault",
    "Ws.Properties.accepted_iff_faultless",
    "Ws.Properties.expression_faults"
   ],
   "note": ""
  },
  {
   "property": "C56",
   "status": "proved",
   "theorems": [
    "Ws.Properties.scan_accepts_iff",
    "Ws.Properties.scan_rejects_iff",
    "Ws.Properties.scan_hangs_iff",
    "Ws.Properties.one_reading",
    "Ws.Properties.reading_or_hangs"
   ],
   "note": ""
  },
  {
   "property": "C57",
   "status": "proved",
   "theorems": [
    "Ws.Properties.resolve_exact",
    "Ws.Properties.rejected_iff",
    "Ws.Properties.resolved_iff",
    "Ws.Properties.panics_iff",
    "Ws.Properties.resolves_iff",
    "Ws.Properties.locations_unique",
    "Ws.Properties.perform_fine",
    "Ws.Properties.perform_fault",
    "Ws.Properties.after_bindings"
   ],
   "note": ""
  },
  {
   "property": "C58",
   "status": "proved",
   "theorems": [
    "Ws.Properties.run_accepts_iff",
    "Ws.Properties.run_rejects_iff",
    "Ws.Properties.run_hangs_iff",
    "Ws.Properties.run_panics_iff",
    "Ws.Properties.parseString_accepts_iff",
    "Ws.Properties.accepts_iff",
    "Ws.Properties.correct_unique"
   ],
   "note": "for tokens the grammar does not derive, run_rejects_iff says that they are rejected, not with which errors (C55 gives the first)"
  },
  {
   "property": "C59",
   "status": "proved",
   "theorems": [
    "Ws.Properties.js_faithful",
    "Ws.Properties.wasm_annotations",
    "Ws.Properties.errors_blocks"
   ],
   "note": "serde, serde_wasm_bindgen and Debug of str as documented"
  },
  {
   "property": "C60",
   "status": "proved",
   "theorems": [
    "Ws.Properties.run_messages",
    "Ws.Properties.scan_messages",
    "Ws.Properties.parse_messages",
    "Ws.Properties.resolve_messages",
    "Ws.Properties.parser_messages_occur",
    "Ws.Properties.scanner_messages_occur",
    "Ws.Properties.resolver_messages_occur"
   ],
   "note": "of the resolver's messages, 'Too many local variables in function.' is not shown to occur"
  },
  {
   "property": "C61",
   "status": "proved",
   "theorems": [
    "Ws.Properties.errors_stable",
    "Ws.Properties.no_repair"
   ],
   "note": ""
  },
  {
   "property": "C62",
   "status": "proved",
   "theorems": [
    "Ws.Properties.error_not_early",
    "Ws.Properties.error_in_time"
   ],
   "note": ""
  },
  {
   "property": "C63",
   "status": "proved",
   "theorems": [
    "Ws.Properties.output_faithful",
    "Ws.Properties.transcript_faithful"
   ],
   "note": "derive(Debug) and the builders of {:#?} as in the standard library; {:?} of f64 abstract, with the laws of Spec/Style.lean"
  },
  {
   "property": "C64",
   "status": "partial",
   "theorems": [
    "Ws.Properties.errors_faithful_partial",
    "Ws.Properties.errors_faithful_false"
   ],
   "note": "false of the code: a duplicate key with an apostrophe and a newline in it is printed like two errors (errors_faithful_false); proved where no error is at a string with an apostrophe in it"
  },
  {
   "property": "C65",
   "status": "partial",
   "theorems": [
    "Ws.Properties.recovery_partial",
    "Ws.Properties.recovery_false",
    "Ws.Properties.recovery_exact",
    "Ws.Properties.recovery_in_loop"
   ],
   "note": "false of the code: after a loop whose body is not indented in_loops stays incremented, and a later break outside of any loop is not reported (recovery_false); proved for every other first error, and for that one if no break or continue follows. recovery_exact and recovery_in_loop say what the code does in all cases: after that error it goes on as if the rest stood in a loop, and does so for good."
  },
  {
   "property": "C66",
   "status": "proved",
   "theorems": [
    "Ws.Properties.errors_bounded"
   ],
   "note": ""
  },
  {
   "property": "C67",
   "status": "proved",
   "theorems": [
    "Ws.Properties.run_moved",
    "Ws.Properties.positions_irrelevant",
    "Ws.Properties.positions_irrelevant_wasm",
    "Ws.Properties.positions_irrelevant_expression"
   ],
   "note": ""
  },
  {
   "property": "C68",
   "status": "proved",
   "theorems": [
    "Ws.Properties.blank_line_run",
    "Ws.Properties.blank_line_same",
    "Ws.Properties.comment_line_run"
   ],
   "note": "blank lines anywhere; comment lines at the indentation of the current block, because at other indentations the claim is false (C15)"
  },
  {
   "property": "C69",
   "status": "proved",
   "theorems": [
    "Ws.Properties.spaces_in_line",
    "Ws.Properties.spaces_in_line_run",
    "Ws.Properties.comment_in_line",
    "Ws.Properties.comment_in_line_run",
    "Ws.Properties.attached_space_matters",
    "Ws.Properties.trailing_space_matters"
   ],
   "note": ""
  },
  {
   "property": "C70",
   "status": "proved",
   "theorems": [
    "Ws.Properties.comment_text",
    "Ws.Properties.comment_text_run"
   ],
   "note": ""
  },
  {
   "property": "C71",
   "status": "proved",
   "theorems": [
    "Ws.Properties.relabelled_parse",
    "Ws.Properties.relabelled_expression",
    "Ws.Properties.relabelled_resolve",
    "Ws.Properties.relabelled_run"
   ],
   "note": "KeysAgree: names and strings in front of a colon become what keys become, since a map may not have a key twice."
  },
  {
   "property": "C72",
   "status": "proved",
   "theorems": [
    "Ws.Properties.respelled_scan",
    "Ws.Properties.respelled_run"
   ],
   "note": "A number with a fraction keeps a fraction. Assumes LetterLaw: a letter is alphanumeric."
  },
  {
   "property": "C73",
   "status": "proved",
   "theorems": [
    "Ws.Properties.printed_program",
    "Ws.Properties.printed_scan",
    "Ws.Properties.printed_injective"
   ],
   "note": "Up to positions. A statement that begins with a map has no text of this kind: the parser takes its brace for a block."
  },
  {
   "property": "C74",
   "status": "proved",
   "theorems": [
    "Ws.Properties.accepted_writable",
    "Ws.Properties.expression_writable",
    "Ws.Properties.accepted_written"
   ],
   "note": "Together with C22: up to positions and spelling, the parser gives exactly the trees that can be written."
  },
  {
   "property": "C75",
   "status": "proved",
   "theorems": [
    "Ws.Properties.accepted_printable",
    "Ws.Properties.formatted_program",
    "Ws.Properties.formatted_run",
    "Ws.Properties.formatted_twice",
    "Ws.Properties.formatted_same"
   ],
   "note": "Assumes SliceLaw: a part of a text, cut where clusters end, has the same clusters."
  },
  {
   "property": "C76",
   "status": "partial",
   "theorems": [
    "Ws.Properties.indented_fun_value_false",
    "Ws.Properties.indented_fun_next_line",
    "Ws.Properties.indented_fun_end_rejected",
    "Ws.Properties.indented_fun_goes_on_partial",
    "Ws.Properties.indented_fun_statement_false",
    "Ws.Properties.indented_fun_anywhere_rejected",
    "Ws.Properties.indented_fun_rejected_repl",
    "Ws.Properties.indented_fun_anywhere_partial"
   ],
   "note": "false of the code; proved rejected anywhere in a source, in files and in the REPL, unless the next token goes on with the expression, with the exact exceptions (open_var_accepted shows that the last one is needed; in the REPL the end of the source is one more)."
  },
  {
   "property": "C77",
   "status": "proved",
   "theorems": [
    "Ws.Properties.joined_scan",
    "Ws.Properties.joined_accepted",
    "Ws.Properties.joined_run",
    "Ws.Properties.lines_accepted",
    "Ws.Properties.session_run",
    "Ws.Properties.session_file"
   ],
   "note": "Up to positions. keyColon_matters and var_matters show that the two conditions are needed, else_matters that there is no converse."
  },
  {
   "property": "C78",
   "status": "proved",
   "theorems": [
    "Ws.Properties.reindented_scan",
    "Ws.Properties.reindented_run",
    "Ws.Properties.scaled_run",
    "Ws.Properties.ranked_run"
   ],
   "note": "reindent and margins (Spec/Reindent.lean) walk through the text, knowing only where strings and comments are. order_matters and return_matters show that the conditions are needed; reindent_id that nothing else is changed."
  },
  {
   "property": "C79",
   "status": "proved",
   "theorems": [
    "Ws.Properties.token_count",
    "Ws.Properties.string_fits",
    "Ws.Properties.tree_size",
    "Ws.Properties.tree_depth",
    "Ws.Properties.run_size",
    "Ws.Properties.short_run"
   ],
   "note": ""
  },
  {
   "property": "C80",
   "status": "partial",
   "theorems": [
    "Ws.Properties.parens_irrelevant_false",
    "Ws.Properties.parens_irrelevant_partial",
    "Ws.Properties.parenthesised_same",
    "Ws.Properties.parenthesised_written",
    "Ws.Properties.parenthesised_program",
    "Ws.Properties.parenthesised_run_partial"
   ],
   "note": "false of the code only for `return (nil)` in an initializer; proved with one pair of parentheses kept there. A statement that begins with a map, which has no text of its own (C73), has one with parentheses."
  },
  {
   "property": "C81",
   "status": "proved",
   "theorems": [
    "Ws.Properties.braces_program",
    "Ws.Properties.braces_run",
    "Ws.Properties.braces_parens_program",
    "Ws.Properties.braces_parens_run"
   ],
   "note": "Assumes SliceLaw, as C75."
  },
  {
   "property": "C82",
   "status": "proved",
   "theorems": [
    "Ws.Properties.repl_tokens",
    "Ws.Properties.newline_scan",
    "Ws.Properties.repl_source",
    "Ws.Properties.repl_run"
   ],
   "note": "Programs that end with an expression: Spec/LastNewline.lean."
  },
  {
   "property": "C83",
   "status": "proved",
   "theorems": [
    "Ws.Properties.levels_after",
    "Ws.Properties.later_lines",
    "Ws.Properties.changed_lines"
   ],
   "note": "levels_matter shows that the condition is needed."
  },
  {
   "property": "C84",
   "status": "proved",
   "theorems": [
    "Ws.Properties.unused_declarations",
    "Ws.Properties.unused_in_session",
    "Ws.Properties.unused_global"
   ],
   "note": "the exceptions are errors about the declarations themselves, which the theorems name; slot numbers are not compared (they follow from C35)."
  },
  {
   "property": "C85",
   "status": "proved",
   "theorems": [
    "Ws.Properties.statement_separately",
    "Ws.Properties.accepted_unbroken",
    "Ws.Properties.accepted_separately",
    "Ws.Properties.program_separately",
    "Ws.Properties.source_separately",
    "Ws.Properties.parts_accepted"
   ],
   "note": "the exceptions are named in the theorems: too many names in a scope, and a variable that is read in its own initializer but declared before. Slot numbers are not compared."
  },
  {
   "property": "C86",
   "status": "proved",
   "theorems": [
    "Ws.Properties.boxed_program",
    "Ws.Properties.boxed_alone",
    "Ws.Properties.boxed_accepted"
   ],
   "note": "for sessions without a failed declaration. A statement that declares a variable, function or class directly after if, else or while gets no block: it declares in the surrounding scope."
  },
  {
   "property": "C87",
   "status": "proved",
   "theorems": [
    "Ws.Properties.parameters_renamed",
    "Ws.Properties.parameters_too_deep",
    "Ws.Properties.parameter_renamed",
    "Ws.Properties.other_renames"
   ],
   "note": "unlike C47, which renames everything in the program and the session at once, the renamings are local to functions; the second example shows that the condition on the other names is needed."
  },
  {
   "property": "C88",
   "status": "proved",
   "theorems": [
    "Ws.Properties.order_irrelevant",
    "Ws.Properties.order_irrelevant_alone",
    "Ws.Properties.methods_any_order",
    "Ws.Properties.methods_permuted",
    "Ws.Properties.exprs_permuted",
    "Ws.Properties.entries_permuted"
   ],
   "note": "the exception is named in the theorems: too many names in a scope. Positions in the source and slot numbers are not compared; which errors there are may depend on the order."
  },
  {
   "property": "C89",
   "status": "proved",
   "theorems": [
    "Ws.Properties.alphabet_only",
    "Ws.Properties.alphabet_exact"
   ],
   "note": "the alphabet is given by a list of signs and the two Unicode classes of letters and alphanumeric characters, of which only the first character of a cluster is looked at."
  },
  {
   "property": "C90",
   "status": "partial",
   "theorems": [
    "Ws.Properties.scan_error_place_partial",
    "Ws.Properties.scan_error_place_false"
   ],
   "note": "false of the code (scan_error_place_false); scan_error_place_partial says where each of the five kinds of errors is reported: one column to the right of the cluster, except for a backslash, which is reported where it is, and a string without an end, which is reported at the end of the source."
  },
  {
   "property": "C91",
   "status": "partial",
   "theorems": [
    "Ws.Properties.page_partial",
    "Ws.Properties.page_exact_partial",
    "Ws.Properties.page_program_partial",
    "Ws.Properties.page_faithful_partial",
    "Ws.Properties.page_false",
    "Ws.Properties.pretty_alike"
   ],
   "note": "false of the code (page_false: print true and print false are shown alike); pretty_alike says exactly which values have the same text, and page_partial that sources with the same text have the same error or such values; page_exact_partial that two sources have the same text if and only if they have the same errors or the same program, but for which of true and false is written (page_program_partial is one direction); page_faithful_partial that the page tells programs apart in which every truth value is true."
  }
 ]
}