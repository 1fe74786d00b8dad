{"id": "C01", "title": "Scanning never panics", "statement": "Scanner::new(source).scan_tokens() never panics: every slice it takes of the source is in range and on a character boundary, and every number lexeme it collects parses as an f64.", "quantifier": "every source string, every grapheme segmentation of it into non-empty clusters", "why_tests_cant": "Slicing by byte offsets of grapheme clusters can fail on any of infinitely many multi-byte inputs; tests use a handful of strings.", "anchors": ["src/scanner.rs: Scanner::scan_tokens, add_token, scan_string, scan_number, scan_identifier, peek_index, advance"]}
{"id": "C02", "title": "Scanning terminates", "statement": "scan_tokens() returns for every source. (FALSE of the code: a line whose indentation falls strictly between two open indentation levels makes the outdent loop spin forever. What is proved: a general family of sources on which it loops, and termination whenever no indented line is followed by a deeper line and then by a line in between.)", "quantifier": "every source string", "why_tests_cant": "A non-terminating input is a single point in an infinite space; none of the existing tests has an inconsistent dedent.", "anchors": ["src/scanner.rs: bol_indentation_tokens (lines 343-366), scan_tokens"]}
{"id": "C03", "title": "Token stream ends in exactly one Eof", "statement": "If scan_tokens() returns Ok, the list is non-empty, its last token is Eof, and no other token is Eof.", "quantifier": "every source string", "why_tests_cant": "Parsers index past the end if this ever fails; must hold for all inputs.", "anchors": ["src/scanner.rs: scan_tokens", "src/parser.rs: is_at_end"]}
{"id": "C04", "title": "Indent and Outdent are balanced", "statement": "In every Ok token list every prefix has at least as many Indent as Outdent tokens, and the whole list has equally many: blocks nest and all are closed.", "quantifier": "every source string", "why_tests_cant": "Quantifies over all indentation histories.", "anchors": ["src/scanner.rs: bol_indentation_tokens, close_all_blocks"]}
{"id": "C05", "title": "Tokenization is lossless", "statement": "If scan_tokens() returns Ok, the source is exactly the in-order concatenation of the lexemes of the tokens (other than Indent, Outdent, Eof) with only trivia between them: spaces, carriage returns, newlines, // comments, and backslash-newline continuations. No source text is lost, duplicated or reordered.", "quantifier": "every source string and segmentation", "why_tests_cant": "A dropped or duplicated cluster can depend on any combination of neighbouring tokens.", "anchors": ["src/scanner.rs: scan_token, add_token"]}
{"id": "C06", "title": "Token locations are exact", "statement": "Every token other than Indent/Outdent carries the 1-based line (number of newline clusters before it, plus one) and column (clusters since the last newline, plus one) of its first cluster, saturated at u32::MAX and u16::MAX; multi-line strings included.", "quantifier": "every source string, every token", "why_tests_cant": "Line/column bookkeeping is spread over six mutation sites (reset_line, scan_string, advance, ...); tests cover a few positions.", "anchors": ["src/scanner.rs: advance, reset_line, scan_string, add_token"]}
{"id": "C07", "title": "Keywords, identifiers and maximal munch", "statement": "A token has a keyword type iff its lexeme is that keyword; an Identifier's lexeme is never a keyword, starts with a letter or underscore, continues with letters, digits and underscores, and is not followed by another such cluster. Each operator token's lexeme is exactly its spelling and '=', '!', '<', '>' are never followed by '='.", "quantifier": "every source string, every token of an Ok scan", "why_tests_cant": "All identifiers and operator adjacencies.", "anchors": ["src/scanner.rs: scan_identifier, KEYWORDS, scan_token, matches"]}
{"id": "C08", "title": "String literals are verbatim", "statement": "A String token's value is exactly the source text between its quotes, contains no quote cluster, and spans newlines unchanged; a source whose last opened quote is never closed is rejected.", "quantifier": "every source string", "why_tests_cant": "All string contents, including multi-byte and multi-line ones.", "anchors": ["src/scanner.rs: scan_string, add_string_literal_token"]}
{"id": "C09", "title": "Number literals", "statement": "A Number token's lexeme is digits, optionally followed by a dot and more digits; its value is the f64 parse of exactly that lexeme; the token is not followed by a digit, and a dot is taken only if a digit follows it.", "quantifier": "every source string", "why_tests_cant": "All digit strings and all following text.", "anchors": ["src/scanner.rs: scan_number, peek_next_grapheme, is_digit"]}
{"id": "C10", "title": "Tabs are illegal outside strings and comments", "statement": "If the scan is Ok then every tab cluster in the source lies inside a string literal or a comment.", "quantifier": "every source string", "why_tests_cant": "Every position of a tab in every source.", "anchors": ["src/scanner.rs: scan_token '\\t' case"]}
{"id": "C11", "title": "Statements of one block start in one column", "statement": "In an Ok token list, a token directly preceded by an Indent or Outdent (or, in a source without backslash continuations, by a Terminator) starts in the column of the innermost open Indent, or in column 1 when none is open; nested Indents have strictly increasing columns. (Indentation below the u16 saturation point.) (FALSE of the code in two corners: a lone carriage return at the start of a line, and a backslash on a line without tokens, shift the column that is compared; witness proved. Proved for all other sources.)", "quantifier": "every source string", "why_tests_cant": "Quantifies over every history of indents and outdents.", "anchors": ["src/scanner.rs: bol_indentation_tokens"]}
{"id": "C12", "title": "Terminators end non-empty logical lines", "statement": "In an Ok token list a Terminator is always directly preceded by a proper token (not another Terminator, Indent or Outdent), never first, and its lexeme is a newline: blank lines and comment-only lines produce no Terminator.", "quantifier": "every source string", "why_tests_cant": "Every arrangement of blank lines, comments and continuations.", "anchors": ["src/scanner.rs: scan_token '\\n' case, only_comment_on_line"]}
{"id": "C13", "title": "A trailing operator continues the line", "statement": "If a line's last cluster is one of the continuing operators, its newline produces no Terminator and a deeper next line produces no Indent. (FALSE once a trailing space or comment follows the operator: witnesses are proved.)", "quantifier": "every source prefix and every following line", "why_tests_cant": "The continuation flag is reset by every intermediate cluster; tests only use the operator immediately before the newline.", "anchors": ["src/scanner.rs: scan_token, reset_line, following_line_continuation"]}
{"id": "C14", "title": "Blank lines are insignificant", "statement": "Inserting a blank line (only spaces) after any complete line changes no token except for the line numbers of later tokens.", "quantifier": "every source, every insertion point at a line boundary outside strings", "why_tests_cant": "Quantifies over all contexts.", "anchors": ["src/scanner.rs: reset_line, scan_token"]}
{"id": "C15", "title": "Comments do not affect tokens", "statement": "Adding a comment changes no token. (FALSE of the code for comment-only lines at another indentation, which emit Indent/Outdent, and after a continuing operator; witnesses proved. Proved: a trailing comment after a complete statement line, and a comment-only line at the current indentation, change nothing but locations; a comment-only line before a line of code changes nothing but locations and the text of the Indent and Outdent tokens if and only if its indentation is that of the current block, of that line, or of a block that line closes; then the program is the same.)", "quantifier": "every source, every comment text", "why_tests_cant": "All comment positions and texts.", "anchors": ["src/scanner.rs: scan_token '/' case"]}
{"id": "C16", "title": "Windows line endings", "statement": "Sources with CRLF line endings scan like those with LF. (FALSE: CRLF is one grapheme cluster, which matches neither '\\r' nor '\\n'; proved: a CRLF outside strings and comments always makes the scan fail; a CRLF does not end a comment, so the lines after the comment are ignored up to a lone LF, and a source that begins with a comment and has no lone LF is accepted as the empty program.)", "quantifier": "every source containing CRLF", "why_tests_cant": "Depends on the segmentation rule GB3 of an external crate; no test uses CRLF.", "anchors": ["src/scanner.rs: scan_token '\\r', '\\n' cases, advance_to_eol"]}
{"id": "C17", "title": "Scan errors are reported, located and non-empty", "statement": "scan_tokens() returns Err exactly when some error was recorded; the list of causes is then non-empty and every cause carries a line no greater than the number of lines of the source.", "quantifier": "every source string", "why_tests_cant": "All error paths and combinations.", "anchors": ["src/scanner.rs: error, scan_tokens"]}
{"id": "C18", "title": "Parsing never panics", "statement": "parse() and parse_repl_line() never panic on any source on which scanning returns; parse_expression() panics exactly when the token stream is empty but for Eof and overflow checks are on (previous() computes 0 - 1).", "quantifier": "every source string (every token list that ends in Eof), both build profiles", "why_tests_cant": "The parser has eleven panic!/expect/unreachable sites and one unchecked subtraction.", "anchors": ["src/parser.rs: Parser::parse, primary, previous, statement, call, consume_end_block, loop_body_statement"]}
{"id": "C19", "title": "Parsing terminates", "statement": "On every token list ending in Eof the parser's loops and recursions finish: each loop iteration consumes a token.", "quantifier": "every token list ending in Eof", "why_tests_cant": "Mutual recursion through 25 functions and error recovery.", "anchors": ["src/parser.rs: Parser::parse, synchronize, declaration, expression"]}
{"id": "C20", "title": "Accepted programs are derivable in the grammar", "statement": "If parse() returns Ok(ast) then the whole token list up to Eof is derived by the language's grammar as ast: every token is consumed, in order, by the production that built the node.", "quantifier": "every source string", "why_tests_cant": "Soundness over all programs.", "anchors": ["src/parser.rs: all parsing functions"]}
{"id": "C21", "title": "Precedence and associativity", "statement": "In every returned AST, binary operands respect precedence (or < and < equality < comparison < addition < multiplication < unary < call) and left associativity: the right operand of a binary operator binds strictly tighter and the left operand at least as tight; assignment is right associative and nested only through its right-hand side or brackets.", "quantifier": "every expression in every accepted program", "why_tests_cant": "Infinitely many operator combinations.", "anchors": ["src/parser.rs: assignment, or, and, equality, comparison, addition, multiplication, unary, call"]}
{"id": "C22", "title": "Printing then parsing is the identity", "statement": "For every expression of the parenthesised core language (literals, variables, unary, binary, logical, grouping, calls with parentheses, property and index access and assignment, arrays), writing it as tokens and parsing gives exactly that expression back.", "quantifier": "every well-formed core expression, every follow context that cannot continue an expression", "why_tests_cant": "Completeness over all expressions.", "anchors": ["src/parser.rs: expression and below"]}
{"id": "C23", "title": "Argument and parameter limits", "statement": "Every call in an accepted program has at most 255 arguments and every function at most 255 parameters; a 256th makes the program rejected, and 255 are accepted.", "quantifier": "every program", "why_tests_cant": "Any nesting or count.", "anchors": ["src/parser.rs: finish_call, finish_call_without_parens, function_definition"]}
{"id": "C24", "title": "Map literals have unique keys in source order", "statement": "In every accepted program each map literal's keys are pairwise distinct and appear in source order; a repeated key is rejected at the second occurrence.", "quantifier": "every map literal in every program", "why_tests_cant": "All maps of all sizes.", "anchors": ["src/parser.rs: literal_map", "src/ast.rs: Map"]}
{"id": "C25", "title": "break and continue only inside loops", "statement": "In every accepted program each break and continue is inside the body of a while or for loop. (The stronger claim that the loop is in the same function is FALSE: witness proved.)", "quantifier": "every program", "why_tests_cant": "All nestings of loops, functions and classes, including after parse errors.", "anchors": ["src/parser.rs: finish_break_statement, finish_continue_statement, loop_body_statement, in_loops"]}
{"id": "C26", "title": "Assignment targets", "statement": "Every accepted assignment targets a variable other than 'this', a property, or an index; anything else on the left of '=' is rejected, reporting the '=' token.", "quantifier": "every expression", "why_tests_cant": "All left-hand sides.", "anchors": ["src/parser.rs: assignment"]}
{"id": "C27", "title": "Method kinds", "statement": "In every accepted class, methods marked 'class' are ClassMethod, otherwise methods named init are Initializer and all others Method; every other function is PlainFunction.", "quantifier": "every class in every program", "why_tests_cant": "All classes.", "anchors": ["src/parser.rs: finish_class_declaration, function_definition"]}
{"id": "C28", "title": "REPL mode is a conservative extension", "statement": "If parse(source) is Ok then parse_repl_line(source) is Ok with the same AST.", "quantifier": "every source string", "why_tests_cant": "Relates two runs on every input.", "anchors": ["src/parser.rs: parse, parse_repl_line, expression_statement"]}
{"id": "C29", "title": "Parse errors are located at tokens, in source order", "statement": "When parse() returns Err from the parser, causes is non-empty, each cause carries the location and text of a token of the input, and causes appear in source order, at most one per token.", "quantifier": "every source string", "why_tests_cant": "All error recovery paths.", "anchors": ["src/parser.rs: parse, synchronize, error_from_last, error_from_peek"]}
{"id": "C30", "title": "Names and positions in the AST come from the source", "statement": "Every identifier declared or referenced in an accepted AST is the lexeme of an Identifier token of the source (hence never a keyword), except 'this', which comes from a This token; every location in it is that of a token.", "quantifier": "every program", "why_tests_cant": "Every node of every AST.", "anchors": ["src/parser.rs: consume_identifier, primary"]}
{"id": "C31", "title": "A braced block may be followed by a newline", "statement": "A statement ending in '}' can be followed by a newline. (FALSE of the code: every source in which an if, while or for with a braced body or a function or class declared in braces is followed by a newline is rejected, wherever it stands; more generally every source in which any group in braces is followed by a newline is rejected, unless the group begins like a map or is the body of a function expression, so also for bare blocks anywhere.)", "quantifier": "every program with a braced block statement followed by a newline", "why_tests_cant": "No test uses braced blocks.", "anchors": ["src/parser.rs: statement, finish_block, primary"]}
{"id": "C32", "title": "else may introduce an indented block", "statement": "if/else with both branches as indented blocks is accepted. (FALSE: 'else' followed by a newline is always rejected; proved for every condition and branch.)", "quantifier": "every if statement with an else followed by a newline", "why_tests_cant": "No test uses else.", "anchors": ["src/parser.rs: finish_if_statement"]}
{"id": "C33", "title": "for loops with an expression initializer", "statement": "for (expr; cond; inc) body is accepted. (FALSE: the initializer expression must be followed by a newline instead of ';'; proved for every expression.)", "quantifier": "every for statement", "why_tests_cant": "Tests cover only empty and var initializers.", "anchors": ["src/parser.rs: finish_for_statement, expression_statement"]}
{"id": "C34", "title": "for loops desugar to while loops", "statement": "An accepted for loop is a While or WhileIncrement with the given condition (true when omitted), body and increment, wrapped in a Block with the initializer when there is one.", "quantifier": "every for statement", "why_tests_cant": "All combinations of omitted parts with all sub-programs.", "anchors": ["src/parser.rs: finish_for_statement"]}
{"id": "C35", "title": "Variables resolve to the innermost visible binding", "statement": "In a resolved program every variable reference carries (distance, index) where distance counts the scopes between the use and the innermost enclosing scope in which the name is already declared, and index is the position of the name in that scope's declaration order; a name declared nowhere is given the next global index.", "quantifier": "every program, every reference", "why_tests_cant": "All scope nestings and shadowings.", "anchors": ["src/resolver.rs: resolve_local_variable, forward_reserve_global_var, declare, define"]}
{"id": "C36", "title": "Distinct variables of a scope get distinct slots", "statement": "Two different names in one scope never share a slot. (FALSE beyond 256 names: slot_index is truncated to u8 while the limit checks against 65535; aliasing witness proved. Proved for scopes of at most 256 names; and in general two names of a scope share a slot exactly if they are a multiple of 256 places apart in the order of declaration.)", "quantifier": "every scope of every program", "why_tests_cant": "Needs a scope with 257 names; the limit test is absent.", "anchors": ["src/resolver.rs: ensure_scope_index_limit, declare, define, resolve_local_variable", "src/environment.rs: SlotIndex, VarLoc"]}
{"id": "C37", "title": "Resolver state is restored after every statement, also on error", "statement": "After resolving any program, with or without errors, the resolver is back at the global scope, outside any function or class.", "quantifier": "every program and every history of programs given to one resolver (REPL)", "why_tests_cant": "Every error exit at every depth.", "anchors": ["src/resolver.rs: resolve_statement, resolve_class, resolve_function, begin_scope, end_scope"]}
{"id": "C38", "title": "return is only accepted inside functions", "statement": "In a resolved program every return is inside a function or method body, and a return inside an initializer returns no value (nil literal).", "quantifier": "every program", "why_tests_cant": "All nestings.", "anchors": ["src/resolver.rs: resolve_statement Return"]}
{"id": "C39", "title": "this and super are only accepted where they have a meaning", "statement": "In a resolved program every 'this' is inside a class and every 'super' is inside a class whose innermost enclosing class has a superclass; each resolves to the binding of that innermost class, never to a global.", "quantifier": "every program", "why_tests_cant": "All nestings of classes and functions.", "anchors": ["src/resolver.rs: resolve_expression Super, Variable; resolve_class"]}
{"id": "C40", "title": "Resolving never panics below the nesting limit", "statement": "resolve() always returns or panics; it panics only with 'Too many nested lexical scopes' and only when more than 65535 scopes would be nested, and a program that would nest more never resolves successfully (it panics unless an earlier error ends the statement); in particular the already-declared panic of forward references is unreachable. Nested blocks panic exactly from the limit on.", "quantifier": "every AST, every resolver history", "why_tests_cant": "All ASTs.", "anchors": ["src/resolver.rs: begin_scope, forward_reserve_global_var"]}
{"id": "C41", "title": "Resolving only fills in locations", "statement": "The resolved AST equals the input AST except for variable locations and slots.", "quantifier": "every AST", "why_tests_cant": "All ASTs.", "anchors": ["src/resolver.rs: resolve"]}
{"id": "C42", "title": "Resolving does not depend on earlier annotations", "statement": "The result of resolving does not depend on the locations and slots already stored in the AST; in particular resolving a resolved AST again with a fresh resolver changes nothing.", "quantifier": "every AST, every pair of initial annotations", "why_tests_cant": "Relates two runs over all ASTs.", "anchors": ["src/resolver.rs: resolve"]}
{"id": "C43", "title": "Global slots are stable across a REPL session", "statement": "Once a global name has a slot it keeps it for the rest of the session, whatever is resolved afterwards, successfully or not.", "quantifier": "every history of programs", "why_tests_cant": "All histories.", "anchors": ["src/resolver.rs: declare, define, forward_reserve_global_var"]}
{"id": "C44", "title": "Duplicate declarations", "statement": "In a resolved program no local scope declares a name twice (parameters included: a function with two equal parameters, or a body variable named like a parameter, is rejected), while globals may be redeclared and keep their slot.", "quantifier": "every program", "why_tests_cant": "All scopes.", "anchors": ["src/resolver.rs: declare, define"]}
{"id": "C45", "title": "A variable cannot be read in its own initializer", "statement": "A local variable's initializer cannot read the variable itself directly; and a failed global initializer does not make later reads fail. (The second half is FALSE: witness history proved. What is true instead: exactly the globals whose declaration has begun and not ended cannot be read; a declaration with a faulty initializer leaves the global in that state unless it was declared before, and only a declaration of the same name changes it.)", "quantifier": "every program, every REPL history", "why_tests_cant": "Histories with errors.", "anchors": ["src/resolver.rs: resolve_expression Variable, declare"]}
{"id": "C46", "title": "A class cannot inherit from itself", "statement": "In a resolved program no class names itself as superclass.", "quantifier": "every class in every program", "why_tests_cant": "All classes.", "anchors": ["src/resolver.rs: resolve_class"]}
{"id": "C47", "title": "Resolution is invariant under renaming", "statement": "Consistently renaming variables by an injective renaming that fixes 'this' and 'super' renames the resolved program (or the names in its errors) and leaves every location, slot, error position and success/failure unchanged.", "quantifier": "every program, every injective renaming", "why_tests_cant": "Relates two runs for all programs and renamings.", "anchors": ["src/resolver.rs: resolve"]}
{"id": "C48", "title": "A run is parse then resolve", "statement": "run() and parseString report the scanner's errors if scanning fails, else the parser's, else the resolver's, else return the resolved AST; parseString calls do not influence one another; the CLI exits with 65 exactly when there is an error.", "quantifier": "every source", "why_tests_cant": "All inputs.", "anchors": ["src/main.rs: run, run_file, main", "src/wasm.rs: wasm_parse_string"]}
{"id": "C49", "title": "The REPL ends at end of input", "statement": "run_repl() returns when standard input ends. (FALSE: read_line returns Ok(0) and the loop continues forever; proved for every input.)", "quantifier": "every input history followed by end of input", "why_tests_cant": "Non-termination cannot be observed by a finishing test.", "anchors": ["src/main.rs: run_repl"]}
{"id": "C50", "title": "A failed REPL line does not change the meaning of later lines", "statement": "A line that fails to scan or parse leaves the session exactly as if it had not been entered. (For lines that fail to resolve this is FALSE; witness proved. What is true instead: the errors and the acceptance of later lines do not depend on the failed line unless they read a name that it declares at its top level.)", "quantifier": "every REPL history", "why_tests_cant": "All histories.", "anchors": ["src/main.rs: run, run_repl"]}
{"id": "C51", "title": "Call parentheses abut", "statement": "An opening parenthesis is scanned as a call parenthesis exactly when it directly follows, without blank space, a token of a statement (or a comment or a backslash continuation); otherwise it is a grouping parenthesis.", "quantifier": "every source string, every opening parenthesis of an Ok scan", "why_tests_cant": "Depends on everything that can precede a parenthesis, including line starts, comments, continuations and layout.", "anchors": ["src/scanner.rs: scan_token, is_abutting"]}
{"id": "C52", "title": "Brackets and blocks are properly nested", "statement": "In the tokens of every accepted program, parentheses, brackets, braces and Indent/Outdent pairs are properly nested in one another: each closing token closes the most recently opened one.", "quantifier": "every accepted program", "why_tests_cant": "Nesting depth and interleaving of the four kinds of brackets are unbounded; a test checks only a few shapes.", "anchors": ["src/parser.rs", "src/scanner.rs"]}
{"id": "C53", "title": "Everything the grammar derives is accepted", "statement": "If the unambiguous grammar of the language derives the tokens of a source as a program, then the source is accepted, in a file and in the REPL, with exactly that syntax tree; and no token list has two derivations with different trees. The same holds for parse_expression.", "quantifier": "every source string, every derivation of the grammar", "why_tests_cant": "Completeness over all programs: one missing case in the parser rejects or misreads programs that no test contains.", "anchors": ["src/parser.rs"]}
{"id": "C54", "title": "The grammar is exactly what the parser accepts", "statement": "A source whose scan succeeds is accepted with a given syntax tree exactly if the unambiguous grammar of the language (in its file or its REPL reading) derives its tokens as that tree; it is rejected exactly if the grammar derives no tree for it. The same holds for parse_expression.", "quantifier": "every source string, file and REPL mode", "why_tests_cant": "An equivalence between an executable parser and a declarative grammar ranges over all token lists, accepted and rejected; tests sample a few of each.", "anchors": ["src/parser.rs"]}
{"id": "C55", "title": "The first error is the first fault", "statement": "If the tokens of a source follow the grammar apart from the five restrictions that are not a matter of token order (what may stand left of '=', at most 255 arguments, at most 255 parameters, distinct map keys, break and continue only in loops), then the source is accepted exactly if none of them is violated, and otherwise the first reported error is the violation that shows first, with its token and message. parse_expression reports exactly that error.", "quantifier": "every source string, every derivation of the grammar with faults, file and REPL mode", "why_tests_cant": "Any number of violations at any nesting, and none may be masked or reordered.", "anchors": ["src/parser.rs: assignment, finish_call, function_definition, literal_map, break_statement, continue_statement, synchronize"]}
{"id": "C56", "title": "The scanner does exactly what its specification says", "statement": "A declarative specification cuts any source into pieces (tokens, comments, blank space, continuations, errors) with the Indents, Outdents and indentation errors before them. The scanner accepts a source exactly if it has a reading without errors, and then returns exactly the tokens of the reading; it rejects it exactly if it has a reading with errors, and then reports exactly those, in order; it hangs exactly if a line begins at an indentation strictly between two open levels. No source has two readings.", "quantifier": "every source string", "why_tests_cant": "An equivalence over all sources, including every malformed one, with the exact tokens, positions, errors and non-termination.", "anchors": ["src/scanner.rs: scan_tokens, scan_token, bol_indentation_tokens, string, number, identifier"]}
{"id": "C57", "title": "The resolver does exactly what its specification says", "statement": "A program is a list of acts on names: scopes begin and end, names are declared, read and used, and some acts are wrong wherever they stand. Whether an act is at fault is decided by the names bound there. After any history of programs, the resolver accepts a program exactly if no act is at fault, and the result is then the only tree that differs from the program just in locations and has the right ones; it rejects a program exactly if some act is at fault, and reports exactly the first fault of each top-level statement, in order; it panics exactly if it reaches a scope nested more than 65535 deep. The names left after the program are those of the specification.", "quantifier": "every history of programs (accepted or not), every program", "why_tests_cant": "An equivalence over all programs and histories, with exact error lists, messages and positions, and uniqueness of the locations.", "anchors": ["src/resolver.rs: resolve, resolve_statement, resolve_expression, resolve_class, resolve_function, resolve_local_variable, declare, define, forward_reserve_global_var, begin_scope"]}
{"id": "C58", "title": "Exactly the correct sources are accepted, from text to resolved tree", "statement": "A source is correct, after a history of programs, if its reading has no errors, the grammar derives its tokens as a program, and the program has no faults; its result is the only tree with the right locations. A run accepts exactly the correct sources, with that result. It rejects exactly the sources with scan errors (reporting exactly those), the sources with tokens the grammar does not derive, and the sources whose tree has faults (reporting exactly those). It hangs exactly on the sources of C02 and panics exactly if scopes nest too deep. (Which errors are reported for tokens the grammar does not derive is C55, for the first one.)", "quantifier": "every history of programs, every source that fits the position counters, script and REPL mode", "why_tests_cant": "An equivalence between three composed declarative specifications and the composed program, over all texts.", "anchors": ["src/main.rs: run", "src/lib.rs: parseString", "src/parser.rs: parse", "src/resolver.rs: resolve"]}
{"id": "C59", "title": "Nothing is lost on the way to JavaScript", "statement": "What a JavaScript program gets from parseString determines the result of the Rust function: from the value, the resolved program with all names, literal values, operators, locations and slots; from the message of the error, the list of errors with their positions, tokens and messages. In particular no two results are shown alike, and every integer is exact as a JavaScript number.", "quantifier": "every pair of sources that fit the position counters, whose grapheme clusters contain no two newlines in a row", "why_tests_cant": "Injectivity over all trees and all lists of errors; a test compares single values.", "anchors": ["src/wasm.rs: wasm_parse_string", "src/ast.rs: Stmt, Expr, impl Serialize for Map", "src/error.rs: impl Display for ParseError, ParseErrorCause", "src/environment.rs: VarLoc, SlotIndex", "src/source_loc.rs: SourceLoc"]}
{"id": "C60", "title": "The complete list of error messages", "statement": "Every error of a run has one of the messages listed in the specification: 4 of the scanner, or one naming a grapheme cluster of the source, 43 of the parser, 9 of the resolver. All of them but one (too many local variables) are shown to occur with a source. In particular, the messages that complain of a missing outdent after a block, of a missing '{' before the body of a loop or an if statement, of a missing ':' after a map key, and of a missing end of file, which the code also contains, never occur.", "quantifier": "every history, every source that fits the position counters, script and REPL mode", "why_tests_cant": "That a message never occurs concerns all sources.", "anchors": ["src/scanner.rs: add_error", "src/parser.rs: consume, consume_any_of, error_from_last, error_from_peek", "src/resolver.rs: resolve_expression, resolve_statement"]}
{"id": "C61", "title": "What is reported of the beginning of a program does not depend on the rest", "statement": "The parser finds its errors at strictly increasing token positions, each at the token that it reports or at the one after it, except for the two messages that judge a finished phrase (invalid assignment target, duplicate key). Every program that begins with the same tokens, up to the second after the position of an error, has the same errors up to this one. In particular a program whose first error is not one of those two cannot be repaired by changing anything later than the third token after the one reported.", "quantifier": "every pair of sources that fit the position counters and agree on a beginning of their tokens, script and REPL mode, every error", "why_tests_cant": "It quantifies over all continuations of a beginning, and bounds how far the parser looks ahead in every state it can reach.", "anchors": ["src/parser.rs: peek, peek_next, peek_next_next, check_next, advance, consume, error_from_last, error_from_peek, synchronize", "src/parser.rs: parse"]}
{"id": "C62", "title": "The parser reports an error where it is", "statement": "The tokens before the position of the first error can always be continued to a program that the grammar derives (the grammar with faults: it does not judge assignment targets, repeated keys, numbers of arguments and parameters, break and continue). So nothing is reported that could still become right. If the error is not one of those faults, then the tokens up to the third after this position cannot be continued to such a program, so nothing wrong is passed over. The position is that of the token reported, or the end of the input when an expression is missing there and the last token is reported, or later than the token reported for the two messages that judge a finished phrase.", "quantifier": "every source that fits the position counters and is scanned without error, script and REPL mode; for the second half every source that begins with the same tokens", "why_tests_cant": "The first half asserts that a continuation exists for every error in every state of the parser, the second that none exists among infinitely many.", "anchors": ["src/parser.rs: every function that returns an error", "src/parser.rs: parse, declaration, statement, expression, call, primary"]}
{"id": "C63", "title": "Standard output determines the program", "statement": "If two runs write the same text to standard output, for whatever sources and in whatever REPL sessions, then either both fail or both succeed with the same resolved program: the same statements with the same names, string and number values, source locations, scope distances and slots. If two REPLs that wait for input or have stopped have written the same text to standard output, then they have answered the same number of lines, the same lines failed, and the others gave the same programs.", "quantifier": "every pair of sources that fit the position counters, every pair of resolvers, script and REPL mode, every pair of sequences of input lines and numbers of iterations, every way of writing floats that separates the values of number literals, every choice of escaped characters", "why_tests_cant": "It compares all pairs of programs. That the rendering can be read back without ambiguity needs an argument about every tree, every string in it and every nesting of indentation.", "anchors": ["src/main.rs: print_result, run_repl", "src/ast.rs: derive(Debug) of Stmt, Expr, Map, ClassDefinition, NamedFunctionDefinition, FunctionDefinition, Parameter and the operators", "src/environment.rs: derive(Debug) of VarLoc, SlotIndex", "src/source_loc.rs: derive(Debug) of SourceLoc"]}
{"id": "C64", "title": "Standard error determines the errors", "statement": "If two failing runs write the same text to standard error, then they have found the same errors: as many, with the same locations, tokens and messages, in the same order.", "quantifier": "every pair of sources that fit the position counters, every pair of sessions, script and REPL mode", "why_tests_cant": "It compares all pairs of lists of errors, and strings in a program may contain any text, including what looks like another error.", "anchors": ["src/main.rs: print_result, print_parse_error, report_error, report_error_at_token", "src/parser.rs: map literals, \"Duplicate key in literal map.\""]}
{"id": "C65", "title": "Recovery starts afresh", "statement": "If the parser reports errors, then the ones after the first are exactly the errors of what follows the first of the words class, fun, var, for, if, while, print and return at or after the token where the first error was found, parsed as a program of its own; there are none if that is a program, or if there is no such word.", "quantifier": "every source that fits the position counters and scans without error, script and REPL mode", "why_tests_cant": "It compares the parser's behaviour in the middle of every program, after every error, with its behaviour on another program; state that survives an error may only show much later.", "anchors": ["src/parser.rs: parse, synchronize, loop_body_statement, consume_begin_block, finish_break_statement, finish_continue_statement"]}
{"id": "C66", "title": "The number of errors is bounded", "statement": "The parser reports at most one error more than the program has words class, fun, var, for, if, while, print and return.", "quantifier": "every source that fits the position counters and scans without error, script and REPL mode", "why_tests_cant": "The bound is about every malformed program; a test can only show the count for one.", "anchors": ["src/parser.rs: parse, synchronize"]}
{"id": "C67", "title": "Positions do not matter", "statement": "Two sources with the same tokens, at whatever positions, give the same program with the same resolved variables, or the same errors, and leave the resolver in the same state; only the positions differ, and they differ as those of the tokens do.", "quantifier": "all pairs of sources with the same tokens or the same scan errors, any resolver state, script, REPL, parseString and single expressions", "why_tests_cant": "It relates the results of any two sources; a test can only compare a few layouts of a few programs.", "anchors": ["src/parser.rs", "src/resolver.rs", "src/source_loc.rs"]}
{"id": "C68", "title": "Lines without code do not matter to programs", "statement": "If a line of spaces, or a comment line at the indentation of the current block, is inserted between lines, then the program, or the errors, are the same, with every position on later lines one line further down.", "quantifier": "all sources, every place after complete lines, any resolver state, script and REPL mode", "why_tests_cant": "It is about every program and every place in it, and about every position in the result.", "anchors": ["src/scanner.rs: scan_token, bol_indentation_tokens, reset_line", "src/parser.rs", "src/resolver.rs"]}
{"id": "C69", "title": "Space inside a line does not matter", "statement": "Spaces inserted inside a line, between two pieces of it, change no token, error or program, except for positions, unless they detach a parenthesis from what is before it or separate a newline from an operator before it; the same holds for a comment at the end of a line that does not end in such an operator.", "quantifier": "all sources, accepted or not, all places inside a line", "why_tests_cant": "It is about every place of every source; the two exceptions are easily missed by examples.", "anchors": ["src/scanner.rs: scan_token, scan_tokens"]}
{"id": "C70", "title": "What a comment says does not matter", "statement": "If the text of a comment is replaced by any other text without a newline, then there are the same tokens or errors, and the same program or errors, except for positions.", "quantifier": "all sources, accepted or not, all comments, all replacement texts", "why_tests_cant": "It is about every possible text of a comment, including quotes, brackets, tabs and characters that are an error elsewhere.", "anchors": ["src/scanner.rs: scan_token"]}
{"id": "C71", "title": "Names, strings and numbers are not looked into by the parser and the resolver", "statement": "For tokens with other names, strings and numbers, where different names stay different, different keys of maps stay different, and `this`, `super` and `init` stay, the parser and the resolver give the same program with the other names, strings and numbers, or the same errors at the same places, or the same panic, and the resolver is left in the same state with the other names.", "quantifier": "all token lists, all faithful relabellings, any resolver state, script and REPL mode", "why_tests_cant": "It is about every program and every way to replace its names, strings and numbers.", "anchors": ["src/parser.rs", "src/resolver.rs"]}
{"id": "C72", "title": "Names, strings, numbers and comments may be spelled in any way", "statement": "If in a source the names, strings, numbers and comments are replaced, consistently for the names, by any others, whatever their length, then the scanner gives the tokens with the others, or the same errors, and a run gives the program with the others, or the same errors, up to positions.", "quantifier": "all sources on which the scanner stops, all faithful relabellings, all spellings, any resolver state, script and REPL mode", "why_tests_cant": "It is about every program and all replacements at once, including words with any Unicode letters and strings over several lines.", "anchors": ["src/scanner.rs", "src/parser.rs", "src/resolver.rs"]}
{"id": "C73", "title": "Every syntax tree has a source, with indentation", "statement": "If the program text of a syntax tree, with bodies indented by two spaces a level, is given to the scanner and the parser, they accept it and give the tree back, up to positions. The tree must be one that can be written, no statement may begin with a map, its names, strings and numbers must be spellable, and no more than 32767 blocks may be nested. Two such trees with the same text are the same up to positions.", "quantifier": "all syntax trees that can be written as text, script and REPL mode", "why_tests_cant": "It is about every tree: it takes the scanner's indentation, the newlines and the parser together through a layout that depends on the whole tree.", "anchors": ["src/scanner.rs", "src/parser.rs"]}
{"id": "C74", "title": "Every accepted program can be written", "statement": "The syntax tree of every accepted source can be written: operands bind tightly enough for their operators, only variables, properties and elements are assigned to, no call or function has more than 255 arguments or parameters, the keys of a map are distinct, functions and methods have the right kinds, break and continue are in loops, bodies and branches are no declarations, no else is separated from its if, and no variable is resolved yet. So the tree, written as tokens and parsed again, gives exactly itself.", "quantifier": "all accepted sources, script and REPL mode, and parse_expression", "why_tests_cant": "It describes every tree the parser can give, for sources of any length and nesting.", "anchors": ["src/parser.rs", "src/ast.rs"]}
{"id": "C75", "title": "Sources can be formatted", "statement": "The text of the syntax tree of an accepted source, with bodies indented by two spaces a level, is accepted as the same program up to positions, and run gives the same for it, resolved program or errors; formatting it again changes nothing; and two sources have the same text exactly if they are the same program up to positions. No statement may begin with a map and no more than 32767 blocks may be nested.", "quantifier": "all accepted sources, all ways to write numbers, script and REPL mode", "why_tests_cant": "It is about every program and the text of every program, through the scanner and the parser twice.", "anchors": ["src/scanner.rs", "src/parser.rs", "src/ast.rs"]}
{"id": "C76", "title": "A function with an indented body can be the value of a statement", "statement": "A function expression with an indented body can be the whole value of var n =, print or return, and the next line is the next statement. Expected from the language, where a function expression with a body in braces can; false of the code: a statement needs a newline at its end and the scanner puts none after an outdent. Proved: wherever such a function expression follows var n =, print or return in a source, the source is rejected unless the next token goes on with the expression (or is the semicolon of a for loop), in which case the next line becomes an argument. In scripts the same is proved of a function expression with an indented body wherever it is, so also at the end of an assignment or of a call without parentheses: the next token goes on with an expression or ends one that is in brackets, in a list, in the head of a for loop or in an indented block; the only exception is the end of a var value that begins with a brace or is indented, which needs no newline.", "quantifier": "all sources and all positions in them, script and REPL mode", "why_tests_cant": "It rules out every program with such a statement, whatever is before it, in it and after it.", "anchors": ["src/scanner.rs", "src/parser.rs"]}
{"id": "C77", "title": "Programs one after the other, and sessions as files", "statement": "If a source consists of complete lines and is an accepted program, and an accepted program that begins at the left margin and not like the entry of a map comes after it, then both together are accepted, and are the program with the statements of both (positions aside); running it is running the first and then the second, with the results or the errors of both. The first program must end with a newline token or its last statement not be a variable. So a file of whole lines gives all that a session of the REPL with these lines gives.", "quantifier": "all pairs of accepted sources, all lists of lines, all resolver states, script and REPL mode, every Unicode environment", "why_tests_cant": "It is about every pair of programs, with blocks open at the end of the first one, and sessions of every length; tests join a few programs.", "anchors": ["src/scanner.rs", "src/parser.rs", "src/resolver.rs", "src/main.rs"]}
{"id": "C78", "title": "Of the indentation only the order matters", "statement": "If the number of spaces at the beginning of every line that does not begin inside a string is changed so that deeper lines stay deeper, equally deep ones stay equally deep and lines at the left margin stay there, then the scanner gives the same tokens up to positions, or the same errors, or also does not stop, and run gives the same program or errors. In particular every indentation can be multiplied, or every line moved to the left as far as possible. No line may begin with a tab, a carriage return or a backslash, or be indented by more than 65535.", "quantifier": "all sources, accepted or not, and all order-preserving changes of the indentations that occur, script and REPL mode, every Unicode environment", "why_tests_cant": "It compares every source with infinitely many others; a test compares a few pairs.", "anchors": ["src/scanner.rs", "src/parser.rs"]}
{"id": "C79", "title": "Tokens and trees are no larger than the source allows", "statement": "A source of n characters has at most 2n + 1 tokens, counting the Indents and Outdents, which have no text of their own; a program parsed or resolved from it has at most 4n nodes, and its scopes are nested at most n deep. So the tokens of every text a Rust String can hold can be counted with usize (the condition Fits of the other properties), and with a source of less than 65535 characters a run never panics, and ends unless the scanner hangs.", "quantifier": "all sources, script and REPL mode, all sessions, every Unicode environment", "why_tests_cant": "A test finds a size for one source; that no source of any length gives more is a statement about all of them.", "anchors": ["src/scanner.rs", "src/parser.rs", "src/resolver.rs: begin_scope"]}
{"id": "C80", "title": "Parentheses say what belongs together, and nothing else", "statement": "Two accepted sources whose syntax trees differ in parentheses only (and in positions) are the same to the resolver: the resolved programs differ in parentheses only, or the errors are the same, and the resolver is left in the same state. Every accepted program can be written with parentheses around every expression; the text is accepted as that program and a run of it gives the same. (FALSE: in an initializer `return nil` is allowed and `return (nil)` is an error. PARTIAL: true when both or neither have parentheses around the nil of a return statement.)", "quantifier": "all pairs of accepted sources, all accepted sources, all resolver states, script and REPL mode, every Unicode environment", "why_tests_cant": "It compares every program with every way to add parentheses to it.", "anchors": ["src/parser.rs: primary", "src/resolver.rs: resolve_expression, resolve_statement"]}
{"id": "C81", "title": "Indentation is never needed", "statement": "The program of every accepted source can be written with braces around every block and no line indented: the text has no Indent and no Outdent token, is accepted as the same program (positions aside), and a run of it gives the same. A statement that begins with a map needs parentheses for this; with parentheses around every expression it holds without exception and the run gives the same but for the parentheses. How deeply blocks are nested does not matter.", "quantifier": "all accepted sources, all resolver states, script and REPL mode, every Unicode environment", "why_tests_cant": "It is about every program, of any nesting; tests convert a few.", "anchors": ["src/scanner.rs: indent", "src/parser.rs: block, class_declaration, function"]}
{"id": "C82", "title": "The REPL forgives a missing newline at the end, and nothing else", "statement": "If a newline at the end of a source gives it one more token, a Terminator, the REPL accepts the source as a program exactly if a file with that source is accepted as the program, or a file with that source and the newline is and the program ends with an expression. So an accepted line gives in the REPL what it gives in a file, with or without a newline. A newline gives that token whenever the last line is a statement and no block is open.", "quantifier": "all token sequences, all sources, all resolver states, every Unicode environment", "why_tests_cant": "That nothing else is accepted is a statement about all sources; tests try a few lines that are accepted.", "anchors": ["src/parser.rs: expression_statement, parse_repl_line", "src/scanner.rs: scan_token"]}
{"id": "C83", "title": "Earlier lines matter to later ones only through the open blocks", "statement": "After a text that is accepted exactly one list of indentation levels is open. If two texts end with a statement and leave the same levels open, one can take the place of the other: what follows scans to the same tokens, the same errors, or hangs as before, as many lines further down as there are lines more. If the number of lines is the same, the rest is scanned exactly the same, with all positions.", "quantifier": "all texts, all continuations, every Unicode environment", "why_tests_cant": "The scanner carries flags, a stack and counters from line to line; that nothing else in a previous line can influence a later one is a statement about all pairs of texts.", "anchors": ["src/scanner.rs: scan_tokens, scan_token"]}
{"id": "C84", "title": "Unused declarations are harmless", "statement": "Variables that are declared, with a literal as their value, and not mentioned otherwise can be left out of a program, wherever they are declared: the resolver reports the same errors, or accepts both programs, and finds every other variable at the same distance; only slot numbers change. The only exceptions are programs in which such a declaration is itself an error (a second declaration in a local scope, or more than 65535 names in a scope). The same holds for all programs of a session. An unused global can be added at any place at the top level.", "quantifier": "all syntax trees, all sets of names, all states of a session", "why_tests_cant": "It relates the resolutions of two different programs in all scopes at once; that a new name in a scope never captures, shadows or shifts anything else is a statement about all programs.", "anchors": ["src/resolver.rs: declare, define, resolve_local_variable, forward_reserve_global_var"]}
{"id": "C85", "title": "Statements can be checked separately", "statement": "What the resolver says of a statement at the top level does not depend on the programs that were resolved before, if no declaration failed in them (in particular, if all of them were accepted): on its own and in the session the statement is accepted and every variable is found at the same distance, or it has the same error. The only exceptions are that there are more than 65535 names in a scope, and that a variable read in its own initializer is accepted if it is declared before. Hence statements that are accepted on their own make an accepted program, in every order; a program that is accepted on its own is accepted in such a session; and a statement of an accepted program is accepted on its own, with the same exceptions.", "quantifier": "all syntax trees, all sources, all sessions", "why_tests_cant": "It compares a statement on its own with the same statement after an arbitrary history of programs; the resolver's state could leak from one statement to another in ways that only show for particular histories.", "anchors": ["src/resolver.rs: resolve, resolve_local_variable, forward_reserve_global_var, declare, define", "src/lib.rs: run"]}
{"id": "C86", "title": "Blocks around single statements change nothing", "statement": "Put a block around every statement after `if`, `else` and `while` that declares nothing and is not a block already. The program is accepted if and only if it was accepted before; every variable is found in the same slot as before, at a distance larger by exactly the number of new blocks between the use and the declaration; later programs of the session cannot tell the difference. If the program is rejected, the first error is the same. (In a session in which no declaration failed; a program that is accepted is still accepted with the blocks if the nesting stays below 65535 scopes.)", "quantifier": "all syntax trees, all sessions without a failed declaration", "why_tests_cant": "The blocks may stand anywhere, at any depth and inside functions, classes and loops, and a distance that is wrong by one shows only for variables of particular scopes.", "anchors": ["src/resolver.rs: resolve_statement, begin_scope, end_scope, resolve_local_variable, forward_reserve_global_var"]}
{"id": "C87", "title": "The names of parameters do not matter", "statement": "Rename the parameters of the functions in a program, each function by an injective renaming of its own that keeps every other name that the function mentions. The program is accepted if and only if it was accepted before, and then every variable has the same slot and every use the same location; if it is rejected, it has the same errors at the same places, up to the name that is quoted; and the session goes on in exactly the same state, also after errors. In particular a parameter can be renamed to any name that its function does not mention.", "quantifier": "all syntax trees, all sessions, all choices of renamings", "why_tests_cant": "Functions may be nested, and names may be shadowed and captured in any way; a capture that is wrong shows only for particular combinations of names.", "anchors": ["src/resolver.rs: resolve_function, define, resolve_local_variable, forward_reserve_global_var"]}
{"id": "C88", "title": "The order of methods, arguments, elements, entries and operands does not matter to the resolver", "statement": "Put the methods of the classes in a program, the arguments of its calls, the elements of its arrays, the entries of its maps and the operands of its operators into any other order, anywhere in the program at once. The program is accepted if and only if it was accepted before, and then every use of a variable is found at the same distance, unless there are too many names in a scope. This holds on its own and in the middle of a session, also when the programs before were reordered. Nor do the positions in the source matter.", "quantifier": "all syntax trees, all reorderings, all sessions", "why_tests_cant": "Resolving one method reserves globals that the next one uses; that nothing else leaks from one to the next must hold for all bodies and orders, and the slots do change.", "anchors": ["src/resolver.rs: resolve_class, resolve_expression, resolve_function, resolve_local_variable, forward_reserve_global_var"]}
{"id": "C89", "title": "The alphabet", "statement": "Outside of strings and comments a source that scans contains only spaces, carriage returns, newlines, backslashes, the signs ( ) { } [ ] : , . - + ; / * ! = > <, and clusters whose first character is a letter, an underscore or alphanumeric. Each of these does occur in a source without strings and comments that scans. So for instance a byte order mark, a dollar sign or a no-break space makes a source fail.", "quantifier": "all sources; all grapheme clusters; all Unicode tables that agree with ASCII", "why_tests_cant": "There are infinitely many grapheme clusters; tests try a few.", "anchors": ["src/scanner.rs: scan_token, is_digit, is_alphabetic, is_alphanumeric"]}
{"id": "C90", "title": "Errors of the scanner point at what they are about", "statement": "The line and column of an error of the scanner are those of the cluster that it is about: the tab, the unexpected cluster, the backslash, the beginning of the line that does not fit, the quote that is not closed. (FALSE of the code: the errors use the column after the cluster, so they point one column to the right, except for the backslash; a string without an end is reported at the end of the source. Proved exactly, for every error.)", "quantifier": "all sources, all errors of the scanner", "why_tests_cant": "The repository has no test of the column of a scanner error; columns saturate and depend on all text before.", "anchors": ["src/scanner.rs: scan_token, bol_indentation_tokens, scan_string, advance, error"]}
{"id": "C91", "title": "The demo page shows what was parsed", "statement": "When the demo page shows the same text for two sources, then parseString gave the same error message, or the same value, for both. (FALSE of the code: booleans are shown like an object without keys, so `print true` and `print false` look alike. Proved: two values have the same text exactly if they are the same up to this, up to an object and a map with the same entries, and up to numbers that are written alike; an error is never shown like a value; and two sources look alike exactly if they have the same errors, or programs that differ only in which of true and false is written.)", "quantifier": "all JavaScript values, all sources; all ways to write numbers that begin with something else than a quote, a newline or a u, and have no comma, and, for programs, that write different natural numbers and different values of number literals differently", "why_tests_cant": "The repository has no test of the page; injectivity speaks about all pairs of nested values, with all strings and keys that need escaping.", "anchors": ["index.html: escapeString, escapeMapKey, pretty, onChange", "src/wasm.rs: wasm_parse_string"]}
