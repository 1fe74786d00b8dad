# Formal model of jtran/whitespace

The repository is a front end for a small language: a scanner with significant indentation, a
recursive-descent parser, a resolver that computes variable slots, a CLI/REPL and a wasm entry point.
Nothing is executed here; the model was read off `/repo/src` by hand.

## Layout

| Directory | Content |
|---|---|
| `lean/Verif/Model` | the model, one file per source file, every definition citing file and lines |
| `lean/Verif/Spec` | the small specifications the properties are stated with, independent of the model's helpers |
| `lean/Verif/Proofs` | helper lemmas |
| `lean/Verif/Properties` | the property theorems, each followed by a case that meets its hypotheses |
| `lean/Verif/Tests` | the repository's own unit tests and the program of its demo page, evaluated on the model by the kernel (tests, not proofs) |

## Trusted base

* Lean's kernel, and at most the axioms `propext`, `Classical.choice`, `Quot.sound`. No axioms are
  added; there is no `sorry`, `native_decide` or `bv_decide`.
* My reading of the Rust source. The tie between model and code is the citation at every definition,
  plus the repository's 39 scanner and parser unit tests, which the model passes, and the program of the demo page,
  which it accepts.
* What `Env` abstracts (`Model/Base.lean`): grapheme segmentation (`unicode-segmentation`),
  `char::is_alphabetic`/`is_alphanumeric`, `str::parse::<f64>`, overflow checks on or off, and
  `usize::MAX`. Theorems hold for every `Env`, or state the law they need as a hypothesis:
  - a segmentation is a list of non-empty clusters whose concatenation is the source;
  - `parse::<f64>` accepts `digits` and `digits.digits`;
  - CR LF is one cluster (UAX #29 rule GB3), for C16 only.
  - for the parser, the number of tokens fits `usize` (`Fits`); it does for every text of at most
    `isize::MAX` characters (C79, `string_fits`);
  - a cluster contains no two newlines in a row (UAX #29 rule GB4), for C59 only.
  - a character that is alphabetic is alphanumeric, for C72 only;
  - a part of a text, cut where clusters end, has the same clusters, for C75 only.

  `Model/Ascii.lean` is a concrete environment that satisfies all of them.

* For C59, what `serde`'s derived implementations, `serde_wasm_bindgen::to_value`, `JsError::from` and
  `Debug` of `str` do, taken from their documentation (stated at the head of `Model/Js.lean`). Which
  characters `Debug` escapes as `\u{..}` is a parameter; C59 holds for every choice.
* For C63 and C64, what `derive(Debug)` and the builders behind `{:#?}` do, taken from the source of the
  standard library (stated at the head of `Model/Print.lean`). `{:?}` of an `f64` is a parameter with two
  laws (`Spec/Style.lean`): the values of numbers in programs are written as digits with a point or an
  exponent, or `inf`, and different values differently. C64 also assumes that a cluster with a newline is LF
  or CR LF (UAX #29 rules GB3 to GB5).
* For C91, what `JSON.stringify`, `Array.prototype.join`, `typeof` and `Object.keys` do, as ECMAScript describes
  them. `Number.prototype.toString` is a parameter with laws (`Spec/Page.lean`, `Spec/Face.lean`): how its texts
  begin, that they have no comma, and that it writes different numbers of programs differently.

### Modelled

`scanner.rs`, `parser.rs`, `resolver.rs` completely, function by function; the data types of
`token.rs`, `ast.rs`, `environment.rs`, `error.rs`, `source_loc.rs`; `main.rs` (`run`, `run_file`,
`run_repl`, error reporting, the text printed, `Model/Print.lean`) and `wasm.rs` with the conversion to a
JavaScript value (`Model/Js.lean`), and `pretty` and `onChange` of `index.html` (`Model/Page.lean`).

* `&mut self` functions become state transformers; `Result` is data; a panic is the explicit value
  `panic`, running forever is the explicit value `diverge`.
* Saturating `u16`/`u32` arithmetic, truncating `as u8`/`as u16` casts, and `usize` subtraction that
  may underflow are modelled.
* Strings are lists of characters; slices `&source[a..b]` are byte offsets with the boundary checks
  that can panic.
* Loops in the parser take fuel and recursion takes a depth; exhausting either is `diverge`, and it is
  proved that this never happens (C19). The scanner's outdent loop is `diverge` exactly where the Rust
  loop body changes nothing; this is proved against a step-by-step semantics of the loop.

### Not modelled

Memory and stack exhaustion (deeply nested input overflows the native stack long before 65535
scopes), the argument parser, the loading and the events of `index.html` (what the page shows for a source
is modelled, in `Model/Page.lean`), and the capacity/performance of collections.

## Disagreements between the code and what a user would expect

Each is proved as a negation with a witness; the property keeps its full statement in
`properties.jsonl`.

1. (C02) A line whose indentation lies strictly between two open levels hangs the scanner.
2. (C13) A space or comment after a trailing operator cancels the line continuation.
3. (C15) A comment-only line at another indentation emits Indent/Outdent; one after a continued line
   ends the continuation.
4. (C16) CRLF line endings are rejected outside comments and strings. They do not end a comment
   either: `advance_to_eol` stops only at a lone LF, so the following lines are silently ignored. The
   program of the demo page, with CRLF, is accepted as the empty program (`Tests/Demo.lean`).
5. (C18) `parse_expression("")` underflows `current - 1`.
6. (C25) `break` inside a function inside a loop is accepted.
7. (C31) A braced block followed by a newline is rejected.
8. (C32) `else` followed by a newline is rejected.
9. (C33) `for (expr; ...)` is rejected.
10. (C36) Slots are truncated to 8 bits but the limit is 65535: two variables share a slot.
11. (C45, C50) After a global initializer fails in the REPL, reads of that name fail until it is
    redeclared.
12. (C11) A lone carriage return at a line start, or a backslash on a line without tokens, makes a
    statement start in another column than its block.
13. (C49) The REPL does not end at end of input.
14. (C64) The key in "Duplicate key in literal map." is printed as it is: a key with an apostrophe and a
    newline in it makes one error look like several, at places of the author's choice.
15. (C65) When the body of a loop is not indented, `loop_body_statement` returns before it decrements
    `in_loops`: in the rest of the program no `break` or `continue` outside of a loop is reported.
16. (C76) A function expression with an indented body cannot end a statement: there is no newline token
    after an outdent. The program is rejected, or the next line becomes an argument of a call.
17. (C80) In an initializer `return nil` is allowed, and `return (nil)` is an error.
18. (C90) The scanner reports unexpected clusters, tabs and wrong indentation one column too far to the
    right: it uses `column` after `advance`, where the backslash error uses `start_column`.
19. (C91) The demo page shows `true` and `false` alike, as an object without keys: `pretty` in
    `index.html` has no case for booleans.

Not a disagreement but dead code (C60): the messages "Expect outdent after block.", "Expect outdent after
class method body.", "Expect '{' or indent before loop body.", "Expect '{' or indent before if body.",
"Expect ':' after map key", "Expected end of file" are never reported for a program.

## Plan per property

"Clusters" below: theorems about the scanner quantify over every list of clusters, which covers every
segmentation of every source.

| Id | Modelled by | How it is proved |
|---|---|---|
| C01 | `scanClusters`, `sliceBytes` | invariant: the clusters left are a suffix of the input with the right byte offsets, and `start` is a boundary before them |
| C02 | `outdentLoop`, `scanClusters` | negation with a witness, a family of diverging sources, adequacy of `diverge` for the loop's step semantics, termination when no such line occurs; the hanging sources are exactly those of `scan_hangs_iff` (C56) |
| C03 | `scanClusters` | no token added in the loop is Eof |
| C04 | `bolIndentationTokens`, `closeAllBlocks` | invariant: Indents minus Outdents so far = length of the indentation stack |
| C05 | whole scanner | master theorem: an Ok scan is a derivation in an inductive lexical specification `Reads`, over which the source is the concatenation of lexemes and trivia |
| C06 | whole scanner | `Reads` carries the position computed from the consumed prefix by an independent function |
| C07 | `scanIdentifier`, `eqPunct`, `punct` | from `Reads` |
| C08 | `scanString` | from `Reads`, and a theorem about unterminated quotes |
| C09 | `scanNumber` | from `Reads` |
| C10 | whole scanner | from `Reads`: no trivia or token class other than string/comment contains a tab |
| C11 | `bolIndentationTokens` | invariant relating the stack to the columns of open Indents |
| C12 | `scanNewline` | invariant on the last token |
| C13 | `scanNewline`, flags | direct computation from the state after the operator, for every state; witnesses for the false part |
| C14 | whole scanner | simulation: the states with and without the blank line agree except for line numbers |
| C15 | `scanSlash` | simulation, witnesses for the false part; a comment line takes over the first part of the layout of the line it precedes, or adds layout of its own |
| C16 | whole scanner | a CRLF cluster reaching `scanCluster` records an error, and errors never disappear; the comment loop of the view scanner passes over it |
| C17 | `scanClusters` | invariant on the recorded errors |
| C18 | whole parser | weakest-precondition style lemmas for each function over an arbitrary `Rec`, induction on the depth |
| C19 | whole parser | measure: tokens left and rank of the function |
| C20 | whole parser | master theorem: an inductive grammar over token lists; every successful call consumes a derivation |
| C21 | expression levels | induction on derivations |
| C22 | whole parser | a writer from syntax trees to tokens (`Spec/Write.lean`); what it writes is derived by the unambiguous grammar of C53 |
| C23 | `argumentList`, `parameterList` | from the grammar; boundary cases as general theorems, from C55 |
| C24 | `literalMap` | from the grammar; rejection from C55 |
| C25 | `loopBodyStatement` | grammar indexed by whether a loop is open; witness for the stronger claim |
| C26 | `mkAssignment` | from the grammar; rejection from C55 |
| C27 | `classMethods` | from the grammar |
| C28 | `expressionStatement` | simulation of the two modes |
| C29 | errors | location lemmas for every throwing function; order from progress |
| C30 | AST leaves | from the grammar |
| C31 | `finishBlock`, `declaration` | in every derivation, each statement that begins with `if`, `while`, `for`, `fun` or `class` is followed by no newline (`Proofs/Parse/Newline.lean`), and each group in braces is a map, the body of a function expression, or followed by no newline (`Proofs/Parse/BraceEnd.lean`) |
| C32 | `finishIfStatement` | general rejection theorem and witness |
| C33 | `finishForStatement` | general rejection theorem and witness |
| C34 | `finishForStatement` | from the grammar |
| C35 | `findVar`, `resolveExpr` | refinement to a declarative scope semantics: the events (enter, leave, declare, use) of the resolved program, in order, and the names they leave in each scope (`Spec/Scoping.lean`) |
| C36 | `declare`, `define` | scope invariant: slots are positions; aliasing witness for 257 names; names share a slot iff a multiple of 256 places apart |
| C37 | whole resolver | invariant by mutual induction on the AST |
| C38, C39, C44, C46 | whole resolver | a successful run is a derivation of an inductive relation `Resolved`; induction on derivations |
| C40 | `beginScope` | mutual induction on the AST with a nesting-depth measure |
| C41, C42 | whole resolver | mutual induction against an erasure function |
| C43 | scopes | monotonicity of the global scope |
| C45 | `resolveVariable` | induction; witness history; which globals cannot be read, from the acts of C57 (`Spec/Rejected.lean`) |
| C47 | whole resolver | simulation under an injective renaming |
| C51 | `isAbutting` | from `Reads` |
| C52 | whole parser | from the grammar |
| C53 | whole parser | an unambiguous grammar with follow restrictions (`Spec/Plain.lean`); induction on derivations: every function called at the start of a derived phrase returns its tree and stops at its end |
| C54 | whole parser | the converse of C53: a postcondition for every function of the parser, that what it consumed is derived by the unambiguous grammar and what follows cannot continue it (`Proofs/Parse/Exact*.lean`); with C53 an equivalence |
| C55 | whole parser | the grammar of C53 without its five contextual restrictions, listing their violations instead (`Spec/Loose.lean`); the induction of C53 is done for this grammar: every function called at the start of a derived phrase either returns its tree or throws its first fault |
| C56 | whole scanner | declarative readings (`Spec/Scan.lean`); the state of the scanner after a reading of a prefix is determined by the reading (`Here`), each scanner step is the unique next step of the specification, and it diverges exactly between two levels |
| C57 | whole resolver | acts and bindings (`Spec/Acts.lean`); every function of the resolver performs the acts of what it is given, with the bindings as the abstraction of its scopes (`Performs`); locations are unique because names are distinct in a scope (`resolved_same`, by induction on the relation `Resolved`) |
| C58 | the whole run | the specifications of C54, C56 and C57 composed (`Spec/Whole.lean`), the equivalences composed in the same way; the errors for underived tokens are those of the parser, C55 says which comes first |
| C59 | `parseString` (`Model/Js.lean`) | the conversion of trees is injective (mutual induction) where integers fit in 32 bits and map keys are distinct, which holds of resolved trees; errors are cut from the message at blank lines, which no message of C60 contains, and the quoted token at its closing quote |
| C60 | whole program | scanner: from the specification of C56; resolver: from that of C57; parser: triples for every function that also track the depth of Indents, so that the end of an indented block is there when it is looked for (`Proofs/Parse/Throws.lean`); occurrences by computation |
| C61 | `parse_tokens` | two runs on token lists that agree on the first N tokens stay in step until a position needs a token beyond them: a relation between the two runs (`Near`, `Proofs/Parse/Local.lean`) for every function, then for the recovery loop (`Proofs/Parse/Prefix.lean`) |
| C62 | `parse_tokens` | every parser function keeps a continuation of what it has consumed: `Live` (`Proofs/Parse/Marks.lean`), with completions of unfinished phrases (`Proofs/Parse/Continue.lean`), function by function (`Proofs/Parse/Viable.lean`, `ViableStmt.lean`); the second half from C61's lookahead bound and the completeness of the grammar with faults (`Proofs/Parse/ViableTop.lean`). The added tokens are never numbers, strings or `=`, whose literals and lexemes the scanner guarantees |
| C63 | `Dbg.text`, `Printed.out` (`Model/Print.lean`) | texts are cut from the left: indentation is undone where whole lines end, then a value is known by the word it begins with and the character after it (`Proofs/Print/Text.lean`); trees are shown injectively (`Tree.lean`); the numbers of a resolved program are those of its text (`Numbers.lean`); transcripts of the REPL by induction |
| C64 | `reportError`, `Printed.err` | witness; lines are cut from the left at the apostrophe after the token and at the end of the message, which by C60 has no newline but possibly at its end |
| C65 | `synchronize`, `parseStep`, `loopBodyStatement` | witness; a run in the middle of a list of tokens is simulated by a run at the beginning of the rest, the depth of loops differing by a constant (`Proofs/Parse/Shift.lean`), or being at least one in both runs; so after that error the parser does what it does when started in a loop (`recovery_exact`) |
| C66 | `synchronize`, `parseStep` | every error but the last passes one of the words (`Proofs/Parse/Recover.lean`) |
| C67 | `parseTokens`, `parseExpressionTokens`, `resolve`, `run` | every function of the parser and the resolver commutes with a map on positions (`Proofs/Parse/Positions.lean`, `Proofs/Resolve/Positions.lean`) |
| C68 | `scanTokens`, `run` | C14 and C15 with C67 |
| C69 | `scanTokens`, `run` | the state after a reading is determined by it up to positions (C56); two scans whose states agree up to positions stay so (`Proofs/Scan/Blind.lean`, `Proofs/Scan/Space.lean`) |
| C70 | `scanTokens`, `run` | what is read before a comment depends on the next two clusters only; after it, the two scans agree up to positions (`Proofs/Scan/Comment.lean`) |
| C71 | `parseTokens`, `parseExpressionTokens`, `Resolver.resolve` | two runs side by side: tokens related one by one give related syntax trees and related resolver states (`Proofs/Parse/Relabel.lean`, `Proofs/Resolve/Relabel.lean`) |
| C72 | `scanTokens`, `run` | the pieces of the reading are replaced one by one; the next cluster stays of the same sort, so that every piece still ends where it ended (`Proofs/Scan/Respell.lean`); then C71 and C67 |
| C73 | `scanTokens`, `parseTokens` | the tokens of the text are derived by the grammar (`Proofs/Parse/TextTree.lean`), follow an automaton that says what may come after a line end (`Proofs/Parse/TextTokens.lean`), and so the text has a reading with these tokens (`Proofs/Scan/TextReading.lean`); then C53, C67 and C71 with the identity |
| C74 | `parseTokens`, `parseExpressionTokens` | induction over the derivation in the unambiguous grammar (`Proofs/Parse/Image.lean`), C54 |
| C75 | `scanTokens`, `parseTokens` | names, strings and numbers of the tree come from tokens (`plain_leaf`), the text does not depend on positions (`Proofs/Parse/Reformat.lean`); then C73 and C74 |
| C76 | `scanTokens`, `parseTokens` | witness; `var`, `print` and `return` only begin statements, and an expression that begins with `fun` goes on after its body or ends there (`Proofs/Parse/FunEnd.lean`); for all places induction on derivations, with what can follow a function expression (`Proofs/Parse/FunAfter.lean`); with C12 |
| C77 | `scanTokens`, `parseTokens`, `Resolver.resolve`, `run`, `runFile`, `Repl.step` | at the left margin the scanner closes all blocks, as at the end (`Proofs/Scan/Join.lean`); declarations after declarations in the unambiguous grammar (`Proofs/Parse/Join.lean`) |
| C78 | `scanTokens`, `run` | simulation of both scans, a lexeme at a time, and a margin at a time at the beginning of a line; the stack of levels is the image of the other one (`Proofs/Scan/Reindent.lean`) |
| C79 | `scanTokens`, `parseTokens`, `run` | along a reading (C56), where the spaces before the first token of a line pay for its Indent and Outdent (`Proofs/Scan/Count.lean`); induction on derivations for nodes and depth (`Proofs/Parse/Size.lean`) |
| C80 | `resolve`, `run` | the resolver commutes with removing parentheses (`Proofs/Resolve/Paren.lean`); the tree with all parentheses is writable and has no other tokens (`Proofs/Parse/Paren.lean`), then C22 and C73 |
| C81 | `run` | C22, and the text of the tokens without indents is scanned to them (`laid_scan`, as for C73) |
| C82 | `parseTokens`, `scanTokens`, `run` | in the unambiguous grammar an end without a newline can be given one, and a newline after a final expression can be dropped (`Proofs/Parse/LastNewline.lean`), C54; a reading with one more step (`Proofs/Scan/LastNewline.lean`), C56. It carries C33 and C76 over to the REPL |
| C83 | `scanTokens` | after a statement and its newline the state of the scanner is fresh but for the levels, the line and the tokens (`Proofs/Scan/Later.lean`, from C56, C62); a simulation that changes these three (`Proofs/Scan/Sim.lean`) |
| C84 | `resolve` | a relation between resolver states whose scopes differ in defined names of `F`, by induction over the syntax tree (`Proofs/Resolve/Unused.lean`); `Unused` is stated with the acts of C57 (`Spec/Unused.lean`) |
| C85 | `resolve`, `run` | a relation between the resolver on its own and in a session, whose global scope may know more names, by induction over the syntax tree (`Proofs/Resolve/Separate.lean`); a declaration that has begun is closed by every success |
| C86 | `resolve` | a relation between the scopes of the resolver with and without the blocks: the same scopes, with empty ones between, which stay empty because a statement that declares nothing leaves its scope as it is; by induction over the syntax tree (`Proofs/Resolve/Boxed.lean`) |
| C87 | `resolve` | inside a function a relation between its scopes and the renamed ones, above the same outer scopes (`Proofs/Resolve/Params.lean`); outside it the states are equal, by induction over the syntax tree (`Proofs/Resolve/Params2.lean`) |
| C88 | `resolve` | a relation between states that differ in the globals that were only used; expressions and functions stay within it, so lists of them can run in any order (`Proofs/Resolve/Reordered.lean`) |
| C89 | whole scanner | the pieces of C05 are made of the alphabet; the converse by a source for each cluster |
| C90 | whole scanner | read off the specification of C56 |
| C91 | `pretty`, `page` | the text of a value, followed by a comma or nothing, can be cut off the front of a text in one way only; by induction over the value (`Proofs/Page.lean`); for programs by induction over two syntax trees, as for C59 (`Proofs/PageFace.lean`); the locations of variables follow, since the resolver treats a program with other truth values alike (`Proofs/Resolve/Truth.lean`); conversely, the text of a value is that of the value with `true` for every truth value (`Proofs/PageTruth.lean`) |
| C48 | `run`, `wasmParseString`, `runFile` | case analysis against an independent specification |
| C49 | `Repl.step` | induction on the number of iterations |
| C50 | `Repl.step` | case analysis; witness history; bindings that agree except for the names of the rejected line have the same faults (`Proofs/Resolve/Similar.lean`) |

The status of every property, with the names of the theorems, is in `MANIFEST.json`.
