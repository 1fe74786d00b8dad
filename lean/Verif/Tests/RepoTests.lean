import Verif.Model.Ascii
import Lean.Elab.Tactic
/-! The unit tests of `src/scanner.rs` and `src/parser.rs`, evaluated on the model by the kernel.
They are checks that the model reads the code correctly, not proofs of any property. -/
namespace Ws.Tests
open Ws

/-- The ASCII environment, extended by the two non-ASCII clusters that the tests use. -/
def tEnv : Env := { asciiEnv with
  segment := fun s => if s = ['y', '\u0306'] then [s] else asciiSegment s
  isAlphabetic := fun c => c.isAlpha || c == 'π'
  isAlphanumeric := fun c => c.isAlphanum || c == 'π' }

/-- Is the outcome a success? -/
def _root_.Ws.Outcome.isOk {α ε : Type} : Outcome (Except ε α) → Bool
  | .done (.ok _) => true
  | _ => false

/-- Is the outcome an error? -/
def _root_.Ws.Outcome.isErr {α ε : Type} : Outcome (Except ε α) → Bool
  | .done (.error _) => true
  | _ => false

open Lean Meta Elab Tactic in
/-- Close a goal `a = b` by reflexivity, checked by the kernel alone. -/
elab "by_kernel" : tactic => do
  let g ← getMainGoal
  let t ← instantiateMVars (← g.getType)
  match t.eq? with
  | some (_, a, _) => g.assign (← mkEqRefl a)
  | none => throwError "not an equation"

/-! `scanner.rs` `test_scan_single_tokens` -/
example : scanTokens tEnv c!"!" =
    .done (.ok [⟨.bang, c!"!", none, none, 1, 1⟩, ⟨.eof, c!"", none, none, 1, 2⟩]) := by by_kernel
example : scanTokens tEnv c!"." =
    .done (.ok [⟨.dot, c!".", none, none, 1, 1⟩, ⟨.eof, c!"", none, none, 1, 2⟩]) := by by_kernel
example : scanTokens tEnv c!"=" =
    .done (.ok [⟨.equal, c!"=", none, none, 1, 1⟩, ⟨.eof, c!"", none, none, 1, 2⟩]) := by by_kernel
example : scanTokens tEnv c!"<" =
    .done (.ok [⟨.less, c!"<", none, none, 1, 1⟩, ⟨.eof, c!"", none, none, 1, 2⟩]) := by by_kernel
example : scanTokens tEnv c!"()" =
    .done (.ok [⟨.leftParen, c!"(", none, none, 1, 1⟩, ⟨.rightParen, c!")", none, none, 1, 2⟩, ⟨.eof, c!"", none, none, 1, 3⟩]) := by by_kernel
example : scanTokens tEnv c!"{}" =
    .done (.ok [⟨.leftBrace, c!"{", none, none, 1, 1⟩, ⟨.rightBrace, c!"}", none, none, 1, 2⟩, ⟨.eof, c!"", none, none, 1, 3⟩]) := by by_kernel
example : scanTokens tEnv c!"[]" =
    .done (.ok [⟨.leftBracket, c!"[", none, none, 1, 1⟩, ⟨.rightBracket, c!"]", none, none, 1, 2⟩, ⟨.eof, c!"", none, none, 1, 3⟩]) := by by_kernel
example : scanTokens tEnv c!"\n-" =
    .done (.ok [⟨.minus, c!"-", none, none, 2, 1⟩, ⟨.eof, c!"", none, none, 2, 2⟩]) := by by_kernel

/-! `scanner.rs` `test_scan_double_tokens` -/
example : scanTokens tEnv c!"==" =
    .done (.ok [⟨.equalEqual, c!"==", none, none, 1, 1⟩, ⟨.eof, c!"", none, none, 1, 3⟩]) := by by_kernel
example : scanTokens tEnv c!"!=" =
    .done (.ok [⟨.bangEqual, c!"!=", none, none, 1, 1⟩, ⟨.eof, c!"", none, none, 1, 3⟩]) := by by_kernel
example : scanTokens tEnv c!"<=" =
    .done (.ok [⟨.lessEqual, c!"<=", none, none, 1, 1⟩, ⟨.eof, c!"", none, none, 1, 3⟩]) := by by_kernel

/-! `scanner.rs` `test_scan_comments` -/
example : scanTokens tEnv c!"// line comment" =
    .done (.ok [⟨.eof, c!"", none, none, 1, 16⟩]) := by by_kernel
example : scanTokens tEnv c!"// line comment\n1" =
    .done (.ok [⟨.number, c!"1", none, (some 4607182418800017408), 2, 1⟩, ⟨.eof, c!"", none, none, 2, 2⟩]) := by by_kernel
example : scanTokens tEnv c!"1 // line comment\n" =
    .done (.ok [⟨.number, c!"1", none, (some 4607182418800017408), 1, 1⟩, ⟨.terminator, c!"\n", none, none, 1, 18⟩, ⟨.eof, c!"", none, none, 2, 1⟩]) := by by_kernel

/-! `scanner.rs` `test_scan_string` -/
example : scanTokens tEnv c!"\"hello\"" =
    .done (.ok [⟨.string, c!"\"hello\"", (some c!"hello"), none, 1, 1⟩, ⟨.eof, c!"", none, none, 1, 8⟩]) := by by_kernel

/-! `scanner.rs` `test_scan_multiline_string` -/
example : scanTokens tEnv c!"\"hello\nthere\"" =
    .done (.ok [⟨.string, c!"\"hello\nthere\"", (some c!"hello\nthere"), none, 1, 1⟩, ⟨.eof, c!"", none, none, 2, 7⟩]) := by by_kernel

/-! `scanner.rs` `test_scan_number` -/
example : scanTokens tEnv c!"9.5" =
    .done (.ok [⟨.number, c!"9.5", none, (some 4621537642612260864), 1, 1⟩, ⟨.eof, c!"", none, none, 1, 4⟩]) := by by_kernel
example : scanTokens tEnv c!"7" =
    .done (.ok [⟨.number, c!"7", none, (some 4619567317775286272), 1, 1⟩, ⟨.eof, c!"", none, none, 1, 2⟩]) := by by_kernel
example : scanTokens tEnv c!"144.25." =
    .done (.ok [⟨.number, c!"144.25", none, (some 4639279362238054400), 1, 1⟩, ⟨.dot, c!".", none, none, 1, 7⟩, ⟨.eof, c!"", none, none, 1, 8⟩]) := by by_kernel

/-! `scanner.rs` `test_scan_identifier` -/
example : scanTokens tEnv c!"foo" =
    .done (.ok [⟨.identifier, c!"foo", none, none, 1, 1⟩, ⟨.eof, c!"", none, none, 1, 4⟩]) := by by_kernel
example : scanTokens tEnv c!"foo_bar2" =
    .done (.ok [⟨.identifier, c!"foo_bar2", none, none, 1, 1⟩, ⟨.eof, c!"", none, none, 1, 9⟩]) := by by_kernel
example : scanTokens tEnv c!"π" =
    .done (.ok [⟨.identifier, c!"π", none, none, 1, 1⟩, ⟨.eof, c!"", none, none, 1, 2⟩]) := by by_kernel
example : scanTokens tEnv c!"y̆" =
    .done (.ok [⟨.identifier, c!"y̆", none, none, 1, 1⟩, ⟨.eof, c!"", none, none, 1, 2⟩]) := by by_kernel

/-! `scanner.rs` `test_scan_keywords` -/
example : scanTokens tEnv c!"and" =
    .done (.ok [⟨.and, c!"and", none, none, 1, 1⟩, ⟨.eof, c!"", none, none, 1, 4⟩]) := by by_kernel
example : scanTokens tEnv c!"break" =
    .done (.ok [⟨.break, c!"break", none, none, 1, 1⟩, ⟨.eof, c!"", none, none, 1, 6⟩]) := by by_kernel
example : scanTokens tEnv c!"class" =
    .done (.ok [⟨.class, c!"class", none, none, 1, 1⟩, ⟨.eof, c!"", none, none, 1, 6⟩]) := by by_kernel
example : scanTokens tEnv c!"continue" =
    .done (.ok [⟨.continue, c!"continue", none, none, 1, 1⟩, ⟨.eof, c!"", none, none, 1, 9⟩]) := by by_kernel
example : scanTokens tEnv c!"else" =
    .done (.ok [⟨.else, c!"else", none, none, 1, 1⟩, ⟨.eof, c!"", none, none, 1, 5⟩]) := by by_kernel
example : scanTokens tEnv c!"false" =
    .done (.ok [⟨.false, c!"false", none, none, 1, 1⟩, ⟨.eof, c!"", none, none, 1, 6⟩]) := by by_kernel
example : scanTokens tEnv c!"for" =
    .done (.ok [⟨.for, c!"for", none, none, 1, 1⟩, ⟨.eof, c!"", none, none, 1, 4⟩]) := by by_kernel
example : scanTokens tEnv c!"fun" =
    .done (.ok [⟨.fun, c!"fun", none, none, 1, 1⟩, ⟨.eof, c!"", none, none, 1, 4⟩]) := by by_kernel
example : scanTokens tEnv c!"if" =
    .done (.ok [⟨.if, c!"if", none, none, 1, 1⟩, ⟨.eof, c!"", none, none, 1, 3⟩]) := by by_kernel
example : scanTokens tEnv c!"nil" =
    .done (.ok [⟨.nil, c!"nil", none, none, 1, 1⟩, ⟨.eof, c!"", none, none, 1, 4⟩]) := by by_kernel
example : scanTokens tEnv c!"or" =
    .done (.ok [⟨.or, c!"or", none, none, 1, 1⟩, ⟨.eof, c!"", none, none, 1, 3⟩]) := by by_kernel
example : scanTokens tEnv c!"print" =
    .done (.ok [⟨.print, c!"print", none, none, 1, 1⟩, ⟨.eof, c!"", none, none, 1, 6⟩]) := by by_kernel
example : scanTokens tEnv c!"return" =
    .done (.ok [⟨.return, c!"return", none, none, 1, 1⟩, ⟨.eof, c!"", none, none, 1, 7⟩]) := by by_kernel
example : scanTokens tEnv c!"this" =
    .done (.ok [⟨.this, c!"this", none, none, 1, 1⟩, ⟨.eof, c!"", none, none, 1, 5⟩]) := by by_kernel
example : scanTokens tEnv c!"true" =
    .done (.ok [⟨.true, c!"true", none, none, 1, 1⟩, ⟨.eof, c!"", none, none, 1, 5⟩]) := by by_kernel
example : scanTokens tEnv c!"var" =
    .done (.ok [⟨.var, c!"var", none, none, 1, 1⟩, ⟨.eof, c!"", none, none, 1, 4⟩]) := by by_kernel
example : scanTokens tEnv c!"while" =
    .done (.ok [⟨.while, c!"while", none, none, 1, 1⟩, ⟨.eof, c!"", none, none, 1, 6⟩]) := by by_kernel

/-! `scanner.rs` `test_scan_whitespace_indentation_as_blocks` -/
example : scanTokens tEnv c!"one\n  two\n  three\nfour\n" =
    .done (.ok [⟨.identifier, c!"one", none, none, 1, 1⟩, ⟨.terminator, c!"\n", none, none, 1, 4⟩, ⟨.indent, c!"t", none, none, 2, 3⟩, ⟨.identifier, c!"two", none, none, 2, 3⟩, ⟨.terminator, c!"\n", none, none, 2, 6⟩, ⟨.identifier, c!"three", none, none, 3, 3⟩, ⟨.terminator, c!"\n", none, none, 3, 8⟩, ⟨.outdent, c!"f", none, none, 4, 1⟩, ⟨.identifier, c!"four", none, none, 4, 1⟩, ⟨.terminator, c!"\n", none, none, 4, 5⟩, ⟨.eof, c!"", none, none, 5, 1⟩]) := by by_kernel

/-! `scanner.rs` `test_scan_var_declaration_without_semicolon` -/
example : scanTokens tEnv c!"var x = 1\n" =
    .done (.ok [⟨.var, c!"var", none, none, 1, 1⟩, ⟨.identifier, c!"x", none, none, 1, 5⟩, ⟨.equal, c!"=", none, none, 1, 7⟩, ⟨.number, c!"1", none, (some 4607182418800017408), 1, 9⟩, ⟨.terminator, c!"\n", none, none, 1, 10⟩, ⟨.eof, c!"", none, none, 2, 1⟩]) := by by_kernel
example : scanTokens tEnv c!"var x = 1 + 2\n" =
    .done (.ok [⟨.var, c!"var", none, none, 1, 1⟩, ⟨.identifier, c!"x", none, none, 1, 5⟩, ⟨.equal, c!"=", none, none, 1, 7⟩, ⟨.number, c!"1", none, (some 4607182418800017408), 1, 9⟩, ⟨.plus, c!"+", none, none, 1, 11⟩, ⟨.number, c!"2", none, (some 4611686018427387904), 1, 13⟩, ⟨.terminator, c!"\n", none, none, 1, 14⟩, ⟨.eof, c!"", none, none, 2, 1⟩]) := by by_kernel

/-! `scanner.rs` `test_scan_backslash_as_line_continuation` -/
example : scanTokens tEnv c!"one \\\n  two\n" =
    .done (.ok [⟨.identifier, c!"one", none, none, 1, 1⟩, ⟨.identifier, c!"two", none, none, 2, 3⟩, ⟨.terminator, c!"\n", none, none, 2, 6⟩, ⟨.eof, c!"", none, none, 3, 1⟩]) := by by_kernel
example : scanTokens tEnv c!"one \\  \n  two\n" =
    .done (.ok [⟨.identifier, c!"one", none, none, 1, 1⟩, ⟨.identifier, c!"two", none, none, 2, 3⟩, ⟨.terminator, c!"\n", none, none, 2, 6⟩, ⟨.eof, c!"", none, none, 3, 1⟩]) := by by_kernel

/-! `scanner.rs` `test_scan_backslash_line_continuation_with_blank_lines` -/
example : scanTokens tEnv c!"one \\\n\n\n  two\n" =
    .done (.ok [⟨.identifier, c!"one", none, none, 1, 1⟩, ⟨.identifier, c!"two", none, none, 4, 3⟩, ⟨.terminator, c!"\n", none, none, 4, 6⟩, ⟨.eof, c!"", none, none, 5, 1⟩]) := by by_kernel

/-! `scanner.rs` `test_scan_backslash_without_newline_is_an_error` -/
example : scanTokens tEnv c!"one \\ two" =
    .done (.error [(.new ⟨1, 5⟩ "Unexpected character: '\\'")]) := by by_kernel

/-! `scanner.rs` `test_scan_trailing_binary_operator_as_line_continuation` -/
example : scanTokens tEnv c!"one +\n  two\n" =
    .done (.ok [⟨.identifier, c!"one", none, none, 1, 1⟩, ⟨.plus, c!"+", none, none, 1, 5⟩, ⟨.identifier, c!"two", none, none, 2, 3⟩, ⟨.terminator, c!"\n", none, none, 2, 6⟩, ⟨.eof, c!"", none, none, 3, 1⟩]) := by by_kernel

/-! `scanner.rs` `test_scan_trailing_binary_operator_line_continuation_with_blank_lines` -/
example : scanTokens tEnv c!"one +\n\n\n  two\n" =
    .done (.ok [⟨.identifier, c!"one", none, none, 1, 1⟩, ⟨.plus, c!"+", none, none, 1, 5⟩, ⟨.identifier, c!"two", none, none, 4, 3⟩, ⟨.terminator, c!"\n", none, none, 4, 6⟩, ⟨.eof, c!"", none, none, 5, 1⟩]) := by by_kernel

/-! `parser.rs` `test_parse_literal` -/
example : parseExpression tEnv c!"42" =
    .done (.ok (.literalNumber 4631107791820423168)) := by by_kernel
example : parseExpression tEnv c!"\"hello\"" =
    .done (.ok (.literalString c!"hello")) := by by_kernel
example : parseExpression tEnv c!"true" =
    .done (.ok (.literalBool true)) := by by_kernel
example : parseExpression tEnv c!"false" =
    .done (.ok (.literalBool false)) := by by_kernel
example : parseExpression tEnv c!"nil" =
    .done (.ok .literalNil) := by by_kernel

/-! `parser.rs` `test_parse_binary_op` -/
example : parseExpression tEnv c!"40 + 2" =
    .done (.ok (.binary (.literalNumber 4630826316843712512) .plus (.literalNumber 4611686018427387904) ⟨1, 4⟩)) := by by_kernel

/-! `parser.rs` `test_parse_unary_op` -/
example : parseExpression tEnv c!"-42" =
    .done (.ok (.unary .minus (.literalNumber 4631107791820423168) ⟨1, 1⟩)) := by by_kernel
example : parseExpression tEnv c!"!true" =
    .done (.ok (.unary .not (.literalBool true) ⟨1, 1⟩)) := by by_kernel

/-! `parser.rs` `test_parse_grouping` -/
example : parseExpression tEnv c!"(40)" =
    .done (.ok (.grouping (.literalNumber 4630826316843712512))) := by by_kernel

/-! `parser.rs` `test_parse_assign` -/
example : parseExpression tEnv c!"x = 1" =
    .done (.ok (.assign c!"x" .placeholder (.literalNumber 4607182418800017408) ⟨1, 3⟩)) := by by_kernel

/-! `parser.rs` `test_parse_super_property` -/
example : parseExpression tEnv c!"super.x" =
    .done (.ok (.super .placeholder c!"x" ⟨1, 1⟩)) := by by_kernel
example : parse tEnv c!"super.y\n" =
    .done (.ok [(.expression (.super .placeholder c!"y" ⟨1, 1⟩))]) := by by_kernel

/-! `parser.rs` `test_parse_comparison` -/
example : parseExpression tEnv c!"42 == 40 + 2" =
    .done (.ok (.binary (.literalNumber 4631107791820423168) .equal (.binary (.literalNumber 4630826316843712512) .plus (.literalNumber 4611686018427387904) ⟨1, 10⟩) ⟨1, 4⟩)) := by by_kernel

/-! `parser.rs` `test_parse_invalid` -/
example : parse tEnv c!"and\n" =
    .done (.error [(.newWithLocation ⟨1, 1⟩ c!"and" "Expect expression.")]) := by by_kernel

/-! `parser.rs` `test_parse_statements` -/
example : parse tEnv c!"print \"one\"\n" =
    .done (.ok [(.print (.literalString c!"one"))]) := by by_kernel

/-! `parser.rs` `test_parse_comments` -/
example : parse tEnv c!"// comment" =
    .done (.ok []) := by by_kernel
example : parse tEnv c!"// comment\n" =
    .done (.ok []) := by by_kernel
example : parse tEnv c!"true // comment\n" =
    .done (.ok [(.expression (.literalBool true))]) := by by_kernel

/-! `parser.rs` `test_parse_call` -/
example : parse tEnv c!"f(1)\n" =
    .done (.ok [(.expression (.call (.variable c!"f" .placeholder ⟨1, 1⟩) [(.literalNumber 4607182418800017408)] ⟨1, 2⟩))]) := by by_kernel
example : parse tEnv c!"f(1, 2)\n" =
    .done (.ok [(.expression (.call (.variable c!"f" .placeholder ⟨1, 1⟩) [(.literalNumber 4607182418800017408), (.literalNumber 4611686018427387904)] ⟨1, 2⟩))]) := by by_kernel

/-! `parser.rs` `test_parse_juxtaposition_as_call` -/
example : parse tEnv c!"f 1\n" =
    .done (.ok [(.expression (.call (.variable c!"f" .placeholder ⟨1, 1⟩) [(.literalNumber 4607182418800017408)] ⟨1, 3⟩))]) := by by_kernel
example : parse tEnv c!"f 1, 2\n" =
    .done (.ok [(.expression (.call (.variable c!"f" .placeholder ⟨1, 1⟩) [(.literalNumber 4607182418800017408), (.literalNumber 4611686018427387904)] ⟨1, 3⟩))]) := by by_kernel
example : parse tEnv c!"f (1 + 2), 3\n" =
    .done (.ok [(.expression (.call (.variable c!"f" .placeholder ⟨1, 1⟩) [(.grouping (.binary (.literalNumber 4607182418800017408) .plus (.literalNumber 4611686018427387904) ⟨1, 6⟩)), (.literalNumber 4613937818241073152)] ⟨1, 3⟩))]) := by by_kernel
example : parse tEnv c!"f(1 + 2), 3\n" =
    .done (.error [(.newWithLocation ⟨1, 9⟩ c!"," "Expect newline after expression.")]) := by by_kernel

/-! `parser.rs` `test_parse_if_statement` -/
example : parse tEnv c!"\nif (true)\n  1\n" =
    .done (.ok [(.if (.literalBool true) (.block [(.expression (.literalNumber 4607182418800017408))]) none)]) := by by_kernel

/-! `parser.rs` `test_parse_while_loop_normal` -/
example : parse tEnv c!"\nwhile (true)\n  1\n" =
    .done (.ok [(.while (.literalBool true) (.block [(.expression (.literalNumber 4607182418800017408))]))]) := by by_kernel
example : parse tEnv c!"\nwhile (true)\n  if (x)\n    y\n" =
    .done (.ok [(.while (.literalBool true) (.block [(.if (.variable c!"x" .placeholder ⟨3, 7⟩) (.block [(.expression (.variable c!"y" .placeholder ⟨4, 5⟩))]) none)]))]) := by by_kernel

/-! `parser.rs` `test_parse_while_loop_break` -/
example : parse tEnv c!"while (true) break\n" =
    .done (.ok [(.while (.literalBool true) (.break ⟨1, 14⟩))]) := by by_kernel
example : (parse tEnv c!"for (;;) if (true) break\n").isOk = true := by by_kernel
example : (parse tEnv c!"while (true) if (true) break\n").isOk = true := by by_kernel
example : (parse tEnv c!"while (true) while(true) break\n").isOk = true := by by_kernel
example : (parse tEnv c!"break\n").isErr = true := by by_kernel
example : (parse tEnv c!"for (;;) nil\nbreak\n").isErr = true := by by_kernel

/-! `parser.rs` `test_parse_while_loop_continue` -/
example : (parse tEnv c!"for (;;) if (true) continue\n").isOk = true := by by_kernel
example : (parse tEnv c!"while (true) if (true) continue\n").isOk = true := by by_kernel
example : (parse tEnv c!"while (true) while(true) continue\n").isOk = true := by by_kernel
example : (parse tEnv c!"continue\n").isErr = true := by by_kernel
example : (parse tEnv c!"for (;;) nil\ncontinue\n").isErr = true := by by_kernel

/-! `parser.rs` `test_parse_for_loop_normal` -/
example : parse tEnv c!"\nfor (;;)\n  2\n" =
    .done (.ok [(.while (.literalBool true) (.block [(.expression (.literalNumber 4611686018427387904))]))]) := by by_kernel
example : parse tEnv c!"\nfor (var x = 0; true; 1)\n  2\n" =
    .done (.ok [(.block [(.var c!"x" .placeholder (.literalNumber 0) ⟨2, 10⟩), (.whileIncrement (.literalBool true) (.block [(.expression (.literalNumber 4611686018427387904))]) (.literalNumber 4607182418800017408))])]) := by by_kernel
example : parse tEnv c!"\nfor (var x = 0; true; 1)\n  if (x)\n    y\n" =
    .done (.ok [(.block [(.var c!"x" .placeholder (.literalNumber 0) ⟨2, 10⟩), (.whileIncrement (.literalBool true) (.block [(.if (.variable c!"x" .placeholder ⟨3, 7⟩) (.block [(.expression (.variable c!"y" .placeholder ⟨4, 5⟩))]) none)]) (.literalNumber 4607182418800017408))])]) := by by_kernel

/-! `parser.rs` `test_parse_array_literals` -/
example : parseExpression tEnv c!"[]" =
    .done (.ok (.literalArray [])) := by by_kernel
example : parseExpression tEnv c!"[1, 2]" =
    .done (.ok (.literalArray [(.literalNumber 4607182418800017408), (.literalNumber 4611686018427387904)])) := by by_kernel
example : parseExpression tEnv c!"[1, 2,]" =
    .done (.ok (.literalArray [(.literalNumber 4607182418800017408), (.literalNumber 4611686018427387904)])) := by by_kernel

/-! `parser.rs` `test_parse_array_get_index` -/
example : parse tEnv c!"a[1]\n" =
    .done (.ok [(.expression (.getIndex (.variable c!"a" .placeholder ⟨1, 1⟩) (.literalNumber 4607182418800017408) ⟨1, 2⟩))]) := by by_kernel

/-! `parser.rs` `test_parse_map_literals` -/
example : parseExpression tEnv c!"{}" =
    .done (.ok (.literalMap [])) := by by_kernel
example : parseExpression tEnv c!"f: 1, g: 2" =
    .done (.ok (.literalMap [(.mk c!"f" (.literalNumber 4607182418800017408)), (.mk c!"g" (.literalNumber 4611686018427387904))])) := by by_kernel
example : parseExpression tEnv c!"f: 1,\ng: 2" =
    .done (.ok (.literalMap [(.mk c!"f" (.literalNumber 4607182418800017408)), (.mk c!"g" (.literalNumber 4611686018427387904))])) := by by_kernel
example : parseExpression tEnv c!"f: 1,\ng: 2," =
    .done (.ok (.literalMap [(.mk c!"f" (.literalNumber 4607182418800017408)), (.mk c!"g" (.literalNumber 4611686018427387904))])) := by by_kernel

/-! `parser.rs` `test_parse_map_literals_in_statements` -/
example : parse tEnv c!"var x = {}\n" =
    .done (.ok [(.var c!"x" .placeholder (.literalMap []) ⟨1, 5⟩)]) := by by_kernel
example : parse tEnv c!"var x =\n  f: 1,\n  g: 2,\n\n" =
    .done (.ok [(.var c!"x" .placeholder (.literalMap [(.mk c!"f" (.literalNumber 4607182418800017408)), (.mk c!"g" (.literalNumber 4611686018427387904))]) ⟨1, 5⟩)]) := by by_kernel
example : parse tEnv c!"var x =\n  f: 1\n  g: 2\n\n" =
    .done (.ok [(.var c!"x" .placeholder (.literalMap [(.mk c!"f" (.literalNumber 4607182418800017408)), (.mk c!"g" (.literalNumber 4611686018427387904))]) ⟨1, 5⟩)]) := by by_kernel
example : parse tEnv c!"var x = f: 1, g: 2\n" =
    .done (.ok [(.var c!"x" .placeholder (.literalMap [(.mk c!"f" (.literalNumber 4607182418800017408)), (.mk c!"g" (.literalNumber 4611686018427387904))]) ⟨1, 5⟩)]) := by by_kernel
example : parse tEnv c!"var x = f: 1,\ng: 2\n" =
    .done (.ok [(.var c!"x" .placeholder (.literalMap [(.mk c!"f" (.literalNumber 4607182418800017408)), (.mk c!"g" (.literalNumber 4611686018427387904))]) ⟨1, 5⟩)]) := by by_kernel
example : parse tEnv c!"f: 1\ng: 2\n" =
    .done (.ok [(.expression (.literalMap [(.mk c!"f" (.literalNumber 4607182418800017408)), (.mk c!"g" (.literalNumber 4611686018427387904))]))]) := by by_kernel

/-! `parser.rs` `test_parse_map_literals_with_string_keys_in_statements` -/
example : parse tEnv c!"var x = \"f\": 1, \"g\": 2\n" =
    .done (.ok [(.var c!"x" .placeholder (.literalMap [(.mk c!"f" (.literalNumber 4607182418800017408)), (.mk c!"g" (.literalNumber 4611686018427387904))]) ⟨1, 5⟩)]) := by by_kernel
example : parse tEnv c!"var x = \"f\": 1,\n\"g\": 2\n" =
    .done (.ok [(.var c!"x" .placeholder (.literalMap [(.mk c!"f" (.literalNumber 4607182418800017408)), (.mk c!"g" (.literalNumber 4611686018427387904))]) ⟨1, 5⟩)]) := by by_kernel
example : parse tEnv c!"\"f\": 1\n\"g\": 2\n" =
    .done (.ok [(.expression (.literalMap [(.mk c!"f" (.literalNumber 4607182418800017408)), (.mk c!"g" (.literalNumber 4611686018427387904))]))]) := by by_kernel

/-! `parser.rs` `test_parse_array_set_index` -/
example : parse tEnv c!"a[1] = 3\n" =
    .done (.ok [(.expression (.setIndex (.variable c!"a" .placeholder ⟨1, 1⟩) (.literalNumber 4607182418800017408) (.literalNumber 4613937818241073152) ⟨1, 6⟩))]) := by by_kernel

/-! `parser.rs` `test_function_with_whitespace_indentation` -/
example : parse tEnv c!"\nfun foo()\n  return 1\n" =
    .done (.ok [(.fun (.mk c!"foo" (.mk [] [(.return (.literalNumber 4607182418800017408) ⟨3, 3⟩)] .plainFunction ⟨2, 5⟩)))]) := by by_kernel

end Ws.Tests
