import Verif.Proofs.Parse.ViableTop
import Verif.Properties.Parser
/-! Property C62: the parser does not report an error before there is one, and it does not go on after it. -/
namespace Ws.Properties
open Ws Spec

variable {env : Env} {source : Str} {repl : Bool} {ts : List Token} {cs : List Cause}

/-- C62: the tokens before the first error can be continued to a program. -/
theorem error_not_early (hE : EnvLaws env) (hS : Fits env source) (hs : scanTokens env source = .done (.ok ts)) {c : Cause}
    (h : parseTokens env ts repl = .done (.error (c :: cs))) : ∃ k, Points ts k c ∧ Viable repl (ts.take k) := by
  obtain ⟨k, h1, h2, -⟩ := parse_viable (scan_tokensOk hE hs) (hS ts hs) h
  exact ⟨k, h1, h2⟩

/-- C62: the tokens before the first error can be continued to a program, but with the token where it is found and the three
after it they cannot, unless it is a fault that the grammar lists. -/
theorem error_in_time (hE : EnvLaws env) (hS : Fits env source) (hs : scanTokens env source = .done (.ok ts)) {c : Cause}
    (h : parseTokens env ts repl = .done (.error (c :: cs))) (hc : c.message ∉ faultMessages) :
    ∃ k, Points ts k c ∧ Viable repl (ts.take k) ∧
      ∀ source' w e, Fits env source' → scanTokens env source' = .done (.ok (w ++ [e])) → (w ++ [e]).take (k + 4) = ts.take (k + 4) →
        ∀ o ss vs, o ≠ Ends.brace → ¬ Spec.Loose repl false o false .declarations w (.stmts ss) vs := by
  obtain ⟨k, h1, h2, h3⟩ := parse_viable (scan_tokensOk hE hs) (hS ts hs) h
  refine ⟨k, h1, h2, ?_⟩
  intro source' w e hS' hs' ht o ss vs ho hd
  obtain ⟨cs', h4⟩ := h3 _ (scan_tokensOk hE hs') (hS' _ hs') ht
  exact hc (derived_fault (scan_tokensOk hE hs') (hS' _ hs') hd ho h4)

/-- A program with an error at its fifth token, -/
example : EnvLaws asciiEnv ∧ Fits asciiEnv c!"print (a + ]\n" ∧
    scanTokens asciiEnv c!"print (a + ]\n" = .done (.ok
      [⟨.print, c!"print", none, none, 1, 1⟩, ⟨.leftParen, c!"(", none, none, 1, 7⟩, ⟨.identifier, c!"a", none, none, 1, 8⟩,
        ⟨.plus, c!"+", none, none, 1, 10⟩, ⟨.rightBracket, c!"]", none, none, 1, 12⟩, ⟨.terminator, c!"\n", none, none, 1, 13⟩,
        ⟨.eof, [], none, none, 2, 1⟩]) ∧
    parseTokens asciiEnv
      [⟨.print, c!"print", none, none, 1, 1⟩, ⟨.leftParen, c!"(", none, none, 1, 7⟩, ⟨.identifier, c!"a", none, none, 1, 8⟩,
        ⟨.plus, c!"+", none, none, 1, 10⟩, ⟨.rightBracket, c!"]", none, none, 1, 12⟩, ⟨.terminator, c!"\n", none, none, 1, 13⟩,
        ⟨.eof, [], none, none, 2, 1⟩] false =
      .done (.error [⟨⟨1, 12⟩, some c!"]", "Expect expression."⟩]) ∧ "Expect expression." ∉ faultMessages :=
  ⟨asciiEnv_laws, fits_of_small (by by_kernel), by by_kernel, by by_kernel, by decide⟩

/-- the tokens before which are the beginning of `print (a + b)`, -/
example : Viable false
    [⟨.print, c!"print", none, none, 1, 1⟩, ⟨.leftParen, c!"(", none, none, 1, 7⟩, ⟨.identifier, c!"a", none, none, 1, 8⟩,
      ⟨.plus, c!"+", none, none, 1, 10⟩] := by
  have v : ∀ t : Token, t.tokenType = .identifier → Spec.Loose false false .closed false .unary [t] (.expr (.variable t.lexeme .placeholder t.loc)) [] :=
    fun t ht => .call (.primary (.variable (.inl ht)))
  have m : ∀ t : Token, t.tokenType = .identifier →
      Spec.Loose false false .closed false (.binary .multiplication) [t] (.expr (.variable t.lexeme .placeholder t.loc)) [] := fun t ht => .operand (v t ht)
  have s := Spec.Loose.operator (p := .addition) (t := ⟨.plus, c!"+", none, none, 1, 10⟩) (.operand (m ⟨.identifier, c!"a", none, none, 1, 8⟩ rfl)) (.inl rfl)
    rfl (m ⟨.identifier, c!"b", none, none, 1, 12⟩ rfl)
  have x := Spec.Loose.expression (.target_plain (.operand (.operand (.operand (.operand s)))))
  have g := Spec.Loose.grouping (b := ⟨.leftParen, c!"(", none, none, 1, 7⟩) (.inl rfl) x (by decide) (c := ⟨.rightParen, c!")", none, none, 1, 13⟩) rfl
  have y := Spec.Loose.expression (.target_plain (.operand (.operand (.operand (.operand (.operand (.operand (.call (.primary g))))))))) 
  have p := Spec.Loose.print (t := ⟨.print, c!"print", none, none, 1, 1⟩) rfl y (by decide) (term := ⟨.terminator, c!"\n", none, none, 1, 14⟩) rfl
  have d := Spec.Loose.declarations .declarations_nil (.declaration p) (by simp [Ends.Precedes])
  exact ⟨[⟨.identifier, c!"b", none, none, 1, 12⟩, ⟨.rightParen, c!")", none, none, 1, 13⟩, ⟨.terminator, c!"\n", none, none, 1, 14⟩], .closed,
    _, [], d, by decide, by decide⟩

/-- a program whose error is found after the token that it reports, -/
example : parse asciiEnv c!"1 = 2 + 3\n" = .done (.error [⟨⟨1, 3⟩, some c!"=", "Invalid assignment target."⟩]) := by by_kernel

/-- one whose error is found at the end of the input, and the last token is reported, -/
example : parse asciiEnv c!"a +" = .done (.error [⟨⟨1, 3⟩, some c!"+", "Expect expression."⟩]) := by by_kernel

/-- and one whose error is found a token early: `x = { a` can be continued, with a colon. -/
example : parse asciiEnv c!"x = { a b }\n" = .done (.error [⟨⟨1, 7⟩, some c!"a", "Expect '}' after map entries."⟩]) ∧
    parse asciiEnv c!"x = { a : b }\n" = .done (.ok [.expression (.assign c!"x" .placeholder
      (.literalMap [.mk c!"a" (.variable c!"b" .placeholder ⟨1, 11⟩)]) ⟨1, 3⟩)]) := by
  constructor <;> by_kernel

end Ws.Properties
