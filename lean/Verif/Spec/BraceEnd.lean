import Verif.Spec.Nesting
import Verif.Spec.Grammar
/-! Groups in braces that are not maps, and functions before them. -/
namespace Ws.Spec
open Ws

/-- After an opening brace these tokens begin like a map: with the closing brace, or a key and a colon. -/
def MapLike (b : List Token) : Prop :=
  (∃ c r, b = c :: r ∧ c.tokenType = .rightBrace) ∨
  ∃ t c r, b = t :: c :: r ∧ (t.tokenType = .identifier ∨ t.tokenType = .string) ∧ c.tokenType = .colon

/-- These tokens end with `fun` without a name and its parameters. -/
def EndsFunHead (a : List Token) : Prop :=
  ∃ x t p w q, a = x ++ t :: p :: (w ++ [q]) ∧ t.tokenType = .fun ∧ IsParen p ∧ WellNested w ∧ q.tokenType = .rightParen

end Ws.Spec
