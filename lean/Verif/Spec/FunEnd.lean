import Verif.Spec.Nesting
import Verif.Spec.Grammar
/-! Function expressions with an indented body. -/
namespace Ws.Spec
open Ws

/-- `fun (w₁)` and an indented body `w`. What is between the brackets is only asked to be well nested. -/
inductive IndentedFun : List Token → Prop
  | mk {f p q n i o : Token} {w₁ w : List Token} : f.tokenType = .fun → IsParen p → WellNested w₁ → q.tokenType = .rightParen →
      n.tokenType = .terminator → i.tokenType = .indent → WellNested w → o.tokenType = .outdent →
      IndentedFun (f :: p :: w₁ ++ q :: n :: i :: w ++ [o])

/-- `var n =`, `print` or `return`. -/
inductive TakesValue : List Token → Prop
  | var {t n q : Token} : t.tokenType = .var → q.tokenType = .equal → TakesValue [t, n, q]
  | print {t : Token} : t.tokenType = .print → TakesValue [t]
  | return {t : Token} : t.tokenType = .return → TakesValue [t]

/-- The tokens that go on with an expression: operators, what can follow a callee, and `=`. -/
def ContinuesExpr (k : TokenType) : Prop :=
  k ∈ [.or, .and, .equalEqual, .bangEqual, .less, .lessEqual, .greater, .greaterEqual, .plus, .minus, .star, .slash, .equal,
    .dot, .leftParenAbutting, .leftBracket,
    .false, .true, .nil, .number, .string, .identifier, .fun, .leftParen, .leftBrace, .super]

/-- The tokens that end an expression which is in something else: in brackets, in a list, in the head of a
`for` loop, or in an indented block. -/
def EndsExpr (k : TokenType) : Prop := k ∈ [.comma, .rightParen, .rightBracket, .rightBrace, .semicolon, .outdent]

/-- The tokens `a ++ f` end with `var n =` and its value, an expression that begins with a brace or is
indented, before the end of `a`. Only after such a value no newline is needed. -/
def EndsOpenVar (a f : List Token) : Prop :=
  ∃ x t n q term h y l e, a = x ++ t :: n :: q :: (term ++ h :: y) ∧ t.tokenType = .var ∧ q.tokenType = .equal ∧ Optional .terminator term ∧
    (h.tokenType = .indent ∨ h.tokenType = .leftBrace) ∧ Grammar false l .expression (h :: (y ++ f)) (.expr e)

end Ws.Spec
