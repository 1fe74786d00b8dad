import Verif.Spec.Nesting
/-! Statements that end with a closing brace. -/
namespace Ws.Spec

/-- The tokens are an `if`, `while` or `for` with its body in braces, or the declaration of a
function or a class in braces. What is between the brackets is only asked to be well nested. -/
inductive Braced : List Token → Prop
  /-- `if (w₁) {w}`, `while (w₁) {w}` and `for (w₁) {w}` -/
  | head {t p q o c : Token} {w₁ w : List Token} : t.tokenType ∈ [TokenType.if, .while, .for] → WellNested w₁ →
      q.tokenType = .rightParen → o.tokenType = .leftBrace → WellNested w → c.tokenType = .rightBrace →
      Braced (t :: p :: w₁ ++ q :: o :: w ++ [c])
  /-- `fun i(w₁) {w}` -/
  | function {t i p q o c : Token} {w₁ w : List Token} : t.tokenType = .fun → i.tokenType = .identifier → WellNested w₁ →
      q.tokenType = .rightParen → o.tokenType = .leftBrace → WellNested w → c.tokenType = .rightBrace →
      Braced (t :: i :: p :: w₁ ++ q :: o :: w ++ [c])
  /-- `class n {w}` -/
  | class {t n o c : Token} {w : List Token} : t.tokenType = .class → o.tokenType = .leftBrace → WellNested w →
      c.tokenType = .rightBrace → Braced (t :: n :: o :: w ++ [c])
  /-- `class n < s {w}` -/
  | subclass {t n lt s o c : Token} {w : List Token} : t.tokenType = .class → lt.tokenType = .less → o.tokenType = .leftBrace →
      WellNested w → c.tokenType = .rightBrace → Braced (t :: n :: lt :: s :: o :: w ++ [c])

end Ws.Spec
