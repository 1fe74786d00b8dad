import Verif.Spec.Insert
/-! Specification of comment lines before lines of code. -/
namespace Ws.Spec
open Ws

/-- The token without the text and the place of an Indent or Outdent. -/
def unplaced (t : Token) : Token :=
  if t.tokenType = .indent ∨ t.tokenType = .outdent then { t with lexeme := [], line := 0, column := 0 } else t

end Ws.Spec
