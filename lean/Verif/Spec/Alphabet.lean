import Verif.Spec.Lexical
/-! Specification of the alphabet of the language. -/
namespace Ws.Spec
open Ws

/-- The signs and the blank space that may stand outside strings and comments. -/
def signs : List Char := c!" \r\n\\(){}[]:,.-+;/*!=><"

/-- A cluster of the alphabet: a sign, blank space, or part of a word or number. -/
def Letter (env : Env) (g : Str) : Prop :=
  (∃ c ∈ signs, g = [c]) ∨ WordStart env g ∨ WordPart env g

end Ws.Spec
