import Verif.Spec.Scan
import Verif.Spec.Insert
/-! Places inside a line of a source. -/
namespace Ws.Spec
open Ws

/-- A token, or blank space. -/
def Piece.plain : Piece → Bool
  | .token _ _ => true
  | .blank _ => true
  | _ => false

/-- Between the text of `steps` and `after`, a line has begun and is not over, and no token, comment
or error is cut in two. -/
structure InsideLine (env : Env) (steps : List Step) (after : List Str) : Prop where
  reading : Reading env steps after
  begun : HasToken (pieces steps)
  last : ∀ x s, steps = x ++ [s] → s.piece.plain = true

/-- A parenthesis follows directly after what is before it. -/
def Attached (steps : List Step) (after : List Str) : Prop :=
  after.head? = some ['('] ∧ ∃ q, lastVisible (pieces steps) = some q ∧ Solid q

/-- A newline follows directly after a token after which the line goes on. -/
def LineGoesOn (steps : List Step) (after : List Str) : Prop :=
  after.head? = some ['\n'] ∧ EndsContinuing (pieces steps)

end Ws.Spec
