import Verif.Model.Parser
import Verif.Spec.Messages
/-! Where the parser goes on after an error. -/
namespace Ws.Spec

/-- The words that the parser looks for after an error. -/
def Begins (t : Token) : Prop :=
  t.tokenType = .class ∨ t.tokenType = .fun ∨ t.tokenType = .var ∨ t.tokenType = .for ∨ t.tokenType = .if ∨
    t.tokenType = .while ∨ t.tokenType = .print ∨ t.tokenType = .return

instance (t : Token) : Decidable (Begins t) := by unfold Begins; infer_instance

/-- What is left after the first of these words; if there is none, the last token, which is the end of the input. -/
def afterWord : List Token → List Token
  | [] => []
  | [e] => [e]
  | t :: u :: ts => if Begins t then u :: ts else afterWord (u :: ts)

/-- No `break` and no `continue`. -/
def NoJumps (ts : List Token) : Prop := ∀ t ∈ ts, t.tokenType ≠ .break ∧ t.tokenType ≠ .continue

/-- `parseTokens`, with the parser started in the state `p`. -/
def parseFrom (env : Env) (p : Parser) : Outcome (Except ParseError (List Stmt)) :=
  match loop (parseStep env (recN env (depthFor p.tokens))) ([], []) p with
  | .ok (statements, errors) p =>
    match consume env .eof "Expected end of file" p with
    | .ok _ _ => if errors.isEmpty then .done (.ok statements) else .done (.error errors)
    | .err e _ => .done (.error (errors ++ [e]))
    | .panic m => .panic m
    | .diverge => .diverge
  | .err e _ => .done (.error [e])
  | .panic m => .panic m
  | .diverge => .diverge

/-- The state of the parser before the tokens `ts`, if it takes itself to be in a loop. The token before is `x`. -/
def inLoop (x : Token) (ts : List Token) (allowTrailing : Bool) : Parser :=
  { Parser.new (x :: ts) allowTrailing with current := 1, inLoops := 1 }

end Ws.Spec
