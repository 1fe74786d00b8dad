import Verif.Spec.Scan
import Verif.Spec.Insert
/-! What the beginning of a source means to the rest of it. -/
namespace Ws.Spec
open Ws

/-- The levels of indentation that are open after the text `x`, innermost first. -/
def OpenLevels (env : Env) (x : List Str) (l : List Nat) : Prop :=
  ∃ steps, textOf steps = x ∧ Reading env steps [] ∧ levels steps = l

/-- A token `d` lines further down. -/
def tokenBelow (d : Nat) (t : Token) : Token := { t with line := min (t.line + d) u32Max }
/-- An error `d` lines further down. -/
def causeBelow (d : Nat) (e : Cause) : Cause := { e with loc := { e.loc with line := min (e.loc.line + d) u32Max } }

/-- A scan that has the tokens `ts` instead of the first `n`, and everything else `d` lines further down. -/
def otherBeginning (n : Nat) (ts : List Token) (d : Nat) : Outcome (Except ParseError (List Token)) → Outcome (Except ParseError (List Token))
  | .done (.ok w) => .done (.ok (ts ++ (w.drop n).map (tokenBelow d)))
  | .done (.error es) => .done (.error (es.map (causeBelow d)))
  | .panic m => .panic m
  | .diverge => .diverge

end Ws.Spec
