import Verif.Model.Scanner
import Verif.Spec.Lexical
/-! Specification of insertions into a source. -/
namespace Ws.Spec
open Ws

/-- `n` spaces. -/
abbrev spaces (n : Nat) : List Str := List.replicate n [' ']
/-- A newline. -/
abbrev newline : List Str := [['\n']]
/-- The text of a comment. -/
abbrev commentText (body : List Str) : List Str := ['/'] :: ['/'] :: body

/-- Complete lines: nothing, or an accepted source and a newline. (Text that ends inside a string or
in a backslash is not accepted.) -/
def CompleteLines (env : Env) (a : List Str) : Prop :=
  a = [] ∨ ∃ x ts, a = x ++ newline ∧ scanClusters env x = .done (.ok ts)

/-- A token on line `l` or later, moved down one line. -/
def tokenDown (l : Nat) (t : Token) : Token :=
  if l ≤ t.line then { t with line := min (t.line + 1) u32Max } else t
/-- An error on line `l` or later, moved down one line. -/
def causeDown (l : Nat) (e : Cause) : Cause :=
  if l ≤ e.loc.line then { e with loc := { e.loc with line := min (e.loc.line + 1) u32Max } } else e

/-- A scan in which everything on line `l` or later is one line further down. -/
def linesDown (l : Nat) : Outcome (Except ParseError (List Token)) → Outcome (Except ParseError (List Token))
  | .done (.ok ts) => .done (.ok (ts.map (tokenDown l)))
  | .done (.error es) => .done (.error (es.map (causeDown l)))
  | .panic m => .panic m
  | .diverge => .diverge

/-- After the complete lines `a`, the current block is indented by `k` spaces: a statement indented by
`k` adds neither Indent nor Outdent, and one indented by `k + 1` adds an Indent. -/
def BlockIndented (env : Env) (a : List Str) (k : Nat) : Prop :=
  ∃ ts c1 c2 c3 indent semi semi',
    scanClusters env a = .done (.ok (ts ++ c1)) ∧
    scanClusters env (a ++ spaces k ++ [[';']]) = .done (.ok (ts ++ semi :: c2)) ∧
    scanClusters env (a ++ spaces (k + 1) ++ [[';']]) = .done (.ok (ts ++ indent :: semi' :: c3)) ∧
    Closing c1 ∧ Closing c2 ∧ Closing c3 ∧
    indent.tokenType = .indent ∧ semi.tokenType = .semicolon ∧ semi'.tokenType = .semicolon

/-- The newline after the text `x` ends a statement. -/
def EndsStatement (env : Env) (x : List Str) (ts : List Token) (terminator : Token) : Prop :=
  ∃ c c', scanClusters env x = .done (.ok (ts ++ c)) ∧
    scanClusters env (x ++ newline) = .done (.ok (ts ++ terminator :: c')) ∧
    Closing c ∧ Closing c' ∧ terminator.tokenType = .terminator

/-- A scan in which the token after `ts` is `t`. -/
def replaceNext (ts : List Token) (t : Token) : Outcome (Except ParseError (List Token)) →
    Outcome (Except ParseError (List Token))
  | .done (.ok l) => .done (.ok (ts ++ t :: l.drop (ts.length + 1)))
  | o => o

end Ws.Spec
