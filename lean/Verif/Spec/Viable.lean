import Verif.Spec.Loose
import Verif.Spec.Messages
import Verif.Spec.Tokens
/-! Where errors are found: at the first token that cannot be there. -/
namespace Ws.Spec
open Ws

/-- The tokens are the beginning of a token list that the grammar derives as a program. The grammar is the one with faults, so it
is a matter of the order of tokens only. -/
def Viable (repl : Bool) (w : List Token) : Prop :=
  ∃ w' o ss vs, Loose repl false o false .declarations (w ++ w') (.stmts ss) vs ∧ o ≠ .brace ∧
    ∀ t ∈ w', t.tokenType ≠ .eof ∧ t.tokenType ≠ .number ∧ t.tokenType ≠ .string ∧ t.tokenType ≠ .equal

/-- The messages of the faults. -/
def faultMessages : List String :=
  ["Invalid assignment target.", "Duplicate key in literal map.", "Cannot have more than 255 arguments.",
    "Cannot have more than 255 parameters.", "Found break statement outside of loop body",
    "Found continue statement outside of loop body"]

/-- The error is found at the position `k`: it reports the token there, or the last token if a token is missing at the end of
the input, or, with one of the two late messages, some earlier token. -/
inductive Points (T : List Token) (k : Nat) (c : Cause) : Prop
  | here : At T k c → Points T k c
  | last {t : Token} : T[k]? = some t → t.tokenType = .eof → 0 < k → At T (k - 1) c → c.message = "Expect expression." → Points T k c
  | late {i : Nat} {t : Token} : c.message ∈ lateMessages → i < k → T[i]? = some t → Reports t c → Points T k c

end Ws.Spec
