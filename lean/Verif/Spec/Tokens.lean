import Verif.Model.Token
/-! What the parser may assume of a token list. -/
namespace Ws.Spec
open Ws

/-- A token list as the scanner makes them: one Eof, at the end; number and string tokens carry their
values; the text of `=` is `=`. (`Properties.scan_tokensOk` proves it of every scan.) -/
structure TokensOk (tokens : List Token) : Prop where
  eof : ∃ ws e, tokens = ws ++ [e] ∧ e.tokenType = .eof ∧ ∀ t ∈ ws, t.tokenType ≠ .eof
  number : ∀ t ∈ tokens, t.tokenType = .number → t.floatLiteral.isSome
  string : ∀ t ∈ tokens, t.tokenType = .string → t.stringLiteral.isSome
  equal : ∀ t ∈ tokens, t.tokenType = .equal → t.lexeme = c!"="

/-- The error reports the token: its location, and its text (for a string, possibly without the
quotes). -/
def Reports (t : Token) (c : Cause) : Prop :=
  c.loc = t.loc ∧ (c.token = some t.lexeme ∨ t.tokenType = .string ∧ c.token = t.stringLiteral)

/-- The errors report tokens, at increasing positions below `bound`. -/
def Located (tokens : List Token) (bound : Nat) (cs : List Cause) : Prop :=
  ∃ located : List (Nat × Cause), located.map (·.2) = cs ∧ located.Pairwise (fun a b => a.1 < b.1) ∧
    ∀ x ∈ located, x.1 < bound ∧ ∃ t, tokens[x.1]? = some t ∧ Reports t x.2

end Ws.Spec
