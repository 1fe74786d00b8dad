import Verif.Spec.Scan
import Verif.Spec.Plain
import Verif.Spec.Acts
import Verif.Spec.Erase
import Verif.Spec.Scoping
/-! What a source means, from its text to its resolved tree: the specifications of the three stages put
together. This file mentions none of the scanner, the parser and the resolver. -/
namespace Ws.Spec
open Ws

/-- The source has the tokens `w` (and then Eof), according to its reading. -/
def HasTokens (env : Env) (source : Str) (w : List Token) (eof : Token) : Prop :=
  ∃ steps, textOf steps = env.segment source ∧ Reading env steps [] ∧ causesOf steps = [] ∧
    tokensOf steps ++ closing steps = w ++ [eof]

/-- The source has the errors `es`, according to its reading. -/
def HasScanErrors (env : Env) (source : Str) (es : List Cause) : Prop :=
  es ≠ [] ∧ ∃ steps, textOf steps = env.segment source ∧ Reading env steps [] ∧ causesOf steps = es

/-- The grammar derives the tokens as the program `tree`. -/
def HasTree (repl : Bool) (w : List Token) (tree : List Stmt) : Prop :=
  ∃ o e, Plain repl false o e .declarations w (.stmts tree) ∧ o ≠ .brace

/-- After the programs `history`, `resolved` is `tree` with the right locations, and `tree` has no faults. -/
def IsResolved (history : List (List Stmt)) (tree resolved : List Stmt) : Prop :=
  NoFaults (bindingsOf history) (stmtsActs .nowhere .nowhere tree) ∧ eraseStmts resolved = eraseStmts tree ∧
    AtEach EventOk ((bindingsOf history).map (List.map Prod.fst)) (stmtsEvents resolved)

/-- The source is a correct program whose resolved tree is `resolved`. -/
def Correct (env : Env) (repl : Bool) (history : List (List Stmt)) (source : Str) (resolved : List Stmt) : Prop :=
  ∃ w eof tree, HasTokens env source w eof ∧ HasTree repl w tree ∧ IsResolved history tree resolved

end Ws.Spec
