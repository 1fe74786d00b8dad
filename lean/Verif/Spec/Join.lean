import Verif.Model.Driver
import Verif.Spec.Insert
import Verif.Spec.Relabel
import Verif.Spec.Plain
import Verif.Spec.Positions
/-! Sources one after the other. -/
namespace Ws.Spec
open Ws

/-- The text begins at the left margin, with a token or a comment. -/
def AtLeft (b : List Str) : Prop :=
  ∃ g r, b = g :: r ∧ g ∉ [[' '], ['\t'], ['\r'], ['\n'], ['\\']]

/-- The same token at whatever position. (An Outdent has as its text what comes after it.) -/
structure SameToken (t t' : Token) : Prop where
  tokenType : t'.tokenType = t.tokenType
  lexeme : t.tokenType ≠ .outdent → t'.lexeme = t.lexeme
  string : t'.stringLiteral = t.stringLiteral
  number : t'.floatLiteral = t.floatLiteral

/-- The last statement is the declaration of a variable. -/
def EndsWithVar (sts : List Stmt) : Prop := ∃ x slot e loc, sts.getLast? = some (.var x slot e loc)

/-- The last token is the newline that ends a statement. -/
def EndsWithNewline (w : List Token) : Prop := ∃ u t, w = u ++ [t] ∧ t.tokenType = .terminator

/-- The results of resolving one program and then another one: both programs, or the errors of both. -/
def bothResults : Except ParseError (List Stmt) → Except ParseError (List Stmt) → Except ParseError (List Stmt)
  | .ok a, .ok b => .ok (a ++ b)
  | .ok _, .error e => .error e
  | .error e, .ok _ => .error e
  | .error e, .error e' => .error (e ++ e')

/-- A line that is a program on its own: it begins at the left margin, and not like the entry of a map,
its last token is its newline, and no cluster goes across its end. -/
structure WholeLine (env : Env) (line : Str) : Prop where
  complete : CompleteLines env (env.segment line)
  left : AtLeft (env.segment line)
  tokens : ∃ w eof, scanTokens env line = .done (.ok (w ++ [eof])) ∧ EndsWithNewline w ∧ ¬ KeyColon w
  program : ∃ sts, parse env line = .done (.ok sts)
  separate : ∀ after, env.segment (line ++ after) = env.segment line ++ env.segment after

/-- Lines run one after the other in the REPL, from the state `rs` to the state `rs'`, and their results. -/
inductive LineByLine (env : Env) : Resolver → List Str → List (Except ParseError (List Stmt)) → Resolver → Prop
  | nil {rs} : LineByLine env rs [] [] rs
  | cons {rs line r rs₁ lines results rs'} : run env rs line true = .done (r, rs₁) → LineByLine env rs₁ lines results rs' →
      LineByLine env rs (line :: lines) (r :: results) rs'

/-- All the results together. -/
def allResults : List (Except ParseError (List Stmt)) → Except ParseError (List Stmt) := List.foldr bothResults (.ok [])

/-- The same program or the same errors, at whatever positions. -/
def SameOutput : Except ParseError (List Stmt) → Except ParseError (List Stmt) → Prop
  | .ok a, .ok b => SameProgram a b
  | .error e, .error e' => SameErrors e e'
  | _, _ => False

end Ws.Spec
