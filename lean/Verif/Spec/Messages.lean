import Verif.Spec.Tokens
/-! The messages of errors. -/
namespace Ws.Spec
open Ws

/-- The messages of the scanner that are always the same. -/
def scannerMessages : List String :=
  ["Illegal tab character; all whitespace must be spaces", "Unexpected character: '\\'", "Unterminated string.",
    "Outdent does not match any previous indentation level"]

/-- A message of the scanner about a source with the clusters `clusters`. -/
def ScannerMessage (clusters : List Str) (m : String) : Prop :=
  m ∈ scannerMessages ∨ ∃ g ∈ clusters, m = "Unexpected token: " ++ String.ofList g

/-- The messages of the parser when it parses a program. -/
def parserMessages : List String :=
  ["Expect indent to begin block", "Expect '}' after block.",
    "Expect identifier in function parameters.", "Cannot have more than 255 parameters.",
    "Expect '(' after function name.", "Expect ')' after parameters.", "Expect '{' or indent before function body.",
    "Expect identifier after 'fun'.",
    "Expect superclass name.", "Expect identifier after 'class'.", "Expect '{' or indent after class name.",
    "Expect '}' after class method body.",
    "Expect ';' after var declaration.", "Expect newline after var declaration.", "Expect variable name.",
    "Expect newline after expression.",
    "Found break statement outside of loop body", "Expect newline after break.",
    "Found continue statement outside of loop body", "Expect newline after continue.",
    "Expect '(' after for.", "Expect ';' after for-loop condition.", "Expect ')' after for-loop increment.",
    "Expect '(' after if.", "Expect ')' after if condition.",
    "Expect newline after print value.", "Expect newline after return expression.",
    "Expect '(' after while.", "Expect ')' after while condition.",
    "Invalid assignment target.", "Expect outdent after indented expression.",
    "Cannot have more than 255 arguments.", "Expect ')' after arguments.", "Expect ']' after index.",
    "Duplicate key in literal map.", "Expect function in expression context to not have a name.",
    "Missing close parenthesis.", "Expect '}' after map entries.", "Expect ']' after array elements.",
    "Expect '.' after 'super'.", "Expect superclass method name.", "Expect expression.", "Expect property name after '.'."]

/-- The messages of errors that are found only after the token they report: after the right-hand side of the
assignment, or the value of the entry. -/
def lateMessages : List String := ["Invalid assignment target.", "Duplicate key in literal map."]

/-- The error reports the token at `i`. -/
def At (T : List Token) (i : Nat) (e : Cause) : Prop := ∃ t, T[i]? = some t ∧ e.loc = t.loc ∧ e.token = some t.lexeme

/-- The error reports the token at `i` or the one before, unless its message is one of those listed. -/
def SpotAt (T : List Token) (i : Nat) (e : Cause) : Prop :=
  e.message ∈ lateMessages ∨ At T i e ∨ ∃ j, i = j + 1 ∧ At T j e

/-- The messages of the resolver. -/
def resolverMessages : List String :=
  ["Too many local variables in function.", "Variable with this name already declared in this scope.",
    "Cannot use 'this' outside of a class.", "Cannot read local variable in its own initializer.",
    "Cannot use 'super' outside of a class.", "Cannot use 'super' in a class with no superclass.",
    "Cannot return from top-level code.", "Cannot return a value from an initializer.",
    "A class cannot inherit from itself."]

end Ws.Spec
