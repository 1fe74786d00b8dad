import Verif.Model.Token
/-! Nesting of brackets and blocks in a token list. -/
namespace Ws.Spec
open Ws

/-- The token that closes an opening token. -/
def closer : TokenType → Option TokenType
  | .leftParen | .leftParenAbutting => some .rightParen
  | .leftBrace => some .rightBrace
  | .leftBracket => some .rightBracket
  | .indent => some .outdent
  | _ => none

/-- The tokens that close something. -/
def isCloser : TokenType → Bool
  | .rightParen | .rightBrace | .rightBracket | .outdent => true
  | _ => false

/-- Reading tokens with a stack of the closing tokens to come; `none` if a closing token is not the
one on top of the stack. -/
def nest : List TokenType → List Token → Option (List TokenType)
  | st, [] => some st
  | st, t :: w =>
    match closer t.tokenType with
    | some c => nest (c :: st) w
    | none =>
      if isCloser t.tokenType then
        match st with
        | [] => none
        | c :: st => if c = t.tokenType then nest st w else none
      else nest st w

/-- Brackets and blocks are properly nested. -/
def WellNested (w : List Token) : Prop := nest [] w = some []

/-- The tokens that are inside no brackets or blocks, reading at depth `d`; an opening token is
counted as outside. -/
def topLevel (d : Nat) : List Token → List Token
  | [] => []
  | t :: w =>
    if (closer t.tokenType).isSome then (if d = 0 then [t] else []) ++ topLevel (d + 1) w
    else if isCloser t.tokenType then topLevel (d - 1) w
    else (if d = 0 then [t] else []) ++ topLevel d w

end Ws.Spec
