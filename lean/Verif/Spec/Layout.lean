import Verif.Spec.Lexical
/-! Specification of the layout of a program, in terms of its pieces and tokens. -/
namespace Ws.Spec
open Ws

/-- A token that is part of a statement's text. -/
def Proper (t : Token) : Prop := t.tokenType ∉ [.indent, .outdent, .terminator, .eof]

/-- The columns of the Indents that are open after the tokens `ts`, innermost first, when those of
`st` were open before. -/
def openColumns (st : List Nat) : List Token → List Nat
  | [] => st
  | t :: ts =>
    if t.tokenType = .indent then openColumns (t.column :: st) ts
    else if t.tokenType = .outdent then openColumns st.tail ts
    else openColumns st ts

/-- The last piece that is not a layout token. -/
def lastVisible (ps : List Piece) : Option Piece :=
  ps.reverse.find? fun | .layout _ => false | _ => true

/-- A piece after which a `(` is directly attached: a token of a statement, a comment, a line
continuation, or an error other than a tab. -/
def Solid : Piece → Prop
  | .token t _ => t.tokenType ≠ .terminator
  | .comment _ => True
  | .continuation _ => True
  | .fault _ l => l ≠ [['\t']]
  | _ => False

/-- A piece that ends its line. -/
def Piece.endsLine : Piece → Bool
  | .blank g => g == ['\n']
  | .token t _ => t.tokenType == .terminator
  | .continuation _ => true
  | _ => false

/-- The pieces of the current line. -/
def thisLine (ps : List Piece) : List Piece := (ps.reverse.takeWhile fun p => !p.endsLine).reverse

/-- There is a token on the current line. -/
def HasToken (ps : List Piece) : Prop := ∃ t l, Piece.token t l ∈ thisLine ps

/-- There is a comment on the current line. -/
def HasComment (ps : List Piece) : Prop := ∃ body, Piece.comment body ∈ thisLine ps

/-- The last thing before is a token after which the line goes on. -/
def EndsContinuing (ps : List Piece) : Prop :=
  ∃ t l, lastVisible ps = some (.token t l) ∧ continues t.tokenType = true

/-- The pieces end in a token after which the line goes on, a newline directly after it, and then
only blank space. -/
def Continued (ps : List Piece) : Prop :=
  ∃ a t l bs, ps = a ++ .token t l :: .blank ['\n'] :: bs ∧ continues t.tokenType = true ∧
    ∀ p ∈ bs, ∃ g, p = .blank g

/-- The last of the tokens belongs to a statement. -/
def EndsProper (ts : List Token) : Prop := ∃ a t, ts = a ++ [t] ∧ Proper t

/-- No carriage return between tokens, and every line continued by a backslash has a token. -/
def PlainLines (ps : List Piece) : Prop :=
  Piece.blank ['\r'] ∉ ps ∧
    ∀ a mid b, ps = a ++ .continuation mid :: b → EndsProper (toks a)

end Ws.Spec
