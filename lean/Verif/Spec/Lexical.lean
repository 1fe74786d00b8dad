import Verif.Model.Token
/-! Specification of the lexical structure, independent of the scanner: a source is a sequence of
pieces, each of which is a token with its spelling, blank space, a comment, or a line continuation.
(`Spec/Scan.lean` adds pieces with an error, for sources that are not accepted.) Layout tokens (Indent, Outdent) are pieces without text.

A source is given by its grapheme clusters; `env` supplies the Unicode classes and `f64` parsing. -/
namespace Ws.Spec
open Ws

/-- A piece of the source. -/
inductive Piece where
  /-- An Indent or Outdent token. -/
  | layout (t : Token)
  /-- A token and the clusters that spell it. -/
  | token (t : Token) (l : List Str)
  /-- A space, carriage return, or newline. -/
  | blank (g : Str)
  /-- `//` and the clusters up to the end of the line. -/
  | comment (body : List Str)
  /-- A backslash, the clusters `mid`, and a newline. -/
  | continuation (mid : List Str)
  /-- An error and the clusters that caused it. Only a source that is not accepted has one. -/
  | fault (c : Cause) (l : List Str)

/-- The text of a piece. -/
def Piece.text : Piece → List Str
  | .layout _ => []
  | .token _ l => l
  | .blank g => [g]
  | .comment body => ['/'] :: ['/'] :: body
  | .continuation mid => ['\\'] :: (mid ++ [['\n']])
  | .fault _ l => l

/-- The token of a piece. -/
def Piece.tok : Piece → List Token
  | .layout t => [t]
  | .token t _ => [t]
  | _ => []

/-- The text of a sequence of pieces. -/
def text (ps : List Piece) : List Str := ps.flatMap Piece.text
/-- The tokens of a sequence of pieces. -/
def toks (ps : List Piece) : List Token := ps.flatMap Piece.tok

/-- The 1-based line after the clusters `before`: newlines are counted, up to `u32::MAX`. -/
def lineAfter (before : List Str) : Nat := min (1 + before.count ['\n']) u32Max
/-- The 1-based column after the clusters `before`: clusters since the last newline are counted, up to
`u16::MAX`. -/
def columnAfter (before : List Str) : Nat :=
  min (1 + (before.reverse.takeWhile (fun g => g ≠ ['\n'])).length) u16Max

/-- The keywords. -/
def keyword : TokenType → Option Str
  | .and => some c!"and" | .break => some c!"break" | .class => some c!"class"
  | .continue => some c!"continue" | .else => some c!"else" | .false => some c!"false"
  | .for => some c!"for" | .fun => some c!"fun" | .if => some c!"if" | .nil => some c!"nil"
  | .or => some c!"or" | .print => some c!"print" | .return => some c!"return"
  | .super => some c!"super" | .this => some c!"this" | .true => some c!"true"
  | .var => some c!"var" | .while => some c!"while"
  | _ => none

/-- The spelling of the operators and punctuation. -/
def operator : TokenType → Option Str
  | .leftParen => some c!"(" | .leftParenAbutting => some c!"(" | .rightParen => some c!")"
  | .leftBrace => some c!"{" | .rightBrace => some c!"}"
  | .leftBracket => some c!"[" | .rightBracket => some c!"]"
  | .colon => some c!":" | .comma => some c!"," | .dot => some c!"." | .minus => some c!"-"
  | .plus => some c!"+" | .semicolon => some c!";" | .slash => some c!"/" | .star => some c!"*"
  | .bang => some c!"!" | .bangEqual => some c!"!=" | .equal => some c!"="
  | .equalEqual => some c!"==" | .greater => some c!">" | .greaterEqual => some c!">="
  | .less => some c!"<" | .lessEqual => some c!"<="
  | _ => none

/-- The tokens after which the line goes on. -/
def continues : TokenType → Bool
  | .leftParen | .leftParenAbutting | .leftBrace | .leftBracket | .colon | .comma | .dot | .minus
  | .plus | .slash | .star | .greater | .greaterEqual | .less | .lessEqual => true
  | _ => false

/-- A decimal digit. -/
def Digit (g : Str) : Prop :=
  g ∈ [c!"0", c!"1", c!"2", c!"3", c!"4", c!"5", c!"6", c!"7", c!"8", c!"9"]

instance (g : Str) : Decidable (Digit g) := inferInstanceAs (Decidable (g ∈ _))

/-- A cluster that can start a word: its first character is a letter or underscore. -/
def WordStart (env : Env) (g : Str) : Prop := ∃ c r, g = c :: r ∧ (env.isAlphabetic c = true ∨ c = '_')

/-- A cluster that can continue a word: its first character is a letter, digit or underscore. -/
def WordPart (env : Env) (g : Str) : Prop :=
  ∃ c r, g = c :: r ∧ (env.isAlphanumeric c = true ∨ c = '_')

/-- An operator, taken as long as possible. -/
structure IsOperator (t : Token) (l rest : List Str) : Prop where
  spelling : operator t.tokenType = some t.lexeme
  chars : l = t.lexeme.map ([·])
  noString : t.stringLiteral = none
  noFloat : t.floatLiteral = none
  munch : t.tokenType ∈ [.bang, .equal, .greater, .less] → rest.head? ≠ some ['=']
  noComment : t.tokenType = .slash → rest.head? ≠ some ['/']

/-- A keyword or identifier, taken as long as possible. -/
structure IsWord (env : Env) (t : Token) (l rest : List Str) : Prop where
  start : ∃ g r, l = g :: r ∧ WordStart env g ∧ ∀ h ∈ r, WordPart env h
  munch : ∀ g, rest.head? = some g → ¬ WordPart env g
  kind : keyword t.tokenType = some t.lexeme ∨
    t.tokenType = .identifier ∧ ∀ k, keyword k ≠ some t.lexeme
  noString : t.stringLiteral = none
  noFloat : t.floatLiteral = none

/-- A number: digits, and possibly a dot and more digits, taken as long as possible. -/
structure IsNumber (env : Env) (t : Token) (l rest : List Str) : Prop where
  kind : t.tokenType = .number
  shape : ∃ whole frac, whole ≠ [] ∧ (∀ g ∈ whole, Digit g) ∧ (∀ g ∈ frac, Digit g) ∧
    (l = whole ∧ frac = [] ∧
        (∀ r, rest = ['.'] :: r → ∀ g, r.head? = some g → ¬ Digit g) ∨
      l = whole ++ ['.'] :: frac ∧ frac ≠ [])
  munch : ∀ g, rest.head? = some g → ¬ Digit g
  value : t.floatLiteral = env.parseF64 t.lexeme
  valid : t.floatLiteral ≠ none
  noString : t.stringLiteral = none

/-- A string: a quote, clusters that are not quotes, and a quote. -/
structure IsString (t : Token) (l : List Str) : Prop where
  kind : t.tokenType = .string
  shape : ∃ body, l = ['"'] :: (body ++ [['"']]) ∧ ['"'] ∉ body ∧ t.stringLiteral = some body.flatten
  noFloat : t.floatLiteral = none

/-- The end of a logical line. -/
structure IsTerminator (t : Token) (l : List Str) : Prop where
  kind : t.tokenType = .terminator
  shape : l = [['\n']]
  noString : t.stringLiteral = none
  noFloat : t.floatLiteral = none

/-- The token is located after the clusters `before`. -/
def LocatedAfter (t : Token) (before : List Str) : Prop :=
  t.line = lineAfter before ∧ t.column = columnAfter before

/-- A piece is well formed between the clusters `before` and `rest`. -/
def PieceOK (env : Env) (before : List Str) (p : Piece) (rest : List Str) : Prop :=
  match p with
  | .layout t =>
    (t.tokenType = .indent ∨ t.tokenType = .outdent) ∧ LocatedAfter t before ∧
      rest.head? = some t.lexeme ∧ t.lexeme ∉ [[' '], ['\r'], ['\n'], ['\\']]
  | .token t l =>
    t.lexeme = l.flatten ∧ LocatedAfter t before ∧
      (IsOperator t l rest ∨ IsWord env t l rest ∨ IsNumber env t l rest ∨ IsString t l ∨
        IsTerminator t l)
  | .blank g => g = [' '] ∨ g = ['\r'] ∨ g = ['\n']
  | .comment body => ['\n'] ∉ body ∧ (rest = [] ∨ rest.head? = some ['\n'])
  | .continuation mid => ∃ n, mid = List.replicate n [' '] ∨ mid = List.replicate n [' '] ++ [['\r']]
  | .fault _ _ => False

/-- The tokens at the end: an Outdent for every open block, and Eof. -/
def Closing (c : List Token) : Prop :=
  ∃ n outdent eof, c = List.replicate n outdent ++ [eof] ∧ outdent.tokenType = .outdent ∧
    eof.tokenType = .eof

/-- `ps` is a complete reading of the source with clusters `source`, with tokens `ts`. -/
structure Reads (env : Env) (source : List Str) (ps : List Piece) (ts : List Token) : Prop where
  text : text ps = source
  tokens : ∃ c, ts = toks ps ++ c ∧ Closing c
  pieces : ∀ a p b, ps = a ++ p :: b → PieceOK env (Spec.text a) p (Spec.text b)

end Ws.Spec

namespace Ws.Spec
open Ws

/-- The Unicode classes agree with ASCII on ASCII characters, as Rust documents for
`char::is_alphabetic` and `char::is_alphanumeric`. -/
structure AsciiLaws (env : Env) : Prop where
  alphabetic : ∀ c : Char, c.toNat < 128 → env.isAlphabetic c = c.isAlpha
  alphanumeric : ∀ c : Char, c.toNat < 128 → env.isAlphanumeric c = c.isAlphanum

end Ws.Spec
