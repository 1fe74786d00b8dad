import Verif.Model.Base
/-! Model of `src/token.rs`, `src/source_loc.rs` and `src/error.rs`. -/
namespace Ws

/-- `token.rs:4-64` `TokenType`. -/
inductive TokenType where
  | indent | outdent | terminator
  | leftParen | leftParenAbutting | rightParen | leftBrace | rightBrace | leftBracket | rightBracket
  | colon | comma | dot | minus | plus | semicolon | slash | star
  | bang | bangEqual | equal | equalEqual | greater | greaterEqual | less | lessEqual
  | identifier | string | number
  | and | break | class | continue | else | false | fun | for | if | nil | or | print | return
  | super | this | true | var | while
  | eof
  deriving Repr, DecidableEq

/-- `token.rs:66-74` `Token`. `line: u32` and `column: u16` are kept as naturals; that they stay in
range is a theorem (see the saturating operations in `Base`). -/
structure Token where
  tokenType : TokenType
  lexeme : Str
  stringLiteral : Option Str
  floatLiteral : Option F64
  line : Nat
  column : Nat
  deriving Repr, DecidableEq

/-- `source_loc.rs:14-18` `SourceLoc`. -/
structure SourceLoc where
  line : Nat
  column : Nat
  deriving Repr, DecidableEq

/-- `source_loc.rs:26-30` `SourceLoc::default()`. -/
def SourceLoc.default : SourceLoc := ⟨1, 1⟩

/-- `source_loc.rs:32-36` `SourceLoc::from(&Token)`. -/
def Token.loc (t : Token) : SourceLoc := ⟨t.line, t.column⟩

/-- `error.rs:25-30` `ParseErrorCause`. -/
structure Cause where
  loc : SourceLoc
  token : Option Str
  message : String
  deriving Repr, DecidableEq

/-- `error.rs:33-39` `ParseErrorCause::new`. -/
def Cause.new (loc : SourceLoc) (message : String) : Cause := ⟨loc, none, message⟩

/-- `error.rs:41-51` `ParseErrorCause::new_with_location`. -/
def Cause.newWithLocation (loc : SourceLoc) (token : Str) (message : String) : Cause :=
  ⟨loc, some token, message⟩

/-- `error.rs:3-12` `ParseError`: its list of causes. -/
abbrev ParseError := List Cause

end Ws
