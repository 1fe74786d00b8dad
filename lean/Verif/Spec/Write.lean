import Verif.Spec.Shape
/-! Writing a syntax tree as tokens, and the syntax trees that can be written. Independent of the parser
and of the grammar: it uses the token and syntax tree types only. -/
namespace Ws.Spec
open Ws

/-- A token with its text and location. -/
def tok (tt : TokenType) (text : Str) (loc : SourceLoc := .default) : Token :=
  ⟨tt, text, none, none, loc.line, loc.column⟩

/-- An identifier. -/
def name (text : Str) (loc : SourceLoc := .default) : Token := tok .identifier text loc

/-- The token of a binary operator. -/
def binaryTok : BinaryOperator → SourceLoc → Token
  | .plus, loc => tok .plus c!"+" loc
  | .minus, loc => tok .minus c!"-" loc
  | .multiply, loc => tok .star c!"*" loc
  | .divide, loc => tok .slash c!"/" loc
  | .equal, loc => tok .equalEqual c!"==" loc
  | .notEqual, loc => tok .bangEqual c!"!=" loc
  | .less, loc => tok .less c!"<" loc
  | .lessEqual, loc => tok .lessEqual c!"<=" loc
  | .greater, loc => tok .greater c!">" loc
  | .greaterEqual, loc => tok .greaterEqual c!">=" loc

/-- The token of a logical operator. -/
def logicalTok : LogicalOperator → Token
  | .and => tok .and c!"and"
  | .or => tok .or c!"or"

/-- The token of a prefix operator. -/
def unaryTok : UnaryOperator → SourceLoc → Token
  | .minus, loc => tok .minus c!"-" loc
  | .not, loc => tok .bang c!"!" loc

/-- A string with its value. -/
def stringTok (s : Str) : Token := ⟨.string, ['"'] ++ s ++ ['"'], some s, none, 1, 1⟩

/-- A number with its value. -/
def numberTok (x : F64) : Token := ⟨.number, [], none, some x, 1, 1⟩

/-- A variable: `this` or an identifier. -/
def variableTok (x : Str) (loc : SourceLoc) : Token :=
  if x = c!"this" then tok .this x loc else name x loc

def openBrace : Token := tok .leftBrace c!"{"
def closeBrace : Token := tok .rightBrace c!"}"
def openParen : Token := tok .leftParen c!"("
def closeParen : Token := tok .rightParen c!")"
def comma : Token := tok .comma c!","
def lineEnd : Token := tok .terminator c!"\n"

/-- Names separated by commas. -/
def writeParams : List Parameter → List Token
  | [] => []
  | [p] => [name p.name p.loc]
  | p :: q :: ps => name p.name p.loc :: comma :: writeParams (q :: ps)

/-- The expression starts with a map. -/
def startsMap : Expr → Bool
  | .literalMap _ => true
  | .call f _ _ => startsMap f
  | .get o _ _ => startsMap o
  | .getIndex a _ _ => startsMap a
  | .set o _ _ _ => startsMap o
  | .setIndex a _ _ _ => startsMap a
  | .binary a _ _ _ => startsMap a
  | .logical a _ _ => startsMap a
  | _ => false

mutual
/-- The tokens of an expression. -/
def writeExpr : Expr → List Token
  | .assign x _ r loc => name x :: tok .equal c!"=" loc :: writeExpr r
  | .call f args loc => writeExpr f ++ tok .leftParenAbutting c!"(" loc :: writeExprs args ++ [closeParen]
  | .binary a op b loc => writeExpr a ++ binaryTok op loc :: writeExpr b
  | .function (.mk ps body _ loc) => tok .fun c!"fun" loc :: openParen :: writeParams ps ++
      closeParen :: openBrace :: writeStmts body ++ [closeBrace]
  | .get o x loc => writeExpr o ++ [tok .dot c!"." loc, name x]
  | .getIndex a i loc => writeExpr a ++ tok .leftBracket c!"[" loc :: writeExpr i ++ [tok .rightBracket c!"]"]
  | .grouping e => openParen :: writeExpr e ++ [closeParen]
  | .literalArray es => tok .leftBracket c!"[" :: writeExprs es ++ [tok .rightBracket c!"]"]
  | .literalBool true => [tok .true c!"true"]
  | .literalBool false => [tok .false c!"false"]
  | .literalMap ms => openBrace :: writeEntries ms ++ [closeBrace]
  | .literalNumber x => [numberTok x]
  | .literalNil => [tok .nil c!"nil"]
  | .literalString s => [stringTok s]
  | .logical a op b => writeExpr a ++ logicalTok op :: writeExpr b
  | .set o x v loc => writeExpr o ++ tok .dot c!"." :: name x :: tok .equal c!"=" loc :: writeExpr v
  | .setIndex a i v loc => writeExpr a ++ tok .leftBracket c!"[" :: writeExpr i ++
      tok .rightBracket c!"]" :: tok .equal c!"=" loc :: writeExpr v
  | .super _ x loc => [tok .super c!"super" loc, tok .dot c!".", name x]
  | .variable x _ loc => [variableTok x loc]
  | .unary op e loc => unaryTok op loc :: writeExpr e

/-- Expressions separated by commas. -/
def writeExprs : List Expr → List Token
  | [] => []
  | [e] => writeExpr e
  | e :: e' :: es => writeExpr e ++ comma :: writeExprs (e' :: es)

/-- Map entries separated by commas. -/
def writeEntries : List MapEntry → List Token
  | [] => []
  | [.mk k v] => stringTok k :: tok .colon c!":" :: writeExpr v
  | .mk k v :: m :: ms => stringTok k :: tok .colon c!":" :: writeExpr v ++ comma :: writeEntries (m :: ms)

/-- Methods, one after the other. -/
def writeMethods : List NamedFun → List Token
  | [] => []
  | .mk x (.mk ps body k loc) :: ms => (if k = .classMethod then [tok .class c!"class"] else []) ++
      name x loc :: openParen :: writeParams ps ++ closeParen :: openBrace :: writeStmts body ++
      closeBrace :: writeMethods ms

/-- The tokens of a statement. A statement cannot start with a map, as that would be a block: the part
with the map is indented. -/
def writeStmt : Stmt → List Token
  | .block body => openBrace :: writeStmts body ++ [closeBrace]
  | .break loc => [tok .break c!"break" loc, lineEnd]
  | .continue loc => [tok .continue c!"continue" loc, lineEnd]
  | .class x none ms loc => tok .class c!"class" :: name x loc :: openBrace :: writeMethods ms ++ [closeBrace]
  | .class x (some e) ms loc => tok .class c!"class" :: name x loc :: tok .less c!"<" :: writeExpr e ++
      openBrace :: writeMethods ms ++ [closeBrace]
  | .expression (.set o x v loc) =>
    if startsMap o then
      tok .indent [] :: writeExpr o ++ tok .dot c!"." :: name x :: tok .outdent [] ::
        tok .equal c!"=" loc :: writeExpr v ++ [lineEnd]
    else writeExpr o ++ tok .dot c!"." :: name x :: tok .equal c!"=" loc :: writeExpr v ++ [lineEnd]
  | .expression (.setIndex a i v loc) =>
    if startsMap a then
      tok .indent [] :: writeExpr a ++ tok .leftBracket c!"[" :: writeExpr i ++
        tok .rightBracket c!"]" :: tok .outdent [] :: tok .equal c!"=" loc :: writeExpr v ++ [lineEnd]
    else writeExpr a ++ tok .leftBracket c!"[" :: writeExpr i ++
      tok .rightBracket c!"]" :: tok .equal c!"=" loc :: writeExpr v ++ [lineEnd]
  | .expression e =>
    if startsMap e then tok .indent [] :: writeExpr e ++ [tok .outdent [], lineEnd]
    else writeExpr e ++ [lineEnd]
  | .fun (.mk x (.mk ps body _ loc)) => tok .fun c!"fun" :: name x loc :: openParen :: writeParams ps ++
      closeParen :: openBrace :: writeStmts body ++ [closeBrace]
  | .if c a none => tok .if c!"if" :: openParen :: writeExpr c ++ closeParen :: writeStmt a
  | .if c a (some b) => tok .if c!"if" :: openParen :: writeExpr c ++ closeParen :: writeStmt a ++
      tok .else c!"else" :: writeStmt b
  | .print e => tok .print c!"print" :: writeExpr e ++ [lineEnd]
  | .return e loc => tok .return c!"return" loc :: writeExpr e ++ [lineEnd]
  | .var x _ e loc => tok .var c!"var" :: name x loc :: tok .equal c!"=" :: writeExpr e ++ [lineEnd]
  | .while c b => tok .while c!"while" :: openParen :: writeExpr c ++ closeParen :: writeStmt b
  | .whileIncrement c b i => tok .for c!"for" :: openParen :: tok .semicolon c!";" :: writeExpr c ++
      tok .semicolon c!";" :: writeExpr i ++ closeParen :: writeStmt b

/-- Statements, one after the other. -/
def writeStmts : List Stmt → List Token
  | [] => []
  | s :: ss => writeStmt s ++ writeStmts ss
end

/-- The statement is not a declaration. -/
def isStatement : Stmt → Bool
  | .class _ _ _ _ | .fun _ | .var _ _ _ _ => false
  | _ => true

/-- An `else` after the statement would belong to it. -/
def opensElse : Stmt → Bool
  | .if _ _ none => true
  | .if _ _ (some b) => opensElse b
  | .while _ b => opensElse b
  | .whileIncrement _ b _ => opensElse b
  | _ => false

/-- The superclass is a variable. -/
def IsSuperclass : Expr → Prop
  | .variable x c _ => x ≠ c!"this" ∧ c = .placeholder
  | _ => False

mutual
/-- The expression can be written: operands bind tightly enough, `this` is not assigned to, no call or
function has more than 255 arguments or parameters, the keys of a map are distinct, functions are not
methods, and variables are not resolved yet. `inLoop` is whether `break` is allowed in functions. -/
def Writable (inLoop : Bool) : Expr → Prop
  | .assign x c r _ => x ≠ c!"this" ∧ c = .placeholder ∧ Writable inLoop r
  | .call f args _ => 8 ≤ tightness f ∧ Writable inLoop f ∧ args.length ≤ 255 ∧ WritableExprs inLoop args
  | .binary a op b loc => tightness (.binary a op b loc) ≤ tightness a ∧
      tightness (.binary a op b loc) < tightness b ∧ Writable inLoop a ∧ Writable inLoop b
  | .function (.mk ps body k _) => ps.length ≤ 255 ∧ k = .plainFunction ∧ WritableStmts inLoop body
  | .get o _ _ => 8 ≤ tightness o ∧ Writable inLoop o
  | .getIndex a i _ => 8 ≤ tightness a ∧ Writable inLoop a ∧ Writable inLoop i
  | .grouping e => Writable inLoop e
  | .literalArray es => WritableExprs inLoop es
  | .literalMap ms => (ms.map MapEntry.key).Nodup ∧ WritableEntries inLoop ms
  | .logical a op b => tightness (.logical a op b) ≤ tightness a ∧
      tightness (.logical a op b) < tightness b ∧ Writable inLoop a ∧ Writable inLoop b
  | .set o _ v _ => 8 ≤ tightness o ∧ Writable inLoop o ∧ Writable inLoop v
  | .setIndex a i v _ => 8 ≤ tightness a ∧ Writable inLoop a ∧ Writable inLoop i ∧ Writable inLoop v
  | .super c _ _ => c = .placeholder
  | .variable _ c _ => c = .placeholder
  | .unary _ e _ => 7 ≤ tightness e ∧ Writable inLoop e
  | .literalBool _ | .literalNumber _ | .literalNil | .literalString _ => True

def WritableExprs (inLoop : Bool) : List Expr → Prop
  | [] => True
  | e :: es => Writable inLoop e ∧ WritableExprs inLoop es

def WritableEntries (inLoop : Bool) : List MapEntry → Prop
  | [] => True
  | .mk _ v :: ms => Writable inLoop v ∧ WritableEntries inLoop ms

def WritableMethods (inLoop : Bool) : List NamedFun → Prop
  | [] => True
  | .mk x (.mk ps body k _) :: ms =>
      ps.length ≤ 255 ∧ (k = .classMethod ∨ k = if x = c!"init" then .initializer else .method) ∧
      WritableStmts inLoop body ∧ WritableMethods inLoop ms

/-- The statement can be written: its expressions can, `break` and `continue` are in loops, branches and
bodies are not declarations, and no `else` would belong to an inner `if`. -/
def WritableStmt (inLoop : Bool) : Stmt → Prop
  | .block body => WritableStmts inLoop body
  | .break _ | .continue _ => inLoop = true
  | .class _ none ms _ => WritableMethods inLoop ms
  | .class _ (some e) ms _ => IsSuperclass e ∧ WritableMethods inLoop ms
  | .expression e => Writable inLoop e
  | .fun (.mk _ (.mk ps body k _)) => ps.length ≤ 255 ∧ k = .plainFunction ∧ WritableStmts inLoop body
  | .if c a none => Writable inLoop c ∧ isStatement a = true ∧ WritableStmt inLoop a
  | .if c a (some b) => Writable inLoop c ∧ isStatement a = true ∧ opensElse a = false ∧ WritableStmt inLoop a ∧
      isStatement b = true ∧ WritableStmt inLoop b
  | .print e | .return e _ => Writable inLoop e
  | .var _ s e _ => s = .placeholder ∧ Writable inLoop e
  | .while c b => Writable inLoop c ∧ isStatement b = true ∧ WritableStmt true b
  | .whileIncrement c b i => Writable inLoop c ∧ Writable inLoop i ∧ isStatement b = true ∧ WritableStmt true b

def WritableStmts (inLoop : Bool) : List Stmt → Prop
  | [] => True
  | s :: ss => WritableStmt inLoop s ∧ WritableStmts inLoop ss
end

end Ws.Spec
