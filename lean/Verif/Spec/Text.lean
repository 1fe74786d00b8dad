import Verif.Spec.Write
import Verif.Spec.Scan
import Verif.Spec.EnvLaws
/-! Writing a syntax tree as a source: on lines, with indentation. Independent of the scanner, the parser
and the grammar. -/
namespace Ws.Spec
open Ws

/-! ### Tokens, with indented blocks -/

def indentTok : Token := tok .indent []
def outdentTok : Token := tok .outdent []

/-- The token is at the end of a line. -/
def isLineEnd (t : Token) : Bool := t.tokenType == .terminator || t.tokenType == .outdent

/-- A block with the tokens `w` in it. It is indented, unless it is empty or does not end with a line (but
with a closing brace). -/
def lineBlock (w : List Token) : List Token :=
  if w.getLast?.any isLineEnd then lineEnd :: indentTok :: w ++ [outdentTok] else openBrace :: w ++ [closeBrace]

mutual
/-- Methods, one after the other. -/
def lineMethods : List NamedFun → List Token
  | [] => []
  | .mk x (.mk ps body k loc) :: ms => (if k = .classMethod then [tok .class c!"class"] else []) ++
      name x loc :: openParen :: writeParams ps ++ closeParen :: lineBlock (lineStmts body) ++ lineMethods ms

/-- The tokens of a statement. The bodies of functions, classes, methods, branches and loops are indented;
function expressions and other blocks are in braces. `body` is whether the statement is a body. -/
def lineStmt (body : Bool) : Stmt → List Token
  | .block ss => if body then lineBlock (lineStmts ss) else openBrace :: lineStmts ss ++ [closeBrace]
  | .class x none ms loc => tok .class c!"class" :: name x loc :: lineBlock (lineMethods ms)
  | .class x (some e) ms loc => tok .class c!"class" :: name x loc :: tok .less c!"<" :: writeExpr e ++
      lineBlock (lineMethods ms)
  | .fun (.mk x (.mk ps ss _ loc)) => tok .fun c!"fun" :: name x loc :: openParen :: writeParams ps ++
      closeParen :: lineBlock (lineStmts ss)
  | .if c a none => tok .if c!"if" :: openParen :: writeExpr c ++ closeParen :: lineStmt true a
  | .if c a (some b) => tok .if c!"if" :: openParen :: writeExpr c ++ closeParen :: lineStmt true a ++
      tok .else c!"else" :: lineStmt false b
  | .while c b => tok .while c!"while" :: openParen :: writeExpr c ++ closeParen :: lineStmt true b
  | .whileIncrement c b i => tok .for c!"for" :: openParen :: tok .semicolon c!";" :: writeExpr c ++
      tok .semicolon c!";" :: writeExpr i ++ closeParen :: lineStmt true b
  | s => writeStmt s

/-- Statements, one after the other. -/
def lineStmts : List Stmt → List Token
  | [] => []
  | s :: ss => lineStmt false s ++ lineStmts ss
end

/-! ### Text -/

/-- The clusters that spell a token. `num` gives the text of numbers. -/
def spell (env : Env) (num : F64 → Str) (t : Token) : List Str :=
  match t.tokenType with
  | .identifier => env.segment t.lexeme
  | .string => ['"'] :: (env.segment (t.stringLiteral.getD []) ++ [['"']])
  | .number => (num (t.floatLiteral.getD 0)).map ([·])
  | _ => t.lexeme.map ([·])

/-- The tokens as text: two spaces at the beginning of a line for each open block, and a space between
tokens, but not in front of the parenthesis of a call. `fresh` is whether a line begins. -/
def layout (env : Env) (num : F64 → Str) (depth : Nat) (fresh : Bool) : List Token → List Str
  | [] => []
  | t :: ts =>
    match t.tokenType with
    | .indent => layout env num (depth + 1) fresh ts
    | .outdent => layout env num (depth - 1) fresh ts
    | .terminator => ['\n'] :: layout env num depth true ts
    | k => (if fresh then List.replicate (2 * depth) [' '] else if k = .leftParenAbutting then [] else [[' ']]) ++
        (spell env num t ++ layout env num depth false ts)

/-- The text of a program. -/
def programText (env : Env) (num : F64 → Str) (sts : List Stmt) : List Str := layout env num 0 true (lineStmts sts)

/-- The text of a program with braces around every block, where no line is indented. -/
def braceText (env : Env) (num : F64 → Str) (sts : List Stmt) : List Str := layout env num 0 true (writeStmts sts)

/-- A name: its clusters are those of a word, and it is no keyword. -/
def IsName (env : Env) (s : Str) : Prop :=
  (∃ g r, env.segment s = g :: r ∧ WordStart env g ∧ ∀ h ∈ r, WordPart env h) ∧ ∀ k, keyword k ≠ some s

/-- The token can be spelled: names are names, no quotes are in strings, and numbers have a text. -/
structure Spellable (env : Env) (num : F64 → Str) (t : Token) : Prop where
  name : t.tokenType = .identifier → IsName env t.lexeme
  string : t.tokenType = .string → ∀ s, t.stringLiteral = some s → ['"'] ∉ env.segment s
  number : t.tokenType = .number → ∀ x, t.floatLiteral = some x → NumberText (num x) ∧ env.parseF64 (num x) = some x

/-- The number of blocks that are open at the end. -/
def openBlocks (ts : List Token) : Nat :=
  ts.countP (·.tokenType == .indent) - ts.countP (·.tokenType == .outdent)

/-- What can be written as text: a tree that can be written as tokens, where no statement begins with a
map, names, strings and numbers can be spelled, and no more than 32767 blocks are inside one another. -/
structure Printable (env : Env) (num : F64 → Str) (sts : List Stmt) : Prop where
  writable : WritableStmts false sts
  /-- `writeStmt` indents statements that begin with a map, and nothing else. -/
  noMap : ∀ t ∈ writeStmts sts, t.tokenType ≠ .indent
  spellable : ∀ t ∈ lineStmts sts, Spellable env num t
  shallow : ∀ a b, lineStmts sts = a ++ b → openBlocks a ≤ 32767

/-- Part of a text, cut where clusters end, has the same clusters. -/
def SliceLaw (env : Env) : Prop := ∀ source a b c, env.segment source = a ++ b ++ c → env.segment b.flatten = b

/-- `num` gives a text for every number that has a text. -/
def WritesNumbers (env : Env) (num : F64 → Str) : Prop :=
  ∀ s x, NumberText s → env.parseF64 s = some x → NumberText (num x) ∧ env.parseF64 (num x) = some x

end Ws.Spec
