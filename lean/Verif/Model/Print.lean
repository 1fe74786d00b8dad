import Verif.Model.Js
/-! Model of what `main` writes: the `Debug` implementations derived in `src/ast.rs`, `src/environment.rs`
and `src/source_loc.rs`, as rendered by `{:#?}` (`main.rs:108`), and the lines on standard error.

What `derive(Debug)` and `{:#?}` do is taken from the standard library: `debug_tuple`, `debug_struct`,
`debug_list` and `debug_map` put each field, element or entry on lines of its own, through a `PadAdapter`,
and a comma after it. `Box` shows its content, `Cell` is a struct with a field `value`, and an `IndexMap`
is a map in order of insertion. -/
namespace Ws

mutual
/-- What a `Debug` implementation shows. -/
inductive Dbg where
  /-- something without fields: a number, a boolean or the name of a variant -/
  | word (s : Str)
  | float (x : F64)
  | str (s : Str)
  | tuple (name : Str) (fields : List Dbg)
  | struct (name : Str) (fields : List DbgField)
  | list (elements : List Dbg)
  /-- a map with strings for keys -/
  | map (entries : List DbgField)
/-- A field or an entry of a map. -/
inductive DbgField where
  | mk (name : Str) (value : Dbg)
end

/-- `core::fmt::builders::PadAdapter`: four spaces before every line that something is written on.
The flag says that a line begins. -/
def padFrom : Bool → Str → Str
  | _, [] => []
  | true, c :: s => c!"    " ++ c :: padFrom (c == '\n') s
  | false, c :: s => c :: padFrom (c == '\n') s

/-- How things are written that are only known as bits: `{:?}` of an `f64`, and the characters that
`char::escape_debug` calls unprintable or grapheme extending. -/
structure Style where
  float : F64 → Str
  escaped : Char → Bool

mutual
/-- `{:#?}`. -/
def Dbg.text (st : Style) : Dbg → Str
  | .word s => s
  | .float x => st.float x
  | .str s => debugStr st.escaped s
  | .tuple name [] => name
  | .tuple name (f :: fs) => name ++ c!"(\n" ++ elementsText st (f :: fs) ++ c!")"
  | .struct name [] => name
  | .struct name (f :: fs) => name ++ c!" {\n" ++ fieldsText st (f :: fs) ++ c!"}"
  | .list [] => c!"[]"
  | .list (x :: xs) => c!"[\n" ++ elementsText st (x :: xs) ++ c!"]"
  | .map [] => c!"{}"
  | .map (e :: es) => c!"{\n" ++ entriesText st (e :: es) ++ c!"}"
/-- Fields of a tuple, or elements of a list. -/
def elementsText (st : Style) : List Dbg → Str
  | [] => []
  | d :: ds => padFrom true (d.text st ++ c!",\n") ++ elementsText st ds
/-- Fields of a struct. -/
def fieldsText (st : Style) : List DbgField → Str
  | [] => []
  | .mk name d :: ds => padFrom true (name ++ c!": " ++ d.text st ++ c!",\n") ++ fieldsText st ds
/-- Entries of a map. -/
def entriesText (st : Style) : List DbgField → Str
  | [] => []
  | .mk key d :: ds => padFrom true (debugStr st.escaped key ++ c!": " ++ d.text st ++ c!",\n") ++ entriesText st ds
end

/-! ### The syntax tree -/

/-- An integer. -/
def natDbg (n : Nat) : Dbg := .word (decimal n)

/-- `source_loc.rs:14-18` `SourceLoc`. -/
def locDbg (l : SourceLoc) : Dbg := .struct c!"SourceLoc" [.mk c!"line" (natDbg l.line), .mk c!"column" (natDbg l.column)]

/-- A `Cell`. -/
def cellDbg (d : Dbg) : Dbg := .struct c!"Cell" [.mk c!"value" d]

/-- `environment.rs:38-43` `VarLoc`. -/
def varLocDbg (c : VarLoc) : Dbg := .struct c!"VarLoc" [.mk c!"distance" (natDbg c.distance), .mk c!"index" (natDbg c.index)]

/-- `environment.rs:15-16` `SlotIndex`. -/
def slotDbg (s : SlotIndex) : Dbg := .tuple c!"SlotIndex" [natDbg s.index]

/-- `ast.rs:118-122` `Parameter`. -/
def paramDbg (p : Parameter) : Dbg := .struct c!"Parameter" [.mk c!"name" (.str p.name), .mk c!"source_loc" (locDbg p.loc)]

/-- `ast.rs:129-135` `FunctionType`. -/
def funTypeDbg : FunctionType → Dbg
  | .plainFunction => .word c!"PlainFunction"
  | .method => .word c!"Method"
  | .initializer => .word c!"Initializer"
  | .classMethod => .word c!"ClassMethod"

/-- `ast.rs:142-146` `UnaryOperator`. -/
def unaryDbg : UnaryOperator → Dbg
  | .minus => .word c!"Minus"
  | .not => .word c!"Not"

/-- `ast.rs:153-166` `BinaryOperator`. -/
def binaryDbg : BinaryOperator → Dbg
  | .plus => .word c!"Plus"
  | .minus => .word c!"Minus"
  | .multiply => .word c!"Multiply"
  | .divide => .word c!"Divide"
  | .equal => .word c!"Equal"
  | .notEqual => .word c!"NotEqual"
  | .less => .word c!"Less"
  | .lessEqual => .word c!"LessEqual"
  | .greater => .word c!"Greater"
  | .greaterEqual => .word c!"GreaterEqual"

/-- `ast.rs:173-177` `LogicalOperator`. -/
def logicalDbg : LogicalOperator → Dbg
  | .and => .word c!"And"
  | .or => .word c!"Or"

mutual
/-- `ast.rs:52-73` `Expr`. -/
def exprDbg : Expr → Dbg
  | .assign x cell rhs loc => .tuple c!"Assign" [.str x, cellDbg (varLocDbg cell), exprDbg rhs, locDbg loc]
  | .call callee args loc => .tuple c!"Call" [exprDbg callee, .list (exprsDbg args), locDbg loc]
  | .binary a op b loc => .tuple c!"Binary" [exprDbg a, binaryDbg op, exprDbg b, locDbg loc]
  | .function d => .tuple c!"Function" [funDbg d]
  | .get o x loc => .tuple c!"Get" [exprDbg o, .str x, locDbg loc]
  | .getIndex a i loc => .tuple c!"GetIndex" [exprDbg a, exprDbg i, locDbg loc]
  | .grouping e => .tuple c!"Grouping" [exprDbg e]
  | .literalArray es => .tuple c!"LiteralArray" [.list (exprsDbg es)]
  | .literalBool true => .tuple c!"LiteralBool" [.word c!"true"]
  | .literalBool false => .tuple c!"LiteralBool" [.word c!"false"]
  | .literalMap ms => .tuple c!"LiteralMap" [.struct c!"Map" [.mk c!"map" (.map (entriesDbg ms))]]
  | .literalNumber x => .tuple c!"LiteralNumber" [.float x]
  | .literalNil => .word c!"LiteralNil"
  | .literalString s => .tuple c!"LiteralString" [.str s]
  | .logical a op b => .tuple c!"Logical" [exprDbg a, logicalDbg op, exprDbg b]
  | .set o x v loc => .tuple c!"Set" [exprDbg o, .str x, exprDbg v, locDbg loc]
  | .setIndex a i v loc => .tuple c!"SetIndex" [exprDbg a, exprDbg i, exprDbg v, locDbg loc]
  | .super cell x loc => .tuple c!"Super" [cellDbg (varLocDbg cell), .str x, locDbg loc]
  | .variable x cell loc => .tuple c!"Variable" [.str x, cellDbg (varLocDbg cell), locDbg loc]
  | .unary op e loc => .tuple c!"Unary" [unaryDbg op, exprDbg e, locDbg loc]
/-- A `Vec<Expr>`. -/
def exprsDbg : List Expr → List Dbg
  | [] => []
  | e :: es => exprDbg e :: exprsDbg es
/-- The entries of an `IndexMap`. -/
def entriesDbg : List MapEntry → List DbgField
  | [] => []
  | .mk k v :: ms => .mk k (exprDbg v) :: entriesDbg ms
/-- `ast.rs:106-112` `FunctionDefinition`. -/
def funDbg : FunDef → Dbg
  | .mk params body funType loc => .struct c!"FunctionDefinition" [.mk c!"parameters" (.list (params.map paramDbg)),
      .mk c!"body" (.list (stmtsDbg body)), .mk c!"fun_type" (funTypeDbg funType), .mk c!"source_loc" (locDbg loc)]
/-- `ast.rs:96-100` `NamedFunctionDefinition`. -/
def namedDbg : NamedFun → Dbg
  | .mk x d => .struct c!"NamedFunctionDefinition" [.mk c!"name" (.str x), .mk c!"fun_def" (funDbg d)]
/-- A `Vec<NamedFunctionDefinition>`. -/
def methodsDbg : List NamedFun → List Dbg
  | [] => []
  | m :: ms => namedDbg m :: methodsDbg ms
/-- `ast.rs:28-42` `Stmt`, with `ClassDefinition` (`ast.rs:84-90`). -/
def stmtDbg : Stmt → Dbg
  | .block body => .tuple c!"Block" [.list (stmtsDbg body)]
  | .break loc => .tuple c!"Break" [locDbg loc]
  | .class x superclass methods loc => .tuple c!"Class" [.struct c!"ClassDefinition" [.mk c!"name" (.str x),
      .mk c!"superclass" (superclassDbg superclass), .mk c!"methods" (.list (methodsDbg methods)),
      .mk c!"source_loc" (locDbg loc)]]
  | .continue loc => .tuple c!"Continue" [locDbg loc]
  | .expression e => .tuple c!"Expression" [exprDbg e]
  | .fun f => .tuple c!"Fun" [namedDbg f]
  | .if c a b => .tuple c!"If" [exprDbg c, stmtDbg a, elseDbg b]
  | .print e => .tuple c!"Print" [exprDbg e]
  | .return e loc => .tuple c!"Return" [exprDbg e, locDbg loc]
  | .var x slot e loc => .tuple c!"Var" [.str x, cellDbg (slotDbg slot), exprDbg e, locDbg loc]
  | .while c b => .tuple c!"While" [exprDbg c, stmtDbg b]
  | .whileIncrement c b i => .tuple c!"WhileIncrement" [exprDbg c, stmtDbg b, exprDbg i]
/-- An `Option<Box<Expr>>`. -/
def superclassDbg : Option Expr → Dbg
  | none => .word c!"None"
  | some e => .tuple c!"Some" [exprDbg e]
/-- An `Option<Box<Stmt>>`. -/
def elseDbg : Option Stmt → Dbg
  | none => .word c!"None"
  | some s => .tuple c!"Some" [stmtDbg s]
/-- A `Vec<Stmt>`. -/
def stmtsDbg : List Stmt → List Dbg
  | [] => []
  | s :: ss => stmtDbg s :: stmtsDbg ss
end

/-! ### The program -/

/-- What is written to standard output (`main.rs:54`, `65`, `108`). `error` is the `{:?}` of the
`io::Error`. -/
def Printed.out (st : Style) (error : Str) : Printed → Str
  | .prompt => c!"> "
  | .statements sts => (Dbg.list (stmtsDbg sts)).text st ++ c!"\n"
  | .errors _ => []
  | .readError => c!"Error reading stdin: " ++ error ++ c!"\n"

/-- What is written to standard error (`main.rs:133-145`). -/
def Printed.err : Printed → Str
  | .errors lines => lines.flatMap fun l => l.toList ++ c!"\n"
  | _ => []

end Ws
