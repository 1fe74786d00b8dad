import Verif.Model.Driver
/-! Model of the conversion of a result to a JavaScript value: the `serde::Serialize` implementations
derived in `src/ast.rs`, `src/environment.rs` and `src/source_loc.rs`, the one written by hand for `Map`,
and `serde_wasm_bindgen::to_value` (`wasm.rs:14-23`).

What the derived implementations and `serde_wasm_bindgen` (0.6, default `Serializer`) do is taken from
their documentation: a struct becomes an object with the field names as keys, a newtype struct its
content, a `Vec` or a tuple an array, `None` becomes `undefined`, `Some`, `Box` and `Cell` their content,
integers and floats become numbers, an enum without data the name of the variant, a map a `Map`; and an
enum with `#[serde(tag = "type", content = "args")]` an object with the name of the variant under
`type` and its content under `args` (no `args` for a variant without content). -/
namespace Ws

mutual
/-- A JavaScript value. Strings are kept as characters (the conversion to UTF-16 loses nothing). -/
inductive JsValue where
  | undefined
  | bool (b : Bool)
  | number (x : F64)
  | string (s : Str)
  | array (elements : List JsValue)
  | object (fields : List JsField)
  /-- a `Map`: its entries in order of insertion -/
  | map (entries : List JsField)
/-- A key and its value. -/
inductive JsField where
  | mk (key : Str) (value : JsValue)
end

/-- The key of a field. -/
def JsField.key : JsField → Str
  | .mk k _ => k

/-- `n as f64` for `n < 2^53`, as its bit pattern: exponent and then the fraction. -/
def f64OfNat (n : Nat) : F64 :=
  if n = 0 then 0 else (1023 + n.log2) * 2 ^ 52 + (n - 2 ^ n.log2) * 2 ^ (52 - n.log2)

/-- `Map.prototype.set`: an existing key keeps its place. -/
def mapSet (m : List JsField) (f : JsField) : List JsField :=
  if m.any (fun g => g.key == f.key) then m.map (fun g => if g.key == f.key then f else g) else m ++ [f]

/-- A variant with content (`ast.rs:24-27`, `48-51`: `serde(tag = "type", content = "args")`). -/
def tagged (name : Str) (args : JsValue) : JsValue := .object [.mk c!"type" (.string name), .mk c!"args" args]

/-- An integer field. -/
def natJs (n : Nat) : JsValue := .number (f64OfNat n)

/-- `source_loc.rs:10-18` `SourceLoc`. -/
def locJs (l : SourceLoc) : JsValue := .object [.mk c!"line" (natJs l.line), .mk c!"column" (natJs l.column)]

/-- `environment.rs:35-43` `VarLoc`. -/
def cellJs (c : VarLoc) : JsValue := .object [.mk c!"distance" (natJs c.distance), .mk c!"index" (natJs c.index)]

/-- `environment.rs:11-16` `SlotIndex`, a newtype struct. -/
def slotJs (s : SlotIndex) : JsValue := natJs s.index

/-- `ast.rs:114-122` `Parameter`. -/
def paramJs (p : Parameter) : JsValue := .object [.mk c!"name" (.string p.name), .mk c!"source_loc" (locJs p.loc)]

/-- `ast.rs:124-135` `FunctionType`. -/
def funTypeJs : FunctionType → JsValue
  | .plainFunction => .string c!"PlainFunction"
  | .method => .string c!"Method"
  | .initializer => .string c!"Initializer"
  | .classMethod => .string c!"ClassMethod"

/-- `ast.rs:137-146` `UnaryOperator`. -/
def unaryJs : UnaryOperator → JsValue
  | .minus => .string c!"Minus"
  | .not => .string c!"Not"

/-- `ast.rs:148-166` `BinaryOperator`. -/
def binaryJs : BinaryOperator → JsValue
  | .plus => .string c!"Plus"
  | .minus => .string c!"Minus"
  | .multiply => .string c!"Multiply"
  | .divide => .string c!"Divide"
  | .equal => .string c!"Equal"
  | .notEqual => .string c!"NotEqual"
  | .less => .string c!"Less"
  | .lessEqual => .string c!"LessEqual"
  | .greater => .string c!"Greater"
  | .greaterEqual => .string c!"GreaterEqual"

/-- `ast.rs:168-177` `LogicalOperator`. -/
def logicalJs : LogicalOperator → JsValue
  | .and => .string c!"And"
  | .or => .string c!"Or"

mutual
/-- `ast.rs:44-73` `Expr`. -/
def exprJs : Expr → JsValue
  | .assign x cell rhs loc => tagged c!"Assign" (.array [.string x, cellJs cell, exprJs rhs, locJs loc])
  | .call callee args loc => tagged c!"Call" (.array [exprJs callee, .array (exprsJs args), locJs loc])
  | .binary a op b loc => tagged c!"Binary" (.array [exprJs a, binaryJs op, exprJs b, locJs loc])
  | .function d => tagged c!"Function" (funJs d)
  | .get o x loc => tagged c!"Get" (.array [exprJs o, .string x, locJs loc])
  | .getIndex a i loc => tagged c!"GetIndex" (.array [exprJs a, exprJs i, locJs loc])
  | .grouping e => tagged c!"Grouping" (exprJs e)
  | .literalArray es => tagged c!"LiteralArray" (.array (exprsJs es))
  | .literalBool b => tagged c!"LiteralBool" (.bool b)
  | .literalMap ms => tagged c!"LiteralMap" (.map ((entriesJs ms).foldl mapSet []))
  | .literalNumber x => tagged c!"LiteralNumber" (.number x)
  | .literalNil => .object [.mk c!"type" (.string c!"LiteralNil")]
  | .literalString s => tagged c!"LiteralString" (.string s)
  | .logical a op b => tagged c!"Logical" (.array [exprJs a, logicalJs op, exprJs b])
  | .set o x v loc => tagged c!"Set" (.array [exprJs o, .string x, exprJs v, locJs loc])
  | .setIndex a i v loc => tagged c!"SetIndex" (.array [exprJs a, exprJs i, exprJs v, locJs loc])
  | .super cell x loc => tagged c!"Super" (.array [cellJs cell, .string x, locJs loc])
  | .variable x cell loc => tagged c!"Variable" (.array [.string x, cellJs cell, locJs loc])
  | .unary op e loc => tagged c!"Unary" (.array [unaryJs op, exprJs e, locJs loc])
/-- A `Vec<Expr>`. -/
def exprsJs : List Expr → List JsValue
  | [] => []
  | e :: es => exprJs e :: exprsJs es
/-- `ast.rs:268-283`: the entries of a `Map`, set one after the other. -/
def entriesJs : List MapEntry → List JsField
  | [] => []
  | .mk k v :: ms => .mk k (exprJs v) :: entriesJs ms
/-- `ast.rs:102-112` `FunctionDefinition`. -/
def funJs : FunDef → JsValue
  | .mk params body funType loc => .object [.mk c!"parameters" (.array (params.map paramJs)),
      .mk c!"body" (.array (stmtsJs body)), .mk c!"fun_type" (funTypeJs funType), .mk c!"source_loc" (locJs loc)]
/-- `ast.rs:92-100` `NamedFunctionDefinition`. -/
def namedJs : NamedFun → JsValue
  | .mk x d => .object [.mk c!"name" (.string x), .mk c!"fun_def" (funJs d)]
/-- A `Vec<NamedFunctionDefinition>`. -/
def methodsJs : List NamedFun → List JsValue
  | [] => []
  | m :: ms => namedJs m :: methodsJs ms
/-- `ast.rs:20-42` `Stmt`, with `ClassDefinition` (`ast.rs:80-90`). -/
def stmtJs : Stmt → JsValue
  | .block body => tagged c!"Block" (.array (stmtsJs body))
  | .break loc => tagged c!"Break" (locJs loc)
  | .class x none methods loc => tagged c!"Class" (.object [.mk c!"name" (.string x), .mk c!"superclass" .undefined,
      .mk c!"methods" (.array (methodsJs methods)), .mk c!"source_loc" (locJs loc)])
  | .class x (some e) methods loc => tagged c!"Class" (.object [.mk c!"name" (.string x), .mk c!"superclass" (exprJs e),
      .mk c!"methods" (.array (methodsJs methods)), .mk c!"source_loc" (locJs loc)])
  | .continue loc => tagged c!"Continue" (locJs loc)
  | .expression e => tagged c!"Expression" (exprJs e)
  | .fun f => tagged c!"Fun" (namedJs f)
  | .if c a none => tagged c!"If" (.array [exprJs c, stmtJs a, .undefined])
  | .if c a (some b) => tagged c!"If" (.array [exprJs c, stmtJs a, stmtJs b])
  | .print e => tagged c!"Print" (exprJs e)
  | .return e loc => tagged c!"Return" (.array [exprJs e, locJs loc])
  | .var x slot e loc => tagged c!"Var" (.array [.string x, slotJs slot, exprJs e, locJs loc])
  | .while c b => tagged c!"While" (.array [exprJs c, stmtJs b])
  | .whileIncrement c b i => tagged c!"WhileIncrement" (.array [exprJs c, stmtJs b, exprJs i])
/-- A `Vec<Stmt>`. -/
def stmtsJs : List Stmt → List JsValue
  | [] => []
  | s :: ss => stmtJs s :: stmtsJs ss
end

/-! ### Errors

`JsError::from` makes an error whose message is the `Display` of the `ParseError`. -/

/-- A hexadecimal digit, in lower case. -/
def hexDigit (n : Nat) : Char := if n < 10 then Char.ofNat (48 + n) else Char.ofNat (87 + n)

/-- `{:x}` of a number. -/
def hex (n : Nat) : Str := if n < 16 then [hexDigit n] else hex (n / 16) ++ [hexDigit (n % 16)]
termination_by n

/-- `<str as Debug>::fmt` for one character: `char::escape_debug_ext`, without escaping single quotes.
`escaped` says which characters Rust's tables call unprintable or grapheme extending. -/
def debugChar (escaped : Char → Bool) (c : Char) : Str :=
  if c = '\x00' then c!"\\0"
  else if c = '\t' then c!"\\t"
  else if c = '\r' then c!"\\r"
  else if c = '\n' then c!"\\n"
  else if c = '"' then c!"\\\""
  else if c = '\\' then c!"\\\\"
  else if escaped c then c!"\\u{" ++ hex c.toNat ++ c!"}"
  else [c]

/-- `<str as Debug>::fmt`, `{token:?}`. -/
def debugStr (escaped : Char → Bool) (s : Str) : Str := '"' :: (s.flatMap (debugChar escaped) ++ ['"'])

/-- `{}` of a number. -/
def decimal (n : Nat) : Str := if n < 10 then [Char.ofNat (48 + n)] else decimal (n / 10) ++ [Char.ofNat (48 + n % 10)]
termination_by n

/-- `error.rs:72-90`: `Display` of a cause. It ends with a newline. -/
def displayCause (escaped : Char → Bool) (c : Cause) : Str :=
  match c.token with
  | some t => decimal c.loc.line ++ c!":" ++ decimal c.loc.column ++ c!" at " ++ debugStr escaped t ++ c!": " ++ c.message.toList ++ c!"\n"
  | none => decimal c.loc.line ++ c!":" ++ decimal c.loc.column ++ c!": " ++ c.message.toList ++ c!"\n"

/-- `error.rs:14-21`: `Display` of an error. Another newline follows every cause. -/
def displayError (escaped : Char → Bool) (es : ParseError) : Str := es.flatMap fun c => displayCause escaped c ++ c!"\n"

/-- What `parseString` gives a JavaScript program: a value, or an error with a message. -/
inductive JsResult where
  | value (v : JsValue)
  | error (message : Str)

/-- `wasm.rs:14-23` `wasm_parse_string`. The conversion itself does not fail. -/
def parseString (env : Env) (escaped : Char → Bool) (source : Str) : Outcome JsResult := do
  match ← wasmParseString env source with
  | .ok sts => .done (.value (.array (stmtsJs sts)))
  | .error es => .done (.error (displayError escaped es))

end Ws
