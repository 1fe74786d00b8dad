import Verif.Model.Js
/-! Model of the script of the demo page, `index.html:23-173`. -/
namespace Ws

/-- `JSON.stringify` for one character of a string. (A Rust string has no lone surrogates.) -/
def jsonChar (c : Char) : Str :=
  if c = '"' then c!"\\\""
  else if c = '\\' then c!"\\\\"
  else if c = '\x08' then c!"\\b"
  else if c = '\x0c' then c!"\\f"
  else if c = '\n' then c!"\\n"
  else if c = '\r' then c!"\\r"
  else if c = '\t' then c!"\\t"
  else if c.toNat < 32 then c!"\\u00" ++ [hexDigit (c.toNat / 16), hexDigit (c.toNat % 16)]
  else [c]

/-- `index.html:38-40` `escapeString`: `JSON.stringify` of a string. -/
def escapeString (s : Str) : Str := '"' :: (s.flatMap jsonChar ++ ['"'])

/-- `index.html:44-80` `JS_RESERVED`. -/
def jsReserved : List Str :=
  [c!"break", c!"case", c!"catch", c!"class", c!"const", c!"continue", c!"debugger", c!"default", c!"delete", c!"do",
   c!"else", c!"export", c!"extends", c!"false", c!"finally", c!"for", c!"function", c!"if", c!"import", c!"in",
   c!"instanceof", c!"new", c!"null", c!"return", c!"super", c!"switch", c!"this", c!"throw", c!"true", c!"try",
   c!"typeof", c!"var", c!"void", c!"while", c!"with"]

/-- `[a-zA-Z_]`. -/
def jsLetter (c : Char) : Bool := c.isAlpha || c == '_'

/-- `index.html:42` `IDENTIFIER_REGEXP`. -/
def jsIdentifier : Str → Bool
  | [] => false
  | c :: s => jsLetter c && s.all (fun c => jsLetter c || c.isDigit)

/-- `index.html:82-89` `escapeMapKey`. -/
def escapeMapKey (s : Str) : Str := if jsIdentifier s && !jsReserved.contains s then s else escapeString s

mutual
/-- `index.html:92-132` `pretty`. `showNumber` is `Number.prototype.toString`. There is no case for booleans: they
come to the last one, of objects without keys. -/
def pretty (showNumber : F64 → Str) (pre : Str) : JsValue → Str
  | .undefined => c!"undefined"
  | .number x => showNumber x
  | .string s => escapeString s
  | .array es => '\n' :: pre ++ '[' :: (prettyItems showNumber pre es ++ '\n' :: pre ++ [']'])
  | .map fs => '\n' :: pre ++ '{' :: (prettyFields showNumber pre fs ++ '\n' :: pre ++ ['}'])
  | .object fs => '\n' :: pre ++ '{' :: (prettyFields showNumber pre fs ++ '\n' :: pre ++ ['}'])
  | .bool _ => '\n' :: pre ++ '{' :: ('\n' :: pre ++ ['}'])
/-- The items of an array, each after a newline and the prefix. -/
def prettyItems (showNumber : F64 → Str) (pre : Str) : List JsValue → Str
  | [] => []
  | e :: es => '\n' :: pre ++ c!"  " ++ pretty showNumber (pre ++ c!"  ") e ++ ',' :: prettyItems showNumber pre es
/-- The entries of a map or object. -/
def prettyFields (showNumber : F64 → Str) (pre : Str) : List JsField → Str
  | [] => []
  | .mk k v :: fs =>
    '\n' :: pre ++ c!"  " ++ escapeMapKey k ++ c!": " ++ pretty showNumber (pre ++ c!"  ") v ++ ',' :: prettyFields showNumber pre fs
end

/-- `index.html:146-158` `onChange`: the text that the page shows for a source. -/
def page (env : Env) (escaped : Char → Bool) (showNumber : F64 → Str) (source : Str) : Outcome Str := do
  match ← parseString env escaped source with
  | .value v => .done (pretty showNumber [] v)
  | .error m => .done m

end Ws
