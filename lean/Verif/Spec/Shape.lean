import Verif.Spec.Subtree
/-! What the parts of an accepted program look like. -/
namespace Ws.Spec
open Ws

/-- C23: calls and functions have at most 255 arguments and parameters. -/
def Limits : Node → Prop
  | .expr (.call _ args _) => args.length ≤ 255
  | .fn d => d.params.length ≤ 255
  | _ => True

/-- C24: the keys of a map are distinct. -/
def DistinctKeys : Node → Prop
  | .expr (.literalMap ms) => (ms.map MapEntry.key).Nodup
  | _ => True

/-- C26: `this` is not assigned to. -/
def NotThis : Node → Prop
  | .expr (.assign n _ _ _) => n ≠ c!"this"
  | _ => True

/-- How tightly an expression binds: 0 for assignments, then or, and, equality, comparison, addition,
multiplication, prefix operators, and everything else. -/
def tightness : Expr → Nat
  | .assign _ _ _ _ | .set _ _ _ _ | .setIndex _ _ _ _ => 0
  | .logical _ .or _ => 1
  | .logical _ .and _ => 2
  | .binary _ .equal _ _ | .binary _ .notEqual _ _ => 3
  | .binary _ .less _ _ | .binary _ .lessEqual _ _ | .binary _ .greater _ _ | .binary _ .greaterEqual _ _ => 4
  | .binary _ .plus _ _ | .binary _ .minus _ _ => 5
  | .binary _ .multiply _ _ | .binary _ .divide _ _ => 6
  | .unary _ _ _ => 7
  | _ => 8

/-- C21: the left operand of an operator binds at least as tightly, the right operand more tightly;
the operand of a prefix operator is a prefix or call expression; callees and objects are call
expressions. -/
def Precedence : Node → Prop
  | .expr (.logical a op b) => tightness (.logical a op b) ≤ tightness a ∧ tightness (.logical a op b) < tightness b
  | .expr (.binary a op b loc) =>
    tightness (.binary a op b loc) ≤ tightness a ∧ tightness (.binary a op b loc) < tightness b
  | .expr (.unary _ e _) => 7 ≤ tightness e
  | .expr (.call f _ _) => 8 ≤ tightness f
  | .expr (.get o _ _) => 8 ≤ tightness o
  | .expr (.getIndex a _ _) => 8 ≤ tightness a
  | .expr (.set o _ _ _) => 8 ≤ tightness o
  | .expr (.setIndex a _ _ _) => 8 ≤ tightness a
  | _ => True

/-- C27: functions are plain unless they are methods; a method that is not a class method is an
initializer if it is named `init`, and a plain method otherwise. -/
def Kinds : Node → Prop
  | .expr (.function d) => d.funType = .plainFunction
  | .stmt (.fun f) => f.funDef.funType = .plainFunction
  | .stmt (.class _ _ ms _) => ∀ m ∈ ms, m.funDef.funType = .classMethod ∨
      m.funDef.funType = if m.name = c!"init" then .initializer else .method
  | _ => True

/-- The tokens of a method, which say what kind of method it is. -/
def MethodTokens (w : List Token) (m : NamedFun) : Prop :=
  (∃ c n r, w = c :: n :: r ∧ c.tokenType = .class ∧ n.tokenType = .identifier ∧ n.lexeme = m.name ∧
    m.funDef.loc = n.loc ∧ m.funDef.funType = .classMethod) ∨
  (∃ n r, w = n :: r ∧ n.tokenType = .identifier ∧ n.lexeme = m.name ∧ m.funDef.loc = n.loc ∧
    m.funDef.funType = if m.name = c!"init" then .initializer else .method)

/-- C27: the methods of a class are, in order, those of consecutive parts of the tokens; the ones
whose tokens start with `class` are class methods. -/
def MarkedKinds (tokens : List Token) : Node → Prop
  | .stmt (.class _ _ ms _) => ∃ parts : List (List Token), parts.flatten <:+: tokens ∧
      parts.length = ms.length ∧ ∀ x ∈ parts.zip ms, MethodTokens x.1 x.2
  | _ => True

/-- A name is spelled by an identifier of the tokens. -/
def Spelled (tokens : List Token) (name : Str) : Prop :=
  ∃ t ∈ tokens, t.tokenType = .identifier ∧ t.lexeme = name

/-- A name is spelled by an identifier of the tokens at a location. -/
def SpelledAt (tokens : List Token) (name : Str) (loc : SourceLoc) : Prop :=
  ∃ t ∈ tokens, t.tokenType = .identifier ∧ t.lexeme = name ∧ t.loc = loc

/-- A location is that of a token. -/
def Occurs (tokens : List Token) (loc : SourceLoc) : Prop := ∃ t ∈ tokens, t.loc = loc

/-- A superclass is a name, that of an identifier of the tokens. -/
def SuperclassName (tokens : List Token) : Option Expr → Prop
  | none => True
  | some (.variable n _ loc) => SpelledAt tokens n loc
  | some _ => False

/-- C30: names and locations are those of tokens. -/
def FromTokens (tokens : List Token) : Node → Prop
  | .expr (.assign n _ _ loc) => Spelled tokens n ∧ Occurs tokens loc
  | .expr (.call _ _ loc) => Occurs tokens loc
  | .expr (.binary _ _ _ loc) => Occurs tokens loc
  | .expr (.get _ n loc) => Spelled tokens n ∧ Occurs tokens loc
  | .expr (.getIndex _ _ loc) => Occurs tokens loc
  | .expr (.set _ n _ loc) => Spelled tokens n ∧ Occurs tokens loc
  | .expr (.setIndex _ _ _ loc) => Occurs tokens loc
  | .expr (.super _ n loc) => Spelled tokens n ∧ ∃ t ∈ tokens, t.tokenType = .super ∧ t.loc = loc
  | .expr (.variable n _ loc) => SpelledAt tokens n loc ∨
      ∃ t ∈ tokens, t.tokenType = .this ∧ t.lexeme = n ∧ t.loc = loc
  | .expr (.unary _ _ loc) => Occurs tokens loc
  | .expr (.literalNumber x) => ∃ t ∈ tokens, t.tokenType = .number ∧ t.floatLiteral = some x
  | .expr (.literalString s) => ∃ t ∈ tokens, t.tokenType = .string ∧ t.stringLiteral = some s
  | .expr (.literalMap ms) => ∀ m ∈ ms, ∃ t ∈ tokens,
      t.tokenType = .identifier ∧ t.lexeme = m.key ∨ t.tokenType = .string ∧ t.stringLiteral = some m.key
  | .expr _ => True
  | .fn d => Occurs tokens d.loc ∧ ∀ p ∈ d.params, SpelledAt tokens p.name p.loc
  | .stmt (.break loc) => ∃ t ∈ tokens, t.tokenType = .break ∧ t.loc = loc
  | .stmt (.continue loc) => ∃ t ∈ tokens, t.tokenType = .continue ∧ t.loc = loc
  | .stmt (.class n superclass ms loc) => SpelledAt tokens n loc ∧ SuperclassName tokens superclass ∧
      ∀ m ∈ ms, SpelledAt tokens m.name m.funDef.loc
  | .stmt (.fun f) => SpelledAt tokens f.name f.funDef.loc
  | .stmt (.return _ loc) => ∃ t ∈ tokens, t.tokenType = .return ∧ t.loc = loc
  | .stmt (.var n _ _ loc) => SpelledAt tokens n loc
  | .stmt _ => True

end Ws.Spec
