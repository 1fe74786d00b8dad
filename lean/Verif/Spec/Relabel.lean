import Verif.Model.Resolver
/-! Programs with other names, strings and numbers. -/
namespace Ws.Spec
open Ws

/-- Other names for the names, other keys for the keys of maps, other strings for the strings, and
other numbers for the numbers of a program. -/
structure Relabelling where
  name : Str → Str
  key : Str → Str
  string : Str → Str
  number : F64 → F64

/-- Different names stay different, different keys stay different, and the names that mean something
keep their meaning. -/
structure Relabelling.Faithful (ρ : Relabelling) : Prop where
  name : ∀ x y, ρ.name x = ρ.name y → x = y
  key : ∀ x y, ρ.key x = ρ.key y → x = y
  this : ρ.name c!"this" = c!"this"
  super : ρ.name c!"super" = c!"super"
  init : ρ.name c!"init" = c!"init"

/-- The second token is the first one with another name, string or number. The text of other tokens
may be any. -/
structure RelabelledToken (ρ : Relabelling) (t t' : Token) : Prop where
  tokenType : t'.tokenType = t.tokenType
  line : t'.line = t.line
  column : t'.column = t.column
  identifier : t.tokenType = .identifier → t'.lexeme = ρ.name t.lexeme
  this : t.tokenType = .this → t'.lexeme = ρ.name t.lexeme
  string : t.tokenType = .string → t'.stringLiteral = t.stringLiteral.map ρ.string
  number : t.tokenType = .number → t'.floatLiteral = t.floatLiteral.map ρ.number

/-- One by one. -/
inductive Each {α β : Type} (r : α → β → Prop) : List α → List β → Prop
  | nil : Each r [] []
  | cons {a b as bs} : r a b → Each r as bs → Each r (a :: as) (b :: bs)

/-- Names and strings followed by a colon are possibly keys: they become what keys become. -/
def KeysAgree (ρ : Relabelling) (ts : List Token) : Prop :=
  ∀ before t colon after, ts = before ++ t :: colon :: after → colon.tokenType = .colon →
    (t.tokenType = .identifier → ρ.key t.lexeme = ρ.name t.lexeme) ∧
    (t.tokenType = .string → ∀ s, t.stringLiteral = some s → ρ.key s = ρ.string s)

variable (ρ : Relabelling)

mutual
/-- The expression with other names, strings and numbers. -/
def relabelExpr : Expr → Expr
  | .assign x cell r loc => .assign (ρ.name x) cell (relabelExpr r) loc
  | .call f args loc => .call (relabelExpr f) (relabelExprs args) loc
  | .binary a op b loc => .binary (relabelExpr a) op (relabelExpr b) loc
  | .function d => .function (relabelFun d)
  | .get o x loc => .get (relabelExpr o) (ρ.name x) loc
  | .getIndex a i loc => .getIndex (relabelExpr a) (relabelExpr i) loc
  | .grouping e => .grouping (relabelExpr e)
  | .literalArray es => .literalArray (relabelExprs es)
  | .literalMap ms => .literalMap (relabelEntries ms)
  | .logical a op b => .logical (relabelExpr a) op (relabelExpr b)
  | .set o x v loc => .set (relabelExpr o) (ρ.name x) (relabelExpr v) loc
  | .setIndex a i v loc => .setIndex (relabelExpr a) (relabelExpr i) (relabelExpr v) loc
  | .super cell x loc => .super cell (ρ.name x) loc
  | .variable x cell loc => .variable (ρ.name x) cell loc
  | .unary op e loc => .unary op (relabelExpr e) loc
  | .literalBool b => .literalBool b
  | .literalNumber x => .literalNumber (ρ.number x)
  | .literalNil => .literalNil
  | .literalString s => .literalString (ρ.string s)

def relabelExprs : List Expr → List Expr
  | [] => []
  | e :: es => relabelExpr e :: relabelExprs es

def relabelEntries : List MapEntry → List MapEntry
  | [] => []
  | .mk k v :: ms => .mk (ρ.key k) (relabelExpr v) :: relabelEntries ms

def relabelFun : FunDef → FunDef
  | .mk ps body k loc => .mk (ps.map fun p => { p with name := ρ.name p.name }) (relabelStmts body) k loc

def relabelMethods : List NamedFun → List NamedFun
  | [] => []
  | .mk x d :: ms => .mk (ρ.name x) (relabelFun d) :: relabelMethods ms

/-- The statement with other names, strings and numbers. -/
def relabelStmt : Stmt → Stmt
  | .block body => .block (relabelStmts body)
  | .break loc => .break loc
  | .continue loc => .continue loc
  | .class x none ms loc => .class (ρ.name x) none (relabelMethods ms) loc
  | .class x (some e) ms loc => .class (ρ.name x) (some (relabelExpr e)) (relabelMethods ms) loc
  | .expression e => .expression (relabelExpr e)
  | .fun (.mk x d) => .fun (.mk (ρ.name x) (relabelFun d))
  | .if c a none => .if (relabelExpr c) (relabelStmt a) none
  | .if c a (some b) => .if (relabelExpr c) (relabelStmt a) (some (relabelStmt b))
  | .print e => .print (relabelExpr e)
  | .return e loc => .return (relabelExpr e) loc
  | .var x slot e loc => .var (ρ.name x) slot (relabelExpr e) loc
  | .while c b => .while (relabelExpr c) (relabelStmt b)
  | .whileIncrement c b i => .whileIncrement (relabelExpr c) (relabelStmt b) (relabelExpr i)

def relabelStmts : List Stmt → List Stmt
  | [] => []
  | s :: ss => relabelStmt s :: relabelStmts ss
end

/-- The same error at the same place; it may quote something else. -/
structure SameComplaint (c c' : Cause) : Prop where
  loc : c'.loc = c.loc
  message : c'.message = c.message

/-- What is given for the tokens, and what is given for the tokens with other names, strings and
numbers: the program with other names, strings and numbers; the same errors; or the same panic. -/
inductive Relabelled {α : Type} (f : α → α) : Outcome (Except ParseError α) → Outcome (Except ParseError α) → Prop
  | ok (a) : Relabelled f (.done (.ok a)) (.done (.ok (f a)))
  | error {es es'} : Each SameComplaint es es' → Relabelled f (.done (.error es)) (.done (.error es'))
  | panic (m) : Relabelled f (.panic m) (.panic m)
  | diverge : Relabelled f .diverge .diverge

/-- The resolver with its variables renamed. -/
def renamedState (σ : Str → Str) (rs : Resolver) : Resolver :=
  { rs with scopes := rs.scopes.map fun scope => scope.map fun x => (σ x.1, x.2) }

/-- The same of a run, which also leaves the resolver with other names. -/
inductive RelabelledRun (ρ : Relabelling) :
    Outcome (Except ParseError (List Stmt) × Resolver) → Outcome (Except ParseError (List Stmt) × Resolver) → Prop
  | ok (sts rs) : RelabelledRun ρ (.done (.ok sts, rs)) (.done (.ok (relabelStmts ρ sts), renamedState ρ.name rs))
  | error {es es'} (rs) : Each SameComplaint es es' →
    RelabelledRun ρ (.done (.error es, rs)) (.done (.error es', renamedState ρ.name rs))
  | panic (m) : RelabelledRun ρ (.panic m) (.panic m)
  | diverge : RelabelledRun ρ .diverge .diverge

end Ws.Spec
