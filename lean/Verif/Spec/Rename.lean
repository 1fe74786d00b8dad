import Verif.Model.Scanner
import Verif.Model.Ast
/-! Renaming the variables of a program. -/
namespace Ws.Spec
open Ws

/-- A renaming: it is injective, and keeps `this` and `super`. -/
structure Renaming (σ : Str → Str) : Prop where
  inj : ∀ x y, σ x = σ y → x = y
  this : σ c!"this" = c!"this"
  super : σ c!"super" = c!"super"

mutual
/-- The expression with every variable renamed; properties and methods are not variables. -/
def renameExpr (σ : Str → Str) : Expr → Expr
  | .assign x c r loc => .assign (σ x) c (renameExpr σ r) loc
  | .call f args loc => .call (renameExpr σ f) (renameExprs σ args) loc
  | .binary a op b loc => .binary (renameExpr σ a) op (renameExpr σ b) loc
  | .function d => .function (renameFun σ d)
  | .get o x loc => .get (renameExpr σ o) x loc
  | .getIndex a i loc => .getIndex (renameExpr σ a) (renameExpr σ i) loc
  | .grouping e => .grouping (renameExpr σ e)
  | .literalArray es => .literalArray (renameExprs σ es)
  | .literalMap ms => .literalMap (renameEntries σ ms)
  | .logical a op b => .logical (renameExpr σ a) op (renameExpr σ b)
  | .set o x v loc => .set (renameExpr σ o) x (renameExpr σ v) loc
  | .setIndex a i v loc => .setIndex (renameExpr σ a) (renameExpr σ i) (renameExpr σ v) loc
  | .super c x loc => .super c x loc
  | .variable x c loc => .variable (σ x) c loc
  | .unary op e loc => .unary op (renameExpr σ e) loc
  | .literalBool b => .literalBool b
  | .literalNumber x => .literalNumber x
  | .literalNil => .literalNil
  | .literalString s => .literalString s

def renameExprs (σ : Str → Str) : List Expr → List Expr
  | [] => []
  | e :: es => renameExpr σ e :: renameExprs σ es

def renameEntries (σ : Str → Str) : List MapEntry → List MapEntry
  | [] => []
  | .mk k v :: ms => .mk k (renameExpr σ v) :: renameEntries σ ms

def renameFun (σ : Str → Str) : FunDef → FunDef
  | .mk ps body k loc => .mk (ps.map fun p => { p with name := σ p.name }) (renameStmts σ body) k loc

def renameMethods (σ : Str → Str) : List NamedFun → List NamedFun
  | [] => []
  | .mk x d :: ms => .mk x (renameFun σ d) :: renameMethods σ ms

/-- The statement with every variable, function and class renamed. -/
def renameStmt (σ : Str → Str) : Stmt → Stmt
  | .block body => .block (renameStmts σ body)
  | .break loc => .break loc
  | .continue loc => .continue loc
  | .class x none ms loc => .class (σ x) none (renameMethods σ ms) loc
  | .class x (some e) ms loc => .class (σ x) (some (renameExpr σ e)) (renameMethods σ ms) loc
  | .expression e => .expression (renameExpr σ e)
  | .fun (.mk x d) => .fun (.mk (σ x) (renameFun σ d))
  | .if c a none => .if (renameExpr σ c) (renameStmt σ a) none
  | .if c a (some b) => .if (renameExpr σ c) (renameStmt σ a) (some (renameStmt σ b))
  | .print e => .print (renameExpr σ e)
  | .return e loc => .return (renameExpr σ e) loc
  | .var x c e loc => .var (σ x) c (renameExpr σ e) loc
  | .while c b => .while (renameExpr σ c) (renameStmt σ b)
  | .whileIncrement c b i => .whileIncrement (renameExpr σ c) (renameStmt σ b) (renameExpr σ i)

def renameStmts (σ : Str → Str) : List Stmt → List Stmt
  | [] => []
  | s :: ss => renameStmt σ s :: renameStmts σ ss
end

/-- An error about a renamed program: it says the same at the same place, but may quote the new name. -/
structure RenamedCause (σ : Str → Str) (c c' : Cause) : Prop where
  loc : c'.loc = c.loc
  message : c'.message = c.message
  token : c'.token = c.token ∨ c'.token = c.token.map σ

/-- The errors about a renamed program, one by one. -/
inductive RenamedCauses (σ : Str → Str) : List Cause → List Cause → Prop
  | nil : RenamedCauses σ [] []
  | cons {c c' cs cs'} : RenamedCause σ c c' → RenamedCauses σ cs cs' → RenamedCauses σ (c :: cs) (c' :: cs')

end Ws.Spec
