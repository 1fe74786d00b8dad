import Verif.Model.Ast
/-! Syntax trees without the locations and slots of variables. -/
namespace Ws.Spec
open Ws

mutual
/-- The expression with every location and slot replaced by the placeholder. -/
def eraseExpr : Expr → Expr
  | .assign x _ r loc => .assign x .placeholder (eraseExpr r) loc
  | .call f args loc => .call (eraseExpr f) (eraseExprs args) loc
  | .binary a op b loc => .binary (eraseExpr a) op (eraseExpr b) loc
  | .function d => .function (eraseFun d)
  | .get o x loc => .get (eraseExpr o) x loc
  | .getIndex a i loc => .getIndex (eraseExpr a) (eraseExpr i) loc
  | .grouping e => .grouping (eraseExpr e)
  | .literalArray es => .literalArray (eraseExprs es)
  | .literalMap ms => .literalMap (eraseEntries ms)
  | .logical a op b => .logical (eraseExpr a) op (eraseExpr b)
  | .set o x v loc => .set (eraseExpr o) x (eraseExpr v) loc
  | .setIndex a i v loc => .setIndex (eraseExpr a) (eraseExpr i) (eraseExpr v) loc
  | .super _ x loc => .super .placeholder x loc
  | .variable x _ loc => .variable x .placeholder loc
  | .unary op e loc => .unary op (eraseExpr e) loc
  | .literalBool b => .literalBool b
  | .literalNumber x => .literalNumber x
  | .literalNil => .literalNil
  | .literalString s => .literalString s

def eraseExprs : List Expr → List Expr
  | [] => []
  | e :: es => eraseExpr e :: eraseExprs es

def eraseEntries : List MapEntry → List MapEntry
  | [] => []
  | .mk k v :: ms => .mk k (eraseExpr v) :: eraseEntries ms

def eraseFun : FunDef → FunDef
  | .mk ps body k loc => .mk ps (eraseStmts body) k loc

def eraseMethods : List NamedFun → List NamedFun
  | [] => []
  | .mk x d :: ms => .mk x (eraseFun d) :: eraseMethods ms

/-- The statement with every location and slot replaced by the placeholder. -/
def eraseStmt : Stmt → Stmt
  | .block body => .block (eraseStmts body)
  | .break loc => .break loc
  | .continue loc => .continue loc
  | .class x none ms loc => .class x none (eraseMethods ms) loc
  | .class x (some e) ms loc => .class x (some (eraseExpr e)) (eraseMethods ms) loc
  | .expression e => .expression (eraseExpr e)
  | .fun (.mk x d) => .fun (.mk x (eraseFun d))
  | .if c a none => .if (eraseExpr c) (eraseStmt a) none
  | .if c a (some b) => .if (eraseExpr c) (eraseStmt a) (some (eraseStmt b))
  | .print e => .print (eraseExpr e)
  | .return e loc => .return (eraseExpr e) loc
  | .var x _ e loc => .var x .placeholder (eraseExpr e) loc
  | .while c b => .while (eraseExpr c) (eraseStmt b)
  | .whileIncrement c b i => .whileIncrement (eraseExpr c) (eraseStmt b) (eraseExpr i)

def eraseStmts : List Stmt → List Stmt
  | [] => []
  | s :: ss => eraseStmt s :: eraseStmts ss
end

end Ws.Spec
