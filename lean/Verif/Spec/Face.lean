import Verif.Model.Page
import Verif.Spec.Style
/-! What one can see of a program on the demo page (C91). -/
namespace Ws.Spec
open Ws

mutual
/-- The expression with every truth value replaced by `true`. -/
def truthExpr : Expr → Expr
  | .assign x cell r loc => .assign x cell (truthExpr r) loc
  | .call f args loc => .call (truthExpr f) (truthExprs args) loc
  | .binary a op b loc => .binary (truthExpr a) op (truthExpr b) loc
  | .function d => .function (truthFun d)
  | .get o x loc => .get (truthExpr o) x loc
  | .getIndex a i loc => .getIndex (truthExpr a) (truthExpr i) loc
  | .grouping e => .grouping (truthExpr e)
  | .literalArray es => .literalArray (truthExprs es)
  | .literalMap ms => .literalMap (truthEntries ms)
  | .logical a op b => .logical (truthExpr a) op (truthExpr b)
  | .set o x v loc => .set (truthExpr o) x (truthExpr v) loc
  | .setIndex a i v loc => .setIndex (truthExpr a) (truthExpr i) (truthExpr v) loc
  | .super cell x loc => .super cell x loc
  | .variable x cell loc => .variable x cell loc
  | .unary op e loc => .unary op (truthExpr e) loc
  | .literalBool _ => .literalBool true
  | .literalNumber x => .literalNumber x
  | .literalNil => .literalNil
  | .literalString s => .literalString s

def truthExprs : List Expr → List Expr
  | [] => []
  | e :: es => truthExpr e :: truthExprs es

def truthEntries : List MapEntry → List MapEntry
  | [] => []
  | .mk k v :: ms => .mk k (truthExpr v) :: truthEntries ms

def truthFun : FunDef → FunDef
  | .mk ps body k loc => .mk ps (truthStmts body) k loc

def truthMethods : List NamedFun → List NamedFun
  | [] => []
  | .mk x d :: ms => .mk x (truthFun d) :: truthMethods ms

/-- The statement with every truth value replaced by `true`. -/
def truthStmt : Stmt → Stmt
  | .block body => .block (truthStmts body)
  | .break loc => .break loc
  | .continue loc => .continue loc
  | .class x none ms loc => .class x none (truthMethods ms) loc
  | .class x (some e) ms loc => .class x (some (truthExpr e)) (truthMethods ms) loc
  | .expression e => .expression (truthExpr e)
  | .fun (.mk x d) => .fun (.mk x (truthFun d))
  | .if c a none => .if (truthExpr c) (truthStmt a) none
  | .if c a (some b) => .if (truthExpr c) (truthStmt a) (some (truthStmt b))
  | .print e => .print (truthExpr e)
  | .return e loc => .return (truthExpr e) loc
  | .var x slot e loc => .var x slot (truthExpr e) loc
  | .while c b => .while (truthExpr c) (truthStmt b)
  | .whileIncrement c b i => .whileIncrement (truthExpr c) (truthStmt b) (truthExpr i)

def truthStmts : List Stmt → List Stmt
  | [] => []
  | s :: ss => truthStmt s :: truthStmts ss
end

/-- What else is used of `Number.prototype.toString`: different natural numbers are written differently. -/
def ShowInts (showNumber : F64 → Str) : Prop :=
  ∀ m n : Nat, m < 2 ^ 53 → n < 2 ^ 53 → showNumber (f64OfNat m) = showNumber (f64OfNat n) → m = n

/-- What else is used of it: different numbers of programs are written differently. (They are not negative and not
`NaN`; zero and negative zero are both written `0`.) -/
def ShowWritten (env : Env) (showNumber : F64 → Str) : Prop :=
  ∀ x y, Written env x → Written env y → showNumber x = showNumber y → x = y

end Ws.Spec
