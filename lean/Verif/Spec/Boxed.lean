import Verif.Spec.Rejected
/-! Blocks around the statements after `if`, `else` and `while`. -/
namespace Ws.Spec
open Ws

/-- A statement that declares nothing, and is not a block already. -/
def boxable : Stmt → Bool
  | .block _ => false
  | s => (declaredBy s).isEmpty

/-- The distance of a variable when there are further scopes. The list has an element for every scope,
from the innermost outwards: whether the scope is one of the further scopes. -/
def widen : List Bool → Nat → Nat
  | [], d => d
  | true :: m, d => widen m d + 1
  | false :: _, 0 => 0
  | false :: m, d + 1 => widen m d + 1

/-- The same for a location. -/
def widenLoc (m : List Bool) (c : VarLoc) : VarLoc := ⟨widen m c.distance, c.index⟩

section
variable (f : List Bool → VarLoc → VarLoc)
mutual
/-- The expression with blocks, and with other locations; the list as in `widen`. -/
def boxExpr (m : List Bool) : Expr → Expr
  | .assign x c r loc => .assign x (f m c) (boxExpr m r) loc
  | .call g args loc => .call (boxExpr m g) (boxExprs m args) loc
  | .binary a op b loc => .binary (boxExpr m a) op (boxExpr m b) loc
  | .function d => .function (boxFun m d)
  | .get o x loc => .get (boxExpr m o) x loc
  | .getIndex a i loc => .getIndex (boxExpr m a) (boxExpr m i) loc
  | .grouping e => .grouping (boxExpr m e)
  | .literalArray es => .literalArray (boxExprs m es)
  | .literalMap ms => .literalMap (boxEntries m ms)
  | .logical a op b => .logical (boxExpr m a) op (boxExpr m b)
  | .set o x v loc => .set (boxExpr m o) x (boxExpr m v) loc
  | .setIndex a i v loc => .setIndex (boxExpr m a) (boxExpr m i) (boxExpr m v) loc
  | .super c x loc => .super (f m c) x loc
  | .variable x c loc => .variable x (f m c) loc
  | .unary op e loc => .unary op (boxExpr m e) loc
  | .literalBool b => .literalBool b
  | .literalNumber x => .literalNumber x
  | .literalNil => .literalNil
  | .literalString s => .literalString s

def boxExprs (m : List Bool) : List Expr → List Expr
  | [] => []
  | e :: es => boxExpr m e :: boxExprs m es

def boxEntries (m : List Bool) : List MapEntry → List MapEntry
  | [] => []
  | .mk k v :: ms => .mk k (boxExpr m v) :: boxEntries m ms

/-- A function has a scope. -/
def boxFun (m : List Bool) : FunDef → FunDef
  | .mk ps body k loc => .mk ps (boxStmts (false :: m) body) k loc

def boxMethods (m : List Bool) : List NamedFun → List NamedFun
  | [] => []
  | .mk x d :: ms => .mk x (boxFun m d) :: boxMethods m ms

/-- The statement with blocks around the statements after `if`, `else` and `while` in it. A block has a
scope; a class has a scope for `this`, and another one for `super`. -/
def boxStmt (m : List Bool) : Stmt → Stmt
  | .block body => .block (boxStmts (false :: m) body)
  | .break loc => .break loc
  | .continue loc => .continue loc
  | .class x none ms loc => .class x none (boxMethods (false :: m) ms) loc
  | .class x (some e) ms loc => .class x (some (boxExpr m e)) (boxMethods (false :: false :: m) ms) loc
  | .expression e => .expression (boxExpr m e)
  | .fun (.mk x d) => .fun (.mk x (boxFun m d))
  | .if c a none => .if (boxExpr m c) (if boxable a then .block [boxStmt (true :: m) a] else boxStmt m a) none
  | .if c a (some b) => .if (boxExpr m c) (if boxable a then .block [boxStmt (true :: m) a] else boxStmt m a)
      (some (if boxable b then .block [boxStmt (true :: m) b] else boxStmt m b))
  | .print e => .print (boxExpr m e)
  | .return e loc => .return (boxExpr m e) loc
  | .var x s e loc => .var x s (boxExpr m e) loc
  | .while c b => .while (boxExpr m c) (if boxable b then .block [boxStmt (true :: m) b] else boxStmt m b)
  | .whileIncrement c b i =>
      .whileIncrement (boxExpr m c) (if boxable b then .block [boxStmt (true :: m) b] else boxStmt m b) (boxExpr m i)

def boxStmts (m : List Bool) : List Stmt → List Stmt
  | [] => []
  | s :: ss => boxStmt m s :: boxStmts m ss
end
end

/-- The program with blocks. -/
def boxed (sts : List Stmt) : List Stmt := boxStmts (fun _ c => c) [] sts

/-- The resolved program with blocks: a variable is further away by the number of blocks between. -/
def boxedAt (sts : List Stmt) : List Stmt := boxStmts widenLoc [] sts

end Ws.Spec
