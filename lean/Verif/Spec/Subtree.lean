import Verif.Model.Ast
/-! The parts of a syntax tree. -/
namespace Ws.Spec
open Ws

/-- An expression, a statement or a function in a syntax tree. -/
inductive Node where
  | expr (e : Expr)
  | stmt (s : Stmt)
  | fn (d : FunDef)

/-- The immediate parts of an expression. -/
def exprParts : Expr → List Node
  | .assign _ _ rhs _ => [.expr rhs]
  | .call callee args _ => .expr callee :: args.map .expr
  | .binary a _ b _ => [.expr a, .expr b]
  | .function d => [.fn d]
  | .get o _ _ => [.expr o]
  | .getIndex a i _ => [.expr a, .expr i]
  | .grouping e => [.expr e]
  | .literalArray es => es.map .expr
  | .literalMap ms => ms.map (fun m => .expr m.value)
  | .logical a _ b => [.expr a, .expr b]
  | .set o _ v _ => [.expr o, .expr v]
  | .setIndex a i v _ => [.expr a, .expr i, .expr v]
  | .unary _ e _ => [.expr e]
  | .literalBool _ | .literalNumber _ | .literalNil | .literalString _ | .super _ _ _ | .variable _ _ _ => []

/-- The immediate parts of a statement. -/
def stmtParts : Stmt → List Node
  | .block ss => ss.map .stmt
  | .break _ | .continue _ => []
  | .class _ superclass methods _ => superclass.toList.map .expr ++ methods.map (fun m => .fn m.funDef)
  | .expression e => [.expr e]
  | .fun f => [.fn f.funDef]
  | .if c a b => [.expr c, .stmt a] ++ b.toList.map .stmt
  | .print e => [.expr e]
  | .return e _ => [.expr e]
  | .var _ _ e _ => [.expr e]
  | .while c b => [.expr c, .stmt b]
  | .whileIncrement c b i => [.expr c, .stmt b, .expr i]

/-- The immediate parts of a node. -/
def Node.parts : Node → List Node
  | .expr e => exprParts e
  | .stmt s => stmtParts s
  | .fn d => d.body.map .stmt

/-- `Within x n`: `x` is `n` or a part of it, at any depth. -/
inductive Within (x : Node) : Node → Prop
  | refl : Within x x
  | step {c n} : c ∈ n.parts → Within x c → Within x n

/-- Is the node a function? -/
def Node.isFn : Node → Bool
  | .fn _ => true
  | _ => false

/-- `Direct x n`: `x` is `n` or a part of it, at any depth but not inside a function in `n`. -/
inductive Direct (x : Node) : Node → Prop
  | refl : Direct x x
  | step {c n} : c ∈ n.parts → c.isFn = false → Direct x c → Direct x n

/-- The body of a loop. -/
def loopBody : Node → Option Stmt
  | .stmt (.while _ b) => some b
  | .stmt (.whileIncrement _ b _) => some b
  | _ => none

end Ws.Spec
