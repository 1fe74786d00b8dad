import Verif.Model.Ast
/-! How deep scopes are nested in a program. -/
namespace Ws.Spec
open Ws

mutual
/-- The largest number of scopes of an expression around one of its parts. -/
def exprDepth : Expr → Nat
  | .assign _ _ rhs _ => exprDepth rhs
  | .call callee args _ => max (exprDepth callee) (exprsDepth args)
  | .binary a _ b _ => max (exprDepth a) (exprDepth b)
  | .function d => funDepth d
  | .get o _ _ => exprDepth o
  | .getIndex a i _ => max (exprDepth a) (exprDepth i)
  | .grouping e => exprDepth e
  | .literalArray es => exprsDepth es
  | .literalMap ms => entriesDepth ms
  | .logical a _ b => max (exprDepth a) (exprDepth b)
  | .set o _ v _ => max (exprDepth o) (exprDepth v)
  | .setIndex a i v _ => max (exprDepth a) (max (exprDepth i) (exprDepth v))
  | .unary _ e _ => exprDepth e
  | .super _ _ _ | .variable _ _ _ | .literalBool _ | .literalNumber _ | .literalNil | .literalString _ => 0

def exprsDepth : List Expr → Nat
  | [] => 0
  | e :: es => max (exprDepth e) (exprsDepth es)

def entriesDepth : List MapEntry → Nat
  | [] => 0
  | .mk _ v :: ms => max (exprDepth v) (entriesDepth ms)

/-- A function is a scope. -/
def funDepth : FunDef → Nat
  | .mk _ body _ _ => stmtsDepth body + 1

def methodsDepth : List NamedFun → Nat
  | [] => 0
  | .mk _ d :: ms => max (funDepth d) (methodsDepth ms)

/-- Blocks are scopes; classes are one scope, or two if they have a superclass. -/
def stmtDepth : Stmt → Nat
  | .block body => stmtsDepth body + 1
  | .break _ | .continue _ => 0
  | .class _ none methods _ => methodsDepth methods + 1
  | .class _ (some superclass) methods _ => max (exprDepth superclass) (methodsDepth methods + 2)
  | .expression e => exprDepth e
  | .fun (.mk _ d) => funDepth d
  | .if c a none => max (exprDepth c) (stmtDepth a)
  | .if c a (some b) => max (exprDepth c) (max (stmtDepth a) (stmtDepth b))
  | .print e => exprDepth e
  | .return e _ => exprDepth e
  | .var _ _ e _ => exprDepth e
  | .while c b => max (exprDepth c) (stmtDepth b)
  | .whileIncrement c b i => max (exprDepth c) (max (stmtDepth b) (exprDepth i))

/-- The largest number of scopes around a part of the statements. -/
def stmtsDepth : List Stmt → Nat
  | [] => 0
  | s :: ss => max (stmtDepth s) (stmtsDepth ss)
end

end Ws.Spec
