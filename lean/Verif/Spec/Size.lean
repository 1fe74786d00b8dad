import Verif.Model.Ast
/-! How large a program is. -/
namespace Ws.Spec
open Ws

mutual
/-- The number of nodes of an expression: expressions, map entries, functions, parameters, statements. -/
def exprSize : Expr → Nat
  | .assign _ _ rhs _ => exprSize rhs + 1
  | .call callee args _ => exprSize callee + exprsSize args + 1
  | .binary a _ b _ => exprSize a + exprSize b + 1
  | .function d => funSize d + 1
  | .get o _ _ => exprSize o + 1
  | .getIndex a i _ => exprSize a + exprSize i + 1
  | .grouping e => exprSize e + 1
  | .literalArray es => exprsSize es + 1
  | .literalMap ms => entriesSize ms + 1
  | .logical a _ b => exprSize a + exprSize b + 1
  | .set o _ v _ => exprSize o + exprSize v + 1
  | .setIndex a i v _ => exprSize a + exprSize i + exprSize v + 1
  | .unary _ e _ => exprSize e + 1
  | .super _ _ _ | .variable _ _ _ | .literalBool _ | .literalNumber _ | .literalNil | .literalString _ => 1

def exprsSize : List Expr → Nat
  | [] => 0
  | e :: es => exprSize e + exprsSize es

def entriesSize : List MapEntry → Nat
  | [] => 0
  | .mk _ v :: ms => exprSize v + 1 + entriesSize ms

def funSize : FunDef → Nat
  | .mk ps body _ _ => ps.length + stmtsSize body + 1

def methodsSize : List NamedFun → Nat
  | [] => 0
  | .mk _ d :: ms => funSize d + 1 + methodsSize ms

/-- The number of nodes of a statement. -/
def stmtSize : Stmt → Nat
  | .block body => stmtsSize body + 1
  | .break _ | .continue _ => 1
  | .class _ none methods _ => methodsSize methods + 1
  | .class _ (some superclass) methods _ => exprSize superclass + methodsSize methods + 1
  | .expression e => exprSize e + 1
  | .fun (.mk _ d) => funSize d + 2
  | .if c a none => exprSize c + stmtSize a + 1
  | .if c a (some b) => exprSize c + stmtSize a + stmtSize b + 1
  | .print e => exprSize e + 1
  | .return e _ => exprSize e + 1
  | .var _ _ e _ => exprSize e + 1
  | .while c b => exprSize c + stmtSize b + 1
  | .whileIncrement c b i => exprSize c + stmtSize b + exprSize i + 1

/-- The number of nodes of a program. -/
def stmtsSize : List Stmt → Nat
  | [] => 0
  | s :: ss => stmtSize s + stmtsSize ss
end

end Ws.Spec
