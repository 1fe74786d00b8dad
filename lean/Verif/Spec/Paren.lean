import Verif.Spec.Positions
/-! Removing parentheses from syntax trees, and adding them. -/
namespace Ws.Spec
open Ws

/-- `nil` in any number of parentheses. -/
def coreNil : Expr → Bool
  | .literalNil => true
  | .grouping e => coreNil e
  | _ => false

/-- `nil` in at least one pair of parentheses. -/
def parenNil : Expr → Bool
  | .grouping e => coreNil e
  | _ => false

/-! `keep` is whether `return (nil)` keeps one pair. A superclass is a name, without parentheses. -/

mutual
/-- The expression without its parentheses. -/
def ungroupExpr (keep : Bool) : Expr → Expr
  | .assign x cell r loc => .assign x cell (ungroupExpr keep r) loc
  | .call f args loc => .call (ungroupExpr keep f) (ungroupExprs keep args) loc
  | .binary a op b loc => .binary (ungroupExpr keep a) op (ungroupExpr keep b) loc
  | .function d => .function (ungroupFun keep d)
  | .get o x loc => .get (ungroupExpr keep o) x loc
  | .getIndex a i loc => .getIndex (ungroupExpr keep a) (ungroupExpr keep i) loc
  | .grouping e => ungroupExpr keep e
  | .literalArray es => .literalArray (ungroupExprs keep es)
  | .literalMap ms => .literalMap (ungroupEntries keep ms)
  | .logical a op b => .logical (ungroupExpr keep a) op (ungroupExpr keep b)
  | .set o x v loc => .set (ungroupExpr keep o) x (ungroupExpr keep v) loc
  | .setIndex a i v loc => .setIndex (ungroupExpr keep a) (ungroupExpr keep i) (ungroupExpr keep v) loc
  | .super cell x loc => .super cell x loc
  | .variable x cell loc => .variable x cell loc
  | .unary op e loc => .unary op (ungroupExpr keep e) loc
  | .literalBool b => .literalBool b
  | .literalNumber x => .literalNumber x
  | .literalNil => .literalNil
  | .literalString s => .literalString s

def ungroupExprs (keep : Bool) : List Expr → List Expr
  | [] => []
  | e :: es => ungroupExpr keep e :: ungroupExprs keep es

def ungroupEntries (keep : Bool) : List MapEntry → List MapEntry
  | [] => []
  | .mk k v :: ms => .mk k (ungroupExpr keep v) :: ungroupEntries keep ms

def ungroupFun (keep : Bool) : FunDef → FunDef
  | .mk ps body k loc => .mk ps (ungroupStmts keep body) k loc

def ungroupMethods (keep : Bool) : List NamedFun → List NamedFun
  | [] => []
  | .mk x d :: ms => .mk x (ungroupFun keep d) :: ungroupMethods keep ms

/-- The statement without its parentheses. -/
def ungroupStmt (keep : Bool) : Stmt → Stmt
  | .block body => .block (ungroupStmts keep body)
  | .break loc => .break loc
  | .continue loc => .continue loc
  | .class x sup ms loc => .class x sup (ungroupMethods keep ms) loc
  | .expression e => .expression (ungroupExpr keep e)
  | .fun (.mk x d) => .fun (.mk x (ungroupFun keep d))
  | .if c a none => .if (ungroupExpr keep c) (ungroupStmt keep a) none
  | .if c a (some b) => .if (ungroupExpr keep c) (ungroupStmt keep a) (some (ungroupStmt keep b))
  | .print e => .print (ungroupExpr keep e)
  | .return e loc => .return (if keep && parenNil e then .grouping .literalNil else ungroupExpr keep e) loc
  | .var x s e loc => .var x s (ungroupExpr keep e) loc
  | .while c b => .while (ungroupExpr keep c) (ungroupStmt keep b)
  | .whileIncrement c b i => .whileIncrement (ungroupExpr keep c) (ungroupStmt keep b) (ungroupExpr keep i)

def ungroupStmts (keep : Bool) : List Stmt → List Stmt
  | [] => []
  | s :: ss => ungroupStmt keep s :: ungroupStmts keep ss
end

/-- The programs are the same, but for parentheses and positions. -/
def SameButParens (keep : Bool) (sts sts' : List Stmt) : Prop :=
  SameProgram (ungroupStmts keep sts) (ungroupStmts keep sts')

/-- What a run gives, without the parentheses of the program. -/
def ungroupRun (keep : Bool) : Outcome (Except ParseError (List Stmt) × Resolver) → Outcome (Except ParseError (List Stmt) × Resolver) :=
  mapOutcome fun x => (x.1.map (ungroupStmts keep), x.2)

/-- The same program, the same errors, or both panic, but for parentheses and positions, and the same
state of the resolver. -/
def SameRunButParens (keep : Bool) (o o' : Outcome (Except ParseError (List Stmt) × Resolver)) : Prop :=
  SameRun (ungroupRun keep o) (ungroupRun keep o')

mutual
/-- The expression with parentheses around every expression in it. -/
def parensExpr : Expr → Expr
  | .assign x cell r loc => .assign x cell (.grouping (parensExpr r)) loc
  | .call f args loc => .call (.grouping (parensExpr f)) (parensExprs args) loc
  | .binary a op b loc => .binary (.grouping (parensExpr a)) op (.grouping (parensExpr b)) loc
  | .function d => .function (parensFun d)
  | .get o x loc => .get (.grouping (parensExpr o)) x loc
  | .getIndex a i loc => .getIndex (.grouping (parensExpr a)) (.grouping (parensExpr i)) loc
  | .grouping e => .grouping (.grouping (parensExpr e))
  | .literalArray es => .literalArray (parensExprs es)
  | .literalMap ms => .literalMap (parensEntries ms)
  | .logical a op b => .logical (.grouping (parensExpr a)) op (.grouping (parensExpr b))
  | .set o x v loc => .set (.grouping (parensExpr o)) x (.grouping (parensExpr v)) loc
  | .setIndex a i v loc => .setIndex (.grouping (parensExpr a)) (.grouping (parensExpr i)) (.grouping (parensExpr v)) loc
  | .super cell x loc => .super cell x loc
  | .variable x cell loc => .variable x cell loc
  | .unary op e loc => .unary op (.grouping (parensExpr e)) loc
  | .literalBool b => .literalBool b
  | .literalNumber x => .literalNumber x
  | .literalNil => .literalNil
  | .literalString s => .literalString s

def parensExprs : List Expr → List Expr
  | [] => []
  | e :: es => .grouping (parensExpr e) :: parensExprs es

def parensEntries : List MapEntry → List MapEntry
  | [] => []
  | .mk k v :: ms => .mk k (.grouping (parensExpr v)) :: parensEntries ms

def parensFun : FunDef → FunDef
  | .mk ps body k loc => .mk ps (parensStmts body) k loc

def parensMethods : List NamedFun → List NamedFun
  | [] => []
  | .mk x d :: ms => .mk x (parensFun d) :: parensMethods ms

/-- The statement with parentheses around every expression in it, except that `return nil` stays as it
is. -/
def parensStmt : Stmt → Stmt
  | .block body => .block (parensStmts body)
  | .break loc => .break loc
  | .continue loc => .continue loc
  | .class x sup ms loc => .class x sup (parensMethods ms) loc
  | .expression e => .expression (.grouping (parensExpr e))
  | .fun (.mk x d) => .fun (.mk x (parensFun d))
  | .if c a none => .if (.grouping (parensExpr c)) (parensStmt a) none
  | .if c a (some b) => .if (.grouping (parensExpr c)) (parensStmt a) (some (parensStmt b))
  | .print e => .print (.grouping (parensExpr e))
  | .return .literalNil loc => .return .literalNil loc
  | .return e loc => .return (.grouping (parensExpr e)) loc
  | .var x s e loc => .var x s (.grouping (parensExpr e)) loc
  | .while c b => .while (.grouping (parensExpr c)) (parensStmt b)
  | .whileIncrement c b i => .whileIncrement (.grouping (parensExpr c)) (parensStmt b) (.grouping (parensExpr i))

def parensStmts : List Stmt → List Stmt
  | [] => []
  | s :: ss => parensStmt s :: parensStmts ss
end

end Ws.Spec
