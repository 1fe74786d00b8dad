import Verif.Spec.Acts
/-! Declarations of variables that nothing uses. -/
namespace Ws.Spec
open Ws

/-- A literal. -/
def isLiteral : Expr → Bool
  | .literalNil | .literalBool _ | .literalNumber _ | .literalString _ => true
  | _ => false

/-- The statement declares a variable of `F`, with a literal as its value. -/
def declaresOneOf (F : List Str) : Stmt → Bool
  | .var x _ e _ => F.contains x && isLiteral e
  | _ => false

mutual
/-- The expression without the declarations of the variables in `F`. -/
def dropExpr (F : List Str) : Expr → Expr
  | .assign x c r loc => .assign x c (dropExpr F r) loc
  | .call f args loc => .call (dropExpr F f) (dropExprs F args) loc
  | .binary a op b loc => .binary (dropExpr F a) op (dropExpr F b) loc
  | .function d => .function (dropFun F d)
  | .get o x loc => .get (dropExpr F o) x loc
  | .getIndex a i loc => .getIndex (dropExpr F a) (dropExpr F i) loc
  | .grouping e => .grouping (dropExpr F e)
  | .literalArray es => .literalArray (dropExprs F es)
  | .literalMap ms => .literalMap (dropEntries F ms)
  | .logical a op b => .logical (dropExpr F a) op (dropExpr F b)
  | .set o x v loc => .set (dropExpr F o) x (dropExpr F v) loc
  | .setIndex a i v loc => .setIndex (dropExpr F a) (dropExpr F i) (dropExpr F v) loc
  | .super c x loc => .super c x loc
  | .variable x c loc => .variable x c loc
  | .unary op e loc => .unary op (dropExpr F e) loc
  | .literalBool b => .literalBool b
  | .literalNumber x => .literalNumber x
  | .literalNil => .literalNil
  | .literalString s => .literalString s

def dropExprs (F : List Str) : List Expr → List Expr
  | [] => []
  | e :: es => dropExpr F e :: dropExprs F es

def dropEntries (F : List Str) : List MapEntry → List MapEntry
  | [] => []
  | .mk k v :: ms => .mk k (dropExpr F v) :: dropEntries F ms

def dropFun (F : List Str) : FunDef → FunDef
  | .mk ps body k loc => .mk ps (dropStmts F body) k loc

def dropMethods (F : List Str) : List NamedFun → List NamedFun
  | [] => []
  | .mk x d :: ms => .mk x (dropFun F d) :: dropMethods F ms

/-- The statement without the declarations of the variables in `F` inside it. -/
def dropStmt (F : List Str) : Stmt → Stmt
  | .block body => .block (dropStmts F body)
  | .break loc => .break loc
  | .continue loc => .continue loc
  | .class x none ms loc => .class x none (dropMethods F ms) loc
  | .class x (some e) ms loc => .class x (some (dropExpr F e)) (dropMethods F ms) loc
  | .expression e => .expression (dropExpr F e)
  | .fun (.mk x d) => .fun (.mk x (dropFun F d))
  | .if c a none => .if (dropExpr F c) (dropStmt F a) none
  | .if c a (some b) => .if (dropExpr F c) (dropStmt F a) (some (dropStmt F b))
  | .print e => .print (dropExpr F e)
  | .return e loc => .return (dropExpr F e) loc
  | .var x s e loc => .var x s (dropExpr F e) loc
  | .while c b => .while (dropExpr F c) (dropStmt F b)
  | .whileIncrement c b i => .whileIncrement (dropExpr F c) (dropStmt F b) (dropExpr F i)

/-- The statements without the declarations of the variables in `F`. -/
def dropStmts (F : List Str) : List Stmt → List Stmt
  | [] => []
  | s :: ss => if declaresOneOf F s then dropStmts F ss else dropStmt F s :: dropStmts F ss
end

mutual
/-- The expression without slots: of the location of a variable only the distance remains. -/
def slotlessExpr : Expr → Expr
  | .assign x c r loc => .assign x ⟨c.distance, 0⟩ (slotlessExpr r) loc
  | .call f args loc => .call (slotlessExpr f) (slotlessExprs args) loc
  | .binary a op b loc => .binary (slotlessExpr a) op (slotlessExpr b) loc
  | .function d => .function (slotlessFun d)
  | .get o x loc => .get (slotlessExpr o) x loc
  | .getIndex a i loc => .getIndex (slotlessExpr a) (slotlessExpr i) loc
  | .grouping e => .grouping (slotlessExpr e)
  | .literalArray es => .literalArray (slotlessExprs es)
  | .literalMap ms => .literalMap (slotlessEntries ms)
  | .logical a op b => .logical (slotlessExpr a) op (slotlessExpr b)
  | .set o x v loc => .set (slotlessExpr o) x (slotlessExpr v) loc
  | .setIndex a i v loc => .setIndex (slotlessExpr a) (slotlessExpr i) (slotlessExpr v) loc
  | .super c x loc => .super ⟨c.distance, 0⟩ x loc
  | .variable x c loc => .variable x ⟨c.distance, 0⟩ loc
  | .unary op e loc => .unary op (slotlessExpr e) loc
  | .literalBool b => .literalBool b
  | .literalNumber x => .literalNumber x
  | .literalNil => .literalNil
  | .literalString s => .literalString s

def slotlessExprs : List Expr → List Expr
  | [] => []
  | e :: es => slotlessExpr e :: slotlessExprs es

def slotlessEntries : List MapEntry → List MapEntry
  | [] => []
  | .mk k v :: ms => .mk k (slotlessExpr v) :: slotlessEntries ms

def slotlessFun : FunDef → FunDef
  | .mk ps body k loc => .mk ps (slotlessStmts body) k loc

def slotlessMethods : List NamedFun → List NamedFun
  | [] => []
  | .mk x d :: ms => .mk x (slotlessFun d) :: slotlessMethods ms

/-- The statement without slots. -/
def slotlessStmt : Stmt → Stmt
  | .block body => .block (slotlessStmts body)
  | .break loc => .break loc
  | .continue loc => .continue loc
  | .class x none ms loc => .class x none (slotlessMethods ms) loc
  | .class x (some e) ms loc => .class x (some (slotlessExpr e)) (slotlessMethods ms) loc
  | .expression e => .expression (slotlessExpr e)
  | .fun (.mk x d) => .fun (.mk x (slotlessFun d))
  | .if c a none => .if (slotlessExpr c) (slotlessStmt a) none
  | .if c a (some b) => .if (slotlessExpr c) (slotlessStmt a) (some (slotlessStmt b))
  | .print e => .print (slotlessExpr e)
  | .return e loc => .return (slotlessExpr e) loc
  | .var x _ e loc => .var x ⟨0⟩ (slotlessExpr e) loc
  | .while c b => .while (slotlessExpr c) (slotlessStmt b)
  | .whileIncrement c b i => .whileIncrement (slotlessExpr c) (slotlessStmt b) (slotlessExpr i)

def slotlessStmts : List Stmt → List Stmt
  | [] => []
  | s :: ss => slotlessStmt s :: slotlessStmts ss
end

/-- The name an act is about. -/
def Act.name : Act → Option Str
  | .declare x _ | .begin x _ | .read x _ | .use x _ => some x
  | _ => none

/-- None of the acts is about a name in `F`. -/
def Unnamed (F : List Str) (as : List Act) : Prop := ∀ a ∈ as, ∀ x ∈ F, a.name ≠ some x

/-- Except for declarations, with literals as their values, nothing in the program is about the names in
`F`. -/
def Unused (F : List Str) (sts : List Stmt) : Prop :=
  c!"this" ∉ F ∧ c!"super" ∉ F ∧ Unnamed F (stmtsActs .nowhere .nowhere (dropStmts F sts))

/-- The error is about a name in `F`, or there are too many names in a scope. -/
def AboutDeclared (F : List Str) (e : Cause) : Prop :=
  (∃ x ∈ F, e.token = some x) ∨ e.message = "Too many local variables in function."

/-- The results of a program, and of the program without the declarations of `F`: the same program but for
the declarations and the slots, or the same errors. -/
def SameButUnused (F : List Str) : Except ParseError (List Stmt) → Except ParseError (List Stmt) → Prop
  | .ok sts, .ok sts' => slotlessStmts (dropStmts F sts) = slotlessStmts sts'
  | .error es, .error es' => es = es'
  | _, _ => False

end Ws.Spec
