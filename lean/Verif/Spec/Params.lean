import Verif.Spec.Rename
import Verif.Spec.Scoping
/-! Renaming the parameters of functions. -/
namespace Ws.Spec
open Ws

/-- The event declares or uses the name. -/
def Event.mentions (x : Str) : Event → Bool
  | .declare y _ | .use y _ => y == x
  | .enter _ | .leave => false

/-- The function declares or uses the name, as a parameter or anywhere in its body. -/
def funMentions (d : FunDef) (x : Str) : Bool := (funEvents d).any (·.mentions x)

/-- The names of the parameters. -/
def paramNames : FunDef → List Str
  | .mk ps _ _ _ => ps.map (·.name)

/-- A renaming that renames nothing in the function but its parameters. -/
structure RenamesParams (σ : Str → Str) (d : FunDef) : Prop extends Renaming σ where
  others : ∀ x, funMentions d x → x ∉ paramNames d → σ x = x

section
variable (choose : FunDef → Str → Str)
mutual
/-- The expression, with the parameters of its functions renamed. -/
def alphaExpr : Expr → Expr
  | .assign x c r loc => .assign x c (alphaExpr r) loc
  | .call f args loc => .call (alphaExpr f) (alphaExprs args) loc
  | .binary a op b loc => .binary (alphaExpr a) op (alphaExpr b) loc
  | .function d => .function (alphaFun d)
  | .get o x loc => .get (alphaExpr o) x loc
  | .getIndex a i loc => .getIndex (alphaExpr a) (alphaExpr i) loc
  | .grouping e => .grouping (alphaExpr e)
  | .literalArray es => .literalArray (alphaExprs es)
  | .literalMap ms => .literalMap (alphaEntries ms)
  | .logical a op b => .logical (alphaExpr a) op (alphaExpr b)
  | .set o x v loc => .set (alphaExpr o) x (alphaExpr v) loc
  | .setIndex a i v loc => .setIndex (alphaExpr a) (alphaExpr i) (alphaExpr v) loc
  | .super c x loc => .super c x loc
  | .variable x c loc => .variable x c loc
  | .unary op e loc => .unary op (alphaExpr e) loc
  | .literalBool b => .literalBool b
  | .literalNumber x => .literalNumber x
  | .literalNil => .literalNil
  | .literalString s => .literalString s

def alphaExprs : List Expr → List Expr
  | [] => []
  | e :: es => alphaExpr e :: alphaExprs es

def alphaEntries : List MapEntry → List MapEntry
  | [] => []
  | .mk k v :: ms => .mk k (alphaExpr v) :: alphaEntries ms

/-- The function: first the functions inside, and then its own parameters. -/
def alphaFun : FunDef → FunDef
  | .mk ps body k loc => renameFun (choose (.mk ps (alphaStmts body) k loc)) (.mk ps (alphaStmts body) k loc)

def alphaMethods : List NamedFun → List NamedFun
  | [] => []
  | .mk x d :: ms => .mk x (alphaFun d) :: alphaMethods ms

/-- The statement, with the parameters of its functions renamed. -/
def alphaStmt : Stmt → Stmt
  | .block body => .block (alphaStmts body)
  | .break loc => .break loc
  | .continue loc => .continue loc
  | .class x none ms loc => .class x none (alphaMethods ms) loc
  | .class x (some e) ms loc => .class x (some (alphaExpr e)) (alphaMethods ms) loc
  | .expression e => .expression (alphaExpr e)
  | .fun (.mk x d) => .fun (.mk x (alphaFun d))
  | .if c a none => .if (alphaExpr c) (alphaStmt a) none
  | .if c a (some b) => .if (alphaExpr c) (alphaStmt a) (some (alphaStmt b))
  | .print e => .print (alphaExpr e)
  | .return e loc => .return (alphaExpr e) loc
  | .var x s e loc => .var x s (alphaExpr e) loc
  | .while c b => .while (alphaExpr c) (alphaStmt b)
  | .whileIncrement c b i => .whileIncrement (alphaExpr c) (alphaStmt b) (alphaExpr i)

def alphaStmts : List Stmt → List Stmt
  | [] => []
  | s :: ss => alphaStmt s :: alphaStmts ss
end
end

/-- The event without the name: only the slot or the location is left. -/
def Event.nameless : Event → Event
  | .declare _ slot => .declare [] slot
  | .use _ cell => .use [] cell
  | .enter ns => .enter ns
  | .leave => .leave

/-- Both programs are accepted, with the same slots and locations; or both are rejected, with the same
errors at the same places (an error may quote another name). -/
def SamePlaces : Except ParseError (List Stmt) → Except ParseError (List Stmt) → Prop
  | .ok out, .ok out' => (stmtsEvents out').map Event.nameless = (stmtsEvents out).map Event.nameless
  | .error cs, .error cs' => cs'.map (fun c => (c.loc, c.message)) = cs.map fun c => (c.loc, c.message)
  | _, _ => False

/-- The renaming that exchanges two names. -/
def exchange (x z : Str) (y : Str) : Str := if y = x then z else if y = z then x else y

/-- The parameter `x` of every function that has one becomes `z`, unless the function mentions `z`. -/
def chooseOther (x z : Str) (d : FunDef) : Str → Str :=
  if (paramNames d).contains x && !funMentions d z then exchange x z else id

end Ws.Spec
