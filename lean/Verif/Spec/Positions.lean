import Verif.Model.Resolver
/-! Moving tokens, errors and syntax trees to other positions. -/
namespace Ws.Spec
open Ws

/-- The token at another position. -/
def moveToken (g : SourceLoc → SourceLoc) (t : Token) : Token := { t with line := (g t.loc).line, column := (g t.loc).column }

/-- The error at another position. -/
def moveCause (g : SourceLoc → SourceLoc) (c : Cause) : Cause := { c with loc := g c.loc }

/-- The parameter at another position. -/
def moveParam (g : SourceLoc → SourceLoc) (p : Parameter) : Parameter := { p with loc := g p.loc }

variable (g : SourceLoc → SourceLoc)

mutual
/-- The expression with all its positions changed. -/
def moveExpr : Expr → Expr
  | .assign x cell r loc => .assign x cell (moveExpr r) (g loc)
  | .call f args loc => .call (moveExpr f) (moveExprs args) (g loc)
  | .binary a op b loc => .binary (moveExpr a) op (moveExpr b) (g loc)
  | .function d => .function (moveFun d)
  | .get o x loc => .get (moveExpr o) x (g loc)
  | .getIndex a i loc => .getIndex (moveExpr a) (moveExpr i) (g loc)
  | .grouping e => .grouping (moveExpr e)
  | .literalArray es => .literalArray (moveExprs es)
  | .literalMap ms => .literalMap (moveEntries ms)
  | .logical a op b => .logical (moveExpr a) op (moveExpr b)
  | .set o x v loc => .set (moveExpr o) x (moveExpr v) (g loc)
  | .setIndex a i v loc => .setIndex (moveExpr a) (moveExpr i) (moveExpr v) (g loc)
  | .super cell x loc => .super cell x (g loc)
  | .variable x cell loc => .variable x cell (g loc)
  | .unary op e loc => .unary op (moveExpr e) (g loc)
  | .literalBool b => .literalBool b
  | .literalNumber x => .literalNumber x
  | .literalNil => .literalNil
  | .literalString s => .literalString s

def moveExprs : List Expr → List Expr
  | [] => []
  | e :: es => moveExpr e :: moveExprs es

def moveEntries : List MapEntry → List MapEntry
  | [] => []
  | .mk k v :: ms => .mk k (moveExpr v) :: moveEntries ms

def moveFun : FunDef → FunDef
  | .mk ps body k loc => .mk (ps.map (moveParam g)) (moveStmts body) k (g loc)

def moveMethods : List NamedFun → List NamedFun
  | [] => []
  | .mk x d :: ms => .mk x (moveFun d) :: moveMethods ms

/-- The statement with all its positions changed. -/
def moveStmt : Stmt → Stmt
  | .block body => .block (moveStmts body)
  | .break loc => .break (g loc)
  | .continue loc => .continue (g loc)
  | .class x none ms loc => .class x none (moveMethods ms) (g loc)
  | .class x (some e) ms loc => .class x (some (moveExpr e)) (moveMethods ms) (g loc)
  | .expression e => .expression (moveExpr e)
  | .fun (.mk x d) => .fun (.mk x (moveFun d))
  | .if c a none => .if (moveExpr c) (moveStmt a) none
  | .if c a (some b) => .if (moveExpr c) (moveStmt a) (some (moveStmt b))
  | .print e => .print (moveExpr e)
  | .return e loc => .return (moveExpr e) (g loc)
  | .var x slot e loc => .var x slot (moveExpr e) (g loc)
  | .while c b => .while (moveExpr c) (moveStmt b)
  | .whileIncrement c b i => .whileIncrement (moveExpr c) (moveStmt b) (moveExpr i)

def moveStmts : List Stmt → List Stmt
  | [] => []
  | s :: ss => moveStmt s :: moveStmts ss
end

/-- A result with all its positions changed. -/
def moveResult {α β : Type} (m : α → β) : Except ParseError α → Except ParseError β
  | .ok a => .ok (m a)
  | .error es => .error (es.map (moveCause g))

/-- An outcome with its value changed. -/
def mapOutcome {α β : Type} (m : α → β) : Outcome α → Outcome β
  | .done a => .done (m a)
  | .panic s => .panic s
  | .diverge => .diverge

/-- Forgets a position. -/
def nowhere : SourceLoc → SourceLoc := fun _ => .default

/-- The tokens are the same, at whatever positions. -/
def SameTokens (ts ts' : List Token) : Prop := ts.map (moveToken nowhere) = ts'.map (moveToken nowhere)

/-- The programs are the same, at whatever positions. -/
def SameProgram (sts sts' : List Stmt) : Prop := moveStmts nowhere sts = moveStmts nowhere sts'

/-- The errors are the same, at whatever positions. -/
def SameErrors (es es' : List Cause) : Prop := es.map (moveCause nowhere) = es'.map (moveCause nowhere)

/-- What the scanner gives, with all its positions changed. -/
def movedScan : Outcome (Except ParseError (List Token)) → Outcome (Except ParseError (List Token)) :=
  mapOutcome (moveResult g (List.map (moveToken g)))

/-- What a run gives, with all its positions changed. The state of the resolver has no positions. -/
def movedRun : Outcome (Except ParseError (List Stmt) × Resolver) → Outcome (Except ParseError (List Stmt) × Resolver) :=
  mapOutcome fun x => (moveResult g (moveStmts g) x.1, x.2)

/-- The same tokens, the same errors, or both hang, at whatever positions. -/
def SameScan (o o' : Outcome (Except ParseError (List Token))) : Prop := movedScan nowhere o = movedScan nowhere o'

/-- The same program or the same errors, at whatever positions, and the same state of the resolver. -/
def SameRun (o o' : Outcome (Except ParseError (List Stmt) × Resolver)) : Prop :=
  movedRun nowhere o = movedRun nowhere o'

/-- A position on line `l` or later, one line further down. -/
def locDown (l : Nat) (loc : SourceLoc) : SourceLoc :=
  if l ≤ loc.line then { loc with line := min (loc.line + 1) u32Max } else loc

end Ws.Spec
