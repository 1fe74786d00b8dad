import Verif.Model.Ast
import Verif.Model.Scanner
/-! Model of `src/parser.rs`.

Recursion. The parsing functions call each other cyclically, and every cycle passes through
`assignment`, `unary`, `declaration` or `statement`. Each function of the code is modelled by a Lean
function that takes these four as a record `Rec`; `recN` ties the knot, `recN n` allowing `n` levels
of recursion (a call beyond that is `diverge`). `while`/`loop` loops go through `loopFuel`.
`parseTokens` supplies enough of both; that neither is ever exhausted is proved
(`Verif.Properties.Parser`), so the model computes what the code computes. -/
namespace Ws

/-- `parser.rs:50-56` `Parser`. -/
structure Parser where
  tokens : List Token
  current : Nat
  inLoops : Nat
  allowTrailing : Bool

/-- Parsing functions: `&mut Parser`, returning `Result<_, ParseErrorCause>`. -/
abbrev P := M Parser Cause

namespace Parser

/-- `parser.rs:59-66` `Parser::new` and `70-77` `with_trailing_expression`. -/
def new (tokens : List Token) (allowTrailing : Bool) : Parser := ⟨tokens, 0, 0, allowTrailing⟩

/-- `parser.rs:1130-1132` `peek`. -/
def peek (p : Parser) : Option Token := p.tokens[p.current]?
/-- `parser.rs:1134-1136` `peek_next`. -/
def peekNext (p : Parser) : Option Token := p.tokens[p.current + 1]?
/-- `parser.rs:1138-1140` `peek_next_next`. -/
def peekNextNext (p : Parser) : Option Token := p.tokens[p.current + 2]?

/-- `parser.rs:1192-1197` `is_at_end`. -/
def isAtEnd (p : Parser) : Bool :=
  match p.peek with
  | none => true
  | some t => t.tokenType == .eof

/-- `parser.rs:1043-1049` `check`. -/
def check (p : Parser) (tt : TokenType) : Bool :=
  !p.isAtEnd && match p.peek with
    | none => false
    | some t => t.tokenType == tt
/-- `parser.rs:1052-1058` `check_next`. -/
def checkNext (p : Parser) (tt : TokenType) : Bool :=
  !p.isAtEnd && match p.peekNext with
    | none => false
    | some t => t.tokenType == tt
/-- `parser.rs:1061-1067` `check_next_next`. -/
def checkNextNext (p : Parser) (tt : TokenType) : Bool :=
  !p.isAtEnd && match p.peekNextNext with
    | none => false
    | some t => t.tokenType == tt
/-- `parser.rs:1070-1076` `check_any_of`. -/
def checkAnyOf (p : Parser) (tts : List TokenType) : Bool :=
  !p.isAtEnd && match p.peek with
    | none => false
    | some t => tts.contains t.tokenType
/-- `parser.rs:1079-1085` `check_next_any_of`. -/
def checkNextAnyOf (p : Parser) (tts : List TokenType) : Bool :=
  !p.isAtEnd && match p.peekNext with
    | none => false
    | some t => tts.contains t.tokenType

/-- `parser.rs:1123-1128` `advance`. -/
def advance (p : Parser) : Parser :=
  if p.isAtEnd then p else { p with current := p.current + 1 }

end Parser

open Parser

/-- Read-only queries on the parser. -/
@[inline] def query {α : Type} (f : Parser → α) : P α := fun p => .ok (f p) p

/-- `self.advance()`. -/
def advanceP : P Unit := M.modify Parser.advance

/-- `parser.rs:1088-1095` `match_token`. -/
def matchToken (tt : TokenType) : P Bool := fun p =>
  if p.check tt then .ok true p.advance else .ok false p

/-- `parser.rs:1099-1121` `matches`. -/
def matchesAny (tts : List TokenType) : P (Option (TokenType × SourceLoc)) := fun p =>
  match p.peek with
  | none => .ok none p
  | some t =>
    if tts.contains t.tokenType then .ok (some (t.tokenType, t.loc)) p.advance
    else .ok none p

/-- `parser.rs:1142-1144` `previous`: `self.current - 1` underflows at the first token, which panics
when overflow checks are on and otherwise wraps to an index that is out of range. -/
def previous (env : Env) : P (Option Token) := fun p =>
  if p.current = 0 then
    if env.overflowChecks then .panic "attempt to subtract with overflow" else .ok none p
  else .ok p.tokens[p.current - 1]? p

/-- `parser.rs:1146-1153` `previous_source_loc`. -/
def previousSourceLoc (env : Env) : P SourceLoc := do
  match ← previous env with
  | some t => pure t.loc
  | none => pure .default

/-- `parser.rs:1155-1168` `peek_source_loc`. -/
def peekSourceLoc (env : Env) : P SourceLoc := do
  match ← query peek with
  | some t => pure t.loc
  | none => previousSourceLoc env

/-- `return Err(self.error_from_last(message))`, `parser.rs:1170-1179`. -/
def errorFromLast {α : Type} (env : Env) (message : String) : P α := do
  match ← previous env with
  | some t =>
    let loc ← previousSourceLoc env
    M.throw (.newWithLocation loc t.lexeme message)
  | none =>
    let loc ← previousSourceLoc env
    M.throw (.new loc message)

/-- `return Err(self.error_from_peek(message))`, `parser.rs:1181-1190`. -/
def errorFromPeek {α : Type} (env : Env) (message : String) : P α := do
  match ← query peek with
  | some t =>
    let loc ← peekSourceLoc env
    M.throw (.newWithLocation loc t.lexeme message)
  | none =>
    let loc ← peekSourceLoc env
    M.throw (.new loc message)

/-- `parser.rs:1235-1244` `consume_any_of`. -/
def consumeAnyOf (env : Env) (tts : List TokenType) (message : String) : P Unit := do
  match ← matchesAny tts with
  | some _ => pure ()
  | none => errorFromPeek env message

/-- `parser.rs:1199-1208` `consume`. -/
def consume (env : Env) (tt : TokenType) (message : String) : P Unit :=
  consumeAnyOf env [tt] message

/-- `parser.rs:1213-1233` `consume_identifier`. -/
def consumeIdentifier (env : Env) (message : String) : P (Str × SourceLoc) := do
  match ← query peek with
  | some t =>
    if t.tokenType = .identifier then do
      advanceP
      pure (t.lexeme, t.loc)
    else errorFromPeek env message
  | none => errorFromPeek env message

/-- `parser.rs:1246-1262` `consume_begin_block`. -/
def consumeBeginBlock (env : Env) (message : String) : P TokenType := do
  match ← matchesAny [.terminator, .leftBrace] with
  | some (.terminator, _) => do
    consume env .indent "Expect indent to begin block"
    pure .outdent
  | some (.leftBrace, _) => pure .rightBrace
  | some _ => M.panic "internal error: entered unreachable code"
  | none => errorFromPeek env message

/-- `parser.rs:1264-1284` `consume_end_block`. -/
def consumeEndBlock (env : Env) (endBlock : TokenType) (after : String) : P Unit := do
  match ← matchesAny [endBlock] with
  | some _ => pure ()
  | none =>
    match endBlock with
    | .outdent => errorFromPeek env ("Expect outdent" ++ after)
    | .rightBrace => errorFromPeek env ("Expect '}'" ++ after)
    | _ => M.panic "Should never have an end block be any other token"

/-- One iteration of a loop: go on with new loop variables, or leave the loop with a result. -/
inductive Step (σ β : Type) where
  | next (a : σ)
  | stop (b : β)

/-- A loop with loop variables `σ`, at most `fuel` iterations. -/
def loopFuel {σ β : Type} (body : σ → P (Step σ β)) : Nat → σ → P β
  | 0, _ => fun _ => .diverge
  | n + 1, a => do
    match ← body a with
    | .next a' => loopFuel body n a'
    | .stop b => pure b

/-- A loop; every loop of the parser consumes a token per iteration, so the number of tokens (plus
one) bounds the number of iterations. -/
def loop {σ β : Type} (body : σ → P (Step σ β)) (a : σ) : P β := fun p =>
  loopFuel body (p.tokens.length + 1) a p

/-- The functions through which all recursion passes. -/
structure Rec where
  /-- `parser.rs:523` `assignment` -/
  assignment : P Expr
  /-- `parser.rs:726` `unary` -/
  unary : P Expr
  /-- `parser.rs:112` `declaration` -/
  declaration : P Stmt
  /-- `parser.rs:286` `statement` -/
  statement : P Stmt

/-- `parser.rs:519-521` `expression`. -/
def expression (r : Rec) : P Expr := r.assignment

/-- `parser.rs:421-434` `finish_block`. -/
def finishBlock (env : Env) (r : Rec) (endBlock : TokenType) : P (List Stmt) := do
  let statements ← loop (fun (acc : List Stmt) => do
    if (← query (fun p => !p.check endBlock && !p.isAtEnd)) then
      let st ← r.declaration
      pure (.next (acc ++ [st]))
    else pure (.stop acc)) []
  consumeEndBlock env endBlock " after block."
  pure statements

/-- `parser.rs:203-224`: the parameter list. -/
def parameterList (env : Env) : P (List Parameter) := do
  if (← query (fun p => !p.check .rightParen)) then
    loop (fun (acc : List Parameter) => do
      let (name, loc) ← consumeIdentifier env "Expect identifier in function parameters."
      if acc.length ≥ 255 then
        M.throw (.newWithLocation loc name "Cannot have more than 255 parameters.")
      else
        let acc := acc ++ [⟨name, loc⟩]
        if (← matchToken .comma) then pure (.next acc) else pure (.stop acc)) []
  else pure []

/-- `parser.rs:194-240` `function_definition`. -/
def functionDefinition (env : Env) (r : Rec) (loc : SourceLoc) : P FunDef := do
  consumeAnyOf env [.leftParen, .leftParenAbutting] "Expect '(' after function name."
  let parameters ← parameterList env
  consume env .rightParen "Expect ')' after parameters."
  let endBlock ← consumeBeginBlock env "Expect '{' or indent before function body."
  let body ← finishBlock env r endBlock
  pure (.mk parameters body .plainFunction loc)

/-- `parser.rs:183-192` `finish_fun_declaration`. Simplification: returns the
`NamedFunctionDefinition` instead of wrapping it in `Stmt::Fun`; the caller at `parser.rs:153-169`
only unwraps it again (its `_` arm is unreachable). -/
def finishFunDeclaration (env : Env) (r : Rec) : P NamedFun := do
  let (id, loc) ← consumeIdentifier env "Expect identifier after 'fun'."
  let d ← functionDefinition env r loc
  pure (.mk id d)

/-- `parser.rs:150-170`: the methods of a class. -/
def classMethods (env : Env) (r : Rec) (endBlock : TokenType) : P (List NamedFun) :=
  loop (fun (acc : List NamedFun) => do
    if (← query (fun p => !p.check endBlock && !p.isAtEnd)) then
      let isClassMethod ← matchToken .class
      let f ← finishFunDeclaration env r
      let ft : FunctionType :=
        if isClassMethod then .classMethod
        else if f.name = c!"init" then .initializer
        else .method
      pure (.next (acc ++ [.mk f.name (f.funDef.setFunType ft)]))
    else pure (.stop acc)) []

/-- `parser.rs:132-145`: the optional superclass. -/
def superclassClause (env : Env) : P (Option Expr) := do
  if (← matchToken .less) then
    let (superId, superLoc) ← consumeIdentifier env "Expect superclass name."
    pure (some (Expr.variable superId .placeholder superLoc))
  else pure none

/-- `parser.rs:127-181` `finish_class_declaration`. -/
def finishClassDeclaration (env : Env) (r : Rec) : P Stmt := do
  let (id, loc) ← consumeIdentifier env "Expect identifier after 'class'."
  let superclass ← superclassClause env
  let endBlock ← consumeBeginBlock env "Expect '{' or indent after class name."
  let methods ← classMethods env r endBlock
  consumeEndBlock env endBlock " after class method body."
  pure (.class id superclass methods loc)

/-- `parser.rs:249-261`: the initializer of a variable, and whether a newline must follow. -/
def varInitializer (r : Rec) : P (Expr × Bool) := do
  match ← matchesAny [.equal] with
  | none => pure (Expr.literalNil, true)
  | some _ => do
    let _ ← matchToken .terminator
    let needsTerm ← query (fun p => !p.check .indent && !p.check .leftBrace)
    let e ← expression r
    pure (e, needsTerm)

/-- `parser.rs:263-276`: the end of a variable declaration. -/
def endVarDeclaration (env : Env) (forLoopInit needsTerminator : Bool) : P Unit := do
  if forLoopInit then consume env .semicolon "Expect ';' after var declaration."
  else if needsTerminator then consume env .terminator "Expect newline after var declaration."
  else do
    let _ ← matchToken .terminator
    pure ()

/-- `parser.rs:242-284` `finish_var_declaration`. -/
def finishVarDeclaration (env : Env) (r : Rec) (forLoopInit : Bool) : P Stmt := do
  let (id, loc) ← consumeIdentifier env "Expect variable name."
  let (expr, needsTerminator) ← varInitializer r
  endVarDeclaration env forLoopInit needsTerminator
  pure (.var id .placeholder expr loc)

/-- `parser.rs:504-514`: the end of an expression statement. -/
def endExpressionStatement (env : Env) : P Unit := do
  if (← query (fun p => !(p.allowTrailing && p.isAtEnd) || p.check .terminator)) then
    consume env .terminator "Expect newline after expression."
  else pure ()

/-- `parser.rs:501-517` `expression_statement`. -/
def expressionStatement (env : Env) (r : Rec) : P Stmt := do
  let expr ← expression r
  endExpressionStatement env
  pure (.expression expr)

/-- `parser.rs:317-330` `finish_break_statement`. -/
def finishBreakStatement (env : Env) (loc : SourceLoc) : P Stmt := do
  if (← query (fun p => p.inLoops == 0)) then
    errorFromLast env "Found break statement outside of loop body"
  else do
    consume env .terminator "Expect newline after break."
    pure (.break loc)

/-- `parser.rs:332-345` `finish_continue_statement`. -/
def finishContinueStatement (env : Env) (loc : SourceLoc) : P Stmt := do
  if (← query (fun p => p.inLoops == 0)) then
    errorFromLast env "Found continue statement outside of loop body"
  else do
    consume env .terminator "Expect newline after continue."
    pure (.continue loc)

/-- `parser.rs:486-495`, and likewise `402-410`: a block introduced by a newline or a brace, or else
a statement. The two `?`s of `loop_body_statement` differ: that of `consume_begin_block` leaves the
function before `in_loops` is decremented, while the error of `finish_block` or `statement` does not
(see `loopBodyStatement`). -/
def blockOrStatement (env : Env) (r : Rec) (endBlock : Option TokenType) : P Stmt := do
  match endBlock with
  | some eb => do
    let body ← finishBlock env r eb
    pure (.block body)
  | none => r.statement

/-- `consume_begin_block` when the next token is a Terminator or `{` (`parser.rs:402-406`,
`486-491`). -/
def beginBlockIfAny (env : Env) (message : String) : P (Option TokenType) := do
  if (← query (fun p => p.check .terminator || p.check .leftBrace)) then
    let eb ← consumeBeginBlock env message
    pure (some eb)
  else pure none

/-- `self.in_loops -= 1` executed after `x` whether or not it failed (`parser.rs:496-498`). The
subtraction would underflow at 0: a panic with overflow checks, a wrap-around without. -/
def thenLeaveLoop {α : Type} (env : Env) (x : P α) : P α := fun p =>
  match x p with
  | .ok a p' =>
    if p'.inLoops = 0 then
      if env.overflowChecks then .panic "attempt to subtract with overflow"
      else .ok a { p' with inLoops := env.usizeMax }
    else .ok a { p' with inLoops := p'.inLoops - 1 }
  | .err e p' =>
    if p'.inLoops = 0 then
      if env.overflowChecks then .panic "attempt to subtract with overflow"
      else .err e { p' with inLoops := env.usizeMax }
    else .err e { p' with inLoops := p'.inLoops - 1 }
  | .panic m => .panic m
  | .diverge => .diverge

/-- `self.in_loops.checked_add(1).expect(..)` (`parser.rs:483-484`). -/
def enterLoop (env : Env) : P Unit := fun p =>
  if p.inLoops ≥ env.usizeMax then .panic "Too many nested loops"
  else .ok () { p with inLoops := p.inLoops + 1 }

/-- `parser.rs:482-499` `loop_body_statement`. -/
def loopBodyStatement (env : Env) (r : Rec) : P Stmt := do
  enterLoop env
  let endBlock ← beginBlockIfAny env "Expect '{' or indent before loop body."
  thenLeaveLoop env (blockOrStatement env r endBlock)

/-- `parser.rs:353-359`: the initializer of a for loop. -/
def forInitializer (env : Env) (r : Rec) : P (Option Stmt) := do
  if (← matchToken .semicolon) then pure none
  else if (← matchToken .var) then do
    let st ← finishVarDeclaration env r true
    pure (some st)
  else do
    let st ← expressionStatement env r
    pure (some st)

/-- `parser.rs:360-364`: the condition of a for loop. -/
def forCondition (r : Rec) : P Expr := do
  if (← query (fun p => p.check .semicolon)) then pure (Expr.literalBool true)
  else expression r

/-- `parser.rs:369-373`: the increment of a for loop. -/
def forIncrement (r : Rec) : P (Option Expr) := do
  if (← query (fun p => p.check .rightParen)) then pure none
  else do
    let e ← expression r
    pure (some e)

/-- `parser.rs:347-392` `finish_for_statement`. -/
def finishForStatement (env : Env) (r : Rec) : P Stmt := do
  consumeAnyOf env [.leftParen, .leftParenAbutting] "Expect '(' after for."
  let initializer ← forInitializer env r
  let condition ← forCondition r
  consume env .semicolon "Expect ';' after for-loop condition."
  let increment ← forIncrement r
  consume env .rightParen "Expect ')' after for-loop increment."
  let loopBody ← loopBodyStatement env r
  let whileLoop : Stmt :=
    match increment with
    | none => .while condition loopBody
    | some inc => .whileIncrement condition loopBody inc
  match initializer with
  | none => pure whileLoop
  | some st => pure (.block [st, whileLoop])

/-- `parser.rs:394-419` `finish_if_statement`. -/
def finishIfStatement (env : Env) (r : Rec) : P Stmt := do
  consumeAnyOf env [.leftParen, .leftParenAbutting] "Expect '(' after if."
  let condition ← expression r
  consume env .rightParen "Expect ')' after if condition."
  let endBlock ← beginBlockIfAny env "Expect '{' or indent before if body."
  let thenStmt ← blockOrStatement env r endBlock
  if (← matchToken .else) then
    let st ← r.statement
    pure (.if condition thenStmt (some st))
  else pure (.if condition thenStmt none)

/-- `parser.rs:436-445` `finish_print_statement`. -/
def finishPrintStatement (env : Env) (r : Rec) : P Stmt := do
  let expr ← expression r
  consume env .terminator "Expect newline after print value."
  pure (.print expr)

/-- `parser.rs:452-456`: the value of a return statement. -/
def returnValue (r : Rec) : P Expr := do
  if (← query (fun p => p.check .terminator)) then pure Expr.literalNil else expression r

/-- `parser.rs:447-463` `finish_return_statement`. -/
def finishReturnStatement (env : Env) (r : Rec) (loc : SourceLoc) : P Stmt := do
  let expr ← returnValue r
  consume env .terminator "Expect newline after return expression."
  pure (.return expr loc)

/-- `parser.rs:465-479` `finish_while_statement`. -/
def finishWhileStatement (env : Env) (r : Rec) : P Stmt := do
  consumeAnyOf env [.leftParen, .leftParenAbutting] "Expect '(' after while."
  let condition ← expression r
  consume env .rightParen "Expect ')' after while condition."
  let body ← loopBodyStatement env r
  pure (.while condition body)

/-- `parser.rs:286-315` `statement`. -/
def statementBody (env : Env) (r : Rec) : P Stmt := do
  match ← matchesAny [.break, .continue, .for, .if, .leftBrace, .print, .return, .while] with
  | none => expressionStatement env r
  | some (.break, loc) => finishBreakStatement env loc
  | some (.continue, loc) => finishContinueStatement env loc
  | some (.for, _) => finishForStatement env r
  | some (.if, _) => finishIfStatement env r
  | some (.leftBrace, _) => do
    let body ← finishBlock env r .rightBrace
    pure (.block body)
  | some (.print, _) => finishPrintStatement env r
  | some (.return, loc) => finishReturnStatement env r loc
  | some (.while, _) => finishWhileStatement env r
  | some _ => M.panic "statement: unexpected token type"

/-- `parser.rs:112-125` `declaration`. -/
def declarationBody (env : Env) (r : Rec) : P Stmt := do
  if (← matchToken .class) then finishClassDeclaration env r
  else if (← query (fun p => p.check .fun && p.checkNext .identifier)) then do
    consume env .fun
      "Consuming Fun token that we just checked; this error should never happen"
    let f ← finishFunDeclaration env r
    pure (.fun f)
  else if (← matchToken .var) then finishVarDeclaration env r false
  else r.statement

/-- The six left-associative binary levels, loosest first. -/
inductive Level where
  | or | and | equality | comparison | addition | multiplication
  deriving Repr, DecidableEq

/-- The node built for an operator token at a level: `parser.rs:588-595` (or), `603-610` (and),
`623-633` (equality), `654-666` (comparison), `682-692` (addition), `708-718` (multiplication).
`none` if the token is not an operator of the level. -/
def Level.node : Level → TokenType → Option (Expr → Expr → SourceLoc → Expr)
  | .or, .or => some fun l r _ => .logical l .or r
  | .and, .and => some fun l r _ => .logical l .and r
  | .equality, .bangEqual => some fun l r loc => .binary l .notEqual r loc
  | .equality, .equalEqual => some fun l r loc => .binary l .equal r loc
  | .comparison, .less => some fun l r loc => .binary l .less r loc
  | .comparison, .lessEqual => some fun l r loc => .binary l .lessEqual r loc
  | .comparison, .greater => some fun l r loc => .binary l .greater r loc
  | .comparison, .greaterEqual => some fun l r loc => .binary l .greaterEqual r loc
  | .addition, .minus => some fun l r loc => .binary l .minus r loc
  | .addition, .plus => some fun l r loc => .binary l .plus r loc
  | .multiplication, .slash => some fun l r loc => .binary l .divide r loc
  | .multiplication, .star => some fun l r loc => .binary l .multiply r loc
  | _, _ => none

/-- The operator tokens looked for at each level: `parser.rs:588`, `603`, `619`, `645-650`, `678`,
`704`. (`or` and `and` use `match_token`, the others `matches`; both look at the next token only
and, as no operator is Eof, agree.) -/
def Level.operators : Level → List TokenType
  | .or => [.or]
  | .and => [.and]
  | .equality => [.bangEqual, .equalEqual]
  | .comparison => [.less, .greater, .lessEqual, .greaterEqual]
  | .addition => [.minus, .plus]
  | .multiplication => [.slash, .star]

/-- The loop of a left-associative level over its operands: `parser.rs:585-598` (or), `600-613`
(and), `615-639` (equality), `641-672` (comparison), `674-698` (addition), `700-724`
(multiplication). -/
def binaryLevel (l : Level) (operand : P Expr) : P Expr := do
  let first ← operand
  loop (fun (expr : Expr) => do
    match ← matchesAny l.operators with
    | none => pure (.stop expr)
    | some (op, loc) => do
      let right ← operand
      match l.node op with
      | some build => pure (.next (build expr right loc))
      | none => M.panic "internal error: entered unreachable code") first

/-- `parser.rs:700-724` `multiplication`. -/
def multiplication (r : Rec) : P Expr := binaryLevel .multiplication r.unary
/-- `parser.rs:674-698` `addition`. -/
def addition (r : Rec) : P Expr := binaryLevel .addition (multiplication r)
/-- `parser.rs:641-672` `comparison`. -/
def comparison (r : Rec) : P Expr := binaryLevel .comparison (addition r)
/-- `parser.rs:615-639` `equality`. -/
def equality (r : Rec) : P Expr := binaryLevel .equality (comparison r)
/-- `parser.rs:600-613` `and`. -/
def andExpr (r : Rec) : P Expr := binaryLevel .and (equality r)
/-- `parser.rs:585-598` `or`. -/
def orExpr (r : Rec) : P Expr := binaryLevel .or (andExpr r)

/-- `parser.rs:546-580`: from a left-hand side, `=`, and a right-hand side to the assignment. -/
def mkAssignment (target rhs : Expr) (loc : SourceLoc) : P Expr :=
  match target with
  | .get object name _ => pure (.set object name rhs loc)
  | .getIndex array index _ => pure (.setIndex array index rhs loc)
  | .variable id _ _ =>
    if id = c!"this" then M.throw (.newWithLocation loc c!"=" "Invalid assignment target.")
    else pure (.assign id .placeholder rhs loc)
  | _ => M.throw (.newWithLocation loc c!"=" "Invalid assignment target.")

/-- `parser.rs:524-538`: the left-hand side of an assignment, possibly on lines of its own. -/
def assignmentTarget (env : Env) (r : Rec) : P Expr := do
  if (← matchToken .indent) then do
    let e ← orExpr r
    let _ ← matchToken .terminator
    consume env .outdent "Expect outdent after indented expression."
    pure e
  else orExpr r

/-- `parser.rs:523-583` `assignment`. -/
def assignmentBody (env : Env) (r : Rec) : P Expr := do
  let expr ← assignmentTarget env r
  match ← matchesAny [.equal] with
  | none => pure expr
  | some (_, loc) => do
    let rhs ← r.assignment
    mkAssignment expr rhs loc

/-- The comma-separated arguments of `parser.rs:789-800` and `813-823`. -/
def argumentList (env : Env) (r : Rec) : P (List Expr) :=
  loop (fun (args : List Expr) => do
    if args.length ≥ 255 then errorFromPeek env "Cannot have more than 255 arguments."
    else do
      let e ← expression r
      let args := args ++ [e]
      if (← matchToken .comma) then pure (.next args) else pure (.stop args)) []

/-- `parser.rs:787-800`: the possibly empty arguments in parentheses. -/
def callArguments (env : Env) (r : Rec) : P (List Expr) := do
  if (← query (fun p => !p.check .rightParen)) then argumentList env r else pure []

/-- `parser.rs:781-805` `finish_call`. -/
def finishCall (env : Env) (r : Rec) (expr : Expr) (loc : SourceLoc) : P Expr := do
  let args ← callArguments env r
  consume env .rightParen "Expect ')' after arguments."
  pure (.call expr args loc)

/-- `parser.rs:807-826` `finish_call_without_parens`. -/
def finishCallWithoutParens (env : Env) (r : Rec) (expr : Expr) (loc : SourceLoc) : P Expr := do
  let args ← argumentList env r
  pure (.call expr args loc)

/-- `parser.rs:828-838` `finish_get_index`. -/
def finishGetIndex (env : Env) (r : Rec) (expr : Expr) (loc : SourceLoc) : P Expr := do
  let index ← expression r
  consume env .rightBracket "Expect ']' after index."
  pure (.getIndex expr index loc)

/-- `parser.rs:37-48` `CALL_PRIMARY_TOKENS`. -/
def callPrimaryTokens : List TokenType :=
  [.false, .true, .nil, .number, .string, .identifier, .fun, .leftParen, .leftBrace, .super]

/-- The key of a map entry, `parser.rs:1003-1009`. -/
def mapKey (t : Token) : P Str :=
  match t.tokenType with
  | .identifier => pure t.lexeme
  | .string =>
    match t.stringLiteral with
    | some s => pure s
    | none => M.panic "primary: expected float literal to include parsed string"
  | _ => M.panic "check() ensures this is unreachable"

/-- `parser.rs:992-1040` `literal_map`. -/
def literalMap (env : Env) (r : Rec) : P (List MapEntry) :=
  loop (fun (m : List MapEntry) => do
    if (← query (fun p => p.checkAnyOf [.identifier, .string] && p.checkNext .colon)) then
      match ← query peek with
      | none => M.panic "check() ensures this"
      | some t => do
        let keyLoc := t.loc
        let key ← mapKey t
        advanceP
        consume env .colon "Expect ':' after map key"
        let value ← expression r
        match mapInsert m key value with
        | (_, true) =>
          M.throw (.newWithLocation keyLoc key "Duplicate key in literal map.")
        | (m, false) =>
          if (← query (fun p => p.check .comma ||
              (p.check .terminator &&
                ((p.checkNextAnyOf [.identifier, .string] && p.checkNextNext .colon) ||
                  p.checkNext .rightBrace)))) then do
            advanceP
            pure (.next m)
          else pure (.stop m)
    else pure (.stop m)) []

/-- `parser.rs:941-961`: the elements of an array literal, after `[`. -/
def arrayElements (r : Rec) : P (List Expr) := do
  if (← query (fun p => !p.check .rightBracket)) then
    loop (fun (elements : List Expr) => do
      let e ← expression r
      let elements := elements ++ [e]
      if (← matchToken .comma) then
        if (← query (fun p => p.check .rightBracket)) then pure (.stop elements)
        else pure (.next elements)
      else pure (.stop elements)) []
  else pure []

/-- `parser.rs:840-990` `primary`. -/
def primary (env : Env) (r : Rec) : P Expr := do
  match ← query peek with
  | none => M.panic "primary: reached the end of the token stream unexpectedly"
  | some token =>
    match token.tokenType with
    | .false => do
      advanceP
      pure (.literalBool false)
    | .true => do
      advanceP
      pure (.literalBool true)
    | .nil => do
      advanceP
      pure .literalNil
    | .number =>
      match token.floatLiteral with
      | some x => do
        advanceP
        pure (.literalNumber x)
      | none => M.panic "primary: expected float literal to include parsed float"
    | .string => do
      if (← query (fun p => p.checkNext .colon)) then do
        let m ← literalMap env r
        pure (.literalMap m)
      else
        match token.stringLiteral with
        | some s => do
          advanceP
          pure (.literalString s)
        | none => M.panic "primary: expected float literal to include parsed string"
    | .identifier | .this => do
      if (← query (fun p => p.checkNext .colon)) then do
        let m ← literalMap env r
        pure (.literalMap m)
      else do
        advanceP
        pure (.variable token.lexeme .placeholder token.loc)
    | .fun => do
      let loc := token.loc
      advanceP
      if (← matchToken .identifier) then
        errorFromLast env "Expect function in expression context to not have a name."
      else do
        let d ← functionDefinition env r loc
        pure (.function d)
    | .leftParen | .leftParenAbutting => do
      advanceP
      let e ← expression r
      consume env .rightParen "Missing close parenthesis."
      pure (.grouping e)
    | .leftBrace => do
      advanceP
      let m ← literalMap env r
      consume env .rightBrace "Expect '}' after map entries."
      pure (.literalMap m)
    | .leftBracket => do
      advanceP
      let elements ← arrayElements r
      consume env .rightBracket "Expect ']' after array elements."
      pure (.literalArray elements)
    | .super => do
      let loc := token.loc
      advanceP
      consume env .dot "Expect '.' after 'super'."
      let (id, _) ← consumeIdentifier env "Expect superclass method name."
      pure (.super .placeholder id loc)
    | _ => do
      advanceP
      errorFromLast env "Expect expression."

/-- `parser.rs:742-779` `call`. -/
def call (env : Env) (r : Rec) : P Expr := do
  let first ← primary env r
  loop (fun (expr : Expr) => do
    match ← matchesAny [.dot, .leftParenAbutting, .leftBracket] with
    | some (.dot, loc) => do
      let (id, _) ← consumeIdentifier env "Expect property name after '.'."
      pure (.next (.get expr id loc))
    | some (.leftParenAbutting, loc) => do
      let e ← finishCall env r expr loc
      pure (.next e)
    | some (.leftBracket, loc) => do
      let e ← finishGetIndex env r expr loc
      pure (.next e)
    | some _ => M.panic "call: unexpected token type"
    | none => do
      if (← query (fun p => p.checkAnyOf callPrimaryTokens)) then do
        let loc ← peekSourceLoc env
        let e ← finishCallWithoutParens env r expr loc
        pure (.next e)
      else pure (.stop expr)) first

/-- `parser.rs:726-740` `unary`. -/
def unaryBody (env : Env) (r : Rec) : P Expr := do
  match ← matchesAny [.bang, .minus] with
  | none => call env r
  | some (op, loc) => do
    let right ← r.unary
    match op with
    | .bang => pure (.unary .not right loc)
    | .minus => pure (.unary .minus right loc)
    | _ => M.panic "internal error: entered unreachable code"

/-- The parsing functions with `n` levels of recursion allowed. -/
def recN (env : Env) : Nat → Rec
  | 0 => ⟨fun _ => .diverge, fun _ => .diverge, fun _ => .diverge, fun _ => .diverge⟩
  | n + 1 =>
    { assignment := assignmentBody env (recN env n)
      unary := unaryBody env (recN env n)
      declaration := declarationBody env (recN env n)
      statement := statementBody env (recN env n) }

/-- Recursion depth supplied for a token list: four functions can call each other without
consuming a token. -/
def depthFor (tokens : List Token) : Nat := 4 * tokens.length + 8

/-- `parser.rs:1290-1301`: is the previous token one that starts a statement? -/
def isSyncToken : TokenType → Bool
  | .class | .fun | .var | .for | .if | .while | .print | .return => true
  | _ => false

/-- `parser.rs:1286-1305` `synchronize`. -/
def synchronize (env : Env) : P Unit := do
  advanceP
  loop (fun (_ : Unit) => do
    if (← query (fun p => !p.isAtEnd)) then
      match ← previous env with
      | some t =>
        if isSyncToken t.tokenType then pure (.stop ())
        else do
          advanceP
          pure (.next ())
      | none => do
        advanceP
        pure (.next ())
    else pure (.stop ())) ()

/-- `parser.rs:82-92`: one iteration of the loop of `parse`; a failed declaration is recorded and
skipped. -/
def parseStep (env : Env) (r : Rec) (acc : List Stmt × List Cause) :
    P (Step (List Stmt × List Cause) (List Stmt × List Cause)) := fun p =>
  if p.isAtEnd then .ok (.stop acc) p
  else
    match r.declaration p with
    | .ok st p' => .ok (.next (acc.1 ++ [st], acc.2)) p'
    | .err e p' =>
      match synchronize env p' with
      | .ok _ p'' => .ok (.next (acc.1, acc.2 ++ [e])) p''
      | .err e' p'' => .err e' p''
      | .panic m => .panic m
      | .diverge => .diverge
    | .panic m => .panic m
    | .diverge => .diverge

/-- `parser.rs:79-103` `Parser::parse`. -/
def parseTokens (env : Env) (tokens : List Token) (allowTrailing : Bool) :
    Outcome (Except ParseError (List Stmt)) :=
  match loop (parseStep env (recN env (depthFor tokens))) ([], []) (.new tokens allowTrailing) with
  | .ok (statements, errors) p =>
    match consume env .eof "Expected end of file" p with
    | .ok _ _ => if errors.isEmpty then .done (.ok statements) else .done (.error errors)
    | .err e _ => .done (.error (errors ++ [e]))
    | .panic m => .panic m
    | .diverge => .diverge
  | .err e _ => .done (.error [e]) -- the loop body never fails
  | .panic m => .panic m
  | .diverge => .diverge

/-- `parser.rs:105-110` `Parser::parse_expression`. -/
def parseExpressionTokens (env : Env) (tokens : List Token) :
    Outcome (Except ParseError Expr) :=
  let x : P Expr := do
    let e ← expression (recN env (depthFor tokens))
    consume env .eof "Expected end of file"
    pure e
  match x (.new tokens false) with
  | .ok e _ => .done (.ok e)
  | .err e _ => .done (.error [e])
  | .panic m => .panic m
  | .diverge => .diverge

/-- Scan, then parse the tokens (the common part of `parser.rs:10-33`). -/
def scanThen {α : Type} (env : Env) (source : Str)
    (k : List Token → Outcome (Except ParseError α)) : Outcome (Except ParseError α) := do
  match ← scanTokens env source with
  | .error e => .done (.error e)
  | .ok tokens => k tokens

/-- `parser.rs:10-16` `parse`. -/
def parse (env : Env) (source : Str) : Outcome (Except ParseError (List Stmt)) :=
  scanThen env source (parseTokens env · false)

/-- `parser.rs:18-24` `parse_repl_line`. -/
def parseReplLine (env : Env) (source : Str) : Outcome (Except ParseError (List Stmt)) :=
  scanThen env source (parseTokens env · true)

/-- `parser.rs:27-33` `parse_expression`. -/
def parseExpression (env : Env) (source : Str) : Outcome (Except ParseError Expr) :=
  scanThen env source (parseExpressionTokens env ·)

end Ws
