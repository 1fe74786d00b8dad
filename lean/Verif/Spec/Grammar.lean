import Verif.Model.Ast
/-! The grammar of the language, as derivations of token lists. Independent of the parser: it uses the
token and syntax tree types only. `Grammar repl inLoop nt w v` says that the token list `w` is derived
from the nonterminal `nt` as the tree `v`. -/
namespace Ws.Spec
open Ws

/-- A piece of syntax tree. -/
inductive Tree where
  | expr (e : Expr)
  | exprs (es : List Expr)
  | entries (ms : List MapEntry)
  | params (ps : List Parameter)
  | stmt (s : Stmt)
  | stmts (ss : List Stmt)
  | fn (d : FunDef)
  | named (f : NamedFun)
  | nameds (fs : List NamedFun)
  | optStmt (s : Option Stmt)
  | optExpr (e : Option Expr)

/-- The binary operators, by increasing precedence. -/
inductive Prec where
  | or | and | equality | comparison | addition | multiplication
  deriving DecidableEq, Repr

/-- The tree built for an operator token of a precedence level. -/
def Prec.node : Prec → TokenType → Option (Expr → Expr → SourceLoc → Expr)
  | .or, .or => some fun a b _ => .logical a .or b
  | .and, .and => some fun a b _ => .logical a .and b
  | .equality, .equalEqual => some fun a b loc => .binary a .equal b loc
  | .equality, .bangEqual => some fun a b loc => .binary a .notEqual b loc
  | .comparison, .less => some fun a b loc => .binary a .less b loc
  | .comparison, .lessEqual => some fun a b loc => .binary a .lessEqual b loc
  | .comparison, .greater => some fun a b loc => .binary a .greater b loc
  | .comparison, .greaterEqual => some fun a b loc => .binary a .greaterEqual b loc
  | .addition, .plus => some fun a b loc => .binary a .plus b loc
  | .addition, .minus => some fun a b loc => .binary a .minus b loc
  | .multiplication, .star => some fun a b loc => .binary a .multiply b loc
  | .multiplication, .slash => some fun a b loc => .binary a .divide b loc
  | _, _ => none

/-- The tree built for a prefix operator token. -/
def prefixNode : TokenType → Option UnaryOperator
  | .bang => some .not
  | .minus => some .minus
  | _ => none

/-- Nonterminals. -/
inductive NT where
  /-- any expression -/
  | expression
  /-- an expression without assignment, possibly as an indented block -/
  | target
  /-- operands joined by operators of this or a higher precedence -/
  | binary (p : Prec)
  | unary
  /-- a primary expression followed by calls, properties and indices -/
  | call
  | primary
  /-- one or more expressions separated by commas, at most 255 -/
  | arguments
  /-- one or more expressions separated by commas -/
  | elements
  /-- one or more map entries -/
  | entries
  /-- one or more parameters separated by commas, at most 255 -/
  | parameters
  /-- parameters in parentheses and a body -/
  | function (loc : SourceLoc)
  /-- a function with its name -/
  | named
  | methods
  /-- declarations in braces or in an indented block -/
  | block
  /-- a block or a statement -/
  | body
  /-- the first part of the head of a for loop -/
  | forInit
  /-- the condition of a for loop -/
  | forCondition
  /-- the increment of a for loop -/
  | forIncrement
  | statement
  | declaration
  | declarations
  deriving DecidableEq

/-- The level above a binary level. -/
def Prec.above : Prec → NT
  | .or => .binary .and
  | .and => .binary .equality
  | .equality => .binary .comparison
  | .comparison => .binary .addition
  | .addition => .binary .multiplication
  | .multiplication => .unary

/-- Assigning to an expression. -/
inductive Assigns (rhs : Expr) (loc : SourceLoc) : Expr → Expr → Prop
  | variable (n c l) : n ≠ c!"this" → Assigns rhs loc (.variable n c l) (.assign n .placeholder rhs loc)
  | property (o n l) : Assigns rhs loc (.get o n l) (.set o n rhs loc)
  | index (a i l) : Assigns rhs loc (.getIndex a i l) (.setIndex a i rhs loc)

/-- Tokens that can start the arguments of a call without parentheses. -/
def startsArgument (t : TokenType) : Prop :=
  t ∈ [.false, .true, .nil, .number, .string, .identifier, .fun, .leftParen, .leftBrace, .super]

/-- The text of a map key. -/
def IsKey (t : Token) (k : Str) : Prop :=
  t.tokenType = .identifier ∧ k = t.lexeme ∨ t.tokenType = .string ∧ t.stringLiteral = some k

/-- A list of at most one token, of the given type. -/
def Optional (tt : TokenType) (w : List Token) : Prop := w = [] ∨ ∃ t, t.tokenType = tt ∧ w = [t]

/-- A comma or a newline. -/
def IsSeparator (t : Token) : Prop := t.tokenType = .comma ∨ t.tokenType = .terminator

/-- A list of at most one token, a comma or a newline. -/
def OptionalSeparator (w : List Token) : Prop := w = [] ∨ ∃ t, IsSeparator t ∧ w = [t]

/-- An opening parenthesis. -/
def IsParen (t : Token) : Prop := t.tokenType = .leftParen ∨ t.tokenType = .leftParenAbutting

/-- The kind of a method. -/
def methodKind (isClass : Bool) (name : Str) : FunctionType :=
  if isClass then .classMethod else if name = c!"init" then .initializer else .method

/-- The loop a for loop stands for. -/
def forLoop (init : Option Stmt) (cond : Expr) (inc : Option Expr) (body : Stmt) : Stmt :=
  let loop := match inc with
    | none => Stmt.while cond body
    | some e => Stmt.whileIncrement cond body e
  match init with
  | none => loop
  | some s => .block [s, loop]

/-- The grammar. `repl` is whether an expression statement needs no newline (in the REPL); `inLoop`
whether a loop body has been entered. -/
inductive Grammar (repl : Bool) : (inLoop : Bool) → NT → List Token → Tree → Prop
  /- expressions -/
  | target_plain {l w e} : Grammar repl l (.binary .or) w (.expr e) → Grammar repl l .target w (.expr e)
  | target_indented {l w e i term o} :
      i.tokenType = .indent → Grammar repl l (.binary .or) w (.expr e) → Optional .terminator term →
      o.tokenType = .outdent → Grammar repl l .target (i :: w ++ term ++ [o]) (.expr e)
  | expression {l w e} : Grammar repl l .target w (.expr e) → Grammar repl l .expression w (.expr e)
  | assignment {l w₁ e₁ t w₂ e₂ e} :
      Grammar repl l .target w₁ (.expr e₁) → t.tokenType = .equal → Grammar repl l .expression w₂ (.expr e₂) →
      Assigns e₂ t.loc e₁ e → Grammar repl l .expression (w₁ ++ t :: w₂) (.expr e)
  | operand {l p w e} : Grammar repl l p.above w (.expr e) → Grammar repl l (.binary p) w (.expr e)
  | operator {l p w₁ a t w₂ b build} :
      Grammar repl l (.binary p) w₁ (.expr a) → p.node t.tokenType = some build →
      Grammar repl l p.above w₂ (.expr b) →
      Grammar repl l (.binary p) (w₁ ++ t :: w₂) (.expr (build a b t.loc))
  | call {l w e} : Grammar repl l .call w (.expr e) → Grammar repl l .unary w (.expr e)
  | prefix {l t w e op} :
      prefixNode t.tokenType = some op → Grammar repl l .unary w (.expr e) →
      Grammar repl l .unary (t :: w) (.expr (.unary op e t.loc))
  | primary {l w e} : Grammar repl l .primary w (.expr e) → Grammar repl l .call w (.expr e)
  | property {l w e d i} :
      Grammar repl l .call w (.expr e) → d.tokenType = .dot → i.tokenType = .identifier →
      Grammar repl l .call (w ++ [d, i]) (.expr (.get e i.lexeme d.loc))
  | call_empty {l w e o c} :
      Grammar repl l .call w (.expr e) → o.tokenType = .leftParenAbutting → c.tokenType = .rightParen →
      Grammar repl l .call (w ++ [o, c]) (.expr (.call e [] o.loc))
  | call_args {l w e o w' es c} :
      Grammar repl l .call w (.expr e) → o.tokenType = .leftParenAbutting →
      Grammar repl l .arguments w' (.exprs es) → c.tokenType = .rightParen →
      Grammar repl l .call (w ++ o :: w' ++ [c]) (.expr (.call e es o.loc))
  | call_bare {l w e t w' es} :
      Grammar repl l .call w (.expr e) → startsArgument t.tokenType →
      Grammar repl l .arguments (t :: w') (.exprs es) →
      Grammar repl l .call (w ++ t :: w') (.expr (.call e es t.loc))
  | index {l w e o w' i c} :
      Grammar repl l .call w (.expr e) → o.tokenType = .leftBracket →
      Grammar repl l .expression w' (.expr i) → c.tokenType = .rightBracket →
      Grammar repl l .call (w ++ o :: w' ++ [c]) (.expr (.getIndex e i o.loc))
  | argument {l w e} : Grammar repl l .expression w (.expr e) → Grammar repl l .arguments w (.exprs [e])
  | arguments {l w es c w' e} :
      Grammar repl l .arguments w (.exprs es) → es.length < 255 → c.tokenType = .comma →
      Grammar repl l .expression w' (.expr e) → Grammar repl l .arguments (w ++ c :: w') (.exprs (es ++ [e]))
  | element {l w e} : Grammar repl l .expression w (.expr e) → Grammar repl l .elements w (.exprs [e])
  | elements {l w es c w' e} :
      Grammar repl l .elements w (.exprs es) → c.tokenType = .comma →
      Grammar repl l .expression w' (.expr e) → Grammar repl l .elements (w ++ c :: w') (.exprs (es ++ [e]))
  | entry {l t k c w e} :
      IsKey t k → c.tokenType = .colon → Grammar repl l .expression w (.expr e) →
      Grammar repl l .entries (t :: c :: w) (.entries [.mk k e])
  | entries {l w ms s t k c w' e} :
      Grammar repl l .entries w (.entries ms) → IsSeparator s → IsKey t k → c.tokenType = .colon →
      Grammar repl l .expression w' (.expr e) → k ∉ ms.map MapEntry.key →
      Grammar repl l .entries (w ++ s :: t :: c :: w') (.entries (ms ++ [.mk k e]))
  /- primary expressions -/
  | false {l t} : t.tokenType = .false → Grammar repl l .primary [t] (.expr (.literalBool false))
  | true {l t} : t.tokenType = .true → Grammar repl l .primary [t] (.expr (.literalBool true))
  | nil {l t} : t.tokenType = .nil → Grammar repl l .primary [t] (.expr .literalNil)
  | number {l t x} : t.tokenType = .number → t.floatLiteral = some x →
      Grammar repl l .primary [t] (.expr (.literalNumber x))
  | string {l t s} : t.tokenType = .string → t.stringLiteral = some s →
      Grammar repl l .primary [t] (.expr (.literalString s))
  | variable {l t} : t.tokenType = .identifier ∨ t.tokenType = .this →
      Grammar repl l .primary [t] (.expr (.variable t.lexeme .placeholder t.loc))
  | map_bare {l w ms s} : Grammar repl l .entries w (.entries ms) → OptionalSeparator s →
      Grammar repl l .primary (w ++ s) (.expr (.literalMap ms))
  | map_empty {l o c} : o.tokenType = .leftBrace → c.tokenType = .rightBrace →
      Grammar repl l .primary [o, c] (.expr (.literalMap []))
  | map_braces {l o w ms s c} : o.tokenType = .leftBrace → Grammar repl l .entries w (.entries ms) →
      OptionalSeparator s → c.tokenType = .rightBrace →
      Grammar repl l .primary (o :: w ++ s ++ [c]) (.expr (.literalMap ms))
  | function_literal {l t w d} : t.tokenType = .fun → Grammar repl l (.function t.loc) w (.fn d) →
      Grammar repl l .primary (t :: w) (.expr (.function d))
  | grouping {l o w e c} : IsParen o → Grammar repl l .expression w (.expr e) → c.tokenType = .rightParen →
      Grammar repl l .primary (o :: w ++ [c]) (.expr (.grouping e))
  | array_empty {l o c} : o.tokenType = .leftBracket → c.tokenType = .rightBracket →
      Grammar repl l .primary [o, c] (.expr (.literalArray []))
  | array {l o w es s c} : o.tokenType = .leftBracket → Grammar repl l .elements w (.exprs es) →
      Optional .comma s → c.tokenType = .rightBracket →
      Grammar repl l .primary (o :: w ++ s ++ [c]) (.expr (.literalArray es))
  | super {l t d i} : t.tokenType = .super → d.tokenType = .dot → i.tokenType = .identifier →
      Grammar repl l .primary [t, d, i] (.expr (.super .placeholder i.lexeme t.loc))
  /- functions and classes -/
  | parameter {l t} : t.tokenType = .identifier →
      Grammar repl l .parameters [t] (.params [⟨t.lexeme, t.loc⟩])
  | parameters {l w ps c t} : Grammar repl l .parameters w (.params ps) → ps.length < 255 →
      c.tokenType = .comma → t.tokenType = .identifier →
      Grammar repl l .parameters (w ++ [c, t]) (.params (ps ++ [⟨t.lexeme, t.loc⟩]))
  | function_empty {l loc o c w body} : IsParen o → c.tokenType = .rightParen →
      Grammar repl l .block w (.stmts body) →
      Grammar repl l (.function loc) (o :: c :: w) (.fn (.mk [] body .plainFunction loc))
  | function {l loc o w₁ ps c w body} : IsParen o → Grammar repl l .parameters w₁ (.params ps) →
      c.tokenType = .rightParen → Grammar repl l .block w (.stmts body) →
      Grammar repl l (.function loc) (o :: w₁ ++ c :: w) (.fn (.mk ps body .plainFunction loc))
  | block_braces {l o w ss c} : o.tokenType = .leftBrace → Grammar repl l .declarations w (.stmts ss) →
      c.tokenType = .rightBrace → Grammar repl l .block (o :: w ++ [c]) (.stmts ss)
  | block_indented {l t i w ss o} : t.tokenType = .terminator → i.tokenType = .indent →
      Grammar repl l .declarations w (.stmts ss) → o.tokenType = .outdent →
      Grammar repl l .block (t :: i :: w ++ [o]) (.stmts ss)
  | named {l t w d} : t.tokenType = .identifier → Grammar repl l (.function t.loc) w (.fn d) →
      Grammar repl l .named (t :: w) (.named (.mk t.lexeme d))
  | methods_nil {l} : Grammar repl l .methods [] (.nameds [])
  | method {l w fs w' n ps body k loc} : Grammar repl l .methods w (.nameds fs) →
      Grammar repl l .named w' (.named (.mk n (.mk ps body k loc))) →
      Grammar repl l .methods (w ++ w') (.nameds (fs ++ [.mk n (.mk ps body (methodKind false n) loc)]))
  | class_method {l w fs t w' n ps body k loc} : Grammar repl l .methods w (.nameds fs) →
      t.tokenType = .class → Grammar repl l .named w' (.named (.mk n (.mk ps body k loc))) →
      Grammar repl l .methods (w ++ t :: w') (.nameds (fs ++ [.mk n (.mk ps body (methodKind true n) loc)]))
  /- declarations -/
  | declarations_nil {l} : Grammar repl l .declarations [] (.stmts [])
  | declarations {l w ss w' s} : Grammar repl l .declarations w (.stmts ss) →
      Grammar repl l .declaration w' (.stmt s) → Grammar repl l .declarations (w ++ w') (.stmts (ss ++ [s]))
  | declaration {l w s} : Grammar repl l .statement w (.stmt s) → Grammar repl l .declaration w (.stmt s)
  | fun_decl {l t w f} : t.tokenType = .fun → Grammar repl l .named w (.named f) →
      Grammar repl l .declaration (t :: w) (.stmt (.fun f))
  | class_braces {l t n o w fs c} : t.tokenType = .class → n.tokenType = .identifier →
      o.tokenType = .leftBrace → Grammar repl l .methods w (.nameds fs) → c.tokenType = .rightBrace →
      Grammar repl l .declaration (t :: n :: o :: w ++ [c]) (.stmt (.class n.lexeme none fs n.loc))
  | class_indented {l t n term i w fs c} : t.tokenType = .class → n.tokenType = .identifier →
      term.tokenType = .terminator → i.tokenType = .indent →
      Grammar repl l .methods w (.nameds fs) → c.tokenType = .outdent →
      Grammar repl l .declaration (t :: n :: term :: i :: w ++ [c]) (.stmt (.class n.lexeme none fs n.loc))
  | subclass_braces {l t n lt s o w fs c} : t.tokenType = .class → n.tokenType = .identifier →
      lt.tokenType = .less → s.tokenType = .identifier →
      o.tokenType = .leftBrace → Grammar repl l .methods w (.nameds fs) → c.tokenType = .rightBrace →
      Grammar repl l .declaration (t :: n :: lt :: s :: o :: w ++ [c])
        (.stmt (.class n.lexeme (some (.variable s.lexeme .placeholder s.loc)) fs n.loc))
  | subclass_indented {l t n lt s term i w fs c} : t.tokenType = .class → n.tokenType = .identifier →
      lt.tokenType = .less → s.tokenType = .identifier →
      term.tokenType = .terminator → i.tokenType = .indent →
      Grammar repl l .methods w (.nameds fs) → c.tokenType = .outdent →
      Grammar repl l .declaration (t :: n :: lt :: s :: term :: i :: w ++ [c])
        (.stmt (.class n.lexeme (some (.variable s.lexeme .placeholder s.loc)) fs n.loc))
  | var {l t n term} : t.tokenType = .var → n.tokenType = .identifier → term.tokenType = .terminator →
      Grammar repl l .declaration [t, n, term] (.stmt (.var n.lexeme .placeholder .literalNil n.loc))
  | var_init {l t n q term h w e term'} : t.tokenType = .var → n.tokenType = .identifier →
      q.tokenType = .equal → Optional .terminator term → Grammar repl l .expression (h :: w) (.expr e) →
      Optional .terminator term' →
      (term' = [] → h.tokenType = .indent ∨ h.tokenType = .leftBrace) →
      Grammar repl l .declaration (t :: n :: q :: term ++ h :: w ++ term')
        (.stmt (.var n.lexeme .placeholder e n.loc))
  /- statements -/
  | expression_statement {l h w e term} : Grammar repl l .expression (h :: w) (.expr e) →
      h.tokenType ≠ .leftBrace → term.tokenType = .terminator →
      Grammar repl l .statement (h :: w ++ [term]) (.stmt (.expression e))
  | expression_repl {l h w e} : repl = true → Grammar repl l .expression (h :: w) (.expr e) →
      h.tokenType ≠ .leftBrace → Grammar repl l .statement (h :: w) (.stmt (.expression e))
  | break {t term} : t.tokenType = .break → term.tokenType = .terminator →
      Grammar repl true .statement [t, term] (.stmt (.break t.loc))
  | continue {t term} : t.tokenType = .continue → term.tokenType = .terminator →
      Grammar repl true .statement [t, term] (.stmt (.continue t.loc))
  | print {l t w e term} : t.tokenType = .print → Grammar repl l .expression w (.expr e) →
      term.tokenType = .terminator → Grammar repl l .statement (t :: w ++ [term]) (.stmt (.print e))
  | return_nil {l t term} : t.tokenType = .return → term.tokenType = .terminator →
      Grammar repl l .statement [t, term] (.stmt (.return .literalNil t.loc))
  | return {l t w e term} : t.tokenType = .return → Grammar repl l .expression w (.expr e) →
      term.tokenType = .terminator → Grammar repl l .statement (t :: w ++ [term]) (.stmt (.return e t.loc))
  | braces {l o w ss c} : o.tokenType = .leftBrace → Grammar repl l .declarations w (.stmts ss) →
      c.tokenType = .rightBrace → Grammar repl l .statement (o :: w ++ [c]) (.stmt (.block ss))
  | if {l t o w₁ e c w₂ s} : t.tokenType = .if → IsParen o → Grammar repl l .expression w₁ (.expr e) →
      c.tokenType = .rightParen → Grammar repl l .body w₂ (.stmt s) →
      Grammar repl l .statement (t :: o :: w₁ ++ c :: w₂) (.stmt (.if e s none))
  | if_else {l t o w₁ e c w₂ s₁ el w₃ s₂} : t.tokenType = .if → IsParen o →
      Grammar repl l .expression w₁ (.expr e) → c.tokenType = .rightParen → Grammar repl l .body w₂ (.stmt s₁) →
      el.tokenType = .else → Grammar repl l .statement w₃ (.stmt s₂) →
      Grammar repl l .statement (t :: o :: w₁ ++ c :: w₂ ++ el :: w₃) (.stmt (.if e s₁ (some s₂)))
  | while {l t o w₁ e c w₂ s} : t.tokenType = .while → IsParen o → Grammar repl l .expression w₁ (.expr e) →
      c.tokenType = .rightParen → Grammar repl true .body w₂ (.stmt s) →
      Grammar repl l .statement (t :: o :: w₁ ++ c :: w₂) (.stmt (.while e s))
  | for {l t o w₀ init w₁ cond semi w₂ inc c w₃ s} : t.tokenType = .for → IsParen o →
      Grammar repl l .forInit w₀ (.optStmt init) →
      Grammar repl l .forCondition w₁ (.expr cond) → semi.tokenType = .semicolon →
      Grammar repl l .forIncrement w₂ (.optExpr inc) →
      c.tokenType = .rightParen → Grammar repl true .body w₃ (.stmt s) →
      Grammar repl l .statement (t :: o :: w₀ ++ w₁ ++ semi :: w₂ ++ c :: w₃) (.stmt (forLoop init cond inc s))
  | for_none {l semi} : semi.tokenType = .semicolon → Grammar repl l .forInit [semi] (.optStmt none)
  | for_var {l t n semi} : t.tokenType = .var → n.tokenType = .identifier → semi.tokenType = .semicolon →
      Grammar repl l .forInit [t, n, semi] (.optStmt (some (.var n.lexeme .placeholder .literalNil n.loc)))
  | for_var_init {l t n q term w e semi} : t.tokenType = .var → n.tokenType = .identifier →
      q.tokenType = .equal → Optional .terminator term → Grammar repl l .expression w (.expr e) →
      semi.tokenType = .semicolon →
      Grammar repl l .forInit (t :: n :: q :: term ++ w ++ [semi])
        (.optStmt (some (.var n.lexeme .placeholder e n.loc)))
  | for_expression {l w e term} : Grammar repl l .expression w (.expr e) → term.tokenType = .terminator →
      Grammar repl l .forInit (w ++ [term]) (.optStmt (some (.expression e)))
  | for_expression_repl {l w e} : repl = true → Grammar repl l .expression w (.expr e) →
      Grammar repl l .forInit w (.optStmt (some (.expression e)))
  | condition_none {l} : Grammar repl l .forCondition [] (.expr (.literalBool true))
  | condition {l w e} : Grammar repl l .expression w (.expr e) → Grammar repl l .forCondition w (.expr e)
  | increment_none {l} : Grammar repl l .forIncrement [] (.optExpr none)
  | increment {l w e} : Grammar repl l .expression w (.expr e) → Grammar repl l .forIncrement w (.optExpr (some e))
  | body_block {l w ss} : Grammar repl l .block w (.stmts ss) → Grammar repl l .body w (.stmt (.block ss))
  | body {l w s} : Grammar repl l .statement w (.stmt s) → Grammar repl l .body w (.stmt s)

end Ws.Spec
