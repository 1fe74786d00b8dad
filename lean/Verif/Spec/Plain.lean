import Verif.Spec.Grammar
/-! The unambiguous grammar: exactly what the parser accepts, with one reading of each token list. Compared
with the grammar of `Verif.Spec.Grammar` it keeps track of how phrases end, because that decides what may
follow them: a call or map without brackets takes the commas that follow it, an `else` belongs to the closest
`if`, and a map without braces at the end of a line goes on if the next line looks like another entry.
Independent of the parser: it uses the token and syntax tree types only. -/
namespace Ws.Spec
open Ws

/-- How an expression or a line ends. -/
inductive Ends where
  /-- an operator or a comma may follow -/
  | closed
  /-- with a call without parentheses: a comma or an operator would belong to its last argument. Of a
  declaration: without a newline, so what follows must not continue its expression -/
  | call
  /-- with a map without braces: so would a next line that looks like an entry, or is a `}` -/
  | map
  /-- with an indented block: only an `=` would belong to it -/
  | outdent
  /-- with a call without parentheses whose last argument is indented -/
  | callOutdent
  /-- with a map without braces whose last value is indented -/
  | mapOutdent
  /-- with the comma after the last entry of a map without braces: an entry would belong to the map -/
  | comma
  /-- with the newline after the last entry of a map without braces: a `}` has to follow -/
  | brace
  /-- with the last expression of the input, without a newline -/
  | unfinished
  deriving DecidableEq, Repr

/-- The end of a call without parentheses whose last argument ends like this. -/
def Ends.bare : Ends → Ends
  | .map | .mapOutdent => .map
  | .brace => .brace
  | .outdent => .callOutdent
  | _ => .call

/-- The end of a map without braces whose last value ends like this. -/
def Ends.bareMap : Ends → Ends
  | .brace => .brace
  | .outdent => .mapOutdent
  | _ => .map

/-- The end of an operand that is a call ending like this. -/
def Ends.unary : Ends → Ends
  | .comma => .closed
  | o => o

/-- The end of a whole expression that is an operand ending like this. -/
def Ends.target : Ends → Ends
  | .callOutdent => .call
  | .mapOutdent => .map
  | o => o

/-- The end of a line whose expression ends like this. -/
def Ends.line : Ends → Ends
  | .map | .mapOutdent => .map
  | _ => .closed

/-- The end of a declaration without a newline whose expression ends like this. -/
def Ends.opened : Ends → Ends
  | .outdent => .closed
  | .brace => .brace
  | _ => .call

/-- An operator, or another call, may follow. -/
def Ends.whole (o : Ends) : Prop := o = .closed ∨ o = .comma ∨ o = .callOutdent ∨ o = .mapOutdent

/-- A comma, or a `=`, may follow. -/
def Ends.item (o : Ends) : Prop := o = .closed ∨ o = .outdent

/-- The nonterminals. -/
inductive Sym where
  | expression | target | binary (p : Prec) | unary | call | primary
  /-- expressions, each followed by a comma -/
  | before
  /-- one to 255 expressions, separated by commas -/
  | arguments
  /-- map entries, each followed by a comma or a newline -/
  | entriesBefore
  /-- one or more map entries, separated by commas or newlines -/
  | entries
  /-- parameters, each followed by a comma -/
  | parametersBefore
  | function (loc : SourceLoc) | named | methods
  | block | body | forInit | forCondition | forIncrement | statement | declaration | declarations
  deriving DecidableEq

/-- The level above a binary level. -/
def Prec.next : Prec → Sym
  | .or => .binary .and
  | .and => .binary .equality
  | .equality => .binary .comparison
  | .comparison => .binary .addition
  | .addition => .binary .multiplication
  | .multiplication => .unary

/-- The tokens start like a map entry. -/
def KeyColon (w : List Token) : Prop :=
  ∃ t c r, w = t :: c :: r ∧ (t.tokenType = .identifier ∨ t.tokenType = .string) ∧ c.tokenType = .colon

/-- What a declaration can start with that could also go on with an expression. -/
def Joins (t : TokenType) : Prop := startsArgument t ∨ t = .minus ∨ t = .leftParenAbutting ∨ t = .leftBracket

/-- A declaration that ends like this may be followed by another one. -/
def Ends.Precedes (o : Ends) (w : List Token) : Prop :=
  o ≠ .brace ∧ o ≠ .unfinished ∧ (o = .map → ¬ KeyColon w) ∧ (o = .call → ∀ t r, w = t :: r → ¬ Joins t.tokenType)

/-- The unambiguous grammar. `Plain repl inLoop ends opensElse sym w v` says that the token list `w` is
derived from `sym` as the tree `v`. `opensElse` is whether a following `else` would belong to it, `repl`
whether the newline after a last expression may be missing. -/
inductive Plain (repl : Bool) : (inLoop : Bool) → Ends → (opensElse : Bool) → Sym → List Token → Tree → Prop
  /- expressions -/
  | target_plain {l o w x} : Plain repl l o false (.binary .or) w (.expr x) →
      Plain repl l o.target false .target w (.expr x)
  | target_indented {l o w x i term d} :
      i.tokenType = .indent → Plain repl l o false (.binary .or) w (.expr x) → o ≠ .brace →
      Optional .terminator term → d.tokenType = .outdent →
      Plain repl l .outdent false .target (i :: w ++ term ++ [d]) (.expr x)
  | expression {l o w x} : Plain repl l o false .target w (.expr x) → Plain repl l o false .expression w (.expr x)
  | assignment {l o₁ o w₁ x₁ t w₂ x₂ x} :
      Plain repl l o₁ false .target w₁ (.expr x₁) → o₁.item → t.tokenType = .equal →
      Plain repl l o false .expression w₂ (.expr x₂) → Assigns x₂ t.loc x₁ x →
      Plain repl l o false .expression (w₁ ++ t :: w₂) (.expr x)
  | operand {l o p w x} : Plain repl l o false p.next w (.expr x) → Plain repl l o false (.binary p) w (.expr x)
  | operator {l o₁ o p w₁ a t w₂ b build} :
      Plain repl l o₁ false (.binary p) w₁ (.expr a) → o₁.whole → p.node t.tokenType = some build →
      Plain repl l o false p.next w₂ (.expr b) →
      Plain repl l o false (.binary p) (w₁ ++ t :: w₂) (.expr (build a b t.loc))
  | call {l o w x} : Plain repl l o false .call w (.expr x) → Plain repl l o.unary false .unary w (.expr x)
  | prefix {l o t w x op} :
      prefixNode t.tokenType = some op → Plain repl l o false .unary w (.expr x) →
      Plain repl l o false .unary (t :: w) (.expr (.unary op x t.loc))
  | primary {l o w x} : Plain repl l o false .primary w (.expr x) → Plain repl l o false .call w (.expr x)
  | property {l o w x d i} :
      Plain repl l o false .call w (.expr x) → o.whole → d.tokenType = .dot → i.tokenType = .identifier →
      Plain repl l .closed false .call (w ++ [d, i]) (.expr (.get x i.lexeme d.loc))
  | call_empty {l o w x b c} :
      Plain repl l o false .call w (.expr x) → o.whole → b.tokenType = .leftParenAbutting →
      c.tokenType = .rightParen →
      Plain repl l .closed false .call (w ++ [b, c]) (.expr (.call x [] b.loc))
  | call_args {l o₁ o w x b w' xs c} :
      Plain repl l o₁ false .call w (.expr x) → o₁.whole → b.tokenType = .leftParenAbutting →
      Plain repl l o false .arguments w' (.exprs xs) → o ≠ .brace → c.tokenType = .rightParen →
      Plain repl l .closed false .call (w ++ b :: w' ++ [c]) (.expr (.call x xs b.loc))
  | call_bare {l o₁ o w x t w' xs} :
      Plain repl l o₁ false .call w (.expr x) → o₁.whole → startsArgument t.tokenType →
      (o₁ = .comma → ¬ KeyColon (t :: w')) →
      Plain repl l o false .arguments (t :: w') (.exprs xs) →
      Plain repl l o.bare false .call (w ++ t :: w') (.expr (.call x xs t.loc))
  | index {l o₁ o w x b w' i c} :
      Plain repl l o₁ false .call w (.expr x) → o₁.whole → b.tokenType = .leftBracket →
      Plain repl l o false .expression w' (.expr i) → o ≠ .brace → c.tokenType = .rightBracket →
      Plain repl l .closed false .call (w ++ b :: w' ++ [c]) (.expr (.getIndex x i b.loc))
  | before_nil {l} : Plain repl l .closed false .before [] (.exprs [])
  | before {l o w xs w' x c} :
      Plain repl l .closed false .before w (.exprs xs) → Plain repl l o false .expression w' (.expr x) → o.item →
      c.tokenType = .comma → Plain repl l .closed false .before (w ++ w' ++ [c]) (.exprs (xs ++ [x]))
  | arguments {l o w xs w' x} :
      Plain repl l .closed false .before w (.exprs xs) → xs.length < 255 →
      Plain repl l o false .expression w' (.expr x) → Plain repl l o false .arguments (w ++ w') (.exprs (xs ++ [x]))
  | entries_nil {l} : Plain repl l .closed false .entriesBefore [] (.entries [])
  | entries_comma {l o₁ o w ms t k c w' x s} :
      Plain repl l o₁ false .entriesBefore w (.entries ms) → IsKey t k → c.tokenType = .colon →
      Plain repl l o false .expression w' (.expr x) → o.item → k ∉ ms.map MapEntry.key → s.tokenType = .comma →
      Plain repl l .comma false .entriesBefore (w ++ t :: c :: w' ++ [s]) (.entries (ms ++ [.mk k x]))
  | entries_line {l o₁ o w ms t k c w' x s} :
      Plain repl l o₁ false .entriesBefore w (.entries ms) → IsKey t k → c.tokenType = .colon →
      Plain repl l o false .expression w' (.expr x) → o ≠ .map → o ≠ .brace → k ∉ ms.map MapEntry.key →
      s.tokenType = .terminator →
      Plain repl l .brace false .entriesBefore (w ++ t :: c :: w' ++ [s]) (.entries (ms ++ [.mk k x]))
  | entries {l o₁ o w ms t k c w' x} :
      Plain repl l o₁ false .entriesBefore w (.entries ms) → IsKey t k → c.tokenType = .colon →
      Plain repl l o false .expression w' (.expr x) → k ∉ ms.map MapEntry.key →
      Plain repl l o false .entries (w ++ t :: c :: w') (.entries (ms ++ [.mk k x]))
  /- primary expressions -/
  | false {l t} : t.tokenType = .false → Plain repl l .closed false .primary [t] (.expr (.literalBool false))
  | true {l t} : t.tokenType = .true → Plain repl l .closed false .primary [t] (.expr (.literalBool true))
  | nil {l t} : t.tokenType = .nil → Plain repl l .closed false .primary [t] (.expr .literalNil)
  | number {l t x} : t.tokenType = .number → t.floatLiteral = some x →
      Plain repl l .closed false .primary [t] (.expr (.literalNumber x))
  | string {l t s} : t.tokenType = .string → t.stringLiteral = some s →
      Plain repl l .closed false .primary [t] (.expr (.literalString s))
  | variable {l t} : t.tokenType = .identifier ∨ t.tokenType = .this →
      Plain repl l .closed false .primary [t] (.expr (.variable t.lexeme .placeholder t.loc))
  | map_bare {l o w ms} : Plain repl l o false .entries w (.entries ms) →
      Plain repl l o.bareMap false .primary w (.expr (.literalMap ms))
  | map_open {l o w ms} : Plain repl l o false .entriesBefore w (.entries ms) → o ≠ .closed →
      Plain repl l o false .primary w (.expr (.literalMap ms))
  | map_braces {l o b w ms c} : b.tokenType = .leftBrace → Plain repl l o false .entries w (.entries ms) →
      c.tokenType = .rightBrace → Plain repl l .closed false .primary (b :: w ++ [c]) (.expr (.literalMap ms))
  | map_trailing {l o b w ms c} : b.tokenType = .leftBrace → Plain repl l o false .entriesBefore w (.entries ms) →
      c.tokenType = .rightBrace → Plain repl l .closed false .primary (b :: w ++ [c]) (.expr (.literalMap ms))
  | function_literal {l t w d} : t.tokenType = .fun → Plain repl l .closed false (.function t.loc) w (.fn d) →
      Plain repl l .closed false .primary (t :: w) (.expr (.function d))
  | grouping {l o b w x c} : IsParen b → Plain repl l o false .expression w (.expr x) → o ≠ .brace →
      c.tokenType = .rightParen → Plain repl l .closed false .primary (b :: w ++ [c]) (.expr (.grouping x))
  | array {l o b w xs w' x c} : b.tokenType = .leftBracket → Plain repl l .closed false .before w (.exprs xs) →
      Plain repl l o false .expression w' (.expr x) → o ≠ .brace → c.tokenType = .rightBracket →
      Plain repl l .closed false .primary (b :: w ++ w' ++ [c]) (.expr (.literalArray (xs ++ [x])))
  | array_trailing {l b w xs c} : b.tokenType = .leftBracket → Plain repl l .closed false .before w (.exprs xs) →
      c.tokenType = .rightBracket →
      Plain repl l .closed false .primary (b :: w ++ [c]) (.expr (.literalArray xs))
  | super {l t d i} : t.tokenType = .super → d.tokenType = .dot → i.tokenType = .identifier →
      Plain repl l .closed false .primary [t, d, i] (.expr (.super .placeholder i.lexeme t.loc))
  /- functions and classes -/
  | parameters_nil {l} : Plain repl l .closed false .parametersBefore [] (.params [])
  | parameters {l w ps t c} : Plain repl l .closed false .parametersBefore w (.params ps) → ps.length < 255 →
      t.tokenType = .identifier → c.tokenType = .comma →
      Plain repl l .closed false .parametersBefore (w ++ [t, c]) (.params (ps ++ [⟨t.lexeme, t.loc⟩]))
  | function_empty {l loc b c w body} : IsParen b → c.tokenType = .rightParen →
      Plain repl l .closed false .block w (.stmts body) →
      Plain repl l .closed false (.function loc) (b :: c :: w) (.fn (.mk [] body .plainFunction loc))
  | function {l loc b w₁ ps t c w body} : IsParen b → Plain repl l .closed false .parametersBefore w₁ (.params ps) →
      ps.length < 255 → t.tokenType = .identifier → c.tokenType = .rightParen →
      Plain repl l .closed false .block w (.stmts body) →
      Plain repl l .closed false (.function loc) (b :: w₁ ++ t :: c :: w)
        (.fn (.mk (ps ++ [⟨t.lexeme, t.loc⟩]) body .plainFunction loc))
  | block_braces {l o b w ss c} : b.tokenType = .leftBrace → Plain repl l o false .declarations w (.stmts ss) →
      o ≠ .map → o ≠ .unfinished → c.tokenType = .rightBrace →
      Plain repl l .closed false .block (b :: w ++ [c]) (.stmts ss)
  | block_indented {l o t i w ss d} : t.tokenType = .terminator → i.tokenType = .indent →
      Plain repl l o false .declarations w (.stmts ss) → o ≠ .brace → o ≠ .unfinished →
      d.tokenType = .outdent →
      Plain repl l .closed false .block (t :: i :: w ++ [d]) (.stmts ss)
  | named {l t w d} : t.tokenType = .identifier → Plain repl l .closed false (.function t.loc) w (.fn d) →
      Plain repl l .closed false .named (t :: w) (.named (.mk t.lexeme d))
  | methods_nil {l} : Plain repl l .closed false .methods [] (.nameds [])
  | method {l w fs w' n ps body k loc} : Plain repl l .closed false .methods w (.nameds fs) →
      Plain repl l .closed false .named w' (.named (.mk n (.mk ps body k loc))) →
      Plain repl l .closed false .methods (w ++ w') (.nameds (fs ++ [.mk n (.mk ps body (methodKind false n) loc)]))
  | class_method {l w fs t w' n ps body k loc} : Plain repl l .closed false .methods w (.nameds fs) →
      t.tokenType = .class → Plain repl l .closed false .named w' (.named (.mk n (.mk ps body k loc))) →
      Plain repl l .closed false .methods (w ++ t :: w')
        (.nameds (fs ++ [.mk n (.mk ps body (methodKind true n) loc)]))
  /- declarations -/
  | declarations_nil {l} : Plain repl l .closed false .declarations [] (.stmts [])
  | declarations {l o o' e w ss w' s} : Plain repl l o false .declarations w (.stmts ss) →
      Plain repl l o' e .declaration w' (.stmt s) → o.Precedes w' →
      Plain repl l o' false .declarations (w ++ w') (.stmts (ss ++ [s]))
  | declaration {l o e w s} : Plain repl l o e .statement w (.stmt s) → Plain repl l o e .declaration w (.stmt s)
  | fun_decl {l t w f} : t.tokenType = .fun → Plain repl l .closed false .named w (.named f) →
      Plain repl l .closed false .declaration (t :: w) (.stmt (.fun f))
  | class_braces {l t n b w fs c} : t.tokenType = .class → n.tokenType = .identifier →
      b.tokenType = .leftBrace → Plain repl l .closed false .methods w (.nameds fs) → c.tokenType = .rightBrace →
      Plain repl l .closed false .declaration (t :: n :: b :: w ++ [c]) (.stmt (.class n.lexeme none fs n.loc))
  | class_indented {l t n term i w fs c} : t.tokenType = .class → n.tokenType = .identifier →
      term.tokenType = .terminator → i.tokenType = .indent →
      Plain repl l .closed false .methods w (.nameds fs) → c.tokenType = .outdent →
      Plain repl l .closed false .declaration (t :: n :: term :: i :: w ++ [c]) (.stmt (.class n.lexeme none fs n.loc))
  | subclass_braces {l t n lt s b w fs c} : t.tokenType = .class → n.tokenType = .identifier →
      lt.tokenType = .less → s.tokenType = .identifier →
      b.tokenType = .leftBrace → Plain repl l .closed false .methods w (.nameds fs) → c.tokenType = .rightBrace →
      Plain repl l .closed false .declaration (t :: n :: lt :: s :: b :: w ++ [c])
        (.stmt (.class n.lexeme (some (.variable s.lexeme .placeholder s.loc)) fs n.loc))
  | subclass_indented {l t n lt s term i w fs c} : t.tokenType = .class → n.tokenType = .identifier →
      lt.tokenType = .less → s.tokenType = .identifier →
      term.tokenType = .terminator → i.tokenType = .indent →
      Plain repl l .closed false .methods w (.nameds fs) → c.tokenType = .outdent →
      Plain repl l .closed false .declaration (t :: n :: lt :: s :: term :: i :: w ++ [c])
        (.stmt (.class n.lexeme (some (.variable s.lexeme .placeholder s.loc)) fs n.loc))
  | var {l t n term} : t.tokenType = .var → n.tokenType = .identifier → term.tokenType = .terminator →
      Plain repl l .closed false .declaration [t, n, term] (.stmt (.var n.lexeme .placeholder .literalNil n.loc))
  | var_init {l o t n q term w x term'} : t.tokenType = .var → n.tokenType = .identifier →
      q.tokenType = .equal → Optional .terminator term → Plain repl l o false .expression w (.expr x) →
      o ≠ .brace → term'.tokenType = .terminator →
      Plain repl l o.line false .declaration (t :: n :: q :: term ++ w ++ [term'])
        (.stmt (.var n.lexeme .placeholder x n.loc))
  | var_open {l o t n q term h w x} : t.tokenType = .var → n.tokenType = .identifier →
      q.tokenType = .equal → Optional .terminator term → Plain repl l o false .expression (h :: w) (.expr x) →
      h.tokenType = .indent ∨ h.tokenType = .leftBrace →
      Plain repl l o.opened false .declaration (t :: n :: q :: term ++ h :: w)
        (.stmt (.var n.lexeme .placeholder x n.loc))
  /- statements -/
  | expression_statement {l o h w x term} : Plain repl l o false .expression (h :: w) (.expr x) →
      h.tokenType ≠ .leftBrace → o ≠ .brace → term.tokenType = .terminator →
      Plain repl l o.line false .statement (h :: w ++ [term]) (.stmt (.expression x))
  | expression_last {l o h w x} : Plain repl l o false .expression (h :: w) (.expr x) →
      h.tokenType ≠ .leftBrace → o ≠ .brace → repl = true →
      Plain repl l .unfinished false .statement (h :: w) (.stmt (.expression x))
  | break {t term} : t.tokenType = .break → term.tokenType = .terminator →
      Plain repl true .closed false .statement [t, term] (.stmt (.break t.loc))
  | continue {t term} : t.tokenType = .continue → term.tokenType = .terminator →
      Plain repl true .closed false .statement [t, term] (.stmt (.continue t.loc))
  | print {l o t w x term} : t.tokenType = .print → Plain repl l o false .expression w (.expr x) → o ≠ .brace →
      term.tokenType = .terminator → Plain repl l o.line false .statement (t :: w ++ [term]) (.stmt (.print x))
  | return_nil {l t term} : t.tokenType = .return → term.tokenType = .terminator →
      Plain repl l .closed false .statement [t, term] (.stmt (.return .literalNil t.loc))
  | return {l o t w x term} : t.tokenType = .return → Plain repl l o false .expression w (.expr x) → o ≠ .brace →
      term.tokenType = .terminator → Plain repl l o.line false .statement (t :: w ++ [term]) (.stmt (.return x t.loc))
  | braces {l o b w ss c} : b.tokenType = .leftBrace → Plain repl l o false .declarations w (.stmts ss) →
      o ≠ .map → o ≠ .unfinished → c.tokenType = .rightBrace →
      Plain repl l .closed false .statement (b :: w ++ [c]) (.stmt (.block ss))
  | if {l o o' e t b w₁ x c w₂ s} : t.tokenType = .if → IsParen b → Plain repl l o' false .expression w₁ (.expr x) →
      o' ≠ .brace → c.tokenType = .rightParen → Plain repl l o e .body w₂ (.stmt s) →
      Plain repl l o true .statement (t :: b :: w₁ ++ c :: w₂) (.stmt (.if x s none))
  | if_else {l o₀ o₁ o₂ e t b w₁ x c w₂ s₁ el w₃ s₂} : t.tokenType = .if → IsParen b →
      Plain repl l o₀ false .expression w₁ (.expr x) → o₀ ≠ .brace → c.tokenType = .rightParen →
      Plain repl l o₁ false .body w₂ (.stmt s₁) → o₁ ≠ .brace → o₁ ≠ .unfinished →
      el.tokenType = .else → Plain repl l o₂ e .statement w₃ (.stmt s₂) →
      Plain repl l o₂ e .statement (t :: b :: w₁ ++ c :: w₂ ++ el :: w₃) (.stmt (.if x s₁ (some s₂)))
  | while {l o o' e t b w₁ x c w₂ s} : t.tokenType = .while → IsParen b →
      Plain repl l o' false .expression w₁ (.expr x) → o' ≠ .brace →
      c.tokenType = .rightParen → Plain repl true o e .body w₂ (.stmt s) →
      Plain repl l o e .statement (t :: b :: w₁ ++ c :: w₂) (.stmt (.while x s))
  | for {l o₀ o e t b w₀ init w₁ cond semi w₂ inc c w₃ s} : t.tokenType = .for → IsParen b →
      Plain repl l o₀ false .forInit w₀ (.optStmt init) →
      Plain repl l .closed false .forCondition w₁ (.expr cond) → (o₀ = .map → ¬ KeyColon w₁) → semi.tokenType = .semicolon →
      Plain repl l .closed false .forIncrement w₂ (.optExpr inc) →
      c.tokenType = .rightParen → Plain repl true o e .body w₃ (.stmt s) →
      Plain repl l o e .statement (t :: b :: w₀ ++ w₁ ++ semi :: w₂ ++ c :: w₃) (.stmt (forLoop init cond inc s))
  | for_none {l semi} : semi.tokenType = .semicolon → Plain repl l .closed false .forInit [semi] (.optStmt none)
  | for_var {l t n semi} : t.tokenType = .var → n.tokenType = .identifier → semi.tokenType = .semicolon →
      Plain repl l .closed false .forInit [t, n, semi] (.optStmt (some (.var n.lexeme .placeholder .literalNil n.loc)))
  | for_var_init {l o t n q term w x semi} : t.tokenType = .var → n.tokenType = .identifier →
      q.tokenType = .equal → Optional .terminator term → Plain repl l o false .expression w (.expr x) →
      o ≠ .brace → semi.tokenType = .semicolon →
      Plain repl l .closed false .forInit (t :: n :: q :: term ++ w ++ [semi])
        (.optStmt (some (.var n.lexeme .placeholder x n.loc)))
  | for_expression {l o w x term} : Plain repl l o false .expression w (.expr x) → o ≠ .brace →
      term.tokenType = .terminator →
      Plain repl l o.line false .forInit (w ++ [term]) (.optStmt (some (.expression x)))
  | condition_none {l} : Plain repl l .closed false .forCondition [] (.expr (.literalBool true))
  | condition {l o w x} : Plain repl l o false .expression w (.expr x) → o ≠ .brace →
      Plain repl l .closed false .forCondition w (.expr x)
  | increment_none {l} : Plain repl l .closed false .forIncrement [] (.optExpr none)
  | increment {l o w x} : Plain repl l o false .expression w (.expr x) → o ≠ .brace →
      Plain repl l .closed false .forIncrement w (.optExpr (some x))
  | body_block {l w ss} : Plain repl l .closed false .block w (.stmts ss) →
      Plain repl l .closed false .body w (.stmt (.block ss))
  | body {l o e h w s} : Plain repl l o e .statement (h :: w) (.stmt s) → h.tokenType ≠ .leftBrace →
      Plain repl l o e .body (h :: w) (.stmt s)

end Ws.Spec
