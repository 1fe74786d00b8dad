import Verif.Spec.Plain
/-! The grammar of `Verif.Spec.Plain` without its five restrictions that are not a matter of the order of
tokens: what may stand to the left of `=`, at most 255 arguments, at most 255 parameters, different keys in a
map, and `break` and `continue` only in loops. Instead of forbidding these faults it lists them. -/
namespace Ws.Spec
open Ws

/-- Something other than a variable, a property or an index to the left of the token `t`, a `=`. -/
def invalidTarget (t : Token) : Cause := ⟨t.loc, some c!"=", "Invalid assignment target."⟩

/-- `t` starts the 256th argument. -/
def tooManyArguments (t : Token) : Cause := ⟨t.loc, some t.lexeme, "Cannot have more than 255 arguments."⟩

/-- `t` is the 256th parameter. -/
def tooManyParameters (t : Token) : Cause := ⟨t.loc, some t.lexeme, "Cannot have more than 255 parameters."⟩

/-- The parameter `t` follows the parameters `ps`. -/
def excess (ps : List Parameter) (t : Token) : List Cause :=
  if ps.length < 255 then [] else [tooManyParameters t]

/-- `t` is the key `k`, and so is an earlier one. -/
def duplicateKey (t : Token) (k : Str) : Cause := ⟨t.loc, some k, "Duplicate key in literal map."⟩

/-- The token `t` is the key `k` of an entry that follows the entries `ms`. -/
def repeatedKey (ms : List MapEntry) (t : Token) (k : Str) : List Cause :=
  if k ∈ ms.map MapEntry.key then [duplicateKey t k] else []

/-- `t` is a `break` that is not in a loop. -/
def breakOutside (t : Token) : Cause := ⟨t.loc, some t.lexeme, "Found break statement outside of loop body"⟩

/-- `t` is a `continue` that is not in a loop. -/
def continueOutside (t : Token) : Cause := ⟨t.loc, some t.lexeme, "Found continue statement outside of loop body"⟩

/-- The grammar with faults. `Loose repl inLoop ends opensElse sym w v vs` says that the token list `w` is
derived from `sym` as the tree `v` with the faults `vs`, in the order in which they show when reading from the
left: a bad target or a repeated key shows once the expression after it is complete. An assignment to a bad
target has no tree, the tree of its target stands for it. -/
inductive Loose (repl : Bool) : (inLoop : Bool) → Ends → (opensElse : Bool) → Sym → List Token → Tree → List Cause → Prop
  /- expressions -/
  | target_plain {l o w x vs} : Loose repl l o false (.binary .or) w (.expr x) vs →
      Loose repl l o.target false .target w (.expr x) vs
  | target_indented {l o w x i term d vs} :
      i.tokenType = .indent → Loose repl l o false (.binary .or) w (.expr x) vs → o ≠ .brace →
      Optional .terminator term → d.tokenType = .outdent →
      Loose repl l .outdent false .target (i :: w ++ term ++ [d]) (.expr x) vs
  | expression {l o w x vs} : Loose repl l o false .target w (.expr x) vs → Loose repl l o false .expression w (.expr x) vs
  | assignment {l o₁ o w₁ x₁ t w₂ x₂ x vs₁ vs₂} :
      Loose repl l o₁ false .target w₁ (.expr x₁) vs₁ → o₁.item → t.tokenType = .equal →
      Loose repl l o false .expression w₂ (.expr x₂) vs₂ → Assigns x₂ t.loc x₁ x →
      Loose repl l o false .expression (w₁ ++ t :: w₂) (.expr x) (vs₁ ++ vs₂)
  | assignment_fault {l o₁ o w₁ x₁ t w₂ x₂ vs₁ vs₂} :
      Loose repl l o₁ false .target w₁ (.expr x₁) vs₁ → o₁.item → t.tokenType = .equal →
      Loose repl l o false .expression w₂ (.expr x₂) vs₂ → (∀ x, ¬ Assigns x₂ t.loc x₁ x) →
      Loose repl l o false .expression (w₁ ++ t :: w₂) (.expr x₁) (vs₁ ++ vs₂ ++ [invalidTarget t])
  | operand {l o p w x vs} : Loose repl l o false p.next w (.expr x) vs → Loose repl l o false (.binary p) w (.expr x) vs
  | operator {l o₁ o p w₁ a t w₂ b build vs₁ vs₂} :
      Loose repl l o₁ false (.binary p) w₁ (.expr a) vs₁ → o₁.whole → p.node t.tokenType = some build →
      Loose repl l o false p.next w₂ (.expr b) vs₂ →
      Loose repl l o false (.binary p) (w₁ ++ t :: w₂) (.expr (build a b t.loc)) (vs₁ ++ vs₂)
  | call {l o w x vs} : Loose repl l o false .call w (.expr x) vs → Loose repl l o.unary false .unary w (.expr x) vs
  | prefix {l o t w x op vs} :
      prefixNode t.tokenType = some op → Loose repl l o false .unary w (.expr x) vs →
      Loose repl l o false .unary (t :: w) (.expr (.unary op x t.loc)) vs
  | primary {l o w x vs} : Loose repl l o false .primary w (.expr x) vs → Loose repl l o false .call w (.expr x) vs
  | property {l o w x d i vs} :
      Loose repl l o false .call w (.expr x) vs → o.whole → d.tokenType = .dot → i.tokenType = .identifier →
      Loose repl l .closed false .call (w ++ [d, i]) (.expr (.get x i.lexeme d.loc)) vs
  | call_empty {l o w x b c vs} :
      Loose repl l o false .call w (.expr x) vs → o.whole → b.tokenType = .leftParenAbutting →
      c.tokenType = .rightParen →
      Loose repl l .closed false .call (w ++ [b, c]) (.expr (.call x [] b.loc)) vs
  | call_args {l o₁ o w x b w' xs c vs₁ vs₂} :
      Loose repl l o₁ false .call w (.expr x) vs₁ → o₁.whole → b.tokenType = .leftParenAbutting →
      Loose repl l o false .arguments w' (.exprs xs) vs₂ → o ≠ .brace → c.tokenType = .rightParen →
      Loose repl l .closed false .call (w ++ b :: w' ++ [c]) (.expr (.call x xs b.loc)) (vs₁ ++ vs₂)
  | call_bare {l o₁ o w x t w' xs vs₁ vs₂} :
      Loose repl l o₁ false .call w (.expr x) vs₁ → o₁.whole → startsArgument t.tokenType →
      (o₁ = .comma → ¬ KeyColon (t :: w')) →
      Loose repl l o false .arguments (t :: w') (.exprs xs) vs₂ →
      Loose repl l o.bare false .call (w ++ t :: w') (.expr (.call x xs t.loc)) (vs₁ ++ vs₂)
  | index {l o₁ o w x b w' i c vs₁ vs₂} :
      Loose repl l o₁ false .call w (.expr x) vs₁ → o₁.whole → b.tokenType = .leftBracket →
      Loose repl l o false .expression w' (.expr i) vs₂ → o ≠ .brace → c.tokenType = .rightBracket →
      Loose repl l .closed false .call (w ++ b :: w' ++ [c]) (.expr (.getIndex x i b.loc)) (vs₁ ++ vs₂)
  | before_nil {l} : Loose repl l .closed false .before [] (.exprs []) []
  | before {l o w xs w' x c vs₁ vs₂} :
      Loose repl l .closed false .before w (.exprs xs) vs₁ → Loose repl l o false .expression w' (.expr x) vs₂ → o.item →
      c.tokenType = .comma → Loose repl l .closed false .before (w ++ w' ++ [c]) (.exprs (xs ++ [x])) (vs₁ ++ vs₂)
  | arguments {l o w xs w' x vs₁ vs₂} :
      Loose repl l .closed false .before w (.exprs xs) vs₁ → xs.length < 255 →
      Loose repl l o false .expression w' (.expr x) vs₂ → Loose repl l o false .arguments (w ++ w') (.exprs (xs ++ [x])) (vs₁ ++ vs₂)
  | arguments_fault {l o w xs t w' ys vs₁ vs₂} :
      Loose repl l .closed false .before w (.exprs xs) vs₁ → xs.length = 255 →
      Loose repl l o false .arguments (t :: w') (.exprs ys) vs₂ →
      Loose repl l o false .arguments (w ++ t :: w') (.exprs (xs ++ ys)) (vs₁ ++ tooManyArguments t :: vs₂)
  | entries_nil {l} : Loose repl l .closed false .entriesBefore [] (.entries []) []
  | entries_comma {l o₁ o w ms t k c w' x s vs₁ vs₂} :
      Loose repl l o₁ false .entriesBefore w (.entries ms) vs₁ → IsKey t k → c.tokenType = .colon →
      Loose repl l o false .expression w' (.expr x) vs₂ → o.item → s.tokenType = .comma →
      Loose repl l .comma false .entriesBefore (w ++ t :: c :: w' ++ [s]) (.entries (ms ++ [.mk k x])) (vs₁ ++ vs₂ ++ repeatedKey ms t k)
  | entries_line {l o₁ o w ms t k c w' x s vs₁ vs₂} :
      Loose repl l o₁ false .entriesBefore w (.entries ms) vs₁ → IsKey t k → c.tokenType = .colon →
      Loose repl l o false .expression w' (.expr x) vs₂ → o ≠ .map → o ≠ .brace →
      s.tokenType = .terminator →
      Loose repl l .brace false .entriesBefore (w ++ t :: c :: w' ++ [s]) (.entries (ms ++ [.mk k x])) (vs₁ ++ vs₂ ++ repeatedKey ms t k)
  | entries {l o₁ o w ms t k c w' x vs₁ vs₂} :
      Loose repl l o₁ false .entriesBefore w (.entries ms) vs₁ → IsKey t k → c.tokenType = .colon →
      Loose repl l o false .expression w' (.expr x) vs₂ →
      Loose repl l o false .entries (w ++ t :: c :: w') (.entries (ms ++ [.mk k x])) (vs₁ ++ vs₂ ++ repeatedKey ms t k)
  /- primary expressions -/
  | false {l t} : t.tokenType = .false → Loose repl l .closed false .primary [t] (.expr (.literalBool false)) []
  | true {l t} : t.tokenType = .true → Loose repl l .closed false .primary [t] (.expr (.literalBool true)) []
  | nil {l t} : t.tokenType = .nil → Loose repl l .closed false .primary [t] (.expr .literalNil) []
  | number {l t x} : t.tokenType = .number → t.floatLiteral = some x →
      Loose repl l .closed false .primary [t] (.expr (.literalNumber x)) []
  | string {l t s} : t.tokenType = .string → t.stringLiteral = some s →
      Loose repl l .closed false .primary [t] (.expr (.literalString s)) []
  | variable {l t} : t.tokenType = .identifier ∨ t.tokenType = .this →
      Loose repl l .closed false .primary [t] (.expr (.variable t.lexeme .placeholder t.loc)) []
  | map_bare {l o w ms vs} : Loose repl l o false .entries w (.entries ms) vs →
      Loose repl l o.bareMap false .primary w (.expr (.literalMap ms)) vs
  | map_open {l o w ms vs} : Loose repl l o false .entriesBefore w (.entries ms) vs → o ≠ .closed →
      Loose repl l o false .primary w (.expr (.literalMap ms)) vs
  | map_braces {l o b w ms c vs} : b.tokenType = .leftBrace → Loose repl l o false .entries w (.entries ms) vs →
      c.tokenType = .rightBrace → Loose repl l .closed false .primary (b :: w ++ [c]) (.expr (.literalMap ms)) vs
  | map_trailing {l o b w ms c vs} : b.tokenType = .leftBrace → Loose repl l o false .entriesBefore w (.entries ms) vs →
      c.tokenType = .rightBrace → Loose repl l .closed false .primary (b :: w ++ [c]) (.expr (.literalMap ms)) vs
  | function_literal {l t w d vs} : t.tokenType = .fun → Loose repl l .closed false (.function t.loc) w (.fn d) vs →
      Loose repl l .closed false .primary (t :: w) (.expr (.function d)) vs
  | grouping {l o b w x c vs} : IsParen b → Loose repl l o false .expression w (.expr x) vs → o ≠ .brace →
      c.tokenType = .rightParen → Loose repl l .closed false .primary (b :: w ++ [c]) (.expr (.grouping x)) vs
  | array {l o b w xs w' x c vs₁ vs₂} : b.tokenType = .leftBracket → Loose repl l .closed false .before w (.exprs xs) vs₁ →
      Loose repl l o false .expression w' (.expr x) vs₂ → o ≠ .brace → c.tokenType = .rightBracket →
      Loose repl l .closed false .primary (b :: w ++ w' ++ [c]) (.expr (.literalArray (xs ++ [x]))) (vs₁ ++ vs₂)
  | array_trailing {l b w xs c vs} : b.tokenType = .leftBracket → Loose repl l .closed false .before w (.exprs xs) vs →
      c.tokenType = .rightBracket →
      Loose repl l .closed false .primary (b :: w ++ [c]) (.expr (.literalArray xs)) vs
  | super {l t d i} : t.tokenType = .super → d.tokenType = .dot → i.tokenType = .identifier →
      Loose repl l .closed false .primary [t, d, i] (.expr (.super .placeholder i.lexeme t.loc)) []
  /- functions and classes -/
  | parameters_nil {l} : Loose repl l .closed false .parametersBefore [] (.params []) []
  | parameters {l w ps t c vs} : Loose repl l .closed false .parametersBefore w (.params ps) vs →
      t.tokenType = .identifier → c.tokenType = .comma →
      Loose repl l .closed false .parametersBefore (w ++ [t, c]) (.params (ps ++ [⟨t.lexeme, t.loc⟩])) (vs ++ excess ps t)
  | function_empty {l loc b c w body vs} : IsParen b → c.tokenType = .rightParen →
      Loose repl l .closed false .block w (.stmts body) vs →
      Loose repl l .closed false (.function loc) (b :: c :: w) (.fn (.mk [] body .plainFunction loc)) vs
  | function {l loc b w₁ ps t c w body vs₁ vs₂} : IsParen b → Loose repl l .closed false .parametersBefore w₁ (.params ps) vs₁ →
      t.tokenType = .identifier → c.tokenType = .rightParen →
      Loose repl l .closed false .block w (.stmts body) vs₂ →
      Loose repl l .closed false (.function loc) (b :: w₁ ++ t :: c :: w)
        (.fn (.mk (ps ++ [⟨t.lexeme, t.loc⟩]) body .plainFunction loc)) (vs₁ ++ excess ps t ++ vs₂)
  | block_braces {l o b w ss c vs} : b.tokenType = .leftBrace → Loose repl l o false .declarations w (.stmts ss) vs →
      o ≠ .map → o ≠ .unfinished → c.tokenType = .rightBrace →
      Loose repl l .closed false .block (b :: w ++ [c]) (.stmts ss) vs
  | block_indented {l o t i w ss d vs} : t.tokenType = .terminator → i.tokenType = .indent →
      Loose repl l o false .declarations w (.stmts ss) vs → o ≠ .brace → o ≠ .unfinished →
      d.tokenType = .outdent →
      Loose repl l .closed false .block (t :: i :: w ++ [d]) (.stmts ss) vs
  | named {l t w d vs} : t.tokenType = .identifier → Loose repl l .closed false (.function t.loc) w (.fn d) vs →
      Loose repl l .closed false .named (t :: w) (.named (.mk t.lexeme d)) vs
  | methods_nil {l} : Loose repl l .closed false .methods [] (.nameds []) []
  | method {l w fs w' n ps body k loc vs₁ vs₂} : Loose repl l .closed false .methods w (.nameds fs) vs₁ →
      Loose repl l .closed false .named w' (.named (.mk n (.mk ps body k loc))) vs₂ →
      Loose repl l .closed false .methods (w ++ w') (.nameds (fs ++ [.mk n (.mk ps body (methodKind false n) loc)])) (vs₁ ++ vs₂)
  | class_method {l w fs t w' n ps body k loc vs₁ vs₂} : Loose repl l .closed false .methods w (.nameds fs) vs₁ →
      t.tokenType = .class → Loose repl l .closed false .named w' (.named (.mk n (.mk ps body k loc))) vs₂ →
      Loose repl l .closed false .methods (w ++ t :: w')
        (.nameds (fs ++ [.mk n (.mk ps body (methodKind true n) loc)])) (vs₁ ++ vs₂)
  /- declarations -/
  | declarations_nil {l} : Loose repl l .closed false .declarations [] (.stmts []) []
  | declarations {l o o' e w ss w' s vs₁ vs₂} : Loose repl l o false .declarations w (.stmts ss) vs₁ →
      Loose repl l o' e .declaration w' (.stmt s) vs₂ → o.Precedes w' →
      Loose repl l o' false .declarations (w ++ w') (.stmts (ss ++ [s])) (vs₁ ++ vs₂)
  | declaration {l o e w s vs} : Loose repl l o e .statement w (.stmt s) vs → Loose repl l o e .declaration w (.stmt s) vs
  | fun_decl {l t w f vs} : t.tokenType = .fun → Loose repl l .closed false .named w (.named f) vs →
      Loose repl l .closed false .declaration (t :: w) (.stmt (.fun f)) vs
  | class_braces {l t n b w fs c vs} : t.tokenType = .class → n.tokenType = .identifier →
      b.tokenType = .leftBrace → Loose repl l .closed false .methods w (.nameds fs) vs → c.tokenType = .rightBrace →
      Loose repl l .closed false .declaration (t :: n :: b :: w ++ [c]) (.stmt (.class n.lexeme none fs n.loc)) vs
  | class_indented {l t n term i w fs c vs} : t.tokenType = .class → n.tokenType = .identifier →
      term.tokenType = .terminator → i.tokenType = .indent →
      Loose repl l .closed false .methods w (.nameds fs) vs → c.tokenType = .outdent →
      Loose repl l .closed false .declaration (t :: n :: term :: i :: w ++ [c]) (.stmt (.class n.lexeme none fs n.loc)) vs
  | subclass_braces {l t n lt s b w fs c vs} : t.tokenType = .class → n.tokenType = .identifier →
      lt.tokenType = .less → s.tokenType = .identifier →
      b.tokenType = .leftBrace → Loose repl l .closed false .methods w (.nameds fs) vs → c.tokenType = .rightBrace →
      Loose repl l .closed false .declaration (t :: n :: lt :: s :: b :: w ++ [c])
        (.stmt (.class n.lexeme (some (.variable s.lexeme .placeholder s.loc)) fs n.loc)) vs
  | subclass_indented {l t n lt s term i w fs c vs} : t.tokenType = .class → n.tokenType = .identifier →
      lt.tokenType = .less → s.tokenType = .identifier →
      term.tokenType = .terminator → i.tokenType = .indent →
      Loose repl l .closed false .methods w (.nameds fs) vs → c.tokenType = .outdent →
      Loose repl l .closed false .declaration (t :: n :: lt :: s :: term :: i :: w ++ [c])
        (.stmt (.class n.lexeme (some (.variable s.lexeme .placeholder s.loc)) fs n.loc)) vs
  | var {l t n term} : t.tokenType = .var → n.tokenType = .identifier → term.tokenType = .terminator →
      Loose repl l .closed false .declaration [t, n, term] (.stmt (.var n.lexeme .placeholder .literalNil n.loc)) []
  | var_init {l o t n q term w x term' vs} : t.tokenType = .var → n.tokenType = .identifier →
      q.tokenType = .equal → Optional .terminator term → Loose repl l o false .expression w (.expr x) vs →
      o ≠ .brace → term'.tokenType = .terminator →
      Loose repl l o.line false .declaration (t :: n :: q :: term ++ w ++ [term'])
        (.stmt (.var n.lexeme .placeholder x n.loc)) vs
  | var_open {l o t n q term h w x vs} : t.tokenType = .var → n.tokenType = .identifier →
      q.tokenType = .equal → Optional .terminator term → Loose repl l o false .expression (h :: w) (.expr x) vs →
      h.tokenType = .indent ∨ h.tokenType = .leftBrace →
      Loose repl l o.opened false .declaration (t :: n :: q :: term ++ h :: w)
        (.stmt (.var n.lexeme .placeholder x n.loc)) vs
  /- statements -/
  | expression_statement {l o h w x term vs} : Loose repl l o false .expression (h :: w) (.expr x) vs →
      h.tokenType ≠ .leftBrace → o ≠ .brace → term.tokenType = .terminator →
      Loose repl l o.line false .statement (h :: w ++ [term]) (.stmt (.expression x)) vs
  | expression_last {l o h w x vs} : Loose repl l o false .expression (h :: w) (.expr x) vs →
      h.tokenType ≠ .leftBrace → o ≠ .brace → repl = true →
      Loose repl l .unfinished false .statement (h :: w) (.stmt (.expression x)) vs
  | break {t term} : t.tokenType = .break → term.tokenType = .terminator →
      Loose repl true .closed false .statement [t, term] (.stmt (.break t.loc)) []
  | continue {t term} : t.tokenType = .continue → term.tokenType = .terminator →
      Loose repl true .closed false .statement [t, term] (.stmt (.continue t.loc)) []
  | break_fault {t term} : t.tokenType = .break → term.tokenType = .terminator →
      Loose repl false .closed false .statement [t, term] (.stmt (.break t.loc)) [breakOutside t]
  | continue_fault {t term} : t.tokenType = .continue → term.tokenType = .terminator →
      Loose repl false .closed false .statement [t, term] (.stmt (.continue t.loc)) [continueOutside t]
  | print {l o t w x term vs} : t.tokenType = .print → Loose repl l o false .expression w (.expr x) vs → o ≠ .brace →
      term.tokenType = .terminator → Loose repl l o.line false .statement (t :: w ++ [term]) (.stmt (.print x)) vs
  | return_nil {l t term} : t.tokenType = .return → term.tokenType = .terminator →
      Loose repl l .closed false .statement [t, term] (.stmt (.return .literalNil t.loc)) []
  | return {l o t w x term vs} : t.tokenType = .return → Loose repl l o false .expression w (.expr x) vs → o ≠ .brace →
      term.tokenType = .terminator → Loose repl l o.line false .statement (t :: w ++ [term]) (.stmt (.return x t.loc)) vs
  | braces {l o b w ss c vs} : b.tokenType = .leftBrace → Loose repl l o false .declarations w (.stmts ss) vs →
      o ≠ .map → o ≠ .unfinished → c.tokenType = .rightBrace →
      Loose repl l .closed false .statement (b :: w ++ [c]) (.stmt (.block ss)) vs
  | if {l o o' e t b w₁ x c w₂ s vs₁ vs₂} : t.tokenType = .if → IsParen b → Loose repl l o' false .expression w₁ (.expr x) vs₁ →
      o' ≠ .brace → c.tokenType = .rightParen → Loose repl l o e .body w₂ (.stmt s) vs₂ →
      Loose repl l o true .statement (t :: b :: w₁ ++ c :: w₂) (.stmt (.if x s none)) (vs₁ ++ vs₂)
  | if_else {l o₀ o₁ o₂ e t b w₁ x c w₂ s₁ el w₃ s₂ vs₁ vs₂ vs₃} : t.tokenType = .if → IsParen b →
      Loose repl l o₀ false .expression w₁ (.expr x) vs₁ → o₀ ≠ .brace → c.tokenType = .rightParen →
      Loose repl l o₁ false .body w₂ (.stmt s₁) vs₂ → o₁ ≠ .brace → o₁ ≠ .unfinished →
      el.tokenType = .else → Loose repl l o₂ e .statement w₃ (.stmt s₂) vs₃ →
      Loose repl l o₂ e .statement (t :: b :: w₁ ++ c :: w₂ ++ el :: w₃) (.stmt (.if x s₁ (some s₂))) (vs₁ ++ vs₂ ++ vs₃)
  | while {l o o' e t b w₁ x c w₂ s vs₁ vs₂} : t.tokenType = .while → IsParen b →
      Loose repl l o' false .expression w₁ (.expr x) vs₁ → o' ≠ .brace →
      c.tokenType = .rightParen → Loose repl true o e .body w₂ (.stmt s) vs₂ →
      Loose repl l o e .statement (t :: b :: w₁ ++ c :: w₂) (.stmt (.while x s)) (vs₁ ++ vs₂)
  | for {l o₀ o e t b w₀ init w₁ cond semi w₂ inc c w₃ s vs₁ vs₂ vs₃ vs₄} : t.tokenType = .for → IsParen b →
      Loose repl l o₀ false .forInit w₀ (.optStmt init) vs₁ →
      Loose repl l .closed false .forCondition w₁ (.expr cond) vs₂ → (o₀ = .map → ¬ KeyColon w₁) → semi.tokenType = .semicolon →
      Loose repl l .closed false .forIncrement w₂ (.optExpr inc) vs₃ →
      c.tokenType = .rightParen → Loose repl true o e .body w₃ (.stmt s) vs₄ →
      Loose repl l o e .statement (t :: b :: w₀ ++ w₁ ++ semi :: w₂ ++ c :: w₃) (.stmt (forLoop init cond inc s)) (vs₁ ++ vs₂ ++ vs₃ ++ vs₄)
  | for_none {l semi} : semi.tokenType = .semicolon → Loose repl l .closed false .forInit [semi] (.optStmt none) []
  | for_var {l t n semi} : t.tokenType = .var → n.tokenType = .identifier → semi.tokenType = .semicolon →
      Loose repl l .closed false .forInit [t, n, semi] (.optStmt (some (.var n.lexeme .placeholder .literalNil n.loc))) []
  | for_var_init {l o t n q term w x semi vs} : t.tokenType = .var → n.tokenType = .identifier →
      q.tokenType = .equal → Optional .terminator term → Loose repl l o false .expression w (.expr x) vs →
      o ≠ .brace → semi.tokenType = .semicolon →
      Loose repl l .closed false .forInit (t :: n :: q :: term ++ w ++ [semi])
        (.optStmt (some (.var n.lexeme .placeholder x n.loc))) vs
  | for_expression {l o w x term vs} : Loose repl l o false .expression w (.expr x) vs → o ≠ .brace →
      term.tokenType = .terminator →
      Loose repl l o.line false .forInit (w ++ [term]) (.optStmt (some (.expression x))) vs
  | condition_none {l} : Loose repl l .closed false .forCondition [] (.expr (.literalBool true)) []
  | condition {l o w x vs} : Loose repl l o false .expression w (.expr x) vs → o ≠ .brace →
      Loose repl l .closed false .forCondition w (.expr x) vs
  | increment_none {l} : Loose repl l .closed false .forIncrement [] (.optExpr none) []
  | increment {l o w x vs} : Loose repl l o false .expression w (.expr x) vs → o ≠ .brace →
      Loose repl l .closed false .forIncrement w (.optExpr (some x)) vs
  | body_block {l w ss vs} : Loose repl l .closed false .block w (.stmts ss) vs →
      Loose repl l .closed false .body w (.stmt (.block ss)) vs
  | body {l o e h w s vs} : Loose repl l o e .statement (h :: w) (.stmt s) vs → h.tokenType ≠ .leftBrace →
      Loose repl l o e .body (h :: w) (.stmt s) vs

/-- An expression with the comma after it. -/
structure Item where
  tokens : List Token
  tree : Expr
  comma : Token

def Item.all (i : Item) : List Token := i.tokens ++ [i.comma]

/-- The unambiguous grammar derives the expression, and it can be followed by a comma. -/
def Item.Ok (repl l : Bool) (i : Item) : Prop :=
  ∃ o, Plain repl l o false .expression i.tokens (.expr i.tree) ∧ o.item ∧ i.comma.tokenType = .comma

/-- An entry of a map with the comma or the end of the line after it. -/
structure Entry where
  key : Token
  name : Str
  colon : Token
  tokens : List Token
  value : Expr
  separator : Token

def Entry.all (e : Entry) : List Token := e.key :: e.colon :: e.tokens ++ [e.separator]
def Entry.tree (e : Entry) : MapEntry := .mk e.name e.value

/-- The unambiguous grammar derives the value, and it can be followed by the separator. -/
def Entry.Ok (repl l : Bool) (e : Entry) : Prop :=
  IsKey e.key e.name ∧ e.colon.tokenType = .colon ∧
  ∃ o, Plain repl l o false .expression e.tokens (.expr e.value) ∧
    (o.item ∧ e.separator.tokenType = .comma ∨ o ≠ .map ∧ o ≠ .brace ∧ e.separator.tokenType = .terminator)

end Ws.Spec
