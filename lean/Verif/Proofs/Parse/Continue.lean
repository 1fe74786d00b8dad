import Verif.Proofs.Parse.ExactTop
import Verif.Proofs.Parse.Local
/-! Phrases that can be continued: what the grammar with faults derives, without the tree and the faults. -/
namespace Ws
open Spec

variable {repl l : Bool} {o o' o₁ o₂ : Ends} {sym : Sym} {w w' w₁ w₂ w₃ u v s : List Token} {b c t : Token}

/-- The kinds of trees of the nonterminals, and which of them can leave an `else` open. -/
def Shape : Sym → Bool → Tree → Prop
  | .before, e, v | .arguments, e, v => e = false ∧ ∃ xs, v = .exprs xs
  | .entriesBefore, e, v | .entries, e, v => e = false ∧ ∃ ms, v = .entries ms
  | .parametersBefore, e, v => e = false ∧ ∃ ps, v = .params ps
  | .function _, e, v => e = false ∧ ∃ d, v = .fn d
  | .named, e, v => e = false ∧ ∃ f, v = .named f
  | .methods, e, v => e = false ∧ ∃ fs, v = .nameds fs
  | .block, e, v | .declarations, e, v => e = false ∧ ∃ ss, v = .stmts ss
  | .body, _, v | .statement, _, v | .declaration, _, v => ∃ s, v = .stmt s
  | .forInit, e, v => e = false ∧ ∃ s, v = .optStmt s
  | .forIncrement, e, v => e = false ∧ ∃ x, v = .optExpr x
  | .expression, e, v | .target, e, v | .binary _, e, v | .unary, e, v | .call, e, v | .primary, e, v | .forCondition, e, v =>
    e = false ∧ ∃ x, v = .expr x

theorem loose_shape {e : Bool} {x : Tree} {vs : List Cause} (h : Loose repl l o e sym w x vs) : Shape sym e x := by
  cases h <;> first | exact ⟨rfl, _, rfl⟩ | exact ⟨_, rfl⟩

/-- The grammar with faults derives the tokens. -/
def Forms (repl l : Bool) (o : Ends) (sym : Sym) (w : List Token) : Prop :=
  ∃ e x vs, Loose repl l o e sym w x vs

theorem Forms.of {e : Bool} {x : Tree} (h : Plain repl l o e sym w x) : Forms repl l o sym w := ⟨_, _, _, plain_loose h⟩

theorem Forms.first (h : Forms repl l o sym w) : First sym w := by
  obtain ⟨e, x, vs, h⟩ := h
  exact loose_first h

theorem Forms.ends (h : Forms repl l o sym w) : o ∈ sym.ends := by
  obtain ⟨e, x, vs, h⟩ := h
  exact loose_ends h

theorem shape_next {p : Prec} {e : Bool} {x : Tree} (h : Shape p.next e x) : e = false ∧ ∃ y, x = .expr y := by
  cases p <;> exact h

/-- Neither a `}` nor a newline is missing. -/
def Spec.Ends.Good (o : Ends) : Prop := o ≠ .brace ∧ o ≠ .unfinished

theorem tidy_closed : Ends.closed.Good := ⟨by decide, by decide⟩

theorem tidy_line (o : Ends) : o.line.Good := by cases o <;> exact ⟨by decide, by decide⟩

theorem tidy_opened (h : o ≠ .brace) : o.opened.Good := by
  cases o <;> first | exact absurd rfl h | exact ⟨by decide, by decide⟩

/-- Unfolds `Forms` hypotheses to derivations with trees of the right kind. -/
local macro "peel" h:ident : tactic =>
  `(tactic| (obtain ⟨_, _, _, $h:ident⟩ := $h:ident; first
    | (obtain ⟨he, _, hx⟩ := loose_shape $h:ident; subst he; subst hx)
    | (obtain ⟨he, _, hx⟩ := shape_next (loose_shape $h:ident); subst he; subst hx)
    | (obtain ⟨_, hx⟩ := loose_shape $h:ident; subst hx)))

/-! ### Expressions -/

theorem Forms.target (h : Forms repl l o (.binary .or) w) : Forms repl l o.target .target w := by
  peel h; exact ⟨_, _, _, .target_plain h⟩

theorem Forms.indented {i d : Token} {term : List Token} (hi : i.tokenType = .indent) (h : Forms repl l o (.binary .or) w) (ho : o ≠ .brace)
    (ht : Optional .terminator term) (hd : d.tokenType = .outdent) : Forms repl l .outdent .target (i :: w ++ term ++ [d]) := by
  peel h; exact ⟨_, _, _, .target_indented hi h ho ht hd⟩

theorem Forms.expression (h : Forms repl l o .target w) : Forms repl l o .expression w := by
  peel h; exact ⟨_, _, _, .expression h⟩

theorem Forms.assignment (h₁ : Forms repl l o₁ .target w₁) (ho : o₁.item) (ht : t.tokenType = .equal) (h₂ : Forms repl l o .expression w₂) :
    Forms repl l o .expression (w₁ ++ t :: w₂) := by
  peel h₁; peel h₂
  rename_i x₁ _ x₂
  by_cases h : ∃ x, Assigns x₂ t.loc x₁ x
  · obtain ⟨x, h⟩ := h
    exact ⟨_, _, _, .assignment h₁ ho ht h₂ h⟩
  · exact ⟨_, _, _, .assignment_fault h₁ ho ht h₂ fun x hx => h ⟨x, hx⟩⟩

theorem Forms.operand {p : Prec} (h : Forms repl l o p.next w) : Forms repl l o (.binary p) w := by
  peel h; exact ⟨_, _, _, .operand h⟩

theorem Forms.operator {p : Prec} {build : Expr → Expr → SourceLoc → Expr} (h₁ : Forms repl l o₁ (.binary p) w₁) (ho : o₁.whole)
    (ht : p.node t.tokenType = some build) (h₂ : Forms repl l o p.next w₂) : Forms repl l o (.binary p) (w₁ ++ t :: w₂) := by
  peel h₁; peel h₂; exact ⟨_, _, _, .operator h₁ ho ht h₂⟩

theorem Forms.call (h : Forms repl l o .call w) : Forms repl l o.unary .unary w := by
  peel h; exact ⟨_, _, _, .call h⟩

theorem Forms.prefix {op : UnaryOperator} (ht : prefixNode t.tokenType = some op) (h : Forms repl l o .unary w) : Forms repl l o .unary (t :: w) := by
  peel h; exact ⟨_, _, _, .prefix ht h⟩

theorem Forms.primary (h : Forms repl l o .primary w) : Forms repl l o .call w := by
  peel h; exact ⟨_, _, _, .primary h⟩

theorem Forms.property {d i : Token} (h : Forms repl l o .call w) (ho : o.whole) (hd : d.tokenType = .dot) (hi : i.tokenType = .identifier) :
    Forms repl l .closed .call (w ++ [d, i]) := by
  peel h; exact ⟨_, _, _, .property h ho hd hi⟩

theorem Forms.call_empty (h : Forms repl l o .call w) (ho : o.whole) (hb : b.tokenType = .leftParenAbutting) (hc : c.tokenType = .rightParen) :
    Forms repl l .closed .call (w ++ [b, c]) := by
  peel h; exact ⟨_, _, _, .call_empty h ho hb hc⟩

theorem Forms.call_args (h : Forms repl l o₁ .call w) (ho : o₁.whole) (hb : b.tokenType = .leftParenAbutting)
    (h' : Forms repl l o .arguments w') (ho' : o ≠ .brace) (hc : c.tokenType = .rightParen) :
    Forms repl l .closed .call (w ++ b :: w' ++ [c]) := by
  peel h; peel h'; exact ⟨_, _, _, .call_args h ho hb h' ho' hc⟩

theorem Forms.call_bare (h : Forms repl l o₁ .call w) (ho : o₁.whole) (ht : startsArgument t.tokenType)
    (hk : o₁ = .comma → ¬ KeyColon (t :: w')) (h' : Forms repl l o .arguments (t :: w')) : Forms repl l o.bare .call (w ++ t :: w') := by
  peel h; peel h'; exact ⟨_, _, _, .call_bare h ho ht hk h'⟩

theorem Forms.index (h : Forms repl l o₁ .call w) (ho : o₁.whole) (hb : b.tokenType = .leftBracket)
    (h' : Forms repl l o .expression w') (ho' : o ≠ .brace) (hc : c.tokenType = .rightBracket) :
    Forms repl l .closed .call (w ++ b :: w' ++ [c]) := by
  peel h; peel h'; exact ⟨_, _, _, .index h ho hb h' ho' hc⟩

/-- Arguments after at most 255 others. -/
theorem Forms.arguments {xs : List Expr} (h : Plain repl l .closed false .before w (.exprs xs)) (hn : xs.length ≤ 255)
    (h' : Forms repl l o .expression w') : Forms repl l o .arguments (w ++ w') := by
  have hf := h'.first
  peel h'
  rcases Nat.lt_or_eq_of_le hn with hn | hn
  · exact ⟨_, _, _, .arguments (plain_loose h) hn h'⟩
  · obtain ⟨t, r, rfl, -⟩ := hf
    exact ⟨_, _, _, .arguments_fault (plain_loose h) hn (.arguments .before_nil (by decide) h')⟩

theorem Forms.entries {k : Str} (h : Forms repl l o₁ .entriesBefore w) (ht : IsKey t k) (hc : c.tokenType = .colon)
    (h' : Forms repl l o .expression w') : Forms repl l o .entries (w ++ t :: c :: w') := by
  peel h; peel h'; exact ⟨_, _, _, .entries h ht hc h'⟩

theorem Forms.map_bare (h : Forms repl l o .entries w) : Forms repl l o.bareMap .primary w := by
  peel h; exact ⟨_, _, _, .map_bare h⟩

theorem Forms.map_open (h : Forms repl l o .entriesBefore w) (ho : o ≠ .closed) : Forms repl l o .primary w := by
  peel h; exact ⟨_, _, _, .map_open h ho⟩

theorem Forms.map_braces (hb : b.tokenType = .leftBrace) (h : Forms repl l o .entries w) (hc : c.tokenType = .rightBrace) :
    Forms repl l .closed .primary (b :: w ++ [c]) := by
  peel h; exact ⟨_, _, _, .map_braces hb h hc⟩

theorem Forms.map_trailing (hb : b.tokenType = .leftBrace) (h : Forms repl l o .entriesBefore w) (hc : c.tokenType = .rightBrace) :
    Forms repl l .closed .primary (b :: w ++ [c]) := by
  peel h; exact ⟨_, _, _, .map_trailing hb h hc⟩

theorem Forms.function_literal (ht : t.tokenType = .fun) (h : Forms repl l .closed (.function t.loc) w) :
    Forms repl l .closed .primary (t :: w) := by
  peel h; exact ⟨_, _, _, .function_literal ht h⟩

theorem Forms.grouping (hb : IsParen b) (h : Forms repl l o .expression w) (ho : o ≠ .brace) (hc : c.tokenType = .rightParen) :
    Forms repl l .closed .primary (b :: w ++ [c]) := by
  peel h; exact ⟨_, _, _, .grouping hb h ho hc⟩

theorem Forms.array (hb : b.tokenType = .leftBracket) (h : Forms repl l .closed .before w) (h' : Forms repl l o .expression w')
    (ho : o ≠ .brace) (hc : c.tokenType = .rightBracket) : Forms repl l .closed .primary (b :: w ++ w' ++ [c]) := by
  peel h; peel h'; exact ⟨_, _, _, .array hb h h' ho hc⟩

theorem Forms.array_trailing (hb : b.tokenType = .leftBracket) (h : Forms repl l .closed .before w) (hc : c.tokenType = .rightBracket) :
    Forms repl l .closed .primary (b :: w ++ [c]) := by
  peel h; exact ⟨_, _, _, .array_trailing hb h hc⟩

theorem Forms.variable (ht : t.tokenType = .identifier) : Forms repl l .closed .primary [t] := ⟨_, _, _, .variable (.inl ht)⟩

theorem Forms.super {d i : Token} (ht : t.tokenType = .super) (hd : d.tokenType = .dot) (hi : i.tokenType = .identifier) :
    Forms repl l .closed .primary [t, d, i] := ⟨_, _, _, .super ht hd hi⟩

/-! ### Functions and classes -/

theorem Forms.function_empty {loc : SourceLoc} (hb : IsParen b) (hc : c.tokenType = .rightParen) (h : Forms repl l .closed .block w) :
    Forms repl l .closed (.function loc) (b :: c :: w) := by
  peel h; exact ⟨_, _, _, .function_empty hb hc h⟩

theorem Forms.function {loc : SourceLoc} (hb : IsParen b) (h : Forms repl l .closed .parametersBefore w₁) (ht : t.tokenType = .identifier)
    (hc : c.tokenType = .rightParen) (h' : Forms repl l .closed .block w) :
    Forms repl l .closed (.function loc) (b :: w₁ ++ t :: c :: w) := by
  peel h; peel h'; exact ⟨_, _, _, .function hb h ht hc h'⟩

theorem Forms.block_braces (hb : b.tokenType = .leftBrace) (h : Forms repl l o .declarations w) (ho : o ≠ .map) (ho' : o ≠ .unfinished)
    (hc : c.tokenType = .rightBrace) : Forms repl l .closed .block (b :: w ++ [c]) := by
  peel h; exact ⟨_, _, _, .block_braces hb h ho ho' hc⟩

theorem Forms.block_indented {i : Token} (ht : t.tokenType = .terminator) (hi : i.tokenType = .indent) (h : Forms repl l o .declarations w)
    (ho : o ≠ .brace) (ho' : o ≠ .unfinished) (hc : c.tokenType = .outdent) : Forms repl l .closed .block (t :: i :: w ++ [c]) := by
  peel h; exact ⟨_, _, _, .block_indented ht hi h ho ho' hc⟩

theorem Forms.named (ht : t.tokenType = .identifier) (h : Forms repl l .closed (.function t.loc) w) :
    Forms repl l .closed .named (t :: w) := by
  peel h; exact ⟨_, _, _, .named ht h⟩

theorem Forms.method (h : Forms repl l .closed .methods w) (h' : Forms repl l .closed .named w') :
    Forms repl l .closed .methods (w ++ w') := by
  peel h; peel h'
  rename_i f
  obtain ⟨nm, ⟨ps, body, kd, loc⟩⟩ := f
  exact ⟨_, _, _, .method h h'⟩

theorem Forms.class_method (h : Forms repl l .closed .methods w) (ht : t.tokenType = .class) (h' : Forms repl l .closed .named w') :
    Forms repl l .closed .methods (w ++ t :: w') := by
  peel h; peel h'
  rename_i f
  obtain ⟨nm, ⟨ps, body, kd, loc⟩⟩ := f
  exact ⟨_, _, _, .class_method h ht h'⟩

/-- The tokens before a block and the token after it. -/
theorem Forms.class {n : Token} {endBlock : TokenType} {wb wc : List Token} (ht : t.tokenType = .class) (hn : n.tokenType = .identifier)
    (hs : wc = [] ∨ ∃ lt s, lt.tokenType = .less ∧ s.tokenType = .identifier ∧ wc = [lt, s])
    (hb : BlockTokens wb endBlock) (h : Forms repl l .closed .methods w) (hc : c.tokenType = endBlock) :
    Forms repl l .closed .declaration (t :: n :: wc ++ wb ++ w ++ [c]) := by
  peel h
  rcases hb with ⟨o, ho, rfl, rfl⟩ | ⟨t', i, ht', hi, rfl, rfl⟩ <;>
    rcases hs with rfl | ⟨lt, s, hlt, hs, rfl⟩
  · exact ⟨_, _, _, by simpa using Loose.class_braces ht hn ho h hc⟩
  · exact ⟨_, _, _, by simpa using Loose.subclass_braces ht hn hlt hs ho h hc⟩
  · exact ⟨_, _, _, by simpa using Loose.class_indented ht hn ht' hi h hc⟩
  · exact ⟨_, _, _, by simpa using Loose.subclass_indented ht hn hlt hs ht' hi h hc⟩

/-! ### Declarations and statements -/

theorem Forms.declarations (h : Forms repl l o .declarations w) (h' : Forms repl l o' .declaration w') (hp : o.Precedes w') :
    Forms repl l o' .declarations (w ++ w') := by
  peel h; peel h'; exact ⟨_, _, _, .declarations h h' hp⟩

theorem Forms.declaration (h : Forms repl l o .statement w) : Forms repl l o .declaration w := by
  peel h; exact ⟨_, _, _, .declaration h⟩

theorem Forms.fun_decl (ht : t.tokenType = .fun) (h : Forms repl l .closed .named w) : Forms repl l .closed .declaration (t :: w) := by
  peel h; exact ⟨_, _, _, .fun_decl ht h⟩

theorem Forms.var {n term : Token} (ht : t.tokenType = .var) (hn : n.tokenType = .identifier) (hterm : term.tokenType = .terminator) :
    Forms repl l .closed .declaration [t, n, term] := ⟨_, _, _, .var ht hn hterm⟩

theorem Forms.var_init {n q term' : Token} {term : List Token} (ht : t.tokenType = .var) (hn : n.tokenType = .identifier)
    (hq : q.tokenType = .equal) (hterm : Optional .terminator term) (h : Forms repl l o .expression w) (ho : o ≠ .brace)
    (ht' : term'.tokenType = .terminator) : Forms repl l o.line .declaration (t :: n :: q :: term ++ w ++ [term']) := by
  peel h; exact ⟨_, _, _, .var_init ht hn hq hterm h ho ht'⟩

theorem Forms.var_open {n q h₀ : Token} {term : List Token} (ht : t.tokenType = .var) (hn : n.tokenType = .identifier)
    (hq : q.tokenType = .equal) (hterm : Optional .terminator term) (h : Forms repl l o .expression (h₀ :: w))
    (hh : h₀.tokenType = .indent ∨ h₀.tokenType = .leftBrace) : Forms repl l o.opened .declaration (t :: n :: q :: term ++ h₀ :: w) := by
  peel h; exact ⟨_, _, _, .var_open ht hn hq hterm h hh⟩

theorem Forms.expression_statement {h₀ term : Token} (h : Forms repl l o .expression (h₀ :: w)) (hh : h₀.tokenType ≠ .leftBrace)
    (ho : o ≠ .brace) (hterm : term.tokenType = .terminator) : Forms repl l o.line .statement (h₀ :: w ++ [term]) := by
  peel h; exact ⟨_, _, _, .expression_statement h hh ho hterm⟩

theorem Forms.break {term : Token} (ht : t.tokenType = .break) (hterm : term.tokenType = .terminator) :
    Forms repl l .closed .statement [t, term] := by
  cases l
  · exact ⟨_, _, _, .break_fault ht hterm⟩
  · exact ⟨_, _, _, .break ht hterm⟩

theorem Forms.continue {term : Token} (ht : t.tokenType = .continue) (hterm : term.tokenType = .terminator) :
    Forms repl l .closed .statement [t, term] := by
  cases l
  · exact ⟨_, _, _, .continue_fault ht hterm⟩
  · exact ⟨_, _, _, .continue ht hterm⟩

theorem Forms.print {term : Token} (ht : t.tokenType = .print) (h : Forms repl l o .expression w) (ho : o ≠ .brace)
    (hterm : term.tokenType = .terminator) : Forms repl l o.line .statement (t :: w ++ [term]) := by
  peel h; exact ⟨_, _, _, .print ht h ho hterm⟩

theorem Forms.return_nil {term : Token} (ht : t.tokenType = .return) (hterm : term.tokenType = .terminator) :
    Forms repl l .closed .statement [t, term] := ⟨_, _, _, .return_nil ht hterm⟩

theorem Forms.return {term : Token} (ht : t.tokenType = .return) (h : Forms repl l o .expression w) (ho : o ≠ .brace)
    (hterm : term.tokenType = .terminator) : Forms repl l o.line .statement (t :: w ++ [term]) := by
  peel h; exact ⟨_, _, _, .return ht h ho hterm⟩

theorem Forms.braces (hb : b.tokenType = .leftBrace) (h : Forms repl l o .declarations w) (ho : o ≠ .map) (ho' : o ≠ .unfinished)
    (hc : c.tokenType = .rightBrace) : Forms repl l .closed .statement (b :: w ++ [c]) := by
  peel h; exact ⟨_, _, _, .braces hb h ho ho' hc⟩

theorem Forms.if (ht : t.tokenType = .if) (hb : IsParen b) (h : Forms repl l o' .expression w₁) (ho : o' ≠ .brace)
    (hc : c.tokenType = .rightParen) (h' : Forms repl l o .body w₂) : Forms repl l o .statement (t :: b :: w₁ ++ c :: w₂) := by
  peel h; peel h'; exact ⟨_, _, _, .if ht hb h ho hc h'⟩

theorem Forms.if_else {el : Token} {x : Tree} (ht : t.tokenType = .if) (hb : IsParen b) (h : Forms repl l o' .expression w₁) (ho : o' ≠ .brace)
    (hc : c.tokenType = .rightParen) (h' : Plain repl l o₁ false .body w₂ x) (h1 : o₁ ≠ .brace) (h2 : o₁ ≠ .unfinished)
    (he : el.tokenType = .else) (h'' : Forms repl l o .statement w₃) :
    Forms repl l o .statement (t :: b :: w₁ ++ c :: w₂ ++ el :: w₃) := by
  peel h; peel h''
  have h' := plain_loose h'
  obtain ⟨s, rfl⟩ := (loose_shape h' : ∃ s, x = .stmt s)
  exact ⟨_, _, _, .if_else ht hb h ho hc h' h1 h2 he h''⟩

theorem Forms.while (ht : t.tokenType = .while) (hb : IsParen b) (h : Forms repl l o' .expression w₁) (ho : o' ≠ .brace)
    (hc : c.tokenType = .rightParen) (h' : Forms repl true o .body w₂) : Forms repl l o .statement (t :: b :: w₁ ++ c :: w₂) := by
  peel h; peel h'; exact ⟨_, _, _, .while ht hb h ho hc h'⟩

theorem Forms.for {w₀ : List Token} {semi : Token} (ht : t.tokenType = .for) (hb : IsParen b) (h : Forms repl l o' .forInit w₀)
    (h₁ : Forms repl l .closed .forCondition w₁) (hk : o' = .map → ¬ KeyColon w₁) (hs : semi.tokenType = .semicolon)
    (h₂ : Forms repl l .closed .forIncrement w₂) (hc : c.tokenType = .rightParen) (h₃ : Forms repl true o .body w₃) :
    Forms repl l o .statement (t :: b :: w₀ ++ w₁ ++ semi :: w₂ ++ c :: w₃) := by
  peel h; peel h₁; peel h₂; peel h₃; exact ⟨_, _, _, .for ht hb h h₁ hk hs h₂ hc h₃⟩

theorem Forms.for_none {semi : Token} (hs : semi.tokenType = .semicolon) : Forms repl l .closed .forInit [semi] := ⟨_, _, _, .for_none hs⟩

theorem Forms.for_var {n semi : Token} (ht : t.tokenType = .var) (hn : n.tokenType = .identifier) (hs : semi.tokenType = .semicolon) :
    Forms repl l .closed .forInit [t, n, semi] := ⟨_, _, _, .for_var ht hn hs⟩

theorem Forms.for_var_init {n q semi : Token} {term : List Token} (ht : t.tokenType = .var) (hn : n.tokenType = .identifier)
    (hq : q.tokenType = .equal) (hterm : Optional .terminator term) (h : Forms repl l o .expression w) (ho : o ≠ .brace)
    (hs : semi.tokenType = .semicolon) : Forms repl l .closed .forInit (t :: n :: q :: term ++ w ++ [semi]) := by
  peel h; exact ⟨_, _, _, .for_var_init ht hn hq hterm h ho hs⟩

theorem Forms.for_expression {term : Token} (h : Forms repl l o .expression w) (ho : o ≠ .brace) (hterm : term.tokenType = .terminator) :
    Forms repl l o.line .forInit (w ++ [term]) := by
  peel h; exact ⟨_, _, _, .for_expression h ho hterm⟩

theorem Forms.condition_none : Forms repl l .closed .forCondition [] := ⟨_, _, _, .condition_none⟩

theorem Forms.condition (h : Forms repl l o .expression w) (ho : o ≠ .brace) : Forms repl l .closed .forCondition w := by
  peel h; exact ⟨_, _, _, .condition h ho⟩

theorem Forms.increment_none : Forms repl l .closed .forIncrement [] := ⟨_, _, _, .increment_none⟩

theorem Forms.increment (h : Forms repl l o .expression w) (ho : o ≠ .brace) : Forms repl l .closed .forIncrement w := by
  peel h; exact ⟨_, _, _, .increment h ho⟩

theorem Forms.body_block (h : Forms repl l .closed .block w) : Forms repl l .closed .body w := by
  peel h; exact ⟨_, _, _, .body_block h⟩

theorem Forms.body {h₀ : Token} (h : Forms repl l o .statement (h₀ :: w)) (hh : h₀.tokenType ≠ .leftBrace) : Forms repl l o .body (h₀ :: w) := by
  peel h; exact ⟨_, _, _, .body h hh⟩

/-! ### Phrases that lack a `}` or a newline -/

/-- Tokens made up to complete a phrase. -/
def blank (tt : TokenType) : Token := ⟨tt, c!"x", none, none, 1, 1⟩

/-- Tokens that need no literal and no particular lexeme. -/
def Fills (w : List Token) : Prop :=
  ∀ t ∈ w, t.tokenType ≠ .eof ∧ t.tokenType ≠ .number ∧ t.tokenType ≠ .string ∧ t.tokenType ≠ .equal

theorem safe_nil : Fills [] := by intro t h; cases h

theorem Fills.append (h : Fills w) (h' : Fills w') : Fills (w ++ w') := by
  intro t ht
  rcases List.mem_append.1 ht with ht | ht
  · exact h t ht
  · exact h' t ht

theorem Forms.blank : Forms repl l .closed .expression [Ws.blank .identifier] :=
  .expression (.target (.operand (.operand (.operand (.operand (.operand (.operand (.call (.primary (.variable rfl))))))))))

/-- What completes a phrase that lacks a `}` or a newline. -/
structure Mended (repl l : Bool) (sym : Sym) (w w' : List Token) (o : Ends) : Prop where
  forms : Forms repl l o sym (w ++ w')
  good : o.Good
  safe : Fills w'
  colon : ∀ t r, w' = t :: r → t.tokenType ≠ .colon
  ne : w ≠ []

theorem Mended.cons (h : Mended repl l sym w w' o) {sym' : Sym} {l' : Bool} (hf : Forms repl l' o' sym' (u ++ (w ++ w'))) (ho : o'.Good) :
    Mended repl l' sym' (u ++ w) w' o' :=
  ⟨by simpa using hf, ho, h.safe, h.colon, by simp [h.ne]⟩

theorem tidy_target (h : o.Good) : o.target.Good := by
  revert h; cases o <;> simp [Ends.Good, Ends.target]

theorem tidy_unary (h : o.Good) : o.unary.Good := by
  revert h; cases o <;> simp [Ends.Good, Ends.unary]

theorem tidy_bare (h : o.Good) : o.bare.Good := by
  revert h; cases o <;> simp [Ends.Good, Ends.bare]

theorem tidy_bareMap (h : o.Good) : o.bareMap.Good := by
  revert h; cases o <;> simp [Ends.Good, Ends.bareMap]

/-- Whether tokens start like a map entry does not change with what completes them. -/
theorem keyColon_grow (hw : w ≠ []) (hc : ∀ t r, w' = t :: r → t.tokenType ≠ .colon) (h : KeyColon (w ++ w')) : KeyColon w := by
  obtain ⟨t, c, r, h1, h2, h3⟩ := h
  cases w with
  | nil => exact absurd rfl hw
  | cons a w =>
    cases w with
    | nil =>
      cases w' with
      | nil => simp at h1
      | cons b w' =>
        simp only [List.cons_append, List.nil_append, List.cons.injEq] at h1
        exact absurd (h1.2.1 ▸ h3) (hc b w' rfl)
    | cons b w =>
      simp only [List.cons_append, List.cons.injEq] at h1
      exact ⟨a, b, w, rfl, h1.1 ▸ h2, h1.2.1 ▸ h3⟩

theorem Mended.to (h : Mended repl l sym w w' o) {sym' : Sym} {l' : Bool} (hf : Forms repl l' o' sym' (v ++ w')) (ho : o'.Good) (hv : v ≠ []) :
    Mended repl l' sym' v w' o' :=
  ⟨hf, ho, h.safe, h.colon, hv⟩

theorem next_ne (p : Prec) : p.next ≠ .entriesBefore := by cases p <;> exact fun h => by cases h

theorem mend {e : Bool} {x : Tree} (h : Plain repl l o e sym w x) (ho : ¬ o.Good) (hs : sym ≠ .entriesBefore) :
    ∃ w' o', Mended repl l sym w w' o' := by
  induction h with
  | target_plain h ih =>
    obtain ⟨w', o', m⟩ := ih (mt tidy_target ho) (by decide)
    exact ⟨w', _, m.cons (u := []) m.forms.target (tidy_target m.good)⟩
  | expression h ih =>
    obtain ⟨w', o', m⟩ := ih ho (by decide)
    exact ⟨w', _, m.cons (u := []) m.forms.expression m.good⟩
  | assignment h₁ h1 h2 h₂ h3 _ ih =>
    obtain ⟨w', o', m⟩ := ih ho (by decide)
    exact ⟨w', _, m.to (by simpa using Forms.assignment (.of h₁) h1 h2 m.forms) m.good (by simp)⟩
  | operand h ih =>
    obtain ⟨w', o', m⟩ := ih ho (next_ne _)
    exact ⟨w', _, m.cons (u := []) m.forms.operand m.good⟩
  | operator h₁ h1 h2 h₂ _ ih =>
    obtain ⟨w', o', m⟩ := ih ho (next_ne _)
    exact ⟨w', _, m.to (by simpa using Forms.operator (.of h₁) h1 h2 m.forms) m.good (by simp)⟩
  | call h ih =>
    obtain ⟨w', o', m⟩ := ih (mt tidy_unary ho) (by decide)
    exact ⟨w', _, m.cons (u := []) m.forms.call (tidy_unary m.good)⟩
  | «prefix» ht h ih =>
    obtain ⟨w', o', m⟩ := ih ho (by decide)
    exact ⟨w', _, m.cons (u := [_]) (m.forms.prefix ht) m.good⟩
  | primary h ih =>
    obtain ⟨w', o', m⟩ := ih ho (by decide)
    exact ⟨w', _, m.cons (u := []) m.forms.primary m.good⟩
  | call_bare h₁ h1 h2 h3 h₂ _ ih =>
    obtain ⟨w', o', m⟩ := ih (mt tidy_bare ho) (by decide)
    exact ⟨w', _, m.cons (Forms.call_bare (.of h₁) h1 h2 (fun h hk => h3 h (keyColon_grow m.ne m.colon hk)) m.forms) (tidy_bare m.good)⟩
  | arguments h₁ h1 h₂ _ ih =>
    obtain ⟨w', o', m⟩ := ih ho (by decide)
    exact ⟨w', _, m.cons (Forms.arguments h₁ (by omega) m.forms) m.good⟩
  | entries h₁ h1 h2 h₂ h3 _ ih =>
    obtain ⟨w', o', m⟩ := ih ho (by decide)
    exact ⟨w', _, m.to (by simpa using Forms.entries (.of h₁) h1 h2 m.forms) m.good (by simp)⟩
  | map_bare h ih =>
    obtain ⟨w', o', m⟩ := ih (mt tidy_bareMap ho) (by decide)
    exact ⟨w', _, m.cons (u := []) m.forms.map_bare (tidy_bareMap m.good)⟩
  | map_open h h1 =>
    refine ⟨[Ws.blank .identifier, Ws.blank .colon, Ws.blank .identifier], .map,
      .map_bare (.entries (.of h) (.inl ⟨rfl, rfl⟩) rfl .blank), ⟨by decide, by decide⟩, ?_, ?_, ?_⟩
    · intro t ht
      simp only [List.mem_cons, List.not_mem_nil, or_false] at ht
      rcases ht with rfl | rfl | rfl <;> decide
    · rintro t r hr
      cases hr
      decide
    · rintro rfl
      exact h1 (entriesBefore_nil h)
  | declarations h₁ h₂ h1 _ ih =>
    obtain ⟨w', o', m⟩ := ih ho (by decide)
    refine ⟨w', _, m.cons (Forms.declarations (.of h₁) m.forms ⟨h1.1, h1.2.1, fun h hk => h1.2.2.1 h (keyColon_grow m.ne m.colon hk), ?_⟩) m.good⟩
    intro h t r hr
    obtain ⟨t', r', h2, -⟩ := (plain_first h₂ : DeclHead _ _)
    subst h2
    cases hr
    exact h1.2.2.2 h _ _ rfl
  | declaration h ih =>
    obtain ⟨w', o', m⟩ := ih ho (by decide)
    exact ⟨w', _, m.cons (u := []) m.forms.declaration m.good⟩
  | var_open h1 h2 h3 h4 h h5 ih =>
    obtain ⟨w', o', m⟩ := ih (fun h => ho (tidy_opened h.1)) (by decide)
    exact ⟨w', _, m.cons (Forms.var_open h1 h2 h3 h4 m.forms h5) (tidy_opened m.good.1)⟩
  | expression_last h h1 h2 h3 =>
    refine ⟨[Ws.blank .terminator], _, .expression_statement (.of h) h1 h2 rfl, tidy_line _, ?_, ?_, by simp⟩
    · intro t ht
      simp only [List.mem_cons, List.not_mem_nil, or_false] at ht
      subst ht; decide
    · rintro t r hr
      cases hr
      decide
  | «if» h1 h2 h₁ h3 h4 h₂ _ ih =>
    obtain ⟨w', o', m⟩ := ih ho (by decide)
    exact ⟨w', _, m.to (by simpa using Forms.if h1 h2 (.of h₁) h3 h4 m.forms) m.good (by simp)⟩
  | if_else h1 h2 h₁ h3 h4 h₂ h5 h6 h7 h₃ _ _ ih =>
    obtain ⟨w', o', m⟩ := ih ho (by decide)
    exact ⟨w', _, m.to (by simpa using Forms.if_else h1 h2 (.of h₁) h3 h4 h₂ h5 h6 h7 m.forms) m.good (by simp)⟩
  | «while» h1 h2 h₁ h3 h4 h₂ _ ih =>
    obtain ⟨w', o', m⟩ := ih ho (by decide)
    exact ⟨w', _, m.to (by simpa using Forms.while h1 h2 (.of h₁) h3 h4 m.forms) m.good (by simp)⟩
  | «for» h1 h2 h₁ h₂ h3 h4 h₃ h5 h₄ _ _ _ ih =>
    obtain ⟨w', o', m⟩ := ih ho (by decide)
    exact ⟨w', _, m.to (by simpa using Forms.for h1 h2 (.of h₁) (.of h₂) h3 h4 (.of h₃) h5 m.forms) m.good (by simp)⟩
  | body h h1 ih =>
    obtain ⟨w', o', m⟩ := ih ho (by decide)
    exact ⟨w', _, m.cons (u := []) (Forms.body m.forms h1) m.good⟩
  | entries_nil | entries_comma | entries_line => exact absurd rfl hs
  | var_init | expression_statement | print | «return» | for_expression => exact absurd (tidy_line _) ho
  | _ => exact absurd ⟨by decide, by decide⟩ ho

/-- What was parsed can be completed. -/
theorem completes {e : Bool} {x : Tree} (h : Plain repl l o e sym w x) (hs : sym ≠ .entriesBefore) :
    ∃ w' o', Forms repl l o' sym (w ++ w') ∧ o'.Good ∧ Fills w' ∧ (KeyColon (w ++ w') → KeyColon w) := by
  by_cases ho : o.Good
  · exact ⟨[], o, by simpa using Forms.of h, ho, safe_nil, by simp⟩
  · obtain ⟨w', o', m⟩ := mend h ho hs
    exact ⟨w', o', m.forms, m.good, m.safe, keyColon_grow m.ne m.colon⟩

end Ws
