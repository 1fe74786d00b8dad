import Verif.Proofs.Parse.Grammar
import Verif.Proofs.Parse.All
import Verif.Spec.Nesting
/-! Properties of the token lists derived by the grammar. -/
namespace Ws
open Spec

variable {repl l : Bool} {nt : NT} {w : List Token} {v : Tree}

/-! ### Nesting -/

theorem nest_append (st : List TokenType) (u v : List Token) : nest st (u ++ v) = (nest st u).bind (nest · v) := by
  induction u generalizing st with
  | nil => rfl
  | cons t u ih =>
    simp only [List.cons_append, nest]
    split
    · exact ih _
    · split
      · split
        · rfl
        · split
          · exact ih _
          · rfl
      · exact ih _

/-- Adding closers below. -/
theorem nest_below {st st' r : List TokenType} {u : List Token} (h : nest st u = some r) : nest (st ++ st') u = some (r ++ st') := by
  induction u generalizing st with
  | nil => simp [nest] at h ⊢; rw [h]
  | cons t u ih =>
    simp only [nest] at h ⊢
    split at h
    · exact ih (st := _ :: st) h
    · split at h
      · rename_i hcl
        rw [if_pos hcl]
        cases st with
        | nil => cases h
        | cons c st =>
          simp only [List.cons_append] at h ⊢
          split at h
          · rename_i e; rw [if_pos e]; exact ih h
          · cases h
      · rename_i hcl
        rw [if_neg hcl]
        exact ih h

/-- A token that neither opens nor closes. -/
def Flat (t : Token) : Prop := closer t.tokenType = none ∧ isCloser t.tokenType = false

theorem nest_flat {st : List TokenType} {t : Token} {u : List Token} (h : Flat t) : nest st (t :: u) = nest st u := by
  simp [nest, h.1, h.2]

theorem nest_open {st : List TokenType} {t : Token} {u : List Token} {c} (h : closer t.tokenType = some c) :
    nest st (t :: u) = nest (c :: st) u := by
  simp [nest, h]

theorem nest_close {st : List TokenType} {t : Token} {u : List Token} (h : isCloser t.tokenType = true) :
    nest (t.tokenType :: st) (t :: u) = nest st u := by
  have : closer t.tokenType = none := by cases ht : t.tokenType <;> simp_all [isCloser, closer]
  simp [nest, h, this]

theorem flat_of {t : Token} {k : TokenType} (h : t.tokenType = k) (hk : closer k = none ∧ isCloser k = false) : Flat t := by
  unfold Flat; rw [h]; exact hk

theorem flat_key {t : Token} {k : Str} (h : IsKey t k) : Flat t := by
  rcases h with h | h <;> exact flat_of h.1 (by decide)

theorem flat_node {p : Prec} {t : Token} {b} (h : p.node t.tokenType = some b) : Flat t := by
  unfold Flat
  cases p <;> cases ht : t.tokenType <;> rw [ht] at h <;> first | (cases h; done) | decide

theorem flat_prefix {t : Token} {b} (h : prefixNode t.tokenType = some b) : Flat t := by
  unfold Flat
  cases ht : t.tokenType <;> rw [ht] at h <;> first | (cases h; done) | decide

theorem nest_optional {tt : TokenType} {w : List Token} (h : Optional tt w) (hf : closer tt = none ∧ isCloser tt = false)
    (st : List TokenType) : nest st w = some st := by
  rcases h with rfl | ⟨t, ht, rfl⟩
  · rfl
  · rw [nest_flat (flat_of ht hf)]; rfl

theorem nest_separator {w : List Token} (h : OptionalSeparator w) (st : List TokenType) : nest st w = some st := by
  rcases h with rfl | ⟨t, ht, rfl⟩
  · rfl
  · rw [nest_flat (by rcases ht with h | h <;> exact flat_of h (by decide))]; rfl

theorem flat_separator {t : Token} (h : IsSeparator t) : Flat t := by
  rcases h with h | h <;> exact flat_of h (by decide)

theorem closer_paren {t : Token} (h : IsParen t) : closer t.tokenType = some .rightParen := by
  rcases h with h | h <;> rw [h] <;> rfl

theorem nest_nil (st : List TokenType) : nest st [] = some st := rfl

theorem nest_flat' {st : List TokenType} {t : Token} {u : List Token} (h : closer t.tokenType = none) (h' : isCloser t.tokenType = false) :
    nest st (t :: u) = nest st u := nest_flat ⟨h, h'⟩

theorem nest_close' {st : List TokenType} {t : Token} {u : List Token} {c} (h : isCloser t.tokenType = true) (hc : t.tokenType = c) :
    nest (c :: st) (t :: u) = nest st u := by rw [← hc]; exact nest_close h

theorem grammar_nest (h : Grammar repl l nt w v) : ∀ st, nest st w = some st := by
  induction h
  case operator h1 h2 h3 ih1 ih2 => intro st; simp [nest_append, ih1, nest_flat (flat_node h2), ih2]
  case «prefix» h1 h2 ih => intro st; simp [nest_flat (flat_prefix h1), ih]
  case call_bare h1 h2 h3 ih1 ih2 => intro st; simp only [nest_append, ih1, ih2, Option.bind_some]
  case entry h1 h2 h3 ih => intro st; simp [nest_flat (flat_key h1), nest_flat (flat_of h2 (by decide)), ih]
  case entries h1 h2 h3 h4 h5 h6 ih1 ih2 =>
    intro st
    simp [nest_append, ih1, ih2, nest_flat (flat_key h3), nest_flat (flat_of h4 (by decide)), nest_flat (flat_separator h2)]
  case «variable» h => intro st; rcases h with h | h <;> rw [nest_flat (flat_of h (by decide))] <;> rfl
  case var_init h1 h2 h3 h4 h5 h6 h7 ih =>
    intro st
    have a := nest_optional h4 (by decide)
    have b := nest_optional h6 (by decide)
    simp only [List.cons_append]
    rw [nest_flat (flat_of h1 (by decide)), nest_flat (flat_of h2 (by decide)), nest_flat (flat_of h3 (by decide)),
      List.append_assoc, nest_append, a, Option.bind_some, nest_append, ih, Option.bind_some, b]
  case expression_statement h1 h2 h3 ih =>
    intro st
    rw [nest_append, ih, Option.bind_some, nest_flat (flat_of h3 (by decide))]; rfl
  all_goals intro st
  all_goals try assumption
  all_goals try (have hS := nest_separator ‹_›)
  all_goals try (have hO := nest_optional (tt := .comma) ‹_› (by decide))
  all_goals try (have hT := nest_optional (tt := .terminator) ‹_› (by decide))
  all_goals try (have hI := closer_paren ‹_›)
  all_goals simp_all [nest_append, closer, isCloser, nest_nil, nest_flat', nest_close', nest_open]

/-! ### First tokens -/

/-- The tokens that start an expression. -/
def exprFirst : List TokenType :=
  [.indent, .bang, .minus, .false, .true, .nil, .number, .string, .identifier, .this, .leftBrace, .fun,
    .leftParen, .leftParenAbutting, .leftBracket, .super]

/-- The tokens that start a statement. -/
def stmtFirst : List TokenType := exprFirst ++ [.break, .continue, .print, .return, .if, .while, .for]

/-- The tokens that start a nonterminal. -/
def first : NT → List TokenType
  | .statement => stmtFirst
  | .declaration | .declarations => stmtFirst ++ [.class, .var]
  | .block => [.leftBrace, .terminator]
  | .body => stmtFirst ++ [.terminator]
  | .parameters | .named => [.identifier]
  | .function _ => [.leftParen, .leftParenAbutting]
  | .methods => [.identifier, .class]
  | .forInit => exprFirst ++ [.semicolon, .var]
  | _ => exprFirst

/-- The nonterminals that derive the empty list. -/
def nullable : NT → Bool
  | .declarations | .methods | .forCondition | .forIncrement => true
  | _ => false

/-- The first token of a derived list. -/
def Starts (nt : NT) (w : List Token) : Prop :=
  (w = [] ∧ nullable nt = true) ∨ ∃ t w', w = t :: w' ∧ t.tokenType ∈ first nt

theorem starts_cons {nt : NT} {t : Token} {w : List Token} : Starts nt (t :: w) ↔ t.tokenType ∈ first nt := by
  simp [Starts]

theorem starts_append {nt nt' : NT} {u : List Token} (h : Starts nt u) (hn : nullable nt = false)
    (hs : first nt ⊆ first nt') (v : List Token) : Starts nt' (u ++ v) := by
  rcases h with h | ⟨t, w', rfl, ht⟩
  · rw [hn] at h; simp at h
  · exact .inr ⟨t, w' ++ v, rfl, hs ht⟩

theorem starts_mono {nt nt' : NT} {u : List Token} (h : Starts nt u) (hn : nullable nt = true → nullable nt' = true)
    (hs : first nt ⊆ first nt') : Starts nt' u := by
  rcases h with h | ⟨t, w', rfl, ht⟩
  · exact .inl ⟨h.1, hn h.2⟩
  · exact .inr ⟨t, w', rfl, hs ht⟩

theorem starts_nullable_append {nt nt' nt'' : NT} {u v : List Token} (h : Starts nt u) (h' : Starts nt' v)
    (hn : nullable nt' = true → nullable nt'' = true)
    (hs : first nt ⊆ first nt'') (hs' : first nt' ⊆ first nt'') : Starts nt'' (u ++ v) := by
  rcases h with h | ⟨t, w', rfl, ht⟩
  · rw [h.1]; exact starts_mono h' hn hs'
  · exact .inr ⟨t, w' ++ v, rfl, hs ht⟩

theorem above_first (p : Prec) : first p.above = exprFirst ∧ nullable p.above = false := by cases p <;> exact ⟨rfl, rfl⟩

theorem grammar_first (h : Grammar repl l nt w v) : Starts nt w := by
  induction h
  case operand p _ _ _ ih => exact starts_mono ih (by simp [above_first]) (by rw [(above_first p).1]; exact fun _ h => h)
  case operator ih1 ih2 => exact starts_append ih1 rfl (fun _ h => h) _
  case «prefix» h1 h2 ih =>
    rw [starts_cons]
    revert h1
    generalize Token.tokenType _ = k
    cases k <;> simp [prefixNode, first, exprFirst]
  case entry h1 h2 h3 ih => rw [starts_cons]; rcases h1 with h | h <;> rw [h.1] <;> decide
  case «variable» h => rw [starts_cons]; rcases h with h | h <;> rw [h] <;> decide
  case function_empty h _ _ _ => rw [starts_cons]; rcases h with h | h <;> rw [h] <;> simp [first]
  case function h _ _ _ _ _ => rw [List.cons_append, starts_cons]; rcases h with h | h <;> rw [h] <;> simp [first]
  case grouping h _ _ _ => rw [List.cons_append, starts_cons]; rcases h with h | h <;> rw [h] <;> simp [first, exprFirst]
  case method h1 h2 => exact starts_nullable_append h1 h2 (fun _ => rfl) (fun _ h => h) (by decide)
  case class_method h1 h2 =>
    exact starts_nullable_append (nt' := .methods) h1 (by rw [starts_cons]; simp_all [first]) (fun _ => rfl) (fun _ h => h) (by decide)
  case declarations h1 h2 => exact starts_nullable_append h1 h2 (fun _ => rfl) (fun _ h => h) (by decide)
  case condition_none => exact .inl ⟨rfl, rfl⟩
  case increment_none => exact .inl ⟨rfl, rfl⟩
  case methods_nil => exact .inl ⟨rfl, rfl⟩
  case declarations_nil => exact .inl ⟨rfl, rfl⟩
  all_goals first
    | (simp only [starts_cons, List.cons_append]; simp_all [first, exprFirst, stmtFirst]; done)
    | (exact starts_append ‹_› rfl (by decide) _)
    | (exact starts_mono ‹_› (by decide) (by decide))
    | (simp only [List.append_assoc]; exact starts_append ‹_› rfl (by decide) _)

theorem first_ne (h : Grammar repl l nt (t :: w) v) {k : TokenType} (hk : k ∉ first nt) : t.tokenType ≠ k := by
  rintro rfl
  exact hk (starts_cons.1 (grammar_first h))

/-! ### `else` -/

/-- No `else` is directly followed by a newline, and the last token is not `else`. -/
def NoElse : List Token → Prop
  | [] => True
  | [t] => t.tokenType ≠ .else
  | t :: u :: w => (t.tokenType = .else → u.tokenType ≠ .terminator) ∧ NoElse (u :: w)

theorem noElse_cons {t : Token} (h : t.tokenType ≠ .else) {w : List Token} (hw : NoElse w) : NoElse (t :: w) := by
  cases w with
  | nil => exact h
  | cons u w => exact ⟨fun e => absurd e h, hw⟩

theorem noElse_append {u w : List Token} (hu : NoElse u) (hw : NoElse w) : NoElse (u ++ w) := by
  match u with
  | [] => exact hw
  | [t] => exact noElse_cons hu hw
  | t :: u :: v => exact ⟨hu.1, noElse_append (u := u :: v) hu.2 hw⟩

theorem noElse_not {w : List Token} (h : NoElse w) : ∀ a t u b, w = a ++ t :: u :: b → t.tokenType = .else → u.tokenType ≠ .terminator := by
  rintro a t u b rfl
  induction a with
  | nil => exact h.1
  | cons x a ih =>
    refine ih ?_
    cases a with
    | nil => exact h.2
    | cons y a => exact h.2

/-- Splits a derived list into its pieces. -/
local macro "pieces" app:ident cons:ident nil:ident : tactic => `(tactic| (
  repeat' first
    | exact $nil
    | assumption
    | apply $app
    | apply $cons))

theorem notElse_node {p : Prec} {t : Token} {b} (h : p.node t.tokenType = some b) {k : TokenType}
    (hk : k ∉ [TokenType.or, .and, .equalEqual, .bangEqual, .less, .lessEqual, .greater, .greaterEqual, .plus, .minus, .star, .slash]) :
    t.tokenType ≠ k := by
  rintro rfl
  cases p <;> cases ht : t.tokenType <;> rw [ht] at h hk <;> first | (cases h; done) | (exact hk (by decide))

theorem notElse_prefix {t : Token} {b} (h : prefixNode t.tokenType = some b) {k : TokenType}
    (hk : k ∉ [TokenType.bang, .minus]) : t.tokenType ≠ k := by
  rintro rfl
  cases ht : t.tokenType <;> rw [ht] at h hk <;> first | (cases h; done) | (exact hk (by decide))

theorem notElse_key {t : Token} {k' : Str} (h : IsKey t k') {k : TokenType} (hk : k ∉ [TokenType.identifier, .string]) :
    t.tokenType ≠ k := by
  rintro rfl
  rcases h with h | h <;> rw [h.1] at hk <;> exact hk (by decide)

theorem notElse_paren {t : Token} (h : IsParen t) {k : TokenType} (hk : k ∉ [TokenType.leftParen, .leftParenAbutting]) :
    t.tokenType ≠ k := by
  rintro rfl
  rcases h with h | h <;> rw [h] at hk <;> exact hk (by decide)

theorem notElse_separator {t : Token} (h : IsSeparator t) {k : TokenType} (hk : k ∉ [TokenType.comma, .terminator]) :
    t.tokenType ≠ k := by
  rintro rfl
  rcases h with h | h <;> rw [h] at hk <;> exact hk (by decide)

theorem notElse_variable {t : Token} (h : t.tokenType = .identifier ∨ t.tokenType = .this) {k : TokenType}
    (hk : k ∉ [TokenType.identifier, .this]) : t.tokenType ≠ k := by
  rintro rfl
  rcases h with h | h <;> rw [h] at hk <;> exact hk (by decide)

theorem notElse_of {t : Token} {k' : TokenType} (h : t.tokenType = k') {k : TokenType} (hk : k' ≠ k) : t.tokenType ≠ k := by
  rw [h]; exact hk

/-- A token whose type is known is not of another type. -/
local macro "other" : tactic => `(tactic| first
  | exact notElse_of ‹_› (by decide)
  | exact notElse_node ‹_› (by decide)
  | exact notElse_prefix ‹_› (by decide)
  | exact notElse_key ‹_› (by decide)
  | exact notElse_paren ‹_› (by decide)
  | exact notElse_separator ‹_› (by decide)
  | exact notElse_variable ‹_› (by decide))

theorem noElse_optional {tt : TokenType} {w : List Token} (h : Optional tt w) (hf : tt ≠ .else) : NoElse w := by
  rcases h with rfl | ⟨t, ht, rfl⟩
  · exact trivial
  · exact notElse_of ht hf

theorem noElse_separator {w : List Token} (h : OptionalSeparator w) : NoElse w := by
  rcases h with rfl | ⟨t, ht, rfl⟩
  · exact trivial
  · exact notElse_separator ht (by decide)

theorem noElse_nil : NoElse [] := trivial

theorem grammar_noElse (h : Grammar repl l nt w v) : NoElse w := by
  induction h
  case if_else h1 h2 h3 h4 h5 h6 h7 ih1 ih2 ih3 =>
    refine noElse_append ?_ ?_
    · pieces noElse_append noElse_cons noElse_nil <;> other
    · rcases grammar_first h7 with h | ⟨u, w, rfl, _⟩
      · simp [nullable] at h
      · exact ⟨fun _ => first_ne h7 (by decide), ih3⟩
  all_goals pieces noElse_append noElse_cons noElse_nil
  all_goals first
    | other
    | exact noElse_separator ‹_›
    | exact noElse_optional ‹_› (by decide)

/-! ### `for` -/

/-- The tokens `t :: b` start with a for loop that is in the tree. -/
def HeadsFor (repl : Bool) (Q : Node → Prop) (b : List Token) : Prop :=
  ∃ l o w₀ init w₁ cond semi w₂ inc c w₃ s b', b = o :: w₀ ++ w₁ ++ semi :: w₂ ++ c :: w₃ ++ b' ∧ IsParen o ∧
    Grammar repl l .forInit w₀ (.optStmt init) ∧ Grammar repl l .forCondition w₁ (.expr cond) ∧ semi.tokenType = .semicolon ∧
    Grammar repl l .forIncrement w₂ (.optExpr inc) ∧ c.tokenType = .rightParen ∧ Grammar repl true .body w₃ (.stmt s) ∧
    Q (.stmt (forLoop init cond inc s))

/-- Every `for` starts a for loop of the tree. -/
def Fors (repl : Bool) (Q : Node → Prop) (w : List Token) : Prop :=
  ∀ a t b, w = a ++ t :: b → t.tokenType = .for → HeadsFor repl Q b

variable {Q : Node → Prop}

theorem fors_nil : Fors repl Q [] := by rintro a t b h; simp at h

theorem fors_append {u w : List Token} (hu : Fors repl Q u) (hw : Fors repl Q w) : Fors repl Q (u ++ w) := by
  intro a t b h ht
  rcases List.append_eq_append_iff.1 h with ⟨c, rfl, e⟩ | ⟨c, rfl, e⟩
  · exact hw c t b e ht
  · cases c with
    | nil => exact hw [] t b (by simpa using e.symm) ht
    | cons x c =>
      simp only [List.cons_append, List.cons.injEq] at e
      obtain ⟨rfl, rfl⟩ := e
      obtain ⟨l, o, w₀, init, w₁, cond, semi, w₂, inc, c', w₃, s, b', e, h⟩ := hu a t c rfl ht
      exact ⟨l, o, w₀, init, w₁, cond, semi, w₂, inc, c', w₃, s, b' ++ w, by rw [e]; simp, h⟩

theorem fors_cons {t : Token} (h : t.tokenType ≠ .for) {w : List Token} (hw : Fors repl Q w) : Fors repl Q (t :: w) := by
  rintro a u b e hu
  cases a with
  | nil => simp only [List.nil_append, List.cons.injEq] at e; exact absurd (e.1 ▸ hu) h
  | cons x a => simp only [List.cons_append, List.cons.injEq] at e; exact hw a u b e.2 hu

theorem fors_optional {tt : TokenType} {w : List Token} (h : Optional tt w) (hf : tt ≠ .for) : Fors repl Q w := by
  rcases h with rfl | ⟨t, ht, rfl⟩
  · exact fors_nil
  · exact fors_cons (notElse_of ht hf) fors_nil

theorem fors_separator {w : List Token} (h : OptionalSeparator w) : Fors repl Q w := by
  rcases h with rfl | ⟨t, ht, rfl⟩
  · exact fors_nil
  · exact fors_cons (notElse_separator ht (by decide)) fors_nil

theorem grammar_for (hQ : ∀ n, (∀ s, n ≠ .stmt s) → Q n) (h : Grammar repl l nt w v) : AllT Q v → Fors repl Q w := by
  have hQe : ∀ e, Q (.expr e) := fun e => hQ _ (by simp)
  have hQf : ∀ d, Q (.fn d) := fun e => hQ _ (by simp)
  clear hQ
  induction h
  case assignment h1 h2 h3 h4 ih1 ih2 =>
    intro h
    cases h4 <;> simp only [AllT, All_assign, All_set, All_setIndex, hQe, true_and] at h <;>
    · refine fors_append (ih1 ?_) (fors_cons (by other) (ih2 ?_)) <;> simp_all [AllT]
  case operator h1 h2 h3 ih1 ih2 =>
    intro h
    refine fors_append (ih1 ?_) (fors_cons (by other) (ih2 ?_)) <;>
    rcases Prec.node_cases h2 with ⟨op, h⟩ | ⟨op, h⟩ <;> simp_all [AllT]
  case «for» l t o w₀ init w₁ cond semi w₂ inc c w₃ s h1 h2 h3 h4 h5 h6 h7 h8 ih1 ih2 ih3 ih4 =>
    intro h
    have a : Q (.stmt (forLoop init cond inc s)) := (All_iff.1 h).1
    have b : AllT Q (.optStmt init) ∧ AllT Q (.expr cond) ∧ AllT Q (.optExpr inc) ∧ AllT Q (.stmt s) := by
      clear ih1 ih2 ih3 ih4
      cases init <;> cases inc <;> simp_all [AllT, forLoop]
    intro a' t' b' e ht
    cases a' with
    | nil =>
      simp only [List.nil_append, List.cons_append, List.cons.injEq] at e
      exact ⟨l, o, w₀, init, w₁, cond, semi, w₂, inc, c, w₃, s, [], by simp [← e.2], h2, h3, h4, h5, h6, h7, h8, a⟩
    | cons x a' =>
      simp only [List.cons_append, List.cons.injEq] at e
      have hall : Fors repl Q (o :: (w₀ ++ w₁ ++ semi :: w₂ ++ c :: w₃)) := by
        have := ih1 b.1; have := ih2 b.2.1; have := ih3 b.2.2.1; have := ih4 b.2.2.2
        pieces fors_append fors_cons fors_nil <;> other
      exact hall a' t' b' (by simpa using e.2) ht
  all_goals intro h
  all_goals simp only [AllT, All_call, All_function, All_get, All_getIndex, All_grouping, All_array, All_map, All_unary, All_fn, All_block, All_class_none,
    All_class_some, All_expression, All_fun, All_if_none, All_if_some, All_print, All_return, All_var, All_while, All_whileIncrement, hQe, hQf, true_and,
    List.mem_append, List.mem_singleton, or_imp, forall_and, forall_eq, NamedFun.funDef, MapEntry.value, Option.some.injEq, forall_eq', reduceCtorEq, false_imp_iff, implies_true] at *
  all_goals try simp_all only [forall_const, true_implies, and_self, implies_true, not_true, not_false_eq_true]
  all_goals pieces fors_append fors_cons fors_nil
  all_goals first
    | other
    | exact fors_separator ‹_›
    | exact fors_optional ‹_› (by decide)

/-! ### Tokens outside brackets -/

theorem topLevel_append' {st st' : List TokenType} {u : List Token} (h : nest st u = some st') (v : List Token) :
    topLevel st.length (u ++ v) = topLevel st.length u ++ topLevel st'.length v := by
  induction u generalizing st with
  | nil => simp only [nest, Option.some.injEq] at h; subst h; rfl
  | cons t u ih =>
    simp only [nest] at h
    simp only [List.cons_append, topLevel]
    split at h
    · rename_i c hc
      have := ih h
      simp only [List.length_cons] at this
      simp [hc, this]
    · rename_i hc
      split at h
      · rename_i hcl
        cases st with
        | nil => cases h
        | cons c st =>
          simp only at h
          split at h
          · have := ih h
            simp [hc, hcl, this]
          · cases h
      · rename_i hcl
        have := ih h
        simp [hc, hcl, this]

theorem topLevel_deep' {st st' : List TokenType} {u : List Token} (h : nest st u = some st') (d : Nat) :
    topLevel (st.length + d + 1) u = [] := by
  induction u generalizing st with
  | nil => rfl
  | cons t u ih =>
    simp only [nest] at h
    simp only [topLevel]
    split at h
    · rename_i c hc
      have := ih h
      rw [List.length_cons, show st.length + 1 + d + 1 = st.length + d + 1 + 1 by omega] at this
      simp [hc, this]
    · rename_i hc
      split at h
      · rename_i hcl
        cases st with
        | nil => cases h
        | cons c st =>
          simp only at h
          split at h
          · have := ih h
            rw [show st.length + d + 1 = st.length + 1 + d by omega] at this
            simp [hc, hcl, this]
          · cases h
      · rename_i hcl
        have := ih h
        simp [hc, hcl, this]

theorem topLevel_append {u : List Token} (h : ∀ st, nest st u = some st) (d : Nat) (v : List Token) :
    topLevel d (u ++ v) = topLevel d u ++ topLevel d v := by
  have := topLevel_append' (h (List.replicate d .indent)) v
  rwa [List.length_replicate] at this

theorem topLevel_deep {u : List Token} (h : ∀ st, nest st u = some st) (d : Nat) : topLevel (d + 1) u = [] := by
  have := topLevel_deep' (h []) d
  rwa [List.length_nil, Nat.zero_add] at this

theorem topLevel_nil (d : Nat) : topLevel d [] = [] := rfl

theorem topLevel_open {t : Token} {c} (h : closer t.tokenType = some c) (d : Nat) (w : List Token) :
    topLevel d (t :: w) = (if d = 0 then [t] else []) ++ topLevel (d + 1) w := by simp [topLevel, h]

theorem topLevel_close {t : Token} (h : isCloser t.tokenType = true) (d : Nat) (w : List Token) :
    topLevel (d + 1) (t :: w) = topLevel d w := by
  have : closer t.tokenType = none := by cases ht : t.tokenType <;> simp_all [isCloser, closer]
  simp [topLevel, h, this]

theorem topLevel_flat {t : Token} (h : Flat t) (d : Nat) (w : List Token) :
    topLevel d (t :: w) = (if d = 0 then [t] else []) ++ topLevel d w := by simp [topLevel, h.1, h.2]

theorem topLevel_flat' {t : Token} (h : closer t.tokenType = none) (h' : isCloser t.tokenType = false) (d : Nat) (w : List Token) :
    topLevel d (t :: w) = (if d = 0 then [t] else []) ++ topLevel d w := topLevel_flat ⟨h, h'⟩ d w

/-- No token outside brackets is a semicolon. -/
def NoSemi (w : List Token) : Prop := ∀ t ∈ topLevel 0 w, t.tokenType ≠ .semicolon

theorem noSemi_append {u v : List Token} (h : ∀ st, nest st u = some st) (hu : NoSemi u) (hv : NoSemi v) : NoSemi (u ++ v) := by
  unfold NoSemi
  rw [topLevel_append h]
  intro t ht
  rcases List.mem_append.1 ht with ht | ht
  · exact hu t ht
  · exact hv t ht

theorem noSemi_nil : NoSemi [] := by simp [NoSemi, topLevel]

theorem noSemi_cons {t : Token} {w : List Token} (h : t.tokenType ≠ .semicolon) (hf : Flat t) (hw : NoSemi w) : NoSemi (t :: w) := by
  unfold NoSemi at *
  rw [topLevel_flat hf]
  simpa [h] using hw

theorem noSemi_optional {tt : TokenType} {w : List Token} (h : Optional tt w) (hf : closer tt = none ∧ isCloser tt = false)
    (hs : tt ≠ .semicolon) : NoSemi w := by
  rcases h with rfl | ⟨t, ht, rfl⟩
  · exact noSemi_nil
  · exact noSemi_cons (notElse_of ht hs) (flat_of ht hf) noSemi_nil

theorem noSemi_separator {w : List Token} (h : OptionalSeparator w) : NoSemi w := by
  rcases h with rfl | ⟨t, ht, rfl⟩
  · exact noSemi_nil
  · exact noSemi_cons (notElse_separator ht (by decide)) (flat_separator ht) noSemi_nil

theorem above_ne {p : Prec} : p.above ≠ .forInit := by cases p <;> simp [Prec.above]

theorem grammar_noSemi (h : Grammar repl l nt w v) : nt ≠ .forInit → NoSemi w := by
  induction h
  case operator h1 h2 h3 ih1 ih2 =>
    intro _
    refine noSemi_append (grammar_nest h1) (ih1 (by simp)) (noSemi_cons (by other) (flat_node h2) (ih2 ?_))
    exact above_ne
  case operand p _ _ h1 ih => exact fun _ => ih (by cases p <;> simp [Prec.above])
  case «prefix» h1 h2 ih => exact fun _ => noSemi_cons (by other) (flat_prefix h1) (ih (by simp))
  case call_bare h1 h2 h3 ih1 ih2 => exact fun _ => noSemi_append (grammar_nest h1) (ih1 (by simp)) (ih2 (by simp))
  case entry h1 h2 h3 ih =>
    exact fun _ => noSemi_cons (by other) (flat_key h1) (noSemi_cons (by other) (flat_of h2 (by decide)) (ih (by simp)))
  case entries h1 h2 h3 h4 h5 h6 ih1 ih2 =>
    exact fun _ => noSemi_append (grammar_nest h1) (ih1 (by simp)) (noSemi_cons (by other) (flat_separator h2)
      (noSemi_cons (by other) (flat_key h3) (noSemi_cons (by other) (flat_of h4 (by decide)) (ih2 (by simp)))))
  case «variable» h =>
    exact fun _ => noSemi_cons (by other) (by rcases h with h | h <;> exact flat_of h (by decide)) noSemi_nil
  case map_bare h1 h2 ih => exact fun _ => noSemi_append (grammar_nest h1) (ih (by simp)) (noSemi_separator h2)
  case var_init h1 h2 h3 h4 h5 h6 h7 ih =>
    intro _
    simp only [List.cons_append]
    refine noSemi_cons (by other) (flat_of h1 (by decide)) (noSemi_cons (by other) (flat_of h2 (by decide))
      (noSemi_cons (by other) (flat_of h3 (by decide)) ?_))
    rw [List.append_assoc]
    exact noSemi_append (nest_optional h4 (by decide)) (noSemi_optional h4 (by decide) (by decide))
      (noSemi_append (grammar_nest h5) (ih (by simp)) (noSemi_optional h6 (by decide) (by decide)))
  case expression_statement h1 h2 h3 ih =>
    exact fun _ => noSemi_append (grammar_nest h1) (ih (by simp)) (noSemi_cons (by other) (flat_of h3 (by decide)) noSemi_nil)
  case for_none => exact fun h => absurd rfl h
  case for_var => exact fun h => absurd rfl h
  case for_var_init => exact fun h => absurd rfl h
  case for_expression => exact fun h => absurd rfl h
  case for_expression_repl => exact fun h => absurd rfl h
  all_goals intro _
  all_goals repeat (rename Grammar _ _ _ _ _ => hg; have := grammar_nest hg; clear hg)
  all_goals try (have hS := nest_separator ‹_›)
  all_goals try (have hO := nest_optional (tt := .comma) ‹_› (by decide))
  all_goals try (have hT := nest_optional (tt := .terminator) ‹_› (by decide))
  all_goals try (have hI := closer_paren ‹_›)
  all_goals try (have hJ := notElse_paren (k := .semicolon) ‹_› (by decide))
  all_goals simp only [ne_eq, reduceCtorEq, not_false_eq_true, true_imp_iff, forall_const] at *
  all_goals try assumption
  all_goals simp_all [NoSemi, topLevel_append, topLevel_deep, topLevel_nil, topLevel_open, topLevel_close, topLevel_flat', closer, isCloser,
    or_imp, forall_and, nest_append, nest_nil, nest_flat', nest_close', nest_open]

/-! ### Groups -/

theorem nest_closer {c : Token} (h : isCloser c.tokenType = true) (b : List Token) : nest [] (c :: b) = none := by
  have : closer c.tokenType = none := by cases ht : c.tokenType <;> simp_all [isCloser, closer]
  simp [nest, h, this]

theorem group_le {w w' b b' : List Token} {c c' : Token} (h : WellNested w) (h' : WellNested w') (hc : isCloser c.tokenType = true)
    (he : w ++ c :: b = w' ++ c' :: b') (hl : w.length ≤ w'.length) : w = w' ∧ c = c' ∧ b = b' := by
  rcases List.append_eq_append_iff.1 he with ⟨z, rfl, e⟩ | ⟨z, rfl, e⟩
  · cases z with
    | nil => simp only [List.nil_append, List.cons.injEq] at e; exact ⟨by simp, e.1, e.2⟩
    | cons x z =>
      simp only [List.cons_append, List.cons.injEq] at e
      obtain ⟨rfl, -⟩ := e
      unfold WellNested at h h'
      rw [nest_append, h, Option.bind_some, nest_closer hc] at h'
      cases h'
  · cases z with
    | nil => simp only [List.nil_append, List.cons.injEq] at e; exact ⟨by simp, e.1.symm, e.2.symm⟩
    | cons x z => simp at hl; omega

/-- A bracketed group ends at one place. -/
theorem group_unique {w w' b b' : List Token} {c c' : Token} (h : WellNested w) (h' : WellNested w') (hc : isCloser c.tokenType = true)
    (hc' : isCloser c'.tokenType = true) (e : w ++ c :: b = w' ++ c' :: b') : w = w' ∧ c = c' ∧ b = b' := by
  rcases Nat.le_total w.length w'.length with hl | hl
  · exact group_le h h' hc e hl
  · obtain ⟨rfl, rfl, rfl⟩ := group_le h' h hc' e.symm hl
    exact ⟨rfl, rfl, rfl⟩

theorem grammar_nested (h : Grammar repl l nt w v) : WellNested w := grammar_nest h []

/-- The first declaration of a list of declarations. -/
theorem declarations_cons {ss : List Stmt} (h : Grammar repl l .declarations w (.stmts ss)) (hw : w ≠ []) :
    ∃ w₁ s w₂ ss', w = w₁ ++ w₂ ∧ Grammar repl l .declaration w₁ (.stmt s) ∧ Grammar repl l .declarations w₂ (.stmts ss') := by
  suffices ∀ nt v, Grammar repl l nt w v → nt = .declarations → w ≠ [] → ∃ w₁ s w₂ ss', w = w₁ ++ w₂ ∧
      Grammar repl l .declaration w₁ (.stmt s) ∧ Grammar repl l .declarations w₂ (.stmts ss') from this _ _ h rfl hw
  clear h hw
  intro nt v h
  induction h <;> intro hnt <;> cases hnt
  case declarations_nil => exact fun h => absurd rfl h
  case declarations l w ss w' s h1 h2 ih1 ih2 =>
    intro _
    by_cases hw : w = []
    · subst hw
      exact ⟨w', s, [], [], by simp, h2, .declarations_nil⟩
    · obtain ⟨w₁, s', w₂, ss', rfl, a, b⟩ := ih1 rfl hw
      exact ⟨w₁, s', w₂ ++ w', ss' ++ [s], by simp, a, .declarations b h2⟩

theorem declarations_terminator {t : Token} {b : List Token} (ht : t.tokenType = .terminator) :
    ¬ Grammar repl l .declarations (t :: b) v := fun h => first_ne h (by decide) ht

/-- A statement that starts with `{` is a block. -/
theorem declaration_brace {o : Token} {w : List Token} (ho : o.tokenType = .leftBrace)
    (h : Grammar repl l .declaration (o :: w) v) :
    ∃ w' c, w = w' ++ [c] ∧ WellNested w' ∧ c.tokenType = .rightBrace := by
  generalize hx : o :: w = x at h
  cases h with
  | declaration h =>
    subst hx
    generalize hx : o :: w = x at h
    cases h
    case braces h1 h3 h2 =>
      simp only [List.cons_append, List.cons.injEq] at hx
      exact ⟨_, _, hx.2, grammar_nested h2, h3⟩
    all_goals simp only [List.cons_append, List.cons.injEq] at hx
    all_goals (obtain ⟨rfl, -⟩ := hx; simp_all)
  | _ =>
    simp only [List.cons_append, List.cons.injEq] at hx
    obtain ⟨rfl, -⟩ := hx
    simp_all

/-- A program cannot start with a block followed by a newline. -/
theorem block_newline {o c t : Token} {w b : List Token} (ho : o.tokenType = .leftBrace) (hw : WellNested w)
    (hc : c.tokenType = .rightBrace) (ht : t.tokenType = .terminator) :
    ¬ Grammar repl l .declarations (o :: w ++ c :: t :: b) (.stmts ss) := by
  intro h
  obtain ⟨w₁, s, w₂, ss', e, h1, h2⟩ := declarations_cons h (by simp)
  cases w₁ with
  | nil => rcases grammar_first h1 with h | ⟨_, _, h, _⟩ <;> simp [nullable] at h
  | cons o' w₁ =>
    simp only [List.cons_append, List.cons.injEq] at e
    obtain ⟨rfl, e⟩ := e
    obtain ⟨w', c', rfl, hn, hc'⟩ := declaration_brace ho h1
    rw [List.append_assoc] at e
    obtain ⟨-, -, rfl⟩ := group_unique hw hn (by rw [hc]; rfl) (by rw [hc']; rfl) e
    exact declarations_terminator ht h2

/-- Bodies that start with `{`. -/
theorem body_brace {o : Token} {w : List Token} (ho : o.tokenType = .leftBrace)
    (h : Grammar repl l .body (o :: w) v) :
    ∃ w' c, w = w' ++ [c] ∧ WellNested w' ∧ c.tokenType = .rightBrace := by
  generalize hx : o :: w = x at h
  cases h with
  | body_block h =>
    subst hx
    generalize hx : o :: w = x at h
    cases h
    case block_braces h1 h3 h2 =>
      simp only [List.cons_append, List.cons.injEq] at hx
      exact ⟨_, _, hx.2, grammar_nested h2, h3⟩
    case block_indented => simp only [List.cons_append, List.cons.injEq] at hx; obtain ⟨rfl, -⟩ := hx; simp_all
  | body h => subst hx; exact declaration_brace ho (.declaration h)

/-- A program cannot start with an `if` or `while` with a braced body followed by a newline. -/
theorem loop_newline {t p q o c n : Token} {w₁ w b : List Token} {ss} (ht : t.tokenType = .while ∨ t.tokenType = .if) (hw₁ : WellNested w₁)
    (hq : q.tokenType = .rightParen) (ho : o.tokenType = .leftBrace) (hw : WellNested w)
    (hc : c.tokenType = .rightBrace) (hn : n.tokenType = .terminator) :
    ¬ Grammar repl l .declarations (t :: p :: w₁ ++ q :: o :: w ++ c :: n :: b) (.stmts ss) := by
  intro h
  obtain ⟨w₁', s, w₂, ss', e, h1, h2⟩ := declarations_cons h (by simp)
  -- the body
  have body : ∀ {l' w₃ v} (z : List Token), Grammar repl l' .body w₃ v → o :: (w ++ c :: n :: b) = w₃ ++ z → z = n :: b := by
    intro l' w₃ v z hb e
    cases w₃ with
    | nil => rcases grammar_first hb with h | ⟨_, _, h, _⟩ <;> simp [nullable] at h
    | cons o' w₃ =>
      simp only [List.cons_append, List.cons.injEq] at e
      obtain ⟨rfl, e⟩ := e
      obtain ⟨w', c', rfl, hn', hc'⟩ := body_brace ho hb
      rw [List.append_assoc] at e
      exact (group_unique hw hn' (by rw [hc]; rfl) (by rw [hc']; rfl) e).2.2.symm
  -- the head
  have head : ∀ {l' w₃ x y} (z : List Token), Grammar repl l' .expression w₃ x → y.tokenType = .rightParen →
      w₁ ++ (q :: o :: w ++ c :: n :: b) = w₃ ++ y :: z → z = o :: (w ++ c :: n :: b) := by
    intro l' w₃ x y z hx hy e
    have := (group_unique hw₁ (grammar_nested hx) (by rw [hq]; rfl) (by rw [hy]; rfl) e).2.2.symm
    simpa using this
  cases w₁' with
  | nil => rcases grammar_first h1 with h | ⟨_, _, h, _⟩ <;> simp [nullable] at h
  | cons t' w₁' =>
    simp only [List.cons_append, List.cons.injEq] at e
    obtain ⟨rfl, e⟩ := e
    generalize hx : t :: w₁' = x at h1
    have noexpr : ∀ {x : List Token} {v}, Grammar repl l .expression (t :: x) v → False := by
      intro x v hx
      rcases ht with h | h <;> exact first_ne hx (by decide) h
    cases h1
    case declaration h1 =>
      subst hx
      generalize hx : t :: w₁' = x at h1
      cases h1
      case expression_statement =>
        simp only [List.cons_append, List.cons.injEq] at hx
        obtain ⟨rfl, -⟩ := hx
        exact noexpr ‹_›
      case expression_repl =>
        simp only [List.cons.injEq] at hx
        obtain ⟨rfl, -⟩ := hx
        exact noexpr ‹_›
      case «if» hp hy hx' hbody =>
        simp only [List.cons_append, List.cons.injEq] at hx
        obtain ⟨rfl, rfl⟩ := hx
        simp only [List.cons_append, List.cons.injEq, List.append_assoc] at e
        have e3 := head _ hx' hy (by simpa using e.2)
        have e4 := body _ hbody e3.symm
        exact declarations_terminator hn (e4 ▸ h2)
      case «while» hp hy hbody hx' =>
        simp only [List.cons_append, List.cons.injEq] at hx
        obtain ⟨rfl, rfl⟩ := hx
        simp only [List.cons_append, List.cons.injEq, List.append_assoc] at e
        have e3 := head _ hx' hy (by simpa using e.2)
        have e4 := body _ hbody e3.symm
        exact declarations_terminator hn (e4 ▸ h2)
      case if_else hp hy hel hx' hbody helse =>
        simp only [List.cons_append, List.cons.injEq] at hx
        obtain ⟨rfl, rfl⟩ := hx
        simp only [List.cons_append, List.cons.injEq, List.append_assoc] at e
        have e3 := head _ hx' hy (by simpa using e.2)
        have e4 := body _ hbody e3.symm
        simp only [List.cons_append, List.cons.injEq] at e4
        rw [← e4.1, hel] at hn
        cases hn
      all_goals simp only [List.cons_append, List.cons.injEq] at hx
      all_goals (obtain ⟨rfl, -⟩ := hx; simp_all)
    all_goals simp only [List.cons_append, List.cons.injEq] at hx
    all_goals (obtain ⟨rfl, -⟩ := hx; simp_all)

/-- A for loop cannot start with an expression and a semicolon. -/
theorem for_expression_head {Q : Node → Prop} {o' s : Token} {w b : List Token} (h : HeadsFor false Q (o' :: w ++ s :: b)) (hne : w ≠ [])
    (hn : WellNested w) (hv : ∀ t, w.head? = some t → t.tokenType ≠ .var)
    (htop : ∀ t ∈ topLevel 0 w, t.tokenType ≠ .semicolon ∧ t.tokenType ≠ .terminator) (hs : s.tokenType = .semicolon) : False := by
  obtain ⟨l, o, w₀, init, w₁, cond, semi, w₂, inc, c, w₃, body, b', e, -, hi, -⟩ := h
  simp only [List.cons_append, List.cons.injEq, List.append_assoc] at e
  obtain ⟨-, e⟩ := e
  obtain ⟨x, w, rfl⟩ := List.exists_cons_of_ne_nil hne
  cases hi with
  | for_none h1 =>
    simp only [List.cons_append, List.cons.injEq] at e
    obtain ⟨rfl, -⟩ := e
    refine (htop x ?_).1 h1
    rw [topLevel_flat (flat_of h1 (by decide))]; simp
  | for_var h1 =>
    simp only [List.cons_append, List.cons.injEq] at e
    obtain ⟨rfl, -⟩ := e
    exact hv x rfl h1
  | for_var_init h1 =>
    simp only [List.cons_append, List.cons.injEq] at e
    obtain ⟨rfl, -⟩ := e
    exact hv x rfl h1
  | for_expression h1 h2 =>
    rename_i we e' term
    rw [List.append_assoc] at e
    rcases List.append_eq_append_iff.1 e with ⟨z, rfl, e2⟩ | ⟨z, e1, e2⟩
    · cases z with
      | nil =>
        simp only [List.nil_append, List.cons_append, List.cons.injEq] at e2
        rw [e2.1, h2] at hs; cases hs
      | cons y z =>
        simp only [List.nil_append, List.cons_append, List.cons.injEq] at e2
        obtain ⟨rfl, -⟩ := e2
        have := grammar_noSemi h1 (by simp) s ?_
        · exact this hs
        · rw [show (0 : Nat) = ([] : List TokenType).length from rfl, topLevel_append' hn]
          refine List.mem_append.2 (.inr ?_)
          rw [List.length_nil, topLevel_flat (flat_of hs (by decide))]; simp
    · cases z with
      | nil =>
        simp only [List.nil_append, List.cons_append, List.cons.injEq] at e2
        rw [← e2.1, h2] at hs; cases hs
      | cons y z =>
        simp only [List.nil_append, List.cons_append, List.cons.injEq] at e2
        obtain ⟨rfl, -⟩ := e2
        refine (htop term ?_).2 h2
        rw [e1, topLevel_append (grammar_nest h1), topLevel_flat (flat_of h2 (by decide))]; simp
  | for_expression_repl h => cases h

end Ws
