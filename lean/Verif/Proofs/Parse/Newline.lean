import Verif.Proofs.Parse.Lists
/-! What follows statements in programs. -/
namespace Ws
open Spec

variable {repl l : Bool} {nt : NT} {w : List Token} {v : Tree}

/-- With the token `t`, in front of the tokens `b`, begins an `if`, `while` or `for` statement or the
declaration of a function or a class. -/
def Opens (t : Token) (b : List Token) : Prop :=
  t.tokenType ∈ [TokenType.if, .while, .for] ∨
  (t.tokenType = .fun ∧ ∃ i r, b = i :: r ∧ i.tokenType = .identifier) ∨
  t.tokenType = .class ∧ ∃ n o r, b = n :: o :: r ∧ o.tokenType ∈ [TokenType.leftBrace, .less]

/-- Every such statement is in the program, and no newline follows it. -/
def NoNewline (repl s : Bool) (w : List Token) : Prop :=
  ∀ a t b x, w = a ++ t :: b → Opens t (b ++ x) →
    ∃ l u st z, t :: b = u ++ z ∧ Grammar repl l .declaration u (.stmt st) ∧
      (∀ y, z.head? = some y → y.tokenType ≠ .terminator) ∧ (z = [] → s = true)

variable {s : Bool}

theorem foll_nil : NoNewline repl s [] := by rintro a t b x h; simp at h

theorem foll_join {s' : Bool} {u w : List Token} (hu : NoNewline repl s' u) (hw : NoNewline repl s w)
    (h1 : s' = true → ∀ y, w.head? = some y → y.tokenType ≠ .terminator) (h2 : s' = true → w = [] → s = true) :
    NoNewline repl s (u ++ w) := by
  intro a t b x h ht
  rcases List.append_eq_append_iff.1 h with ⟨c, rfl, e⟩ | ⟨c, rfl, e⟩
  · exact hw c t b x e ht
  · cases c with
    | nil => exact hw [] t b x (by simpa using e.symm) ht
    | cons y c =>
      simp only [List.cons_append, List.cons.injEq] at e
      obtain ⟨rfl, rfl⟩ := e
      obtain ⟨l, u, st, z, e, hg, hz, hs⟩ := hu a t c (w ++ x) rfl (by simpa using ht)
      refine ⟨l, u, st, z ++ w, by rw [← List.append_assoc, ← e]; rfl, hg, ?_, ?_⟩
      · cases z with
        | nil => exact h1 (hs rfl)
        | cons y z => exact hz
      · intro h
        simp only [List.append_eq_nil_iff] at h
        exact h2 (hs h.1) h.2

theorem foll_append {u w : List Token} (hu : NoNewline repl false u) (hw : NoNewline repl s w) : NoNewline repl s (u ++ w) :=
  foll_join hu hw (by simp) (by simp)

theorem foll_then {u w : List Token} {t : Token} (hu : NoNewline repl true u) (ht : t.tokenType ≠ .terminator) (hw : NoNewline repl s (t :: w)) :
    NoNewline repl s (u ++ t :: w) :=
  foll_join hu hw (by simpa using ht) (by simp)

/-- No statement of those begins with the token. -/
def ClosedHead (t : Token) : Prop := t.tokenType ∉ [TokenType.if, .while, .for, .fun, .class]

theorem foll_head {t : Token} {w : List Token} (h : ∀ x, ¬ Opens t (w ++ x)) (hw : NoNewline repl s w) : NoNewline repl s (t :: w) := by
  intro a u b x e hu
  cases a with
  | nil => simp only [List.nil_append, List.cons.injEq] at e; obtain ⟨rfl, rfl⟩ := e; exact absurd hu (h x)
  | cons y a => simp only [List.cons_append, List.cons.injEq] at e; exact hw a u b x e.2 hu

theorem foll_cons {t : Token} (h : ClosedHead t) {w : List Token} (hw : NoNewline repl s w) : NoNewline repl s (t :: w) := by
  refine foll_head ?_ hw
  rintro x (h' | ⟨h', -⟩ | ⟨h', -⟩) <;> simp_all [ClosedHead]

theorem foll_optional {tt : TokenType} {w : List Token} (h : Optional tt w) (hf : tt ∉ [TokenType.if, .while, .for, .fun, .class]) :
    NoNewline repl s w := by
  rcases h with rfl | ⟨t, ht, rfl⟩
  · exact foll_nil
  · exact foll_cons (by rw [ClosedHead, ht]; exact hf) foll_nil

theorem foll_separator {w : List Token} (h : OptionalSeparator w) : NoNewline repl s w := by
  rcases h with rfl | ⟨t, ht, rfl⟩
  · exact foll_nil
  · exact foll_cons (by rcases ht with h | h <;> rw [ClosedHead, h] <;> decide) foll_nil

theorem closed_of {t : Token} (h : ∀ k ∈ [TokenType.if, .while, .for, .fun, .class], t.tokenType ≠ k) : ClosedHead t :=
  fun hm => h _ hm rfl

theorem closed_type {t : Token} {k : TokenType} (h : t.tokenType = k) (hk : k ∉ [TokenType.if, .while, .for, .fun, .class]) :
    ClosedHead t := by rw [ClosedHead, h]; exact hk

/-- A token that is no keyword of those. -/
local macro "closed" : tactic => `(tactic| first
  | exact closed_type ‹_› (by decide)
  | (exact closed_of fun k hk => notElse_node ‹_› (by revert k; decide))
  | (exact closed_of fun k hk => notElse_prefix ‹_› (by revert k; decide))
  | (exact closed_of fun k hk => notElse_key ‹_› (by revert k; decide))
  | (exact closed_of fun k hk => notElse_paren ‹_› (by revert k; decide))
  | (exact closed_of fun k hk => notElse_separator ‹_› (by revert k; decide))
  | (exact closed_of fun k hk => notElse_variable ‹_› (by revert k; decide)))

/-- The statement is a statement of the program. -/
theorem foll_stmt {t : Token} {w : List Token} {st : Stmt} (h : Grammar repl l .declaration (t :: w) (.stmt st)) (hw : NoNewline repl true w) :
    NoNewline repl true (t :: w) := by
  intro a u b x e hu
  cases a with
  | nil =>
    simp only [List.nil_append, List.cons.injEq] at e; obtain ⟨rfl, rfl⟩ := e
    exact ⟨l, _, st, [], by simp, h, by simp, by simp⟩
  | cons y a => simp only [List.cons_append, List.cons.injEq] at e; exact hw a u b x e.2 hu

theorem foll_weak {w : List Token} (h : NoNewline repl false w) : NoNewline repl true w := by
  intro a t b x e ho
  obtain ⟨l, u, st, z, e, hg, hz, hs⟩ := h a t b x e ho
  exact ⟨l, u, st, z, e, hg, hz, fun _ => rfl⟩

/-- The nonterminals that can end with such a statement. -/
def ends : NT → Bool
  | .statement | .declaration | .declarations | .body => true
  | _ => false

local macro "pieces" app:ident cons:ident nil:ident : tactic => `(tactic| (
  repeat' first
    | exact $nil
    | assumption
    | apply $app
    | apply $cons))

theorem head_ne {u w : List Token} (h : Grammar repl l nt w v) (hk : TokenType.terminator ∉ first nt) :
    ∀ y, w.head? = some y → y.tokenType ≠ .terminator := by
  intro y hy
  cases w with
  | nil => cases hy
  | cons z w => cases hy; exact first_ne h hk

theorem function_paren {loc : SourceLoc} (h : Grammar repl l (.function loc) w v) : ∃ p r, w = p :: r ∧ IsParen p := by
  cases h with
  | function_empty h => exact ⟨_, _, rfl, h⟩
  | function h => exact ⟨_, _, rfl, h⟩

theorem grammar_follows (h : Grammar repl l nt w v) : NoNewline repl (ends nt) w := by
  induction h
  case function_literal l t w d ht hw ih =>
    refine foll_head ?_ ih
    obtain ⟨p, r, rfl, hp⟩ := function_paren hw
    rintro x (h | ⟨-, i, r', e, hi⟩ | ⟨h, -⟩)
    · simp [ht] at h
    · simp only [List.cons_append, List.cons.injEq] at e
      obtain ⟨rfl, -⟩ := e
      rcases hp with h | h <;> rw [h] at hi <;> cases hi
    · rw [ht] at h; cases h
  case class_method l w fs t w' n ps body k loc h1 ht h2 ih1 ih2 =>
    refine foll_append ih1 (foll_head ?_ ih2)
    cases h2 with
    | named hi hf =>
      obtain ⟨p, r, rfl, hp⟩ := function_paren hf
      rintro x (h | ⟨h, -⟩ | ⟨-, n, o, r', e, ho⟩)
      · simp [ht] at h
      · rw [ht] at h; cases h
      · simp only [List.cons_append, List.cons.injEq] at e
        obtain ⟨-, rfl, -⟩ := e
        rcases hp with h | h <;> simp [h] at ho
  case block_braces h1 h2 h3 ih => exact foll_cons (by closed) (foll_then ih (by rw [h3]; decide) (foll_cons (by closed) foll_nil))
  case block_indented h1 h2 h3 h4 ih =>
    exact foll_cons (by closed) (foll_cons (by closed) (foll_then ih (by rw [h4]; decide) (foll_cons (by closed) foll_nil)))
  case declarations h1 h2 ih1 ih2 => exact foll_join ih1 ih2 (fun _ => head_ne (u := []) h2 (by decide)) (fun _ _ => rfl)
  case braces h1 h2 h3 ih => exact foll_cons (by closed) (foll_then ih (by rw [h3]; decide) (foll_cons (by closed) foll_nil))
  case fun_decl h1 h2 ih => exact foll_stmt (.fun_decl h1 h2) (foll_weak ih)
  case class_braces h1 h2 h3 h4 h5 ih =>
    refine foll_stmt (.class_braces h1 h2 h3 h4 h5) (foll_cons (by closed) (foll_cons (by closed) (foll_append ih (foll_cons (by closed) foll_nil))))
  case class_indented h1 h2 h3 h4 h5 h6 ih =>
    exact foll_stmt (.class_indented h1 h2 h3 h4 h5 h6) (foll_cons (by closed) (foll_cons (by closed) (foll_cons (by closed) (foll_append ih (foll_cons (by closed) foll_nil)))))
  case subclass_braces h1 h2 h3 h4 h5 h6 h7 ih =>
    exact foll_stmt (.subclass_braces h1 h2 h3 h4 h5 h6 h7) (foll_cons (by closed) (foll_cons (by closed) (foll_cons (by closed) (foll_cons (by closed)
      (foll_append ih (foll_cons (by closed) foll_nil))))))
  case subclass_indented h1 h2 h3 h4 h5 h6 h7 h8 ih =>
    exact foll_stmt (.subclass_indented h1 h2 h3 h4 h5 h6 h7 h8) (foll_cons (by closed) (foll_cons (by closed) (foll_cons (by closed) (foll_cons (by closed)
      (foll_cons (by closed) (foll_append ih (foll_cons (by closed) foll_nil)))))))
  case «if» h1 h2 h3 h4 h5 ih1 ih2 =>
    exact foll_stmt (.declaration (.if h1 h2 h3 h4 h5)) (foll_cons (by closed) (foll_append ih1 (foll_cons (by closed) ih2)))
  case if_else h1 h2 h3 h4 h5 h6 h7 ih1 ih2 ih3 =>
    have := foll_append ih1 (foll_cons (closed_type h4 (by decide)) (foll_then ih2 (by rw [h6]; decide) (foll_cons (closed_type h6 (by decide)) ih3)))
    exact foll_stmt (.declaration (.if_else h1 h2 h3 h4 h5 h6 h7)) (foll_cons (by closed) (by simpa [ends] using this))
  case «while» h1 h2 h3 h4 h5 ih1 ih2 =>
    exact foll_stmt (.declaration (.while h1 h2 h3 h4 h5)) (foll_cons (by closed) (foll_append ih1 (foll_cons (by closed) ih2)))
  case «for» h1 h2 h3 h4 h5 h6 h7 h8 ih1 ih2 ih3 ih4 =>
    have := foll_append ih1 (foll_append ih2 (foll_cons (closed_type h5 (by decide)) (foll_append ih3 (foll_cons (closed_type h7 (by decide)) ih4))))
    exact foll_stmt (.declaration (.for h1 h2 h3 h4 h5 h6 h7 h8)) (foll_cons (by closed) (by simpa [ends] using this))
  case operand p _ _ _ ih => cases p <;> exact ih
  case operator p _ _ _ _ _ _ _ _ _ ih1 ih2 => exact foll_append ih1 (foll_cons (by closed) (by cases p <;> exact ih2))
  all_goals simp only [ends] at *
  all_goals try exact foll_weak ‹_›
  all_goals pieces foll_append foll_cons foll_nil
  all_goals first
    | closed
    | exact foll_separator ‹_›
    | exact foll_optional ‹_› (by decide)

/-! ### Where braced statements end -/

/-- A braced body ends at the matching brace. -/
theorem braced_body {o c : Token} {w b w₃ z : List Token} (ho : o.tokenType = .leftBrace) (hw : WellNested w)
    (hc : c.tokenType = .rightBrace) (hb : Grammar repl l .body w₃ v) (e : o :: (w ++ c :: b) = w₃ ++ z) : z = b := by
  cases w₃ with
  | nil => rcases grammar_first hb with h | ⟨_, _, h, _⟩ <;> simp [nullable] at h
  | cons o' w₃ =>
    simp only [List.cons_append, List.cons.injEq] at e
    obtain ⟨rfl, e⟩ := e
    obtain ⟨w', c', rfl, hn', hc'⟩ := body_brace ho hb
    rw [List.append_assoc] at e
    exact (group_unique hw hn' (by rw [hc]; rfl) (by rw [hc']; rfl) e).2.2.symm

theorem braced_block {o c : Token} {w b w₃ z : List Token} (ho : o.tokenType = .leftBrace) (hw : WellNested w)
    (hc : c.tokenType = .rightBrace) {ss} (hb : Grammar repl l .block w₃ (.stmts ss)) (e : o :: (w ++ c :: b) = w₃ ++ z) : z = b :=
  braced_body ho hw hc (.body_block hb) e

/-- The parenthesis in front of it. -/
theorem paren_group {q y : Token} {w₁ w₁' b z : List Token} (hq : q.tokenType = .rightParen) (hy : y.tokenType = .rightParen)
    (h : WellNested w₁) (h' : WellNested w₁') (e : w₁ ++ q :: b = w₁' ++ y :: z) : b = z :=
  (group_unique h h' (by rw [hq]; rfl) (by rw [hy]; rfl) e).2.2

/-- The part of a declaration that begins with a keyword. -/
theorem braced_head {t p q o c : Token} {w₁ w b u z : List Token} {st : Stmt} (ht : t.tokenType ∈ [TokenType.if, .while, .for])
    (hw₁ : WellNested w₁) (hq : q.tokenType = .rightParen) (ho : o.tokenType = .leftBrace) (hw : WellNested w)
    (hc : c.tokenType = .rightBrace) (hb : ∀ y, b.head? = some y → y.tokenType ≠ .else)
    (h : Grammar repl l .declaration u (.stmt st)) (e : t :: p :: (w₁ ++ q :: o :: (w ++ c :: b)) = u ++ z) : z = b := by
  cases u with
  | nil => rcases grammar_first h with h | ⟨_, _, h, _⟩ <;> simp [nullable] at h
  | cons t' u =>
    simp only [List.cons_append, List.cons.injEq] at e
    obtain ⟨rfl, e⟩ := e
    generalize hx : t :: u = x at h
    have noexpr : ∀ {x : List Token} {v}, Grammar repl l .expression (t :: x) v → False := by
      intro x v hx
      have := first_ne hx (k := t.tokenType)
      simp only [List.mem_cons, List.not_mem_nil, or_false] at ht
      rcases ht with h | h | h <;> exact first_ne hx (by decide) h
    cases h
    case declaration h1 =>
      subst hx
      generalize hx : t :: u = x at h1
      cases h1
      case expression_statement =>
        simp only [List.cons_append, List.cons.injEq] at hx
        obtain ⟨rfl, -⟩ := hx
        exact (noexpr ‹_›).elim
      case expression_repl =>
        simp only [List.cons.injEq] at hx
        obtain ⟨rfl, -⟩ := hx
        exact (noexpr ‹_›).elim
      case «if» hp hy hx' hbody =>
        simp only [List.cons_append, List.cons.injEq] at hx
        obtain ⟨rfl, rfl⟩ := hx
        simp only [List.cons_append, List.cons.injEq, List.append_assoc] at e
        exact braced_body ho hw hc hbody (paren_group hq hy hw₁ (grammar_nested hx') e.2)
      case «while» hp hy hbody hx' =>
        simp only [List.cons_append, List.cons.injEq] at hx
        obtain ⟨rfl, rfl⟩ := hx
        simp only [List.cons_append, List.cons.injEq, List.append_assoc] at e
        exact braced_body ho hw hc hbody (paren_group hq hy hw₁ (grammar_nested hx') e.2)
      case «for» =>
        rename_i w₀ init w₁ cond semi w₂ inc y w₃ s _ _ _ _ _ _ _ _
        simp only [List.cons_append, List.cons.injEq] at hx
        obtain ⟨rfl, rfl⟩ := hx
        simp only [List.cons_append, List.cons.injEq, List.append_assoc] at e
        have hn : WellNested (w₀ ++ (w₁ ++ semi :: w₂)) := by
          unfold WellNested
          rw [nest_append, grammar_nest ‹Grammar repl l .forInit w₀ _›, Option.bind_some, nest_append,
            grammar_nest ‹Grammar repl l .forCondition w₁ _›, Option.bind_some,
            nest_flat (flat_of ‹semi.tokenType = _› (by decide)), grammar_nest ‹Grammar repl l .forIncrement w₂ _›]
        exact braced_body ho hw hc ‹Grammar repl true .body w₃ _› (paren_group hq ‹y.tokenType = _› hw₁ hn (by simpa using e.2))
      case if_else hp hy hel hx' hbody helse =>
        simp only [List.cons_append, List.cons.injEq] at hx
        obtain ⟨rfl, rfl⟩ := hx
        simp only [List.cons_append, List.cons.injEq, List.append_assoc] at e
        have := braced_body ho hw hc hbody (paren_group hq hy hw₁ (grammar_nested hx') e.2)
        subst this
        exact absurd hel (hb _ rfl)
      all_goals simp only [List.cons_append, List.cons.injEq] at hx
      all_goals (obtain ⟨rfl, -⟩ := hx; simp_all)
    all_goals simp only [List.cons_append, List.cons.injEq] at hx
    all_goals (obtain ⟨rfl, -⟩ := hx; simp_all)

/-- If the tokens begin with `fun`, then a parenthesis follows. -/
def FunParen (w : List Token) : Prop := ∀ t r, w = t :: r → t.tokenType = .fun → ∃ p r', r = p :: r' ∧ IsParen p

theorem funParen_append {u w : List Token} (h : FunParen u) (hu : u ≠ []) : FunParen (u ++ w) := by
  intro t r e ht
  cases u with
  | nil => exact absurd rfl hu
  | cons x u =>
    simp only [List.cons_append, List.cons.injEq] at e
    obtain ⟨rfl, rfl⟩ := e
    obtain ⟨p, r', rfl, hp⟩ := h x u rfl ht
    exact ⟨p, r' ++ w, rfl, hp⟩

theorem funParen_other {t : Token} {w : List Token} (h : t.tokenType ≠ .fun) : FunParen (t :: w) := by
  intro t' r e ht
  cases e
  exact absurd ht h

theorem grammar_ne (h : Grammar repl l nt w v) (hn : nullable nt = false) : w ≠ [] := by
  rintro rfl
  rcases grammar_first h with h | ⟨_, _, h, _⟩
  · simp [hn] at h
  · simp at h

/-- The nonterminals of expressions and statements. -/
def inner : NT → Bool
  | .target | .expression | .binary _ | .unary | .call | .primary | .arguments | .elements | .entries | .statement
  | .forCondition | .forIncrement | .forInit => true
  | _ => false

theorem inner_above (p : Prec) : inner p.above = true := by cases p <;> rfl

local macro "nofun" : tactic => `(tactic| first
  | exact notElse_of ‹_› (by decide)
  | exact notElse_prefix ‹_› (by decide)
  | exact notElse_key ‹_› (by decide)
  | exact notElse_paren ‹_› (by decide)
  | exact notElse_variable ‹_› (by decide))

theorem funParen_expression (h : Grammar repl l nt w v) : inner nt = true → FunParen w := by
  induction h
  case function_literal l t w d ht hw ih =>
    intro _ t' r e _
    cases e
    exact function_paren hw
  case operand p _ _ h ih => exact fun _ => ih (inner_above p)
  all_goals intro hi
  all_goals first
    | cases hi; done
    | exact ‹_ → FunParen _› rfl
    | exact funParen_append (‹_ → FunParen _› rfl) (grammar_ne ‹_› rfl)
    | (rw [List.append_assoc]; exact funParen_append (‹_ → FunParen _› rfl) (grammar_ne ‹_› rfl))
    | exact funParen_other (by nofun)
    | (intro _ _ e; cases e; done)

theorem braced_fun {t i p q o c : Token} {w₁ w b u z : List Token} {st : Stmt} (ht : t.tokenType = .fun) (hi : i.tokenType = .identifier)
    (hw₁ : WellNested w₁) (hq : q.tokenType = .rightParen) (ho : o.tokenType = .leftBrace) (hw : WellNested w)
    (hc : c.tokenType = .rightBrace)
    (h : Grammar repl l .declaration u (.stmt st)) (e : t :: i :: p :: (w₁ ++ q :: o :: (w ++ c :: b)) = u ++ z) : z = b := by
  cases h
  case fun_decl h1 h2 =>
    cases h2 with
    | named h3 h4 =>
      simp only [List.cons_append, List.cons.injEq] at e
      cases h4 with
      | function_empty h5 h6 h7 =>
        simp only [List.cons_append, List.cons.injEq] at e
        exact braced_block ho hw hc h7 (paren_group (w₁' := []) hq h6 hw₁ rfl e.2.2.2)
      | function h5 h6 h7 h8 =>
        simp only [List.cons_append, List.cons.injEq, List.append_assoc] at e
        exact braced_block ho hw hc h8 (paren_group hq h7 hw₁ (grammar_nested h6) e.2.2.2)
  case declaration h1 =>
    exfalso
    cases u with
    | nil => exact grammar_ne h1 rfl rfl
    | cons t' u =>
      simp only [List.cons_append, List.cons.injEq] at e
      obtain ⟨rfl, e⟩ := e
      obtain ⟨p', r', rfl, hp⟩ := funParen_expression h1 rfl t u rfl ht
      simp only [List.cons_append, List.cons.injEq] at e
      obtain ⟨rfl, -⟩ := e
      exact notElse_paren hp (by decide) hi
  all_goals simp only [List.cons_append, List.cons.injEq] at e
  all_goals (obtain ⟨rfl, -⟩ := e; simp_all)

theorem braced_class {t n o c : Token} {s w b u z : List Token} {st : Stmt} (ht : t.tokenType = .class)
    (hs : s = [] ∨ ∃ lt i, s = [lt, i] ∧ lt.tokenType = .less) (ho : o.tokenType = .leftBrace) (hw : WellNested w)
    (hc : c.tokenType = .rightBrace)
    (h : Grammar repl l .declaration u (.stmt st)) (e : t :: n :: (s ++ o :: (w ++ c :: b)) = u ++ z) : z = b := by
  cases h
  case class_braces h1 h2 h3 h5 h4 =>
    simp only [List.cons_append, List.cons.injEq, List.append_assoc] at e
    obtain ⟨-, -, e⟩ := e
    rcases hs with rfl | ⟨lt, i, rfl, hlt⟩
    · simp only [List.nil_append, List.cons.injEq] at e
      exact (group_unique hw (grammar_nested h4) (by rw [hc]; rfl) (by rw [h5]; rfl) e.2).2.2.symm
    · simp only [List.cons_append, List.cons.injEq] at e
      obtain ⟨rfl, -⟩ := e
      rw [hlt] at h3
      cases h3
  case class_indented h1 h2 h3 h4 h5 h6 =>
    simp only [List.cons_append, List.cons.injEq, List.append_assoc] at e
    obtain ⟨-, -, e⟩ := e
    rcases hs with rfl | ⟨lt, i, rfl, hlt⟩
    · simp only [List.nil_append, List.cons.injEq] at e
      obtain ⟨rfl, -⟩ := e
      rw [ho] at h3
      cases h3
    · simp only [List.cons_append, List.cons.injEq] at e
      obtain ⟨rfl, -⟩ := e
      rw [hlt] at h3
      cases h3
  case subclass_braces h1 h2 h3 h4 h5 h7 h6 =>
    simp only [List.cons_append, List.cons.injEq, List.append_assoc] at e
    obtain ⟨-, -, e⟩ := e
    rcases hs with rfl | ⟨lt, i, rfl, hlt⟩
    · simp only [List.nil_append, List.cons.injEq] at e
      obtain ⟨rfl, -⟩ := e
      rw [ho] at h3
      cases h3
    · simp only [List.cons_append, List.nil_append, List.cons.injEq] at e
      exact (group_unique hw (grammar_nested h6) (by rw [hc]; rfl) (by rw [h7]; rfl) e.2.2.2).2.2.symm
  case subclass_indented h1 h2 h3 h4 h5 h6 h7 h8 =>
    simp only [List.cons_append, List.cons.injEq, List.append_assoc] at e
    obtain ⟨-, -, e⟩ := e
    rcases hs with rfl | ⟨lt, i, rfl, hlt⟩
    · simp only [List.nil_append, List.cons.injEq] at e
      obtain ⟨rfl, -⟩ := e
      rw [ho] at h3
      cases h3
    · simp only [List.cons_append, List.nil_append, List.cons.injEq] at e
      obtain ⟨-, -, rfl, -⟩ := e
      rw [ho] at h5
      cases h5
  case declaration h1 =>
    exfalso
    cases u with
    | nil => exact grammar_ne h1 rfl rfl
    | cons t' u =>
      simp only [List.cons_append, List.cons.injEq] at e
      obtain ⟨rfl, e⟩ := e
      exact first_ne h1 (by decide) ht
  all_goals simp only [List.cons_append, List.cons.injEq] at e
  all_goals (obtain ⟨rfl, -⟩ := e; simp_all)

end Ws
