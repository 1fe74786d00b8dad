import Verif.Proofs.Parse.FunEnd
/-! What follows a function expression, wherever it is. -/
namespace Ws
open Spec

variable {l : Bool} {nt : NT} {w : List Token} {v : Tree}

theorem openVar_before {a f : List Token} (h : EndsOpenVar a f) (b : List Token) : EndsOpenVar (b ++ a) f := by
  obtain ⟨x, t, n, q, term, h, y, l, e, rfl, hr⟩ := h
  exact ⟨b ++ x, t, n, q, term, h, y, l, e, by simp, hr⟩

/-- The tokens that can follow an expression, or go on with it. -/
def afterExpr (k : TokenType) : Prop := ContinuesExpr k ∨ EndsExpr k ∨ k = .terminator

instance : DecidablePred ContinuesExpr := fun _ => by unfold ContinuesExpr; infer_instance
instance : DecidablePred EndsExpr := fun _ => by unfold EndsExpr; infer_instance
instance : DecidablePred afterExpr := fun _ => by unfold afterExpr; infer_instance

/-- Every `fun` without a name begins a function expression, after which comes a token that can follow an
expression. At the end of the tokens there can be one only if `strict` is false. -/
def FunsEnd (strict : Bool) (w : List Token) : Prop :=
  ∀ a t b, w = a ++ t :: b → t.tokenType = .fun → (∃ n c, b = n :: c ∧ n.tokenType = .identifier) ∨
    ∃ l w₀ z d, b = w₀ ++ z ∧ Grammar false l (.function t.loc) w₀ (.fn d) ∧
      (EndsOpenVar a (t :: w₀) ∨ (∀ y, z.head? = some y → afterExpr y.tokenType) ∧ (strict = true → z ≠ []))

theorem FunsEnd.loosen {s : Bool} {w : List Token} (h : FunsEnd true w) : FunsEnd s w := by
  intro a t b e ht
  rcases h a t b e ht with h | ⟨l, w₀, z, d, h1, h2, h3⟩
  · exact .inl h
  · exact .inr ⟨l, w₀, z, d, h1, h2, h3.imp_right fun h => ⟨h.1, fun _ => h.2 rfl⟩⟩

theorem funs_nil {s : Bool} : FunsEnd s [] := by rintro a t b h; simp at h

/-- Tokens before, without a function at their end. -/
theorem funs_later {s : Bool} {u w c b : List Token} {t : Token} (hw : FunsEnd s w) (e : w = c ++ t :: b) (ht : t.tokenType = .fun) :
    (∃ n c, b = n :: c ∧ n.tokenType = .identifier) ∨
    ∃ l w₀ z d, b = w₀ ++ z ∧ Grammar false l (.function t.loc) w₀ (.fn d) ∧
      (EndsOpenVar (u ++ c) (t :: w₀) ∨ (∀ y, z.head? = some y → afterExpr y.tokenType) ∧ (s = true → z ≠ [])) := by
  rcases hw c t b e ht with h | ⟨l, w₀, z, d, h1, h2, h3⟩
  · exact .inl h
  · exact .inr ⟨l, w₀, z, d, h1, h2, h3.imp_left fun h => openVar_before h u⟩

theorem funs_cons {s : Bool} {t : Token} {w : List Token} (h : t.tokenType ≠ .fun) (hw : FunsEnd s w) : FunsEnd s (t :: w) := by
  intro a u b e hu
  cases a with
  | nil => simp only [List.nil_append, List.cons.injEq] at e; obtain ⟨rfl, rfl⟩ := e; exact absurd hu h
  | cons y a =>
    simp only [List.cons_append, List.cons.injEq] at e
    exact funs_later (u := [y]) hw e.2 hu

/-- Tokens after tokens. -/
theorem funs_append {s s' : Bool} {u w : List Token} (hu : FunsEnd s' u) (hw : FunsEnd s w)
    (h : s' = true ∨ (∀ y, w.head? = some y → afterExpr y.tokenType) ∧ (s = true → w ≠ [])) : FunsEnd s (u ++ w) := by
  intro a t b e ht
  rcases List.append_eq_append_iff.1 e with ⟨c, rfl, e'⟩ | ⟨c, rfl, e'⟩
  · exact funs_later hw e' ht
  · cases c with
    | nil => simpa using funs_later (u := a) hw (c := []) (by simpa using e'.symm) ht
    | cons y c =>
      simp only [List.cons_append, List.cons.injEq] at e'
      obtain ⟨rfl, rfl⟩ := e'
      rcases hu a t c rfl ht with ⟨n, x, rfl, hn⟩ | ⟨l, w₀, z, d, rfl, h2, h3⟩
      · exact .inl ⟨n, x ++ w, rfl, hn⟩
      · refine .inr ⟨l, w₀, z ++ w, d, by simp, h2, h3.imp_right fun ⟨h3, h4⟩ => ⟨?_, ?_⟩⟩
        · cases z with
          | nil =>
            rcases h with h | h
            · exact absurd rfl (h4 h)
            · exact h.1
          | cons y z => exact h3
        · intro hs
          rcases h with h | h
          · have := h4 h; simp [this]
          · have := h.2 hs; simp [this]

theorem funs_opt {s : Bool} {tt : TokenType} {w : List Token} (h : Optional tt w) (hf : tt ≠ .fun) : FunsEnd s w := by
  rcases h with rfl | ⟨t, ht, rfl⟩
  · exact funs_nil
  · exact funs_cons (by rw [ht]; exact hf) funs_nil

theorem funs_sep {s : Bool} {w : List Token} (h : OptionalSeparator w) : FunsEnd s w := by
  rcases h with rfl | ⟨t, ht, rfl⟩
  · exact funs_nil
  · exact funs_cons (by rcases ht with h | h <;> rw [h] <;> decide) funs_nil

/-- The nonterminals after which no expression can be open. -/
def closedNT : NT → Bool
  | .statement | .declaration | .declarations | .block | .body | .function _ | .named | .methods | .forInit | .parameters => true
  | _ => false

/-- A function with its name. -/
theorem funs_named {t : Token} {w : List Token} (hw : FunsEnd true w) (h : ∃ n c, w = n :: c ∧ n.tokenType = .identifier) : FunsEnd true (t :: w) := by
  intro a u b e hu
  cases a with
  | nil => simp only [List.nil_append, List.cons.injEq] at e; obtain ⟨rfl, rfl⟩ := e; exact .inl h
  | cons y a =>
    simp only [List.cons_append, List.cons.injEq] at e
    exact funs_later (u := [y]) hw e.2 hu

theorem funs_literal {t : Token} {w : List Token} {d} (hg : Grammar false l (.function t.loc) w (.fn d)) (hw : FunsEnd true w) : FunsEnd false (t :: w) := by
  intro a u b e hu
  cases a with
  | nil =>
    simp only [List.nil_append, List.cons.injEq] at e
    obtain ⟨rfl, rfl⟩ := e
    exact .inr ⟨l, w, [], d, by simp, hg, .inr ⟨by simp, nofun⟩⟩
  | cons y a =>
    simp only [List.cons_append, List.cons.injEq] at e
    exact funs_later (u := [y]) hw.loosen e.2 hu

/-- The value of a variable, without a newline at the end. -/
theorem funs_openVar {t n q h : Token} {term w : List Token} {e : Expr} (ht : t.tokenType = .var) (hn : n.tokenType = .identifier)
    (hq : q.tokenType = .equal) (ho : Optional .terminator term) (hh : h.tokenType = .indent ∨ h.tokenType = .leftBrace)
    (hg : Grammar false l .expression (h :: w) (.expr e)) (hw : FunsEnd false (h :: w)) :
    FunsEnd true (t :: n :: q :: (term ++ h :: w)) := by
  have hv : FunsEnd true (t :: n :: q :: term) := by
    refine funs_cons (by rw [ht]; decide) (funs_cons (by rw [hn]; decide) (funs_cons (by rw [hq]; decide) (funs_opt ho (by decide))))
  intro a u b eq hu
  have eq' : (t :: n :: q :: term) ++ h :: w = a ++ u :: b := by rw [← eq]; simp
  have last : ∀ c, h :: w = c ++ u :: b → (∃ n c, b = n :: c ∧ n.tokenType = .identifier) ∨
      ∃ l w₀ z d, b = w₀ ++ z ∧ Grammar false l (.function u.loc) w₀ (.fn d) ∧
        (EndsOpenVar ((t :: n :: q :: term) ++ c) (u :: w₀) ∨ (∀ y, z.head? = some y → afterExpr y.tokenType) ∧ (true = true → z ≠ [])) := by
    intro c ec
    rcases funs_later (u := t :: n :: q :: term) hw ec hu with h' | ⟨l', w₀, z, d, rfl, h2, h3⟩
    · exact .inl h'
    · refine .inr ⟨l', w₀, z, d, rfl, h2, ?_⟩
      rcases h3 with h3 | ⟨h3, -⟩
      · exact .inl h3
      · cases z with
        | cons y z => exact .inr ⟨h3, fun _ => nofun⟩
        | nil =>
          left
          cases c with
          | nil =>
            simp only [List.nil_append, List.cons.injEq] at ec
            rw [ec.1, hu] at hh
            rcases hh with h | h <;> cases h
          | cons h' y =>
            simp only [List.append_nil, List.cons_append, List.cons.injEq] at ec
            obtain ⟨rfl, rfl⟩ := ec
            exact ⟨[], t, n, q, term, h, y, l, e, by simp, ht, hq, ho, hh, hg⟩
  rcases List.append_eq_append_iff.1 eq' with ⟨c, rfl, e'⟩ | ⟨c, e1, e'⟩
  · exact last c e'
  · cases c with
    | nil =>
      have := last [] (by simpa using e'.symm)
      rw [e1] at this
      simpa using this
    | cons y c =>
      -- the `fun` would be one of the first tokens
      exfalso
      simp only [List.cons_append, List.cons.injEq] at e'
      obtain ⟨rfl, -⟩ := e'
      have hm : u ∈ t :: n :: q :: term := by rw [e1]; simp
      simp only [List.mem_cons] at hm
      rcases hm with rfl | rfl | rfl | hm
      · rw [ht] at hu; cases hu
      · rw [hn] at hu; cases hu
      · rw [hq] at hu; cases hu
      · rcases ho with rfl | ⟨x, hx, rfl⟩
        · simp at hm
        · simp only [List.mem_cons, List.not_mem_nil, or_false] at hm
          subst hm
          rw [hx] at hu; cases hu

theorem named_begins {r : Bool} (h : Grammar r l .named w v) : ∃ n c, w = n :: c ∧ n.tokenType = .identifier := by
  cases h with | named h _ => exact ⟨_, _, rfl, h⟩

theorem follow_head {t : Token} {k : TokenType} {w : List Token} (h : t.tokenType = k) (hk : afterExpr k) : ∀ y, (t :: w).head? = some y → afterExpr y.tokenType := by
  rintro y ⟨⟩; rw [h]; exact hk

theorem follow_node {t : Token} {p : Prec} {w : List Token} {b} (h : p.node t.tokenType = some b) : ∀ y, (t :: w).head? = some y → afterExpr y.tokenType := by
  rintro y ⟨⟩; exact .inl (goesOn_node h)

theorem follow_argument {t : Token} {w : List Token} (h : startsArgument t.tokenType) : ∀ y, (t :: w).head? = some y → afterExpr y.tokenType := by
  rintro y ⟨⟩; exact .inl (goesOn_argument h)

theorem follow_is_separator {t : Token} {w : List Token} (h : IsSeparator t) : ∀ y, (t :: w).head? = some y → afterExpr y.tokenType := by
  rintro y ⟨⟩; rcases h with h | h <;> rw [h] <;> decide

theorem follow_optional {w : List Token} {k : TokenType} (h : Optional k w) (hk : afterExpr k) : ∀ y, w.head? = some y → afterExpr y.tokenType := by
  rcases h with rfl | ⟨t, ht, rfl⟩
  · simp
  · exact follow_head ht hk

theorem follow_separator {w : List Token} (h : OptionalSeparator w) : ∀ y, w.head? = some y → afterExpr y.tokenType := by
  rcases h with rfl | ⟨t, ht, rfl⟩
  · simp
  · exact follow_is_separator ht

local macro "follows" : tactic => `(tactic| first
  | exact follow_head ‹_› (by decide)
  | exact follow_node ‹_›
  | exact follow_argument ‹_›
  | exact follow_is_separator ‹_›
  | exact follow_optional ‹_› (by decide)
  | exact follow_separator ‹_›)

local macro "nofun" : tactic => `(tactic| first
  | exact notElse_of ‹_› (by decide)
  | exact notElse_node ‹_› (by decide)
  | exact notElse_prefix ‹_› (by decide)
  | exact notElse_key ‹_› (by decide)
  | exact notElse_paren ‹_› (by decide)
  | exact notElse_separator ‹_› (by decide)
  | exact notElse_variable ‹_› (by decide))

local macro "parts" : tactic => `(tactic| (
  repeat' first
    | exact funs_nil
    | assumption
    | exact FunsEnd.loosen (by assumption)
    | exact funs_sep ‹_›
    | exact funs_opt ‹_› (by decide)
    | refine funs_append (s' := false) ?_ ?_ (.inr ⟨by follows, by first | (exact nofun) | simp⟩)
    | refine funs_append (s' := true) ?_ ?_ (.inl rfl)
    | refine funs_cons (by nofun) ?_))

theorem closed_above (p : Prec) : closedNT p.above = false := by cases p <;> rfl

theorem grammar_funs (h : Grammar false l nt w v) : FunsEnd (closedNT nt) w := by
  induction h
  case function_literal ht hw ih => exact funs_literal hw ih
  case fun_decl ht hw ih => exact funs_named ih (named_begins hw)
  case expression_repl h _ _ _ => cases h
  case for_expression_repl h _ _ => cases h
  case operand p _ _ _ ih => rw [closed_above] at ih; exact ih
  case operator p _ _ _ _ _ _ _ hp _ ih1 ih2 =>
    rw [closed_above] at ih2
    exact funs_append ih1 (funs_cons (by nofun) ih2) (.inr ⟨by follows, nofun⟩)
  case call_bare hs h2 ih1 ih2 => exact funs_append ih1 ih2 (.inr ⟨by follows, nofun⟩)
  case var_init h1 h2 h3 h4 h5 h6 h7 ih =>
    rcases h6 with rfl | ⟨x, hx, rfl⟩
    · have := funs_openVar h1 h2 h3 h4 (h7 rfl) h5 ih
      simpa [closedNT] using this
    · simp only [closedNT] at ih ⊢
      parts
  all_goals simp only [closedNT] at *
  all_goals parts

end Ws
