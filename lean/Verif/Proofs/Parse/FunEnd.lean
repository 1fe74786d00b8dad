import Verif.Proofs.Parse.Newline
import Verif.Spec.FunEnd
/-! What follows function expressions. -/
namespace Ws
open Spec

variable {repl l : Bool} {nt : NT} {w : List Token} {v : Tree}

/-! ### Where `var`, `print` and `return` are -/

/-- The tokens `var`, `print` and `return`. -/
def takers : List TokenType := [.var, .print, .return]

/-- Every such token begins a declaration, or the head of a `for` loop. -/
def TakersBegin (repl : Bool) (w : List Token) : Prop :=
  ∀ a t b, w = a ++ t :: b → t.tokenType ∈ takers →
    ∃ l u z v, t :: b = u ++ z ∧ (Grammar repl l .declaration u v ∨ Grammar repl l .forInit u v)

theorem begins_nil : TakersBegin repl [] := by rintro a t b h; simp at h

theorem begins_append {u w : List Token} (hu : TakersBegin repl u) (hw : TakersBegin repl w) : TakersBegin repl (u ++ w) := by
  intro a t b h ht
  rcases List.append_eq_append_iff.1 h with ⟨c, rfl, e⟩ | ⟨c, rfl, e⟩
  · exact hw c t b e ht
  · cases c with
    | nil => exact hw [] t b (by simpa using e.symm) ht
    | cons y c =>
      simp only [List.cons_append, List.cons.injEq] at e
      obtain ⟨rfl, rfl⟩ := e
      obtain ⟨l, u, z, v, e, hg⟩ := hu a t c rfl ht
      exact ⟨l, u, z ++ w, v, by rw [← List.append_assoc, ← e]; rfl, hg⟩

theorem begins_cons {t : Token} {w : List Token} (h : t.tokenType ∉ takers) (hw : TakersBegin repl w) : TakersBegin repl (t :: w) := by
  intro a u b e hu
  cases a with
  | nil => simp only [List.nil_append, List.cons.injEq] at e; obtain ⟨rfl, rfl⟩ := e; exact absurd hu h
  | cons y a => simp only [List.cons_append, List.cons.injEq] at e; exact hw a u b e.2 hu

theorem begins_head {t : Token} {w : List Token} {v : Tree} (h : Grammar repl l .declaration (t :: w) v ∨ Grammar repl l .forInit (t :: w) v)
    (hw : TakersBegin repl w) : TakersBegin repl (t :: w) := by
  intro a u b e hu
  cases a with
  | nil =>
    simp only [List.nil_append, List.cons.injEq] at e
    obtain ⟨rfl, rfl⟩ := e
    exact ⟨l, _, [], v, by simp, h⟩
  | cons y a => simp only [List.cons_append, List.cons.injEq] at e; exact hw a u b e.2 hu

theorem begins_optional {tt : TokenType} {w : List Token} (h : Optional tt w) (hf : tt ∉ takers) : TakersBegin repl w := by
  rcases h with rfl | ⟨t, ht, rfl⟩
  · exact begins_nil
  · exact begins_cons (by rw [ht]; exact hf) begins_nil

theorem begins_separator {w : List Token} (h : OptionalSeparator w) : TakersBegin repl w := by
  rcases h with rfl | ⟨t, ht, rfl⟩
  · exact begins_nil
  · exact begins_cons (by rcases ht with h | h <;> rw [h] <;> decide) begins_nil

theorem taker_of {t : Token} (h : ∀ k ∈ takers, t.tokenType ≠ k) : t.tokenType ∉ takers := fun hm => h _ hm rfl

local macro "closed" : tactic => `(tactic| first
  | (rw [‹_ = (_ : TokenType)›]; decide)
  | (exact taker_of fun k hk => notElse_of ‹_› (by revert k; decide))
  | (exact taker_of fun k hk => notElse_node ‹_› (by revert k; decide))
  | (exact taker_of fun k hk => notElse_prefix ‹_› (by revert k; decide))
  | (exact taker_of fun k hk => notElse_key ‹_› (by revert k; decide))
  | (exact taker_of fun k hk => notElse_paren ‹_› (by revert k; decide))
  | (exact taker_of fun k hk => notElse_separator ‹_› (by revert k; decide))
  | (exact taker_of fun k hk => notElse_variable ‹_› (by revert k; decide)))

local macro "pieces" : tactic => `(tactic| (
  repeat' first
    | exact begins_nil
    | assumption
    | exact begins_separator ‹_›
    | exact begins_optional ‹_› (by decide)
    | apply begins_append
    | (refine begins_cons (by closed) ?_)))

theorem grammar_begins (h : Grammar repl l nt w v) : TakersBegin repl w := by
  induction h
  case var h1 h2 h3 => exact begins_head (l := false) (.inl (.var h1 h2 h3)) (by pieces)
  case var_init h1 h2 h3 h4 h5 h6 h7 ih => exact begins_head (.inl (.var_init h1 h2 h3 h4 h5 h6 h7)) (by pieces)
  case print h1 h2 h3 ih => exact begins_head (.inl (.declaration (.print h1 h2 h3))) (by pieces)
  case return_nil h1 h2 => exact begins_head (l := false) (.inl (.declaration (.return_nil h1 h2))) (by pieces)
  case «return» h1 h2 h3 ih => exact begins_head (.inl (.declaration (.return h1 h2 h3))) (by pieces)
  case for_var h1 h2 h3 => exact begins_head (l := false) (.inr (.for_var h1 h2 h3)) (by pieces)
  case for_var_init h1 h2 h3 h4 h5 h6 ih => exact begins_head (.inr (.for_var_init h1 h2 h3 h4 h5 h6)) (by pieces)
  all_goals pieces

/-! ### What follows a function expression at the beginning of an expression -/

/-- The nonterminals of expressions. -/
def isExpr : NT → Bool
  | .target | .expression | .binary _ | .unary | .call | .primary => true
  | _ => false

theorem isExpr_above (p : Prec) : isExpr p.above = true := by cases p <;> rfl

/-- If the tokens begin with `fun`, then they begin with a function expression, and go on with a token that
goes on with an expression. -/
def FunFirst (repl l : Bool) (w : List Token) : Prop := ∀ t r, w = t :: r → t.tokenType = .fun →
  ∃ w₀ z d, r = w₀ ++ z ∧ Grammar repl l (.function t.loc) w₀ (.fn d) ∧ ∀ y, z.head? = some y → ContinuesExpr y.tokenType

theorem funFirst_append {u w : List Token} (h : FunFirst repl l u) (hu : u ≠ []) (hw : ∀ y, w.head? = some y → ContinuesExpr y.tokenType) :
    FunFirst repl l (u ++ w) := by
  intro t r e ht
  cases u with
  | nil => exact absurd rfl hu
  | cons x u =>
    simp only [List.cons_append, List.cons.injEq] at e
    obtain ⟨rfl, rfl⟩ := e
    obtain ⟨w₀, z, d, rfl, hg, hz⟩ := h x u rfl ht
    refine ⟨w₀, z ++ w, d, by simp, hg, ?_⟩
    cases z with
    | nil => exact hw
    | cons y z => exact hz

theorem funFirst_other {t : Token} {w : List Token} (h : t.tokenType ≠ .fun) : FunFirst repl l (t :: w) := by
  intro t' r e ht
  cases e
  exact absurd ht h

theorem goesOn_argument {k : TokenType} (h : startsArgument k) : ContinuesExpr k := by
  simp only [startsArgument, List.mem_cons, List.not_mem_nil, or_false] at h
  rcases h with h | h | h | h | h | h | h | h | h | h <;> rw [h] <;> simp [ContinuesExpr]

theorem goesOn_node {p : Prec} {k : TokenType} {b} (h : p.node k = some b) : ContinuesExpr k := by
  cases p <;> cases k <;> simp [Prec.node] at h <;> simp [ContinuesExpr]

theorem head_goesOn {t : Token} {w : List Token} (h : ContinuesExpr t.tokenType) : ∀ y, (t :: w).head? = some y → ContinuesExpr y.tokenType := by
  rintro y ⟨⟩; exact h

local macro "nofun" : tactic => `(tactic| first
  | exact notElse_of ‹_› (by decide)
  | exact notElse_prefix ‹_› (by decide)
  | exact notElse_key ‹_› (by decide)
  | exact notElse_paren ‹_› (by decide)
  | exact notElse_variable ‹_› (by decide))

theorem entries_first (h : Grammar repl l nt w v) : nt = .entries → ∀ t r, w = t :: r → t.tokenType ≠ .fun := by
  induction h
  case entry hk _ _ _ => rintro - t r e; cases e; exact notElse_key hk (by decide)
  case entries w _ _ _ _ _ _ _ h1 _ _ _ _ _ ih _ =>
    rintro - t r e
    cases w with
    | nil => exact absurd rfl (grammar_ne h1 rfl)
    | cons x w => cases e; exact ih rfl t w rfl
  all_goals (intro e; cases e)

theorem grammar_funFirst (h : Grammar repl l nt w v) : isExpr nt = true → FunFirst repl l w := by
  induction h
  case function_literal l t w d ht hw ih =>
    intro _ t' r e _
    cases e
    exact ⟨w, [], d, by simp, hw, by simp⟩
  case operand p _ _ h ih => exact fun _ => ih (isExpr_above p)
  case operator h1 hp h2 ih1 ih2 => exact fun _ => funFirst_append (ih1 rfl) (grammar_ne h1 rfl) (head_goesOn (goesOn_node hp))
  case assignment h1 hq h2 _ ih1 ih2 => exact fun _ => funFirst_append (ih1 rfl) (grammar_ne h1 rfl) (head_goesOn (by rw [hq]; simp [ContinuesExpr]))
  case call_bare h1 hs h2 ih1 ih2 => exact fun _ => funFirst_append (ih1 rfl) (grammar_ne h1 rfl) (head_goesOn (goesOn_argument hs))
  case property h1 hd _ ih1 => exact fun _ => funFirst_append (ih1 rfl) (grammar_ne h1 rfl) (head_goesOn (by rw [hd]; simp [ContinuesExpr]))
  case call_empty h1 hd _ ih1 => exact fun _ => funFirst_append (ih1 rfl) (grammar_ne h1 rfl) (head_goesOn (by rw [hd]; simp [ContinuesExpr]))
  case call_args h1 hd _ _ ih1 _ =>
    intro _
    rw [List.append_assoc]
    exact funFirst_append (ih1 rfl) (grammar_ne h1 rfl) (head_goesOn (by rw [hd]; simp [ContinuesExpr]))
  case index h1 hd _ _ ih1 _ =>
    intro _
    rw [List.append_assoc]
    exact funFirst_append (ih1 rfl) (grammar_ne h1 rfl) (head_goesOn (by rw [hd]; simp [ContinuesExpr]))
  case map_bare w ms s h1 h2 ih =>
    intro _ t r e ht
    cases w with
    | nil => exact absurd rfl (grammar_ne h1 rfl)
    | cons x w =>
      simp only [List.cons_append, List.cons.injEq] at e
      obtain ⟨rfl, -⟩ := e
      exact absurd ht (entries_first h1 rfl _ _ rfl)
  all_goals intro hi
  all_goals first
    | cases hi; done
    | exact ‹_ → FunFirst _ _ _› rfl
    | exact funFirst_other (by nofun)
    | (intro _ _ e; cases e; done)

/-! ### Where an indented function expression ends -/

theorem indented_block {n i o : Token} {w b w₃ z : List Token} (hn : n.tokenType = .terminator) (hw : WellNested w)
    (ho : o.tokenType = .outdent) {v} (hb : Grammar repl l .block w₃ v) (e : n :: i :: (w ++ o :: b) = w₃ ++ z) : z = b := by
  cases hb with
  | block_braces h1 _ _ =>
    simp only [List.cons_append, List.cons.injEq] at e
    obtain ⟨rfl, -⟩ := e
    rw [hn] at h1
    cases h1
  | block_indented h1 h2 h3 h4 =>
    simp only [List.cons_append, List.cons.injEq, List.append_assoc] at e
    exact (group_unique hw (grammar_nested h3) (by rw [ho]; rfl) (by rw [h4]; rfl) e.2.2).2.2.symm

theorem indented_function {loc : SourceLoc} {p q n i o : Token} {w₁ w b w₀ z : List Token} {d}
    (hw₁ : WellNested w₁) (hq : q.tokenType = .rightParen) (hn : n.tokenType = .terminator) (hw : WellNested w) (ho : o.tokenType = .outdent)
    (h : Grammar repl l (.function loc) w₀ d) (e : p :: (w₁ ++ q :: n :: i :: (w ++ o :: b)) = w₀ ++ z) : z = b := by
  cases h with
  | function_empty h5 h6 h7 =>
    simp only [List.cons_append, List.cons.injEq] at e
    exact indented_block hn hw ho h7 (paren_group (w₁' := []) hq h6 hw₁ rfl e.2)
  | function h5 h6 h7 h8 =>
    simp only [List.cons_append, List.cons.injEq, List.append_assoc] at e
    exact indented_block hn hw ho h8 (paren_group hq h7 hw₁ (grammar_nested h6) e.2)

/-- An expression that begins with the tokens of an indented function expression ends there, or goes on. -/
theorem indented_expression {f b x y : List Token} {v} (hf : IndentedFun f) (h : Grammar repl l .expression x v) (hx : x ≠ []) (e : f ++ b = x ++ y) :
    ∃ z, b = z ++ y ∧ ∀ y, z.head? = some y → ContinuesExpr y.tokenType := by
  obtain ⟨ht, -, hw₁, hq, hn, hi, hw, ho⟩ := hf
  rename_i t p q n i o w₁ w
  cases x with
  | nil => exact absurd rfl hx
  | cons t' x =>
    simp only [List.cons_append, List.cons.injEq, List.append_assoc] at e
    obtain ⟨rfl, e⟩ := e
    obtain ⟨w₀, z, d, rfl, hg, hz⟩ := grammar_funFirst h rfl t x rfl ht
    rw [List.append_assoc] at e
    exact ⟨z, (indented_function hw₁ hq hn hw ho hg (by simpa using e)).symm, hz⟩

end Ws
