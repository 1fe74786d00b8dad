import Verif.Proofs.Parse.FunAfter
import Verif.Properties.Parser
import Verif.Properties.Scanner
/-! Property C76. -/
namespace Ws.Properties
open Ws Spec

variable {env : Env} {source : Str} {repl : Bool}

/-- An expression that begins with an indented function expression cannot be followed by a newline or
a semicolon, if what follows the function expression neither goes on with the expression nor is that token. -/
theorem fun_end {l : Bool} {f r x y : List Token} {c : Token} {v : Tree} (hf : IndentedFun f)
    (hr : ∀ k, r.head? = some k → ¬ ContinuesExpr k.tokenType ∧ k.tokenType ≠ .semicolon ∧ k.tokenType ≠ .terminator)
    (hg : Grammar repl l .expression x v) (hc : c.tokenType = .terminator ∨ c.tokenType = .semicolon) : f ++ r ≠ x ++ c :: y := by
  intro e
  obtain ⟨z, rfl, hz⟩ := indented_expression hf hg (grammar_ne hg rfl) e
  cases z with
  | nil =>
    obtain ⟨-, h1, h2⟩ := hr c rfl
    rcases hc with h | h
    · exact h2 h
    · exact h1 h
  | cons k z => exact (hr k rfl).1 (hz k rfl)

theorem fun_head {f : List Token} (h : IndentedFun f) : ∃ t w, f = t :: w ∧ t.tokenType = .fun := by
  cases h with | mk h => exact ⟨_, _, rfl, h⟩

theorem print_end {l : Bool} {t : Token} {f r u z : List Token} {v : Tree} (ht : t.tokenType = .print) (hf : IndentedFun f)
    (hr : ∀ k, r.head? = some k → ¬ ContinuesExpr k.tokenType ∧ k.tokenType ≠ .semicolon ∧ k.tokenType ≠ .terminator)
    (hg : Grammar repl l .declaration u v ∨ Grammar repl l .forInit u v) : t :: (f ++ r) ≠ u ++ z := by
  intro e
  have hne : u ≠ [] := by rcases hg with h | h <;> exact grammar_ne h rfl
  obtain ⟨t', u, rfl⟩ := List.exists_cons_of_ne_nil hne
  simp only [List.cons_append, List.cons.injEq] at e
  obtain ⟨rfl, e⟩ := e
  rcases hg with h | h
  · cases h with
    | declaration h =>
      cases h with
      | print h1 h2 h3 => exact fun_end hf hr h2 (.inl h3) (by simpa using e)
      | expression_statement h1 => exact first_ne h1 (k := .print) (by decide) ht
      | expression_repl _ h1 => exact first_ne h1 (k := .print) (by decide) ht
      | _ => rw [ht] at *; contradiction
    | _ => rw [ht] at *; contradiction
  · exact first_ne h (k := .print) (by decide) ht

theorem return_end {l : Bool} {t : Token} {f r u z : List Token} {v : Tree} (ht : t.tokenType = .return) (hf : IndentedFun f)
    (hr : ∀ k, r.head? = some k → ¬ ContinuesExpr k.tokenType ∧ k.tokenType ≠ .semicolon ∧ k.tokenType ≠ .terminator)
    (hg : Grammar repl l .declaration u v ∨ Grammar repl l .forInit u v) : t :: (f ++ r) ≠ u ++ z := by
  intro e
  have hne : u ≠ [] := by rcases hg with h | h <;> exact grammar_ne h rfl
  obtain ⟨t', u, rfl⟩ := List.exists_cons_of_ne_nil hne
  simp only [List.cons_append, List.cons.injEq] at e
  obtain ⟨rfl, e⟩ := e
  rcases hg with h | h
  · cases h with
    | declaration h =>
      cases h with
      | «return» h1 h2 h3 => exact fun_end hf hr h2 (.inl h3) (by simpa using e)
      | return_nil h1 h2 =>
        obtain ⟨g, w, rfl, hg⟩ := fun_head hf
        simp only [List.cons_append, List.cons.injEq] at e
        obtain ⟨rfl, -⟩ := e
        rw [hg] at h2
        cases h2
      | expression_statement h1 => exact first_ne h1 (k := .return) (by decide) ht
      | expression_repl _ h1 => exact first_ne h1 (k := .return) (by decide) ht
      | _ => rw [ht] at *; contradiction
    | _ => rw [ht] at *; contradiction
  · exact first_ne h (k := .return) (by decide) ht

/-- No newline is before a function expression. -/
theorem fun_no_newline {f r w term : List Token} (hf : IndentedFun f) (ho : Optional .terminator term) (e : f ++ r = term ++ w) : term = [] := by
  rcases ho with rfl | ⟨t, ht, rfl⟩
  · rfl
  · obtain ⟨g, w, rfl, hg⟩ := fun_head hf
    obtain ⟨rfl, -⟩ := List.cons.inj e
    rw [hg] at ht
    cases ht

/-- Tokens that begin with `var` are not those of an expression or a statement. -/
theorem var_first {l : Bool} {t : Token} {r u z : List Token} {nt : NT} {v : Tree} (ht : t.tokenType = .var)
    (hg : Grammar repl l nt u v) (hn : nullable nt = false) (hv : .var ∉ first nt) : t :: r ≠ u ++ z := by
  intro e
  obtain ⟨x, u, rfl⟩ := List.exists_cons_of_ne_nil (grammar_ne hg hn)
  simp only [List.cons_append, List.cons.injEq] at e
  obtain ⟨rfl, -⟩ := e
  exact first_ne hg hv ht

theorem var_end {l : Bool} {t n q : Token} {f r u z : List Token} {v : Tree} (ht : t.tokenType = .var) (hq : q.tokenType = .equal) (hf : IndentedFun f)
    (hr : ∀ k, r.head? = some k → ¬ ContinuesExpr k.tokenType ∧ k.tokenType ≠ .semicolon ∧ k.tokenType ≠ .terminator)
    (hg : Grammar repl l .declaration u v ∨ Grammar repl l .forInit u v) : t :: n :: q :: (f ++ r) ≠ u ++ z := by
  intro e
  rcases hg with h | h
  · cases h with
    | declaration h => exact var_first ht h rfl (by decide) e
    | var _ h2 h3 =>
      simp only [List.cons_append, List.cons.injEq] at e
      obtain ⟨-, -, rfl, -⟩ := e
      rw [hq] at h3
      cases h3
    | var_init h1 h2 h3 h4 h5 h6 h7 =>
      simp only [List.cons_append, List.cons.injEq, List.append_assoc] at e
      have := fun_no_newline hf h4 e.2.2.2
      subst this
      rcases h6 with rfl | ⟨c, hc, rfl⟩
      · obtain ⟨g, w, rfl, hg⟩ := fun_head hf
        have e := e.2.2.2
        simp only [List.nil_append, List.cons_append, List.cons.injEq] at e
        obtain ⟨rfl, -⟩ := e
        rcases h7 rfl with h | h <;> rw [hg] at h <;> cases h
      · exact fun_end hf hr h5 (.inl hc) (y := z) (by simpa using e.2.2.2)
    | _ =>
      simp only [List.cons_append, List.cons.injEq] at e
      obtain ⟨rfl, -⟩ := e
      rw [ht] at *
      contradiction
  · cases h with
    | for_var _ h2 h3 =>
      simp only [List.cons_append, List.cons.injEq] at e
      obtain ⟨-, -, rfl, -⟩ := e
      rw [hq] at h3
      cases h3
    | for_var_init h1 h2 h3 h4 h5 h6 =>
      simp only [List.cons_append, List.cons.injEq, List.append_assoc] at e
      have := fun_no_newline hf h4 e.2.2.2
      subst this
      exact fun_end hf hr h5 (.inr h6) (y := z) (by simpa using e.2.2.2)
    | for_none h =>
      simp only [List.cons_append, List.cons.injEq] at e
      obtain ⟨rfl, -⟩ := e
      rw [ht] at h
      cases h
    | for_expression h _ => exact var_first ht h rfl (by decide) (by simpa using e)
    | for_expression_repl _ h => exact var_first ht h rfl (by decide) e

/-- No newline is after a function expression with an indented body. -/
theorem not_newline_after (hE : EnvLaws env) {a f b : List Token} {k : Token} (hf : IndentedFun f)
    (hs : scanTokens env source = .done (.ok (a ++ f ++ k :: b))) : k.tokenType ≠ .terminator := by
  intro hn
  obtain ⟨-, a', x, e', hx⟩ := terminator_after_proper hE hs rfl hn
  obtain ⟨f', o, rfl, ho⟩ : ∃ f' o, f = f' ++ [o] ∧ o.tokenType = .outdent := by
    cases hf with | mk _ _ _ _ _ _ _ ho => exact ⟨_, _, rfl, ho⟩
  rw [← List.append_assoc] at e'
  obtain ⟨-, e'⟩ := List.append_inj' e' rfl
  cases e'
  rw [ho] at hx
  exact hx (by simp)

/-- The tokens before the last. -/
theorem rest_of {u b ws : List Token} {k eof : Token} (e : u ++ k :: b = ws ++ [eof]) : ∃ r, ws = u ++ r ∧ ∀ y, r.head? = some y → y = k := by
  rcases List.append_eq_append_iff.1 e with ⟨c, rfl, e'⟩ | ⟨c, e₁, e₂⟩
  · refine ⟨c, rfl, ?_⟩
    cases c with
    | nil => simp
    | cons y c =>
      simp only [List.cons_append, List.cons.injEq] at e'
      obtain ⟨rfl, -⟩ := e'
      simp
  · cases c with
    | nil => exact ⟨[], by simpa using e₁.symm, by simp⟩
    | cons y c => simp at e₂

/-- C76 (negation): a source is rejected if it has, anywhere in it, a function expression with an
indented body after `var n =`, `print` or `return`, and the next token does not go on with the
expression and is not the semicolon of a `for` loop. -/
theorem indented_fun_end_rejected (hE : EnvLaws env) (hS : Fits env source) {a s f b : List Token} {k : Token}
    (hs : scanTokens env source = .done (.ok (a ++ s ++ f ++ k :: b))) (h : TakesValue s) (hf : IndentedFun f)
    (hk : ¬ ContinuesExpr k.tokenType) (hk' : k.tokenType ≠ .semicolon) : Rejects env repl source := by
  refine rejects_of hE hS hs ?_
  intro ws eof e sts hG
  have hn := not_newline_after hE hf hs
  obtain ⟨r, rfl, hr⟩ := rest_of e
  have hr' : ∀ y, r.head? = some y → ¬ ContinuesExpr y.tokenType ∧ y.tokenType ≠ .semicolon ∧ y.tokenType ≠ .terminator := by
    intro y hy
    rw [hr y hy]
    exact ⟨hk, hk', hn⟩
  cases h with
  | @var t n q ht hq =>
    obtain ⟨l, u, z, v, e, hg⟩ := grammar_begins hG a t (n :: q :: (f ++ r)) (by simp) (by rw [ht]; decide)
    exact var_end ht hq hf hr' hg e
  | @print t ht =>
    obtain ⟨l, u, z, v, e, hg⟩ := grammar_begins hG a t (f ++ r) (by simp) (by rw [ht]; decide)
    exact print_end ht hf hr' hg e
  | @«return» t ht =>
    obtain ⟨l, u, z, v, e, hg⟩ := grammar_begins hG a t (f ++ r) (by simp) (by rw [ht]; decide)
    exact return_end ht hf hr' hg e

/-- C76 (partial): in an accepted program what follows such a function expression goes on with the
expression, or is the semicolon of a `for` loop. -/
theorem indented_fun_goes_on_partial (hE : EnvLaws env) (hS : Fits env source) {a s f b : List Token} {k : Token} {sts : List Stmt}
    (ha : Accepts env repl source sts) (hs : scanTokens env source = .done (.ok (a ++ s ++ f ++ k :: b)))
    (h : TakesValue s) (hf : IndentedFun f) : ContinuesExpr k.tokenType ∨ k.tokenType = .semicolon := by
  refine Classical.byContradiction fun hc => ?_
  obtain ⟨c, hr⟩ := indented_fun_end_rejected (repl := repl) hE hS hs h hf (fun h => hc (.inl h)) (fun h => hc (.inr h))
  unfold Accepts at ha
  rw [ha] at hr
  simp at hr

/-- In what the grammar of files derives, such a function expression is followed by a token that goes on with
an expression or ends one, except in the values of variables after which no newline is needed. -/
theorem indented_fun_grammar {a f r : List Token} {v : Tree} (hG : Grammar false false .declarations (a ++ f ++ r) v) (hf : IndentedFun f)
    (ha : ¬ EndsOpenVar a f) (hr : ∀ k, r.head? = some k → ¬ ContinuesExpr k.tokenType ∧ ¬ EndsExpr k.tokenType ∧ k.tokenType ≠ .terminator) :
    False := by
  replace hG := grammar_funs hG
  obtain ⟨ht, hp, hw₁, hq, hn', hi, hw, ho⟩ := hf
  rename_i t p q n i o w₁ w
  rcases hG a t (p :: (w₁ ++ q :: n :: i :: (w ++ o :: r))) (by simp) ht with ⟨m, c, e, hm⟩ | ⟨l, w₀, z, d, e, hg, h⟩
  · simp only [List.cons.injEq] at e
    obtain ⟨rfl, -⟩ := e
    rcases hp with h | h <;> rw [h] at hm <;> cases hm
  · have hz := indented_function hw₁ hq hn' hw ho hg e
    subst hz
    rcases h with h | ⟨h, h'⟩
    · refine ha ?_
      have : p :: (w₁ ++ q :: n :: i :: (w ++ [o])) = w₀ := by
        refine List.append_cancel_right (bs := z) ?_
        rw [← e]; simp
      rw [← this] at h
      simpa using h
    · cases z with
      | nil => exact absurd rfl (h' rfl)
      | cons y z =>
        obtain ⟨hk, hk', hn⟩ := hr y rfl
        rcases h y rfl with h | h | h
        · exact hk h
        · exact hk' h
        · exact hn h

/-- C76 (negation): a script is rejected if it has a function expression with an indented body, wherever it
is and whatever it is part of, and the next token neither goes on with an expression nor is one that ends an
expression which is in something else. The only exception are the values of variables after which no newline
is needed. -/
theorem indented_fun_anywhere_rejected (hE : EnvLaws env) (hS : Fits env source) {a f b : List Token} {k : Token}
    (hs : scanTokens env source = .done (.ok (a ++ f ++ k :: b))) (hf : IndentedFun f) (ha : ¬ EndsOpenVar a f)
    (hk : ¬ ContinuesExpr k.tokenType) (hk' : ¬ EndsExpr k.tokenType) : Rejects env false source := by
  refine rejects_of hE hS hs ?_
  intro ws eof e sts hG
  have hn := not_newline_after hE hf hs
  obtain ⟨r, rfl, hr⟩ := rest_of e
  refine indented_fun_grammar hG hf ha fun y hy => ?_
  rw [hr y hy]
  exact ⟨hk, hk', hn⟩

/-- C76 (partial): in an accepted script what follows a function expression with an indented body goes on
with an expression or ends one which is in something else, except in such values of variables. -/
theorem indented_fun_anywhere_partial (hE : EnvLaws env) (hS : Fits env source) {a f b : List Token} {k : Token} {sts : List Stmt}
    (hacc : Accepts env false source sts) (hs : scanTokens env source = .done (.ok (a ++ f ++ k :: b))) (hf : IndentedFun f) :
    ContinuesExpr k.tokenType ∨ EndsExpr k.tokenType ∨ EndsOpenVar a f := by
  refine Classical.byContradiction fun hc => ?_
  obtain ⟨c, hr⟩ := indented_fun_anywhere_rejected hE hS hs hf (fun h => hc (.inr (.inr h))) (fun h => hc (.inl h)) (fun h => hc (.inr (.inl h)))
  unfold Accepts at hacc
  rw [hacc] at hr
  simp at hr

/-- A function with an indented body in a `var` declaration, and the same program with braces. -/
def indentedValue : Str := c!"var f = fun ()\n  a\nprint f\n"
def bracedValue : Str := c!"var f = fun () {a\n}\nprint f\n"

theorem indentedValue_scan : ∃ a s f k b, scanTokens asciiEnv indentedValue = .done (.ok (a ++ s ++ f ++ k :: b)) ∧ TakesValue s ∧ IndentedFun f ∧
    ¬ ContinuesExpr k.tokenType ∧ k.tokenType ≠ .semicolon :=
  ⟨[], [⟨.var, c!"var", none, none, 1, 1⟩, ⟨.identifier, c!"f", none, none, 1, 5⟩, ⟨.equal, c!"=", none, none, 1, 7⟩],
    ⟨.fun, c!"fun", none, none, 1, 9⟩ :: ⟨.leftParen, c!"(", none, none, 1, 13⟩ :: [] ++ ⟨.rightParen, c!")", none, none, 1, 14⟩ ::
      ⟨.terminator, c!"\n", none, none, 1, 15⟩ :: ⟨.indent, c!"a", none, none, 2, 3⟩ ::
      [⟨.identifier, c!"a", none, none, 2, 3⟩, ⟨.terminator, c!"\n", none, none, 2, 4⟩] ++ [⟨.outdent, c!"p", none, none, 3, 1⟩],
    ⟨.print, c!"print", none, none, 3, 1⟩,
    [⟨.identifier, c!"f", none, none, 3, 7⟩, ⟨.terminator, c!"\n", none, none, 3, 8⟩, ⟨.eof, c!"", none, none, 4, 1⟩], by by_kernel,
    .var rfl rfl, .mk rfl (.inl rfl) rfl rfl rfl rfl (by unfold WellNested; by_kernel) rfl, by simp [ContinuesExpr], by simp⟩

/-- C76 (negation): the program is rejected with the body indented, and accepted with the body in braces. -/
theorem indented_fun_value_false : Rejects asciiEnv false indentedValue ∧ Rejects asciiEnv true indentedValue ∧
    Accepts asciiEnv false bracedValue [.var c!"f" .placeholder (.function (.mk [] [.expression (.variable c!"a" .placeholder ⟨1, 17⟩)] .plainFunction ⟨1, 9⟩)) ⟨1, 5⟩,
      .print (.variable c!"f" .placeholder ⟨3, 7⟩)] := by
  obtain ⟨a, s, f, k, b, hs, h, hf, hk, hk'⟩ := indentedValue_scan
  have hF : Fits asciiEnv indentedValue := fits_of_small (by by_kernel)
  exact ⟨indented_fun_end_rejected asciiEnv_laws hF hs h hf hk hk', indented_fun_end_rejected asciiEnv_laws hF hs h hf hk hk',
    by unfold Accepts; by_kernel⟩

/-- C76 (negation): if the next line is an expression, it is read as the argument of a call of the function. -/
theorem indented_fun_next_line : Accepts asciiEnv false c!"var f = fun ()\n  a\nf()\n"
    [.var c!"f" .placeholder (.call (.function (.mk [] [.expression (.variable c!"a" .placeholder ⟨2, 3⟩)] .plainFunction ⟨1, 9⟩))
      [.call (.variable c!"f" .placeholder ⟨3, 1⟩) [] ⟨3, 2⟩] ⟨3, 1⟩) ⟨1, 5⟩] := by
  unfold Accepts
  by_kernel

/-- In an assignment, and as an argument of a call without parentheses at the end of the file. -/
def assignedFun : Str := c!"x = fun ()\n  a\nprint x\n"
def argumentFun : Str := c!"g fun ()\n  a\n"

theorem short_not_open {a f : List Token} (h : a.length < 4) : ¬ EndsOpenVar a f := by
  rintro ⟨x, t, n, q, term, c, y, l, e, rfl, -⟩
  simp at h
  omega

theorem assignedFun_scan : ∃ a f k b, scanTokens asciiEnv assignedFun = .done (.ok (a ++ f ++ k :: b)) ∧ IndentedFun f ∧ ¬ EndsOpenVar a f ∧
    ¬ ContinuesExpr k.tokenType ∧ ¬ EndsExpr k.tokenType :=
  ⟨[⟨.identifier, c!"x", none, none, 1, 1⟩, ⟨.equal, c!"=", none, none, 1, 3⟩],
    ⟨.fun, c!"fun", none, none, 1, 5⟩ :: ⟨.leftParen, c!"(", none, none, 1, 9⟩ :: [] ++ ⟨.rightParen, c!")", none, none, 1, 10⟩ ::
      ⟨.terminator, c!"\n", none, none, 1, 11⟩ :: ⟨.indent, c!"a", none, none, 2, 3⟩ ::
      [⟨.identifier, c!"a", none, none, 2, 3⟩, ⟨.terminator, c!"\n", none, none, 2, 4⟩] ++ [⟨.outdent, c!"p", none, none, 3, 1⟩],
    ⟨.print, c!"print", none, none, 3, 1⟩,
    [⟨.identifier, c!"x", none, none, 3, 7⟩, ⟨.terminator, c!"\n", none, none, 3, 8⟩, ⟨.eof, c!"", none, none, 4, 1⟩], by by_kernel,
    .mk rfl (.inl rfl) rfl rfl rfl rfl (by unfold WellNested; by_kernel) rfl, short_not_open (by simp), by simp [ContinuesExpr], by simp [EndsExpr]⟩

theorem argumentFun_scan : ∃ a f k b, scanTokens asciiEnv argumentFun = .done (.ok (a ++ f ++ k :: b)) ∧ IndentedFun f ∧ ¬ EndsOpenVar a f ∧
    ¬ ContinuesExpr k.tokenType ∧ ¬ EndsExpr k.tokenType :=
  ⟨[⟨.identifier, c!"g", none, none, 1, 1⟩],
    ⟨.fun, c!"fun", none, none, 1, 3⟩ :: ⟨.leftParen, c!"(", none, none, 1, 7⟩ :: [] ++ ⟨.rightParen, c!")", none, none, 1, 8⟩ ::
      ⟨.terminator, c!"\n", none, none, 1, 9⟩ :: ⟨.indent, c!"a", none, none, 2, 3⟩ ::
      [⟨.identifier, c!"a", none, none, 2, 3⟩, ⟨.terminator, c!"\n", none, none, 2, 4⟩] ++ [⟨.outdent, c!"", none, none, 3, 1⟩],
    ⟨.eof, c!"", none, none, 3, 1⟩, [], by by_kernel,
    .mk rfl (.inl rfl) rfl rfl rfl rfl (by unfold WellNested; by_kernel) rfl, short_not_open (by simp), by simp [ContinuesExpr], by simp [EndsExpr]⟩

/-- C76 (negation): an assignment, and a call without parentheses, of a function with an indented body are rejected. -/
theorem indented_fun_statement_false : Rejects asciiEnv false assignedFun ∧ Rejects asciiEnv false argumentFun := by
  obtain ⟨a, f, k, b, hs, hf, ha, hk, hk'⟩ := assignedFun_scan
  obtain ⟨a', f', k', b', hs', hf', ha', hk₂, hk₂'⟩ := argumentFun_scan
  exact ⟨indented_fun_anywhere_rejected asciiEnv_laws (fits_of_small (by by_kernel)) hs hf ha hk hk',
    indented_fun_anywhere_rejected asciiEnv_laws (fits_of_small (by by_kernel)) hs' hf' ha' hk₂ hk₂'⟩

/-- The exception is needed: after a value that begins with a brace the next line can be a statement. -/
theorem open_var_accepted : Accepts asciiEnv false c!"var m = {} fun ()\n  b\nprint m\n"
    [.var c!"m" .placeholder (.call (.literalMap []) [.function (.mk [] [.expression (.variable c!"b" .placeholder ⟨2, 3⟩)] .plainFunction ⟨1, 12⟩)] ⟨1, 12⟩) ⟨1, 5⟩,
      .print (.variable c!"m" .placeholder ⟨3, 7⟩)] := by
  unfold Accepts
  by_kernel

/-- In parentheses, and as the argument of a call in parentheses, the body can be indented. -/
example : (∃ sts, Accepts asciiEnv false c!"var f = (fun ()\n  a\n)\nf()\n" sts) ∧ ∃ sts, Accepts asciiEnv false c!"g(fun ()\n  a\n, b)\nf()\n" sts := by
  constructor
  · exact ⟨[.var c!"f" .placeholder (.grouping (.function (.mk [] [.expression (.variable c!"a" .placeholder ⟨2, 3⟩)] .plainFunction ⟨1, 10⟩))) ⟨1, 5⟩,
      .expression (.call (.variable c!"f" .placeholder ⟨4, 1⟩) [] ⟨4, 2⟩)], by unfold Accepts; by_kernel⟩
  · exact ⟨[.expression (.call (.variable c!"g" .placeholder ⟨1, 1⟩) [.function (.mk [] [.expression (.variable c!"a" .placeholder ⟨2, 3⟩)] .plainFunction ⟨1, 3⟩),
      .variable c!"b" .placeholder ⟨3, 3⟩] ⟨1, 2⟩), .expression (.call (.variable c!"f" .placeholder ⟨4, 1⟩) [] ⟨4, 2⟩)], by unfold Accepts; by_kernel⟩

end Ws.Properties
