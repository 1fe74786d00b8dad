import Verif.Proofs.Parse.Follow
/-! What the unambiguous grammar derives is parsed to the tree it is derived as. -/
namespace Ws
open Spec

variable {α β σ : Type} {env : Env} {p q p' p'' : Parser} {w w' s : List Token} {r : Rec} {n : Nat}
  {v v₁ v' vs vs₁ vs₂ vs₃ vs₄ : List Cause}

/-! ### Levels -/

def Spec.Prec.level : Prec → Level
  | .or => .or | .and => .and | .equality => .equality | .comparison => .comparison
  | .addition => .addition | .multiplication => .multiplication

def Spec.Prec.num : Prec → Nat
  | .or => 3 | .and => 4 | .equality => 5 | .comparison => 6 | .addition => 7 | .multiplication => 8

theorem prec_node {pr : Prec} {tt : TokenType} {b} (h : pr.node tt = some b) :
    tt ∈ pr.level.operators ∧ pr.level.node tt = some b ∧ reach tt = pr.num := by
  unfold Prec.node at h
  split at h <;> first | cases h | skip
  all_goals exact ⟨by decide, rfl, rfl⟩

theorem not_operator {pr : Prec} {tt : TokenType} (h : reach tt ≠ pr.num) : tt ∉ pr.level.operators := by
  intro hm
  cases pr <;> simp [Prec.level, Level.operators] at hm <;> rcases hm with rfl | rfl | rfl | rfl <;> exact h rfl

theorem level_stop {pr : Prec} {x : Expr} {t : Token} {rt : List Token}
    (h : Reaches v (pr.level.parse r) p (levelBody pr.level (pr.level.operand r)) x q v') (hr : q.rest = t :: rt)
    (ht : reach t.tokenType ≠ pr.num) : Does v (pr.level.parse r) p x q v' := by
  refine reaches_stop h ?_
  unfold levelBody
  exact does_bind' (matches_no hr (not_operator ht)) does_pure

/-! ### The goals -/

/-- Loops are entered by tokens, there are not too many tokens, and the loop flag is right. -/
structure Spot (env : Env) (repl l : Bool) (p : Parser) : Prop where
  room : Room env p
  trailing : repl = true → p.allowTrailing = true
  loops : l = true ↔ 0 < p.inLoops

theorem Spot.moves {repl l : Bool} (h : Spot env repl l p) (m : Moves p w p') : Spot env repl l p' :=
  ⟨h.room.moves m, by rw [m.eq]; exact h.trailing, by rw [m.inLoops]; exact h.loops⟩

/-- At the top level errors are collected: if there are no faults, the head of the loop is reached with the statements
`ss` and no errors, and otherwise with errors of which the first is the first fault. -/
def Collects (v : List Cause) (x : P β) (p : Parser) (body : List Stmt × List Cause → P (Step (List Stmt × List Cause) β))
    (ss : List Stmt) (p' : Parser) (v' : List Cause) : Prop :=
  v' <:+ v ∧ (Dies x p ∨ (v = v' ∧ ∃ m, x p = loopFuel body m (ss, []) p') ∨
    ∃ c vs ss' cs q m, v = c :: vs ∧ v ≠ v' ∧ x p = loopFuel body m (ss', c :: cs) q)

/-- What the parser does with the tokens of a nonterminal between `p` and `p'`; the faults before and after them are `v` and `v'`. -/
def Goal (env : Env) (v v' : List Cause) (o : Ends) (e : Bool) (p p' : Parser) : Sym → Tree → Prop
  | .expression, .expr x => Stop o 1 p'.rest → ∀ n, Does v (recN env n).assignment p x p' v'
  | .target, .expr x => Stop o 2 p'.rest → ∀ n, Does v (assignmentTarget env (recN env n)) p x p' v'
  | .binary pr, .expr x => Stop o pr.num p'.rest → ∀ n,
      Reaches v (pr.level.parse (recN env n)) p (levelBody pr.level (pr.level.operand (recN env n))) x p' v'
  | .unary, .expr x => Stop o 8 p'.rest → ∀ n, Does v (recN env n).unary p x p' v'
  | .call, .expr x => Stop o 10 p'.rest → ∀ n, Reaches v (call env (recN env n)) p (callBody env (recN env n)) x p' v'
  | .primary, .expr x => Stop o 10 p'.rest → ∀ n, Does v (primary env (recN env n)) p x p' v'
  | .before, .exprs xs =>
      (xs.length ≤ 255 → ∀ n, Reaches v (loop (argumentBody env (recN env n)) []) p (argumentBody env (recN env n)) xs p' v') ∧
      (∀ t rt, p'.rest = t :: rt → t.tokenType ≠ .rightBracket → ∀ n,
        Reaches v (loop (arrayBody (recN env n)) []) p (arrayBody (recN env n)) xs p' v') ∧
      (∀ t rt, p'.rest = t :: rt → t.tokenType = .rightBracket → xs ≠ [] → ∀ n,
        Does v (loop (arrayBody (recN env n)) []) p xs p' v')
  | .arguments, .exprs xs => Stop o 1 p'.rest → (∀ t rt, p'.rest = t :: rt → reach t.tokenType ≠ 1) → ∀ n, Does v (argumentList env (recN env n)) p xs p' v'
  | .entriesBefore, .entries ms =>
      (o = .brace → KeyColon p'.rest ∨ ∃ t rt, p'.rest = t :: rt ∧ t.tokenType = .rightBrace) → ∀ n,
        Reaches v (literalMap env (recN env n)) p (mapBody env (recN env n)) ms p' v'
  | .entries, .entries ms => Stop o 1 p'.rest → (∀ t rt, p'.rest = t :: rt → reach t.tokenType ≠ 1) → ¬ MapOn p'.rest → ∀ n, Does v (literalMap env (recN env n)) p ms p' v'
  | .parametersBefore, .params ps =>
      Reaches v (loop (parameterBody env) []) p (parameterBody env) ps p' v'
  | .function loc, .fn d => ∀ n, Does v (functionDefinition env (recN env n) loc) p d p' v'
  | .named, .named f => ∀ n, Does v (finishFunDeclaration env (recN env n)) p f p' v'
  | .methods, .nameds fs => ∀ n eb, eb = .rightBrace ∨ eb = .outdent →
      Reaches v (loop (methodBody env (recN env n) eb) []) p (methodBody env (recN env n) eb) fs p' v'
  | .block, .stmts ss => ∃ eb pm, (∀ message v, Does v (consumeBeginBlock env message) p eb pm v) ∧
      ∀ n, Does v (finishBlock env (recN env n) eb) pm ss p' v'
  | .body, .stmt st => After o e p'.rest → ∃ ob pm, (∀ message v, Does v (beginBlockIfAny env message) p ob pm v) ∧
      ∀ n, Does v (blockOrStatement env (recN env n) ob) pm st p' v'
  | .forInit, .optStmt init => (o = .map → ¬ KeyColon p'.rest ∧ ∀ t rt, p'.rest = t :: rt → t.tokenType ≠ .rightBrace) → ∀ n, Does v (forInitializer env (recN env n)) p init p' v'
  | .forCondition, .expr x => (∃ t rt, p'.rest = t :: rt ∧ t.tokenType = .semicolon) → ∀ n,
      Does v (forCondition (recN env n)) p x p' v'
  | .forIncrement, .optExpr x => (∃ t rt, p'.rest = t :: rt ∧ t.tokenType = .rightParen) → ∀ n,
      Does v (forIncrement (recN env n)) p x p' v'
  | .statement, .stmt st => After o e p'.rest → ∀ n, Does v (recN env n).statement p st p' v'
  | .declaration, .stmt st => After o e p'.rest → ∀ n, Does v (recN env n).declaration p st p' v'
  | .declarations, .stmts ss => After o true p'.rest → ∀ n,
      (∀ eb, eb = .rightBrace ∨ eb = .outdent →
        Reaches v (loop (blockBody (recN env n) eb) []) p (blockBody (recN env n) eb) ss p' v') ∧
      Collects v (loop (parseStep env (recN env n)) ([], [])) p (parseStep env (recN env n)) ss p' v'
  | _, _ => False

/-- What the parser does with the tokens of a nonterminal in which there are the faults `vs`. -/
def Runs (env : Env) (repl l : Bool) (o : Ends) (e : Bool) (sym : Sym) (w : List Token) (x : Tree) (vs : List Cause) : Prop :=
  ∀ {v} p p', Moves p w p' → Spot env repl l p → Goal env (vs ++ v) v o e p p' sym x

theorem next_does {pr : Prec} {o : Ends} {e : Bool} {x : Expr} (h : Goal env v v' o e p p' pr.next (.expr x))
    (hs : Stop o pr.num p'.rest) (n : Nat) : Does v (pr.level.operand (recN env n)) p x p' v' := by
  obtain ⟨t, rt, hr⟩ := hs.ne
  have hle := hs.le (.inr (by cases pr <;> decide)) t rt hr
  cases pr with
  | or => exact level_stop (pr := .and) (h (hs.mono (by decide) (.inr (.inl (by decide)))) n) hr (by simp only [Prec.num] at hle ⊢; omega)
  | and => exact level_stop (pr := .equality) (h (hs.mono (by decide) (.inr (.inl (by decide)))) n) hr (by simp only [Prec.num] at hle ⊢; omega)
  | equality => exact level_stop (pr := .comparison) (h (hs.mono (by decide) (.inr (.inl (by decide)))) n) hr (by simp only [Prec.num] at hle ⊢; omega)
  | comparison => exact level_stop (pr := .addition) (h (hs.mono (by decide) (.inr (.inl (by decide)))) n) hr (by simp only [Prec.num] at hle ⊢; omega)
  | addition => exact level_stop (pr := .multiplication) (h (hs.mono (by decide) (.inr (.inl (by decide)))) n) hr (by simp only [Prec.num] at hle ⊢; omega)
  | multiplication => exact h hs n

theorem or_does {o : Ends} {e : Bool} {x : Expr} (h : Goal env v v' o e p p' (.binary .or) (.expr x))
    (hs : Stop o 2 p'.rest) (ho : o ≠ .outdent) (n : Nat) : Does v (orExpr (recN env n)) p x p' v' := by
  obtain ⟨t, rt, hr⟩ := hs.ne
  have hle := hs.le (.inl ho) t rt hr
  exact level_stop (pr := .or) (h (hs.mono (by decide) (.inl ho)) n) hr (by simp only [Prec.num]; omega)

/-- An optional newline is skipped. -/
theorem optional_yes {t : Token} {rt term : List Token} {k : Bool → P β} {b : β} (ho : Optional .terminator term)
    (m : Moves p term q) (hr : q.rest = t :: rt) (ht : t.tokenType ≠ .terminator) (hk : ∀ c, Does v (k c) q b p' v') :
    Does v (matchToken .terminator >>= k) p b p' v' := by
  rcases ho with rfl | ⟨t', ht', rfl⟩
  · rw [← m.eq_nil]
    exact does_bind' (match_no hr ht) (hk false)
  · exact does_bind' (match_yes m ht') (hk true)

/-- After an optional newline and a token that is neither key nor brace an expression stops. -/
theorem stop_optional {o : Ends} {b : Nat} {term : List Token} {d : Token} (hb : o ≠ .brace) (ho : Optional .terminator term)
    (h0 : reach d.tokenType = 0) (hd : d.tokenType ≠ .terminator ∧ d.tokenType ≠ .rightBrace) :
    Stop o b (term ++ d :: s) := by
  rcases ho with rfl | ⟨t, ht, rfl⟩
  · exact stop_of rfl h0 hd.1 fun h => absurd h hb
  · refine stop_zero (by rw [ht]; rfl) (fun _ => ?_) fun h => absurd h hb
    rintro ⟨_, _, hs, -, hk⟩
    cases hs
    rcases hk with ⟨_, _, _, hs, hk, -⟩ | ⟨_, _, hs, hk⟩
    · cases hs
      rcases hk with hk | hk <;> rw [hk] at h0 <;> cases h0
    · cases hs; exact hd.2 hk

variable {repl l e : Bool} {o o₁ : Ends} {x : Expr}

theorem runs_target_plain (ih : Runs env repl l o false (.binary .or) w (.expr x) vs) (ho : o ≠ .outdent) (hf : ExprHead unaryTs w) :
    Runs env repl l o.target false .target w (.expr x) vs := by
  intro v p p' m hc hs n
  obtain ⟨t, rt, rfl, ht, -⟩ := hf
  unfold assignmentTarget
  refine does_bind' (match_no m.head (fun h => ?_)) ?_
  · rw [h] at ht; revert ht; decide
  · exact or_does (ih p p' m hc) (hs.of_target ho) ho n

theorem runs_target_indented {i d : Token} {term : List Token} (hi : i.tokenType = .indent)
    (ih : Runs env repl l o false (.binary .or) w (.expr x) vs) (ho' : o ≠ .outdent) (hb : o ≠ .brace) (ho : Optional .terminator term)
    (hd : d.tokenType = .outdent) : Runs env repl l .outdent false .target (i :: w ++ term ++ [d]) (.expr x) vs := by
  intro v p p' m hc _ n
  obtain ⟨q3, m, m3⟩ := m.split
  obtain ⟨q2, m, m2⟩ := m.split
  obtain ⟨q1, m0, m1⟩ := m.uncons
  unfold assignmentTarget
  refine does_bind' (match_yes m0 hi) ?_
  have hr3 : q3.rest = d :: p'.rest := m3.rest
  refine does_bind (or_does (ih q1 q2 m1 (hc.moves m0)) ?_ ho' n) ?_
  · rw [m2.rest, hr3]
    exact stop_optional hb ho (by rw [hd]; rfl) (by rw [hd]; decide)
  · exact optional_yes ho m2 hr3 (by rw [hd]; decide) fun _ => does_bind' (consume_yes m3 hd) does_pure

theorem runs_expression (ih : Runs env repl l o false .target w (.expr x) vs) : Runs env repl l o false .expression w (.expr x) vs := by
  intro v p p' m hc hs n
  cases n with
  | zero => exact does_fuel rfl
  | succ n =>
    show Does _ (assignmentBody env (recN env n)) p x p' _
    unfold assignmentBody
    obtain ⟨t, rt, hr⟩ := hs.ne
    refine does_bind (ih p p' m hc (hs.mono (by decide) (.inr (.inr (by decide)))) n) (does_bind' (matches_no hr ?_) does_pure)
    intro h
    simp only [List.mem_singleton] at h
    by_cases ho : o = .outdent
    · exact absurd (hs.eq ho t rt hr (by rw [h]; rfl)) (by decide)
    · have hle := hs.le (.inl ho) t rt hr
      rw [h] at hle
      revert hle; decide

theorem assigns_does {rhs : Expr} {loc : SourceLoc} {target : Expr} (h : Assigns rhs loc target x) :
    mkAssignment target rhs loc p = .ok x p := by
  cases h with
  | «variable» n c l h => unfold mkAssignment; simp only [h, if_false]; rfl
  | property => rfl
  | index => rfl

theorem runs_assignment {w₁ w₂ : List Token} {x₁ x₂ : Expr} {t : Token} (ih1 : Runs env repl l o₁ false .target w₁ (.expr x₁) vs₁)
    (ho : o₁.item) (ht : t.tokenType = .equal) (ih2 : Runs env repl l o false .expression w₂ (.expr x₂) vs₂) (ha : Assigns x₂ t.loc x₁ x) :
    Runs env repl l o false .expression (w₁ ++ t :: w₂) (.expr x) (vs₁ ++ vs₂) := by
  intro v p p' m hc hs n
  cases n with
  | zero => exact does_fuel rfl
  | succ n =>
    rw [List.append_assoc]
    show Does _ (assignmentBody env (recN env n)) p x p' _
    obtain ⟨q1, m1, m⟩ := m.split
    obtain ⟨q2, m2, m3⟩ := m.uncons
    unfold assignmentBody
    refine does_bind (ih1 p q1 m1 hc ?_ n) (does_bind' (matches_yes m2 (by simp [ht])) ?_)
    · rw [m2.head]; exact stop_item ho (by rw [ht]; decide)
    · exact does_bind (ih2 q2 p' m3 ((hc.moves m1).moves m2) hs n) (does_ok (assigns_does ha))

theorem assigns_fault {rhs : Expr} {loc : SourceLoc} {target : Expr} (h : ∀ x, ¬ Assigns rhs loc target x) :
    mkAssignment target rhs loc = M.throw (.newWithLocation loc c!"=" "Invalid assignment target.") := by
  unfold mkAssignment
  split
  · exact absurd (.property ..) (h _)
  · exact absurd (.index ..) (h _)
  · split
    · rfl
    · rename_i hn
      exact absurd (.variable _ _ _ hn) (h _)
  · rfl

theorem runs_assignment_fault {w₁ w₂ : List Token} {x₁ x₂ : Expr} {t : Token} (ih1 : Runs env repl l o₁ false .target w₁ (.expr x₁) vs₁)
    (ho : o₁.item) (ht : t.tokenType = .equal) (ih2 : Runs env repl l o false .expression w₂ (.expr x₂) vs₂)
    (ha : ∀ x, ¬ Assigns x₂ t.loc x₁ x) :
    Runs env repl l o false .expression (w₁ ++ t :: w₂) (.expr x₁) (vs₁ ++ vs₂ ++ [invalidTarget t]) := by
  intro v p p' m hc hs n
  cases n with
  | zero => exact does_fuel rfl
  | succ n =>
    simp only [List.append_assoc]
    show Does _ (assignmentBody env (recN env n)) p x₁ p' _
    obtain ⟨q1, m1, m⟩ := m.split
    obtain ⟨q2, m2, m3⟩ := m.uncons
    unfold assignmentBody
    refine does_bind (ih1 p q1 m1 hc ?_ n) (does_bind' (matches_yes m2 (by simp [ht])) ?_)
    · rw [m2.head]; exact stop_item ho (by rw [ht]; decide)
    · refine does_bind (ih2 q2 p' m3 ((hc.moves m1).moves m2) hs n) ?_
      rw [assigns_fault ha]
      exact does_throw

theorem runs_operand {pr : Prec} (ih : Runs env repl l o false pr.next w (.expr x) vs) :
    Runs env repl l o false (.binary pr) w (.expr x) vs := by
  intro v p p' m hc hs n
  rw [level_eq]
  exact reaches_bind (next_does (ih p p' m hc) hs n) reaches_loop

theorem runs_operator {pr : Prec} {w₁ w₂ : List Token} {a b : Expr} {t : Token} {build}
    (ih1 : Runs env repl l o₁ false (.binary pr) w₁ (.expr a) vs₁) (ho : o₁.whole) (hb : pr.node t.tokenType = some build)
    (ih2 : Runs env repl l o false pr.next w₂ (.expr b) vs₂) :
    Runs env repl l o false (.binary pr) (w₁ ++ t :: w₂) (.expr (build a b t.loc)) (vs₁ ++ vs₂) := by
  intro v p p' m hc hs n
  rw [List.append_assoc]
  obtain ⟨q1, m1, m⟩ := m.split
  obtain ⟨q2, m2, m3⟩ := m.uncons
  obtain ⟨h1, h2, h3⟩ := prec_node hb
  refine reaches_next (ih1 p q1 m1 hc ?_ n) ?_
  · have : 2 < pr.num ∧ pr.num < 10 := by cases pr <;> decide
    rw [m2.head]; exact stop_whole ho (Nat.le_of_eq h3) (by omega) fun _ => not_keyColon (by omega)
  · unfold levelBody
    refine does_bind' (matches_yes m2 h1) (does_bind (next_does (ih2 q2 p' m3 ((hc.moves m1).moves m2)) hs n) ?_)
    simp only [h2]
    exact does_pure

theorem call_stop {t : Token} {rt : List Token} (h : Reaches v (call env r) p (callBody env r) x q v') (hr : q.rest = t :: rt)
    (ht : reach t.tokenType < 10) : Does v (call env r) p x q v' := by
  refine reaches_stop h ?_
  unfold callBody
  refine does_bind' (matches_no hr fun h => ?_) ?_
  · simp only [List.mem_cons, List.not_mem_nil, or_false] at h
    rcases h with h | h | h <;> rw [h] at ht <;> revert ht <;> decide
  · refine does_query ?_
    rw [checkAnyOf_cons hr]
    have : callPrimaryTokens.contains t.tokenType = false := by
      cases h : callPrimaryTokens.contains t.tokenType with
      | false => rfl
      | true =>
        exfalso
        simp [callPrimaryTokens] at h
        rcases h with h | h | h | h | h | h | h | h | h | h <;> rw [h] at ht <;> revert ht <;> decide
    simp only [this, Bool.and_false, Bool.false_eq_true, if_false]
    exact does_pure

theorem runs_call (ih : Runs env repl l o false .call w (.expr x) vs) (hf : ExprHead primaryTs w) :
    Runs env repl l o.unary false .unary w (.expr x) vs := by
  intro v p p' m hc hs n
  cases n with
  | zero => exact does_fuel rfl
  | succ n =>
    show Does _ (unaryBody env (recN env n)) p x p' _
    unfold unaryBody
    obtain ⟨t, rt, rfl, ht, -⟩ := hf
    refine does_bind' (matches_no m.head fun h => ?_) ?_
    · simp only [List.mem_cons, List.not_mem_nil, or_false] at h
      rcases h with h | h <;> rw [h] at ht <;> revert ht <;> decide
    · obtain ⟨t', rt', hr⟩ := hs.ne
      have hle := hs.le (.inr (by decide)) t' rt' hr
      exact call_stop (ih p p' m hc hs.of_unary n) hr (by omega)

theorem runs_prefix {t : Token} {op : UnaryOperator} (hop : prefixNode t.tokenType = some op)
    (ih : Runs env repl l o false .unary w (.expr x) vs) : Runs env repl l o false .unary (t :: w) (.expr (.unary op x t.loc)) vs := by
  intro v p p' m hc hs n
  cases n with
  | zero => exact does_fuel rfl
  | succ n =>
    show Does _ (unaryBody env (recN env n)) p _ p' _
    unfold unaryBody
    obtain ⟨q1, m1, m2⟩ := m.uncons
    unfold prefixNode at hop
    split at hop
    · rename_i ht
      cases hop
      refine does_bind' (matches_yes m1 (by simp [ht])) (does_bind (ih q1 p' m2 (hc.moves m1) hs n) ?_)
      simp only [ht]
      exact does_pure
    · rename_i ht
      cases hop
      refine does_bind' (matches_yes m1 (by simp [ht])) (does_bind (ih q1 p' m2 (hc.moves m1) hs n) ?_)
      simp only [ht]
      exact does_pure
    · cases hop

theorem runs_primary (ih : Runs env repl l o false .primary w (.expr x) vs) : Runs env repl l o false .call w (.expr x) vs := by
  intro v p p' m hc hs n
  rw [call_eq]
  exact reaches_bind (ih p p' m hc hs n) reaches_loop

theorem dot_not_key {t : Token} (h : t.tokenType ∈ [TokenType.dot, .leftParenAbutting, .leftBracket]) : ¬ KeyColon (t :: s) := by
  rintro ⟨_, _, _, hs, hk, -⟩
  rw [(List.cons.inj hs).1] at h
  rcases hk with hk | hk <;> rw [hk] at h <;> revert h <;> decide

theorem runs_property {d i : Token} (ih : Runs env repl l o false .call w (.expr x) vs) (ho : o.whole) (hd : d.tokenType = .dot)
    (hi : i.tokenType = .identifier) : Runs env repl l .closed false .call (w ++ [d, i]) (.expr (.get x i.lexeme d.loc)) vs := by
  intro v p p' m hc hs n
  obtain ⟨q1, m1, m⟩ := m.split
  obtain ⟨q2, m2, m3⟩ := m.uncons
  refine reaches_next (ih p q1 m1 hc ?_ n) ?_
  · rw [m2.head]; exact stop_whole ho (by rw [hd]; decide) (by rw [hd]; decide) (fun _ => dot_not_key (by simp [hd]))
  · unfold callBody
    refine does_bind' (matches_yes m2 (by simp [hd])) ?_
    simp only [hd]
    exact does_bind (identifier_yes m3 hi) does_pure

theorem runs_call_empty {b c : Token} (ih : Runs env repl l o false .call w (.expr x) vs) (ho : o.whole) (hb : b.tokenType = .leftParenAbutting)
    (hr : c.tokenType = .rightParen) : Runs env repl l .closed false .call (w ++ [b, c]) (.expr (.call x [] b.loc)) vs := by
  intro v p p' m hc hs n
  obtain ⟨q1, m1, m⟩ := m.split
  obtain ⟨q2, m2, m3⟩ := m.uncons
  refine reaches_next (ih p q1 m1 hc ?_ n) ?_
  · rw [m2.head]; exact stop_whole ho (by rw [hb]; decide) (by rw [hb]; decide) (fun _ => dot_not_key (by simp [hb]))
  · unfold callBody
    refine does_bind' (matches_yes m2 (by simp [hb])) ?_
    simp only [hb]
    refine does_bind ?_ does_pure
    unfold finishCall callArguments
    refine does_bind (does_query ?_) (does_bind' (consume_yes m3 hr) does_pure)
    rw [check_yes m3.head hr (by decide)]
    exact does_pure

theorem runs_call_args {b c : Token} {xs : List Expr} (ih : Runs env repl l o₁ false .call w (.expr x) vs₁) (ho : o₁.whole)
    (hb : b.tokenType = .leftParenAbutting) (ih' : Runs env repl l o false .arguments w' (.exprs xs) vs₂) (ho' : o ≠ .brace) (hf : ExprHead exprTs w')
    (hr : c.tokenType = .rightParen) :
    Runs env repl l .closed false .call (w ++ b :: w' ++ [c]) (.expr (.call x xs b.loc)) (vs₁ ++ vs₂) := by
  intro v p p' m hc hs n
  rw [List.append_assoc]
  obtain ⟨q3, m, m4⟩ := m.split
  obtain ⟨q1, m1, m⟩ := m.split
  obtain ⟨q2, m2, m3⟩ := m.uncons
  have hr3 : q3.rest = c :: p'.rest := m4.rest
  refine reaches_next (ih p q1 m1 hc ?_ n) ?_
  · rw [m2.head]; exact stop_whole ho (by rw [hb]; decide) (by rw [hb]; decide) (fun _ => dot_not_key (by simp [hb]))
  · unfold callBody
    refine does_bind' (matches_yes m2 (by simp [hb])) ?_
    simp only [hb]
    refine does_bind ?_ does_pure
    unfold finishCall callArguments
    refine does_bind (does_query ?_) (does_bind' (consume_yes m4 hr) does_pure)
    have hg := ih' (v := v) q2 q3 m3 ((hc.moves m1).moves m2) (by rw [hr3]; exact stop_of hr rfl (by decide) fun h => absurd h ho')
      (fun t rt h => by rw [hr3] at h; cases h; rw [hr]; decide) n
    obtain ⟨t, rt, rfl, ht, -⟩ := hf
    rw [check_no m3.head (fun h => by rw [h] at ht; revert ht; decide)]
    exact hg

theorem runs_call_bare {t : Token} {xs : List Expr} (ih : Runs env repl l o₁ false .call w (.expr x) vs₁) (ho : o₁.whole)
    (ht : startsArgument t.tokenType) (hk : o₁ = .comma → ¬ KeyColon (t :: w')) (ih' : Runs env repl l o false .arguments (t :: w') (.exprs xs) vs₂) :
    Runs env repl l o.bare false .call (w ++ t :: w') (.expr (.call x xs t.loc)) (vs₁ ++ vs₂) := by
  intro v p p' m hc hs n
  rw [List.append_assoc]
  obtain ⟨q1, m1, m2⟩ := m.split
  have hne : t.tokenType ≠ .eof := m2.noEof t (by simp)
  unfold startsArgument at ht
  refine reaches_next (ih p q1 m1 hc ?_ n) ?_
  · rw [m2.head]
    have : ∀ tt ∈ callPrimaryTokens, reach tt = 10 := by decide
    have := this _ ht
    refine stop_whole ho (by omega) (by omega) fun hc h => ?_
    obtain ⟨a, c, rt, h1, h2, h3⟩ := h
    cases w' with
    | nil =>
      simp only [List.nil_append] at h1
      obtain ⟨u, ru, hu⟩ := hs.ne
      rw [hu] at h1
      simp only [List.cons.injEq] at h1
      obtain ⟨-, rfl, -⟩ := h1
      have := hs.le (.inr (by decide)) u ru hu
      rw [h3] at this
      exact absurd this (by decide)
    | cons u rest =>
      simp only [List.cons_append, List.cons.injEq] at h1
      obtain ⟨rfl, rfl, -⟩ := h1
      exact hk hc ⟨_, _, _, rfl, h2, h3⟩
  · unfold callBody
    refine does_bind' (matches_no m2.head fun h => ?_) ?_
    · simp only [List.mem_cons, List.not_mem_nil, or_false] at h
      rcases h with h | h | h <;> rw [h] at ht <;> revert ht <;> decide
    · refine does_query ?_
      rw [checkAnyOf_cons m2.head]
      have hc' : callPrimaryTokens.contains t.tokenType = true := by
        rw [List.contains_iff_mem]; exact ht
      have : (t.tokenType != .eof) = true := by simp [hne]
      rw [hc', this]
      simp only [Bool.and_true, if_true]
      refine does_bind (a := t.loc) (q := q1) (v₁ := vs₂ ++ v) ?_ ?_
      · unfold peekSourceLoc
        refine does_query ?_
        rw [peek_head m2.head]
        exact does_pure
      · unfold finishCallWithoutParens
        exact does_bind (does_bind (ih' q1 p' m2 (hc.moves m1) hs.of_bare.1 hs.of_bare.2 n) does_pure) does_pure

theorem runs_index {b c : Token} {i : Expr} (ih : Runs env repl l o₁ false .call w (.expr x) vs₁) (ho : o₁.whole)
    (hb : b.tokenType = .leftBracket) (ih' : Runs env repl l o false .expression w' (.expr i) vs₂) (ho' : o ≠ .brace) (hr : c.tokenType = .rightBracket) :
    Runs env repl l .closed false .call (w ++ b :: w' ++ [c]) (.expr (.getIndex x i b.loc)) (vs₁ ++ vs₂) := by
  intro v p p' m hc hs n
  rw [List.append_assoc]
  obtain ⟨q3, m, m4⟩ := m.split
  obtain ⟨q1, m1, m⟩ := m.split
  obtain ⟨q2, m2, m3⟩ := m.uncons
  have hr3 : q3.rest = c :: p'.rest := m4.rest
  refine reaches_next (ih p q1 m1 hc ?_ n) ?_
  · rw [m2.head]; exact stop_whole ho (by rw [hb]; decide) (by rw [hb]; decide) (fun _ => dot_not_key (by simp [hb]))
  · unfold callBody
    refine does_bind' (matches_yes m2 (by simp [hb])) ?_
    simp only [hb]
    refine does_bind ?_ does_pure
    unfold finishGetIndex
    exact does_bind (ih' q2 q3 m3 ((hc.moves m1).moves m2) (by rw [hr3]; exact stop_of hr rfl (by decide) fun h => absurd h ho') n)
      (does_bind' (consume_yes m4 hr) does_pure)

/-! ### Lists -/

theorem runs_before_nil : Runs env repl l .closed false .before [] (.exprs []) [] := by
  intro v p p' m hc
  rw [m.eq_nil]
  exact ⟨fun _ _ => reaches_loop, fun _ _ _ _ _ => reaches_loop, fun _ _ _ _ h => absurd rfl h⟩

/-- An expression that is followed by a comma. -/
theorem argument_comma {c : Token} {xs : List Expr} {n : Nat} (ih : Does v (recN env n).assignment p x q v') (m : Moves q [c] p')
    (hc : c.tokenType = .comma) (hl : xs.length < 255) :
    Does v (argumentBody env (recN env n) xs) p (.next (xs ++ [x])) p' v' := by
  unfold argumentBody
  rw [if_neg (by omega)]
  exact does_bind ih (does_bind' (match_yes m hc) does_pure)

theorem array_comma {c t : Token} {rt : List Token} {xs : List Expr} {n : Nat} (ih : Does v (recN env n).assignment p x q v')
    (m : Moves q [c] p') (hc : c.tokenType = .comma) (hr : p'.rest = t :: rt) (ht : t.tokenType ≠ .rightBracket) :
    Does v (arrayBody (recN env n) xs) p (.next (xs ++ [x])) p' v' := by
  unfold arrayBody
  refine does_bind ih (does_bind' (match_yes m hc) ?_)
  simp only [if_true]
  refine does_query ?_
  rw [check_no hr ht]
  exact does_pure

theorem array_last {c t : Token} {rt : List Token} {xs : List Expr} {n : Nat} (ih : Does v (recN env n).assignment p x q v')
    (m : Moves q [c] p') (hc : c.tokenType = .comma) (hr : p'.rest = t :: rt) (ht : t.tokenType = .rightBracket) :
    Does v (arrayBody (recN env n) xs) p (.stop (xs ++ [x])) p' v' := by
  unfold arrayBody
  refine does_bind ih (does_bind' (match_yes m hc) ?_)
  simp only [if_true]
  refine does_query ?_
  rw [check_yes hr ht (by decide)]
  exact does_pure

theorem ExprHead.cons {ts : List TokenType} {v : List Token} (h : ExprHead ts w) : ∃ t rt, w ++ v = t :: rt ∧ t.tokenType ∈ ts := by
  obtain ⟨t, r, rfl, ht, -⟩ := h
  exact ⟨t, r ++ v, rfl, ht⟩

theorem runs_before {xs : List Expr} {c : Token} (ih : Runs env repl l .closed false .before w (.exprs xs) vs₁)
    (ih' : Runs env repl l o false .expression w' (.expr x) vs₂) (ho : o.item) (hf : ExprHead exprTs w') (ht : c.tokenType = .comma) :
    Runs env repl l .closed false .before (w ++ w' ++ [c]) (.exprs (xs ++ [x])) (vs₁ ++ vs₂) := by
  intro v p p' m hc
  rw [List.append_assoc]
  obtain ⟨q2, m, m3⟩ := m.split
  obtain ⟨q1, m1, m2⟩ := m.split
  have hg := ih' (v := v) q1 q2 m2 (hc.moves m1) (by rw [m3.head]; exact stop_item ho (by rw [ht]; decide))
  obtain ⟨h1, h2, -⟩ := ih p q1 m1 hc
  obtain ⟨t, rt, hr, htt⟩ := hf.cons (v := q2.rest)
  rw [← m2.rest] at hr
  have htt : t.tokenType ≠ .rightBracket := fun h => by rw [h] at htt; revert htt; decide
  refine ⟨fun hlen n => ?_, fun t' rt' hr' ht' n => ?_, fun t' rt' hr' ht' _ n => ?_⟩
  · simp only [List.length_append, List.length_singleton] at hlen
    exact reaches_next (h1 (by omega) n) (argument_comma (hg n) m3 ht (by omega))
  · exact reaches_next (h2 t rt hr htt n) (array_comma (hg n) m3 ht hr' ht')
  · exact reaches_stop (h2 t rt hr htt n) (array_last (hg n) m3 ht hr' ht')

theorem runs_arguments {xs : List Expr} (ih : Runs env repl l .closed false .before w (.exprs xs) vs₁) (hlen : xs.length < 255)
    (ih' : Runs env repl l o false .expression w' (.expr x) vs₂) : Runs env repl l o false .arguments (w ++ w') (.exprs (xs ++ [x])) (vs₁ ++ vs₂) := by
  intro v p p' m hc hs hne n
  rw [List.append_assoc]
  obtain ⟨q1, m1, m2⟩ := m.split
  obtain ⟨t, rt, hr⟩ := hs.ne
  rw [argumentList_eq]
  refine reaches_stop ((ih p q1 m1 hc).1 (by omega) n) ?_
  unfold argumentBody
  rw [if_neg (by omega)]
  refine does_bind (ih' q1 p' m2 (hc.moves m1) hs n) (does_bind' (match_no hr fun h => ?_) does_pure)
  exact hne t rt hr (by rw [h]; rfl)

theorem peek_throw {t : Token} {rt : List Token} {message : String} {a : α} (hr : p.rest = t :: rt) (h : v' <:+ v) :
    Does (⟨t.loc, some t.lexeme, message⟩ :: v) (errorFromPeek env message) p a p' v' := by
  unfold errorFromPeek peekSourceLoc
  refine does_query ?_
  rw [peek_head hr]
  dsimp only
  refine does_bind (a := t.loc) (q := p) (does_query ?_) (does_throw_of h)
  rw [peek_head hr]
  exact does_pure

theorem runs_arguments_fault {xs ys : List Expr} {t : Token} (ih : Runs env repl l .closed false .before w (.exprs xs) vs₁) (hlen : xs.length = 255)
    (ih' : Runs env repl l o false .arguments (t :: w') (.exprs ys) vs₂) :
    Runs env repl l o false .arguments (w ++ t :: w') (.exprs (xs ++ ys)) (vs₁ ++ tooManyArguments t :: vs₂) := by
  intro v p p' m hc hs hne n
  rw [List.append_assoc]
  obtain ⟨q1, m1, m2⟩ := m.split
  rw [argumentList_eq]
  refine reaches_stop ((ih p q1 m1 hc).1 (by omega) n) ?_
  unfold argumentBody
  rw [if_pos (by omega)]
  exact peek_throw m2.head (List.suffix_append _ _)

theorem runs_entries_nil : Runs env repl l .closed false .entriesBefore [] (.entries []) [] := by
  intro v p p' m hc _ n
  rw [m.eq_nil]
  exact reaches_loop

theorem atKey_check {t c : Token} {rt : List Token} {k : Str} (hr : p.rest = t :: c :: rt) (hk : IsKey t k) (hc : c.tokenType = .colon) :
    (p.checkAnyOf [.identifier, .string] && p.checkNext .colon) = true := by
  rw [checkAnyOf_cons hr, checkNext_cons hr]
  rcases hk with ⟨h, -⟩ | ⟨h, -⟩ <;> simp [h, hc]

theorem mapKey_does {t : Token} {k : Str} (hk : IsKey t k) : mapKey t p = .ok k p := by
  unfold mapKey
  rcases hk with ⟨h, rfl⟩ | ⟨h, h'⟩
  · simp only [h]; rfl
  · simp only [h, h']; rfl

theorem mapInsert_new {ms : List MapEntry} {k : Str} (h : k ∉ ms.map MapEntry.key) : mapInsert ms k x = (ms ++ [.mk k x], false) := by
  unfold mapInsert
  rw [if_neg]
  simp only [List.any_eq_true, beq_iff_eq, not_exists, not_and]
  simpa using h

theorem mapInsert_old {ms : List MapEntry} {k : Str} (h : k ∈ ms.map MapEntry.key) : ∃ ms', mapInsert ms k x = (ms', true) := by
  unfold mapInsert
  rw [if_pos]
  · exact ⟨_, rfl⟩
  · simp only [List.any_eq_true, beq_iff_eq]
    simpa using h

/-- Whether the parser goes on with a map. -/
def goesOn (p : Parser) : Bool :=
  p.check .comma || (p.check .terminator &&
    ((p.checkNextAnyOf [.identifier, .string] && p.checkNextNext .colon) || p.checkNext .rightBrace))

theorem goesOn_cons {t : Token} {rt : List Token} (hr : p.rest = t :: rt) :
    goesOn p = true ↔ t.tokenType = .comma ∨ MapOn (t :: rt) := by
  unfold goesOn
  rw [check_cons hr, check_cons hr, checkNext_cons hr]
  unfold Parser.checkNextAnyOf Parser.checkNextNext MapOn KeyColon
  rw [isAtEnd_cons hr, Parser.peekNext_eq, Parser.peekNextNext_eq, hr]
  constructor
  · intro h
    simp only [Bool.or_eq_true, Bool.and_eq_true, bne_iff_ne, ne_eq, beq_iff_eq] at h
    rcases h with ⟨-, h⟩ | ⟨⟨hne, ht⟩, h⟩
    · exact .inl h
    · right
      refine ⟨t, rt, rfl, ht, ?_⟩
      rcases h with ⟨⟨-, h1⟩, -, h2⟩ | ⟨-, h⟩
      · left
        cases rt with
        | nil => simp at h1
        | cons a rt =>
          cases rt with
          | nil => simp at h2
          | cons b rt =>
            simp at h1 h2
            exact ⟨a, b, rt, rfl, h1, h2⟩
      · right
        cases rt with
        | nil => simp at h
        | cons a rt => simp at h; exact ⟨a, rt, rfl, h⟩
  · rintro (h | ⟨_, _, hs, ht, h⟩)
    · simp [h]
    · cases hs
      rcases h with ⟨a, b, rt', rfl, h1, h2⟩ | ⟨a, rt', rfl, h⟩
      · rcases h1 with h1 | h1 <;> simp [ht, h1, h2]
      · simp [ht, h]

/-- One entry of a map, up to what follows it. -/
theorem entry_does {t c : Token} {k : Str} {q1 : Parser} {w : List Token} {ms : List MapEntry} {step : Step (List MapEntry) (List MapEntry)}
    (hk : IsKey t k) (hcol : c.tokenType = .colon) (m : Moves p (t :: c :: w) q1)
    (ih : ∀ q, Moves q w q1 → Moves p [t, c] q → Does v (recN env n).assignment q x q1 (repeatedKey ms t k ++ v₁))
    (hstep : Does v₁ (do
      if goesOn q1 then do
        advanceP
        pure (.next (ms ++ [.mk k x]))
      else pure (.stop (ms ++ [.mk k x]))) q1 step p' v') : Does v (mapBody env (recN env n) ms) p step p' v' := by
  obtain ⟨q2, m2, m⟩ := m.uncons
  obtain ⟨q3, m3, m4⟩ := m.uncons
  unfold mapBody
  have hr : p.rest = t :: c :: (w ++ q1.rest) := by rw [m2.head, m3.head, m4.rest]; rfl
  refine does_query ?_
  rw [atKey_check hr hk hcol]
  simp only [if_true]
  refine does_query ?_
  rw [peek_head hr]
  dsimp only
  refine does_bind' (mapKey_does hk) (does_bind' (advance_yes m2) (does_bind' (consume_yes m3 hcol) ?_))
  refine does_bind (ih q3 m4 (by simpa using m2.trans m3)) ?_
  unfold repeatedKey
  by_cases hnew : k ∈ ms.map MapEntry.key
  · obtain ⟨ms', h'⟩ := mapInsert_old (x := x) hnew
    rw [if_pos hnew, h']
    exact does_throw_of hstep.1
  · rw [if_neg hnew, mapInsert_new hnew]
    exact does_query hstep

theorem runs_entries_next {t c s : Token} {k : Str} {ms : List MapEntry} (ih : Runs env repl l o₁ false .entriesBefore w (.entries ms) vs₁)
    (hk : IsKey t k) (hcol : c.tokenType = .colon) (ih' : Runs env repl l o false .expression w' (.expr x) vs₂) {o₂ : Ends} (hs : (s.tokenType = .comma ∧ o.item) ∨
      (s.tokenType = .terminator ∧ (o ≠ .map ∧ o ≠ .mapOutdent ∧ o ≠ .brace) ∧ o₂ = .brace)) :
    Runs env repl l o₂ false .entriesBefore (w ++ t :: c :: w' ++ [s]) (.entries (ms ++ [.mk k x])) (vs₁ ++ vs₂ ++ repeatedKey ms t k) := by
  intro v p p' m hc hfol n
  simp only [List.append_assoc]
  obtain ⟨q2, m, m3⟩ := m.split
  obtain ⟨q1, m1, m2⟩ := m.split
  refine reaches_next (ih p q1 m1 hc (fun _ => .inl ?_) n) ?_
  · rw [m2.rest]; exact keyColon_of hk hcol
  · refine entry_does hk hcol m2 (fun q mq mq' => ih' q q2 mq ((hc.moves m1).moves mq') ?_ n) ?_
    · rw [m3.head]
      rcases hs with ⟨h, h'⟩ | ⟨h, h', -⟩
      · exact stop_item h' (by rw [h]; decide)
      · exact stop_zero (by rw [h]; rfl) (fun h'' => (h''.elim h'.1 h'.2.1).elim) fun h'' => absurd h'' h'.2.2
    · have : goesOn q2 = true := by
        rw [goesOn_cons m3.head]
        rcases hs with ⟨h, -⟩ | ⟨h, -, h'⟩
        · exact .inl h
        · exact .inr ⟨s, _, rfl, h, hfol h'⟩
      rw [this]
      simp only [if_true]
      exact does_bind' (advance_yes m3) does_pure

theorem runs_entries {t c : Token} {k : Str} {ms : List MapEntry} (ih : Runs env repl l o₁ false .entriesBefore w (.entries ms) vs₁)
    (hk : IsKey t k) (hcol : c.tokenType = .colon) (ih' : Runs env repl l o false .expression w' (.expr x) vs₂) :
    Runs env repl l o false .entries (w ++ t :: c :: w') (.entries (ms ++ [.mk k x])) (vs₁ ++ vs₂ ++ repeatedKey ms t k) := by
  intro v p p' m hc hs hne hmap n
  simp only [List.append_assoc]
  obtain ⟨q1, m1, m2⟩ := m.split
  refine reaches_stop (ih p q1 m1 hc (fun _ => .inl ?_) n) ?_
  · rw [m2.rest]; exact keyColon_of hk hcol
  · refine entry_does hk hcol m2 (fun q mq mq' => ih' q p' mq ((hc.moves m1).moves mq') ?_ n) ?_
    · exact hs
    · obtain ⟨t', rt, hr⟩ := hs.ne
      have : goesOn p' = false := by
        rw [← Bool.not_eq_true, goesOn_cons hr]
        rintro (h | h)
        · exact hne t' rt hr (by rw [h]; rfl)
        · exact hmap (hr ▸ h)
      rw [this]
      exact does_pure

/-! ### Primary expressions -/

theorem runs_word {t : Token} (h : ∀ v p p', Moves p [t] p' → (∀ u r, p'.rest = u :: r → u.tokenType ≠ .colon) → ∀ n, Does v (primary env (recN env n)) p x p' v) :
    Runs env repl l .closed false .primary [t] (.expr x) [] := by
  intro v p p' m hc hs n
  refine h v p p' m (fun u r hr hu => ?_) n
  have := hs.le (.inr (by decide)) u r hr
  rw [hu] at this
  revert this; decide

theorem primary_does {t : Token} {rt : List Token} {tt : TokenType} {y : Expr} (hr : p.rest = t :: rt) (ht : t.tokenType = tt)
    (h : Does v (match t.tokenType with
      | .false => do
        advanceP
        pure (.literalBool false)
      | .true => do
        advanceP
        pure (.literalBool true)
      | .nil => do
        advanceP
        pure .literalNil
      | .number =>
        match t.floatLiteral with
        | some x => do
          advanceP
          pure (.literalNumber x)
        | none => M.panic "primary: expected float literal to include parsed float"
      | .string => do
        if (← query (fun p => p.checkNext .colon)) then do
          let m ← literalMap env r
          pure (.literalMap m)
        else
          match t.stringLiteral with
          | some s => do
            advanceP
            pure (.literalString s)
          | none => M.panic "primary: expected float literal to include parsed string"
      | .identifier | .this => do
        if (← query (fun p => p.checkNext .colon)) then do
          let m ← literalMap env r
          pure (.literalMap m)
        else do
          advanceP
          pure (.variable t.lexeme .placeholder t.loc)
      | .fun => do
        let loc := t.loc
        advanceP
        if (← matchToken .identifier) then
          errorFromLast env "Expect function in expression context to not have a name."
        else do
          let d ← functionDefinition env r loc
          pure (.function d)
      | .leftParen | .leftParenAbutting => do
        advanceP
        let e ← expression r
        consume env .rightParen "Missing close parenthesis."
        pure (.grouping e)
      | .leftBrace => do
        advanceP
        let m ← literalMap env r
        consume env .rightBrace "Expect '}' after map entries."
        pure (.literalMap m)
      | .leftBracket => do
        advanceP
        let elements ← arrayElements r
        consume env .rightBracket "Expect ']' after array elements."
        pure (.literalArray elements)
      | .super => do
        let loc := t.loc
        advanceP
        consume env .dot "Expect '.' after 'super'."
        let (id, _) ← consumeIdentifier env "Expect superclass method name."
        pure (.super .placeholder id loc)
      | _ => do
        advanceP
        errorFromLast env "Expect expression.") p y p' v') : Does v (primary env r) p y p' v' := by
  unfold primary
  refine does_query ?_
  rw [peek_head hr]
  exact h

theorem noColon_check {t : Token} (m : Moves p [t] p') (h : ∀ u r, p'.rest = u :: r → u.tokenType ≠ .colon) :
    p.checkNext .colon = false := by
  rw [checkNext_cons m.head]
  cases hr : p'.rest with
  | nil => simp
  | cons u r => simp [h u r hr]

theorem map_primary {ms : List MapEntry} (hm : ∀ n, Does v (literalMap env (recN env n)) p ms p' v') (m : Moves p w p') (hf : KeyColon w) (n : Nat) :
    Does v (primary env (recN env n)) p (.literalMap ms) p' v' := by
  obtain ⟨t, c, rt, rfl, ht, hcol⟩ := hf
  have hcn : p.checkNext .colon = true := by
    rw [checkNext_cons m.head]
    rcases ht with ht | ht <;> simp [ht, hcol]
  rcases ht with ht | ht
  · refine primary_does m.head ht ?_
    simp only [ht]
    refine does_query ?_
    rw [hcn]
    exact does_bind (hm n) does_pure
  · refine primary_does m.head ht ?_
    simp only [ht]
    refine does_query ?_
    rw [hcn]
    exact does_bind (hm n) does_pure

theorem runs_map_bare {ms : List MapEntry} (ih : Runs env repl l o false .entries w (.entries ms) vs) (hf : KeyColon w) :
    Runs env repl l o.bareMap false .primary w (.expr (.literalMap ms)) vs := by
  intro v p p' m hc hs n
  obtain ⟨h1, h2, h3⟩ := hs.of_bareMap
  exact map_primary (ih p p' m hc h1 h2 h3) m hf n

/-- The entries are not followed by another one. -/
theorem map_stop {ms : List MapEntry} {t : Token} {rt : List Token} (h : Reaches v (literalMap env r) p (mapBody env r) ms q v')
    (hr : q.rest = t :: rt) (hk : ¬ KeyColon (t :: rt)) : Does v (literalMap env r) p ms q v' := by
  refine reaches_stop h ?_
  unfold mapBody
  refine does_query ?_
  have : (q.checkAnyOf [.identifier, .string] && q.checkNext .colon) = false := by
    rw [← Bool.not_eq_true]
    intro hc
    rw [Bool.and_eq_true, checkAnyOf_cons hr, checkNext_cons hr] at hc
    apply hk
    cases rt with
    | nil => simp at hc
    | cons c rt =>
      simp at hc
      exact ⟨t, c, rt, rfl, hc.1.2, hc.2.2⟩
  rw [this]
  exact does_pure

theorem runs_map_open {ms : List MapEntry} (ih : Runs env repl l o false .entriesBefore w (.entries ms) vs) (ho : o = .comma ∨ o = .brace)
    (hf : KeyColon w) : Runs env repl l o false .primary w (.expr (.literalMap ms)) vs := by
  intro v p p' m hc hs n
  obtain ⟨t, rt, hr⟩ := hs.ne
  refine map_primary (fun n => map_stop (ih p p' m hc (fun ho => .inr ⟨t, rt, hr, hs.brace ho t rt hr⟩) n) hr ?_) m hf n
  rcases ho with rfl | rfl
  · rw [← hr]; exact hs.key rfl
  · exact not_keyColon (by rw [hs.brace rfl t rt hr]; decide)

theorem runs_map_braces {b c : Token} {ms : List MapEntry} (hb : b.tokenType = .leftBrace)
    (ih : Runs env repl l o false .entries w (.entries ms) vs) (hr : c.tokenType = .rightBrace) :
    Runs env repl l .closed false .primary (b :: w ++ [c]) (.expr (.literalMap ms)) vs := by
  intro v p p' m hc hs n
  obtain ⟨q2, m, m3⟩ := m.split
  obtain ⟨q1, m1, m2⟩ := m.uncons
  refine primary_does m1.head hb ?_
  simp only [hb]
  refine does_bind' (advance_yes m1) (does_bind (ih q1 q2 m2 (hc.moves m1) ?_ ?_ ?_ n) (does_bind' (consume_yes m3 hr) does_pure))
  · rw [m3.head]
    exact stop_of hr rfl (by decide) fun _ => rfl
  · intro _ _ h
    rw [m3.head] at h
    rw [← (List.cons.inj h).1, hr]; decide
  · rw [m3.head]
    exact not_mapOn (by rw [hr]; decide)

theorem runs_map_trailing {b c : Token} {ms : List MapEntry} (hb : b.tokenType = .leftBrace)
    (ih : Runs env repl l o false .entriesBefore w (.entries ms) vs) (hr : c.tokenType = .rightBrace) :
    Runs env repl l .closed false .primary (b :: w ++ [c]) (.expr (.literalMap ms)) vs := by
  intro v p p' m hc hs n
  obtain ⟨q2, m, m3⟩ := m.split
  obtain ⟨q1, m1, m2⟩ := m.uncons
  refine primary_does m1.head hb ?_
  simp only [hb]
  refine does_bind' (advance_yes m1) (does_bind (q := q2) (a := ms) ?_ (does_bind' (consume_yes m3 hr) does_pure))
  exact map_stop (ih q1 q2 m2 (hc.moves m1) (fun _ => .inr ⟨c, _, m3.head, hr⟩) n) m3.head (not_keyColon (by rw [hr]; decide))

theorem runs_function_literal {t : Token} {d : FunDef} (ht : t.tokenType = .fun)
    (ih : Runs env repl l .closed false (.function t.loc) w (.fn d) vs) (hf : ∃ u r, w = u :: r ∧ IsParen u) :
    Runs env repl l .closed false .primary (t :: w) (.expr (.function d)) vs := by
  intro v p p' m hc hs n
  obtain ⟨q1, m1, m2⟩ := m.uncons
  refine primary_does m1.head ht ?_
  simp only [ht]
  obtain ⟨u, r, rfl, hu⟩ := hf
  refine does_bind' (advance_yes m1) (does_bind' (match_no m2.head fun h => ?_) ?_)
  · unfold IsParen at hu; rw [h] at hu; simp at hu
  · exact does_bind (ih q1 p' m2 (hc.moves m1) n) does_pure

theorem runs_grouping {b c : Token} (hb : IsParen b) (ih : Runs env repl l o false .expression w (.expr x) vs) (ho : o ≠ .brace) (hr : c.tokenType = .rightParen) :
    Runs env repl l .closed false .primary (b :: w ++ [c]) (.expr (.grouping x)) vs := by
  intro v p p' m hc hs n
  obtain ⟨q2, m, m3⟩ := m.split
  obtain ⟨q1, m1, m2⟩ := m.uncons
  have hg := ih (v := v) q1 q2 m2 (hc.moves m1) (by rw [m3.head]; exact stop_of hr rfl (by decide) fun h => absurd h ho) n
  rcases hb with hb | hb
  · refine primary_does m1.head hb ?_
    simp only [hb]
    exact does_bind' (advance_yes m1) (does_bind hg (does_bind' (consume_yes m3 hr) does_pure))
  · refine primary_does m1.head hb ?_
    simp only [hb]
    exact does_bind' (advance_yes m1) (does_bind hg (does_bind' (consume_yes m3 hr) does_pure))

theorem runs_array {b c : Token} {xs : List Expr} (hb : b.tokenType = .leftBracket)
    (ih : Runs env repl l .closed false .before w (.exprs xs) vs₁) (hfb : w = [] ∨ ExprHead exprTs w)
    (ih' : Runs env repl l o false .expression w' (.expr x) vs₂) (ho : o ≠ .brace)
    (hf : ExprHead exprTs w') (hr : c.tokenType = .rightBracket) :
    Runs env repl l .closed false .primary (b :: w ++ w' ++ [c]) (.expr (.literalArray (xs ++ [x]))) (vs₁ ++ vs₂) := by
  intro v p p' m hc hs n
  rw [List.append_assoc]
  obtain ⟨q3, m, m4⟩ := m.split
  obtain ⟨q2, m, m3⟩ := m.split
  obtain ⟨q1, m1, m2⟩ := m.uncons
  refine primary_does m1.head hb ?_
  simp only [hb]
  refine does_bind' (advance_yes m1) (does_bind (q := q3) (a := xs ++ [x]) ?_ (does_bind' (consume_yes m4 hr) does_pure))
  rw [arrayElements_eq]
  refine does_query ?_
  obtain ⟨t1, rt1, h1, ht1⟩ := (first_or_append hfb hf).cons (v := q3.rest)
  have hr1 : q1.rest = t1 :: rt1 := by rw [m2.rest, m3.rest, ← h1, List.append_assoc]
  rw [check_no hr1 (fun h => by rw [h] at ht1; revert ht1; decide)]
  simp only [Bool.not_false, if_true]
  obtain ⟨t, rt, h2, ht⟩ := hf.cons (v := q3.rest)
  refine reaches_stop ((ih q1 q2 m2 (hc.moves m1)).2.1 t rt (by rw [m3.rest]; exact h2)
    (fun h => by rw [h] at ht; revert ht; decide) n) ?_
  unfold arrayBody
  refine does_bind (ih' q2 q3 m3 ((hc.moves m1).moves m2) (by rw [m4.head]; exact stop_of hr rfl (by decide) fun h => absurd h ho) n) ?_
  exact does_bind' (match_no m4.head (by rw [hr]; decide)) does_pure

theorem runs_array_trailing {b c : Token} {xs : List Expr} (hb : b.tokenType = .leftBracket)
    (ih : Runs env repl l .closed false .before w (.exprs xs) vs) (hfb : w = [] ∧ xs = [] ∧ vs = [] ∨ ExprHead exprTs w ∧ xs ≠ [])
    (hr : c.tokenType = .rightBracket) :
    Runs env repl l .closed false .primary (b :: w ++ [c]) (.expr (.literalArray xs)) vs := by
  intro v p p' m hc hs n
  obtain ⟨q2, m, m3⟩ := m.split
  obtain ⟨q1, m1, m2⟩ := m.uncons
  refine primary_does m1.head hb ?_
  simp only [hb]
  refine does_bind' (advance_yes m1) (does_bind (q := q2) (a := xs) ?_ (does_bind' (consume_yes m3 hr) does_pure))
  rw [arrayElements_eq]
  refine does_query ?_
  rcases hfb with ⟨rfl, rfl, rfl⟩ | ⟨hf, hx⟩
  · rw [← m2.eq_nil]
    rw [check_yes m3.head hr (by decide)]
    exact does_pure
  · obtain ⟨t1, rt1, h1, ht1⟩ := hf.cons (v := q2.rest)
    rw [check_no (m2.rest.trans h1) (fun h => by rw [h] at ht1; revert ht1; decide)]
    simp only [Bool.not_false, if_true]
    exact (ih q1 q2 m2 (hc.moves m1)).2.2 c _ m3.head hr hx n

theorem runs_super {t d i : Token} (ht : t.tokenType = .super) (hd : d.tokenType = .dot) (hi : i.tokenType = .identifier) :
    Runs env repl l .closed false .primary [t, d, i] (.expr (.super .placeholder i.lexeme t.loc)) [] := by
  intro v p p' m hc hs n
  obtain ⟨q1, m1, m⟩ := m.uncons
  obtain ⟨q2, m2, m3⟩ := m.uncons
  refine primary_does m1.head ht ?_
  simp only [ht]
  exact does_bind' (advance_yes m1) (does_bind' (consume_yes m2 hd) (does_bind (identifier_yes m3 hi) does_pure))

end Ws
