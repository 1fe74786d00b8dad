import Verif.Proofs.Parse.Prefix
import Verif.Spec.Recovery
/-! The parser does the same in the middle of a list of tokens as at the beginning of the rest of the list. -/
namespace Ws
open Spec

variable {α β σ : Type} {env : Env} {p q : Parser} {s d : Nat}

/-- The environment with overflow checks: `previous` at the first token panics. -/
def checked (env : Env) : Env := { env with overflowChecks := true }

/-- `p` is `q` with `s` tokens before, in `d` more loops; unless `d` is 0 the tokens tell no difference, or `q` is in a loop too. -/
structure Shift (s d : Nat) (p q : Parser) : Prop where
  current : p.current = q.current + s
  inLoops : p.inLoops = q.inLoops + d
  allow : p.allowTrailing = q.allowTrailing
  tokens : ∀ i, p.tokens[i + s]? = q.tokens[i]?
  jumps : d = 0 ∨ NoJumps q.tokens ∨ 1 ≤ q.inLoops

/-- The message of the error after which the number of loops is wrong. -/
abbrev indentMessage : String := "Expect indent to begin block"

/-- The results of two runs, the second started in `q`. -/
def Matched (s d : Nat) (q : Parser) : Res Parser Cause α → Res Parser Cause α → Prop
  | .ok a p', .ok b q' => a = b ∧ Shift s d p' q' ∧ q'.inLoops = q.inLoops ∧ q'.tokens = q.tokens
  | .err e p', .err e' q' => e = e' ∧ Shift s d p' q' ∧ q.inLoops ≤ q'.inLoops ∧ (q'.inLoops = q.inLoops ∨ e.message = indentMessage) ∧
    q'.tokens = q.tokens
  | .ok _ _, .err _ _ => False
  | .err _ _, .ok _ _ => False
  | _, _ => True

/-- `x` does after `s` tokens what `x'` does at the beginning. -/
structure Moved (x x' : P α) : Prop where
  start : ∀ {s d p q}, Shift s d p q → Matched s d q (x p) (x' q)

theorem alike_panic_left {m : String} {r : Res Parser Cause α} : Matched s d q (.panic m) r := by cases r <;> trivial
theorem alike_panic_right {m : String} {r : Res Parser Cause α} : Matched s d q r (.panic m) := by cases r <;> trivial
theorem alike_diverge_left {r : Res Parser Cause α} : Matched s d q .diverge r := by cases r <;> trivial
theorem alike_diverge_right {r : Res Parser Cause α} : Matched s d q r .diverge := by cases r <;> trivial

theorem par_bind_post {x x' : P α} {f f' : α → P β} (hx : Moved x x') (R : α → Parser → Prop)
    (hR : ∀ {q a q'}, x' q = .ok a q' → R a q')
    (hf : ∀ a {s d p q}, R a q → Shift s d p q → Matched s d q (f a p) (f' a q)) : Moved (x >>= f) (x' >>= f') := by
  refine ⟨fun {s d p q} h => ?_⟩
  have h1 := hx.start h
  show Matched s d q (M.bind x f p) (M.bind x' f' q)
  unfold M.bind
  cases hp : x p with
  | ok a p' =>
    cases hq : x' q with
    | ok b q' =>
      rw [hp, hq] at h1
      obtain ⟨rfl, h1, h2, h3⟩ := h1
      have h4 := hf a (hR hq) h1
      simp only
      revert h4
      cases f a p' <;> cases f' a q' <;> intro h4 <;> try trivial
      · exact ⟨h4.1, h4.2.1, h4.2.2.1.trans h2, h4.2.2.2.trans h3⟩
      · exact ⟨h4.1, h4.2.1, by have := h4.2.2.1; omega, h4.2.2.2.1.imp (fun h => h.trans h2) id, h4.2.2.2.2.trans h3⟩
    | err e q' => rw [hp, hq] at h1; exact h1.elim
    | panic m => exact alike_panic_right
    | diverge => exact alike_diverge_right
  | err e p' =>
    cases hq : x' q with
    | ok b q' => rw [hp, hq] at h1; exact h1.elim
    | err e' q' => rw [hp, hq] at h1; exact h1
    | panic m => exact alike_panic_right
    | diverge => exact alike_diverge_right
  | panic m => exact alike_panic_left
  | diverge => exact alike_diverge_left

theorem par_bind {x x' : P α} {f f' : α → P β} (hx : Moved x x') (hf : ∀ a, Moved (f a) (f' a)) : Moved (x >>= f) (x' >>= f') :=
  par_bind_post hx (fun _ _ => True) (fun _ => trivial) fun a _ _ _ _ _ h => (hf a).start h

theorem par_ite {c : Prop} [Decidable c] {x x' y y' : P α} (h : c → Moved x x') (h' : ¬ c → Moved y y') :
    Moved (if c then x else y) (if c then x' else y') := by
  by_cases hc : c
  · rw [if_pos hc, if_pos hc]; exact h hc
  · rw [if_neg hc, if_neg hc]; exact h' hc
theorem par_pure {a : α} : Moved (pure a : P α) (pure a) := ⟨fun h => ⟨rfl, h, rfl, rfl⟩⟩
theorem par_panic {m : String} {x : P α} : Moved (M.panic m : P α) x := ⟨fun _ => alike_panic_left⟩
theorem par_diverge {x : P α} : Moved (fun _ => .diverge : P α) x := ⟨fun _ => alike_diverge_left⟩
theorem par_diverge_right {x : P α} : Moved x (fun _ => .diverge : P α) := ⟨fun _ => alike_diverge_right⟩
theorem par_throw {c : Cause} : Moved (M.throw c : P α) (M.throw c) := ⟨fun h => ⟨rfl, h, Nat.le_refl _, .inl rfl, rfl⟩⟩

section
variable (h : Shift s d p q)
include h
theorem shift_peek : p.peek = q.peek := by unfold Parser.peek; rw [h.current, h.tokens]
theorem shift_peekNext : p.peekNext = q.peekNext := by
  unfold Parser.peekNext; rw [h.current, ← h.tokens, Nat.add_right_comm]
theorem shift_peekNextNext : p.peekNextNext = q.peekNextNext := by
  unfold Parser.peekNextNext; rw [h.current, ← h.tokens, Nat.add_right_comm]
theorem shift_isAtEnd : p.isAtEnd = q.isAtEnd := by unfold Parser.isAtEnd; rw [shift_peek h]
theorem shift_check {tt} : p.check tt = q.check tt := by unfold Parser.check; rw [shift_isAtEnd h, shift_peek h]
theorem shift_checkNext {tt} : p.checkNext tt = q.checkNext tt := by
  unfold Parser.checkNext; rw [shift_isAtEnd h, shift_peekNext h]
theorem shift_checkNextNext {tt} : p.checkNextNext tt = q.checkNextNext tt := by
  unfold Parser.checkNextNext; rw [shift_isAtEnd h, shift_peekNextNext h]
theorem shift_checkAnyOf {tts} : p.checkAnyOf tts = q.checkAnyOf tts := by
  unfold Parser.checkAnyOf; rw [shift_isAtEnd h, shift_peek h]
theorem shift_checkNextAnyOf {tts} : p.checkNextAnyOf tts = q.checkNextAnyOf tts := by
  unfold Parser.checkNextAnyOf; rw [shift_isAtEnd h, shift_peekNext h]
theorem shift_advance : Shift s d p.advance q.advance ∧ q.advance.inLoops = q.inLoops ∧ q.advance.tokens = q.tokens := by
  unfold Parser.advance
  rw [shift_isAtEnd h]
  split
  · exact ⟨h, rfl, rfl⟩
  · exact ⟨⟨by simp only [h.current]; omega, h.inLoops, h.allow, h.tokens, h.jumps⟩, rfl, rfl⟩
end

/-- A question about the next tokens. -/
theorem par_query {f : Parser → α} (hf : ∀ {s d p q}, Shift s d p q → f p = f q) : Moved (query f) (query f) :=
  ⟨fun h => ⟨hf h, h, rfl, rfl⟩⟩

theorem par_advanceP : Moved advanceP advanceP := ⟨fun h => ⟨rfl, shift_advance h⟩⟩

theorem par_matchToken {tt} : Moved (matchToken tt) (matchToken tt) := by
  refine ⟨fun {s d p q} h => ?_⟩
  unfold matchToken
  rw [shift_check h]
  by_cases hc : q.check tt = true
  · rw [if_pos hc, if_pos hc]; exact ⟨rfl, shift_advance h⟩
  · rw [if_neg hc, if_neg hc]; exact ⟨rfl, h, rfl, rfl⟩

theorem par_matchesAny {tts} : Moved (matchesAny tts) (matchesAny tts) := by
  refine ⟨fun {s d p q} h => ?_⟩
  unfold matchesAny
  rw [shift_peek h]
  cases q.peek with
  | none => exact ⟨rfl, h, rfl, rfl⟩
  | some t =>
    simp only
    by_cases hc : tts.contains t.tokenType = true
    · rw [if_pos hc, if_pos hc]; exact ⟨rfl, shift_advance h⟩
    · rw [if_neg hc, if_neg hc]; exact ⟨rfl, h, rfl, rfl⟩

theorem par_previous : Moved (previous env) (previous (checked env)) := by
  refine ⟨fun {s d p q} h => ?_⟩
  unfold previous
  by_cases hc : q.current = 0
  · rw [if_pos hc, if_pos (show (checked env).overflowChecks = true from rfl)]; exact alike_panic_right
  · rw [if_neg hc, if_neg (by rw [h.current]; omega)]
    refine ⟨?_, h, rfl, rfl⟩
    rw [← h.tokens, h.current]
    congr 1
    omega

theorem par_fuel {body body' : σ → P (Step σ β)} (h : ∀ a, Moved (body a) (body' a)) :
    ∀ n m a, Moved (loopFuel body n a) (loopFuel body' m a)
  | 0, m, a => par_diverge
  | n + 1, 0, a => par_diverge_right
  | n + 1, m + 1, a => by
    unfold loopFuel
    refine par_bind (h a) fun s => ?_
    cases s with
    | next a' => exact par_fuel h n m a'
    | stop b => exact par_pure

theorem par_loop {body body' : σ → P (Step σ β)} {a : σ} (h : ∀ a, Moved (body a) (body' a)) : Moved (loop body a) (loop body' a) :=
  ⟨fun hp => (par_fuel h _ _ a).start hp⟩

/-! ### The functions of the parser -/

/-- Goes through a function. -/
syntax "par" "[" term,* "]" : tactic
macro_rules
  | `(tactic| par [$ls,*]) => do
    let ts : Lean.TSyntaxArray `term := ls.getElems
    `(tactic| repeat' (first
      | exact par_pure | exact par_panic | exact par_matchToken | exact par_advanceP
      | exact par_matchesAny | exact par_previous | exact par_throw
      | (refine par_query (fun h => ?_);
         simp only [shift_peek h, shift_isAtEnd h, shift_check h, shift_checkNext h, shift_checkNextNext h,
           shift_checkAnyOf h, shift_checkNextAnyOf h, h.allow]; done)
      $[| apply $ts]*
      | apply par_loop | apply par_bind | apply par_ite | intro _ | split))

theorem par_previousSourceLoc : Moved (previousSourceLoc env) (previousSourceLoc (checked env)) := by unfold previousSourceLoc; par []
theorem par_peekSourceLoc : Moved (peekSourceLoc env) (peekSourceLoc (checked env)) := by unfold peekSourceLoc; par [par_previousSourceLoc]
theorem par_errorFromLast {m} : Moved (errorFromLast env m : P α) (errorFromLast (checked env) m) := by
  unfold errorFromLast; par [par_previousSourceLoc]
theorem par_errorFromPeek {m} : Moved (errorFromPeek env m : P α) (errorFromPeek (checked env) m) := by
  unfold errorFromPeek; par [par_peekSourceLoc]
theorem par_consumeAnyOf {tts m} : Moved (consumeAnyOf env tts m) (consumeAnyOf (checked env) tts m) := by
  unfold consumeAnyOf; par [par_errorFromPeek]
theorem par_consume {tt m} : Moved (consume env tt m) (consume (checked env) tt m) := par_consumeAnyOf
theorem par_identifier {m} : Moved (consumeIdentifier env m) (consumeIdentifier (checked env) m) := by
  unfold consumeIdentifier; par [par_errorFromPeek]
theorem par_begin {m} : Moved (consumeBeginBlock env m) (consumeBeginBlock (checked env) m) := by
  unfold consumeBeginBlock; par [par_errorFromPeek, par_consume]
theorem par_end {eb m} : Moved (consumeEndBlock env eb m) (consumeEndBlock (checked env) eb m) := by
  unfold consumeEndBlock; par [par_errorFromPeek]

/-- The recursive functions do the same. -/
structure RecPar (r r' : Rec) : Prop where
  assignment : Moved r.assignment r'.assignment
  unary : Moved r.unary r'.unary
  declaration : Moved r.declaration r'.declaration
  statement : Moved r.statement r'.statement

variable {r r' : Rec} (hr : RecPar r r')
include hr

theorem par_finishBlock {eb} : Moved (finishBlock env r eb) (finishBlock (checked env) r' eb) := by
  unfold finishBlock; par [par_errorFromLast, par_errorFromPeek, hr.declaration, par_end]
omit hr in
theorem par_parameterList : Moved (parameterList env) (parameterList (checked env)) := by
  unfold parameterList; par [par_errorFromLast, par_errorFromPeek, par_identifier]
theorem par_functionDefinition {loc} : Moved (functionDefinition env r loc) (functionDefinition (checked env) r' loc) := by
  unfold functionDefinition; par [par_errorFromLast, par_errorFromPeek, par_consumeAnyOf, par_parameterList, par_consume, par_begin, par_finishBlock hr]
theorem par_finishFun : Moved (finishFunDeclaration env r) (finishFunDeclaration (checked env) r') := by
  unfold finishFunDeclaration; par [par_errorFromLast, par_errorFromPeek, par_identifier, par_functionDefinition hr]
theorem par_classMethods {eb} : Moved (classMethods env r eb) (classMethods (checked env) r' eb) := by
  unfold classMethods; par [par_errorFromLast, par_errorFromPeek, par_finishFun hr]
omit hr in
theorem par_superclass : Moved (superclassClause env) (superclassClause (checked env)) := by
  unfold superclassClause; par [par_errorFromLast, par_errorFromPeek, par_identifier]
theorem par_finishClass : Moved (finishClassDeclaration env r) (finishClassDeclaration (checked env) r') := by
  unfold finishClassDeclaration; par [par_errorFromLast, par_errorFromPeek, par_identifier, par_superclass, par_begin, par_end, par_classMethods hr]
theorem par_varInitializer : Moved (varInitializer r) (varInitializer r') := by
  unfold varInitializer expression; par [par_errorFromLast, par_errorFromPeek, hr.assignment]
omit hr in
theorem par_endVar {a b} : Moved (endVarDeclaration env a b) (endVarDeclaration (checked env) a b) := by
  unfold endVarDeclaration; par [par_errorFromLast, par_errorFromPeek, par_consume]
theorem par_finishVar {a} : Moved (finishVarDeclaration env r a) (finishVarDeclaration (checked env) r' a) := by
  unfold finishVarDeclaration; par [par_errorFromLast, par_errorFromPeek, par_identifier, par_varInitializer hr, par_endVar]
omit hr in
theorem par_endExpression : Moved (endExpressionStatement env) (endExpressionStatement (checked env)) := by
  unfold endExpressionStatement; par [par_errorFromLast, par_errorFromPeek, par_consume]
theorem par_expressionStatement : Moved (expressionStatement env r) (expressionStatement (checked env) r') := by
  unfold expressionStatement expression; par [par_errorFromLast, par_errorFromPeek, hr.assignment, par_endExpression]
omit hr in
theorem alike_break {loc} (h : Shift s d p q) (hd : d = 0 ∨ 1 ≤ q.inLoops) :
    Matched s d q (finishBreakStatement env loc p) (finishBreakStatement (checked env) loc q) := by
  unfold finishBreakStatement
  show Matched s d q (M.bind (query _) _ p) (M.bind (query _) _ q)
  simp only [M.bind, query]
  rw [show (p.inLoops == 0) = (q.inLoops == 0) by
    have := h.inLoops; rw [Bool.eq_iff_iff]; simp only [beq_iff_eq]; omega]
  split
  · exact par_errorFromLast.start h
  · exact (par_bind par_consume fun _ => par_pure).start h
omit hr in
theorem alike_continue {loc} (h : Shift s d p q) (hd : d = 0 ∨ 1 ≤ q.inLoops) :
    Matched s d q (finishContinueStatement env loc p) (finishContinueStatement (checked env) loc q) := by
  unfold finishContinueStatement
  show Matched s d q (M.bind (query _) _ p) (M.bind (query _) _ q)
  simp only [M.bind, query]
  rw [show (p.inLoops == 0) = (q.inLoops == 0) by
    have := h.inLoops; rw [Bool.eq_iff_iff]; simp only [beq_iff_eq]; omega]
  split
  · exact par_errorFromLast.start h
  · exact (par_bind par_consume fun _ => par_pure).start h
theorem par_blockOrStatement {eb} : Moved (blockOrStatement env r eb) (blockOrStatement (checked env) r' eb) := by
  unfold blockOrStatement; par [par_errorFromLast, par_errorFromPeek, hr.statement, par_finishBlock hr]
omit hr in
theorem par_beginIfAny {m} : Moved (beginBlockIfAny env m) (beginBlockIfAny (checked env) m) := by
  unfold beginBlockIfAny; par [par_errorFromLast, par_errorFromPeek, par_begin]
omit hr in
theorem errorFromPeek_message {m : String} {e : Cause} {q' : Parser} (h : (errorFromPeek env m : P α) q = .err e q') :
    e.message = m ∧ q' = q := by
  cases ht : q.peek with
  | some t => rw [errorFromPeek_some ht] at h; cases h; exact ⟨rfl, rfl⟩
  | none =>
    rw [errorFromPeek_none ht] at h
    by_cases hc : q.current = 0
    · by_cases ho : env.overflowChecks = true
      · simp [bind, M.bind, previousSourceLoc, previous, hc, ho] at h
      · simp [bind, M.bind, previousSourceLoc, previous, hc, ho, M.throw, pure, M.pure] at h
        rw [← h.1, h.2]; exact ⟨rfl, rfl⟩
    · cases hk : q.tokens[q.current - 1]? <;>
      · simp [bind, M.bind, previousSourceLoc, previous, hc, hk, M.throw, pure, M.pure] at h
        rw [← h.1, h.2]; exact ⟨rfl, rfl⟩
omit hr in
/-- The only error of `consume_begin_block` at a token that can begin a block. -/
theorem begin_error {m : String} {e : Cause} {q' : Parser} (h : beginBlockIfAny env m q = .err e q') :
    e.message = indentMessage := by
  unfold beginBlockIfAny at h
  simp only [bind, M.bind, query] at h
  split at h
  · rename_i hc
    unfold M.bind at h
    split at h
    · cases h
    · rename_i hx
      cases h
      unfold consumeBeginBlock at hx
      simp only [bind, M.bind] at hx
      unfold matchesAny at hx
      cases ht : q.peek with
      | none => simp [Parser.check, ht] at hc
      | some t =>
        have hk : t.tokenType = .terminator ∨ t.tokenType = .leftBrace := by
          simp [Parser.check, ht] at hc
          rcases hc with hc | hc
          · exact .inl hc.2
          · exact .inr hc.2
        rcases hk with hk | hk
        · simp [ht, hk] at hx
          unfold M.bind at hx
          split at hx
          · cases hx
          · rename_i hy
            cases hx
            unfold consume consumeAnyOf at hy
            simp only [bind, M.bind] at hy
            split at hy
            · split at hy
              · cases hy
              · exact (errorFromPeek_message hy).1
            · rename_i hz
              unfold matchesAny at hz
              split at hz
              · cases hz
              · split at hz <;> cases hz
            · cases hy
            · cases hy
          · cases hx
          · cases hx
        · simp [ht, hk, pure, M.pure] at hx
    · cases h
    · cases h
  · cases h
theorem par_loopBody : Moved (loopBodyStatement env r) (loopBodyStatement (checked env) r') := by
  refine ⟨fun {s d p q} h => ?_⟩
  unfold loopBodyStatement
  show Matched s d q (M.bind (enterLoop env) _ p) (M.bind (enterLoop _) _ q)
  unfold enterLoop
  simp only [M.bind]
  by_cases hp : p.inLoops ≥ env.usizeMax
  · rw [if_pos hp]; exact alike_panic_left
  by_cases hq : q.inLoops ≥ (checked env).usizeMax
  · rw [if_pos hq]; exact alike_panic_right
  rw [if_neg hp, if_neg hq]
  simp only
  have h0 : Shift s d { p with inLoops := p.inLoops + 1 } { q with inLoops := q.inLoops + 1 } :=
    ⟨h.current, by simp only [h.inLoops]; omega, h.allow, h.tokens, .inr (.inr (Nat.le_add_left _ _))⟩
  show Matched s d q (M.bind (beginBlockIfAny env _) _ _) (M.bind (beginBlockIfAny _ _) _ _)
  unfold M.bind
  have h1 := (par_beginIfAny (env := env) (m := "Expect '{' or indent before loop body.")).start h0
  cases hx : beginBlockIfAny env "Expect '{' or indent before loop body." { p with inLoops := p.inLoops + 1 } with
  | ok eb p1 =>
    cases hy : beginBlockIfAny (checked env) "Expect '{' or indent before loop body." { q with inLoops := q.inLoops + 1 } with
    | ok eb' q1 =>
      rw [hx, hy] at h1
      obtain ⟨rfl, h1, h2, h3⟩ := h1
      simp only at h2 h3 ⊢
      have h4 := (par_blockOrStatement (env := env) hr (eb := eb)).start h1
      unfold thenLeaveLoop
      revert h4
      cases blockOrStatement env r eb p1 with
      | ok a p2 =>
        cases blockOrStatement (checked env) r' eb q1 with
        | ok b q2 =>
          rintro ⟨rfl, h5, h6, h7⟩
          simp only
          have h8 := h5.inLoops
          rw [if_neg (by omega), if_neg (by omega)]
          exact ⟨rfl, ⟨h5.current, by simp only; omega, h5.allow, h5.tokens, h.jumps.imp id (.imp (fun hj => by rw [h7, h3]; exact hj)
            (fun hj => by simp only; omega))⟩, by simp only; omega, h7.trans h3⟩
        | err e q2 => exact False.elim
        | panic m => intro _; exact alike_panic_right
        | diverge => intro _; exact alike_diverge_right
      | err e p2 =>
        cases blockOrStatement (checked env) r' eb q1 with
        | ok b q2 => exact False.elim
        | err e' q2 =>
          rintro ⟨rfl, h5, h6, h7, h7'⟩
          simp only
          have h8 := h5.inLoops
          rw [if_neg (by omega), if_neg (by omega)]
          exact ⟨rfl, ⟨h5.current, by simp only; omega, h5.allow, h5.tokens, h.jumps.imp id (.imp (fun hj => by rw [h7', h3]; exact hj)
            (fun hj => by simp only; omega))⟩, by simp only; omega, h7.imp (fun h => by simp only; omega) id, h7'.trans h3⟩
        | panic m => intro _; exact alike_panic_right
        | diverge => intro _; exact alike_diverge_right
      | panic m => intro _; exact alike_panic_left
      | diverge => intro _; exact alike_diverge_left
    | err e q1 => rw [hx, hy] at h1; exact h1.elim
    | panic m => exact alike_panic_right
    | diverge => exact alike_diverge_right
  | err e p1 =>
    cases hy : beginBlockIfAny (checked env) "Expect '{' or indent before loop body." { q with inLoops := q.inLoops + 1 } with
    | ok b q2 => rw [hx, hy] at h1; exact h1.elim
    | err e' q1 =>
      rw [hx, hy] at h1
      obtain ⟨rfl, h1, h2, h3⟩ := h1
      exact ⟨rfl, h1, by simp only at h2; omega, .inr (begin_error hx), h3.2⟩
    | panic m => exact alike_panic_right
    | diverge => exact alike_diverge_right
  | panic m => exact alike_panic_left
  | diverge => exact alike_diverge_left
theorem par_forInitializer : Moved (forInitializer env r) (forInitializer (checked env) r') := by
  unfold forInitializer; par [par_errorFromLast, par_errorFromPeek, par_finishVar hr, par_expressionStatement hr]
theorem par_for : Moved (finishForStatement env r) (finishForStatement (checked env) r') := by
  unfold finishForStatement forCondition forIncrement expression
  par [par_errorFromLast, par_errorFromPeek, par_consumeAnyOf, par_forInitializer hr, par_consume, hr.assignment, par_loopBody hr]
theorem par_if : Moved (finishIfStatement env r) (finishIfStatement (checked env) r') := by
  unfold finishIfStatement expression
  par [par_errorFromLast, par_errorFromPeek, par_consumeAnyOf, par_consume, hr.assignment, hr.statement, par_beginIfAny, par_blockOrStatement hr]
theorem par_print : Moved (finishPrintStatement env r) (finishPrintStatement (checked env) r') := by
  unfold finishPrintStatement expression; par [par_errorFromLast, par_errorFromPeek, par_consume, hr.assignment]
theorem par_return {loc} : Moved (finishReturnStatement env r loc) (finishReturnStatement (checked env) r' loc) := by
  unfold finishReturnStatement returnValue expression; par [par_errorFromLast, par_errorFromPeek, par_consume, hr.assignment]
theorem par_while : Moved (finishWhileStatement env r) (finishWhileStatement (checked env) r') := by
  unfold finishWhileStatement expression; par [par_errorFromLast, par_errorFromPeek, par_consumeAnyOf, par_consume, hr.assignment, par_loopBody hr]
omit hr in
theorem matchesAny_mem {tts} {a : Option (TokenType × SourceLoc)} {q' : Parser} (h : matchesAny tts q = .ok a q') :
    ∀ tt loc, a = some (tt, loc) → ∃ t ∈ q'.tokens, t.tokenType = tt := by
  intro tt loc ha
  subst ha
  unfold matchesAny at h
  cases hq : q.peek with
  | none => rw [hq] at h; cases h
  | some t =>
    rw [hq] at h
    simp only at h
    split at h
    · cases h
      exact ⟨t, by rw [advance_le.2]; exact List.mem_of_getElem? hq, rfl⟩
    · cases h
omit hr in
theorem no_jump {tt} (h : Shift s d p q) (ht : ∃ t ∈ q.tokens, t.tokenType = tt) (hj : tt = .break ∨ tt = .continue) : d = 0 ∨ 1 ≤ q.inLoops := by
  obtain ⟨t, h1, rfl⟩ := ht
  rcases h.jumps with h2 | h2 | h2
  · exact .inl h2
  · exact absurd hj (by simp [(h2 t h1).1, (h2 t h1).2])
  · exact .inr h2
theorem par_statement : Moved (statementBody env r) (statementBody (checked env) r') := by
  unfold statementBody
  refine par_bind_post par_matchesAny _ (fun h => matchesAny_mem h) ?_
  intro a s d p q hR h
  rcases a with _ | ⟨tt, loc⟩
  · exact (par_expressionStatement hr).start h
  · cases tt
    case «break» => exact alike_break h (no_jump h (hR _ _ rfl) (.inl rfl))
    case «continue» => exact alike_continue h (no_jump h (hR _ _ rfl) (.inr rfl))
    case «for» => exact (par_for hr).start h
    case «if» => exact (par_if hr).start h
    case leftBrace => exact (par_bind (par_finishBlock hr) fun _ => par_pure).start h
    case print => exact (par_print hr).start h
    case «return» => exact (par_return hr).start h
    case «while» => exact (par_while hr).start h
    all_goals exact alike_panic_left
theorem par_declaration : Moved (declarationBody env r) (declarationBody (checked env) r') := by
  unfold declarationBody
  par [par_errorFromLast, par_errorFromPeek, par_finishClass hr, par_consume, par_finishFun hr, par_finishVar hr, hr.statement]
omit hr in
theorem par_binaryLevel {l : Level} {x x' : P Expr} (h : Moved x x') : Moved (binaryLevel l x) (binaryLevel l x') := by
  unfold binaryLevel; par [par_errorFromLast, par_errorFromPeek, h]
theorem par_or : Moved (orExpr r) (orExpr r') :=
  par_binaryLevel (par_binaryLevel (par_binaryLevel (par_binaryLevel (par_binaryLevel (par_binaryLevel hr.unary)))))
omit hr in
theorem par_mkAssignment {a b loc} : Moved (mkAssignment a b loc) (mkAssignment a b loc) := by
  unfold mkAssignment; par [par_errorFromLast, par_errorFromPeek]
theorem par_target : Moved (assignmentTarget env r) (assignmentTarget (checked env) r') := by
  unfold assignmentTarget; par [par_errorFromLast, par_errorFromPeek, par_or hr, par_consume]
theorem par_assignment : Moved (assignmentBody env r) (assignmentBody (checked env) r') := by
  unfold assignmentBody; par [par_errorFromLast, par_errorFromPeek, par_target hr, hr.assignment, par_mkAssignment]
theorem par_arguments : Moved (argumentList env r) (argumentList (checked env) r') := by
  unfold argumentList expression; par [par_errorFromLast, par_errorFromPeek, hr.assignment]
theorem par_finishCall {e loc} : Moved (finishCall env r e loc) (finishCall (checked env) r' e loc) := by
  unfold finishCall callArguments; par [par_errorFromLast, par_errorFromPeek, par_arguments hr, par_consume]
theorem par_withoutParens {e loc} : Moved (finishCallWithoutParens env r e loc) (finishCallWithoutParens (checked env) r' e loc) := by
  unfold finishCallWithoutParens; par [par_errorFromLast, par_errorFromPeek, par_arguments hr]
theorem par_getIndex {e loc} : Moved (finishGetIndex env r e loc) (finishGetIndex (checked env) r' e loc) := by
  unfold finishGetIndex expression; par [par_errorFromLast, par_errorFromPeek, hr.assignment, par_consume]
omit hr in
theorem par_mapKey {t} : Moved (mapKey t) (mapKey t) := by
  unfold mapKey; par [par_errorFromLast, par_errorFromPeek]
theorem par_literalMap : Moved (literalMap env r) (literalMap (checked env) r') := by
  unfold literalMap expression; par [par_errorFromLast, par_errorFromPeek, par_mapKey, par_consume, hr.assignment]
theorem par_array : Moved (arrayElements r) (arrayElements r') := by
  unfold arrayElements expression; par [par_errorFromLast, par_errorFromPeek, hr.assignment]
theorem par_primary : Moved (primary env r) (primary (checked env) r') := by
  unfold primary expression
  par [par_errorFromLast, par_errorFromPeek, par_literalMap hr, par_functionDefinition hr, hr.assignment, par_consume, par_array hr, par_identifier]
theorem par_call : Moved (call env r) (call (checked env) r') := by
  unfold call
  par [par_errorFromLast, par_errorFromPeek, par_primary hr, par_identifier, par_finishCall hr, par_getIndex hr, par_peekSourceLoc, par_withoutParens hr]
theorem par_unary : Moved (unaryBody env r) (unaryBody (checked env) r') := by
  unfold unaryBody; par [par_errorFromLast, par_errorFromPeek, par_call hr, hr.unary]
omit hr

theorem par_rec (env : Env) : ∀ n m, RecPar (recN env n) (recN (checked env) m)
  | 0, _ => ⟨par_diverge, par_diverge, par_diverge, par_diverge⟩
  | _ + 1, 0 => ⟨par_diverge_right, par_diverge_right, par_diverge_right, par_diverge_right⟩
  | n + 1, m + 1 =>
    have h := par_rec env n m
    ⟨par_assignment h, par_unary h, par_declaration h, par_statement h⟩

theorem par_synchronize : Moved (synchronize env) (synchronize (checked env)) := by
  unfold synchronize; par [par_errorFromLast, par_errorFromPeek]

end Ws
