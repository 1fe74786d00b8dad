import Verif.Proofs.Parse.Wp
/-! The parser accepts in the REPL what it accepts outside. -/
namespace Ws
open Spec

variable {α β σ : Type} {env : Env}

/-- The parser in the REPL. -/
def Parser.inRepl (p : Parser) : Parser := { p with allowTrailing := true }

/-- What succeeds outside the REPL succeeds in the REPL, with the same result. -/
def Keeps (x : P α) : Prop :=
  ∀ p a p', p.allowTrailing = false → x p = .ok a p' → p'.allowTrailing = false ∧ x p.inRepl = .ok a p'.inRepl

theorem keeps_pure (a : α) : Keeps (pure a : P α) := by
  intro p b p' hp h
  cases h
  exact ⟨hp, rfl⟩

theorem keeps_throw (c : Cause) : Keeps (M.throw c : P α) := by
  intro p b p' hp h
  cases h

theorem keeps_panic (m : String) : Keeps (M.panic m : P α) := by
  intro p b p' hp h
  cases h

theorem keeps_bind {x : P α} {k : α → P β} (hx : Keeps x) (hk : ∀ a, Keeps (k a)) : Keeps (x >>= k) := by
  intro p b p' hp h
  change M.bind x k p = _ at h
  show _ ∧ M.bind x k p.inRepl = _
  unfold M.bind at h ⊢
  cases hr : x p with
  | ok a p1 =>
    rw [hr] at h
    obtain ⟨h1, h2⟩ := hx p a p1 hp hr
    rw [h2]
    exact hk a p1 b p' h1 h
  | err e p1 => rw [hr] at h; cases h
  | panic m => rw [hr] at h; cases h
  | diverge => rw [hr] at h; cases h

theorem keeps_query {f : Parser → α} (hf : ∀ p : Parser, f p.inRepl = f p) : Keeps (query f) := by
  intro p a p' hp h
  cases h
  exact ⟨hp, by unfold query; rw [hf]⟩

theorem keeps_ite {c : Prop} [Decidable c] {x y : P α} (hx : Keeps x) (hy : Keeps y) : Keeps (if c then x else y) := by
  split
  · exact hx
  · exact hy

theorem inRepl_isAtEnd (p : Parser) : p.inRepl.isAtEnd = p.isAtEnd := rfl
theorem inRepl_peek (p : Parser) : p.inRepl.peek = p.peek := rfl

theorem inRepl_advance (p : Parser) : p.inRepl.advance = p.advance.inRepl := by
  unfold Parser.advance
  rw [inRepl_isAtEnd]
  split <;> rfl

theorem advance_allow (p : Parser) : p.advance.allowTrailing = p.allowTrailing := by
  unfold Parser.advance
  split <;> rfl

theorem keeps_advance : Keeps advanceP := by
  intro p a p' hp h
  cases h
  exact ⟨by rw [advance_allow]; exact hp, by unfold advanceP M.modify; rw [inRepl_advance]⟩

theorem keeps_matchToken (tt) : Keeps (matchToken tt) := by
  intro p a p' hp h
  unfold matchToken at h ⊢
  rw [show p.inRepl.check tt = p.check tt from rfl]
  split at h
  · cases h; simp only [*, if_true]; exact ⟨by rw [advance_allow]; exact hp, by rw [inRepl_advance]⟩
  · cases h; simp only [*]; exact ⟨trivial, by simp⟩

theorem keeps_matchesAny (tts) : Keeps (matchesAny tts) := by
  intro p a p' hp h
  unfold matchesAny at h ⊢
  rw [inRepl_peek]
  cases hpk : p.peek with
  | none => rw [hpk] at h; cases h; exact ⟨hp, rfl⟩
  | some t =>
    rw [hpk] at h
    dsimp only at h ⊢
    split at h
    · cases h; rw [if_pos (by assumption), inRepl_advance]; exact ⟨by rw [advance_allow]; exact hp, rfl⟩
    · cases h; rw [if_neg (by assumption)]; exact ⟨hp, rfl⟩

theorem keeps_previous : Keeps (previous env) := by
  intro p a p' hp h
  unfold previous at h ⊢
  rw [show p.inRepl.current = p.current from rfl, show p.inRepl.tokens = p.tokens from rfl]
  split at h
  · split at h
    · cases h
    · cases h; rw [if_pos (by assumption), if_neg (by assumption)]; exact ⟨hp, rfl⟩
  · cases h; rw [if_neg (by assumption)]; exact ⟨hp, rfl⟩

theorem keeps_loopFuel {body : σ → P (Step σ β)} (h : ∀ a, Keeps (body a)) : ∀ n a, Keeps (loopFuel body n a)
  | 0, _ => by intro p a p' _ h; cases h
  | n + 1, a => by
    unfold loopFuel
    refine keeps_bind (h a) fun s => ?_
    cases s with
    | next a' => exact keeps_loopFuel h n a'
    | stop b => exact keeps_pure b

theorem keeps_loop {body : σ → P (Step σ β)} (h : ∀ a, Keeps (body a)) (a : σ) : Keeps (loop body a) := by
  intro p b p' hp hl
  exact keeps_loopFuel h _ a p b p' hp hl

attribute [irreducible] Keeps

theorem Keeps.elim {x : P α} (h : Keeps x) : ∀ p a p', p.allowTrailing = false → x p = .ok a p' →
    p'.allowTrailing = false ∧ x p.inRepl = .ok a p'.inRepl := by
  unfold Keeps at h; exact h

theorem Keeps.intro {x : P α} (h : ∀ p a p', p.allowTrailing = false → x p = .ok a p' →
    p'.allowTrailing = false ∧ x p.inRepl = .ok a p'.inRepl) : Keeps x := by
  unfold Keeps; exact h

/-- Show that the code at hand behaves alike, using the given facts. -/
syntax "keeps" "[" term,* "]" : tactic
macro_rules
  | `(tactic| keeps [$ts,*]) => `(tactic| repeat' first
      | with_reducible assumption
      $[| with_reducible exact $ts]*
      | with_reducible exact keeps_pure _
      | with_reducible exact keeps_throw _
      | with_reducible exact keeps_panic _
      | with_reducible exact keeps_advance
      | with_reducible exact keeps_matchToken _
      | with_reducible exact keeps_matchesAny _
      | with_reducible exact keeps_previous
      | exact keeps_query fun _ => rfl
      | with_reducible refine keeps_bind ?_ ?_
      | with_reducible refine keeps_ite ?_ ?_
      | with_reducible refine keeps_loop ?_ _
      | intro _
      | split)

theorem keeps_previousSourceLoc : Keeps (previousSourceLoc env) := by unfold previousSourceLoc; keeps []
theorem keeps_peekSourceLoc : Keeps (peekSourceLoc env) := by unfold peekSourceLoc; keeps [keeps_previousSourceLoc]
theorem keeps_errorFromLast (m) : Keeps (errorFromLast env m : P α) := by
  unfold errorFromLast; keeps [keeps_previousSourceLoc]
theorem keeps_errorFromPeek (m) : Keeps (errorFromPeek env m : P α) := by
  unfold errorFromPeek; keeps [keeps_peekSourceLoc]
theorem keeps_consumeAnyOf (tts m) : Keeps (consumeAnyOf env tts m) := by
  unfold consumeAnyOf; keeps [keeps_errorFromPeek _]
theorem keeps_consume (tt m) : Keeps (consume env tt m) := keeps_consumeAnyOf _ _
theorem keeps_consumeIdentifier (m) : Keeps (consumeIdentifier env m) := by
  unfold consumeIdentifier; keeps [keeps_errorFromPeek _]
theorem keeps_consumeBeginBlock (m) : Keeps (consumeBeginBlock env m) := by
  unfold consumeBeginBlock; keeps [keeps_errorFromPeek _, keeps_consume _ _]
theorem keeps_consumeEndBlock (tt m) : Keeps (consumeEndBlock env tt m) := by
  unfold consumeEndBlock; keeps [keeps_errorFromPeek _]

theorem errorFromPeek_ne (m : String) (p : Parser) (a : α) (p' : Parser) : errorFromPeek env m p ≠ .ok a p' := by
  intro h
  unfold errorFromPeek at h
  change M.bind (query Parser.peek) _ p = _ at h
  unfold M.bind query at h
  dsimp only at h
  cases hpk : p.peek <;> rw [hpk] at h
  all_goals
    change M.bind (peekSourceLoc env) _ p = _ at h
    unfold M.bind at h
    cases hl : peekSourceLoc env p with
    | ok l q => rw [hl] at h; cases h
    | err l q => rw [hl] at h; cases h
    | panic m => rw [hl] at h; cases h
    | diverge => rw [hl] at h; cases h

/-- The parsing functions behave alike. -/
structure KeepsRec (r : Rec) : Prop where
  assignment : Keeps r.assignment
  unary : Keeps r.unary
  declaration : Keeps r.declaration
  statement : Keeps r.statement

variable {r : Rec}

theorem keeps_expression (hr : KeepsRec r) : Keeps (expression r) := hr.assignment

theorem keeps_finishBlock (hr : KeepsRec r) (eb) : Keeps (finishBlock env r eb) := by
  unfold finishBlock; keeps [hr.declaration, keeps_consumeEndBlock _ _]

theorem keeps_parameterList  : Keeps (parameterList env) := by
  unfold parameterList; keeps [keeps_consumeIdentifier _, keeps_errorFromPeek _, keeps_errorFromLast _]

theorem keeps_functionDefinition (hr : KeepsRec r) (loc) : Keeps (functionDefinition env r loc) := by
  unfold functionDefinition; keeps [keeps_consumeAnyOf _ _, keeps_consume _ _, keeps_consumeBeginBlock _, keeps_finishBlock hr _, keeps_parameterList]

theorem keeps_finishFunDeclaration (hr : KeepsRec r) : Keeps (finishFunDeclaration env r) := by
  unfold finishFunDeclaration; keeps [keeps_consumeIdentifier _, keeps_functionDefinition hr _]

theorem keeps_classMethods (hr : KeepsRec r) (eb) : Keeps (classMethods env r eb) := by
  unfold classMethods; keeps [keeps_finishFunDeclaration hr]

theorem keeps_superclassClause  : Keeps (superclassClause env) := by
  unfold superclassClause; keeps [keeps_consumeIdentifier _]

theorem keeps_finishClassDeclaration (hr : KeepsRec r) : Keeps (finishClassDeclaration env r) := by
  unfold finishClassDeclaration; keeps [keeps_consumeIdentifier _, keeps_superclassClause, keeps_consumeBeginBlock _, keeps_classMethods hr _, keeps_consumeEndBlock _ _]

theorem keeps_varInitializer (hr : KeepsRec r) : Keeps (varInitializer r) := by
  unfold varInitializer; keeps [keeps_expression hr]

theorem keeps_endVarDeclaration  (a b) : Keeps (endVarDeclaration env a b) := by
  unfold endVarDeclaration; keeps [keeps_consume _ _, keeps_errorFromPeek _]

theorem keeps_finishVarDeclaration (hr : KeepsRec r) (a) : Keeps (finishVarDeclaration env r a) := by
  unfold finishVarDeclaration; keeps [keeps_consumeIdentifier _, keeps_varInitializer hr, keeps_endVarDeclaration _ _]

/-- The only place where the REPL matters: a newline is accepted in either case. -/
theorem keeps_endExpressionStatement : Keeps (endExpressionStatement env) := by
  refine Keeps.intro ?_
  intro p a p' hp h
  have hc : ∀ q : Parser, (!(q.allowTrailing && q.isAtEnd) || q.check .terminator) = true →
      endExpressionStatement env q = consume env .terminator "Expect newline after expression." q := by
    intro q hq
    unfold endExpressionStatement
    show M.bind (query _) _ q = _
    unfold M.bind query
    simp only [hq, if_true]
  rw [hc p (by simp [hp])] at h
  have hk := (keeps_consume (env := env) .terminator _).elim p a p' hp h
  rw [hc p.inRepl ?_]
  · exact hk
  · -- the next token is a newline
    unfold consume consumeAnyOf at h
    change M.bind (matchesAny _) _ p = _ at h
    unfold M.bind matchesAny at h
    have : ∃ t, p.peek = some t ∧ t.tokenType = .terminator := by
      cases hpk : p.peek with
      | none =>
        rw [hpk] at h
        dsimp only at h
        exact absurd h (errorFromPeek_ne _ _ _ _)
      | some t =>
        refine ⟨t, rfl, ?_⟩
        rw [hpk] at h
        dsimp only at h
        by_cases ht : [TokenType.terminator].contains t.tokenType = true
        · simpa using ht
        · rw [if_neg ht] at h
          exact absurd h (errorFromPeek_ne _ _ _ _)
    obtain ⟨t, h1, h2⟩ := this
    simp [Parser.isAtEnd, inRepl_peek, h1, h2]

theorem keeps_expressionStatement (hr : KeepsRec r) : Keeps (expressionStatement env r) := by
  unfold expressionStatement; keeps [keeps_expression hr, keeps_endExpressionStatement]

theorem keeps_finishBreakStatement (loc) : Keeps (finishBreakStatement env loc) := by
  unfold finishBreakStatement; keeps [keeps_consume _ _, keeps_errorFromLast _]

theorem keeps_finishContinueStatement (loc) : Keeps (finishContinueStatement env loc) := by
  unfold finishContinueStatement; keeps [keeps_consume _ _, keeps_errorFromLast _]

theorem keeps_enterLoop : Keeps (enterLoop env) := by
  refine Keeps.intro ?_
  intro p a p' hp h
  unfold enterLoop at h ⊢
  rw [show p.inRepl.inLoops = p.inLoops from rfl]
  split at h
  · cases h
  · cases h; rw [if_neg (by assumption)]; exact ⟨hp, rfl⟩

theorem keeps_thenLeaveLoop {x : P α} (hx : Keeps x) : Keeps (thenLeaveLoop env x) := by
  refine Keeps.intro ?_
  intro p a p' hp h
  unfold thenLeaveLoop at h ⊢
  cases hr : x p with
  | ok b q =>
    rw [hr] at h
    obtain ⟨h1, h2⟩ := hx.elim p b q hp hr
    rw [h2]
    dsimp only at h ⊢
    rw [show q.inRepl.inLoops = q.inLoops from rfl]
    split at h
    · split at h
      · cases h
      · cases h; rw [if_pos (by assumption), if_neg (by assumption)]; exact ⟨h1, rfl⟩
    · cases h; rw [if_neg (by assumption)]; exact ⟨h1, rfl⟩
  | err e q =>
    rw [hr] at h
    dsimp only at h
    split at h
    · split at h <;> cases h
    · cases h
  | panic m => rw [hr] at h; cases h
  | diverge => rw [hr] at h; cases h

theorem keeps_blockOrStatement (hr : KeepsRec r) (eb) : Keeps (blockOrStatement env r eb) := by
  unfold blockOrStatement; keeps [hr.statement, keeps_finishBlock hr _]

theorem keeps_beginBlockIfAny  (m) : Keeps (beginBlockIfAny env m) := by
  unfold beginBlockIfAny; keeps [keeps_consumeBeginBlock _]

theorem keeps_loopBodyStatement (hr : KeepsRec r) : Keeps (loopBodyStatement env r) := by
  unfold loopBodyStatement; keeps [keeps_enterLoop, keeps_beginBlockIfAny _, keeps_thenLeaveLoop (keeps_blockOrStatement hr _)]

theorem keeps_forInitializer (hr : KeepsRec r) : Keeps (forInitializer env r) := by
  unfold forInitializer; keeps [keeps_finishVarDeclaration hr _, keeps_expressionStatement hr]

theorem keeps_forCondition (hr : KeepsRec r) : Keeps (forCondition r) := by
  unfold forCondition; keeps [keeps_expression hr]

theorem keeps_forIncrement (hr : KeepsRec r) : Keeps (forIncrement r) := by
  unfold forIncrement; keeps [keeps_expression hr]

theorem keeps_finishForStatement (hr : KeepsRec r) : Keeps (finishForStatement env r) := by
  unfold finishForStatement; keeps [keeps_consumeAnyOf _ _, keeps_consume _ _, keeps_forInitializer hr, keeps_forCondition hr, keeps_forIncrement hr, keeps_loopBodyStatement hr]

theorem keeps_finishIfStatement (hr : KeepsRec r) : Keeps (finishIfStatement env r) := by
  unfold finishIfStatement; keeps [keeps_consumeAnyOf _ _, keeps_consume _ _, keeps_expression hr, keeps_beginBlockIfAny _, keeps_blockOrStatement hr _, hr.statement]

theorem keeps_finishPrintStatement (hr : KeepsRec r) : Keeps (finishPrintStatement env r) := by
  unfold finishPrintStatement; keeps [keeps_expression hr, keeps_consume _ _]

theorem keeps_returnValue (hr : KeepsRec r) : Keeps (returnValue r) := by
  unfold returnValue; keeps [keeps_expression hr]

theorem keeps_finishReturnStatement (hr : KeepsRec r) (loc) : Keeps (finishReturnStatement env r loc) := by
  unfold finishReturnStatement; keeps [keeps_returnValue hr, keeps_consume _ _]

theorem keeps_finishWhileStatement (hr : KeepsRec r) : Keeps (finishWhileStatement env r) := by
  unfold finishWhileStatement; keeps [keeps_consumeAnyOf _ _, keeps_consume _ _, keeps_expression hr, keeps_loopBodyStatement hr]

theorem keeps_statementBody (hr : KeepsRec r) : Keeps (statementBody env r) := by
  unfold statementBody; keeps [keeps_expressionStatement hr, keeps_finishBreakStatement _, keeps_finishContinueStatement _, keeps_finishForStatement hr, keeps_finishIfStatement hr, keeps_finishBlock hr _, keeps_finishPrintStatement hr, keeps_finishReturnStatement hr _, keeps_finishWhileStatement hr]

theorem keeps_declarationBody (hr : KeepsRec r) : Keeps (declarationBody env r) := by
  unfold declarationBody; keeps [keeps_finishClassDeclaration hr, keeps_consume _ _, keeps_finishFunDeclaration hr, keeps_finishVarDeclaration hr _, hr.statement]

theorem keeps_binaryLevel (l) {x : P Expr} (hx : Keeps x) : Keeps (binaryLevel l x) := by
  unfold binaryLevel; keeps []

theorem keeps_orExpr (hr : KeepsRec r) : Keeps (orExpr r) :=
  keeps_binaryLevel _ (keeps_binaryLevel _ (keeps_binaryLevel _ (keeps_binaryLevel _ (keeps_binaryLevel _
    (keeps_binaryLevel _ hr.unary)))))

theorem keeps_mkAssignment (a b c) : Keeps (mkAssignment a b c) := by
  unfold mkAssignment; keeps []

theorem keeps_assignmentTarget (hr : KeepsRec r) : Keeps (assignmentTarget env r) := by
  unfold assignmentTarget; keeps [keeps_orExpr hr, keeps_consume _ _]

theorem keeps_assignmentBody (hr : KeepsRec r) : Keeps (assignmentBody env r) := by
  unfold assignmentBody; keeps [keeps_assignmentTarget hr, hr.assignment, keeps_mkAssignment _ _ _]

theorem keeps_argumentList (hr : KeepsRec r) : Keeps (argumentList env r) := by
  unfold argumentList; keeps [keeps_errorFromPeek _, keeps_expression hr]

theorem keeps_callArguments (hr : KeepsRec r) : Keeps (callArguments env r) := by
  unfold callArguments; keeps [keeps_argumentList hr]

theorem keeps_finishCall (hr : KeepsRec r) (e loc) : Keeps (finishCall env r e loc) := by
  unfold finishCall; keeps [keeps_callArguments hr, keeps_consume _ _]

theorem keeps_finishCallWithoutParens (hr : KeepsRec r) (e loc) : Keeps (finishCallWithoutParens env r e loc) := by
  unfold finishCallWithoutParens; keeps [keeps_argumentList hr]

theorem keeps_finishGetIndex (hr : KeepsRec r) (e loc) : Keeps (finishGetIndex env r e loc) := by
  unfold finishGetIndex; keeps [keeps_expression hr, keeps_consume _ _]

theorem keeps_mapKey (t) : Keeps (mapKey t) := by unfold mapKey; keeps []

theorem keeps_literalMap (hr : KeepsRec r) : Keeps (literalMap env r) := by
  unfold literalMap; keeps [keeps_expression hr, keeps_consume _ _, keeps_mapKey _]

theorem keeps_arrayElements (hr : KeepsRec r) : Keeps (arrayElements r) := by
  unfold arrayElements; keeps [keeps_expression hr]

theorem keeps_primary (hr : KeepsRec r) : Keeps (primary env r) := by
  unfold primary; keeps [keeps_expression hr, keeps_consume _ _, keeps_literalMap hr, keeps_arrayElements hr, keeps_functionDefinition hr _, keeps_errorFromLast _, keeps_errorFromPeek _, keeps_consumeIdentifier _]


theorem keeps_call (hr : KeepsRec r) : Keeps (call env r) := by
  unfold call
  keeps [keeps_primary hr, keeps_consumeIdentifier _, keeps_finishCall hr _ _, keeps_finishGetIndex hr _ _,
    keeps_peekSourceLoc, keeps_finishCallWithoutParens hr _ _]

theorem keeps_unaryBody (hr : KeepsRec r) : Keeps (unaryBody env r) := by
  unfold unaryBody; keeps [keeps_call hr, hr.unary]

theorem keeps_recN (env : Env) : ∀ n, KeepsRec (recN env n)
  | 0 => by
    constructor <;> (refine Keeps.intro ?_; intro p a p' _ h; cases h)
  | n + 1 =>
    have ih := keeps_recN env n
    ⟨keeps_assignmentBody ih, keeps_unaryBody ih, keeps_declarationBody ih, keeps_statementBody ih⟩

/-- Errors are only ever added. -/
theorem parseStep_errors (hr : KeepsRec r) {p p' : Parser} {acc : List Stmt × List Cause} {s}
    (h : parseStep env r acc p = .ok s p') :
    ∃ cs, (match s with | .next b => b | .stop b => b).2 = acc.2 ++ cs ∧
      (p.allowTrailing = false → cs = [] → p'.allowTrailing = false ∧ parseStep env r acc p.inRepl = .ok s p'.inRepl) := by
  unfold parseStep at h ⊢
  rw [inRepl_isAtEnd]
  split at h
  · cases h
    rw [if_pos (by assumption)]
    exact ⟨[], by simp, fun hp _ => ⟨hp, rfl⟩⟩
  · rw [if_neg (by assumption)]
    cases hd : r.declaration p with
    | ok st q =>
      rw [hd] at h
      cases h
      refine ⟨[], by simp, fun hp _ => ?_⟩
      obtain ⟨h1, h2⟩ := hr.declaration.elim p st _ hp hd
      exact ⟨h1, by rw [h2]⟩
    | err e q =>
      rw [hd] at h
      dsimp only at h
      cases hs : synchronize env q with
      | ok u q' => rw [hs] at h; cases h; exact ⟨[e], rfl, fun _ h => by cases h⟩
      | err e' q' => rw [hs] at h; cases h
      | panic m => rw [hs] at h; cases h
      | diverge => rw [hs] at h; cases h
    | panic m => rw [hd] at h; cases h
    | diverge => rw [hd] at h; cases h

theorem loopFuel_parseStep (hr : KeepsRec r) : ∀ n acc (p p' : Parser) b,
    loopFuel (parseStep env r) n acc p = .ok b p' →
    ∃ cs, b.2 = acc.2 ++ cs ∧ (p.allowTrailing = false → cs = [] → p'.allowTrailing = false ∧
      loopFuel (parseStep env r) n acc p.inRepl = .ok b p'.inRepl)
  | 0, _, _, _, _, h => by cases h
  | n + 1, acc, p, p', b, h => by
    unfold loopFuel at h ⊢
    change M.bind (parseStep env r acc) _ p = _ at h
    show ∃ cs, _ ∧ (_ → _ → _ ∧ M.bind (parseStep env r acc) _ p.inRepl = _)
    unfold M.bind at h ⊢
    cases hs : parseStep env r acc p with
    | ok s q =>
      rw [hs] at h
      obtain ⟨cs, h1, h2⟩ := parseStep_errors hr hs
      cases s with
      | next acc' =>
        obtain ⟨cs', h3, h4⟩ := loopFuel_parseStep hr n acc' q p' b h
        dsimp only at h1
        refine ⟨cs ++ cs', by rw [h3, h1, List.append_assoc], fun hp hc => ?_⟩
        obtain ⟨hc1, hc2⟩ := List.append_eq_nil_iff.mp hc
        obtain ⟨h5, h6⟩ := h2 hp hc1
        rw [h6]
        exact h4 h5 hc2
      | stop acc' =>
        cases h
        refine ⟨cs, h1, fun hp hc => ?_⟩
        obtain ⟨h5, h6⟩ := h2 hp hc
        rw [h6]
        exact ⟨h5, rfl⟩
    | err e q => rw [hs] at h; cases h
    | panic m => rw [hs] at h; cases h
    | diverge => rw [hs] at h; cases h

theorem parseTokens_inRepl {T : List Token} {sts : List Stmt} (h : parseTokens env T false = .done (.ok sts)) :
    parseTokens env T true = .done (.ok sts) := by
  unfold parseTokens at h ⊢
  have hn : Parser.new T true = (Parser.new T false).inRepl := rfl
  rw [hn]
  unfold loop at h ⊢
  cases hl : loopFuel (parseStep env (recN env (depthFor T))) ((Parser.new T false).tokens.length + 1) ([], []) (Parser.new T false) with
  | ok acc p =>
    rw [hl] at h
    obtain ⟨cs, h1, h2⟩ := loopFuel_parseStep (keeps_recN env _) _ _ _ _ _ hl
    obtain ⟨a, b⟩ := acc
    dsimp only at h h1
    rw [List.nil_append] at h1
    subst h1
    cases hc : consume env .eof "Expected end of file" p with
    | ok u q =>
      rw [hc] at h
      dsimp only at h
      cases b with
      | nil =>
        obtain ⟨h3, h4⟩ := h2 rfl rfl
        obtain ⟨-, h5⟩ := (keeps_consume _ _).elim p u q h3 hc
        rw [show (Parser.new T false).inRepl.tokens.length = (Parser.new T false).tokens.length from rfl, h4]
        dsimp only
        rw [h5]
        exact h
      | cons c cs => cases h
    | err e q => rw [hc] at h; cases h
    | panic m => rw [hc] at h; cases h
    | diverge => rw [hc] at h; cases h
  | err e p => rw [hl] at h; cases h
  | panic m => rw [hl] at h; cases h
  | diverge => rw [hl] at h; cases h

/-- What is parsed outside the REPL is parsed in the REPL, with the same result. -/
theorem parseReplLine_of_parse {s : Str} {sts : List Stmt} (h : parse env s = .done (.ok sts)) :
    parseReplLine env s = .done (.ok sts) := by
  unfold parse parseReplLine at *
  unfold scanThen at *
  cases hs : scanTokens env s with
  | done x =>
    rw [hs] at h
    cases x with
    | ok ts => exact parseTokens_inRepl h
    | error e => cases h
  | panic m => rw [hs] at h; cases h
  | diverge => rw [hs] at h; cases h

end Ws
