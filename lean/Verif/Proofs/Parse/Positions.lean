import Verif.Model.Parser
import Verif.Spec.Positions
/-! The parser does not look at positions: parsing moved tokens gives the moved result. -/
namespace Ws
open Spec

variable {α β γ δ σ σ' : Type} {env : Env} {g : SourceLoc → SourceLoc}

theorem moveExprs_map : ∀ es, moveExprs g es = es.map (moveExpr g)
  | [] => by simp [moveExprs]
  | e :: es => by simp [moveExprs, moveExprs_map es]
theorem moveStmts_map : ∀ es, moveStmts g es = es.map (moveStmt g)
  | [] => by simp [moveStmts]
  | e :: es => by simp [moveStmts, moveStmts_map es]
/-- The entry of a map at another position. -/
def moveEntry (g : SourceLoc → SourceLoc) : MapEntry → MapEntry
  | .mk k v => .mk k (moveExpr g v)
/-- The method at another position. -/
def moveNamed (g : SourceLoc → SourceLoc) : NamedFun → NamedFun
  | .mk x d => .mk x (moveFun g d)
theorem moveEntries_map : ∀ es, moveEntries g es = es.map (moveEntry g)
  | [] => by simp [moveEntries]
  | .mk _ _ :: es => by simp [moveEntries, moveEntries_map es, moveEntry]
theorem moveMethods_map : ∀ es, moveMethods g es = es.map (moveNamed g)
  | [] => by simp [moveMethods]
  | .mk _ _ :: es => by simp [moveMethods, moveMethods_map es, moveNamed]

/-- The parser with its tokens moved. -/
def Parser.moved (g : SourceLoc → SourceLoc) (p : Parser) : Parser := { p with tokens := p.tokens.map (moveToken g) }

/-- A result with its positions changed. -/
def Res.moved (g : SourceLoc → SourceLoc) (m : α → β) : Res Parser Cause α → Res Parser Cause β
  | .ok a p => .ok (m a) (p.moved g)
  | .err e p => .err (moveCause g e) (p.moved g)
  | .panic s => .panic s
  | .diverge => .diverge

/-- `x'` does on moved tokens what `x` does on the tokens. -/
structure Hom (g : SourceLoc → SourceLoc) (m : α → β) (x : P α) (x' : P β) : Prop where
  eq : ∀ p, x' (p.moved g) = (x p).moved g m

theorem hom_pure {m : α → β} {a : α} {b : β} (h : m a = b) : Hom g m (pure a) (pure b) := ⟨fun _ => by subst h; rfl⟩
theorem hom_panic {m : α → β} {s : String} : Hom g m (M.panic s) (M.panic s) := ⟨fun _ => rfl⟩
theorem hom_throw {m : α → β} {c c' : Cause} (h : moveCause g c = c') : Hom g m (M.throw c) (M.throw c') := ⟨fun _ => by subst h; rfl⟩
theorem hom_bind {m : α → β} {n : γ → δ} {x : P α} {x' : P β} {k : α → P γ} {k' : β → P δ} (hx : Hom g m x x')
    (hk : ∀ a, Hom g n (k a) (k' (m a))) : Hom g n (x >>= k) (x' >>= k') := by
  refine ⟨fun p => ?_⟩
  show M.bind x' k' _ = Res.moved g n (M.bind x k p)
  unfold M.bind
  rw [hx.eq]
  cases x p with
  | ok a p' => exact (hk a).eq p'
  | err e p' => rfl
  | panic s => rfl
  | diverge => rfl
theorem hom_ite {m : α → β} {c c' : Prop} [Decidable c] [Decidable c'] {x y : P α} {x' y' : P β} (hc : c ↔ c')
    (h : Hom g m x x') (h' : Hom g m y y') : Hom g m (if c then x else y) (if c' then x' else y') := by
  by_cases hp : c
  · rw [if_pos hp, if_pos (hc.1 hp)]; exact h
  · rw [if_neg hp, if_neg fun hq => hp (hc.2 hq)]; exact h'
theorem hom_query {m : α → β} {f : Parser → α} {f' : Parser → β} (h : ∀ p, f' (p.moved g) = m (f p)) : Hom g m (query f) (query f') :=
  ⟨fun p => by show Res.ok _ _ = Res.ok _ _; rw [h]⟩

theorem moved_peek (p : Parser) : (p.moved g).peek = p.peek.map (moveToken g) := by simp [Parser.peek, Parser.moved]
theorem moved_peekNext (p : Parser) : (p.moved g).peekNext = p.peekNext.map (moveToken g) := by simp [Parser.peekNext, Parser.moved]
theorem moved_peekNextNext (p : Parser) : (p.moved g).peekNextNext = p.peekNextNext.map (moveToken g) := by
  simp [Parser.peekNextNext, Parser.moved]
theorem moved_isAtEnd (p : Parser) : (p.moved g).isAtEnd = p.isAtEnd := by
  unfold Parser.isAtEnd; rw [moved_peek]; cases p.peek <;> rfl
theorem moved_check (p : Parser) {tt} : (p.moved g).check tt = p.check tt := by
  unfold Parser.check; rw [moved_isAtEnd, moved_peek]; cases p.peek <;> rfl
theorem moved_checkNext (p : Parser) {tt} : (p.moved g).checkNext tt = p.checkNext tt := by
  unfold Parser.checkNext; rw [moved_isAtEnd, moved_peekNext]; cases p.peekNext <;> rfl
theorem moved_checkNextNext (p : Parser) {tt} : (p.moved g).checkNextNext tt = p.checkNextNext tt := by
  unfold Parser.checkNextNext; rw [moved_isAtEnd, moved_peekNextNext]; cases p.peekNextNext <;> rfl
theorem moved_checkAnyOf (p : Parser) {tts} : (p.moved g).checkAnyOf tts = p.checkAnyOf tts := by
  unfold Parser.checkAnyOf; rw [moved_isAtEnd, moved_peek]; cases p.peek <;> rfl
theorem moved_checkNextAnyOf (p : Parser) {tts} : (p.moved g).checkNextAnyOf tts = p.checkNextAnyOf tts := by
  unfold Parser.checkNextAnyOf; rw [moved_isAtEnd, moved_peekNext]; cases p.peekNext <;> rfl
theorem moved_advance (p : Parser) : (p.moved g).advance = p.advance.moved g := by
  unfold Parser.advance; rw [moved_isAtEnd]; split <;> rfl
theorem moved_allow (p : Parser) : (p.moved g).allowTrailing = p.allowTrailing := rfl
theorem moved_inLoops (p : Parser) : (p.moved g).inLoops = p.inLoops := rfl

theorem hom_bool {f : Parser → Bool} (h : ∀ p, f (p.moved g) = f p) : Hom g id (query f) (query f) := hom_query h
theorem hom_peek : Hom g (Option.map (moveToken g)) (query Parser.peek) (query Parser.peek) := hom_query moved_peek
theorem hom_advanceP : Hom g id advanceP advanceP := ⟨fun p => by show Res.ok _ _ = Res.ok _ _; rw [moved_advance]⟩
theorem hom_matchToken {tt} : Hom g id (matchToken tt) (matchToken tt) := by
  refine ⟨fun p => ?_⟩
  unfold matchToken
  rw [moved_check]
  split
  · rw [moved_advance]; rfl
  · rfl
/-- A token type and a position. -/
abbrev moveAt (g : SourceLoc → SourceLoc) (x : TokenType × SourceLoc) : TokenType × SourceLoc := (x.1, g x.2)
theorem hom_matchesAny {tts} : Hom g (Option.map (moveAt g)) (matchesAny tts) (matchesAny tts) := by
  refine ⟨fun p => ?_⟩
  unfold matchesAny
  rw [moved_peek]
  cases p.peek with
  | none => rfl
  | some t =>
    simp only [Option.map_some]
    show (if tts.contains t.tokenType = true then _ else _) = _
    split
    · rw [moved_advance]; rfl
    · rfl
theorem hom_previous : Hom g (Option.map (moveToken g)) (previous env) (previous env) := by
  refine ⟨fun p => ?_⟩
  unfold previous
  show (if p.current = 0 then _ else _) = _
  split
  · split <;> rfl
  · simp [Parser.moved, Res.moved]

/-- A step of a loop. -/
def moveStep (m : σ → σ') (n : α → β) : Step σ α → Step σ' β
  | .next a => .next (m a)
  | .stop b => .stop (n b)
theorem hom_fuel {m : σ → σ'} {n : α → β} {body : σ → P (Step σ α)} {body' : σ' → P (Step σ' β)}
    (h : ∀ a, Hom g (moveStep m n) (body a) (body' (m a))) : ∀ k a, Hom g n (loopFuel body k a) (loopFuel body' k (m a))
  | 0, _ => ⟨fun _ => rfl⟩
  | k + 1, a => by
    unfold loopFuel
    refine hom_bind (h a) fun s => ?_
    cases s with
    | next a => exact hom_fuel h k a
    | stop b => exact hom_pure rfl
theorem hom_loop {n : α → β} {body : σ → P (Step σ α)} {body' : σ' → P (Step σ' β)} {a : σ} {a' : σ'} (m : σ → σ')
    (ha : m a = a') (h : ∀ a, Hom g (moveStep m n) (body a) (body' (m a))) : Hom g n (loop body a) (loop body' a') := by
  subst ha
  refine ⟨fun p => ?_⟩
  unfold loop
  rw [← (hom_fuel h _ a).eq]
  simp [Parser.moved]

/-- Goes through a function. -/
syntax "hom" "[" term,* "]" : tactic
macro_rules
  | `(tactic| hom [$ls,*]) => do
    let ts : Lean.TSyntaxArray `term := ls.getElems
    `(tactic| repeat' (first
      | exact hom_panic | exact hom_matchToken | exact hom_advanceP
      | exact hom_matchesAny | exact hom_previous | exact hom_peek
      | (refine hom_bool (fun p => ?_);
         simp only [moved_isAtEnd, moved_check, moved_checkNext, moved_checkNextNext,
           moved_checkAnyOf, moved_checkNextAnyOf, moved_allow, moved_inLoops]; done)
      $[| apply $ts]*
      | (refine hom_pure ?_; first | rfl | (simp [moveExpr, moveStmt, moveFun, moveStep, moveNamed, moveEntry, moveParam, moveExprs_map,
          moveStmts_map, moveEntries_map, moveMethods_map]; done))
      | (refine hom_throw ?_; first | rfl | (simp [moveCause, Cause.newWithLocation, Cause.new]; done))
      | apply hom_bind | (refine hom_ite (by first | exact Iff.rfl | simp) ?_ ?_) 
      | (refine fun (a : Option (TokenType × SourceLoc)) => ?_; rcases a with _ | ⟨_, _⟩ <;> simp only [Option.map_some, Option.map_none])
      | (refine fun (a : Str × SourceLoc) => ?_; obtain ⟨_, _⟩ := a; dsimp only)
      | (refine fun (a : Expr × Bool) => ?_; obtain ⟨_, _⟩ := a; dsimp only) | intro _ | split))

variable (hg : g .default = .default)
include hg

theorem hom_previousSourceLoc : Hom g g (previousSourceLoc env) (previousSourceLoc env) := by
  unfold previousSourceLoc
  refine hom_bind hom_previous fun t => ?_
  cases t with
  | none => exact hom_pure hg
  | some t => exact hom_pure rfl
theorem hom_peekSourceLoc : Hom g g (peekSourceLoc env) (peekSourceLoc env) := by
  unfold peekSourceLoc
  refine hom_bind hom_peek fun t => ?_
  cases t with
  | none => exact hom_previousSourceLoc hg
  | some t => exact hom_pure rfl
theorem hom_errorFromLast {m : α → β} {s} : Hom g m (errorFromLast env s) (errorFromLast env s) := by
  unfold errorFromLast
  refine hom_bind hom_previous fun t => ?_
  cases t with
  | none => exact hom_bind (hom_previousSourceLoc hg) fun _ => hom_throw rfl
  | some t => exact hom_bind (hom_previousSourceLoc hg) fun _ => hom_throw rfl
theorem hom_errorFromPeek {m : α → β} {s} : Hom g m (errorFromPeek env s) (errorFromPeek env s) := by
  unfold errorFromPeek
  refine hom_bind hom_peek fun t => ?_
  cases t with
  | none => exact hom_bind (hom_peekSourceLoc hg) fun _ => hom_throw rfl
  | some t => exact hom_bind (hom_peekSourceLoc hg) fun _ => hom_throw rfl
theorem hom_consumeAnyOf {tts m} : Hom g id (consumeAnyOf env tts m) (consumeAnyOf env tts m) := by
  unfold consumeAnyOf
  refine hom_bind hom_matchesAny fun t => ?_
  cases t with
  | none => exact hom_errorFromPeek hg
  | some t => exact hom_pure rfl
theorem hom_consume {tt m} : Hom g id (consume env tt m) (consume env tt m) := hom_consumeAnyOf hg
/-- A name and its position. -/
abbrev moveName (g : SourceLoc → SourceLoc) (x : Str × SourceLoc) : Str × SourceLoc := (x.1, g x.2)
theorem hom_identifier {m} : Hom g (moveName g) (consumeIdentifier env m) (consumeIdentifier env m) := by
  unfold consumeIdentifier
  refine hom_bind hom_peek fun t => ?_
  cases t with
  | none => exact hom_errorFromPeek hg
  | some t =>
    refine hom_ite Iff.rfl ?_ (hom_errorFromPeek hg)
    exact hom_bind hom_advanceP fun _ => hom_pure rfl
theorem hom_begin {m} : Hom g id (consumeBeginBlock env m) (consumeBeginBlock env m) := by
  unfold consumeBeginBlock
  refine hom_bind hom_matchesAny fun t => ?_
  rcases t with _ | ⟨tt, loc⟩
  · exact hom_errorFromPeek hg
  · cases tt
    case terminator => exact hom_bind (hom_consume hg) fun _ => hom_pure rfl
    case leftBrace => exact hom_pure rfl
    all_goals exact hom_panic
theorem hom_end {eb m} : Hom g id (consumeEndBlock env eb m) (consumeEndBlock env eb m) := by
  unfold consumeEndBlock
  refine hom_bind hom_matchesAny fun t => ?_
  cases t with
  | none => cases eb <;> first | exact hom_errorFromPeek hg | exact hom_panic
  | some t => exact hom_pure rfl

/-- The recursive functions do the same. -/
structure RecHom (g : SourceLoc → SourceLoc) (r : Rec) : Prop where
  assignment : Hom g (moveExpr g) r.assignment r.assignment
  unary : Hom g (moveExpr g) r.unary r.unary
  declaration : Hom g (moveStmt g) r.declaration r.declaration
  statement : Hom g (moveStmt g) r.statement r.statement

variable {r : Rec} (hr : RecHom g r)
include hr

theorem hom_finishBlock {eb} : Hom g (List.map (moveStmt g)) (finishBlock env r eb) (finishBlock env r eb) := by
  unfold finishBlock
  refine hom_bind (m := List.map (moveStmt g)) (hom_loop (List.map (moveStmt g)) rfl fun acc => ?_) fun _ => ?_
  · hom [hr.declaration]
  · hom [hom_end hg]
omit hr in
theorem hom_parameterList : Hom g (List.map (moveParam g)) (parameterList env) (parameterList env) := by
  unfold parameterList
  hom [hom_loop (List.map (moveParam g)) rfl, hom_identifier hg]
theorem hom_functionDefinition {loc loc'} (h : g loc = loc') :
    Hom g (moveFun g) (functionDefinition env r loc) (functionDefinition env r loc') := by
  subst h
  unfold functionDefinition
  hom [hom_consumeAnyOf hg, hom_parameterList hg, hom_consume hg, hom_begin hg, hom_finishBlock hg hr]
theorem hom_finishFun : Hom g (moveNamed g) (finishFunDeclaration env r) (finishFunDeclaration env r) := by
  unfold finishFunDeclaration
  hom [hom_identifier hg, hom_functionDefinition hg hr rfl]
theorem hom_classMethods {eb} : Hom g (List.map (moveNamed g)) (classMethods env r eb) (classMethods env r eb) := by
  unfold classMethods
  refine hom_loop (List.map (moveNamed g)) rfl fun acc => ?_
  refine hom_bind (hom_bool fun p => by simp only [moved_check, moved_isAtEnd]) fun _ => ?_
  refine hom_ite Iff.rfl ?_ (hom_pure rfl)
  refine hom_bind hom_matchToken fun c => hom_bind (hom_finishFun hg hr) fun f => hom_pure ?_
  rcases f with ⟨x, ⟨ps, b, k, l⟩⟩
  simp [moveStep, moveNamed, moveFun, NamedFun.name, NamedFun.funDef, FunDef.setFunType]
  rfl
omit hr in
theorem hom_superclass : Hom g (Option.map (moveExpr g)) (superclassClause env) (superclassClause env) := by
  unfold superclassClause
  hom [hom_identifier hg]
theorem hom_finishClass : Hom g (moveStmt g) (finishClassDeclaration env r) (finishClassDeclaration env r) := by
  unfold finishClassDeclaration
  refine hom_bind (hom_identifier hg) fun ⟨x, loc⟩ => hom_bind (hom_superclass hg) fun sup => hom_bind (hom_begin hg) fun eb =>
    hom_bind (hom_classMethods hg hr) fun ms => hom_bind (hom_end hg) fun _ => hom_pure ?_
  cases sup <;> simp [moveStmt, moveMethods_map]
omit hg in
theorem hom_varInitializer : Hom g (fun x => (moveExpr g x.1, x.2)) (varInitializer r) (varInitializer r) := by
  unfold varInitializer expression
  hom [hr.assignment]
omit hr in
theorem hom_endVar {a b} : Hom g id (endVarDeclaration env a b) (endVarDeclaration env a b) := by
  unfold endVarDeclaration
  hom [hom_consume hg]
theorem hom_finishVar {a} : Hom g (moveStmt g) (finishVarDeclaration env r a) (finishVarDeclaration env r a) := by
  unfold finishVarDeclaration
  hom [hom_identifier hg, hom_varInitializer hr, hom_endVar hg]
omit hr in
theorem hom_endExpression : Hom g id (endExpressionStatement env) (endExpressionStatement env) := by
  unfold endExpressionStatement
  hom [hom_consume hg]
theorem hom_expressionStatement : Hom g (moveStmt g) (expressionStatement env r) (expressionStatement env r) := by
  unfold expressionStatement expression
  hom [hr.assignment, hom_endExpression hg]
omit hr in
theorem hom_break {loc} : Hom g (moveStmt g) (finishBreakStatement env loc) (finishBreakStatement env (g loc)) := by
  unfold finishBreakStatement
  hom [hom_errorFromLast hg, hom_consume hg]
omit hr in
theorem hom_continue {loc} : Hom g (moveStmt g) (finishContinueStatement env loc) (finishContinueStatement env (g loc)) := by
  unfold finishContinueStatement
  hom [hom_errorFromLast hg, hom_consume hg]
theorem hom_blockOrStatement {eb} : Hom g (moveStmt g) (blockOrStatement env r eb) (blockOrStatement env r eb) := by
  unfold blockOrStatement
  hom [hr.statement, hom_finishBlock hg hr]
omit hr in
theorem hom_beginIfAny {m} : Hom g id (beginBlockIfAny env m) (beginBlockIfAny env m) := by
  unfold beginBlockIfAny
  hom [hom_begin hg]
omit hg hr in
theorem hom_enter : Hom g id (enterLoop env) (enterLoop env) := by
  refine ⟨fun p => ?_⟩
  unfold enterLoop
  rw [moved_inLoops]
  split <;> rfl
omit hg hr in
theorem hom_leave {m : α → β} {x : P α} {x' : P β} (h : Hom g m x x') : Hom g m (thenLeaveLoop env x) (thenLeaveLoop env x') := by
  refine ⟨fun p => ?_⟩
  unfold thenLeaveLoop
  rw [h.eq]
  cases x p with
  | ok a p' =>
    by_cases h0 : p'.inLoops = 0
    · by_cases ho : env.overflowChecks = true
      · simp [Res.moved, moved_inLoops, h0, ho]
      · simp [Res.moved, moved_inLoops, h0, ho, Parser.moved]
    · simp [Res.moved, moved_inLoops, h0, Parser.moved]
  | err e p' =>
    by_cases h0 : p'.inLoops = 0
    · by_cases ho : env.overflowChecks = true
      · simp [Res.moved, moved_inLoops, h0, ho]
      · simp [Res.moved, moved_inLoops, h0, ho, Parser.moved]
    · simp [Res.moved, moved_inLoops, h0, Parser.moved]
  | panic s => rfl
  | diverge => rfl
theorem hom_loopBody : Hom g (moveStmt g) (loopBodyStatement env r) (loopBodyStatement env r) := by
  unfold loopBodyStatement
  exact hom_bind hom_enter fun _ => hom_bind (hom_beginIfAny hg) fun _ => hom_leave (hom_blockOrStatement hg hr)
theorem hom_forInitializer : Hom g (Option.map (moveStmt g)) (forInitializer env r) (forInitializer env r) := by
  unfold forInitializer
  hom [hom_finishVar hg hr, hom_expressionStatement hg hr]
theorem hom_forCondition : Hom g (moveExpr g) (forCondition r) (forCondition r) := by
  unfold forCondition expression
  hom [hr.assignment]
theorem hom_forIncrement : Hom g (Option.map (moveExpr g)) (forIncrement r) (forIncrement r) := by
  unfold forIncrement expression
  hom [hr.assignment]
theorem hom_for : Hom g (moveStmt g) (finishForStatement env r) (finishForStatement env r) := by
  unfold finishForStatement
  refine hom_bind (hom_consumeAnyOf hg) fun _ => hom_bind (hom_forInitializer hg hr) fun i => hom_bind (hom_forCondition hg hr) fun c =>
    hom_bind (hom_consume hg) fun _ => hom_bind (hom_forIncrement hg hr) fun n => hom_bind (hom_consume hg) fun _ =>
    hom_bind (hom_loopBody hg hr) fun b => ?_
  cases i <;> cases n <;> exact hom_pure (by simp [moveStmt, moveStmts])
theorem hom_if : Hom g (moveStmt g) (finishIfStatement env r) (finishIfStatement env r) := by
  unfold finishIfStatement expression
  hom [hom_consumeAnyOf hg, hom_consume hg, hr.assignment, hr.statement, hom_beginIfAny hg, hom_blockOrStatement hg hr]
theorem hom_print : Hom g (moveStmt g) (finishPrintStatement env r) (finishPrintStatement env r) := by
  unfold finishPrintStatement expression
  hom [hom_consume hg, hr.assignment]
theorem hom_returnValue : Hom g (moveExpr g) (returnValue r) (returnValue r) := by
  unfold returnValue expression
  hom [hr.assignment]
theorem hom_return {loc} : Hom g (moveStmt g) (finishReturnStatement env r loc) (finishReturnStatement env r (g loc)) := by
  unfold finishReturnStatement
  hom [hom_consume hg, hom_returnValue hg hr]
theorem hom_while : Hom g (moveStmt g) (finishWhileStatement env r) (finishWhileStatement env r) := by
  unfold finishWhileStatement expression
  hom [hom_consumeAnyOf hg, hom_consume hg, hr.assignment, hom_loopBody hg hr]
theorem hom_statement : Hom g (moveStmt g) (statementBody env r) (statementBody env r) := by
  unfold statementBody
  refine hom_bind hom_matchesAny fun t => ?_
  rcases t with _ | ⟨tt, loc⟩
  · exact hom_expressionStatement hg hr
  · cases tt
    case «break» => exact hom_break hg
    case «continue» => exact hom_continue hg
    case «for» => exact hom_for hg hr
    case «if» => exact hom_if hg hr
    case leftBrace => exact hom_bind (hom_finishBlock hg hr) fun b => hom_pure (by simp [moveStmt, moveStmts_map])
    case print => exact hom_print hg hr
    case «return» => exact hom_return hg hr
    case «while» => exact hom_while hg hr
    all_goals exact hom_panic
theorem hom_declaration : Hom g (moveStmt g) (declarationBody env r) (declarationBody env r) := by
  unfold declarationBody
  refine hom_bind hom_matchToken fun _ => hom_ite Iff.rfl (hom_finishClass hg hr) ?_
  refine hom_bind (hom_bool fun p => by simp only [moved_check, moved_checkNext]) fun _ => hom_ite Iff.rfl ?_ ?_
  · refine hom_bind (hom_consume hg) fun _ => hom_bind (hom_finishFun hg hr) fun ⟨x, d⟩ => hom_pure (by simp [moveStmt, moveNamed])
  · hom [hom_finishVar hg hr, hr.statement]
omit hg hr in
theorem hom_binaryLevel {l : Level} {x : P Expr} (h : Hom g (moveExpr g) x x) :
    Hom g (moveExpr g) (binaryLevel l x) (binaryLevel l x) := by
  unfold binaryLevel
  refine hom_bind h fun e => hom_loop (moveExpr g) rfl fun e => hom_bind hom_matchesAny fun t => ?_
  rcases t with _ | ⟨tt, loc⟩
  · exact hom_pure rfl
  · refine hom_bind h fun e' => ?_
    dsimp only
    cases l <;> cases tt <;> first | exact hom_panic | exact hom_pure (by simp [moveStep, moveExpr])
theorem hom_or : Hom g (moveExpr g) (orExpr r) (orExpr r) :=
  hom_binaryLevel (hom_binaryLevel (hom_binaryLevel (hom_binaryLevel (hom_binaryLevel (hom_binaryLevel hr.unary)))))
omit hg hr in
theorem hom_mkAssignment {a b loc} :
    Hom g (moveExpr g) (mkAssignment a b loc) (mkAssignment (moveExpr g a) (moveExpr g b) (g loc)) := by
  cases a <;> simp only [moveExpr, mkAssignment] <;> hom []
theorem hom_target : Hom g (moveExpr g) (assignmentTarget env r) (assignmentTarget env r) := by
  unfold assignmentTarget
  hom [hom_or hg hr, hom_consume hg]
theorem hom_assignment : Hom g (moveExpr g) (assignmentBody env r) (assignmentBody env r) := by
  unfold assignmentBody
  refine hom_bind (hom_target hg hr) fun e => hom_bind hom_matchesAny fun t => ?_
  rcases t with _ | ⟨tt, loc⟩
  · exact hom_pure rfl
  · exact hom_bind hr.assignment fun _ => hom_mkAssignment
theorem hom_arguments : Hom g (List.map (moveExpr g)) (argumentList env r) (argumentList env r) := by
  unfold argumentList expression
  hom [hom_loop (List.map (moveExpr g)) rfl, hom_errorFromPeek hg, hr.assignment]
theorem hom_callArguments : Hom g (List.map (moveExpr g)) (callArguments env r) (callArguments env r) := by
  unfold callArguments
  hom [hom_arguments hg hr]
theorem hom_finishCall {e loc} : Hom g (moveExpr g) (finishCall env r e loc) (finishCall env r (moveExpr g e) (g loc)) := by
  unfold finishCall
  hom [hom_callArguments hg hr, hom_consume hg]
theorem hom_withoutParens {e loc} :
    Hom g (moveExpr g) (finishCallWithoutParens env r e loc) (finishCallWithoutParens env r (moveExpr g e) (g loc)) := by
  unfold finishCallWithoutParens
  hom [hom_arguments hg hr]
theorem hom_getIndex {e loc} : Hom g (moveExpr g) (finishGetIndex env r e loc) (finishGetIndex env r (moveExpr g e) (g loc)) := by
  unfold finishGetIndex expression
  hom [hr.assignment, hom_consume hg]
omit hg hr in
theorem hom_mapKey {t} : Hom g id (mapKey t) (mapKey (moveToken g t)) := by
  unfold mapKey
  show Hom g id _ (match t.tokenType with
    | .identifier => pure t.lexeme
    | .string => match t.stringLiteral with
      | some s => pure s
      | none => M.panic "primary: expected float literal to include parsed string"
    | _ => M.panic "check() ensures this is unreachable")
  cases t.tokenType <;> simp only <;> first | exact hom_panic | exact hom_pure rfl | (cases t.stringLiteral <;> first | exact hom_panic | exact hom_pure rfl)
omit hg hr in
theorem move_insert {m : List MapEntry} {k : Str} {v : Expr} :
    mapInsert (m.map (moveEntry g)) k (moveExpr g v) = ((mapInsert m k v).1.map (moveEntry g), (mapInsert m k v).2) := by
  have hk : ∀ e, (moveEntry g e).key = e.key := fun ⟨_, _⟩ => rfl
  unfold mapInsert
  rw [show (m.map (moveEntry g)).any (fun e => e.key == k) = m.any (fun e => e.key == k) by simp [Function.comp_def, hk]]
  split
  · simp only [List.map_map, Prod.mk.injEq, and_true]
    refine List.map_congr_left fun e _ => ?_
    simp only [Function.comp_apply, hk]
    split <;> rfl
  · simp [moveEntry]
theorem hom_literalMap : Hom g (List.map (moveEntry g)) (literalMap env r) (literalMap env r) := by
  unfold literalMap expression
  refine hom_loop (List.map (moveEntry g)) rfl fun m => ?_
  refine hom_bind (hom_bool fun p => by simp only [moved_checkAnyOf, moved_checkNext]) fun _ => hom_ite Iff.rfl ?_ (hom_pure rfl)
  refine hom_bind hom_peek fun t => ?_
  cases t with
  | none => exact hom_panic
  | some t =>
    refine hom_bind hom_mapKey fun k => hom_bind hom_advanceP fun _ => hom_bind (hom_consume hg) fun _ => hom_bind hr.assignment fun v => ?_
    dsimp only [id]
    rw [move_insert]
    rcases mapInsert m k v with ⟨m', _ | _⟩
    · refine hom_bind (hom_bool fun p => by
        simp only [moved_check, moved_checkNextAnyOf, moved_checkNext, moved_checkNextNext]) fun _ => hom_ite Iff.rfl ?_ (hom_pure rfl)
      exact hom_bind hom_advanceP fun _ => hom_pure rfl
    · exact hom_throw rfl
theorem hom_array : Hom g (List.map (moveExpr g)) (arrayElements r) (arrayElements r) := by
  unfold arrayElements expression
  hom [hom_loop (List.map (moveExpr g)) rfl, hr.assignment]
theorem hom_primary : Hom g (moveExpr g) (primary env r) (primary env r) := by
  unfold primary expression
  refine hom_bind hom_peek fun t => ?_
  cases t with
  | none => exact hom_panic
  | some t =>
    rcases t with ⟨tt, lexeme, s, x, line, column⟩
    cases tt <;> dsimp only [Option.map, moveToken, Token.loc]
    all_goals try cases s
    all_goals try cases x
    all_goals
      hom [hom_errorFromLast hg, hom_literalMap hg hr, hom_functionDefinition hg hr rfl, hr.assignment, hom_consume hg, hom_array hg hr,
        hom_identifier hg]
theorem hom_call : Hom g (moveExpr g) (call env r) (call env r) := by
  unfold call
  refine hom_bind (hom_primary hg hr) fun e => hom_loop (moveExpr g) rfl fun e => hom_bind hom_matchesAny fun t => ?_
  rcases t with _ | ⟨tt, loc⟩
  · hom [hom_peekSourceLoc hg, hom_withoutParens hg hr]
  · cases tt
    case dot => hom [hom_identifier hg]
    case leftParenAbutting => hom [hom_finishCall hg hr]
    case leftBracket => hom [hom_getIndex hg hr]
    all_goals exact hom_panic
theorem hom_unary : Hom g (moveExpr g) (unaryBody env r) (unaryBody env r) := by
  unfold unaryBody
  refine hom_bind hom_matchesAny fun t => ?_
  rcases t with _ | ⟨tt, loc⟩
  · exact hom_call hg hr
  · refine hom_bind hr.unary fun e => ?_
    cases tt <;> first | exact hom_panic | exact hom_pure rfl
omit hr

theorem hom_rec (env : Env) : ∀ n, RecHom g (recN env n)
  | 0 => ⟨⟨fun _ => rfl⟩, ⟨fun _ => rfl⟩, ⟨fun _ => rfl⟩, ⟨fun _ => rfl⟩⟩
  | n + 1 =>
    have h := hom_rec env n
    ⟨hom_assignment hg h, hom_unary hg h, hom_declaration hg h, hom_statement hg h⟩

theorem hom_synchronize : Hom g id (synchronize env) (synchronize env) := by
  unfold synchronize
  refine hom_bind hom_advanceP fun _ => hom_loop id rfl fun _ => hom_bind (hom_bool fun p => by simp only [moved_isAtEnd]) fun _ =>
    hom_ite Iff.rfl ?_ (hom_pure rfl)
  refine hom_bind hom_previous fun t => ?_
  cases t with
  | none => exact hom_bind hom_advanceP fun _ => hom_pure rfl
  | some t =>
    refine hom_ite Iff.rfl (hom_pure rfl) (hom_bind hom_advanceP fun _ => hom_pure rfl)

/-- The statements and the errors so far. -/
def moveAcc (g : SourceLoc → SourceLoc) (acc : List Stmt × List Cause) : List Stmt × List Cause :=
  (moveStmts g acc.1, acc.2.map (moveCause g))

theorem hom_parseStep {r : Rec} (hr : RecHom g r) (acc : List Stmt × List Cause) :
    Hom g (moveStep (moveAcc g) (moveAcc g)) (parseStep env r acc) (parseStep env r (moveAcc g acc)) := by
  refine ⟨fun p => ?_⟩
  unfold parseStep
  rw [moved_isAtEnd]
  split
  · rfl
  · rw [hr.declaration.eq]
    cases r.declaration p with
    | ok st p' => simp [Res.moved, moveStep, moveAcc, moveStmts_map]
    | err e p' =>
      simp only [Res.moved]
      rw [(hom_synchronize hg).eq]
      cases synchronize env p' <;> simp [Res.moved, moveStep, moveAcc, moveStmts_map]
    | panic s => rfl
    | diverge => rfl

/-- Parsing moved tokens. -/
theorem parseTokens_moved (ts : List Token) (allow : Bool) :
    parseTokens env (ts.map (moveToken g)) allow = mapOutcome (moveResult g (moveStmts g)) (parseTokens env ts allow) := by
  unfold parseTokens
  have h := (hom_loop (n := moveAcc g) (moveAcc g) rfl (hom_parseStep (env := env) hg (hom_rec hg env (depthFor ts)))
    (a := ([], []))).eq (.new ts allow)
  rw [show depthFor (ts.map (moveToken g)) = depthFor ts by simp [depthFor]]
  rw [show (Parser.new ts allow).moved g = .new (ts.map (moveToken g)) allow from rfl,
    show moveAcc g ([], []) = ([], []) by simp [moveAcc, moveStmts]] at h
  rw [h]
  cases loop (parseStep env (recN env (depthFor ts))) ([], []) (.new ts allow) with
  | ok acc p =>
    obtain ⟨sts, es⟩ := acc
    simp only [Res.moved, moveAcc]
    rw [(hom_consume hg).eq]
    cases consume env .eof "Expected end of file" p with
    | ok _ p' =>
      simp only [Res.moved, List.isEmpty_map]
      split <;> rfl
    | err e p' => simp [Res.moved, mapOutcome, moveResult]
    | panic s => rfl
    | diverge => rfl
  | err e p => rfl
  | panic s => rfl
  | diverge => rfl

/-- Parsing the moved tokens of an expression. -/
theorem parseExpressionTokens_moved (ts : List Token) :
    parseExpressionTokens env (ts.map (moveToken g)) = mapOutcome (moveResult g (moveExpr g)) (parseExpressionTokens env ts) := by
  unfold parseExpressionTokens
  dsimp only
  rw [show depthFor (ts.map (moveToken g)) = depthFor ts by simp [depthFor]]
  have h : Hom g (moveExpr g) (do
      let e ← expression (recN env (depthFor ts))
      consume env .eof "Expected end of file"
      pure e) (do
      let e ← expression (recN env (depthFor ts))
      consume env .eof "Expected end of file"
      pure e) := hom_bind (hom_rec hg env _).assignment fun _ => hom_bind (hom_consume hg) fun _ => hom_pure rfl
  rw [show Parser.new (ts.map (moveToken g)) false = (Parser.new ts false).moved g from rfl, h.eq]
  generalize (do
      let e ← expression (recN env (depthFor ts))
      consume env .eof "Expected end of file"
      pure e : P Expr) (Parser.new ts false) = x
  cases x <;> rfl

end Ws
