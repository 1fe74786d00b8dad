import Verif.Model.Parser
import Verif.Spec.Relabel
/-! The parser does not look into names, strings and numbers: parsing tokens with others gives the program
with others. -/
namespace Ws
open Spec

theorem relabelExprs_map {ρ} : ∀ es, relabelExprs ρ es = es.map (relabelExpr ρ)
  | [] => by simp [relabelExprs]
  | e :: es => by simp [relabelExprs, relabelExprs_map es]
theorem relabelStmts_map {ρ} : ∀ es, relabelStmts ρ es = es.map (relabelStmt ρ)
  | [] => by simp [relabelStmts]
  | e :: es => by simp [relabelStmts, relabelStmts_map es]
/-- The entry of a map with another key. -/
def relabelEntry (ρ : Relabelling) : MapEntry → MapEntry
  | .mk k v => .mk (ρ.key k) (relabelExpr ρ v)
/-- The method with another name. -/
def relabelNamed (ρ : Relabelling) : NamedFun → NamedFun
  | .mk x d => .mk (ρ.name x) (relabelFun ρ d)
/-- The parameter with another name. -/
abbrev relabelParam (ρ : Relabelling) (p : Parameter) : Parameter := { p with name := ρ.name p.name }
theorem relabelEntries_map {ρ} : ∀ es, relabelEntries ρ es = es.map (relabelEntry ρ)
  | [] => by simp [relabelEntries]
  | .mk _ _ :: es => by simp [relabelEntries, relabelEntries_map es, relabelEntry]
theorem relabelMethods_map {ρ} : ∀ es, relabelMethods ρ es = es.map (relabelNamed ρ)
  | [] => by simp [relabelMethods]
  | .mk _ _ :: es => by simp [relabelMethods, relabelMethods_map es, relabelNamed]

/-- The setting: the tokens, and the tokens with other names, strings and numbers. -/
structure Labels where
  ρ : Relabelling
  ts : List Token
  ts' : List Token
  faithful : ρ.Faithful
  each : Each (RelabelledToken ρ) ts ts'
  keys : KeysAgree ρ ts

variable {α β γ δ σ σ' : Type} {env : Env} {g : Labels}

/-- The parser with the other tokens. -/
def Parser.other (g : Labels) (p : Parser) : Parser := { p with tokens := g.ts' }

/-- The second result is that for the other tokens. -/
inductive LabRes (g : Labels) (R : α → β → Prop) : Res Parser Cause α → Res Parser Cause β → Prop
  | ok {a b} (p) : R a b → p.tokens = g.ts → LabRes g R (.ok a p) (.ok b (p.other g))
  | err {c c'} (p) : SameComplaint c c' → p.tokens = g.ts → LabRes g R (.err c p) (.err c' (p.other g))
  | panic (s) : LabRes g R (.panic s) (.panic s)
  | diverge : LabRes g R .diverge .diverge

/-- `x'` does on the other tokens what `x` does on the tokens, with related results. -/
structure LabR (g : Labels) (R : α → β → Prop) (x : P α) (x' : P β) : Prop where
  rel : ∀ p, p.tokens = g.ts → LabRes g R (x p) (x' (p.other g))

/-- `x'` does on the other tokens what `x` does on the tokens. -/
abbrev Lab (g : Labels) (m : α → β) (x : P α) (x' : P β) : Prop := LabR g (fun a b => b = m a) x x'

theorem lab_pure {m : α → β} {a : α} {b : β} (h : m a = b) : Lab g m (pure a) (pure b) := ⟨fun p hp => .ok p h.symm hp⟩
theorem lab_panic {R : α → β → Prop} {s : String} : LabR g R (M.panic s) (M.panic s) := ⟨fun _ _ => .panic _⟩
theorem lab_throw {R : α → β → Prop} {c c' : Cause} (h : SameComplaint c c') : LabR g R (M.throw c) (M.throw c') :=
  ⟨fun p hp => .err p h hp⟩
theorem labR_bind {R : α → β → Prop} {S : γ → δ → Prop} {x : P α} {x' : P β} {k : α → P γ} {k' : β → P δ} (hx : LabR g R x x')
    (hk : ∀ a b, R a b → LabR g S (k a) (k' b)) : LabR g S (x >>= k) (x' >>= k') := by
  refine ⟨fun p hp => ?_⟩
  show LabRes g S (M.bind x k p) (M.bind x' k' _)
  unfold M.bind
  have h := hx.rel p hp
  revert h
  generalize x p = r
  generalize x' (p.other g) = r'
  intro h
  cases h with
  | ok p1 h h1 => exact (hk _ _ h).rel p1 h1
  | err p1 h h1 => exact .err p1 h h1
  | panic s => exact .panic s
  | diverge => exact .diverge
theorem lab_bind {m : α → β} {S : γ → δ → Prop} {x : P α} {x' : P β} {k : α → P γ} {k' : β → P δ} (hx : Lab g m x x')
    (hk : ∀ a, LabR g S (k a) (k' (m a))) : LabR g S (x >>= k) (x' >>= k') :=
  labR_bind hx fun a b h => by subst h; exact hk a
theorem lab_ite {R : α → β → Prop} {c c' : Prop} [Decidable c] [Decidable c'] {x y : P α} {x' y' : P β} (hc : c ↔ c')
    (h : LabR g R x x') (h' : LabR g R y y') : LabR g R (if c then x else y) (if c' then x' else y') := by
  by_cases hp : c
  · rw [if_pos hp, if_pos (hc.1 hp)]; exact h
  · rw [if_neg hp, if_neg fun hq => hp (hc.2 hq)]; exact h'
theorem lab_query {R : α → β → Prop} {f : Parser → α} {f' : Parser → β} (h : ∀ p, p.tokens = g.ts → R (f p) (f' (p.other g))) :
    LabR g R (query f) (query f') :=
  ⟨fun p hp => .ok p (h p hp) hp⟩

/-- One has a value if and only if the other has. -/
inductive Both (r : α → β → Prop) : Option α → Option β → Prop
  | none : Both r none none
  | some {a b} : r a b → Both r (some a) (some b)

theorem each_get {r : α → β → Prop} {as bs} (h : Each r as bs) : ∀ i : Nat, Both r as[i]? bs[i]? := by
  induction h with
  | nil => intro i; exact .none
  | cons h _ ih =>
    intro i
    cases i with
    | zero => exact .some h
    | succ i => exact ih i
theorem each_length {r : α → β → Prop} {as bs} (h : Each r as bs) : bs.length = as.length := by
  induction h with
  | nil => rfl
  | cons h _ ih => simp [ih]
theorem each_append {r : α → β → Prop} {as bs} (h : Each r as bs) {cs ds} (h' : Each r cs ds) : Each r (as ++ cs) (bs ++ ds) := by
  induction h with
  | nil => exact h'
  | cons h _ ih => exact .cons h ih

theorem Spec.RelabelledToken.loc {ρ t t'} (h : RelabelledToken ρ t t') : t'.loc = t.loc := by
  simp [Token.loc, h.line, h.column]

section
variable {p : Parser} (hp : p.tokens = g.ts)
include hp
theorem other_get (i : Nat) : Both (RelabelledToken g.ρ) p.tokens[i]? (p.other g).tokens[i]? := by
  rw [hp]; exact each_get g.each i
theorem other_peek : Both (RelabelledToken g.ρ) p.peek (p.other g).peek := other_get hp _
theorem other_peekNext : Both (RelabelledToken g.ρ) p.peekNext (p.other g).peekNext := other_get hp _
theorem other_peekNextNext : Both (RelabelledToken g.ρ) p.peekNextNext (p.other g).peekNextNext := other_get hp _
theorem other_isAtEnd : (p.other g).isAtEnd = p.isAtEnd := by
  unfold Parser.isAtEnd
  have h0 := other_peek hp
  generalize p.peek = o at h0 ⊢
  generalize (p.other g).peek = o' at h0 ⊢
  rcases h0 with _ | h
  · rfl
  · simp only [h.tokenType]
theorem other_check {tt} : (p.other g).check tt = p.check tt := by
  unfold Parser.check; rw [other_isAtEnd hp]
  have h0 := other_peek hp
  generalize p.peek = o at h0 ⊢
  generalize (p.other g).peek = o' at h0 ⊢
  rcases h0 with _ | h
  · rfl
  · simp only [h.tokenType]
theorem other_checkNext {tt} : (p.other g).checkNext tt = p.checkNext tt := by
  unfold Parser.checkNext; rw [other_isAtEnd hp]
  have h0 := other_peekNext hp
  generalize p.peekNext = o at h0 ⊢
  generalize (p.other g).peekNext = o' at h0 ⊢
  rcases h0 with _ | h
  · rfl
  · simp only [h.tokenType]
theorem other_checkNextNext {tt} : (p.other g).checkNextNext tt = p.checkNextNext tt := by
  unfold Parser.checkNextNext; rw [other_isAtEnd hp]
  have h0 := other_peekNextNext hp
  generalize p.peekNextNext = o at h0 ⊢
  generalize (p.other g).peekNextNext = o' at h0 ⊢
  rcases h0 with _ | h
  · rfl
  · simp only [h.tokenType]
theorem other_checkAnyOf {tts} : (p.other g).checkAnyOf tts = p.checkAnyOf tts := by
  unfold Parser.checkAnyOf; rw [other_isAtEnd hp]
  have h0 := other_peek hp
  generalize p.peek = o at h0 ⊢
  generalize (p.other g).peek = o' at h0 ⊢
  rcases h0 with _ | h
  · rfl
  · simp only [h.tokenType]
theorem other_checkNextAnyOf {tts} : (p.other g).checkNextAnyOf tts = p.checkNextAnyOf tts := by
  unfold Parser.checkNextAnyOf; rw [other_isAtEnd hp]
  have h0 := other_peekNext hp
  generalize p.peekNext = o at h0 ⊢
  generalize (p.other g).peekNext = o' at h0 ⊢
  rcases h0 with _ | h
  · rfl
  · simp only [h.tokenType]
theorem other_advance : (p.other g).advance = p.advance.other g := by
  unfold Parser.advance; rw [other_isAtEnd hp]; split <;> rfl
omit hp in
theorem other_allow : (p.other g).allowTrailing = p.allowTrailing := rfl
omit hp in
theorem other_inLoops : (p.other g).inLoops = p.inLoops := rfl
theorem advance_tokens : p.advance.tokens = g.ts := by
  unfold Parser.advance; split <;> exact hp
end

theorem lab_bool {f : Parser → Bool} (h : ∀ p, p.tokens = g.ts → f (p.other g) = f p) : Lab g id (query f) (query f) := lab_query h
theorem lab_peek : LabR g (Both (RelabelledToken g.ρ)) (query Parser.peek) (query Parser.peek) := lab_query fun _ h => other_peek h
theorem lab_advanceP : Lab g id advanceP advanceP := ⟨fun p hp => by
  show LabRes g _ (.ok () p.advance) (.ok () (p.other g).advance)
  rw [other_advance hp]; exact .ok _ rfl (advance_tokens hp)⟩
theorem lab_matchToken {tt} : Lab g id (matchToken tt) (matchToken tt) := by
  refine ⟨fun p hp => ?_⟩
  unfold matchToken
  rw [other_check hp]
  split
  · rw [other_advance hp]; exact .ok _ rfl (advance_tokens hp)
  · exact .ok _ rfl hp
theorem lab_matchesAny {tts} : Lab g id (matchesAny tts) (matchesAny tts) := by
  refine ⟨fun p hp => ?_⟩
  unfold matchesAny
  have h0 := other_peek hp
  generalize p.peek = o at h0 ⊢
  generalize (p.other g).peek = o' at h0 ⊢
  rcases h0 with _ | h
  · exact .ok _ rfl hp
  · simp only [h.tokenType, h.loc]
    split
    · rw [other_advance hp]; exact .ok _ rfl (advance_tokens hp)
    · exact .ok _ rfl hp
theorem lab_previous : LabR g (Both (RelabelledToken g.ρ)) (previous env) (previous env) := by
  refine ⟨fun p hp => ?_⟩
  unfold previous
  show LabRes g _ _ (if p.current = 0 then _ else _)
  split
  · split
    · exact .panic _
    · exact .ok _ .none hp
  · exact .ok _ (other_get hp _) hp

/-- A step of a loop. -/
inductive StepRel (R : σ → σ' → Prop) (S : α → β → Prop) : Step σ α → Step σ' β → Prop
  | next {a b} : R a b → StepRel R S (.next a) (.next b)
  | stop {a b} : S a b → StepRel R S (.stop a) (.stop b)
theorem labR_fuel {R : σ → σ' → Prop} {S : α → β → Prop} {body : σ → P (Step σ α)} {body' : σ' → P (Step σ' β)}
    (h : ∀ a b, R a b → LabR g (StepRel R S) (body a) (body' b)) :
    ∀ k a b, R a b → LabR g S (loopFuel body k a) (loopFuel body' k b)
  | 0, _, _, _ => ⟨fun _ _ => .diverge⟩
  | k + 1, a, b, hab => by
    unfold loopFuel
    refine labR_bind (h a b hab) fun s s' hs => ?_
    cases hs with
    | next h' => exact labR_fuel h k _ _ h'
    | stop h' => exact ⟨fun p hp => .ok p h' hp⟩
theorem labR_loop {R : σ → σ' → Prop} {S : α → β → Prop} {body : σ → P (Step σ α)} {body' : σ' → P (Step σ' β)} {a b}
    (hab : R a b) (h : ∀ a b, R a b → LabR g (StepRel R S) (body a) (body' b)) : LabR g S (loop body a) (loop body' b) := by
  refine ⟨fun p hp => ?_⟩
  unfold loop
  rw [show (p.other g).tokens.length = p.tokens.length by rw [hp]; exact each_length g.each]
  exact (labR_fuel h _ a b hab).rel p hp
/-- A step of a loop. -/
def stepWith (m : σ → σ') (n : α → β) : Step σ α → Step σ' β
  | .next a => .next (m a)
  | .stop b => .stop (n b)
theorem lab_loop {n : α → β} {body : σ → P (Step σ α)} {body' : σ' → P (Step σ' β)} {a : σ} {a' : σ'} (m : σ → σ')
    (ha : m a = a') (h : ∀ a, Lab g (stepWith m n) (body a) (body' (m a))) : Lab g n (loop body a) (loop body' a') := by
  refine labR_loop (R := fun a b => b = m a) ha.symm fun a b e => ?_
  subst e
  refine ⟨fun p hp => ?_⟩
  have h1 := (h a).rel p hp
  revert h1
  generalize body a p = r
  generalize body' (m a) (p.other g) = r'
  intro h1
  cases h1 with
  | @ok s _ p1 h h1 =>
    subst h
    cases s with
    | next a => exact .ok _ (.next rfl) h1
    | stop b => exact .ok _ (.stop rfl) h1
  | err p1 h h1 => exact .err p1 h h1
  | panic s => exact .panic s
  | diverge => exact .diverge

/-- Goes through a function. -/
syntax "lab" "[" term,* "]" : tactic
macro_rules
  | `(tactic| lab [$ls,*]) => do
    let ts : Lean.TSyntaxArray `term := ls.getElems
    `(tactic| repeat' (first
      | exact lab_panic | exact lab_matchToken | exact lab_advanceP
      | exact lab_matchesAny | exact lab_previous | exact lab_peek
      | (refine lab_bool (fun p hp => ?_);
         simp only [other_isAtEnd hp, other_check hp, other_checkNext hp, other_checkNextNext hp,
           other_checkAnyOf hp, other_checkNextAnyOf hp, other_allow, other_inLoops]; done)
      $[| apply $ts]*
      | (refine lab_pure ?_; first | rfl | (simp [relabelExpr, relabelStmt, relabelFun, stepWith, relabelNamed, relabelEntry, relabelParam, relabelExprs_map,
          relabelStmts_map, relabelEntries_map, relabelMethods_map]; done))
      | (refine lab_throw ?_; exact ⟨rfl, rfl⟩)
      | apply lab_bind | (refine lab_ite (by first | exact Iff.rfl | simp) ?_ ?_) 
      | (refine fun (a : Option (TokenType × SourceLoc)) => ?_; rcases a with _ | ⟨_, _⟩ <;> dsimp only [id])
      | (refine fun (a : Str × SourceLoc) => ?_; obtain ⟨_, _⟩ := a; dsimp only)
      | (refine fun (a : Expr × Bool) => ?_; obtain ⟨_, _⟩ := a; dsimp only) | intro _ | split))


theorem lab_previousSourceLoc : Lab g id (previousSourceLoc env) (previousSourceLoc env) := by
  unfold previousSourceLoc
  refine labR_bind lab_previous fun t t' h => ?_
  cases h with
  | none => exact lab_pure rfl
  | some h => exact lab_pure h.loc.symm
theorem lab_peekSourceLoc : Lab g id (peekSourceLoc env) (peekSourceLoc env) := by
  unfold peekSourceLoc
  refine labR_bind lab_peek fun t t' h => ?_
  cases h with
  | none => exact lab_previousSourceLoc
  | some h => exact lab_pure h.loc.symm
theorem lab_errorFromLast {R : α → β → Prop} {s} : LabR g R (errorFromLast env s) (errorFromLast env s) := by
  unfold errorFromLast
  refine labR_bind lab_previous fun t t' h => ?_
  cases h with
  | none => exact lab_bind lab_previousSourceLoc fun _ => lab_throw ⟨rfl, rfl⟩
  | some h => exact lab_bind lab_previousSourceLoc fun _ => lab_throw ⟨rfl, rfl⟩
theorem lab_errorFromPeek {R : α → β → Prop} {s} : LabR g R (errorFromPeek env s) (errorFromPeek env s) := by
  unfold errorFromPeek
  refine labR_bind lab_peek fun t t' h => ?_
  cases h with
  | none => exact lab_bind lab_peekSourceLoc fun _ => lab_throw ⟨rfl, rfl⟩
  | some h => exact lab_bind lab_peekSourceLoc fun _ => lab_throw ⟨rfl, rfl⟩
theorem lab_consumeAnyOf {tts m} : Lab g id (consumeAnyOf env tts m) (consumeAnyOf env tts m) := by
  unfold consumeAnyOf
  refine lab_bind lab_matchesAny fun t => ?_
  cases t with
  | none => exact lab_errorFromPeek
  | some t => exact lab_pure rfl
theorem lab_consume {tt m} : Lab g id (consume env tt m) (consume env tt m) := lab_consumeAnyOf
/-- A name and its position. -/
abbrev relabelName (ρ : Relabelling) (x : Str × SourceLoc) : Str × SourceLoc := (ρ.name x.1, x.2)
theorem lab_identifier {m} : Lab g (relabelName g.ρ) (consumeIdentifier env m) (consumeIdentifier env m) := by
  unfold consumeIdentifier
  refine labR_bind lab_peek fun t t' h => ?_
  cases h with
  | none => exact lab_errorFromPeek
  | @some t t' h =>
    by_cases ht : t.tokenType = .identifier
    · simp only [h.tokenType, ht, if_true]
      exact lab_bind lab_advanceP fun _ => lab_pure (by simp only [relabelName, h.identifier ht, h.loc])
    · simp only [h.tokenType, ht, if_false]
      exact lab_errorFromPeek
theorem lab_begin {m} : Lab g id (consumeBeginBlock env m) (consumeBeginBlock env m) := by
  unfold consumeBeginBlock
  refine lab_bind lab_matchesAny fun t => ?_
  rcases t with _ | ⟨tt, loc⟩
  · exact lab_errorFromPeek
  · cases tt
    case terminator => exact lab_bind (lab_consume) fun _ => lab_pure rfl
    case leftBrace => exact lab_pure rfl
    all_goals exact lab_panic
theorem lab_end {eb m} : Lab g id (consumeEndBlock env eb m) (consumeEndBlock env eb m) := by
  unfold consumeEndBlock
  refine lab_bind lab_matchesAny fun t => ?_
  cases t with
  | none => cases eb <;> first | exact lab_errorFromPeek | exact lab_panic
  | some t => exact lab_pure rfl

/-- The recursive functions do the same. -/
structure RecLab (g : Labels) (r : Rec) : Prop where
  assignment : Lab g (relabelExpr g.ρ) r.assignment r.assignment
  unary : Lab g (relabelExpr g.ρ) r.unary r.unary
  declaration : Lab g (relabelStmt g.ρ) r.declaration r.declaration
  statement : Lab g (relabelStmt g.ρ) r.statement r.statement

variable {r : Rec} (hr : RecLab g r)
include hr

theorem lab_finishBlock {eb} : Lab g (List.map (relabelStmt g.ρ)) (finishBlock env r eb) (finishBlock env r eb) := by
  unfold finishBlock
  refine lab_bind (m := List.map (relabelStmt g.ρ)) (lab_loop (List.map (relabelStmt g.ρ)) rfl fun acc => ?_) fun _ => ?_
  · lab [hr.declaration]
  · lab [lab_end]
omit hr in
theorem lab_parameterList : Lab g (List.map (relabelParam g.ρ)) (parameterList env) (parameterList env) := by
  unfold parameterList
  lab [lab_loop (List.map (relabelParam g.ρ)) rfl, lab_identifier]
theorem lab_functionDefinition {loc} :
    Lab g (relabelFun g.ρ) (functionDefinition env r loc) (functionDefinition env r loc) := by
  unfold functionDefinition
  lab [lab_consumeAnyOf, lab_parameterList, lab_consume, lab_begin, lab_finishBlock hr]
theorem lab_finishFun : Lab g (relabelNamed g.ρ) (finishFunDeclaration env r) (finishFunDeclaration env r) := by
  unfold finishFunDeclaration
  lab [lab_identifier, lab_functionDefinition hr]
omit hr in
theorem lab_init {x : Str} : g.ρ.name x = c!"init" ↔ x = c!"init" :=
  ⟨fun h => g.faithful.name _ _ (h.trans g.faithful.init.symm), fun h => by rw [h, g.faithful.init]⟩
omit hr in
theorem lab_this {x : Str} : g.ρ.name x = c!"this" ↔ x = c!"this" :=
  ⟨fun h => g.faithful.name _ _ (h.trans g.faithful.this.symm), fun h => by rw [h, g.faithful.this]⟩
theorem lab_classMethods {eb} : Lab g (List.map (relabelNamed g.ρ)) (classMethods env r eb) (classMethods env r eb) := by
  unfold classMethods
  refine lab_loop (List.map (relabelNamed g.ρ)) rfl fun acc => ?_
  refine lab_bind (lab_bool fun p hp => by simp only [other_check hp, other_isAtEnd hp]) fun _ => ?_
  refine lab_ite Iff.rfl ?_ (lab_pure rfl)
  refine lab_bind lab_matchToken fun c => lab_bind (lab_finishFun hr) fun f => lab_pure ?_
  rcases f with ⟨x, ⟨ps, b, k, l⟩⟩
  simp [stepWith, relabelNamed, relabelFun, NamedFun.name, NamedFun.funDef, FunDef.setFunType, lab_init]
  rfl
omit hr in
theorem lab_superclass : Lab g (Option.map (relabelExpr g.ρ)) (superclassClause env) (superclassClause env) := by
  unfold superclassClause
  lab [lab_identifier]
theorem lab_finishClass : Lab g (relabelStmt g.ρ) (finishClassDeclaration env r) (finishClassDeclaration env r) := by
  unfold finishClassDeclaration
  refine lab_bind (lab_identifier) fun ⟨x, loc⟩ => lab_bind (lab_superclass) fun sup => lab_bind (lab_begin) fun eb =>
    lab_bind (lab_classMethods hr) fun ms => lab_bind (lab_end) fun _ => lab_pure ?_
  cases sup <;> simp [relabelStmt, relabelMethods_map]
theorem lab_varInitializer : Lab g (fun x => (relabelExpr g.ρ x.1, x.2)) (varInitializer r) (varInitializer r) := by
  unfold varInitializer expression
  lab [hr.assignment]
omit hr in
theorem lab_endVar {a b} : Lab g id (endVarDeclaration env a b) (endVarDeclaration env a b) := by
  unfold endVarDeclaration
  lab [lab_consume]
theorem lab_finishVar {a} : Lab g (relabelStmt g.ρ) (finishVarDeclaration env r a) (finishVarDeclaration env r a) := by
  unfold finishVarDeclaration
  lab [lab_identifier, lab_varInitializer hr, lab_endVar]
omit hr in
theorem lab_endExpression : Lab g id (endExpressionStatement env) (endExpressionStatement env) := by
  unfold endExpressionStatement
  lab [lab_consume]
theorem lab_expressionStatement : Lab g (relabelStmt g.ρ) (expressionStatement env r) (expressionStatement env r) := by
  unfold expressionStatement expression
  lab [hr.assignment, lab_endExpression]
omit hr in
theorem lab_break {loc} : Lab g (relabelStmt g.ρ) (finishBreakStatement env loc) (finishBreakStatement env loc) := by
  unfold finishBreakStatement
  lab [lab_errorFromLast, lab_consume]
omit hr in
theorem lab_continue {loc} : Lab g (relabelStmt g.ρ) (finishContinueStatement env loc) (finishContinueStatement env loc) := by
  unfold finishContinueStatement
  lab [lab_errorFromLast, lab_consume]
theorem lab_blockOrStatement {eb} : Lab g (relabelStmt g.ρ) (blockOrStatement env r eb) (blockOrStatement env r eb) := by
  unfold blockOrStatement
  lab [hr.statement, lab_finishBlock hr]
omit hr in
theorem lab_beginIfAny {m} : Lab g id (beginBlockIfAny env m) (beginBlockIfAny env m) := by
  unfold beginBlockIfAny
  lab [lab_begin]
omit hr in
theorem lab_enter : Lab g id (enterLoop env) (enterLoop env) := by
  refine ⟨fun p hp => ?_⟩
  unfold enterLoop
  rw [other_inLoops]
  split
  · exact .panic _
  · exact .ok { p with inLoops := p.inLoops + 1 } rfl hp
omit hr in
theorem lab_leave {m : α → β} {x : P α} {x' : P β} (h : Lab g m x x') : Lab g m (thenLeaveLoop env x) (thenLeaveLoop env x') := by
  refine ⟨fun p hp => ?_⟩
  unfold thenLeaveLoop
  have h1 := h.rel p hp
  revert h1
  generalize x p = r
  generalize x' (p.other g) = r'
  intro h1
  cases h1 with
  | ok p' e h1 =>
    dsimp only
    by_cases h0 : p'.inLoops = 0
    · rw [if_pos h0, if_pos (show (p'.other g).inLoops = 0 from h0)]
      split
      · exact .panic _
      · exact .ok { p' with inLoops := env.usizeMax } e h1
    · rw [if_neg h0, if_neg (show ¬(p'.other g).inLoops = 0 from h0)]
      exact .ok { p' with inLoops := p'.inLoops - 1 } e h1
  | err p' e h1 =>
    dsimp only
    by_cases h0 : p'.inLoops = 0
    · rw [if_pos h0, if_pos (show (p'.other g).inLoops = 0 from h0)]
      split
      · exact .panic _
      · exact .err { p' with inLoops := env.usizeMax } e h1
    · rw [if_neg h0, if_neg (show ¬(p'.other g).inLoops = 0 from h0)]
      exact .err { p' with inLoops := p'.inLoops - 1 } e h1
  | panic s => exact .panic s
  | diverge => exact .diverge
theorem lab_loopBody : Lab g (relabelStmt g.ρ) (loopBodyStatement env r) (loopBodyStatement env r) := by
  unfold loopBodyStatement
  exact lab_bind lab_enter fun _ => lab_bind (lab_beginIfAny) fun _ => lab_leave (lab_blockOrStatement hr)
theorem lab_forInitializer : Lab g (Option.map (relabelStmt g.ρ)) (forInitializer env r) (forInitializer env r) := by
  unfold forInitializer
  lab [lab_finishVar hr, lab_expressionStatement hr]
theorem lab_forCondition : Lab g (relabelExpr g.ρ) (forCondition r) (forCondition r) := by
  unfold forCondition expression
  lab [hr.assignment]
theorem lab_forIncrement : Lab g (Option.map (relabelExpr g.ρ)) (forIncrement r) (forIncrement r) := by
  unfold forIncrement expression
  lab [hr.assignment]
theorem lab_for : Lab g (relabelStmt g.ρ) (finishForStatement env r) (finishForStatement env r) := by
  unfold finishForStatement
  refine lab_bind (lab_consumeAnyOf) fun _ => lab_bind (lab_forInitializer hr) fun i => lab_bind (lab_forCondition hr) fun c =>
    lab_bind (lab_consume) fun _ => lab_bind (lab_forIncrement hr) fun n => lab_bind (lab_consume) fun _ =>
    lab_bind (lab_loopBody hr) fun b => ?_
  cases i <;> cases n <;> exact lab_pure (by simp [relabelStmt, relabelStmts])
theorem lab_if : Lab g (relabelStmt g.ρ) (finishIfStatement env r) (finishIfStatement env r) := by
  unfold finishIfStatement expression
  lab [lab_consumeAnyOf, lab_consume, hr.assignment, hr.statement, lab_beginIfAny, lab_blockOrStatement hr]
theorem lab_print : Lab g (relabelStmt g.ρ) (finishPrintStatement env r) (finishPrintStatement env r) := by
  unfold finishPrintStatement expression
  lab [lab_consume, hr.assignment]
theorem lab_returnValue : Lab g (relabelExpr g.ρ) (returnValue r) (returnValue r) := by
  unfold returnValue expression
  lab [hr.assignment]
theorem lab_return {loc} : Lab g (relabelStmt g.ρ) (finishReturnStatement env r loc) (finishReturnStatement env r loc) := by
  unfold finishReturnStatement
  lab [lab_consume, lab_returnValue hr]
theorem lab_while : Lab g (relabelStmt g.ρ) (finishWhileStatement env r) (finishWhileStatement env r) := by
  unfold finishWhileStatement expression
  lab [lab_consumeAnyOf, lab_consume, hr.assignment, lab_loopBody hr]
theorem lab_statement : Lab g (relabelStmt g.ρ) (statementBody env r) (statementBody env r) := by
  unfold statementBody
  refine lab_bind lab_matchesAny fun t => ?_
  rcases t with _ | ⟨tt, loc⟩
  · exact lab_expressionStatement hr
  · cases tt
    case «break» => exact lab_break
    case «continue» => exact lab_continue
    case «for» => exact lab_for hr
    case «if» => exact lab_if hr
    case leftBrace => exact lab_bind (lab_finishBlock hr) fun b => lab_pure (by simp [relabelStmt, relabelStmts_map])
    case print => exact lab_print hr
    case «return» => exact lab_return hr
    case «while» => exact lab_while hr
    all_goals exact lab_panic
theorem lab_declaration : Lab g (relabelStmt g.ρ) (declarationBody env r) (declarationBody env r) := by
  unfold declarationBody
  refine lab_bind lab_matchToken fun _ => lab_ite Iff.rfl (lab_finishClass hr) ?_
  refine lab_bind (lab_bool fun p hp => by simp only [other_check hp, other_checkNext hp]) fun _ => lab_ite Iff.rfl ?_ ?_
  · refine lab_bind (lab_consume) fun _ => lab_bind (lab_finishFun hr) fun ⟨x, d⟩ => lab_pure (by simp [relabelStmt, relabelNamed])
  · lab [lab_finishVar hr, hr.statement]
omit hr in
theorem lab_binaryLevel {l : Level} {x : P Expr} (h : Lab g (relabelExpr g.ρ) x x) :
    Lab g (relabelExpr g.ρ) (binaryLevel l x) (binaryLevel l x) := by
  unfold binaryLevel
  refine lab_bind h fun e => lab_loop (relabelExpr g.ρ) rfl fun e => lab_bind lab_matchesAny fun t => ?_
  rcases t with _ | ⟨tt, loc⟩
  · exact lab_pure rfl
  · refine lab_bind h fun e' => ?_
    cases l <;> cases tt <;> first | exact lab_panic | exact lab_pure (by simp [stepWith, relabelExpr, id])
theorem lab_or : Lab g (relabelExpr g.ρ) (orExpr r) (orExpr r) :=
  lab_binaryLevel (lab_binaryLevel (lab_binaryLevel (lab_binaryLevel (lab_binaryLevel (lab_binaryLevel hr.unary)))))
omit hr in
theorem lab_mkAssignment {a b loc} :
    Lab g (relabelExpr g.ρ) (mkAssignment a b loc) (mkAssignment (relabelExpr g.ρ a) (relabelExpr g.ρ b) loc) := by
  cases a
  case «variable» x _ _ =>
    simp only [relabelExpr, mkAssignment, lab_this]
    exact lab_ite Iff.rfl (lab_throw ⟨rfl, rfl⟩) (lab_pure (by simp only [relabelExpr]))
  all_goals
    simp only [relabelExpr, mkAssignment]
    first | exact lab_throw ⟨rfl, rfl⟩ | exact lab_pure (by simp only [relabelExpr])
theorem lab_target : Lab g (relabelExpr g.ρ) (assignmentTarget env r) (assignmentTarget env r) := by
  unfold assignmentTarget
  lab [lab_or hr, lab_consume]
theorem lab_assignment : Lab g (relabelExpr g.ρ) (assignmentBody env r) (assignmentBody env r) := by
  unfold assignmentBody
  refine lab_bind (lab_target hr) fun e => lab_bind lab_matchesAny fun t => ?_
  rcases t with _ | ⟨tt, loc⟩
  · exact lab_pure rfl
  · exact lab_bind hr.assignment fun _ => lab_mkAssignment
theorem lab_arguments : Lab g (List.map (relabelExpr g.ρ)) (argumentList env r) (argumentList env r) := by
  unfold argumentList expression
  lab [lab_loop (List.map (relabelExpr g.ρ)) rfl, lab_errorFromPeek, hr.assignment]
theorem lab_callArguments : Lab g (List.map (relabelExpr g.ρ)) (callArguments env r) (callArguments env r) := by
  unfold callArguments
  lab [lab_arguments hr]
theorem lab_finishCall {e loc} : Lab g (relabelExpr g.ρ) (finishCall env r e loc) (finishCall env r (relabelExpr g.ρ e) loc) := by
  unfold finishCall
  lab [lab_callArguments hr, lab_consume]
theorem lab_withoutParens {e loc} :
    Lab g (relabelExpr g.ρ) (finishCallWithoutParens env r e loc) (finishCallWithoutParens env r (relabelExpr g.ρ e) loc) := by
  unfold finishCallWithoutParens
  lab [lab_arguments hr]
theorem lab_getIndex {e loc} : Lab g (relabelExpr g.ρ) (finishGetIndex env r e loc) (finishGetIndex env r (relabelExpr g.ρ e) loc) := by
  unfold finishGetIndex expression
  lab [hr.assignment, lab_consume]
omit hr in
theorem lab_mapKey {t t'} (h : RelabelledToken g.ρ t t') (hi : t.tokenType = .identifier → g.ρ.key t.lexeme = g.ρ.name t.lexeme)
    (hs : t.tokenType = .string → ∀ s, t.stringLiteral = some s → g.ρ.key s = g.ρ.string s) :
    Lab g g.ρ.key (mapKey t) (mapKey t') := by
  unfold mapKey
  rw [h.tokenType]
  have h1 := h.identifier
  have h2 := h.string
  cases ht : t.tokenType <;> simp only [ht] at hi hs h1 h2 ⊢ <;> try exact lab_panic
  · exact lab_pure (by rw [hi trivial, h1 trivial])
  · rw [h2 trivial]
    cases hl : t.stringLiteral with
    | none => exact lab_panic
    | some s => exact lab_pure (hs trivial s hl)
omit hr in
theorem lab_insert {m : List MapEntry} {k : Str} {v : Expr} :
    mapInsert (m.map (relabelEntry g.ρ)) (g.ρ.key k) (relabelExpr g.ρ v) = ((mapInsert m k v).1.map (relabelEntry g.ρ), (mapInsert m k v).2) := by
  have hk : ∀ e, ((relabelEntry g.ρ e).key == g.ρ.key k) = (e.key == k) := fun ⟨x, _⟩ => by
    show (g.ρ.key x == g.ρ.key k) = (x == k)
    by_cases h : x = k
    · subst h; simp
    · rw [show (g.ρ.key x == g.ρ.key k) = false from by simpa using fun e => h (g.faithful.key _ _ e), show (x == k) = false from by simpa using h]
  unfold mapInsert
  rw [show (m.map (relabelEntry g.ρ)).any (fun e => e.key == g.ρ.key k) = m.any (fun e => e.key == k) by simp only [List.any_map, Function.comp_def, hk]]
  split
  · simp only [List.map_map, Prod.mk.injEq, and_true]
    refine List.map_congr_left fun e _ => ?_
    simp only [Function.comp_apply, hk]
    split <;> rfl
  · simp [relabelEntry]
omit hr in
/-- When the branch taken tells something about the next token. -/
theorem lab_iff {R : α → β → Prop} {c : Parser → Bool} {x y : P α} {x' y' : P β} (hc : ∀ p, p.tokens = g.ts → c (p.other g) = c p)
    (hx : ∀ p, p.tokens = g.ts → c p = true → LabRes g R (x p) (x' (p.other g))) (hy : LabR g R y y') :
    LabR g R (query c >>= fun b => if b then x else y) (query c >>= fun b => if b then x' else y') := by
  refine ⟨fun p hp => ?_⟩
  show LabRes g R ((if c p then x else y) p) ((if c (p.other g) then x' else y') (p.other g))
  rw [hc p hp]
  cases h : c p with
  | true => exact hx p hp h
  | false => exact hy.rel p hp
omit hr in
theorem lab_peek_at {R : α → β → Prop} {k : Option Token → P α} {k' : Option Token → P β} {p : Parser} (hp : p.tokens = g.ts)
    (hn : LabR g R (k none) (k' none))
    (hs : ∀ t t', p.peek = some t → RelabelledToken g.ρ t t' → LabR g R (k (some t)) (k' (some t'))) :
    LabRes g R ((query Parser.peek >>= k) p) ((query Parser.peek >>= k') (p.other g)) := by
  show LabRes g R (k p.peek p) (k' (p.other g).peek (p.other g))
  have h := other_peek hp
  generalize hq : p.peek = o at h ⊢
  generalize (p.other g).peek = o' at h ⊢
  cases h with
  | none => exact hn.rel p hp
  | some h => exact (hs _ _ hq h).rel p hp
omit hr in
theorem lab_key {p : Parser} {t : Token} (hp : p.tokens = g.ts) (ht : p.peek = some t) (hc : p.checkNext .colon = true) :
    (t.tokenType = .identifier → g.ρ.key t.lexeme = g.ρ.name t.lexeme) ∧
    (t.tokenType = .string → ∀ s, t.stringLiteral = some s → g.ρ.key s = g.ρ.string s) := by
  have h2 : ∃ c, p.peekNext = some c ∧ c.tokenType = .colon := by
    unfold Parser.checkNext at hc
    cases hn : p.peekNext with
    | none => simp [hn] at hc
    | some c => simp [hn] at hc; exact ⟨c, rfl, hc.2⟩
  obtain ⟨c, h2, h3⟩ := h2
  unfold Parser.peek at ht
  unfold Parser.peekNext at h2
  rw [hp] at ht h2
  obtain ⟨h4, e4⟩ := List.getElem?_eq_some_iff.1 ht
  obtain ⟨h5, e5⟩ := List.getElem?_eq_some_iff.1 h2
  refine g.keys (g.ts.take p.current) t c (g.ts.drop (p.current + 2)) ?_ h3
  rw [← e4, ← e5, List.getElem_cons_drop, List.getElem_cons_drop, List.take_append_drop]
theorem lab_literalMap : Lab g (List.map (relabelEntry g.ρ)) (literalMap env r) (literalMap env r) := by
  unfold literalMap expression
  refine lab_loop (List.map (relabelEntry g.ρ)) rfl fun m => ?_
  refine lab_iff (fun p hp => by simp only [other_checkAnyOf hp, other_checkNext hp]) (fun p hp hc => ?_) (lab_pure rfl)
  refine lab_peek_at hp lab_panic fun t t' ht h => ?_
  have hk := lab_key hp ht (by simp only [Bool.and_eq_true] at hc; exact hc.2)
  dsimp only
  refine lab_bind (lab_mapKey h hk.1 hk.2) fun k => lab_bind lab_advanceP fun _ => lab_bind lab_consume fun _ => lab_bind hr.assignment fun v => ?_
  rw [lab_insert]
  rcases mapInsert m k v with ⟨m', _ | _⟩
  · refine lab_bind (lab_bool fun p hp => by
      simp only [other_check hp, other_checkNextAnyOf hp, other_checkNext hp, other_checkNextNext hp]) fun _ => lab_ite Iff.rfl ?_ (lab_pure rfl)
    exact lab_bind lab_advanceP fun _ => lab_pure rfl
  · exact lab_throw ⟨h.loc, rfl⟩
theorem lab_array : Lab g (List.map (relabelExpr g.ρ)) (arrayElements r) (arrayElements r) := by
  unfold arrayElements expression
  lab [lab_loop (List.map (relabelExpr g.ρ)) rfl, hr.assignment]
theorem lab_primary : Lab g (relabelExpr g.ρ) (primary env r) (primary env r) := by
  unfold primary expression
  refine labR_bind lab_peek fun t t' h => ?_
  cases h with
  | none => exact lab_panic
  | @some t t' h =>
    have h1 := h.identifier
    have h2 := h.this
    have h3 := h.string
    have h4 := h.number
    have h5 := h.loc
    dsimp only
    rw [h.tokenType, h5]
    generalize t.loc = loc
    cases ht : t.tokenType <;> simp only [ht, reduceCtorEq, false_implies, true_implies] at h1 h2 h3 h4
    all_goals dsimp only
    case number =>
      rw [h4]
      cases t.floatLiteral with
      | none => exact lab_panic
      | some x => lab []
    case string =>
      rw [h3]
      cases t.stringLiteral with
      | none => lab [lab_literalMap hr]
      | some x => lab [lab_literalMap hr]
    case identifier =>
      rw [h1]
      lab [lab_literalMap hr]
    case this =>
      rw [h2]
      lab [lab_literalMap hr]
    all_goals
      lab [lab_errorFromLast, lab_literalMap hr, lab_functionDefinition hr, hr.assignment, lab_consume, lab_array hr,
        lab_identifier]
theorem lab_call : Lab g (relabelExpr g.ρ) (call env r) (call env r) := by
  unfold call
  refine lab_bind (lab_primary hr) fun e => lab_loop (relabelExpr g.ρ) rfl fun e => lab_bind lab_matchesAny fun t => ?_
  rcases t with _ | ⟨tt, loc⟩
  · lab [lab_peekSourceLoc, lab_withoutParens hr]
  · cases tt
    case dot => lab [lab_identifier]
    case leftParenAbutting => lab [lab_finishCall hr]
    case leftBracket => lab [lab_getIndex hr]
    all_goals exact lab_panic
theorem lab_unary : Lab g (relabelExpr g.ρ) (unaryBody env r) (unaryBody env r) := by
  unfold unaryBody
  refine lab_bind lab_matchesAny fun t => ?_
  rcases t with _ | ⟨tt, loc⟩
  · exact lab_call hr
  · refine lab_bind hr.unary fun e => ?_
    cases tt <;> first | exact lab_panic | exact lab_pure rfl
omit hr

theorem lab_rec (env : Env) : ∀ n, RecLab g (recN env n)
  | 0 => ⟨⟨fun _ _ => .diverge⟩, ⟨fun _ _ => .diverge⟩, ⟨fun _ _ => .diverge⟩, ⟨fun _ _ => .diverge⟩⟩
  | n + 1 =>
    have h := lab_rec env n
    ⟨lab_assignment h, lab_unary h, lab_declaration h, lab_statement h⟩

theorem lab_synchronize : Lab g id (synchronize env) (synchronize env) := by
  unfold synchronize
  refine lab_bind lab_advanceP fun _ => lab_loop id rfl fun _ => lab_bind (lab_bool fun p hp => by simp only [other_isAtEnd hp]) fun _ =>
    lab_ite Iff.rfl ?_ (lab_pure rfl)
  refine labR_bind lab_previous fun t t' h => ?_
  cases h with
  | none => exact lab_bind lab_advanceP fun _ => lab_pure rfl
  | some h =>
    refine lab_ite (by rw [h.tokenType]) (lab_pure rfl) (lab_bind lab_advanceP fun _ => lab_pure rfl)

/-- The statements and the errors so far. -/
def AccRel (g : Labels) (acc acc' : List Stmt × List Cause) : Prop :=
  acc'.1 = relabelStmts g.ρ acc.1 ∧ Each SameComplaint acc.2 acc'.2

theorem lab_parseStep {r : Rec} (hr : RecLab g r) (acc acc' : List Stmt × List Cause) (h : AccRel g acc acc') :
    LabR g (StepRel (AccRel g) (AccRel g)) (parseStep env r acc) (parseStep env r acc') := by
  refine ⟨fun p hp => ?_⟩
  unfold parseStep
  rw [other_isAtEnd hp]
  split
  · exact .ok _ (.stop h) hp
  · have h1 := hr.declaration.rel p hp
    revert h1
    generalize r.declaration p = x
    generalize r.declaration (p.other g) = x'
    intro h1
    cases h1 with
    | ok p' e h1 =>
      subst e
      exact .ok p' (.next ⟨by simp [relabelStmts_map, h.1], h.2⟩) h1
    | err p' e h1 =>
      have h2 := (lab_synchronize (env := env)).rel p' h1
      dsimp only
      revert h2
      generalize synchronize env p' = x
      generalize synchronize env (p'.other g) = x'
      intro h2
      cases h2 with
      | ok p2 _ h2 => exact .ok p2 (.next ⟨h.1, each_append h.2 (.cons e .nil)⟩) h2
      | err p2 e h2 => exact .err p2 e h2
      | panic s => exact .panic s
      | diverge => exact .diverge
    | panic s => exact .panic s
    | diverge => exact .diverge

variable (g)

theorem lab_depth : depthFor g.ts' = depthFor g.ts := by simp [depthFor, each_length g.each]

/-- Parsing the other tokens. -/
theorem parseTokens_relabelled (allow : Bool) :
    Relabelled (relabelStmts g.ρ) (parseTokens env g.ts allow) (parseTokens env g.ts' allow) := by
  unfold parseTokens
  rw [lab_depth]
  have h := (labR_loop (R := AccRel g) (S := AccRel g) (a := ([], [])) (b := ([], [])) ⟨by simp [relabelStmts], .nil⟩
    (lab_parseStep (env := env) (lab_rec env (depthFor g.ts)))).rel (.new g.ts allow) rfl
  rw [show (Parser.new g.ts allow).other g = .new g.ts' allow from rfl] at h
  revert h
  generalize loop (parseStep env (recN env (depthFor g.ts))) ([], []) (.new g.ts allow) = x
  generalize loop (parseStep env (recN env (depthFor g.ts))) ([], []) (.new g.ts' allow) = x'
  intro h
  cases h with
  | @ok acc acc' p h hp =>
    obtain ⟨sts, es⟩ := acc
    obtain ⟨sts', es'⟩ := acc'
    obtain ⟨e, h⟩ := h
    dsimp only at e h ⊢
    subst e
    have h2 := (lab_consume (env := env) (tt := .eof) (m := "Expected end of file")).rel p hp
    revert h2
    generalize consume env .eof "Expected end of file" p = x
    generalize consume env .eof "Expected end of file" (p.other g) = x'
    intro h2
    cases h2 with
    | ok p2 _ h2 =>
      dsimp only
      cases h with
      | nil => exact .ok _
      | cons h h' => exact .error (.cons h h')
    | err p2 e h2 => exact .error (each_append h (.cons e .nil))
    | panic s => exact .panic s
    | diverge => exact .diverge
  | err p e h => exact .error (.cons e .nil)
  | panic s => exact .panic s
  | diverge => exact .diverge

/-- Parsing the other tokens of an expression. -/
theorem parseExpressionTokens_relabelled :
    Relabelled (relabelExpr g.ρ) (parseExpressionTokens env g.ts) (parseExpressionTokens env g.ts') := by
  unfold parseExpressionTokens
  dsimp only
  rw [lab_depth]
  have h : Lab g (relabelExpr g.ρ) (do
      let e ← expression (recN env (depthFor g.ts))
      consume env .eof "Expected end of file"
      pure e) (do
      let e ← expression (recN env (depthFor g.ts))
      consume env .eof "Expected end of file"
      pure e) := lab_bind (lab_rec env _).assignment fun _ => lab_bind lab_consume fun _ => lab_pure rfl
  have h := h.rel (Parser.new g.ts false) rfl
  rw [show (Parser.new g.ts false).other g = .new g.ts' false from rfl] at h
  revert h
  generalize (do
      let e ← expression (recN env (depthFor g.ts))
      consume env .eof "Expected end of file"
      pure e : P Expr) (Parser.new g.ts false) = x
  generalize (do
      let e ← expression (recN env (depthFor g.ts))
      consume env .eof "Expected end of file"
      pure e : P Expr) (Parser.new g.ts' false) = x'
  intro h
  cases h with
  | ok p e h => subst e; exact .ok _
  | err p e h => exact .error (.cons e .nil)
  | panic s => exact .panic s
  | diverge => exact .diverge

end Ws
