import Verif.Proofs.Parse.Does
import Verif.Proofs.Parse.SoundExpr
/-! The loops of the parser, and the tokens after which they stop. -/
namespace Ws
open Spec

variable {α β σ : Type} {env : Env} {p q p' p'' : Parser} {w w' s : List Token} {r : Rec} {n : Nat}

/-! ### The bodies of the loops -/

def Level.operand : Level → Rec → P Expr
  | .or, r => andExpr r
  | .and, r => Ws.equality r
  | .equality, r => Ws.comparison r
  | .comparison, r => Ws.addition r
  | .addition, r => Ws.multiplication r
  | .multiplication, r => r.unary

def Level.parse (l : Level) (r : Rec) : P Expr := binaryLevel l (l.operand r)

def levelBody (l : Level) (operand : P Expr) (expr : Expr) : P (Step Expr Expr) := do
  match ← matchesAny l.operators with
  | none => pure (.stop expr)
  | some (op, loc) => do
    let right ← operand
    match l.node op with
    | some build => pure (.next (build expr right loc))
    | none => M.panic "internal error: entered unreachable code"

theorem level_eq (l : Level) (r : Rec) : l.parse r = (l.operand r >>= loop (levelBody l (l.operand r))) := rfl

def argumentBody (env : Env) (r : Rec) (args : List Expr) : P (Step (List Expr) (List Expr)) := do
  if args.length ≥ 255 then errorFromPeek env "Cannot have more than 255 arguments."
  else do
    let e ← expression r
    let args := args ++ [e]
    if (← matchToken .comma) then pure (.next args) else pure (.stop args)

theorem argumentList_eq : argumentList env r = loop (argumentBody env r) [] := rfl

def arrayBody (r : Rec) (elements : List Expr) : P (Step (List Expr) (List Expr)) := do
  let e ← expression r
  let elements := elements ++ [e]
  if (← matchToken .comma) then
    if (← query (fun p => p.check .rightBracket)) then pure (.stop elements)
    else pure (.next elements)
  else pure (.stop elements)

theorem arrayElements_eq : arrayElements r = (query (fun p => !p.check .rightBracket) >>= fun b =>
    if b = true then loop (arrayBody r) [] else pure []) := rfl

def mapBody (env : Env) (r : Rec) (m : List MapEntry) : P (Step (List MapEntry) (List MapEntry)) := do
  if (← query (fun p => p.checkAnyOf [.identifier, .string] && p.checkNext .colon)) then
    match ← query Parser.peek with
    | none => M.panic "check() ensures this"
    | some t => do
      let keyLoc := t.loc
      let key ← mapKey t
      advanceP
      consume env .colon "Expect ':' after map key"
      let value ← expression r
      match mapInsert m key value with
      | (_, true) =>
        M.throw (.newWithLocation keyLoc key "Duplicate key in literal map.")
      | (m, false) =>
        if (← query (fun p => p.check .comma ||
            (p.check .terminator &&
              ((p.checkNextAnyOf [.identifier, .string] && p.checkNextNext .colon) ||
                p.checkNext .rightBrace)))) then do
          advanceP
          pure (.next m)
        else pure (.stop m)
  else pure (.stop m)

theorem literalMap_eq : literalMap env r = loop (mapBody env r) [] := rfl

def parameterBody (env : Env) (acc : List Parameter) : P (Step (List Parameter) (List Parameter)) := do
  let (name, loc) ← consumeIdentifier env "Expect identifier in function parameters."
  if acc.length ≥ 255 then
    M.throw (.newWithLocation loc name "Cannot have more than 255 parameters.")
  else
    let acc := acc ++ [⟨name, loc⟩]
    if (← matchToken .comma) then pure (.next acc) else pure (.stop acc)

theorem parameterList_eq : parameterList env = (query (fun p => !p.check .rightParen) >>= fun b =>
    if b = true then loop (parameterBody env) [] else pure []) := rfl

def methodBody (env : Env) (r : Rec) (endBlock : TokenType) (acc : List NamedFun) : P (Step (List NamedFun) (List NamedFun)) := do
  if (← query (fun p => !p.check endBlock && !p.isAtEnd)) then
    let isClassMethod ← matchToken .class
    let f ← finishFunDeclaration env r
    let ft : FunctionType :=
      if isClassMethod then .classMethod
      else if f.name = c!"init" then .initializer
      else .method
    pure (.next (acc ++ [.mk f.name (f.funDef.setFunType ft)]))
  else pure (.stop acc)

theorem classMethods_eq {eb : TokenType} : classMethods env r eb = loop (methodBody env r eb) [] := rfl

def blockBody (r : Rec) (endBlock : TokenType) (acc : List Stmt) : P (Step (List Stmt) (List Stmt)) := do
  if (← query (fun p => !p.check endBlock && !p.isAtEnd)) then
    let st ← r.declaration
    pure (.next (acc ++ [st]))
  else pure (.stop acc)

theorem finishBlock_eq {eb : TokenType} : finishBlock env r eb = (loop (blockBody r eb) [] >>= fun statements => do
    consumeEndBlock env eb " after block."
    pure statements) := rfl

def callBody (env : Env) (r : Rec) (expr : Expr) : P (Step Expr Expr) := do
  match ← matchesAny [.dot, .leftParenAbutting, .leftBracket] with
  | some (.dot, loc) => do
    let (id, _) ← consumeIdentifier env "Expect property name after '.'."
    pure (.next (.get expr id loc))
  | some (.leftParenAbutting, loc) => do
    let e ← finishCall env r expr loc
    pure (.next e)
  | some (.leftBracket, loc) => do
    let e ← finishGetIndex env r expr loc
    pure (.next e)
  | some _ => M.panic "call: unexpected token type"
  | none => do
    if (← query (fun p => p.checkAnyOf callPrimaryTokens)) then do
      let loc ← peekSourceLoc env
      let e ← finishCallWithoutParens env r expr loc
      pure (.next e)
    else pure (.stop expr)

theorem call_eq : call env r = (primary env r >>= loop (callBody env r)) := rfl

/-! ### What ends an expression -/

/-- The weakest construct a token can continue: 0 if it cannot continue an expression. -/
def reach : TokenType → Nat
  | .comma => 1
  | .equal => 2
  | .or => 3
  | .and => 4
  | .bangEqual | .equalEqual => 5
  | .less | .greater | .lessEqual | .greaterEqual => 6
  | .minus | .plus => 7
  | .slash | .star => 8
  | .dot | .leftParenAbutting | .leftBracket => 10
  | .false | .true | .nil | .number | .string | .identifier | .fun | .leftParen | .leftBrace | .super => 10
  | .colon => 11
  | _ => 0

/-- The tokens go on with another entry of a map, or end it. -/
def MapOn (s : List Token) : Prop :=
  ∃ t r, s = t :: r ∧ t.tokenType = .terminator ∧ (KeyColon r ∨ ∃ u r', r = u :: r' ∧ u.tokenType = .rightBrace)

/-- The tokens do not continue an expression that ends like `o`, at a level above `b`. -/
structure Stop (o : Ends) (b : Nat) (s : List Token) : Prop where
  ne : ∃ t r, s = t :: r
  le : o ≠ .outdent ∨ 2 < b → ∀ t r, s = t :: r → reach t.tokenType ≤ b
  eq : o = .outdent → ∀ t r, s = t :: r → reach t.tokenType = 2 → 2 ≤ b
  zero : o = .call ∨ o = .map ∨ o = .brace → ∀ t r, s = t :: r → reach t.tokenType = 0
  skip : o = .callOutdent ∨ o = .mapOutdent → ∀ t r, s = t :: r → reach t.tokenType ≠ 1 ∧ reach t.tokenType ≠ 2
  map : o = .map ∨ o = .mapOutdent → ¬ MapOn s
  key : o = .comma → ¬ KeyColon s
  brace : o = .brace → ∀ t r, s = t :: r → t.tokenType = .rightBrace

variable {o o' : Ends} {b b' : Nat}

theorem Stop.mono (h : Stop o b s) (hb : b ≤ b') (ho : o ≠ .outdent ∨ 2 < b ∨ b' ≤ 2) : Stop o b' s :=
  ⟨h.ne, fun ho' t r hs => Nat.le_trans (h.le (by
      rcases ho with ho | ho | ho
      · exact .inl ho
      · exact .inr ho
      · exact .inl (ho'.resolve_right (by omega))) t r hs) hb,
    fun ho' t r hs h2 => Nat.le_trans (h.eq ho' t r hs h2) hb, h.zero, h.skip, h.map, h.key, h.brace⟩

theorem not_keyColon {t : Token} (h : reach t.tokenType ≠ 10) : ¬ KeyColon (t :: s) := by
  rintro ⟨_, _, _, hs, hk, -⟩
  rw [(List.cons.inj hs).1] at h
  rcases hk with hk | hk <;> rw [hk] at h <;> exact h rfl

theorem not_mapOn {t : Token} (h : t.tokenType ≠ .terminator) : ¬ MapOn (t :: s) := by
  rintro ⟨_, _, hs, ht, -⟩
  rw [(List.cons.inj hs).1] at h
  exact h ht

theorem stop_closed {t : Token} (h : reach t.tokenType ≤ b) : Stop .closed b (t :: s) :=
  ⟨⟨t, s, rfl⟩, fun _ _ _ hs => by cases hs; exact h, by simp, by simp, by simp, by simp, by simp, by simp⟩

/-- After what may be followed by an operator or a call. -/
theorem stop_whole {t : Token} (ho : o.whole) (h : reach t.tokenType ≤ b) (h2 : 2 < reach t.tokenType)
    (hk : o = .comma → ¬ KeyColon (t :: s)) : Stop o b (t :: s) := by
  have hm : ¬ MapOn (t :: s) := not_mapOn fun h => by rw [h] at h2; exact absurd h2 (by decide)
  refine ⟨⟨t, s, rfl⟩, ?_, ?_, ?_, ?_, fun _ => hm, hk, ?_⟩
  · intro _ _ _ hs; cases hs; exact h
  · intro ho' _ _ hs _; subst ho'; revert ho; simp [Ends.whole]
  · rintro (rfl | rfl | rfl) <;> revert ho <;> simp [Ends.whole]
  · intro _ _ _ hs; cases hs; omega
  · rintro rfl; revert ho; simp [Ends.whole]

/-- After what may be followed by a comma or `=`. -/
theorem stop_item {t : Token} (ho : o.item) (h : reach t.tokenType ≤ b) : Stop o b (t :: s) := by
  rcases ho with rfl | rfl
  · exact stop_closed h
  · exact ⟨⟨t, s, rfl⟩, fun _ _ _ hs => by cases hs; exact h, fun _ _ _ hs _ => by cases hs; omega, by simp, by simp, by simp, by simp, by simp⟩

theorem stop_zero {t : Token} (h : reach t.tokenType = 0) (hm : o = .map ∨ o = .mapOutdent → ¬ MapOn (t :: s))
    (hb : o = .brace → t.tokenType = .rightBrace) : Stop o b (t :: s) := by
  refine ⟨⟨t, s, rfl⟩, ?_, ?_, ?_, ?_, hm, fun _ => not_keyColon (by omega), ?_⟩
  · intro _ _ _ hs; cases hs; omega
  · intro _ _ _ hs; cases hs; omega
  · intro _ _ _ hs; cases hs; omega
  · intro _ _ _ hs; cases hs; omega
  · intro ho _ _ hs; cases hs; exact hb ho

theorem stop_of {t : Token} {tt : TokenType} (h : t.tokenType = tt) (h0 : reach tt = 0) (hn : tt ≠ .terminator)
    (hb : o = .brace → tt = .rightBrace) : Stop o b (t :: s) :=
  stop_zero (h ▸ h0) (fun _ => not_mapOn (h ▸ hn)) (fun ho => h.trans (hb ho))

/-- The arguments of a call without parentheses. -/
theorem Stop.of_bare (h : Stop o.bare 10 s) : Stop o 1 s ∧ ∀ t r, s = t :: r → reach t.tokenType ≠ 1 := by
  obtain ⟨t, r, rfl⟩ := h.ne
  have key : (o = .outdent → reach t.tokenType ≠ 1 ∧ reach t.tokenType ≠ 2) ∧ (o ≠ .outdent → reach t.tokenType = 0) := by
    constructor
    · rintro rfl; exact h.skip (.inl rfl) _ _ rfl
    · intro ho
      refine h.zero ?_ _ _ rfl
      cases o <;> simp_all [Ends.bare]
  refine ⟨?_, ?_⟩
  · by_cases ho : o = .outdent
    · subst ho
      have := key.1 rfl
      exact ⟨⟨t, r, rfl⟩, by simp, fun _ _ _ hs => by cases hs; omega, by simp, by simp, by simp, by simp, by simp⟩
    · refine stop_zero (key.2 ho) ?_ ?_
      · rintro (rfl | rfl) <;> exact h.map (.inl rfl)
      · rintro rfl; exact h.brace rfl _ _ rfl
  · intro _ _ hs
    cases hs
    by_cases ho : o = .outdent
    · exact (key.1 ho).1
    · rw [key.2 ho]; decide

/-- The entries of a map without braces. -/
theorem Stop.of_bareMap (h : Stop o.bareMap 10 s) : Stop o 1 s ∧ (∀ t r, s = t :: r → reach t.tokenType ≠ 1) ∧ ¬ MapOn s := by
  obtain ⟨t, r, rfl⟩ := h.ne
  have key : (o = .outdent → reach t.tokenType ≠ 1 ∧ reach t.tokenType ≠ 2) ∧ (o ≠ .outdent → reach t.tokenType = 0) := by
    constructor
    · rintro rfl; exact h.skip (.inr rfl) _ _ rfl
    · intro ho
      refine h.zero ?_ _ _ rfl
      cases o <;> simp_all [Ends.bareMap]
  have hm : ¬ MapOn (t :: r) := by
    by_cases ho : o = .brace
    · subst ho
      exact not_mapOn (by rw [h.brace rfl _ _ rfl]; decide)
    · refine h.map ?_
      cases o <;> simp_all [Ends.bareMap]
  refine ⟨?_, ?_, hm⟩
  · by_cases ho : o = .outdent
    · subst ho
      have := key.1 rfl
      exact ⟨⟨t, r, rfl⟩, by simp, fun _ _ _ hs => by cases hs; omega, by simp, by simp, by simp, by simp, by simp⟩
    · refine stop_zero (key.2 ho) (fun _ => hm) ?_
      rintro rfl; exact h.brace rfl _ _ rfl
  · intro _ _ hs
    cases hs
    by_cases ho : o = .outdent
    · exact (key.1 ho).1
    · rw [key.2 ho]; decide

theorem Stop.of_unary (h : Stop o.unary 8 s) : Stop o 10 s := by
  by_cases ho : o = .comma
  · subst ho
    obtain ⟨t, r, rfl⟩ := h.ne
    have hl := h.le (.inr (by decide)) t r rfl
    exact ⟨⟨t, r, rfl⟩, fun _ _ _ hs => by cases hs; omega, by simp, by simp, by simp, by simp, fun _ => not_keyColon (by omega), by simp⟩
  · have : o.unary = o := by cases o <;> first | rfl | exact absurd rfl ho
    rw [this] at h
    exact h.mono (by decide) (.inr (.inl (by decide)))

theorem Stop.of_target (h : Stop o.target 2 s) (ho : o ≠ .outdent) : Stop o 2 s := by
  by_cases ho' : o = .callOutdent ∨ o = .mapOutdent
  · obtain ⟨t, r, rfl⟩ := h.ne
    have h0 : reach t.tokenType = 0 := h.zero (by rcases ho' with rfl | rfl <;> simp [Ends.target]) t r rfl
    refine stop_zero h0 (fun hm => h.map ?_) ?_
    · rcases hm with rfl | rfl <;> simp [Ends.target]
    · rintro rfl; simp at ho'
  · have : o.target = o := by cases o <;> first | rfl | simp at ho'
    rwa [this] at h

/-- What follows a statement. -/
structure After (o : Ends) (e : Bool) (s : List Token) : Prop where
  ne : ∃ t r, s = t :: r
  head : ∀ t r, s = t :: r → t.tokenType ≠ .terminator ∧ t.tokenType ≠ .equal ∧ t.tokenType ≠ .colon
  els : e = true → ∀ t r, s = t :: r → t.tokenType ≠ .else
  map : o = .map → ¬ KeyColon s ∧ ∀ t r, s = t :: r → t.tokenType ≠ .rightBrace
  call : o = .call → ∀ t r, s = t :: r → reach t.tokenType = 0
  brace : o = .brace → ∀ t r, s = t :: r → t.tokenType = .rightBrace
  unfinished : o = .unfinished → ∀ t r, s = t :: r → t.tokenType = .eof

theorem After.weaken {e e' : Bool} (h : After o e s) (he : e' = true → e = true) : After o e' s :=
  ⟨h.ne, h.head, fun h' => h.els (he h'), h.map, h.call, h.brace, h.unfinished⟩

theorem After.line {e : Bool} {t : Token} (h : After o.line e s) (ht : t.tokenType = .terminator) (ho : o ≠ .brace) :
    Stop o b (t :: s) := by
  refine stop_zero (by rw [ht]; rfl) (fun ho => ?_) fun h => absurd h ho
  rintro ⟨_, _, hs, -, hk⟩
  cases hs
  obtain ⟨h1, h2⟩ := h.map (by rcases ho with rfl | rfl <;> rfl)
  rcases hk with hk | ⟨u, r', rfl, hu⟩
  · exact h1 hk
  · exact h2 _ _ rfl hu

theorem After.opened {e : Bool} (h : After o.opened e s) : Stop o 1 s := by
  obtain ⟨t, r, rfl⟩ := h.ne
  obtain ⟨h1, h2, h3⟩ := h.head t r rfl
  by_cases ho : o = .outdent
  · subst ho
    refine ⟨⟨t, r, rfl⟩, by simp, fun _ _ _ hs he => ?_, by simp, by simp, by simp, by simp, by simp⟩
    cases hs
    revert he h2
    cases t.tokenType <;> simp [reach]
  · have h0 : reach t.tokenType = 0 := by
      by_cases hb : o = .brace
      · subst hb; rw [h.brace rfl t r rfl]; rfl
      · refine h.call ?_ t r rfl
        cases o <;> simp_all [Ends.opened]
    refine stop_zero h0 (fun _ => not_mapOn h1) ?_
    rintro rfl
    exact h.brace rfl t r rfl

end Ws
