import Verif.Model.Parser
import Verif.Spec.Messages
/-! The messages that the parsing functions throw, given balanced tokens. -/
namespace Ws
open Spec

variable {α β σ : Type} {env : Env} {p : Parser}

/-! ### Depth -/

/-- What a token adds to the depth. -/
def depthOf (t : Token) : Int :=
  match t.tokenType with
  | .indent => 1
  | .outdent => -1
  | _ => 0

/-- Indents without Outdents. -/
def depthSum : List Token → Int
  | [] => 0
  | t :: ts => depthOf t + depthSum ts

/-- Blocks are balanced, and Eof comes last. -/
structure Paired (T : List Token) : Prop where
  pos : ∀ n, 0 ≤ depthSum (T.take n)
  total : depthSum T = 0
  eof : ∃ ws e, T = ws ++ [e] ∧ e.tokenType = .eof ∧ ∀ t ∈ ws, t.tokenType ≠ .eof

theorem depthSum_append (a b : List Token) : depthSum (a ++ b) = depthSum a + depthSum b := by
  induction a with
  | nil => simp [depthSum]
  | cons t a ih => rw [List.cons_append, depthSum, depthSum, ih]; omega

/-- The depth of the position. -/
def Parser.level (p : Parser) : Int := depthSum (p.tokens.take p.current)

theorem level_pos (h : Paired p.tokens) : 0 ≤ p.level := h.pos _

theorem level_atEnd (h : Paired p.tokens) (he : p.isAtEnd = true) : p.level = 0 := by
  obtain ⟨ws, e, h1, h2, h3⟩ := h.eof
  unfold Parser.level
  have ht := h.total
  rcases Nat.lt_or_ge p.current ws.length with hlt | hge
  · exfalso
    have hp : p.peek = some ws[p.current] := by
      unfold Parser.peek
      rw [h1, List.getElem?_append_left hlt, List.getElem?_eq_getElem hlt]
    simp only [Parser.isAtEnd, hp, beq_iff_eq] at he
    exact h3 _ (List.getElem_mem hlt) he
  · have hw : depthSum ws = 0 := by
      rw [h1, depthSum_append] at ht
      simp only [depthSum, depthOf, h2] at ht
      omega
    rcases Nat.eq_or_lt_of_le hge with hc | hc
    · rw [h1, List.take_append_of_le_length (by omega), List.take_of_length_le (by omega)]
      exact hw
    · rw [List.take_of_length_le (by rw [h1]; simp; omega)]
      exact ht

theorem level_advance {t : Token} (hp : p.peek = some t) : p.advance.tokens = p.tokens ∧
    (t.tokenType ≠ .eof → p.advance.level = p.level + depthOf t) ∧ (t.tokenType = .eof → p.advance = p) := by
  unfold Parser.advance
  by_cases he : t.tokenType = .eof
  · have : p.isAtEnd = true := by simp [Parser.isAtEnd, hp, he]
    simp [this, he]
  · have : p.isAtEnd = false := by simp [Parser.isAtEnd, hp, he]
    refine ⟨by simp [this], fun _ => ?_, fun h => absurd h he⟩
    simp only [this, Bool.false_eq_true, if_false, Parser.level]
    rw [List.take_add_one, show p.tokens[p.current]? = some t from hp, depthSum_append]
    simp [depthSum]

/-! ### Triples -/

/-- Started in `p`, `x` throws only the errors listed, and `Q` holds if it returns. -/
def Gets (p : Parser) (x : P α) (Q : α → Parser → Prop) : Prop :=
  match x p with
  | .ok a p' => Q a p'
  | .err e _ => e.message ∈ parserMessages
  | _ => True

theorem gets_mono {x : P α} {Q Q' : α → Parser → Prop} (h : Gets p x Q) (hq : ∀ a p', Q a p' → Q' a p') : Gets p x Q' := by
  unfold Gets at *
  split <;> simp_all

theorem gets_bind {x : P α} {f : α → P β} {Q : β → Parser → Prop} (h : Gets p x (fun a p' => Gets p' (f a) Q)) :
    Gets p (x >>= f) Q := by
  unfold Gets at h
  show (match (M.bind x f) p with
    | .ok a p' => Q a p'
    | .err e _ => e.message ∈ parserMessages
    | _ => True)
  unfold M.bind
  cases hx : x p with
  | ok a p' => rw [hx] at h; exact h
  | err e p' => rw [hx] at h; exact h
  | panic m => trivial
  | diverge => trivial

theorem gets_query {f : Parser → α} {g : α → P β} {Q : β → Parser → Prop} (h : Gets p (g (f p)) Q) : Gets p (query f >>= g) Q :=
  gets_bind h

theorem gets_seq {x : P α} {f : α → P β} {Q : β → Parser → Prop} (Q₁ : α → Parser → Prop) (h₁ : Gets p x Q₁)
    (h₂ : ∀ a p', Q₁ a p' → Gets p' (f a) Q) : Gets p (x >>= f) Q := gets_bind (gets_mono h₁ h₂)

/-- In the same tokens, at the depth `k`. -/
def AtLevel (T : List Token) (k : Int) (p : Parser) : Prop := p.tokens = T ∧ p.level = k

/-- `x` throws only the errors listed, and keeps the depth. -/
structure Throws (x : P α) : Prop where
  start : ∀ {T k}, Paired T → ∀ {p}, AtLevel T k p → Gets p x (fun _ => AtLevel T k)

theorem throws_bind {x : P α} {f : α → P β} (hx : Throws x) (hf : ∀ a, Throws (f a)) : Throws (x >>= f) :=
  ⟨fun hT _ hp => gets_seq _ (hx.start hT hp) fun a _ hp' => (hf a).start hT hp'⟩

theorem throws_pure {a : α} : Throws (pure a : P α) := ⟨fun _ _ h => h⟩
theorem throws_query {f : Parser → α} : Throws (query f) := ⟨fun _ _ h => h⟩
theorem throws_panic {m : String} : Throws (M.panic m : P α) := ⟨fun _ _ _ => trivial⟩
theorem throws_diverge : Throws (fun _ => .diverge : P α) := ⟨fun _ _ _ => trivial⟩
theorem throws_throw {c : Cause} (h : c.message ∈ parserMessages) : Throws (M.throw c : P α) := ⟨fun _ _ _ => h⟩

/-- A kind of token that opens and closes no block. -/
def flat (tt : TokenType) : Bool := tt != .indent && tt != .outdent

theorem flat_depth {t : Token} (h : flat t.tokenType = true) : depthOf t = 0 := by
  unfold flat at h
  unfold depthOf
  split <;> simp_all

theorem advance_flat {T k} {t : Token} (hp : p.peek = some t) (hf : flat t.tokenType = true) (h : AtLevel T k p) :
    AtLevel T k p.advance := by
  obtain ⟨h1, h2, h3⟩ := level_advance hp
  refine ⟨by rw [h1]; exact h.1, ?_⟩
  by_cases he : t.tokenType = .eof
  · rw [h3 he]; exact h.2
  · rw [h2 he, flat_depth hf, h.2]; omega

theorem check_iff {tt : TokenType} : p.check tt = true ↔ p.isAtEnd = false ∧ ∃ t, p.peek = some t ∧ t.tokenType = tt := by
  unfold Parser.check
  cases p.peek <;> simp

theorem throws_matchToken {tt} (hf : flat tt = true) : Throws (matchToken tt) := by
  refine ⟨fun _ p h => ?_⟩
  unfold Gets matchToken
  by_cases hc : p.check tt = true
  · rw [if_pos hc]
    obtain ⟨_, t, hp, rfl⟩ := check_iff.mp hc
    exact advance_flat hp hf h
  · rw [if_neg hc]
    exact h

theorem throws_matchesAny {tts : List TokenType} (hf : tts.all flat = true) : Throws (matchesAny tts) := by
  refine ⟨fun _ p h => ?_⟩
  unfold Gets matchesAny
  cases hp : p.peek with
  | none => exact h
  | some t =>
    simp only
    by_cases hc : tts.contains t.tokenType = true
    · rw [if_pos hc]
      exact advance_flat hp (List.all_eq_true.mp hf _ (by simpa using hc)) h
    · rw [if_neg hc]
      exact h

theorem throws_previous : Throws (previous env) := by
  refine ⟨fun _ p h => ?_⟩
  unfold Gets previous
  split
  · rename_i heq
    split at heq
    · split at heq
      · cases heq
      · cases heq; exact h
    · cases heq; exact h
  · rename_i heq
    split at heq
    · split at heq <;> cases heq
    · cases heq
  · trivial
theorem throws_enterLoop : Throws (enterLoop env) := by
  refine ⟨fun _ p h => ?_⟩
  unfold Gets enterLoop
  by_cases hc : p.inLoops ≥ env.usizeMax
  · rw [if_pos hc]; trivial
  · rw [if_neg hc]; exact h
theorem gets_leave {x : P α} {T k} (hx : Gets p x (fun _ => AtLevel T k)) : Gets p (thenLeaveLoop env x) (fun _ => AtLevel T k) := by
  unfold Gets thenLeaveLoop at *
  cases hx' : x p with
  | ok a q =>
    rw [hx'] at hx
    simp only
    by_cases h1 : q.inLoops = 0
    · rw [if_pos h1]
      cases env.overflowChecks
      · exact hx
      · trivial
    · rw [if_neg h1]; exact hx
  | err c q =>
    rw [hx'] at hx
    simp only
    by_cases h1 : q.inLoops = 0
    · rw [if_pos h1]
      cases env.overflowChecks
      · exact hx
      · trivial
    · rw [if_neg h1]; exact hx
  | panic m => trivial
  | diverge => trivial

theorem gets_loop {body : σ → P (Step σ β)} {Q : β → Parser → Prop} (I : σ → Parser → Prop)
    (h : ∀ a p, I a p → Gets p (body a) (fun s p' => match s with
      | .next a' => I a' p'
      | .stop b => Q b p')) {a : σ} (hi : I a p) : Gets p (loop body a) Q := by
  have key : ∀ n a p, I a p → Gets p (loopFuel body n a) Q := by
    intro n
    induction n with
    | zero => intro a p _; trivial
    | succ n ih =>
      intro a p hi
      refine gets_seq _ (h a p hi) ?_
      intro s p' hs
      cases s with
      | next a' => exact ih a' p' hs
      | stop b => exact hs
  exact key _ a p hi

theorem throws_loop {body : σ → P (Step σ β)} {a : σ} (h : ∀ a, Throws (body a)) : Throws (loop body a) :=
  ⟨fun hT _ hp => gets_loop (fun _ => AtLevel _ _) (fun a _ hp => gets_mono ((h a).start hT hp)
    (fun s p' hs => by cases s <;> exact hs)) hp⟩

/-- Goes through a function. -/
syntax "throws" "[" term,* "]" : tactic
macro_rules
  | `(tactic| throws [$ls,*]) => do
    let ts : Lean.TSyntaxArray `term := ls.getElems
    `(tactic| repeat' (first
      | exact throws_pure | exact throws_query | exact throws_panic | exact throws_matchToken (by decide)
      | exact throws_matchesAny (by decide) | exact throws_previous | exact throws_enterLoop
      $[| apply $ts]*
      | apply throws_loop | apply throws_throw | apply throws_bind | intro _ | split
      | (simp [parserMessages, Cause.newWithLocation, Cause.new]; done) | decide))

/-- An error is thrown. -/
structure Fails (x : P α) : Prop where
  start : ∀ {p Q}, Gets p x Q

theorem fails_bind {x : P α} {f : α → P β} (hx : ∀ p, Gets p x (fun _ _ => True)) (hf : ∀ a, Fails (f a)) : Fails (x >>= f) :=
  ⟨gets_bind (gets_mono (hx _) fun a _ _ => (hf a).start)⟩
theorem fails_throws {x : P α} (h : Fails x) : Throws x := ⟨fun _ _ _ => h.start⟩
theorem quiet_previous (p : Parser) : Gets p (previous env) (fun _ _ => True) := by
  unfold Gets previous
  split
  · trivial
  · rename_i heq
    split at heq
    · split at heq <;> cases heq
    · cases heq
  · trivial
theorem quiet_previousSourceLoc (p : Parser) : Gets p (previousSourceLoc env) (fun _ _ => True) := by
  unfold previousSourceLoc
  refine gets_seq _ (quiet_previous p) ?_
  intro a p' _
  cases a <;> exact trivial
theorem quiet_peekSourceLoc (p : Parser) : Gets p (peekSourceLoc env) (fun _ _ => True) := by
  unfold peekSourceLoc
  refine gets_query ?_
  cases p.peek
  · exact quiet_previousSourceLoc p
  · trivial
theorem fails_last {m} (h : m ∈ parserMessages) : Fails (errorFromLast env m : P α) := by
  unfold errorFromLast
  refine fails_bind quiet_previous fun a => ?_
  cases a <;> exact fails_bind quiet_previousSourceLoc fun _ => ⟨h⟩
theorem fails_peek {m} (h : m ∈ parserMessages) : Fails (errorFromPeek env m : P α) := by
  unfold errorFromPeek
  refine fails_bind (fun p => (trivial : Gets p (query Parser.peek) (fun _ _ => True))) fun a => ?_
  cases a <;> exact fails_bind quiet_peekSourceLoc fun _ => ⟨h⟩

theorem throws_previousSourceLoc : Throws (previousSourceLoc env) := by unfold previousSourceLoc; throws []
theorem throws_peekSourceLoc : Throws (peekSourceLoc env) := by unfold peekSourceLoc; throws [throws_previousSourceLoc]
theorem throws_errorFromLast {m} (h : m ∈ parserMessages) : Throws (errorFromLast env m : P α) := fails_throws (fails_last h)
theorem throws_errorFromPeek {m} (h : m ∈ parserMessages) : Throws (errorFromPeek env m : P α) := fails_throws (fails_peek h)
theorem throws_consumeAnyOf {tts : List TokenType} {m} (hf : tts.all flat = true) (h : m ∈ parserMessages) :
    Throws (consumeAnyOf env tts m) := by
  unfold consumeAnyOf; throws [throws_matchesAny hf, throws_errorFromPeek h]
theorem throws_consume {tt m} (hf : flat tt = true) (h : m ∈ parserMessages) : Throws (consume env tt m) :=
  throws_consumeAnyOf (by simpa using hf) h

theorem matchesAny_check {tts : List TokenType} {tt : TokenType} (h : p.check tt = true) (ht : tt ∈ tts) :
    ∃ loc, matchesAny tts p = .ok (some (tt, loc)) p.advance := by
  obtain ⟨_, t, hp, rfl⟩ := check_iff.mp h
  refine ⟨t.loc, ?_⟩
  unfold matchesAny
  rw [hp]
  simp [ht]

theorem matchesAny_cases (tts : List TokenType) (p : Parser) :
    (matchesAny tts p = .ok none p ∧ ∀ t, p.peek = some t → t.tokenType ∉ tts) ∨
    ∃ t, p.peek = some t ∧ t.tokenType ∈ tts ∧ matchesAny tts p = .ok (some (t.tokenType, t.loc)) p.advance := by
  unfold matchesAny
  cases hp : p.peek with
  | none => exact .inl ⟨rfl, by simp⟩
  | some t =>
    by_cases hc : t.tokenType ∈ tts
    · exact .inr ⟨t, rfl, hc, by simp [hc]⟩
    · exact .inl ⟨by simp [hc], by simpa using hc⟩

/-- A token of the kind is consumed, or else an error is thrown. -/
theorem gets_consume {tt m} (h : m ∈ parserMessages) (Q : Unit → Parser → Prop)
    (hq : ∀ t, p.peek = some t → t.tokenType = tt → Q () p.advance) : Gets p (consume env tt m) Q := by
  refine gets_bind ?_
  unfold Gets
  rcases matchesAny_cases [tt] p with ⟨h1, _⟩ | ⟨t, hp, ht, h1⟩
  · rw [h1]
    exact (fails_peek h).start
  · rw [h1]
    exact hq t hp (by simpa using ht)

theorem throws_identifier {m} (h : m ∈ parserMessages) : Throws (consumeIdentifier env m) := by
  refine ⟨fun hT p hp => ?_⟩
  unfold consumeIdentifier
  refine gets_query ?_
  cases hk : p.peek with
  | none => exact (fails_peek h).start
  | some t =>
    dsimp only
    split
    · rename_i ht
      exact gets_bind (advance_flat hk (by rw [ht]; rfl) hp)
    · exact (fails_peek h).start

/-! ### Blocks -/

/-- A block that is closed by `eb` is open, at the depth `k` without it. -/
inductive Inside (T : List Token) (k : Int) : TokenType → Parser → Prop
  | brace {q : Parser} : AtLevel T k q → Inside T k .rightBrace q
  | indented {q : Parser} : AtLevel T (k + 1) q → 0 ≤ k → Inside T k .outdent q

theorem gets_begin {T k} (hT : Paired T) (hp : AtLevel T k p) {m} (h : m ∈ parserMessages ∨ p.check .terminator = true ∨ p.check .leftBrace = true) :
    Gets p (consumeBeginBlock env m) (Inside T k) := by
  have hk : 0 ≤ k := by have := level_pos (p := p) (by rw [hp.1]; exact hT); rw [hp.2] at this; exact this
  unfold consumeBeginBlock
  refine gets_bind ?_
  unfold Gets
  rcases matchesAny_cases [.terminator, .leftBrace] p with ⟨h1, h2⟩ | ⟨t, hpk, ht, h1⟩
  · rw [h1]
    rcases h with h | h | h
    · exact (fails_peek h).start
    · obtain ⟨_, t, h3, h4⟩ := check_iff.mp h
      exact absurd (h2 t h3) (by simp [h4])
    · obtain ⟨_, t, h3, h4⟩ := check_iff.mp h
      exact absurd (h2 t h3) (by simp [h4])
  · rw [h1]
    simp only [List.mem_cons, List.not_mem_nil, or_false] at ht
    rcases ht with ht | ht
    · have ha := advance_flat hpk (by rw [ht]; rfl) hp
      simp only [ht]
      refine gets_bind (gets_consume (by simp [parserMessages]) _ fun t' hp' ht' => ?_)
      obtain ⟨l1, l2, _⟩ := level_advance hp'
      have l2 := l2 (by rw [ht']; decide)
      refine Inside.indented ⟨by rw [l1]; exact ha.1, ?_⟩ hk
      rw [l2, ha.2, depthOf, ht']
    · simp only [ht]
      exact Inside.brace (advance_flat hpk (by rw [ht]; rfl) hp)

theorem gets_end {T k eb after} (hT : Paired T) (hp : Inside T k eb p) (he : p.check eb = true ∨ p.isAtEnd = true)
    (h : "Expect '}'" ++ after ∈ parserMessages) : Gets p (consumeEndBlock env eb after) (fun _ => AtLevel T k) := by
  unfold consumeEndBlock
  refine gets_bind ?_
  unfold Gets
  rcases matchesAny_cases [eb] p with ⟨h1, h2⟩ | ⟨t, hpk, ht, h1⟩
  · rw [h1]
    have hend : p.isAtEnd = true := by
      rcases he with h3 | h3
      · obtain ⟨_, t, h3, h4⟩ := check_iff.mp h3
        exact absurd (h2 t h3) (by simp [h4])
      · exact h3
    cases hp with
    | brace hp => exact (fails_peek h).start
    | indented hp hk =>
      exfalso
      have := level_atEnd (by rw [hp.1]; exact hT) hend
      rw [hp.2] at this
      omega
  · rw [h1]
    have ht : t.tokenType = eb := by simpa using ht
    obtain ⟨l1, l2, _⟩ := level_advance hpk
    cases hp with
    | brace hp => exact advance_flat hpk (by rw [ht]; rfl) hp
    | indented hp hk =>
      have l2 := l2 (by rw [ht]; decide)
      refine ⟨by rw [l1]; exact hp.1, ?_⟩
      rw [l2, hp.2, depthOf, ht]
      simp only
      omega

/-- The recursive functions throw only the errors listed. -/
structure RecThrows (r : Rec) : Prop where
  assignment : Throws r.assignment
  unary : Throws r.unary
  declaration : Throws r.declaration
  statement : Throws r.statement

variable {r : Rec}

theorem inside_level {T k eb} (h : Inside T k eb p) : ∃ j, AtLevel T j p ∧ ∀ q, AtLevel T j q → Inside T k eb q := by
  cases h with
  | brace h => exact ⟨k, h, fun q hq => .brace hq⟩
  | indented h hk => exact ⟨k + 1, h, fun q hq => .indented hq hk⟩

/-- The loops over the contents of a block. -/
theorem gets_contents {T k eb} (hp : Inside T k eb p) {body : σ → P (Step σ β)} {a : σ}
    (hb : ∀ a p, (p.check eb = false → p.isAtEnd = false → Gets p (body a) (fun s p' => Inside T k eb p' ∧ ∃ a', s = .next a') ) ∧
      (p.check eb = true ∨ p.isAtEnd = true → ∃ b, body a p = .ok (.stop b) p) ∨ ¬ Inside T k eb p) :
    Gets p (loop body a) (fun _ p' => Inside T k eb p' ∧ (p'.check eb = true ∨ p'.isAtEnd = true)) := by
  refine gets_loop (fun _ => Inside T k eb) ?_ hp
  intro a p hi
  rcases hb a p with ⟨h1, h2⟩ | h
  · by_cases hc : p.check eb = true ∨ p.isAtEnd = true
    · obtain ⟨b, h2⟩ := h2 hc
      unfold Gets
      rw [h2]
      exact ⟨hi, hc⟩
    · refine gets_mono (h1 (by simpa using fun h => hc (.inl h)) (by simpa using fun h => hc (.inr h))) ?_
      rintro s p' ⟨h3, a', rfl⟩
      exact h3
  · exact absurd hi h

theorem gets_finishBlock (hr : RecThrows r) {T k eb} (hT : Paired T) (hp : Inside T k eb p) :
    Gets p (finishBlock env r eb) (fun _ => AtLevel T k) := by
  unfold finishBlock
  refine gets_seq (fun _ p' => Inside T k eb p' ∧ (p'.check eb = true ∨ p'.isAtEnd = true)) ?_ ?_
  · refine gets_contents hp fun a p => ?_
    by_cases hi : Inside T k eb p
    · left
      obtain ⟨j, hj, hj'⟩ := inside_level hi
      constructor
      · intro h1 h2
        refine gets_query ?_
        simp only [h1, h2, Bool.not_false, Bool.and_self, if_true]
        refine gets_seq _ (hr.declaration.start hT hj) ?_
        intro s p' hp'
        exact ⟨hj' p' hp', _, rfl⟩
      · intro h
        refine ⟨a, ?_⟩
        show M.bind (query _) _ p = _
        simp only [M.bind, query]
        rcases h with h | h <;> simp [h] <;> rfl
    · exact .inr hi
  · rintro a p' ⟨h1, h2⟩
    exact gets_seq _ (gets_end hT h1 h2 (by simp [parserMessages])) fun _ _ h => h

theorem throws_parameterList : Throws (parameterList env) := by
  unfold parameterList
  throws [throws_identifier]
theorem throws_functionDefinition (hr : RecThrows r) {loc} : Throws (functionDefinition env r loc) := by
  unfold functionDefinition
  refine throws_bind (throws_consumeAnyOf (by decide) (by simp [parserMessages])) fun _ => ?_
  refine throws_bind throws_parameterList fun _ => ?_
  refine throws_bind (throws_consume (by decide) (by simp [parserMessages])) fun _ => ?_
  refine ⟨fun hT p hp => ?_⟩
  refine gets_seq _ (gets_begin hT hp (.inl (by simp [parserMessages]))) fun eb p' hp' => ?_
  exact gets_seq _ (gets_finishBlock hr hT hp') fun _ _ h => h
theorem throws_finishFun (hr : RecThrows r) : Throws (finishFunDeclaration env r) := by
  unfold finishFunDeclaration
  throws [throws_identifier, throws_functionDefinition hr]
theorem gets_classMethods (hr : RecThrows r) {T k eb} (hT : Paired T) (hp : Inside T k eb p) :
    Gets p (classMethods env r eb) (fun _ p' => Inside T k eb p' ∧ (p'.check eb = true ∨ p'.isAtEnd = true)) := by
  unfold classMethods
  refine gets_contents hp fun a p => ?_
  by_cases hi : Inside T k eb p
  · left
    obtain ⟨j, hj, hj'⟩ := inside_level hi
    constructor
    · intro h1 h2
      refine gets_query ?_
      simp only [h1, h2, Bool.not_false, Bool.and_self, if_true]
      refine gets_seq _ ((throws_matchToken (by decide)).start hT hj) ?_
      intro s p' hp'
      refine gets_seq _ ((throws_finishFun hr).start hT hp') ?_
      intro f p' hp'
      exact ⟨hj' p' hp', _, rfl⟩
    · intro h
      refine ⟨a, ?_⟩
      show M.bind (query _) _ p = _
      simp only [M.bind, query]
      rcases h with h | h <;> simp [h] <;> rfl
  · exact .inr hi
theorem throws_superclass : Throws (superclassClause env) := by
  unfold superclassClause
  throws [throws_identifier]
theorem throws_finishClass (hr : RecThrows r) : Throws (finishClassDeclaration env r) := by
  unfold finishClassDeclaration
  refine throws_bind (throws_identifier (by simp [parserMessages])) fun _ => ?_
  refine throws_bind throws_superclass fun _ => ?_
  refine ⟨fun hT p hp => ?_⟩
  refine gets_seq _ (gets_begin hT hp (.inl (by simp [parserMessages]))) fun eb p' hp' => ?_
  refine gets_seq _ (gets_classMethods hr hT hp') fun _ p' hp' => ?_
  exact gets_seq _ (gets_end hT hp'.1 hp'.2 (by simp [parserMessages])) fun _ _ h => h
theorem throws_varInitializer (hr : RecThrows r) : Throws (varInitializer r) := by
  unfold varInitializer expression
  throws [hr.assignment]
theorem throws_endVar {a b} : Throws (endVarDeclaration env a b) := by
  unfold endVarDeclaration
  throws [throws_consume]
theorem throws_finishVar (hr : RecThrows r) {a} : Throws (finishVarDeclaration env r a) := by
  unfold finishVarDeclaration
  throws [throws_identifier, throws_varInitializer hr, throws_endVar]
theorem throws_endExpression : Throws (endExpressionStatement env) := by
  unfold endExpressionStatement
  throws [throws_consume]
theorem throws_expressionStatement (hr : RecThrows r) : Throws (expressionStatement env r) := by
  unfold expressionStatement expression
  throws [hr.assignment, throws_endExpression]
theorem throws_break {loc} : Throws (finishBreakStatement env loc) := by
  unfold finishBreakStatement
  throws [throws_errorFromLast, throws_consume]
theorem throws_continue {loc} : Throws (finishContinueStatement env loc) := by
  unfold finishContinueStatement
  throws [throws_errorFromLast, throws_consume]

/-- A block is open, or else a statement follows. -/
def InsideOpt (T : List Token) (k : Int) : Option TokenType → Parser → Prop
  | some eb, p => Inside T k eb p
  | none, p => AtLevel T k p

theorem gets_blockOrStatement (hr : RecThrows r) {T k eb} (hT : Paired T) (hp : InsideOpt T k eb p) :
    Gets p (blockOrStatement env r eb) (fun _ => AtLevel T k) := by
  cases eb with
  | none => exact hr.statement.start hT hp
  | some eb => exact gets_seq _ (gets_finishBlock hr hT hp) fun _ _ h => h

theorem gets_beginIfAny {T k m} (hT : Paired T) (hp : AtLevel T k p) : Gets p (beginBlockIfAny env m) (InsideOpt T k) := by
  unfold beginBlockIfAny
  refine gets_query ?_
  split
  · rename_i h
    rw [Bool.or_eq_true] at h
    exact gets_seq _ (gets_begin hT hp (.inr h)) fun _ _ h => h
  · exact hp

theorem throws_loopBody (hr : RecThrows r) : Throws (loopBodyStatement env r) := by
  unfold loopBodyStatement
  refine throws_bind throws_enterLoop fun _ => ⟨fun hT p hp => ?_⟩
  exact gets_seq _ (gets_beginIfAny hT hp) fun eb p' hp' => gets_leave (gets_blockOrStatement hr hT hp')
theorem throws_forInitializer (hr : RecThrows r) : Throws (forInitializer env r) := by
  unfold forInitializer
  throws [throws_finishVar hr, throws_expressionStatement hr]
theorem throws_for (hr : RecThrows r) : Throws (finishForStatement env r) := by
  unfold finishForStatement forCondition forIncrement expression
  throws [throws_consumeAnyOf, throws_forInitializer hr, throws_consume, hr.assignment, throws_loopBody hr]
theorem throws_if (hr : RecThrows r) : Throws (finishIfStatement env r) := by
  unfold finishIfStatement expression
  refine throws_bind (throws_consumeAnyOf (by decide) (by simp [parserMessages])) fun _ => ?_
  refine throws_bind hr.assignment fun _ => ?_
  refine throws_bind (throws_consume (by decide) (by simp [parserMessages])) fun _ => ⟨fun hT p hp => ?_⟩
  refine gets_seq _ (gets_beginIfAny hT hp) fun eb p' hp' => ?_
  refine gets_seq _ (gets_blockOrStatement hr hT hp') fun _ p' hp' => ?_
  refine Throws.start ?_ hT hp'
  throws [hr.statement]
theorem throws_print (hr : RecThrows r) : Throws (finishPrintStatement env r) := by
  unfold finishPrintStatement expression
  throws [throws_consume, hr.assignment]
theorem throws_return (hr : RecThrows r) {loc} : Throws (finishReturnStatement env r loc) := by
  unfold finishReturnStatement returnValue expression
  throws [throws_consume, hr.assignment]
theorem throws_while (hr : RecThrows r) : Throws (finishWhileStatement env r) := by
  unfold finishWhileStatement expression
  throws [throws_consumeAnyOf, throws_consume, hr.assignment, throws_loopBody hr]
theorem throws_braces (hr : RecThrows r) : Throws (finishBlock env r .rightBrace) :=
  ⟨fun hT _ hp => gets_finishBlock hr hT (.brace hp)⟩
theorem throws_statement (hr : RecThrows r) : Throws (statementBody env r) := by
  unfold statementBody
  throws [throws_expressionStatement hr, throws_break, throws_continue, throws_for hr, throws_if hr, throws_braces hr,
    throws_print hr, throws_return hr, throws_while hr]

theorem consume_check {tt : TokenType} {m : String} (h : p.check tt = true) : consume env tt m p = .ok () p.advance := by
  obtain ⟨loc, hl⟩ := matchesAny_check (tts := [tt]) h (by simp)
  show M.bind (matchesAny [tt]) _ p = _
  unfold M.bind
  rw [hl]
  rfl

theorem throws_declaration (hr : RecThrows r) : Throws (declarationBody env r) := by
  unfold declarationBody
  refine throws_bind (throws_matchToken (by decide)) fun b => ?_
  split
  · exact throws_finishClass hr
  · refine ⟨fun hT p hp => gets_query ?_⟩
    split
    · rename_i h
      rw [Bool.and_eq_true] at h
      refine gets_bind ?_
      unfold Gets
      rw [consume_check h.1]
      obtain ⟨_, t, h1, h2⟩ := check_iff.mp h.1
      have hp' := advance_flat h1 (by rw [h2]; rfl) hp
      refine Throws.start ?_ hT hp'
      throws [throws_finishFun hr]
    · refine Throws.start ?_ hT hp
      throws [throws_finishVar hr, hr.statement]

theorem throws_binaryLevel {l : Level} {x : P Expr} (h : Throws x) : Throws (binaryLevel l x) := by
  have hf : l.operators.all flat = true := by cases l <;> rfl
  unfold binaryLevel
  throws [h, throws_matchesAny hf]
theorem throws_or (hr : RecThrows r) : Throws (orExpr r) :=
  throws_binaryLevel (throws_binaryLevel (throws_binaryLevel (throws_binaryLevel (throws_binaryLevel (throws_binaryLevel hr.unary)))))
theorem throws_mkAssignment {a b loc} : Throws (mkAssignment a b loc) := by
  unfold mkAssignment
  throws []
theorem throws_target (hr : RecThrows r) : Throws (assignmentTarget env r) := by
  unfold assignmentTarget
  refine ⟨fun {T k} hT p hp => gets_bind ?_⟩
  unfold Gets matchToken
  by_cases hc : p.check .indent = true
  · rw [if_pos hc]
    obtain ⟨_, t, h1, h2⟩ := check_iff.mp hc
    obtain ⟨l1, l2, _⟩ := level_advance h1
    have l2 := l2 (by rw [h2]; decide)
    have hp' : AtLevel T (k + 1) p.advance := ⟨by rw [l1]; exact hp.1, by rw [l2, hp.2, depthOf, h2]⟩
    refine gets_seq _ ((throws_or hr).start hT hp') fun _ p' hp' => ?_
    refine gets_seq _ ((throws_matchToken (by decide)).start hT hp') fun _ p' hp' => ?_
    refine gets_bind (gets_consume (by simp [parserMessages]) _ fun t ht h3 => ?_)
    obtain ⟨l1, l2, _⟩ := level_advance ht
    have l2 := l2 (by rw [h3]; decide)
    refine ⟨by rw [l1]; exact hp'.1, ?_⟩
    rw [l2, hp'.2, depthOf, h3]
    simp only
    omega
  · rw [if_neg hc]
    exact (throws_or hr).start hT hp
theorem throws_assignment (hr : RecThrows r) : Throws (assignmentBody env r) := by
  unfold assignmentBody
  throws [throws_target hr, hr.assignment, throws_mkAssignment]
theorem throws_arguments (hr : RecThrows r) : Throws (argumentList env r) := by
  unfold argumentList expression
  throws [throws_errorFromPeek, hr.assignment]
theorem throws_finishCall (hr : RecThrows r) {e loc} : Throws (finishCall env r e loc) := by
  unfold finishCall callArguments
  throws [throws_arguments hr, throws_consume]
theorem throws_withoutParens (hr : RecThrows r) {e loc} : Throws (finishCallWithoutParens env r e loc) := by
  unfold finishCallWithoutParens
  throws [throws_arguments hr]
theorem throws_getIndex (hr : RecThrows r) {e loc} : Throws (finishGetIndex env r e loc) := by
  unfold finishGetIndex expression
  throws [hr.assignment, throws_consume]
theorem throws_mapKey {t} : Throws (mapKey t) := by
  unfold mapKey
  throws []
theorem mapKey_state {t k} {p p' : Parser} (h : mapKey t p = .ok k p') :
    p' = p ∧ (t.tokenType = .identifier ∨ t.tokenType = .string) := by
  unfold mapKey at h
  generalize t.tokenType = k at h
  cases k with
  | identifier => cases h; exact ⟨rfl, .inl rfl⟩
  | string => cases hs : t.stringLiteral <;> rw [hs] at h <;> cases h; exact ⟨rfl, .inr rfl⟩
  | _ => cases h

theorem throws_literalMap (hr : RecThrows r) : Throws (literalMap env r) := by
  unfold literalMap expression
  refine throws_loop fun m => ⟨fun hT p hp => gets_query ?_⟩
  split
  · rename_i h
    rw [Bool.and_eq_true] at h
    refine gets_query ?_
    cases hpk : p.peek with
    | none => exact throws_panic.start hT hp
    | some t =>
      dsimp only
      refine gets_bind ?_
      unfold Gets
      cases hk : mapKey t p with
      | err e q =>
        have := throws_mapKey (t := t).start hT hp
        unfold Gets at this
        rw [hk] at this
        exact this
      | panic _ => trivial
      | diverge => trivial
      | ok k q =>
        obtain ⟨rfl, ht⟩ := mapKey_state hk
        have hp' := advance_flat hpk (by rcases ht with ht | ht <;> rw [ht] <;> rfl) hp
        refine gets_bind ?_
        show Gets q.advance _ _
        refine gets_bind ?_
        have hc : q.advance.check .colon = true := by
          have h2 := h.2
          unfold Parser.checkNext at h2
          rw [Bool.and_eq_true] at h2
          have hend : q.isAtEnd = false := by simpa using h2.1
          refine check_iff.mpr ?_
          have hp : q.advance.peek = q.peekNext := by
            unfold Parser.advance
            rw [hend]
            rfl
          have h3 := h2.2
          unfold Parser.isAtEnd
          rw [hp]
          cases hn : q.peekNext with
          | none => rw [hn] at h3; cases h3
          | some t =>
            rw [hn] at h3
            have : t.tokenType = .colon := by simpa using h3
            simp [this]
        unfold Gets
        rw [consume_check hc]
        obtain ⟨_, t', h1, h2⟩ := check_iff.mp hc
        have hp' := advance_flat h1 (by rw [h2]; rfl) hp'
        refine gets_seq _ (hr.assignment.start hT hp') fun v p' hp' => ?_
        split
        · simp [Gets, M.throw, parserMessages, Cause.newWithLocation]
        · refine gets_query ?_
          split
          · rename_i hcond
            have : ∃ t, p'.peek = some t ∧ flat t.tokenType = true := by
              rw [Bool.or_eq_true, Bool.and_eq_true] at hcond
              rcases hcond with hcond | hcond
              · obtain ⟨_, t, h1, h2⟩ := check_iff.mp hcond
                exact ⟨t, h1, by rw [h2]; rfl⟩
              · obtain ⟨_, t, h1, h2⟩ := check_iff.mp hcond.1
                exact ⟨t, h1, by rw [h2]; rfl⟩
            obtain ⟨t, h1, h2⟩ := this
            exact gets_bind (advance_flat h1 h2 hp')
          · exact hp'
  · exact hp

theorem throws_array (hr : RecThrows r) : Throws (arrayElements r) := by
  unfold arrayElements expression
  throws [hr.assignment]

/-- A token that has been looked at is consumed. -/
theorem gets_advance {T k} {t : Token} {f : Unit → P α} (hT : Paired T) (hp : AtLevel T k p) (hpk : p.peek = some t)
    (hf : flat t.tokenType = true) (h : Throws (f ())) : Gets p (advanceP >>= f) (fun _ => AtLevel T k) :=
  gets_bind (h.start hT (advance_flat hpk hf hp))

theorem throws_primary (hr : RecThrows r) : Throws (primary env r) := by
  refine ⟨fun {T k} hT p hp => ?_⟩
  unfold primary expression
  refine gets_query ?_
  cases hpk : p.peek with
  | none => exact throws_panic.start hT hp
  | some t =>
    dsimp only
    split
    all_goals rename_i htt
    all_goals try refine gets_advance hT hp hpk (by rw [htt]; rfl) ?_
    case h_4 =>
      split
      · exact gets_advance hT hp hpk (by rw [htt]; rfl) throws_pure
      · exact throws_panic.start hT hp
    case h_5 =>
      refine gets_query ?_
      split
      · refine Throws.start ?_ hT hp
        throws [throws_literalMap hr]
      · split
        · exact gets_advance hT hp hpk (by rw [htt]; rfl) throws_pure
        · exact throws_panic.start hT hp
    case h_6 =>
      refine gets_query ?_
      split
      · refine Throws.start ?_ hT hp
        throws [throws_literalMap hr]
      · exact gets_advance hT hp hpk (by rw [htt]; rfl) throws_pure
    case h_7 =>
      refine gets_query ?_
      split
      · refine Throws.start ?_ hT hp
        throws [throws_literalMap hr]
      · exact gets_advance hT hp hpk (by rw [htt]; rfl) throws_pure
    all_goals first
      | (throws [throws_literalMap hr, throws_errorFromLast, throws_functionDefinition hr, hr.assignment, throws_consume,
          throws_array hr, throws_identifier]; done)
      | skip
    exact gets_bind (fails_last (by simp [parserMessages])).start
theorem throws_call (hr : RecThrows r) : Throws (call env r) := by
  unfold call
  throws [throws_primary hr, throws_identifier, throws_finishCall hr, throws_getIndex hr, throws_peekSourceLoc,
    throws_withoutParens hr]
theorem throws_unary (hr : RecThrows r) : Throws (unaryBody env r) := by
  unfold unaryBody
  throws [throws_call hr, hr.unary]

theorem throws_rec (env : Env) : ∀ n, RecThrows (recN env n)
  | 0 => ⟨throws_diverge, throws_diverge, throws_diverge, throws_diverge⟩
  | n + 1 =>
    have h := throws_rec env n
    ⟨throws_assignment h, throws_unary h, throws_declaration h, throws_statement h⟩

end Ws
