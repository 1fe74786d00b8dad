import Verif.Proofs.Parse.Top
import Verif.Spec.Messages
/-! What the parser does depends only on the tokens up to three after the position it reaches. -/
namespace Ws
open Spec

variable {α β σ : Type} {env : Env} {p q : Parser} {N : Nat}

/-! ### Runs on two lists of tokens -/

/-- Two states that differ only in the tokens after the first `N`. -/
structure Agree (N : Nat) (p q : Parser) : Prop where
  current : q.current = p.current
  inLoops : q.inLoops = p.inLoops
  allow : q.allowTrailing = p.allowTrailing
  tokens : ∀ i, i < N → q.tokens[i]? = p.tokens[i]?

/-- Where an error is reported that is thrown in `p`. -/
def SpotIn (p : Parser) (e : Cause) : Prop :=
  e.message ∈ lateMessages ∨ e.token = none ∨ At p.tokens p.current e ∨ ∃ i, p.current = i + 1 ∧ At p.tokens i e

/-- The results of two runs started in `p` and in a state that agrees with it. -/
def Same (N : Nat) (p : Parser) : Res Parser Cause α → Res Parser Cause α → Prop
  | .ok a p', r => p'.tokens = p.tokens ∧ p.current ≤ p'.current ∧ (p'.current + 3 ≤ N → match r with
    | .ok b q' => a = b ∧ Agree N p' q'
    | .err _ _ => False
    | _ => True)
  | .err e p', r => p'.tokens = p.tokens ∧ p.current ≤ p'.current ∧ SpotIn p' e ∧ (p'.current + 3 ≤ N → match r with
    | .err e' q' => e = e' ∧ Agree N p' q'
    | .ok _ _ => False
    | _ => True)
  | _, _ => True

/-- `x` and `x'` do the same on tokens that agree as far as `x` looks. -/
structure Near (x x' : P α) : Prop where
  start : ∀ {N p q}, Agree N p q → Same N p (x p) (x' q)

theorem near_bind_post {x x' : P α} {f f' : α → P β} (hx : Near x x') (R : α → Parser → Prop)
    (hR : ∀ {p a p'}, x p = .ok a p' → R a p')
    (hf : ∀ a {N p q}, R a p → Agree N p q → Same N p (f a p) (f' a q)) : Near (x >>= f) (x' >>= f') := by
  refine ⟨fun {N p q} h => ?_⟩
  have h1 := hx.start h
  show Same N p (M.bind x f p) (M.bind x' f' q)
  unfold M.bind
  cases hp : x p with
  | ok a p' =>
    rw [hp] at h1
    obtain ⟨h0, h1, h2⟩ := h1
    simp only
    by_cases hN : p'.current + 3 ≤ N
    · have h2 := h2 hN
      cases hq : x' q with
      | ok b q' =>
        rw [hq] at h2
        obtain ⟨rfl, h2⟩ := h2
        have h3 := hf a (hR hp) h2
        simp only
        cases hp2 : f a p' with
        | ok c p'' => rw [hp2] at h3; exact ⟨h3.1.trans h0, Nat.le_trans h1 h3.2.1, h3.2.2⟩
        | err e p'' => rw [hp2] at h3; exact ⟨h3.1.trans h0, Nat.le_trans h1 h3.2.1, h3.2.2⟩
        | panic m => trivial
        | diverge => trivial
      | err e q' => rw [hq] at h2; exact h2.elim
      | panic m =>
        simp only
        have h3 := hf a (hR hp) (N := 0) (p := p') (q := p') ⟨rfl, rfl, rfl, fun _ _ => rfl⟩
        cases hp2 : f a p' with
        | ok c p'' => rw [hp2] at h3; exact ⟨h3.1.trans h0, Nat.le_trans h1 h3.2.1, fun _ => trivial⟩
        | err e p'' => rw [hp2] at h3; exact ⟨h3.1.trans h0, Nat.le_trans h1 h3.2.1, h3.2.2.1, fun _ => trivial⟩
        | panic m => trivial
        | diverge => trivial
      | diverge =>
        simp only
        have h3 := hf a (hR hp) (N := 0) (p := p') (q := p') ⟨rfl, rfl, rfl, fun _ _ => rfl⟩
        cases hp2 : f a p' with
        | ok c p'' => rw [hp2] at h3; exact ⟨h3.1.trans h0, Nat.le_trans h1 h3.2.1, fun _ => trivial⟩
        | err e p'' => rw [hp2] at h3; exact ⟨h3.1.trans h0, Nat.le_trans h1 h3.2.1, h3.2.2.1, fun _ => trivial⟩
        | panic m => trivial
        | diverge => trivial
    · have h3 := hf a (hR hp) (N := 0) (p := p') (q := p') ⟨rfl, rfl, rfl, fun _ _ => rfl⟩
      cases hp2 : f a p' with
      | ok c p'' =>
        rw [hp2] at h3
        exact ⟨h3.1.trans h0, Nat.le_trans h1 h3.2.1, fun h => absurd h (by have := h3.2.1; omega)⟩
      | err e p'' =>
        rw [hp2] at h3
        exact ⟨h3.1.trans h0, Nat.le_trans h1 h3.2.1, h3.2.2.1, fun h => absurd h (by have := h3.2.1; omega)⟩
      | panic m => trivial
      | diverge => trivial
  | err e p' =>
    rw [hp] at h1
    refine ⟨h1.1, h1.2.1, h1.2.2.1, fun hN => ?_⟩
    have h2 := h1.2.2.2 hN
    cases hq : x' q with
    | ok b q' => rw [hq] at h2; exact h2.elim
    | err e' q' => rw [hq] at h2; exact h2
    | panic m => trivial
    | diverge => trivial
  | panic m => trivial
  | diverge => trivial

theorem near_bind {x x' : P α} {f f' : α → P β} (hx : Near x x') (hf : ∀ a, Near (f a) (f' a)) : Near (x >>= f) (x' >>= f') :=
  near_bind_post hx (fun _ _ => True) (fun _ => trivial) fun a _ _ _ _ h => (hf a).start h

theorem near_ite {c : Prop} [Decidable c] {x x' y y' : P α} (h : c → Near x x') (h' : ¬ c → Near y y') :
    Near (if c then x else y) (if c then x' else y') := by
  by_cases hc : c
  · rw [if_pos hc, if_pos hc]; exact h hc
  · rw [if_neg hc, if_neg hc]; exact h' hc
theorem near_pure {a : α} : Near (pure a : P α) (pure a) := ⟨fun h => ⟨rfl, Nat.le_refl _, fun _ => ⟨rfl, h⟩⟩⟩
theorem near_panic {m : String} {x : P α} : Near (M.panic m : P α) x := ⟨fun _ => trivial⟩
theorem near_diverge {x : P α} : Near (fun _ => .diverge : P α) x := ⟨fun _ => trivial⟩
theorem near_throw {c : Cause} (h : c.message ∈ lateMessages) : Near (M.throw c : P α) (M.throw c) :=
  ⟨fun h' => ⟨rfl, Nat.le_refl _, .inl h, fun _ => ⟨rfl, h'⟩⟩⟩

section
variable (h : Agree N p q) (hN : p.current + 3 ≤ N)
include h hN
theorem agree_peek : q.peek = p.peek := by unfold Parser.peek; rw [h.current, h.tokens _ (by omega)]
theorem agree_peekNext : q.peekNext = p.peekNext := by unfold Parser.peekNext; rw [h.current, h.tokens _ (by omega)]
theorem agree_peekNextNext : q.peekNextNext = p.peekNextNext := by unfold Parser.peekNextNext; rw [h.current, h.tokens _ (by omega)]
theorem agree_isAtEnd : q.isAtEnd = p.isAtEnd := by unfold Parser.isAtEnd; rw [agree_peek h hN]
theorem agree_check {tt} : q.check tt = p.check tt := by unfold Parser.check; rw [agree_isAtEnd h hN, agree_peek h hN]
theorem agree_checkNext {tt} : q.checkNext tt = p.checkNext tt := by
  unfold Parser.checkNext; rw [agree_isAtEnd h hN, agree_peekNext h hN]
theorem agree_checkNextNext {tt} : q.checkNextNext tt = p.checkNextNext tt := by
  unfold Parser.checkNextNext; rw [agree_isAtEnd h hN, agree_peekNextNext h hN]
theorem agree_checkAnyOf {tts} : q.checkAnyOf tts = p.checkAnyOf tts := by
  unfold Parser.checkAnyOf; rw [agree_isAtEnd h hN, agree_peek h hN]
theorem agree_checkNextAnyOf {tts} : q.checkNextAnyOf tts = p.checkNextAnyOf tts := by
  unfold Parser.checkNextAnyOf; rw [agree_isAtEnd h hN, agree_peekNext h hN]
theorem agree_advance : Agree N p.advance q.advance := by
  unfold Parser.advance
  rw [agree_isAtEnd h hN]
  split
  · exact h
  · exact ⟨by simp [h.current], h.inLoops, h.allow, h.tokens⟩
end

theorem advance_le : p.current ≤ p.advance.current ∧ p.advance.tokens = p.tokens := by
  unfold Parser.advance
  split <;> simp

/-- A question about the next three tokens. -/
theorem near_query {f : Parser → α} (hf : ∀ {N p q}, Agree N p q → p.current + 3 ≤ N → f q = f p) : Near (query f) (query f) :=
  ⟨fun h => ⟨rfl, Nat.le_refl _, fun hN => ⟨(hf h hN).symm, h⟩⟩⟩

theorem near_advanceP : Near advanceP advanceP :=
  ⟨fun {_ p _} h => ⟨advance_le.2, advance_le.1, fun hN => ⟨rfl, agree_advance h (by
    have h1 := (advance_le (p := p)).1
    have h2 : p.advance.current + 3 ≤ _ := hN
    omega)⟩⟩⟩

theorem near_matchToken {tt} : Near (matchToken tt) (matchToken tt) := by
  refine ⟨fun {N p q} h => ?_⟩
  unfold matchToken
  by_cases hc : p.check tt = true
  · rw [if_pos hc]
    refine ⟨advance_le.2, advance_le.1, fun hN => ?_⟩
    have hN' : p.current + 3 ≤ N := by have := advance_le (p := p) |>.1; omega
    rw [if_pos (by rw [agree_check h hN']; exact hc)]
    exact ⟨rfl, agree_advance h hN'⟩
  · rw [if_neg hc]
    refine ⟨rfl, Nat.le_refl _, fun hN => ?_⟩
    rw [if_neg (by rw [agree_check h hN]; exact hc)]
    exact ⟨rfl, h⟩

theorem near_matchesAny {tts} : Near (matchesAny tts) (matchesAny tts) := by
  refine ⟨fun {N p q} h => ?_⟩
  unfold matchesAny
  cases hp : p.peek with
  | none =>
    refine ⟨rfl, Nat.le_refl _, fun hN => ?_⟩
    rw [agree_peek h hN, hp]
    exact ⟨rfl, h⟩
  | some t =>
    simp only
    by_cases hc : tts.contains t.tokenType = true
    · rw [if_pos hc]
      refine ⟨advance_le.2, advance_le.1, fun hN => ?_⟩
      have hN' : p.current + 3 ≤ N := by have := advance_le (p := p) |>.1; omega
      rw [agree_peek h hN', hp]
      simp only
      rw [if_pos hc]
      exact ⟨rfl, agree_advance h hN'⟩
    · rw [if_neg hc]
      refine ⟨rfl, Nat.le_refl _, fun hN => ?_⟩
      rw [agree_peek h hN, hp]
      simp only
      rw [if_neg hc]
      exact ⟨rfl, h⟩

theorem near_previous : Near (previous env) (previous env) := by
  refine ⟨fun {N p q} h => ?_⟩
  unfold previous
  rw [h.current]
  by_cases hc : p.current = 0
  · rw [if_pos hc, if_pos hc]
    by_cases ho : env.overflowChecks = true
    · rw [if_pos ho]; trivial
    · rw [if_neg ho, if_neg ho]; exact ⟨rfl, Nat.le_refl _, fun _ => ⟨rfl, h⟩⟩
  · rw [if_neg hc, if_neg hc]
    refine ⟨rfl, Nat.le_refl _, fun hN => ⟨?_, h⟩⟩
    rw [h.tokens _ (by omega)]

theorem near_enterLoop : Near (enterLoop env) (enterLoop env) := by
  refine ⟨fun {N p q} h => ?_⟩
  unfold enterLoop
  rw [h.inLoops]
  by_cases hc : p.inLoops ≥ env.usizeMax
  · rw [if_pos hc]; trivial
  · rw [if_neg hc, if_neg hc]
    exact ⟨rfl, Nat.le_refl _, fun _ => ⟨rfl, ⟨h.current, by simp, h.allow, h.tokens⟩⟩⟩

theorem near_leave {x x' : P α} (hx : Near x x') : Near (thenLeaveLoop env x) (thenLeaveLoop env x') := by
  refine ⟨fun {N p q} h => ?_⟩
  have h1 := hx.start h
  unfold thenLeaveLoop
  cases hp : x p with
  | ok a p' =>
    rw [hp] at h1
    simp only
    by_cases hc : p'.inLoops = 0
    · rw [if_pos hc]
      by_cases ho : env.overflowChecks = true
      · rw [if_pos ho]; trivial
      · rw [if_neg ho]
        refine ⟨h1.1, h1.2.1, fun hN => ?_⟩
        have h2 := h1.2.2 hN
        cases hq : x' q with
        | ok b q' =>
          rw [hq] at h2
          obtain ⟨rfl, h2⟩ := h2
          simp only
          rw [if_pos (by rw [h2.inLoops]; exact hc), if_neg ho]
          exact ⟨rfl, ⟨h2.current, rfl, h2.allow, h2.tokens⟩⟩
        | err e q' => rw [hq] at h2; exact h2.elim
        | panic m => trivial
        | diverge => trivial
    · rw [if_neg hc]
      refine ⟨h1.1, h1.2.1, fun hN => ?_⟩
      have h2 := h1.2.2 hN
      cases hq : x' q with
      | ok b q' =>
        rw [hq] at h2
        obtain ⟨rfl, h2⟩ := h2
        simp only
        rw [if_neg (by rw [h2.inLoops]; exact hc)]
        exact ⟨rfl, ⟨h2.current, by simp [h2.inLoops], h2.allow, h2.tokens⟩⟩
      | err e q' => rw [hq] at h2; exact h2.elim
      | panic m => trivial
      | diverge => trivial
  | err e p' =>
    rw [hp] at h1
    simp only
    by_cases hc : p'.inLoops = 0
    · rw [if_pos hc]
      by_cases ho : env.overflowChecks = true
      · rw [if_pos ho]; trivial
      · rw [if_neg ho]
        refine ⟨h1.1, h1.2.1, h1.2.2.1, fun hN => ?_⟩
        have h2 := h1.2.2.2 hN
        cases hq : x' q with
        | err b q' =>
          rw [hq] at h2
          obtain ⟨rfl, h2⟩ := h2
          simp only
          rw [if_pos (by rw [h2.inLoops]; exact hc), if_neg ho]
          exact ⟨rfl, ⟨h2.current, rfl, h2.allow, h2.tokens⟩⟩
        | ok e q' => rw [hq] at h2; exact h2.elim
        | panic m => trivial
        | diverge => trivial
    · rw [if_neg hc]
      refine ⟨h1.1, h1.2.1, h1.2.2.1, fun hN => ?_⟩
      have h2 := h1.2.2.2 hN
      cases hq : x' q with
      | err b q' =>
        rw [hq] at h2
        obtain ⟨rfl, h2⟩ := h2
        simp only
        rw [if_neg (by rw [h2.inLoops]; exact hc)]
        exact ⟨rfl, ⟨h2.current, by simp [h2.inLoops], h2.allow, h2.tokens⟩⟩
      | ok e q' => rw [hq] at h2; exact h2.elim
      | panic m => trivial
      | diverge => trivial
  | panic m => trivial
  | diverge => trivial

/-- What holds of `x` alone. -/
theorem near_alone {x x' : P α} (hx : Near x x') : Near x (fun _ => .diverge) := by
  refine ⟨fun {N p q} h => ?_⟩
  have h1 := hx.start (N := 0) (p := p) (q := p) ⟨rfl, rfl, rfl, fun _ _ => rfl⟩
  cases hp : x p with
  | ok a p' => rw [hp] at h1; exact ⟨h1.1, h1.2.1, fun _ => trivial⟩
  | err a p' => rw [hp] at h1; exact ⟨h1.1, h1.2.1, h1.2.2.1, fun _ => trivial⟩
  | panic m => trivial
  | diverge => trivial

theorem near_fuel {body body' : σ → P (Step σ β)} (h : ∀ a, Near (body a) (body' a)) :
    ∀ n m a, Near (loopFuel body n a) (loopFuel body' m a)
  | 0, m, a => near_diverge
  | n + 1, 0, a => by
    have key : Near (loopFuel body (n + 1) a) ((fun _ => .diverge : P (Step σ β)) >>= fun s => match s with
        | .next a' => loopFuel body' 0 a'
        | .stop b => pure b) := by
      refine near_bind (near_alone (h a)) fun s => ?_
      cases s with
      | next a' => exact near_fuel h n 0 a'
      | stop b => exact near_pure
    exact key
  | n + 1, m + 1, a => by
    unfold loopFuel
    refine near_bind (h a) fun s => ?_
    cases s with
    | next a' => exact near_fuel h n m a'
    | stop b => exact near_pure

theorem near_loop {body body' : σ → P (Step σ β)} {a : σ} (h : ∀ a, Near (body a) (body' a)) : Near (loop body a) (loop body' a) :=
  ⟨fun hp => (near_fuel h _ _ a).start hp⟩

/-! ### The functions of the parser -/

theorem near_throwHere {c : Cause} (hs : SpotIn p c) (h : Agree N p q) : Same (α := α) N p (M.throw c p) (M.throw c q) :=
  ⟨rfl, Nat.le_refl _, hs, fun _ => ⟨rfl, h⟩⟩

variable {m : String}

theorem errorFromLast_eq (p : Parser) : (errorFromLast env m : P α) p = if p.current = 0 then
        if env.overflowChecks then .panic "attempt to subtract with overflow" else .err (.new .default m) p
      else match p.tokens[p.current - 1]? with
        | some t => .err (.newWithLocation t.loc t.lexeme m) p
        | none => .err (.new .default m) p := by
  simp only [errorFromLast, bind, M.bind, previousSourceLoc, previous, pure]
  by_cases hc : p.current = 0
  · by_cases ho : env.overflowChecks = true
    · simp [hc, ho]
    · simp [hc, ho, M.bind, previous, M.pure, M.throw]
  · cases ht : p.tokens[p.current - 1]? with
    | none => simp [hc, ht, M.bind, previous, M.pure, M.throw]
    | some t => simp [hc, ht, M.bind, previous, M.pure, M.throw]
theorem errorFromPeek_some {p : Parser} {t} (ht : p.peek = some t) : (errorFromPeek env m : P α) p = .err (.newWithLocation t.loc t.lexeme m) p := by
  simp [errorFromPeek, bind, M.bind, peekSourceLoc, query, M.throw, pure, M.pure, ht]
theorem errorFromPeek_none {p : Parser} (ht : p.peek = none) :
      (errorFromPeek env m : P α) p = (previousSourceLoc env >>= fun loc => M.throw (.new loc m)) p := by
  simp [errorFromPeek, bind, M.bind, peekSourceLoc, query, ht]
theorem consumeIdentifier_cases {p : Parser} : (∃ t, p.peek = some t ∧ t.tokenType = .identifier ∧
    consumeIdentifier env m p = .ok (t.lexeme, t.loc) p.advance) ∨ consumeIdentifier env m p = errorFromPeek env m p := by
  cases ht : p.peek with
  | none => right; simp [consumeIdentifier, bind, M.bind, query, ht]
  | some t =>
    by_cases hk : t.tokenType = .identifier
    · left; exact ⟨t, rfl, hk, by simp [consumeIdentifier, bind, M.bind, query, ht, hk, advanceP, M.modify, pure, M.pure]⟩
    · right; simp [consumeIdentifier, bind, M.bind, query, ht, hk]

/-- The error at the token before. -/
theorem near_errorFromLast : Near (errorFromLast env m : P α) (errorFromLast env m) := by
  refine ⟨fun {N p q} h => ?_⟩
  rw [errorFromLast_eq, errorFromLast_eq, h.current]
  by_cases hc : p.current = 0
  · rw [if_pos hc, if_pos hc]
    by_cases ho : env.overflowChecks = true
    · rw [if_pos ho]; trivial
    · rw [if_neg ho, if_neg ho]
      exact ⟨rfl, Nat.le_refl _, .inr (.inl rfl), fun _ => ⟨rfl, h⟩⟩
  · rw [if_neg hc, if_neg hc]
    cases ht : p.tokens[p.current - 1]? with
    | none =>
      refine ⟨rfl, Nat.le_refl _, .inr (.inl rfl), fun hN => ?_⟩
      rw [h.tokens _ (by omega), ht]
      exact ⟨rfl, h⟩
    | some t =>
      refine ⟨rfl, Nat.le_refl _, .inr (.inr (.inr ⟨p.current - 1, by omega, t, ht, rfl, rfl⟩)), fun hN => ?_⟩
      rw [h.tokens _ (by omega), ht]
      exact ⟨rfl, h⟩

/-- The error at the next token. -/
theorem near_errorFromPeek : Near (errorFromPeek env m : P α) (errorFromPeek env m) := by
  refine ⟨fun {N p q} h => ?_⟩
  cases ht : p.peek with
  | some t =>
    rw [errorFromPeek_some ht]
    refine ⟨rfl, Nat.le_refl _, .inr (.inr (.inl ⟨t, ht, rfl, rfl⟩)), fun hN => ?_⟩
    rw [errorFromPeek_some (by rw [agree_peek h hN]; exact ht)]
    exact ⟨rfl, h⟩
  | none =>
    rw [errorFromPeek_none ht]
    have hs : Near (previousSourceLoc env >>= fun loc => (M.throw (.new loc m) : P α)) (previousSourceLoc env >>= fun loc => M.throw (.new loc m)) := by
      refine near_bind ?_ fun loc => ⟨fun h => ⟨rfl, Nat.le_refl _, .inr (.inl rfl), fun _ => ⟨rfl, h⟩⟩⟩
      unfold previousSourceLoc
      refine near_bind near_previous fun a => ?_
      cases a <;> exact near_pure
    have h1 := hs.start h
    revert h1
    cases (previousSourceLoc env >>= fun loc => (M.throw (.new loc m) : P α)) p with
    | ok a p' => 
      intro h1
      refine ⟨h1.1, h1.2.1, fun hN => ?_⟩
      rw [errorFromPeek_none (by rw [agree_peek h (by have := h1.2.1; omega)]; exact ht)]
      exact h1.2.2 hN
    | err e p' =>
      intro h1
      refine ⟨h1.1, h1.2.1, h1.2.2.1, fun hN => ?_⟩
      rw [errorFromPeek_none (by rw [agree_peek h (by have := h1.2.1; omega)]; exact ht)]
      exact h1.2.2.2 hN
    | panic m => intro _; trivial
    | diverge => intro _; trivial

/-- Goes through a function. -/
syntax "near" "[" term,* "]" : tactic
macro_rules
  | `(tactic| near [$ls,*]) => do
    let ts : Lean.TSyntaxArray `term := ls.getElems
    `(tactic| repeat' (first
      | exact near_pure | exact near_panic | exact near_matchToken | exact near_advanceP
      | exact near_matchesAny | exact near_previous | exact near_enterLoop
      | exact near_errorFromLast | exact near_errorFromPeek
      | (refine near_query (fun h hN => ?_);
         simp only [agree_peek h hN, agree_isAtEnd h hN, agree_check h hN, agree_checkNext h hN, agree_checkNextNext h hN,
           agree_checkAnyOf h hN, agree_checkNextAnyOf h hN, h.inLoops, h.allow]; done)
      $[| apply $ts]*
      | apply near_loop | (apply near_throw; simp [lateMessages, Cause.newWithLocation]; done) | apply near_leave | apply near_bind | apply near_ite | intro _ | split))

theorem near_previousSourceLoc : Near (previousSourceLoc env) (previousSourceLoc env) := by unfold previousSourceLoc; near []
theorem near_peekSourceLoc : Near (peekSourceLoc env) (peekSourceLoc env) := by unfold peekSourceLoc; near [near_previousSourceLoc]
theorem near_consumeAnyOf {tts m} : Near (consumeAnyOf env tts m) (consumeAnyOf env tts m) := by
  unfold consumeAnyOf; near []
theorem near_consume {tt m} : Near (consume env tt m) (consume env tt m) := near_consumeAnyOf
theorem near_identifier {m} : Near (consumeIdentifier env m) (consumeIdentifier env m) := by
  unfold consumeIdentifier; near []
theorem near_begin {m} : Near (consumeBeginBlock env m) (consumeBeginBlock env m) := by
  unfold consumeBeginBlock; near [near_consume]
theorem near_end {eb m} : Near (consumeEndBlock env eb m) (consumeEndBlock env eb m) := by
  unfold consumeEndBlock; near []

/-- The recursive functions do the same. -/
structure RecNear (r r' : Rec) : Prop where
  assignment : Near r.assignment r'.assignment
  unary : Near r.unary r'.unary
  declaration : Near r.declaration r'.declaration
  statement : Near r.statement r'.statement

variable {r r' : Rec} (hr : RecNear r r')
include hr

theorem near_finishBlock {eb} : Near (finishBlock env r eb) (finishBlock env r' eb) := by
  unfold finishBlock; near [hr.declaration, near_end]
omit hr in
theorem identifier_spot {name : Str} {loc : SourceLoc} {p' : Parser} (h : consumeIdentifier env m p = .ok (name, loc) p') :
    ∃ i, p'.current = i + 1 ∧ ∃ t, p'.tokens[i]? = some t ∧ loc = t.loc ∧ name = t.lexeme := by
  rcases consumeIdentifier_cases (env := env) (m := m) (p := p) with ⟨t, ht, hk, he⟩ | he
  · rw [he] at h
    cases h
    have : p.isAtEnd = false := by simp [Parser.isAtEnd, ht, hk]
    refine ⟨p.current, by simp [Parser.advance, this], t, ?_, rfl, rfl⟩
    rw [advance_le.2]
    exact ht
  · rw [he] at h
    cases ht : p.peek with
    | some t => rw [errorFromPeek_some ht] at h; cases h
    | none =>
      rw [errorFromPeek_none ht] at h
      simp only [bind, M.bind] at h
      split at h <;> cases h
omit hr in
theorem near_parameterList : Near (parameterList env) (parameterList env) := by
  unfold parameterList
  refine near_bind (near_query fun h hN => by simp only [agree_check h hN]) fun b => near_ite (fun _ => ?_) (fun _ => near_pure)
  refine near_loop fun acc => ?_
  refine near_bind_post near_identifier (fun x p' => ∃ i, p'.current = i + 1 ∧ ∃ t, p'.tokens[i]? = some t ∧ x.2 = t.loc ∧ x.1 = t.lexeme)
    (fun {p a p'} h => identifier_spot (name := a.1) (loc := a.2) h) ?_
  rintro ⟨name, loc⟩ N p q ⟨i, hi, t, ht, h1, h2⟩ h
  dsimp only at h1 h2 ⊢
  split
  · refine near_throwHere (.inr (.inr (.inr ⟨i, hi, t, ht, h1, ?_⟩))) h
    rw [← h2]; rfl
  · refine Near.start ?_ h
    near []
theorem near_functionDefinition {loc} : Near (functionDefinition env r loc) (functionDefinition env r' loc) := by
  unfold functionDefinition; near [near_consumeAnyOf, near_parameterList, near_consume, near_begin, near_finishBlock hr]
theorem near_finishFun : Near (finishFunDeclaration env r) (finishFunDeclaration env r') := by
  unfold finishFunDeclaration; near [near_identifier, near_functionDefinition hr]
theorem near_classMethods {eb} : Near (classMethods env r eb) (classMethods env r' eb) := by
  unfold classMethods; near [near_finishFun hr]
omit hr in
theorem near_superclass : Near (superclassClause env) (superclassClause env) := by
  unfold superclassClause; near [near_identifier]
theorem near_finishClass : Near (finishClassDeclaration env r) (finishClassDeclaration env r') := by
  unfold finishClassDeclaration; near [near_identifier, near_superclass, near_begin, near_end, near_classMethods hr]
theorem near_varInitializer : Near (varInitializer r) (varInitializer r') := by
  unfold varInitializer expression; near [hr.assignment]
omit hr in
theorem near_endVar {a b} : Near (endVarDeclaration env a b) (endVarDeclaration env a b) := by
  unfold endVarDeclaration; near [near_consume]
theorem near_finishVar {a} : Near (finishVarDeclaration env r a) (finishVarDeclaration env r' a) := by
  unfold finishVarDeclaration; near [near_identifier, near_varInitializer hr, near_endVar]
omit hr in
theorem near_endExpression : Near (endExpressionStatement env) (endExpressionStatement env) := by
  unfold endExpressionStatement; near [near_consume]
theorem near_expressionStatement : Near (expressionStatement env r) (expressionStatement env r') := by
  unfold expressionStatement expression; near [hr.assignment, near_endExpression]
omit hr in
theorem near_break {loc} : Near (finishBreakStatement env loc) (finishBreakStatement env loc) := by
  unfold finishBreakStatement; near [near_consume]
omit hr in
theorem near_continue {loc} : Near (finishContinueStatement env loc) (finishContinueStatement env loc) := by
  unfold finishContinueStatement; near [near_consume]
theorem near_blockOrStatement {eb} : Near (blockOrStatement env r eb) (blockOrStatement env r' eb) := by
  unfold blockOrStatement; near [hr.statement, near_finishBlock hr]
omit hr in
theorem near_beginIfAny {m} : Near (beginBlockIfAny env m) (beginBlockIfAny env m) := by
  unfold beginBlockIfAny; near [near_begin]
theorem near_loopBody : Near (loopBodyStatement env r) (loopBodyStatement env r') := by
  unfold loopBodyStatement; near [near_beginIfAny, near_blockOrStatement hr]
theorem near_forInitializer : Near (forInitializer env r) (forInitializer env r') := by
  unfold forInitializer; near [near_finishVar hr, near_expressionStatement hr]
theorem near_for : Near (finishForStatement env r) (finishForStatement env r') := by
  unfold finishForStatement forCondition forIncrement expression
  near [near_consumeAnyOf, near_forInitializer hr, near_consume, hr.assignment, near_loopBody hr]
theorem near_if : Near (finishIfStatement env r) (finishIfStatement env r') := by
  unfold finishIfStatement expression
  near [near_consumeAnyOf, near_consume, hr.assignment, hr.statement, near_beginIfAny, near_blockOrStatement hr]
theorem near_print : Near (finishPrintStatement env r) (finishPrintStatement env r') := by
  unfold finishPrintStatement expression; near [near_consume, hr.assignment]
theorem near_return {loc} : Near (finishReturnStatement env r loc) (finishReturnStatement env r' loc) := by
  unfold finishReturnStatement returnValue expression; near [near_consume, hr.assignment]
theorem near_while : Near (finishWhileStatement env r) (finishWhileStatement env r') := by
  unfold finishWhileStatement expression; near [near_consumeAnyOf, near_consume, hr.assignment, near_loopBody hr]
theorem near_statement : Near (statementBody env r) (statementBody env r') := by
  unfold statementBody
  near [near_expressionStatement hr, near_break, near_continue, near_for hr, near_if hr, near_finishBlock hr, near_print hr,
    near_return hr, near_while hr]
theorem near_declaration : Near (declarationBody env r) (declarationBody env r') := by
  unfold declarationBody
  near [near_finishClass hr, near_consume, near_finishFun hr, near_finishVar hr, hr.statement]
omit hr in
theorem near_binaryLevel {l : Level} {x x' : P Expr} (h : Near x x') : Near (binaryLevel l x) (binaryLevel l x') := by
  unfold binaryLevel; near [h]
theorem near_or : Near (orExpr r) (orExpr r') :=
  near_binaryLevel (near_binaryLevel (near_binaryLevel (near_binaryLevel (near_binaryLevel (near_binaryLevel hr.unary)))))
omit hr in
theorem near_mkAssignment {a b loc} : Near (mkAssignment a b loc) (mkAssignment a b loc) := by
  unfold mkAssignment; near []
theorem near_target : Near (assignmentTarget env r) (assignmentTarget env r') := by
  unfold assignmentTarget; near [near_or hr, near_consume]
theorem near_assignment : Near (assignmentBody env r) (assignmentBody env r') := by
  unfold assignmentBody; near [near_target hr, hr.assignment, near_mkAssignment]
theorem near_arguments : Near (argumentList env r) (argumentList env r') := by
  unfold argumentList expression; near [hr.assignment]
theorem near_finishCall {e loc} : Near (finishCall env r e loc) (finishCall env r' e loc) := by
  unfold finishCall callArguments; near [near_arguments hr, near_consume]
theorem near_withoutParens {e loc} : Near (finishCallWithoutParens env r e loc) (finishCallWithoutParens env r' e loc) := by
  unfold finishCallWithoutParens; near [near_arguments hr]
theorem near_getIndex {e loc} : Near (finishGetIndex env r e loc) (finishGetIndex env r' e loc) := by
  unfold finishGetIndex expression; near [hr.assignment, near_consume]
omit hr in
theorem near_mapKey {t} : Near (mapKey t) (mapKey t) := by
  unfold mapKey; near []
theorem near_literalMap : Near (literalMap env r) (literalMap env r') := by
  unfold literalMap expression; near [near_mapKey, near_consume, hr.assignment]
theorem near_array : Near (arrayElements r) (arrayElements r') := by
  unfold arrayElements expression; near [hr.assignment]
theorem near_primary : Near (primary env r) (primary env r') := by
  unfold primary expression
  near [near_literalMap hr, near_functionDefinition hr, hr.assignment, near_consume, near_array hr, near_identifier]
theorem near_call : Near (call env r) (call env r') := by
  unfold call
  near [near_primary hr, near_identifier, near_finishCall hr, near_getIndex hr, near_peekSourceLoc, near_withoutParens hr]
theorem near_unary : Near (unaryBody env r) (unaryBody env r') := by
  unfold unaryBody; near [near_call hr, hr.unary]
omit hr

theorem near_rec (env : Env) : ∀ n m, RecNear (recN env n) (recN env m)
  | 0, m => ⟨near_diverge, near_diverge, near_diverge, near_diverge⟩
  | n + 1, 0 =>
    have h := near_rec env n n
    ⟨near_alone (near_assignment h), near_alone (near_unary h), near_alone (near_declaration h), near_alone (near_statement h)⟩
  | n + 1, m + 1 =>
    have h := near_rec env n m
    ⟨near_assignment h, near_unary h, near_declaration h, near_statement h⟩

theorem near_synchronize : Near (synchronize env) (synchronize env) := by
  unfold synchronize; near []

end Ws
