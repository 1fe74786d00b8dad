import Verif.Proofs.Parse.SoundExpr
/-! The statement functions of the parser meet their specifications. -/
namespace Ws
open Spec

variable {α β σ : Type} {env : Env} {p p₀ p' p'' : Parser} {w w' : List Token} {n : Nat} {r : Rec}

/-- The first token consumed is the next one. -/
theorem Moves.starts (m : Moves p w p') (hw : w ≠ []) {t : Token} {r : List Token} (hr : p.rest = t :: r) :
    ∃ w'', w = t :: w'' := by
  cases w with
  | nil => exact absurd rfl hw
  | cons a w =>
    have h := m.rest
    rw [hr] at h
    simp only [List.cons_append, List.cons.injEq] at h
    exact ⟨w, by rw [h.1]⟩

/-! ### Variable declarations -/

theorem varInitializer_ok {Q : Expr × Bool → Parser → Prop} (hr : RecOk env n r) (g : Ready env p₀) (m : Moves p₀ w p)
    (hn : 4 * p.rest.length ≤ n)
    (k1 : Q (.literalNil, true) p)
    (k2 : ∀ q term w2 e needs p', q.tokenType = .equal → Optional .terminator term →
      Moves p₀ (w ++ (q :: term ++ w2)) p' → (D p₀ .expression w2 (.expr e) ∨ Stuck p') →
      (needs = false → ∃ h w3, w2 = h :: w3 ∧ (h.tokenType = .indent ∨ h.tokenType = .leftBrace)) →
      Q (e, needs) p') : wp (varInitializer r) Q (Err p₀) p := by
  unfold varInitializer
  refine wp_bind (wp_matchesAny (m.good g) (by decide) ?_ ?_)
  · intro q p1 hq hr1 m1
    have h1 := m1.shorter
    simp only [List.mem_cons, List.not_mem_nil, or_false] at hq
    have m1' := m.trans m1
    have main : ∀ term p2, Optional .terminator term → Moves p1 term p2 →
        wp (query (fun p => !p.check .indent && !p.check .leftBrace) >>= fun needsTerm =>
          expression r >>= fun e => (pure (e, needsTerm) : P (Expr × Bool))) Q (Err p₀) p2 := by
      intro term p2 hterm m2
      have m2' := m1'.trans m2
      have hl2 := m2.le
      have g2 := m2'.good g
      refine wp_bind (wp_query (wp_bind (wp_expr m2' (hr.assignment p2 g2 (by omega)) ?_)))
      intro e p3 w3 m3 m3' hd hpr
      refine wp_pure (k2 q term w3 e _ p3 hq hterm (by simpa using m3) hd ?_)
      intro hneeds
      obtain ⟨h, r', hr'⟩ := g2.cons
      rw [check_cons hr', check_cons hr'] at hneeds
      have hh : h.tokenType = .indent ∨ h.tokenType = .leftBrace := by
        simp only [Bool.and_eq_false_iff, Bool.not_eq_false', Bool.and_eq_true, beq_iff_eq] at hneeds
        exact hneeds.imp (fun h => h.2) (fun h => h.2)
      have hns : ¬ Stuck p2 := not_stuck hr' (by rcases hh with h | h <;> rw [h] <;> decide)
      have hw3 : w3 ≠ [] := by
        rcases hpr with h | h
        · exact h.1
        · exact absurd h.2 hns
      obtain ⟨w4, hw4⟩ := m3'.starts hw3 hr'
      exact ⟨h, w4, hw4, hh⟩
    refine wp_bind (wp_matchToken (m1'.good g) ?_ ?_)
    · intro t p2 ht hr2 m2
      exact main [t] p2 (.inr ⟨t, ht, rfl⟩) m2
    · intro t r' hr' ht
      exact main [] p1 (.inl rfl) (Moves.refl p1)
  · intro t r' hr' ht
    exact wp_pure k1

theorem varDeclaration_ok {t : Token} (hr : RecOk env n r) (g : Ready env p₀) (ht : t.tokenType = .var)
    (hr0 : p₀.rest = t :: p.rest) (m : Moves p₀ [t] p) (hn : 4 * p.rest.length ≤ n) :
    wp (finishVarDeclaration env r false) (PostS .declaration p₀) (Err p₀) p := by
  have hns := not_stuck hr0 (by rw [ht]; decide)
  unfold finishVarDeclaration
  refine wp_bind (wp_consumeIdentifier g m ?_)
  intro nm p1 hnm hr1 m1
  have hl : p1.rest.length < p.rest.length := by rw [hr1]; simp
  refine wp_bind (varInitializer_ok hr g m1 (by omega) ?_ ?_)
  · dsimp only
    refine wp_bind ?_
    unfold endVarDeclaration
    simp only [Bool.false_eq_true, if_false, if_true]
    refine wp_consume g m1 (.inl trivial) (by decide) (by decide) ?_
    intro _ term p2 hterm hr2 m2
    exact wp_pure ⟨_, m2, .inl (.var ht hnm hterm), by simp, hns⟩
  · intro q term w2 e needs p2 hq hterm m2 hd hneeds
    dsimp only
    refine wp_bind ?_
    unfold endVarDeclaration
    simp only [Bool.false_eq_true, if_false]
    split
    · refine wp_consume g m2 hd (by decide) (by decide) ?_
      intro hd term' p3 hterm' hr3 m3
      have hw2 := grammar_ne_nil hd rfl
      cases w2 with
      | nil => exact absurd rfl hw2
      | cons h w3 =>
        refine wp_pure ⟨_, m3, .inl ?_, by simp, hns⟩
        simpa using Grammar.var_init ht hnm hq hterm hd (.inr ⟨term', hterm', rfl⟩) (by simp)
    · rename_i hf
      obtain ⟨h, w3, rfl, hh⟩ := hneeds (by simpa using hf)
      refine wp_bind (wp_matchToken (m2.good g) ?_ ?_)
      · intro term' p3 hterm' hr3 m3
        have hd := hd.resolve_right (not_stuck hr3 (by rw [hterm']; decide))
        refine wp_pure (wp_pure ⟨_, m2.trans m3, .inl ?_, by simp, hns⟩)
        simpa using Grammar.var_init ht hnm hq hterm hd (.inr ⟨term', hterm', rfl⟩) (by simp)
      · intro t' r' hr' ht'
        refine wp_pure (wp_pure ⟨_, m2, hd.imp (fun hd => ?_) id, by simp, hns⟩)
        simpa using Grammar.var_init ht hnm hq hterm hd (.inl rfl) (fun _ => hh)

theorem forVar_ok {t : Token} {Q : Stmt → Parser → Prop} (hr : RecOk env n r) (g : Ready env p₀) (ht : t.tokenType = .var)
    (m : Moves p₀ (w ++ [t]) p) (hn : 4 * p.rest.length ≤ n)
    (k : ∀ s w' p', Moves p₀ (w ++ t :: w') p' → D p₀ .forInit (t :: w') (.optStmt (some s)) → Q s p') :
    wp (finishVarDeclaration env r true) Q (Err p₀) p := by
  unfold finishVarDeclaration
  refine wp_bind (wp_consumeIdentifier g m ?_)
  intro nm p1 hnm hr1 m1
  have hl : p1.rest.length < p.rest.length := by rw [hr1]; simp
  refine wp_bind (varInitializer_ok hr g m1 (by omega) ?_ ?_)
  · dsimp only
    refine wp_bind ?_
    unfold endVarDeclaration
    simp only [if_true]
    refine wp_consume g m1 (.inl trivial) (by decide) (by decide) ?_
    intro _ semi p2 hsemi hr2 m2
    exact wp_pure (k _ [nm, semi] p2 (by simpa using m2) (.for_var ht hnm hsemi))
  · intro q term w2 e needs p2 hq hterm m2 hd hneeds
    dsimp only
    refine wp_bind ?_
    unfold endVarDeclaration
    simp only [if_true]
    refine wp_consume g m2 hd (by decide) (by decide) ?_
    intro hd semi p3 hsemi hr3 m3
    exact wp_pure (k _ (nm :: q :: term ++ w2 ++ [semi]) p3 (by simpa using m3)
      (by simpa using Grammar.for_var_init ht hnm hq hterm hd hsemi))

/-! ### Simple statements -/

theorem expressionStatement_ok {Q : Stmt → Parser → Prop} (hr : RecOk env n r) (g : Ready env p₀) (m : Moves p₀ w p)
    (hn : 4 * p.rest.length + 2 ≤ n)
    (k : ∀ e w' term p', Moves p₀ (w ++ w' ++ term) p' → D p₀ .expression w' (.expr e) →
      ((∃ t, t.tokenType = .terminator ∧ term = [t]) ∨ (term = [] ∧ p₀.allowTrailing = true)) → ¬ Stuck p → Q (.expression e) p') :
    wp (expressionStatement env r) Q (Err p₀) p := by
  unfold expressionStatement
  refine wp_bind (wp_expr m (hr.assignment p (m.good g) hn) ?_)
  intro e p1 w1 m1 m1' hd hpr
  have g1 := m1.good g
  have hns : ¬ Stuck p1 → ¬ Stuck p := by
    intro h hs
    rcases hpr with h' | h'
    · exact h'.2 hs
    · rw [h'.1] at m1'; rw [m1'.eq_nil] at h; exact h hs
  refine wp_bind ?_
  unfold endExpressionStatement
  refine wp_bind (wp_query ?_)
  split
  · refine wp_consume g m1 (d := D p₀ .expression w1 (.expr e) ∧ ¬ Stuck p) ?_ (by decide) (by decide) ?_
    · by_cases h : Stuck p1
      · exact .inr h
      · exact .inl ⟨hd.resolve_right h, hns h⟩
    · intro ⟨hd, hs⟩ term p2 hterm hr2 m2
      exact wp_pure (k e w1 [term] p2 (by simpa using m2) hd (.inl ⟨term, hterm, rfl⟩) hs)
  · rename_i hc
    obtain ⟨t, r', hr'⟩ := g1.cons
    simp only [Bool.or_eq_true, Bool.not_eq_true', Bool.and_eq_false_iff, not_or, Bool.not_eq_false] at hc
    rw [isAtEnd_cons hr'] at hc
    have ht : t.tokenType = .eof := by simpa using hc.1.2
    have hs1 : ¬ Stuck p1 := not_stuck hr' (by rw [ht]; decide)
    exact wp_pure (wp_pure (k e w1 [] p1 (by simpa using m1) (hd.resolve_right hs1)
      (.inr ⟨rfl, by rw [← m1.allow]; exact hc.1.1⟩) (hns hs1)))

theorem finishBreak_ok {t : Token} (g : Ready env p₀) (ht : t.tokenType = .break)
    (hr0 : p₀.rest = t :: p.rest) (m : Moves p₀ [t] p) :
    wp (finishBreakStatement env t.loc) (PostS .statement p₀) (Err p₀) p := by
  have hns := not_stuck hr0 (by rw [ht]; decide)
  unfold finishBreakStatement
  refine wp_bind (wp_query ?_)
  split
  · exact wp_errorFromLast (w := []) g m
  · rename_i hl
    refine wp_bind (wp_consume g m (.inl trivial) (by decide) (by decide) ?_)
    intro _ term p2 hterm hr2 m2
    refine wp_pure ⟨_, m2, .inl ?_, by simp, hns⟩
    have : decide (0 < p₀.inLoops) = true := by
      rw [m.inLoops] at hl
      simp at hl ⊢; omega
    unfold D
    rw [this]
    exact .break ht hterm

theorem finishContinue_ok {t : Token} (g : Ready env p₀) (ht : t.tokenType = .continue)
    (hr0 : p₀.rest = t :: p.rest) (m : Moves p₀ [t] p) :
    wp (finishContinueStatement env t.loc) (PostS .statement p₀) (Err p₀) p := by
  have hns := not_stuck hr0 (by rw [ht]; decide)
  unfold finishContinueStatement
  refine wp_bind (wp_query ?_)
  split
  · exact wp_errorFromLast (w := []) g m
  · rename_i hl
    refine wp_bind (wp_consume g m (.inl trivial) (by decide) (by decide) ?_)
    intro _ term p2 hterm hr2 m2
    refine wp_pure ⟨_, m2, .inl ?_, by simp, hns⟩
    have : decide (0 < p₀.inLoops) = true := by
      rw [m.inLoops] at hl
      simp at hl ⊢; omega
    unfold D
    rw [this]
    exact .continue ht hterm

theorem finishPrint_ok {t : Token} (hr : RecOk env n r) (g : Ready env p₀) (ht : t.tokenType = .print)
    (hr0 : p₀.rest = t :: p.rest) (m : Moves p₀ [t] p) (hn : 4 * p.rest.length + 2 ≤ n) :
    wp (finishPrintStatement env r) (PostS .statement p₀) (Err p₀) p := by
  have hns := not_stuck hr0 (by rw [ht]; decide)
  unfold finishPrintStatement
  refine wp_bind (wp_expr m (hr.assignment p (m.good g) hn) ?_)
  intro e p1 w1 m1 _ hd _
  refine wp_bind (wp_consume g m1 hd (by decide) (by decide) ?_)
  intro hd term p2 hterm hr2 m2
  exact wp_pure ⟨_, m2, .inl (.print ht hd hterm), by simp, hns⟩

theorem finishReturn_ok {t : Token} (hr : RecOk env n r) (g : Ready env p₀) (ht : t.tokenType = .return)
    (hr0 : p₀.rest = t :: p.rest) (m : Moves p₀ [t] p) (hn : 4 * p.rest.length + 2 ≤ n) :
    wp (finishReturnStatement env r t.loc) (PostS .statement p₀) (Err p₀) p := by
  have hns := not_stuck hr0 (by rw [ht]; decide)
  unfold finishReturnStatement
  refine wp_bind ?_
  unfold returnValue
  refine wp_bind (wp_query ?_)
  split
  · refine wp_pure (wp_bind (wp_consume g m (.inl trivial) (by decide) (by decide) ?_))
    intro _ term p2 hterm hr2 m2
    exact wp_pure ⟨_, m2, .inl (.return_nil ht hterm), by simp, hns⟩
  · refine wp_expr m (hr.assignment p (m.good g) hn) ?_
    intro e p1 w1 m1 _ hd _
    refine wp_bind (wp_consume g m1 hd (by decide) (by decide) ?_)
    intro hd term p2 hterm hr2 m2
    exact wp_pure ⟨_, m2, .inl (.return ht hd hterm), by simp, hns⟩

/-! ### Bodies -/

/-- What is consumed at the start of a body. -/
def BodyStart (w : List Token) : Option TokenType → Prop
  | none => w = []
  | some eb => BlockTokens w eb

theorem beginBlockIfAny_ok {message : String} {Q : Option TokenType → Parser → Prop} (g : Ready env p₀) (m : Moves p₀ w p)
    (k : ∀ eb w' p', BodyStart w' eb → Moves p₀ (w ++ w') p' → Q eb p') :
    wp (beginBlockIfAny env message) Q (Err p₀) p := by
  unfold beginBlockIfAny
  refine wp_bind (wp_query ?_)
  split
  · refine wp_bind (wp_consumeBeginBlock g m ?_)
    intro w' eb p' hb _ m'
    exact wp_pure (k (some eb) w' p' hb m')
  · exact wp_pure (k none [] p rfl (by simpa using m))

theorem blockOrStatement_ok {eb : Option TokenType} {w1 : List Token} {Q : Stmt → Parser → Prop} (hr : RecOk env n r) (g : Ready env p₀)
    (m : Moves p₀ w p) (hb : BodyStart w1 eb) (hn : 4 * p.rest.length + 4 ≤ n)
    (k : ∀ s w' p', Moves p₀ (w ++ w') p' → (D p₀ .body (w1 ++ w') (.stmt s) ∨ Stuck p') → w1 ++ w' ≠ [] → Q s p') :
    wp (blockOrStatement env r eb) Q (Err p₀) p := by
  unfold blockOrStatement
  cases eb with
  | none =>
    have hb : w1 = [] := hb
    subst hb
    refine wp_stmt m (hr.statement p (m.good g) (by omega)) ?_
    intro s p' w' m' _ hd hw _
    exact k s w' p' m' (hd.imp .body id) hw
  | some eb =>
    have hb : BlockTokens w1 eb := hb
    refine wp_bind (finishBlock_ok hr g m hn ?_ ?_)
    · rcases hb with ⟨_, _, _, h⟩ | ⟨_, _, _, _, _, h⟩ <;> simp [h]
    · intro ss w' t p' hd ht m'
      refine wp_pure (k _ (w' ++ [t]) p' (by simpa using m') (.inl (.body_block ?_)) (by simp))
      rcases hb with ⟨o, ho, rfl, rfl⟩ | ⟨t', i, ht', hi, rfl, rfl⟩
      · exact .block_braces ho hd ht
      · exact .block_indented ht' hi hd ht

theorem finishIf_ok {t : Token} (hr : RecOk env n r) (g : Ready env p₀) (ht : t.tokenType = .if)
    (hr0 : p₀.rest = t :: p.rest) (m : Moves p₀ [t] p) (hn : 4 * p.rest.length + 2 ≤ n) :
    wp (finishIfStatement env r) (PostS .statement p₀) (Err p₀) p := by
  have hns := not_stuck hr0 (by rw [ht]; decide)
  unfold finishIfStatement
  have h0 := m.length
  refine wp_bind (wp_consumeAnyOf g m (by decide) ?_)
  intro o p1 ho hr1 m1
  have hl1 : p1.rest.length < p.rest.length := by rw [hr1]; simp
  have ho' : IsParen o := by simpa [IsParen] using ho
  refine wp_bind (wp_expr m1 (hr.assignment p1 (m1.good g) (by omega)) ?_)
  intro e p2 w2 m2 _ hd _
  refine wp_bind (wp_consume g m2 hd (by decide) (by decide) ?_)
  intro hd c p3 hc hr3 m3
  refine wp_bind (beginBlockIfAny_ok g m3 ?_)
  intro eb w4 p4 hb m4
  have h4 := m4.length
  simp at h4 h0
  refine wp_bind (blockOrStatement_ok hr g m4 hb (by omega) ?_)
  intro s w5 p5 m5 hs hw5
  have h5 := m5.length
  simp at h5
  refine wp_bind (wp_matchToken (m5.good g) ?_ ?_)
  · intro el p6 hel hr6 m6
    have hs := hs.resolve_right (not_stuck hr6 (by rw [hel]; decide))
    have h6 := m6.shorter
    refine wp_bind (wp_stmt (m5.trans m6) (hr.statement p6 ((m5.trans m6).good g) (by omega)) ?_)
    intro s' p7 w7 m7 _ hs' _ _
    refine wp_pure ⟨_, m7, hs'.imp (fun hs' => ?_) id, by simp, hns⟩
    simpa using Grammar.if_else ht ho' hd hc hs hel hs'
  · intro t' r' hr' ht'
    refine wp_pure ⟨_, m5, hs.imp (fun hs => ?_) id, by simp, hns⟩
    simpa using Grammar.if ht ho' hd hc hs

theorem wp_leave {x : P α} {Q : α → Parser → Prop} {E : Cause → Parser → Prop}
    (h : wp x (fun a p' => 0 < p'.inLoops ∧ Q a { p' with inLoops := p'.inLoops - 1 })
      (fun e p' => 0 < p'.inLoops ∧ E e { p' with inLoops := p'.inLoops - 1 }) p) : wp (thenLeaveLoop env x) Q E p := by
  unfold wp at *
  unfold thenLeaveLoop
  cases hx : x p with
  | ok a p' => rw [hx] at h; simp only [Nat.ne_of_gt h.1, if_false]; exact h.2
  | err e p' => rw [hx] at h; simp only [Nat.ne_of_gt h.1, if_false]; exact h.2
  | panic m => rw [hx] at h; exact h
  | diverge => rw [hx] at h; exact h

theorem loopBody_ok {Q : Stmt → Parser → Prop} (hr : RecOk env n r) (g : Ready env p₀) (m : Moves p₀ w p) (hw : w ≠ [])
    (hn : 4 * p.rest.length + 4 ≤ n)
    (k : ∀ s w' p', Moves p₀ (w ++ w') p' → (Grammar p₀.allowTrailing true .body w' (.stmt s) ∨ Stuck p') → Q s p') :
    wp (loopBodyStatement env r) Q (Err p₀) p := by
  have hlen := List.length_pos_iff.2 hw
  have gp := m.good g
  have hin := gp.inb
  have hbd := gp.bound
  have hlp := gp.loops
  have hlp0 := g.loops
  have hcur := m.current
  have hil := m.inLoops
  unfold loopBodyStatement
  refine wp_bind ?_
  unfold wp enterLoop
  rw [if_neg (by omega)]
  show wp _ _ _ _
  have g1 : Ready env { p with inLoops := p.inLoops + 1 } :=
    ⟨gp.wf, gp.bound, gp.inb, (by show p.inLoops + 1 ≤ p.current; omega), gp.safe⟩
  have errp : ∀ e q, Err { p with inLoops := p.inLoops + 1 } e q → Err p e q := by
    intro e q h
    exact ⟨h.tokens, h.allow, h.cur, h.inb, by have : p.inLoops + 1 ≤ q.inLoops := h.loops; omega, h.loops', h.located⟩
  have errq : ∀ e q, Err { p with inLoops := p.inLoops + 1 } e q →
      0 < q.inLoops ∧ Err p e { q with inLoops := q.inLoops - 1 } := by
    intro e q h
    have hl : p.inLoops + 1 ≤ q.inLoops := h.loops
    have hl' := h.loops'
    exact ⟨by omega, h.tokens, h.allow, h.cur, h.inb, (by show p.inLoops ≤ q.inLoops - 1; omega),
      (by show q.inLoops - 1 ≤ q.current; omega), h.located⟩
  refine wp_bind (wp_mono (beginBlockIfAny_ok (w := []) (Q := fun eb q =>
    ∃ w', BodyStart w' eb ∧ Moves { p with inLoops := p.inLoops + 1 } w' q) g1 (Moves.refl _) ?_) ?_ ?_)
  · intro eb w' q hb mq
    exact ⟨w', hb, mq⟩
  · rintro eb q ⟨w1, hb, mq⟩
    have hq := mq.length
    have hpr : ({ p with inLoops := p.inLoops + 1 } : Parser).rest = p.rest := rfl
    rw [hpr] at hq
    refine wp_leave (wp_mono (blockOrStatement_ok (Q := fun s q' => ∃ w', Moves { p with inLoops := p.inLoops + 1 } (w1 ++ w') q' ∧
      (D { p with inLoops := p.inLoops + 1 } .body (w1 ++ w') (.stmt s) ∨ Stuck q')) hr g1 mq hb (by omega) ?_) ?_ ?_)
    · intro s w' q' mq' hd _
      exact ⟨w', mq', hd⟩
    · rintro s q' ⟨w', mq', hd⟩
      have hi : q'.inLoops = p.inLoops + 1 := mq'.inLoops
      refine ⟨by omega, k s (w1 ++ w') _ (m.trans ⟨?_, ?_, mq'.noEof⟩) (hd.imp (fun hd => ?_) id)⟩
      · rw [mq'.eq]; rfl
      · exact mq'.rest
      · have : D { p with inLoops := p.inLoops + 1 } .body (w1 ++ w') (.stmt s) =
          Grammar p₀.allowTrailing true .body (w1 ++ w') (.stmt s) := by
          unfold D
          rw [← m.allow]
          simp
        rw [← this]; exact hd
    · intro e q' h
      obtain ⟨h1, h2⟩ := errq e q' (h)
      exact ⟨h1, h2.trans m⟩
  · intro e q h
    exact (errp e q h).trans m

theorem finishWhile_ok {t : Token} (hr : RecOk env n r) (g : Ready env p₀) (ht : t.tokenType = .while)
    (hr0 : p₀.rest = t :: p.rest) (m : Moves p₀ [t] p) (hn : 4 * p.rest.length + 2 ≤ n) :
    wp (finishWhileStatement env r) (PostS .statement p₀) (Err p₀) p := by
  have hns := not_stuck hr0 (by rw [ht]; decide)
  unfold finishWhileStatement
  have h0 := m.length
  refine wp_bind (wp_consumeAnyOf g m (by decide) ?_)
  intro o p1 ho hr1 m1
  have hl1 : p1.rest.length < p.rest.length := by rw [hr1]; simp
  have ho' : IsParen o := by simpa [IsParen] using ho
  refine wp_bind (wp_expr m1 (hr.assignment p1 (m1.good g) (by omega)) ?_)
  intro e p2 w2 m2 _ hd _
  refine wp_bind (wp_consume g m2 hd (by decide) (by decide) ?_)
  intro hd c p3 hc hr3 m3
  have h3 := m3.length
  simp at h3 h0
  refine wp_bind (loopBody_ok hr g m3 (by simp) (by omega) ?_)
  intro s w' p4 m4 hs
  refine wp_pure ⟨_, m4, hs.imp (fun hs => ?_) id, by simp, hns⟩
  simpa using Grammar.while ht ho' hd hc hs

/-! ### For loops -/

theorem forInitializer_ok {Q : Option Stmt → Parser → Prop} (hr : RecOk env n r) (g : Ready env p₀)
    (m : Moves p₀ w p) (hn : 4 * p.rest.length + 2 ≤ n)
    (k : ∀ s w' p', Moves p₀ (w ++ w') p' → D p₀ .forInit w' (.optStmt s) → Q s p') :
    wp (forInitializer env r) Q (Err p₀) p := by
  unfold forInitializer
  have gp := m.good g
  refine wp_bind (wp_matchToken gp ?_ ?_)
  · intro t p1 ht hr1 m1
    exact wp_pure (k none [t] p1 (m.trans m1) (.for_none ht))
  · intro _ _ _ _
    refine wp_bind (wp_matchToken gp ?_ ?_)
    · intro t p1 ht hr1 m1
      have := m1.shorter
      refine wp_bind (forVar_ok hr g ht (m.trans m1) (by omega) ?_)
      intro s w' p2 m2 hd
      exact wp_pure (k (some s) _ p2 m2 hd)
    · intro _ _ _ _
      refine wp_bind (expressionStatement_ok hr g m hn ?_)
      intro e w' term p2 m2 hd hterm _
      rcases hterm with ⟨t, ht, rfl⟩ | ⟨rfl, ha⟩
      · exact wp_pure (k _ (w' ++ [t]) p2 (by simpa using m2) (.for_expression hd ht))
      · exact wp_pure (k _ w' p2 (by simpa using m2) (.for_expression_repl ha hd))

theorem finishFor_ok {t : Token} (hr : RecOk env n r) (g : Ready env p₀) (ht : t.tokenType = .for)
    (hr0 : p₀.rest = t :: p.rest) (m : Moves p₀ [t] p) (hn : 4 * p.rest.length + 2 ≤ n) :
    wp (finishForStatement env r) (PostS .statement p₀) (Err p₀) p := by
  have hns := not_stuck hr0 (by rw [ht]; decide)
  unfold finishForStatement
  have h0 := m.length
  refine wp_bind (wp_consumeAnyOf g m (by decide) ?_)
  intro o p1 ho hr1 m1
  have hl1 : p1.rest.length < p.rest.length := by rw [hr1]; simp
  have ho' : IsParen o := by simpa [IsParen] using ho
  refine wp_bind (forInitializer_ok hr g m1 (by omega) ?_)
  intro init w2 p2 m2 hinit
  have h2 := m2.length
  have h1 := m1.length
  simp at h1 h2 h0
  refine wp_seq (fun e p3 => ∃ w3, Moves p₀ ([t] ++ [o] ++ w2 ++ w3) p3 ∧ (D p₀ .forCondition w3 (.expr e) ∨ Stuck p3)) ?_ ?_
  · unfold forCondition
    refine wp_bind (wp_query ?_)
    split
    · exact wp_pure ⟨[], by simpa using m2, .inl .condition_none⟩
    · refine wp_expr m2 (hr.assignment p2 (m2.good g) (by omega)) ?_
      intro e p3 w3 m3 _ hd _
      exact ⟨w3, m3, hd.imp .condition id⟩
  rintro cond p3 ⟨w3, m3, hcond⟩
  refine wp_bind (wp_consume g m3 hcond (by decide) (by decide) ?_)
  intro hcond semi p4 hsemi hr4 m4
  have h4 := m4.length
  simp at h4
  refine wp_seq (fun e p5 => ∃ w5, Moves p₀ ([t] ++ [o] ++ w2 ++ w3 ++ [semi] ++ w5) p5 ∧ (D p₀ .forIncrement w5 (.optExpr e) ∨ Stuck p5)) ?_ ?_
  · unfold forIncrement
    refine wp_bind (wp_query ?_)
    split
    · exact wp_pure ⟨[], by simpa using m4, .inl .increment_none⟩
    · refine wp_bind (wp_expr m4 (hr.assignment p4 (m4.good g) (by omega)) ?_)
      intro e p5 w5 m5 _ hd _
      exact wp_pure ⟨w5, m5, hd.imp .increment id⟩
  rintro inc p5 ⟨w5, m5, hinc⟩
  refine wp_bind (wp_consume g m5 hinc (by decide) (by decide) ?_)
  intro hinc c p6 hc hr6 m6
  have h6 := m6.length
  simp at h6
  refine wp_bind (loopBody_ok hr g m6 (by simp) (by omega) ?_)
  intro s w7 p7 m7 hs
  have main : (D p₀ .statement ([t] ++ [o] ++ w2 ++ w3 ++ [semi] ++ w5 ++ [c] ++ w7) (.stmt (forLoop init cond inc s)) ∨ Stuck p7) :=
    hs.imp (fun hs => by simpa using Grammar.for ht ho' hinit hcond hsemi hinc hc hs) id
  cases init with
  | none => exact wp_pure ⟨_, m7, main, by simp, hns⟩
  | some st => exact wp_pure ⟨_, m7, main, by simp, hns⟩

/-! ### Statements and declarations -/

theorem statementBody_ok (hr : RecOk env n r) (p₀ : Parser) (g : Ready env p₀) (hn : 4 * p₀.rest.length + 3 ≤ n + 1) :
    wp (statementBody env r) (PostS .statement p₀) (Err p₀) p₀ := by
  unfold statementBody
  refine wp_bind (wp_matchesAny g (by decide) ?_ ?_)
  · intro t p1 ht hr1 m1
    have h1 := m1.shorter
    simp only [List.mem_cons, List.not_mem_nil, or_false] at ht
    have hn1 : 4 * p1.rest.length + 4 ≤ n := by omega
    have hn2 : 4 * p1.rest.length + 2 ≤ n := by omega
    have hns : t.tokenType ≠ .this → ¬ Stuck p₀ := not_stuck hr1
    rcases ht with ht | ht | ht | ht | ht | ht | ht | ht <;> simp only [ht]
    · exact finishBreak_ok g ht hr1 m1
    · exact finishContinue_ok g ht hr1 m1
    · exact finishFor_ok hr g ht hr1 m1 hn2
    · exact finishIf_ok hr g ht hr1 m1 hn2
    · refine wp_bind (finishBlock_ok hr g m1 hn1 (.inl rfl) ?_)
      intro ss w' c p2 hd hc m2
      exact wp_pure ⟨_, m2, .inl (.braces ht hd hc), by simp, hns (by rw [ht]; decide)⟩
    · exact finishPrint_ok hr g ht hr1 m1 hn2
    · exact finishReturn_ok hr g ht hr1 m1 hn2
    · exact finishWhile_ok hr g ht hr1 m1 hn2
  · intro t r' hr' ht
    refine expressionStatement_ok hr g (Moves.refl p₀) (by omega) ?_
    intro e w' term p2 m2 hd hterm hns
    have hw := grammar_ne_nil hd rfl
    obtain ⟨w2, hw2⟩ := m2.starts (by simp [hw]) hr'
    obtain ⟨w3, rfl⟩ : ∃ w3, w' = t :: w3 := by
      cases w' with
      | nil => exact absurd rfl hw
      | cons a w3 =>
        simp only [List.nil_append, List.cons_append, List.cons.injEq] at hw2
        exact ⟨w3, by rw [hw2.1]⟩
    have hlb : t.tokenType ≠ .leftBrace := fun h => ht (by simp [h])
    rcases hterm with ⟨term, hterm, rfl⟩ | ⟨rfl, ha⟩
    · exact ⟨_, m2, .inl (.expression_statement hd hlb hterm), by simp, hns⟩
    · exact ⟨_, m2, .inl (by simpa using Grammar.expression_repl ha hd hlb), by simp, hns⟩

theorem declarationBody_ok (hr : RecOk env n r) (p₀ : Parser) (g : Ready env p₀) (hn : 4 * p₀.rest.length + 4 ≤ n + 1) :
    wp (declarationBody env r) (PostS .declaration p₀) (Err p₀) p₀ := by
  unfold declarationBody
  refine wp_bind (wp_matchToken g ?_ ?_)
  · intro t p1 ht hr1 m1
    have h1 := m1.shorter
    exact finishClassDeclaration_ok hr g ht hr1 m1 (by omega)
  intro _ _ _ _
  refine wp_bind (wp_query ?_)
  split
  · refine wp_bind (wp_consume g (Moves.refl p₀) (.inl trivial) (by decide) (by decide) ?_)
    intro _ t p1 ht hr1 m1
    have h1 := Moves.shorter m1
    refine wp_bind (finishFunDeclaration_ok hr g m1 (by omega) ?_)
    intro f w' p2 hd m2
    exact wp_pure ⟨_, m2, .inl (.fun_decl ht hd), by simp, not_stuck hr1 (by rw [ht]; decide)⟩
  · refine wp_bind (wp_matchToken g ?_ ?_)
    · intro t p1 ht hr1 m1
      have h1 := m1.shorter
      exact varDeclaration_ok hr g ht hr1 m1 (by omega)
    · intro _ _ _ _
      refine wp_mono (hr.statement p₀ g (by omega)) ?_ (fun _ _ h => h)
      rintro s p' ⟨w, m, hd, h⟩
      exact ⟨w, m, hd.imp .declaration id, h⟩

end Ws
