import Verif.Proofs.Parse.Exact
/-! Whatever the parser returns was derived by the unambiguous grammar: statements. -/
namespace Ws
open Spec

variable {α β σ : Type} {env : Env} {p p₀ p1 p' p'' : Parser} {w w' s : List Token} {r : Rec} {n : Nat} {o : Ends} {e : Bool}

/-! ### What follows a statement -/

theorem followed_closed : Followed .closed false s :=
  ⟨by simp, by simp, by simp, by simp, by simp⟩

theorem Followed.weaken (h : Followed o e s) : Followed o false s :=
  ⟨by simp, h.map, h.call, h.brace, h.unfinished⟩

/-- A line ends. -/
theorem Halt.line {t : Token} {b : Nat} (h : Halt o b (t :: s)) (ho : o ∈ Sym.expression.ends) (ht : t.tokenType = .terminator) :
    Followed o.line false s := by
  refine ⟨by simp, fun h' => ?_, ?_, ?_, ?_⟩
  · have hm : ¬ MapOn (t :: s) := by
      refine h.map (.inl ?_)
      revert h' ho
      cases o <;> simp [Ends.line, Sym.ends]
    exact ⟨fun hk => hm ⟨t, s, rfl, ht, .inl hk⟩, fun u r' hs hu => hm ⟨t, s, rfl, ht, .inr ⟨u, r', hs, hu⟩⟩⟩
  all_goals
    intro h'
    revert h'
    cases o <;> simp [Ends.line]

theorem not_joins {t : TokenType} (h : rank t ≤ 1) : ¬ Joins t := by
  unfold Joins startsArgument
  revert h
  cases t <;> simp [rank]

/-- A declaration ends without a newline. -/
theorem Halt.opened (h : Halt o 1 s) (ho : o ∈ Sym.expression.ends) : Followed o.opened false s := by
  refine ⟨by simp, ?_, fun h' t r' hs => ?_, fun h' => ?_, ?_⟩
  · intro h'
    revert h'
    cases o <;> simp [Ends.opened]
  · refine not_joins (h.le (.inl ?_) t r' hs)
    rintro rfl
    cases h'
  · refine h.brace ?_
    revert h'
    cases o <;> simp [Ends.opened]
  · intro h'
    revert h'
    cases o <;> simp [Ends.opened]

/-- Another declaration follows. -/
theorem Followed.precedes {repl l e' : Bool} {o' : Ends} {v : Tree} (h : Followed o e p.rest) (m : Moves p w p')
    (hd : Plain repl l o' e' .declaration w v) : o.Precedes w := by
  obtain ⟨t, w', rfl, ht⟩ := (plain_first hd : DeclHead _ w)
  have hr := m.head
  refine ⟨?_, ?_, ?_, ?_⟩
  · intro ho
    have := h.brace ho t _ hr
    rw [this] at ht
    revert ht; decide
  · intro ho
    exact m.noEof t (by simp) (h.unfinished ho t _ hr)
  · intro ho hk
    refine (h.map ho).1 ?_
    rw [m.rest]
    exact KeyColon.append hk
  · rintro ho _ _ hs
    cases hs
    exact h.call ho t _ hr

/-! ### Blocks -/

theorem finishBlock_exact {endBlock : TokenType} (hr : RecX env r) (g : Ready env p) (he : endBlock = .rightBrace ∨ endBlock = .outdent) :
    Gives (finishBlock env r endBlock) (fun ss p' => ∃ w t o, Moves p (w ++ [t]) p' ∧ t.tokenType = endBlock ∧
      PL p o false .declarations w (.stmts ss) ∧ Followed o false (t :: p'.rest)) p := by
  unfold finishBlock
  refine gives_seq (fun ss p' => ∃ w, Moves p w p' ∧ (Stuck p' ∨ ∃ o, PL p o false .declarations w (.stmts ss) ∧ Followed o false p'.rest)) ?_ ?_
  · refine gives_loop (fun ss p' => ∃ w, Moves p w p' ∧ (Stuck p' ∨ ∃ o, PL p o false .declarations w (.stmts ss) ∧ Followed o false p'.rest)) ?_
      ⟨[], Moves.refl p, .inr ⟨.closed, .declarations_nil, followed_closed⟩⟩
    rintro ss p1 ⟨w1, m1, hd⟩
    refine gives_query ?_
    split
    · refine gives_seq _ (hr.declaration p1 (m1.good g)) ?_
      rintro st p2 ⟨w2, m2, hns, hd2⟩
      obtain ⟨o, hd, hf⟩ := hd.resolve_left hns
      rw [m1.PL_eq] at hd2
      refine gives_pure ⟨w1 ++ w2, m1.trans m2, hd2.imp id ?_⟩
      rintro ⟨o2, e2, hd2, hf2⟩
      exact ⟨o2, .declarations hd hd2 (hf.precedes m2 hd2), hf2.weaken⟩
    · exact gives_pure ⟨w1, m1, hd⟩
  · rintro ss p1 ⟨w1, m1, hd⟩
    refine gives_bind (gives_endBlock (m1.good g) he ?_)
    intro t p2 ht hr2 m2
    obtain ⟨o, hd, hf⟩ := hd.resolve_left (not_stuck hr2 (by rw [ht]; rcases he with rfl | rfl <;> decide))
    rw [hr2] at hf
    exact gives_pure ⟨w1, t, o, m1.trans m2, ht, hd, hf⟩

theorem BlockTokens.ends {endBlock : TokenType} (h : BlockTokens w endBlock) : endBlock = .rightBrace ∨ endBlock = .outdent := by
  rcases h with ⟨_, _, _, h⟩ | ⟨_, _, _, _, _, h⟩ <;> simp [h]

theorem Followed.not_unfinished {t : Token} (h : Followed o e (t :: s)) (ht : t.tokenType ≠ .eof) : o ≠ .unfinished :=
  fun ho => ht (h.unfinished ho t s rfl)

theorem Followed.not_brace {t : Token} (h : Followed o e (t :: s)) (ht : t.tokenType ≠ .rightBrace) : o ≠ .brace :=
  fun ho => ht (h.brace ho t s rfl)

theorem Followed.not_map {t : Token} (h : Followed o e (t :: s)) (ht : t.tokenType = .rightBrace) : o ≠ .map :=
  fun ho => (h.map ho).2 t s rfl ht

theorem block_exact {repl l : Bool} {endBlock : TokenType} {w1 w2 : List Token} {t : Token} {ss : List Stmt} (hb : BlockTokens w1 endBlock)
    (ht : t.tokenType = endBlock) (hd : Plain repl l o false .declarations w2 (.stmts ss)) (hf : Followed o false (t :: s)) :
    Plain repl l .closed false .block (w1 ++ w2 ++ [t]) (.stmts ss) := by
  rcases hb with ⟨b, hb, rfl, rfl⟩ | ⟨t', i, ht', hi, rfl, rfl⟩
  · exact .block_braces hb hd (hf.not_map ht) (hf.not_unfinished (by rw [ht]; decide)) ht
  · exact .block_indented ht' hi hd (hf.not_brace (by rw [ht]; decide)) (hf.not_unfinished (by rw [ht]; decide)) ht

/-! ### Functions and classes -/

theorem parameterList_exact (g : Ready env p) :
    Gives (parameterList env) (fun ps p' => ∃ w, Moves p w p' ∧ (ps = [] ∧ w = [] ∨ ∃ w1 t ps', w = w1 ++ [t] ∧ ps = ps' ++ [⟨t.lexeme, t.loc⟩] ∧
      ps'.length < 255 ∧ t.tokenType = .identifier ∧ PL p .closed false .parametersBefore w1 (.params ps'))) p := by
  unfold parameterList
  refine gives_query ?_
  split
  · refine gives_loop (fun ps p' => ∃ w, Moves p w p' ∧ PL p .closed false .parametersBefore w (.params ps)) ?_
      ⟨[], Moves.refl p, .parameters_nil⟩
    rintro ps p1 ⟨w1, m1, hd⟩
    refine gives_bind (gives_identifier (m1.good g) ?_)
    intro t p2 ht hr2 m2
    dsimp only
    split
    · exact gives_throw
    · rename_i hlen
      refine gives_bind (gives_match (m2.good (m1.good g)) ?_ ?_)
      · intro c p3 hc hr3 m3
        exact gives_pure ⟨w1 ++ [t, c], by simpa using (m1.trans m2).trans m3, .parameters hd (by omega) ht hc⟩
      · intro t' r' hr' ht'
        exact gives_pure ⟨w1 ++ [t], m1.trans m2, .inr ⟨w1, t, ps, rfl, rfl, by omega, ht, hd⟩⟩
  · exact gives_pure ⟨[], Moves.refl p, .inl ⟨rfl, rfl⟩⟩

theorem functionDefinition_exact (hr : RecX env r) : FunX env r := by
  intro loc p g
  unfold functionDefinition
  refine gives_bind (gives_consumeAny g (by decide) ?_)
  intro b p1 hb hr1 m1
  have g1 := m1.good g
  refine gives_seq _ (parameterList_exact g1) ?_
  rintro ps p2 ⟨w2, m2, hps⟩
  have g2 := m2.good g1
  refine gives_bind (gives_consume g2 (by decide) ?_)
  intro c p3 hc hr3 m3
  have g3 := m3.good g2
  refine gives_bind (gives_beginBlock g3 ?_)
  intro w4 eb p4 hbt m4
  refine gives_seq _ (finishBlock_exact hr (m4.good g3) hbt.ends) ?_
  rintro ss p5 ⟨w5, t, o, m5, ht, hd, hf⟩
  rw [m4.PL_eq, m3.PL_eq, m2.PL_eq, m1.PL_eq] at hd
  have hblock := block_exact hbt ht hd hf
  have hb' : IsParen b := by simpa [IsParen] using hb
  have mall := (((m1.trans m2).trans m3).trans m4).trans m5
  rcases hps with ⟨rfl, rfl⟩ | ⟨w1, t', ps', rfl, rfl, hlen, ht', hps⟩
  · exact gives_pure ⟨b :: c :: (w4 ++ w5 ++ [t]), by simpa using mall, .function_empty hb' hc hblock⟩
  · rw [m1.PL_eq] at hps
    exact gives_pure ⟨b :: w1 ++ t' :: c :: (w4 ++ w5 ++ [t]), by simpa using mall, .function hb' hps hlen ht' hc hblock⟩

theorem finishFunDeclaration_exact (hr : RecX env r) (g : Ready env p) :
    Gives (finishFunDeclaration env r) (fun f p' => ∃ w, Moves p w p' ∧ PL p .closed false .named w (.named f)) p := by
  unfold finishFunDeclaration
  refine gives_bind (gives_identifier g ?_)
  intro t p1 ht hr1 m1
  refine gives_seq _ (functionDefinition_exact hr _ p1 (m1.good g)) ?_
  rintro d p2 ⟨w2, m2, hd⟩
  rw [m1.PL_eq] at hd
  exact gives_pure ⟨t :: w2, m1.trans m2, .named ht hd⟩

theorem classMethods_exact {endBlock : TokenType} (hr : RecX env r) (g : Ready env p) :
    Gives (classMethods env r endBlock) (fun fs p' => ∃ w, Moves p w p' ∧ PL p .closed false .methods w (.nameds fs)) p := by
  unfold classMethods
  refine gives_loop (fun fs p' => ∃ w, Moves p w p' ∧ PL p .closed false .methods w (.nameds fs)) ?_ ⟨[], Moves.refl p, .methods_nil⟩
  rintro fs p1 ⟨w1, m1, hd⟩
  have g1 := m1.good g
  refine gives_query ?_
  split
  · refine gives_bind (gives_match g1 ?_ ?_)
    · intro c p2 hc hr2 m2
      refine gives_seq _ (finishFunDeclaration_exact hr (m2.good g1)) ?_
      rintro f p3 ⟨w3, m3, hf⟩
      rw [m2.PL_eq, m1.PL_eq] at hf
      obtain ⟨nm, ⟨ps, body, kd, loc⟩⟩ := f
      exact gives_pure ⟨w1 ++ c :: w3, by simpa using (m1.trans m2).trans m3, .class_method hd hc hf⟩
    · intro t r' hr' ht
      refine gives_seq _ (finishFunDeclaration_exact hr g1) ?_
      rintro f p3 ⟨w3, m3, hf⟩
      rw [m1.PL_eq] at hf
      obtain ⟨nm, ⟨ps, body, kd, loc⟩⟩ := f
      exact gives_pure ⟨w1 ++ w3, m1.trans m3, .method hd hf⟩
  · exact gives_pure ⟨w1, m1, hd⟩

theorem superclassClause_exact (g : Ready env p) :
    Gives (superclassClause env) (fun sc p' => ∃ w, Moves p w p' ∧ (sc = none ∧ w = [] ∨ ∃ lt s, lt.tokenType = .less ∧
      s.tokenType = .identifier ∧ w = [lt, s] ∧ sc = some (.variable s.lexeme .placeholder s.loc))) p := by
  unfold superclassClause
  refine gives_bind (gives_match g ?_ ?_)
  · intro lt p1 hlt hr1 m1
    refine gives_bind (gives_identifier (m1.good g) ?_)
    intro s p2 hs hr2 m2
    exact gives_pure ⟨[lt, s], m1.trans m2, .inr ⟨lt, s, hlt, hs, rfl, rfl⟩⟩
  · intro t r' hr' ht
    exact gives_pure ⟨[], Moves.refl p, .inl ⟨rfl, rfl⟩⟩

theorem finishClassDeclaration_exact {t : Token} (hr : RecX env r) (g : Ready env p₀) (ht : t.tokenType = .class)
    (hr0 : p₀.rest = t :: p.rest) (m : Moves p₀ [t] p) : Gives (finishClassDeclaration env r) (PostY .declaration p₀) p := by
  have hns := not_stuck hr0 (by rw [ht]; decide)
  have gp := m.good g
  unfold finishClassDeclaration
  refine gives_bind (gives_identifier gp ?_)
  intro nm p1 hnm hr1 m1
  have g1 := m1.good gp
  refine gives_seq _ (superclassClause_exact g1) ?_
  rintro sc p2 ⟨w2, m2, hsc⟩
  have g2 := m2.good g1
  refine gives_bind (gives_beginBlock g2 ?_)
  intro w3 eb p3 hb m3
  have g3 := m3.good g2
  refine gives_seq _ (classMethods_exact hr g3) ?_
  rintro fs p4 ⟨w4, m4, hd⟩
  rw [m3.PL_eq, m2.PL_eq, m1.PL_eq, m.PL_eq] at hd
  refine gives_bind (gives_endBlock (m4.good g3) hb.ends ?_)
  intro c p5 hc hr5 m5
  have mall := ((((m.trans m1).trans m2).trans m3).trans m4).trans m5
  refine gives_pure ⟨_, mall, hns, .inr ⟨.closed, false, ?_, followed_closed⟩⟩
  rcases hb with ⟨o, ho, rfl, rfl⟩ | ⟨t', i, ht', hi, rfl, rfl⟩ <;>
    rcases hsc with ⟨rfl, rfl⟩ | ⟨lt, s, hlt, hs, rfl, rfl⟩
  · simpa using Plain.class_braces ht hnm ho hd hc
  · simpa using Plain.subclass_braces ht hnm hlt hs ho hd hc
  · simpa using Plain.class_indented ht hnm ht' hi hd hc
  · simpa using Plain.subclass_indented ht hnm hlt hs ht' hi hd hc

/-! ### Variable declarations -/

theorem varInitializer_exact (hr : RecX env r) (g : Ready env p) :
    Gives (varInitializer r) (fun x p' => x = (.literalNil, true) ∧ p' = p ∨ ∃ q term w, q.tokenType = .equal ∧ Optional .terminator term ∧
      Moves p (q :: term ++ w) p' ∧ (Stuck p' ∨ ∃ o, PL p o false .expression w (.expr x.1) ∧ Halt o 1 p'.rest ∧
        (x.2 = false → ∃ h w3, w = h :: w3 ∧ (h.tokenType = .indent ∨ h.tokenType = .leftBrace)))) p := by
  unfold varInitializer
  refine gives_bind (gives_matches g (by decide) ?_ ?_)
  · intro q p1 hq hr1 m1
    simp only [List.mem_cons, List.not_mem_nil, or_false] at hq
    have main : ∀ term p2, Optional .terminator term → Moves p1 term p2 →
        Gives (query (fun p => !p.check .indent && !p.check .leftBrace) >>= fun needsTerm =>
          expression r >>= fun e => (pure (e, needsTerm) : P (Expr × Bool)))
          (fun x p' => x = (.literalNil, true) ∧ p' = p ∨ ∃ q term w, q.tokenType = .equal ∧ Optional .terminator term ∧
            Moves p (q :: term ++ w) p' ∧ (Stuck p' ∨ ∃ o, PL p o false .expression w (.expr x.1) ∧ Halt o 1 p'.rest ∧
              (x.2 = false → ∃ h w3, w = h :: w3 ∧ (h.tokenType = .indent ∨ h.tokenType = .leftBrace)))) p2 := by
      intro term p2 hterm m2
      have g2 := m2.good (m1.good g)
      refine gives_query (gives_seq _ (hr.assignment p2 g2) ?_)
      rintro x p3 ⟨w3, m3, -, hd⟩
      rw [m2.PL_eq, m1.PL_eq] at hd
      refine gives_pure (.inr ⟨q, term, w3, hq, hterm, by simpa using (m1.trans m2).trans m3, hd.imp id ?_⟩)
      rintro ⟨o, hd, hh⟩
      refine ⟨o, hd, hh, fun hneeds => ?_⟩
      obtain ⟨h, w4, rfl, -⟩ := (plain_first hd : ExprHead _ w3)
      refine ⟨h, w4, rfl, ?_⟩
      have hneeds : (!p2.check .indent && !p2.check .leftBrace) = false := hneeds
      rw [check_cons m3.head, check_cons m3.head] at hneeds
      simp only [Bool.and_eq_false_iff, Bool.not_eq_false', Bool.and_eq_true, beq_iff_eq] at hneeds
      exact hneeds.imp (fun h => h.2) (fun h => h.2)
    refine gives_bind (gives_match (m1.good g) ?_ ?_)
    · intro t p2 ht hr2 m2
      exact main [t] p2 (.inr ⟨t, ht, rfl⟩) m2
    · intro t r' hr' ht
      exact main [] p1 (.inl rfl) (Moves.refl p1)
  · intro t r' hr' ht
    exact gives_pure (.inl ⟨rfl, rfl⟩)

theorem varDeclaration_exact {t : Token} (hr : RecX env r) (g : Ready env p₀) (ht : t.tokenType = .var)
    (hr0 : p₀.rest = t :: p.rest) (m : Moves p₀ [t] p) : Gives (finishVarDeclaration env r false) (PostY .declaration p₀) p := by
  have hns := not_stuck hr0 (by rw [ht]; decide)
  have gp := m.good g
  unfold finishVarDeclaration
  refine gives_bind (gives_identifier gp ?_)
  intro nm p1 hnm hr1 m1
  have g1 := m1.good gp
  refine gives_seq _ (varInitializer_exact hr g1) ?_
  rintro ⟨x, needs⟩ p2 (⟨hx, rfl⟩ | ⟨q, term, w, hq, hterm, m2, hd⟩)
  · cases hx
    refine gives_bind ?_
    unfold endVarDeclaration
    simp only [Bool.false_eq_true, if_false, if_true]
    refine gives_consume g1 (by decide) ?_
    intro term p3 hterm hr3 m3
    exact gives_pure ⟨[t, nm, term], (m.trans m1).trans m3, hns, .inr ⟨.closed, false, .var ht hnm hterm, followed_closed⟩⟩
  · have g2 := m2.good g1
    rw [m1.PL_eq, m.PL_eq] at hd
    have line : ∀ term' p3, term'.tokenType = .terminator → p2.rest = term' :: p3.rest → Moves p2 [term'] p3 →
        PostY .declaration p₀ (.var nm.lexeme .placeholder x nm.loc) p3 := by
      intro term' p3 hterm' hr3 m3
      obtain ⟨o, hd, hh, -⟩ := hd.resolve_left (not_stuck hr3 (by rw [hterm']; decide))
      rw [hr3] at hh
      refine ⟨t :: nm :: q :: term ++ w ++ [term'], by simpa using ((m.trans m1).trans m2).trans m3, hns, .inr ⟨o.line, false, ?_, ?_⟩⟩
      · exact .var_init ht hnm hq hterm hd (hh.not_brace hterm' (by decide)) hterm'
      · exact hh.line (plain_ends hd) hterm'
    refine gives_bind ?_
    unfold endVarDeclaration
    simp only [Bool.false_eq_true, if_false]
    split
    · refine gives_consume g2 (by decide) ?_
      intro term' p3 h1 h2 h3
      exact gives_pure (line term' p3 h1 h2 h3)
    · rename_i hf
      refine gives_bind (gives_match g2 ?_ ?_)
      · intro term' p3 h1 h2 h3
        exact gives_pure (gives_pure (line term' p3 h1 h2 h3))
      · intro t' r' hr' ht'
        refine gives_pure (gives_pure ⟨_, (m.trans m1).trans m2, hns, hd.imp id ?_⟩)
        rintro ⟨o, hd, hh, hneeds⟩
        obtain ⟨h, w3, rfl, hh'⟩ := hneeds (by simpa using hf)
        refine ⟨o.opened, false, ?_, hh.opened (plain_ends hd)⟩
        simpa using Plain.var_open ht hnm hq hterm hd hh'

theorem forVar_exact {t : Token} (hr : RecX env r) (g : Ready env p₀) (ht : t.tokenType = .var) (m : Moves p₀ [t] p) :
    Gives (finishVarDeclaration env r true) (fun st p' => ∃ w, Moves p₀ w p' ∧ PL p₀ .closed false .forInit w (.optStmt (some st))) p := by
  have gp := m.good g
  unfold finishVarDeclaration
  refine gives_bind (gives_identifier gp ?_)
  intro nm p1 hnm hr1 m1
  have g1 := m1.good gp
  refine gives_seq _ (varInitializer_exact hr g1) ?_
  rintro ⟨x, needs⟩ p2 (⟨hx, rfl⟩ | ⟨q, term, w, hq, hterm, m2, hd⟩)
  · cases hx
    refine gives_bind ?_
    unfold endVarDeclaration
    simp only [if_true]
    refine gives_consume g1 (by decide) ?_
    intro semi p3 hsemi hr3 m3
    exact gives_pure ⟨[t, nm, semi], (m.trans m1).trans m3, .for_var ht hnm hsemi⟩
  · have g2 := m2.good g1
    rw [m1.PL_eq, m.PL_eq] at hd
    refine gives_bind ?_
    unfold endVarDeclaration
    simp only [if_true]
    refine gives_consume g2 (by decide) ?_
    intro semi p3 hsemi hr3 m3
    obtain ⟨o, hd, hh, -⟩ := hd.resolve_left (not_stuck hr3 (by rw [hsemi]; decide))
    rw [hr3] at hh
    exact gives_pure ⟨t :: nm :: q :: term ++ w ++ [semi], by simpa using ((m.trans m1).trans m2).trans m3,
      .for_var_init ht hnm hq hterm hd (hh.not_brace hsemi (by decide)) hsemi⟩

/-! ### Simple statements -/

/-- After success of `expression_statement`. -/
def PostEx (p : Parser) (st : Stmt) (p' : Parser) : Prop :=
  ¬ Stuck p ∧ ∃ x w o, st = .expression x ∧ PL p o false .expression w (.expr x) ∧ o ≠ .brace ∧
    ((∃ term, term.tokenType = .terminator ∧ Moves p (w ++ [term]) p' ∧ Followed o.line false p'.rest) ∨
      (p.allowTrailing = true ∧ Moves p w p' ∧ ∃ t, p'.rest = [t] ∧ t.tokenType = .eof))

theorem expressionStatement_exact (hr : RecX env r) (g : Ready env p) : Gives (expressionStatement env r) (PostEx p) p := by
  unfold expressionStatement
  refine gives_seq _ (hr.assignment p g) ?_
  rintro x p1 ⟨w, m, hst, hd⟩
  have g1 := m.good g
  refine gives_bind ?_
  unfold endExpressionStatement
  refine gives_query ?_
  split
  · refine gives_consume g1 (by decide) ?_
    intro term p2 hterm hr2 m2
    have hns := not_stuck hr2 (by rw [hterm]; decide)
    obtain ⟨o, hd, hh⟩ := hd.resolve_left hns
    rw [hr2] at hh
    exact gives_pure ⟨stays hst m hns, x, w, o, rfl, hd, hh.not_brace hterm (by decide),
      .inl ⟨term, hterm, m.trans m2, hh.line (plain_ends hd) hterm⟩⟩
  · rename_i hc
    obtain ⟨t, r', hr'⟩ := g1.cons
    simp only [Bool.or_eq_true, Bool.not_eq_true', Bool.and_eq_false_iff, not_or, Bool.not_eq_false] at hc
    rw [isAtEnd_cons hr'] at hc
    have ht : t.tokenType = .eof := by simpa using hc.1.2
    have hns : ¬ Stuck p1 := not_stuck hr' (by rw [ht]; decide)
    obtain ⟨o, hd, hh⟩ := hd.resolve_left hns
    have hr0 := g1.eofLast hr' ht
    subst hr0
    rw [hr'] at hh
    exact gives_pure (gives_pure ⟨stays hst m hns, x, w, o, rfl, hd, hh.not_brace ht (by decide),
      .inr ⟨by rw [← m.allow]; exact hc.1.1, m, t, hr', ht⟩⟩)

theorem inLoop_true (m : Moves p₀ w p) (h : ¬ (p.inLoops == 0) = true) : decide (0 < p₀.inLoops) = true := by
  rw [m.inLoops] at h
  simp at h ⊢
  omega

theorem finishBreak_exact {t : Token} (g : Ready env p₀) (ht : t.tokenType = .break)
    (hr0 : p₀.rest = t :: p.rest) (m : Moves p₀ [t] p) : Gives (finishBreakStatement env t.loc) (PostY .statement p₀) p := by
  unfold finishBreakStatement
  refine gives_query ?_
  split
  · exact gives_errorFromLast
  · rename_i hl
    refine gives_bind (gives_consume (m.good g) (by decide) ?_)
    intro term p2 hterm hr2 m2
    refine gives_pure ⟨[t, term], m.trans m2, not_stuck hr0 (by rw [ht]; decide), .inr ⟨.closed, false, ?_, followed_closed⟩⟩
    unfold PL
    rw [inLoop_true m hl]
    exact .break ht hterm

theorem finishContinue_exact {t : Token} (g : Ready env p₀) (ht : t.tokenType = .continue)
    (hr0 : p₀.rest = t :: p.rest) (m : Moves p₀ [t] p) : Gives (finishContinueStatement env t.loc) (PostY .statement p₀) p := by
  unfold finishContinueStatement
  refine gives_query ?_
  split
  · exact gives_errorFromLast
  · rename_i hl
    refine gives_bind (gives_consume (m.good g) (by decide) ?_)
    intro term p2 hterm hr2 m2
    refine gives_pure ⟨[t, term], m.trans m2, not_stuck hr0 (by rw [ht]; decide), .inr ⟨.closed, false, ?_, followed_closed⟩⟩
    unfold PL
    rw [inLoop_true m hl]
    exact .continue ht hterm

theorem finishPrint_exact {t : Token} (hr : RecX env r) (g : Ready env p₀) (ht : t.tokenType = .print)
    (hr0 : p₀.rest = t :: p.rest) (m : Moves p₀ [t] p) : Gives (finishPrintStatement env r) (PostY .statement p₀) p := by
  have gp := m.good g
  unfold finishPrintStatement
  refine gives_seq _ (hr.assignment p gp) ?_
  rintro x p1 ⟨w, m1, -, hd⟩
  rw [m.PL_eq] at hd
  refine gives_bind (gives_consume (m1.good gp) (by decide) ?_)
  intro term p2 hterm hr2 m2
  obtain ⟨o, hd, hh⟩ := hd.resolve_left (not_stuck hr2 (by rw [hterm]; decide))
  rw [hr2] at hh
  exact gives_pure ⟨t :: w ++ [term], by simpa using (m.trans m1).trans m2, not_stuck hr0 (by rw [ht]; decide),
    .inr ⟨_, false, .print ht hd (hh.not_brace hterm (by decide)) hterm, hh.line (plain_ends hd) hterm⟩⟩

theorem finishReturn_exact {t : Token} (hr : RecX env r) (g : Ready env p₀) (ht : t.tokenType = .return)
    (hr0 : p₀.rest = t :: p.rest) (m : Moves p₀ [t] p) : Gives (finishReturnStatement env r t.loc) (PostY .statement p₀) p := by
  have hns := not_stuck hr0 (by rw [ht]; decide)
  have gp := m.good g
  unfold finishReturnStatement
  refine gives_bind ?_
  unfold returnValue
  refine gives_query ?_
  split
  · refine gives_pure (gives_bind (gives_consume gp (by decide) ?_))
    intro term p2 hterm hr2 m2
    exact gives_pure ⟨[t, term], m.trans m2, hns, .inr ⟨.closed, false, .return_nil ht hterm, followed_closed⟩⟩
  · refine gives_mono (hr.assignment p gp) ?_
    rintro x p1 ⟨w, m1, -, hd⟩
    rw [m.PL_eq] at hd
    refine gives_bind (gives_consume (m1.good gp) (by decide) ?_)
    intro term p2 hterm hr2 m2
    obtain ⟨o, hd, hh⟩ := hd.resolve_left (not_stuck hr2 (by rw [hterm]; decide))
    rw [hr2] at hh
    exact gives_pure ⟨t :: w ++ [term], by simpa using (m.trans m1).trans m2, hns,
      .inr ⟨_, false, .return ht hd (hh.not_brace hterm (by decide)) hterm, hh.line (plain_ends hd) hterm⟩⟩

/-! ### Bodies -/

/-- After the start of a body. -/
def BodyBegun (p : Parser) (eb : Option TokenType) (p' : Parser) : Prop :=
  (eb = none ∧ p' = p ∧ ∀ t r, p.rest = t :: r → t.tokenType ≠ .leftBrace) ∨ ∃ b w, eb = some b ∧ BlockTokens w b ∧ Moves p w p'

theorem beginBlockIfAny_exact {message : String} (g : Ready env p) : Gives (beginBlockIfAny env message) (BodyBegun p) p := by
  unfold beginBlockIfAny
  refine gives_query ?_
  split
  · refine gives_bind (gives_beginBlock g ?_)
    intro w b p' hb m
    exact gives_pure (.inr ⟨b, w, rfl, hb, m⟩)
  · rename_i hc
    refine gives_pure (.inl ⟨rfl, rfl, ?_⟩)
    intro t r' hr' ht
    apply hc
    rw [check_cons hr', check_cons hr']
    simp [ht]

/-- After a body. -/
def PostB (p : Parser) (st : Stmt) (p' : Parser) : Prop :=
  ∃ w, Moves p w p' ∧ (Stuck p' ∨ ∃ o e, PL p o e .body w (.stmt st) ∧ Followed o e p'.rest)

theorem blockOrStatement_exact {eb : Option TokenType} (hr : RecX env r) (g : Ready env p) (hb : BodyBegun p eb p1) :
    Gives (blockOrStatement env r eb) (PostB p) p1 := by
  unfold blockOrStatement
  rcases hb with ⟨rfl, rfl, hlb⟩ | ⟨b, w1, rfl, hb, m1⟩
  · refine gives_mono (hr.statement _ g) ?_
    rintro st p2 ⟨w, m, -, hd⟩
    refine ⟨w, m, hd.imp id ?_⟩
    rintro ⟨o, e, hd, hf⟩
    obtain ⟨h, w', rfl, -⟩ := (plain_first hd : ExprHead _ w)
    exact ⟨o, e, .body hd (hlb h _ m.head), hf⟩
  · refine gives_seq _ (finishBlock_exact hr (m1.good g) hb.ends) ?_
    rintro ss p2 ⟨w2, t, o, m2, ht, hd, hf⟩
    rw [m1.PL_eq] at hd
    exact gives_pure ⟨w1 ++ w2 ++ [t], by simpa using m1.trans m2,
      .inr ⟨.closed, false, .body_block (block_exact hb ht hd hf), followed_closed⟩⟩

theorem finishIf_exact {t : Token} (hr : RecX env r) (g : Ready env p₀) (ht : t.tokenType = .if)
    (hr0 : p₀.rest = t :: p.rest) (m : Moves p₀ [t] p) : Gives (finishIfStatement env r) (PostY .statement p₀) p := by
  have hns := not_stuck hr0 (by rw [ht]; decide)
  have gp := m.good g
  unfold finishIfStatement
  refine gives_bind (gives_consumeAny gp (by decide) ?_)
  intro b p1 hb hr1 m1
  have g1 := m1.good gp
  have hb' : IsParen b := by simpa [IsParen] using hb
  refine gives_seq _ (hr.assignment p1 g1) ?_
  rintro x p2 ⟨w2, m2, -, hx⟩
  have g2 := m2.good g1
  refine gives_bind (gives_consume g2 (by decide) ?_)
  intro c p3 hc hr3 m3
  have g3 := m3.good g2
  obtain ⟨ox, hx, hhx⟩ := hx.resolve_left (not_stuck hr3 (by rw [hc]; decide))
  rw [m1.PL_eq, m.PL_eq] at hx
  rw [hr3] at hhx
  have hox := hhx.not_brace hc (by decide)
  refine gives_seq _ (beginBlockIfAny_exact g3) ?_
  intro eb p4 hbeg
  refine gives_seq _ (blockOrStatement_exact hr g3 hbeg) ?_
  rintro st p5 ⟨w5, m5, hst⟩
  have g5 := m5.good g3
  rw [m3.PL_eq, m2.PL_eq, m1.PL_eq, m.PL_eq] at hst
  have m5' := (((m.trans m1).trans m2).trans m3).trans m5
  refine gives_bind (gives_match g5 ?_ ?_)
  · intro el p6 hel hr6 m6
    obtain ⟨o, e, hst, hf⟩ := hst.resolve_left (not_stuck hr6 (by rw [hel]; decide))
    rw [hr6] at hf
    have he : e = false := by
      cases e with
      | false => rfl
      | true => exact absurd hel (hf.els rfl el _ rfl)
    subst he
    refine gives_seq _ (hr.statement p6 (m6.good g5)) ?_
    rintro st' p7 ⟨w7, m7, -, hst'⟩
    rw [m6.PL_eq, m5'.PL_eq] at hst'
    refine gives_pure ⟨_, (m5'.trans m6).trans m7, hns, hst'.imp id ?_⟩
    rintro ⟨o', e', hst', hf'⟩
    refine ⟨o', e', ?_, hf'⟩
    simpa using Plain.if_else ht hb' hx hox hc hst (hf.not_brace (by rw [hel]; decide)) (hf.not_unfinished (by rw [hel]; decide)) hel hst'
  · intro t' r' hr' ht'
    refine gives_pure ⟨_, m5', hns, hst.imp id ?_⟩
    rintro ⟨o, e, hst, hf⟩
    refine ⟨o, true, by simpa using Plain.if ht hb' hx hox hc hst, ?_, hf.map, hf.call, hf.brace, hf.unfinished⟩
    intro _ u r'' hs
    rw [hr'] at hs
    cases hs
    rcases ht' with h | h
    · rw [h]; decide
    · exact h

/-- After the body of a loop. -/
def PostL (p : Parser) (st : Stmt) (p' : Parser) : Prop :=
  ∃ w, Moves p w p' ∧ (Stuck p' ∨ ∃ o e, Plain p.allowTrailing true o e .body w (.stmt st) ∧ Followed o e p'.rest)

theorem loopBody_exact (hr : RecX env r) (g : Ready env p) (hl : p.inLoops < p.current) : Gives (loopBodyStatement env r) (PostL p) p := by
  have gd : Ready env p.deeper := ⟨g.wf, g.bound, g.inb, hl, g.safe⟩
  unfold loopBodyStatement
  refine gives_seq (fun _ q => q = p.deeper) ?_ ?_
  · intro u q hx
    unfold enterLoop at hx
    split at hx
    · cases hx
    · cases hx; rfl
  rintro _ q rfl
  refine gives_seq _ (beginBlockIfAny_exact gd) ?_
  intro eb p1 hbeg
  intro st p' hx
  unfold thenLeaveLoop at hx
  cases hy : blockOrStatement env r eb p1 with
  | ok a q =>
    rw [hy] at hx
    obtain ⟨w, m, hd⟩ := blockOrStatement_exact hr gd hbeg a q hy
    have hi : q.inLoops = p.inLoops + 1 := m.inLoops
    simp only [show q.inLoops ≠ 0 by omega, if_false] at hx
    cases hx
    refine ⟨w, ⟨?_, m.rest, m.noEof⟩, hd.imp id ?_⟩
    · rw [m.eq]; rfl
    · rintro ⟨o, e, hd, hf⟩
      refine ⟨o, e, ?_, hf⟩
      have h1 : decide (0 < p.deeper.inLoops) = true := by simp [Parser.deeper]
      unfold PL at hd
      rw [h1] at hd
      exact hd
  | err c q => rw [hy] at hx; dsimp only at hx; split at hx <;> first | cases hx | (split at hx <;> cases hx)
  | panic msg => rw [hy] at hx; cases hx
  | diverge => rw [hy] at hx; cases hx

theorem Moves.room (m : Moves p₀ w p) (g : Ready env p₀) (hw : w ≠ []) : p.inLoops < p.current := by
  have h1 := m.inLoops
  have h2 := m.current
  have h3 := g.loops
  have h4 := List.length_pos_iff.2 hw
  omega

theorem finishWhile_exact {t : Token} (hr : RecX env r) (g : Ready env p₀) (ht : t.tokenType = .while)
    (hr0 : p₀.rest = t :: p.rest) (m : Moves p₀ [t] p) : Gives (finishWhileStatement env r) (PostY .statement p₀) p := by
  have hns := not_stuck hr0 (by rw [ht]; decide)
  have gp := m.good g
  unfold finishWhileStatement
  refine gives_bind (gives_consumeAny gp (by decide) ?_)
  intro b p1 hb hr1 m1
  have g1 := m1.good gp
  have hb' : IsParen b := by simpa [IsParen] using hb
  refine gives_seq _ (hr.assignment p1 g1) ?_
  rintro x p2 ⟨w2, m2, -, hx⟩
  have g2 := m2.good g1
  refine gives_bind (gives_consume g2 (by decide) ?_)
  intro c p3 hc hr3 m3
  have g3 := m3.good g2
  obtain ⟨ox, hx, hhx⟩ := hx.resolve_left (not_stuck hr3 (by rw [hc]; decide))
  rw [m1.PL_eq, m.PL_eq] at hx
  rw [hr3] at hhx
  have m3' := ((m.trans m1).trans m2).trans m3
  refine gives_seq _ (loopBody_exact hr g3 (m3'.room g (by simp))) ?_
  rintro st p4 ⟨w4, m4, hst⟩
  rw [m3'.allow] at hst
  refine gives_pure ⟨_, m3'.trans m4, hns, hst.imp id ?_⟩
  rintro ⟨o, e, hst, hf⟩
  exact ⟨o, e, by simpa using Plain.while ht hb' hx (hhx.not_brace hc (by decide)) hc hst, hf⟩

/-! ### For loops -/

/-- Nothing is left. -/
def AtEof (p : Parser) : Prop := ∃ t, p.rest = [t] ∧ t.tokenType = .eof

theorem forInitializer_exact (hr : RecX env r) (g : Ready env p) :
    Gives (forInitializer env r) (fun st p' => ∃ w, Moves p w p' ∧ (AtEof p' ∨ ∃ o, PL p o false .forInit w (.optStmt st) ∧
      (o = .map → ¬ KeyColon p'.rest))) p := by
  unfold forInitializer
  refine gives_bind (gives_match g ?_ ?_)
  · intro t p1 ht hr1 m1
    exact gives_pure ⟨[t], m1, .inr ⟨.closed, .for_none ht, by simp⟩⟩
  · intro _ _ _ _
    refine gives_bind (gives_match g ?_ ?_)
    · intro t p1 ht hr1 m1
      refine gives_seq _ (forVar_exact hr g ht m1) ?_
      rintro st p2 ⟨w, m2, hd⟩
      exact gives_pure ⟨w, m2, .inr ⟨.closed, hd, by simp⟩⟩
    · intro _ _ _ _
      refine gives_seq _ (expressionStatement_exact hr g) ?_
      rintro st p2 ⟨-, x, w, o, rfl, hd, ho, (⟨term, hterm, m2, hf⟩ | ⟨-, m2, t, hr2, ht⟩)⟩
      · exact gives_pure ⟨w ++ [term], m2, .inr ⟨o.line, .for_expression hd ho hterm, fun h => (hf.map h).1⟩⟩
      · exact gives_pure ⟨w, m2, .inl ⟨t, hr2, ht⟩⟩

theorem finishFor_exact {t : Token} (hr : RecX env r) (g : Ready env p₀) (ht : t.tokenType = .for)
    (hr0 : p₀.rest = t :: p.rest) (m : Moves p₀ [t] p) : Gives (finishForStatement env r) (PostY .statement p₀) p := by
  have hns := not_stuck hr0 (by rw [ht]; decide)
  have gp := m.good g
  unfold finishForStatement
  refine gives_bind (gives_consumeAny gp (by decide) ?_)
  intro b p1 hb hr1 m1
  have g1 := m1.good gp
  have hb' : IsParen b := by simpa [IsParen] using hb
  refine gives_seq _ (forInitializer_exact hr g1) ?_
  rintro init p2 ⟨w2, m2, hinit⟩
  have g2 := m2.good g1
  rw [m1.PL_eq, m.PL_eq] at hinit
  refine gives_seq (fun x p3 => ∃ w3, Moves p2 w3 p3 ∧ (x = .literalBool true ∧ w3 = [] ∨ Stuck p3 ∨
    ∃ o, PL p₀ o false .expression w3 (.expr x) ∧ Halt o 1 p3.rest)) ?_ ?_
  · unfold forCondition
    refine gives_query ?_
    split
    · exact gives_pure ⟨[], Moves.refl p2, .inl ⟨rfl, rfl⟩⟩
    · refine gives_mono (hr.assignment p2 g2) ?_
      rintro x p3 ⟨w3, m3, -, hd⟩
      rw [m2.PL_eq, m1.PL_eq, m.PL_eq] at hd
      exact ⟨w3, m3, .inr hd⟩
  rintro cond p3 ⟨w3, m3, hcond⟩
  have g3 := m3.good g2
  refine gives_bind (gives_consume g3 (by decide) ?_)
  intro semi p4 hsemi hr4 m4
  have g4 := m4.good g3
  obtain ⟨o2, hinit, hmap⟩ : ∃ o, PL p₀ o false .forInit w2 (.optStmt init) ∧ (o = .map → ¬ KeyColon p2.rest) := by
    refine hinit.resolve_left ?_
    rintro ⟨u, hu, hu'⟩
    have hw3 : w3 = [] := by
      cases w3 with
      | nil => rfl
      | cons a w3 =>
        have h1 := m3.head
        rw [hu] at h1
        have h2 := (List.cons.inj h1).1
        exact absurd (h2 ▸ hu') (m3.noEof a (by simp))
    subst hw3
    have := m3.eq_nil
    subst this
    rw [hu] at hr4
    have h2 := (List.cons.inj hr4).1
    rw [h2, hsemi] at hu'
    cases hu'
  have hcond : PL p₀ .closed false .forCondition w3 (.expr cond) := by
    rcases hcond with ⟨rfl, rfl⟩ | hcond
    · exact .condition_none
    · obtain ⟨o, hd, hh⟩ := hcond.resolve_left (not_stuck hr4 (by rw [hsemi]; decide))
      rw [hr4] at hh
      exact .condition hd (hh.not_brace hsemi (by decide))
  have hkey : o2 = .map → ¬ KeyColon w3 := by
    intro h hk
    refine hmap h ?_
    rw [m3.rest]
    exact KeyColon.append hk
  refine gives_seq (fun x p5 => ∃ w5, Moves p4 w5 p5 ∧ (x = none ∧ w5 = [] ∨ Stuck p5 ∨
    ∃ o y, x = some y ∧ PL p₀ o false .expression w5 (.expr y) ∧ Halt o 1 p5.rest)) ?_ ?_
  · unfold forIncrement
    refine gives_query ?_
    split
    · exact gives_pure ⟨[], Moves.refl p4, .inl ⟨rfl, rfl⟩⟩
    · refine gives_seq _ (hr.assignment p4 g4) ?_
      rintro x p5 ⟨w5, m5, -, hd⟩
      rw [m4.PL_eq, m3.PL_eq, m2.PL_eq, m1.PL_eq, m.PL_eq] at hd
      exact gives_pure ⟨w5, m5, .inr (hd.imp id fun ⟨o, hd, hh⟩ => ⟨o, x, rfl, hd, hh⟩)⟩
  rintro inc p5 ⟨w5, m5, hinc⟩
  have g5 := m5.good g4
  refine gives_bind (gives_consume g5 (by decide) ?_)
  intro c p6 hc hr6 m6
  have hinc : PL p₀ .closed false .forIncrement w5 (.optExpr inc) := by
    rcases hinc with ⟨rfl, rfl⟩ | hinc
    · exact .increment_none
    · obtain ⟨o, y, rfl, hd, hh⟩ := hinc.resolve_left (not_stuck hr6 (by rw [hc]; decide))
      rw [hr6] at hh
      exact .increment hd (hh.not_brace hc (by decide))
  have m6' := (((((m.trans m1).trans m2).trans m3).trans m4).trans m5).trans m6
  refine gives_seq _ (loopBody_exact hr (m6.good g5) (m6'.room g (by simp))) ?_
  rintro st p7 ⟨w7, m7, hst⟩
  rw [m6'.allow] at hst
  have main : PostY .statement p₀ (forLoop init cond inc st) p7 := by
    refine ⟨_, m6'.trans m7, hns, hst.imp id ?_⟩
    rintro ⟨o, e, hst, hf⟩
    exact ⟨o, e, by simpa using Plain.for ht hb' hinit hcond hkey hsemi hinc hc hst, hf⟩
  cases init with
  | none => exact gives_pure main
  | some st => exact gives_pure main

/-! ### Statements and declarations -/

theorem statementBody_exact (hr : RecX env r) (p₀ : Parser) (g : Ready env p₀) : Gives (statementBody env r) (PostY .statement p₀) p₀ := by
  unfold statementBody
  refine gives_bind (gives_matches g (by decide) ?_ ?_)
  · intro t p1 ht hr1 m1
    simp only [List.mem_cons, List.not_mem_nil, or_false] at ht
    rcases ht with ht | ht | ht | ht | ht | ht | ht | ht <;> simp only [ht]
    · exact finishBreak_exact g ht hr1 m1
    · exact finishContinue_exact g ht hr1 m1
    · exact finishFor_exact hr g ht hr1 m1
    · exact finishIf_exact hr g ht hr1 m1
    · refine gives_seq _ (finishBlock_exact hr (m1.good g) (.inl rfl)) ?_
      rintro ss p2 ⟨w, c, o, m2, hc, hd, hf⟩
      rw [m1.PL_eq] at hd
      exact gives_pure ⟨t :: w ++ [c], by simpa using m1.trans m2, not_stuck hr1 (by rw [ht]; decide),
        .inr ⟨.closed, false, .braces ht hd (hf.not_map hc) (hf.not_unfinished (by rw [hc]; decide)) hc, followed_closed⟩⟩
    · exact finishPrint_exact hr g ht hr1 m1
    · exact finishReturn_exact hr g ht hr1 m1
    · exact finishWhile_exact hr g ht hr1 m1
  · intro t r' hr' ht
    refine gives_mono (expressionStatement_exact hr g) ?_
    rintro st p2 ⟨hns, x, w, o, rfl, hd, ho, h⟩
    obtain ⟨h0, w', rfl, -⟩ := (plain_first hd : ExprHead _ w)
    have hlb : h0.tokenType ≠ .leftBrace := by
      have : h0 = t := by
        rcases h with ⟨term, -, m2, -⟩ | ⟨-, m2, -⟩ <;>
        · have h1 := m2.rest
          rw [hr'] at h1
          exact (List.cons.inj h1).1.symm
      rw [this]
      exact fun h => ht (by simp [h])
    rcases h with ⟨term, hterm, m2, hf⟩ | ⟨ha, m2, u, hr2, hu⟩
    · exact ⟨_, m2, hns, .inr ⟨_, false, .expression_statement hd hlb ho hterm, hf⟩⟩
    · refine ⟨_, m2, hns, .inr ⟨.unfinished, false, .expression_last hd hlb ho ha, by simp, by simp, by simp, by simp, ?_⟩⟩
      intro _ t' r'' hs
      rw [hr2] at hs
      cases hs
      exact hu

theorem declarationBody_exact (hr : RecX env r) (p₀ : Parser) (g : Ready env p₀) : Gives (declarationBody env r) (PostY .declaration p₀) p₀ := by
  unfold declarationBody
  refine gives_bind (gives_match g ?_ ?_)
  · intro t p1 ht hr1 m1
    exact finishClassDeclaration_exact hr g ht hr1 m1
  intro _ _ _ _
  refine gives_query ?_
  split
  · refine gives_bind (gives_consume g (by decide) ?_)
    intro t p1 ht hr1 m1
    refine gives_seq _ (finishFunDeclaration_exact hr (m1.good g)) ?_
    rintro f p2 ⟨w, m2, hd⟩
    rw [m1.PL_eq] at hd
    exact gives_pure ⟨t :: w, m1.trans m2, not_stuck hr1 (by rw [ht]; decide), .inr ⟨.closed, false, .fun_decl ht hd, followed_closed⟩⟩
  · refine gives_bind (gives_match g ?_ ?_)
    · intro t p1 ht hr1 m1
      exact varDeclaration_exact hr g ht hr1 m1
    · intro _ _ _ _
      refine gives_mono (hr.statement p₀ g) ?_
      rintro st p' ⟨w, m, hns, hd⟩
      exact ⟨w, m, hns, hd.imp id fun ⟨o, e, hd, hf⟩ => ⟨o, e, .declaration hd, hf⟩⟩

theorem recN_exact (env : Env) (n : Nat) : RecX env (recN env n) := by
  induction n with
  | zero => constructor <;> intro p g a p' hx <;> cases hx
  | succ n ih =>
    exact ⟨unaryBody_exact ih (functionDefinition_exact ih), assignmentBody_exact ih, statementBody_exact ih, declarationBody_exact ih⟩

end Ws
