import Verif.Proofs.Parse.Viable
/-! What was consumed before an error can be continued: statements. -/
namespace Ws
open Spec

variable {α β σ : Type} {env : Env} {T : List Token} {p p₀ p1 p' p'' : Parser} {w w' u v s : List Token} {r : Rec} {n k : Nat} {sym sym' : Sym}
  {B B' : Nat → Prop} {repl l : Bool} {o o' : Ends}

/-! ### Blocks -/

theorem forms_print : Forms repl l .closed .declaration ([TokenType.print, .identifier, .terminator].map blank) :=
  .declaration (.print (w := [blank .identifier]) (o := .closed) rfl .blank (by decide) rfl)

/-- Declarations can be followed by one that ends plainly. -/
theorem Forms.more (h : Forms repl l o .declarations w) (ho : o.Good) :
    Forms repl l .closed .declarations (w ++ [TokenType.print, .identifier, .terminator].map Ws.blank) := by
  refine h.declarations forms_print ⟨ho.1, ho.2, ?_, ?_⟩
  · rintro - ⟨t, c, r, h1, h2, -⟩
    simp only [List.map_cons, List.cons.injEq] at h1
    rw [← h1.1] at h2
    rcases h2 with h2 | h2 <;> cases h2
  · rintro - t r h1
    simp only [List.map_cons, List.cons.injEq] at h1
    rw [← h1.1]
    simp [Joins, startsArgument, Ws.blank]

/-- A block can be closed. -/
theorem forms_closing {wb : List Token} {eb : TokenType} (hb : BlockTokens wb eb) (h : Forms repl l o .declarations w) (ho : o.Good) :
    ∃ tail, Forms repl l .closed .block (wb ++ w ++ tail) ∧ Tail tail := by
  have h := h.more ho
  rcases hb with ⟨b, hb, rfl, rfl⟩ | ⟨t, i, ht, hi, rfl, rfl⟩
  · refine ⟨[TokenType.print, .identifier, .terminator, .rightBrace].map blank, ?_, tail_blanks rfl⟩
    simpa using Forms.block_braces hb h (by decide) (by decide) (c := blank .rightBrace) rfl
  · refine ⟨[TokenType.print, .identifier, .terminator, .outdent].map blank, ?_, tail_blanks rfl⟩
    simpa using Forms.block_indented ht hi h (by decide) (by decide) (c := blank .outdent) rfl

/-- The declarations from `p` up to `p'`. -/
def Run (p : Parser) (ss : List Stmt) (p' : Parser) : Prop :=
  (∃ w, Moves p w p' ∧ (Stuck p' ∨ ∃ o, PL p o false .declarations w (.stmts ss) ∧ Followed o false p'.rest)) ∧ Live p .declarations p'.current

theorem run_start : Run p [] p :=
  ⟨⟨[], Moves.refl p, .inr ⟨.closed, .declarations_nil, followed_closed⟩⟩, live_start (.of .declarations_nil) tidy_closed tail_nil⟩

theorem run_step {ss : List Stmt} (hr : RecL env T r) (g1 : On env T p1) (h : Run p ss p1) :
    Marks T r.declaration (fun st p2 => Run p (ss ++ [st]) p2) (Live p .declarations) p1 := by
  obtain ⟨⟨w1, m1, hd⟩, hl⟩ := h
  rcases hd with hs | ⟨o, hd, hf⟩
  · refine marks_mono (marks_with (hr.exact.declaration p1 g1.ready) (hr.idleDeclaration.keeps p1 g1 hs)) ?_ fun k h => h ▸ hl
    rintro st p2 ⟨⟨w2, m2, hns, hd2⟩, -⟩
    exact absurd hs hns
  · have up : ∀ {k}, Live p1 .declaration k → Live p .declarations k := fun h => by
      refine Live.wrap_ne (sym' := .declaration) m1 (.inr (.inl ⟨by decide, by decide⟩)) hl ?_ h
      intro t w' s v o' h1 hfm hg hk
      refine ⟨[], o', ?_, hg, tail_nil⟩
      have hp : o.Precedes (t :: w' ++ v) := by
        obtain ⟨t', w'', h2, ht⟩ := (hfm.first : DeclHead _ _)
        cases h2
        refine ⟨?_, ?_, fun ho hk' => (hf.map ho).1 (hk hk'), ?_⟩
        · intro ho
          have := hf.brace ho t _ h1
          rw [this] at ht
          revert ht; decide
        · intro ho
          have := hf.unfinished ho t _ h1
          rw [this] at ht
          revert ht; decide
        · rintro ho _ _ hs
          cases hs
          exact hf.call ho t _ h1
      simpa using Forms.declarations (.of hd) hfm hp
    refine marks_mono (marks_with (hr.exact.declaration p1 g1.ready) (hr.declaration.keeps p1 g1)) ?_ fun k h => up h
    rintro st p2 ⟨⟨w2, m2, hns, hd2⟩, hl2⟩
    rw [m1.PL_eq] at hd2
    refine ⟨⟨w1 ++ w2, m1.trans m2, hd2.imp id ?_⟩, up hl2⟩
    rintro ⟨o2, e2, hd2, hf2⟩
    exact ⟨o2, .declarations hd hd2 (hf.precedes m2 hd2), hf2.weaken⟩

theorem finishBlock_lives {endBlock : TokenType} (hr : RecL env T r) (g : On env T p) (he : endBlock = .rightBrace ∨ endBlock = .outdent) :
    Marks T (finishBlock env r endBlock) (fun _ _ => True) (Live p .declarations) p := by
  unfold finishBlock
  refine marks_seq (fun (_ : List Stmt) p' => (∃ w, Moves p w p') ∧ Live p .declarations p'.current) ?_ ?_
  · refine marks_loop (Run p) ?_ run_start
    intro ss p1 h
    have h' := h
    obtain ⟨⟨w1, m1, hd⟩, hl⟩ := h'
    refine marks_query ?_
    split
    · exact marks_bind (marks_mono (run_step hr (m1.on g) h) (fun st p2 h => marks_pure h) fun k h => h)
    · exact marks_pure ⟨⟨w1, m1⟩, hl⟩
  · rintro ss p1 ⟨⟨w1, m1⟩, hl⟩
    refine marks_bind (marks_endBlock (m1.on g) he hl ?_)
    intro t p2 ht hr2 m2
    exact marks_pure trivial

/-! ### Functions and classes -/

theorem parameterList_lives {loc : SourceLoc} {b : Token} (g : On env T p₀) (m : Moves p₀ [b] p) (hb : IsParen b) :
    Marks T (parameterList env) (fun _ _ => True) (Live p₀ (.function loc)) p := by
  have gp := m.on g
  unfold parameterList
  refine marks_query ?_
  split
  · refine marks_loop (fun ps p' => ∃ w, Moves p w p' ∧ PL p .closed false .parametersBefore w (.params ps)) ?_
      ⟨[], Moves.refl p, .parameters_nil⟩
    rintro ps p1 ⟨w1, m1, hd⟩
    have g1 := m1.on gp
    have start : Live p₀ (.function loc) p1.current := by
      rw [m.PL_eq] at hd
      refine live_then (m.trans m1) (v := [TokenType.identifier, .rightParen, .leftBrace, .rightBrace].map blank) ?_ tidy_closed (tail_blanks rfl)
      simpa using Forms.function hb (.of hd) (t := blank .identifier) rfl (c := blank .rightParen) rfl forms_block
    refine marks_bind (marks_identifier g1 start ?_)
    intro t p2 ht hr2 m2
    dsimp only
    split
    · exact marks_throw (.here ⟨t, g1.at hr2, rfl, rfl⟩) start (by rw [m2.current]; exact Nat.le_refl _)
    · rename_i hlen
      refine marks_bind (marks_match (m2.on g1) ?_ ?_)
      · intro c p3 hc hr3 m3
        exact marks_pure ⟨w1 ++ [t, c], by simpa using (m1.trans m2).trans m3, .parameters hd (by omega) ht hc⟩
      · intro t' r' hr' ht'
        exact marks_pure trivial
  · exact marks_pure trivial

theorem functionDefinition_lives (hr : RecL env T r) (loc : SourceLoc) : Lives env T (.function loc) (functionDefinition env r loc) := by
  constructor
  intro p g
  unfold functionDefinition
  refine marks_bind (marks_consumeAny g (by decide) ?_ ?_)
  · exact live_start (v := [TokenType.leftParen, .rightParen, .leftBrace, .rightBrace].map blank)
      (.function_empty (.inl rfl) rfl forms_block) tidy_closed (tail_blanks rfl)
  intro b p1 hb hr1 m1
  have g1 := m1.on g
  have hb' : IsParen b := by simpa [IsParen] using hb
  refine marks_run (parameterList_exact g1.ready) (parameterList_lives g m1 hb') (fun k h => h) ?_
  rintro ps p2 ⟨w2, m2, hps⟩ -
  have g2 := m2.on g1
  have pre : ∀ {c W}, c.tokenType = .rightParen → Forms p.allowTrailing (decide (0 < p.inLoops)) .closed .block W →
      Forms p.allowTrailing (decide (0 < p.inLoops)) .closed (.function loc) (b :: w2 ++ c :: W) := by
    intro c W hc hW
    rcases hps with ⟨rfl, rfl⟩ | ⟨w1, t', ps', rfl, rfl, hlen, ht', hps⟩
    · exact .function_empty hb' hc hW
    · rw [m1.PL_eq] at hps
      simpa using Forms.function hb' (.of hps) ht' hc hW
  refine marks_bind (marks_consume g2 (by decide) ?_ ?_)
  · refine live_then (m1.trans m2) (v := [TokenType.rightParen, .leftBrace, .rightBrace].map blank) ?_ tidy_closed (tail_blanks rfl)
    exact pre (c := blank .rightParen) rfl forms_block
  intro c p3 hc hr3 m3
  have g3 := m3.on g2
  have m13 := (m1.trans m2).trans m3
  refine marks_bind (marks_beginBlock g3 ?_ ?_ ?_)
  · refine live_then m13 (v := [TokenType.leftBrace, .rightBrace].map blank) ?_ tidy_closed (tail_blanks rfl)
    simpa using pre hc forms_block
  · intro t p4 ht m4
    refine live_then (m13.trans m4) (v := [TokenType.indent, .outdent].map blank) ?_ tidy_closed (tail_blanks rfl)
    have := pre hc (Forms.block_indented (w := []) ht (i := blank .indent) rfl (.of .declarations_nil) (by decide) (by decide) (c := blank .outdent) rfl)
    simpa using this
  intro w4 eb p4 hbt m4
  have g4 := m4.on g3
  have up : ∀ {k}, Live p4 .declarations k → Live p (.function loc) k := fun h =>
    h.wrap (m13.trans m4) (.inr (.inl ⟨by decide, by decide⟩)) fun W o hf ho => by
      obtain ⟨tail, h1, h2⟩ := forms_closing hbt hf ho
      exact ⟨tail, .closed, by simpa using pre hc h1, tidy_closed, h2⟩
  refine marks_run (finishBlock_exact hr.exact g4.ready hbt.ends) (finishBlock_lives hr g4 hbt.ends) (fun k h => up h) ?_
  rintro ss p5 ⟨w5, t, o, m5, ht, hd, hf⟩ -
  rw [m4.PL_eq, m13.PL_eq] at hd
  have hblock := block_exact hbt ht hd hf
  refine marks_pure (live_then (o := .closed) ((m13.trans m4).trans m5) (v := []) ?_ tidy_closed tail_nil)
  simpa using pre hc (.of hblock)

theorem finishFunDeclaration_lives (hr : RecL env T r) : Lives env T .named (finishFunDeclaration env r) := by
  constructor
  intro p g
  unfold finishFunDeclaration
  refine marks_bind (marks_identifier g ?_ ?_)
  · exact live_start (v := [TokenType.identifier, .leftParen, .rightParen, .leftBrace, .rightBrace].map blank)
      (.named rfl (.function_empty (.inl rfl) rfl forms_block)) tidy_closed (tail_blanks rfl)
  intro t p1 ht hr1 m1
  have up : ∀ {k}, Live p1 (.function t.loc) k → Live p .named k := fun h =>
    h.wrap m1 (.inr (.inl ⟨by simp, by simp⟩)) fun W o hf ho =>
      ⟨[], .closed, by simpa using Forms.named ht (forms_closed hf rfl), tidy_closed, tail_nil⟩
  refine marks_bind (marks_mono ((functionDefinition_lives hr t.loc).keeps p1 (m1.on g)) (fun d p2 h => ?_) fun k h => up h)
  exact marks_pure (up h)

theorem classMethods_lives {endBlock : TokenType} (hr : RecL env T r) : Lives env T .methods (classMethods env r endBlock) := by
  constructor
  intro p g
  unfold classMethods
  refine marks_loop (fun fs p' => ∃ w, Moves p w p' ∧ PL p .closed false .methods w (.nameds fs)) ?_ ⟨[], Moves.refl p, .methods_nil⟩
  rintro fs p1 ⟨w1, m1, hd⟩
  have g1 := m1.on g
  refine marks_query ?_
  split
  · refine marks_bind (marks_match g1 ?_ ?_)
    · intro c p2 hc hr2 m2
      have up : ∀ {k}, Live p2 .named k → Live p .methods k := fun h =>
        h.wrap (m1.trans m2) (.inr (.inl ⟨by decide, by decide⟩)) fun W o hf ho =>
          ⟨[], .closed, by simpa using Forms.class_method (.of hd) hc (forms_closed hf rfl), tidy_closed, tail_nil⟩
      refine marks_run (finishFunDeclaration_exact hr.exact (m2.on g1).ready) ((finishFunDeclaration_lives hr).keeps p2 (m2.on g1)) (fun k h => up h) ?_
      rintro f p3 ⟨w3, m3, hf⟩ -
      rw [m2.PL_eq, m1.PL_eq] at hf
      obtain ⟨nm, ⟨ps, body, kd, loc⟩⟩ := f
      exact marks_pure ⟨w1 ++ c :: w3, by simpa using (m1.trans m2).trans m3, .class_method hd hc hf⟩
    · intro t r' hr' ht
      have up : ∀ {k}, Live p1 .named k → Live p .methods k := fun h =>
        h.wrap m1 (.inr (.inl ⟨by decide, by decide⟩)) fun W o hf ho =>
          ⟨[], .closed, by simpa using Forms.method (.of hd) (forms_closed hf rfl), tidy_closed, tail_nil⟩
      refine marks_run (finishFunDeclaration_exact hr.exact g1.ready) ((finishFunDeclaration_lives hr).keeps p1 g1) (fun k h => up h) ?_
      rintro f p3 ⟨w3, m3, hf⟩ -
      rw [m1.PL_eq] at hf
      obtain ⟨nm, ⟨ps, body, kd, loc⟩⟩ := f
      exact marks_pure ⟨w1 ++ w3, m1.trans m3, .method hd hf⟩
  · exact marks_pure (live_of m1 hd (by decide))

/-- The shortest methods. -/
theorem forms_methods : Forms repl l .closed .methods [] := .of .methods_nil

theorem finishClassDeclaration_lives {t : Token} (hr : RecL env T r) (g : On env T p₀) (ht : t.tokenType = .class) (m : Moves p₀ [t] p) :
    Marks T (finishClassDeclaration env r) (fun _ p' => Live p₀ .declaration p'.current) (Live p₀ .declaration) p := by
  have gp := m.on g
  have braces : BlockTokens [blank .leftBrace] .rightBrace := .inl ⟨_, rfl, rfl, rfl⟩
  unfold finishClassDeclaration
  refine marks_bind (marks_identifier gp ?_ ?_)
  · refine live_then m (v := [TokenType.identifier, .leftBrace, .rightBrace].map blank) ?_ tidy_closed (tail_blanks rfl)
    exact Forms.class ht (n := blank .identifier) rfl (.inl rfl) braces forms_methods (c := blank .rightBrace) rfl
  intro nm p1 hnm hr1 m1
  have g1 := m1.on gp
  have m01 := m.trans m1
  have sup : Marks T (superclassClause env) (fun _ _ => True) (Live p₀ .declaration) p1 := by
    unfold superclassClause
    refine marks_bind (marks_match g1 ?_ ?_)
    · intro lt p2 hlt hr2 m2
      refine marks_bind (marks_identifier (m2.on g1) ?_ ?_)
      · refine live_then (m01.trans m2) (v := [TokenType.identifier, .leftBrace, .rightBrace].map blank) ?_ tidy_closed (tail_blanks rfl)
        exact Forms.class ht hnm (.inr ⟨lt, blank .identifier, hlt, rfl, rfl⟩) braces forms_methods (c := blank .rightBrace) rfl
      intro s p3 hs hr3 m3
      exact marks_pure trivial
    · intro t' r' hr' ht'
      exact marks_pure trivial
  refine marks_run (superclassClause_exact g1.ready) sup (fun k h => h) ?_
  rintro sc p2 ⟨w2, m2, hsc⟩ -
  have g2 := m2.on g1
  have m02 := m01.trans m2
  have hsc : w2 = [] ∨ ∃ lt s, lt.tokenType = .less ∧ s.tokenType = .identifier ∧ w2 = [lt, s] := by
    rcases hsc with ⟨-, h⟩ | ⟨lt, s, h1, h2, h3, -⟩
    · exact .inl h
    · exact .inr ⟨lt, s, h1, h2, h3⟩
  refine marks_bind (marks_beginBlock g2 ?_ ?_ ?_)
  · refine live_then m02 (v := [TokenType.leftBrace, .rightBrace].map blank) ?_ tidy_closed (tail_blanks rfl)
    simpa using Forms.class ht hnm hsc braces forms_methods (c := blank .rightBrace) rfl
  · intro t' p3 ht' m3
    refine live_then (m02.trans m3) (v := [TokenType.indent, .outdent].map blank) ?_ tidy_closed (tail_blanks rfl)
    have hb : BlockTokens [t', blank .indent] .outdent := .inr ⟨_, _, ht', rfl, rfl, rfl⟩
    simpa using Forms.class ht hnm hsc hb forms_methods (c := blank .outdent) rfl
  intro w3 eb p3 hb m3
  have g3 := m3.on g2
  have m03 := m02.trans m3
  have up : ∀ {k}, Live p3 .methods k → Live p₀ .declaration k := fun h =>
    h.wrap m03 (.inr (.inl ⟨by decide, by decide⟩)) fun W o hf ho => by
      have hf := forms_closed hf rfl
      refine ⟨[blank eb], .closed, by simpa using Forms.class ht hnm hsc hb hf (c := blank eb) rfl, tidy_closed, ?_⟩
      rcases hb.ends with rfl | rfl
      · exact tail_blanks (tts := [.rightBrace]) rfl
      · exact tail_blanks (tts := [.outdent]) rfl
  refine marks_run (classMethods_exact hr.exact g3.ready) ((classMethods_lives hr).keeps p3 g3) (fun k h => up h) ?_
  rintro fs p4 ⟨w4, m4, hd⟩ hl
  rw [m03.PL_eq] at hd
  refine marks_bind (marks_endBlock (m4.on g3) hb.ends (up hl) ?_)
  intro c p5 hc hr5 m5
  refine marks_pure (live_then (o := .closed) ((m03.trans m4).trans m5) (v := []) ?_ tidy_closed tail_nil)
  simpa using Forms.class ht hnm hsc hb (.of hd) hc

/-! ### Variable declarations -/

theorem varInitializer_lives {t nm : Token} (hr : RecL env T r) (g : On env T p₀) (m : Moves p₀ [t, nm] p1) (hl : Live p₀ sym p1.current)
    (hx : ∀ q term W o, q.tokenType = .equal → Optional .terminator term → Forms p₀.allowTrailing (decide (0 < p₀.inLoops)) o .expression W → o.Good →
      ∃ tail o', Forms p₀.allowTrailing (decide (0 < p₀.inLoops)) o' sym (t :: nm :: q :: term ++ W ++ tail) ∧ o'.Good ∧ Tail tail) :
    Marks T (varInitializer r) (fun _ p' => Live p₀ sym p'.current) (Live p₀ sym) p1 := by
  have g1 := m.on g
  unfold varInitializer
  refine marks_bind (marks_matches g1 (by decide) ?_ ?_)
  · intro q p2 hq hr2 m2
    simp only [List.mem_cons, List.not_mem_nil, or_false] at hq
    have main : ∀ term p3, Optional .terminator term → Moves p2 term p3 →
        Marks T (query (fun p => !p.check .indent && !p.check .leftBrace) >>= fun needsTerm =>
          expression r >>= fun e => (pure (e, needsTerm) : P (Expr × Bool)))
          (fun _ p' => Live p₀ sym p'.current) (Live p₀ sym) p3 := by
      intro term p3 hterm m3
      have up : ∀ {k}, Live p3 .expression k → Live p₀ sym k := fun h =>
        h.wrap ((m.trans m2).trans m3) (.inr (.inl ⟨by decide, by decide⟩)) fun W o hf ho => by
          obtain ⟨tail, o', h1, h2, h3⟩ := hx q term W o hq hterm hf ho
          exact ⟨tail, o', by simpa using h1, h2, h3⟩
      refine marks_query (marks_bind (marks_mono (hr.assignment.keeps p3 (m3.on (m2.on g1))) (fun x p4 h => ?_) fun k h => up h))
      exact marks_pure (up h)
    refine marks_bind (marks_match (m2.on g1) ?_ ?_)
    · intro t p3 ht hr3 m3
      exact main [t] p3 (.inr ⟨t, ht, rfl⟩) m3
    · intro t r' hr' ht
      exact main [] p2 (.inl rfl) (Moves.refl p2)
  · intro t r' hr' ht
    exact marks_pure hl

theorem varDeclaration_lives {t : Token} (hr : RecL env T r) (g : On env T p₀) (ht : t.tokenType = .var) (m : Moves p₀ [t] p) :
    Marks T (finishVarDeclaration env r false) (fun _ p' => Live p₀ .declaration p'.current) (Live p₀ .declaration) p := by
  have gp := m.on g
  unfold finishVarDeclaration
  refine marks_bind (marks_identifier gp ?_ ?_)
  · exact live_then m (v := [TokenType.identifier, .terminator].map blank)
      (Forms.var ht (n := blank .identifier) rfl (term := blank .terminator) rfl) tidy_closed (tail_blanks rfl)
  intro nm p1 hnm hr1 m1
  have g1 := m1.on gp
  have m01 := m.trans m1
  have hl1 : Live p₀ .declaration p1.current :=
    live_then m01 (v := [TokenType.terminator].map blank) (Forms.var ht hnm (term := blank .terminator) rfl) tidy_closed (tail_blanks rfl)
  refine marks_run (varInitializer_exact hr.exact g1.ready) (varInitializer_lives (sym := .declaration) hr g m01 hl1 ?_) (fun k h => h) ?_
  · intro q term W o hq hterm hf ho
    exact ⟨[blank .terminator], _, .var_init ht hnm hq hterm hf ho.1 rfl, tidy_line _, tail_blanks (tts := [.terminator]) rfl⟩
  rintro ⟨x, needs⟩ p2 (⟨hx, rfl⟩ | ⟨q, term, w, hq, hterm, m2, hd⟩) hl2
  · cases hx
    refine marks_bind ?_
    unfold endVarDeclaration
    simp only [Bool.false_eq_true, if_false, if_true]
    refine marks_consume g1 (by decide) hl2 ?_
    intro term p3 hterm hr3 m3
    exact marks_pure (live_then (o := .closed) (m01.trans m3) (v := []) (.var ht hnm hterm) tidy_closed tail_nil)
  · have g2 := m2.on g1
    rw [m01.PL_eq] at hd
    have line : ∀ term' p3, term'.tokenType = .terminator → p2.rest = term' :: p3.rest → Moves p2 [term'] p3 → Live p₀ .declaration p3.current := by
      intro term' p3 hterm' hr3 m3
      obtain ⟨o, hd, hh, -⟩ := hd.resolve_left (not_stuck hr3 (by rw [hterm']; decide))
      rw [hr3] at hh
      refine live_then ((m01.trans m2).trans m3) (v := []) (o := o.line) ?_ (tidy_line _) tail_nil
      simpa using Forms.var_init ht hnm hq hterm (.of hd) (hh.not_brace hterm' (by decide)) hterm'
    refine marks_bind ?_
    unfold endVarDeclaration
    simp only [Bool.false_eq_true, if_false]
    split
    · refine marks_consume g2 (by decide) hl2 ?_
      intro term' p3 h1 h2 h3
      exact marks_pure (line term' p3 h1 h2 h3)
    · refine marks_bind (marks_match g2 ?_ ?_)
      · intro term' p3 h1 h2 h3
        exact marks_pure (marks_pure (line term' p3 h1 h2 h3))
      · intro t' r' hr' ht'
        exact marks_pure (marks_pure hl2)

theorem forVar_lives {t : Token} (hr : RecL env T r) (g : On env T p₀) (ht : t.tokenType = .var) (m : Moves p₀ [t] p) :
    Marks T (finishVarDeclaration env r true) (fun _ _ => True) (Live p₀ .forInit) p := by
  have gp := m.on g
  unfold finishVarDeclaration
  refine marks_bind (marks_identifier gp ?_ ?_)
  · exact live_then m (v := [TokenType.identifier, .semicolon].map blank)
      (Forms.for_var ht (n := blank .identifier) rfl (semi := blank .semicolon) rfl) tidy_closed (tail_blanks rfl)
  intro nm p1 hnm hr1 m1
  have g1 := m1.on gp
  have m01 := m.trans m1
  have hl1 : Live p₀ .forInit p1.current :=
    live_then m01 (v := [TokenType.semicolon].map blank) (Forms.for_var ht hnm (semi := blank .semicolon) rfl) tidy_closed (tail_blanks rfl)
  refine marks_run (varInitializer_exact hr.exact g1.ready) (varInitializer_lives (sym := .forInit) hr g m01 hl1 ?_) (fun k h => h) ?_
  · intro q term W o hq hterm hf ho
    exact ⟨[blank .semicolon], .closed, .for_var_init ht hnm hq hterm hf ho.1 rfl, tidy_closed, tail_blanks (tts := [.semicolon]) rfl⟩
  rintro ⟨x, needs⟩ p2 hx hl2
  have g2 : On env T p2 := by
    rcases hx with ⟨-, rfl⟩ | ⟨q, term, w, -, -, m2, -⟩
    · exact g1
    · exact m2.on g1
  refine marks_bind ?_
  unfold endVarDeclaration
  simp only [if_true]
  refine marks_consume g2 (by decide) hl2 ?_
  intro semi p3 hsemi hr3 m3
  exact marks_pure trivial

/-! ### Simple statements -/

theorem expressionStatement_lives (hr : RecL env T r) (g : On env T p) :
    Marks T (expressionStatement env r) (fun _ _ => True) (Live p .expression) p := by
  unfold expressionStatement
  refine marks_run (hr.exact.assignment p g.ready) (hr.assignment.keeps p g) (fun k h => h) ?_
  rintro x p1 ⟨w, m, -, -⟩ hl
  refine marks_bind ?_
  unfold endExpressionStatement
  refine marks_query ?_
  split
  · refine marks_consume (m.on g) (by decide) hl ?_
    intro term p2 hterm hr2 m2
    exact marks_pure trivial
  · exact marks_pure (marks_pure trivial)

theorem forms_statement : Forms repl l .closed .statement ([TokenType.identifier, .terminator].map blank) :=
  .expression_statement (o := .closed) (w := []) (h₀ := blank .identifier) .blank (by decide) (by decide) rfl

theorem live_statement : Live p .statement p.current := live_start forms_statement tidy_closed (tail_blanks rfl)

theorem finishBreak_lives {t : Token} (g : On env T p₀) (ht : t.tokenType = .break) (m : Moves p₀ [t] p) :
    Marks T (finishBreakStatement env t.loc) (fun _ p' => Live p₀ .statement p'.current) (Live p₀ .statement) p := by
  unfold finishBreakStatement
  refine marks_query ?_
  split
  · exact marks_errorFromLast (w := []) g m live_statement
  · refine marks_bind (marks_consume (m.on g) (by decide) ?_ ?_)
    · exact live_then m (v := [TokenType.terminator].map blank) (Forms.break ht (term := blank .terminator) rfl) tidy_closed (tail_blanks rfl)
    intro term p2 hterm hr2 m2
    exact marks_pure (live_then (o := .closed) (m.trans m2) (v := []) (.break ht hterm) tidy_closed tail_nil)

theorem finishContinue_lives {t : Token} (g : On env T p₀) (ht : t.tokenType = .continue) (m : Moves p₀ [t] p) :
    Marks T (finishContinueStatement env t.loc) (fun _ p' => Live p₀ .statement p'.current) (Live p₀ .statement) p := by
  unfold finishContinueStatement
  refine marks_query ?_
  split
  · exact marks_errorFromLast (w := []) g m live_statement
  · refine marks_bind (marks_consume (m.on g) (by decide) ?_ ?_)
    · exact live_then m (v := [TokenType.terminator].map blank) (Forms.continue ht (term := blank .terminator) rfl) tidy_closed (tail_blanks rfl)
    intro term p2 hterm hr2 m2
    exact marks_pure (live_then (o := .closed) (m.trans m2) (v := []) (.continue ht hterm) tidy_closed tail_nil)

theorem finishPrint_lives {t : Token} (hr : RecL env T r) (g : On env T p₀) (ht : t.tokenType = .print) (m : Moves p₀ [t] p) :
    Marks T (finishPrintStatement env r) (fun _ p' => Live p₀ .statement p'.current) (Live p₀ .statement) p := by
  have gp := m.on g
  have up : ∀ {k}, Live p .expression k → Live p₀ .statement k := fun h =>
    h.wrap m (.inr (.inl ⟨by decide, by decide⟩)) fun W o hf ho =>
      ⟨[blank .terminator], _, Forms.print ht hf ho.1 rfl, tidy_line _, tail_blanks (tts := [.terminator]) rfl⟩
  unfold finishPrintStatement
  refine marks_run (hr.exact.assignment p gp.ready) (hr.assignment.keeps p gp) (fun k h => up h) ?_
  rintro x p1 ⟨w, m1, -, hd⟩ hl
  rw [m.PL_eq] at hd
  refine marks_bind (marks_consume (m1.on gp) (by decide) (up hl) ?_)
  intro term p2 hterm hr2 m2
  obtain ⟨o, hd, hh⟩ := hd.resolve_left (not_stuck hr2 (by rw [hterm]; decide))
  rw [hr2] at hh
  refine marks_pure (live_then (o := o.line) ((m.trans m1).trans m2) (v := []) ?_ (tidy_line _) tail_nil)
  simpa using Forms.print ht (.of hd) (hh.not_brace hterm (by decide)) hterm

theorem finishReturn_lives {t : Token} (hr : RecL env T r) (g : On env T p₀) (ht : t.tokenType = .return) (m : Moves p₀ [t] p) :
    Marks T (finishReturnStatement env r t.loc) (fun _ p' => Live p₀ .statement p'.current) (Live p₀ .statement) p := by
  have gp := m.on g
  have up : ∀ {k}, Live p .expression k → Live p₀ .statement k := fun h =>
    h.wrap m (.inr (.inl ⟨by decide, by decide⟩)) fun W o hf ho =>
      ⟨[blank .terminator], _, Forms.return ht hf ho.1 rfl, tidy_line _, tail_blanks (tts := [.terminator]) rfl⟩
  unfold finishReturnStatement
  refine marks_bind ?_
  unfold returnValue
  refine marks_query ?_
  split
  · refine marks_pure (marks_bind (marks_consume gp (by decide) ?_ ?_))
    · exact live_then m (v := [TokenType.terminator].map blank) (Forms.return_nil ht (term := blank .terminator) rfl) tidy_closed (tail_blanks rfl)
    intro term p2 hterm hr2 m2
    exact marks_pure (live_then (o := .closed) (m.trans m2) (v := []) (.return_nil ht hterm) tidy_closed tail_nil)
  · refine marks_mono (marks_with (hr.exact.assignment p gp.ready) (hr.assignment.keeps p gp)) ?_ (fun k h => up h)
    rintro x p1 ⟨⟨w, m1, -, hd⟩, hl⟩
    rw [m.PL_eq] at hd
    refine marks_bind (marks_consume (m1.on gp) (by decide) (up hl) ?_)
    intro term p2 hterm hr2 m2
    obtain ⟨o, hd, hh⟩ := hd.resolve_left (not_stuck hr2 (by rw [hterm]; decide))
    rw [hr2] at hh
    refine marks_pure (live_then (o := o.line) ((m.trans m1).trans m2) (v := []) ?_ (tidy_line _) tail_nil)
    simpa using Forms.return ht (.of hd) (hh.not_brace hterm (by decide)) hterm

/-! ### Bodies -/

theorem forms_body : Forms repl l .closed .body ([TokenType.leftBrace, .rightBrace].map blank) := .body_block forms_block

theorem live_body : Live p .body p.current := live_start forms_body tidy_closed (tail_blanks rfl)

theorem beginBlockIfAny_lives {message : String} (g : On env T p) : Marks T (beginBlockIfAny env message) (BodyBegun p) (Live p .body) p := by
  unfold beginBlockIfAny
  refine marks_query ?_
  split
  · refine marks_bind (marks_beginBlock g live_body ?_ ?_)
    · intro t p1 ht m1
      exact live_then m1 (v := [TokenType.indent, .outdent].map blank)
        (.body_block (.block_indented (w := []) ht (i := blank .indent) rfl (.of .declarations_nil) (by decide) (by decide) (c := blank .outdent) rfl))
        tidy_closed (tail_blanks rfl)
    intro w b p' hb m
    exact marks_pure (.inr ⟨b, w, rfl, hb, m⟩)
  · rename_i hc
    refine marks_pure (.inl ⟨rfl, rfl, ?_⟩)
    intro t r' hr' ht
    apply hc
    rw [check_cons hr', check_cons hr']
    simp [ht]

theorem blockOrStatement_lives {eb : Option TokenType} (hr : RecL env T r) (g : On env T p) (hb : BodyBegun p eb p1) :
    Marks T (blockOrStatement env r eb) (fun _ p' => Live p .body p'.current) (Live p .body) p1 := by
  unfold blockOrStatement
  rcases hb with ⟨rfl, rfl, hlb⟩ | ⟨b, w1, rfl, hb, m1⟩
  · have up : ∀ {k}, Live p1 .statement k → Live p1 .body k := fun h => by
      refine Live.wrap_ne (sym' := .statement) (Moves.refl p1) (.inl rfl) live_body ?_ h
      intro t w' s v o' h1 hfm hg hk
      exact ⟨[], o', by simpa using Forms.body hfm (hlb t _ h1), hg, tail_nil⟩
    exact marks_mono (hr.statement.keeps p1 g) (fun _ _ h => up h) fun _ h => up h
  · have g1 := m1.on g
    have up : ∀ {k}, Live p1 .declarations k → Live p .body k := fun h =>
      h.wrap m1 (.inr (.inl ⟨by decide, by decide⟩)) fun W o hf ho => by
        obtain ⟨tail, h1, h2⟩ := forms_closing hb hf ho
        exact ⟨tail, .closed, .body_block h1, tidy_closed, h2⟩
    refine marks_run (finishBlock_exact hr.exact g1.ready hb.ends) (finishBlock_lives hr g1 hb.ends) (fun k h => up h) ?_
    rintro ss p2 ⟨w2, t, o, m2, ht, hd, hf⟩ -
    rw [m1.PL_eq] at hd
    refine marks_pure (live_then (o := .closed) (m1.trans m2) (v := []) ?_ tidy_closed tail_nil)
    simpa using Forms.body_block (.of (block_exact hb ht hd hf))

theorem forms_paren {t b : Token} (ht : t.tokenType = .if) (hb : IsParen b) : Forms repl l .closed .statement
    (t :: b :: [TokenType.identifier, .rightParen, .leftBrace, .rightBrace].map blank) :=
  Forms.if (w₁ := [blank .identifier]) ht hb .blank (by decide) (c := blank .rightParen) rfl forms_body

theorem finishIf_lives {t : Token} (hr : RecL env T r) (g : On env T p₀) (ht : t.tokenType = .if) (m : Moves p₀ [t] p) :
    Marks T (finishIfStatement env r) (fun _ p' => Live p₀ .statement p'.current) (Live p₀ .statement) p := by
  have gp := m.on g
  unfold finishIfStatement
  refine marks_bind (marks_consumeAny gp (by decide) ?_ ?_)
  · exact live_then m (v := [TokenType.leftParen, .identifier, .rightParen, .leftBrace, .rightBrace].map blank)
      (forms_paren ht (b := blank .leftParen) (.inl rfl)) tidy_closed (tail_blanks rfl)
  intro b p1 hb hr1 m1
  have g1 := m1.on gp
  have m01 := m.trans m1
  have hb' : IsParen b := by simpa [IsParen] using hb
  have up : ∀ {k}, Live p1 .expression k → Live p₀ .statement k := fun h =>
    h.wrap m01 (.inr (.inl ⟨by decide, by decide⟩)) fun W o hf ho => by
      refine ⟨[TokenType.rightParen, .leftBrace, .rightBrace].map blank, .closed, ?_, tidy_closed, tail_blanks rfl⟩
      exact Forms.if ht hb' hf ho.1 (c := blank .rightParen) rfl forms_body
  refine marks_run (hr.exact.assignment p1 g1.ready) (hr.assignment.keeps p1 g1) (fun k h => up h) ?_
  rintro x p2 ⟨w2, m2, -, hx⟩ hl
  have g2 := m2.on g1
  refine marks_bind (marks_consume g2 (by decide) (up hl) ?_)
  intro c p3 hc hr3 m3
  have g3 := m3.on g2
  obtain ⟨ox, hx, hhx⟩ := hx.resolve_left (not_stuck hr3 (by rw [hc]; decide))
  rw [m01.PL_eq] at hx
  rw [hr3] at hhx
  have hox := hhx.not_brace hc (by decide)
  have m03 := (m01.trans m2).trans m3
  have upb : ∀ {k}, Live p3 .body k → Live p₀ .statement k := fun h =>
    h.wrap m03 (.inr (.inr (by simp))) fun W o hf ho =>
      ⟨[], o, by simpa using Forms.if ht hb' (.of hx) hox hc hf, ho, tail_nil⟩
  refine marks_bind (marks_mono (beginBlockIfAny_lives g3) (fun eb p4 hbeg => ?_) fun k h => upb h)
  refine marks_run (blockOrStatement_exact hr.exact g3.ready hbeg) (blockOrStatement_lives hr g3 hbeg) (fun k h => upb h) ?_
  rintro st p5 ⟨w5, m5, hst⟩ hl5
  have g5 := m5.on g3
  rw [m03.PL_eq] at hst
  have m05 := m03.trans m5
  refine marks_bind (marks_match g5 ?_ ?_)
  · intro el p6 hel hr6 m6
    obtain ⟨o, e, hst, hf⟩ := hst.resolve_left (not_stuck hr6 (by rw [hel]; decide))
    rw [hr6] at hf
    have he : e = false := by
      cases e with
      | false => rfl
      | true => exact absurd hel (hf.els rfl el _ rfl)
    subst he
    have ups : ∀ {k}, Live p6 .statement k → Live p₀ .statement k := fun h =>
      h.wrap (m05.trans m6) (.inr (.inl ⟨by decide, by decide⟩)) fun W o' hfm ho => by
        refine ⟨[], o', ?_, ho, tail_nil⟩
        simpa using Forms.if_else ht hb' (.of hx) hox hc hst (hf.not_brace (by rw [hel]; decide)) (hf.not_unfinished (by rw [hel]; decide)) hel hfm
    refine marks_bind (marks_mono (hr.statement.keeps p6 (m6.on g5)) (fun st' p7 h => ?_) fun k h => ups h)
    exact marks_pure (ups h)
  · intro t' r' hr' ht'
    exact marks_pure (upb hl5)

/-- The beginning of the body of a loop. -/
abbrev LiveBody (p : Parser) (k : Nat) : Prop := Can p.allowTrailing true p.rest p.current .body k

theorem loopBody_lives (hr : RecL env T r) (g : On env T p) (hl : p.inLoops < p.current) :
    Marks T (loopBodyStatement env r) (fun _ p' => LiveBody p p'.current) (LiveBody p) p := by
  have gd : On env T p.deeper := ⟨⟨g.ready.wf, g.ready.bound, g.ready.inb, hl, g.ready.safe⟩, g.tokens⟩
  have h1 : decide (0 < p.deeper.inLoops) = true := by simp [Parser.deeper]
  have up : ∀ {k}, Live p.deeper .body k → LiveBody p k := fun h => by
    unfold Live at h
    rw [h1] at h
    exact h
  unfold loopBodyStatement
  refine marks_seq (fun _ q => q = p.deeper) ?_ ?_
  · unfold Marks enterLoop
    split <;> rename_i hx
    · split at hx
      · cases hx
      · cases hx; rfl
    · split at hx <;> cases hx
    · trivial
    · trivial
  rintro _ q rfl
  refine marks_bind (marks_mono (beginBlockIfAny_lives gd) (fun eb p1 hbeg => ?_) fun k h => up h)
  have := marks_with (blockOrStatement_exact hr.exact gd.ready hbeg) (blockOrStatement_lives hr gd hbeg)
  unfold Marks at this
  unfold Marks thenLeaveLoop
  cases hy : blockOrStatement env r eb p1 with
  | ok a q =>
    rw [hy] at this
    obtain ⟨⟨w, m, -⟩, hlive⟩ := this
    have hi : q.inLoops = p.inLoops + 1 := m.inLoops
    simp only [show q.inLoops ≠ 0 by omega, if_false]
    exact up hlive
  | err c q =>
    rw [hy] at this
    obtain ⟨k, h2, h3, h4⟩ := this
    dsimp only
    split <;> rename_i hx
    · split at hx
      · split at hx <;> cases hx
      · cases hx
    · split at hx
      · split at hx
        · cases hx
        · cases hx; exact ⟨k, h2, up h3, h4⟩
      · cases hx; exact ⟨k, h2, up h3, h4⟩
    · trivial
    · trivial
  | panic msg => trivial
  | diverge => trivial

theorem Can.loop (m : Moves p₀ u p1) (hu : 2 ≤ u.length)
    (h : ∀ W o, Forms p₀.allowTrailing true o .body W → o.Good → Forms p₀.allowTrailing (decide (0 < p₀.inLoops)) o sym (u ++ W))
    (hl : LiveBody p1 k) : Live p₀ sym k :=
  live_wrap m (.inr (.inr hu)) (fun w s v o _ _ hf ho _ => ⟨[], o, by simpa using h (w ++ v) o hf ho, ho, tail_nil⟩) hl

theorem finishWhile_lives {t : Token} (hr : RecL env T r) (g : On env T p₀) (ht : t.tokenType = .while) (m : Moves p₀ [t] p) :
    Marks T (finishWhileStatement env r) (fun _ p' => Live p₀ .statement p'.current) (Live p₀ .statement) p := by
  have gp := m.on g
  unfold finishWhileStatement
  refine marks_bind (marks_consumeAny gp (by decide) ?_ ?_)
  · exact live_then m (v := [TokenType.leftParen, .identifier, .rightParen, .leftBrace, .rightBrace].map blank)
      (Forms.while (w₁ := [blank .identifier]) ht (b := blank .leftParen) (.inl rfl) .blank (by decide) (c := blank .rightParen) rfl forms_body)
      tidy_closed (tail_blanks rfl)
  intro b p1 hb hr1 m1
  have g1 := m1.on gp
  have m01 := m.trans m1
  have hb' : IsParen b := by simpa [IsParen] using hb
  have up : ∀ {k}, Live p1 .expression k → Live p₀ .statement k := fun h =>
    h.wrap m01 (.inr (.inl ⟨by decide, by decide⟩)) fun W o hf ho => by
      refine ⟨[TokenType.rightParen, .leftBrace, .rightBrace].map blank, .closed, ?_, tidy_closed, tail_blanks rfl⟩
      exact Forms.while ht hb' hf ho.1 (c := blank .rightParen) rfl forms_body
  refine marks_run (hr.exact.assignment p1 g1.ready) (hr.assignment.keeps p1 g1) (fun k h => up h) ?_
  rintro x p2 ⟨w2, m2, -, hx⟩ hl
  have g2 := m2.on g1
  refine marks_bind (marks_consume g2 (by decide) (up hl) ?_)
  intro c p3 hc hr3 m3
  have g3 := m3.on g2
  obtain ⟨ox, hx, hhx⟩ := hx.resolve_left (not_stuck hr3 (by rw [hc]; decide))
  rw [m01.PL_eq] at hx
  rw [hr3] at hhx
  have hox := hhx.not_brace hc (by decide)
  have m03 := (m01.trans m2).trans m3
  have upb : ∀ {k}, LiveBody p3 k → Live p₀ .statement k := fun h =>
    Can.loop m03 (by simp) (fun W o hf ho => by simpa using Forms.while ht hb' (.of hx) hox hc hf) h
  refine marks_bind (marks_mono (loopBody_lives hr g3 (m03.room g.ready (by simp))) (fun st p4 h => ?_) fun k h => upb h)
  exact marks_pure (upb h)

/-! ### For loops -/

theorem forInitializer_lives (hr : RecL env T r) (g : On env T p) :
    Marks T (forInitializer env r) (fun _ p' => Live p .forInit p'.current) (Live p .forInit) p := by
  unfold forInitializer
  refine marks_bind (marks_match g ?_ ?_)
  · intro t p1 ht hr1 m1
    exact marks_pure (live_then (o := .closed) m1 (v := []) (.for_none ht) tidy_closed tail_nil)
  · intro _ _ _ _
    refine marks_bind (marks_match g ?_ ?_)
    · intro t p1 ht hr1 m1
      refine marks_run (forVar_exact hr.exact g.ready ht m1) (forVar_lives hr g ht m1) (fun k h => h) ?_
      rintro st p2 ⟨w, m2, hd⟩ -
      exact marks_pure (live_of m2 hd (by decide))
    · intro _ _ _ _
      have up : ∀ {k}, Live p .expression k → Live p .forInit k := fun h =>
        h.wrap (Moves.refl p) (.inl rfl) fun W o hf ho =>
          ⟨[blank .terminator], _, .for_expression hf ho.1 rfl, tidy_line _, tail_blanks (tts := [.terminator]) rfl⟩
      refine marks_run (expressionStatement_exact hr.exact g.ready) (expressionStatement_lives hr g) (fun k h => up h) ?_
      rintro st p2 ⟨-, x, w, o, rfl, hd, ho, (⟨term, hterm, m2, hf⟩ | ⟨-, m2, t, hr2, ht⟩)⟩ -
      · exact marks_pure (live_then m2 (v := []) (by simpa using Forms.for_expression (.of hd) ho hterm) (tidy_line _) tail_nil)
      · exact marks_pure (up (live_of m2 hd (by decide)))

theorem finishFor_lives {t : Token} (hr : RecL env T r) (g : On env T p₀) (ht : t.tokenType = .for) (m : Moves p₀ [t] p) :
    Marks T (finishForStatement env r) (fun _ p' => Live p₀ .statement p'.current) (Live p₀ .statement) p := by
  have gp := m.on g
  unfold finishForStatement
  refine marks_bind (marks_consumeAny gp (by decide) ?_ ?_)
  · refine live_then m (v := [TokenType.leftParen, .semicolon, .semicolon, .rightParen, .leftBrace, .rightBrace].map blank) ?_ tidy_closed (tail_blanks rfl)
    exact Forms.for (w₀ := [blank .semicolon]) (w₁ := []) (w₂ := []) ht (b := blank .leftParen) (.inl rfl) (.for_none rfl) .condition_none (by simp)
      (semi := blank .semicolon) rfl .increment_none (c := blank .rightParen) rfl forms_body
  intro b p1 hb hr1 m1
  have g1 := m1.on gp
  have m01 := m.trans m1
  have hb' : IsParen b := by simpa [IsParen] using hb
  have upi : ∀ {k}, Live p1 .forInit k → Live p₀ .statement k := fun h =>
    h.wrap m01 (.inr (.inr (by simp))) fun W o hf ho => by
      refine ⟨[TokenType.semicolon, .rightParen, .leftBrace, .rightBrace].map blank, .closed, ?_, tidy_closed, tail_blanks rfl⟩
      have := Forms.for (w₁ := []) (w₂ := []) ht hb' hf .condition_none (fun _ ⟨_, _, _, h, _⟩ => by cases h)
        (semi := blank .semicolon) rfl .increment_none (c := blank .rightParen) rfl forms_body
      simpa using this
  refine marks_run (forInitializer_exact hr.exact g1.ready) (forInitializer_lives hr g1) (fun k h => upi h) ?_
  rintro init p2 ⟨w2, m2, hinit⟩ hl2
  have g2 := m2.on g1
  have m02 := m01.trans m2
  rw [m01.PL_eq] at hinit
  have upc : ∀ {k}, Live p2 .expression k → Live p₀ .statement k := fun h => by
    refine Live.wrap_ne (sym' := .expression) m02 (.inr (.inl ⟨by decide, by decide⟩)) (upi hl2) ?_ h
    intro a w' s v o' h1 hfm hg hk
    obtain ⟨o2, hinit, hmap⟩ := hinit.resolve_left (by
      rintro ⟨e, he, he'⟩
      obtain ⟨a', w'', h2, h3, -⟩ := (hfm.first : ExprHead _ _)
      cases h2
      rw [he] at h1
      have := (List.cons.inj h1).1
      rw [← this, he'] at h3
      revert h3; decide)
    refine ⟨[TokenType.semicolon, .rightParen, .leftBrace, .rightBrace].map blank, .closed, ?_, tidy_closed, tail_blanks rfl⟩
    have := Forms.for (w₂ := []) ht hb' (.of hinit) (.condition hfm hg.1) (fun ho hk' => hmap ho (hk hk'))
      (semi := blank .semicolon) rfl .increment_none (c := blank .rightParen) rfl forms_body
    simpa using this
  have hcond : Marks T (forCondition r) (fun x p3 => (∃ w3, Moves p2 w3 p3 ∧ (x = .literalBool true ∧ w3 = [] ∨ Stuck p3 ∨
      ∃ o, PL p₀ o false .expression w3 (.expr x) ∧ Halt o 1 p3.rest)) ∧ Live p₀ .statement p3.current) (Live p₀ .statement) p2 := by
    unfold forCondition
    refine marks_query ?_
    split
    · exact marks_pure ⟨⟨[], Moves.refl p2, .inl ⟨rfl, rfl⟩⟩, upi hl2⟩
    · refine marks_mono (marks_with (hr.exact.assignment p2 g2.ready) (hr.assignment.keeps p2 g2)) ?_ fun k h => upc h
      rintro x p3 ⟨⟨w3, m3, -, hd⟩, hl3⟩
      rw [m02.PL_eq] at hd
      exact ⟨⟨w3, m3, .inr hd⟩, upc hl3⟩
  refine marks_seq _ hcond ?_
  rintro cond p3 ⟨⟨w3, m3, hcond⟩, hl3⟩
  have g3 := m3.on g2
  refine marks_bind (marks_consume g3 (by decide) hl3 ?_)
  intro semi p4 hsemi hr4 m4
  have g4 := m4.on g3
  obtain ⟨o2, hinit, hmap⟩ : ∃ o, PL p₀ o false .forInit w2 (.optStmt init) ∧ (o = .map → ¬ KeyColon p2.rest) := by
    refine hinit.resolve_left ?_
    rintro ⟨u, hu, hu'⟩
    have hw3 : w3 = [] := by
      cases w3 with
      | nil => rfl
      | cons a w3 =>
        have h1 := m3.head
        rw [hu] at h1
        have h2 := (List.cons.inj h1).1
        exact absurd (h2 ▸ hu') (m3.noEof a (by simp))
    subst hw3
    have := m3.eq_nil
    subst this
    rw [hu] at hr4
    have h2 := (List.cons.inj hr4).1
    rw [h2, hsemi] at hu'
    cases hu'
  have hcond : PL p₀ .closed false .forCondition w3 (.expr cond) := by
    rcases hcond with ⟨rfl, rfl⟩ | hcond
    · exact .condition_none
    · obtain ⟨o, hd, hh⟩ := hcond.resolve_left (not_stuck hr4 (by rw [hsemi]; decide))
      rw [hr4] at hh
      exact .condition hd (hh.not_brace hsemi (by decide))
  have hkey : o2 = .map → ¬ KeyColon w3 := by
    intro h hk
    refine hmap h ?_
    rw [m3.rest]
    exact KeyColon.append hk
  have m04 := (m02.trans m3).trans m4
  have upn : ∀ {k}, Live p4 .expression k → Live p₀ .statement k := fun h =>
    h.wrap m04 (.inr (.inl ⟨by decide, by decide⟩)) fun W o hf ho => by
      refine ⟨[TokenType.rightParen, .leftBrace, .rightBrace].map blank, .closed, ?_, tidy_closed, tail_blanks rfl⟩
      have := Forms.for ht hb' (.of hinit) (.of hcond) hkey hsemi (.increment hf ho.1) (c := blank .rightParen) rfl forms_body
      simpa using this
  have hinc : Marks T (forIncrement r) (fun x p5 => (∃ w5, Moves p4 w5 p5 ∧ (x = none ∧ w5 = [] ∨ Stuck p5 ∨
      ∃ o y, x = some y ∧ PL p₀ o false .expression w5 (.expr y) ∧ Halt o 1 p5.rest)) ∧ Live p₀ .statement p5.current) (Live p₀ .statement) p4 := by
    unfold forIncrement
    refine marks_query ?_
    split
    · refine marks_pure ⟨⟨[], Moves.refl p4, .inl ⟨rfl, rfl⟩⟩, ?_⟩
      refine live_then m04 (v := [TokenType.rightParen, .leftBrace, .rightBrace].map blank) (o := .closed) ?_ tidy_closed (tail_blanks rfl)
      have := Forms.for (w₂ := []) ht hb' (.of hinit) (.of hcond) hkey hsemi .increment_none (c := blank .rightParen) rfl forms_body
      simpa using this
    · refine marks_run (hr.exact.assignment p4 g4.ready) (hr.assignment.keeps p4 g4) (fun k h => upn h) ?_
      rintro x p5 ⟨w5, m5, -, hd⟩ hl5
      rw [m04.PL_eq] at hd
      exact marks_pure ⟨⟨w5, m5, .inr (hd.imp id fun ⟨o, hd, hh⟩ => ⟨o, x, rfl, hd, hh⟩)⟩, upn hl5⟩
  refine marks_seq _ hinc ?_
  rintro inc p5 ⟨⟨w5, m5, hinc⟩, hl5⟩
  have g5 := m5.on g4
  refine marks_bind (marks_consume g5 (by decide) hl5 ?_)
  intro c p6 hc hr6 m6
  have g6 := m6.on g5
  have hinc : PL p₀ .closed false .forIncrement w5 (.optExpr inc) := by
    rcases hinc with ⟨rfl, rfl⟩ | hinc
    · exact .increment_none
    · obtain ⟨o, y, rfl, hd, hh⟩ := hinc.resolve_left (not_stuck hr6 (by rw [hc]; decide))
      rw [hr6] at hh
      exact .increment hd (hh.not_brace hc (by decide))
  have m06 := (m04.trans m5).trans m6
  have upb : ∀ {k}, LiveBody p6 k → Live p₀ .statement k := fun h =>
    Can.loop m06 (by simp) (fun W o hf ho => by
      simpa using Forms.for ht hb' (.of hinit) (.of hcond) hkey hsemi (.of hinc) hc hf) h
  refine marks_bind (marks_mono (loopBody_lives hr g6 (m06.room g.ready (by simp))) (fun st p7 h => ?_) fun k h => upb h)
  cases init with
  | none => exact marks_pure (upb h)
  | some st => exact marks_pure (upb h)

/-! ### Statements and declarations -/

theorem statementBody_lives (hr : RecL env T r) : Lives env T .statement (statementBody env r) := by
  constructor
  intro p₀ g
  unfold statementBody
  refine marks_bind (marks_matches g (by decide) ?_ ?_)
  · intro t p1 ht hr1 m1
    simp only [List.mem_cons, List.not_mem_nil, or_false] at ht
    rcases ht with ht | ht | ht | ht | ht | ht | ht | ht <;> simp only [ht]
    · exact finishBreak_lives g ht m1
    · exact finishContinue_lives g ht m1
    · exact finishFor_lives hr g ht m1
    · exact finishIf_lives hr g ht m1
    · have up : ∀ {k}, Live p1 .declarations k → Live p₀ .statement k := fun h =>
        h.wrap m1 (.inr (.inl ⟨by decide, by decide⟩)) fun W o hf ho => by
          refine ⟨[TokenType.print, .identifier, .terminator, .rightBrace].map blank, .closed, ?_, tidy_closed, tail_blanks rfl⟩
          simpa using Forms.braces ht (hf.more ho) (by decide) (by decide) (c := blank .rightBrace) rfl
      refine marks_run (finishBlock_exact hr.exact (m1.on g).ready (.inl rfl)) (finishBlock_lives hr (m1.on g) (.inl rfl)) (fun k h => up h) ?_
      rintro ss p2 ⟨w, c, o, m2, hc, hd, hf⟩ -
      rw [m1.PL_eq] at hd
      refine marks_pure (live_then (o := .closed) (m1.trans m2) (v := []) ?_ tidy_closed tail_nil)
      simpa using Forms.braces ht (.of hd) (hf.not_map hc) (hf.not_unfinished (by rw [hc]; decide)) hc
    · exact finishPrint_lives hr g ht m1
    · exact finishReturn_lives hr g ht m1
    · exact finishWhile_lives hr g ht m1
  · intro t r' hr' ht
    have hlb : t.tokenType ≠ .leftBrace := fun h => ht (by simp [h])
    have up : ∀ {k}, Live p₀ .expression k → Live p₀ .statement k := fun h => by
      refine Live.wrap_ne (sym' := .expression) (Moves.refl p₀) (.inl rfl) live_statement ?_ h
      intro t' w' s v o' h1 hfm hg hk
      have : t' = t := by
        rw [hr'] at h1
        exact (List.cons.inj h1).1.symm
      subst this
      exact ⟨[blank .terminator], _, .expression_statement hfm hlb hg.1 rfl, tidy_line _, tail_blanks (tts := [.terminator]) rfl⟩
    refine marks_mono (marks_with (expressionStatement_exact hr.exact g.ready) (expressionStatement_lives hr g)) ?_ fun k h => up h
    rintro st p2 ⟨⟨-, x, w, o, rfl, hd, ho, h⟩, -⟩
    rcases h with ⟨term, hterm, m2, -⟩ | ⟨-, m2, -⟩
    · obtain ⟨h0, w', rfl, -⟩ := (plain_first hd : ExprHead _ w)
      have : h0 = t := by
        have h1 := m2.rest
        rw [hr'] at h1
        exact (List.cons.inj h1).1.symm
      subst this
      exact live_then m2 (v := []) (by simpa using Forms.expression_statement (.of hd) hlb ho hterm) (tidy_line _) tail_nil
    · exact up (live_of m2 hd (by decide))

theorem statementBody_idle (hr : RecL env T r) : Idle env T (statementBody env r) := by
  constructor
  intro p g hs
  unfold statementBody
  refine marks_bind (marks_matches g (by decide) ?_ ?_)
  · intro t p'' ht hr m
    exact absurd hs (not_stuck hr (fun h => by rw [h] at ht; simp at ht))
  · intro t r' hr' ht
    unfold expressionStatement
    refine marks_seq _ (hr.idleAssignment.keeps p g hs) ?_
    rintro x p' rfl
    refine marks_bind ?_
    unfold endExpressionStatement
    refine marks_query ?_
    split
    · refine marks_consume g (by decide) rfl ?_
      intro term p2 hterm hr2 m2
      exact absurd hs (not_stuck hr2 (by rw [hterm]; decide))
    · exact marks_pure (marks_pure rfl)

theorem live_declaration : Live p .declaration p.current := live_start (Forms.declaration forms_statement) tidy_closed (tail_blanks rfl)

theorem declarationBody_lives (hr : RecL env T r) : Lives env T .declaration (declarationBody env r) := by
  constructor
  intro p₀ g
  unfold declarationBody
  refine marks_bind (marks_match g ?_ ?_)
  · intro t p1 ht hr1 m1
    exact finishClassDeclaration_lives hr g ht m1
  intro _ _ _ _
  refine marks_query ?_
  split
  · refine marks_bind (marks_consume g (by decide) live_declaration ?_)
    intro t p1 ht hr1 m1
    have up : ∀ {k}, Live p1 .named k → Live p₀ .declaration k := fun h =>
      h.wrap m1 (.inr (.inl ⟨by decide, by decide⟩)) fun W o hf ho => by
        exact ⟨[], .closed, by simpa using Forms.fun_decl ht (forms_closed hf rfl), tidy_closed, tail_nil⟩
    refine marks_bind (marks_mono ((finishFunDeclaration_lives hr).keeps p1 (m1.on g)) (fun f p2 h => ?_) fun k h => up h)
    exact marks_pure (up h)
  · refine marks_bind (marks_match g ?_ ?_)
    · intro t p1 ht hr1 m1
      exact varDeclaration_lives hr g ht m1
    · intro _ _ _ _
      have up : ∀ {k}, Live p₀ .statement k → Live p₀ .declaration k := fun h => h.down fun w o h ho => ⟨o, h.declaration, ho⟩
      exact marks_mono (hr.statement.keeps p₀ g) (fun _ _ h => up h) fun _ h => up h

theorem declarationBody_idle (hr : RecL env T r) : Idle env T (declarationBody env r) := by
  constructor
  intro p g hs
  have hno : ∀ {tt : TokenType}, tt ≠ .this → p.check tt = false := by
    intro tt htt
    obtain ⟨t, r', hr', ht⟩ := hs.head
    rw [check_cons hr', ht]
    simpa using htt.symm
  unfold declarationBody
  refine marks_bind (marks_match g ?_ ?_)
  · intro t p'' ht hr m
    exact absurd hs (not_stuck hr (by rw [ht]; decide))
  intro _ _ _ _
  refine marks_query ?_
  rw [hno (by decide)]
  refine marks_bind (marks_match g ?_ ?_)
  · intro t p'' ht hr m
    exact absurd hs (not_stuck hr (by rw [ht]; decide))
  intro _ _ _ _
  exact hr.idleStatement.keeps p g hs

theorem recN_lives (env : Env) (T : List Token) (n : Nat) : RecL env T (recN env n) := by
  induction n with
  | zero => exact ⟨recN_exact env 0, ⟨fun p g => trivial⟩, ⟨fun p g => trivial⟩, ⟨fun p g => trivial⟩, ⟨fun p g => trivial⟩,
      ⟨fun p g _ => trivial⟩, ⟨fun p g _ => trivial⟩, ⟨fun p g _ => trivial⟩, ⟨fun p g _ => trivial⟩⟩
  | succ n ih =>
    exact ⟨recN_exact env (n + 1), unaryBody_lives ih (functionDefinition_exact ih.exact) (functionDefinition_lives ih),
      assignmentBody_lives ih, statementBody_lives ih, declarationBody_lives ih, unaryBody_idle ih, assignmentBody_idle ih,
      statementBody_idle ih, declarationBody_idle ih⟩

end Ws
