import Verif.Proofs.Parse.Wp
import Verif.Proofs.Parse.Grammar
/-! Every parsing function returns or throws; what it consumes is derived by the grammar. -/
namespace Ws
open Spec

variable {α β σ : Type} {env : Env} {p p₀ p' p'' : Parser} {w w' : List Token} {n : Nat} {r : Rec}

/-- Tokens are consumed unless the parser is stuck. -/
def Progress (w : List Token) (p : Parser) : Prop := (w ≠ [] ∧ ¬ Stuck p) ∨ (w = [] ∧ Stuck p)

/-- After success of an expression function. -/
def PostE (nt : NT) (p : Parser) (e : Expr) (p' : Parser) : Prop :=
  ∃ w, Moves p w p' ∧ (D p nt w (.expr e) ∨ Stuck p') ∧ Progress w p

/-- After success of a statement function. -/
def PostS (nt : NT) (p : Parser) (s : Stmt) (p' : Parser) : Prop :=
  ∃ w, Moves p w p' ∧ (D p nt w (.stmt s) ∨ Stuck p') ∧ w ≠ [] ∧ ¬ Stuck p

/-- The recursive functions meet their specifications as long as `n` levels of recursion suffice. -/
structure RecOk (env : Env) (n : Nat) (r : Rec) : Prop where
  unary : ∀ p, Ready env p → 4 * p.rest.length + 1 ≤ n → wp r.unary (PostE .unary p) (Err p) p
  assignment : ∀ p, Ready env p → 4 * p.rest.length + 2 ≤ n → wp r.assignment (PostE .expression p) (Err p) p
  statement : ∀ p, Ready env p → 4 * p.rest.length + 3 ≤ n → wp r.statement (PostS .statement p) (Err p) p
  declaration : ∀ p, Ready env p → 4 * p.rest.length + 4 ≤ n → wp r.declaration (PostS .declaration p) (Err p) p

theorem wp_expr {x : P Expr} {nt : NT} {Q : Expr → Parser → Prop} (m : Moves p₀ w p)
    (hx : wp x (PostE nt p) (Err p) p)
    (k : ∀ e p' w', Moves p₀ (w ++ w') p' → Moves p w' p' → (D p₀ nt w' (.expr e) ∨ Stuck p') →
      Progress w' p → Q e p') : wp x Q (Err p₀) p := by
  refine wp_mono hx ?_ (fun _ _ h => h.trans m)
  rintro e p' ⟨w', m', hd, hw⟩
  rw [m.D_eq] at hd
  exact k e p' w' (m.trans m') m' hd hw

theorem wp_stmt {x : P Stmt} {nt : NT} {Q : Stmt → Parser → Prop} (m : Moves p₀ w p)
    (hx : wp x (PostS nt p) (Err p) p)
    (k : ∀ s p' w', Moves p₀ (w ++ w') p' → Moves p w' p' → (D p₀ nt w' (.stmt s) ∨ Stuck p') →
      w' ≠ [] → ¬ Stuck p → Q s p') : wp x Q (Err p₀) p := by
  refine wp_mono hx ?_ (fun _ _ h => h.trans m)
  rintro e p' ⟨w', m', hd, hw, hs⟩
  rw [m.D_eq] at hd
  exact k e p' w' (m.trans m') m' hd hw hs

theorem Moves.shorter {t : Token} (m : Moves p [t] p') : p'.rest.length + 1 = p.rest.length := by
  have := m.length; simp at this; omega

theorem Moves.le (m : Moves p w p') : p'.rest.length ≤ p.rest.length := by
  have := m.length; omega

theorem Moves.lt (m : Moves p w p') (h : w ≠ []) : p'.rest.length < p.rest.length := by
  have := m.length
  have : 0 < w.length := List.length_pos_iff.2 h
  omega

theorem not_stuck {t : Token} {r : List Token} (hr : p.rest = t :: r) (ht : t.tokenType ≠ .this) : ¬ Stuck p :=
  fun hs => ht (hs.ne hr)

theorem Moves.eq_nil (m : Moves p [] p') : p' = p := by rw [m.eq]; rfl

/-- Progress goes on. -/
theorem Progress.more (h : Progress w p₀) (m : Moves p₀ w p) (hs : ¬ Stuck p) (hw : w' ≠ []) : Progress (w ++ w') p₀ := by
  rcases h with h | ⟨h, h'⟩
  · exact .inl ⟨by simp [hw], h.2⟩
  · subst h; rw [m.eq_nil] at hs; exact absurd h' hs

/-! ### Binary operators -/

/-- The level of the grammar. -/
def Level.prec : Level → Prec
  | .or => .or | .and => .and | .equality => .equality | .comparison => .comparison
  | .addition => .addition | .multiplication => .multiplication

theorem level_node {l : Level} {tt : TokenType} (h : tt ∈ l.operators) :
    ∃ b, l.node tt = some b ∧ l.prec.node tt = some b := by
  cases l <;> simp [Level.operators] at h <;> rcases h with rfl | rfl | rfl | rfl <;> exact ⟨_, rfl, rfl⟩

theorem binaryLevel_ok {l : Level} {operand : P Expr}
    (hop : ∀ p, Ready env p → 4 * p.rest.length + 1 ≤ n → wp operand (PostE l.prec.above p) (Err p) p)
    (p₀ : Parser) (g : Ready env p₀) (hn : 4 * p₀.rest.length + 1 ≤ n) :
    wp (binaryLevel l operand) (PostE (.binary l.prec) p₀) (Err p₀) p₀ := by
  unfold binaryLevel
  refine wp_bind (wp_expr (Moves.refl p₀) (hop p₀ g hn) ?_)
  intro e p w m _ hd hw
  refine wp_loop (fun e p => ∃ w, Moves p₀ w p ∧ (D p₀ (.binary l.prec) w (.expr e) ∨ Stuck p) ∧
    Progress w p₀) ?_ ⟨w, m, hd.imp .operand id, hw⟩
  rintro e p ⟨w, m, hd, hw⟩
  have g' := m.good g
  refine wp_bind (wp_matchesAny g' (by cases l <;> decide) ?_ ?_)
  · intro t p' ht hr m'
    have hns : ¬ Stuck p := not_stuck hr (fun h => by rw [h] at ht; cases l <;> simp [Level.operators] at ht)
    have hd := hd.resolve_right hns
    have h2 := m.le
    have h3 := m'.shorter
    refine wp_bind (wp_expr (m.trans m') (hop p' (m'.good g') (by omega)) ?_)
    intro b p'' w' m'' mb hb _
    obtain ⟨build, h4, h5⟩ := level_node ht
    simp only [h4]
    refine wp_pure ⟨⟨w ++ t :: w', by simpa using m'', hb.imp (fun hb => .operator hd h5 hb) id,
      hw.more m hns (by simp)⟩, ?_⟩
    have := mb.le; omega
  · intro t r hr ht
    exact wp_pure ⟨w, m, hd, hw⟩

theorem orExpr_ok (hr : RecOk env n r) (p : Parser) (g : Ready env p) (hn : 4 * p.rest.length + 1 ≤ n) :
    wp (orExpr r) (PostE (.binary .or) p) (Err p) p :=
  binaryLevel_ok (l := .or) (binaryLevel_ok (l := .and) (binaryLevel_ok (l := .equality)
    (binaryLevel_ok (l := .comparison) (binaryLevel_ok (l := .addition)
      (binaryLevel_ok (l := .multiplication) hr.unary))))) p g hn

/-! ### Assignment -/

theorem mkAssignment_ok {target rhs : Expr} {loc : SourceLoc} {Q : Expr → Parser → Prop} {E : Cause → Parser → Prop}
    (h1 : ∀ e, Assigns rhs loc target e → Q e p)
    (h2 : ∀ message, E (.newWithLocation loc c!"=" message) p) : wp (mkAssignment target rhs loc) Q E p := by
  unfold mkAssignment
  split
  · exact wp_pure (h1 _ (.property _ _ _))
  · exact wp_pure (h1 _ (.index _ _ _))
  · split
    · exact wp_throw (h2 _)
    · rename_i h
      exact wp_pure (h1 _ (.variable _ _ _ h))
  · exact wp_throw (h2 _)

theorem assignmentTarget_ok (hr : RecOk env n r) (p₀ : Parser) (g : Ready env p₀) (hn : 4 * p₀.rest.length + 2 ≤ n + 1) :
    wp (assignmentTarget env r) (PostE .target p₀) (Err p₀) p₀ := by
  unfold assignmentTarget
  refine wp_bind (wp_matchToken g ?_ ?_)
  · intro i p1 hi hr1 m1
    have h3 := m1.shorter
    have g1 := m1.good g
    refine wp_bind (wp_expr m1 (orExpr_ok hr p1 g1 (by omega)) ?_)
    intro e p2 w m2 m2' hd hw
    have g2 := m2.good g
    have fin : ∀ term p3, Optional .terminator term → (D p₀ (.binary .or) w (.expr e) ∨ Stuck p3) →
        Moves p₀ ([i] ++ w ++ term) p3 →
        wp (do
          consume env .outdent "Expect outdent after indented expression."
          pure e) (PostE .target p₀) (Err p₀) p3 := by
      intro term p3 ho hd m3
      refine wp_bind (wp_consume g m3 hd (by decide) (by decide) ?_)
      intro hd o p4 ht hr4 m4
      exact wp_pure ⟨i :: w ++ term ++ [o], by simpa using m4, .inl (.target_indented hi hd ho ht),
        .inl ⟨by simp, not_stuck hr1 (by rw [hi]; decide)⟩⟩
    refine wp_bind (wp_matchToken g2 ?_ ?_)
    · intro t p3 ht hr3 m3
      refine fin [t] p3 (.inr ⟨t, ht, rfl⟩) ?_ (m2.trans m3)
      exact .inl (hd.resolve_right (not_stuck hr3 (by rw [ht]; decide)))
    · intro t r' hr' ht
      exact fin [] p2 (.inl rfl) hd (by simpa using m2)
  · intro t r' hr' ht
    refine wp_mono (orExpr_ok hr p₀ g (by omega)) ?_ (fun _ _ h => h)
    rintro e p ⟨w, m, hd, hw⟩
    exact ⟨w, m, hd.imp .target_plain id, hw⟩

theorem assignmentBody_ok (hr : RecOk env n r) (p₀ : Parser) (g : Ready env p₀) (hn : 4 * p₀.rest.length + 2 ≤ n + 1) :
    wp (assignmentBody env r) (PostE .expression p₀) (Err p₀) p₀ := by
  unfold assignmentBody
  refine wp_seq _ (assignmentTarget_ok hr p₀ g hn) ?_
  rintro e p ⟨w, m, hd, hw⟩
  refine wp_bind (wp_matchesAny (m.good g) (by decide) ?_ ?_)
  · intro t p' ht hr' m'
    simp only [List.mem_cons, List.not_mem_nil, or_false] at ht
    have hns : ¬ Stuck p := not_stuck hr' (by rw [ht]; decide)
    have hd := hd.resolve_right hns
    have h2 := m.le
    have h3 := m'.shorter
    have g' := m'.good (m.good g)
    refine wp_bind (wp_expr (m.trans m') (hr.assignment p' g' (by omega)) ?_)
    intro b p'' w' m'' mb hb hb'
    refine mkAssignment_ok ?_ ?_
    · intro e' he'
      exact ⟨w ++ t :: w', by simpa using m'', hb.imp (fun hb => .assignment hd ht hb he') id,
        hw.more m hns (by simp)⟩
    · intro message
      refine m''.err g (t := t) (by simp) ⟨rfl, .inl ?_⟩
      have hmem := (m.good g).mem hr'
      rw [← (m.good g).wf.equal t hmem ht]
      rfl
  · intro t r' hr' ht
    exact wp_pure ⟨w, m, hd.imp .expression id, hw⟩

/-! ### Blocks and functions -/

theorem finishBlock_ok {endBlock : TokenType} {Q : List Stmt → Parser → Prop} (hr : RecOk env n r) (g : Ready env p₀)
    (m : Moves p₀ w p) (hn : 4 * p.rest.length + 4 ≤ n) (he : endBlock = .rightBrace ∨ endBlock = .outdent)
    (k : ∀ ss w' t p', D p₀ .declarations w' (.stmts ss) → t.tokenType = endBlock →
      Moves p₀ (w ++ w' ++ [t]) p' → Q ss p') : wp (finishBlock env r endBlock) Q (Err p₀) p := by
  unfold finishBlock
  refine wp_seq (fun ss p' => ∃ w', Moves p₀ (w ++ w') p' ∧ (D p₀ .declarations w' (.stmts ss) ∨ Stuck p')) ?_ ?_
  · refine wp_loop (fun ss p' => p'.rest.length ≤ p.rest.length ∧ ∃ w', Moves p₀ (w ++ w') p' ∧
      (D p₀ .declarations w' (.stmts ss) ∨ Stuck p')) ?_
      ⟨Nat.le_refl _, [], by simpa using m, .inl .declarations_nil⟩
    rintro ss p1 ⟨hl, w', m1, hd⟩
    have g1 := m1.good g
    refine wp_bind (wp_query ?_)
    split
    · refine wp_bind (wp_stmt m1 (hr.declaration p1 g1 (by omega)) ?_)
      intro s p2 w2 m2 m2' hs hw2 hns
      refine wp_pure ⟨⟨?_, w' ++ w2, by simpa using m2, ?_⟩, m2'.lt hw2⟩
      · have := m2'.le; omega
      · exact hs.imp (fun hs => .declarations (hd.resolve_right hns) hs) id
    · exact wp_pure ⟨w', m1, hd⟩
  · rintro ss p1 ⟨w', m1, hd⟩
    refine wp_bind (wp_consumeEndBlock g m1 hd he ?_)
    intro hd t p2 ht m2
    exact wp_pure (k ss w' t p2 hd ht m2)

theorem parameterList_ok {Q : List Parameter → Parser → Prop} (g : Ready env p₀) (m : Moves p₀ w p)
    (k : ∀ ps w' p', (ps = [] ∧ w' = [] ∨ D p₀ .parameters w' (.params ps)) → Moves p₀ (w ++ w') p' → Q ps p') :
    wp (parameterList env) Q (Err p₀) p := by
  unfold parameterList
  refine wp_bind (wp_query ?_)
  split
  · refine wp_loop (fun ps p' => ∃ w', Moves p₀ (w ++ w') p' ∧ (ps = [] ∧ w' = [] ∨
      ∃ w'' c, w' = w'' ++ [c] ∧ c.tokenType = .comma ∧ D p₀ .parameters w'' (.params ps))) ?_
      ⟨[], by simpa using m, .inl ⟨rfl, rfl⟩⟩
    rintro ps p1 ⟨w', m1, hd⟩
    refine wp_bind (wp_consumeIdentifier g m1 ?_)
    intro t p2 ht hr2 m2
    dsimp only
    split
    · exact wp_throw (m2.err g (t := t) (by simp) (reports_lexeme _ _))
    · rename_i hlen
      have hd' : D p₀ .parameters (w' ++ [t]) (.params (ps ++ [⟨t.lexeme, t.loc⟩])) := by
        rcases hd with ⟨rfl, rfl⟩ | ⟨w'', c, rfl, hc, hd⟩
        · exact .parameter ht
        · simpa using Grammar.parameters hd (by omega) hc ht
      have hlt : p2.rest.length < p1.rest.length := by rw [hr2]; simp
      refine wp_bind (wp_matchToken (m2.good g) ?_ ?_)
      · intro c p3 hc hr3 m3
        refine wp_pure ⟨⟨w' ++ [t] ++ [c], by simpa using m2.trans m3, .inr ⟨_, c, rfl, hc, hd'⟩⟩, ?_⟩
        have := m3.le; omega
      · intro t' r' hr' ht'
        exact wp_pure (k _ (w' ++ [t]) p2 (.inr hd') (by simpa using m2))
  · exact wp_pure (k [] [] p (.inl ⟨rfl, rfl⟩) (by simpa using m))

theorem functionDefinition_ok {loc : SourceLoc} {Q : FunDef → Parser → Prop} (hr : RecOk env n r) (g : Ready env p₀)
    (m : Moves p₀ w p) (hn : 4 * p.rest.length ≤ n)
    (k : ∀ d w' p', D p₀ (.function loc) w' (.fn d) → Moves p₀ (w ++ w') p' → Q d p') :
    wp (functionDefinition env r loc) Q (Err p₀) p := by
  unfold functionDefinition
  refine wp_bind (wp_consumeAnyOf g m (by decide) ?_)
  intro o p1 ho hr1 m1
  refine wp_bind (parameterList_ok g m1 ?_)
  intro ps w2 p2 hps m2
  refine wp_bind (wp_consume g m2 (.inl trivial) (by decide) (by decide) ?_)
  intro _ c p3 hc hr3 m3
  refine wp_bind (wp_consumeBeginBlock g m3 ?_)
  intro w4 eb p4 hb _ m4
  have hl : 4 * p4.rest.length + 4 ≤ n := by
    have h1 := m1.length
    have h4 := m4.length
    have h0 := m.length
    simp at h1 h4
    omega
  refine wp_bind (finishBlock_ok hr g m4 hl ?_ ?_)
  · rcases hb with ⟨_, _, _, h⟩ | ⟨_, _, _, _, _, h⟩ <;> simp [h]
  · intro ss w5 t p5 hd ht m5
    have hblock : D p₀ .block (w4 ++ w5 ++ [t]) (.stmts ss) := by
      rcases hb with ⟨o, ho, rfl, rfl⟩ | ⟨t', i, ht', hi, rfl, rfl⟩
      · exact .block_braces ho hd ht
      · exact .block_indented ht' hi hd ht
    have ho' : IsParen o := by simpa [IsParen] using ho
    rcases hps with ⟨rfl, rfl⟩ | hps
    · exact wp_pure (k _ (o :: c :: (w4 ++ w5 ++ [t])) p5 (.function_empty ho' hc hblock) (by simpa using m5))
    · exact wp_pure (k _ (o :: w2 ++ c :: (w4 ++ w5 ++ [t])) p5 (.function ho' hps hc hblock) (by simpa using m5))

theorem finishFunDeclaration_ok {Q : NamedFun → Parser → Prop} (hr : RecOk env n r) (g : Ready env p₀)
    (m : Moves p₀ w p) (hn : 4 * p.rest.length ≤ n)
    (k : ∀ f w' p', D p₀ .named w' (.named f) → Moves p₀ (w ++ w') p' → Q f p') :
    wp (finishFunDeclaration env r) Q (Err p₀) p := by
  unfold finishFunDeclaration
  refine wp_bind (wp_consumeIdentifier g m ?_)
  intro t p1 ht hr1 m1
  have : p1.rest.length < p.rest.length := by rw [hr1]; simp
  refine wp_bind (functionDefinition_ok hr g m1 (by omega) ?_)
  intro d w' p2 hd m2
  exact wp_pure (k _ (t :: w') p2 (.named ht hd) (by simpa using m2))

theorem classMethods_ok {endBlock : TokenType} {Q : List NamedFun → Parser → Prop} (hr : RecOk env n r) (g : Ready env p₀)
    (m : Moves p₀ w p) (hn : 4 * p.rest.length ≤ n)
    (k : ∀ fs w' p', D p₀ .methods w' (.nameds fs) → Moves p₀ (w ++ w') p' → Q fs p') :
    wp (classMethods env r endBlock) Q (Err p₀) p := by
  unfold classMethods
  refine wp_loop (fun fs p' => p'.rest.length ≤ p.rest.length ∧ ∃ w', Moves p₀ (w ++ w') p' ∧
      D p₀ .methods w' (.nameds fs)) ?_ ⟨Nat.le_refl _, [], by simpa using m, .methods_nil⟩
  rintro fs p1 ⟨hl, w1, m1, hd⟩
  refine wp_bind (wp_query ?_)
  split
  · refine wp_bind (wp_matchToken (m1.good g) ?_ ?_)
    · intro c p2 hc hr2 m2
      have := m2.shorter
      refine wp_bind (finishFunDeclaration_ok hr g (m1.trans m2) (by omega) ?_)
      intro f w3 p3 hf m3
      obtain ⟨nm, ⟨ps, body, kd, loc⟩⟩ := f
      have hlt : p3.rest.length < p1.rest.length := by
        have h1 := m1.length
        have h3 := m3.length
        simp at h1 h3
        omega
      exact wp_pure ⟨⟨by omega, w1 ++ c :: w3, by simpa using m3, .class_method hd hc hf⟩, hlt⟩
    · intro t r' hr' ht
      refine wp_bind (finishFunDeclaration_ok hr g m1 (by omega) ?_)
      intro f w3 p3 hf m3
      have hne : w3 ≠ [] := grammar_ne_nil hf rfl
      have hne' := List.length_pos_iff.2 hne
      obtain ⟨nm, ⟨ps, body, kd, loc⟩⟩ := f
      have hlt : p3.rest.length < p1.rest.length := by
        have h1 := m1.length
        have h3 := m3.length
        simp at h1 h3
        omega
      exact wp_pure ⟨⟨by omega, w1 ++ w3, by simpa using m3, .method hd hf⟩, hlt⟩
  · exact wp_pure (k fs w1 p1 hd m1)

/-! ### Declarations -/

theorem superclassClause_ok {Q : Option Expr → Parser → Prop} (g : Ready env p₀) (m : Moves p₀ w p)
    (k : ∀ sc w' p', (sc = none ∧ w' = [] ∨ ∃ lt s, lt.tokenType = .less ∧ s.tokenType = .identifier ∧ w' = [lt, s] ∧
      sc = some (.variable s.lexeme .placeholder s.loc)) → Moves p₀ (w ++ w') p' → Q sc p') :
    wp (superclassClause env) Q (Err p₀) p := by
  unfold superclassClause
  refine wp_bind (wp_matchToken (m.good g) ?_ ?_)
  · intro lt p1 hlt hr1 m1
    refine wp_bind (wp_consumeIdentifier g (m.trans m1) ?_)
    intro s p2 hs hr2 m2
    exact wp_pure (k _ [lt, s] p2 (.inr ⟨lt, s, hlt, hs, rfl, rfl⟩) (by simpa using m2))
  · intro t r' hr' ht
    exact wp_pure (k none [] p (.inl ⟨rfl, rfl⟩) (by simpa using m))

theorem finishClassDeclaration_ok {t : Token} (hr : RecOk env n r) (g : Ready env p₀) (ht : t.tokenType = .class)
    (hr0 : p₀.rest = t :: p.rest) (m : Moves p₀ [t] p) (hn : 4 * p.rest.length ≤ n) :
    wp (finishClassDeclaration env r) (PostS .declaration p₀) (Err p₀) p := by
  have hns := not_stuck hr0 (by rw [ht]; decide)
  unfold finishClassDeclaration
  refine wp_bind (wp_consumeIdentifier g m ?_)
  intro nm p1 hnm hr1 m1
  refine wp_bind (superclassClause_ok g m1 ?_)
  intro sc w2 p2 hsc m2
  refine wp_bind (wp_consumeBeginBlock g m2 ?_)
  intro w3 eb p3 hb _ m3
  have hl : p3.rest.length ≤ p.rest.length := by
    have h1 := m.length
    have h3 := m3.length
    simp at h1 h3
    omega
  refine wp_bind (classMethods_ok hr g m3 (by omega) ?_)
  intro fs w4 p4 hd m4
  refine wp_bind (wp_consumeEndBlock g m4 (.inl trivial) ?_ ?_)
  · rcases hb with ⟨_, _, _, h⟩ | ⟨_, _, _, _, _, h⟩ <;> simp [h]
  · intro _ c p5 hc m5
    refine wp_pure ⟨_, m5, .inl ?_, by simp, hns⟩
    rcases hb with ⟨o, ho, rfl, rfl⟩ | ⟨t', i, ht', hi, rfl, rfl⟩ <;>
      rcases hsc with ⟨rfl, rfl⟩ | ⟨lt, s, hlt, hs, rfl, rfl⟩
    · simpa using Grammar.class_braces ht hnm ho hd hc
    · simpa using Grammar.subclass_braces ht hnm hlt hs ho hd hc
    · simpa using Grammar.class_indented ht hnm ht' hi hd hc
    · simpa using Grammar.subclass_indented ht hnm hlt hs ht' hi hd hc

end Ws
