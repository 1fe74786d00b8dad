import Verif.Proofs.Parse.Gives
/-! Whatever the parser returns was derived by the unambiguous grammar: expressions. -/
namespace Ws
open Spec

variable {α β σ : Type} {env : Env} {p p₀ p1 p' p'' : Parser} {w w' s : List Token} {r : Rec} {n : Nat} {o : Ends} {b : Nat}

/-- The unambiguous grammar, with the flags of a parser state. -/
abbrev PL (p : Parser) (o : Ends) (e : Bool) (sym : Sym) (w : List Token) (v : Tree) : Prop :=
  Plain p.allowTrailing (decide (0 < p.inLoops)) o e sym w v

theorem Moves.PL_eq (h : Moves p w p') : PL p' = PL p := by
  unfold PL; rw [h.allow, h.inLoops]

/-- What follows a statement. -/
structure Followed (o : Ends) (e : Bool) (s : List Token) : Prop where
  els : e = true → ∀ t r, s = t :: r → t.tokenType ≠ .else
  map : o = .map → ¬ KeyColon s ∧ ∀ t r, s = t :: r → t.tokenType ≠ .rightBrace
  call : o = .call → ∀ t r, s = t :: r → ¬ Joins t.tokenType
  brace : o = .brace → ∀ t r, s = t :: r → t.tokenType = .rightBrace
  unfinished : o = .unfinished → ∀ t r, s = t :: r → t.tokenType = .eof

/-- After success of an expression function. -/
def PostX (sym : Sym) (b : Nat) (p : Parser) (x : Expr) (p' : Parser) : Prop :=
  ∃ w, Moves p w p' ∧ (Stuck p → w = []) ∧ (Stuck p' ∨ ∃ o, PL p o false sym w (.expr x) ∧ Halt o b p'.rest)

/-- After success of a statement function. -/
def PostY (sym : Sym) (p : Parser) (s : Stmt) (p' : Parser) : Prop :=
  ∃ w, Moves p w p' ∧ ¬ Stuck p ∧ (Stuck p' ∨ ∃ o e, PL p o e sym w (.stmt s) ∧ Followed o e p'.rest)

/-- What is known of the recursive functions. -/
structure RecX (env : Env) (r : Rec) : Prop where
  unary : ∀ p, Ready env p → Gives r.unary (PostX .unary 8 p) p
  assignment : ∀ p, Ready env p → Gives r.assignment (PostX .expression 1 p) p
  statement : ∀ p, Ready env p → Gives r.statement (PostY .statement p) p
  declaration : ∀ p, Ready env p → Gives r.declaration (PostY .declaration p) p

/-- A stuck parser stays where it is. -/
theorem stays (h : Stuck p → w = []) (m : Moves p w p') (hs : ¬ Stuck p') : ¬ Stuck p := by
  intro h'
  have := h h'
  subst this
  rw [m.eq_nil] at hs
  exact hs h'

/-! ### Binary operators -/

def Level.num : Level → Nat
  | .or => 2 | .and => 3 | .equality => 4 | .comparison => 5 | .addition => 6 | .multiplication => 7

theorem rank_level {l : Level} {t : TokenType} : t ∈ l.operators ↔ rank t = l.num + 1 := by
  cases l <;> cases t <;> decide

theorem num_le (l : Level) : 2 ≤ l.num := by cases l <;> decide

theorem next_call {l : Level} (h : o ∈ l.prec.next.ends) : o ∈ Sym.call.ends := by
  revert h
  cases l <;> cases o <;> decide

theorem binary_call {l : Level} (h : o ∈ (Sym.binary l.prec).ends) : o ∈ Sym.call.ends := by
  revert h
  cases l <;> cases o <;> decide

theorem binaryLevel_exact {l : Level} {operand : P Expr}
    (hop : ∀ p, Ready env p → Gives operand (PostX l.prec.next (l.num + 1) p) p) (p₀ : Parser) (g : Ready env p₀) :
    Gives (binaryLevel l operand) (PostX (.binary l.prec) l.num p₀) p₀ := by
  unfold binaryLevel
  refine gives_seq _ (hop p₀ g) ?_
  rintro x p ⟨w, m, hst, hd⟩
  refine gives_loop (PostX (.binary l.prec) (l.num + 1) p₀) ?_ ⟨w, m, hst, hd.imp id fun ⟨o, hd, hh⟩ => ⟨o, .operand hd, hh⟩⟩
  rintro x p ⟨w, m, hst, hd⟩
  have g' := m.good g
  refine gives_bind (gives_matches g' (by cases l <;> decide) ?_ ?_)
  · intro t p' ht hr m'
    have hns : ¬ Stuck p := not_stuck hr (fun h => by rw [h] at ht; cases l <;> simp [Level.operators] at ht)
    obtain ⟨o, hd, hh⟩ := hd.resolve_left hns
    rw [hr] at hh
    have ho := hh.whole (binary_call (plain_ends hd)) (by rw [rank_level.1 ht]; exact Nat.succ_ne_zero _)
    refine gives_seq _ (hop p' (m'.good g')) ?_
    rintro y p'' ⟨w', m'', -, hd'⟩
    obtain ⟨build, h4, h5⟩ := level_node ht
    simp only [h4]
    refine gives_pure ⟨w ++ t :: w', by simpa using (m.trans m').trans m'', fun h => absurd h (stays hst m hns), hd'.imp id ?_⟩
    rintro ⟨o', hd', hh'⟩
    rw [m'.PL_eq, m.PL_eq] at hd'
    exact ⟨o', .operator hd ho h5 hd', hh'⟩
  · intro t r' hr ht
    refine gives_pure ⟨w, m, hst, hd.imp id fun ⟨o, hd, hh⟩ => ⟨o, hd, hh.down (num_le l) ?_⟩⟩
    intro t' r'' hr'
    rw [hr] at hr'
    cases hr'
    exact fun h => ht (rank_level.2 h)

theorem orExpr_exact (hr : RecX env r) (p : Parser) (g : Ready env p) : Gives (orExpr r) (PostX (.binary .or) 2 p) p :=
  binaryLevel_exact (l := .or) (binaryLevel_exact (l := .and) (binaryLevel_exact (l := .equality)
    (binaryLevel_exact (l := .comparison) (binaryLevel_exact (l := .addition)
      (binaryLevel_exact (l := .multiplication) hr.unary))))) p g

/-! ### Assignment -/

theorem mkAssignment_exact {target rhs : Expr} {loc : SourceLoc} {Q : Expr → Parser → Prop}
    (h : ∀ e, Assigns rhs loc target e → Q e p) : Gives (mkAssignment target rhs loc) Q p := by
  unfold mkAssignment
  split
  · exact gives_pure (h _ (.property _ _ _))
  · exact gives_pure (h _ (.index _ _ _))
  · split
    · exact gives_throw
    · rename_i h'
      exact gives_pure (h _ (.variable _ _ _ h'))
  · exact gives_throw

theorem assignmentTarget_exact (hr : RecX env r) (p₀ : Parser) (g : Ready env p₀) :
    Gives (assignmentTarget env r) (PostX .target 2 p₀) p₀ := by
  unfold assignmentTarget
  refine gives_bind (gives_match g ?_ ?_)
  · intro i p1 hi hr1 m1
    have g1 := m1.good g
    have hns := not_stuck hr1 (by rw [hi]; decide)
    refine gives_seq _ (orExpr_exact hr p1 g1) ?_
    rintro x p2 ⟨w, m2, -, hd⟩
    rw [m1.PL_eq] at hd
    have g2 := m2.good g1
    have fin : ∀ term p3, Optional .terminator term → (term = [] ∨ ¬ Stuck p2) → Moves p2 term p3 →
        (¬ Stuck p2 → ∃ o, PL p₀ o false (.binary .or) w (.expr x) ∧ o ≠ .brace) →
        Gives (do
          consume env .outdent "Expect outdent after indented expression."
          pure x) (PostX .target 2 p₀) p3 := by
      intro term p3 hterm hs m3 hd
      refine gives_bind (gives_consume (m3.good g2) (by decide) ?_)
      intro o p4 ho hr4 m4
      have hs2 : ¬ Stuck p2 := by
        rcases hs with rfl | hs
        · have := m3.eq_nil
          subst this
          exact not_stuck hr4 (by rw [ho]; decide)
        · exact hs
      obtain ⟨o', hd, hb⟩ := hd hs2
      refine gives_pure ⟨i :: w ++ term ++ [o], by simpa using ((m1.trans m2).trans m3).trans m4, fun h => absurd h hns, .inr ⟨.outdent, ?_, halt_outdent⟩⟩
      exact .target_indented hi hd hb hterm ho
    refine gives_bind (gives_match g2 ?_ ?_)
    · intro t p3 ht hr3 m3
      refine fin [t] p3 (.inr ⟨t, ht, rfl⟩) (.inr (not_stuck hr3 (by rw [ht]; decide))) m3 fun h => ?_
      obtain ⟨o, hd, hh⟩ := hd.resolve_left h
      rw [hr3] at hh
      exact ⟨o, hd, hh.not_brace ht (by decide)⟩
    · intro t r' hr' ht
      refine gives_bind (gives_consume g2 (by decide) ?_)
      intro o p4 ho hr4 m4
      have hs2 := not_stuck hr4 (by rw [ho]; decide)
      obtain ⟨o', hd, hh⟩ := hd.resolve_left hs2
      rw [hr4] at hh
      refine gives_pure ⟨i :: w ++ [] ++ [o], by simpa using (m1.trans m2).trans m4, fun h => absurd h hns, .inr ⟨.outdent, ?_, halt_outdent⟩⟩
      exact .target_indented hi hd (hh.not_brace ho (by decide)) (.inl rfl) ho
  · intro t r' hr' ht
    refine gives_mono (orExpr_exact hr p₀ g) ?_
    rintro x p ⟨w, m, hst, hd⟩
    refine ⟨w, m, hst, hd.imp id ?_⟩
    rintro ⟨o, hd, hh⟩
    have ho : o ≠ .outdent := by
      rintro rfl
      have := plain_ends hd
      revert this; decide
    exact ⟨_, .target_plain hd, hh.target ho⟩

theorem target_expression (h : o ∈ Sym.target.ends) : o ∈ Sym.expression.ends := by
  revert h
  cases o <;> decide

theorem assignmentBody_exact (hr : RecX env r) (p₀ : Parser) (g : Ready env p₀) :
    Gives (assignmentBody env r) (PostX .expression 1 p₀) p₀ := by
  unfold assignmentBody
  refine gives_seq _ (assignmentTarget_exact hr p₀ g) ?_
  rintro x p ⟨w, m, hst, hd⟩
  refine gives_bind (gives_matches (m.good g) (by decide) ?_ ?_)
  · intro t p' ht hr' m'
    simp only [List.mem_cons, List.not_mem_nil, or_false] at ht
    have hns : ¬ Stuck p := not_stuck hr' (by rw [ht]; decide)
    obtain ⟨o, hd, hh⟩ := hd.resolve_left hns
    rw [hr'] at hh
    have ho := hh.item (target_expression (plain_ends hd)) (by rw [ht]; decide)
    refine gives_seq _ (hr.assignment p' (m'.good (m.good g))) ?_
    rintro y p'' ⟨w', m'', -, hd'⟩
    refine mkAssignment_exact fun e he => ?_
    refine ⟨w ++ t :: w', by simpa using (m.trans m').trans m'', fun h => absurd h (stays hst m hns), hd'.imp id ?_⟩
    rintro ⟨o', hd', hh'⟩
    rw [m'.PL_eq, m.PL_eq] at hd'
    exact ⟨o', .assignment hd ho ht hd' he, hh'⟩
  · intro t r' hr' ht
    refine gives_pure ⟨w, m, hst, hd.imp id fun ⟨o, hd, hh⟩ => ⟨o, .expression hd, hh.expression ?_⟩⟩
    intro t' r'' hs
    rw [hr'] at hs
    cases hs
    intro h
    refine ht ?_
    revert h
    cases t.tokenType <;> simp [rank]

/-! ### Lists of expressions -/

/-- The next token is not a comma. -/
def NoComma (s : List Token) : Prop := ∀ t r, s = t :: r → rank t.tokenType ≠ 1

theorem noComma {t : Token} {r' : List Token} (hr : p.rest = t :: r') (ht : t.tokenType ≠ .comma) : NoComma p.rest := by
  intro t' r'' hs
  rw [hr] at hs
  cases hs
  revert ht
  cases t.tokenType <;> simp [rank]

theorem argumentList_exact (hr : RecX env r) (g : Ready env p) :
    Gives (argumentList env r) (fun xs p' => ∃ w, Moves p w p' ∧
      (Stuck p' ∨ ∃ o, PL p o false .arguments w (.exprs xs) ∧ Halt o 1 p'.rest ∧ NoComma p'.rest)) p := by
  rw [argumentList_eq]
  refine gives_loop (fun xs p' => ∃ w, Moves p w p' ∧ PL p .closed false .before w (.exprs xs)) ?_ ⟨[], Moves.refl p, .before_nil⟩
  rintro xs p1 ⟨w1, m1, hd1⟩
  have g1 := m1.good g
  unfold argumentBody
  split
  · exact gives_errorFromPeek g1
  · rename_i hlen
    refine gives_seq _ (hr.assignment p1 g1) ?_
    rintro x p2 ⟨w2, m2, -, hd2⟩
    rw [m1.PL_eq] at hd2
    refine gives_bind (gives_match (m2.good g1) ?_ ?_)
    · intro c p3 hc hr3 m3
      obtain ⟨o, hd2, hh⟩ := hd2.resolve_left (not_stuck hr3 (by rw [hc]; decide))
      rw [hr3] at hh
      refine gives_pure ⟨w1 ++ w2 ++ [c], (m1.trans m2).trans m3, ?_⟩
      exact .before hd1 hd2 (hh.item (plain_ends hd2) (by rw [hc]; decide)) hc
    · intro t r' hr' ht
      have ht : t.tokenType ≠ .comma := by
        rcases ht with h | h
        · rw [h]; decide
        · exact h
      refine gives_pure ⟨w1 ++ w2, m1.trans m2, hd2.imp id fun ⟨o, hd2, hh⟩ => ⟨o, .arguments hd1 (by omega) hd2, hh, noComma hr' ht⟩⟩

theorem arrayElements_exact (hr : RecX env r) (g : Ready env p) :
    Gives (arrayElements r) (fun xs p' => ∃ w, Moves p w p' ∧
      (Stuck p' ∨ PL p .closed false .before w (.exprs xs) ∨ ∃ w1 w2 xs' x o, w = w1 ++ w2 ∧ xs = xs' ++ [x] ∧
        PL p .closed false .before w1 (.exprs xs') ∧ PL p o false .expression w2 (.expr x) ∧ Halt o 1 p'.rest)) p := by
  rw [arrayElements_eq]
  refine gives_query ?_
  split
  · refine gives_loop (fun xs p' => ∃ w, Moves p w p' ∧ PL p .closed false .before w (.exprs xs)) ?_ ⟨[], Moves.refl p, .before_nil⟩
    rintro xs p1 ⟨w1, m1, hd1⟩
    have g1 := m1.good g
    unfold arrayBody
    refine gives_seq _ (hr.assignment p1 g1) ?_
    rintro x p2 ⟨w2, m2, -, hd2⟩
    rw [m1.PL_eq] at hd2
    refine gives_bind (gives_match (m2.good g1) ?_ ?_)
    · intro c p3 hc hr3 m3
      obtain ⟨o, hd2, hh⟩ := hd2.resolve_left (not_stuck hr3 (by rw [hc]; decide))
      rw [hr3] at hh
      have hd3 : PL p .closed false .before (w1 ++ w2 ++ [c]) (.exprs (xs ++ [x])) :=
        .before hd1 hd2 (hh.item (plain_ends hd2) (by rw [hc]; decide)) hc
      refine gives_query ?_
      split
      · exact gives_pure ⟨_, (m1.trans m2).trans m3, .inr (.inl hd3)⟩
      · exact gives_pure ⟨_, (m1.trans m2).trans m3, hd3⟩
    · intro t r' hr' ht
      refine gives_pure ⟨w1 ++ w2, m1.trans m2, hd2.imp id fun ⟨o, hd2, hh⟩ => .inr ⟨w1, w2, xs, x, o, rfl, rfl, hd1, hd2, hh⟩⟩
  · exact gives_pure ⟨[], Moves.refl p, .inr (.inl .before_nil)⟩

/-! ### Maps -/

theorem entriesBefore_closed {repl l e : Bool} {v : Tree} (h : Plain repl l .closed e .entriesBefore w v) : w = [] := by
  generalize ho : Ends.closed = o at h
  cases h with
  | entries_nil => rfl
  | entries_comma => cases ho
  | entries_line => cases ho

theorem keyColon_stuck (h : Stuck p) : ¬ KeyColon p.rest := by
  obtain ⟨t, c, r', hr, ht, -⟩ := h
  rw [hr]
  exact not_keyColon (by rw [ht]; decide)

/-- After success of `literal_map`. -/
def PostM (p : Parser) (ms : List MapEntry) (p' : Parser) : Prop :=
  ∃ w, Moves p w p' ∧ (¬ KeyColon p.rest → w = []) ∧ (Stuck p' ∨
    (∃ o, PL p o false .entriesBefore w (.entries ms) ∧ ¬ KeyColon p'.rest ∧ (o = .brace → ∀ t r, p'.rest = t :: r → t.tokenType = .rightBrace)) ∨
    (∃ o, PL p o false .entries w (.entries ms) ∧ Halt o 1 p'.rest ∧ NoComma p'.rest ∧ ¬ MapOn p'.rest))

theorem literalMap_exact (hr : RecX env r) (g : Ready env p) : Gives (literalMap env r) (PostM p) p := by
  rw [literalMap_eq]
  refine gives_loop (fun ms p' => ∃ w o, Moves p w p' ∧ (¬ KeyColon p.rest → w = []) ∧ PL p o false .entriesBefore w (.entries ms) ∧
    (o = .brace → KeyColon p'.rest ∨ ∀ t r, p'.rest = t :: r → t.tokenType = .rightBrace)) ?_
    ⟨[], .closed, Moves.refl p, fun _ => rfl, .entries_nil, fun h => by cases h⟩
  rintro ms p1 ⟨w1, o1, m1, hk1, hd1, hb1⟩
  have g1 := m1.good g
  unfold mapBody
  refine gives_query ?_
  split
  · rename_i hk
    have hk := (atKey_iff g1).1 hk
    have hkp : KeyColon p.rest := by
      by_cases h : KeyColon p.rest
      · exact h
      · have := hk1 h
        subst this
        rw [m1.eq_nil] at hk
        exact hk
    obtain ⟨t, c, r1, hr1, ht, hc⟩ := hk
    refine gives_query ?_
    rw [peek_head hr1]
    dsimp only
    have hkey : ∃ key, mapKey t = pure key ∧ IsKey t key := by
      unfold mapKey
      rcases ht with ht | ht
      · rw [ht]; exact ⟨_, rfl, .inl ⟨ht, rfl⟩⟩
      · obtain ⟨s, hs⟩ := Option.isSome_iff_exists.1 (g1.wf.string t (g1.mem hr1) ht)
        rw [ht, hs]; exact ⟨_, rfl, .inr ⟨ht, hs⟩⟩
    obtain ⟨key, hkey, hisk⟩ := hkey
    rw [hkey]
    refine gives_bind (gives_pure ?_)
    refine gives_bind (gives_advance hr1 (by rcases ht with ht | ht <;> rw [ht] <;> decide) ?_)
    intro p2 m2 hr2
    refine gives_bind (gives_consume (m2.good g1) (by decide) ?_)
    intro c' p3 hc' hr3 m3
    have g3 := m3.good (m2.good g1)
    refine gives_seq _ (hr.assignment p3 g3) ?_
    rintro x p4 ⟨w4, m4, -, hd4⟩
    rw [m3.PL_eq, m2.PL_eq, m1.PL_eq] at hd4
    have g4 := m4.good g3
    rcases mapInsert_eq (ms := ms) (k := key) (v := x) with hins | ⟨hins, hnew⟩
    · rcases hmi : mapInsert ms key x with ⟨ms', b⟩
      rw [hmi] at hins
      simp only at hins
      subst hins
      exact gives_throw
    · rw [hins]
      dsimp only
      have mall : Moves p (w1 ++ t :: c' :: w4) p4 := by simpa using ((m1.trans m2).trans m3).trans m4
      refine gives_query (f := goesOn) ?_
      obtain ⟨s, r4, hr4⟩ := g4.cons
      have hgo := goesOn_cons hr4
      split
      · rename_i hg
        have hg := hgo.1 hg
        have hsep : s.tokenType = .comma ∨ s.tokenType = .terminator := by
          rcases hg with h | ⟨t', r', hs, ht', -⟩
          · exact .inl h
          · cases hs; exact .inr ht'
        obtain ⟨o, hd4, hh⟩ := hd4.resolve_left (not_stuck hr4 (by rcases hsep with h | h <;> rw [h] <;> decide))
        rw [hr4] at hh
        refine gives_bind (gives_advance hr4 (by rcases hsep with h | h <;> rw [h] <;> decide) ?_)
        intro p5 m5 hr5
        by_cases hcom : s.tokenType = .comma
        · refine gives_pure ⟨w1 ++ t :: c' :: w4 ++ [s], .comma, mall.trans m5, fun h => absurd hkp h, ?_, fun h => by cases h⟩
          exact .entries_comma hd1 hisk hc' hd4 (hh.item (plain_ends hd4) (by rw [hcom]; decide)) hnew hcom
        · have hterm := hsep.resolve_left hcom
          have hm := hg.resolve_left hcom
          refine gives_pure ⟨w1 ++ t :: c' :: w4 ++ [s], .brace, mall.trans m5, fun h => absurd hkp h, ?_, fun _ => ?_⟩
          · exact .entries_line hd1 hisk hc' hd4 (fun h => hh.map (.inl h) hm) (hh.not_brace hterm (by decide)) hnew hterm
          · obtain ⟨t', r', hs, -, hk⟩ := hm
            cases hs
            rw [hr5]
            refine hk.imp id ?_
            rintro ⟨u, r', rfl, hu⟩ _ _ hs
            cases hs
            exact hu
      · rename_i hg
        rw [hgo] at hg
        refine gives_pure ⟨_, mall, fun h => absurd hkp h, hd4.imp id fun ⟨o, hd4, hh⟩ => .inr ⟨o, .entries hd1 hisk hc' hd4 hnew, hh, ?_, ?_⟩⟩
        · exact noComma hr4 fun h => hg (.inl h)
        · rw [hr4]; exact fun h => hg (.inr h)
  · rename_i hk
    rw [atKey_iff g1] at hk
    have hk : ¬ KeyColon p1.rest := hk
    exact gives_pure ⟨w1, m1, hk1, .inr (.inl ⟨o1, hd1, hk, fun h => (hb1 h).resolve_left hk⟩)⟩

/-! ### Primary expressions -/

/-- What is known of function definitions. -/
def FunX (env : Env) (r : Rec) : Prop :=
  ∀ loc p, Ready env p → Gives (functionDefinition env r loc) (fun d p' => ∃ w, Moves p w p' ∧ PL p .closed false (.function loc) w (.fn d)) p

theorem primary_map_exact {t : Token} {r' : List Token} (hr : RecX env r) (g : Ready env p)
    (hr0 : p.rest = t :: r') (ht : t.tokenType = .identifier ∨ t.tokenType = .string ∨ t.tokenType = .this) (hc : p.checkNext .colon = true) :
    Gives (do
      let m ← literalMap env r
      pure (.literalMap m)) (PostX .primary 10 p) p := by
  obtain ⟨c, r'', rfl, hc'⟩ := checkNext_colon hr0 hc
  refine gives_seq _ (literalMap_exact hr g) ?_
  rintro ms p' ⟨w, m, hk, hd⟩
  refine gives_pure ⟨w, m, fun h => hk (keyColon_stuck h), ?_⟩
  rcases hd with h | ⟨o, hd, hnk, hb⟩ | ⟨o, hd, hh, hnc, hmo⟩
  · exact .inl h
  · by_cases hw : w = []
    · subst hw
      left
      have := m.eq_nil
      subst this
      refine ⟨t, c, r'', hr0, ?_, hc'⟩
      rcases ht with h | h | h
      · exact absurd ⟨t, c, r'', hr0, .inl h, hc'⟩ hnk
      · exact absurd ⟨t, c, r'', hr0, .inr h, hc'⟩ hnk
      · exact h
    · right
      have ho : o ≠ .closed := by
        rintro rfl
        exact hw (entriesBefore_closed hd)
      refine ⟨o, .map_open hd ho, ?_⟩
      have := plain_ends hd
      cases o <;> first | exact absurd this (by decide) | skip
      · exact absurd rfl ho
      · exact halt_comma hnk
      · exact halt_brace (hb rfl)
  · exact .inr ⟨_, .map_bare hd, hh.bareMap (plain_ends hd) hnc hmo⟩

theorem primary_exact (hr : RecX env r) (hf : FunX env r) (p₀ : Parser) (g : Ready env p₀) :
    Gives (primary env r) (PostX .primary 10 p₀) p₀ := by
  obtain ⟨t, r', hr0⟩ := g.cons
  unfold primary
  refine gives_query ?_
  rw [peek_head hr0]
  dsimp only
  have closed : ∀ {w x p'}, Moves p₀ w p' → ¬ Stuck p₀ → PL p₀ .closed false .primary w (.expr x) → PostX .primary 10 p₀ x p' :=
    fun m hns hd => ⟨_, m, fun h => absurd h hns, .inr ⟨_, hd, halt_closed fun _ _ _ => rank_le _⟩⟩
  have single : ∀ x, t.tokenType ≠ .eof → ¬ Stuck p₀ → PL p₀ .closed false .primary [t] (.expr x) →
      Gives (do
        advanceP
        pure x) (PostX .primary 10 p₀) p₀ := by
    intro x h1 h2 hd
    refine gives_bind (gives_advance hr0 h1 ?_)
    intro p1 m1 hr1
    exact gives_pure (closed m1 h2 hd)
  split
  · rename_i ht
    exact single _ (by rw [ht]; decide) (not_stuck hr0 (by rw [ht]; decide)) (.false ht)
  · rename_i ht
    exact single _ (by rw [ht]; decide) (not_stuck hr0 (by rw [ht]; decide)) (.true ht)
  · rename_i ht
    exact single _ (by rw [ht]; decide) (not_stuck hr0 (by rw [ht]; decide)) (.nil ht)
  · rename_i ht
    split
    · rename_i x hx
      exact single _ (by rw [ht]; decide) (not_stuck hr0 (by rw [ht]; decide)) (.number ht hx)
    · exact gives_panic
  · rename_i ht
    refine gives_query ?_
    split
    · rename_i hc
      exact primary_map_exact hr g hr0 (.inr (.inl ht)) hc
    · split
      · rename_i x hx
        exact single _ (by rw [ht]; decide) (not_stuck hr0 (by rw [ht]; decide)) (.string ht hx)
      · exact gives_panic
  · rename_i ht
    refine gives_query ?_
    split
    · rename_i hc
      exact primary_map_exact hr g hr0 (.inl ht) hc
    · exact single _ (by rw [ht]; decide) (not_stuck hr0 (by rw [ht]; decide)) (.variable (.inl ht))
  · rename_i ht
    refine gives_query ?_
    split
    · rename_i hc
      exact primary_map_exact hr g hr0 (.inr (.inr ht)) hc
    · rename_i hc
      refine single _ (by rw [ht]; decide) (fun hs => hc ?_) (.variable (.inr ht))
      obtain ⟨c, r'', rfl, hc'⟩ := hs.next hr0
      rw [checkNext_cons hr0]
      simp [ht, hc']
  · rename_i ht
    have hns := not_stuck hr0 (by rw [ht]; decide)
    refine gives_bind (gives_advance hr0 (by rw [ht]; decide) ?_)
    intro p1 m1 hr1
    refine gives_bind (gives_match (m1.good g) ?_ ?_)
    · intro i p2 hi hr2 m2
      exact gives_errorFromLast
    · intro t' r'' hr' ht'
      refine gives_seq _ (hf _ p1 (m1.good g)) ?_
      rintro d p2 ⟨w', m2, hd⟩
      rw [m1.PL_eq] at hd
      exact gives_pure (closed (m1.trans m2) hns (.function_literal ht hd))
  all_goals try
    rename_i ht
    have hns := not_stuck hr0 (by rw [ht]; decide)
    refine gives_bind (gives_advance hr0 (by rw [ht]; decide) ?_)
    intro p1 m1 hr1
    have g1 := m1.good g
  iterate 2
    · refine gives_seq _ (hr.assignment p1 g1) ?_
      rintro x p2 ⟨w2, m2, -, hd⟩
      rw [m1.PL_eq] at hd
      refine gives_bind (gives_consume (m2.good g1) (by decide) ?_)
      intro c p3 hc hr3 m3
      obtain ⟨o, hd, hh⟩ := hd.resolve_left (not_stuck hr3 (by rw [hc]; decide))
      rw [hr3] at hh
      have hp : IsParen t := by simp [IsParen, ht]
      exact gives_pure (closed (w := t :: w2 ++ [c]) (by simpa using (m1.trans m2).trans m3) hns
        (.grouping hp hd (hh.not_brace hc (by decide)) hc))
  · refine gives_seq _ (literalMap_exact hr g1) ?_
    rintro ms p2 ⟨w2, m2, -, hd⟩
    rw [m1.PL_eq] at hd
    refine gives_bind (gives_consume (m2.good g1) (by decide) ?_)
    intro c p3 hc hr3 m3
    have hd := hd.resolve_left (not_stuck hr3 (by rw [hc]; decide))
    refine gives_pure (closed (w := t :: w2 ++ [c]) (by simpa using (m1.trans m2).trans m3) hns ?_)
    rcases hd with ⟨o, hd, -⟩ | ⟨o, hd, -⟩
    · exact .map_trailing ht hd hc
    · exact .map_braces ht hd hc
  · refine gives_seq _ (arrayElements_exact hr g1) ?_
    rintro xs p2 ⟨w2, m2, hd⟩
    rw [m1.PL_eq] at hd
    refine gives_bind (gives_consume (m2.good g1) (by decide) ?_)
    intro c p3 hc hr3 m3
    have hd := hd.resolve_left (not_stuck hr3 (by rw [hc]; decide))
    refine gives_pure (closed (w := t :: w2 ++ [c]) (by simpa using (m1.trans m2).trans m3) hns ?_)
    rcases hd with hd | ⟨w3, w4, xs', x, o, rfl, rfl, hd1, hd2, hh⟩
    · exact .array_trailing ht hd hc
    · rw [hr3] at hh
      have := Plain.array ht hd1 hd2 (hh.not_brace hc (by decide)) hc
      simpa using this
  · refine gives_bind (gives_consume g1 (by decide) ?_)
    intro d p2 hd hr2 m2
    refine gives_bind (gives_identifier (m2.good g1) ?_)
    intro i p3 hi hr3 m3
    exact gives_pure (closed (w := [t, d, i]) ((m1.trans m2).trans m3) hns (.super ht hd hi))
  · refine gives_seq (fun _ _ => True) (fun _ _ _ => trivial) fun _ _ _ => gives_errorFromLast

/-! ### Calls -/

theorem callArguments_exact (hr : RecX env r) (g : Ready env p) :
    Gives (callArguments env r) (fun xs p' => ∃ w, Moves p w p' ∧
      (Stuck p' ∨ (xs = [] ∧ w = []) ∨ ∃ o, PL p o false .arguments w (.exprs xs) ∧ Halt o 1 p'.rest)) p := by
  unfold callArguments
  refine gives_query ?_
  split
  · refine gives_mono (argumentList_exact hr g) ?_
    rintro xs p' ⟨w, m, hd⟩
    exact ⟨w, m, hd.imp id fun ⟨o, hd, hh, _⟩ => .inr ⟨o, hd, hh⟩⟩
  · exact gives_pure ⟨[], Moves.refl p, .inr (.inl ⟨rfl, rfl⟩)⟩

theorem call_exact (hr : RecX env r) (hf : FunX env r) (p₀ : Parser) (g : Ready env p₀) :
    Gives (call env r) (fun x p' => PostX .call 10 p₀ x p' ∧ (Stuck p' ∨ ∀ t r, p'.rest = t :: r → rank t.tokenType ≠ 10)) p₀ := by
  rw [call_eq]
  refine gives_seq _ (primary_exact hr hf p₀ g) ?_
  rintro x p ⟨w, m, hst, hd⟩
  refine gives_loop (PostX .call 10 p₀) ?_ ⟨w, m, hst, hd.imp id fun ⟨o, hd, hh⟩ => ⟨o, .primary hd, hh⟩⟩
  rintro x p ⟨w, m, hst, hd⟩
  have g' := m.good g
  unfold callBody
  refine gives_bind (gives_matches g' (by decide) ?_ ?_)
  · intro t p1 ht hr1 m1
    have hns : ¬ Stuck p := not_stuck hr1 (fun h => by rw [h] at ht; simp at ht)
    obtain ⟨o, hd, hh⟩ := hd.resolve_left hns
    simp only [List.mem_cons, List.not_mem_nil, or_false] at ht
    rw [hr1] at hh
    have ho := hh.whole (plain_ends hd) (by rcases ht with ht | ht | ht <;> rw [ht] <;> decide)
    have g1 := m1.good g'
    have closed : ∀ {w' x' p2}, Moves p1 w' p2 → PL p₀ .closed false .call (w ++ t :: w') (.expr x') → PostX .call 10 p₀ x' p2 :=
      fun m2 hd => ⟨_, by simpa using (m.trans m1).trans m2, fun h => absurd h (stays hst m hns), .inr ⟨_, hd, halt_closed fun _ _ _ => rank_le _⟩⟩
    rcases ht with ht | ht | ht <;> simp only [ht]
    · refine gives_bind (gives_identifier g1 ?_)
      intro i p2 hi hr2 m2
      exact gives_pure (closed m2 (.property hd ho ht hi))
    · unfold finishCall
      refine gives_bind (gives_seq _ (callArguments_exact hr g1) ?_)
      rintro xs p2 ⟨w2, m2, hd2⟩
      rw [m1.PL_eq, m.PL_eq] at hd2
      refine gives_bind (gives_consume (m2.good g1) (by decide) ?_)
      intro c p3 hc hr3 m3
      have hd2 := hd2.resolve_left (not_stuck hr3 (by rw [hc]; decide))
      refine gives_pure (gives_pure (closed (m2.trans m3) ?_))
      rcases hd2 with ⟨rfl, rfl⟩ | ⟨o2, hd2, hh2⟩
      · exact .call_empty hd ho ht hc
      · rw [hr3] at hh2
        have := Plain.call_args hd ho ht hd2 (hh2.not_brace hc (by decide)) hc
        simpa using this
    · unfold finishGetIndex
      refine gives_bind (gives_seq _ (hr.assignment p1 g1) ?_)
      rintro y p2 ⟨w2, m2, -, hd2⟩
      rw [m1.PL_eq, m.PL_eq] at hd2
      refine gives_bind (gives_consume (m2.good g1) (by decide) ?_)
      intro c p3 hc hr3 m3
      obtain ⟨o2, hd2, hh2⟩ := hd2.resolve_left (not_stuck hr3 (by rw [hc]; decide))
      rw [hr3] at hh2
      refine gives_pure (gives_pure (closed (m2.trans m3) ?_))
      have := Plain.index hd ho ht hd2 (hh2.not_brace hc (by decide)) hc
      simpa using this
  · intro t r' hr' ht
    refine gives_query ?_
    split
    · rename_i hc
      rw [checkAnyOf_cons hr'] at hc
      have hst' : startsArgument t.tokenType := by
        simp only [Bool.and_eq_true, List.contains_eq_mem, decide_eq_true_eq] at hc
        exact hc.2
      have hthis : t.tokenType ≠ .this := by unfold startsArgument at hst'; intro h; rw [h] at hst'; simp at hst'
      have hns : ¬ Stuck p := not_stuck hr' hthis
      obtain ⟨o, hd, hh⟩ := hd.resolve_left hns
      have hh0 := hh
      rw [hr'] at hh
      have ho := hh.whole (plain_ends hd) (by
        revert hst'
        unfold startsArgument
        cases t.tokenType <;> simp [rank])
      refine gives_seq (fun loc p2 => loc = t.loc ∧ p2 = p) ?_ ?_
      · intro loc p2 hx
        simp only [peekSourceLoc, bind, M.bind, query, Parser.peek_eq, hr', List.head?_cons, pure, M.pure] at hx
        cases hx
        exact ⟨rfl, rfl⟩
      rintro loc p2 ⟨hloc, hp2⟩
      rw [hloc, hp2]
      unfold finishCallWithoutParens
      refine gives_bind (gives_seq _ (argumentList_exact hr g') ?_)
      rintro xs p2 ⟨w2, m2, hd2⟩
      rw [m.PL_eq] at hd2
      refine gives_pure (gives_pure ⟨w ++ w2, m.trans m2, fun h => absurd h (stays hst m hns), hd2.imp id ?_⟩)
      rintro ⟨o2, hd2, hh2, hnc⟩
      obtain ⟨t', w3, rfl, -, -⟩ := (plain_first hd2 : ExprHead _ w2)
      have : t' = t := by
        have h1 := m2.head
        rw [hr'] at h1
        exact (List.cons.inj h1).1.symm
      subst this
      refine ⟨_, .call_bare hd ho hst' (fun hcom hk => ?_) hd2, hh2.bare (plain_ends hd2) hnc⟩
      have := hh0.key hcom
      rw [m2.rest] at this
      exact this (KeyColon.append hk)
    · rename_i hc
      refine gives_pure ⟨⟨w, m, hst, hd⟩, .inr ?_⟩
      intro t' r'' hs
      rw [hr'] at hs
      cases hs
      rw [checkAnyOf_cons hr'] at hc
      revert hc ht
      unfold callPrimaryTokens
      cases t.tokenType <;> simp [rank]

theorem unaryBody_exact (hr : RecX env r) (hf : FunX env r) (p₀ : Parser) (g : Ready env p₀) :
    Gives (unaryBody env r) (PostX .unary 8 p₀) p₀ := by
  unfold unaryBody
  refine gives_bind (gives_matches g (by decide) ?_ ?_)
  · intro t p1 ht hr1 m1
    have hns : ¬ Stuck p₀ := not_stuck hr1 (fun h => by rw [h] at ht; simp at ht)
    refine gives_seq _ (hr.unary p1 (m1.good g)) ?_
    rintro x p2 ⟨w2, m2, -, hd⟩
    rw [m1.PL_eq] at hd
    simp only [List.mem_cons, List.not_mem_nil, or_false] at ht
    rcases ht with ht | ht <;> simp only [ht]
    · exact gives_pure ⟨t :: w2, m1.trans m2, fun h => absurd h hns, hd.imp id fun ⟨o, hd, hh⟩ => ⟨o, .prefix (by rw [ht]; rfl) hd, hh⟩⟩
    · exact gives_pure ⟨t :: w2, m1.trans m2, fun h => absurd h hns, hd.imp id fun ⟨o, hd, hh⟩ => ⟨o, .prefix (by rw [ht]; rfl) hd, hh⟩⟩
  · intro t r' hr' ht
    refine gives_mono (call_exact hr hf p₀ g) ?_
    rintro x p ⟨⟨w, m, hst, hd⟩, hs⟩
    refine ⟨w, m, hst, ?_⟩
    rcases hs with hs | hs
    · exact .inl hs
    · exact hd.imp id fun ⟨o, hd, hh⟩ => ⟨_, .call hd, hh.unary hs⟩

end Ws
