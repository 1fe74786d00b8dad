import Verif.Proofs.Parse.Marks
/-! What was consumed before an error can be continued: expressions. -/
namespace Ws
open Spec

variable {α β σ : Type} {env : Env} {T : List Token} {p p₀ p1 p' p'' : Parser} {w w' u v s : List Token} {r : Rec} {n k : Nat} {sym sym' : Sym}
  {B B' : Nat → Prop}

/-- What the function consumed can be continued to a phrase, after success and before an error. -/
structure Lives (env : Env) (T : List Token) (sym : Sym) (x : P α) : Prop where
  keeps : ∀ p, On env T p → Marks T x (fun _ p' => Live p sym p'.current) (Live p sym) p

/-- Where the parser is stuck, the function consumes nothing. -/
structure Idle (env : Env) (T : List Token) (x : P α) : Prop where
  keeps : ∀ p, On env T p → Stuck p → Marks T x (fun _ p' => p' = p) (fun k => k = p.current) p

/-- What is known of the recursive functions. -/
structure RecL (env : Env) (T : List Token) (r : Rec) : Prop where
  exact : RecX env r
  unary : Lives env T .unary r.unary
  assignment : Lives env T .expression r.assignment
  statement : Lives env T .statement r.statement
  declaration : Lives env T .declaration r.declaration
  idleUnary : Idle env T r.unary
  idleAssignment : Idle env T r.assignment
  idleStatement : Idle env T r.statement
  idleDeclaration : Idle env T r.declaration

theorem Stuck.head (h : Stuck p) : ∃ t r, p.rest = t :: r ∧ t.tokenType = .this := by
  obtain ⟨t, c, r, h1, h2, -⟩ := h
  exact ⟨t, c :: r, h1, h2⟩

/-! ### Binary operators -/

theorem binaryLevel_lives {l : Level} {operand : P Expr}
    (hop : ∀ p, Ready env p → Gives operand (PostX l.prec.next (l.num + 1) p) p) (hop' : Lives env T l.prec.next operand) :
    Lives env T (.binary l.prec) (binaryLevel l operand) := by
  constructor
  intro p₀ g
  have up : ∀ {p : Parser} {k}, Live p l.prec.next k → Live p (.binary l.prec) k :=
    fun h => h.down fun w o h ho => ⟨o, h.operand, ho⟩
  unfold binaryLevel
  refine marks_run (hop p₀ g.ready) (hop'.keeps p₀ g) (fun k h => up h) ?_
  rintro x p ⟨w, m, hst, hd⟩ hl
  refine marks_loop (fun x p => PostX (.binary l.prec) (l.num + 1) p₀ x p ∧ Live p₀ (.binary l.prec) p.current) ?_
    ⟨⟨w, m, hst, hd.imp id fun ⟨o, hd, hh⟩ => ⟨o, .operand hd, hh⟩⟩, up hl⟩
  rintro x p ⟨⟨w, m, hst, hd⟩, hl⟩
  have g' := m.on g
  refine marks_bind (marks_matches g' (by cases l <;> decide) ?_ ?_)
  · intro t p' ht hr m'
    have hns : ¬ Stuck p := not_stuck hr (fun h => by rw [h] at ht; cases l <;> simp [Level.operators] at ht)
    obtain ⟨o, hd, hh⟩ := hd.resolve_left hns
    rw [hr] at hh
    have ho := hh.whole (binary_call (plain_ends hd)) (by rw [rank_level.1 ht]; exact Nat.succ_ne_zero _)
    obtain ⟨build, h4, h5⟩ := level_node ht
    have up : ∀ {k}, Live p' l.prec.next k → Live p₀ (.binary l.prec) k := fun h =>
      h.wrap (m.trans m') (.inr (.inl (by cases l <;> exact ⟨by decide, by decide⟩))) fun w' o' hf hg => by
        refine ⟨[], o', ?_, hg, tail_nil⟩
        simpa using Forms.operator (.of hd) ho h5 hf
    refine marks_run (hop p' (m'.on g').ready) (hop'.keeps p' (m'.on g')) (fun k h => up h) ?_
    rintro y p'' ⟨w', m'', -, hd'⟩ hl'
    simp only [h4]
    refine marks_pure ⟨⟨w ++ t :: w', by simpa using (m.trans m').trans m'', fun h => absurd h (stays hst m hns), hd'.imp id ?_⟩, up hl'⟩
    rintro ⟨o', hd', hh'⟩
    rw [m'.PL_eq, m.PL_eq] at hd'
    exact ⟨o', .operator hd ho h5 hd', hh'⟩
  · intro t r' hr ht
    exact marks_pure hl

theorem orExpr_lives (hr : RecL env T r) : Lives env T (.binary .or) (orExpr r) := by
  have h1 := binaryLevel_exact (l := .multiplication) hr.exact.unary
  have h2 := binaryLevel_exact (l := .addition) h1
  have h3 := binaryLevel_exact (l := .comparison) h2
  have h4 := binaryLevel_exact (l := .equality) h3
  have h5 := binaryLevel_exact (l := .and) h4
  exact binaryLevel_lives (l := .or) h5 (binaryLevel_lives (l := .and) h4 (binaryLevel_lives (l := .equality) h3
    (binaryLevel_lives (l := .comparison) h2 (binaryLevel_lives (l := .addition) h1
      (binaryLevel_lives (l := .multiplication) hr.exact.unary hr.unary)))))

theorem binaryLevel_idle {l : Level} {operand : P Expr} (h : Idle env T operand) : Idle env T (binaryLevel l operand) := by
  constructor
  intro p g hs
  unfold binaryLevel
  refine marks_seq _ (h.keeps p g hs) ?_
  rintro x p' rfl
  refine marks_loop (fun _ p'' => p'' = p') ?_ rfl
  rintro x _ rfl
  refine marks_bind (marks_matches g (by cases l <;> decide) ?_ ?_)
  · intro t p'' ht hr m
    exact absurd hs (not_stuck hr (fun h => by rw [h] at ht; cases l <;> simp [Level.operators] at ht))
  · intro t r' hr ht
    exact marks_pure rfl

theorem orExpr_idle (hr : RecL env T r) : Idle env T (orExpr r) :=
  binaryLevel_idle (binaryLevel_idle (binaryLevel_idle (binaryLevel_idle (binaryLevel_idle (binaryLevel_idle hr.idleUnary)))))

/-! ### Assignment -/

theorem mkAssignment_lives {target rhs : Expr} {t : Token} {i : Nat} {Q : Expr → Parser → Prop} (ht : T[i]? = some t)
    (hx : t.lexeme = c!"=") (hi : i < p.current) (hb : B p.current) (h : ∀ e, Q e p) : Marks T (mkAssignment target rhs t.loc) Q B p := by
  have fault : Marks T (M.throw (.newWithLocation t.loc c!"=" "Invalid assignment target.")) Q B p :=
    marks_throw (.late (by simp [lateMessages, Cause.newWithLocation]) hi ht ⟨rfl, .inl (by rw [hx]; rfl)⟩) hb (Nat.le_succ _)
  unfold mkAssignment
  split
  · exact marks_pure (h _)
  · exact marks_pure (h _)
  · split
    · exact fault
    · exact marks_pure (h _)
  · exact fault

theorem assignmentTarget_lives (hr : RecL env T r) : Lives env T .target (assignmentTarget env r) := by
  constructor
  intro p₀ g
  unfold assignmentTarget
  refine marks_bind (marks_match g ?_ ?_)
  · intro i p1 hi hr1 m1
    have g1 := m1.on g
    have up : ∀ {k}, Live p1 (.binary .or) k → Live p₀ .target k := fun h =>
      h.wrap m1 (.inr (.inl ⟨by decide, by decide⟩)) fun w o hf ho =>
        ⟨[blank .outdent], .outdent, by simpa using Forms.indented hi hf ho.1 (.inl rfl) (d := blank .outdent) rfl, ⟨by decide, by decide⟩,
          tail_blanks (tts := [.outdent]) rfl⟩
    refine marks_run (orExpr_exact hr.exact p1 g1.ready) ((orExpr_lives hr).keeps p1 g1) (fun k h => up h) ?_
    rintro x p2 ⟨w, m2, -, hd⟩ hl
    rw [m1.PL_eq] at hd
    have g2 := m2.on g1
    have fin : ∀ term p3, Optional .terminator term → (term = [] ∨ ¬ Stuck p2) → Moves p2 term p3 → Live p₀ .target p3.current →
        (¬ Stuck p2 → ∃ o, PL p₀ o false (.binary .or) w (.expr x) ∧ o ≠ .brace) →
        Marks T (do
          consume env .outdent "Expect outdent after indented expression."
          pure x) (fun _ p' => Live p₀ .target p'.current) (Live p₀ .target) p3 := by
      intro term p3 hterm hs m3 hl3 hd
      refine marks_bind (marks_consume (m3.on g2) (by decide) hl3 ?_)
      intro o p4 ho hr4 m4
      have hs2 : ¬ Stuck p2 := by
        rcases hs with rfl | hs
        · have := m3.eq_nil
          subst this
          exact not_stuck hr4 (by rw [ho]; decide)
        · exact hs
      obtain ⟨o', hd, hb⟩ := hd hs2
      have h5 : PL p₀ .outdent false .target (i :: w ++ term ++ [o]) (.expr x) := .target_indented hi hd hb hterm ho
      exact marks_pure (live_of (by simpa using ((m1.trans m2).trans m3).trans m4) h5 (by decide))
    refine marks_bind (marks_match g2 ?_ ?_)
    · intro t p3 ht hr3 m3
      have hns := not_stuck hr3 (by rw [ht]; decide)
      obtain ⟨o, hd, hh⟩ := hd.resolve_left hns
      rw [hr3] at hh
      have hb := hh.not_brace ht (by decide)
      refine fin [t] p3 (.inr ⟨t, ht, rfl⟩) (.inr hns) m3 ?_ fun h => ⟨o, hd, hb⟩
      exact live_then (w := i :: w ++ [t]) (by simpa using (m1.trans m2).trans m3)
        (Forms.indented hi (.of hd) hb (.inr ⟨t, ht, rfl⟩) (d := blank .outdent) rfl) ⟨by decide, by decide⟩ (tail_blanks (tts := [.outdent]) rfl)
    · intro t r' hr' ht
      refine marks_bind (marks_consume g2 (by decide) (up hl) ?_)
      intro o p4 ho hr4 m4
      obtain ⟨o', hd, hh⟩ := hd.resolve_left (not_stuck hr4 (by rw [ho]; decide))
      rw [hr4] at hh
      have h5 : PL p₀ .outdent false .target (i :: w ++ [] ++ [o]) (.expr x) := .target_indented hi hd (hh.not_brace ho (by decide)) (.inl rfl) ho
      exact marks_pure (live_of (by simpa using (m1.trans m2).trans m4) h5 (by decide))
  · intro t r' hr' ht
    refine marks_mono ((orExpr_lives hr).keeps p₀ g) (fun _ p' h => ?_) (fun k h => ?_)
    · exact h.down fun w o h ho => ⟨_, h.target, tidy_target ho⟩
    · exact h.down fun w o h ho => ⟨_, h.target, tidy_target ho⟩

theorem assignmentBody_lives (hr : RecL env T r) : Lives env T .expression (assignmentBody env r) := by
  constructor
  intro p₀ g
  have up : ∀ {k}, Live p₀ .target k → Live p₀ .expression k := fun h => h.down fun w o h ho => ⟨o, h.expression, ho⟩
  unfold assignmentBody
  refine marks_run (assignmentTarget_exact hr.exact p₀ g.ready) ((assignmentTarget_lives hr).keeps p₀ g) (fun k h => up h) ?_
  rintro x p ⟨w, m, hst, hd⟩ hl
  have g1 := m.on g
  refine marks_bind (marks_matches g1 (by decide) ?_ ?_)
  · intro t p' ht hr' m'
    simp only [List.mem_cons, List.not_mem_nil, or_false] at ht
    have hns : ¬ Stuck p := not_stuck hr' (by rw [ht]; decide)
    obtain ⟨o, hd, hh⟩ := hd.resolve_left hns
    rw [hr'] at hh
    have ho := hh.item (target_expression (plain_ends hd)) (by rw [ht]; decide)
    have up : ∀ {k}, Live p' .expression k → Live p₀ .expression k := fun h =>
      h.wrap (m.trans m') (.inr (.inl ⟨by decide, by decide⟩)) fun w' o' hf hg =>
        ⟨[], o', by simpa using Forms.assignment (.of hd) ho ht hf, hg, tail_nil⟩
    refine marks_run (hr.exact.assignment p' (m'.on g1).ready) (hr.assignment.keeps p' (m'.on g1)) (fun k h => up h) ?_
    rintro y p'' ⟨w', m'', -, hd'⟩ hl'
    refine mkAssignment_lives (g1.at hr') (g1.ready.wf.equal t (g1.ready.mem hr') ht) ?_ (up hl') fun _ => up hl'
    rw [m''.current, m'.current]
    simp; omega
  · intro t r' hr' ht
    exact marks_pure (up hl)

theorem assignmentBody_idle (hr : RecL env T r) : Idle env T (assignmentBody env r) := by
  constructor
  intro p g hs
  unfold assignmentBody
  refine marks_seq (fun _ p' => p' = p) ?_ ?_
  · unfold assignmentTarget
    refine marks_bind (marks_match g ?_ ?_)
    · intro t p' ht hr' m
      exact absurd hs (not_stuck hr' (by rw [ht]; decide))
    · intro t r' hr' ht
      exact (orExpr_idle hr).keeps p g hs
  · rintro x p' rfl
    refine marks_bind (marks_matches g (by decide) ?_ ?_)
    · intro t p'' ht hr' m
      exact absurd hs (not_stuck hr' (fun h => by rw [h] at ht; simp at ht))
    · intro t r' hr' ht
      exact marks_pure rfl

/-! ### Lists of expressions -/

theorem argumentList_lives (hr : RecL env T r) : Lives env T .arguments (argumentList env r) := by
  constructor
  intro p g
  rw [argumentList_eq]
  refine marks_loop (fun xs p' => xs.length ≤ 255 ∧ ∃ w, Moves p w p' ∧ PL p .closed false .before w (.exprs xs)) ?_
    ⟨by decide, [], Moves.refl p, .before_nil⟩
  rintro xs p1 ⟨hn, w1, m1, hd1⟩
  have g1 := m1.on g
  unfold argumentBody
  split
  · exact marks_errorFromPeek g1 (live_then m1 (Forms.arguments hd1 hn .blank) tidy_closed (tail_blanks (tts := [.identifier]) rfl))
  · rename_i hlen
    have up : ∀ {k}, Live p1 .expression k → Live p .arguments k := fun h =>
      h.wrap m1 (.inr (.inl ⟨by decide, by decide⟩)) fun w' o' hf hg =>
        ⟨[], o', by simpa using Forms.arguments hd1 hn hf, hg, tail_nil⟩
    refine marks_run (hr.exact.assignment p1 g1.ready) (hr.assignment.keeps p1 g1) (fun k h => up h) ?_
    rintro x p2 ⟨w2, m2, -, hd2⟩ hl
    rw [m1.PL_eq] at hd2
    refine marks_bind (marks_match (m2.on g1) ?_ ?_)
    · intro c p3 hc hr3 m3
      obtain ⟨o, hd2, hh⟩ := hd2.resolve_left (not_stuck hr3 (by rw [hc]; decide))
      rw [hr3] at hh
      refine marks_pure ⟨by simp; omega, w1 ++ w2 ++ [c], (m1.trans m2).trans m3, ?_⟩
      exact .before hd1 hd2 (hh.item (plain_ends hd2) (by rw [hc]; decide)) hc
    · intro t r' hr' ht
      exact marks_pure (up hl)

/-- The beginning of an array literal, after the bracket. -/
theorem arrayElements_lives {t : Token} (hr : RecL env T r) (g₀ : On env T p₀) (m : Moves p₀ [t] p) (ht : t.tokenType = .leftBracket) :
    Marks T (arrayElements r) (fun _ p' => Live p₀ .primary p'.current) (Live p₀ .primary) p := by
  have g := m.on g₀
  have before : ∀ {w xs p1}, Moves p w p1 → PL p .closed false .before w (.exprs xs) → Live p₀ .primary p1.current := by
    intro w xs p1 m1 hd
    rw [m.PL_eq] at hd
    exact live_then (m.trans m1) (v := [blank .rightBracket]) (by simpa using Forms.array_trailing ht (.of hd) (c := blank .rightBracket) rfl)
      tidy_closed (tail_blanks (tts := [.rightBracket]) rfl)
  rw [arrayElements_eq]
  refine marks_query ?_
  split
  · refine marks_loop (fun xs p' => ∃ w, Moves p w p' ∧ PL p .closed false .before w (.exprs xs)) ?_ ⟨[], Moves.refl p, .before_nil⟩
    rintro xs p1 ⟨w1, m1, hd1⟩
    have g1 := m1.on g
    have up : ∀ {k}, Live p1 .expression k → Live p₀ .primary k := fun h =>
      h.wrap (m.trans m1) (.inr (.inl ⟨by decide, by decide⟩)) fun w' o' hf hg => by
        have hd1 := hd1
        rw [m.PL_eq] at hd1
        exact ⟨[blank .rightBracket], .closed, by simpa using Forms.array ht (.of hd1) hf hg.1 (c := blank .rightBracket) rfl, tidy_closed,
          tail_blanks (tts := [.rightBracket]) rfl⟩
    unfold arrayBody
    refine marks_run (hr.exact.assignment p1 g1.ready) (hr.assignment.keeps p1 g1) (fun k h => up h) ?_
    rintro x p2 ⟨w2, m2, -, hd2⟩ hl
    rw [m1.PL_eq] at hd2
    refine marks_bind (marks_match (m2.on g1) ?_ ?_)
    · intro c p3 hc hr3 m3
      obtain ⟨o, hd2, hh⟩ := hd2.resolve_left (not_stuck hr3 (by rw [hc]; decide))
      rw [hr3] at hh
      have hd3 : PL p .closed false .before (w1 ++ w2 ++ [c]) (.exprs (xs ++ [x])) :=
        .before hd1 hd2 (hh.item (plain_ends hd2) (by rw [hc]; decide)) hc
      have m4 := (m1.trans m2).trans m3
      refine marks_query ?_
      split
      · exact marks_pure (before m4 hd3)
      · exact marks_pure ⟨_, m4, hd3⟩
    · intro t r' hr' ht
      exact marks_pure (up hl)
  · exact marks_pure (before (Moves.refl p) .before_nil)

/-! ### Maps -/

theorem literalMap_lives (hr : RecL env T r) (g : On env T p) :
    Marks T (literalMap env r) (fun _ p' => ¬ KeyColon p.rest ∧ p' = p ∨ KeyColon p.rest ∧ Live p .entries p'.current)
      (fun k => KeyColon p.rest ∧ Live p .entries k) p := by
  rw [literalMap_eq]
  refine marks_loop (fun ms p' => ∃ w o, Moves p w p' ∧ (¬ KeyColon p.rest → w = []) ∧ PL p o false .entriesBefore w (.entries ms) ∧
    (o = .brace → KeyColon p'.rest ∨ ∀ t r, p'.rest = t :: r → t.tokenType = .rightBrace)) ?_
    ⟨[], .closed, Moves.refl p, fun _ => rfl, .entries_nil, fun h => by cases h⟩
  rintro ms p1 ⟨w1, o1, m1, hk1, hd1, hb1⟩
  have g1 := m1.on g
  unfold mapBody
  refine marks_query ?_
  split
  · rename_i hk
    have hk := (atKey_iff g1.ready).1 hk
    have hkp : KeyColon p.rest := by
      by_cases h : KeyColon p.rest
      · exact h
      · have := hk1 h
        subst this
        rw [m1.eq_nil] at hk
        exact hk
    obtain ⟨t, c, r1, hr1, ht, hc⟩ := hk
    refine marks_query ?_
    rw [peek_head hr1]
    dsimp only
    have hkey : ∃ key, mapKey t = pure key ∧ IsKey t key := by
      unfold mapKey
      rcases ht with ht | ht
      · rw [ht]; exact ⟨_, rfl, .inl ⟨ht, rfl⟩⟩
      · obtain ⟨s, hs⟩ := Option.isSome_iff_exists.1 (g1.ready.wf.string t (g1.ready.mem hr1) ht)
        rw [ht, hs]; exact ⟨_, rfl, .inr ⟨ht, hs⟩⟩
    obtain ⟨key, hkey, hisk⟩ := hkey
    rw [hkey]
    refine marks_bind (marks_pure ?_)
    refine marks_bind (marks_advance hr1 (by rcases ht with ht | ht <;> rw [ht] <;> decide) ?_)
    intro p2 m2 hr2
    have start : Live p .entries p2.current := by
      refine ⟨w1 ++ [t], p2.rest, [blank .colon, blank .identifier], .closed, (m1.trans m2).rest, (m1.trans m2).current, ?_, tidy_closed, ?_, fun _ => hkp⟩
      · simpa using Forms.entries (.of hd1) hisk (c := blank .colon) rfl .blank
      · intro t ht
        simp only [List.mem_cons, List.not_mem_nil, or_false] at ht
        rcases ht with rfl | rfl <;> decide
    refine marks_bind (marks_consume (m2.on g1) (by decide) ⟨hkp, start⟩ ?_)
    intro c' p3 hc' hr3 m3
    have g3 := m3.on (m2.on g1)
    have m13 := (m1.trans m2).trans m3
    have up : ∀ {k}, Live p3 .expression k → Live p .entries k := fun h =>
      h.wrap m13 (.inr (.inl ⟨by decide, by decide⟩)) fun w' o' hf hg =>
        ⟨[], o', by simpa using Forms.entries (.of hd1) hisk hc' hf, hg, tail_nil⟩
    refine marks_run (hr.exact.assignment p3 g3.ready) (hr.assignment.keeps p3 g3) (fun k h => ⟨hkp, up h⟩) ?_
    rintro x p4 ⟨w4, m4, -, hd4⟩ hl
    rw [m3.PL_eq, m2.PL_eq, m1.PL_eq] at hd4
    have g4 := m4.on g3
    rcases mapInsert_eq (ms := ms) (k := key) (v := x) with hins | ⟨hins, hnew⟩
    · rcases hmi : mapInsert ms key x with ⟨ms', b⟩
      rw [hmi] at hins
      simp only at hins
      subst hins
      refine marks_throw (k := p4.current) (.late (i := p1.current) (t := t) (by simp [lateMessages, Cause.newWithLocation]) ?_ (g1.at hr1) ⟨rfl, ?_⟩) ⟨hkp, up hl⟩
        (Nat.le_succ _)
      · rw [m4.current, m3.current, m2.current]
        simp; omega
      · rcases hisk with ⟨h1, h2⟩ | ⟨h1, h2⟩
        · exact .inl (by rw [← h2]; rfl)
        · exact .inr ⟨h1, by rw [h2]; rfl⟩
    · rw [hins]
      dsimp only
      have mall : Moves p (w1 ++ t :: c' :: w4) p4 := by simpa using m13.trans m4
      refine marks_query (f := goesOn) ?_
      obtain ⟨s, r4, hr4⟩ := g4.ready.cons
      have hgo := goesOn_cons hr4
      split
      · rename_i hg
        have hg := hgo.1 hg
        have hsep : s.tokenType = .comma ∨ s.tokenType = .terminator := by
          rcases hg with h | ⟨t', r', hs, ht', -⟩
          · exact .inl h
          · cases hs; exact .inr ht'
        obtain ⟨o, hd4, hh⟩ := hd4.resolve_left (not_stuck hr4 (by rcases hsep with h | h <;> rw [h] <;> decide))
        rw [hr4] at hh
        refine marks_bind (marks_advance hr4 (by rcases hsep with h | h <;> rw [h] <;> decide) ?_)
        intro p5 m5 hr5
        by_cases hcom : s.tokenType = .comma
        · refine marks_pure ⟨w1 ++ t :: c' :: w4 ++ [s], .comma, mall.trans m5, fun h => absurd hkp h, ?_, fun h => by cases h⟩
          exact .entries_comma hd1 hisk hc' hd4 (hh.item (plain_ends hd4) (by rw [hcom]; decide)) hnew hcom
        · have hterm := hsep.resolve_left hcom
          have hm := hg.resolve_left hcom
          refine marks_pure ⟨w1 ++ t :: c' :: w4 ++ [s], .brace, mall.trans m5, fun h => absurd hkp h, ?_, fun _ => ?_⟩
          · exact .entries_line hd1 hisk hc' hd4 (fun h => hh.map (.inl h) hm) (hh.not_brace hterm (by decide)) hnew hterm
          · obtain ⟨t', r', hs, -, hk⟩ := hm
            cases hs
            rw [hr5]
            refine hk.imp id ?_
            rintro ⟨u, r', rfl, hu⟩ _ _ hs
            cases hs
            exact hu
      · exact marks_pure (.inr ⟨hkp, up hl⟩)
  · by_cases hkp : KeyColon p.rest
    · refine marks_pure (.inr ⟨hkp, w1, p1.rest, [blank .identifier, blank .colon, blank .identifier], .closed, m1.rest, m1.current, ?_, tidy_closed, ?_, fun _ => hkp⟩)
      · exact Forms.entries (.of hd1) (.inl ⟨rfl, rfl⟩) rfl .blank
      · intro t ht
        simp only [List.mem_cons, List.not_mem_nil, or_false] at ht
        rcases ht with rfl | rfl | rfl <;> decide
    · have := hk1 hkp
      subst this
      exact marks_pure (.inl ⟨hkp, m1.eq_nil⟩)

/-! ### Primary expressions -/

theorem live_primary : Live p .primary p.current := live_start (.variable (t := blank .identifier) rfl) tidy_closed (tail_blanks (tts := [.identifier]) rfl)

theorem primary_map_lives (hr : RecL env T r) (g : On env T p) :
    Marks T (do
      let m ← literalMap env r
      pure (Expr.literalMap m)) (fun _ p' => Live p .primary p'.current) (Live p .primary) p := by
  have up : ∀ {k}, Live p .entries k → Live p .primary k := fun h => h.down fun w o h ho => ⟨_, h.map_bare, tidy_bareMap ho⟩
  refine marks_bind (marks_mono (literalMap_lives hr g) ?_ fun k h => up h.2)
  rintro ms p' (⟨-, rfl⟩ | ⟨-, h⟩)
  · exact marks_pure live_primary
  · exact marks_pure (up h)

theorem forms_closed {o : Ends} {repl l : Bool} (h : Forms repl l o sym w) (hs : sym.ends = [.closed]) : Forms repl l .closed sym w := by
  have := h.ends
  rw [hs] at this
  simp only [List.mem_cons, List.not_mem_nil, or_false] at this
  rw [this] at h
  exact h

/-- The shortest block. -/
theorem forms_block {repl l : Bool} : Forms repl l .closed .block [blank .leftBrace, blank .rightBrace] :=
  .block_braces (w := []) rfl (.of .declarations_nil) (by decide) (by decide) rfl

theorem expectExpression_lives {t : Token} {r' : List Token} {Q : Expr → Parser → Prop} (g : On env T p) (hr : p.rest = t :: r') (hb : B p.current) :
    Marks T (do
      advanceP
      errorFromLast env "Expect expression.") Q B p := by
  by_cases ht : t.tokenType = .eof
  · have hend : p.isAtEnd = true := by
      unfold Parser.isAtEnd
      rw [peek_head hr]
      simp [ht]
    have hc : 0 < p.current := g.ready.safe.resolve_right (by rw [hend]; decide)
    have hadv : advanceP p = .ok () p := by
      show M.modify Parser.advance p = _
      unfold M.modify Parser.advance
      rw [if_pos hend]
    refine marks_bind ?_
    unfold Marks
    rw [hadv]
    show Marks T (errorFromLast env "Expect expression.") Q B p
    unfold Marks
    rw [errorFromLast_eq, if_neg (by omega)]
    have hlt : p.current - 1 < p.tokens.length := by have := g.ready.inb; omega
    rw [List.getElem?_eq_getElem hlt]
    refine ⟨p.current, .last (g.at hr) ht hc ⟨p.tokens[p.current - 1], ?_, rfl, rfl⟩ rfl, hb, Nat.le_succ _⟩
    rw [← g.tokens]
    exact List.getElem?_eq_getElem hlt
  · refine marks_bind (marks_advance hr ht ?_)
    intro p1 m1 hr1
    exact marks_errorFromLast (w := []) g m1 hb

theorem primary_lives (hr : RecL env T r) (hf : ∀ loc, Lives env T (.function loc) (functionDefinition env r loc)) : Lives env T .primary (primary env r) := by
  constructor
  intro p₀ g
  obtain ⟨t, r', hr0⟩ := g.ready.cons
  unfold primary
  refine marks_query ?_
  rw [peek_head hr0]
  dsimp only
  have single : ∀ (x : Expr), t.tokenType ≠ .eof → PL p₀ .closed false .primary [t] (.expr x) →
      Marks T (do
        advanceP
        pure x) (fun _ p' => Live p₀ .primary p'.current) (Live p₀ .primary) p₀ := by
    intro x h1 hd
    refine marks_bind (marks_advance hr0 h1 ?_)
    intro p1 m1 hr1
    exact marks_pure (live_of m1 hd (by decide))
  split
  · rename_i ht
    exact single _ (by rw [ht]; decide) (.false ht)
  · rename_i ht
    exact single _ (by rw [ht]; decide) (.true ht)
  · rename_i ht
    exact single _ (by rw [ht]; decide) (.nil ht)
  · rename_i ht
    split
    · rename_i x hx
      exact single _ (by rw [ht]; decide) (.number ht hx)
    · exact marks_panic
  · rename_i ht
    refine marks_query ?_
    split
    · exact primary_map_lives hr g
    · split
      · rename_i x hx
        exact single _ (by rw [ht]; decide) (.string ht hx)
      · exact marks_panic
  · rename_i ht
    refine marks_query ?_
    split
    · exact primary_map_lives hr g
    · exact single _ (by rw [ht]; decide) (.variable (.inl ht))
  · rename_i ht
    refine marks_query ?_
    split
    · exact primary_map_lives hr g
    · exact single _ (by rw [ht]; decide) (.variable (.inr ht))
  · rename_i ht
    refine marks_bind (marks_advance hr0 (by rw [ht]; decide) ?_)
    intro p1 m1 hr1
    have g1 := m1.on g
    refine marks_bind (marks_match g1 ?_ ?_)
    · intro i p2 hi hr2 m2
      refine marks_errorFromLast (w := [t]) g (m1.trans m2) ?_
      have := live_then (o := .closed) (sym := .primary) (v := [blank .leftParen, blank .rightParen, blank .leftBrace, blank .rightBrace]) m1
        (Forms.function_literal ht (.function_empty (.inl rfl) rfl forms_block)) tidy_closed
        (tail_blanks (tts := [.leftParen, .rightParen, .leftBrace, .rightBrace]) rfl)
      rwa [m1.current] at this
    · intro t' r'' hr' ht'
      have up : ∀ {k}, Live p1 (.function t.loc) k → Live p₀ .primary k := fun h =>
        h.wrap m1 (.inr (.inl ⟨by simp, by simp⟩)) fun w' o' hf hg =>
          ⟨[], .closed, by simpa using Forms.function_literal ht (forms_closed hf rfl), tidy_closed, tail_nil⟩
      refine marks_bind (marks_mono ((hf t.loc).keeps p1 g1) (fun d p2 h => ?_) fun k h => up h)
      exact marks_pure (up h)
  all_goals try
    rename_i ht
    refine marks_bind (marks_advance hr0 (by rw [ht]; decide) ?_)
    intro p1 m1 hr1
    have g1 := m1.on g
  iterate 2
    · have hp : IsParen t := by simp [IsParen, ht]
      have up : ∀ {k}, Live p1 .expression k → Live p₀ .primary k := fun h =>
        h.wrap m1 (.inr (.inl ⟨by decide, by decide⟩)) fun w' o' hf hg =>
          ⟨[blank .rightParen], .closed, by simpa using Forms.grouping hp hf hg.1 (c := blank .rightParen) rfl, tidy_closed,
            tail_blanks (tts := [.rightParen]) rfl⟩
      refine marks_run (hr.exact.assignment p1 g1.ready) (hr.assignment.keeps p1 g1) (fun k h => up h) ?_
      rintro x p2 ⟨w2, m2, -, hd⟩ hl
      rw [m1.PL_eq] at hd
      refine marks_bind (marks_consume (m2.on g1) (by decide) (up hl) ?_)
      intro c p3 hc hr3 m3
      obtain ⟨o, hd, hh⟩ := hd.resolve_left (not_stuck hr3 (by rw [hc]; decide))
      rw [hr3] at hh
      have hd' : PL p₀ .closed false .primary (t :: w2 ++ [c]) (.expr (.grouping x)) := .grouping hp hd (hh.not_brace hc (by decide)) hc
      exact marks_pure (live_of (by simpa using (m1.trans m2).trans m3) hd' (by decide))
  · have up : ∀ {k}, Live p1 .entries k → Live p₀ .primary k := fun h =>
      h.wrap m1 (.inr (.inl ⟨by decide, by decide⟩)) fun w' o' hf hg =>
        ⟨[blank .rightBrace], .closed, by simpa using Forms.map_braces ht hf (c := blank .rightBrace) rfl, tidy_closed,
          tail_blanks (tts := [.rightBrace]) rfl⟩
    refine marks_run (literalMap_exact hr.exact g1.ready) (literalMap_lives hr g1) (fun k h => up h.2) ?_
    rintro ms p2 ⟨w2, m2, -, hd⟩ hl
    rw [m1.PL_eq] at hd
    have hl : Live p₀ .primary p2.current := by
      rcases hl with ⟨-, rfl⟩ | ⟨-, hl⟩
      · exact live_then m1 (v := [blank .rightBrace]) (Forms.map_trailing (w := []) ht (.of .entries_nil) (c := blank .rightBrace) rfl) tidy_closed
          (tail_blanks (tts := [.rightBrace]) rfl)
      · exact up hl
    refine marks_bind (marks_consume (m2.on g1) (by decide) hl ?_)
    intro c p3 hc hr3 m3
    have hd := hd.resolve_left (not_stuck hr3 (by rw [hc]; decide))
    have hd' : PL p₀ .closed false .primary (t :: w2 ++ [c]) (.expr (.literalMap ms)) := by
      rcases hd with ⟨o, hd, -⟩ | ⟨o, hd, -⟩
      · exact .map_trailing ht hd hc
      · exact .map_braces ht hd hc
    exact marks_pure (live_of (by simpa using (m1.trans m2).trans m3) hd' (by decide))
  · refine marks_run (arrayElements_exact hr.exact g1.ready) (arrayElements_lives hr g m1 ht) (fun k h => h) ?_
    rintro xs p2 ⟨w2, m2, hd⟩ hl
    rw [m1.PL_eq] at hd
    refine marks_bind (marks_consume (m2.on g1) (by decide) hl ?_)
    intro c p3 hc hr3 m3
    have hd := hd.resolve_left (not_stuck hr3 (by rw [hc]; decide))
    have hd' : PL p₀ .closed false .primary (t :: w2 ++ [c]) (.expr (.literalArray xs)) := by
      rcases hd with hd | ⟨w3, w4, xs', x, o, rfl, rfl, hd1, hd2, hh⟩
      · exact .array_trailing ht hd hc
      · rw [hr3] at hh
        have := Plain.array ht hd1 hd2 (hh.not_brace hc (by decide)) hc
        simpa using this
    exact marks_pure (live_of (by simpa using (m1.trans m2).trans m3) hd' (by decide))
  · refine marks_bind (marks_consume g1 (by decide) ?_ ?_)
    · exact live_then m1 (Forms.super ht (d := blank .dot) rfl (i := blank .identifier) rfl) tidy_closed (tail_blanks (tts := [.dot, .identifier]) rfl)
    intro d p2 hd hr2 m2
    refine marks_bind (marks_identifier (m2.on g1) ?_ ?_)
    · exact live_then (m1.trans m2) (Forms.super ht hd (i := blank .identifier) rfl) tidy_closed (tail_blanks (tts := [.identifier]) rfl)
    intro i p3 hi hr3 m3
    exact marks_pure (live_of (x := .expr (.super .placeholder i.lexeme t.loc)) ((m1.trans m2).trans m3) (.super ht hd hi) (by decide))
  · exact expectExpression_lives g hr0 live_primary

/-! ### Calls -/

theorem call_lives (hr : RecL env T r) (hx : FunX env r) (hf : ∀ loc, Lives env T (.function loc) (functionDefinition env r loc)) :
    Lives env T .call (call env r) := by
  constructor
  intro p₀ g
  have up : ∀ {k}, Live p₀ .primary k → Live p₀ .call k := fun h => h.down fun w o h ho => ⟨o, h.primary, ho⟩
  rw [call_eq]
  refine marks_run (primary_exact hr.exact hx p₀ g.ready) ((primary_lives hr hf).keeps p₀ g) (fun k h => up h) ?_
  rintro x p ⟨w, m, hst, hd⟩ hl
  refine marks_loop (fun x p => PostX .call 10 p₀ x p ∧ Live p₀ .call p.current) ?_ ⟨⟨w, m, hst, hd.imp id fun ⟨o, hd, hh⟩ => ⟨o, .primary hd, hh⟩⟩, up hl⟩
  rintro x p ⟨⟨w, m, hst, hd⟩, hl⟩
  have g' := m.on g
  unfold callBody
  refine marks_bind (marks_matches g' (by decide) ?_ ?_)
  · intro t p1 ht hr1 m1
    have hns : ¬ Stuck p := not_stuck hr1 (fun h => by rw [h] at ht; simp at ht)
    obtain ⟨o, hd, hh⟩ := hd.resolve_left hns
    simp only [List.mem_cons, List.not_mem_nil, or_false] at ht
    rw [hr1] at hh
    have ho := hh.whole (plain_ends hd) (by rcases ht with ht | ht | ht <;> rw [ht] <;> decide)
    have g1 := m1.on g'
    have m01 := m.trans m1
    have closed : ∀ {w' x' p2}, Moves p1 w' p2 → PL p₀ .closed false .call (w ++ t :: w') (.expr x') → PostX .call 10 p₀ x' p2 ∧ Live p₀ .call p2.current :=
      fun m2 hd =>
        have mm := by simpa using m01.trans m2
        ⟨⟨_, mm, fun h => absurd h (stays hst m hns), .inr ⟨_, hd, halt_closed fun _ _ _ => rank_le _⟩⟩, live_of mm hd (by decide)⟩
    rcases ht with ht | ht | ht <;> simp only [ht]
    · refine marks_bind (marks_identifier g1 ?_ ?_)
      · exact live_then m01 (v := [blank .identifier]) (by simpa using Forms.property (.of hd) ho ht (i := blank .identifier) rfl) tidy_closed
          (tail_blanks (tts := [.identifier]) rfl)
      intro i p2 hi hr2 m2
      exact marks_pure (closed m2 (.property hd ho ht hi))
    · have empty : Live p₀ .call p1.current :=
        live_then m01 (v := [blank .rightParen]) (by simpa using Forms.call_empty (.of hd) ho ht (c := blank .rightParen) rfl) tidy_closed
          (tail_blanks (tts := [.rightParen]) rfl)
      have up : ∀ {k}, Live p1 .arguments k → Live p₀ .call k := fun h =>
        h.wrap m01 (.inr (.inl ⟨by decide, by decide⟩)) fun w' o' hf hg =>
          ⟨[blank .rightParen], .closed, by simpa using Forms.call_args (.of hd) ho ht hf hg.1 (c := blank .rightParen) rfl, tidy_closed,
            tail_blanks (tts := [.rightParen]) rfl⟩
      have args : Marks T (callArguments env r) (fun _ p2 => Live p₀ .call p2.current) (Live p₀ .call) p1 := by
        unfold callArguments
        refine marks_query ?_
        split
        · exact marks_mono ((argumentList_lives hr).keeps p1 g1) (fun _ _ h => up h) fun _ h => up h
        · exact marks_pure empty
      unfold finishCall
      refine marks_bind (marks_run (callArguments_exact hr.exact g1.ready) args (fun k h => h) ?_)
      rintro xs p2 ⟨w2, m2, hd2⟩ hl2
      rw [m1.PL_eq, m.PL_eq] at hd2
      refine marks_bind (marks_consume (m2.on g1) (by decide) hl2 ?_)
      intro c p3 hc hr3 m3
      have hd2 := hd2.resolve_left (not_stuck hr3 (by rw [hc]; decide))
      refine marks_pure (marks_pure (closed (m2.trans m3) ?_))
      rcases hd2 with ⟨rfl, rfl⟩ | ⟨o2, hd2, hh2⟩
      · exact .call_empty hd ho ht hc
      · rw [hr3] at hh2
        have := Plain.call_args hd ho ht hd2 (hh2.not_brace hc (by decide)) hc
        simpa using this
    · have up : ∀ {k}, Live p1 .expression k → Live p₀ .call k := fun h =>
        h.wrap m01 (.inr (.inl ⟨by decide, by decide⟩)) fun w' o' hf hg =>
          ⟨[blank .rightBracket], .closed, by simpa using Forms.index (.of hd) ho ht hf hg.1 (c := blank .rightBracket) rfl, tidy_closed,
            tail_blanks (tts := [.rightBracket]) rfl⟩
      unfold finishGetIndex
      refine marks_bind (marks_run (hr.exact.assignment p1 g1.ready) (hr.assignment.keeps p1 g1) (fun k h => up h) ?_)
      rintro y p2 ⟨w2, m2, -, hd2⟩ hl2
      rw [m1.PL_eq, m.PL_eq] at hd2
      refine marks_bind (marks_consume (m2.on g1) (by decide) (up hl2) ?_)
      intro c p3 hc hr3 m3
      obtain ⟨o2, hd2, hh2⟩ := hd2.resolve_left (not_stuck hr3 (by rw [hc]; decide))
      rw [hr3] at hh2
      refine marks_pure (marks_pure (closed (m2.trans m3) ?_))
      have := Plain.index hd ho ht hd2 (hh2.not_brace hc (by decide)) hc
      simpa using this
  · intro t r' hr' ht
    refine marks_query ?_
    split
    · rename_i hc
      rw [checkAnyOf_cons hr'] at hc
      have hst' : startsArgument t.tokenType := by
        simp only [Bool.and_eq_true, List.contains_eq_mem, decide_eq_true_eq] at hc
        exact hc.2
      have hthis : t.tokenType ≠ .this := by unfold startsArgument at hst'; intro h; rw [h] at hst'; simp at hst'
      have hns : ¬ Stuck p := not_stuck hr' hthis
      obtain ⟨o, hd, hh⟩ := hd.resolve_left hns
      have hh0 := hh
      rw [hr'] at hh
      have ho := hh.whole (plain_ends hd) (by
        revert hst'
        unfold startsArgument
        cases t.tokenType <;> simp [rank])
      have up : ∀ {k}, Live p .arguments k → Live p₀ .call k := fun h =>
        Live.wrap_ne (sym' := .arguments) m (.inr (.inl ⟨by decide, by decide⟩)) hl (hl := h) fun t' w' s v o' h1 hf hg hk => by
          have : t' = t := by
            rw [hr'] at h1
            exact (List.cons.inj h1).1.symm
          subst this
          exact ⟨[], _, by simpa using Forms.call_bare (.of hd) ho hst' (fun hcom hk' => hh0.key hcom (hk hk')) hf, tidy_bare hg, tail_nil⟩
      have hloc : Marks T (peekSourceLoc env) (fun loc p2 => loc = t.loc ∧ p2 = p) (Live p₀ .call) p := by
        unfold Marks
        simp only [peekSourceLoc, bind, M.bind, query, Parser.peek_eq, hr', List.head?_cons, pure, M.pure]
        exact ⟨trivial, trivial⟩
      refine marks_seq _ hloc ?_
      rintro loc p2 ⟨hloc, hp2⟩
      rw [hloc, hp2]
      unfold finishCallWithoutParens
      refine marks_bind (marks_run (argumentList_exact hr.exact g'.ready) ((argumentList_lives hr).keeps p g') (fun k h => up h) ?_)
      rintro xs p2 ⟨w2, m2, hd2⟩ hl2
      rw [m.PL_eq] at hd2
      refine marks_pure (marks_pure ⟨⟨w ++ w2, m.trans m2, fun h => absurd h (stays hst m hns), hd2.imp id ?_⟩, up hl2⟩)
      rintro ⟨o2, hd2, hh2, hnc⟩
      obtain ⟨t', w3, rfl, -, -⟩ := (plain_first hd2 : ExprHead _ w2)
      have : t' = t := by
        have h1 := m2.head
        rw [hr'] at h1
        exact (List.cons.inj h1).1.symm
      subst this
      refine ⟨_, .call_bare hd ho hst' (fun hcom hk => ?_) hd2, hh2.bare (plain_ends hd2) hnc⟩
      have := hh0.key hcom
      rw [m2.rest] at this
      exact this (KeyColon.append hk)
    · exact marks_pure hl

theorem unaryBody_lives (hr : RecL env T r) (hx : FunX env r) (hf : ∀ loc, Lives env T (.function loc) (functionDefinition env r loc)) :
    Lives env T .unary (unaryBody env r) := by
  constructor
  intro p₀ g
  unfold unaryBody
  refine marks_bind (marks_matches g (by decide) ?_ ?_)
  · intro t p1 ht hr1 m1
    simp only [List.mem_cons, List.not_mem_nil, or_false] at ht
    have up : ∀ {k}, Live p1 .unary k → Live p₀ .unary k := fun h =>
      h.wrap m1 (.inr (.inl ⟨by decide, by decide⟩)) fun w' o' hf hg => by
        have hop : ∃ op, prefixNode t.tokenType = some op := by rcases ht with ht | ht <;> rw [ht] <;> exact ⟨_, rfl⟩
        obtain ⟨op, hop⟩ := hop
        exact ⟨[], o', by simpa using Forms.prefix hop hf, hg, tail_nil⟩
    refine marks_bind (marks_mono (hr.unary.keeps p1 (m1.on g)) (fun x p2 hl => ?_) fun k h => up h)
    rcases ht with ht | ht <;> simp only [ht] <;> exact marks_pure (up hl)
  · intro t r' hr' ht
    have up : ∀ {k}, Live p₀ .call k → Live p₀ .unary k := fun h => h.down fun w o h ho => ⟨_, h.call, tidy_unary ho⟩
    exact marks_mono ((call_lives hr hx hf).keeps p₀ g) (fun _ _ h => up h) fun _ h => up h

theorem primary_idle (hr : RecL env T r) : Idle env T (primary env r) := by
  constructor
  intro p g hs
  obtain ⟨t, c, r', hr0, ht, hc⟩ := hs
  unfold primary
  refine marks_query ?_
  rw [peek_head hr0]
  simp only [ht]
  refine marks_query ?_
  rw [checkNext_cons hr0]
  rw [if_pos (by simp [ht, hc])]
  refine marks_bind (marks_mono (literalMap_lives hr g) ?_ fun k h => absurd h.1 (keyColon_stuck ⟨t, c, r', hr0, ht, hc⟩))
  rintro ms p' (⟨-, rfl⟩ | ⟨h, -⟩)
  · exact marks_pure rfl
  · exact absurd h (keyColon_stuck ⟨t, c, r', hr0, ht, hc⟩)

theorem call_idle (hr : RecL env T r) : Idle env T (call env r) := by
  constructor
  intro p g hs
  rw [call_eq]
  refine marks_seq _ ((primary_idle hr).keeps p g hs) ?_
  rintro x p' rfl
  refine marks_loop (fun _ p'' => p'' = p') ?_ rfl
  rintro x _ rfl
  unfold callBody
  refine marks_bind (marks_matches g (by decide) ?_ ?_)
  · intro t p'' ht hr m
    exact absurd hs (not_stuck hr (fun h => by rw [h] at ht; simp at ht))
  · intro t r' hr ht
    refine marks_query ?_
    obtain ⟨t', r'', hr', ht'⟩ := hs.head
    rw [checkAnyOf_cons hr', ht']
    exact marks_pure rfl

theorem unaryBody_idle (hr : RecL env T r) : Idle env T (unaryBody env r) := by
  constructor
  intro p g hs
  unfold unaryBody
  refine marks_bind (marks_matches g (by decide) ?_ ?_)
  · intro t p'' ht hr m
    exact absurd hs (not_stuck hr (fun h => by rw [h] at ht; simp at ht))
  · intro t r' hr' ht
    exact (call_idle hr).keeps p g hs

end Ws
