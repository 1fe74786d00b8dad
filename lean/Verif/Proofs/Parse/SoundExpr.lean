import Verif.Proofs.Parse.Sound
/-! Calls, primary expressions and unary operators. -/
namespace Ws
open Spec

variable {α β σ : Type} {env : Env} {p p₀ p' p'' : Parser} {w w' : List Token} {n : Nat} {r : Rec}

theorem argumentList_ok {Q : List Expr → Parser → Prop} (hr : RecOk env n r) (g : Ready env p₀) (m : Moves p₀ w p)
    (hn : 4 * p.rest.length + 2 ≤ n)
    (k : ∀ es w' p', Moves p₀ (w ++ w') p' → (D p₀ .arguments w' (.exprs es) ∨ Stuck p') →
      (¬ Stuck p → w' ≠ []) → Q es p') : wp (argumentList env r) Q (Err p₀) p := by
  unfold argumentList
  refine wp_loop (fun es p' => p'.rest.length ≤ p.rest.length ∧ ∃ w', Moves p₀ (w ++ w') p' ∧
    (es = [] ∧ w' = [] ∧ p' = p ∨
      ∃ w'' c, w' = w'' ++ [c] ∧ c.tokenType = .comma ∧ D p₀ .arguments w'' (.exprs es))) ?_
    ⟨Nat.le_refl _, [], by simpa using m, .inl ⟨rfl, rfl, rfl⟩⟩
  rintro es p1 ⟨hl, w1, m1, hd⟩
  have g1 := m1.good g
  split
  · exact wp_err m1 (wp_errorFromPeek g1)
  · rename_i hlen
    refine wp_bind (wp_expr m1 (hr.assignment p1 g1 (by omega)) ?_)
    intro e p2 w2 m2 m2' he hpr
    have hd' : D p₀ .arguments (w1 ++ w2) (.exprs (es ++ [e])) ∨ Stuck p2 := by
      refine he.imp (fun he => ?_) id
      rcases hd with ⟨rfl, rfl, -⟩ | ⟨w'', c, rfl, hc, hd⟩
      · exact .argument he
      · simpa using Grammar.arguments hd (by omega) hc he
    have hne : ¬ Stuck p → w1 ++ w2 ≠ [] := by
      intro hs
      rcases hd with ⟨rfl, rfl, rfl⟩ | ⟨w'', c, rfl, hc, hd⟩
      · rcases hpr with h | h
        · simpa using h.1
        · exact absurd h.2 hs
      · simp
    have hl2 := m2'.le
    refine wp_bind (wp_matchToken (m2.good g) ?_ ?_)
    · intro c p3 hc hr3 m3
      have := m3.shorter
      have hd' := hd'.resolve_right (not_stuck hr3 (by rw [hc]; decide))
      exact wp_pure ⟨⟨by omega, w1 ++ w2 ++ [c], by simpa using m2.trans m3, .inr ⟨_, c, rfl, hc, hd'⟩⟩, by omega⟩
    · intro t r' hr' ht
      exact wp_pure (k _ (w1 ++ w2) p2 (by simpa using m2) hd' hne)

theorem arrayElements_ok {Q : List Expr → Parser → Prop} (hr : RecOk env n r) (g : Ready env p₀) (m : Moves p₀ w p)
    (hn : 4 * p.rest.length + 2 ≤ n)
    (k : ∀ es w' p', Moves p₀ (w ++ w') p' → (es = [] ∧ w' = [] ∨
      (∃ w'' s, w' = w'' ++ s ∧ Optional .comma s ∧ D p₀ .elements w'' (.exprs es)) ∨ Stuck p') → Q es p') :
    wp (arrayElements r) Q (Err p₀) p := by
  unfold arrayElements
  refine wp_bind (wp_query ?_)
  split
  · refine wp_loop (fun es p' => p'.rest.length ≤ p.rest.length ∧ ∃ w', Moves p₀ (w ++ w') p' ∧
      (es = [] ∧ w' = [] ∨
        ∃ w'' c, w' = w'' ++ [c] ∧ c.tokenType = .comma ∧ D p₀ .elements w'' (.exprs es))) ?_
      ⟨Nat.le_refl _, [], by simpa using m, .inl ⟨rfl, rfl⟩⟩
    rintro es p1 ⟨hl, w1, m1, hd⟩
    have g1 := m1.good g
    refine wp_bind (wp_expr m1 (hr.assignment p1 g1 (by omega)) ?_)
    intro e p2 w2 m2 m2' he hpr
    have hd' : D p₀ .elements (w1 ++ w2) (.exprs (es ++ [e])) ∨ Stuck p2 := by
      refine he.imp (fun he => ?_) id
      rcases hd with ⟨rfl, rfl⟩ | ⟨w'', c, rfl, hc, hd⟩
      · exact .element he
      · simpa using Grammar.elements hd hc he
    have hl2 := m2'.le
    refine wp_bind (wp_matchToken (m2.good g) ?_ ?_)
    · intro c p3 hc hr3 m3
      have := m3.shorter
      have hd' := hd'.resolve_right (not_stuck hr3 (by rw [hc]; decide))
      refine wp_bind (wp_query ?_)
      split
      · exact wp_pure (k _ (w1 ++ w2 ++ [c]) p3 (by simpa using m2.trans m3)
          (.inr (.inl ⟨_, [c], rfl, .inr ⟨c, hc, rfl⟩, hd'⟩)))
      · exact wp_pure ⟨⟨by omega, w1 ++ w2 ++ [c], by simpa using m2.trans m3, .inr ⟨_, c, rfl, hc, hd'⟩⟩, by omega⟩
    · intro t r' hr' ht
      exact wp_pure (k _ (w1 ++ w2) p2 (by simpa using m2)
        (.inr (hd'.imp (fun hd' => ⟨w1 ++ w2, [], by simp, .inl rfl, hd'⟩) id)))
  · exact wp_pure (k [] [] p (by simpa using m) (.inl ⟨rfl, rfl⟩))

/-- The next two tokens are a key and a colon. -/
def AtKey (p : Parser) : Prop :=
  ∃ t c r, p.rest = t :: c :: r ∧ (t.tokenType = .identifier ∨ t.tokenType = .string) ∧ c.tokenType = .colon

theorem atKey_iff (g : Ready env p) : (p.checkAnyOf [.identifier, .string] && p.checkNext .colon) = true ↔ AtKey p := by
  obtain ⟨t, r, hr⟩ := g.cons
  rw [checkAnyOf_cons hr, checkNext_cons hr]
  unfold AtKey
  rw [hr]
  cases r with
  | nil => simp
  | cons c r =>
    simp only [List.head?_cons, List.cons.injEq, Bool.and_eq_true, bne_iff_ne, ne_eq, beq_iff_eq,
      List.contains_eq_mem, decide_eq_true_eq, List.mem_cons, List.not_mem_nil, or_false]
    constructor
    · rintro ⟨⟨-, h⟩, -, h'⟩
      exact ⟨t, c, r, ⟨rfl, rfl, rfl⟩, h, h'⟩
    · rintro ⟨_, _, _, ⟨rfl, rfl, rfl⟩, h, h'⟩
      refine ⟨⟨?_, h⟩, ?_, h'⟩ <;> rcases h with h | h <;> rw [h] <;> decide

theorem mapInsert_eq {ms : List MapEntry} {k : Str} {v : Expr} :
    (mapInsert ms k v).2 = true ∨ mapInsert ms k v = (ms ++ [.mk k v], false) ∧ k ∉ ms.map MapEntry.key := by
  unfold mapInsert
  split
  · exact .inl rfl
  · rename_i h
    refine .inr ⟨rfl, ?_⟩
    simp only [List.any_eq_true, beq_iff_eq, not_exists, not_and] at h
    simpa using h

theorem wp_advanceP {t : Token} {r' : List Token} {Q : Unit → Parser → Prop} {E : Cause → Parser → Prop}
    (hr : p.rest = t :: r') (ht : t.tokenType ≠ .eof)
    (k : ∀ p', Moves p [t] p' → p.rest = t :: p'.rest → Q () p') : wp advanceP Q E p := by
  obtain ⟨m, hr'⟩ := advance_moves hr ht
  exact k _ m (by rw [hr', hr])

theorem literalMap_ok {Q : List MapEntry → Parser → Prop} (hr : RecOk env n r) (g : Ready env p₀) (m : Moves p₀ w p)
    (hn : 4 * p.rest.length ≤ n + 1)
    (k : ∀ ms w' p', Moves p₀ (w ++ w') p' → (ms = [] ∧ w' = [] ∧ p' = p ∧ ¬ AtKey p ∨ w' ≠ [] ∧ AtKey p ∧
      ((∃ w'' s, w' = w'' ++ s ∧ OptionalSeparator s ∧ D p₀ .entries w'' (.entries ms)) ∨ Stuck p')) → Q ms p') :
    wp (literalMap env r) Q (Err p₀) p := by
  unfold literalMap
  refine wp_loop (fun ms p' => p'.rest.length ≤ p.rest.length ∧ ∃ w', Moves p₀ (w ++ w') p' ∧
      (ms = [] ∧ w' = [] ∧ p' = p ∨
        AtKey p ∧ ∃ w'' s, w' = w'' ++ [s] ∧ IsSeparator s ∧ D p₀ .entries w'' (.entries ms))) ?_
      ⟨Nat.le_refl _, [], by simpa using m, .inl ⟨rfl, rfl, rfl⟩⟩
  rintro ms p1 ⟨hl, w1, m1, hd⟩
  have g1 := m1.good g
  refine wp_bind (wp_query ?_)
  split
  · rename_i hk
    have hat : AtKey p := by
      rcases hd with ⟨-, -, rfl⟩ | ⟨h, -⟩
      · exact (atKey_iff g1).1 hk
      · exact h
    obtain ⟨t, c, r1, hr1, ht, hc⟩ := (atKey_iff g1).1 hk
    refine wp_bind (wp_query ?_)
    rw [show p1.peek = some t by rw [Parser.peek_eq, hr1]; rfl]
    dsimp only
    have hkey : ∃ key, mapKey t = pure key ∧ IsKey t key := by
      unfold mapKey
      rcases ht with ht | ht
      · rw [ht]; exact ⟨_, rfl, .inl ⟨ht, rfl⟩⟩
      · obtain ⟨s, hs⟩ := Option.isSome_iff_exists.1 (g1.wf.string t (g1.mem hr1) ht)
        rw [ht, hs]; exact ⟨_, rfl, .inr ⟨ht, hs⟩⟩
    obtain ⟨key, hkey, hisk⟩ := hkey
    rw [hkey]
    refine wp_bind (wp_pure ?_)
    refine wp_bind (wp_advanceP hr1 (by rcases ht with ht | ht <;> rw [ht] <;> decide) ?_)
    intro p2 m2 hr2
    refine wp_bind (wp_consume g (m1.trans m2) (.inl trivial) (by decide) (by decide) ?_)
    intro _ c' p3 hc' hr3 m3
    have g3 := m3.good g
    have hl3 : p3.rest.length + 2 = p1.rest.length := by
      rw [hr2, hr3]; simp
    refine wp_bind (wp_expr m3 (hr.assignment p3 g3 (by omega)) ?_)
    intro e p4 w4 m4 m4' he hpr
    have hl4 := m4'.le
    have hrep : ∀ msg, Err p₀ (.newWithLocation t.loc key msg) p4 := by
      intro msg
      refine m4.err g (t := t) (by simp) ⟨rfl, ?_⟩
      rcases hisk with ⟨-, h⟩ | ⟨h, h'⟩
      · left; rw [h]; rfl
      · right; exact ⟨h, h'.symm⟩
    rcases mapInsert_eq (ms := ms) (k := key) (v := e) with hins | ⟨hins, hnew⟩
    · rcases hmi : mapInsert ms key e with ⟨ms', b⟩
      rw [hmi] at hins
      simp only at hins
      subst hins
      exact wp_throw (hrep _)
    · rw [hins]
      dsimp only
      have hd' : D p₀ .entries (w1 ++ t :: c' :: w4) (.entries (ms ++ [.mk key e])) ∨ Stuck p4 := by
        refine he.imp (fun he => ?_) id
        rcases hd with ⟨rfl, rfl, -⟩ | ⟨-, w'', s, rfl, hs, hd⟩
        · exact .entry hisk hc' he
        · simpa using Grammar.entries hd hs hisk hc' he hnew
      have mall : Moves p₀ (w ++ (w1 ++ t :: c' :: w4)) p4 := by simpa using m4
      have g4 := m4.good g
      refine wp_bind (wp_query ?_)
      split
      · rename_i hsep
        obtain ⟨s, r4, hr4⟩ := g4.cons
        have hs : IsSeparator s := by
          rw [check_cons hr4, check_cons hr4] at hsep
          simp only [Bool.or_eq_true, Bool.and_eq_true, beq_iff_eq] at hsep
          rcases hsep with h | h
          · exact .inl h.2
          · exact .inr h.1.2
        have hns : s.tokenType ≠ .this ∧ s.tokenType ≠ .eof := by
          rcases hs with h | h <;> rw [h] <;> decide
        refine wp_bind (wp_advanceP hr4 hns.2 ?_)
        intro p5 m5 hr5
        have h5 := m5.shorter
        refine wp_pure ⟨⟨by omega, w1 ++ t :: c' :: w4 ++ [s], by simpa using m4.trans m5,
          .inr ⟨hat, _, s, rfl, hs, hd'.resolve_right (not_stuck hr4 hns.1)⟩⟩, by omega⟩
      · refine wp_pure (k _ _ p4 mall (.inr ⟨by simp, hat, hd'.imp (fun hd' => ⟨_, [], by simp, .inl rfl, hd'⟩) id⟩))
  · rename_i hk
    rw [atKey_iff g1] at hk
    rcases hd with ⟨rfl, rfl, rfl⟩ | ⟨hat, w'', s, rfl, hs, hd⟩
    · exact wp_pure (k [] [] _ m1 (.inl ⟨rfl, rfl, rfl, hk⟩))
    · exact wp_pure (k ms _ p1 m1 (.inr ⟨by simp, hat, .inl ⟨w'', [s], rfl, .inr ⟨s, hs, rfl⟩, hd⟩⟩))

theorem checkNext_colon {t : Token} {r' : List Token} (hr : p.rest = t :: r') (h : p.checkNext .colon = true) :
    ∃ c r'', r' = c :: r'' ∧ c.tokenType = .colon := by
  rw [checkNext_cons hr] at h
  cases r' with
  | nil => simp at h
  | cons c r'' =>
    simp only [List.head?_cons, Bool.and_eq_true, beq_iff_eq] at h
    exact ⟨c, r'', rfl, h.2⟩

theorem primary_map_ok {t : Token} {r' : List Token} (hr : RecOk env n r) (g : Ready env p₀)
    (hn : 4 * p₀.rest.length ≤ n + 1) (hr0 : p₀.rest = t :: r')
    (ht : t.tokenType = .identifier ∨ t.tokenType = .string ∨ t.tokenType = .this) (hc : p₀.checkNext .colon = true) :
    wp (do
      let m ← literalMap env r
      pure (.literalMap m)) (PostE .primary p₀) (Err p₀) p₀ := by
  obtain ⟨c, r'', rfl, hc'⟩ := checkNext_colon hr0 hc
  refine wp_bind (literalMap_ok hr g (Moves.refl p₀) hn ?_)
  intro ms w' p' m hms
  rw [List.nil_append] at m
  refine wp_pure ⟨w', m, ?_⟩
  rcases hms with ⟨rfl, rfl, rfl, hk⟩ | ⟨hw, hat, hms⟩
  · have hs : Stuck p' := by
      refine ⟨t, c, r'', hr0, ?_, hc'⟩
      rcases ht with h | h | h
      · exact absurd ⟨t, c, r'', hr0, .inl h, hc'⟩ hk
      · exact absurd ⟨t, c, r'', hr0, .inr h, hc'⟩ hk
      · exact h
    exact ⟨.inr hs, .inr ⟨rfl, hs⟩⟩
  · refine ⟨hms.imp ?_ id, .inl ⟨hw, ?_⟩⟩
    · rintro ⟨w'', s, rfl, hs, hd⟩
      exact .map_bare hd hs
    · obtain ⟨t', _, _, hr', ht', -⟩ := hat
      exact not_stuck hr' (by rcases ht' with h | h <;> rw [h] <;> decide)

theorem primary_ok (hr : RecOk env n r) (p₀ : Parser) (g : Ready env p₀) (hn : 4 * p₀.rest.length ≤ n) :
    wp (primary env r) (PostE .primary p₀) (Err p₀) p₀ := by
  obtain ⟨t, r', hr0⟩ := g.cons
  unfold primary
  refine wp_bind (wp_query ?_)
  rw [Parser.peek_eq, hr0]
  dsimp only [List.head?_cons]
  -- a single token
  have single : ∀ e, t.tokenType ≠ .eof → t.tokenType ≠ .this → D p₀ .primary [t] (.expr e) →
      wp (do
        advanceP
        pure e) (PostE .primary p₀) (Err p₀) p₀ := by
    intro e h1 h2 hd
    refine wp_bind (wp_advanceP hr0 h1 ?_)
    intro p1 m1 hr1
    exact wp_pure ⟨[t], m1, .inl hd, .inl ⟨by simp, not_stuck hr0 h2⟩⟩
  have hlen : ∀ {p1}, Moves p₀ [t] p1 → 4 * p1.rest.length + 4 ≤ n := by
    intro p1 m1
    have := m1.shorter
    omega
  split
  · rename_i ht
    exact single _ (by rw [ht]; decide) (by rw [ht]; decide) (.false ht)
  · rename_i ht
    exact single _ (by rw [ht]; decide) (by rw [ht]; decide) (.true ht)
  · rename_i ht
    exact single _ (by rw [ht]; decide) (by rw [ht]; decide) (.nil ht)
  · rename_i ht
    obtain ⟨x, hx⟩ := Option.isSome_iff_exists.1 (g.wf.number t (g.mem hr0) ht)
    rw [hx]
    exact single _ (by rw [ht]; decide) (by rw [ht]; decide) (.number ht hx)
  · rename_i ht
    refine wp_bind (wp_query ?_)
    split
    · rename_i hc
      exact primary_map_ok hr g (by omega) hr0 (.inr (.inl ht)) hc
    · obtain ⟨x, hx⟩ := Option.isSome_iff_exists.1 (g.wf.string t (g.mem hr0) ht)
      rw [hx]
      exact single _ (by rw [ht]; decide) (by rw [ht]; decide) (.string ht hx)
  · rename_i ht
    refine wp_bind (wp_query ?_)
    split
    · rename_i hc
      exact primary_map_ok hr g (by omega) hr0 (.inl ht) hc
    · exact single _ (by rw [ht]; decide) (by rw [ht]; decide) (.variable (.inl ht))
  · rename_i ht
    refine wp_bind (wp_query ?_)
    split
    · rename_i hc
      exact primary_map_ok hr g (by omega) hr0 (.inr (.inr ht)) hc
    · rename_i hc
      refine wp_bind (wp_advanceP hr0 (by rw [ht]; decide) ?_)
      intro p1 m1 hr1
      refine wp_pure ⟨[t], m1, .inl (.variable (.inr ht)), .inl ⟨by simp, ?_⟩⟩
      intro hs
      apply hc
      obtain ⟨c, r'', rfl, hc'⟩ := hs.next hr0
      rw [checkNext_cons hr0]
      simp [ht, hc']
  · rename_i ht
    have hns := not_stuck hr0 (by rw [ht]; decide)
    refine wp_bind (wp_advanceP hr0 (by rw [ht]; decide) ?_)
    intro p1 m1 hr1
    have := hlen m1
    refine wp_bind (wp_matchToken (m1.good g) ?_ ?_)
    · intro i p2 hi hr2 m2
      exact wp_errorFromLast g (m1.trans m2)
    · intro t' r'' hr' ht'
      refine wp_bind (functionDefinition_ok hr g m1 (by omega) ?_)
      intro d w' p2 hd m2
      exact wp_pure ⟨t :: w', by simpa using m2, .inl (.function_literal ht hd), .inl ⟨by simp, hns⟩⟩
  all_goals try
    rename_i ht
    have hns := not_stuck hr0 (by rw [ht]; decide)
    refine wp_bind (wp_advanceP hr0 (by rw [ht]; decide) ?_)
    intro p1 m1 hr1
    have := hlen m1
    have g1 := m1.good g
  iterate 2
    · refine wp_bind (wp_expr m1 (hr.assignment p1 g1 (by omega)) ?_)
      intro e p2 w2 m2 m2' he hpr
      refine wp_bind (wp_consume g m2 he (by decide) (by decide) ?_)
      intro he c p3 hc hr3 m3
      have hp : IsParen t := by simp [IsParen, ht]
      exact wp_pure ⟨t :: w2 ++ [c], by simpa using m3, .inl (.grouping hp he hc), .inl ⟨by simp, hns⟩⟩
  · refine wp_bind (literalMap_ok hr g m1 (by omega) ?_)
    intro ms w2 p2 m2 hms
    have hms : (ms = [] ∧ w2 = [] ∨ ∃ w'' s, w2 = w'' ++ s ∧ OptionalSeparator s ∧ D p₀ .entries w'' (.entries ms)) ∨
        Stuck p2 := by
      rcases hms with ⟨h1, h2, -⟩ | ⟨-, -, h⟩
      · exact .inl (.inl ⟨h1, h2⟩)
      · exact h.imp .inr id
    refine wp_bind (wp_consume g m2 hms (by decide) (by decide) ?_)
    intro hms c p3 hc hr3 m3
    refine wp_pure ⟨_, m3, .inl ?_, .inl ⟨by simp, hns⟩⟩
    rcases hms with ⟨rfl, rfl⟩ | ⟨w'', s, rfl, hs, hd⟩
    · exact .map_empty ht hc
    · simpa using Grammar.map_braces ht hd hs hc
  · refine wp_bind (arrayElements_ok hr g m1 (by omega) ?_)
    intro es w2 p2 m2 hes
    rw [← or_assoc] at hes
    refine wp_bind (wp_consume g m2 hes (by decide) (by decide) ?_)
    intro hes c p3 hc hr3 m3
    refine wp_pure ⟨_, m3, .inl ?_, .inl ⟨by simp, hns⟩⟩
    rcases hes with ⟨rfl, rfl⟩ | ⟨w'', s, rfl, hs, hd⟩
    · exact .array_empty ht hc
    · simpa using Grammar.array ht hd hs hc
  · refine wp_bind (wp_consume g m1 (.inl trivial) (by decide) (by decide) ?_)
    intro _ d p2 hd hr2 m2
    refine wp_bind (wp_consumeIdentifier g m2 ?_)
    intro i p3 hi hr3 m3
    exact wp_pure ⟨[t, d, i], by simpa using m3, .inl (.super ht hd hi), .inl ⟨by simp, hns⟩⟩
  · by_cases he : t.tokenType = .eof
    · refine wp_bind (show wp _ _ _ p₀.advance from ?_)
      rw [advance_eof hr0 he]
      exact wp_errorFromLast_eof g (by rw [isAtEnd_cons hr0]; simp [he])
    · refine wp_bind (wp_advanceP hr0 he ?_)
      intro p1 m1 hr1
      exact wp_errorFromLast (w := []) g m1

theorem callArguments_ok {Q : List Expr → Parser → Prop} (hr : RecOk env n r) (g : Ready env p₀) (m : Moves p₀ w p)
    (hn : 4 * p.rest.length + 2 ≤ n)
    (k : ∀ es w' p', Moves p₀ (w ++ w') p' → ((es = [] ∧ w' = [] ∨ D p₀ .arguments w' (.exprs es)) ∨ Stuck p') → Q es p') :
    wp (callArguments env r) Q (Err p₀) p := by
  unfold callArguments
  refine wp_bind (wp_query ?_)
  split
  · refine argumentList_ok hr g m hn ?_
    intro es w' p' m' hd _
    exact k es w' p' m' (hd.imp .inr id)
  · exact wp_pure (k [] [] p (by simpa using m) (.inl (.inl ⟨rfl, rfl⟩)))

theorem finishCall_ok {e : Expr} {t : Token} {Q : Expr → Parser → Prop} (hr : RecOk env n r) (g : Ready env p₀)
    (hd : D p₀ .call w (.expr e)) (ht : t.tokenType = .leftParenAbutting) (m : Moves p₀ (w ++ [t]) p)
    (hn : 4 * p.rest.length + 2 ≤ n)
    (k : ∀ e' w' p', Moves p₀ (w ++ t :: w') p' → D p₀ .call (w ++ t :: w') (.expr e') → Q e' p') :
    wp (finishCall env r e t.loc) Q (Err p₀) p := by
  unfold finishCall
  refine wp_bind (callArguments_ok hr g m hn ?_)
  intro es w2 p2 m2 hes
  refine wp_bind (wp_consume g m2 hes (by decide) (by decide) ?_)
  intro hes c p3 hc hr3 m3
  refine wp_pure (k _ (w2 ++ [c]) p3 (by simpa using m3) ?_)
  rcases hes with ⟨rfl, rfl⟩ | hes
  · exact .call_empty hd ht hc
  · simpa using Grammar.call_args hd ht hes hc

theorem finishGetIndex_ok {e : Expr} {t : Token} {Q : Expr → Parser → Prop} (hr : RecOk env n r) (g : Ready env p₀)
    (hd : D p₀ .call w (.expr e)) (ht : t.tokenType = .leftBracket) (m : Moves p₀ (w ++ [t]) p)
    (hn : 4 * p.rest.length + 2 ≤ n)
    (k : ∀ e' w' p', Moves p₀ (w ++ t :: w') p' → D p₀ .call (w ++ t :: w') (.expr e') → Q e' p') :
    wp (finishGetIndex env r e t.loc) Q (Err p₀) p := by
  unfold finishGetIndex
  refine wp_bind (wp_expr m (hr.assignment p (m.good g) hn) ?_)
  intro i w2 p2 m2 _ hi _
  refine wp_bind (wp_consume g m2 hi (by decide) (by decide) ?_)
  intro hi c p3 hc hr3 m3
  exact wp_pure (k _ (p2 ++ [c]) p3 (by simpa using m3) (by simpa using Grammar.index hd ht hi hc))

theorem finishCallWithoutParens_ok {e : Expr} {t : Token} {r' : List Token} {Q : Expr → Parser → Prop} (hr : RecOk env n r)
    (g : Ready env p₀) (hd : D p₀ .call w (.expr e)) (hr0 : p.rest = t :: r') (ht : startsArgument t.tokenType) (m : Moves p₀ w p)
    (hn : 4 * p.rest.length + 2 ≤ n)
    (k : ∀ e' w' p', Moves p₀ (w ++ w') p' → w' ≠ [] → (D p₀ .call (w ++ w') (.expr e') ∨ Stuck p') → Q e' p') :
    wp (finishCallWithoutParens env r e t.loc) Q (Err p₀) p := by
  unfold finishCallWithoutParens
  refine wp_bind (argumentList_ok hr g m hn ?_)
  intro es w' p' m' hes hne
  have hns : ¬ Stuck p := not_stuck hr0 (by unfold startsArgument at ht; intro h; rw [h] at ht; simp at ht)
  have hne := hne hns
  refine wp_pure (k _ w' p' m' hne (hes.imp (fun hes => ?_) id))
  cases w' with
  | nil => exact absurd rfl hne
  | cons t' w' =>
    have : t' = t := by
      have h1 := m.rest
      have h2 := m'.rest
      rw [h1, hr0] at h2
      simp only [List.append_assoc, List.append_cancel_left_eq, List.cons_append, List.cons.injEq] at h2
      exact h2.1.symm
    subst this
    exact .call_bare hd ht hes

theorem call_ok (hr : RecOk env n r) (p₀ : Parser) (g : Ready env p₀) (hn : 4 * p₀.rest.length ≤ n) :
    wp (call env r) (PostE .call p₀) (Err p₀) p₀ := by
  unfold call
  refine wp_bind (wp_expr (Moves.refl p₀) (primary_ok hr p₀ g hn) ?_)
  intro e p w m _ hd hw
  refine wp_loop (fun e p => ∃ w, Moves p₀ w p ∧ (D p₀ .call w (.expr e) ∨ Stuck p) ∧
    Progress w p₀) ?_ ⟨w, m, hd.imp .primary id, hw⟩
  rintro e p ⟨w, m, hd, hw⟩
  have g' := m.good g
  have h0 := m.length
  refine wp_bind (wp_matchesAny g' (by decide) ?_ ?_)
  · intro t p1 ht hr1 m1
    have hns : ¬ Stuck p := not_stuck hr1 (fun h => by rw [h] at ht; simp at ht)
    have hd := hd.resolve_right hns
    have h3 := m1.shorter
    have m1' := m.trans m1
    simp only [List.mem_cons, List.not_mem_nil, or_false] at ht
    have fin : ∀ e' w' p2, Moves p₀ (w ++ t :: w') p2 → D p₀ .call (w ++ t :: w') (.expr e') →
        (∃ w, Moves p₀ w p2 ∧ (D p₀ .call w (.expr e') ∨ Stuck p2) ∧ Progress w p₀) ∧
          p2.rest.length < p.rest.length := by
      intro e' w' p2 m2 hd2
      refine ⟨⟨_, m2, .inl hd2, hw.more m hns (by simp)⟩, ?_⟩
      have := m2.length
      simp at this
      omega
    rcases ht with ht | ht | ht <;> simp only [ht]
    · refine wp_bind (wp_consumeIdentifier g m1' ?_)
      intro i p2 hi hr2 m2
      exact wp_pure (fin _ [i] p2 (by simpa using m2) (.property hd ht hi))
    · exact wp_bind (finishCall_ok hr g hd ht m1' (by omega) (fun e' w' p2 m2 hd2 => wp_pure (fin _ w' p2 m2 hd2)))
    · exact wp_bind (finishGetIndex_ok hr g hd ht m1' (by omega) (fun e' w' p2 m2 hd2 => wp_pure (fin _ w' p2 m2 hd2)))
  · intro t r' hr' ht
    refine wp_bind (wp_query ?_)
    split
    · rename_i hc
      rw [checkAnyOf_cons hr'] at hc
      have hst : startsArgument t.tokenType := by
        simp only [Bool.and_eq_true, List.contains_eq_mem, decide_eq_true_eq] at hc
        exact hc.2
      have hns : ¬ Stuck p := not_stuck hr' (by unfold startsArgument at hst; intro h; rw [h] at hst; simp at hst)
      have hd := hd.resolve_right hns
      have hw0 : w ≠ [] := by
        rintro rfl
        rw [m.eq_nil] at hns
        rcases hw with h | h
        · exact h.1 rfl
        · exact hns h.2
      have hw1 := List.length_pos_iff.2 hw0
      have hloc : peekSourceLoc env p = .ok t.loc p := by
        simp only [peekSourceLoc, bind, M.bind, query, Parser.peek_eq, hr', List.head?_cons, pure, M.pure]
      refine wp_bind (show wp (peekSourceLoc env) _ _ p from ?_)
      unfold wp
      rw [hloc]
      refine wp_bind (finishCallWithoutParens_ok hr g hd hr' hst m (by omega) ?_)
      intro e' w' p2 m2 hne hd2
      refine wp_pure ⟨⟨_, m2, hd2, hw.more m hns hne⟩, ?_⟩
      have h2 := m2.length
      have h3 := List.length_pos_iff.2 hne
      simp at h2
      omega
    · exact wp_pure ⟨w, m, hd, hw⟩

theorem unaryBody_ok (hr : RecOk env n r) (p₀ : Parser) (g : Ready env p₀) (hn : 4 * p₀.rest.length + 1 ≤ n + 1) :
    wp (unaryBody env r) (PostE .unary p₀) (Err p₀) p₀ := by
  unfold unaryBody
  refine wp_bind (wp_matchesAny g (by decide) ?_ ?_)
  · intro t p1 ht hr1 m1
    have hns : ¬ Stuck p₀ := not_stuck hr1 (fun h => by rw [h] at ht; simp at ht)
    have h3 := m1.shorter
    refine wp_bind (wp_expr m1 (hr.unary p1 (m1.good g) (by omega)) ?_)
    intro e p2 w2 m2 _ he hpr
    simp only [List.mem_cons, List.not_mem_nil, or_false] at ht
    rcases ht with ht | ht <;> simp only [ht]
    · exact wp_pure ⟨t :: w2, m2, he.imp (fun he => .prefix (by rw [ht]; rfl) he) id, .inl ⟨by simp, hns⟩⟩
    · exact wp_pure ⟨t :: w2, m2, he.imp (fun he => .prefix (by rw [ht]; rfl) he) id, .inl ⟨by simp, hns⟩⟩
  · intro t r' hr' ht
    refine wp_mono (call_ok hr p₀ g (by omega)) ?_ (fun _ _ h => h)
    rintro e p ⟨w, m, hd, hw⟩
    exact ⟨w, m, hd.imp .call id, hw⟩

end Ws
