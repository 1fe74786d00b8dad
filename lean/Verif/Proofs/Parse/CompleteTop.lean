import Verif.Proofs.Parse.CompleteStmt
import Verif.Proofs.Parse.Top
/-! What the unambiguous grammar derives is parsed to the tree it is derived as: whole token lists. -/
namespace Ws
open Spec

variable {env : Env} {w : List Token} {o : Ends} {repl e : Bool} {x : Expr} {sts : List Stmt} {eof : Token}

theorem moves_new {allow : Bool} (hw : ∀ t ∈ w, t.tokenType ≠ .eof) :
    ∃ p, Moves (.new (w ++ [eof]) allow) w p ∧ p.rest = [eof] := by
  have hr : (⟨w ++ [eof], w.length, 0, allow⟩ : Parser).rest = [eof] := by simp [Parser.rest]
  refine ⟨⟨w ++ [eof], w.length, 0, allow⟩, ⟨by simp [Parser.new], ?_, hw⟩, hr⟩
  rw [hr]
  simp [Parser.new, Parser.rest]

theorem tokensOk_snoc (hT : TokensOk (w ++ [eof])) : eof.tokenType = .eof ∧ ∀ t ∈ w, t.tokenType ≠ .eof := by
  obtain ⟨ws, e, h1, h2, h3⟩ := hT.eof
  obtain ⟨rfl, h4⟩ := List.append_inj' h1 rfl
  cases h4
  exact ⟨h2, h3⟩

theorem ctx_new (hb : (w ++ [eof]).length ≤ env.usizeMax) : Spot env repl false (.new (w ++ [eof]) repl) :=
  ⟨⟨hb, Nat.le_refl _⟩, fun h => h, by simp [Parser.new]⟩

/-- Once there is an error, it stays the first one. -/
theorem loop_first {r : Rec} {c : Cause} (m : Nat) : ∀ {ss cs acc} {p q : Parser},
    loopFuel (parseStep env r) m (ss, c :: cs) p = .ok acc q → ∃ cs', acc.2 = c :: cs' := by
  induction m with
  | zero => exact fun h => by cases h
  | succ m ih =>
    intro ss cs acc p q h
    unfold loopFuel at h
    cases hs : parseStep env r (ss, c :: cs) p with
    | ok a p' =>
      rw [ok_bind hs] at h
      have key : ∃ ss' cs', a = .next (ss', c :: cs') ∨ a = .stop (ss', c :: cs') := by
        unfold parseStep at hs
        split at hs
        · cases hs; exact ⟨_, _, .inr rfl⟩
        · split at hs
          · cases hs; exact ⟨_, _, .inl rfl⟩
          · split at hs <;> cases hs
            exact ⟨ss, cs ++ _, .inl rfl⟩
          · cases hs
          · cases hs
      obtain ⟨ss', cs', rfl | rfl⟩ := key
      · exact ih h
      · cases h; exact ⟨cs', rfl⟩
    | err e p' => rw [err_bind hs] at h; cases h
    | panic m' =>
      rcases dies_bind (.inr ⟨m', hs⟩) with h' | ⟨_, h'⟩ <;> rw [h'] at h <;> cases h
    | diverge =>
      rcases dies_bind (.inl hs) with h' | ⟨_, h'⟩ <;> rw [h'] at h <;> cases h

/-- The loop of the parser on a token list that the grammar with faults derives. -/
theorem collects_top {vs : List Cause} (hT : TokensOk (w ++ [eof])) (hb : (w ++ [eof]).length ≤ env.usizeMax)
    (h : Loose repl false o e .declarations w (.stmts sts) vs) (ho : o ≠ .brace) :
    ∃ p, p.rest = [eof] ∧ Collects vs (loop (parseStep env (recN env (depthFor (w ++ [eof])))) ([], [])) (.new (w ++ [eof]) repl)
      (parseStep env (recN env (depthFor (w ++ [eof])))) sts p [] := by
  obtain ⟨he, hw⟩ := tokensOk_snoc hT
  obtain ⟨p, m, hr⟩ := moves_new (eof := eof) (allow := repl) hw
  have h := (loose_runs h (v := []) _ p m (ctx_new hb) (by
    rw [hr]; exact after_of he (by decide) (fun _ => by decide) (fun h => absurd h ho) fun _ => rfl) (depthFor (w ++ [eof]))).2
  rw [List.append_nil] at h
  exact ⟨p, hr, h⟩

theorem dies_top (hT : TokensOk (w ++ [eof])) (hb : (w ++ [eof]).length ≤ env.usizeMax)
    (h : Dies (loop (parseStep env (recN env (depthFor (w ++ [eof])))) ([], [])) (.new (w ++ [eof]) repl)) : False := by
  have hd := parseTokens_ok hT hb repl
  unfold parseTokens at hd
  rcases h with h | ⟨m, h⟩ <;> rw [h] at hd <;> rcases hd with ⟨_, _, _, h, -⟩ | ⟨_, h, -⟩ <;> cases h

/-- A token list that the unambiguous grammar derives is accepted, with the derived tree. -/
theorem parseTokens_complete (hT : TokensOk (w ++ [eof])) (hb : (w ++ [eof]).length ≤ env.usizeMax)
    (h : Plain repl false o e .declarations w (.stmts sts)) (ho : o ≠ .brace) : parseTokens env (w ++ [eof]) repl = .done (.ok sts) := by
  obtain ⟨he, -⟩ := tokensOk_snoc hT
  obtain ⟨p, hr, -, h⟩ := collects_top hT hb (plain_loose h) ho
  rcases h with h | ⟨-, m, h⟩ | ⟨c, vs, _, _, _, _, h, -⟩
  · exact (dies_top hT hb h).elim
  · cases m with
    | zero => exact (dies_top hT hb (.inl h)).elim
    | succ m =>
      have hs : parseStep env (recN env (depthFor (w ++ [eof]))) (sts, []) p = .ok (.stop (sts, [])) p := by
        unfold parseStep
        rw [isAtEnd_cons hr]
        simp [he]
      unfold loopFuel at h
      rw [ok_bind hs] at h
      unfold parseTokens
      rw [h]
      show (match consume env .eof "Expected end of file" p with | .ok _ _ => _ | .err _ _ => _ | .panic _ => _ | .diverge => _) = _
      rw [consume_eof hr he]
      rfl
  · cases h

/-- A token list that the grammar with faults derives with faults is rejected, and the first error is the first fault. -/
theorem parseTokens_fault {c : Cause} {vs : List Cause} (hT : TokensOk (w ++ [eof])) (hb : (w ++ [eof]).length ≤ env.usizeMax)
    (h : Loose repl false o e .declarations w (.stmts sts) (c :: vs)) (ho : o ≠ .brace) :
    ∃ cs, parseTokens env (w ++ [eof]) repl = .done (.error (c :: cs)) := by
  obtain ⟨p, hr, -, h⟩ := collects_top hT hb h ho
  rcases h with h | ⟨h, -⟩ | ⟨_, _, ss, cs, q, m, hv, -, h⟩
  · exact (dies_top hT hb h).elim
  · cases h
  · cases hv
    have hd := parseTokens_ok hT hb repl
    unfold parseTokens at hd ⊢
    cases hx : loop (parseStep env (recN env (depthFor (w ++ [eof])))) ([], []) (.new (w ++ [eof]) repl) with
    | ok acc p' =>
      obtain ⟨ss', es⟩ := acc
      obtain ⟨cs', rfl⟩ := loop_first m (h.symm.trans hx)
      rw [hx] at hd
      dsimp only at hd ⊢
      cases hy : consume env .eof "Expected end of file" p' with
      | ok _ _ => exact ⟨cs', rfl⟩
      | err e _ => exact ⟨cs' ++ [e], rfl⟩
      | panic _ => rw [hy] at hd; rcases hd with ⟨_, _, _, h, -⟩ | ⟨_, h, -⟩ <;> cases h
      | diverge => rw [hy] at hd; rcases hd with ⟨_, _, _, h, -⟩ | ⟨_, h, -⟩ <;> cases h
    | err _ _ =>
      rw [hx] at h
      exact absurd h.symm (noErr_loop (fun a p c q => by
        unfold parseStep
        split
        · exact fun h => by cases h
        · split
          · exact fun h => by cases h
          · split
            · exact fun h => by cases h
            · rename_i hz; exact absurd hz (synchronize_noErr _ _ _)
            · exact fun h => by cases h
            · exact fun h => by cases h
          · exact fun h => by cases h
          · exact fun h => by cases h) _ _ _ _ _)
    | panic _ => exact (dies_top hT hb (.inr ⟨_, hx⟩)).elim
    | diverge => exact (dies_top hT hb (.inl hx)).elim

/-- What is made of a token list that the grammar with faults derives as an expression. -/
theorem expression_top {vs : List Cause} (hT : TokensOk (w ++ [eof])) (hb : (w ++ [eof]).length ≤ env.usizeMax)
    (h : Loose false false o e .expression w (.expr x) vs) (ho : o ≠ .brace) :
    parseExpressionTokens env (w ++ [eof]) = .done (match (generalizing := false) vs with | [] => .ok x | c :: _ => .error [c]) := by
  obtain ⟨he, hw⟩ := tokensOk_snoc hT
  obtain ⟨p, m, hr⟩ := moves_new (eof := eof) (allow := false) hw
  have hd : 2 ≤ (w ++ [eof]).length := by
    obtain ⟨_, _, rfl, -⟩ := (loose_first h : ExprHead _ w)
    simp
  have hd := parseExpressionTokens_ok hT hb hd
  have h := loose_runs h (v := []) _ p m (ctx_new hb) (by rw [hr]; exact stop_of he rfl (by decide) fun h => absurd h ho) (depthFor (w ++ [eof]))
  rw [List.append_nil] at h
  have h' : Does vs (do
      let e ← expression (recN env (depthFor (w ++ [eof])))
      consume env .eof "Expected end of file"
      pure e) (.new (w ++ [eof]) false) x p [] := does_bind h (does_bind' (consume_eof hr he) does_pure)
  unfold parseExpressionTokens at hd ⊢
  dsimp only at hd ⊢
  obtain ⟨-, h'⟩ := h'
  rcases h' with (hz | ⟨m, hz⟩) | ⟨rfl, hz⟩ | ⟨c, vs, q, rfl, -, hz⟩ <;> rw [hz] at hd ⊢
  · rcases hd with ⟨_, _, _, h, -⟩ | ⟨_, h, -⟩ <;> cases h
  · rcases hd with ⟨_, _, _, h, -⟩ | ⟨_, h, -⟩ <;> cases h

/-- A token list that the unambiguous grammar derives as an expression is parsed to that expression. -/
theorem parseExpressionTokens_complete (hT : TokensOk (w ++ [eof])) (hb : (w ++ [eof]).length ≤ env.usizeMax)
    (h : Plain false false o e .expression w (.expr x)) (ho : o ≠ .brace) : parseExpressionTokens env (w ++ [eof]) = .done (.ok x) :=
  expression_top hT hb (plain_loose h) ho

end Ws
