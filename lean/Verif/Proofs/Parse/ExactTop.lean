import Verif.Proofs.Parse.ExactStmt
import Verif.Proofs.Parse.Top
/-! Whatever the parser returns was derived by the unambiguous grammar: whole programs. -/
namespace Ws
open Spec

variable {env : Env} {p p' : Parser} {n : Nat} {r : Rec}

/-- As long as there are no errors, the unambiguous grammar derives what was consumed. -/
def Derived (T : List Token) (allow : Bool) (acc : List Stmt × List Cause) (p : Parser) : Prop :=
  acc.2 = [] → Stuck p ∨ ∃ o, Plain allow false o false .declarations (T.take p.current) (.stmts acc.1) ∧ Followed o false p.rest

theorem parseStep_exact {T : List Token} {allow : Bool} (hT : TokensOk T) (hb : T.length ≤ env.usizeMax) (hr : RecX env r)
    {acc : List Stmt × List Cause} (hi : Inv T allow acc p) (hx : Derived T allow acc p) :
    Gives (parseStep env r acc) (fun s p' => match s with
      | .next acc' => Derived T allow acc' p'
      | .stop acc' => Derived T allow acc' p') p := by
  intro s p' h
  unfold parseStep at h
  by_cases hend : p.isAtEnd = true
  · simp only [hend, if_true] at h
    cases h
    exact hx
  · have hend : p.isAtEnd = false := by simpa using hend
    simp only [hend, Bool.false_eq_true, if_false] at h
    have g : Ready env p := ⟨by rw [hi.tokens]; exact hT, by rw [hi.tokens]; exact hb, by rw [hi.tokens]; exact hi.inb,
      hi.loops, .inr hend⟩
    cases hy : r.declaration p with
    | ok st p1 =>
      rw [hy] at h
      cases h
      obtain ⟨w, m, hns, hd⟩ := hr.declaration p g st _ hy
      intro he
      obtain ⟨o, h2, hf⟩ := (hx he).resolve_left hns
      refine hd.imp id ?_
      rintro ⟨o', e', hd, hf'⟩
      have ht := take_moves m
      rw [hi.tokens] at ht
      rw [ht]
      refine ⟨o', .declarations (e := e') h2 ?_ (hf.precedes m hd), hf'.weaken⟩
      unfold PL at hd
      rw [(hi.sound he).1, hi.allow] at hd
      exact hd
    | err c p1 =>
      rw [hy] at h
      dsimp only at h
      cases hz : synchronize env p1 with
      | ok u p2 => rw [hz] at h; cases h; intro he; simp at he
      | err c' p2 => rw [hz] at h; cases h
      | panic m => rw [hz] at h; cases h
      | diverge => rw [hz] at h; cases h
    | panic m => rw [hy] at h; cases h
    | diverge => rw [hy] at h; cases h

/-- Whatever the parser accepts is derived by the unambiguous grammar. -/
theorem parseTokens_exact {T ws : List Token} {e : Token} {allow : Bool} {sts : List Stmt} (hT : TokensOk T) (hb : T.length ≤ env.usizeMax)
    (hT1 : T = ws ++ [e]) (h : parseTokens env T allow = .done (.ok sts)) :
    ∃ o, Plain allow false o false .declarations ws (.stmts sts) ∧ o ≠ .brace := by
  obtain ⟨ws', e', hT2, he, hws⟩ := hT.eof
  obtain ⟨rfl, rfl⟩ : ws = ws' ∧ e = e' := by
    have := hT1.symm.trans hT2
    obtain ⟨h1, h2⟩ := List.append_inj' this rfl
    exact ⟨h1, by simpa using h2⟩
  have hpos : 0 < T.length := by rw [hT1]; simp
  have hloop : Gives (loop (parseStep env (recN env (depthFor T))) ([], []))
      (fun acc p' => Inv T allow acc p' ∧ p'.isAtEnd = true ∧ Derived T allow acc p') (.new T allow) := by
    refine gives_loop (fun acc p => Inv T allow acc p ∧ Derived T allow acc p) ?_ ⟨?_, ?_⟩
    · rintro acc p ⟨hi, hx⟩ s p' hs
      have h1 := gives_of_wp (parseStep_ok hT hb (recN_ok env (depthFor T)) (by unfold depthFor; omega) hi) s p' hs
      have h2 := parseStep_exact hT hb (recN_exact env (depthFor T)) hi hx s p' hs
      cases s with
      | next a => exact ⟨h1.1, h2⟩
      | stop a => exact ⟨h1.1, h1.2, h2⟩
    · exact ⟨rfl, rfl, hpos, Nat.le_refl _, ⟨[], rfl, .nil, by simp⟩, fun _ => ⟨rfl, .inl .declarations_nil⟩⟩
    · exact fun _ => .inr ⟨.closed, .declarations_nil, followed_closed⟩
  unfold parseTokens at h
  cases hx : loop (parseStep env (recN env (depthFor T))) ([], []) (.new T allow) with
  | ok acc p =>
    rw [hx] at h
    obtain ⟨acc1, acc2⟩ := acc
    obtain ⟨hi, hend, hd⟩ := hloop _ _ hx
    have hi0 := hi.inb
    have hcur : p.current = ws.length := by
      rcases Nat.lt_or_ge p.current ws.length with h' | h'
      · exfalso
        have hp : p.peek = some ws[p.current] := by
          unfold Parser.peek
          rw [hi.tokens, hT1, List.getElem?_append_left h', List.getElem?_eq_getElem h']
        simp only [Parser.isAtEnd, hp, beq_iff_eq] at hend
        exact hws _ (List.getElem_mem h') hend
      · rw [hT1] at hi0; simp at hi0; omega
    have hrest : p.rest = [e] := by unfold Parser.rest; rw [hi.tokens, hT1, hcur]; simp
    dsimp only at h
    rw [consume_eof hrest he] at h
    dsimp only at h
    cases acc2 with
    | nil =>
      obtain ⟨o, hp, hf⟩ := (hd rfl).resolve_left (not_stuck hrest (by rw [he]; decide))
      rw [hrest] at hf
      rw [hcur, hT1, List.take_left] at hp
      simp only [List.isEmpty_nil, if_true] at h
      cases h
      exact ⟨o, hp, hf.not_brace (by rw [he]; decide)⟩
    | cons c cs => simp at h
  | err c p => rw [hx] at h; cases h
  | panic m => rw [hx] at h; cases h
  | diverge => rw [hx] at h; cases h

/-- Whatever is accepted as an expression is derived by the unambiguous grammar. -/
theorem parseExpressionTokens_exact {T ws : List Token} {e : Token} {x : Expr} (hT : TokensOk T) (hb : T.length ≤ env.usizeMax)
    (hT1 : T = ws ++ [e]) (h : parseExpressionTokens env T = .done (.ok x)) :
    ∃ o, Plain false false o false .expression ws (.expr x) ∧ o ≠ .brace := by
  obtain ⟨ws', e', hT2, he, hws⟩ := hT.eof
  obtain ⟨rfl, rfl⟩ : ws = ws' ∧ e = e' := by
    have := hT1.symm.trans hT2
    obtain ⟨h1, h2⟩ := List.append_inj' this rfl
    exact ⟨h1, by simpa using h2⟩
  cases ws with
  | nil =>
    subst hT1
    have := parseExpressionTokens_empty (env := env) he
    simp only [List.nil_append] at h
    rw [h] at this
    split at this <;> cases this
  | cons a ws =>
  have hrl : (Parser.new T false).rest = T := by unfold Parser.rest Parser.new; simp
  have g : Ready env (.new T false) := ⟨hT, hb, (by show 0 < T.length; rw [hT1]; simp), Nat.le_refl _, .inr (by
    rw [isAtEnd_cons (t := a) (by rw [hrl, hT1]; rfl)]
    simpa using hws a (by simp))⟩
  have main : Gives (do
      let e ← expression (recN env (depthFor T))
      consume env .eof "Expected end of file"
      pure e) (fun x p' => ∃ o, Plain false false o false .expression (a :: ws) (.expr x) ∧ o ≠ .brace) (.new T false) := by
    refine gives_seq _ ((recN_exact env _).assignment _ g) ?_
    rintro y p ⟨w, m, -, hd⟩
    have gp := m.good g
    obtain ⟨t, r', hr'⟩ := gp.cons
    by_cases ht : t.tokenType = .eof
    · have hr0 := gp.eofLast hr' ht
      subst hr0
      obtain ⟨o, hd, hh⟩ := hd.resolve_left (not_stuck hr' (by rw [ht]; decide))
      have hw : w = a :: ws := by
        have h1 := m.rest
        rw [hrl, hr', hT1] at h1
        exact (List.append_inj' h1 rfl).1.symm
      subst hw
      rw [hr'] at hh
      refine gives_bind ?_
      intro u p2 hx
      exact gives_pure ⟨o, hd, hh.not_brace ht (by decide)⟩
    · refine gives_bind ?_
      unfold consume consumeAnyOf
      refine gives_seq (fun b _ => b = none) ?_ ?_
      · intro b p2 hx
        unfold matchesAny at hx
        rw [Parser.peek_eq, hr'] at hx
        have : ([TokenType.eof].contains t.tokenType) = false := by simpa using ht
        simp only [List.head?_cons, this, Bool.false_eq_true, if_false] at hx
        cases hx
        rfl
      · rintro b p2 rfl
        intro u p3 hx
        exfalso
        revert hx
        show errorFromPeek env _ p2 = _ → False
        intro hx
        unfold errorFromPeek at hx
        revert hx
        exact (gives_seq (Q := fun _ _ => False) (fun _ _ => True) (fun _ _ _ => trivial) (by
          intro t q _
          split <;> exact gives_seq (fun _ _ => True) (fun _ _ _ => trivial) fun _ _ _ => gives_throw)) u p3
  unfold parseExpressionTokens at h
  dsimp only at h
  split at h
  · rename_i y p hx
    cases h
    exact main _ _ hx
  all_goals cases h

end Ws
