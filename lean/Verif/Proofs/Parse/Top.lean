import Verif.Proofs.Parse.SoundStmt
/-! The parser as a whole. -/
namespace Ws
open Spec

variable {α β σ : Type} {env : Env} {p p₀ p' p'' : Parser} {w w' : List Token} {n : Nat} {r : Rec}

theorem recN_ok (env : Env) (n : Nat) : RecOk env n (recN env n) := by
  induction n with
  | zero => constructor <;> intro p g h <;> omega
  | succ n ih =>
    exact ⟨fun p g h => unaryBody_ok ih p g h, fun p g h => assignmentBody_ok ih p g (by omega),
      fun p g h => statementBody_ok ih p g h, fun p g h => declarationBody_ok ih p g h⟩

/-- `p'` is at or after `p` in the same token list. -/
structure Later (p p' : Parser) : Prop where
  tokens : p'.tokens = p.tokens
  allow : p'.allowTrailing = p.allowTrailing
  inLoops : p'.inLoops = p.inLoops
  cur : p.current ≤ p'.current
  inb : p'.current < p'.tokens.length

theorem advance_later (h : p.current < p.tokens.length) (he : TokensOk p.tokens) : Later p p.advance ∧
    (p.isAtEnd = false → p.advance.current = p.current + 1) := by
  unfold Parser.advance
  split
  · rename_i hx
    exact ⟨⟨rfl, rfl, rfl, Nat.le_refl _, h⟩, fun hy => by rw [hx] at hy; cases hy⟩
  · rename_i hx
    refine ⟨⟨rfl, rfl, rfl, Nat.le_succ _, ?_⟩, fun _ => rfl⟩
    show p.current + 1 < p.tokens.length
    obtain ⟨ws, e, h1, h2, -⟩ := he.eof
    rcases Nat.lt_or_ge (p.current + 1) p.tokens.length with h' | h'
    · exact h'
    · exfalso
      apply hx
      have hcur : p.current = ws.length := by rw [h1] at h h'; simp at h h'; omega
      have : p.peek = some e := by
        unfold Parser.peek; rw [h1, hcur]; simp
      simp [Parser.isAtEnd, this, h2]

theorem synchronize_ok (he : TokensOk p.tokens) (h : p.current < p.tokens.length) :
    wp (synchronize env) (fun _ p' => Later p p' ∧ (p.isAtEnd = false → p.current < p'.current)) (fun _ _ => False) p := by
  unfold synchronize
  refine wp_bind ?_
  show wp _ _ _ p.advance
  obtain ⟨la, lb⟩ := advance_later h he
  refine wp_loop (fun _ q => Later p q ∧ (p.isAtEnd = false → p.current < q.current) ∧ (q.isAtEnd = false → 0 < q.current)) ?_
    ⟨la, fun h => by rw [lb h]; omega, ?_⟩
  · rintro _ q ⟨l1, l2, l3⟩
    refine wp_bind (wp_query ?_)
    split
    · rename_i hq
      have hq : q.isAtEnd = false := by simpa using hq
      have hpos := l3 hq
      have hinb : q.current < q.tokens.length := l1.inb
      obtain ⟨lc, ld⟩ := advance_later hinb (by rw [l1.tokens]; exact he)
      have key : wp (advanceP >>= fun _ => (pure (.next ()) : P (Step Unit Unit))) (fun s p' => match s with
          | .next a' => (Later p p' ∧ (p.isAtEnd = false → p.current < p'.current) ∧ (p'.isAtEnd = false → 0 < p'.current)) ∧
            p'.rest.length < q.rest.length
          | .stop b => Later p p' ∧ (p.isAtEnd = false → p.current < p'.current)) (fun _ _ => False) q := by
        have hc := ld hq
        show (_ ∧ _) ∧ q.advance.rest.length < _
        refine ⟨⟨⟨by rw [lc.tokens, l1.tokens], by rw [lc.allow, l1.allow], by rw [lc.inLoops, l1.inLoops],
          by have := l1.cur; omega, lc.inb⟩, fun h => by have := l2 h; omega, fun _ => by omega⟩, ?_⟩
        unfold Parser.rest
        rw [lc.tokens, List.length_drop, List.length_drop, hc]
        omega
      refine wp_bind ?_
      unfold wp previous
      rw [if_neg (by omega)]
      show wp _ _ _ q
      split
      · split
        · exact wp_pure ⟨l1, l2⟩
        · exact key
      · exact key
    · exact wp_pure ⟨l1, l2⟩
  · intro hx
    unfold Parser.advance at *
    split at hx
    · rename_i hy; rw [hy] at hx; cases hx
    · rename_i hy; rw [if_neg hy]; exact Nat.succ_pos _

theorem located_mono {T : List Token} {a b : Nat} {cs : List Cause} (h : Located T a cs) (hab : a ≤ b) : Located T b cs := by
  obtain ⟨l, h0, h1, h2⟩ := h
  exact ⟨l, h0, h1, fun x hx => ⟨Nat.lt_of_lt_of_le (h2 x hx).1 hab, (h2 x hx).2⟩⟩

theorem located_snoc {T : List Token} {a i : Nat} {cs : List Cause} {c : Cause} (h : Located T a cs) (hi : a ≤ i)
    {t : Token} (ht : T[i]? = some t) (hc : Reports t c) : Located T (i + 1) (cs ++ [c]) := by
  obtain ⟨l, h0, h1, h2⟩ := h
  refine ⟨l ++ [(i, c)], by simp [h0], ?_, ?_⟩
  · rw [List.pairwise_append]
    refine ⟨h1, by simp, ?_⟩
    intro x hx y hy
    simp only [List.mem_cons, List.not_mem_nil, or_false] at hy
    have := (h2 x hx).1
    subst hy
    show x.1 < i
    omega
  · intro x hx
    simp only [List.mem_append, List.mem_cons, List.not_mem_nil, or_false] at hx
    rcases hx with hx | rfl
    · exact ⟨by have := (h2 x hx).1; omega, (h2 x hx).2⟩
    · exact ⟨Nat.lt_succ_self _, t, ht, hc⟩

/-- The invariant of the main loop of the parser. -/
structure Inv (T : List Token) (allow' : Bool) (acc : List Stmt × List Cause) (p : Parser) : Prop where
  tokens : p.tokens = T
  allow : p.allowTrailing = allow'
  inb : p.current < T.length
  loops : p.inLoops ≤ p.current
  located : Located T (p.current + if p.isAtEnd then 1 else 0) acc.2
  sound : acc.2 = [] → p.inLoops = 0 ∧ (Grammar allow' false .declarations (T.take p.current) (.stmts acc.1) ∨ Stuck p)

theorem take_moves (m : Moves p w p') : p.tokens.take p'.current = p.tokens.take p.current ++ w := by
  have h := m.rest
  unfold Parser.rest at h
  rw [m.current, List.take_add, h]
  simp

theorem parseStep_ok {T : List Token} {allow : Bool} (hT : TokensOk T) (hb : T.length ≤ env.usizeMax)
    (hr : RecOk env n r) (hn : 4 * T.length + 4 ≤ n)
    {acc : List Stmt × List Cause} (hi : Inv T allow acc p) :
    wp (parseStep env r acc) (fun s p' => match s with
      | .next acc' => Inv T allow acc' p' ∧ p'.rest.length < p.rest.length
      | .stop acc' => Inv T allow acc' p' ∧ p'.isAtEnd = true) (fun _ _ => False) p := by
  unfold wp parseStep
  by_cases hend : p.isAtEnd = true
  · simp only [hend, if_true]; exact ⟨hi, trivial⟩
  · have hend : p.isAtEnd = false := by simpa using hend
    simp only [hend, Bool.false_eq_true, if_false]
    have hinb := hi.inb
    have g : Ready env p := ⟨by rw [hi.tokens]; exact hT, by rw [hi.tokens]; exact hb, by rw [hi.tokens]; exact hi.inb,
      hi.loops, .inr hend⟩
    have hrl : p.rest.length = T.length - p.current := by unfold Parser.rest; rw [hi.tokens, List.length_drop]
    have hloc := hi.located
    rw [hend] at hloc
    simp only [Bool.false_eq_true, if_false, Nat.add_zero] at hloc
    have hd := hr.declaration p g (by omega)
    unfold wp at hd
    cases hx : r.declaration p with
    | ok s p1 =>
      rw [hx] at hd
      obtain ⟨w, m, hd, hw, hns⟩ := hd
      refine ⟨⟨by rw [m.tokens, hi.tokens], by rw [m.allow, hi.allow], ?_, (m.good g).loops, ?_, ?_⟩, m.lt hw⟩
      · have := (m.good g).inb; rw [m.tokens, hi.tokens] at this; exact this
      · exact located_mono hloc (by rw [m.current]; omega)
      · intro he
        obtain ⟨h1, h2⟩ := hi.sound he
        refine ⟨by rw [m.inLoops]; exact h1, hd.imp (fun hd => ?_) id⟩
        have h2 := h2.resolve_right hns
        have := take_moves m
        rw [hi.tokens] at this
        rw [this]
        refine .declarations h2 ?_
        unfold D at hd
        rw [h1, hi.allow] at hd
        exact hd
    | err e p1 =>
      rw [hx] at hd
      dsimp only at hd ⊢
      have ht1 : p1.tokens = T := by rw [hd.tokens, hi.tokens]
      have hs := synchronize_ok (env := env) (p := p1) (by rw [ht1]; exact hT) (by rw [ht1, ← hi.tokens]; exact hd.inb)
      unfold wp at hs
      cases hy : synchronize env p1 with
      | ok u p2 =>
        rw [hy] at hs
        obtain ⟨l, l'⟩ := hs
        have hl' := hd.loops'
        have hc1 := hd.cur
        have hc2 := l.cur
        have hlt : p.current < p2.current := by
          by_cases h1 : p1.isAtEnd = true
          · have : p.current ≠ p1.current := by
              intro h
              have hpe : p1.isAtEnd = p.isAtEnd := by
                unfold Parser.isAtEnd Parser.peek; rw [hd.tokens, h]
              rw [hpe, hend] at h1; cases h1
            omega
          · have := l' (by simpa using h1)
            omega
        refine ⟨⟨by rw [l.tokens, ht1], by rw [l.allow, hd.allow, hi.allow], ?_, ?_, ?_, ?_⟩, ?_⟩
        · have := l.inb; rw [l.tokens, ht1] at this; exact this
        · rw [l.inLoops]; omega
        · obtain ⟨i, t, h1, h2, h3, h4⟩ := hd.located
          rw [hi.tokens] at h3
          have hlow : p.low = p.current := by unfold Parser.low; rw [hend]; rfl
          rw [hlow] at h1
          refine located_mono (located_snoc hloc h1 h3 h4) ?_
          by_cases h5 : p1.isAtEnd = true
          · by_cases h6 : p2.isAtEnd = true
            · rw [h6]; simp; omega
            · have : p2.current ≠ p1.current := by
                intro h
                have hpe : p2.isAtEnd = p1.isAtEnd := by
                  unfold Parser.isAtEnd Parser.peek; rw [l.tokens, h]
                rw [hpe] at h6; exact h6 h5
              omega
          · have := l' (by simpa using h5)
            omega
        · intro h; simp at h
        · unfold Parser.rest
          rw [l.tokens, ht1, hi.tokens, List.length_drop, List.length_drop]
          omega
      | err e' p2 => rw [hy] at hs; exact hs
      | panic m => rw [hy] at hs; exact hs
      | diverge => rw [hy] at hs; exact hs
    | panic m => rw [hx] at hd; exact hd
    | diverge => rw [hx] at hd; exact hd

theorem consume_eof {e : Token} {message : String} (h : p.rest = [e]) (he : e.tokenType = .eof) :
    consume env .eof message p = .ok () p := by
  have hp : p.peek = some e := by rw [Parser.peek_eq, h]; rfl
  unfold consume consumeAnyOf
  have : matchesAny [.eof] p = .ok (some (.eof, e.loc)) p := by
    unfold matchesAny
    rw [hp]
    simp only [he, List.contains_cons, BEq.rfl, Bool.true_or, if_true]
    rw [advance_eof h he]
  simp only [bind, M.bind, this, pure, M.pure]

/-- What parsing a token list gives. -/
theorem parseTokens_ok {T : List Token} (hT : TokensOk T) (hb : T.length ≤ env.usizeMax) (allow : Bool) :
    (∃ ws e sts, parseTokens env T allow = .done (.ok sts) ∧ T = ws ++ [e] ∧ Grammar allow false .declarations ws (.stmts sts)) ∨
    (∃ cs, parseTokens env T allow = .done (.error cs) ∧ cs ≠ [] ∧ Located T T.length cs) := by
  obtain ⟨ws, e, hT1, he, hws⟩ := hT.eof
  have hpos : 0 < T.length := by rw [hT1]; simp
  have hloop : wp (loop (parseStep env (recN env (depthFor T))) ([], [])) (fun acc p' => Inv T allow acc p' ∧ p'.isAtEnd = true)
      (fun _ _ => False) (.new T allow) := by
    refine wp_loop (fun acc p => Inv T allow acc p) ?_ ?_
    · intro acc p hi
      refine wp_mono (parseStep_ok hT hb (recN_ok env (depthFor T)) (by unfold depthFor; omega) hi) ?_ (fun _ _ h => h)
      intro s p' h
      cases s <;> exact h
    · exact ⟨rfl, rfl, hpos, Nat.le_refl _, ⟨[], rfl, .nil, by simp⟩, fun _ => ⟨rfl, .inl .declarations_nil⟩⟩
  unfold parseTokens
  unfold wp at hloop
  cases hx : loop (parseStep env (recN env (depthFor T))) ([], []) (.new T allow) with
  | ok acc p =>
    rw [hx] at hloop
    obtain ⟨acc1, acc2⟩ := acc
    obtain ⟨hi, hend⟩ := hloop
    have hi0 := hi.inb
    have hcur : p.current = ws.length := by
      rcases Nat.lt_or_ge p.current ws.length with h | h
      · exfalso
        have hp : p.peek = some ws[p.current] := by
          unfold Parser.peek
          rw [hi.tokens, hT1, List.getElem?_append_left h, List.getElem?_eq_getElem h]
        simp only [Parser.isAtEnd, hp, beq_iff_eq] at hend
        exact hws _ (List.getElem_mem h) hend
      · rw [hT1] at hi0; simp at hi0; omega
    have hrest : p.rest = [e] := by unfold Parser.rest; rw [hi.tokens, hT1, hcur]; simp
    dsimp only
    rw [consume_eof hrest he]
    dsimp only
    cases acc2 with
    | nil =>
      left
      obtain ⟨-, h⟩ := hi.sound rfl
      have h := h.resolve_right (not_stuck hrest (by rw [he]; decide))
      rw [hcur, hT1, List.take_left] at h
      exact ⟨ws, e, acc1, rfl, hT1, h⟩
    | cons c cs =>
      right
      refine ⟨c :: cs, rfl, by simp, ?_⟩
      refine located_mono hi.located ?_
      rw [hend, if_pos rfl]
      exact hi0
  | err e p => rw [hx] at hloop; exact hloop.elim
  | panic m => rw [hx] at hloop; exact hloop.elim
  | diverge => rw [hx] at hloop; exact hloop.elim

/-- What parsing a token list as an expression gives, unless it is empty. -/
theorem parseExpressionTokens_ok {T : List Token} (hT : TokensOk T) (hb : T.length ≤ env.usizeMax) (h2 : 2 ≤ T.length) :
    (∃ ws e x, parseExpressionTokens env T = .done (.ok x) ∧ T = ws ++ [e] ∧ Grammar false false .expression ws (.expr x)) ∨
    (∃ c, parseExpressionTokens env T = .done (.error [c]) ∧ Located T T.length [c]) := by
  obtain ⟨ws, e, hT1, he, hws⟩ := hT.eof
  have hwl : 0 < ws.length := by rw [hT1] at h2; simp at h2; omega
  have hpeek : (Parser.new T false).peek = some ws[0] := by
    show T[0]? = _
    rw [hT1, List.getElem?_append_left hwl, List.getElem?_eq_getElem hwl]
  have g : Ready env (.new T false) := ⟨hT, hb, (by show 0 < T.length; omega), Nat.le_refl _, .inr (by
    have := hws _ (List.getElem_mem hwl)
    simp [Parser.isAtEnd, hpeek, this])⟩
  have hrl : (Parser.new T false).rest = T := by unfold Parser.rest Parser.new; simp
  have main : wp (do
      let e ← expression (recN env (depthFor T))
      consume env .eof "Expected end of file"
      pure e) (fun x p' => ∃ ws e, T = ws ++ [e] ∧ Grammar false false .expression ws (.expr x)) (Err (.new T false)) (.new T false) := by
    refine wp_bind (wp_expr (Moves.refl _) ((recN_ok env _).assignment _ g (by rw [hrl]; unfold depthFor; omega)) ?_)
    intro x p w m _ hd _
    have gp := m.good g
    obtain ⟨t, r', hr'⟩ := gp.cons
    by_cases ht : t.tokenType = .eof
    · have hr0 := gp.eofLast hr' ht
      subst hr0
      refine wp_bind ?_
      unfold wp
      rw [consume_eof hr' ht]
      have hd := hd.resolve_right (not_stuck hr' (by rw [ht]; decide))
      refine ⟨w, t, ?_, hd⟩
      have := m.rest
      rw [hrl, hr'] at this
      exact this
    · refine wp_bind ?_
      unfold consume consumeAnyOf
      refine wp_bind ?_
      unfold wp matchesAny
      rw [Parser.peek_eq, hr']
      have : ([TokenType.eof].contains t.tokenType) = false := by simpa using ht
      simp only [List.head?_cons, this, Bool.false_eq_true, if_false]
      exact wp_err m (wp_errorFromPeek gp)
  unfold parseExpressionTokens
  unfold wp at main
  dsimp only
  split at main
  · rename_i x p hx
    rw [hx]
    obtain ⟨ws, e, h1, h2⟩ := main
    exact .inl ⟨ws, e, x, rfl, h1, h2⟩
  · rename_i c p hx
    rw [hx]
    right
    obtain ⟨i, t, h1, h2, h3, h4⟩ := main.located
    refine ⟨c, rfl, [(i, c)], rfl, by simp, ?_⟩
    intro j hj
    simp only [List.mem_cons, List.not_mem_nil, or_false] at hj
    subst hj
    refine ⟨?_, t, h3, h4⟩
    show i < _
    have : p.current < T.length := main.inb
    omega
  · exact main.elim
  · exact main.elim

/-- Parsing the empty token list as an expression. -/
theorem parseExpressionTokens_empty {e : Token} (he : e.tokenType = .eof) :
    parseExpressionTokens env [e] = if env.overflowChecks then .panic "attempt to subtract with overflow"
      else .done (.error [.new .default "Expect expression."]) := by
  obtain ⟨tt, lex, s, f, l, c⟩ := e
  obtain rfl : tt = .eof := he
  obtain ⟨a1, a2, a3, a4, oc, a6⟩ := env
  cases oc <;> rfl

end Ws
