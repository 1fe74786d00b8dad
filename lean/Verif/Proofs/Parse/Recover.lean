import Verif.Proofs.Parse.Shift
/-! The errors after the first. -/
namespace Ws
open Spec

variable {env : Env} {p q : Parser} {T : List Token} {allow : Bool} {r : Rec} {s d n : Nat}

theorem begins_iff {t : Token} : Begins t ↔ isSyncToken t.tokenType = true := by
  unfold Begins
  cases t.tokenType <;> simp [isSyncToken]

/-- The loop of `synchronize`. -/
abbrev syncBody (env : Env) : Unit → P (Step Unit Unit) := fun (_ : Unit) => do
  if (← query (fun p => !p.isAtEnd)) then
    match ← previous env with
    | some t =>
      if isSyncToken t.tokenType then pure (.stop ())
      else do
        advanceP
        pure (.next ())
    | none => do
      advanceP
      pure (.next ())
  else pure (.stop ())

theorem drop_last (hT : TokensOk p.tokens) (hp : p.current < p.tokens.length) (he : p.isAtEnd = true) :
    ∃ e, p.tokens.drop p.current = [e] := by
  obtain ⟨ws, e, h1, h2, h3⟩ := hT.eof
  refine ⟨e, ?_⟩
  rcases Nat.lt_or_ge p.current ws.length with h | h
  · exfalso
    have hpk : p.peek = some ws[p.current] := by
      unfold Parser.peek
      rw [h1, List.getElem?_append_left h, List.getElem?_eq_getElem h]
    simp only [Parser.isAtEnd, hpk, beq_iff_eq] at he
    exact h3 _ (List.getElem_mem h) he
  · have : p.current = ws.length := by rw [h1] at hp; simp at hp; omega
    rw [h1, this]; simp

theorem drop_more (hT : TokensOk p.tokens) (hp : p.current < p.tokens.length) (he : p.isAtEnd = false) :
    ∃ t u ts, p.tokens[p.current]? = some t ∧ p.tokens.drop p.current = t :: u :: ts ∧ p.tokens.drop (p.current + 1) = u :: ts := by
  obtain ⟨ws, e, h1, h2, h3⟩ := hT.eof
  have hlt : p.current + 1 < p.tokens.length := by
    rcases Nat.lt_or_ge (p.current + 1) p.tokens.length with h | h
    · exact h
    · exfalso
      have : p.current = ws.length := by rw [h1] at hp h; simp at hp h; omega
      have hpk : p.peek = some e := by unfold Parser.peek; rw [h1, this]; simp
      simp [Parser.isAtEnd, hpk, h2] at he
  refine ⟨p.tokens[p.current], p.tokens[p.current + 1], p.tokens.drop (p.current + 2), List.getElem?_eq_getElem hp, ?_, ?_⟩
  · rw [List.drop_eq_getElem_cons hp, List.drop_eq_getElem_cons hlt]
  · rw [List.drop_eq_getElem_cons hlt]

theorem sync_loop : ∀ (n c : Nat) (q q' : Parser) (u : Unit), TokensOk q.tokens → q.current < q.tokens.length → q.current = c + 1 →
    loopFuel (syncBody env) n () q = .ok u q' → q.tokens.drop q'.current = afterWord (q.tokens.drop c)
  | 0, _, _, _, _, _, _, _, h => by cases h
  | n + 1, c, q, q', u, hT, hq, hc, h => by
    have hcl : c < q.tokens.length := by omega
    have hd : q.tokens.drop c = q.tokens[c] :: q.tokens.drop (c + 1) := List.drop_eq_getElem_cons hcl
    have hg' : q.tokens[c]? = some q.tokens[c] := List.getElem?_eq_getElem hcl
    have h : M.bind (syncBody env ()) _ q = _ := h
    by_cases he : q.isAtEnd = true
    · obtain ⟨e, h1⟩ := drop_last hT hq he
      have : q' = q := by
        simp [M.bind, syncBody, bind, query, he, pure, M.pure] at h
        exact h.symm
      rw [this, hd, ← hc, h1]
      simp only [afterWord, ite_self]
    · have he : q.isAtEnd = false := by simpa using he
      obtain ⟨t, v, ts, -, -, h2⟩ := drop_more (p := q) hT hq he
      obtain ⟨x, y, h3⟩ : ∃ x y, q.tokens.drop (c + 1) = x :: y := by
        rw [← hc, List.drop_eq_getElem_cons hq]; exact ⟨_, _, rfl⟩
      rw [hd, h3]
      simp only [afterWord]
      by_cases hb : isSyncToken q.tokens[c].tokenType = true
      · have : q' = q := by
          simp [M.bind, syncBody, bind, query, he, pure, M.pure, previous, hc, hg', hb] at h
          exact h.symm
        rw [this, if_pos (begins_iff.mpr hb), hc, h3]
      · have hstep : loopFuel (syncBody env) n () q.advance = .ok u q' := by
          simp [M.bind, syncBody, bind, query, he, pure, M.pure, previous, hc, hg', hb, advanceP, M.modify] at h
          exact h
        have hadv := advance_later hq hT
        have htok := hadv.1.tokens
        rw [if_neg (fun hx => hb (begins_iff.mp hx)), ← h3, ← htok]
        exact sync_loop n (c + 1) _ _ _ (by rw [htok]; exact hT) hadv.1.inb (by rw [hadv.2 he, hc]) hstep

/-- Where the parser goes on after an error. -/
theorem sync_exact {u : Unit} {p' : Parser} (hT : TokensOk p.tokens) (hp : p.current < p.tokens.length) (h : synchronize env p = .ok u p') :
    p.tokens.drop p'.current = afterWord (p.tokens.drop p.current) := by
  unfold synchronize at h
  have h : loopFuel (syncBody env) (p.advance.tokens.length + 1) () p.advance = .ok u p' := h
  have hadv := advance_later hp hT
  by_cases he : p.isAtEnd = true
  · have : p.advance = p := by unfold Parser.advance; rw [if_pos he]
    rw [this] at h
    have h : M.bind (syncBody env ()) _ p = _ := h
    have : p' = p := by
      simp [M.bind, syncBody, bind, query, he, pure, M.pure] at h
      exact h.symm
    obtain ⟨e, h1⟩ := drop_last hT hp he
    rw [this, h1]
    rfl
  · have he : p.isAtEnd = false := by simpa using he
    have htok := hadv.1.tokens
    rw [← htok]
    exact sync_loop _ p.current _ _ _ (by rw [htok]; exact hT) hadv.1.inb (hadv.2 he) h

/-- The main loop does the same. -/
theorem loop_alike (env : Env) (a b : Nat) : ∀ (n m : Nat) (acc acc' A B : Loop) (s d : Nat) (p q p' q' : Parser), Shift s d p q →
    loopFuel (parseStep env (recN env a)) n acc p = .ok A p' →
    loopFuel (parseStep (checked env) (recN (checked env) b)) m acc' q = .ok B q' →
    ∃ sts more, A = (acc.1 ++ sts, acc.2 ++ more) ∧ B = (acc'.1 ++ sts, acc'.2 ++ more)
  | 0, _, _, _, _, _, _, _, _, _, _, _, _, h, _ => by cases h
  | n + 1, m, acc, acc', A, B, s, d, p, q, p', q', hs, h, h' => by
    by_cases he : p.isAtEnd = true
    · have he' : q.isAtEnd = true := by rw [← shift_isAtEnd hs]; exact he
      rw [loop_end he h, loop_end he' h']
      exact ⟨[], [], by simp, by simp⟩
    · have he : p.isAtEnd = false := by simpa using he
      have he' : q.isAtEnd = false := by rw [← shift_isAtEnd hs]; exact he
      obtain ⟨f, acc1, p1, hf, hst, h⟩ := loop_step he h
      obtain ⟨f', acc1', q1, hf', hst', h'⟩ := loop_step he' h'
      obtain rfl : n = f := by omega
      have hd := (par_rec env a b).declaration.start hs
      rcases step_cases hst with ⟨st, hd1, rfl⟩ | ⟨e, p0, u, hd1, hsy, rfl⟩
      · rcases step_cases hst' with ⟨st', hd1', rfl⟩ | ⟨e', q0, u', hd1', hsy', rfl⟩
        · rw [hd1, hd1'] at hd
          obtain ⟨rfl, hs', -⟩ := hd
          obtain ⟨sts, more, rfl, rfl⟩ := loop_alike env a b n f' _ _ _ _ _ _ _ _ _ _ hs' h h'
          exact ⟨st :: sts, more, by simp, by simp⟩
        · rw [hd1, hd1'] at hd; exact hd.elim
      · rcases step_cases hst' with ⟨st', hd1', rfl⟩ | ⟨e', q0, u', hd1', hsy', rfl⟩
        · rw [hd1, hd1'] at hd; exact hd.elim
        · rw [hd1, hd1'] at hd
          obtain ⟨rfl, hs', -⟩ := hd
          have hy := (par_synchronize (env := env)).start hs'
          rw [hsy, hsy'] at hy
          obtain ⟨sts, more, rfl, rfl⟩ := loop_alike env a b n f' _ _ _ _ _ _ _ _ _ _ hy.2.1 h h'
          exact ⟨sts, e :: more, by simp, by simp⟩

theorem shift_refl (p : Parser) : Shift 0 0 p p := ⟨rfl, rfl, rfl, fun _ => rfl, .inl rfl⟩

/-- Overflow checks make no difference. -/
theorem parse_checked (hT : TokensOk T) (hb : T.length ≤ env.usizeMax) : parseTokens (checked env) T allow = parseTokens env T allow := by
  obtain ⟨sts, es, p, hl, hp⟩ := main_loop (env := env) hT hb allow
  obtain ⟨sts', es', p', hl', hp'⟩ := main_loop (env := checked env) hT hb allow
  obtain ⟨a, b, h1, h2⟩ := loop_alike env _ _ _ _ _ _ _ _ _ _ _ _ _ _ (shift_refl _) hl hl'
  cases h1
  cases h2
  rw [hp, hp']

theorem afterWord_cons : ∀ {T : List Token}, T ≠ [] → afterWord T ≠ []
  | [], h => absurd rfl h
  | [e], _ => by simp [afterWord]
  | t :: u :: ts, _ => by
    unfold afterWord
    split
    · simp
    · exact afterWord_cons (by simp)

theorem drop_ok {k : Nat} (hT : TokensOk T) (hk : k < T.length) : TokensOk (T.drop k) := by
  obtain ⟨ws, e, h1, h2, h3⟩ := hT.eof
  have hk' : k ≤ ws.length := by rw [h1] at hk; simp at hk; omega
  refine ⟨⟨ws.drop k, e, ?_, h2, fun t ht => h3 t (List.mem_of_mem_drop ht)⟩, fun t ht => hT.number t (List.mem_of_mem_drop ht),
    fun t ht => hT.string t (List.mem_of_mem_drop ht), fun t ht => hT.equal t (List.mem_of_mem_drop ht)⟩
  rw [h1, List.drop_append_of_le_length hk']

/-- The first error of a run: where it is found, where the parser goes on, and with what. -/
theorem loop_recovers (hT : TokensOk T) (hb : T.length ≤ env.usizeMax) (n : Nat) (hn : 4 * T.length + 4 ≤ n) {c : Cause} {cs : List Cause} :
    ∀ (f : Nat) (ss : List Stmt) (p p' : Parser) (A : Loop), Inv T allow (ss, []) p →
      loopFuel (parseStep env (recN env n)) f (ss, []) p = .ok A p' → A.2 = c :: cs →
      ∃ i f' acc p2, i < T.length ∧ SpotAt T i c ∧ (∃ j t, j ≤ i ∧ T[j]? = some t ∧ Reports t c) ∧
        T.drop p2.current = afterWord (T.drop i) ∧ p2.current < T.length ∧ p2.tokens = T ∧ p2.allowTrailing = allow ∧
        (p2.inLoops = 0 ∨ c.message = indentMessage) ∧ p2.inLoops ≤ p2.current ∧ acc.2 = [c] ∧
        loopFuel (parseStep env (recN env n)) f' acc p2 = .ok A p'
  | 0, _, _, _, _, _, h, _ => by cases h
  | f + 1, ss, p, p', A, hi, h, hc => by
    by_cases he : p.isAtEnd = true
    · rw [loop_end he h] at hc; cases hc
    have he : p.isAtEnd = false := by simpa using he
    have hr := recN_ok env n
    have hstep := parseStep_ok hT hb hr hn hi
    unfold wp at hstep
    obtain ⟨f0, acc1, p2, hf, hs, h'⟩ := loop_step he h
    obtain rfl : f = f0 := by omega
    rw [step_body he, hs] at hstep
    rcases step_cases hs with ⟨st, hd, rfl⟩ | ⟨e, p1, u, hd, hsy, rfl⟩
    · exact loop_recovers hT hb n hn f _ p2 p' A hstep.1 h' hc
    · obtain ⟨more, hm⟩ := loop_adds _ _ _ _ _ h'
      rw [hc] at hm
      cases hm
      have hrl : p.rest.length = T.length - p.current := by unfold Parser.rest; rw [hi.tokens, List.length_drop]
      have g : ∀ env' : Env, env'.usizeMax = env.usizeMax → Ready env' p := fun env' h =>
        ⟨by rw [hi.tokens]; exact hT, by rw [hi.tokens, h]; exact hb, by rw [hi.tokens]; exact hi.inb, hi.loops, .inr he⟩
      have hdecl := hr.declaration p (g env rfl) (by rw [hrl]; have := hi.inb; omega)
      unfold wp at hdecl
      rw [hd] at hdecl
      have hself := (near_rec env n 0).declaration.start (N := 0) (p := p) (q := p) ⟨rfl, rfl, rfl, fun _ _ => rfl⟩
      rw [hd] at hself
      have htok : p1.tokens = T := hdecl.tokens.trans hi.tokens
      have hinb1 : p1.current < p1.tokens.length := by rw [htok, ← hi.tokens]; exact hdecl.inb
      have hlater := synchronize_ok (env := env) (p := p1) (by rw [htok]; exact hT) hinb1
      unfold wp at hlater
      rw [hsy] at hlater
      have hl := hlater.1
      have hex := sync_exact (by rw [htok]; exact hT) hinb1 hsy
      rw [htok] at hex
      refine ⟨p1.current, f, _, p2, by rw [← htok]; exact hinb1, spot_at hT hi.tokens hdecl hself.2.2.1, ?_, hex, hstep.1.inb,
        hstep.1.tokens, hstep.1.allow, ?_, hstep.1.loops, rfl, h'⟩
      · obtain ⟨j, t, -, h1, h2, h3⟩ := hdecl.located
        exact ⟨j, t, h1, by rw [← hi.tokens]; exact h2, h3⟩
      · have hck := (recN_ok (checked env) n).declaration p (g _ rfl) (by rw [hrl]; have := hi.inb; omega)
        unfold wp at hck
        have hal := (par_rec env n n).declaration.start (shift_refl p)
        rw [hd] at hal
        have h0 := (hi.sound rfl).1
        rw [hl.inLoops]
        cases hz : (recN (checked env) n).declaration p with
        | ok a q => rw [hz] at hal; exact hal.elim
        | err e' q =>
          rw [hz] at hal
          obtain ⟨-, h1, -, h2, -⟩ := hal
          rw [h1.inLoops, Nat.add_zero]
          exact h2.imp (fun h => h.trans h0) id
        | panic m => rw [hz] at hck; exact hck.elim
        | diverge => rw [hz] at hck; exact hck.elim

/-- The errors after the first are those of the rest. -/
theorem parse_recovers (hT : TokensOk T) (hb : T.length ≤ env.usizeMax) {c : Cause} {cs : List Cause}
    (h : parseTokens env T allow = .done (.error (c :: cs))) :
    ∃ i, i < T.length ∧ SpotAt T i c ∧ (∃ j t, j ≤ i ∧ T[j]? = some t ∧ Reports t c) ∧
      (c.message ≠ indentMessage ∨ NoJumps (afterWord (T.drop i)) →
        ∃ sts, parseTokens env (afterWord (T.drop i)) allow = .done (if cs.isEmpty then .ok sts else .error cs)) := by
  obtain ⟨sts, es, p, hl, hp⟩ := main_loop (env := env) hT hb allow
  rw [hp] at h
  obtain ⟨ws, e, hT1, he, hws⟩ := hT.eof
  have hpos : 0 < T.length := by rw [hT1]; simp
  have hes : es = c :: cs := by split at h <;> cases h; rfl
  subst hes
  have hinv : Inv T allow ([], []) (.new T allow) :=
    ⟨rfl, rfl, hpos, Nat.le_refl _, ⟨[], rfl, .nil, by simp⟩, fun _ => ⟨rfl, .inl .declarations_nil⟩⟩
  obtain ⟨i, f', acc, p2, h1, h2, h3, h4, h5, h6, h7, h8, h8', h9, h10⟩ :=
    loop_recovers hT hb _ (by unfold depthFor; omega) _ _ _ _ _ hinv hl rfl
  refine ⟨i, h1, h2, h3, fun hj => ?_⟩
  have hR := drop_ok hT h5
  have hlen : (T.drop p2.current).length ≤ env.usizeMax := by rw [List.length_drop]; omega
  obtain ⟨sts', es', p', hl', hp'⟩ := main_loop (env := checked env) hR hlen allow
  have hsh : Shift p2.current p2.inLoops p2 (.new (T.drop p2.current) allow) := by
    refine ⟨by simp [Parser.new], by simp [Parser.new], by rw [h7]; rfl, fun i => ?_, ?_⟩
    · rw [h6]; show _ = (T.drop p2.current)[i]?; rw [List.getElem?_drop, Nat.add_comm]
    · rcases hj with hj | hj
      · exact .inl (h8.resolve_right hj)
      · right; left; rw [← h4] at hj; exact hj
  obtain ⟨a, b, e1, e2⟩ := loop_alike env _ _ _ _ _ _ _ _ _ _ _ _ _ _ hsh h10 hl'
  rw [h9] at e1
  cases e1
  cases e2
  refine ⟨a, ?_⟩
  rw [← h4, ← parse_checked hR hlen, hp']
  simp

/-- The main loop does the same whatever has been collected. -/
theorem loop_collects : ∀ (n : Nat) (acc A acc' : Loop) (p p' : Parser), loopFuel (parseStep env r) n acc p = .ok A p' →
    ∃ sts more, A = (acc.1 ++ sts, acc.2 ++ more) ∧
      loopFuel (parseStep env r) n acc' p = .ok (acc'.1 ++ sts, acc'.2 ++ more) p'
  | 0, _, _, _, _, _, h => by cases h
  | n + 1, acc, A, acc', p, p', h => by
    have h : M.bind (parseStep env r acc) _ p = _ := h
    show ∃ sts more, _ ∧ M.bind (parseStep env r acc') _ p = _
    unfold M.bind parseStep at *
    by_cases he : p.isAtEnd = true
    · simp only [he, if_true] at h ⊢
      cases h
      exact ⟨[], [], by simp, by simp [pure, M.pure]⟩
    · simp only [he, if_false, Bool.false_eq_true] at h ⊢
      cases hd : r.declaration p with
      | ok st p1 =>
        simp only [hd] at h ⊢
        obtain ⟨sts, more, h1, h2⟩ := loop_collects n _ _ (acc'.1 ++ [st], acc'.2) _ _ h
        exact ⟨st :: sts, more, by rw [h1]; simp, h2.trans (by simp)⟩
      | err e p1 =>
        simp only [hd] at h ⊢
        cases hy : synchronize env p1 with
        | ok u p2 =>
          simp only [hy] at h ⊢
          obtain ⟨sts, more, h1, h2⟩ := loop_collects n _ _ (acc'.1, acc'.2 ++ [e]) _ _ h
          exact ⟨sts, e :: more, by rw [h1]; simp, h2.trans (by simp)⟩
        | err e' p2 => simp only [hy] at h; cases h
        | panic m => simp only [hy] at h; cases h
        | diverge => simp only [hy] at h; cases h
      | panic m => simp only [hd] at h; cases h
      | diverge => simp only [hd] at h; cases h

/-- The main loop after an error. -/
theorem main_from (hT : TokensOk T) (hb : T.length ≤ env.usizeMax) {acc : Loop} (hi : Inv T allow acc p) :
    ∃ sts es p', loop (parseStep env (recN env (depthFor T))) ([], []) p = .ok (sts, es) p' ∧
      parseFrom env p = .done (if es.isEmpty then .ok sts else .error es) := by
  obtain ⟨ws, e, hT1, he, hws⟩ := hT.eof
  have hloop : wp (loop (parseStep env (recN env (depthFor T))) acc) (fun acc p' => Inv T allow acc p' ∧ p'.isAtEnd = true)
      (fun _ _ => False) p := by
    refine wp_loop (fun acc p => Inv T allow acc p) ?_ hi
    intro acc p hi
    refine wp_mono (parseStep_ok hT hb (recN_ok env (depthFor T)) (by unfold depthFor; omega) hi) ?_ (fun _ _ h => h)
    intro s p' h
    cases s <;> exact h
  unfold parseFrom
  rw [hi.tokens]
  unfold wp at hloop
  cases hx : loop (parseStep env (recN env (depthFor T))) acc p with
  | ok acc1 p' =>
    rw [hx] at hloop
    obtain ⟨hi, hend⟩ := hloop
    have hi0 := hi.inb
    have hcur : p'.current = ws.length := by
      rcases Nat.lt_or_ge p'.current ws.length with h | h
      · exfalso
        have hp : p'.peek = some ws[p'.current] := by
          unfold Parser.peek
          rw [hi.tokens, hT1, List.getElem?_append_left h, List.getElem?_eq_getElem h]
        simp only [Parser.isAtEnd, hp, beq_iff_eq] at hend
        exact hws _ (List.getElem_mem h) hend
      · rw [hT1] at hi0; simp at hi0; omega
    have hrest : p'.rest = [e] := by unfold Parser.rest; rw [hi.tokens, hT1, hcur]; simp
    obtain ⟨sts, more, -, h2⟩ := loop_collects _ _ _ ([], []) _ _ hx
    have h2 : loop (parseStep env (recN env (depthFor T))) ([], []) p = .ok (sts, more) p' := h2
    refine ⟨sts, more, p', h2, ?_⟩
    rw [h2]
    dsimp only
    rw [consume_eof hrest he]
    dsimp only
    split <;> rfl
  | err e p => rw [hx] at hloop; exact hloop.elim
  | panic m => rw [hx] at hloop; exact hloop.elim
  | diverge => rw [hx] at hloop; exact hloop.elim

theorem inLoop_inv {x : Token} (h : 0 < T.length) : Inv (x :: T) allow ([], [⟨x.loc, some x.lexeme, ""⟩]) (inLoop x T allow) := by
  refine ⟨rfl, rfl, by show 1 < _; simp; omega, Nat.le_refl _, ⟨[(0, ⟨x.loc, some x.lexeme, ""⟩)], rfl, by simp, ?_⟩, fun h => by cases h⟩
  intro y hy
  simp only [List.mem_singleton] at hy
  subst hy
  exact ⟨by show 0 < 1 + _; omega, x, rfl, by simp [Reports]⟩

/-- The rest of a run in a loop. -/
theorem inLoop_same {s d n f : Nat} {acc acc' A : Loop} {p q p' : Parser} (hT : TokensOk T) (hb : T.length ≤ env.usizeMax)
    (hi : Inv T allow acc' q) (hs : Shift s d p q) (h : loopFuel (parseStep env (recN env n)) f acc p = .ok A p') :
    ∃ sts more, A = (acc.1 ++ sts, acc.2 ++ more) ∧ parseFrom env q = .done (if more.isEmpty then .ok sts else .error more) := by
  obtain ⟨sts', es', p', hl', hp'⟩ := main_from (env := checked env) hT hb hi
  obtain ⟨sts2, es2, p'', hl2, hp2⟩ := main_from (env := env) hT hb hi
  obtain ⟨a, b, e1, e2⟩ := loop_alike env _ _ _ _ _ _ _ _ _ _ _ _ _ _ hs h hl'
  obtain ⟨a', b', e1', e2'⟩ := loop_alike env _ _ _ _ _ _ _ _ _ _ _ _ _ _ (shift_refl _) hl2 hl'
  cases e2
  cases e1'
  simp only [List.nil_append, Prod.mk.injEq] at e2'
  obtain ⟨rfl, rfl⟩ := e2'
  exact ⟨a, b, e1, by rw [hp2]; simp⟩

/-- The errors after the first, in all cases. -/
theorem parse_recovers_loop (hT : TokensOk T) (hb : T.length ≤ env.usizeMax) {c : Cause} {cs : List Cause}
    (h : parseTokens env T allow = .done (.error (c :: cs))) :
    ∃ i, i < T.length ∧ SpotAt T i c ∧ (∃ j t, j ≤ i ∧ T[j]? = some t ∧ Reports t c) ∧
      ((∃ sts, parseTokens env (afterWord (T.drop i)) allow = .done (if cs.isEmpty then .ok sts else .error cs)) ∨
      c.message = indentMessage ∧ ∃ w x sts, T = w ++ x :: afterWord (T.drop i) ∧
        parseFrom env (inLoop x (afterWord (T.drop i)) allow) = .done (if cs.isEmpty then .ok sts else .error cs)) := by
  obtain ⟨sts, es, p, hl, hp⟩ := main_loop (env := env) hT hb allow
  rw [hp] at h
  obtain ⟨ws, e, hT1, he, hws⟩ := hT.eof
  have hpos : 0 < T.length := by rw [hT1]; simp
  have hes : es = c :: cs := by split at h <;> cases h; rfl
  subst hes
  have hinv : Inv T allow ([], []) (.new T allow) :=
    ⟨rfl, rfl, hpos, Nat.le_refl _, ⟨[], rfl, .nil, by simp⟩, fun _ => ⟨rfl, .inl .declarations_nil⟩⟩
  obtain ⟨i, f', acc, p2, h1, h2, h3, h4, h5, h6, h7, h8, h8', h9, h10⟩ :=
    loop_recovers hT hb _ (by unfold depthFor; omega) _ _ _ _ _ hinv hl rfl
  refine ⟨i, h1, h2, h3, ?_⟩
  have hR := drop_ok hT h5
  have hlen : (T.drop p2.current).length ≤ env.usizeMax := by rw [List.length_drop]; omega
  by_cases h0 : p2.inLoops = 0
  · left
    obtain ⟨sts', es', p', hl', hp'⟩ := main_loop (env := checked env) hR hlen allow
    have hsh : Shift p2.current p2.inLoops p2 (.new (T.drop p2.current) allow) := by
      refine ⟨by simp [Parser.new], by simp [Parser.new], by rw [h7]; rfl, fun i => ?_, .inl h0⟩
      rw [h6]; show _ = (T.drop p2.current)[i]?; rw [List.getElem?_drop, Nat.add_comm]
    obtain ⟨a, b, e1, e2⟩ := loop_alike env _ _ _ _ _ _ _ _ _ _ _ _ _ _ hsh h10 hl'
    rw [h9] at e1
    cases e1
    cases e2
    refine ⟨a, ?_⟩
    rw [← h4, ← parse_checked hR hlen, hp']
    simp
  · right
    refine ⟨h8.resolve_left h0, ?_⟩
    have h5' : p2.current - 1 < T.length := by omega
    have hd : T.drop (p2.current - 1) = T[p2.current - 1] :: T.drop p2.current := by
      rw [List.drop_eq_getElem_cons h5']; congr 2; omega
    refine ⟨T.take (p2.current - 1), T[p2.current - 1], ?_⟩
    have hX := drop_ok hT h5'
    have hXl : (T.drop (p2.current - 1)).length ≤ env.usizeMax := by rw [List.length_drop]; omega
    rw [← h4]
    have hq := inLoop_inv (allow := allow) (x := T[p2.current - 1]) (T := T.drop p2.current) (by rw [List.length_drop]; omega)
    rw [← hd] at hq
    have hsh : Shift (p2.current - 1) (p2.inLoops - 1) p2 (inLoop T[p2.current - 1] (T.drop p2.current) allow) := by
      refine ⟨by show _ = 1 + _; omega, by show _ = 1 + _; omega, by rw [h7]; rfl, fun i => ?_, .inr (.inr (Nat.le_refl _))⟩
      show _ = (T[p2.current - 1] :: T.drop p2.current)[i]?
      rw [h6, ← hd, List.getElem?_drop, Nat.add_comm]
    obtain ⟨a, b, e1, e2⟩ := inLoop_same hX hXl hq hsh h10
    rw [h9] at e1
    cases e1
    exact ⟨a, by rw [← hd, List.take_append_drop], e2⟩

/-- A loop is not left by an error. -/
theorem loop_stays (hT : TokensOk T) (hb : T.length ≤ env.usizeMax) (n : Nat) (hn : 4 * T.length + 4 ≤ n) {c : Cause} {cs : List Cause} :
    ∀ (f : Nat) (acc : Loop) (p p' : Parser) (A : Loop), Inv T allow acc p → 1 ≤ p.inLoops →
      loopFuel (parseStep env (recN env n)) f acc p = .ok A p' → A.2 = acc.2 ++ c :: cs →
      ∃ i f' acc' p2, i < T.length ∧ SpotAt T i c ∧ (∃ j t, j ≤ i ∧ T[j]? = some t ∧ Reports t c) ∧
        T.drop p2.current = afterWord (T.drop i) ∧ Inv T allow acc' p2 ∧ 1 ≤ p2.inLoops ∧ acc'.2 = acc.2 ++ [c] ∧
        loopFuel (parseStep env (recN env n)) f' acc' p2 = .ok A p'
  | 0, _, _, _, _, _, _, h, _ => by cases h
  | f + 1, acc, p, p', A, hi, hk, h, hc => by
    by_cases he : p.isAtEnd = true
    · rw [loop_end he h] at hc; simp at hc
    have he : p.isAtEnd = false := by simpa using he
    have hr := recN_ok env n
    have hstep := parseStep_ok hT hb hr hn hi
    unfold wp at hstep
    obtain ⟨f0, acc1, p2, hf, hs, h'⟩ := loop_step he h
    obtain rfl : f = f0 := by omega
    rw [step_body he, hs] at hstep
    have hrl : p.rest.length = T.length - p.current := by unfold Parser.rest; rw [hi.tokens, List.length_drop]
    have g : ∀ env' : Env, env'.usizeMax = env.usizeMax → Ready env' p := fun env' h =>
      ⟨by rw [hi.tokens]; exact hT, by rw [hi.tokens, h]; exact hb, by rw [hi.tokens]; exact hi.inb, hi.loops, .inr he⟩
    have hck := (recN_ok (checked env) n).declaration p (g _ rfl) (by rw [hrl]; have := hi.inb; omega)
    unfold wp at hck
    have hal := (par_rec env n n).declaration.start (shift_refl p)
    rcases step_cases hs with ⟨st, hd, rfl⟩ | ⟨e, p1, u, hd, hsy, rfl⟩
    · refine loop_stays hT hb n hn f (acc.1 ++ [st], acc.2) p2 p' A hstep.1 ?_ h' hc
      rw [hd] at hal
      cases hz : (recN (checked env) n).declaration p with
      | ok a q =>
        rw [hz] at hal
        obtain ⟨-, h1, h2, -⟩ := hal
        have := h1.inLoops
        omega
      | err e' q => rw [hz] at hal; exact hal.elim
      | panic m => rw [hz] at hck; exact hck.elim
      | diverge => rw [hz] at hck; exact hck.elim
    · obtain ⟨more, hm⟩ := loop_adds _ _ _ _ _ h'
      rw [hc, List.append_assoc] at hm
      have hm := List.append_cancel_left hm
      simp only [List.cons_append, List.nil_append, List.cons.injEq] at hm
      obtain ⟨rfl, rfl⟩ := hm
      have hdecl := hr.declaration p (g env rfl) (by rw [hrl]; have := hi.inb; omega)
      unfold wp at hdecl
      rw [hd] at hdecl hal
      have hself := (near_rec env n 0).declaration.start (N := 0) (p := p) (q := p) ⟨rfl, rfl, rfl, fun _ _ => rfl⟩
      rw [hd] at hself
      have htok : p1.tokens = T := hdecl.tokens.trans hi.tokens
      have hinb1 : p1.current < p1.tokens.length := by rw [htok, ← hi.tokens]; exact hdecl.inb
      have hlater := synchronize_ok (env := env) (p := p1) (by rw [htok]; exact hT) hinb1
      unfold wp at hlater
      rw [hsy] at hlater
      have hl := hlater.1
      have hex := sync_exact (by rw [htok]; exact hT) hinb1 hsy
      rw [htok] at hex
      refine ⟨p1.current, f, _, p2, by rw [← htok]; exact hinb1, spot_at hT hi.tokens hdecl hself.2.2.1, ?_, hex, hstep.1,
        ?_, rfl, h'⟩
      · obtain ⟨j, t, -, h1, h2, h3⟩ := hdecl.located
        exact ⟨j, t, h1, by rw [← hi.tokens]; exact h2, h3⟩
      · rw [hl.inLoops]
        cases hz : (recN (checked env) n).declaration p with
        | ok a q => rw [hz] at hal; exact hal.elim
        | err e' q =>
          rw [hz] at hal
          obtain ⟨-, h1, h2, -⟩ := hal
          have := h1.inLoops
          omega
        | panic m => rw [hz] at hck; exact hck.elim
        | diverge => rw [hz] at hck; exact hck.elim

/-- A parser in a loop goes on in a loop. -/
theorem inLoop_recovers {R : List Token} {x : Token} (hT : TokensOk (x :: R)) (hR : 0 < R.length) (hb : (x :: R).length ≤ env.usizeMax)
    {c : Cause} {cs : List Cause} (h : parseFrom env (inLoop x R allow) = .done (.error (c :: cs))) :
    ∃ i, i < (x :: R).length ∧ SpotAt (x :: R) i c ∧ (∃ j t, j ≤ i ∧ (x :: R)[j]? = some t ∧ Reports t c) ∧
      ∃ w y sts, x :: R = w ++ y :: afterWord ((x :: R).drop i) ∧
        parseFrom env (inLoop y (afterWord ((x :: R).drop i)) allow) = .done (if cs.isEmpty then .ok sts else .error cs) := by
  have hinv := inLoop_inv (allow := allow) (x := x) hR
  obtain ⟨sts, es, p, hl, hp⟩ := main_from (env := env) hT hb hinv
  rw [hp] at h
  have hes : es = c :: cs := by split at h <;> cases h; rfl
  subst hes
  obtain ⟨sts0, more0, e0, hl0⟩ := loop_collects _ _ _ ([], [⟨x.loc, some x.lexeme, ""⟩]) _ _ hl
  simp only [List.nil_append, Prod.mk.injEq] at e0
  obtain ⟨rfl, rfl⟩ := e0
  generalize hT' : x :: R = T at *
  obtain ⟨i, f', acc, p2, h1, h2, h3, h4, h5, h8, h9, h10⟩ :=
    loop_stays hT hb _ (by unfold depthFor; omega) _ _ _ _ _ hinv (Nat.le_refl _) hl0 rfl
  refine ⟨i, h1, h2, h3, ?_⟩
  have h5i := h5.inb
  have h5l := h5.loops
  have h5' : p2.current - 1 < T.length := by omega
  have hd : T.drop (p2.current - 1) = T[p2.current - 1] :: T.drop p2.current := by
    rw [List.drop_eq_getElem_cons h5']; congr 2; omega
  refine ⟨T.take (p2.current - 1), T[p2.current - 1], ?_⟩
  have hX := drop_ok hT h5'
  have hXl : (T.drop (p2.current - 1)).length ≤ env.usizeMax := by rw [List.length_drop]; omega
  rw [← h4]
  have hq := inLoop_inv (allow := allow) (x := T[p2.current - 1]) (T := T.drop p2.current) (by rw [List.length_drop]; omega)
  rw [← hd] at hq
  obtain ⟨a, b, e1, e2⟩ := inLoop_same (s := p2.current - 1) (d := p2.inLoops - 1) hX hXl hq (by
    refine ⟨by show _ = 1 + _; omega, by show _ = 1 + _; omega, by rw [h5.allow]; rfl, fun i => ?_, .inr (.inr (Nat.le_refl _))⟩
    show _ = (T[p2.current - 1] :: T.drop p2.current)[i]?
    rw [h5.tokens, ← hd, List.getElem?_drop, Nat.add_comm]) h10
  rw [h9] at e1
  have e3 := congrArg Prod.snd e1
  simp only [List.cons_append, List.nil_append, List.cons.injEq, true_and] at e3
  subst e3
  exact ⟨a, by rw [← hd, List.take_append_drop], e2⟩

/-- A word is passed, or the end is reached. -/
theorem afterWord_count : ∀ {T : List Token}, T ≠ [] → (∃ e, afterWord T = [e]) ∨
    (afterWord T).countP (fun t => decide (Begins t)) + 1 ≤ T.countP (fun t => decide (Begins t))
  | [], h => absurd rfl h
  | [e], _ => .inl ⟨e, rfl⟩
  | t :: u :: ts, _ => by
    unfold afterWord
    split
    · rename_i h
      right
      rw [List.countP_cons_of_pos (a := t) (by simpa using h)]
      exact Nat.le_refl _
    · rename_i h
      rcases afterWord_count (T := u :: ts) (by simp) with h1 | h1
      · exact .inl h1
      · right
        rw [List.countP_cons_of_neg (a := t) (by simpa using h)]
        exact h1

/-- The number of errors of a run. -/
theorem loop_count (hT : TokensOk T) (hb : T.length ≤ env.usizeMax) (n : Nat) (hn : 4 * T.length + 4 ≤ n) :
    ∀ (f : Nat) (acc A : Loop) (p p' : Parser), Inv T allow acc p → loopFuel (parseStep env (recN env n)) f acc p = .ok A p' →
      A.2.length ≤ acc.2.length + (if p.isAtEnd then 0 else 1 + (T.drop p.current).countP (fun t => decide (Begins t)))
  | 0, _, _, _, _, _, h => by cases h
  | f + 1, acc, A, p, p', hi, h => by
    by_cases he : p.isAtEnd = true
    · rw [loop_end he h]; omega
    have he : p.isAtEnd = false := by simpa using he
    have hr := recN_ok env n
    have hstep := parseStep_ok hT hb hr hn hi
    unfold wp at hstep
    obtain ⟨f0, acc1, p2, hf, hs, h'⟩ := loop_step he h
    obtain rfl : f = f0 := by omega
    rw [step_body he, hs] at hstep
    have ih := loop_count hT hb n hn f _ _ _ _ hstep.1 h'
    have mono : ∀ {a b : Nat}, a ≤ b → (T.drop b).countP (fun t => decide (Begins t)) ≤ (T.drop a).countP (fun t => decide (Begins t)) := by
      intro a b hab
      refine List.Sublist.countP_le ?_
      obtain ⟨k, rfl⟩ := Nat.exists_eq_add_of_le hab
      rw [← List.drop_drop]
      exact List.drop_sublist _ _
    have hself := (near_rec env n 0).declaration.start (N := 0) (p := p) (q := p) ⟨rfl, rfl, rfl, fun _ _ => rfl⟩
    rw [he]
    simp only [Bool.false_eq_true, if_false]
    rcases step_cases hs with ⟨st, hd, rfl⟩ | ⟨e, p1, u, hd, hsy, rfl⟩
    · rw [hd] at hself
      have := mono hself.2.1
      revert ih
      split <;> intro ih <;> simp only at ih <;> omega
    · rw [hd] at hself
      have hm := mono hself.2.1
      have hrl : p.rest.length = T.length - p.current := by unfold Parser.rest; rw [hi.tokens, List.length_drop]
      have g : Ready env p :=
        ⟨by rw [hi.tokens]; exact hT, by rw [hi.tokens]; exact hb, by rw [hi.tokens]; exact hi.inb, hi.loops, .inr he⟩
      have hdecl := hr.declaration p g (by rw [hrl]; have := hi.inb; omega)
      unfold wp at hdecl
      rw [hd] at hdecl
      have htok : p1.tokens = T := hdecl.tokens.trans hi.tokens
      have hinb1 : p1.current < p1.tokens.length := by rw [htok, ← hi.tokens]; exact hdecl.inb
      have hex := sync_exact (by rw [htok]; exact hT) hinb1 hsy
      rw [htok] at hex
      have hne : T.drop p1.current ≠ [] := by
        rw [htok] at hinb1
        intro h
        have := congrArg List.length h
        simp at this
        omega
      simp only [List.length_append, List.length_cons, List.length_nil] at ih
      rcases afterWord_count hne with ⟨e, h1⟩ | h1
      · have hend : p2.isAtEnd = true := by
          rw [h1] at hex
          obtain ⟨ws, e', hT1, he', hws⟩ := hT.eof
          have h2 := congrArg List.length hex
          rw [List.length_drop] at h2
          simp only [List.length_cons, List.length_nil] at h2
          have h3 : p2.current = ws.length := by rw [hT1] at h2; simp at h2; omega
          have : p2.peek = some e' := by unfold Parser.peek; rw [hstep.1.tokens, hT1, h3]; simp
          simp [Parser.isAtEnd, this, he']
        rw [hend, if_pos rfl] at ih
        omega
      · rw [← hex] at h1
        revert ih
        split <;> intro ih <;> omega

/-- At most one error more than words. -/
theorem parse_count (hT : TokensOk T) (hb : T.length ≤ env.usizeMax) {cs : List Cause} (h : parseTokens env T allow = .done (.error cs)) :
    cs.length ≤ 1 + T.countP (fun t => decide (Begins t)) := by
  obtain ⟨sts, es, p, hl, hp⟩ := main_loop (env := env) hT hb allow
  rw [hp] at h
  obtain ⟨ws, e, hT1, he, hws⟩ := hT.eof
  have hpos : 0 < T.length := by rw [hT1]; simp
  have hes : es = cs := by split at h <;> cases h; rfl
  subst hes
  have hinv : Inv T allow ([], []) (.new T allow) :=
    ⟨rfl, rfl, hpos, Nat.le_refl _, ⟨[], rfl, .nil, by simp⟩, fun _ => ⟨rfl, .inl .declarations_nil⟩⟩
  have := loop_count hT hb _ (by unfold depthFor; omega) _ _ _ _ _ hinv hl
  simp only [List.length_nil, Parser.new, List.drop_zero] at this
  revert this
  split <;> intro this <;> omega

end Ws
