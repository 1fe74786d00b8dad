import Verif.Proofs.Parse.Local
/-! The errors of a parse, and the tokens that they depend on. -/
namespace Ws
open Spec

variable {env : Env} {p q : Parser} {T : List Token} {allow : Bool} {r r' : Rec} {n : Nat}

/-- The main loop. -/
abbrev Loop := List Stmt × List Cause

theorem main_loop (hT : TokensOk T) (hb : T.length ≤ env.usizeMax) (allow : Bool) :
    ∃ sts es p, loop (parseStep env (recN env (depthFor T))) ([], []) (.new T allow) = .ok (sts, es) p ∧
      parseTokens env T allow = .done (if es.isEmpty then .ok sts else .error es) := by
  obtain ⟨ws, e, hT1, he, hws⟩ := hT.eof
  have hpos : 0 < T.length := by rw [hT1]; simp
  have hloop : wp (loop (parseStep env (recN env (depthFor T))) ([], [])) (fun acc p' => Inv T allow acc p' ∧ p'.isAtEnd = true)
      (fun _ _ => False) (.new T allow) := by
    refine wp_loop (fun acc p => Inv T allow acc p) ?_ ?_
    · intro acc p hi
      refine wp_mono (parseStep_ok hT hb (recN_ok env (depthFor T)) (by unfold depthFor; omega) hi) ?_ (fun _ _ h => h)
      intro s p' h
      cases s <;> exact h
    · exact ⟨rfl, rfl, hpos, Nat.le_refl _, ⟨[], rfl, .nil, by simp⟩, fun _ => ⟨rfl, .inl .declarations_nil⟩⟩
  unfold parseTokens
  unfold wp at hloop
  cases hx : loop (parseStep env (recN env (depthFor T))) ([], []) (.new T allow) with
  | ok acc p =>
    rw [hx] at hloop
    obtain ⟨acc1, acc2⟩ := acc
    obtain ⟨hi, hend⟩ := hloop
    have hi0 := hi.inb
    have hcur : p.current = ws.length := by
      rcases Nat.lt_or_ge p.current ws.length with h | h
      · exfalso
        have hp : p.peek = some ws[p.current] := by
          unfold Parser.peek
          rw [hi.tokens, hT1, List.getElem?_append_left h, List.getElem?_eq_getElem h]
        simp only [Parser.isAtEnd, hp, beq_iff_eq] at hend
        exact hws _ (List.getElem_mem h) hend
      · rw [hT1] at hi0; simp at hi0; omega
    have hrest : p.rest = [e] := by unfold Parser.rest; rw [hi.tokens, hT1, hcur]; simp
    refine ⟨acc1, acc2, p, rfl, ?_⟩
    dsimp only
    rw [consume_eof hrest he]
    dsimp only
    split <;> rfl
  | err e p => rw [hx] at hloop; exact hloop.elim
  | panic m => rw [hx] at hloop; exact hloop.elim
  | diverge => rw [hx] at hloop; exact hloop.elim

/-- A step that is not the last. -/
def stepBody (env : Env) (r : Rec) (acc : Loop) : P (Step Loop Loop) := fun p =>
  match r.declaration p with
  | .ok st p' => .ok (.next (acc.1 ++ [st], acc.2)) p'
  | .err e p' =>
    match synchronize env p' with
    | .ok _ p'' => .ok (.next (acc.1, acc.2 ++ [e])) p''
    | .err e' p'' => .err e' p''
    | .panic m => .panic m
    | .diverge => .diverge
  | .panic m => .panic m
  | .diverge => .diverge

theorem step_end {acc : Loop} (h : p.isAtEnd = true) : parseStep env r acc p = .ok (.stop acc) p := by
  unfold parseStep; rw [if_pos h]
theorem step_body {acc : Loop} (h : p.isAtEnd = false) : parseStep env r acc p = stepBody env r acc p := by
  unfold parseStep; rw [if_neg (by simp [h])]; rfl

theorem loop_end {f : Nat} {acc a : Loop} {p' : Parser} (he : p.isAtEnd = true)
    (h : loopFuel (parseStep env r) f acc p = .ok a p') : a = acc := by
  cases f with
  | zero => cases h
  | succ f =>
    have h : M.bind (parseStep env r acc) _ p = _ := h
    unfold M.bind at h
    rw [step_end he] at h
    cases h
    rfl

theorem loop_step {f : Nat} {acc a : Loop} {p' : Parser} (he : p.isAtEnd = false)
    (h : loopFuel (parseStep env r) f acc p = .ok a p') :
    ∃ f' acc1 p1, f = f' + 1 ∧ stepBody env r acc p = .ok (.next acc1) p1 ∧ loopFuel (parseStep env r) f' acc1 p1 = .ok a p' := by
  cases f with
  | zero => cases h
  | succ f =>
    have h : M.bind (parseStep env r acc) _ p = _ := h
    unfold M.bind at h
    rw [step_body he] at h
    cases hs : stepBody env r acc p with
    | ok s q =>
      rw [hs] at h
      cases s with
      | next a1 => exact ⟨f, a1, q, rfl, rfl, h⟩
      | stop b =>
        exfalso
        unfold stepBody at hs
        cases hd : r.declaration p with
        | ok st q => rw [hd] at hs; cases hs
        | err e q =>
          rw [hd] at hs
          simp only at hs
          cases hy : synchronize env q <;> rw [hy] at hs <;> cases hs
        | panic m => rw [hd] at hs; cases hs
        | diverge => rw [hd] at hs; cases hs
    | err e q => rw [hs] at h; cases h
    | panic m => rw [hs] at h; cases h
    | diverge => rw [hs] at h; cases h

/-- What a step does. -/
theorem step_cases {acc acc1 : Loop} {p1 : Parser} (h : stepBody env r acc p = .ok (.next acc1) p1) :
    (∃ st, r.declaration p = .ok st p1 ∧ acc1 = (acc.1 ++ [st], acc.2)) ∨
    ∃ e p0 u, r.declaration p = .err e p0 ∧ synchronize env p0 = .ok u p1 ∧ acc1 = (acc.1, acc.2 ++ [e]) := by
  unfold stepBody at h
  cases hd : r.declaration p with
  | ok st q => rw [hd] at h; cases h; exact .inl ⟨st, rfl, rfl⟩
  | err e q =>
    rw [hd] at h
    simp only at h
    cases hy : synchronize env q with
    | ok u q' => rw [hy] at h; cases h; exact .inr ⟨e, q, u, rfl, hy, rfl⟩
    | err e' q' => rw [hy] at h; cases h
    | panic m => rw [hy] at h; cases h
    | diverge => rw [hy] at h; cases h
  | panic m => rw [hd] at h; cases h
  | diverge => rw [hd] at h; cases h

/-- Errors are added at the end. -/
theorem loop_adds : ∀ (n : Nat) (acc a : Loop) (p p' : Parser),
    loopFuel (parseStep env r) n acc p = .ok a p' → ∃ more, a.2 = acc.2 ++ more
  | 0, _, _, _, _, h => by cases h
  | n + 1, acc, a, p, p', h => by
    by_cases hp : p.isAtEnd = true
    · exact ⟨[], by rw [loop_end hp h]; simp⟩
    · obtain ⟨f', acc1, p1, hf, hs, h'⟩ := loop_step (by simpa using hp) h
      obtain rfl : n = f' := by omega
      obtain ⟨more, hm⟩ := loop_adds n _ _ _ _ h'
      rcases step_cases hs with ⟨st, -, rfl⟩ | ⟨e, p0, u, -, -, rfl⟩
      · exact ⟨more, hm⟩
      · exact ⟨e :: more, by rw [hm]; simp⟩

theorem spot_at {e : Cause} {p' : Parser} (hT : TokensOk T) (hp : p.tokens = T) (he : Err p e p') (hs : SpotIn p' e) :
    SpotAt T p'.current e := by
  have ht : p'.tokens = T := he.tokens.trans hp
  rcases hs with h | h | h | ⟨i, h1, h⟩
  · exact .inl h
  · exfalso
    obtain ⟨i, t, -, -, hi, -, h' | ⟨hk, h'⟩⟩ := he.located
    · rw [h] at h'; cases h'
    · have := hT.string t (List.mem_of_getElem? (by rw [← hp]; exact hi)) hk
      rw [← h', h] at this
      cases this
  · exact .inr (.inl (by rw [← ht]; exact h))
  · exact .inr (.inr ⟨i, h1, by rw [← ht]; exact h⟩)

/-- The errors of a run, and where it stood when it found them. -/
theorem loop_local (hT : TokensOk T) (hb : T.length ≤ env.usizeMax) (hr : RecOk env n r) (hn : 4 * T.length + 4 ≤ n) (hr' : ∀ k, RecNear r (recN env k)) :
    ∀ (f : Nat) (acc : Loop) (p p' : Parser) (a : Loop), Inv T allow acc p → loopFuel (parseStep env r) f acc p = .ok a p' →
      ∃ found : List (Nat × Cause), a.2 = acc.2 ++ found.map Prod.snd ∧ found.Pairwise (fun x y => x.1 < y.1) ∧
        (∀ x ∈ found, p.isAtEnd = false ∧ p.current ≤ x.1 ∧ x.1 < T.length ∧ SpotAt T x.1 x.2) ∧
        ∀ k i c, found[k]? = some (i, c) → ∀ (d f' : Nat) (acc' : Loop) (q q' : Parser) (a' : Loop), acc'.2 = acc.2 →
          Agree (i + 3) p q → loopFuel (parseStep env (recN env d)) f' acc' q = .ok a' q' →
          ∃ more, a'.2 = acc.2 ++ (found.take (k + 1)).map Prod.snd ++ more
  | 0, _, _, _, _, _, h => by cases h
  | f + 1, acc, p, p', a, hi, h => by
    have hstep := parseStep_ok hT hb hr hn hi
    unfold wp at hstep
    by_cases hp : p.isAtEnd = true
    · exact ⟨[], by rw [loop_end hp h]; simp, .nil, by simp, by simp⟩
    · have hp : p.isAtEnd = false := by simpa using hp
      obtain ⟨f0, acc1, p2, hf, hs, h'⟩ := loop_step hp h
      obtain rfl : f = f0 := by omega
      rw [step_body hp, hs] at hstep
      have g : Ready env p := ⟨by rw [hi.tokens]; exact hT, by rw [hi.tokens]; exact hb, by rw [hi.tokens]; exact hi.inb,
        hi.loops, .inr hp⟩
      have hrl : p.rest.length = T.length - p.current := by unfold Parser.rest; rw [hi.tokens, List.length_drop]
      have hdecl := hr.declaration p g (by rw [hrl]; have := hi.inb; omega)
      unfold wp at hdecl
      have hsim := fun d N q (ha : Agree N p q) => (hr' d).declaration.start ha
      have hself := hsim 0 0 p ⟨rfl, rfl, rfl, fun _ _ => rfl⟩
      obtain ⟨found, h1, h2, h3, h4⟩ := loop_local hT hb hr hn hr' f _ p2 p' a hstep.1 h'
      rcases step_cases hs with ⟨st, hd, rfl⟩ | ⟨e, p1, u, hd, hsy, rfl⟩
      · rw [hd] at hself
        have hle := hself.2.1
        refine ⟨found, h1, h2, fun x hx => ⟨hp, by have := (h3 x hx).2.1; omega, (h3 x hx).2.2⟩, ?_⟩
        intro k i c hk d f' acc' q q' a' hacc ha hq
        have hi1 : p2.current ≤ i := (h3 (i, c) (List.mem_of_getElem? hk)).2.1
        obtain ⟨f1, acc2, q2, -, hs', hq'⟩ := loop_step (by rw [agree_isAtEnd ha (by omega)]; exact hp) hq
        have hs2 := hsim d _ _ ha
        rw [hd] at hs2
        have hs2 := hs2.2.2 (by omega)
        rcases step_cases hs' with ⟨st', hd', rfl⟩ | ⟨e', q1, u', hd', hsy', rfl⟩
        · rw [hd'] at hs2
          exact h4 k i c hk d f1 _ q2 q' a' (by exact hacc) hs2.2 hq'
        · rw [hd'] at hs2; exact hs2.elim
      · rw [hd] at hself hdecl
        have hle := hself.2.1
        have htok : p1.tokens = T := hdecl.tokens.trans hi.tokens
        have hinb1 : p1.current < p1.tokens.length := by rw [htok, ← hi.tokens]; exact hdecl.inb
        have hlater := synchronize_ok (env := env) (p := p1) (by rw [htok]; exact hT) hinb1
        unfold wp at hlater
        rw [hsy] at hlater
        obtain ⟨hl1, hl2⟩ := hlater
        have hcur := hl1.cur
        have hlt : ∀ x ∈ found, p1.current < x.1 := by
          intro x hx
          obtain ⟨e1, e2, e3, -⟩ := h3 x hx
          by_cases h5 : p1.isAtEnd = true
          · exfalso
            have : p2.current = p1.current := by
              obtain ⟨ws, e, hT1, he, hws⟩ := hT.eof
              have h6 := hl1.inb
              rw [hl1.tokens, htok, hT1] at h6
              simp at h6
              rcases Nat.lt_or_ge p1.current ws.length with h7 | h7
              · exfalso
                have hpk : p1.peek = some ws[p1.current] := by
                  unfold Parser.peek
                  rw [htok, hT1, List.getElem?_append_left h7, List.getElem?_eq_getElem h7]
                simp only [Parser.isAtEnd, hpk, beq_iff_eq] at h5
                exact hws _ (List.getElem_mem h7) h5
              · omega
            have : p2.isAtEnd = p1.isAtEnd := by
              unfold Parser.isAtEnd Parser.peek
              rw [this, hl1.tokens]
            rw [this, h5] at e1
            cases e1
          · have := hl2 (by simpa using h5)
            omega
        refine ⟨(p1.current, e) :: found, by rw [h1]; simp, List.pairwise_cons.mpr ⟨hlt, h2⟩, ?_, ?_⟩
        · intro x hx
          rcases List.mem_cons.mp hx with rfl | hx
          · exact ⟨hp, hle, by rw [← hi.tokens]; exact hdecl.inb, spot_at hT hi.tokens hdecl hself.2.2.1⟩
          · exact ⟨hp, by have := hlt x hx; omega, (h3 x hx).2.2⟩
        · intro k i c hk d f' acc' q q' a' hacc ha hq
          have hi1 : p1.current ≤ i := by
            rcases List.mem_cons.mp (List.mem_of_getElem? hk) with h | h
            · cases h; exact Nat.le_refl _
            · exact Nat.le_of_lt (hlt _ h)
          obtain ⟨f1, acc2, q2, -, hs', hq'⟩ := loop_step (by rw [agree_isAtEnd ha (by omega)]; exact hp) hq
          have hs2 := hsim d _ _ ha
          rw [hd] at hs2
          have hs2 := hs2.2.2.2 (by omega)
          rcases step_cases hs' with ⟨st', hd', rfl⟩ | ⟨e', q1, u', hd', hsy', rfl⟩
          · rw [hd'] at hs2; exact hs2.elim
          · rw [hd'] at hs2
            obtain ⟨rfl, hs2⟩ := hs2
            cases k with
            | zero =>
              obtain ⟨more, hm⟩ := loop_adds _ _ _ _ _ hq'
              exact ⟨more, by rw [hm, hacc]; simp⟩
            | succ k =>
              have hk : found[k]? = some (i, c) := by simpa using hk
              have h5 := near_synchronize (env := env).start hs2
              rw [hsy] at h5
              have hi2 : p2.current ≤ i := (h3 (i, c) (List.mem_of_getElem? hk)).2.1
              have h5 := h5.2.2 (by omega)
              rw [hsy'] at h5
              obtain ⟨more, hm⟩ := h4 k i c hk d f1 _ q2 q' a' (by simp [hacc]) h5.2 hq'
              exact ⟨more, by rw [hm]; simp⟩

/-- The errors of a parse are found at increasing positions, and those found up to a position depend only on the
tokens up to the second after it. -/
theorem parse_local (hT : TokensOk T) (hb : T.length ≤ env.usizeMax) {cs : List Cause}
    (h : parseTokens env T allow = .done (.error cs)) :
    ∃ found : List (Nat × Cause), found.map Prod.snd = cs ∧ found.Pairwise (fun x y => x.1 < y.1) ∧
      (∀ x ∈ found, x.1 < T.length ∧ SpotAt T x.1 x.2) ∧
      ∀ k i c, found[k]? = some (i, c) → ∀ T', TokensOk T' → T'.length ≤ env.usizeMax → T'.take (i + 3) = T.take (i + 3) →
        ∃ cs', parseTokens env T' allow = .done (.error cs') ∧ cs'.take (k + 1) = cs.take (k + 1) := by
  obtain ⟨sts, es, p, hl, hp⟩ := main_loop (env := env) hT hb allow
  rw [hp] at h
  obtain ⟨ws, e, hT1, he, hws⟩ := hT.eof
  have hpos : 0 < T.length := by rw [hT1]; simp
  have hes : es = cs := by split at h <;> cases h; rfl
  subst hes
  have hinv : Inv T allow ([], []) (.new T allow) :=
    ⟨rfl, rfl, hpos, Nat.le_refl _, ⟨[], rfl, .nil, by simp⟩, fun _ => ⟨rfl, .inl .declarations_nil⟩⟩
  obtain ⟨found, h1, h2, h3, h4⟩ := loop_local hT hb (recN_ok env (depthFor T)) (by unfold depthFor; omega)
    (near_rec env (depthFor T)) _ _ _ _ _ hinv hl
  have h1 : es = found.map Prod.snd := by simpa using h1
  refine ⟨found, h1.symm, h2, fun x hx => (h3 x hx).2.2, ?_⟩
  intro k i c hk T' hT' hb' ht
  obtain ⟨sts', es', p', hl', hp'⟩ := main_loop (env := env) hT' hb' allow
  have ha : Agree (i + 3) (.new T allow) (.new T' allow) := by
    refine ⟨rfl, rfl, rfl, fun j hj => ?_⟩
    show T'[j]? = T[j]?
    have := congrArg (fun l => l[j]?) ht
    simpa [List.getElem?_take, hj] using this
  obtain ⟨more, hm⟩ := h4 k i c hk _ _ _ _ _ _ rfl ha hl'
  have hm : es' = (found.take (k + 1)).map Prod.snd ++ more := by simpa using hm
  have hlen : (found.take (k + 1)).length = k + 1 := by
    rw [List.length_take]
    have := (List.getElem?_eq_some_iff.mp hk).1
    omega
  refine ⟨es', ?_, ?_⟩
  · rw [hp', if_neg]
    rw [hm]
    intro hx
    rw [List.isEmpty_iff, List.append_eq_nil_iff] at hx
    have := congrArg List.length hx.1
    simp at this
    rw [this] at hlen
    simp at hlen
  · rw [hm, h1, List.take_append_of_le_length (by rw [List.length_map, hlen]; exact Nat.le_refl _), List.map_take, List.take_take, Nat.min_self]

end Ws
