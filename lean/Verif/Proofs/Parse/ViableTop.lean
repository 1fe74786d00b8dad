import Verif.Proofs.Parse.Faults
import Verif.Proofs.Parse.Prefix
import Verif.Proofs.Parse.ViableStmt
/-! What was consumed before an error can be continued: whole programs. -/
namespace Ws
open Spec

variable {env : Env} {T : List Token} {p p' : Parser} {r : Rec} {n k : Nat} {allow : Bool} {c : Cause} {cs : List Cause}

/-- What is known of the first error of a run of the main loop. -/
theorem loop_viable {p₀ : Parser} (hr : RecL env T r) (hr' : ∀ d, RecNear r (recN env d)) (g : On env T p₀) :
    ∀ (f : Nat) (ss : List Stmt) (p p' : Parser) (a : Loop), Run p₀ ss p → loopFuel (parseStep env r) f (ss, []) p = .ok a p' → a.2 = c :: cs →
      ∃ k, Points T k c ∧ Live p₀ .declarations k ∧ p.current ≤ k + 1 ∧ ∀ (d f' : Nat) (ss' : List Stmt) (q q' : Parser) (a' : Loop),
        Agree (k + 4) p q → loopFuel (parseStep env (recN env d)) f' (ss', []) q = .ok a' q' → ∃ more, a'.2 = c :: more
  | 0, _, _, _, _, _, h, _ => by cases h
  | f + 1, ss, p, p', a, hrun, h, hc => by
    by_cases hp : p.isAtEnd = true
    · rw [loop_end hp h] at hc
      cases hc
    · have hp : p.isAtEnd = false := by simpa using hp
      obtain ⟨f0, acc1, p2, hf, hs, h'⟩ := loop_step hp h
      obtain rfl : f = f0 := by omega
      have hstep := run_step hr (hrun.1.choose_spec.1.on g) hrun
      unfold Marks at hstep
      have hsim := fun d N q (ha : Agree N p q) => (hr' d).declaration.start ha
      have hself := hsim 0 0 p ⟨rfl, rfl, rfl, fun _ _ => rfl⟩
      rcases step_cases hs with ⟨st, hd, rfl⟩ | ⟨e, p1, u, hd, hsy, rfl⟩
      · rw [hd] at hstep hself
        obtain ⟨k, h1, h2, h3, h4⟩ := loop_viable hr hr' g f _ p2 p' a hstep h' hc
        have hle := hself.2.1
        refine ⟨k, h1, h2, by omega, ?_⟩
        intro d f' ss' q q' a' ha hq
        obtain ⟨f1, acc2, q2, -, hs', hq'⟩ := loop_step (by rw [agree_isAtEnd ha (by omega)]; exact hp) hq
        have hs2 := hsim d _ _ ha
        rw [hd] at hs2
        have hs2 := hs2.2.2 (by omega)
        rcases step_cases hs' with ⟨st', hd', rfl⟩ | ⟨e', q1, u', hd', hsy', rfl⟩
        · rw [hd'] at hs2
          exact h4 d f1 _ q2 q' a' hs2.2 hq'
        · rw [hd'] at hs2; exact hs2.elim
      · rw [hd] at hstep hself
        obtain ⟨more, hm⟩ := loop_adds _ _ _ _ _ h'
        rw [hc] at hm
        cases hm
        obtain ⟨k, h1, h2, h3⟩ := hstep
        have hle := hself.2.1
        refine ⟨k, h1, h2, by omega, ?_⟩
        intro d f' ss' q q' a' ha hq
        obtain ⟨f1, acc2, q2, -, hs', hq'⟩ := loop_step (by rw [agree_isAtEnd ha (by omega)]; exact hp) hq
        have hs2 := hsim d _ _ ha
        rw [hd] at hs2
        have hs2 := hs2.2.2.2 (by omega)
        rcases step_cases hs' with ⟨st', hd', rfl⟩ | ⟨e', q1, u', hd', hsy', rfl⟩
        · rw [hd'] at hs2; exact hs2.elim
        · rw [hd'] at hs2
          obtain ⟨rfl, hs2⟩ := hs2
          obtain ⟨more, hm⟩ := loop_adds _ _ _ _ _ hq'
          exact ⟨more, by rw [hm]; simp⟩

theorem tree_declarations {l e : Bool} {o : Ends} {w : List Token} {x : Tree} {vs : List Cause}
    (h : Loose allow l o e .declarations w x vs) : e = false ∧ ∃ ss, x = .stmts ss := by
  cases h <;> exact ⟨rfl, _, rfl⟩

theorem repeatedKey_message {ms : List MapEntry} {t : Token} {k : Str} : ∀ c ∈ repeatedKey ms t k, c.message ∈ faultMessages := by
  unfold repeatedKey
  split <;> simp [duplicateKey, faultMessages]

theorem excess_message {ps : List Parameter} {t : Token} : ∀ c ∈ excess ps t, c.message ∈ faultMessages := by
  unfold excess
  split <;> simp [tooManyParameters, faultMessages]

/-- The messages of the faults. -/
theorem loose_messages {l e : Bool} {o : Ends} {sym : Sym} {w : List Token} {x : Tree} {vs : List Cause}
    (h : Loose allow l o e sym w x vs) : ∀ c ∈ vs, c.message ∈ faultMessages := by
  have append : ∀ {vs₁ vs₂ : List Cause}, (∀ c ∈ vs₁, c.message ∈ faultMessages) → (∀ c ∈ vs₂, c.message ∈ faultMessages) →
      ∀ c ∈ vs₁ ++ vs₂, c.message ∈ faultMessages := fun h1 h2 c hc => (List.mem_append.1 hc).elim (h1 c) (h2 c)
  have one : ∀ {v : Cause}, v.message ∈ faultMessages → ∀ c ∈ [v], c.message ∈ faultMessages := by
    intro v hv c hc
    rw [List.mem_singleton.1 hc]
    exact hv
  have nil : ∀ c ∈ ([] : List Cause), c.message ∈ faultMessages := by simp
  induction h with
  | assignment_fault _ _ _ _ _ i1 i2 => exact append (append i1 i2) (one (by simp [invalidTarget, faultMessages]))
  | arguments_fault _ _ _ i1 i2 => exact append i1 (append (vs₁ := [_]) (one (by simp [tooManyArguments, faultMessages])) i2)
  | break_fault => exact one (by simp [breakOutside, faultMessages])
  | continue_fault => exact one (by simp [continueOutside, faultMessages])
  | entries_comma | entries_line | entries => exact append (append ‹_› ‹_›) repeatedKey_message
  | parameters => exact append ‹_› excess_message
  | function => exact append (append ‹_› excess_message) ‹_›
  | _ => first | assumption | exact nil | exact append ‹_› ‹_› | exact append (append ‹_› ‹_›) ‹_› | exact append (append (append ‹_› ‹_›) ‹_›) ‹_›

/-- What was consumed before the first error can be continued, and what follows it after three more tokens does not matter. -/
theorem parse_viable (hT : TokensOk T) (hb : T.length ≤ env.usizeMax) (h : parseTokens env T allow = .done (.error (c :: cs))) :
    ∃ k, Points T k c ∧ Viable allow (T.take k) ∧ ∀ T', TokensOk T' → T'.length ≤ env.usizeMax → T'.take (k + 4) = T.take (k + 4) →
      ∃ cs', parseTokens env T' allow = .done (.error (c :: cs')) := by
  obtain ⟨sts, es, p, hl, hp⟩ := main_loop (env := env) hT hb allow
  rw [hp] at h
  obtain ⟨ws, e, hT1, he, hws⟩ := hT.eof
  have hpos : 0 < T.length := by rw [hT1]; simp
  have hes : es = c :: cs := by split at h <;> cases h; rfl
  subst hes
  by_cases hend : (Parser.new T allow).isAtEnd = true
  · exact absurd (loop_end hend hl) (by simp)
  have g : On env T (.new T allow) := ⟨⟨hT, hb, hpos, Nat.le_refl _, .inr (by simpa using hend)⟩, rfl⟩
  obtain ⟨k, h1, h2, -, h3⟩ := loop_viable (recN_lives env T _) (near_rec env (depthFor T)) g _ _ _ _ _ run_start hl rfl
  refine ⟨k, h1, ?_, ?_⟩
  · obtain ⟨w, s, v, o, h4, rfl, ⟨e', x, vs, h5⟩, h6, h7, -⟩ := h2
    have hr0 : (Parser.new T allow).rest = T := by unfold Parser.rest Parser.new; simp
    rw [hr0] at h4
    have hk : (Parser.new T allow).current + w.length = w.length := by simp [Parser.new]
    rw [hk, h4, List.take_left]
    obtain ⟨rfl, ss, rfl⟩ := tree_declarations h5
    exact ⟨v, o, ss, vs, h5, h6.1, h7⟩
  · intro T' hT' hb' ht
    obtain ⟨sts', es', p', hl', hp'⟩ := main_loop (env := env) hT' hb' allow
    have ha : Agree (k + 4) (.new T allow) (.new T' allow) := by
      refine ⟨rfl, rfl, rfl, fun j hj => ?_⟩
      show T'[j]? = T[j]?
      have := congrArg (fun l => l[j]?) ht
      simpa [List.getElem?_take, hj] using this
    obtain ⟨more, hm⟩ := h3 _ _ _ _ _ _ ha hl'
    simp only at hm
    subst hm
    exact ⟨more, by rw [hp']; rfl⟩

/-- A token list that the grammar with faults derives has no error or a fault as its first one. -/
theorem derived_fault {w : List Token} {eof : Token} {o : Ends} {ss : List Stmt} {vs : List Cause} (hT : TokensOk (w ++ [eof]))
    (hb : (w ++ [eof]).length ≤ env.usizeMax) (h : Loose allow false o false .declarations w (.stmts ss) vs) (ho : o ≠ .brace)
    (he : parseTokens env (w ++ [eof]) allow = .done (.error (c :: cs))) : c.message ∈ faultMessages := by
  cases vs with
  | nil => rw [parseTokens_complete hT hb (loose_plain h rfl) ho] at he; cases he
  | cons c' vs =>
    obtain ⟨cs', h'⟩ := parseTokens_fault hT hb h ho
    rw [h'] at he
    cases he
    exact loose_messages h _ (by simp)

end Ws
