import Verif.Proofs.Parse.Throws
import Verif.Proofs.Parse.Top
/-! The messages of the errors of a parse. -/
namespace Ws
open Spec

variable {env : Env} {p p' : Parser}

/-- The invariant of the main loop, with the messages. -/
def KnownInv (T : List Token) (allow : Bool) (acc : List Stmt × List Cause) (p : Parser) : Prop :=
  Inv T allow acc p ∧ ∀ c ∈ acc.2, c.message ∈ parserMessages

theorem step_known {r : Rec} (hr : RecThrows r) (hT : Paired p.tokens) {acc : List Stmt × List Cause}
    {s : Step (List Stmt × List Cause) (List Stmt × List Cause)}
    (h : parseStep env r acc p = .ok s p') (ha : ∀ c ∈ acc.2, c.message ∈ parserMessages) :
    match s with
    | .next a => ∀ c ∈ a.2, c.message ∈ parserMessages
    | .stop a => ∀ c ∈ a.2, c.message ∈ parserMessages := by
  unfold parseStep at h
  split at h
  · cases h; exact ha
  · cases hd : r.declaration p with
    | ok st q => rw [hd] at h; cases h; exact ha
    | err e q =>
      rw [hd] at h
      simp only at h
      cases hs : synchronize env q with
      | ok u q' =>
        rw [hs] at h
        cases h
        intro c hc
        rcases List.mem_append.mp hc with hc | hc
        · exact ha c hc
        · rw [List.mem_singleton.mp hc]
          have := hr.declaration.start hT (p := p) ⟨rfl, rfl⟩
          unfold Gets at this
          rw [hd] at this
          exact this
      | err e' q' => rw [hs] at h; cases h
      | panic m => rw [hs] at h; cases h
      | diverge => rw [hs] at h; cases h
    | panic m => rw [hd] at h; cases h
    | diverge => rw [hd] at h; cases h

/-- The main loop ends at the end of the tokens. -/
theorem parse_loop {T : List Token} (hT : TokensOk T) (hC : Paired T) (hb : T.length ≤ env.usizeMax) (allow : Bool) :
    wp (loop (parseStep env (recN env (depthFor T))) ([], [])) (fun acc p' => KnownInv T allow acc p' ∧ p'.isAtEnd = true)
      (fun _ _ => False) (.new T allow) := by
  obtain ⟨ws, e, hT1, he, hws⟩ := hT.eof
  have hpos : 0 < T.length := by rw [hT1]; simp
  refine wp_loop (fun acc p => KnownInv T allow acc p) ?_ ?_
  · intro acc p hi
    have h := parseStep_ok hT hb (recN_ok env (depthFor T)) (by unfold depthFor; omega) hi.1
    unfold wp at *
    cases hx : parseStep env (recN env (depthFor T)) acc p with
    | ok s p' =>
      rw [hx] at h
      have hk := step_known (throws_rec env _) (by rw [hi.1.tokens]; exact hC) hx hi.2
      cases s with
      | next a => exact ⟨⟨h.1, hk⟩, h.2⟩
      | stop a => exact ⟨⟨h.1, hk⟩, h.2⟩
    | err e p' => rw [hx] at h; exact h
    | panic m => rw [hx] at h; exact h
    | diverge => rw [hx] at h; exact h
  · exact ⟨⟨rfl, rfl, hpos, Nat.le_refl _, ⟨[], rfl, .nil, by simp⟩, fun _ => ⟨rfl, .inl .declarations_nil⟩⟩, by simp⟩

theorem parse_known {T : List Token} (hT : TokensOk T) (hC : Paired T) (hb : T.length ≤ env.usizeMax) {allow : Bool} {cs : List Cause}
    (h : parseTokens env T allow = .done (.error cs)) : ∀ c ∈ cs, c.message ∈ parserMessages := by
  obtain ⟨ws, e, hT1, he, hws⟩ := hT.eof
  have hloop := parse_loop (env := env) hT hC hb allow
  unfold parseTokens at h
  unfold wp at hloop
  cases hx : loop (parseStep env (recN env (depthFor T))) ([], []) (.new T allow) with
  | ok acc p =>
    rw [hx] at hloop h
    obtain ⟨acc1, acc2⟩ := acc
    obtain ⟨⟨hi, hk⟩, hend⟩ := hloop
    have hi0 := hi.inb
    have hcur : p.current = ws.length := by
      rcases Nat.lt_or_ge p.current ws.length with h | h
      · exfalso
        have hp : p.peek = some ws[p.current] := by
          unfold Parser.peek
          rw [hi.tokens, hT1, List.getElem?_append_left h, List.getElem?_eq_getElem h]
        simp only [Parser.isAtEnd, hp, beq_iff_eq] at hend
        exact hws _ (List.getElem_mem h) hend
      · rw [hT1] at hi0; simp at hi0; omega
    have hrest : p.rest = [e] := by unfold Parser.rest; rw [hi.tokens, hT1, hcur]; simp
    dsimp only at h
    rw [consume_eof hrest he] at h
    dsimp only at h
    split at h
    · cases h
    · cases h; exact hk
  | err e p => rw [hx] at hloop; exact hloop.elim
  | panic m => rw [hx] at hloop; exact hloop.elim
  | diverge => rw [hx] at hloop; exact hloop.elim

end Ws
