import Verif.Model.Scanner
/-! The loop of `bol_indentation_tokens` (`scanner.rs:346-359`), iteration by iteration, and its
agreement with `outdentLoop`, in which running forever is a value. -/
namespace Ws.Scanner

/-- Where the loop is: at its head, or left (with `found` and the state), or panicked. -/
inductive LoopState where
  | head (s : Scanner)
  | left (found : Bool) (s : Scanner)
  | panicked (msg : String)

/-- `scanner.rs:346-359`: one iteration: the loop condition and the body. -/
def LoopState.next : LoopState → LoopState
  | .head s =>
    -- while !self.indentation.is_empty()
    match s.indentation with
    | [] => .left false s
    | amount :: below =>
      match compare amount s.bolSpaces with
      | .eq => .left true s
      | .gt =>
        match addToken { s with indentation := below } .outdent with
        | .done s => .head s
        | .panic m => .panicked m
        | .diverge => .head s
      | .lt => .head s
  | st => st

/-- `n` iterations. -/
def LoopState.after : Nat → LoopState → LoopState
  | 0, st => st
  | n + 1, st => LoopState.after n st.next

theorem addToken_keeps {s s' : Scanner} {t : TokenType} (h : s.addToken t = .done s') :
    s'.indentation = s.indentation ∧ s'.bolSpaces = s.bolSpaces := by
  simp only [addToken] at h
  cases hs : sliceBytes s.source s.start s.peekIndex with
  | done x => rw [hs] at h; cases h; exact ⟨rfl, rfl⟩
  | panic m => rw [hs] at h; cases h
  | diverge => rw [hs] at h; cases h

theorem addToken_returns (s : Scanner) (t : TokenType) : s.addToken t ≠ .diverge := by
  intro h
  simp only [addToken] at h
  cases hs : sliceBytes s.source s.start s.peekIndex with
  | done x => rw [hs] at h; cases h
  | panic m => rw [hs] at h; cases h
  | diverge =>
    simp only [sliceBytes] at hs
    split at hs
    · split at hs <;> cases hs
    · cases hs

theorem after_left (n : Nat) (b : Bool) (s : Scanner) : LoopState.after n (.left b s) = .left b s := by
  induction n with
  | zero => rfl
  | succ n ih => simpa [LoopState.after, LoopState.next] using ih
theorem after_panicked (n : Nat) (m : String) : LoopState.after n (.panicked m) = .panicked m := by
  induction n with
  | zero => rfl
  | succ n ih => simpa [LoopState.after, LoopState.next] using ih

theorem outdentLoop_adequate (s : Scanner) :
    match outdentLoop s.indentation s with
    | .done (b, s') => ∃ n, LoopState.after n (.head s) = .left b s'
    | .panic m => ∃ n, LoopState.after n (.head s) = .panicked m
    | .diverge => ∀ n, ∃ s', LoopState.after n (.head s) = .head s' := by
  generalize hi : s.indentation = st
  induction st generalizing s with
  | nil => exact ⟨1, by simp [LoopState.after, LoopState.next, hi]⟩
  | cons a below ih =>
    simp only [outdentLoop]
    by_cases h1 : a = s.bolSpaces
    · simp only [h1, if_true]
      exact ⟨1, by simp [LoopState.after, LoopState.next, hi, h1]⟩
    · by_cases h2 : a > s.bolSpaces
      · simp only [h1, h2, if_false, if_true]
        have hc : compare a s.bolSpaces = .gt := Nat.compare_eq_gt.mpr h2
        cases ha : addToken { s with indentation := below } .outdent with
        | panic m =>
          show ∃ n, _
          exact ⟨1, by simp [LoopState.after, LoopState.next, hi, hc, ha]⟩
        | diverge => exact absurd ha (addToken_returns _ _)
        | done s' =>
          have hk := addToken_keeps ha
          have hn : LoopState.next (.head s) = .head s' := by simp [LoopState.next, hi, hc, ha]
          have := ih s' hk.1
          show match outdentLoop below s' with
            | .done (b, s') => _
            | .panic m => _
            | .diverge => _
          cases ho : outdentLoop below s' with
          | done r =>
            rw [ho] at this
            obtain ⟨n, hn'⟩ := this
            exact ⟨n + 1, by simp only [LoopState.after, hn]; exact hn'⟩
          | panic m =>
            rw [ho] at this
            obtain ⟨n, hn'⟩ := this
            exact ⟨n + 1, by simp only [LoopState.after, hn]; exact hn'⟩
          | diverge =>
            rw [ho] at this
            intro n
            cases n with
            | zero => exact ⟨s, rfl⟩
            | succ n => simp only [LoopState.after, hn]; exact this n
      · simp only [h1, h2, if_false]
        have hc : compare a s.bolSpaces = .lt := Nat.compare_eq_lt.mpr (by omega)
        have hn : LoopState.next (.head s) = .head s := by simp [LoopState.next, hi, hc]
        intro n
        refine ⟨s, ?_⟩
        induction n with
        | zero => rfl
        | succ n ih => simp only [LoopState.after, hn]; exact ih

end Ws.Scanner
