import Verif.Proofs.Scan.Reading
/-! The number of tokens of a reading. -/
namespace Ws
open Spec

/-- What the spaces at the beginning of a line pay for an Indent. -/
def credit (ps : List Piece) : Nat :=
  if (thisLine ps).any Piece.begins then 0 else if spacesOf ps = 0 then 0 else 2

theorem credit_le (ps : List Piece) : credit ps ≤ 2 := by unfold credit; split <;> (try split) <;> omega

theorem credit_begins (ps : List Piece) {p : Piece} (h : p.begins = true) : credit (ps ++ [p]) = 0 := by
  have he : p.endsLine = false := by cases p <;> simp_all [Piece.begins, Piece.endsLine]
  unfold credit
  rw [thisLine_snoc, he]
  simp [h]

theorem credit_ends (ps : List Piece) {p : Piece} (h : p.endsLine = true) : credit (ps ++ [p]) = 0 := by
  unfold credit spacesOf
  rw [thisLine_snoc]
  simp [h]

theorem credit_spaces {ps : List Piece} (h : ¬ LineBegun ps) (hs : 0 < spacesOf ps) : credit ps = 2 := by
  unfold credit
  rw [if_neg, if_neg (by omega)]
  simpa [LineBegun] using h

theorem tokensOf_snoc (done : List Step) (s : Step) : tokensOf (done ++ [s]) = tokensOf done ++ (s.layout ++ s.piece.tok) := by
  simp [tokensOf, Step.toks]

theorem tok_length (p : Piece) : p.tok.length ≤ 1 := by cases p <;> simp [Piece.tok]

/-- The tokens, the open levels and the credit are at most two for each cluster. -/
theorem reading_count {env : Env} (steps : List Step) : ∀ rest, Reading env steps rest →
    (tokensOf steps).length + (levels steps).length + credit (pieces steps) ≤ 2 * (textOf steps).length := by
  induction steps using snocInd with
  | nil => intro rest _; simp [tokensOf, levels, levelsRev, pieces, credit, thisLine, spacesOf]
  | snoc done s ih =>
    intro rest h
    rw [reading_snoc] at h
    obtain ⟨hr, hs⟩ := h
    have ih := ih _ hr
    have hne : 0 < s.piece.text.length := List.length_pos_iff.2 (ok_text_ne hs.piece.ok)
    have ht := tok_length s.piece
    rw [tokensOf_snoc, textOf_snoc, steps_snoc, levels_snoc]
    simp only [List.length_append]
    by_cases hf : First (pieces done) s.piece
    · rw [credit_begins _ hf.1]
      obtain ⟨g, r, -, hm⟩ := hs.first hf
      generalize hl : levels done = lv at hm ih
      generalize hy : s.layout = ly at hm
      generalize s.misfit = mf at hm
      cases hm with
      | same _ => simp; omega
      | joined _ => simp; omega
      | indent _ hk _ =>
        rw [credit_spaces hf.2 (by omega)] at ih
        simp; omega
      | outdent closed below h1 h2 h3 =>
        have : (List.replicate closed.length (⟨.outdent, g, none, none, lineAfter (textOf done), columnAfter (textOf done)⟩ : Token)).any (·.tokenType == .indent) = false := by simp
        rw [this]
        simp at ih ⊢
        omega
      | misfit _ h1 h2 h3 =>
        have : (List.replicate lv.length (⟨.outdent, g, none, none, lineAfter (textOf done), columnAfter (textOf done)⟩ : Token)).any (·.tokenType == .indent) = false := by simp
        rw [this]
        simp at ih ⊢
        omega
    · rw [(hs.other hf).1]
      simp only [List.any_nil, List.length_nil, List.drop_zero, Bool.false_eq_true, if_false]
      cases hp : s.piece with
      | token t l =>
        rw [hp] at hne ht
        have : credit (pieces done ++ [.token t l]) = 0 := by
          by_cases hk : t.tokenType = .terminator
          · exact credit_ends _ (by simp [Piece.endsLine, hk])
          · exact credit_begins _ (by simp [Piece.begins, hk])
        rw [this]
        omega
      | layout t =>
        have := hs.piece.ok
        rw [hp] at this
        exact this.elim
      | _ =>
        rw [hp] at hne ht
        have := credit_le (pieces done ++ [s.piece])
        rw [hp] at this
        simp only [Piece.tok, List.length_nil] at ht ⊢
        omega

/-- The tokens of an accepted source are at most two for each cluster, and Eof. -/
theorem token_bound {env : Env} {steps : List Step} (h : Reading env steps []) :
    (tokensOf steps ++ closing steps).length ≤ 2 * (textOf steps).length + 1 := by
  have := reading_count steps [] h
  simp [closing]
  omega

end Ws
