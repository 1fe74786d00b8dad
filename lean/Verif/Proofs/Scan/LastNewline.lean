import Verif.Proofs.Scan.Space
import Verif.Spec.Scan
/-! A newline after the end of a source. -/
namespace Ws
open Spec

variable {env : Env} {steps : List Spec.Step}

theorem newline_no_part (hA : AsciiLaws env) : ¬ WordPart env ['\n'] := by
  rintro ⟨c, r, e, h⟩
  cases e
  rw [hA.alphanumeric _ (by decide)] at h
  revert h; decide

theorem head_newline {rest : List Str} {g : Str} (h : (rest ++ [['\n']]).head? = some g) : rest.head? = some g ∨ g = ['\n'] := by
  cases rest with
  | nil => right; simpa using h.symm
  | cons a r => left; simpa using h

/-- A piece is the same if there is a newline at the end of the source. -/
theorem piece_newline (hA : AsciiLaws env) {before rest : List Str} {p : Piece} (hp : ∀ t, p ≠ .layout t) (h : PieceOK env before p rest) :
    PieceOK env before p (rest ++ [['\n']]) := by
  cases p with
  | layout t => exact absurd rfl (hp t)
  | blank g => exact h
  | comment body =>
    refine ⟨h.1, .inr ?_⟩
    rcases h.2 with rfl | h
    · rfl
    · cases rest with
      | nil => cases h
      | cons a r => simpa using h
  | continuation mid => exact h
  | fault c l => exact h
  | token t l =>
    refine ⟨h.1, h.2.1, ?_⟩
    rcases h.2.2 with h | h | h | h | h
    · refine .inl ⟨h.spelling, h.chars, h.noString, h.noFloat, fun ht he => ?_, fun ht he => ?_⟩
      · rcases head_newline he with he | he
        · exact h.munch ht he
        · revert he; decide
      · rcases head_newline he with he | he
        · exact h.noComment ht he
        · revert he; decide
    · refine .inr (.inl ⟨h.start, fun g hg => ?_, h.kind, h.noString, h.noFloat⟩)
      rcases head_newline hg with he | rfl
      · exact h.munch g he
      · exact newline_no_part hA
    · refine .inr (.inr (.inl ⟨h.kind, ?_, fun g hg => ?_, h.value, h.valid, h.noString⟩))
      · obtain ⟨whole, frac, h1, h2, h3, h4⟩ := h.shape
        refine ⟨whole, frac, h1, h2, h3, ?_⟩
        rcases h4 with ⟨rfl, h5, h6⟩ | h4
        · refine .inl ⟨rfl, h5, fun r hr g hg => ?_⟩
          cases rest with
          | nil => simp at hr
          | cons a rest =>
            simp only [List.cons_append, List.cons.injEq] at hr
            obtain ⟨rfl, rfl⟩ := hr
            rcases head_newline hg with he | rfl
            · exact h6 rest rfl g he
            · decide
        · exact .inr h4
      · rcases head_newline hg with he | rfl
        · exact h.munch g he
        · decide
    · exact .inr (.inr (.inr (.inl h)))
    · exact .inr (.inr (.inr (.inr h)))

/-- The step of a newline at the end of a statement. -/
def newlineStep (steps : List Spec.Step) : Spec.Step :=
  ⟨[], [], .token ⟨.terminator, ['\n'], none, none, lineAfter (textOf steps), columnAfter (textOf steps)⟩ [['\n']]⟩

/-- A newline at the end of a source. -/
theorem reading_newline (hA : AsciiLaws env) (hr : Reading env steps []) (hc : causesOf steps = []) (hd : StatementDone (pieces steps)) :
    Reading env (steps ++ [newlineStep steps]) [] := by
  intro a s b e
  rcases List.eq_nil_or_concat b with rfl | ⟨b, x, rfl⟩
  · obtain ⟨rfl, e'⟩ := List.append_inj' e rfl
    simp only [List.cons.injEq, and_true] at e'
    subst e'
    have hf : ¬ Spec.First (pieces steps) (newlineStep steps).piece := by rintro ⟨h, -⟩; cases h
    refine ⟨⟨?_, ?_, ?_, ?_, ?_⟩, fun h => absurd h hf, fun _ => ⟨rfl, rfl⟩⟩
    · exact ⟨rfl, ⟨rfl, rfl⟩, .inr (.inr (.inr (.inr ⟨rfl, rfl, rfl, rfl⟩)))⟩
    · intro h; cases h
    · intro t l h _; exact hd
    · intro t l h ht; cases h; cases ht
    · intro t l h ht; cases h; cases ht
  · rw [List.concat_eq_append, ← List.cons_append, ← List.append_assoc] at e
    obtain ⟨rfl, e'⟩ := List.append_inj' e rfl
    simp only [List.cons.injEq, and_true] at e'
    subst e'
    have h := hr a s b rfl
    rw [List.append_nil] at h
    refine ⟨⟨?_, h.piece.newline, h.piece.terminator, h.piece.attached, h.piece.detached⟩, h.first, h.other⟩
    have hok := h.piece.ok
    have ht : textOf (b.concat (newlineStep (a ++ s :: b))) ++ [] = textOf b ++ [['\n']] := by
      simp [textOf_append]; simp [textOf, pieces, text, newlineStep, Piece.text]
    rw [ht]
    revert hok
    cases hp : s.piece with
    | layout t => exact id
    | fault c l =>
      have : c ∈ causesOf (a ++ s :: b) := by
        simp [causesOf, Step.causes, hp, Piece.causes]
      rw [hc] at this; cases this
    | token t l => intro h; exact piece_newline hA (by simp) h
    | blank g => intro h; exact piece_newline hA (by simp) h
    | comment g => intro h; exact piece_newline hA (by simp) h
    | continuation g => intro h; exact piece_newline hA (by simp) h

theorem levels_newline : levels (steps ++ [newlineStep steps]) = levels steps := by
  simp [levels, levelsRev, newlineStep]

end Ws
