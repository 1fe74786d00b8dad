import Verif.Spec.Alphabet
import Verif.Proofs.Scan.Next
import Verif.Proofs.Scan.Respell
import Verif.Proofs.Scan.Insert
/-! The clusters that pieces are made of. -/
namespace Ws
open Spec Scanner

theorem letter_piece {env : Env} (hA : AsciiLaws env) {before rest : List Str} {p : Piece}
    (hp : PieceOK env before p rest) {g : Str} (hg : g ∈ p.text) :
    ((∃ t l, p = .token t l ∧ IsString t l) ∨ ∃ body, p = .comment body) ∨ Letter env g := by
  cases p with
  | layout t => simp [Piece.text] at hg
  | fault c l => exact hp.elim
  | comment body => exact .inl (.inr ⟨body, rfl⟩)
  | blank b =>
    simp only [Piece.text, List.mem_singleton] at hg
    subst hg
    simp only [PieceOK] at hp
    rcases hp with rfl | rfl | rfl <;> exact .inr (.inl ⟨_, by decide, rfl⟩)
  | continuation mid =>
    obtain ⟨n, hm⟩ := hp
    have hmid : g ∈ mid → g = [' '] ∨ g = ['\r'] := by
      intro h
      rcases hm with rfl | rfl
      · exact .inl (List.eq_of_mem_replicate h)
      · rcases List.mem_append.mp h with h | h
        · exact .inl (List.eq_of_mem_replicate h)
        · exact .inr (List.mem_singleton.mp h)
    simp only [Piece.text, List.mem_cons, List.mem_append, List.not_mem_nil, or_false] at hg
    rcases hg with rfl | h | rfl
    · exact .inr (.inl ⟨_, by decide, rfl⟩)
    · rcases hmid h with rfl | rfl <;> exact .inr (.inl ⟨_, by decide, rfl⟩)
    · exact .inr (.inl ⟨_, by decide, rfl⟩)
  | token t l =>
    simp only [Piece.text] at hg
    rcases hp.2.2 with h | h | h | h | h
    · rw [h.chars] at hg
      obtain ⟨c, hc, rfl⟩ := List.mem_map.mp hg
      have key : ∀ ty s, operator ty = some s → ∀ c ∈ s, c ∈ signs := by
        intro ty s hs
        cases ty <;> simp only [operator, Option.some.injEq, reduceCtorEq] at hs <;> subst hs <;> decide
      exact .inr (.inl ⟨c, key _ _ h.spelling c hc, rfl⟩)
    · obtain ⟨k, r, rfl, hs, hr⟩ := h.start
      rcases List.mem_cons.mp hg with rfl | hg
      · exact .inr (.inr (.inl hs))
      · exact .inr (.inr (.inr (hr g hg)))
    · obtain ⟨whole, frac, -, hw, hf, h | h⟩ := h.shape
      · rw [h.1] at hg; exact .inr (.inr (.inr (digit_part hA (hw g hg))))
      · rw [h.1] at hg
        rcases List.mem_append.mp hg with hg | hg
        · exact .inr (.inr (.inr (digit_part hA (hw g hg))))
        · rcases List.mem_cons.mp hg with rfl | hg
          · exact .inr (.inl ⟨_, by decide, rfl⟩)
          · exact .inr (.inr (.inr (digit_part hA (hf g hg))))
    · exact .inl (.inl ⟨t, l, rfl, h⟩)
    · rw [h.shape] at hg
      simp only [List.mem_singleton] at hg
      subst hg
      exact .inr (.inl ⟨_, by decide, rfl⟩)

/-- One word is a source. -/
theorem scan_word {env : Env} (hA : AsciiLaws env) {g : Str} (hg : WordStart env g) {r : List Str}
    (hr : ∀ h ∈ r, WordPart env h) : ∃ ts, scanClusters env (g :: r) = .done (.ok ts) := by
  obtain ⟨⟨h1, h2⟩, h3⟩ := word_plain hA hg
  have hd : isDigit g = false := by
    rw [← Bool.not_eq_true]
    intro h
    exact h3 ((isDigit_iff g).mp h)
  have ha : isAlpha env g = true := by
    obtain ⟨c, r, rfl, h⟩ := hg
    simpa [isAlpha] using h
  have ht : r.takeWhile (isAlnum env) = r := by
    rw [← List.append_nil r]
    refine (takeWhile_exact (fun x hx => ?_) (by simp)).1.trans (by simp)
    obtain ⟨c, r, rfl, h⟩ := hr x hx
    simpa [isAlnum] using h
  have hl : lexeme env false g r = .ident r := by
    rw [lexeme_plain h1 h2, hd, ha, ht]; rfl
  have hstep : ∃ w, vstep env (V.init (g :: r)) = .done w ∧ w.rest = [] ∧ w.errors = [] := by
    refine ⟨_, by simp only [vstep, V.init, hl, V.bol]; rfl, ?_, ?_⟩ <;> simp [V.flags, V.skip, V.push]
  obtain ⟨w, e1, e2, e3⟩ := hstep
  rw [scan_finish, outcome_next (by simp [V.init]) e1, outcome_nil e2]
  exact ⟨w.tokens ++ w.closing, by simp only [finish, bind_def, Outcome.bind, e3]; rfl⟩

end Ws
