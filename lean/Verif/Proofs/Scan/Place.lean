import Verif.Spec.Scan
import Verif.Proofs.Scan.Next
/-! The first cluster of a line. -/
namespace Ws
open Spec Scanner

theorem first_cluster {env : Env} (hA : AsciiLaws env) {before : List Piece} {p : Piece} {rest : List Str}
    (hp : PieceAt env before p rest) (hb : p.begins = true) {g : Str} {r : List Str} (hg : p.text = g :: r) :
    g ∉ [[' '], ['\t'], ['\r'], ['\n'], ['\\']] := by
  have hok := hp.ok
  have six : ∀ x : Str, x ∈ [[' '], ['\t'], ['\r'], ['\n'], ['\\']] → x ∈ [[' '], ['\t'], ['\r'], ['\n'], ['\\'], ['"']] := by
    intro x hx
    simp only [List.mem_cons, List.not_mem_nil, or_false] at hx ⊢
    rcases hx with h | h | h | h | h <;> simp [h]
  cases p with
  | layout t => simp [Piece.begins] at hb
  | blank b => simp [Piece.begins] at hb
  | continuation mid => simp [Piece.begins] at hb
  | comment body => simp only [Piece.text, List.cons.injEq] at hg; rw [← hg.1]; decide
  | fault c l =>
    simp only [Piece.text] at hg
    subst hg
    simp only at hok
    generalize hl : g :: r = l at hok
    cases hok with
    | tab => cases hl; simp [Piece.begins] at hb
    | backslash n cr h1 h2 => cases hl; simp [Piece.begins] at hb
    | unexpected g' h => cases hl; intro hm; exact h.1 (six g hm)
    | unterminated body h1 h2 => cases hl; decide
  | token t l =>
    simp only [Piece.text] at hg
    subst hg
    simp only [PieceOK] at hok
    rcases hok.2.2 with h | h | h | h | h
    · have key : ∀ ty s, operator ty = some s → ∀ c ∈ s, [c] ∉ [[' '], ['\t'], ['\r'], ['\n'], ['\\']] := by
        intro ty s hs
        cases ty <;> simp only [operator, Option.some.injEq, reduceCtorEq] at hs <;> subst hs <;> decide
      have hm : g ∈ t.lexeme.map ([·]) := by rw [← h.chars]; simp
      obtain ⟨c, hc, rfl⟩ := List.mem_map.mp hm
      exact key _ _ h.spelling c hc
    · obtain ⟨k, r', e, hs, -⟩ := h.start
      cases e
      intro hm
      exact (word_plain hA hs).1.2 (six g hm)
    · obtain ⟨whole, frac, hw, hd, -, hl⟩ := h.shape
      obtain ⟨d, wr, rfl⟩ := List.exists_cons_of_ne_nil hw
      have hd := hd d (by simp)
      have e : g = d := by rcases hl with ⟨hl, -⟩ | ⟨hl, -⟩ <;> simp at hl <;> exact hl.1
      subst e
      intro hm
      exact (digit_plain hd).2 (six g hm)
    · obtain ⟨body, e, -⟩ := h.shape
      cases e
      decide
    · simp [Piece.begins, h.kind] at hb

end Ws
