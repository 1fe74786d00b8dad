import Verif.Proofs.Scan.Invariant
/-! Where a cluster of the source lies in a reading. -/
namespace Ws
open Spec Scanner

/-- The piece that contains a given cluster of the source. -/
theorem piece_at {ps : List Piece} {x y : List Str} {g : Str} (h : text ps = x ++ g :: y) :
    ∃ a p b u w, ps = a ++ p :: b ∧ p.text = u ++ g :: w ∧ x = text a ++ u ∧ y = w ++ text b := by
  induction ps generalizing x with
  | nil => simp [Spec.text] at h
  | cons p ps ih =>
    have h' : p.text ++ text ps = x ++ g :: y := by rw [← h]; simp [Spec.text]
    rcases List.append_eq_append_iff.mp h' with ⟨u, h1, h2⟩ | ⟨u, h1, h2⟩
    · obtain ⟨a, q, b, u', w, rfl, e1, e2, e3⟩ := ih h2
      exact ⟨p :: a, q, b, u', w, rfl, e1, by rw [h1, e2]; simp [Spec.text], e3⟩
    · cases u with
      | nil =>
        simp only [List.nil_append] at h2
        obtain ⟨a, q, b, u', w, rfl, e1, e2, e3⟩ := ih (x := []) h2.symm
        simp only [List.append_nil] at h1
        refine ⟨p :: a, q, b, u', w, rfl, e1, ?_, e3⟩
        rw [← h1, show text (p :: a) = p.text ++ text a by simp [Spec.text], List.append_assoc, ← e2,
          List.append_nil]
      | cons k u =>
        simp only [List.cons_append, List.cons.injEq] at h2
        obtain ⟨rfl, rfl⟩ := h2
        exact ⟨[], p, ps, x, u, rfl, h1, by simp [Spec.text], rfl⟩

/-- The clusters that can only occur in strings and comments. -/
theorem only_in_string_or_comment {env : Env} (hA : AsciiLaws env) {before rest : List Str} {p : Piece}
    (hp : PieceOK env before p rest) {g : Str} (hg : g ∈ p.text)
    (ho : g ∈ [['"'], ['\t'], ['\r', '\n']]) :
    (∃ t l, p = .token t l ∧ IsString t l) ∨ ∃ body, p = .comment body := by
  have hpart : ¬ WordPart env g := by
    rintro ⟨c, r, rfl, hc⟩
    have h1 := hA.alphanumeric
    simp only [List.mem_cons, List.not_mem_nil, or_false, List.cons.injEq] at ho
    rcases ho with ⟨rfl, -⟩ | ⟨rfl, -⟩ | ⟨rfl, -⟩ <;>
      · rw [h1 _ (by decide)] at hc; revert hc; decide
  have hstart : ¬ WordStart env g := by
    rintro ⟨c, r, rfl, hc⟩
    have h1 := hA.alphabetic
    simp only [List.mem_cons, List.not_mem_nil, or_false, List.cons.injEq] at ho
    rcases ho with ⟨rfl, -⟩ | ⟨rfl, -⟩ | ⟨rfl, -⟩ <;>
      · rw [h1 _ (by decide)] at hc; revert hc; decide
  have hdigit : ¬ Digit g := by
    simp only [List.mem_cons, List.not_mem_nil, or_false] at ho
    rcases ho with rfl | rfl | rfl <;> decide
  cases p with
  | layout t => simp [Piece.text] at hg
  | fault c l => exact hp.elim
  | comment body => exact .inr ⟨body, rfl⟩
  | blank b =>
    simp only [Piece.text, List.mem_singleton] at hg
    subst hg
    simp only [PieceOK] at hp
    rcases hp with rfl | rfl | rfl <;> simp at ho
  | continuation mid =>
    exfalso
    obtain ⟨n, hm⟩ := hp
    have hmid : g ∈ mid → g = [' '] ∨ g = ['\r'] := by
      intro h
      rcases hm with rfl | rfl
      · exact .inl (List.eq_of_mem_replicate h)
      · rcases List.mem_append.mp h with h | h
        · exact .inl (List.eq_of_mem_replicate h)
        · exact .inr (List.mem_singleton.mp h)
    simp only [Piece.text, List.mem_cons, List.mem_append, List.not_mem_nil, or_false] at hg
    rcases hg with rfl | h | rfl
    · simp at ho
    · rcases hmid h with rfl | rfl <;> simp at ho
    · simp at ho
  | token t l =>
    simp only [Piece.text] at hg
    rcases hp.2.2 with h | h | h | h | h
    · exfalso
      rw [h.chars] at hg
      obtain ⟨c, hc, rfl⟩ := List.mem_map.mp hg
      have hsp := h.spelling
      have key : ∀ ty s, operator ty = some s → '"' ∉ s ∧ '\t' ∉ s := by
        intro ty s hs
        cases ty <;> simp only [operator, Option.some.injEq, reduceCtorEq] at hs <;> subst hs <;> decide
      have := key _ _ hsp
      simp only [List.mem_cons, List.not_mem_nil, or_false, List.cons.injEq, and_true, reduceCtorEq,
        and_false] at ho
      rcases ho with rfl | rfl
      · exact this.1 hc
      · exact this.2 hc
    · exfalso
      obtain ⟨k, r, rfl, hs, hr⟩ := h.start
      rcases List.mem_cons.mp hg with rfl | hg
      · exact hstart hs
      · exact hpart (hr g hg)
    · exfalso
      obtain ⟨whole, frac, -, hw, hf, h | h⟩ := h.shape
      · rw [h.1] at hg; exact hdigit (hw g hg)
      · rw [h.1] at hg
        rcases List.mem_append.mp hg with hg | hg
        · exact hdigit (hw g hg)
        · rcases List.mem_cons.mp hg with rfl | hg
          · simp at ho
          · exact hdigit (hf g hg)
    · exact .inl ⟨t, l, rfl, h⟩
    · exfalso
      rw [h.shape] at hg
      simp only [List.mem_singleton] at hg
      subst hg
      simp at ho

end Ws
