import Verif.Model.Ascii
import Verif.Spec.EnvLaws
/-! `asciiEnv` satisfies the laws that the properties assume. -/
namespace Ws
open Spec

theorem asciiSegment_laws (s : Str) : (asciiSegment s).flatten = s ∧ ∀ g ∈ asciiSegment s, g ≠ [] := by
  fun_induction asciiSegment s with
  | case1 => simp
  | case2 rest ih => simpa using ih
  | case3 c rest _ ih => simpa using ih

theorem isDigit_of_range {c : Char} (h : '0' ≤ c ∧ c ≤ '9') : c.isDigit = true := by
  simp only [Char.isDigit, Bool.and_eq_true, decide_eq_true_eq]
  exact ⟨h.1, h.2⟩

theorem takeWhile_of_all {α : Type} {p : α → Bool} {a b : List α} (ha : ∀ x ∈ a, p x = true)
    (hb : ∀ x, b.head? = some x → p x = false) :
    (a ++ b).takeWhile p = a ∧ (a ++ b).dropWhile p = b := by
  induction a with
  | nil =>
    cases b with
    | nil => simp
    | cons x b => simp [hb x rfl]
  | cons x a ih =>
    have := ih fun y hy => ha y (by simp [hy])
    simp [ha x (by simp), this]

theorem parseDecimal_number : ∀ s, NumberText s → parseDecimal s ≠ none := by
  rintro s ⟨whole, frac, hw, hwd, hfd, h⟩
  have hw' : whole.isEmpty = false := by cases whole <;> simp_all
  rcases h with rfl | ⟨rfl, hf⟩
  · obtain ⟨h1, h2⟩ := takeWhile_of_all (p := Char.isDigit) (a := s) (b := [])
      (fun c hc => isDigit_of_range (hwd c hc)) (by simp)
    rw [List.append_nil] at h1 h2
    simp [parseDecimal, h1, h2, hw']
  · obtain ⟨h1, h2⟩ := takeWhile_of_all (p := Char.isDigit) (a := whole) (b := '.' :: frac)
      (fun c hc => isDigit_of_range (hwd c hc)) (by simp)
    have hf' : frac.isEmpty = false := by cases frac <;> simp_all
    have ha : frac.all Char.isDigit = true := by
      rw [List.all_eq_true]; exact fun c hc => isDigit_of_range (hfd c hc)
    simp only [parseDecimal, h1, h2, hw', hf', ha]
    simp

theorem asciiEnv_laws : EnvLaws asciiEnv where
  alphabetic _ _ := rfl
  alphanumeric _ _ := rfl
  joined s := (asciiSegment_laws s).1
  nonempty s := (asciiSegment_laws s).2
  number := parseDecimal_number

end Ws
