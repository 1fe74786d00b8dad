import Verif.Proofs.Scan.Stuck
/-! Errors of a scan. -/
namespace Ws
open Spec Scanner

theorem lineAfter_append_le (a b : List Str) : lineAfter a ≤ lineAfter (a ++ b) := by
  simp only [lineAfter, List.count_append]; omega

theorem lineAfter_pos (a : List Str) : 1 ≤ lineAfter a := by
  simp only [lineAfter, u32Max]; omega

/-- The lines of the errors lie between two bounds and do not decrease. -/
def ErrLines (lo hi : Nat) (es : List Cause) : Prop :=
  (es.map (·.loc.line)).Pairwise (· ≤ ·) ∧ ∀ e ∈ es, lo ≤ e.loc.line ∧ e.loc.line ≤ hi

theorem ErrLines.append {l m h : Nat} {a b : List Cause} (ha : ErrLines l m a) (hb : ErrLines m h b)
    (hlm : l ≤ m) (hmh : m ≤ h) : ErrLines l h (a ++ b) := by
  constructor
  · rw [List.map_append, List.pairwise_append]
    refine ⟨ha.1, hb.1, ?_⟩
    intro x hx y hy
    obtain ⟨e, he, rfl⟩ := List.mem_map.mp hx
    obtain ⟨f, hf, rfl⟩ := List.mem_map.mp hy
    exact Nat.le_trans (ha.2 e he).2 (hb.2 f hf).1
  · intro e he
    rcases List.mem_append.mp he with he | he
    · exact ⟨(ha.2 e he).1, Nat.le_trans (ha.2 e he).2 hmh⟩
    · exact ⟨Nat.le_trans hlm (hb.2 e he).1, (hb.2 e he).2⟩

theorem ErrLines.nil (l h : Nat) : ErrLines l h [] := ⟨by simp, by simp⟩
theorem ErrLines.one {l h : Nat} (e : Cause) (h1 : l ≤ e.loc.line) (h2 : e.loc.line ≤ h) :
    ErrLines l h [e] := ⟨by simp, by simp [h1, h2]⟩

theorem bol_err_lines {v w : V} {g : Str} (h : v.bol g = .done w) :
    ∃ es, w.errors = v.errors ++ es ∧ ErrLines v.line v.line es := by
  simp only [V.bol] at h
  split at h
  · cases h; exact ⟨[], by simp, .nil _ _⟩
  split at h
  · cases h; exact ⟨[], by simp, .nil _ _⟩
  split at h
  · split at h <;> cases h <;> exact ⟨[], by simp, .nil _ _⟩
  · split at h
    · cases h
      refine ⟨_, rfl, ?_⟩
      split
      · exact .one _ (Nat.le_refl _) (Nat.le_refl _)
      · exact .nil _ _
    · cases h
    · cases h

theorem vstep_err_lines {env : Env} (hA : AsciiLaws env) {v w : V} (hpos : v.PosOK)
    (h : vstep env v = .done w) :
    ∃ es, w.errors = v.errors ++ es ∧ ErrLines v.line w.line es := by
  have hw := (vstep_pos hA hpos h).1
  have hv := hpos.1
  have hle : v.line ≤ w.line := by
    rw [hw, hv]
    cases hr : v.rest with
    | nil => simp only [vstep, hr] at h; cases h; exact Nat.le_refl _
    | cons g cs =>
      rw [(vstep_moves hr h).1]
      exact lineAfter_append_le _ _
  cases hr : v.rest with
  | nil => simp only [vstep, hr] at h; cases h; exact ⟨[], by simp, .nil _ _⟩
  | cons g cs =>
    simp only [vstep, hr] at h
    generalize lexeme env v.abut g cs = k at h
    cases k with
    | backslash taken nl =>
      simp only at h
      split at h <;> cases h
      · exact ⟨[], by simp [V.flags, V.resetLine, V.skip], .nil _ _⟩
      · exact ⟨_, rfl, .one _ (Nat.le_refl _) hle⟩
    | tab => cases h; exact ⟨_, rfl, .one _ (Nat.le_refl _) hle⟩
    | space | cr => cases h; exact ⟨[], by simp [V.flags, V.skip], .nil _ _⟩
    | newline =>
      simp only at h
      split at h <;> cases h <;> exact ⟨[], by simp [V.flags, V.resetLine, V.skip, V.push], .nil _ _⟩
    | num taken =>
      obtain ⟨w0, hb, h⟩ := Outcome.bind_done h
      split at h
      · obtain ⟨es, he, hl⟩ := bol_err_lines hb
        cases h; exact ⟨es, he, by simpa using hl.append (.nil _ _) (Nat.le_refl _) hle⟩
      · cases h
    | unexpected =>
      obtain ⟨w0, hb, h⟩ := Outcome.bind_done h
      obtain ⟨es, he, hl⟩ := bol_err_lines hb
      cases h
      simp only [V.flags, V.err, V.skip, V.skipLines, he, List.append_assoc]
      exact ⟨_, rfl, hl.append (.one _ (Nat.le_refl _) hle) (Nat.le_refl _) hle⟩
    | unterminated =>
      obtain ⟨w0, hb, h⟩ := Outcome.bind_done h
      obtain ⟨es, he, hl⟩ := bol_err_lines hb
      cases h
      refine ⟨es ++ [_], by simp only [V.flags, V.err, V.skip, V.skipLines, he, List.append_assoc]; rfl,
        hl.append (.one _ hle (Nat.le_refl _)) (Nat.le_refl _) hle⟩
    | _ =>
      obtain ⟨w0, hb, h⟩ := Outcome.bind_done h
      obtain ⟨es, he, hl⟩ := bol_err_lines hb
      cases h; exact ⟨es, he, by simpa using hl.append (.nil _ _) (Nat.le_refl _) hle⟩

theorem Reach.err_lines {env : Env} (hA : AsciiLaws env) {cs : List Str} {v : V} (h : Reach env cs v) :
    ErrLines 1 v.line v.errors := by
  induction h with
  | init => exact .nil _ _
  | step hv hr hs ih =>
    have hpos := (hv.pos hA).2 (.inr hr)
    obtain ⟨es, he, hl⟩ := vstep_err_lines hA hpos hs
    rw [he]
    refine ih.append hl ?_ ?_
    · rw [hpos.1]; exact lineAfter_pos _
    · have hw := (vstep_pos hA hpos hs).1
      rw [hw, hpos.1]
      obtain ⟨g, r, hr⟩ := List.exists_cons_of_ne_nil hr
      rw [(vstep_moves hr hs).1]
      exact lineAfter_append_le _ _

theorem scan_err_lines {env : Env} (hA : AsciiLaws env) {cs : List Str} {es : List Cause}
    (h : scanClusters env cs = .done (.error es)) : es ≠ [] ∧ ErrLines 1 (lineAfter cs) es := by
  obtain ⟨w, hw, hr, he, hne⟩ := scan_err h
  have := hw.err_lines hA
  rw [he, (hw.pos hA).1] at this
  have hp := hw.pre_rest
  rw [hr, List.append_nil] at hp
  rw [hp] at this
  exact ⟨hne, this⟩

end Ws
