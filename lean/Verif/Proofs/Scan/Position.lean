import Verif.Spec.Lexical
import Verif.Proofs.Scan.StepEq
namespace Ws
open Spec

theorem satInc16_min (n : Nat) : satInc16 (min n u16Max) = min (n + 1) u16Max := by
  simp only [satInc16]; split <;> omega

theorem satInc32_min (n : Nat) : satInc32 (min n u32Max) = min (n + 1) u32Max := by
  simp only [satInc32]; split <;> omega

theorem lineAfter_snoc (pre : List Str) (g : Str) :
    lineAfter (pre ++ [g]) = if g = ['\n'] then satInc32 (lineAfter pre) else lineAfter pre := by
  by_cases h : g = ['\n']
  · simp [lineAfter, List.count_append, h, satInc32_min, Nat.add_assoc]
  · simp [lineAfter, List.count_append, h]

theorem columnAfter_snoc (pre : List Str) (g : Str) :
    columnAfter (pre ++ [g]) = if g = ['\n'] then 1 else satInc16 (columnAfter pre) := by
  by_cases h : g = ['\n']
  · simp only [columnAfter, h]; simp; decide
  · simp [columnAfter, h, satInc16_min, Nat.add_assoc]

theorem posThrough_after (pre l : List Str) :
    posThrough (lineAfter pre, columnAfter pre) l = (lineAfter (pre ++ l), columnAfter (pre ++ l)) := by
  induction l generalizing pre with
  | nil => simp [posThrough]
  | cons g l ih =>
    have h1 := lineAfter_snoc pre g
    have h2 := columnAfter_snoc pre g
    simp only [posThrough]
    rw [List.append_cons]
    split
    · next h =>
      rw [if_pos h] at h1 h2
      rw [← h1, ← h2, ih]
    · next h =>
      rw [if_neg h] at h1 h2
      rw [← h1, ← h2, ih]

theorem addCol_after (pre l : List Str) (h : ['\n'] ∉ l) :
    addCol (columnAfter pre) l.length = columnAfter (pre ++ l) ∧ lineAfter (pre ++ l) = lineAfter pre := by
  induction l generalizing pre with
  | nil => simp [addCol]
  | cons g l ih =>
    have hg : g ≠ ['\n'] := fun e => h (by simp [e])
    have := ih (pre ++ [g]) (fun e => h (by simp [e]))
    rw [List.append_cons, List.length_cons, addCol]
    rw [lineAfter_snoc, columnAfter_snoc, if_neg hg, if_neg hg] at this
    exact this

/-- The position of the state is that of the text read. -/
def V.PosOK (v : V) : Prop := v.line = lineAfter v.pre ∧ v.column = columnAfter v.pre

theorem V.PosOK.skip {v : V} (h : v.PosOK) {l : List Str} (hl : ['\n'] ∉ l) : (v.skip l).PosOK := by
  have := addCol_after v.pre l hl
  exact ⟨by simp [V.skip, this.2, h.1], by simp [V.skip, h.2, this.1]⟩

theorem V.PosOK.skipLines {v : V} (h : v.PosOK) (l : List Str) : (v.skipLines l).PosOK := by
  have := posThrough_after v.pre l
  rw [← h.1, ← h.2] at this
  simp only [V.PosOK, V.skipLines, this, and_self]

theorem V.PosOK.congr {v w : V} (h : v.PosOK) (h1 : w.line = v.line) (h2 : w.column = v.column)
    (h3 : w.pre = v.pre) : w.PosOK := by
  simp only [V.PosOK, h1, h2, h3]; exact h

end Ws
