import Verif.Model.Token
/-! Specification of the indentation of lines. -/
namespace Ws.Spec
open Ws

/-- A position at which a line starts, given by what is before it. -/
def LineStart (before : List Str) : Prop := before = [] ∨ ∃ b, before = b ++ [['\n']]

/-- The spaces before the first other cluster of a line. A tab, a carriage return and a backslash
do not end the indentation; spaces directly after a backslash are not counted. -/
def leadingSpaces (afterBackslash : Bool) : List Str → Nat
  | [] => 0
  | g :: r =>
    if g = [' '] then (if afterBackslash then 0 else 1) + leadingSpaces afterBackslash r
    else if g = ['\t'] then leadingSpaces false r
    else if g = ['\r'] then leadingSpaces false r
    else if g = ['\\'] then leadingSpaces true r
    else 0

/-- The indentation of the line at the start of the clusters, up to the limit of `u16`. -/
def indentation (line : List Str) : Nat := min (leadingSpaces false line) u16Max

/-- There are three lines, in this order: one that is indented, a deeper one, and one whose indentation
lies strictly between theirs. -/
def HasBadOutdent (cs : List Str) : Prop :=
  ∃ before₁ line₁ before₂ line₂ before₃ line₃,
    cs = before₁ ++ line₁ ∧ cs = before₂ ++ line₂ ∧ cs = before₃ ++ line₃ ∧
    LineStart before₁ ∧ LineStart before₂ ∧ LineStart before₃ ∧
    before₁.length < before₂.length ∧ before₂.length < before₃.length ∧
    0 < indentation line₁ ∧ indentation line₁ < indentation line₃ ∧
    indentation line₃ < indentation line₂

end Ws.Spec
