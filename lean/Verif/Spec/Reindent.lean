import Verif.Model.Driver
import Verif.Spec.Insert
/-! Other amounts of indentation. The source is walked through once, as an editor would do it; the only
thing to know about the language is where strings and comments are, because a line that begins inside a
string is not indented. -/
namespace Ws.Spec
open Ws

/-- Where in a source: at the beginning of a line after so many spaces, in the code of a line, in the code
directly after a slash, in a string, in a comment. -/
inductive Where
  | margin (spaces : Nat)
  | code
  | slash
  | string
  | comment

/-- Where one is after a cluster, if that is not a space at the beginning of a line. -/
def Where.after : Where → Str → Where
  | .string, g => if g = ['"'] then .code else .string
  | .comment, g => if g = ['\n'] then .margin 0 else .comment
  | .slash, g =>
    if g = ['\n'] then .margin 0 else if g = ['"'] then .string else if g = ['/'] then .comment else .code
  | _, g => if g = ['\n'] then .margin 0 else if g = ['"'] then .string else if g = ['/'] then .slash else .code

/-- The source with `f n` spaces at the beginning of the lines that had `n`. -/
def reindent (f : Nat → Nat) : Where → List Str → List Str
  | .margin n, [] => spaces (f n)
  | _, [] => []
  | .margin n, g :: cs =>
    if g = [' '] then reindent f (.margin (n + 1)) cs
    else spaces (f n) ++ g :: reindent f (Where.code.after g) cs
  | w, g :: cs => g :: reindent f (w.after g) cs

/-- The lines that are not blank: how many spaces are at the beginning, and what comes then. -/
def margins : Where → List Str → List (Nat × Str)
  | _, [] => []
  | .margin n, g :: cs =>
    if g = [' '] then margins (.margin (n + 1)) cs
    else if g = ['\n'] then margins (.margin 0) cs
    else (n, g) :: margins (Where.code.after g) cs
  | w, g :: cs => margins (w.after g) cs

/-- `f` keeps the order of the indentations of these lines, none of which begins with a tab, a carriage
return or a backslash, or is too far to the right to be counted. -/
structure KeepsOrder (f : Nat → Nat) (lines : List (Nat × Str)) : Prop where
  zero : f 0 = 0
  indented : ∀ a ∈ lines, 0 < a.1 → 0 < f a.1
  order : ∀ a ∈ lines, ∀ b ∈ lines, a.1 < b.1 → f a.1 < f b.1
  begins : ∀ a ∈ lines, a.2 ∉ [['\t'], ['\r'], ['\\']]
  width : ∀ a ∈ lines, a.1 ≤ 65535 ∧ f a.1 ≤ 65535

end Ws.Spec
