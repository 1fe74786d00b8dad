import Verif.Spec.Lexical
/-! What the properties assume of the world outside the repository. `asciiEnv` (`Model/Ascii.lean`)
satisfies all of it. -/
namespace Ws.Spec
open Ws

/-- The text of a number: digits, or digits, a dot and digits. -/
def NumberText (s : Str) : Prop :=
  ∃ whole frac : Str, whole ≠ [] ∧ (∀ c ∈ whole, '0' ≤ c ∧ c ≤ '9') ∧ (∀ c ∈ frac, '0' ≤ c ∧ c ≤ '9') ∧
    (s = whole ∨ s = whole ++ '.' :: frac ∧ frac ≠ [])

/-- `str::parse::<f64>` accepts decimal numbers. -/
def NumberLaw (env : Env) : Prop := ∀ s, NumberText s → env.parseF64 s ≠ none

/-- Grapheme segmentation cuts the source into non-empty clusters. -/
structure SegmentLaws (env : Env) : Prop where
  joined : ∀ source, (env.segment source).flatten = source
  nonempty : ∀ source, ∀ g ∈ env.segment source, g ≠ []

structure EnvLaws (env : Env) : Prop extends AsciiLaws env, SegmentLaws env where
  number : NumberLaw env

end Ws.Spec
