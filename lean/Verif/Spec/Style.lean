import Verif.Model.Print
import Verif.Spec.EnvLaws
/-! What is known of `{:?}` of an `f64`. -/
namespace Ws.Spec
open Ws

/-- A number as `{:?}` writes it: with digits and a point or an exponent, or infinity. (There is no sign,
and no `NaN`, in a program.) -/
def FloatText (t : Str) : Prop :=
  t = c!"inf" ∨ (∀ c ∈ t, c.isDigit ∨ c ∈ c!".e-") ∧ (∃ d r, t = d :: r ∧ d.isDigit) ∧ ('.' ∈ t ∨ 'e' ∈ t)

/-- Of the values that numbers in programs have: they are written like numbers, and different ones
differently. -/
structure StyleLaws (env : Env) (st : Style) : Prop where
  number : ∀ s x, NumberText s → env.parseF64 s = some x → FloatText (st.float x)
  differ : ∀ s x s' x', NumberText s → env.parseF64 s = some x → NumberText s' → env.parseF64 s' = some x' →
    st.float x = st.float x' → x = x'

/-- The value of a number in a program. -/
def Written (env : Env) (x : F64) : Prop := ∃ s, NumberText s ∧ env.parseF64 s = some x

end Ws.Spec
