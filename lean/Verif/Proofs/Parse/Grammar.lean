import Verif.Spec.Grammar
/-! Facts about the grammar. -/
namespace Ws
open Spec

/-- Nonterminals that derive the empty list. -/
def NT.nullable : NT → Bool
  | .methods | .declarations | .forCondition | .forIncrement => true
  | _ => false

theorem grammar_ne_nil {b l : Bool} {nt : NT} {w : List Token} {v : Tree} (h : Grammar b l nt w v)
    (hn : NT.nullable nt = false) : w ≠ [] := by
  induction h with
  | operand h ih => rename_i p _ _; cases p <;> exact ih rfl
  | _ => first | simp_all [NT.nullable] | (cases hn)

end Ws
