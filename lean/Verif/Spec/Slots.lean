import Verif.Spec.Scoping
/-! The slots that a program uses, by scope. -/
namespace Ws.Spec
open Ws

/-- A use or declaration of a variable: the number of the scope that its location says, the name, and
the slot. -/
structure Ref where
  scope : Option Nat
  name : Str
  slot : Nat
  deriving DecidableEq

/-- The uses and declarations among events. Scopes are numbered in the order in which they begin, from
`next` on; `open_` are the numbers of the scopes that have begun and not ended, the innermost first. -/
def refs (next : Nat) (open_ : List Nat) : List Event → List Ref
  | [] => []
  | .enter _ :: es => refs (next + 1) (next :: open_) es
  | .leave :: es => refs next open_.tail es
  | .declare _ none :: es => refs next open_ es
  | .declare x (some slot) :: es => ⟨open_[0]?, x, slot.index⟩ :: refs next open_ es
  | .use x cell :: es => ⟨open_[cell.distance]?, x, cell.index⟩ :: refs next open_ es

/-- The next number and the open scopes after events. -/
def openAfter (next : Nat) (open_ : List Nat) : List Event → Nat × List Nat
  | [] => (next, open_)
  | .enter _ :: es => openAfter (next + 1) (next :: open_) es
  | .leave :: es => openAfter next open_.tail es
  | .declare _ _ :: es => openAfter next open_ es
  | .use _ _ :: es => openAfter next open_ es

/-- The uses and declarations in a program, where the global scope has number 0. -/
def programRefs (sts : List Stmt) : List Ref := refs 1 [0] (stmtsEvents sts)

/-- No scope ever has more than 256 names. -/
def SmallScopes (names : Names) (events : List Event) : Prop :=
  ∀ before after, events = before ++ after → ∀ s ∈ namesAfter names before, s.length ≤ 256

end Ws.Spec
