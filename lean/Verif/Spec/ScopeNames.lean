import Verif.Spec.Slots
/-! The names that a scope has at its end. -/
namespace Ws.Spec
open Ws

/-- The names that the scope with the number `i` has when it ends, in the order in which they were first
declared (or first used, for globals that are not declared); scopes are numbered as for `refs`, and `names`
are those of the scopes that are open, as in `namesAfter`. -/
def scopeNames (next : Nat) (open_ : List Nat) (names : Names) : List Event → Nat → List Str
  | [], i => (names[open_.idxOf i]?).getD []
  | .leave :: es, i =>
    if open_.head? = some i then names.head?.getD [] else scopeNames next open_.tail names.tail es i
  | .enter ns :: es, i => scopeNames (next + 1) (next :: open_) (ns :: names) es i
  | .declare x s :: es, i => scopeNames next open_ (Event.after names (.declare x s)) es i
  | .use x c :: es, i => scopeNames next open_ (Event.after names (.use x c)) es i

/-- The names that the scopes of a program have at their end, by number; `globals` are the ones before it. -/
def programNames (globals : List Str) (sts : List Stmt) (i : Nat) : List Str :=
  scopeNames 1 [0] [globals] (stmtsEvents sts) i

end Ws.Spec
