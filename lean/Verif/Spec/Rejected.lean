import Verif.Spec.Acts
/-! Names that a program declares at its top level, and names that it reads. -/
namespace Ws.Spec
open Ws

/-- The names that a statement declares in the scope it stands in. -/
def declaredBy : Stmt → List Str
  | .var x _ _ _ | .class x _ _ _ | .fun (.mk x _) => [x]
  | .if _ a none | .while _ a | .whileIncrement _ a _ => declaredBy a
  | .if _ a (some b) => declaredBy a ++ declaredBy b
  | .block _ | .break _ | .continue _ | .expression _ | .print _ | .return _ _ => []

/-- The program declares `x` at its top level. -/
def DeclaresGlobal (sts : List Stmt) (x : Str) : Prop := ∃ s ∈ sts, x ∈ declaredBy s

/-- The program reads a variable `x` somewhere. -/
def ReadsName (sts : List Stmt) (x : Str) : Prop := ∃ loc, Act.read x loc ∈ stmtsActs .nowhere .nowhere sts

/-- The number of acts of some programs. -/
def actsOf : List (List Stmt) → Nat
  | [] => 0
  | sts :: rest => (stmtsActs .nowhere .nowhere sts).length + actsOf rest

/-- After the programs, the global `x` is declared. -/
def IsDeclared (history : List (List Stmt)) (x : Str) : Prop := (x, Status.declared) ∈ (bindingsOf history).head?.getD []

/-- After the programs, the declaration of the global `x` has begun and not ended. -/
def IsBroken (history : List (List Stmt)) (x : Str) : Prop := (x, Status.begun) ∈ (bindingsOf history).head?.getD []

/-- After the programs, the statement has a fault. -/
def Fails (history : List (List Stmt)) (s : Stmt) : Prop := ∃ c b, programFaults (bindingsOf history) [s] = some ([c], b)

/-- After the programs, the statement has no fault, and its scopes are not nested too deep. -/
def Succeeds (history : List (List Stmt)) (s : Stmt) : Prop := ∃ b, programFaults (bindingsOf history) [s] = some ([], b)

end Ws.Spec
