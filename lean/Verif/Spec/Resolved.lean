import Verif.Spec.Scoping
/-! What resolved programs look like. -/
namespace Ws.Spec
open Ws

/-- The node begins a scope. -/
def Node.opensScope : Node → Bool
  | .stmt (.block _) => true
  | .fn _ => true
  | _ => false

/-- `x` is in a block or a function of `n`. -/
def InScope (x n : Node) : Prop := ∃ b c, Within b n ∧ b.opensScope = true ∧ c ∈ b.parts ∧ Within x c

/-- C45: the initializer of a variable does not read the variable. (Functions in it may.) -/
def NotOwnInitializer : Node → Prop
  | .stmt (.var x _ e _) => ∀ c loc, ¬ Direct (.expr (.variable x c loc)) (.expr e)
  | _ => True

/-- C46: a class does not name itself as its superclass. -/
def NotOwnSuperclass : Node → Prop
  | .stmt (.class x (some (.variable y _ _)) _ _) => x ≠ y
  | _ => True

/-- C38: initializers (methods named `init`) return nothing. -/
def InitReturnsNil : Node → Prop
  | .stmt (.class _ _ ms _) => ∀ m ∈ ms, m.name = c!"init" → ∀ e loc,
      Direct (.stmt (.return e loc)) (.fn m.funDef) → e = .literalNil
  | _ => True

/-- The program does not name a variable, function, class or parameter `this` or `super`, does not
assign to them, and superclasses are plain names. The parser accepts no other programs. -/
def Ordinary : Node → Prop
  | .expr (.assign x _ _ _) => x ≠ c!"this" ∧ x ≠ c!"super"
  | .expr (.variable x _ _) => x ≠ c!"super"
  | .stmt (.var x _ _ _) => x ≠ c!"this" ∧ x ≠ c!"super"
  | .stmt (.fun f) => f.name ≠ c!"this" ∧ f.name ≠ c!"super"
  | .stmt (.class x superclass _ _) => x ≠ c!"this" ∧ x ≠ c!"super" ∧
      ∀ e, superclass = some e → ∃ y c loc, e = .variable y c loc ∧ y ≠ c!"this"
  | .fn d => ∀ p ∈ d.params, p.name ≠ c!"this" ∧ p.name ≠ c!"super"
  | _ => True

/-- C39: `this` is bound by the scope of the innermost class, and `super` by the scope around that of
the innermost class. (The scope of a class contains only `this`.) -/
def ClassUse (names : Names) : Event → Prop
  | .use x cell =>
    (x = c!"this" → names[cell.distance]? = some [c!"this"] ∧ cell.index = 0 ∧
      ∀ d < cell.distance, ∀ s, names[d]? = some s → c!"this" ∉ s) ∧
    (x = c!"super" → ∃ d, cell.distance = d + 1 ∧ cell.index = 0 ∧ names[d]? = some [c!"this"] ∧
      names[d + 1]? = some [c!"super"] ∧ ∀ d' < d, ∀ s, names[d']? = some s → c!"this" ∉ s)
  | _ => True

end Ws.Spec
