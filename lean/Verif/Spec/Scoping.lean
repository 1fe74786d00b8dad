import Verif.Spec.Subtree
/-! Scoping: what a program declares and uses, in order, and what its names then refer to.

This file does not mention the resolver. -/
namespace Ws.Spec
open Ws

/-- What happens to names as a program is read from beginning to end. -/
inductive Event where
  /-- a scope begins, with some names already in it -/
  | enter (names : List Str)
  /-- the innermost scope ends -/
  | leave
  /-- a variable, function, class or parameter is declared in the innermost scope; variables carry a
  slot -/
  | declare (name : Str) (slot : Option SlotIndex)
  /-- a variable, or `super`, is read or assigned, by its location -/
  | use (name : Str) (cell : VarLoc)

mutual
/-- The events of an expression. -/
def exprEvents : Expr → List Event
  | .assign name cell rhs _ => exprEvents rhs ++ [.use name cell]
  | .call callee args _ => exprEvents callee ++ exprsEvents args
  | .binary a _ b _ => exprEvents a ++ exprEvents b
  | .function d => funEvents d
  | .get o _ _ => exprEvents o
  | .getIndex a i _ => exprEvents a ++ exprEvents i
  | .grouping e => exprEvents e
  | .literalArray es => exprsEvents es
  | .literalMap ms => entriesEvents ms
  | .logical a _ b => exprEvents a ++ exprEvents b
  | .set o _ v _ => exprEvents o ++ exprEvents v
  | .setIndex a i v _ => exprEvents a ++ exprEvents i ++ exprEvents v
  | .super cell _ _ => [.use c!"super" cell]
  | .variable name cell _ => [.use name cell]
  | .unary _ e _ => exprEvents e
  | .literalBool _ | .literalNumber _ | .literalNil | .literalString _ => []

def exprsEvents : List Expr → List Event
  | [] => []
  | e :: es => exprEvents e ++ exprsEvents es

def entriesEvents : List MapEntry → List Event
  | [] => []
  | .mk _ v :: ms => exprEvents v ++ entriesEvents ms

/-- The events of a function: the parameters are in the same scope as the body. -/
def funEvents : FunDef → List Event
  | .mk params body _ _ =>
    .enter [] :: (params.map (fun p => .declare p.name none) ++ stmtsEvents body ++ [.leave])

def methodsEvents : List NamedFun → List Event
  | [] => []
  | .mk _ d :: ms => funEvents d ++ methodsEvents ms

/-- The events of a statement: a variable is declared before its initializer is read; functions and
classes are declared before their bodies; a class has a scope with `this`, inside one with `super` if
it has a superclass. -/
def stmtEvents : Stmt → List Event
  | .block body => .enter [] :: (stmtsEvents body ++ [.leave])
  | .break _ | .continue _ => []
  | .class name none methods _ =>
    .declare name none :: .enter [c!"this"] :: (methodsEvents methods ++ [.leave])
  | .class name (some superclass) methods _ =>
    .declare name none :: (exprEvents superclass ++
      .enter [c!"super"] :: .enter [c!"this"] :: (methodsEvents methods ++ [.leave, .leave]))
  | .expression e => exprEvents e
  | .fun (.mk name d) => .declare name none :: funEvents d
  | .if c a none => exprEvents c ++ stmtEvents a
  | .if c a (some b) => exprEvents c ++ stmtEvents a ++ stmtEvents b
  | .print e => exprEvents e
  | .return e _ => exprEvents e
  | .var name slot e _ => .declare name (some slot) :: exprEvents e
  | .while c b => exprEvents c ++ stmtEvents b
  | .whileIncrement c b i => exprEvents c ++ stmtEvents b ++ exprEvents i

/-- The events of statements, in order. -/
def stmtsEvents : List Stmt → List Event
  | [] => []
  | s :: ss => stmtEvents s ++ stmtsEvents ss
end

/-- The names declared so far in each scope, in order of declaration; the innermost scope is first and
the global scope last. -/
abbrev Names := List (List Str)

/-- Add a name to a scope unless it is there. -/
def addName (x : Str) (names : List Str) : List Str := if x ∈ names then names else names ++ [x]

/-- Add a name to the global scope. -/
def addGlobal (x : Str) : Names → Names
  | [] => []
  | [globals] => [addName x globals]
  | s :: ss => s :: addGlobal x ss

/-- The names after an event. A name that is used but not declared becomes a global. -/
def Event.after (names : Names) : Event → Names
  | .enter ns => ns :: names
  | .leave => names.tail
  | .declare x _ =>
    match names with
    | [] => []
    | s :: ss => addName x s :: ss
  | .use x _ => if ∃ s ∈ names, x ∈ s then names else addGlobal x names

/-- The names after some events. -/
def namesAfter (names : Names) (events : List Event) : Names := events.foldl Event.after names

/-- `x` is the `index`-th name of the scope `distance` scopes out, and of no scope further in. -/
def Binds (names : Names) (x : Str) (distance index : Nat) : Prop :=
  (∃ s, names[distance]? = some s ∧ s[index]? = some x) ∧
  ∀ d < distance, ∀ s, names[d]? = some s → x ∉ s

/-- Every event has a property of the names before it. -/
def AtEach (P : Names → Event → Prop) (names : Names) (events : List Event) : Prop :=
  ∀ before e after, events = before ++ e :: after → P (namesAfter names before) e

/-- C35: an event is correct where the names before it are `names`: the location of a use is that of
the innermost binding, or of a new global; the slot of a declaration is its index in its scope. (An
index is stored in 8 bits.) -/
def EventOk (names : Names) : Event → Prop
  | .use x cell =>
    (∃ index, Binds names x cell.distance index ∧ cell.index = index % 256) ∨
    ((∀ s ∈ names, x ∉ s) ∧ ∃ globals, names.getLast? = some globals ∧
      cell.distance = names.length - 1 ∧ cell.index = globals.length % 256)
  | .declare x (some slot) => ∃ s index, (namesAfter names [.declare x (some slot)]).head? = some s ∧
      s[index]? = some x ∧ slot.index = index % 256
  | _ => True

/-- C44: a name is not declared twice in a scope other than the global scope. -/
def NotAgain (names : Names) : Event → Prop
  | .declare x _ => ∀ s ss, names = s :: ss → ss ≠ [] → x ∉ s
  | _ => True

end Ws.Spec
