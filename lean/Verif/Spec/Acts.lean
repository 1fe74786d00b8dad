import Verif.Model.Ast
/-! The complete specification of which programs the resolver rejects, and with which errors.

A program is read from beginning to end as a list of acts. Every act is at fault or not, depending on
the names that are bound where it stands. The first act at fault of every top-level statement is
reported.

This file does not mention the resolver. -/
namespace Ws.Spec
open Ws

/-- The innermost function around a place. -/
inductive FunctionAround where
  | nowhere | plain | initializer
  deriving DecidableEq

/-- The innermost class around a place. -/
inductive ClassAround where
  | nowhere | plain | subclass
  deriving DecidableEq

/-- What a program does to names. -/
inductive Act where
  /-- a scope begins -/
  | enter
  /-- the innermost scope ends -/
  | leave
  /-- a name is declared in the innermost scope: a function, a class, a parameter, `this`, `super`, or a
  variable at the end of its declaration -/
  | declare (name : Str) (loc : SourceLoc)
  /-- the declaration of a variable begins; its initializer follows -/
  | begin (name : Str) (loc : SourceLoc)
  /-- a variable is read -/
  | read (name : Str) (loc : SourceLoc)
  /-- a variable is assigned, or `super` is used -/
  | use (name : Str) (loc : SourceLoc)
  /-- an error, whatever the names are -/
  | wrong (cause : Cause)

/-! ### The acts of a program -/

/-- `this` outside a class is an error. -/
def readActs (c : ClassAround) (x : Str) (loc : SourceLoc) : List Act :=
  if x = c!"this" ∧ c = .nowhere then [.wrong ⟨loc, some c!"this", "Cannot use 'this' outside of a class."⟩]
  else [.read x loc]

/-- `super` outside a subclass is an error. -/
def superActs (loc : SourceLoc) : ClassAround → List Act
  | .nowhere => [.wrong ⟨loc, some c!"super", "Cannot use 'super' outside of a class."⟩]
  | .plain => [.wrong ⟨loc, some c!"super", "Cannot use 'super' in a class with no superclass."⟩]
  | .subclass => [.use c!"super" loc]

/-- A return outside functions is an error, and so is a return of a value in an initializer. -/
def returnActs (e : Expr) (loc : SourceLoc) : FunctionAround → List Act
  | .nowhere => [.wrong ⟨loc, some c!"return", "Cannot return from top-level code."⟩]
  | .plain => []
  | .initializer =>
    match e with
    | .literalNil => []
    | _ => [.wrong ⟨loc, some c!"return", "Cannot return a value from an initializer."⟩]

/-- A class that names itself as its superclass is an error. -/
def superclassActs (x : Str) : Expr → List Act
  | .variable y _ loc => if y = x then [.wrong ⟨loc, some y, "A class cannot inherit from itself."⟩] else []
  | _ => []

/-- The parameters of a function are declared in the scope of its body. -/
def paramActs (ps : List Parameter) : List Act := ps.map fun p => .declare p.name p.loc

mutual
/-- The acts of an expression. -/
def exprActs (f : FunctionAround) (c : ClassAround) : Expr → List Act
  | .assign x _ rhs loc => exprActs f c rhs ++ [.use x loc]
  | .call callee args _ => exprActs f c callee ++ exprsActs f c args
  | .binary a _ b _ => exprActs f c a ++ exprActs f c b
  | .function d => funActs .plain c d
  | .get o _ _ => exprActs f c o
  | .getIndex a i _ => exprActs f c a ++ exprActs f c i
  | .grouping e => exprActs f c e
  | .literalArray es => exprsActs f c es
  | .literalMap ms => entriesActs f c ms
  | .logical a _ b => exprActs f c a ++ exprActs f c b
  | .set o _ v _ => exprActs f c o ++ exprActs f c v
  | .setIndex a i v _ => exprActs f c a ++ (exprActs f c i ++ exprActs f c v)
  | .super _ _ loc => superActs loc c
  | .variable x _ loc => readActs c x loc
  | .unary _ e _ => exprActs f c e
  | .literalBool _ | .literalNumber _ | .literalNil | .literalString _ => []

def exprsActs (f : FunctionAround) (c : ClassAround) : List Expr → List Act
  | [] => []
  | e :: es => exprActs f c e ++ exprsActs f c es

def entriesActs (f : FunctionAround) (c : ClassAround) : List MapEntry → List Act
  | [] => []
  | .mk _ v :: ms => exprActs f c v ++ entriesActs f c ms

/-- The acts of a function. -/
def funActs (f : FunctionAround) (c : ClassAround) : FunDef → List Act
  | .mk params body _ _ => .enter :: ((paramActs params ++ stmtsActs f c body) ++ [.leave])

def methodsActs (c : ClassAround) : List NamedFun → List Act
  | [] => []
  | .mk x d :: ms => funActs (if x = c!"init" then .initializer else .plain) c d ++ methodsActs c ms

/-- The acts of a statement. -/
def stmtActs (f : FunctionAround) (c : ClassAround) : Stmt → List Act
  | .block body => .enter :: (stmtsActs f c body ++ [.leave])
  | .break _ | .continue _ => []
  | .class x none methods loc =>
    .declare x loc :: .enter :: ((.declare c!"this" loc :: methodsActs .plain methods) ++ [.leave])
  | .class x (some e) methods loc =>
    .declare x loc :: (superclassActs x e ++ (exprActs f .subclass e ++
      .enter :: ((.declare c!"super" loc ::
        .enter :: ((.declare c!"this" loc :: methodsActs .subclass methods) ++ [.leave])) ++ [.leave])))
  | .expression e => exprActs f c e
  | .fun (.mk x d) => .declare x d.loc :: funActs .plain c d
  | .if e a none => exprActs f c e ++ stmtActs f c a
  | .if e a (some b) => exprActs f c e ++ (stmtActs f c a ++ stmtActs f c b)
  | .print e => exprActs f c e
  | .return e loc => returnActs e loc f ++ exprActs f c e
  | .var x _ e loc => .begin x loc :: (exprActs f c e ++ [.declare x loc])
  | .while e b => exprActs f c e ++ stmtActs f c b
  | .whileIncrement e b i => exprActs f c e ++ (stmtActs f c b ++ exprActs f c i)

/-- The acts of statements, in order. -/
def stmtsActs (f : FunctionAround) (c : ClassAround) : List Stmt → List Act
  | [] => []
  | s :: ss => stmtActs f c s ++ stmtsActs f c ss
end

/-! ### Names -/

/-- How a name got into its scope. -/
inductive Status where
  /-- it was used, and never declared: a global that may be declared later -/
  | used
  /-- its declaration has begun -/
  | begun
  | declared
  deriving DecidableEq

/-- The names in each scope, in order; the innermost scope is first and the global scope last. -/
abbrev Bindings := List (List (Str × Status))

/-- The name is in some scope. -/
def IsBound (b : Bindings) (x : Str) : Prop := ∃ s ∈ b, x ∈ s.map Prod.fst

instance (b : Bindings) (x : Str) : Decidable (IsBound b x) :=
  inferInstanceAs (Decidable (∃ s ∈ b, x ∈ s.map Prod.fst))

/-- A name gets a status in a scope. -/
def put (x : Str) (st : Status) (s : List (Str × Status)) : List (Str × Status) :=
  if x ∈ s.map Prod.fst then s.map fun p => if p.1 = x then (x, st) else p else s ++ [(x, st)]

/-- The global scope gets a name. -/
def putGlobal (x : Str) : Bindings → Bindings
  | [] => []
  | [globals] => [globals ++ [(x, .used)]]
  | s :: ss => s :: putGlobal x ss

/-- The names after an act. -/
def Act.after : Bindings → Act → Bindings
  | b, .enter => [] :: b
  | b, .leave => b.tail
  | s :: ss, .declare x _ => put x .declared s :: ss
  | s :: ss, .begin x _ =>
    -- a global may be declared again
    if (x, .begun) ∈ s ∨ (x, .declared) ∈ s then s :: ss else put x .begun s :: ss
  | b, .read x _ | b, .use x _ => if IsBound b x then b else putGlobal x b
  | b, _ => b

/-! ### Faults -/

def tooManyNames (x : Str) (loc : SourceLoc) : Cause := ⟨loc, some x, "Too many local variables in function."⟩
def declaredAgain (x : Str) (loc : SourceLoc) : Cause :=
  ⟨loc, some x, "Variable with this name already declared in this scope."⟩
def ownInitializer (x : Str) (loc : SourceLoc) : Cause :=
  ⟨loc, some x, "Cannot read local variable in its own initializer."⟩

/-- A name that is bound nowhere is a new global, for which there must be room. -/
def useFault (b : Bindings) (x : Str) (loc : SourceLoc) : Option Cause :=
  if ¬ IsBound b x ∧ 65535 < (b.getLast?.getD []).length then some (tooManyNames x loc) else none

/-- The error of an act, if it is at fault where the names are `b`. -/
def Act.fault (b : Bindings) : Act → Option Cause
  | .wrong c => some c
  | .declare x loc =>
    let s := b.head?.getD []
    if 65535 < s.length then some (tooManyNames x loc)
    else if (x, .declared) ∈ s ∧ 1 < b.length then some (declaredAgain x loc)
    else none
  | .begin x loc =>
    let s := b.head?.getD []
    if 65535 < s.length then some (tooManyNames x loc)
    else if ((x, .begun) ∈ s ∨ (x, .declared) ∈ s) ∧ 1 < b.length then some (declaredAgain x loc)
    else none
  | .read x loc => if (x, .begun) ∈ b.head?.getD [] then some (ownInitializer x loc) else useFault b x loc
  | .use x loc => useFault b x loc
  | .enter | .leave => none

/-- An act that is not possible: there are 65535 scopes already. -/
def Act.tooDeep (b : Bindings) : Act → Bool
  | .enter => decide (65535 ≤ b.length)
  | _ => false

/-- How a list of acts ends. -/
inductive Ending where
  /-- without a fault, with these names -/
  | fine (b : Bindings)
  /-- at the first fault, with the names there -/
  | fault (c : Cause) (b : Bindings)
  /-- at a scope that is nested too deep -/
  | tooDeep

/-- The acts in order, up to the first fault. -/
def perform : Bindings → List Act → Ending
  | b, [] => .fine b
  | b, a :: as =>
    match a.fault b with
    | some c => .fault c b
    | none => if a.tooDeep b then .tooDeep else perform (a.after b) as

/-- The errors of a program, one for every statement with a fault, and the names after it. After a fault
only the global scope is left. `none` if scopes are nested too deep. -/
def programFaults : Bindings → List Stmt → Option (List Cause × Bindings)
  | b, [] => some ([], b)
  | b, s :: ss =>
    match perform b (stmtActs .nowhere .nowhere s) with
    | .fine b' => programFaults b' ss
    | .fault c b' => (programFaults (b'.drop (b'.length - 1)) ss).map fun r => (c :: r.1, r.2)
    | .tooDeep => none

/-- The names after some programs. -/
def bindingsOf (history : List (List Stmt)) : Bindings :=
  history.foldl (fun b sts =>
    match programFaults b sts with
    | some (_, b') => b'
    | none => b) [[]]

/-- The names after some acts. -/
def bindingsAfter (b : Bindings) (as : List Act) : Bindings := as.foldl Act.after b

/-- No act is at fault where it stands. -/
def NoFaults (b : Bindings) (as : List Act) : Prop :=
  ∀ before a after, as = before ++ a :: after →
    a.fault (bindingsAfter b before) = none ∧ a.tooDeep (bindingsAfter b before) = false

end Ws.Spec
