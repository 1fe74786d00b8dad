import Verif.Model.Ast
/-! Model of `src/resolver.rs`. -/
namespace Ws

/-- `resolver.rs:28-32` `VarResolveDefinedState`. -/
inductive DefinedState where
  | undefinedVar | declaredVar | definedVar
  deriving Repr, DecidableEq

/-- `resolver.rs:36-39` `VarResolveState`. -/
structure VarState where
  slotIndex : Nat
  definedState : DefinedState
  deriving Repr, DecidableEq

/-- A `HashMap<String, VarResolveState>` (`resolver.rs:22`) as an association list in insertion
order. Only `get`, `len` and `entry` are used, never iteration, so the order is unobservable. -/
abbrev Scope := List (Str × VarState)

/-- `resolver.rs:42-47` `FunctionType` (the resolver's own). -/
inductive FnType where
  | noFunction | plain | initializer | method
  deriving Repr, DecidableEq

/-- `resolver.rs:50-54` `ClassType`. -/
inductive ClassType where
  | noClass | plainClass | subclass
  deriving Repr, DecidableEq

/-- `resolver.rs:21-25` `Resolver`. `scopes` has the last element of the `Vec` (the innermost scope)
first; the global scope is the last element of the list. -/
structure Resolver where
  scopes : List Scope
  functionType : FnType
  classType : ClassType
  deriving Repr, DecidableEq

/-- Resolving functions: `&mut Resolver`, returning `Result<_, ParseErrorCause>`. -/
abbrev R := M Resolver Cause

/-- `value.rs:9-13` `all_native_ids`: there are no native functions. (Hence the loop at
`resolver.rs:68-77` does nothing.) -/
def allNativeIds : List Str := []

/-- `resolver.rs:57-80` `Resolver::new`. -/
def Resolver.new : Resolver := ⟨[[]], .noFunction, .noClass⟩

/-- `resolver.rs:617-631` `ensure_scope_index_limit`. -/
def ensureScopeIndexLimit (newScopeLen : Nat) (identifier : Str) (loc : SourceLoc) : R Unit :=
  if newScopeLen > varLocMaxDistance then
    M.throw (.newWithLocation loc identifier "Too many local variables in function.")
  else pure ()

/-- `HashMap::get`. -/
def Scope.get (scope : Scope) (identifier : Str) : Option VarState := scope.lookup identifier

/-- Change the state of an entry that is present (`Entry::and_modify`). -/
def Scope.setState : Scope → Str → DefinedState → Scope
  | [], _, _ => []
  | (k, v) :: rest, identifier, st =>
    if identifier == k then (k, { v with definedState := st }) :: rest
    else (k, v) :: Scope.setState rest identifier st

/-- Insert an entry that is absent (`or_insert`). -/
def Scope.insertNew (scope : Scope) (identifier : Str) (v : VarState) : Scope :=
  scope ++ [(identifier, v)]

/-- Replace the innermost scope (`self.scopes.last_mut()`). -/
def Resolver.setInnermost (rs : Resolver) (scope : Scope) : Resolver :=
  { rs with scopes := scope :: rs.scopes.tail }

/-- `resolver.rs:493-498` `begin_scope`. -/
def beginScope : R Unit := fun rs =>
  if rs.scopes.length ≥ varLocMaxDistance then .panic "Too many nested lexical scopes"
  else .ok () { rs with scopes := [] :: rs.scopes }

/-- `resolver.rs:500-502` `end_scope`. -/
def Resolver.endScope (rs : Resolver) : Resolver := { rs with scopes := rs.scopes.tail }

/-- `resolver.rs:504-506` `is_in_global_scope`. -/
def Resolver.isInGlobalScope (rs : Resolver) : Bool := rs.scopes.length == 1

/-- Run `x`, then `f` on the state whether `x` succeeded or failed. -/
def andFinally {α : Type} (x : R α) (f : Resolver → Resolver) : R α := fun rs =>
  match x rs with
  | .ok a rs' => .ok a (f rs')
  | .err e rs' => .err e (f rs')
  | .panic m => .panic m
  | .diverge => .diverge

/-- `resolver.rs:578-607` `define`. -/
def define (identifier : Str) (loc : SourceLoc) : R Unit := do
  let rs ← M.get
  match rs.scopes with
  | [] => M.panic "Resolver::define: there are no scopes"
  | scope :: _ => do
    ensureScopeIndexLimit scope.length identifier loc
    match scope.get identifier with
    | none =>
      M.modify (·.setInnermost (scope.insertNew identifier ⟨scope.length, .definedVar⟩))
    | some st =>
      match st.definedState with
      | .undefinedVar | .declaredVar =>
        M.modify (·.setInnermost (scope.setState identifier .definedVar))
      | .definedVar =>
        if !rs.isInGlobalScope then
          M.throw (.newWithLocation loc identifier
            "Variable with this name already declared in this scope.")
        else pure ()

/-- `resolver.rs:528-576` `declare`: returns the slot stored in the cell (`slot_index as u8`). -/
def declare (identifier : Str) (loc : SourceLoc) : R SlotIndex := do
  let rs ← M.get
  match rs.scopes with
  | [] => M.panic "Resolver::declare: there are no scopes"
  | scope :: _ => do
    ensureScopeIndexLimit scope.length identifier loc
    match scope.get identifier with
    | none => do
      M.modify (·.setInnermost (scope.insertNew identifier ⟨scope.length, .declaredVar⟩))
      pure ⟨scope.length % 256⟩
    | some st =>
      match st.definedState with
      | .undefinedVar => do
        M.modify (·.setInnermost (scope.setState identifier .declaredVar))
        pure ⟨st.slotIndex % 256⟩
      | .declaredVar | .definedVar =>
        if rs.isInGlobalScope then pure ⟨st.slotIndex % 256⟩
        else
          M.throw (.newWithLocation loc identifier
            "Variable with this name already declared in this scope.")

/-- Replace the outermost scope (`self.scopes.first_mut()`). -/
def setGlobal : List Scope → Scope → List Scope
  | [], _ => []
  | [_], g => [g]
  | s :: ss, g => s :: setGlobal ss g

/-- `resolver.rs:508-526` `forward_reserve_global_var`. -/
def forwardReserveGlobalVar (identifier : Str) (loc : SourceLoc) : R Nat := do
  let rs ← M.get
  match rs.scopes.getLast? with
  | none => M.panic "Resolver::forward_reserve_global_var: there are no scopes"
  | some scope => do
    ensureScopeIndexLimit scope.length identifier loc
    match scope.get identifier with
    | some _ =>
      M.panic "Resolver::forward_reserve_global_var: already declared"
    | none => do
      M.modify (fun rs => { rs with
        scopes := setGlobal rs.scopes (scope.insertNew identifier ⟨scope.length, .undefinedVar⟩) })
      pure scope.length

/-- `resolver.rs:464-481`: search the scopes from the innermost outwards. The first component is the
number of scopes skipped, `len - 1 - i`. -/
def findVar (identifier : Str) : List Scope → Nat → Option (Nat × VarState)
  | [], _ => none
  | scope :: rest, distance =>
    match scope.get identifier with
    | some st => some (distance, st)
    | none => findVar identifier rest (distance + 1)

/-- `resolver.rs:459-491` `resolve_local_variable`. -/
def resolveLocalVariable (identifier : Str) (loc : SourceLoc) : R VarLoc := do
  let rs ← M.get
  match findVar identifier rs.scopes 0 with
  | some (distance, st) => pure ⟨distance % 65536, st.slotIndex % 256⟩
  | none => do
    let slotIndex ← forwardReserveGlobalVar identifier loc
    if rs.scopes.length > 0 then
      pure ⟨(rs.scopes.length - 1) % 65536, slotIndex % 256⟩
    else M.panic "assertion failed: len > 0"

/-- `resolver.rs:323-357`: a variable reference, without the AST. -/
def resolveVariable (identifier : Str) (loc : SourceLoc) : R VarLoc := do
  let rs ← M.get
  if rs.classType = .noClass ∧ identifier = c!"this" then
    M.throw (.newWithLocation loc c!"this" "Cannot use 'this' outside of a class.")
  else
    match rs.scopes with
    | [] => M.panic "Resolver::resolve_expression: last scope to be present"
    | scope :: _ =>
      if (scope.get identifier).map (·.definedState) = some .declaredVar then
        M.throw (.newWithLocation loc identifier
          "Cannot read local variable in its own initializer.")
      else resolveLocalVariable identifier loc

/-- `resolver.rs:289-317`: a `super` reference, without the AST. -/
def resolveSuper (loc : SourceLoc) : R VarLoc := do
  let rs ← M.get
  match rs.classType with
  | .noClass =>
    M.throw (.newWithLocation loc c!"super" "Cannot use 'super' outside of a class.")
  | .plainClass =>
    M.throw (.newWithLocation loc c!"super" "Cannot use 'super' in a class with no superclass.")
  | .subclass => resolveLocalVariable c!"super" loc

/-- `resolver.rs:158-185`: the checks of a return statement. -/
def checkReturn (e : Expr) (loc : SourceLoc) : R Unit := do
  let rs ← M.get
  match rs.functionType with
  | .noFunction =>
    M.throw (.newWithLocation loc c!"return" "Cannot return from top-level code.")
  | .initializer =>
    match e with
    | .literalNil => pure ()
    | _ =>
      M.throw (.newWithLocation loc c!"return" "Cannot return a value from an initializer.")
  | .plain | .method => pure ()

/-- `resolver.rs:436-442`: the parameters of a function. -/
def defineParams : List Parameter → R Unit
  | [] => pure ()
  | p :: ps => do
    define p.name p.loc
    defineParams ps

/-- `resolver.rs:368-381`: a class may not name itself as superclass. -/
def checkSuperclass (name : Str) (superclass : Option Expr) : R Unit :=
  match superclass with
  | some (.variable id _ loc) =>
    if id = name then M.throw (.newWithLocation loc id "A class cannot inherit from itself.")
    else pure ()
  | _ => pure ()

/-- `begin_scope(); x; end_scope()`, ending the scope also when `x` fails. -/
def inNewScope {α : Type} (x : R α) : R α := do
  beginScope
  andFinally x Resolver.endScope

/-- `resolver.rs:431-456`: set the function type for the duration of `x`. -/
def withFunctionType {α : Type} (ft : FnType) (x : R α) : R α := fun rs =>
  andFinally x (fun rs' => { rs' with functionType := rs.functionType })
    { rs with functionType := ft }

/-- `resolver.rs:124-134`: set the class type for the duration of `x`. -/
def withClassType {α : Type} (ct : ClassType) (x : R α) : R α := fun rs =>
  andFinally x (fun rs' => { rs' with classType := rs.classType }) { rs with classType := ct }

mutual
/-- `resolver.rs:101-210` `resolve_statement`: returns the updated statement. (When it fails, the
partly updated statement is dropped by `resolve`, so it is not modelled.) -/
def resolveStmt : Stmt → R Stmt
  | .block body => do
    let body ← inNewScope (resolveStmts body)
    pure (.block body)
  | .break loc => pure (.break loc)
  | .class name superclass methods loc =>
    withClassType (if superclass.isSome then .subclass else .plainClass) (do
      -- `resolver.rs:361-424` `resolve_class`
      define name loc
      checkSuperclass name superclass
      match superclass with
      | none => do
        let methods ← inNewScope (do
          define c!"this" loc
          resolveMethods methods)
        pure (.class name none methods loc)
      | some superExpr => do
        let superExpr ← resolveExpr superExpr
        let methods ← inNewScope (do
          define c!"super" loc
          inNewScope (do
            define c!"this" loc
            resolveMethods methods))
        pure (.class name (some superExpr) methods loc))
  | .continue loc => pure (.continue loc)
  | .expression e => do
    let e ← resolveExpr e
    pure (.expression e)
  | .fun (.mk name d) => do
    define name d.loc
    let d ← resolveFunction .plain d
    pure (.fun (.mk name d))
  | .if condition thenStmt elseStmt => do
    let condition ← resolveExpr condition
    let thenStmt ← resolveStmt thenStmt
    match elseStmt with
    | none => pure (.if condition thenStmt none)
    | some st => do
      let st ← resolveStmt st
      pure (.if condition thenStmt (some st))
  | .print e => do
    let e ← resolveExpr e
    pure (.print e)
  | .return e loc => do
    checkReturn e loc
    let e ← resolveExpr e
    pure (.return e loc)
  | .var name _ init loc => do
    let slot ← declare name loc
    let init ← resolveExpr init
    define name loc
    pure (.var name slot init loc)
  | .while condition body => do
    let condition ← resolveExpr condition
    let body ← resolveStmt body
    pure (.while condition body)
  | .whileIncrement condition body increment => do
    let condition ← resolveExpr condition
    let body ← resolveStmt body
    let increment ← resolveExpr increment
    pure (.whileIncrement condition body increment)

/-- `resolver.rs:109-115` and `443-450`: statements in order, stopping at the first error. -/
def resolveStmts : List Stmt → R (List Stmt)
  | [] => pure []
  | st :: rest => do
    let st ← resolveStmt st
    let rest ← resolveStmts rest
    pure (st :: rest)

/-- `resolver.rs:212-359` `resolve_expression`. -/
def resolveExpr : Expr → R Expr
  | .assign name _ rhs loc => do
    let rhs ← resolveExpr rhs
    let cell ← resolveLocalVariable name loc
    pure (.assign name cell rhs loc)
  | .binary left op right loc => do
    let left ← resolveExpr left
    let right ← resolveExpr right
    pure (.binary left op right loc)
  | .call callee args loc => do
    let callee ← resolveExpr callee
    let args ← resolveExprs args
    pure (.call callee args loc)
  | .function d => do
    let d ← resolveFunction .plain d
    pure (.function d)
  | .get object name loc => do
    let object ← resolveExpr object
    pure (.get object name loc)
  | .getIndex array index loc => do
    let array ← resolveExpr array
    let index ← resolveExpr index
    pure (.getIndex array index loc)
  | .grouping e => do
    let e ← resolveExpr e
    pure (.grouping e)
  | .literalArray elements => do
    let elements ← resolveExprs elements
    pure (.literalArray elements)
  | .literalBool b => pure (.literalBool b)
  | .literalMap entries => do
    let entries ← resolveEntries entries
    pure (.literalMap entries)
  | .literalNil => pure .literalNil
  | .literalNumber x => pure (.literalNumber x)
  | .literalString s => pure (.literalString s)
  | .logical left op right => do
    let left ← resolveExpr left
    let right ← resolveExpr right
    pure (.logical left op right)
  | .set object name value loc => do
    let object ← resolveExpr object
    let value ← resolveExpr value
    pure (.set object name value loc)
  | .setIndex array index value loc => do
    let array ← resolveExpr array
    let index ← resolveExpr index
    let value ← resolveExpr value
    pure (.setIndex array index value loc)
  | .super _ name loc => do
    let cell ← resolveSuper loc
    pure (.super cell name loc)
  | .unary op e loc => do
    let e ← resolveExpr e
    pure (.unary op e loc)
  | .variable name _ loc => do
    let cell ← resolveVariable name loc
    pure (.variable name cell loc)

/-- `resolver.rs:232-234` and `250-252`. -/
def resolveExprs : List Expr → R (List Expr)
  | [] => pure []
  | e :: rest => do
    let e ← resolveExpr e
    let rest ← resolveExprs rest
    pure (e :: rest)

/-- `resolver.rs:258-260`. -/
def resolveEntries : List MapEntry → R (List MapEntry)
  | [] => pure []
  | .mk k v :: rest => do
    let v ← resolveExpr v
    let rest ← resolveEntries rest
    pure (.mk k v :: rest)

/-- `resolver.rs:401-412`: the methods of a class. -/
def resolveMethods : List NamedFun → R (List NamedFun)
  | [] => pure []
  | .mk name d :: rest => do
    let d ← resolveFunction (if name = c!"init" then .initializer else .method) d
    let rest ← resolveMethods rest
    pure (.mk name d :: rest)

/-- `resolver.rs:426-457` `resolve_function`. -/
def resolveFunction (ft : FnType) : FunDef → R FunDef
  | .mk params body funType loc => do
    let body ← withFunctionType ft (inNewScope (do
      defineParams params
      resolveStmts body))
    pure (.mk params body funType loc)
end

/-- `resolver.rs:86-92`: resolve the top-level statements, collecting the errors. -/
def resolveLoop : List Stmt → Resolver → Outcome (List Stmt × List Cause × Resolver)
  | [], rs => .done ([], [], rs)
  | st :: rest, rs =>
    match resolveStmt st rs with
    | .ok st' rs' => do
      let (sts, errors, rs'') ← resolveLoop rest rs'
      .done (st' :: sts, errors, rs'')
    | .err e rs' => do
      let (sts, errors, rs'') ← resolveLoop rest rs'
      .done (st :: sts, e :: errors, rs'')
    | .panic m => .panic m
    | .diverge => .diverge

/-- `resolver.rs:82-99` `Resolver::resolve`: the result and the resolver's new state. -/
def Resolver.resolve (rs : Resolver) (statements : List Stmt) :
    Outcome (Except ParseError (List Stmt) × Resolver) := do
  let (sts, errors, rs') ← resolveLoop statements rs
  if errors.isEmpty then .done (.ok sts, rs') else .done (.error errors, rs')

/-- `resolver.rs:12-16` `resolve`. -/
def resolve (statements : List Stmt) : Outcome (Except ParseError (List Stmt)) := do
  let (result, _) ← Resolver.new.resolve statements
  .done result

end Ws
