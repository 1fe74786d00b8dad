import Verif.Model.Token
/-! Model of `src/environment.rs` and `src/ast.rs`. -/
namespace Ws

/-- `environment.rs:40-43` `VarLoc`: `distance: u16`, `index: u8`. -/
structure VarLoc where
  distance : Nat
  index : Nat
  deriving Repr, DecidableEq

/-- `environment.rs:46-51` `VarLoc::placeholder`. -/
def VarLoc.placeholder : VarLoc := ⟨0, 0⟩

/-- `environment.rs:16` `SlotIndex(u8)`. -/
structure SlotIndex where
  index : Nat
  deriving Repr, DecidableEq

/-- `environment.rs:23-25` `SlotIndex::placeholder`: `u8::MAX`. -/
def SlotIndex.placeholder : SlotIndex := ⟨255⟩

/-- `environment.rs:4` `VAR_LOC_MAX_DISTANCE`. -/
abbrev varLocMaxDistance : Nat := 65535

/-- `ast.rs:130-135` `FunctionType`. -/
inductive FunctionType where
  | plainFunction | method | initializer | classMethod
  deriving Repr, DecidableEq

/-- `ast.rs:143-146` `UnaryOperator`. -/
inductive UnaryOperator where
  | minus | not
  deriving Repr, DecidableEq

/-- `ast.rs:154-166` `BinaryOperator`. -/
inductive BinaryOperator where
  | plus | minus | multiply | divide
  | equal | notEqual | less | lessEqual | greater | greaterEqual
  deriving Repr, DecidableEq

/-- `ast.rs:174-177` `LogicalOperator`. -/
inductive LogicalOperator where
  | and | or
  deriving Repr, DecidableEq

/-- `ast.rs:119-122` `Parameter`. -/
structure Parameter where
  name : Str
  loc : SourceLoc
  deriving Repr, DecidableEq

/- `ast.rs:29-112`. `Box`es are dropped, `Cell`s become plain fields (the resolver returns the
updated tree), a `Map` (an insertion-ordered `IndexMap`) is the list of its entries in order, and
`ClassDefinition` is inlined into `Stmt.class`. -/
mutual
/-- `ast.rs:53-73` `Expr`. -/
inductive Expr where
  | assign (name : Str) (cell : VarLoc) (rhs : Expr) (loc : SourceLoc)
  | call (callee : Expr) (args : List Expr) (loc : SourceLoc)
  | binary (left : Expr) (op : BinaryOperator) (right : Expr) (loc : SourceLoc)
  | function (d : FunDef)
  | get (object : Expr) (name : Str) (loc : SourceLoc)
  | getIndex (array : Expr) (index : Expr) (loc : SourceLoc)
  | grouping (e : Expr)
  | literalArray (elements : List Expr)
  | literalBool (b : Bool)
  | literalMap (entries : List MapEntry)
  | literalNumber (x : F64)
  | literalNil
  | literalString (s : Str)
  | logical (left : Expr) (op : LogicalOperator) (right : Expr)
  | set (object : Expr) (name : Str) (value : Expr) (loc : SourceLoc)
  | setIndex (array : Expr) (index : Expr) (value : Expr) (loc : SourceLoc)
  | super (cell : VarLoc) (name : Str) (loc : SourceLoc)
  | variable (name : Str) (cell : VarLoc) (loc : SourceLoc)
  | unary (op : UnaryOperator) (e : Expr) (loc : SourceLoc)
/-- An entry of `ast.rs:75-78` `Map`. -/
inductive MapEntry where
  | mk (key : Str) (value : Expr)
/-- `ast.rs:107-112` `FunctionDefinition`. -/
inductive FunDef where
  | mk (params : List Parameter) (body : List Stmt) (funType : FunctionType) (loc : SourceLoc)
/-- `ast.rs:97-100` `NamedFunctionDefinition`. -/
inductive NamedFun where
  | mk (name : Str) (d : FunDef)
/-- `ast.rs:29-42` `Stmt`. -/
inductive Stmt where
  | block (body : List Stmt)
  | break (loc : SourceLoc)
  | class (name : Str) (superclass : Option Expr) (methods : List NamedFun) (loc : SourceLoc)
  | continue (loc : SourceLoc)
  | expression (e : Expr)
  | fun (f : NamedFun)
  | if (condition : Expr) (thenStmt : Stmt) (elseStmt : Option Stmt)
  | print (e : Expr)
  | return (e : Expr) (loc : SourceLoc)
  | var (name : Str) (slot : SlotIndex) (init : Expr) (loc : SourceLoc)
  | while (condition : Expr) (body : Stmt)
  | whileIncrement (condition : Expr) (body : Stmt) (increment : Expr)
end

instance : Inhabited Expr := ⟨.literalNil⟩
instance : Inhabited Stmt := ⟨.block []⟩

/-- The key of a map entry. -/
def MapEntry.key : MapEntry → Str
  | .mk k _ => k
/-- The value of a map entry. -/
def MapEntry.value : MapEntry → Expr
  | .mk _ v => v
/-- `FunctionDefinition::parameters`. -/
def FunDef.params : FunDef → List Parameter
  | .mk ps _ _ _ => ps
/-- `FunctionDefinition::body`. -/
def FunDef.body : FunDef → List Stmt
  | .mk _ b _ _ => b
/-- `FunctionDefinition::fun_type`. -/
def FunDef.funType : FunDef → FunctionType
  | .mk _ _ t _ => t
/-- `FunctionDefinition::source_loc`. -/
def FunDef.loc : FunDef → SourceLoc
  | .mk _ _ _ l => l
/-- Assignment to `fun_def.fun_type` (`parser.rs:155`). -/
def FunDef.setFunType : FunDef → FunctionType → FunDef
  | .mk ps b _ l, t => .mk ps b t l
/-- `NamedFunctionDefinition::name`. -/
def NamedFun.name : NamedFun → Str
  | .mk n _ => n
/-- `NamedFunctionDefinition::fun_def`. -/
def NamedFun.funDef : NamedFun → FunDef
  | .mk _ d => d

/-- `IndexMap::insert` (`ast.rs:249-251` `Map::insert`): a new key goes last; an existing key keeps
its position and its value is replaced. The boolean says whether there was an old value. -/
def mapInsert (m : List MapEntry) (k : Str) (v : Expr) : List MapEntry × Bool :=
  if m.any (fun e => e.key == k) then
    (m.map (fun e => if e.key == k then .mk k v else e), true)
  else (m ++ [.mk k v], false)

end Ws
