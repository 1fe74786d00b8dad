import Verif.Model.Resolver
import Verif.Spec.Positions
/-! The resolver does not look at positions: resolving a moved program gives the moved result. -/
namespace Ws
open Ws.Spec

variable {α β γ δ : Type} {g : SourceLoc → SourceLoc}

/-- A result with its positions changed. -/
def Res.put (g : SourceLoc → SourceLoc) (f : α → β) : Res Resolver Cause α → Res Resolver Cause β
  | .ok a rs => .ok (f a) rs
  | .err c rs => .err (moveCause g c) rs
  | .panic m => .panic m
  | .diverge => .diverge

/-- The second program is the first one, moved. -/
structure Put (g : SourceLoc → SourceLoc) (f : α → β) (x : R α) (x' : R β) : Prop where
  eq : ∀ rs, x' rs = (x rs).put g f

theorem put_pure {f : α → β} {a : α} {b : β} (h : f a = b) : Put g f (pure a) (pure b) := ⟨fun _ => by subst h; rfl⟩
theorem put_panic {f : α → β} {m : String} : Put g f (M.panic m) (M.panic m) := ⟨fun _ => rfl⟩
theorem put_throw {f : α → β} {loc x msg} :
    Put g f (M.throw (.newWithLocation loc x msg)) (M.throw (.newWithLocation (g loc) x msg)) := ⟨fun _ => rfl⟩
theorem put_modify {f : Resolver → Resolver} : Put g id (M.modify f) (M.modify f) := ⟨fun _ => rfl⟩
theorem put_get : Put g id (M.get : R Resolver) M.get := ⟨fun _ => rfl⟩
theorem put_bind {f : α → β} {n : γ → δ} {x : R α} {x' : R β} {k : α → R γ} {k' : β → R δ}
    (h : Put g f x x') (hk : ∀ a, Put g n (k a) (k' (f a))) : Put g n (x >>= k) (x' >>= k') := by
  refine ⟨fun rs => ?_⟩
  show M.bind x' k' rs = Res.put g n (M.bind x k rs)
  unfold M.bind
  rw [h.eq]
  cases x rs with
  | ok a rs' => exact (hk a).eq rs'
  | err e rs' => rfl
  | panic m => rfl
  | diverge => rfl
theorem put_ite {f : α → β} {c : Prop} [Decidable c] {x y : R α} {x' y' : R β} (h : Put g f x x') (h' : Put g f y y') :
    Put g f (if c then x else y) (if c then x' else y') := by
  split
  · exact h
  · exact h'
theorem put_finally {f : α → β} {x : R α} {x' : R β} {e : Resolver → Resolver} (h : Put g f x x') :
    Put g f (andFinally x e) (andFinally x' e) := by
  refine ⟨fun rs => ?_⟩
  unfold andFinally
  rw [h.eq]
  cases x rs <;> rfl
theorem put_begin : Put g id beginScope beginScope := by
  refine ⟨fun rs => ?_⟩
  unfold beginScope
  split <;> rfl
theorem put_scope {f : α → β} {x : R α} {x' : R β} (h : Put g f x x') : Put g f (inNewScope x) (inNewScope x') :=
  put_bind put_begin fun _ => put_finally h
theorem put_function {f : α → β} {x : R α} {x' : R β} (ft) (h : Put g f x x') :
    Put g f (withFunctionType ft x) (withFunctionType ft x') := ⟨fun _ => (put_finally h).eq _⟩
theorem put_class {f : α → β} {x : R α} {x' : R β} (ct) (h : Put g f x x') :
    Put g f (withClassType ct x) (withClassType ct x') := ⟨fun _ => (put_finally h).eq _⟩

theorem put_limit {n x loc} : Put g id (ensureScopeIndexLimit n x loc) (ensureScopeIndexLimit n x (g loc)) :=
  put_ite put_throw (put_pure rfl)

theorem put_define (x loc) : Put g id (define x loc) (define x (g loc)) := by
  unfold define
  refine put_bind put_get fun rs => ?_
  dsimp only [id]
  cases rs.scopes with
  | nil => exact put_panic
  | cons s ss =>
    refine put_bind put_limit fun _ => ?_
    cases s.get x with
    | none => exact put_modify
    | some st =>
      cases hst : st.definedState <;> simp only [hst]
      · exact put_modify
      · exact put_modify
      · exact put_ite put_throw (put_pure rfl)

theorem put_declare (x loc) : Put g id (declare x loc) (declare x (g loc)) := by
  unfold declare
  refine put_bind put_get fun rs => ?_
  dsimp only [id]
  cases rs.scopes with
  | nil => exact put_panic
  | cons s ss =>
    refine put_bind put_limit fun _ => ?_
    cases s.get x with
    | none => exact put_bind put_modify fun _ => put_pure rfl
    | some st =>
      cases hst : st.definedState <;> simp only [hst]
      · exact put_bind put_modify fun _ => put_pure rfl
      · exact put_ite (put_pure rfl) put_throw
      · exact put_ite (put_pure rfl) put_throw

theorem put_reserve (x loc) : Put g id (forwardReserveGlobalVar x loc) (forwardReserveGlobalVar x (g loc)) := by
  unfold forwardReserveGlobalVar
  refine put_bind put_get fun rs => ?_
  dsimp only [id]
  cases rs.scopes.getLast? with
  | none => exact put_panic
  | some s =>
    refine put_bind put_limit fun _ => ?_
    cases s.get x with
    | none => exact put_bind put_modify fun _ => put_pure rfl
    | some st => exact put_panic

theorem put_local (x loc) : Put g id (resolveLocalVariable x loc) (resolveLocalVariable x (g loc)) := by
  unfold resolveLocalVariable
  refine put_bind put_get fun rs => ?_
  dsimp only [id]
  cases findVar x rs.scopes 0 with
  | some p => exact put_pure rfl
  | none => exact put_bind (put_reserve x loc) fun n => put_ite (put_pure rfl) put_panic

theorem put_variable (x loc) : Put g id (resolveVariable x loc) (resolveVariable x (g loc)) := by
  unfold resolveVariable
  refine put_bind put_get fun rs => put_ite put_throw ?_
  dsimp only [id]
  cases rs.scopes with
  | nil => exact put_panic
  | cons s ss => exact put_ite put_throw (put_local x loc)

theorem put_super (loc) : Put g id (resolveSuper loc) (resolveSuper (g loc)) := by
  unfold resolveSuper
  refine put_bind put_get fun rs => ?_
  dsimp only [id]
  cases rs.classType
  · exact put_throw
  · exact put_throw
  · exact put_local _ loc

theorem put_return (e loc) : Put g id (checkReturn e loc) (checkReturn (moveExpr g e) (g loc)) := by
  unfold checkReturn
  refine put_bind put_get fun rs => ?_
  dsimp only [id]
  cases rs.functionType
  · exact put_throw
  · exact put_pure rfl
  · cases e <;> simp only [moveExpr] <;> first | exact put_throw | exact put_pure rfl
  · exact put_pure rfl

theorem put_superclass (x e) : Put g id (checkSuperclass x (some e)) (checkSuperclass x (some (moveExpr g e))) := by
  unfold checkSuperclass
  cases e <;> simp only [moveExpr] <;> first | exact put_pure rfl | exact put_ite put_throw (put_pure rfl)

theorem put_params : ∀ ps : List Parameter, Put g id (defineParams ps) (defineParams (ps.map (moveParam g)))
  | [] => put_pure rfl
  | p :: ps => put_bind (put_define p.name p.loc) fun _ => put_params ps

theorem moveFun_loc (d : FunDef) : (moveFun g d).loc = g d.loc := by cases d; simp [moveFun, FunDef.loc]

mutual
theorem put_stmt : ∀ s, Put g (moveStmt g) (resolveStmt s) (resolveStmt (moveStmt g s))
  | .block b => by
    simp only [resolveStmt, moveStmt]
    exact put_bind (put_scope (put_stmts b)) fun _ => put_pure (by simp only [moveStmt])
  | .break loc => by
    simp only [resolveStmt, moveStmt]
    exact put_pure (by simp only [moveStmt])
  | .continue loc => by
    simp only [resolveStmt, moveStmt]
    exact put_pure (by simp only [moveStmt])
  | .class x none ms loc => by
    simp only [resolveStmt, moveStmt]
    refine put_class _ (put_bind (put_define x loc) fun _ => put_bind (f := id) (put_pure rfl) fun _ =>
      put_bind (f := moveMethods g) ?_ fun _ => put_pure (by simp only [moveStmt]))
    have := put_define (g := g) c!"this" loc
    exact put_scope (put_bind this fun _ => put_methods ms)
  | .class x (some e) ms loc => by
    simp only [resolveStmt, moveStmt]
    refine put_class _ (put_bind (put_define x loc) fun _ => put_bind (put_superclass x e) fun _ =>
      put_bind (put_expr e) fun _ =>
      put_bind (f := moveMethods g) ?_ fun _ => put_pure (by simp only [moveStmt]))
    have h1 := put_define (g := g) c!"this" loc
    have h2 := put_define (g := g) c!"super" loc
    exact put_scope (put_bind h2 fun _ => put_scope (put_bind h1 fun _ => put_methods ms))
  | .expression e => by
    simp only [resolveStmt, moveStmt]
    exact put_bind (put_expr e) fun _ => put_pure (by simp only [moveStmt])
  | .print e => by
    simp only [resolveStmt, moveStmt]
    exact put_bind (put_expr e) fun _ => put_pure (by simp only [moveStmt])
  | .fun (.mk x d) => by
    simp only [resolveStmt, moveStmt, moveFun_loc]
    exact put_bind (put_define x d.loc) fun _ => put_bind (put_fn _ d) fun _ => put_pure (by simp only [moveStmt])
  | .if c a none => by
    simp only [resolveStmt, moveStmt]
    exact put_bind (put_expr c) fun _ => put_bind (put_stmt a) fun _ => put_pure (by simp only [moveStmt])
  | .if c a (some b) => by
    simp only [resolveStmt, moveStmt]
    exact put_bind (put_expr c) fun _ => put_bind (put_stmt a) fun _ =>
      put_bind (put_stmt b) fun _ => put_pure (by simp only [moveStmt])
  | .return e loc => by
    simp only [resolveStmt, moveStmt]
    exact put_bind (put_return e loc) fun _ => put_bind (put_expr e) fun _ => put_pure (by simp only [moveStmt])
  | .var x c e loc => by
    simp only [resolveStmt, moveStmt]
    exact put_bind (put_declare x loc) fun _ => put_bind (put_expr e) fun _ =>
      put_bind (put_define x loc) fun _ => put_pure (by simp only [moveStmt, id])
  | .while c b => by
    simp only [resolveStmt, moveStmt]
    exact put_bind (put_expr c) fun _ => put_bind (put_stmt b) fun _ => put_pure (by simp only [moveStmt])
  | .whileIncrement c b i => by
    simp only [resolveStmt, moveStmt]
    exact put_bind (put_expr c) fun _ => put_bind (put_stmt b) fun _ =>
      put_bind (put_expr i) fun _ => put_pure (by simp only [moveStmt])

theorem put_stmts : ∀ ss, Put g (moveStmts g) (resolveStmts ss) (resolveStmts (moveStmts g ss))
  | [] => by
    simp only [resolveStmts, moveStmts]
    exact put_pure (by simp only [moveStmts])
  | s :: ss => by
    simp only [resolveStmts, moveStmts]
    exact put_bind (put_stmt s) fun _ => put_bind (put_stmts ss) fun _ => put_pure (by simp only [moveStmts])

theorem put_expr : ∀ e, Put g (moveExpr g) (resolveExpr e) (resolveExpr (moveExpr g e))
  | .assign x c r loc => by
    simp only [resolveExpr, moveExpr]
    exact put_bind (put_expr r) fun _ => put_bind (put_local x loc) fun _ => put_pure (by simp only [moveExpr, id])
  | .binary a op b loc => by
    simp only [resolveExpr, moveExpr]
    exact put_bind (put_expr a) fun _ => put_bind (put_expr b) fun _ => put_pure (by simp only [moveExpr])
  | .call f args loc => by
    simp only [resolveExpr, moveExpr]
    exact put_bind (put_expr f) fun _ => put_bind (put_exprs args) fun _ => put_pure (by simp only [moveExpr])
  | .function d => by
    simp only [resolveExpr, moveExpr]
    exact put_bind (put_fn _ d) fun _ => put_pure (by simp only [moveExpr])
  | .get o n loc => by
    simp only [resolveExpr, moveExpr]
    exact put_bind (put_expr o) fun _ => put_pure (by simp only [moveExpr])
  | .getIndex a b loc => by
    simp only [resolveExpr, moveExpr]
    exact put_bind (put_expr a) fun _ => put_bind (put_expr b) fun _ => put_pure (by simp only [moveExpr])
  | .grouping e => by
    simp only [resolveExpr, moveExpr]
    exact put_bind (put_expr e) fun _ => put_pure (by simp only [moveExpr])
  | .literalArray es => by
    simp only [resolveExpr, moveExpr]
    exact put_bind (put_exprs es) fun _ => put_pure (by simp only [moveExpr])
  | .literalBool b => by
    simp only [resolveExpr, moveExpr]
    exact put_pure (by simp only [moveExpr])
  | .literalMap ms => by
    simp only [resolveExpr, moveExpr]
    exact put_bind (put_entries ms) fun _ => put_pure (by simp only [moveExpr])
  | .literalNil => by
    simp only [resolveExpr, moveExpr]
    exact put_pure (by simp only [moveExpr])
  | .literalNumber x => by
    simp only [resolveExpr, moveExpr]
    exact put_pure (by simp only [moveExpr])
  | .literalString x => by
    simp only [resolveExpr, moveExpr]
    exact put_pure (by simp only [moveExpr])
  | .logical a op b => by
    simp only [resolveExpr, moveExpr]
    exact put_bind (put_expr a) fun _ => put_bind (put_expr b) fun _ => put_pure (by simp only [moveExpr])
  | .set a n b loc => by
    simp only [resolveExpr, moveExpr]
    exact put_bind (put_expr a) fun _ => put_bind (put_expr b) fun _ => put_pure (by simp only [moveExpr])
  | .setIndex a b c loc => by
    simp only [resolveExpr, moveExpr]
    exact put_bind (put_expr a) fun _ => put_bind (put_expr b) fun _ =>
      put_bind (put_expr c) fun _ => put_pure (by simp only [moveExpr])
  | .super c n loc => by
    simp only [resolveExpr, moveExpr]
    exact put_bind (put_super loc) fun _ => put_pure (by simp only [moveExpr, id])
  | .unary op e loc => by
    simp only [resolveExpr, moveExpr]
    exact put_bind (put_expr e) fun _ => put_pure (by simp only [moveExpr])
  | .variable x c loc => by
    simp only [resolveExpr, moveExpr]
    exact put_bind (put_variable x loc) fun _ => put_pure (by simp only [moveExpr, id])

theorem put_exprs : ∀ es, Put g (moveExprs g) (resolveExprs es) (resolveExprs (moveExprs g es))
  | [] => by
    simp only [resolveExprs, moveExprs]
    exact put_pure (by simp only [moveExprs])
  | s :: ss => by
    simp only [resolveExprs, moveExprs]
    exact put_bind (put_expr s) fun _ => put_bind (put_exprs ss) fun _ => put_pure (by simp only [moveExprs])

theorem put_entries : ∀ ms, Put g (moveEntries g) (resolveEntries ms) (resolveEntries (moveEntries g ms))
  | [] => by
    simp only [resolveEntries, moveEntries]
    exact put_pure (by simp only [moveEntries])
  | .mk k v :: ms => by
    simp only [resolveEntries, moveEntries]
    exact put_bind (put_expr v) fun _ => put_bind (put_entries ms) fun _ => put_pure (by simp only [moveEntries])

theorem put_methods : ∀ ms, Put g (moveMethods g) (resolveMethods ms) (resolveMethods (moveMethods g ms))
  | [] => by
    simp only [resolveMethods, moveMethods]
    exact put_pure (by simp only [moveMethods])
  | .mk k d :: ms => by
    simp only [resolveMethods, moveMethods]
    exact put_bind (put_fn _ d) fun _ => put_bind (put_methods ms) fun _ => put_pure (by simp only [moveMethods])

theorem put_fn : ∀ ft d, Put g (moveFun g) (resolveFunction ft d) (resolveFunction ft (moveFun g d))
  | ft, .mk ps b k loc => by
    simp only [resolveFunction, moveFun]
    exact put_bind (put_function _ (put_scope (put_bind (put_params ps) fun _ => put_stmts b))) fun _ =>
      put_pure (by simp only [moveFun])
end

/-- The statements, the errors and the resolver at the end. -/
def putAcc (g : SourceLoc → SourceLoc) (x : List Stmt × List Cause × Resolver) : List Stmt × List Cause × Resolver :=
  (moveStmts g x.1, x.2.1.map (moveCause g), x.2.2)

theorem resolveLoop_moved : ∀ (sts : List Stmt) (rs : Resolver),
    resolveLoop (moveStmts g sts) rs = mapOutcome (putAcc g) (resolveLoop sts rs)
  | [], rs => by simp [moveStmts, resolveLoop, mapOutcome, putAcc]
  | st :: sts, rs => by
    simp only [moveStmts, resolveLoop]
    rw [(put_stmt st).eq]
    cases resolveStmt st rs with
    | ok st' rs' =>
      simp only [Res.put]
      rw [resolveLoop_moved sts rs']
      cases resolveLoop sts rs' <;> simp [bind, Outcome.bind, mapOutcome, putAcc, moveStmts]
    | err e rs' =>
      simp only [Res.put]
      rw [resolveLoop_moved sts rs']
      cases resolveLoop sts rs' <;> simp [bind, Outcome.bind, mapOutcome, putAcc, moveStmts]
    | panic m => rfl
    | diverge => rfl

/-- Resolving a moved program. -/
theorem resolve_moved (rs : Resolver) (sts : List Stmt) :
    rs.resolve (moveStmts g sts) = mapOutcome (fun x => (moveResult g (moveStmts g) x.1, x.2)) (rs.resolve sts) := by
  unfold Resolver.resolve
  rw [resolveLoop_moved]
  cases resolveLoop sts rs with
  | done x =>
    obtain ⟨sts', es, rs'⟩ := x
    simp only [bind, Outcome.bind, mapOutcome, putAcc, List.isEmpty_map]
    split <;> rfl
  | panic m => rfl
  | diverge => rfl

end Ws
