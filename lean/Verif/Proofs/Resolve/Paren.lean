import Verif.Proofs.Resolve.Positions
import Verif.Proofs.Resolve.Erase
import Verif.Spec.Paren
/-! The resolver does not look at parentheses, except for `return (nil)`. -/
namespace Ws
open Ws.Spec

variable {α β γ : Type}

theorem put_refl {x : R α} : Put id id x x := ⟨fun rs => by cases h : x rs <;> rfl⟩

theorem put_grouping {x x' : R Expr} (h : Put id (ungroupExpr true) x x') :
    Put id (ungroupExpr true) (x >>= fun e => pure (.grouping e)) x' := by
  refine ⟨fun rs => ?_⟩
  show x' rs = Res.put id _ (M.bind x _ rs)
  rw [h.eq]
  unfold M.bind
  cases x rs with
  | ok a rs' => show _ = Res.ok (ungroupExpr true (.grouping a)) rs'; simp only [ungroupExpr]; rfl
  | err e rs' => rfl
  | panic m => rfl
  | diverge => rfl

theorem coreNil_erase : ∀ e, coreNil (eraseExpr e) = coreNil e
  | .grouping e => by simp only [eraseExpr, coreNil]; exact coreNil_erase e
  | .assign .. | .call .. | .binary .. | .function .. | .get .. | .getIndex .. | .literalArray .. | .literalMap ..
  | .logical .. | .set .. | .setIndex .. | .super .. | .variable .. | .unary .. | .literalBool .. | .literalNumber ..
  | .literalNil | .literalString .. => by simp only [eraseExpr, coreNil]

theorem parenNil_erase (e) : parenNil (eraseExpr e) = parenNil e := by
  cases e <;> simp only [eraseExpr, parenNil]
  exact coreNil_erase _

theorem resolveExpr_parenNil {e e' : Expr} {rs rs'} (h : resolveExpr e rs = .ok e' rs') : parenNil e' = parenNil e := by
  have := resolved_erase (resolved_expr e h)
  simp only [eraseItem, eraseNode, Item.node.injEq, Node.expr.injEq] at this
  rw [← parenNil_erase, ← this, parenNil_erase]

theorem coreNil_ungroup : ∀ {e}, coreNil e = true → ungroupExpr true e = .literalNil
  | .literalNil, _ => by simp only [ungroupExpr]
  | .grouping e, h => by simp only [ungroupExpr]; exact coreNil_ungroup (by simpa only [coreNil] using h)
theorem ungroup_coreNil : ∀ {e}, ungroupExpr true e = .literalNil → coreNil e = true
  | .literalNil, _ => rfl
  | .grouping e, h => by
    simp only [ungroupExpr] at h
    simpa only [coreNil] using ungroup_coreNil h
  | .assign .., h | .call .., h | .binary .., h | .function .., h | .get .., h | .getIndex .., h | .literalArray .., h
  | .literalMap .., h | .logical .., h | .set .., h | .setIndex .., h | .super .., h | .variable .., h | .unary .., h
  | .literalBool .., h | .literalNumber .., h | .literalString .., h => by simp [ungroupExpr] at h

/-- The operand of a return statement without its parentheses. -/
def returned (e : Expr) : Expr := if parenNil e then .grouping .literalNil else ungroupExpr true e

theorem checkReturn_eq {e e' : Expr} (h : e = .literalNil ↔ e' = .literalNil) (loc) : checkReturn e loc = checkReturn e' loc := by
  by_cases he : e = .literalNil
  · rw [he, h.1 he]
  · have he' := mt h.2 he
    unfold checkReturn
    congr 1
    funext rs
    cases rs.functionType <;> simp only

theorem check_ungrouped (e : Expr) (loc) :
    checkReturn (if parenNil e then .grouping .literalNil else ungroupExpr true e) loc = checkReturn e loc := by
  refine checkReturn_eq ?_ loc
  split
  · rename_i h
    cases e <;> simp [parenNil] at h ⊢
  · rename_i h
    refine ⟨fun hu => ?_, fun he => by rw [he]; simp only [ungroupExpr]⟩
    have := ungroup_coreNil hu
    cases e <;> simp_all [parenNil, coreNil]

theorem put_returned {e : Expr} (h : Put id (ungroupExpr true) (resolveExpr e) (resolveExpr (ungroupExpr true e))) :
    Put id returned (resolveExpr e) (resolveExpr (if parenNil e then .grouping .literalNil else ungroupExpr true e)) := by
  refine ⟨fun rs => ?_⟩
  have h := h.eq rs
  by_cases hn : parenNil e = true
  · rw [if_pos hn]
    have hc : ungroupExpr true e = .literalNil := by
      cases e <;> simp only [parenNil, Bool.false_eq_true] at hn
      simp only [ungroupExpr]
      exact coreNil_ungroup hn
    rw [hc] at h
    have e1 : resolveExpr .literalNil rs = .ok .literalNil rs := by simp only [resolveExpr]; rfl
    have e2 : resolveExpr (.grouping .literalNil) rs = .ok (.grouping .literalNil) rs := by simp only [resolveExpr]; rfl
    rw [e1] at h
    rw [e2]
    cases hr : resolveExpr e rs with
    | ok a rs' =>
      rw [hr] at h
      have := resolveExpr_parenNil hr
      have h : Res.ok Expr.literalNil rs = Res.ok _ rs' := h
      injection h with h1 h2
      show _ = Res.ok (returned a) rs'
      rw [returned, if_pos (by rw [this, hn]), h2]
    | err c rs' => rw [hr] at h; cases h
    | panic m => rw [hr] at h; cases h
    | diverge => rw [hr] at h; cases h
  · rw [if_neg hn, h]
    cases hr : resolveExpr e rs with
    | ok a rs' =>
      have := resolveExpr_parenNil hr
      show Res.ok _ rs' = Res.ok (returned a) rs'
      rw [returned, if_neg (by rw [this]; exact hn)]
    | err c rs' => rfl
    | panic m => rfl
    | diverge => rfl

theorem ungroupFun_loc (d : FunDef) : (ungroupFun true d).loc = d.loc := by cases d; simp [ungroupFun, FunDef.loc]

mutual
theorem ung_stmt : ∀ s, Put id (ungroupStmt true) (resolveStmt s) (resolveStmt (ungroupStmt true s))
  | .block b => by
    simp only [resolveStmt, ungroupStmt]
    exact put_bind (put_scope (ung_stmts b)) fun _ => put_pure (by simp only [ungroupStmt])
  | .break loc => by
    simp only [resolveStmt, ungroupStmt]
    exact put_pure (by simp only [ungroupStmt])
  | .continue loc => by
    simp only [resolveStmt, ungroupStmt]
    exact put_pure (by simp only [ungroupStmt])
  | .class x none ms loc => by
    simp only [resolveStmt, ungroupStmt]
    refine put_class _ (put_bind (put_define x loc) fun _ => put_bind (f := id) (put_pure rfl) fun _ =>
      put_bind (f := ungroupMethods true) ?_ fun _ => put_pure (by simp only [ungroupStmt]))
    have := put_define (g := id) c!"this" loc
    exact put_scope (put_bind this fun _ => ung_methods ms)
  | .class x (some e) ms loc => by
    simp only [resolveStmt, ungroupStmt]
    refine put_class _ (put_bind (put_define x loc) fun _ => put_bind put_refl fun _ =>
      put_bind put_refl fun _ =>
      put_bind (f := ungroupMethods true) ?_ fun _ => put_pure (by simp only [ungroupStmt, id]))
    have h1 := put_define (g := id) c!"this" loc
    have h2 := put_define (g := id) c!"super" loc
    exact put_scope (put_bind h2 fun _ => put_scope (put_bind h1 fun _ => ung_methods ms))
  | .expression e => by
    simp only [resolveStmt, ungroupStmt]
    exact put_bind (ung_expr e) fun _ => put_pure (by simp only [ungroupStmt])
  | .print e => by
    simp only [resolveStmt, ungroupStmt]
    exact put_bind (ung_expr e) fun _ => put_pure (by simp only [ungroupStmt])
  | .fun (.mk x d) => by
    simp only [resolveStmt, ungroupStmt, ungroupFun_loc]
    exact put_bind (put_define x d.loc) fun _ => put_bind (ung_fn _ d) fun _ => put_pure (by simp only [ungroupStmt])
  | .if c a none => by
    simp only [resolveStmt, ungroupStmt]
    exact put_bind (ung_expr c) fun _ => put_bind (ung_stmt a) fun _ => put_pure (by simp only [ungroupStmt])
  | .if c a (some b) => by
    simp only [resolveStmt, ungroupStmt]
    exact put_bind (ung_expr c) fun _ => put_bind (ung_stmt a) fun _ =>
      put_bind (ung_stmt b) fun _ => put_pure (by simp only [ungroupStmt])
  | .return e loc => by
    simp only [resolveStmt, ungroupStmt, Bool.true_and]
    rw [check_ungrouped]
    exact put_bind put_refl fun _ => put_bind (put_returned (ung_expr e)) fun _ => put_pure (by simp only [ungroupStmt, Bool.true_and, returned])
  | .var x c e loc => by
    simp only [resolveStmt, ungroupStmt]
    exact put_bind (put_declare x loc) fun _ => put_bind (ung_expr e) fun _ =>
      put_bind (put_define x loc) fun _ => put_pure (by simp only [ungroupStmt, id])
  | .while c b => by
    simp only [resolveStmt, ungroupStmt]
    exact put_bind (ung_expr c) fun _ => put_bind (ung_stmt b) fun _ => put_pure (by simp only [ungroupStmt])
  | .whileIncrement c b i => by
    simp only [resolveStmt, ungroupStmt]
    exact put_bind (ung_expr c) fun _ => put_bind (ung_stmt b) fun _ =>
      put_bind (ung_expr i) fun _ => put_pure (by simp only [ungroupStmt])

theorem ung_stmts : ∀ ss, Put id (ungroupStmts true) (resolveStmts ss) (resolveStmts (ungroupStmts true ss))
  | [] => by
    simp only [resolveStmts, ungroupStmts]
    exact put_pure (by simp only [ungroupStmts])
  | s :: ss => by
    simp only [resolveStmts, ungroupStmts]
    exact put_bind (ung_stmt s) fun _ => put_bind (ung_stmts ss) fun _ => put_pure (by simp only [ungroupStmts])

theorem ung_expr : ∀ e, Put id (ungroupExpr true) (resolveExpr e) (resolveExpr (ungroupExpr true e))
  | .assign x c r loc => by
    simp only [resolveExpr, ungroupExpr]
    exact put_bind (ung_expr r) fun _ => put_bind (put_local x loc) fun _ => put_pure (by simp only [ungroupExpr, id])
  | .binary a op b loc => by
    simp only [resolveExpr, ungroupExpr]
    exact put_bind (ung_expr a) fun _ => put_bind (ung_expr b) fun _ => put_pure (by simp only [ungroupExpr])
  | .call f args loc => by
    simp only [resolveExpr, ungroupExpr]
    exact put_bind (ung_expr f) fun _ => put_bind (ung_exprs args) fun _ => put_pure (by simp only [ungroupExpr])
  | .function d => by
    simp only [resolveExpr, ungroupExpr]
    exact put_bind (ung_fn _ d) fun _ => put_pure (by simp only [ungroupExpr])
  | .get o n loc => by
    simp only [resolveExpr, ungroupExpr]
    exact put_bind (ung_expr o) fun _ => put_pure (by simp only [ungroupExpr])
  | .getIndex a b loc => by
    simp only [resolveExpr, ungroupExpr]
    exact put_bind (ung_expr a) fun _ => put_bind (ung_expr b) fun _ => put_pure (by simp only [ungroupExpr])
  | .grouping e => by
    simp only [resolveExpr, ungroupExpr]
    exact put_grouping (ung_expr e)
  | .literalArray es => by
    simp only [resolveExpr, ungroupExpr]
    exact put_bind (ung_exprs es) fun _ => put_pure (by simp only [ungroupExpr])
  | .literalBool b => by
    simp only [resolveExpr, ungroupExpr]
    exact put_pure (by simp only [ungroupExpr])
  | .literalMap ms => by
    simp only [resolveExpr, ungroupExpr]
    exact put_bind (ung_entries ms) fun _ => put_pure (by simp only [ungroupExpr])
  | .literalNil => by
    simp only [resolveExpr, ungroupExpr]
    exact put_pure (by simp only [ungroupExpr])
  | .literalNumber x => by
    simp only [resolveExpr, ungroupExpr]
    exact put_pure (by simp only [ungroupExpr])
  | .literalString x => by
    simp only [resolveExpr, ungroupExpr]
    exact put_pure (by simp only [ungroupExpr])
  | .logical a op b => by
    simp only [resolveExpr, ungroupExpr]
    exact put_bind (ung_expr a) fun _ => put_bind (ung_expr b) fun _ => put_pure (by simp only [ungroupExpr])
  | .set a n b loc => by
    simp only [resolveExpr, ungroupExpr]
    exact put_bind (ung_expr a) fun _ => put_bind (ung_expr b) fun _ => put_pure (by simp only [ungroupExpr])
  | .setIndex a b c loc => by
    simp only [resolveExpr, ungroupExpr]
    exact put_bind (ung_expr a) fun _ => put_bind (ung_expr b) fun _ =>
      put_bind (ung_expr c) fun _ => put_pure (by simp only [ungroupExpr])
  | .super c n loc => by
    simp only [resolveExpr, ungroupExpr]
    exact put_bind (put_super loc) fun _ => put_pure (by simp only [ungroupExpr, id])
  | .unary op e loc => by
    simp only [resolveExpr, ungroupExpr]
    exact put_bind (ung_expr e) fun _ => put_pure (by simp only [ungroupExpr])
  | .variable x c loc => by
    simp only [resolveExpr, ungroupExpr]
    exact put_bind (put_variable x loc) fun _ => put_pure (by simp only [ungroupExpr, id])

theorem ung_exprs : ∀ es, Put id (ungroupExprs true) (resolveExprs es) (resolveExprs (ungroupExprs true es))
  | [] => by
    simp only [resolveExprs, ungroupExprs]
    exact put_pure (by simp only [ungroupExprs])
  | s :: ss => by
    simp only [resolveExprs, ungroupExprs]
    exact put_bind (ung_expr s) fun _ => put_bind (ung_exprs ss) fun _ => put_pure (by simp only [ungroupExprs])

theorem ung_entries : ∀ ms, Put id (ungroupEntries true) (resolveEntries ms) (resolveEntries (ungroupEntries true ms))
  | [] => by
    simp only [resolveEntries, ungroupEntries]
    exact put_pure (by simp only [ungroupEntries])
  | .mk k v :: ms => by
    simp only [resolveEntries, ungroupEntries]
    exact put_bind (ung_expr v) fun _ => put_bind (ung_entries ms) fun _ => put_pure (by simp only [ungroupEntries])

theorem ung_methods : ∀ ms, Put id (ungroupMethods true) (resolveMethods ms) (resolveMethods (ungroupMethods true ms))
  | [] => by
    simp only [resolveMethods, ungroupMethods]
    exact put_pure (by simp only [ungroupMethods])
  | .mk k d :: ms => by
    simp only [resolveMethods, ungroupMethods]
    exact put_bind (ung_fn _ d) fun _ => put_bind (ung_methods ms) fun _ => put_pure (by simp only [ungroupMethods])

theorem ung_fn : ∀ ft d, Put id (ungroupFun true) (resolveFunction ft d) (resolveFunction ft (ungroupFun true d))
  | ft, .mk ps b k loc => by
    simp only [resolveFunction, ungroupFun]
    exact put_bind (put_function _ (put_scope (put_bind put_refl fun _ => ung_stmts b))) fun _ =>
      put_pure (by simp only [ungroupFun])
end

/-- The statements, the errors and the resolver at the end. -/
def ungroupAcc (x : List Stmt × List Cause × Resolver) : List Stmt × List Cause × Resolver :=
  (ungroupStmts true x.1, x.2)

theorem resolveLoop_ungrouped : ∀ (sts : List Stmt) (rs : Resolver),
    resolveLoop (ungroupStmts true sts) rs = mapOutcome ungroupAcc (resolveLoop sts rs)
  | [], rs => by simp [ungroupStmts, resolveLoop, mapOutcome, ungroupAcc]
  | st :: sts, rs => by
    simp only [ungroupStmts, resolveLoop]
    rw [(ung_stmt st).eq]
    cases resolveStmt st rs with
    | ok st' rs' =>
      simp only [Res.put]
      rw [resolveLoop_ungrouped sts rs']
      cases resolveLoop sts rs' <;> simp [bind, Outcome.bind, mapOutcome, ungroupAcc, ungroupStmts]
    | err e rs' =>
      simp only [Res.put]
      rw [resolveLoop_ungrouped sts rs']
      cases resolveLoop sts rs' <;> simp [bind, Outcome.bind, mapOutcome, ungroupAcc, ungroupStmts, moveCause]
    | panic m => rfl
    | diverge => rfl

/-- Resolving a program without its parentheses. -/
theorem resolve_ungrouped (rs : Resolver) (sts : List Stmt) :
    rs.resolve (ungroupStmts true sts) = mapOutcome (fun x => (x.1.map (ungroupStmts true), x.2)) (rs.resolve sts) := by
  unfold Resolver.resolve
  rw [resolveLoop_ungrouped]
  cases resolveLoop sts rs with
  | done x =>
    obtain ⟨sts', es, rs'⟩ := x
    simp only [bind, Outcome.bind, mapOutcome, ungroupAcc]
    split <;> rfl
  | panic m => rfl
  | diverge => rfl

/-! ### Positions -/

variable {g : SourceLoc → SourceLoc} {k : Bool}

theorem coreNil_moved : ∀ e, coreNil (moveExpr g e) = coreNil e
  | .grouping e => by simp only [moveExpr, coreNil]; exact coreNil_moved e
  | .assign .. | .call .. | .binary .. | .function .. | .get .. | .getIndex .. | .literalArray .. | .literalMap ..
  | .logical .. | .set .. | .setIndex .. | .super .. | .variable .. | .unary .. | .literalBool .. | .literalNumber ..
  | .literalNil | .literalString .. => by simp only [moveExpr, coreNil]

theorem parenNil_moved (e) : parenNil (moveExpr g e) = parenNil e := by
  cases e <;> simp only [moveExpr, parenNil]
  exact coreNil_moved _

local macro "mv" "[" ts:Lean.Parser.Tactic.simpLemma,* "]" : tactic =>
  `(tactic| simp only [moveExpr, moveExprs, moveEntries, moveFun, moveMethods, moveStmt, moveStmts,
    ungroupExpr, ungroupExprs, ungroupEntries, ungroupFun, ungroupMethods, ungroupStmt, ungroupStmts, $ts,*])

mutual
theorem mv_expr : ∀ e, ungroupExpr k (moveExpr g e) = moveExpr g (ungroupExpr k e)
  | .assign x c r loc => by mv [mv_expr r]
  | .call f args loc => by mv [mv_expr f, mv_exprs args]
  | .binary a op b loc => by mv [mv_expr a, mv_expr b]
  | .function (.mk ps body kd loc) => by mv [mv_stmts body]
  | .get o x loc => by mv [mv_expr o]
  | .getIndex a i loc => by mv [mv_expr a, mv_expr i]
  | .grouping e => by mv [mv_expr e]
  | .literalArray es => by mv [mv_exprs es]
  | .literalMap ms => by mv [mv_entries ms]
  | .logical a op b => by mv [mv_expr a, mv_expr b]
  | .set o x v loc => by mv [mv_expr o, mv_expr v]
  | .setIndex a i v loc => by mv [mv_expr a, mv_expr i, mv_expr v]
  | .unary op e loc => by mv [mv_expr e]
  | .super .. | .variable .. | .literalBool _ | .literalNumber _ | .literalNil | .literalString _ => by mv []

theorem mv_exprs : ∀ es, ungroupExprs k (moveExprs g es) = moveExprs g (ungroupExprs k es)
  | [] => by mv []
  | e :: es => by mv [mv_expr e, mv_exprs es]

theorem mv_entries : ∀ ms, ungroupEntries k (moveEntries g ms) = moveEntries g (ungroupEntries k ms)
  | [] => by mv []
  | .mk x v :: ms => by mv [mv_expr v, mv_entries ms]

theorem mv_methods : ∀ ms, ungroupMethods k (moveMethods g ms) = moveMethods g (ungroupMethods k ms)
  | [] => by mv []
  | .mk x (.mk ps body kd loc) :: ms => by mv [mv_stmts body, mv_methods ms]

theorem mv_stmt : ∀ s, ungroupStmt k (moveStmt g s) = moveStmt g (ungroupStmt k s)
  | .block body => by mv [mv_stmts body]
  | .break _ | .continue _ => by mv []
  | .class x none ms loc => by mv [mv_methods ms]
  | .class x (some e) ms loc => by mv [mv_methods ms]
  | .expression e => by mv [mv_expr e]
  | .fun (.mk x (.mk ps body kd loc)) => by mv [mv_stmts body]
  | .if c a none => by mv [mv_expr c, mv_stmt a]
  | .if c a (some b) => by mv [mv_expr c, mv_stmt a, mv_stmt b]
  | .print e => by mv [mv_expr e]
  | .return e loc => by
    mv [mv_expr e, parenNil_moved]
    split <;> mv []
  | .var x s e loc => by mv [mv_expr e]
  | .while c b => by mv [mv_expr c, mv_stmt b]
  | .whileIncrement c b i => by mv [mv_expr c, mv_expr i, mv_stmt b]

theorem mv_stmts : ∀ ss, ungroupStmts k (moveStmts g ss) = moveStmts g (ungroupStmts k ss)
  | [] => by mv []
  | s :: ss => by mv [mv_stmt s, mv_stmts ss]
end

end Ws
