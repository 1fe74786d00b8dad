import Verif.Proofs.Resolve.Top
import Verif.Spec.Face
/-! Resolving a program with other truth values. -/
namespace Ws
open Ws.Spec

theorem ren_id : Renaming id := ⟨fun _ _ h => h, rfl, rfl⟩

theorem truthful_return (e loc) : Ren id id (checkReturn e loc) (checkReturn (truthExpr e) loc) := by
  intro rs
  unfold checkReturn
  show RenRes id id (M.bind M.get _ rs) (M.bind M.get _ (rs.rename id))
  simp only [M.bind, M.get]
  have : (rs.rename id).functionType = rs.functionType := rfl
  rw [this]
  cases rs.functionType with
  | noFunction => exact ren_throw_same _ rs
  | plain => exact .ok _ rs
  | method => exact .ok _ rs
  | initializer =>
    cases e <;> simp only [truthExpr] <;> first | exact ren_throw_same _ rs | exact .ok _ rs

theorem truthful_superclass (x e) : Ren id id (checkSuperclass x (some e)) (checkSuperclass (x) (some (truthExpr e))) := by
  intro rs
  unfold checkSuperclass
  cases e with
  | «variable» y c loc =>
    simp only [truthExpr]
    by_cases h : y = x
    · subst h
      rw [if_pos rfl]
      exact ren_throw _ _ _ rs
    · rw [if_neg h]
      exact .ok _ rs
  | _ => simp only [truthExpr]; exact .ok _ rs

theorem truthFun_loc (d : FunDef) : (truthFun d).loc = d.loc := by
  cases d; simp [truthFun, FunDef.loc]

mutual
theorem truthful_stmt : ∀ s, Ren id (truthStmt) (resolveStmt s) (resolveStmt (truthStmt s))
  | .block b => by
    simp only [resolveStmt, truthStmt]
    exact ren_bind (ren_scope (truthful_stmts b)) fun _ => ren_pure (by simp only [truthStmt])
  | .break loc => by
    simp only [resolveStmt, truthStmt]
    exact ren_pure (by simp only [truthStmt])
  | .continue loc => by
    simp only [resolveStmt, truthStmt]
    exact ren_pure (by simp only [truthStmt])
  | .class x none ms loc => by
    simp only [resolveStmt, truthStmt]
    refine ren_class _ (ren_bind (ren_define ren_id x loc) fun _ => ren_bind (f := id) (fun rs => .ok _ rs) fun _ =>
      ren_bind (f := truthMethods) ?_ fun _ => ren_pure (by simp only [truthStmt]))
    have := ren_define ren_id c!"this" loc
    rw [ren_id.this] at this
    exact ren_scope (ren_bind this fun _ => truthful_methods ms)
  | .class x (some e) ms loc => by
    simp only [resolveStmt, truthStmt]
    refine ren_class _ (ren_bind (ren_define ren_id x loc) fun _ => ren_bind (truthful_superclass x e) fun _ =>
      ren_bind (truthful_expr e) fun _ =>
      ren_bind (f := truthMethods) ?_ fun _ => ren_pure (by simp only [truthStmt]))
    have h1 := ren_define ren_id c!"this" loc
    have h2 := ren_define ren_id c!"super" loc
    rw [ren_id.this] at h1
    rw [ren_id.super] at h2
    exact ren_scope (ren_bind h2 fun _ => ren_scope (ren_bind h1 fun _ => truthful_methods ms))
  | .expression e => by
    simp only [resolveStmt, truthStmt]
    exact ren_bind (truthful_expr e) fun _ => ren_pure (by simp only [truthStmt])
  | .print e => by
    simp only [resolveStmt, truthStmt]
    exact ren_bind (truthful_expr e) fun _ => ren_pure (by simp only [truthStmt])
  | .fun (.mk x d) => by
    simp only [resolveStmt, truthStmt, truthFun_loc]
    exact ren_bind (ren_define ren_id x d.loc) fun _ => ren_bind (truthful_fn _ d) fun _ => ren_pure (by simp only [truthStmt])
  | .if c a none => by
    simp only [resolveStmt, truthStmt]
    exact ren_bind (truthful_expr c) fun _ => ren_bind (truthful_stmt a) fun _ => ren_pure (by simp only [truthStmt])
  | .if c a (some b) => by
    simp only [resolveStmt, truthStmt]
    exact ren_bind (truthful_expr c) fun _ => ren_bind (truthful_stmt a) fun _ =>
      ren_bind (truthful_stmt b) fun _ => ren_pure (by simp only [truthStmt])
  | .return e loc => by
    simp only [resolveStmt, truthStmt]
    exact ren_bind (truthful_return e loc) fun _ => ren_bind (truthful_expr e) fun _ => ren_pure (by simp only [truthStmt])
  | .var x c e loc => by
    simp only [resolveStmt, truthStmt]
    exact ren_bind (ren_declare ren_id x loc) fun _ => ren_bind (truthful_expr e) fun _ =>
      ren_bind (ren_define ren_id x loc) fun _ => ren_pure (by simp only [truthStmt, id])
  | .while c b => by
    simp only [resolveStmt, truthStmt]
    exact ren_bind (truthful_expr c) fun _ => ren_bind (truthful_stmt b) fun _ => ren_pure (by simp only [truthStmt])
  | .whileIncrement c b i => by
    simp only [resolveStmt, truthStmt]
    exact ren_bind (truthful_expr c) fun _ => ren_bind (truthful_stmt b) fun _ =>
      ren_bind (truthful_expr i) fun _ => ren_pure (by simp only [truthStmt])

theorem truthful_stmts : ∀ ss, Ren id (truthStmts) (resolveStmts ss) (resolveStmts (truthStmts ss))
  | [] => by
    simp only [resolveStmts, truthStmts]
    exact ren_pure (by simp only [truthStmts])
  | s :: ss => by
    simp only [resolveStmts, truthStmts]
    exact ren_bind (truthful_stmt s) fun _ => ren_bind (truthful_stmts ss) fun _ => ren_pure (by simp only [truthStmts])

theorem truthful_expr : ∀ e, Ren id (truthExpr) (resolveExpr e) (resolveExpr (truthExpr e))
  | .assign x c r loc => by
    simp only [resolveExpr, truthExpr]
    exact ren_bind (truthful_expr r) fun _ => ren_bind (ren_local ren_id x loc) fun _ => ren_pure (by simp only [truthExpr, id])
  | .binary a op b loc => by
    simp only [resolveExpr, truthExpr]
    exact ren_bind (truthful_expr a) fun _ => ren_bind (truthful_expr b) fun _ => ren_pure (by simp only [truthExpr])
  | .call f args loc => by
    simp only [resolveExpr, truthExpr]
    exact ren_bind (truthful_expr f) fun _ => ren_bind (truthful_exprs args) fun _ => ren_pure (by simp only [truthExpr])
  | .function d => by
    simp only [resolveExpr, truthExpr]
    exact ren_bind (truthful_fn _ d) fun _ => ren_pure (by simp only [truthExpr])
  | .get o n loc => by
    simp only [resolveExpr, truthExpr]
    exact ren_bind (truthful_expr o) fun _ => ren_pure (by simp only [truthExpr])
  | .getIndex a b loc => by
    simp only [resolveExpr, truthExpr]
    exact ren_bind (truthful_expr a) fun _ => ren_bind (truthful_expr b) fun _ => ren_pure (by simp only [truthExpr])
  | .grouping e => by
    simp only [resolveExpr, truthExpr]
    exact ren_bind (truthful_expr e) fun _ => ren_pure (by simp only [truthExpr])
  | .literalArray es => by
    simp only [resolveExpr, truthExpr]
    exact ren_bind (truthful_exprs es) fun _ => ren_pure (by simp only [truthExpr])
  | .literalBool b => by
    simp only [resolveExpr, truthExpr]
    exact ren_pure (by simp only [truthExpr])
  | .literalMap ms => by
    simp only [resolveExpr, truthExpr]
    exact ren_bind (truthful_entries ms) fun _ => ren_pure (by simp only [truthExpr])
  | .literalNil => by
    simp only [resolveExpr, truthExpr]
    exact ren_pure (by simp only [truthExpr])
  | .literalNumber x => by
    simp only [resolveExpr, truthExpr]
    exact ren_pure (by simp only [truthExpr])
  | .literalString x => by
    simp only [resolveExpr, truthExpr]
    exact ren_pure (by simp only [truthExpr])
  | .logical a op b => by
    simp only [resolveExpr, truthExpr]
    exact ren_bind (truthful_expr a) fun _ => ren_bind (truthful_expr b) fun _ => ren_pure (by simp only [truthExpr])
  | .set a n b loc => by
    simp only [resolveExpr, truthExpr]
    exact ren_bind (truthful_expr a) fun _ => ren_bind (truthful_expr b) fun _ => ren_pure (by simp only [truthExpr])
  | .setIndex a b c loc => by
    simp only [resolveExpr, truthExpr]
    exact ren_bind (truthful_expr a) fun _ => ren_bind (truthful_expr b) fun _ =>
      ren_bind (truthful_expr c) fun _ => ren_pure (by simp only [truthExpr])
  | .super c n loc => by
    simp only [resolveExpr, truthExpr]
    exact ren_bind (ren_super ren_id loc) fun _ => ren_pure (by simp only [truthExpr, id])
  | .unary op e loc => by
    simp only [resolveExpr, truthExpr]
    exact ren_bind (truthful_expr e) fun _ => ren_pure (by simp only [truthExpr])
  | .variable x c loc => by
    simp only [resolveExpr, truthExpr]
    exact ren_bind (ren_variable ren_id x loc) fun _ => ren_pure (by simp only [truthExpr, id])

theorem truthful_exprs : ∀ es, Ren id (truthExprs) (resolveExprs es) (resolveExprs (truthExprs es))
  | [] => by
    simp only [resolveExprs, truthExprs]
    exact ren_pure (by simp only [truthExprs])
  | s :: ss => by
    simp only [resolveExprs, truthExprs]
    exact ren_bind (truthful_expr s) fun _ => ren_bind (truthful_exprs ss) fun _ => ren_pure (by simp only [truthExprs])

theorem truthful_entries : ∀ ms, Ren id (truthEntries) (resolveEntries ms) (resolveEntries (truthEntries ms))
  | [] => by
    simp only [resolveEntries, truthEntries]
    exact ren_pure (by simp only [truthEntries])
  | .mk k v :: ms => by
    simp only [resolveEntries, truthEntries]
    exact ren_bind (truthful_expr v) fun _ => ren_bind (truthful_entries ms) fun _ => ren_pure (by simp only [truthEntries])

theorem truthful_methods : ∀ ms, Ren id (truthMethods) (resolveMethods ms) (resolveMethods (truthMethods ms))
  | [] => by
    simp only [resolveMethods, truthMethods]
    exact ren_pure (by simp only [truthMethods])
  | .mk k d :: ms => by
    simp only [resolveMethods, truthMethods]
    exact ren_bind (truthful_fn _ d) fun _ => ren_bind (truthful_methods ms) fun _ => ren_pure (by simp only [truthMethods])

theorem truthful_fn : ∀ ft d, Ren id (truthFun) (resolveFunction ft d) (resolveFunction ft (truthFun d))
  | ft, .mk ps b k loc => by
    simp only [resolveFunction, truthFun]
    have hp : ps.map (fun p => { p with name := id p.name }) = ps := by simp
    have h1 := ren_params ren_id ps
    rw [hp] at h1
    exact ren_bind (ren_function _ (ren_scope (ren_bind h1 fun _ => truthful_stmts b))) fun _ =>
      ren_pure (by simp only [truthFun])
end

/-- The results of resolving a program and the program with other truth values. -/
inductive TruthLoop : Outcome (List Stmt × List Cause × Resolver) → Outcome (List Stmt × List Cause × Resolver) → Prop
  | done (sts es es' rs) : RenamedCauses id es es' →
      TruthLoop (.done (sts, es, rs)) (.done (truthStmts sts, es', rs.rename id))
  | panic (m) : TruthLoop (.panic m) (.panic m)
  | diverge : TruthLoop .diverge .diverge

theorem loop_truth : ∀ (sts : List Stmt) (rs : Resolver),
    TruthLoop (resolveLoop sts rs) (resolveLoop (truthStmts sts) (rs.rename id))
  | [], rs => by
    simp only [truthStmts, resolveLoop]
    have := TruthLoop.done [] [] [] rs .nil
    simpa only [truthStmts] using this
  | s :: ss, rs => by
    simp only [truthStmts, resolveLoop]
    have h := truthful_stmt s rs
    revert h
    generalize resolveStmt s rs = r
    generalize resolveStmt (truthStmt s) (rs.rename id) = r'
    intro h
    cases h with
    | ok a rs1 =>
      have := loop_truth ss rs1
      simp only [bind, Outcome.bind]
      revert this
      generalize resolveLoop ss rs1 = q
      generalize resolveLoop (truthStmts ss) (rs1.rename id) = q'
      intro h
      cases h with
      | done sts es es' rs2 h =>
        have := TruthLoop.done (a :: sts) es es' rs2 h
        simpa only [truthStmts] using this
      | panic m => exact .panic m
      | diverge => exact .diverge
    | @err c c' rs1 hc =>
      have := loop_truth ss rs1
      simp only [bind, Outcome.bind]
      revert this
      generalize resolveLoop ss rs1 = q
      generalize resolveLoop (truthStmts ss) (rs1.rename id) = q'
      intro h
      cases h with
      | done sts es es' rs2 h =>
        have := TruthLoop.done (s :: sts) (c :: es) (c' :: es') rs2 (.cons hc h)
        simpa only [truthStmts] using this
      | panic m => exact .panic m
      | diverge => exact .diverge
    | panic m => exact .panic m
    | diverge => exact .diverge

theorem resolve_truth {sts out : List Stmt} {rs' : Resolver} (h : Resolver.new.resolve sts = .done (.ok out, rs')) :
    ∃ rs'', Resolver.new.resolve (truthStmts sts) = .done (.ok (truthStmts out), rs'') := by
  have hl := loop_truth sts .new
  rw [show Resolver.new.rename id = Resolver.new from rfl] at hl
  simp only [resolve_loop] at h ⊢
  revert h hl
  generalize resolveLoop sts .new = r
  generalize resolveLoop (truthStmts sts) .new = r'
  intro hl h
  cases hl with
  | done ss es es' rs he =>
    cases he with
    | nil => cases h; exact ⟨_, rfl⟩
    | cons hc hcs => cases h
  | panic m => cases h
  | diverge => cases h

end Ws
