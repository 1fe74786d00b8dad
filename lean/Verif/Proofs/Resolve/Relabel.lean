import Verif.Proofs.Resolve.Top
import Verif.Spec.Relabel
/-! Resolving a program with other names, strings and numbers. -/
namespace Ws
open Ws.Spec

variable {ρ : Relabelling}

theorem faithful_ren (hρ : ρ.Faithful) : Renaming ρ.name := ⟨hρ.name, hρ.this, hρ.super⟩

variable (hρ : ρ.Faithful)
include hρ

omit hρ in
theorem label_return (e loc) : Ren ρ.name id (checkReturn e loc) (checkReturn (relabelExpr ρ e) loc) := by
  intro rs
  unfold checkReturn
  show RenRes ρ.name id (M.bind M.get _ rs) (M.bind M.get _ (rs.rename ρ.name))
  simp only [M.bind, M.get]
  have : (rs.rename ρ.name).functionType = rs.functionType := rfl
  rw [this]
  cases rs.functionType with
  | noFunction => exact ren_throw_same _ rs
  | plain => exact .ok _ rs
  | method => exact .ok _ rs
  | initializer =>
    cases e <;> simp only [relabelExpr] <;> first | exact ren_throw_same _ rs | exact .ok _ rs

theorem label_superclass (x e) : Ren ρ.name id (checkSuperclass x (some e)) (checkSuperclass (ρ.name x) (some (relabelExpr ρ e))) := by
  intro rs
  unfold checkSuperclass
  cases e with
  | «variable» y c loc =>
    simp only [relabelExpr]
    by_cases h : y = x
    · subst h
      rw [if_pos rfl, if_pos rfl]
      exact ren_throw _ _ _ rs
    · rw [if_neg h, if_neg (fun e => h ((faithful_ren hρ).inj _ _ e))]
      exact .ok _ rs
  | _ => simp only [relabelExpr]; exact .ok _ rs

omit hρ in
theorem relabelFun_loc (d : FunDef) : (relabelFun ρ d).loc = d.loc := by
  cases d; simp [relabelFun, FunDef.loc]

mutual
theorem label_stmt : ∀ s, Ren ρ.name (relabelStmt ρ) (resolveStmt s) (resolveStmt (relabelStmt ρ s))
  | .block b => by
    simp only [resolveStmt, relabelStmt]
    exact ren_bind (ren_scope (label_stmts b)) fun _ => ren_pure (by simp only [relabelStmt])
  | .break loc => by
    simp only [resolveStmt, relabelStmt]
    exact ren_pure (by simp only [relabelStmt])
  | .continue loc => by
    simp only [resolveStmt, relabelStmt]
    exact ren_pure (by simp only [relabelStmt])
  | .class x none ms loc => by
    simp only [resolveStmt, relabelStmt]
    refine ren_class _ (ren_bind (ren_define (faithful_ren hρ) x loc) fun _ => ren_bind (f := id) (fun rs => .ok _ rs) fun _ =>
      ren_bind (f := relabelMethods ρ) ?_ fun _ => ren_pure (by simp only [relabelStmt]))
    have := ren_define (faithful_ren hρ) c!"this" loc
    rw [(faithful_ren hρ).this] at this
    exact ren_scope (ren_bind this fun _ => label_methods ms)
  | .class x (some e) ms loc => by
    simp only [resolveStmt, relabelStmt]
    refine ren_class _ (ren_bind (ren_define (faithful_ren hρ) x loc) fun _ => ren_bind (label_superclass hρ x e) fun _ =>
      ren_bind (label_expr e) fun _ =>
      ren_bind (f := relabelMethods ρ) ?_ fun _ => ren_pure (by simp only [relabelStmt]))
    have h1 := ren_define (faithful_ren hρ) c!"this" loc
    have h2 := ren_define (faithful_ren hρ) c!"super" loc
    rw [(faithful_ren hρ).this] at h1
    rw [(faithful_ren hρ).super] at h2
    exact ren_scope (ren_bind h2 fun _ => ren_scope (ren_bind h1 fun _ => label_methods ms))
  | .expression e => by
    simp only [resolveStmt, relabelStmt]
    exact ren_bind (label_expr e) fun _ => ren_pure (by simp only [relabelStmt])
  | .print e => by
    simp only [resolveStmt, relabelStmt]
    exact ren_bind (label_expr e) fun _ => ren_pure (by simp only [relabelStmt])
  | .fun (.mk x d) => by
    simp only [resolveStmt, relabelStmt, relabelFun_loc]
    exact ren_bind (ren_define (faithful_ren hρ) x d.loc) fun _ => ren_bind (label_fn _ d) fun _ => ren_pure (by simp only [relabelStmt])
  | .if c a none => by
    simp only [resolveStmt, relabelStmt]
    exact ren_bind (label_expr c) fun _ => ren_bind (label_stmt a) fun _ => ren_pure (by simp only [relabelStmt])
  | .if c a (some b) => by
    simp only [resolveStmt, relabelStmt]
    exact ren_bind (label_expr c) fun _ => ren_bind (label_stmt a) fun _ =>
      ren_bind (label_stmt b) fun _ => ren_pure (by simp only [relabelStmt])
  | .return e loc => by
    simp only [resolveStmt, relabelStmt]
    exact ren_bind (label_return e loc) fun _ => ren_bind (label_expr e) fun _ => ren_pure (by simp only [relabelStmt])
  | .var x c e loc => by
    simp only [resolveStmt, relabelStmt]
    exact ren_bind (ren_declare (faithful_ren hρ) x loc) fun _ => ren_bind (label_expr e) fun _ =>
      ren_bind (ren_define (faithful_ren hρ) x loc) fun _ => ren_pure (by simp only [relabelStmt, id])
  | .while c b => by
    simp only [resolveStmt, relabelStmt]
    exact ren_bind (label_expr c) fun _ => ren_bind (label_stmt b) fun _ => ren_pure (by simp only [relabelStmt])
  | .whileIncrement c b i => by
    simp only [resolveStmt, relabelStmt]
    exact ren_bind (label_expr c) fun _ => ren_bind (label_stmt b) fun _ =>
      ren_bind (label_expr i) fun _ => ren_pure (by simp only [relabelStmt])

theorem label_stmts : ∀ ss, Ren ρ.name (relabelStmts ρ) (resolveStmts ss) (resolveStmts (relabelStmts ρ ss))
  | [] => by
    simp only [resolveStmts, relabelStmts]
    exact ren_pure (by simp only [relabelStmts])
  | s :: ss => by
    simp only [resolveStmts, relabelStmts]
    exact ren_bind (label_stmt s) fun _ => ren_bind (label_stmts ss) fun _ => ren_pure (by simp only [relabelStmts])

theorem label_expr : ∀ e, Ren ρ.name (relabelExpr ρ) (resolveExpr e) (resolveExpr (relabelExpr ρ e))
  | .assign x c r loc => by
    simp only [resolveExpr, relabelExpr]
    exact ren_bind (label_expr r) fun _ => ren_bind (ren_local (faithful_ren hρ) x loc) fun _ => ren_pure (by simp only [relabelExpr, id])
  | .binary a op b loc => by
    simp only [resolveExpr, relabelExpr]
    exact ren_bind (label_expr a) fun _ => ren_bind (label_expr b) fun _ => ren_pure (by simp only [relabelExpr])
  | .call f args loc => by
    simp only [resolveExpr, relabelExpr]
    exact ren_bind (label_expr f) fun _ => ren_bind (label_exprs args) fun _ => ren_pure (by simp only [relabelExpr])
  | .function d => by
    simp only [resolveExpr, relabelExpr]
    exact ren_bind (label_fn _ d) fun _ => ren_pure (by simp only [relabelExpr])
  | .get o n loc => by
    simp only [resolveExpr, relabelExpr]
    exact ren_bind (label_expr o) fun _ => ren_pure (by simp only [relabelExpr])
  | .getIndex a b loc => by
    simp only [resolveExpr, relabelExpr]
    exact ren_bind (label_expr a) fun _ => ren_bind (label_expr b) fun _ => ren_pure (by simp only [relabelExpr])
  | .grouping e => by
    simp only [resolveExpr, relabelExpr]
    exact ren_bind (label_expr e) fun _ => ren_pure (by simp only [relabelExpr])
  | .literalArray es => by
    simp only [resolveExpr, relabelExpr]
    exact ren_bind (label_exprs es) fun _ => ren_pure (by simp only [relabelExpr])
  | .literalBool b => by
    simp only [resolveExpr, relabelExpr]
    exact ren_pure (by simp only [relabelExpr])
  | .literalMap ms => by
    simp only [resolveExpr, relabelExpr]
    exact ren_bind (label_entries ms) fun _ => ren_pure (by simp only [relabelExpr])
  | .literalNil => by
    simp only [resolveExpr, relabelExpr]
    exact ren_pure (by simp only [relabelExpr])
  | .literalNumber x => by
    simp only [resolveExpr, relabelExpr]
    exact ren_pure (by simp only [relabelExpr])
  | .literalString x => by
    simp only [resolveExpr, relabelExpr]
    exact ren_pure (by simp only [relabelExpr])
  | .logical a op b => by
    simp only [resolveExpr, relabelExpr]
    exact ren_bind (label_expr a) fun _ => ren_bind (label_expr b) fun _ => ren_pure (by simp only [relabelExpr])
  | .set a n b loc => by
    simp only [resolveExpr, relabelExpr]
    exact ren_bind (label_expr a) fun _ => ren_bind (label_expr b) fun _ => ren_pure (by simp only [relabelExpr])
  | .setIndex a b c loc => by
    simp only [resolveExpr, relabelExpr]
    exact ren_bind (label_expr a) fun _ => ren_bind (label_expr b) fun _ =>
      ren_bind (label_expr c) fun _ => ren_pure (by simp only [relabelExpr])
  | .super c n loc => by
    simp only [resolveExpr, relabelExpr]
    exact ren_bind (ren_super (faithful_ren hρ) loc) fun _ => ren_pure (by simp only [relabelExpr, id])
  | .unary op e loc => by
    simp only [resolveExpr, relabelExpr]
    exact ren_bind (label_expr e) fun _ => ren_pure (by simp only [relabelExpr])
  | .variable x c loc => by
    simp only [resolveExpr, relabelExpr]
    exact ren_bind (ren_variable (faithful_ren hρ) x loc) fun _ => ren_pure (by simp only [relabelExpr, id])

theorem label_exprs : ∀ es, Ren ρ.name (relabelExprs ρ) (resolveExprs es) (resolveExprs (relabelExprs ρ es))
  | [] => by
    simp only [resolveExprs, relabelExprs]
    exact ren_pure (by simp only [relabelExprs])
  | s :: ss => by
    simp only [resolveExprs, relabelExprs]
    exact ren_bind (label_expr s) fun _ => ren_bind (label_exprs ss) fun _ => ren_pure (by simp only [relabelExprs])

theorem label_entries : ∀ ms, Ren ρ.name (relabelEntries ρ) (resolveEntries ms) (resolveEntries (relabelEntries ρ ms))
  | [] => by
    simp only [resolveEntries, relabelEntries]
    exact ren_pure (by simp only [relabelEntries])
  | .mk k v :: ms => by
    simp only [resolveEntries, relabelEntries]
    exact ren_bind (label_expr v) fun _ => ren_bind (label_entries ms) fun _ => ren_pure (by simp only [relabelEntries])

theorem label_methods : ∀ ms, Ren ρ.name (relabelMethods ρ) (resolveMethods ms) (resolveMethods (relabelMethods ρ ms))
  | [] => by
    simp only [resolveMethods, relabelMethods]
    exact ren_pure (by simp only [relabelMethods])
  | .mk k d :: ms => by
    have hi : ρ.name k = c!"init" ↔ k = c!"init" := ⟨fun h => hρ.name _ _ (h.trans hρ.init.symm), fun h => by rw [h, hρ.init]⟩
    simp only [resolveMethods, relabelMethods, hi]
    exact ren_bind (label_fn _ d) fun _ => ren_bind (label_methods ms) fun _ => ren_pure (by simp only [relabelMethods])

theorem label_fn : ∀ ft d, Ren ρ.name (relabelFun ρ) (resolveFunction ft d) (resolveFunction ft (relabelFun ρ d))
  | ft, .mk ps b k loc => by
    simp only [resolveFunction, relabelFun]
    exact ren_bind (ren_function _ (ren_scope (ren_bind (ren_params (faithful_ren hρ) ps) fun _ => label_stmts b))) fun _ =>
      ren_pure (by simp only [relabelFun])
end

/-- The results of resolving a program and the program with other names, strings and numbers. -/
inductive LabelLoop (ρ : Relabelling) : Outcome (List Stmt × List Cause × Resolver) → Outcome (List Stmt × List Cause × Resolver) → Prop
  | done (sts es es' rs) : RenamedCauses ρ.name es es' →
      LabelLoop ρ (.done (sts, es, rs)) (.done (relabelStmts ρ sts, es', rs.rename ρ.name))
  | panic (m) : LabelLoop ρ (.panic m) (.panic m)
  | diverge : LabelLoop ρ .diverge .diverge

theorem loop_relabel  : ∀ (sts : List Stmt) (rs : Resolver),
    LabelLoop ρ (resolveLoop sts rs) (resolveLoop (relabelStmts ρ sts) (rs.rename ρ.name))
  | [], rs => by
    simp only [relabelStmts, resolveLoop]
    have := LabelLoop.done (ρ := ρ) [] [] [] rs .nil
    simpa only [relabelStmts] using this
  | s :: ss, rs => by
    simp only [relabelStmts, resolveLoop]
    have h := label_stmt hρ s rs
    revert h
    generalize resolveStmt s rs = r
    generalize resolveStmt (relabelStmt ρ s) (rs.rename ρ.name) = r'
    intro h
    cases h with
    | ok a rs1 =>
      have := loop_relabel ss rs1
      simp only [bind, Outcome.bind]
      revert this
      generalize resolveLoop ss rs1 = q
      generalize resolveLoop (relabelStmts ρ ss) (rs1.rename ρ.name) = q'
      intro h
      cases h with
      | done sts es es' rs2 h =>
        have := LabelLoop.done (a :: sts) es es' rs2 h
        simpa only [relabelStmts] using this
      | panic m => exact .panic m
      | diverge => exact .diverge
    | @err c c' rs1 hc =>
      have := loop_relabel ss rs1
      simp only [bind, Outcome.bind]
      revert this
      generalize resolveLoop ss rs1 = q
      generalize resolveLoop (relabelStmts ρ ss) (rs1.rename ρ.name) = q'
      intro h
      cases h with
      | done sts es es' rs2 h =>
        have := LabelLoop.done (s :: sts) (c :: es) (c' :: es') rs2 (.cons hc h)
        simpa only [relabelStmts] using this
      | panic m => exact .panic m
      | diverge => exact .diverge
    | panic m => exact .panic m
    | diverge => exact .diverge

end Ws
