import Verif.Proofs.Resolve.Ok
import Verif.Spec.Erase
/-! Resolving fills in locations and slots, and does not depend on those that are there. -/
namespace Ws
open Ws.Spec

theorem checkReturn_erase (e : Expr) (loc) : checkReturn (eraseExpr e) loc = checkReturn e loc := by
  cases e <;> simp [eraseExpr, checkReturn]

theorem checkSuperclass_erase (x : Str) (e : Expr) :
    checkSuperclass x (some (eraseExpr e)) = checkSuperclass x (some e) := by
  cases e <;> simp [eraseExpr, checkSuperclass]

theorem eraseFun_loc (d : FunDef) : (eraseFun d).loc = d.loc := by
  cases d; simp [eraseFun, FunDef.loc]

mutual
theorem resolveStmt_erase : ∀ s : Stmt, resolveStmt (eraseStmt s) = resolveStmt s
  | .block b => by simp only [eraseStmt, resolveStmt, resolveStmts_erase b]
  | .break loc => by simp only [eraseStmt]
  | .continue loc => by simp only [eraseStmt]
  | .class x none ms loc => by simp only [eraseStmt, resolveStmt, resolveMethods_erase ms]
  | .class x (some e) ms loc => by
    simp only [eraseStmt, resolveStmt, resolveMethods_erase ms, resolveExpr_erase e, checkSuperclass_erase, Option.isSome]
  | .expression e => by simp only [eraseStmt, resolveStmt, resolveExpr_erase e]
  | .print e => by simp only [eraseStmt, resolveStmt, resolveExpr_erase e]
  | .fun (.mk x d) => by simp only [eraseStmt, resolveStmt, resolveFunction_erase _ d, eraseFun_loc]
  | .if c a none => by simp only [eraseStmt, resolveStmt, resolveExpr_erase c, resolveStmt_erase a]
  | .if c a (some b) => by simp only [eraseStmt, resolveStmt, resolveExpr_erase c, resolveStmt_erase a, resolveStmt_erase b]
  | .return e loc => by simp only [eraseStmt, resolveStmt, resolveExpr_erase e, checkReturn_erase]
  | .var x c e loc => by simp only [eraseStmt, resolveStmt, resolveExpr_erase e]
  | .while c b => by simp only [eraseStmt, resolveStmt, resolveExpr_erase c, resolveStmt_erase b]
  | .whileIncrement c b i => by
    simp only [eraseStmt, resolveStmt, resolveExpr_erase c, resolveStmt_erase b, resolveExpr_erase i]

theorem resolveStmts_erase : ∀ ss : List Stmt, resolveStmts (eraseStmts ss) = resolveStmts ss
  | [] => by simp only [eraseStmts]
  | s :: ss => by simp only [eraseStmts, resolveStmts, resolveStmt_erase s, resolveStmts_erase ss]

theorem resolveExpr_erase : ∀ e : Expr, resolveExpr (eraseExpr e) = resolveExpr e
  | .assign x c r loc => by simp only [eraseExpr, resolveExpr, resolveExpr_erase r]
  | .binary a op b loc => by simp only [eraseExpr, resolveExpr, resolveExpr_erase a, resolveExpr_erase b]
  | .call f args loc => by simp only [eraseExpr, resolveExpr, resolveExpr_erase f, resolveExprs_erase args]
  | .function d => by simp only [eraseExpr, resolveExpr, resolveFunction_erase _ d]
  | .get o n loc => by simp only [eraseExpr, resolveExpr, resolveExpr_erase o]
  | .getIndex a b loc => by simp only [eraseExpr, resolveExpr, resolveExpr_erase a, resolveExpr_erase b]
  | .grouping e => by simp only [eraseExpr, resolveExpr, resolveExpr_erase e]
  | .literalArray es => by simp only [eraseExpr, resolveExpr, resolveExprs_erase es]
  | .literalBool b => by simp only [eraseExpr]
  | .literalMap ms => by simp only [eraseExpr, resolveExpr, resolveEntries_erase ms]
  | .literalNil => by simp only [eraseExpr]
  | .literalNumber x => by simp only [eraseExpr]
  | .literalString x => by simp only [eraseExpr]
  | .logical a op b => by simp only [eraseExpr, resolveExpr, resolveExpr_erase a, resolveExpr_erase b]
  | .set a n b loc => by simp only [eraseExpr, resolveExpr, resolveExpr_erase a, resolveExpr_erase b]
  | .setIndex a b c loc => by
    simp only [eraseExpr, resolveExpr, resolveExpr_erase a, resolveExpr_erase b, resolveExpr_erase c]
  | .super c n loc => by simp only [eraseExpr, resolveExpr]
  | .unary op e loc => by simp only [eraseExpr, resolveExpr, resolveExpr_erase e]
  | .variable x c loc => by simp only [eraseExpr, resolveExpr]

theorem resolveExprs_erase : ∀ es : List Expr, resolveExprs (eraseExprs es) = resolveExprs es
  | [] => by simp only [eraseExprs]
  | s :: ss => by simp only [eraseExprs, resolveExprs, resolveExpr_erase s, resolveExprs_erase ss]

theorem resolveEntries_erase : ∀ ms : List MapEntry, resolveEntries (eraseEntries ms) = resolveEntries ms
  | [] => by simp only [eraseEntries]
  | .mk k v :: ms => by simp only [eraseEntries, resolveEntries, resolveExpr_erase v, resolveEntries_erase ms]

theorem resolveMethods_erase : ∀ ms : List NamedFun, resolveMethods (eraseMethods ms) = resolveMethods ms
  | [] => by simp only [eraseMethods]
  | .mk x d :: ms => by simp only [eraseMethods, resolveMethods, resolveFunction_erase _ d, resolveMethods_erase ms]

theorem resolveFunction_erase : ∀ ft (d : FunDef), resolveFunction ft (eraseFun d) = resolveFunction ft d
  | ft, .mk ps b k loc => by simp only [eraseFun, resolveFunction, resolveStmts_erase b]
end

/-! ### Filling in -/

/-- The nodes are the same up to locations and slots. -/
def eraseNode : Node → Node
  | .expr e => .expr (eraseExpr e)
  | .stmt s => .stmt (eraseStmt s)
  | .fn d => .fn (eraseFun d)

def eraseItem : Item → Item
  | .nodes ns => .nodes (ns.map eraseNode)
  | .node n => .node (eraseNode n)
  | .fn ft d => .fn ft (eraseFun d)
  | .methods ms => .methods (eraseMethods ms)

theorem eraseExprs_eq (es : List Expr) : eraseExprs es = es.map eraseExpr := by
  induction es with
  | nil => simp [eraseExprs]
  | cons e es ih => simp [eraseExprs, ih]

theorem eraseStmts_eq (es : List Stmt) : eraseStmts es = es.map eraseStmt := by
  induction es with
  | nil => simp [eraseStmts]
  | cons e es ih => simp [eraseStmts, ih]

theorem eraseEntries_eq (es : List MapEntry) : eraseEntries es = es.map fun m => .mk m.key (eraseExpr m.value) := by
  induction es with
  | nil => simp [eraseEntries]
  | cons e es ih => cases e; simp [eraseEntries, ih, MapEntry.key, MapEntry.value]

theorem entries_ext {ms ms' : List MapEntry} (hk : ms.map MapEntry.key = ms'.map MapEntry.key)
    (hv : ms.map (fun m => eraseExpr m.value) = ms'.map fun m => eraseExpr m.value) :
    eraseEntries ms = eraseEntries ms' := by
  rw [eraseEntries_eq, eraseEntries_eq]
  induction ms generalizing ms' with
  | nil => cases ms' <;> simp_all
  | cons m ms ih =>
    cases ms' with
    | nil => simp at hk
    | cons m' ms' =>
      simp only [List.map_cons, List.cons.injEq] at hk hv ⊢
      exact ⟨by rw [hk.1, hv.1], ih hk.2 hv.2⟩

theorem alike_erase {n n' : Node} (h : Alike n n') (hp : n.parts.map eraseNode = n'.parts.map eraseNode) :
    eraseNode n = eraseNode n' := by
  cases h with
  | @«if» c a b c' a' b' hb =>
    cases b <;> cases b' <;> simp_all [eraseNode, Node.parts, stmtParts, eraseStmt]
  | literalMap hk =>
    simp only [Node.parts, exprParts, List.map_map] at hp
    simp only [eraseNode, eraseExpr, Node.expr.injEq, Expr.literalMap.injEq]
    refine entries_ext hk ?_
    have := congrArg (List.map fun n : Node => match n with | .expr e => e | _ => .literalNil) hp
    simpa [eraseNode, Function.comp_def] using this
  | call =>
    simp only [Node.parts, exprParts, List.map_cons, List.map_map, List.cons.injEq, eraseNode, Node.expr.injEq] at hp
    have := congrArg (List.map fun n : Node => match n with | .expr e => e | _ => .literalNil) hp.2
    simp [Function.comp_def, eraseNode] at this
    simp [eraseNode, eraseExpr, eraseExprs_eq, hp.1, this]
  | literalArray =>
    simp only [Node.parts, exprParts, List.map_map] at hp
    have := congrArg (List.map fun n : Node => match n with | .expr e => e | _ => .literalNil) hp
    simp [Function.comp_def, eraseNode] at this
    simp [eraseNode, eraseExpr, eraseExprs_eq, this]
  | _ => simp_all [eraseNode, Node.parts, stmtParts, exprParts, eraseStmt, eraseExpr]

theorem erase_stmts_eq {b b' : List Stmt} (h : (b.map Node.stmt).map eraseNode = (b'.map Node.stmt).map eraseNode) :
    eraseStmts b = eraseStmts b' := by
  have := congrArg (List.map fun n : Node => match n with | .stmt e => e | _ => .block []) h
  simpa [Function.comp_def, eraseNode, eraseStmts_eq] using this

/-- Resolving only changes locations and slots. -/
theorem resolved_erase {a b rs rs'} (h : Resolved a b rs rs') : eraseItem a = eraseItem b := by
  induction h with
  | nil => rfl
  | methods_nil => rfl
  | cons _ _ i1 i2 =>
    simp only [eraseItem, List.map_cons, Item.nodes.injEq, Item.node.injEq, List.cons.injEq] at i1 i2 ⊢
    exact ⟨i1, i2⟩
  | methods_cons _ _ i1 i2 =>
    simp only [eraseItem, eraseMethods, Item.methods.injEq, Item.fn.injEq, List.cons.injEq, NamedFun.mk.injEq, true_and] at i1 i2 ⊢
    exact ⟨i1, i2⟩
  | plain h _ i =>
    simp only [eraseItem, Item.nodes.injEq, Item.node.injEq] at i ⊢
    exact alike_erase h i
  | function _ i =>
    simp only [eraseItem, Item.fn.injEq, true_and] at i
    simp [eraseItem, eraseNode, eraseExpr, i]
  | assign _ h i =>
    simp only [eraseItem, eraseNode, Item.node.injEq, Node.expr.injEq] at i
    simp [eraseItem, eraseNode, eraseExpr, i]
  | «variable» h => simp [eraseItem, eraseNode, eraseExpr]
  | super h => simp [eraseItem, eraseNode, eraseExpr]
  | block _ _ i =>
    simp only [eraseItem, Item.nodes.injEq] at i
    simp [eraseItem, eraseNode, eraseStmt, erase_stmts_eq i]
  | «return» _ _ i =>
    simp only [eraseItem, eraseNode, Item.node.injEq, Node.expr.injEq] at i
    simp [eraseItem, eraseNode, eraseStmt, i]
  | var _ _ _ i =>
    simp only [eraseItem, eraseNode, Item.node.injEq, Node.expr.injEq] at i
    simp [eraseItem, eraseNode, eraseStmt, i]
  | «fun» _ _ i =>
    simp only [eraseItem, Item.fn.injEq, true_and] at i
    simp [eraseItem, eraseNode, eraseStmt, i]
  | «class» _ _ _ _ i =>
    simp only [eraseItem, Item.methods.injEq] at i
    simp [eraseItem, eraseNode, eraseStmt, i]
  | subclass _ _ _ _ _ _ _ _ i i' =>
    simp only [eraseItem, eraseNode, Item.methods.injEq, Item.node.injEq, Node.expr.injEq] at i i'
    simp [eraseItem, eraseNode, eraseStmt, i, i']
  | fn _ _ _ i =>
    simp only [eraseItem, Item.nodes.injEq] at i
    simp [eraseItem, eraseFun, erase_stmts_eq i]

end Ws
