import Verif.Proofs.Parse.Relabel
import Verif.Spec.CommentLine
import Verif.Spec.Positions
/-! Tokens that differ in the text and place of their layout. -/
namespace Ws
open Spec

/-- Nothing gets another name. -/
def unchanged : Relabelling := ⟨id, id, id, id⟩

theorem unchanged_faithful : unchanged.Faithful := ⟨fun _ _ h => h, fun _ _ h => h, rfl, rfl, rfl⟩

mutual
theorem expr_unchanged : ∀ e, relabelExpr unchanged e = e
  | .assign x cell r loc => by rw [relabelExpr, expr_unchanged r]; rfl
  | .call f args loc => by rw [relabelExpr, expr_unchanged f, exprs_unchanged args]
  | .binary a op b loc => by rw [relabelExpr, expr_unchanged a, expr_unchanged b]
  | .function d => by rw [relabelExpr, fun_unchanged d]
  | .get o x loc => by rw [relabelExpr, expr_unchanged o]; rfl
  | .getIndex a i loc => by rw [relabelExpr, expr_unchanged a, expr_unchanged i]
  | .grouping e => by rw [relabelExpr, expr_unchanged e]
  | .literalArray es => by rw [relabelExpr, exprs_unchanged es]
  | .literalMap ms => by rw [relabelExpr, entries_unchanged ms]
  | .logical a op b => by rw [relabelExpr, expr_unchanged a, expr_unchanged b]
  | .set o x v loc => by rw [relabelExpr, expr_unchanged o, expr_unchanged v]; rfl
  | .setIndex a i v loc => by rw [relabelExpr, expr_unchanged a, expr_unchanged i, expr_unchanged v]
  | .super cell x loc => by rw [relabelExpr]; rfl
  | .variable x cell loc => by rw [relabelExpr]; rfl
  | .unary op e loc => by rw [relabelExpr, expr_unchanged e]
  | .literalBool b => by rw [relabelExpr]
  | .literalNumber x => by rw [relabelExpr]; rfl
  | .literalNil => by rw [relabelExpr]
  | .literalString s => by rw [relabelExpr]; rfl

theorem exprs_unchanged : ∀ es, relabelExprs unchanged es = es
  | [] => by rw [relabelExprs]
  | e :: es => by rw [relabelExprs, expr_unchanged e, exprs_unchanged es]

theorem entries_unchanged : ∀ ms, relabelEntries unchanged ms = ms
  | [] => by rw [relabelEntries]
  | .mk k v :: ms => by rw [relabelEntries, expr_unchanged v, entries_unchanged ms]; rfl

theorem fun_unchanged : ∀ d, relabelFun unchanged d = d
  | .mk ps body k loc => by rw [relabelFun, stmts_unchanged body]; simp [unchanged]

theorem methods_unchanged : ∀ ms, relabelMethods unchanged ms = ms
  | [] => by rw [relabelMethods]
  | .mk x d :: ms => by rw [relabelMethods, fun_unchanged d, methods_unchanged ms]; rfl

theorem stmt_unchanged : ∀ s, relabelStmt unchanged s = s
  | .block body => by rw [relabelStmt, stmts_unchanged body]
  | .break loc => by rw [relabelStmt]
  | .continue loc => by rw [relabelStmt]
  | .class x none ms loc => by rw [relabelStmt, methods_unchanged ms]; rfl
  | .class x (some e) ms loc => by rw [relabelStmt, expr_unchanged e, methods_unchanged ms]; rfl
  | .expression e => by rw [relabelStmt, expr_unchanged e]
  | .fun (.mk x d) => by rw [relabelStmt, fun_unchanged d]; rfl
  | .if c a none => by rw [relabelStmt, expr_unchanged c, stmt_unchanged a]
  | .if c a (some b) => by rw [relabelStmt, expr_unchanged c, stmt_unchanged a, stmt_unchanged b]
  | .print e => by rw [relabelStmt, expr_unchanged e]
  | .return e loc => by rw [relabelStmt, expr_unchanged e]
  | .var x slot e loc => by rw [relabelStmt, expr_unchanged e]; rfl
  | .while c b => by rw [relabelStmt, expr_unchanged c, stmt_unchanged b]
  | .whileIncrement c b i => by rw [relabelStmt, expr_unchanged c, stmt_unchanged b, expr_unchanged i]

theorem stmts_unchanged : ∀ ss, relabelStmts unchanged ss = ss
  | [] => by rw [relabelStmts]
  | s :: ss => by rw [relabelStmts, stmt_unchanged s, stmts_unchanged ss]
end

theorem state_unchanged (rs : Resolver) : renamedState unchanged.name rs = rs := by
  simp [renamedState, unchanged]

theorem run_unchanged_ok {a : List Stmt} {rs : Resolver} {o} (h : RelabelledRun unchanged (.done (.ok a, rs)) o) :
    o = .done (.ok a, rs) := by
  cases h
  rw [stmts_unchanged, state_unchanged]

theorem each_messages {es es' : List Cause} (h : Each SameComplaint es es') :
    es'.map (·.message) = es.map (·.message) := by
  induction h with
  | nil => rfl
  | cons h _ ih => simp only [List.map_cons, ih, h.message]

theorem run_unchanged_error {es : List Cause} {rs : Resolver} {o} (h : RelabelledRun unchanged (.done (.error es, rs)) o) :
    ∃ es', o = .done (.error es', rs) ∧ es'.map (·.message) = es.map (·.message) := by
  cases h with
  | error _ h => exact ⟨_, by rw [state_unchanged], each_messages h⟩

theorem tokens_unplaced {l : Nat} : ∀ {ts ts' : List Token},
    ts'.map unplaced = (ts.map (tokenDown l)).map unplaced →
    Each (RelabelledToken unchanged) (ts.map (moveToken nowhere)) (ts'.map (moveToken nowhere))
  | [], [], _ => .nil
  | [], _ :: _, h => by cases h
  | _ :: _, [], h => by cases h
  | t :: ts, t' :: ts', h => by
    simp only [List.map_cons, List.cons.injEq] at h
    refine .cons ?_ (tokens_unplaced h.2)
    have h := h.1
    have ht : ∀ x : Token, (unplaced x).tokenType = x.tokenType := by
      intro x; simp only [unplaced]; split <;> rfl
    have hd : (tokenDown l t).tokenType = t.tokenType ∧ (tokenDown l t).lexeme = t.lexeme ∧
        (tokenDown l t).stringLiteral = t.stringLiteral ∧ (tokenDown l t).floatLiteral = t.floatLiteral := by
      simp only [tokenDown]; split <;> exact ⟨rfl, rfl, rfl, rfl⟩
    have e : t'.tokenType = t.tokenType := by rw [← ht, h, ht, hd.1]
    have code : ¬ (t.tokenType = .indent ∨ t.tokenType = .outdent) → t' = tokenDown l t := by
      intro hn
      simp only [unplaced, e, hd.1, if_neg hn] at h
      exact h
    refine ⟨e, rfl, rfl, fun hi => ?_, fun hi => ?_, fun hi => ?_, fun hi => ?_⟩ <;>
      have hi : t.tokenType = _ := hi
    · exact (congrArg Token.lexeme (code (by rw [hi]; simp))).trans hd.2.1
    · exact (congrArg Token.lexeme (code (by rw [hi]; simp))).trans hd.2.1
    · refine (congrArg Token.stringLiteral (code (by rw [hi]; simp))).trans (hd.2.2.1.trans ?_)
      exact (Option.map_id_apply ..).symm
    · refine (congrArg Token.floatLiteral (code (by rw [hi]; simp))).trans (hd.2.2.2.trans ?_)
      exact (Option.map_id_apply ..).symm

end Ws
