import Verif.Proofs.Print.Text
import Verif.Proofs.Js.Inj
/-! Trees that are shown as the same are the same. -/
namespace Ws
open Spec

theorem natDbg_inj {n m : Nat} (h : natDbg n = natDbg m) : n = m := decimal_inj (Dbg.word.inj h)

theorem locDbg_iff {l l' : SourceLoc} : locDbg l = locDbg l' ↔ l = l' := by
  refine ⟨fun h => ?_, fun h => by rw [h]⟩
  simp only [locDbg, Dbg.struct.injEq, List.cons.injEq, DbgField.mk.injEq, true_and, and_true] at h
  cases l
  cases l'
  simp only [SourceLoc.mk.injEq]
  exact ⟨natDbg_inj h.1, natDbg_inj h.2⟩

theorem varLocDbg_iff {c c' : VarLoc} : cellDbg (varLocDbg c) = cellDbg (varLocDbg c') ↔ c = c' := by
  refine ⟨fun h => ?_, fun h => by rw [h]⟩
  simp only [cellDbg, varLocDbg, Dbg.struct.injEq, List.cons.injEq, DbgField.mk.injEq, true_and, and_true] at h
  cases c
  cases c'
  simp only [VarLoc.mk.injEq]
  exact ⟨natDbg_inj h.1, natDbg_inj h.2⟩

theorem slotDbg_iff {c c' : SlotIndex} : cellDbg (slotDbg c) = cellDbg (slotDbg c') ↔ c = c' := by
  refine ⟨fun h => ?_, fun h => by rw [h]⟩
  simp only [cellDbg, slotDbg, Dbg.struct.injEq, Dbg.tuple.injEq, List.cons.injEq, DbgField.mk.injEq, true_and, and_true] at h
  cases c
  cases c'
  simp only [SlotIndex.mk.injEq]
  exact natDbg_inj h

theorem binaryDbg_iff {o o' : BinaryOperator} : binaryDbg o = binaryDbg o' ↔ o = o' := by
  cases o <;> cases o' <;> simp [binaryDbg]
theorem logicalDbg_iff {o o' : LogicalOperator} : logicalDbg o = logicalDbg o' ↔ o = o' := by
  cases o <;> cases o' <;> simp [logicalDbg]
theorem unaryDbg_iff {o o' : UnaryOperator} : unaryDbg o = unaryDbg o' ↔ o = o' := by
  cases o <;> cases o' <;> simp [unaryDbg]
theorem funTypeDbg_iff {o o' : FunctionType} : funTypeDbg o = funTypeDbg o' ↔ o = o' := by
  cases o <;> cases o' <;> simp [funTypeDbg]

theorem paramsDbg_inj : ∀ (ps ps' : List Parameter), ps.map paramDbg = ps'.map paramDbg → ps = ps'
  | [], [], _ => rfl
  | [], _ :: _, h => by simp at h
  | _ :: _, [], h => by simp at h
  | ⟨x, l⟩ :: ps, ⟨x', l'⟩ :: ps', h => by
    simp only [List.map_cons, paramDbg, List.cons.injEq, Dbg.struct.injEq, DbgField.mk.injEq, Dbg.str.injEq,
      true_and, and_true, locDbg_iff] at h
    rw [h.1.1, h.1.2, paramsDbg_inj ps ps' h.2]

/-- The name of what is shown. -/
def dbgName : Dbg → Str
  | .word s => s
  | .tuple s _ => s
  | _ => []

theorem exprDbg_name (e : Expr) : dbgName (exprDbg e) = exprName e := by
  cases e with
  | literalBool b => cases b <;> rfl
  | _ => rfl
theorem stmtDbg_name (s : Stmt) : dbgName (stmtDbg s) = stmtName s := by
  cases s <;> rfl
theorem expr_names {e e' : Expr} (h : exprDbg e = exprDbg e') : exprName e = exprName e' := by
  rw [← exprDbg_name, ← exprDbg_name, h]
theorem stmt_names {s s' : Stmt} (h : stmtDbg s = stmtDbg s') : stmtName s = stmtName s' := by
  rw [← stmtDbg_name, ← stmtDbg_name, h]

mutual
theorem exprDbg_inj : ∀ (e e' : Expr), exprDbg e = exprDbg e' → e = e'
  | .assign x c r l, e', h => by
    have hn := expr_names h
    cases e' <;> first | (exfalso; revert hn; simp only [exprName]; decide) | skip
    rename_i x' c' r' l'
    simp only [exprDbg, Dbg.tuple.injEq, Dbg.struct.injEq, DbgField.mk.injEq, Dbg.str.injEq, Dbg.list.injEq, Dbg.map.injEq, Dbg.float.injEq, List.cons.injEq, and_true, true_and, locDbg_iff, varLocDbg_iff, slotDbg_iff, binaryDbg_iff, logicalDbg_iff, unaryDbg_iff] at h
    obtain ⟨h0, h1, h2, h3⟩ := h
    rw [h0, h1, exprDbg_inj r r' h2, h3]
  | .call f a l, e', h => by
    have hn := expr_names h
    cases e' <;> first | (exfalso; revert hn; simp only [exprName]; decide) | skip
    rename_i f' a' l'
    simp only [exprDbg, Dbg.tuple.injEq, Dbg.struct.injEq, DbgField.mk.injEq, Dbg.str.injEq, Dbg.list.injEq, Dbg.map.injEq, Dbg.float.injEq, List.cons.injEq, and_true, true_and, locDbg_iff, varLocDbg_iff, slotDbg_iff, binaryDbg_iff, logicalDbg_iff, unaryDbg_iff] at h
    obtain ⟨h0, h1, h2⟩ := h
    rw [exprDbg_inj f f' h0, exprsDbg_inj a a' h1, h2]
  | .binary a o b l, e', h => by
    have hn := expr_names h
    cases e' <;> first | (exfalso; revert hn; simp only [exprName]; decide) | skip
    rename_i a' o' b' l'
    simp only [exprDbg, Dbg.tuple.injEq, Dbg.struct.injEq, DbgField.mk.injEq, Dbg.str.injEq, Dbg.list.injEq, Dbg.map.injEq, Dbg.float.injEq, List.cons.injEq, and_true, true_and, locDbg_iff, varLocDbg_iff, slotDbg_iff, binaryDbg_iff, logicalDbg_iff, unaryDbg_iff] at h
    obtain ⟨h0, h1, h2, h3⟩ := h
    rw [exprDbg_inj a a' h0, h1, exprDbg_inj b b' h2, h3]
  | .function d, e', h => by
    have hn := expr_names h
    cases e' <;> first | (exfalso; revert hn; simp only [exprName]; decide) | skip
    rename_i d'
    simp only [exprDbg, Dbg.tuple.injEq, Dbg.struct.injEq, DbgField.mk.injEq, Dbg.str.injEq, Dbg.list.injEq, Dbg.map.injEq, Dbg.float.injEq, List.cons.injEq, and_true, true_and, locDbg_iff, varLocDbg_iff, slotDbg_iff, binaryDbg_iff, logicalDbg_iff, unaryDbg_iff] at h
    have h0 := h
    rw [funDbg_inj d d' h0]
  | .get o x l, e', h => by
    have hn := expr_names h
    cases e' <;> first | (exfalso; revert hn; simp only [exprName]; decide) | skip
    rename_i o' x' l'
    simp only [exprDbg, Dbg.tuple.injEq, Dbg.struct.injEq, DbgField.mk.injEq, Dbg.str.injEq, Dbg.list.injEq, Dbg.map.injEq, Dbg.float.injEq, List.cons.injEq, and_true, true_and, locDbg_iff, varLocDbg_iff, slotDbg_iff, binaryDbg_iff, logicalDbg_iff, unaryDbg_iff] at h
    obtain ⟨h0, h1, h2⟩ := h
    rw [exprDbg_inj o o' h0, h1, h2]
  | .getIndex a i l, e', h => by
    have hn := expr_names h
    cases e' <;> first | (exfalso; revert hn; simp only [exprName]; decide) | skip
    rename_i a' i' l'
    simp only [exprDbg, Dbg.tuple.injEq, Dbg.struct.injEq, DbgField.mk.injEq, Dbg.str.injEq, Dbg.list.injEq, Dbg.map.injEq, Dbg.float.injEq, List.cons.injEq, and_true, true_and, locDbg_iff, varLocDbg_iff, slotDbg_iff, binaryDbg_iff, logicalDbg_iff, unaryDbg_iff] at h
    obtain ⟨h0, h1, h2⟩ := h
    rw [exprDbg_inj a a' h0, exprDbg_inj i i' h1, h2]
  | .grouping a, e', h => by
    have hn := expr_names h
    cases e' <;> first | (exfalso; revert hn; simp only [exprName]; decide) | skip
    rename_i a'
    simp only [exprDbg, Dbg.tuple.injEq, Dbg.struct.injEq, DbgField.mk.injEq, Dbg.str.injEq, Dbg.list.injEq, Dbg.map.injEq, Dbg.float.injEq, List.cons.injEq, and_true, true_and, locDbg_iff, varLocDbg_iff, slotDbg_iff, binaryDbg_iff, logicalDbg_iff, unaryDbg_iff] at h
    have h0 := h
    rw [exprDbg_inj a a' h0]
  | .literalArray es, e', h => by
    have hn := expr_names h
    cases e' <;> first | (exfalso; revert hn; simp only [exprName]; decide) | skip
    rename_i es'
    simp only [exprDbg, Dbg.tuple.injEq, Dbg.struct.injEq, DbgField.mk.injEq, Dbg.str.injEq, Dbg.list.injEq, Dbg.map.injEq, Dbg.float.injEq, List.cons.injEq, and_true, true_and, locDbg_iff, varLocDbg_iff, slotDbg_iff, binaryDbg_iff, logicalDbg_iff, unaryDbg_iff] at h
    have h0 := h
    rw [exprsDbg_inj es es' h0]
  | .literalMap ms, e', h => by
    have hn := expr_names h
    cases e' <;> first | (exfalso; revert hn; simp only [exprName]; decide) | skip
    rename_i ms'
    simp only [exprDbg, Dbg.tuple.injEq, Dbg.struct.injEq, DbgField.mk.injEq, Dbg.str.injEq, Dbg.list.injEq, Dbg.map.injEq, Dbg.float.injEq, List.cons.injEq, and_true, true_and, locDbg_iff, varLocDbg_iff, slotDbg_iff, binaryDbg_iff, logicalDbg_iff, unaryDbg_iff] at h
    have h0 := h
    rw [entriesDbg_inj ms ms' h0]
  | .literalNumber n, e', h => by
    have hn := expr_names h
    cases e' <;> first | (exfalso; revert hn; simp only [exprName]; decide) | skip
    rename_i n'
    simp only [exprDbg, Dbg.tuple.injEq, Dbg.struct.injEq, DbgField.mk.injEq, Dbg.str.injEq, Dbg.list.injEq, Dbg.map.injEq, Dbg.float.injEq, List.cons.injEq, and_true, true_and, locDbg_iff, varLocDbg_iff, slotDbg_iff, binaryDbg_iff, logicalDbg_iff, unaryDbg_iff] at h
    have h0 := h
    rw [h0]
  | .literalNil, e', h => by
    have hn := expr_names h
    cases e' <;> first | (exfalso; revert hn; simp only [exprName]; decide) | rfl
  | .literalString s, e', h => by
    have hn := expr_names h
    cases e' <;> first | (exfalso; revert hn; simp only [exprName]; decide) | skip
    rename_i s'
    simp only [exprDbg, Dbg.tuple.injEq, Dbg.struct.injEq, DbgField.mk.injEq, Dbg.str.injEq, Dbg.list.injEq, Dbg.map.injEq, Dbg.float.injEq, List.cons.injEq, and_true, true_and, locDbg_iff, varLocDbg_iff, slotDbg_iff, binaryDbg_iff, logicalDbg_iff, unaryDbg_iff] at h
    have h0 := h
    rw [h0]
  | .logical a o b, e', h => by
    have hn := expr_names h
    cases e' <;> first | (exfalso; revert hn; simp only [exprName]; decide) | skip
    rename_i a' o' b'
    simp only [exprDbg, Dbg.tuple.injEq, Dbg.struct.injEq, DbgField.mk.injEq, Dbg.str.injEq, Dbg.list.injEq, Dbg.map.injEq, Dbg.float.injEq, List.cons.injEq, and_true, true_and, locDbg_iff, varLocDbg_iff, slotDbg_iff, binaryDbg_iff, logicalDbg_iff, unaryDbg_iff] at h
    obtain ⟨h0, h1, h2⟩ := h
    rw [exprDbg_inj a a' h0, h1, exprDbg_inj b b' h2]
  | .«set» o x v l, e', h => by
    have hn := expr_names h
    cases e' <;> first | (exfalso; revert hn; simp only [exprName]; decide) | skip
    rename_i o' x' v' l'
    simp only [exprDbg, Dbg.tuple.injEq, Dbg.struct.injEq, DbgField.mk.injEq, Dbg.str.injEq, Dbg.list.injEq, Dbg.map.injEq, Dbg.float.injEq, List.cons.injEq, and_true, true_and, locDbg_iff, varLocDbg_iff, slotDbg_iff, binaryDbg_iff, logicalDbg_iff, unaryDbg_iff] at h
    obtain ⟨h0, h1, h2, h3⟩ := h
    rw [exprDbg_inj o o' h0, h1, exprDbg_inj v v' h2, h3]
  | .setIndex a i v l, e', h => by
    have hn := expr_names h
    cases e' <;> first | (exfalso; revert hn; simp only [exprName]; decide) | skip
    rename_i a' i' v' l'
    simp only [exprDbg, Dbg.tuple.injEq, Dbg.struct.injEq, DbgField.mk.injEq, Dbg.str.injEq, Dbg.list.injEq, Dbg.map.injEq, Dbg.float.injEq, List.cons.injEq, and_true, true_and, locDbg_iff, varLocDbg_iff, slotDbg_iff, binaryDbg_iff, logicalDbg_iff, unaryDbg_iff] at h
    obtain ⟨h0, h1, h2, h3⟩ := h
    rw [exprDbg_inj a a' h0, exprDbg_inj i i' h1, exprDbg_inj v v' h2, h3]
  | .super c x l, e', h => by
    have hn := expr_names h
    cases e' <;> first | (exfalso; revert hn; simp only [exprName]; decide) | skip
    rename_i c' x' l'
    simp only [exprDbg, Dbg.tuple.injEq, Dbg.struct.injEq, DbgField.mk.injEq, Dbg.str.injEq, Dbg.list.injEq, Dbg.map.injEq, Dbg.float.injEq, List.cons.injEq, and_true, true_and, locDbg_iff, varLocDbg_iff, slotDbg_iff, binaryDbg_iff, logicalDbg_iff, unaryDbg_iff] at h
    obtain ⟨h0, h1, h2⟩ := h
    rw [h0, h1, h2]
  | .«variable» x c l, e', h => by
    have hn := expr_names h
    cases e' <;> first | (exfalso; revert hn; simp only [exprName]; decide) | skip
    rename_i x' c' l'
    simp only [exprDbg, Dbg.tuple.injEq, Dbg.struct.injEq, DbgField.mk.injEq, Dbg.str.injEq, Dbg.list.injEq, Dbg.map.injEq, Dbg.float.injEq, List.cons.injEq, and_true, true_and, locDbg_iff, varLocDbg_iff, slotDbg_iff, binaryDbg_iff, logicalDbg_iff, unaryDbg_iff] at h
    obtain ⟨h0, h1, h2⟩ := h
    rw [h0, h1, h2]
  | .unary o a l, e', h => by
    have hn := expr_names h
    cases e' <;> first | (exfalso; revert hn; simp only [exprName]; decide) | skip
    rename_i o' a' l'
    simp only [exprDbg, Dbg.tuple.injEq, Dbg.struct.injEq, DbgField.mk.injEq, Dbg.str.injEq, Dbg.list.injEq, Dbg.map.injEq, Dbg.float.injEq, List.cons.injEq, and_true, true_and, locDbg_iff, varLocDbg_iff, slotDbg_iff, binaryDbg_iff, logicalDbg_iff, unaryDbg_iff] at h
    obtain ⟨h0, h1, h2⟩ := h
    rw [h0, exprDbg_inj a a' h1, h2]
  | .literalBool b, e', h => by
    have hn := expr_names h
    cases e' <;> first | (exfalso; revert hn; simp only [exprName]; decide) | skip
    rename_i b'
    cases b <;> cases b' <;> simp [exprDbg] at h ⊢
theorem exprsDbg_inj : ∀ (es es' : List Expr), exprsDbg es = exprsDbg es' → es = es'
  | [], [], _ => rfl
  | [], _ :: _, h => by simp [exprsDbg] at h
  | _ :: _, [], h => by simp [exprsDbg] at h
  | e :: es, e' :: es', h => by
    simp only [exprsDbg, List.cons.injEq] at h
    rw [exprDbg_inj e e' h.1, exprsDbg_inj es es' h.2]
theorem entriesDbg_inj : ∀ (es es' : List MapEntry), entriesDbg es = entriesDbg es' → es = es'
  | [], [], _ => rfl
  | [], .mk _ _ :: _, h => by simp [entriesDbg] at h
  | .mk _ _ :: _, [], h => by simp [entriesDbg] at h
  | .mk k e :: es, .mk k' e' :: es', h => by
    simp only [entriesDbg, List.cons.injEq, DbgField.mk.injEq] at h
    rw [h.1.1, exprDbg_inj e e' h.1.2, entriesDbg_inj es es' h.2]
theorem funDbg_inj : ∀ (d d' : FunDef), funDbg d = funDbg d' → d = d'
  | .mk p b t l, .mk p' b' t' l', h => by
    simp only [funDbg, Dbg.struct.injEq, DbgField.mk.injEq, Dbg.list.injEq, List.cons.injEq, and_true, true_and, locDbg_iff,
      funTypeDbg_iff] at h
    obtain ⟨h0, h1, h2, h3⟩ := h
    rw [paramsDbg_inj p p' h0, stmtsDbg_inj b b' h1, h2, h3]
theorem namedDbg_inj : ∀ (d d' : NamedFun), namedDbg d = namedDbg d' → d = d'
  | .mk x d, .mk x' d', h => by
    simp only [namedDbg, Dbg.struct.injEq, DbgField.mk.injEq, Dbg.str.injEq, List.cons.injEq, and_true, true_and] at h
    rw [h.1, funDbg_inj d d' h.2]
theorem methodsDbg_inj : ∀ (es es' : List NamedFun), methodsDbg es = methodsDbg es' → es = es'
  | [], [], _ => rfl
  | [], _ :: _, h => by simp [methodsDbg] at h
  | _ :: _, [], h => by simp [methodsDbg] at h
  | e :: es, e' :: es', h => by
    simp only [methodsDbg, List.cons.injEq] at h
    rw [namedDbg_inj e e' h.1, methodsDbg_inj es es' h.2]
theorem stmtDbg_inj : ∀ (s s' : Stmt), stmtDbg s = stmtDbg s' → s = s'
  | .block b, e', h => by
    have hn := stmt_names h
    cases e' <;> first | (exfalso; revert hn; simp only [stmtName]; decide) | skip
    rename_i b'
    simp only [stmtDbg, Dbg.tuple.injEq, Dbg.struct.injEq, DbgField.mk.injEq, Dbg.str.injEq, Dbg.list.injEq, Dbg.map.injEq, Dbg.float.injEq, List.cons.injEq, and_true, true_and, locDbg_iff, varLocDbg_iff, slotDbg_iff, binaryDbg_iff, logicalDbg_iff, unaryDbg_iff] at h
    have h0 := h
    rw [stmtsDbg_inj b b' h0]
  | .«break» l, e', h => by
    have hn := stmt_names h
    cases e' <;> first | (exfalso; revert hn; simp only [stmtName]; decide) | skip
    rename_i l'
    simp only [stmtDbg, Dbg.tuple.injEq, Dbg.struct.injEq, DbgField.mk.injEq, Dbg.str.injEq, Dbg.list.injEq, Dbg.map.injEq, Dbg.float.injEq, List.cons.injEq, and_true, true_and, locDbg_iff, varLocDbg_iff, slotDbg_iff, binaryDbg_iff, logicalDbg_iff, unaryDbg_iff] at h
    have h0 := h
    rw [h0]
  | .«class» x e m l, e', h => by
    have hn := stmt_names h
    cases e' <;> first | (exfalso; revert hn; simp only [stmtName]; decide) | skip
    rename_i x' e' m' l'
    simp only [stmtDbg, Dbg.tuple.injEq, Dbg.struct.injEq, DbgField.mk.injEq, Dbg.str.injEq, Dbg.list.injEq, Dbg.map.injEq, Dbg.float.injEq, List.cons.injEq, and_true, true_and, locDbg_iff, varLocDbg_iff, slotDbg_iff, binaryDbg_iff, logicalDbg_iff, unaryDbg_iff] at h
    obtain ⟨h0, h1, h2, h3⟩ := h
    rw [h0, superclassDbg_inj e e' h1, methodsDbg_inj m m' h2, h3]
  | .«continue» l, e', h => by
    have hn := stmt_names h
    cases e' <;> first | (exfalso; revert hn; simp only [stmtName]; decide) | skip
    rename_i l'
    simp only [stmtDbg, Dbg.tuple.injEq, Dbg.struct.injEq, DbgField.mk.injEq, Dbg.str.injEq, Dbg.list.injEq, Dbg.map.injEq, Dbg.float.injEq, List.cons.injEq, and_true, true_and, locDbg_iff, varLocDbg_iff, slotDbg_iff, binaryDbg_iff, logicalDbg_iff, unaryDbg_iff] at h
    have h0 := h
    rw [h0]
  | .expression e, e', h => by
    have hn := stmt_names h
    cases e' <;> first | (exfalso; revert hn; simp only [stmtName]; decide) | skip
    rename_i e'
    simp only [stmtDbg, Dbg.tuple.injEq, Dbg.struct.injEq, DbgField.mk.injEq, Dbg.str.injEq, Dbg.list.injEq, Dbg.map.injEq, Dbg.float.injEq, List.cons.injEq, and_true, true_and, locDbg_iff, varLocDbg_iff, slotDbg_iff, binaryDbg_iff, logicalDbg_iff, unaryDbg_iff] at h
    have h0 := h
    rw [exprDbg_inj e e' h0]
  | .«fun» f, e', h => by
    have hn := stmt_names h
    cases e' <;> first | (exfalso; revert hn; simp only [stmtName]; decide) | skip
    rename_i f'
    simp only [stmtDbg, Dbg.tuple.injEq, Dbg.struct.injEq, DbgField.mk.injEq, Dbg.str.injEq, Dbg.list.injEq, Dbg.map.injEq, Dbg.float.injEq, List.cons.injEq, and_true, true_and, locDbg_iff, varLocDbg_iff, slotDbg_iff, binaryDbg_iff, logicalDbg_iff, unaryDbg_iff] at h
    have h0 := h
    rw [namedDbg_inj f f' h0]
  | .«if» c a b, e', h => by
    have hn := stmt_names h
    cases e' <;> first | (exfalso; revert hn; simp only [stmtName]; decide) | skip
    rename_i c' a' b'
    simp only [stmtDbg, Dbg.tuple.injEq, Dbg.struct.injEq, DbgField.mk.injEq, Dbg.str.injEq, Dbg.list.injEq, Dbg.map.injEq, Dbg.float.injEq, List.cons.injEq, and_true, true_and, locDbg_iff, varLocDbg_iff, slotDbg_iff, binaryDbg_iff, logicalDbg_iff, unaryDbg_iff] at h
    obtain ⟨h0, h1, h2⟩ := h
    rw [exprDbg_inj c c' h0, stmtDbg_inj a a' h1, elseDbg_inj b b' h2]
  | .print e, e', h => by
    have hn := stmt_names h
    cases e' <;> first | (exfalso; revert hn; simp only [stmtName]; decide) | skip
    rename_i e'
    simp only [stmtDbg, Dbg.tuple.injEq, Dbg.struct.injEq, DbgField.mk.injEq, Dbg.str.injEq, Dbg.list.injEq, Dbg.map.injEq, Dbg.float.injEq, List.cons.injEq, and_true, true_and, locDbg_iff, varLocDbg_iff, slotDbg_iff, binaryDbg_iff, logicalDbg_iff, unaryDbg_iff] at h
    have h0 := h
    rw [exprDbg_inj e e' h0]
  | .«return» e l, e', h => by
    have hn := stmt_names h
    cases e' <;> first | (exfalso; revert hn; simp only [stmtName]; decide) | skip
    rename_i e' l'
    simp only [stmtDbg, Dbg.tuple.injEq, Dbg.struct.injEq, DbgField.mk.injEq, Dbg.str.injEq, Dbg.list.injEq, Dbg.map.injEq, Dbg.float.injEq, List.cons.injEq, and_true, true_and, locDbg_iff, varLocDbg_iff, slotDbg_iff, binaryDbg_iff, logicalDbg_iff, unaryDbg_iff] at h
    obtain ⟨h0, h1⟩ := h
    rw [exprDbg_inj e e' h0, h1]
  | .var x s e l, e', h => by
    have hn := stmt_names h
    cases e' <;> first | (exfalso; revert hn; simp only [stmtName]; decide) | skip
    rename_i x' s' e' l'
    simp only [stmtDbg, Dbg.tuple.injEq, Dbg.struct.injEq, DbgField.mk.injEq, Dbg.str.injEq, Dbg.list.injEq, Dbg.map.injEq, Dbg.float.injEq, List.cons.injEq, and_true, true_and, locDbg_iff, varLocDbg_iff, slotDbg_iff, binaryDbg_iff, logicalDbg_iff, unaryDbg_iff] at h
    obtain ⟨h0, h1, h2, h3⟩ := h
    rw [h0, h1, exprDbg_inj e e' h2, h3]
  | .«while» c b, e', h => by
    have hn := stmt_names h
    cases e' <;> first | (exfalso; revert hn; simp only [stmtName]; decide) | skip
    rename_i c' b'
    simp only [stmtDbg, Dbg.tuple.injEq, Dbg.struct.injEq, DbgField.mk.injEq, Dbg.str.injEq, Dbg.list.injEq, Dbg.map.injEq, Dbg.float.injEq, List.cons.injEq, and_true, true_and, locDbg_iff, varLocDbg_iff, slotDbg_iff, binaryDbg_iff, logicalDbg_iff, unaryDbg_iff] at h
    obtain ⟨h0, h1⟩ := h
    rw [exprDbg_inj c c' h0, stmtDbg_inj b b' h1]
  | .whileIncrement c b i, e', h => by
    have hn := stmt_names h
    cases e' <;> first | (exfalso; revert hn; simp only [stmtName]; decide) | skip
    rename_i c' b' i'
    simp only [stmtDbg, Dbg.tuple.injEq, Dbg.struct.injEq, DbgField.mk.injEq, Dbg.str.injEq, Dbg.list.injEq, Dbg.map.injEq, Dbg.float.injEq, List.cons.injEq, and_true, true_and, locDbg_iff, varLocDbg_iff, slotDbg_iff, binaryDbg_iff, logicalDbg_iff, unaryDbg_iff] at h
    obtain ⟨h0, h1, h2⟩ := h
    rw [exprDbg_inj c c' h0, stmtDbg_inj b b' h1, exprDbg_inj i i' h2]
theorem superclassDbg_inj : ∀ (o o' : Option Expr), superclassDbg o = superclassDbg o' → o = o'
  | none, none, _ => rfl
  | none, some _, h => by simp [superclassDbg] at h
  | some _, none, h => by simp [superclassDbg] at h
  | some e, some e', h => by
    simp only [superclassDbg, Dbg.tuple.injEq, List.cons.injEq, and_true, true_and] at h
    rw [exprDbg_inj e e' h]
theorem elseDbg_inj : ∀ (o o' : Option Stmt), elseDbg o = elseDbg o' → o = o'
  | none, none, _ => rfl
  | none, some _, h => by simp [elseDbg] at h
  | some _, none, h => by simp [elseDbg] at h
  | some e, some e', h => by
    simp only [elseDbg, Dbg.tuple.injEq, List.cons.injEq, and_true, true_and] at h
    rw [stmtDbg_inj e e' h]
theorem stmtsDbg_inj : ∀ (es es' : List Stmt), stmtsDbg es = stmtsDbg es' → es = es'
  | [], [], _ => rfl
  | [], _ :: _, h => by simp [stmtsDbg] at h
  | _ :: _, [], h => by simp [stmtsDbg] at h
  | e :: es, e' :: es', h => by
    simp only [stmtsDbg, List.cons.injEq] at h
    rw [stmtDbg_inj e e' h.1, stmtsDbg_inj es es' h.2]
end

end Ws
