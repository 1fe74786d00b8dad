import Verif.Proofs.Js.Values
/-! Trees with the same JavaScript value are the same, but for locations of variables: the induction. -/
namespace Ws
open Spec

/-- The name of a variant. -/
def exprName : Expr → Str
  | .assign .. => c!"Assign" | .call .. => c!"Call" | .binary .. => c!"Binary" | .function .. => c!"Function"
  | .get .. => c!"Get" | .getIndex .. => c!"GetIndex" | .grouping .. => c!"Grouping" | .literalArray .. => c!"LiteralArray"
  | .literalBool .. => c!"LiteralBool" | .literalMap .. => c!"LiteralMap" | .literalNumber .. => c!"LiteralNumber"
  | .literalNil => c!"LiteralNil" | .literalString .. => c!"LiteralString" | .logical .. => c!"Logical" | .set .. => c!"Set"
  | .setIndex .. => c!"SetIndex" | .super .. => c!"Super" | .variable .. => c!"Variable" | .unary .. => c!"Unary"

def stmtName : Stmt → Str
  | .block .. => c!"Block" | .break .. => c!"Break" | .class .. => c!"Class" | .continue .. => c!"Continue"
  | .expression .. => c!"Expression" | .fun .. => c!"Fun" | .if .. => c!"If" | .print .. => c!"Print" | .return .. => c!"Return"
  | .var .. => c!"Var" | .while .. => c!"While" | .whileIncrement .. => c!"WhileIncrement"

/-- What an object has under its first key. -/
def firstOf : JsValue → Option Str
  | .object (.mk _ (.string s) :: _) => some s
  | _ => none

theorem exprJs_name (e : Expr) : firstOf (exprJs e) = some (exprName e) := by
  cases e <;> rfl

theorem stmtJs_name (s : Stmt) : firstOf (stmtJs s) = some (stmtName s) := by
  cases s with
  | «class» _ e _ _ => cases e <;> rfl
  | «if» _ _ b => cases b <;> rfl
  | _ => rfl

theorem exprJs_names {e e' : Expr} (h : exprJs e = exprJs e') : exprName e = exprName e' :=
  Option.some.inj (by rw [← exprJs_name, ← exprJs_name, h])
theorem stmtJs_names {s s' : Stmt} (h : stmtJs s = stmtJs s') : stmtName s = stmtName s' :=
  Option.some.inj (by rw [← stmtJs_name, ← stmtJs_name, h])

theorem exprJs_defined (e : Expr) : exprJs e ≠ .undefined := by
  intro h
  have := exprJs_name e
  rw [h] at this
  cases this
theorem stmtJs_defined (s : Stmt) : stmtJs s ≠ .undefined := by
  intro h
  have := stmtJs_name s
  rw [h] at this
  cases this

mutual
theorem exprJs_inj : ∀ (e e' : Expr), AllFit (.expr e) → AllFit (.expr e') → exprJs e = exprJs e' → eraseExpr e = eraseExpr e'
  | .assign x c r l, e', hf, hf', h => by
    have hn := exprJs_names h
    cases e' <;> first | (exfalso; revert hn; simp only [exprName]; decide) | skip
    rename_i x' c' r' l'
    simp only [exprJs] at h
    have h0 := (tagged_inj h).2
    simp only [JsValue.array.injEq, List.cons.injEq, and_true] at h0
    obtain ⟨h1, h2, h3, h4⟩ := h0
    have e_x := JsValue.string.inj h1
    have e_r := exprJs_inj r r' (hf.part (by simp [Node.parts, exprParts])) (hf'.part (by simp [Node.parts, exprParts])) h3
    have e_l := locJs_inj hf.self.1 hf'.self.1 h4
    simp only [eraseExpr, e_x, e_r, e_l]
  | .call f a l, e', hf, hf', h => by
    have hn := exprJs_names h
    cases e' <;> first | (exfalso; revert hn; simp only [exprName]; decide) | skip
    rename_i f' a' l'
    simp only [exprJs] at h
    have h0 := (tagged_inj h).2
    simp only [JsValue.array.injEq, List.cons.injEq, and_true] at h0
    obtain ⟨h1, h2, h3⟩ := h0
    have e_f := exprJs_inj f f' (hf.part (by simp [Node.parts, exprParts])) (hf'.part (by simp [Node.parts, exprParts])) h1
    have e_a := exprsJs_inj a a' (fun y hy => hf.part (by simp [Node.parts, exprParts, hy])) (fun y hy => hf'.part (by simp [Node.parts, exprParts, hy])) h2
    have e_l := locJs_inj hf.self.1 hf'.self.1 h3
    simp only [eraseExpr, e_f, e_a, e_l]
  | .binary a o b l, e', hf, hf', h => by
    have hn := exprJs_names h
    cases e' <;> first | (exfalso; revert hn; simp only [exprName]; decide) | skip
    rename_i a' o' b' l'
    simp only [exprJs] at h
    have h0 := (tagged_inj h).2
    simp only [JsValue.array.injEq, List.cons.injEq, and_true] at h0
    obtain ⟨h1, h2, h3, h4⟩ := h0
    have e_a := exprJs_inj a a' (hf.part (by simp [Node.parts, exprParts])) (hf'.part (by simp [Node.parts, exprParts])) h1
    have e_o := binaryJs_inj h2
    have e_b := exprJs_inj b b' (hf.part (by simp [Node.parts, exprParts])) (hf'.part (by simp [Node.parts, exprParts])) h3
    have e_l := locJs_inj hf.self.1 hf'.self.1 h4
    simp only [eraseExpr, e_a, e_o, e_b, e_l]
  | .function d, e', hf, hf', h => by
    have hn := exprJs_names h
    cases e' <;> first | (exfalso; revert hn; simp only [exprName]; decide) | skip
    rename_i d'
    simp only [exprJs] at h
    have h1 := (tagged_inj h).2
    have e_d := funJs_inj d d' (hf.part (by simp [Node.parts, exprParts])) (hf'.part (by simp [Node.parts, exprParts])) h1
    simp only [eraseExpr, e_d]
  | .get o x l, e', hf, hf', h => by
    have hn := exprJs_names h
    cases e' <;> first | (exfalso; revert hn; simp only [exprName]; decide) | skip
    rename_i o' x' l'
    simp only [exprJs] at h
    have h0 := (tagged_inj h).2
    simp only [JsValue.array.injEq, List.cons.injEq, and_true] at h0
    obtain ⟨h1, h2, h3⟩ := h0
    have e_o := exprJs_inj o o' (hf.part (by simp [Node.parts, exprParts])) (hf'.part (by simp [Node.parts, exprParts])) h1
    have e_x := JsValue.string.inj h2
    have e_l := locJs_inj hf.self.1 hf'.self.1 h3
    simp only [eraseExpr, e_o, e_x, e_l]
  | .getIndex a i l, e', hf, hf', h => by
    have hn := exprJs_names h
    cases e' <;> first | (exfalso; revert hn; simp only [exprName]; decide) | skip
    rename_i a' i' l'
    simp only [exprJs] at h
    have h0 := (tagged_inj h).2
    simp only [JsValue.array.injEq, List.cons.injEq, and_true] at h0
    obtain ⟨h1, h2, h3⟩ := h0
    have e_a := exprJs_inj a a' (hf.part (by simp [Node.parts, exprParts])) (hf'.part (by simp [Node.parts, exprParts])) h1
    have e_i := exprJs_inj i i' (hf.part (by simp [Node.parts, exprParts])) (hf'.part (by simp [Node.parts, exprParts])) h2
    have e_l := locJs_inj hf.self.1 hf'.self.1 h3
    simp only [eraseExpr, e_a, e_i, e_l]
  | .grouping a, e', hf, hf', h => by
    have hn := exprJs_names h
    cases e' <;> first | (exfalso; revert hn; simp only [exprName]; decide) | skip
    rename_i a'
    simp only [exprJs] at h
    have h1 := (tagged_inj h).2
    have e_a := exprJs_inj a a' (hf.part (by simp [Node.parts, exprParts])) (hf'.part (by simp [Node.parts, exprParts])) h1
    simp only [eraseExpr, e_a]
  | .literalArray es, e', hf, hf', h => by
    have hn := exprJs_names h
    cases e' <;> first | (exfalso; revert hn; simp only [exprName]; decide) | skip
    rename_i es'
    simp only [exprJs] at h
    have h1 := (tagged_inj h).2
    have e_es := exprsJs_inj es es' (fun y hy => hf.part (by simp [Node.parts, exprParts, hy])) (fun y hy => hf'.part (by simp [Node.parts, exprParts, hy])) (JsValue.array.inj h1)
    simp only [eraseExpr, e_es]
  | .literalBool b, e', hf, hf', h => by
    have hn := exprJs_names h
    cases e' <;> first | (exfalso; revert hn; simp only [exprName]; decide) | skip
    rename_i b'
    simp only [exprJs] at h
    have h1 := (tagged_inj h).2
    have e_b := JsValue.bool.inj h1
    simp only [eraseExpr, e_b]
  | .literalMap ms, e', hf, hf', h => by
    have hn := exprJs_names h
    cases e' <;> first | (exfalso; revert hn; simp only [exprName]; decide) | skip
    rename_i ms'
    simp only [exprJs] at h
    have h1 := (tagged_inj h).2
    rw [map_entries hf.self.2, map_entries hf'.self.2] at h1
    have e_ms := entriesJs_inj ms ms' (fun y hy => hf.part (by simp only [Node.parts, exprParts]; exact List.mem_map_of_mem hy)) (fun y hy => hf'.part (by simp only [Node.parts, exprParts]; exact List.mem_map_of_mem hy)) (JsValue.map.inj h1)
    simp only [eraseExpr, e_ms]
  | .literalNumber n, e', hf, hf', h => by
    have hn := exprJs_names h
    cases e' <;> first | (exfalso; revert hn; simp only [exprName]; decide) | skip
    rename_i n'
    simp only [exprJs] at h
    have h1 := (tagged_inj h).2
    have e_n := JsValue.number.inj h1
    simp only [eraseExpr, e_n]
  | .literalNil, e', hf, hf', h => by
    have hn := exprJs_names h
    cases e' <;> first | (exfalso; revert hn; simp only [exprName]; decide) | skip
    rfl
  | .literalString s, e', hf, hf', h => by
    have hn := exprJs_names h
    cases e' <;> first | (exfalso; revert hn; simp only [exprName]; decide) | skip
    rename_i s'
    simp only [exprJs] at h
    have h1 := (tagged_inj h).2
    have e_s := JsValue.string.inj h1
    simp only [eraseExpr, e_s]
  | .logical a o b, e', hf, hf', h => by
    have hn := exprJs_names h
    cases e' <;> first | (exfalso; revert hn; simp only [exprName]; decide) | skip
    rename_i a' o' b'
    simp only [exprJs] at h
    have h0 := (tagged_inj h).2
    simp only [JsValue.array.injEq, List.cons.injEq, and_true] at h0
    obtain ⟨h1, h2, h3⟩ := h0
    have e_a := exprJs_inj a a' (hf.part (by simp [Node.parts, exprParts])) (hf'.part (by simp [Node.parts, exprParts])) h1
    have e_o := logicalJs_inj h2
    have e_b := exprJs_inj b b' (hf.part (by simp [Node.parts, exprParts])) (hf'.part (by simp [Node.parts, exprParts])) h3
    simp only [eraseExpr, e_a, e_o, e_b]
  | .«set» o x v l, e', hf, hf', h => by
    have hn := exprJs_names h
    cases e' <;> first | (exfalso; revert hn; simp only [exprName]; decide) | skip
    rename_i o' x' v' l'
    simp only [exprJs] at h
    have h0 := (tagged_inj h).2
    simp only [JsValue.array.injEq, List.cons.injEq, and_true] at h0
    obtain ⟨h1, h2, h3, h4⟩ := h0
    have e_o := exprJs_inj o o' (hf.part (by simp [Node.parts, exprParts])) (hf'.part (by simp [Node.parts, exprParts])) h1
    have e_x := JsValue.string.inj h2
    have e_v := exprJs_inj v v' (hf.part (by simp [Node.parts, exprParts])) (hf'.part (by simp [Node.parts, exprParts])) h3
    have e_l := locJs_inj hf.self.1 hf'.self.1 h4
    simp only [eraseExpr, e_o, e_x, e_v, e_l]
  | .setIndex a i v l, e', hf, hf', h => by
    have hn := exprJs_names h
    cases e' <;> first | (exfalso; revert hn; simp only [exprName]; decide) | skip
    rename_i a' i' v' l'
    simp only [exprJs] at h
    have h0 := (tagged_inj h).2
    simp only [JsValue.array.injEq, List.cons.injEq, and_true] at h0
    obtain ⟨h1, h2, h3, h4⟩ := h0
    have e_a := exprJs_inj a a' (hf.part (by simp [Node.parts, exprParts])) (hf'.part (by simp [Node.parts, exprParts])) h1
    have e_i := exprJs_inj i i' (hf.part (by simp [Node.parts, exprParts])) (hf'.part (by simp [Node.parts, exprParts])) h2
    have e_v := exprJs_inj v v' (hf.part (by simp [Node.parts, exprParts])) (hf'.part (by simp [Node.parts, exprParts])) h3
    have e_l := locJs_inj hf.self.1 hf'.self.1 h4
    simp only [eraseExpr, e_a, e_i, e_v, e_l]
  | .«super» c x l, e', hf, hf', h => by
    have hn := exprJs_names h
    cases e' <;> first | (exfalso; revert hn; simp only [exprName]; decide) | skip
    rename_i c' x' l'
    simp only [exprJs] at h
    have h0 := (tagged_inj h).2
    simp only [JsValue.array.injEq, List.cons.injEq, and_true] at h0
    obtain ⟨h1, h2, h3⟩ := h0
    have e_x := JsValue.string.inj h2
    have e_l := locJs_inj hf.self.1 hf'.self.1 h3
    simp only [eraseExpr, e_x, e_l]
  | .variable x c l, e', hf, hf', h => by
    have hn := exprJs_names h
    cases e' <;> first | (exfalso; revert hn; simp only [exprName]; decide) | skip
    rename_i x' c' l'
    simp only [exprJs] at h
    have h0 := (tagged_inj h).2
    simp only [JsValue.array.injEq, List.cons.injEq, and_true] at h0
    obtain ⟨h1, h2, h3⟩ := h0
    have e_x := JsValue.string.inj h1
    have e_l := locJs_inj hf.self.1 hf'.self.1 h3
    simp only [eraseExpr, e_x, e_l]
  | .unary o e l, e', hf, hf', h => by
    have hn := exprJs_names h
    cases e' <;> first | (exfalso; revert hn; simp only [exprName]; decide) | skip
    rename_i o' e' l'
    simp only [exprJs] at h
    have h0 := (tagged_inj h).2
    simp only [JsValue.array.injEq, List.cons.injEq, and_true] at h0
    obtain ⟨h1, h2, h3⟩ := h0
    have e_o := unaryJs_inj h1
    have e_e := exprJs_inj e e' (hf.part (by simp [Node.parts, exprParts])) (hf'.part (by simp [Node.parts, exprParts])) h2
    have e_l := locJs_inj hf.self.1 hf'.self.1 h3
    simp only [eraseExpr, e_o, e_e, e_l]
theorem exprsJs_inj : ∀ (es es' : List Expr), (∀ e ∈ es, AllFit (.expr e)) → (∀ e ∈ es', AllFit (.expr e)) →
    exprsJs es = exprsJs es' → eraseExprs es = eraseExprs es'
  | [], [], _, _, _ => rfl
  | [], _ :: _, _, _, h => by simp [exprsJs] at h
  | _ :: _, [], _, _, h => by simp [exprsJs] at h
  | e :: es, e' :: es', hf, hf', h => by
    simp only [exprsJs, List.cons.injEq] at h
    simp only [eraseExprs]
    rw [exprJs_inj e e' (hf e (by simp)) (hf' e' (by simp)) h.1,
      exprsJs_inj es es' (fun y hy => hf y (by simp [hy])) (fun y hy => hf' y (by simp [hy])) h.2]
theorem entriesJs_inj : ∀ (ms ms' : List MapEntry), (∀ m ∈ ms, AllFit (.expr m.value)) → (∀ m ∈ ms', AllFit (.expr m.value)) →
    entriesJs ms = entriesJs ms' → eraseEntries ms = eraseEntries ms'
  | [], [], _, _, _ => rfl
  | [], .mk _ _ :: _, _, _, h => by simp [entriesJs] at h
  | .mk _ _ :: _, [], _, _, h => by simp [entriesJs] at h
  | .mk k v :: ms, .mk k' v' :: ms', hf, hf', h => by
    simp only [entriesJs, List.cons.injEq, JsField.mk.injEq] at h
    simp only [eraseEntries]
    rw [h.1.1, exprJs_inj v v' (hf (.mk k v) (by simp)) (hf' (.mk k' v') (by simp)) h.1.2,
      entriesJs_inj ms ms' (fun y hy => hf y (by simp [hy])) (fun y hy => hf' y (by simp [hy])) h.2]
theorem funJs_inj : ∀ (d d' : FunDef), AllFit (.fn d) → AllFit (.fn d') → funJs d = funJs d' → eraseFun d = eraseFun d'
  | .mk ps b t l, .mk ps' b' t' l', hf, hf', h => by
    simp only [funJs, JsValue.object.injEq, List.cons.injEq, JsField.mk.injEq, JsValue.array.injEq, true_and, and_true] at h
    obtain ⟨h1, h2, h3, h4⟩ := h
    simp only [eraseFun]
    rw [paramsJs_inj ps ps' hf.self.1.2 hf'.self.1.2 h1, funTypeJs_inj h3,
      show l = l' from locJs_inj hf.self.1.1 hf'.self.1.1 h4,
      stmtsJs_inj b b' (fun y hy => hf.part (List.mem_map_of_mem (f := Node.stmt) hy)) (fun y hy => hf'.part (List.mem_map_of_mem (f := Node.stmt) hy)) h2]
theorem namedJs_inj : ∀ (m m' : NamedFun), AllFit (.fn m.funDef) → AllFit (.fn m'.funDef) → namedJs m = namedJs m' →
    m.name = m'.name ∧ eraseFun m.funDef = eraseFun m'.funDef
  | .mk x d, .mk x' d', hf, hf', h => by
    simp only [namedJs, JsValue.object.injEq, List.cons.injEq, JsField.mk.injEq, JsValue.string.injEq, true_and, and_true] at h
    exact ⟨h.1, funJs_inj d d' hf hf' h.2⟩
theorem methodsJs_inj : ∀ (ms ms' : List NamedFun), (∀ m ∈ ms, AllFit (.fn m.funDef)) → (∀ m ∈ ms', AllFit (.fn m.funDef)) →
    methodsJs ms = methodsJs ms' → eraseMethods ms = eraseMethods ms'
  | [], [], _, _, _ => rfl
  | [], _ :: _, _, _, h => by simp [methodsJs] at h
  | _ :: _, [], _, _, h => by simp [methodsJs] at h
  | .mk x d :: ms, .mk x' d' :: ms', hf, hf', h => by
    simp only [methodsJs, List.cons.injEq] at h
    have := namedJs_inj (.mk x d) (.mk x' d') (hf _ (by simp)) (hf' _ (by simp)) h.1
    simp only [NamedFun.name, NamedFun.funDef] at this
    simp only [eraseMethods]
    rw [this.1, this.2, methodsJs_inj ms ms' (fun y hy => hf y (by simp [hy])) (fun y hy => hf' y (by simp [hy])) h.2]
theorem stmtJs_inj : ∀ (s s' : Stmt), AllFit (.stmt s) → AllFit (.stmt s') → stmtJs s = stmtJs s' → eraseStmt s = eraseStmt s'
  | .block b, e', hf, hf', h => by
    have hn := stmtJs_names h
    cases e' <;> first | (exfalso; revert hn; simp only [stmtName]; decide) | skip
    rename_i b'
    simp only [stmtJs] at h
    have h1 := (tagged_inj h).2
    have e_b := stmtsJs_inj b b' (fun y hy => hf.part (by simp [Node.parts, stmtParts, hy])) (fun y hy => hf'.part (by simp [Node.parts, stmtParts, hy])) (JsValue.array.inj h1)
    simp only [eraseStmt, e_b]
  | .«break» l, e', hf, hf', h => by
    have hn := stmtJs_names h
    cases e' <;> first | (exfalso; revert hn; simp only [stmtName]; decide) | skip
    rename_i l'
    simp only [stmtJs] at h
    have h1 := (tagged_inj h).2
    have e_l := locJs_inj hf.self.1 hf'.self.1 h1
    simp only [eraseStmt, e_l]
  | .«continue» l, e', hf, hf', h => by
    have hn := stmtJs_names h
    cases e' <;> first | (exfalso; revert hn; simp only [stmtName]; decide) | skip
    rename_i l'
    simp only [stmtJs] at h
    have h1 := (tagged_inj h).2
    have e_l := locJs_inj hf.self.1 hf'.self.1 h1
    simp only [eraseStmt, e_l]
  | .expression a, e', hf, hf', h => by
    have hn := stmtJs_names h
    cases e' <;> first | (exfalso; revert hn; simp only [stmtName]; decide) | skip
    rename_i a'
    simp only [stmtJs] at h
    have h1 := (tagged_inj h).2
    have e_a := exprJs_inj a a' (hf.part (by simp [Node.parts, stmtParts])) (hf'.part (by simp [Node.parts, stmtParts])) h1
    simp only [eraseStmt, e_a]
  | .«fun» f, e', hf, hf', h => by
    have hn := stmtJs_names h
    cases e' <;> first | (exfalso; revert hn; simp only [stmtName]; decide) | skip
    rename_i f'
    simp only [stmtJs] at h
    have h1 := (tagged_inj h).2
    have e_f := namedJs_inj f f' (hf.part (by simp [Node.parts, stmtParts])) (hf'.part (by simp [Node.parts, stmtParts])) h1
    cases f; cases f'
    simp only [eraseStmt]
    simp only [NamedFun.name, NamedFun.funDef] at e_f
    rw [e_f.1, e_f.2]
  | .print a, e', hf, hf', h => by
    have hn := stmtJs_names h
    cases e' <;> first | (exfalso; revert hn; simp only [stmtName]; decide) | skip
    rename_i a'
    simp only [stmtJs] at h
    have h1 := (tagged_inj h).2
    have e_a := exprJs_inj a a' (hf.part (by simp [Node.parts, stmtParts])) (hf'.part (by simp [Node.parts, stmtParts])) h1
    simp only [eraseStmt, e_a]
  | .«return» a l, e', hf, hf', h => by
    have hn := stmtJs_names h
    cases e' <;> first | (exfalso; revert hn; simp only [stmtName]; decide) | skip
    rename_i a' l'
    simp only [stmtJs] at h
    have h0 := (tagged_inj h).2
    simp only [JsValue.array.injEq, List.cons.injEq, and_true] at h0
    obtain ⟨h1, h2⟩ := h0
    have e_a := exprJs_inj a a' (hf.part (by simp [Node.parts, stmtParts])) (hf'.part (by simp [Node.parts, stmtParts])) h1
    have e_l := locJs_inj hf.self.1 hf'.self.1 h2
    simp only [eraseStmt, e_a, e_l]
  | .var x c a l, e', hf, hf', h => by
    have hn := stmtJs_names h
    cases e' <;> first | (exfalso; revert hn; simp only [stmtName]; decide) | skip
    rename_i x' c' a' l'
    simp only [stmtJs] at h
    have h0 := (tagged_inj h).2
    simp only [JsValue.array.injEq, List.cons.injEq, and_true] at h0
    obtain ⟨h1, h2, h3, h4⟩ := h0
    have e_x := JsValue.string.inj h1
    have e_a := exprJs_inj a a' (hf.part (by simp [Node.parts, stmtParts])) (hf'.part (by simp [Node.parts, stmtParts])) h3
    have e_l := locJs_inj hf.self.1 hf'.self.1 h4
    simp only [eraseStmt, e_x, e_a, e_l]
  | .«while» a b, e', hf, hf', h => by
    have hn := stmtJs_names h
    cases e' <;> first | (exfalso; revert hn; simp only [stmtName]; decide) | skip
    rename_i a' b'
    simp only [stmtJs] at h
    have h0 := (tagged_inj h).2
    simp only [JsValue.array.injEq, List.cons.injEq, and_true] at h0
    obtain ⟨h1, h2⟩ := h0
    have e_a := exprJs_inj a a' (hf.part (by simp [Node.parts, stmtParts])) (hf'.part (by simp [Node.parts, stmtParts])) h1
    have e_b := stmtJs_inj b b' (hf.part (by simp [Node.parts, stmtParts])) (hf'.part (by simp [Node.parts, stmtParts])) h2
    simp only [eraseStmt, e_a, e_b]
  | .whileIncrement a b i, e', hf, hf', h => by
    have hn := stmtJs_names h
    cases e' <;> first | (exfalso; revert hn; simp only [stmtName]; decide) | skip
    rename_i a' b' i'
    simp only [stmtJs] at h
    have h0 := (tagged_inj h).2
    simp only [JsValue.array.injEq, List.cons.injEq, and_true] at h0
    obtain ⟨h1, h2, h3⟩ := h0
    have e_a := exprJs_inj a a' (hf.part (by simp [Node.parts, stmtParts])) (hf'.part (by simp [Node.parts, stmtParts])) h1
    have e_b := stmtJs_inj b b' (hf.part (by simp [Node.parts, stmtParts])) (hf'.part (by simp [Node.parts, stmtParts])) h2
    have e_i := exprJs_inj i i' (hf.part (by simp [Node.parts, stmtParts])) (hf'.part (by simp [Node.parts, stmtParts])) h3
    simp only [eraseStmt, e_a, e_b, e_i]
  | .«class» x none ms l, e', hf, hf', h => by
    have hn := stmtJs_names h
    cases e' <;> first | (exfalso; revert hn; simp only [stmtName]; decide) | skip
    rename_i x' p' ms' l'
    cases p' with
    | none =>
      simp only [stmtJs] at h
      have h0 := (tagged_inj h).2
      simp only [JsValue.object.injEq, List.cons.injEq, JsField.mk.injEq, JsValue.string.injEq, JsValue.array.injEq, true_and, and_true] at h0
      obtain ⟨h1, h2, h3⟩ := h0
      have e_l := locJs_inj hf.self.1 hf'.self.1 h3
      have e_ms := methodsJs_inj ms ms' (fun y hy => hf.part (by simp only [Node.parts, stmtParts, List.mem_append]; exact .inr (List.mem_map_of_mem (f := fun m => Node.fn m.funDef) hy)))
        (fun y hy => hf'.part (by simp only [Node.parts, stmtParts, List.mem_append]; exact .inr (List.mem_map_of_mem (f := fun m => Node.fn m.funDef) hy))) h2
      simp only [eraseStmt, h1, e_ms, e_l]
    | some p' =>
      simp only [stmtJs] at h
      have h0 := (tagged_inj h).2
      simp only [JsValue.object.injEq, List.cons.injEq, JsField.mk.injEq] at h0
      exact absurd h0.2.1.2.symm (exprJs_defined p')
  | .«class» x (some p) ms l, e', hf, hf', h => by
    have hn := stmtJs_names h
    cases e' <;> first | (exfalso; revert hn; simp only [stmtName]; decide) | skip
    rename_i x' p' ms' l'
    cases p' with
    | none =>
      simp only [stmtJs] at h
      have h0 := (tagged_inj h).2
      simp only [JsValue.object.injEq, List.cons.injEq, JsField.mk.injEq] at h0
      exact absurd h0.2.1.2 (exprJs_defined p)
    | some p' =>
      simp only [stmtJs] at h
      have h0 := (tagged_inj h).2
      simp only [JsValue.object.injEq, List.cons.injEq, JsField.mk.injEq, JsValue.string.injEq, JsValue.array.injEq, true_and, and_true] at h0
      obtain ⟨h1, hp, h2, h3⟩ := h0
      have e_l := locJs_inj hf.self.1 hf'.self.1 h3
      have e_p := exprJs_inj p p' (hf.part (by simp [Node.parts, stmtParts])) (hf'.part (by simp [Node.parts, stmtParts])) hp
      have e_ms := methodsJs_inj ms ms' (fun y hy => hf.part (by simp only [Node.parts, stmtParts, List.mem_append]; exact .inr (List.mem_map_of_mem (f := fun m => Node.fn m.funDef) hy)))
        (fun y hy => hf'.part (by simp only [Node.parts, stmtParts, List.mem_append]; exact .inr (List.mem_map_of_mem (f := fun m => Node.fn m.funDef) hy))) h2
      simp only [eraseStmt, h1, e_p, e_ms, e_l]
  | .«if» c a none, e', hf, hf', h => by
    have hn := stmtJs_names h
    cases e' <;> first | (exfalso; revert hn; simp only [stmtName]; decide) | skip
    rename_i c' a' b'
    cases b' with
    | none =>
      simp only [stmtJs] at h
      have h0 := (tagged_inj h).2
      simp only [JsValue.array.injEq, List.cons.injEq, and_true] at h0
      have e_c := exprJs_inj c c' (hf.part (by simp [Node.parts, stmtParts])) (hf'.part (by simp [Node.parts, stmtParts])) h0.1
      have e_a := stmtJs_inj a a' (hf.part (by simp [Node.parts, stmtParts])) (hf'.part (by simp [Node.parts, stmtParts])) h0.2
      simp only [eraseStmt, e_c, e_a]
    | some b' =>
      simp only [stmtJs] at h
      have h0 := (tagged_inj h).2
      simp only [JsValue.array.injEq, List.cons.injEq, and_true] at h0
      exact absurd h0.2.2.symm (stmtJs_defined b')
  | .«if» c a (some b), e', hf, hf', h => by
    have hn := stmtJs_names h
    cases e' <;> first | (exfalso; revert hn; simp only [stmtName]; decide) | skip
    rename_i c' a' b'
    cases b' with
    | none =>
      simp only [stmtJs] at h
      have h0 := (tagged_inj h).2
      simp only [JsValue.array.injEq, List.cons.injEq, and_true] at h0
      exact absurd h0.2.2 (stmtJs_defined b)
    | some b' =>
      simp only [stmtJs] at h
      have h0 := (tagged_inj h).2
      simp only [JsValue.array.injEq, List.cons.injEq, and_true] at h0
      have e_c := exprJs_inj c c' (hf.part (by simp [Node.parts, stmtParts])) (hf'.part (by simp [Node.parts, stmtParts])) h0.1
      have e_a := stmtJs_inj a a' (hf.part (by simp [Node.parts, stmtParts])) (hf'.part (by simp [Node.parts, stmtParts])) h0.2.1
      have e_b := stmtJs_inj b b' (hf.part (by simp [Node.parts, stmtParts])) (hf'.part (by simp [Node.parts, stmtParts])) h0.2.2
      simp only [eraseStmt, e_c, e_a, e_b]
theorem stmtsJs_inj : ∀ (ss ss' : List Stmt), (∀ s ∈ ss, AllFit (.stmt s)) → (∀ s ∈ ss', AllFit (.stmt s)) →
    stmtsJs ss = stmtsJs ss' → eraseStmts ss = eraseStmts ss'
  | [], [], _, _, _ => rfl
  | [], _ :: _, _, _, h => by simp [stmtsJs] at h
  | _ :: _, [], _, _, h => by simp [stmtsJs] at h
  | s :: ss, s' :: ss', hf, hf', h => by
    simp only [stmtsJs, List.cons.injEq] at h
    simp only [eraseStmts]
    rw [stmtJs_inj s s' (hf s (by simp)) (hf' s' (by simp)) h.1,
      stmtsJs_inj ss ss' (fun y hy => hf y (by simp [hy])) (fun y hy => hf' y (by simp [hy])) h.2]
end

end Ws
