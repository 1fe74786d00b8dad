import Verif.Proofs.Page
import Verif.Proofs.Js.Values
import Verif.Spec.Face
/-! Truth values do not show on the demo page (C91). -/
set_option linter.unusedSimpArgs false
namespace Ws
open Spec

mutual
/-- The value with `true` for every truth value. -/
def dull : JsValue → JsValue
  | .undefined => .undefined
  | .bool _ => .bool true
  | .number x => .number x
  | .string s => .string s
  | .array es => .array (dulls es)
  | .object fs => .object (dullFields fs)
  | .map fs => .map (dullFields fs)
def dulls : List JsValue → List JsValue
  | [] => []
  | e :: es => dull e :: dulls es
def dullFields : List JsField → List JsField
  | [] => []
  | .mk k v :: fs => .mk k (dull v) :: dullFields fs
end

variable {showNumber : F64 → Str}

mutual
theorem pretty_dull : ∀ (v : JsValue) (pre : Str), pretty showNumber pre (dull v) = pretty showNumber pre v
  | .undefined, _ | .bool _, _ | .number _, _ | .string _, _ => by simp [dull, pretty]
  | .array es, pre => by simp [dull, pretty, pretty_dulls es]
  | .object fs, pre => by simp [dull, pretty, pretty_dullFields fs]
  | .map fs, pre => by simp [dull, pretty, pretty_dullFields fs]
theorem pretty_dulls : ∀ (es : List JsValue) (pre : Str), prettyItems showNumber pre (dulls es) = prettyItems showNumber pre es
  | [], _ => rfl
  | e :: es, pre => by simp [dulls, prettyItems, pretty_dull e, pretty_dulls es]
theorem pretty_dullFields : ∀ (fs : List JsField) (pre : Str), prettyFields showNumber pre (dullFields fs) = prettyFields showNumber pre fs
  | [], _ => rfl
  | .mk k v :: fs, pre => by simp [dullFields, prettyFields, pretty_dull v, pretty_dullFields fs]
end

theorem key_mk (k : Str) (v : JsValue) : (JsField.mk k v).key = k := rfl

theorem dull_any (k : Str) : ∀ m : List JsField, (dullFields m).any (fun g => g.key == k) = m.any (fun g => g.key == k)
  | [] => rfl
  | .mk a b :: m => by simp only [dullFields, List.any_cons, key_mk, dull_any k m]

theorem dull_replace (k : Str) (v : JsValue) : ∀ m : List JsField,
    (dullFields m).map (fun g => if g.key == k then .mk k (dull v) else g) =
      dullFields (m.map (fun g => if g.key == k then .mk k v else g))
  | [] => rfl
  | .mk a b :: m => by
    rw [dullFields, List.map_cons, dull_replace k v m, List.map_cons]
    show (if (a == k) = true then JsField.mk k (dull v) else .mk a (dull b)) :: _ =
      dullFields ((if (a == k) = true then .mk k v else .mk a b) :: _)
    by_cases h : (a == k) = true
    · rw [if_pos h, if_pos h, dullFields]
    · rw [if_neg h, if_neg h, dullFields]

theorem dull_append (k : Str) (v : JsValue) : ∀ m : List JsField, dullFields m ++ [.mk k (dull v)] = dullFields (m ++ [.mk k v])
  | [] => by simp [dullFields]
  | .mk a b :: m => by simp [dullFields, dull_append k v m]

theorem dull_mapSet (m : List JsField) (k : Str) (v : JsValue) :
    mapSet (dullFields m) (.mk k (dull v)) = dullFields (mapSet m (.mk k v)) := by
  show (if ((dullFields m).any fun g => g.key == k) = true then (dullFields m).map (fun g => if g.key == k then .mk k (dull v) else g)
      else dullFields m ++ [.mk k (dull v)]) =
    dullFields (if (m.any fun g => g.key == k) = true then m.map (fun g => if g.key == k then .mk k v else g) else m ++ [.mk k v])
  by_cases h : (m.any fun g => g.key == k) = true
  · rw [if_pos h, if_pos (by rw [dull_any]; exact h), dull_replace]
  · rw [if_neg h, if_neg (by rw [dull_any]; exact h), dull_append]

theorem dull_foldl : ∀ (fs m : List JsField), (dullFields fs).foldl mapSet (dullFields m) = dullFields (fs.foldl mapSet m)
  | [], m => rfl
  | .mk k v :: fs, m => by
    simp only [dullFields, List.foldl_cons, dull_mapSet]
    exact dull_foldl fs _

theorem dull_tagged (n : Str) (a : JsValue) : dull (tagged n a) = tagged n (dull a) := by simp [tagged, dull, dullFields]
theorem dull_loc (l : SourceLoc) : dull (locJs l) = locJs l := by simp [locJs, natJs, dull, dullFields]
theorem dull_cell (c : VarLoc) : dull (cellJs c) = cellJs c := by simp [cellJs, natJs, dull, dullFields]
theorem dull_slot (c : SlotIndex) : dull (slotJs c) = slotJs c := by simp [slotJs, natJs, dull]
theorem dull_params : ∀ ps : List Parameter, dulls (ps.map paramJs) = ps.map paramJs
  | [] => rfl
  | p :: ps => by simp [dulls, dull_params ps, paramJs, dull, dullFields, dull_loc]
theorem dull_funType (t : FunctionType) : dull (funTypeJs t) = funTypeJs t := by cases t <;> simp [funTypeJs, dull]
theorem dull_unary (t : UnaryOperator) : dull (unaryJs t) = unaryJs t := by cases t <;> simp [unaryJs, dull]
theorem dull_binary (t : BinaryOperator) : dull (binaryJs t) = binaryJs t := by cases t <;> simp [binaryJs, dull]
theorem dull_logical (t : LogicalOperator) : dull (logicalJs t) = logicalJs t := by cases t <;> simp [logicalJs, dull]

mutual
theorem truth_exprJs : ∀ e : Expr, exprJs (truthExpr e) = dull (exprJs e)
  | .assign x c r l => by simp [truthExpr, exprJs, dull_tagged, dull, dulls, dullFields, dull_loc, dull_cell, dull_slot, dull_params, dull_funType, dull_unary, dull_binary, dull_logical, truth_exprJs r]
  | .call f a l => by simp [truthExpr, exprJs, dull_tagged, dull, dulls, dullFields, dull_loc, dull_cell, dull_slot, dull_params, dull_funType, dull_unary, dull_binary, dull_logical, truth_exprJs f, truth_exprsJs a]
  | .binary a o b l => by simp [truthExpr, exprJs, dull_tagged, dull, dulls, dullFields, dull_loc, dull_cell, dull_slot, dull_params, dull_funType, dull_unary, dull_binary, dull_logical, truth_exprJs a, truth_exprJs b]
  | .function d => by simp [truthExpr, exprJs, dull_tagged, dull, dulls, dullFields, dull_loc, dull_cell, dull_slot, dull_params, dull_funType, dull_unary, dull_binary, dull_logical, truth_funJs d]
  | .get o x l => by simp [truthExpr, exprJs, dull_tagged, dull, dulls, dullFields, dull_loc, dull_cell, dull_slot, dull_params, dull_funType, dull_unary, dull_binary, dull_logical, truth_exprJs o]
  | .getIndex a i l => by simp [truthExpr, exprJs, dull_tagged, dull, dulls, dullFields, dull_loc, dull_cell, dull_slot, dull_params, dull_funType, dull_unary, dull_binary, dull_logical, truth_exprJs a, truth_exprJs i]
  | .grouping e => by simp [truthExpr, exprJs, dull_tagged, dull, dulls, dullFields, dull_loc, dull_cell, dull_slot, dull_params, dull_funType, dull_unary, dull_binary, dull_logical, truth_exprJs e]
  | .literalArray es => by simp [truthExpr, exprJs, dull_tagged, dull, dulls, dullFields, dull_loc, dull_cell, dull_slot, dull_params, dull_funType, dull_unary, dull_binary, dull_logical, truth_exprsJs es]
  | .literalBool b => by simp [truthExpr, exprJs, dull_tagged, dull, dulls, dullFields, dull_loc, dull_cell, dull_slot, dull_params, dull_funType, dull_unary, dull_binary, dull_logical]
  | .literalNumber x => by simp [truthExpr, exprJs, dull_tagged, dull, dulls, dullFields, dull_loc, dull_cell, dull_slot, dull_params, dull_funType, dull_unary, dull_binary, dull_logical]
  | .literalNil => by simp [truthExpr, exprJs, dull_tagged, dull, dulls, dullFields, dull_loc, dull_cell, dull_slot, dull_params, dull_funType, dull_unary, dull_binary, dull_logical]
  | .literalString s => by simp [truthExpr, exprJs, dull_tagged, dull, dulls, dullFields, dull_loc, dull_cell, dull_slot, dull_params, dull_funType, dull_unary, dull_binary, dull_logical]
  | .logical a o b => by simp [truthExpr, exprJs, dull_tagged, dull, dulls, dullFields, dull_loc, dull_cell, dull_slot, dull_params, dull_funType, dull_unary, dull_binary, dull_logical, truth_exprJs a, truth_exprJs b]
  | .set o x v l => by simp [truthExpr, exprJs, dull_tagged, dull, dulls, dullFields, dull_loc, dull_cell, dull_slot, dull_params, dull_funType, dull_unary, dull_binary, dull_logical, truth_exprJs o, truth_exprJs v]
  | .setIndex a i v l => by simp [truthExpr, exprJs, dull_tagged, dull, dulls, dullFields, dull_loc, dull_cell, dull_slot, dull_params, dull_funType, dull_unary, dull_binary, dull_logical, truth_exprJs a, truth_exprJs i, truth_exprJs v]
  | .super c x l => by simp [truthExpr, exprJs, dull_tagged, dull, dulls, dullFields, dull_loc, dull_cell, dull_slot, dull_params, dull_funType, dull_unary, dull_binary, dull_logical]
  | .variable x c l => by simp [truthExpr, exprJs, dull_tagged, dull, dulls, dullFields, dull_loc, dull_cell, dull_slot, dull_params, dull_funType, dull_unary, dull_binary, dull_logical]
  | .unary o e l => by simp [truthExpr, exprJs, dull_tagged, dull, dulls, dullFields, dull_loc, dull_cell, dull_slot, dull_params, dull_funType, dull_unary, dull_binary, dull_logical, truth_exprJs e]
  | .literalMap ms => by
    simp only [truthExpr, exprJs, dull_tagged, dull, truth_entriesJs ms]
    rw [← dull_foldl]
    rfl
theorem truth_exprsJs : ∀ es : List Expr, exprsJs (truthExprs es) = dulls (exprsJs es)
  | [] => by simp [truthExprs, exprsJs, dulls]
  | e :: es => by simp [truthExprs, exprsJs, dulls, truth_exprJs e, truth_exprsJs es]
theorem truth_entriesJs : ∀ ms : List MapEntry, entriesJs (truthEntries ms) = dullFields (entriesJs ms)
  | [] => by simp [truthEntries, entriesJs, dullFields]
  | .mk k v :: ms => by simp [truthEntries, entriesJs, dullFields, truth_exprJs v, truth_entriesJs ms]
theorem truth_funJs : ∀ d : FunDef, funJs (truthFun d) = dull (funJs d)
  | .mk ps b t l => by simp [truthFun, funJs, dull_tagged, dull, dulls, dullFields, dull_loc, dull_cell, dull_slot, dull_params, dull_funType, dull_unary, dull_binary, dull_logical, truth_stmtsJs b]
theorem truth_methodsJs : ∀ ms : List NamedFun, methodsJs (truthMethods ms) = dulls (methodsJs ms)
  | [] => by simp [truthMethods, methodsJs, dulls]
  | .mk x d :: ms => by simp [truthMethods, methodsJs, namedJs, dull_tagged, dull, dulls, dullFields, dull_loc, dull_cell, dull_slot, dull_params, dull_funType, dull_unary, dull_binary, dull_logical, truth_funJs d, truth_methodsJs ms]
theorem truth_stmtJs : ∀ s : Stmt, stmtJs (truthStmt s) = dull (stmtJs s)
  | .block b => by simp [truthStmt, stmtJs, dull_tagged, dull, dulls, dullFields, dull_loc, dull_cell, dull_slot, dull_params, dull_funType, dull_unary, dull_binary, dull_logical, truth_stmtsJs b]
  | .break l => by simp [truthStmt, stmtJs, dull_tagged, dull, dulls, dullFields, dull_loc, dull_cell, dull_slot, dull_params, dull_funType, dull_unary, dull_binary, dull_logical]
  | .continue l => by simp [truthStmt, stmtJs, dull_tagged, dull, dulls, dullFields, dull_loc, dull_cell, dull_slot, dull_params, dull_funType, dull_unary, dull_binary, dull_logical]
  | .class x none ms l => by simp [truthStmt, stmtJs, dull_tagged, dull, dulls, dullFields, dull_loc, dull_cell, dull_slot, dull_params, dull_funType, dull_unary, dull_binary, dull_logical, truth_methodsJs ms]
  | .class x (some e) ms l => by simp [truthStmt, stmtJs, dull_tagged, dull, dulls, dullFields, dull_loc, dull_cell, dull_slot, dull_params, dull_funType, dull_unary, dull_binary, dull_logical, truth_exprJs e, truth_methodsJs ms]
  | .expression e => by simp [truthStmt, stmtJs, dull_tagged, dull, dulls, dullFields, dull_loc, dull_cell, dull_slot, dull_params, dull_funType, dull_unary, dull_binary, dull_logical, truth_exprJs e]
  | .fun (.mk x d) => by simp [truthStmt, stmtJs, namedJs, dull_tagged, dull, dulls, dullFields, dull_loc, dull_cell, dull_slot, dull_params, dull_funType, dull_unary, dull_binary, dull_logical, truth_funJs d]
  | .if c a none => by simp [truthStmt, stmtJs, dull_tagged, dull, dulls, dullFields, dull_loc, dull_cell, dull_slot, dull_params, dull_funType, dull_unary, dull_binary, dull_logical, truth_exprJs c, truth_stmtJs a]
  | .if c a (some b) => by simp [truthStmt, stmtJs, dull_tagged, dull, dulls, dullFields, dull_loc, dull_cell, dull_slot, dull_params, dull_funType, dull_unary, dull_binary, dull_logical, truth_exprJs c, truth_stmtJs a, truth_stmtJs b]
  | .print e => by simp [truthStmt, stmtJs, dull_tagged, dull, dulls, dullFields, dull_loc, dull_cell, dull_slot, dull_params, dull_funType, dull_unary, dull_binary, dull_logical, truth_exprJs e]
  | .return e l => by simp [truthStmt, stmtJs, dull_tagged, dull, dulls, dullFields, dull_loc, dull_cell, dull_slot, dull_params, dull_funType, dull_unary, dull_binary, dull_logical, truth_exprJs e]
  | .var x c e l => by simp [truthStmt, stmtJs, dull_tagged, dull, dulls, dullFields, dull_loc, dull_cell, dull_slot, dull_params, dull_funType, dull_unary, dull_binary, dull_logical, truth_exprJs e]
  | .while c b => by simp [truthStmt, stmtJs, dull_tagged, dull, dulls, dullFields, dull_loc, dull_cell, dull_slot, dull_params, dull_funType, dull_unary, dull_binary, dull_logical, truth_exprJs c, truth_stmtJs b]
  | .whileIncrement c b i => by simp [truthStmt, stmtJs, dull_tagged, dull, dulls, dullFields, dull_loc, dull_cell, dull_slot, dull_params, dull_funType, dull_unary, dull_binary, dull_logical, truth_exprJs c, truth_stmtJs b, truth_exprJs i]
theorem truth_stmtsJs : ∀ ss : List Stmt, stmtsJs (truthStmts ss) = dulls (stmtsJs ss)
  | [] => by simp [truthStmts, stmtsJs, dulls]
  | s :: ss => by simp [truthStmts, stmtsJs, dulls, truth_stmtJs s, truth_stmtsJs ss]
end

theorem pretty_truth (sts : List Stmt) : pretty showNumber [] (.array (stmtsJs (truthStmts sts))) = pretty showNumber [] (.array (stmtsJs sts)) := by
  rw [truth_stmtsJs, ← dull, pretty_dull]

end Ws
