import Verif.Proofs.Print.Text
import Verif.Spec.Subtree
/-! What is shown of a tree has names for names, and the numbers of the tree. -/
namespace Ws
open Spec

/-- All numbers in a tree are wanted. -/
def AllNum (ok : F64 → Prop) (n : Node) : Prop := ∀ x, Within (.expr (.literalNumber x)) n → ok x

variable {ok : F64 → Prop}

theorem AllNum.part {n c : Node} (h : AllNum ok n) (hc : c ∈ n.parts) : AllNum ok c := fun x hx => h x (.step hc hx)
theorem AllNum.self {x : F64} (h : AllNum ok (.expr (.literalNumber x))) : ok x := h x .refl

theorem natDbg_fine (n : Nat) : (natDbg n).Fine ok := worded_decimal n
theorem locDbg_fine (l : SourceLoc) : (locDbg l).Fine ok :=
  ⟨rfl, by simp, rfl, natDbg_fine _, rfl, natDbg_fine _, trivial⟩
theorem varLocDbg_fine (c : VarLoc) : (cellDbg (varLocDbg c)).Fine ok :=
  ⟨rfl, by simp, rfl, ⟨rfl, by simp, rfl, natDbg_fine _, rfl, natDbg_fine _, trivial⟩, trivial⟩
theorem slotDbg_fine (c : SlotIndex) : (cellDbg (slotDbg c)).Fine ok :=
  ⟨rfl, by simp, rfl, ⟨rfl, by simp, natDbg_fine _, trivial⟩, trivial⟩
theorem binaryDbg_fine (o : BinaryOperator) : (binaryDbg o).Fine ok := by cases o <;> exact worded_name rfl
theorem logicalDbg_fine (o : LogicalOperator) : (logicalDbg o).Fine ok := by cases o <;> exact worded_name rfl
theorem unaryDbg_fine (o : UnaryOperator) : (unaryDbg o).Fine ok := by cases o <;> exact worded_name rfl
theorem funTypeDbg_fine (o : FunctionType) : (funTypeDbg o).Fine ok := by cases o <;> exact worded_name rfl
theorem paramsDbg_fine : ∀ ps : List Parameter, FineAll ok (ps.map paramDbg)
  | [] => trivial
  | _ :: ps => ⟨⟨rfl, by simp, rfl, trivial, rfl, locDbg_fine _, trivial⟩, paramsDbg_fine ps⟩

mutual
theorem exprDbg_fine : ∀ e : Expr, AllNum ok (.expr e) → (exprDbg e).Fine ok
  | .assign x c r l, h => by
    rw [exprDbg]
    exact ⟨rfl, by simp, trivial, varLocDbg_fine c, exprDbg_fine r (h.part (by simp [Node.parts, exprParts, stmtParts])), locDbg_fine l, trivial⟩
  | .call f a l, h => by
    rw [exprDbg]
    exact ⟨rfl, by simp, exprDbg_fine f (h.part (by simp [Node.parts, exprParts, stmtParts])), exprsDbg_fine a (fun y hy => h.part (by simp [Node.parts, exprParts, hy])), locDbg_fine l, trivial⟩
  | .binary a o b l, h => by
    rw [exprDbg]
    exact ⟨rfl, by simp, exprDbg_fine a (h.part (by simp [Node.parts, exprParts, stmtParts])), binaryDbg_fine o, exprDbg_fine b (h.part (by simp [Node.parts, exprParts, stmtParts])), locDbg_fine l, trivial⟩
  | .function d, h => by
    rw [exprDbg]
    exact ⟨rfl, by simp, funDbg_fine d (h.part (by simp [Node.parts, exprParts, stmtParts])), trivial⟩
  | .get o x l, h => by
    rw [exprDbg]
    exact ⟨rfl, by simp, exprDbg_fine o (h.part (by simp [Node.parts, exprParts, stmtParts])), trivial, locDbg_fine l, trivial⟩
  | .getIndex a i l, h => by
    rw [exprDbg]
    exact ⟨rfl, by simp, exprDbg_fine a (h.part (by simp [Node.parts, exprParts, stmtParts])), exprDbg_fine i (h.part (by simp [Node.parts, exprParts, stmtParts])), locDbg_fine l, trivial⟩
  | .grouping a, h => by
    rw [exprDbg]
    exact ⟨rfl, by simp, exprDbg_fine a (h.part (by simp [Node.parts, exprParts, stmtParts])), trivial⟩
  | .literalArray es, h => by
    rw [exprDbg]
    exact ⟨rfl, by simp, exprsDbg_fine es (fun y hy => h.part (by simp [Node.parts, exprParts, hy])), trivial⟩
  | .literalMap ms, h => by
    rw [exprDbg]
    exact ⟨rfl, by simp, ⟨rfl, by simp, rfl, entriesDbg_fine ms (fun y hy => h.part (by simp only [Node.parts, exprParts]; exact List.mem_map_of_mem hy)), trivial⟩, trivial⟩
  | .literalNumber n, h => by
    rw [exprDbg]
    exact ⟨rfl, by simp, h.self, trivial⟩
  | .literalNil, h => by rw [exprDbg]; exact worded_name rfl
  | .literalString s, h => by
    rw [exprDbg]
    exact ⟨rfl, by simp, trivial, trivial⟩
  | .logical a o b, h => by
    rw [exprDbg]
    exact ⟨rfl, by simp, exprDbg_fine a (h.part (by simp [Node.parts, exprParts, stmtParts])), logicalDbg_fine o, exprDbg_fine b (h.part (by simp [Node.parts, exprParts, stmtParts])), trivial⟩
  | .«set» o x v l, h => by
    rw [exprDbg]
    exact ⟨rfl, by simp, exprDbg_fine o (h.part (by simp [Node.parts, exprParts, stmtParts])), trivial, exprDbg_fine v (h.part (by simp [Node.parts, exprParts, stmtParts])), locDbg_fine l, trivial⟩
  | .setIndex a i v l, h => by
    rw [exprDbg]
    exact ⟨rfl, by simp, exprDbg_fine a (h.part (by simp [Node.parts, exprParts, stmtParts])), exprDbg_fine i (h.part (by simp [Node.parts, exprParts, stmtParts])), exprDbg_fine v (h.part (by simp [Node.parts, exprParts, stmtParts])), locDbg_fine l, trivial⟩
  | .super c x l, h => by
    rw [exprDbg]
    exact ⟨rfl, by simp, varLocDbg_fine c, trivial, locDbg_fine l, trivial⟩
  | .«variable» x c l, h => by
    rw [exprDbg]
    exact ⟨rfl, by simp, trivial, varLocDbg_fine c, locDbg_fine l, trivial⟩
  | .unary o a l, h => by
    rw [exprDbg]
    exact ⟨rfl, by simp, unaryDbg_fine o, exprDbg_fine a (h.part (by simp [Node.parts, exprParts, stmtParts])), locDbg_fine l, trivial⟩
  | .literalBool b, h => by
    cases b <;> rw [exprDbg] <;> exact ⟨rfl, by simp, worded_name rfl, trivial⟩
theorem exprsDbg_fine : ∀ es : List Expr, (∀ e ∈ es, AllNum ok (.expr e)) → FineAll ok (exprsDbg es)
  | [], _ => by rw [exprsDbg]; trivial
  | e :: es, h => by
    rw [exprsDbg]
    exact ⟨exprDbg_fine e (h e (by simp)), exprsDbg_fine es (fun y hy => h y (by simp [hy]))⟩
theorem entriesDbg_fine : ∀ es : List MapEntry, (∀ e ∈ es, AllNum ok (.expr e.value)) → FineEntries ok (entriesDbg es)
  | [], _ => by rw [entriesDbg]; trivial
  | .mk k e :: es, h => by
    rw [entriesDbg]
    exact ⟨exprDbg_fine e (h (.mk k e) (by simp)), entriesDbg_fine es (fun y hy => h y (by simp [hy]))⟩
theorem funDbg_fine : ∀ d : FunDef, AllNum ok (.fn d) → (funDbg d).Fine ok
  | .mk p b t l, h => by
    rw [funDbg]
    exact ⟨rfl, by simp, rfl, paramsDbg_fine p, rfl, stmtsDbg_fine b (fun y hy => h.part (by simp [Node.parts, FunDef.body, hy])), rfl,
      funTypeDbg_fine t, rfl, locDbg_fine l, trivial⟩
theorem namedDbg_fine : ∀ f : NamedFun, AllNum ok (.fn f.funDef) → (namedDbg f).Fine ok
  | .mk x d, h => by
    rw [namedDbg]
    exact ⟨rfl, by simp, rfl, trivial, rfl, funDbg_fine d h, trivial⟩
theorem methodsDbg_fine : ∀ es : List NamedFun, (∀ e ∈ es, AllNum ok (.fn e.funDef)) → FineAll ok (methodsDbg es)
  | [], _ => by rw [methodsDbg]; trivial
  | e :: es, h => by
    rw [methodsDbg]
    exact ⟨namedDbg_fine e (h e (by simp)), methodsDbg_fine es (fun y hy => h y (by simp [hy]))⟩
theorem stmtDbg_fine : ∀ s : Stmt, AllNum ok (.stmt s) → (stmtDbg s).Fine ok
  | .block b, h => by
    rw [stmtDbg]
    exact ⟨rfl, by simp, stmtsDbg_fine b (fun y hy => h.part (by simp [Node.parts, stmtParts, hy])), trivial⟩
  | .«break» l, h => by
    rw [stmtDbg]
    exact ⟨rfl, by simp, locDbg_fine l, trivial⟩
  | .«class» x e m l, h => by
    rw [stmtDbg]
    exact ⟨rfl, by simp, ⟨rfl, by simp, rfl, trivial, rfl, superclassDbg_fine e (fun y hy => h.part (by subst hy; simp [Node.parts, stmtParts])), rfl, methodsDbg_fine m (fun y hy => h.part (by simp only [Node.parts, stmtParts]; exact List.mem_append_right _ (List.mem_map_of_mem hy))), rfl, locDbg_fine l, trivial⟩, trivial⟩
  | .«continue» l, h => by
    rw [stmtDbg]
    exact ⟨rfl, by simp, locDbg_fine l, trivial⟩
  | .expression e, h => by
    rw [stmtDbg]
    exact ⟨rfl, by simp, exprDbg_fine e (h.part (by simp [Node.parts, exprParts, stmtParts])), trivial⟩
  | .«fun» f, h => by
    rw [stmtDbg]
    exact ⟨rfl, by simp, namedDbg_fine f (h.part (by simp [Node.parts, exprParts, stmtParts])), trivial⟩
  | .«if» c a b, h => by
    rw [stmtDbg]
    exact ⟨rfl, by simp, exprDbg_fine c (h.part (by simp [Node.parts, exprParts, stmtParts])), stmtDbg_fine a (h.part (by simp [Node.parts, exprParts, stmtParts])), elseDbg_fine b (fun y hy => h.part (by subst hy; simp [Node.parts, stmtParts])), trivial⟩
  | .print e, h => by
    rw [stmtDbg]
    exact ⟨rfl, by simp, exprDbg_fine e (h.part (by simp [Node.parts, exprParts, stmtParts])), trivial⟩
  | .«return» e l, h => by
    rw [stmtDbg]
    exact ⟨rfl, by simp, exprDbg_fine e (h.part (by simp [Node.parts, exprParts, stmtParts])), locDbg_fine l, trivial⟩
  | .var x s e l, h => by
    rw [stmtDbg]
    exact ⟨rfl, by simp, trivial, slotDbg_fine s, exprDbg_fine e (h.part (by simp [Node.parts, exprParts, stmtParts])), locDbg_fine l, trivial⟩
  | .«while» c b, h => by
    rw [stmtDbg]
    exact ⟨rfl, by simp, exprDbg_fine c (h.part (by simp [Node.parts, exprParts, stmtParts])), stmtDbg_fine b (h.part (by simp [Node.parts, exprParts, stmtParts])), trivial⟩
  | .whileIncrement c b i, h => by
    rw [stmtDbg]
    exact ⟨rfl, by simp, exprDbg_fine c (h.part (by simp [Node.parts, exprParts, stmtParts])), stmtDbg_fine b (h.part (by simp [Node.parts, exprParts, stmtParts])), exprDbg_fine i (h.part (by simp [Node.parts, exprParts, stmtParts])), trivial⟩
theorem superclassDbg_fine : ∀ o : Option Expr, (∀ e, o = some e → AllNum ok (.expr e)) → (superclassDbg o).Fine ok
  | none, _ => by rw [superclassDbg]; exact worded_name rfl
  | some e, h => by
    rw [superclassDbg]
    exact ⟨rfl, by simp, exprDbg_fine e (h e rfl), trivial⟩
theorem elseDbg_fine : ∀ o : Option Stmt, (∀ e, o = some e → AllNum ok (.stmt e)) → (elseDbg o).Fine ok
  | none, _ => by rw [elseDbg]; exact worded_name rfl
  | some e, h => by
    rw [elseDbg]
    exact ⟨rfl, by simp, stmtDbg_fine e (h e rfl), trivial⟩
theorem stmtsDbg_fine : ∀ es : List Stmt, (∀ e ∈ es, AllNum ok (.stmt e)) → FineAll ok (stmtsDbg es)
  | [], _ => by rw [stmtsDbg]; trivial
  | e :: es, h => by
    rw [stmtsDbg]
    exact ⟨stmtDbg_fine e (h e (by simp)), stmtsDbg_fine es (fun y hy => h y (by simp [hy]))⟩
end

end Ws
