import Verif.Spec.Subtree
import Verif.Spec.Grammar
/-! Properties of all parts of a syntax tree. -/
namespace Ws
open Spec

/-- `P` holds of `n` and all its parts. -/
def All (P : Node → Prop) (n : Node) : Prop := ∀ x, Within x n → P x

variable {P : Node → Prop}

theorem All_iff {n : Node} : All P n ↔ P n ∧ ∀ c ∈ n.parts, All P c := by
  constructor
  · intro h
    exact ⟨h n .refl, fun c hc x hx => h x (.step hc hx)⟩
  · rintro ⟨h1, h2⟩ x hx
    cases hx with
    | refl => exact h1
    | step hc hx => exact h2 _ hc _ hx

section
local macro "all_iff" : tactic => `(tactic| (rw [All_iff]; simp [Node.parts, exprParts, stmtParts]))

@[simp] theorem All_assign {n c rhs loc} : All P (.expr (.assign n c rhs loc)) ↔ P (.expr (.assign n c rhs loc)) ∧ All P (.expr rhs) := by all_iff
@[simp] theorem All_call {f args loc} : All P (.expr (.call f args loc)) ↔
    P (.expr (.call f args loc)) ∧ All P (.expr f) ∧ ∀ a ∈ args, All P (.expr a) := by all_iff
@[simp] theorem All_binary {a op b loc} : All P (.expr (.binary a op b loc)) ↔
    P (.expr (.binary a op b loc)) ∧ All P (.expr a) ∧ All P (.expr b) := by all_iff
@[simp] theorem All_logical {a op b} : All P (.expr (.logical a op b)) ↔
    P (.expr (.logical a op b)) ∧ All P (.expr a) ∧ All P (.expr b) := by all_iff
@[simp] theorem All_function {d} : All P (.expr (.function d)) ↔ P (.expr (.function d)) ∧ All P (.fn d) := by all_iff
@[simp] theorem All_get {o n l} : All P (.expr (.get o n l)) ↔ P (.expr (.get o n l)) ∧ All P (.expr o) := by all_iff
@[simp] theorem All_getIndex {a i l} : All P (.expr (.getIndex a i l)) ↔
    P (.expr (.getIndex a i l)) ∧ All P (.expr a) ∧ All P (.expr i) := by all_iff
@[simp] theorem All_grouping {e} : All P (.expr (.grouping e)) ↔ P (.expr (.grouping e)) ∧ All P (.expr e) := by all_iff
@[simp] theorem All_array {es} : All P (.expr (.literalArray es)) ↔
    P (.expr (.literalArray es)) ∧ ∀ e ∈ es, All P (.expr e) := by all_iff
@[simp] theorem All_map {ms} : All P (.expr (.literalMap ms)) ↔
    P (.expr (.literalMap ms)) ∧ ∀ m ∈ ms, All P (.expr m.value) := by all_iff
@[simp] theorem All_set {o n v l} : All P (.expr (.set o n v l)) ↔
    P (.expr (.set o n v l)) ∧ All P (.expr o) ∧ All P (.expr v) := by all_iff
@[simp] theorem All_setIndex {a i v l} : All P (.expr (.setIndex a i v l)) ↔
    P (.expr (.setIndex a i v l)) ∧ All P (.expr a) ∧ All P (.expr i) ∧ All P (.expr v) := by all_iff
@[simp] theorem All_unary {op e l} : All P (.expr (.unary op e l)) ↔ P (.expr (.unary op e l)) ∧ All P (.expr e) := by all_iff
@[simp] theorem All_bool {b} : All P (.expr (.literalBool b)) ↔ P (.expr (.literalBool b)) := by all_iff
@[simp] theorem All_number {b} : All P (.expr (.literalNumber b)) ↔ P (.expr (.literalNumber b)) := by all_iff
@[simp] theorem All_nil : All P (.expr .literalNil) ↔ P (.expr .literalNil) := by all_iff
@[simp] theorem All_string {b} : All P (.expr (.literalString b)) ↔ P (.expr (.literalString b)) := by all_iff
@[simp] theorem All_super {c n l} : All P (.expr (.super c n l)) ↔ P (.expr (.super c n l)) := by all_iff
@[simp] theorem All_variable {c n l} : All P (.expr (.variable c n l)) ↔ P (.expr (.variable c n l)) := by all_iff
@[simp] theorem All_fn {ps body k loc} : All P (.fn (.mk ps body k loc)) ↔
    P (.fn (.mk ps body k loc)) ∧ ∀ s ∈ body, All P (.stmt s) := by rw [All_iff]; simp [Node.parts, FunDef.body]
@[simp] theorem All_block {ss} : All P (.stmt (.block ss)) ↔ P (.stmt (.block ss)) ∧ ∀ s ∈ ss, All P (.stmt s) := by all_iff
@[simp] theorem All_break {l} : All P (.stmt (.break l)) ↔ P (.stmt (.break l)) := by all_iff
@[simp] theorem All_continue {l} : All P (.stmt (.continue l)) ↔ P (.stmt (.continue l)) := by all_iff
@[simp] theorem All_class_none {n ms l} : All P (.stmt (.class n none ms l)) ↔
    P (.stmt (.class n none ms l)) ∧ ∀ m ∈ ms, All P (.fn m.funDef) := by all_iff
@[simp] theorem All_class_some {n s ms l} : All P (.stmt (.class n (some s) ms l)) ↔
    P (.stmt (.class n (some s) ms l)) ∧ All P (.expr s) ∧ ∀ m ∈ ms, All P (.fn m.funDef) := by all_iff
@[simp] theorem All_expression {e} : All P (.stmt (.expression e)) ↔ P (.stmt (.expression e)) ∧ All P (.expr e) := by all_iff
@[simp] theorem All_fun {f} : All P (.stmt (.fun f)) ↔ P (.stmt (.fun f)) ∧ All P (.fn f.funDef) := by all_iff
@[simp] theorem All_if_none {c a} : All P (.stmt (.if c a none)) ↔
    P (.stmt (.if c a none)) ∧ All P (.expr c) ∧ All P (.stmt a) := by all_iff
@[simp] theorem All_if_some {c a b} : All P (.stmt (.if c a (some b))) ↔
    P (.stmt (.if c a (some b))) ∧ All P (.expr c) ∧ All P (.stmt a) ∧ All P (.stmt b) := by all_iff
@[simp] theorem All_print {e} : All P (.stmt (.print e)) ↔ P (.stmt (.print e)) ∧ All P (.expr e) := by all_iff
@[simp] theorem All_return {e l} : All P (.stmt (.return e l)) ↔ P (.stmt (.return e l)) ∧ All P (.expr e) := by all_iff
@[simp] theorem All_var {n s e l} : All P (.stmt (.var n s e l)) ↔ P (.stmt (.var n s e l)) ∧ All P (.expr e) := by all_iff
@[simp] theorem All_while {c b} : All P (.stmt (.while c b)) ↔
    P (.stmt (.while c b)) ∧ All P (.expr c) ∧ All P (.stmt b) := by all_iff
@[simp] theorem All_whileIncrement {c b i} : All P (.stmt (.whileIncrement c b i)) ↔
    P (.stmt (.whileIncrement c b i)) ∧ All P (.expr c) ∧ All P (.stmt b) ∧ All P (.expr i) := by all_iff
end

/-- `P` holds of all parts of a tree. -/
def AllT (P : Node → Prop) : Tree → Prop
  | .expr e => All P (.expr e)
  | .exprs es => ∀ e ∈ es, All P (.expr e)
  | .entries ms => ∀ m ∈ ms, All P (.expr m.value)
  | .params _ => True
  | .stmt s => All P (.stmt s)
  | .stmts ss => ∀ s ∈ ss, All P (.stmt s)
  | .fn d => All P (.fn d)
  | .named f => All P (.fn f.funDef)
  | .nameds fs => ∀ f ∈ fs, All P (.fn f.funDef)
  | .optStmt s => ∀ x, s = some x → All P (.stmt x)
  | .optExpr e => ∀ x, e = some x → All P (.expr x)

theorem Prec.node_cases {p : Prec} {t : TokenType} {build} (h : p.node t = some build) :
    (∃ op, ∀ a b loc, build a b loc = .logical a op b) ∨ (∃ op, ∀ a b loc, build a b loc = .binary a op b loc) := by
  cases p <;> cases t <;> simp [Prec.node] at h <;> subst h <;> first | exact .inl ⟨_, fun _ _ _ => rfl⟩ | exact .inr ⟨_, fun _ _ _ => rfl⟩

end Ws
