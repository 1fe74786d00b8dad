import Verif.Spec.Size
import Verif.Spec.Depth
import Verif.Proofs.Parse.Newline
/-! The size of the trees of derivations. -/
namespace Ws
open Spec

variable {repl l : Bool} {nt : NT} {w : List Token} {v : Tree}

theorem exprsSize_append (a b : List Expr) : exprsSize (a ++ b) = exprsSize a + exprsSize b := by
  induction a with
  | nil => simp [exprsSize]
  | cons e a ih => simp [exprsSize, ih, Nat.add_assoc]

theorem entriesSize_append (a b : List MapEntry) : entriesSize (a ++ b) = entriesSize a + entriesSize b := by
  induction a with
  | nil => simp [entriesSize]
  | cons e a ih => cases e; simp [entriesSize, ih, Nat.add_assoc]

theorem methodsSize_append (a b : List NamedFun) : methodsSize (a ++ b) = methodsSize a + methodsSize b := by
  induction a with
  | nil => simp [methodsSize]
  | cons e a ih => cases e; simp [methodsSize, ih, Nat.add_assoc]

theorem stmtsSize_append (a b : List Stmt) : stmtsSize (a ++ b) = stmtsSize a + stmtsSize b := by
  induction a with
  | nil => simp [stmtsSize]
  | cons e a ih => simp [stmtsSize, ih, Nat.add_assoc]

/-- The number of nodes of a tree. -/
def treeSize : Tree → Nat
  | .expr e => exprSize e
  | .exprs es => exprsSize es
  | .entries ms => entriesSize ms
  | .params ps => ps.length
  | .stmt s => stmtSize s
  | .stmts ss => stmtsSize ss
  | .fn d => funSize d
  | .named (.mk _ d) => funSize d + 1
  | .nameds fs => methodsSize fs
  | .optStmt none => 0
  | .optStmt (some s) => stmtSize s
  | .optExpr none => 0
  | .optExpr (some e) => exprSize e

theorem node_size {p : Prec} {k : TokenType} {b} (h : p.node k = some b) (x y : Expr) (loc : SourceLoc) :
    exprSize (b x y loc) = exprSize x + exprSize y + 1 := by
  cases p <;> cases k <;> simp [Prec.node] at h <;> subst h <;> simp [exprSize]

theorem assigns_size {rhs x y : Expr} {loc : SourceLoc} (h : Assigns rhs loc x y) : exprSize y ≤ exprSize x + exprSize rhs := by
  cases h <;> simp [exprSize] <;> omega

/-- How many nodes a nonterminal has at most: twice the number of tokens, with a constant. -/
def slack : NT → Nat
  | .forCondition => 2
  | .expression | .target | .binary _ | .unary | .call | .primary | .arguments | .elements | .entries | .parameters | .block => 0
  | _ => 1

/-- One node for the map itself. -/
def spare : NT → Nat
  | .entries => 1
  | _ => 0

theorem forLoop_size (init : Option Stmt) (cond : Expr) (inc : Option Expr) (body : Stmt) :
    stmtSize (forLoop init cond inc body) ≤ treeSize (.optStmt init) + exprSize cond + treeSize (.optExpr inc) + stmtSize body + 2 := by
  cases init <;> cases inc <;> simp [forLoop, stmtSize, stmtsSize, treeSize] <;> omega

/-- A tree has at most two nodes for each token; an expression has fewer. -/
theorem grammar_size (h : Grammar repl l nt w v) : treeSize v + 1 + spare nt ≤ 2 * w.length + slack nt := by
  induction h
  case operand p _ _ _ ih => cases p <;> simpa [slack, spare, Prec.above] using ih
  case operator p _ _ _ _ _ _ _ hp _ ih1 ih2 =>
    have h0 : slack p.above = 0 := by cases p <;> rfl
    have h1 : spare p.above = 0 := by cases p <;> rfl
    rw [h0, h1] at ih2
    simp only [treeSize, node_size hp, slack, spare, List.length_append, List.length_cons] at *
    omega
  case assignment ha ih1 ih2 =>
    have := assigns_size ha
    simp only [treeSize, slack, spare, List.length_append, List.length_cons] at *
    omega
  case «for» ih1 ih2 ih3 ih4 =>
    rename_i init _ cond _ _ inc _ _ s _ _ _ _ _ _ _ _
    have := forLoop_size init cond inc s
    simp only [treeSize, slack, spare, List.length_append, List.length_cons] at *
    omega
  case fun_decl f _ _ ih => cases f; simp only [treeSize, slack, spare, stmtSize, List.length_cons] at *; omega
  all_goals
    simp only [treeSize, slack, spare, exprSize, exprsSize, entriesSize, methodsSize, stmtSize, stmtsSize, funSize, exprsSize_append, entriesSize_append,
      methodsSize_append, stmtsSize_append, List.length_append, List.length_cons, List.length_nil] at *
  all_goals omega

/-! ### Depth -/

theorem exprsDepth_append (a b : List Expr) : exprsDepth (a ++ b) = max (exprsDepth a) (exprsDepth b) := by
  induction a with
  | nil => simp [exprsDepth]
  | cons e a ih => simp [exprsDepth, ih, Nat.max_assoc]

theorem entriesDepth_append (a b : List MapEntry) : entriesDepth (a ++ b) = max (entriesDepth a) (entriesDepth b) := by
  induction a with
  | nil => simp [entriesDepth]
  | cons e a ih => cases e; simp [entriesDepth, ih, Nat.max_assoc]

theorem methodsDepth_append (a b : List NamedFun) : methodsDepth (a ++ b) = max (methodsDepth a) (methodsDepth b) := by
  induction a with
  | nil => simp [methodsDepth]
  | cons e a ih => cases e; simp [methodsDepth, ih, Nat.max_assoc]

theorem stmtsDepth_append (a b : List Stmt) : stmtsDepth (a ++ b) = max (stmtsDepth a) (stmtsDepth b) := by
  induction a with
  | nil => simp [stmtsDepth]
  | cons e a ih => simp [stmtsDepth, ih, Nat.max_assoc]

/-- The number of scopes in a tree around a part of it. -/
def treeDepth : Tree → Nat
  | .expr e => exprDepth e
  | .exprs es => exprsDepth es
  | .entries ms => entriesDepth ms
  | .params _ => 0
  | .stmt s => stmtDepth s
  | .stmts ss => stmtsDepth ss
  | .fn d => funDepth d
  | .named (.mk _ d) => funDepth d
  | .nameds fs => methodsDepth fs
  | .optStmt none => 0
  | .optStmt (some s) => stmtDepth s
  | .optExpr none => 0
  | .optExpr (some e) => exprDepth e

theorem node_depth {p : Prec} {k : TokenType} {b} (h : p.node k = some b) (x y : Expr) (loc : SourceLoc) :
    exprDepth (b x y loc) = max (exprDepth x) (exprDepth y) := by
  cases p <;> cases k <;> simp [Prec.node] at h <;> subst h <;> simp [exprDepth]

theorem assigns_depth {rhs x y : Expr} {loc : SourceLoc} (h : Assigns rhs loc x y) : exprDepth y ≤ max (exprDepth x) (exprDepth rhs) := by
  cases h <;> simp [exprDepth] <;> omega

theorem forLoop_depth (init : Option Stmt) (cond : Expr) (inc : Option Expr) (body : Stmt) :
    stmtDepth (forLoop init cond inc body) ≤ max (max (treeDepth (.optStmt init)) (exprDepth cond)) (max (treeDepth (.optExpr inc)) (stmtDepth body)) + 1 := by
  cases init <;> cases inc <;> simp [forLoop, stmtDepth, stmtsDepth, treeDepth] <;> omega

/-- The tokens around a block. -/
def around : NT → Nat
  | .block => 2
  | _ => 0

/-- Every scope has at least two tokens of its own. -/
theorem grammar_depth (h : Grammar repl l nt w v) : 2 * treeDepth v + around nt ≤ w.length := by
  induction h
  case operand p _ _ _ ih => cases p <;> simpa [around, Prec.above] using ih
  case operator p _ _ _ _ _ _ _ hp _ ih1 ih2 =>
    have h0 : around p.above = 0 := by cases p <;> rfl
    rw [h0] at ih2
    simp only [treeDepth, node_depth hp, around, List.length_append, List.length_cons] at *
    omega
  case assignment ha ih1 ih2 =>
    have := assigns_depth ha
    simp only [treeDepth, around, List.length_append, List.length_cons] at *
    omega
  case «for» ih1 ih2 ih3 ih4 =>
    rename_i init _ cond _ _ inc _ _ s _ _ _ _ _ _ _ _
    have := forLoop_depth init cond inc s
    simp only [treeDepth, around, List.length_append, List.length_cons] at *
    omega
  case fun_decl f _ _ ih => cases f; simp only [treeDepth, around, stmtDepth, List.length_cons] at *; omega
  all_goals
    simp only [treeDepth, around, exprDepth, exprsDepth, entriesDepth, methodsDepth, stmtDepth, stmtsDepth, funDepth, exprsDepth_append, entriesDepth_append,
      methodsDepth_append, stmtsDepth_append, List.length_append, List.length_cons, List.length_nil] at *
  all_goals omega

end Ws
