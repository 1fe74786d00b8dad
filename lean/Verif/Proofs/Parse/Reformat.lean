import Verif.Proofs.Parse.Image
import Verif.Spec.Text
import Verif.Spec.Positions
/-! The text of a program has the names, strings and numbers of the program, and does not depend on its
positions. -/
namespace Ws.Writing
open Ws Spec

variable {N S : Str → Prop} {F : F64 → Prop}

/-! ### Names, strings and numbers -/

theorem leaf_block {w} : AllTok (Leaf N S F) (lineBlock w) ↔ AllTok (Leaf N S F) w := by
  unfold lineBlock
  split <;> simp [allTok_append, allTok_cons, allTok_nil, leaf_tok, lineEnd, indentTok, outdentTok, openBrace, closeBrace]

local macro "lf" "[" ts:Lean.Parser.Tactic.simpLemma,* "]" : tactic =>
  `(tactic| simp [lineStmt, writeStmt, allTok_append, allTok_cons, allTok_nil, leaf_tok, leaf_block, leaf_params, lineEnd, openBrace,
      closeBrace, openParen, closeParen, Spec.name, and_assoc, $ts,*])

mutual
theorem leaf_lineMethods : ∀ ms, AllTok (Leaf N S F) (lineMethods ms) ↔ AllTok (Leaf N S F) (writeMethods ms)
  | [] => by simp [lineMethods, writeMethods]
  | .mk x (.mk ps body k loc) :: ms => by
    lf [lineMethods, writeMethods, leaf_lineStmts body, leaf_lineMethods ms]

theorem leaf_lineStmt : ∀ (b : Bool) (s : Stmt), AllTok (Leaf N S F) (lineStmt b s) ↔ AllTok (Leaf N S F) (writeStmt s)
  | b, .block body => by cases b <;> lf [leaf_lineStmts body]
  | _, .break loc => by simp only [lineStmt]
  | _, .continue loc => by simp only [lineStmt]
  | _, .class x none ms loc => by lf [leaf_lineMethods ms]
  | _, .class x (some e) ms loc => by lf [leaf_lineMethods ms]
  | _, .expression e => by simp only [lineStmt]
  | _, .fun (.mk x (.mk ps body k loc)) => by lf [leaf_lineStmts body]
  | _, .if c a none => by lf [leaf_lineStmt true a]
  | _, .if c a (some b) => by lf [leaf_lineStmt true a, leaf_lineStmt false b]
  | _, .print e => by simp only [lineStmt]
  | _, .return e loc => by simp only [lineStmt]
  | _, .var x s e loc => by simp only [lineStmt]
  | _, .while c b => by lf [leaf_lineStmt true b]
  | _, .whileIncrement c b i => by lf [leaf_lineStmt true b]

theorem leaf_lineStmts : ∀ ss, AllTok (Leaf N S F) (lineStmts ss) ↔ AllTok (Leaf N S F) (writeStmts ss)
  | [] => by simp [lineStmts, writeStmts]
  | s :: ss => by simp [lineStmts, writeStmts, allTok_append, leaf_lineStmt false s, leaf_lineStmts ss]
end

/-! ### Positions -/

/-- The token, nowhere. -/
local notation "mv" => moveToken nowhere

theorem mv_tok (k s loc) : mv (tok k s loc) = tok k s := rfl
theorem mv_name (s loc) : mv (Spec.name s loc) = Spec.name s := rfl
theorem mv_string (s) : mv (stringTok s) = stringTok s := rfl
theorem mv_number (s) : mv (numberTok s) = numberTok s := rfl
theorem mv_binary (op loc) : mv (binaryTok op loc) = binaryTok op .default := by cases op <;> rfl
theorem mv_logical (op) : mv (logicalTok op) = logicalTok op := by cases op <;> rfl
theorem mv_unary (op loc) : mv (unaryTok op loc) = unaryTok op .default := by cases op <;> rfl
theorem mv_variable (x loc) : mv (variableTok x loc) = variableTok x .default := by
  unfold variableTok; split <;> rfl

theorem startsMap_moved : ∀ x, startsMap (moveExpr nowhere x) = startsMap x
  | .assign _ _ _ _ | .function _ | .grouping _ | .literalArray _ | .super _ _ _ | .variable _ _ _
  | .unary _ _ _ | .literalBool _ | .literalNumber _ | .literalNil | .literalString _ => by simp [moveExpr, startsMap]
  | .literalMap ms => by simp [moveExpr, startsMap]
  | .call f _ _ => by simp [moveExpr, startsMap, startsMap_moved f]
  | .get o _ _ => by simp [moveExpr, startsMap, startsMap_moved o]
  | .getIndex o _ _ => by simp [moveExpr, startsMap, startsMap_moved o]
  | .set o _ _ _ => by simp [moveExpr, startsMap, startsMap_moved o]
  | .setIndex o _ _ _ => by simp [moveExpr, startsMap, startsMap_moved o]
  | .binary o _ _ _ => by simp [moveExpr, startsMap, startsMap_moved o]
  | .logical o _ _ => by simp [moveExpr, startsMap, startsMap_moved o]

theorem moved_params : ∀ ps, writeParams (ps.map (moveParam nowhere)) = (writeParams ps).map mv
  | [] => rfl
  | [p] => rfl
  | p :: q :: ps => by
    have := moved_params (q :: ps)
    simp only [List.map_cons, writeParams] at this ⊢
    rw [this]
    rfl

local macro "ms" "[" ts:Lean.Parser.Tactic.simpLemma,* "]" : tactic =>
  `(tactic| simp [writeExpr, moveExpr, mv_tok, mv_name, mv_string, mv_number, mv_binary, mv_logical, mv_unary, mv_variable, moved_params,
      openBrace, closeBrace, openParen, closeParen, comma, lineEnd, nowhere, $ts,*])

/-- No assignment to a property or an element. -/
def notSet : Expr → Bool
  | .set _ _ _ _ | .setIndex _ _ _ _ => false
  | _ => true

theorem write_other {e} (h : notSet e = true) : writeStmt (.expression e) =
    if startsMap e then tok .indent [] :: writeExpr e ++ [tok .outdent [], lineEnd] else writeExpr e ++ [lineEnd] := by
  cases e <;> first | (cases h; done) | simp only [writeStmt]

theorem moved_other {e} (h : notSet e = true) (hw : writeExpr (moveExpr nowhere e) = (writeExpr e).map mv) :
    writeStmt (moveStmt nowhere (.expression e)) = (writeStmt (.expression e)).map mv := by
  have h' : notSet (moveExpr nowhere e) = true := by cases e <;> first | (cases h; done) | simp [moveExpr, notSet]
  rw [moveStmt, write_other h, write_other h', hw, startsMap_moved]
  split <;> ms []

mutual
theorem moved_expr : ∀ x, writeExpr (moveExpr nowhere x) = (writeExpr x).map mv
  | .assign x cell r loc => by ms [moved_expr r]
  | .call f args loc => by ms [moved_expr f, moved_exprs args]
  | .binary a op b loc => by ms [moved_expr a, moved_expr b]
  | .function (.mk ps body k loc) => by ms [moveFun, moved_stmts body]
  | .get o x loc => by ms [moved_expr o]
  | .getIndex a i loc => by ms [moved_expr a, moved_expr i]
  | .grouping e => by ms [moved_expr e]
  | .literalArray es => by ms [moved_exprs es]
  | .literalMap ms => by ms [moved_entries ms]
  | .logical a op b => by ms [moved_expr a, moved_expr b]
  | .set o x v loc => by ms [moved_expr o, moved_expr v]
  | .setIndex a i v loc => by ms [moved_expr a, moved_expr i, moved_expr v]
  | .super cell x loc => by ms []
  | .variable x cell loc => by ms []
  | .unary op e loc => by ms [moved_expr e]
  | .literalBool b => by cases b <;> ms []
  | .literalNumber x => by ms []
  | .literalNil => by ms []
  | .literalString s => by ms []

theorem moved_exprs : ∀ xs, writeExprs (moveExprs nowhere xs) = (writeExprs xs).map mv
  | [] => by simp [writeExprs, moveExprs]
  | [x] => by simp [writeExprs, moveExprs, moved_expr x]
  | x :: y :: xs => by
    have := moved_exprs (y :: xs)
    simp only [moveExprs] at this
    ms [writeExprs, moveExprs, moved_expr x, this]

theorem moved_entries : ∀ xs, writeEntries (moveEntries nowhere xs) = (writeEntries xs).map mv
  | [] => by simp [writeEntries, moveEntries]
  | [.mk k x] => by ms [writeEntries, moveEntries, moved_expr x]
  | .mk k x :: .mk k' y :: xs => by
    have := moved_entries (.mk k' y :: xs)
    simp only [moveEntries] at this
    ms [writeEntries, moveEntries, moved_expr x, this]

theorem moved_methods : ∀ xs, writeMethods (moveMethods nowhere xs) = (writeMethods xs).map mv
  | [] => by simp [writeMethods, moveMethods]
  | .mk x (.mk ps body k loc) :: xs => by
    by_cases hk : k = .classMethod <;>
      ms [writeMethods, moveMethods, moveFun, hk, moved_stmts body, moved_methods xs]

theorem moved_stmt : ∀ s, writeStmt (moveStmt nowhere s) = (writeStmt s).map mv
  | .block body => by ms [moveStmt, writeStmt, moved_stmts body]
  | .break loc => by ms [moveStmt, writeStmt]
  | .continue loc => by ms [moveStmt, writeStmt]
  | .class x none ms loc => by ms [moveStmt, writeStmt, moved_methods ms]
  | .class x (some e) ms loc => by ms [moveStmt, writeStmt, moved_methods ms, moved_expr e]
  | .expression (.set o x v loc) => by
    ms [moveStmt, writeStmt, moved_expr o, moved_expr v, startsMap_moved]
    split <;> ms []
  | .expression (.setIndex a i v loc) => by
    ms [moveStmt, writeStmt, moved_expr a, moved_expr i, moved_expr v, startsMap_moved]
    split <;> ms []
  | .expression (.assign a b c d) => moved_other rfl (moved_expr (.assign a b c d))
  | .expression (.call a b c) => moved_other rfl (moved_expr (.call a b c))
  | .expression (.binary a b c d) => moved_other rfl (moved_expr (.binary a b c d))
  | .expression (.function a) => moved_other rfl (moved_expr (.function a))
  | .expression (.get a b c) => moved_other rfl (moved_expr (.get a b c))
  | .expression (.getIndex a b c) => moved_other rfl (moved_expr (.getIndex a b c))
  | .expression (.grouping a) => moved_other rfl (moved_expr (.grouping a))
  | .expression (.literalArray a) => moved_other rfl (moved_expr (.literalArray a))
  | .expression (.literalMap a) => moved_other rfl (moved_expr (.literalMap a))
  | .expression (.logical a b c) => moved_other rfl (moved_expr (.logical a b c))
  | .expression (.super a b c) => moved_other rfl (moved_expr (.super a b c))
  | .expression (.variable a b c) => moved_other rfl (moved_expr (.variable a b c))
  | .expression (.unary a b c) => moved_other rfl (moved_expr (.unary a b c))
  | .expression (.literalBool a) => moved_other rfl (moved_expr (.literalBool a))
  | .expression (.literalNumber a) => moved_other rfl (moved_expr (.literalNumber a))
  | .expression (.literalNil) => moved_other rfl (moved_expr (.literalNil))
  | .expression (.literalString a) => moved_other rfl (moved_expr (.literalString a))
  | .fun (.mk x (.mk ps body k loc)) => by ms [moveStmt, writeStmt, moveFun, moved_stmts body]
  | .if c a none => by ms [moveStmt, writeStmt, moved_expr c, moved_stmt a]
  | .if c a (some b) => by ms [moveStmt, writeStmt, moved_expr c, moved_stmt a, moved_stmt b]
  | .print e => by ms [moveStmt, writeStmt, moved_expr e]
  | .return e loc => by ms [moveStmt, writeStmt, moved_expr e]
  | .var x s e loc => by ms [moveStmt, writeStmt, moved_expr e]
  | .while c b => by ms [moveStmt, writeStmt, moved_expr c, moved_stmt b]
  | .whileIncrement c b i => by ms [moveStmt, writeStmt, moved_expr c, moved_stmt b, moved_expr i]

theorem moved_stmts : ∀ xs, writeStmts (moveStmts nowhere xs) = (writeStmts xs).map mv
  | [] => by simp [writeStmts, moveStmts]
  | s :: xs => by simp [writeStmts, moveStmts, moved_stmt s, moved_stmts xs]
end

theorem moved_block (w) : lineBlock (w.map mv) = (lineBlock w).map mv := by
  have h : (w.map mv).getLast?.any isLineEnd = w.getLast?.any isLineEnd := by
    rw [List.getLast?_map]
    cases w.getLast? <;> rfl
  unfold lineBlock
  rw [h]
  split <;> ms [indentTok, outdentTok]

mutual
theorem moved_lineMethods : ∀ xs, lineMethods (moveMethods nowhere xs) = (lineMethods xs).map mv
  | [] => by simp [lineMethods, moveMethods]
  | .mk x (.mk ps body k loc) :: xs => by
    by_cases hk : k = .classMethod <;>
      ms [lineMethods, moveMethods, moveFun, hk, moved_lineStmts body, moved_lineMethods xs, moved_block]

theorem moved_line : ∀ (b : Bool) (s : Stmt), lineStmt b (moveStmt nowhere s) = (lineStmt b s).map mv
  | b, .block body => by cases b <;> ms [moveStmt, lineStmt, moved_lineStmts body, moved_block]
  | _, .break loc => by simp only [lineStmt, ← moved_stmt]; simp [moveStmt, lineStmt]
  | _, .continue loc => by simp only [lineStmt, ← moved_stmt]; simp [moveStmt, lineStmt]
  | _, .class x none ms loc => by ms [moveStmt, lineStmt, moved_lineMethods ms, moved_block]
  | _, .class x (some e) ms loc => by ms [moveStmt, lineStmt, moved_lineMethods ms, moved_expr e, moved_block]
  | _, .expression e => by simp only [lineStmt, ← moved_stmt]; simp [moveStmt, lineStmt]
  | _, .fun (.mk x (.mk ps body k loc)) => by ms [moveStmt, lineStmt, moveFun, moved_lineStmts body, moved_block]
  | _, .if c a none => by ms [moveStmt, lineStmt, moved_expr c, moved_line true a]
  | _, .if c a (some b) => by ms [moveStmt, lineStmt, moved_expr c, moved_line true a, moved_line false b]
  | _, .print e => by simp only [lineStmt, ← moved_stmt]; simp [moveStmt, lineStmt]
  | _, .return e loc => by simp only [lineStmt, ← moved_stmt]; simp [moveStmt, lineStmt]
  | _, .var x s e loc => by simp only [lineStmt, ← moved_stmt]; simp [moveStmt, lineStmt]
  | _, .while c b => by ms [moveStmt, lineStmt, moved_expr c, moved_line true b]
  | _, .whileIncrement c b i => by ms [moveStmt, lineStmt, moved_expr c, moved_line true b, moved_expr i]

theorem moved_lineStmts : ∀ xs, lineStmts (moveStmts nowhere xs) = (lineStmts xs).map mv
  | [] => by simp [lineStmts, moveStmts]
  | s :: xs => by simp [lineStmts, moveStmts, moved_line false s, moved_lineStmts xs]
end

theorem spell_moved (env num t) : spell env num (mv t) = spell env num t := rfl

theorem layout_moved {env num} : ∀ d b ts, layout env num d b (ts.map mv) = layout env num d b ts
  | _, _, [] => rfl
  | d, b, t :: ts => by
    have ht : (mv t).tokenType = t.tokenType := rfl
    simp only [List.map_cons, layout, ht, spell_moved, layout_moved]

/-- The text of a program does not depend on its positions. -/
theorem programText_moved {env num sts sts'} (h : SameProgram sts sts') : programText env num sts = programText env num sts' := by
  have h : moveStmts nowhere sts = moveStmts nowhere sts' := h
  unfold programText
  rw [← layout_moved, ← moved_lineStmts, h, moved_lineStmts, layout_moved]

end Ws.Writing
