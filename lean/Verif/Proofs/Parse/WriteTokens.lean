import Verif.Proofs.Parse.Write
import Verif.Spec.Tokens
/-! The tokens of a syntax tree are tokens as the scanner makes them. -/
namespace Ws.Writing
open Spec

/-- A token as the scanner makes them, other than Eof. -/
def goodTok (t : Token) : Bool :=
  t.tokenType != .eof && (t.tokenType != .number || t.floatLiteral.isSome) && (t.tokenType != .string || t.stringLiteral.isSome) &&
    (t.tokenType != .equal || t.lexeme == c!"=")

theorem good_tok {tt : TokenType} {s : Str} {loc : SourceLoc} (h1 : tt ≠ .eof) (h2 : tt ≠ .number) (h3 : tt ≠ .string) (h4 : tt ≠ .equal) :
    goodTok (tok tt s loc) = true := by simp [goodTok, tok, h1, h2, h3, h4]

theorem good_name {s : Str} {loc : SourceLoc} : goodTok (name s loc) = true := good_tok (by decide) (by decide) (by decide) (by decide)
theorem good_equal {loc : SourceLoc} : goodTok (tok .equal c!"=" loc) = true := by simp [goodTok, tok]
theorem good_string {s : Str} : goodTok (stringTok s) = true := by simp [goodTok, stringTok]
theorem good_number {x : F64} : goodTok (numberTok x) = true := by simp [goodTok, numberTok]
theorem good_binary {op : BinaryOperator} {loc : SourceLoc} : goodTok (binaryTok op loc) = true := by
  cases op <;> exact good_tok (by decide) (by decide) (by decide) (by decide)
theorem good_logical {op : LogicalOperator} : goodTok (logicalTok op) = true := by
  cases op <;> exact good_tok (by decide) (by decide) (by decide) (by decide)
theorem good_unary {op : UnaryOperator} {loc : SourceLoc} : goodTok (unaryTok op loc) = true := by
  cases op <;> exact good_tok (by decide) (by decide) (by decide) (by decide)
theorem good_variable {s : Str} {loc : SourceLoc} : goodTok (variableTok s loc) = true := by
  unfold variableTok
  split
  · exact good_tok (by decide) (by decide) (by decide) (by decide)
  · exact good_name
theorem good_openBrace : goodTok openBrace = true := rfl
theorem good_closeBrace : goodTok closeBrace = true := rfl
theorem good_openParen : goodTok openParen = true := rfl
theorem good_closeParen : goodTok closeParen = true := rfl
theorem good_comma : goodTok comma = true := rfl
theorem good_newline : goodTok lineEnd = true := rfl

theorem good_params : ∀ ps, (writeParams ps).all goodTok = true
  | [] => rfl
  | [p] => by simp [writeParams, good_name]
  | p :: q :: ps => by simp [writeParams, good_name, good_comma, good_params (q :: ps), -List.all_eq_true]

local macro "good" "[" ts:Lean.Parser.Tactic.simpLemma,* "]" : tactic =>
  `(tactic| simp [writeExpr, writeExprs, writeEntries, writeMethods, writeStmt, writeStmts, List.all_append, -List.all_eq_true,
    good_tok, good_name, good_equal, good_string, good_number, good_binary, good_logical, good_unary, good_variable, good_openBrace,
    good_closeBrace, good_openParen, good_closeParen, good_comma, good_newline, good_params, $ts,*])

theorem good_line {e : Expr} (h : (writeExpr e).all goodTok = true)
    (he : writeStmt (.expression e) = if startsMap e then tok .indent [] :: writeExpr e ++ [tok .outdent [], lineEnd]
      else writeExpr e ++ [lineEnd]) : (writeStmt (.expression e)).all goodTok = true := by
  rw [he]
  split <;> good [h]

mutual
theorem good_expr : ∀ e, (writeExpr e).all goodTok = true
  | .assign x c r loc => by good [good_expr r]
  | .call f args loc => by good [good_expr f, good_exprs args]
  | .binary a op b loc => by good [good_expr a, good_expr b]
  | .function (.mk ps body k loc) => by good [good_stmts body]
  | .get o x loc => by good [good_expr o]
  | .getIndex a i loc => by good [good_expr a, good_expr i]
  | .grouping e => by good [good_expr e]
  | .literalArray es => by good [good_exprs es]
  | .literalMap ms => by good [good_entries ms]
  | .logical a op b => by good [good_expr a, good_expr b]
  | .set o x v loc => by good [good_expr o, good_expr v]
  | .setIndex a i v loc => by good [good_expr a, good_expr i, good_expr v]
  | .super c x loc => by good []
  | .variable x c loc => by good []
  | .unary op e loc => by good [good_expr e]
  | .literalBool true => by good []
  | .literalBool false => by good []
  | .literalNumber x => by good []
  | .literalNil => by good []
  | .literalString s => by good []

theorem good_exprs : ∀ es, (writeExprs es).all goodTok = true
  | [] => by good []
  | [e] => by good [good_expr e]
  | e :: e' :: es => by good [good_expr e, good_exprs (e' :: es)]

theorem good_entries : ∀ ms, (writeEntries ms).all goodTok = true
  | [] => by good []
  | [.mk k v] => by good [good_expr v]
  | .mk k v :: m :: ms => by good [good_expr v, good_entries (m :: ms)]

theorem good_methods : ∀ ms, (writeMethods ms).all goodTok = true
  | [] => by good []
  | .mk x (.mk ps body k loc) :: ms => by
    have hk : (if k = .classMethod then [tok .class c!"class"] else []).all goodTok = true := by split <;> good []
    good [good_stmts body, good_methods ms, hk]

theorem good_stmt : ∀ s, (writeStmt s).all goodTok = true
  | .block body => by good [good_stmts body]
  | .break loc => by good []
  | .continue loc => by good []
  | .class x none ms loc => by good [good_methods ms]
  | .class x (some e) ms loc => by good [good_methods ms, good_expr e]
  | .expression (.set o x v loc) => by
    simp only [writeStmt]
    split <;> good [good_expr o, good_expr v]
  | .expression (.setIndex a i v loc) => by
    simp only [writeStmt]
    split <;> good [good_expr a, good_expr i, good_expr v]
  | .expression (.assign x c r loc) => good_line (good_expr (.assign x c r loc)) (by simp only [writeStmt])
  | .expression (.call f args loc) => good_line (good_expr (.call f args loc)) (by simp only [writeStmt])
  | .expression (.binary a op b loc) => good_line (good_expr (.binary a op b loc)) (by simp only [writeStmt])
  | .expression (.logical a op b) => good_line (good_expr (.logical a op b)) (by simp only [writeStmt])
  | .expression (.function d) => good_line (good_expr (.function d)) (by simp only [writeStmt])
  | .expression (.get o x loc) => good_line (good_expr (.get o x loc)) (by simp only [writeStmt])
  | .expression (.getIndex a i loc) => good_line (good_expr (.getIndex a i loc)) (by simp only [writeStmt])
  | .expression (.grouping e) => good_line (good_expr (.grouping e)) (by simp only [writeStmt])
  | .expression (.literalArray es) => good_line (good_expr (.literalArray es)) (by simp only [writeStmt])
  | .expression (.literalMap ms) => good_line (good_expr (.literalMap ms)) (by simp only [writeStmt])
  | .expression (.super c x loc) => good_line (good_expr (.super c x loc)) (by simp only [writeStmt])
  | .expression (.variable x c loc) => good_line (good_expr (.variable x c loc)) (by simp only [writeStmt])
  | .expression (.unary op e loc) => good_line (good_expr (.unary op e loc)) (by simp only [writeStmt])
  | .expression (.literalBool b) => good_line (good_expr (.literalBool b)) (by simp only [writeStmt])
  | .expression (.literalNumber x) => good_line (good_expr (.literalNumber x)) (by simp only [writeStmt])
  | .expression .literalNil => good_line (good_expr .literalNil) (by simp only [writeStmt])
  | .expression (.literalString s) => good_line (good_expr (.literalString s)) (by simp only [writeStmt])
  | .fun (.mk x (.mk ps body k loc)) => by good [good_stmts body]
  | .if c a none => by good [good_expr c, good_stmt a]
  | .if c a (some b) => by good [good_expr c, good_stmt a, good_stmt b]
  | .print e => by good [good_expr e]
  | .return e loc => by good [good_expr e]
  | .var x s e loc => by good [good_expr e]
  | .while c b => by good [good_expr c, good_stmt b]
  | .whileIncrement c b i => by good [good_expr c, good_stmt b, good_expr i]

theorem good_stmts : ∀ ss, (writeStmts ss).all goodTok = true
  | [] => by good []
  | s :: ss => by good [good_stmt s, good_stmts ss]
end

theorem tokensOk_of_good {w : List Token} {eof : Token} (h : w.all goodTok = true) (he : eof.tokenType = .eof) : TokensOk (w ++ [eof]) := by
  rw [List.all_eq_true] at h
  have h1 : ∀ t ∈ w ++ [eof], t ∈ w ∨ t = eof := by simp
  refine ⟨⟨w, eof, rfl, he, fun t ht hk => ?_⟩, fun t ht hk => ?_, fun t ht hk => ?_, fun t ht hk => ?_⟩
  · have := h t ht
    simp [goodTok, hk] at this
  all_goals
    rcases h1 t ht with ht | rfl
    · have := h t ht
      simpa [goodTok, hk] using this
    · rw [hk] at he; cases he

end Ws.Writing
