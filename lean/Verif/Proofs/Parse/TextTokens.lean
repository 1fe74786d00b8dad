import Verif.Proofs.Parse.TextTree
/-! The tokens of a syntax tree on lines: what they are, and where a line can end. -/
namespace Ws.Writing
open Spec

/-! ### The tokens -/

/-- A token that is written for a syntax tree. -/
inductive Written : Token → Prop
  | fixed {tt : TokenType} {s : Str} {loc : SourceLoc} : operator tt = some s ∨ keyword tt = some s → Written (tok tt s loc)
  | name {s : Str} {loc : SourceLoc} : Written (name s loc)
  | string {s : Str} : Written (stringTok s)
  | number {x : F64} : Written (numberTok x)
  | line : Written lineEnd
  | indent : Written (tok .indent [])
  | outdent : Written (tok .outdent [])

theorem wr_binary {op : BinaryOperator} {loc : SourceLoc} : Written (binaryTok op loc) := by
  cases op <;> exact .fixed (.inl rfl)
theorem wr_logical {op : LogicalOperator} : Written (logicalTok op) := by cases op <;> exact .fixed (.inr rfl)
theorem wr_unary {op : UnaryOperator} {loc : SourceLoc} : Written (unaryTok op loc) := by
  cases op <;> exact .fixed (.inl rfl)
theorem wr_variable {s : Str} {loc : SourceLoc} : Written (variableTok s loc) := by
  unfold variableTok
  split
  · subst s; exact .fixed (.inr rfl)
  · exact .name
theorem wr_openBrace : Written openBrace := .fixed (.inl rfl)
theorem wr_closeBrace : Written closeBrace := .fixed (.inl rfl)
theorem wr_openParen : Written openParen := .fixed (.inl rfl)
theorem wr_closeParen : Written closeParen := .fixed (.inl rfl)
theorem wr_comma : Written comma := .fixed (.inl rfl)
theorem wr_indentTok : Written indentTok := .indent
theorem wr_outdentTok : Written outdentTok := .outdent
theorem wr_fixed {tt : TokenType} {s : Str} {loc : SourceLoc} (h : operator tt = some s ∨ keyword tt = some s) :
    Written (tok tt s loc) := .fixed h
theorem wr_name {s : Str} {loc : SourceLoc} : Written (name s loc) := .name
theorem wr_string {s : Str} : Written (stringTok s) := .string
theorem wr_number {x : F64} : Written (numberTok x) := .number
theorem wr_line : Written lineEnd := .line
theorem wr_indent : Written (tok .indent []) := .indent
theorem wr_outdent : Written (tok .outdent []) := .outdent

/-- All tokens are written for syntax trees. -/
def AllWr (w : List Token) : Prop := ∀ t ∈ w, Written t

theorem wr_append {a b : List Token} : AllWr (a ++ b) ↔ AllWr a ∧ AllWr b := List.forall_mem_append
theorem wr_cons {t : Token} {a : List Token} : AllWr (t :: a) ↔ Written t ∧ AllWr a := List.forall_mem_cons
theorem wr_nil : AllWr [] := by simp [AllWr]

theorem wr_params : ∀ ps, AllWr (writeParams ps)
  | [] => by simp [writeParams, wr_nil]
  | [p] => by simp [writeParams, wr_name, wr_cons, wr_nil]
  | p :: q :: ps => by
    have := wr_params (q :: ps)
    simp only [writeParams, wr_cons]
    exact ⟨wr_name, wr_comma, this⟩

local macro "wr" "[" ts:Lean.Parser.Tactic.simpLemma,* "]" : tactic =>
  `(tactic| (simp only [writeExpr, writeExprs, writeEntries, writeMethods, writeStmt, writeStmts, lineStmt, lineStmts, lineMethods,
      wr_append, wr_cons, List.cons_append, List.append_assoc, List.nil_append]
             simp [wr_fixed, operator, keyword, wr_name, wr_string, wr_number, wr_binary, wr_logical, wr_unary, wr_variable, wr_openBrace,
    wr_closeBrace, wr_openParen, wr_closeParen, wr_comma, wr_line, wr_params, wr_indent, wr_outdent, wr_nil, wr_append, wr_cons, $ts,*]))

theorem wr_exprLine {e : Expr} (h : AllWr (writeExpr e))
    (he : writeStmt (.expression e) = if startsMap e then tok .indent [] :: writeExpr e ++ [tok .outdent [], lineEnd]
      else writeExpr e ++ [lineEnd]) : AllWr (writeStmt (.expression e)) := by
  rw [he]
  split <;> wr [h]

mutual
theorem wr_expr : ∀ e, AllWr (writeExpr e)
  | .assign x c r loc => by wr [wr_expr r]
  | .call f args loc => by wr [wr_expr f, wr_exprs args]
  | .binary a op b loc => by wr [wr_expr a, wr_expr b]
  | .function (.mk ps body k loc) => by wr [wr_stmts body]
  | .get o x loc => by wr [wr_expr o]
  | .getIndex a i loc => by wr [wr_expr a, wr_expr i]
  | .grouping e => by wr [wr_expr e]
  | .literalArray es => by wr [wr_exprs es]
  | .literalMap ms => by wr [wr_entries ms]
  | .logical a op b => by wr [wr_expr a, wr_expr b]
  | .set o x v loc => by wr [wr_expr o, wr_expr v]
  | .setIndex a i v loc => by wr [wr_expr a, wr_expr i, wr_expr v]
  | .super c x loc => by wr []
  | .variable x c loc => by wr []
  | .unary op e loc => by wr [wr_expr e]
  | .literalBool true => by wr []
  | .literalBool false => by wr []
  | .literalNumber x => by wr []
  | .literalNil => by wr []
  | .literalString s => by wr []

theorem wr_exprs : ∀ es, AllWr (writeExprs es)
  | [] => by simp [writeExprs, wr_nil]
  | [e] => by wr [wr_expr e]
  | e :: e' :: es => by
    have := wr_exprs (e' :: es)
    simp only [writeExprs, wr_append, wr_cons]
    exact ⟨wr_expr e, wr_comma, this⟩

theorem wr_entries : ∀ ms, AllWr (writeEntries ms)
  | [] => by simp [writeEntries, wr_nil]
  | [.mk k v] => by wr [wr_expr v]
  | .mk k v :: m :: ms => by
    have := wr_entries (m :: ms)
    simp only [writeEntries, wr_append, wr_cons, List.cons_append]
    exact ⟨wr_string, .fixed (.inl rfl), wr_expr v, wr_comma, this⟩

theorem wr_methods : ∀ ms, AllWr (writeMethods ms)
  | [] => by simp [writeMethods, wr_nil]
  | .mk x (.mk ps body k loc) :: ms => by
    have hk : AllWr (if k = .classMethod then [tok .class c!"class"] else []) := by
      split
      · exact wr_cons.2 ⟨.fixed (.inr rfl), wr_nil⟩
      · exact wr_nil
    simp only [writeMethods, wr_append, wr_cons, List.append_assoc, List.cons_append]
    exact ⟨hk, wr_name, wr_openParen, wr_params ps, wr_closeParen, wr_openBrace, wr_stmts body, wr_closeBrace, wr_methods ms⟩

theorem wr_stmt : ∀ s, AllWr (writeStmt s)
  | .block body => by wr [wr_stmts body]
  | .break loc => by wr []
  | .continue loc => by wr []
  | .class x none ms loc => by wr [wr_methods ms]
  | .class x (some e) ms loc => by wr [wr_methods ms, wr_expr e]
  | .expression (.set o x v loc) => by
    simp only [writeStmt]
    split <;> wr [wr_expr o, wr_expr v]
  | .expression (.setIndex a i v loc) => by
    simp only [writeStmt]
    split <;> wr [wr_expr a, wr_expr i, wr_expr v]
  | .expression (.assign x c r loc) => wr_exprLine (wr_expr (.assign x c r loc)) (by simp only [writeStmt])
  | .expression (.call f args loc) => wr_exprLine (wr_expr (.call f args loc)) (by simp only [writeStmt])
  | .expression (.binary a op b loc) => wr_exprLine (wr_expr (.binary a op b loc)) (by simp only [writeStmt])
  | .expression (.logical a op b) => wr_exprLine (wr_expr (.logical a op b)) (by simp only [writeStmt])
  | .expression (.function d) => wr_exprLine (wr_expr (.function d)) (by simp only [writeStmt])
  | .expression (.get o x loc) => wr_exprLine (wr_expr (.get o x loc)) (by simp only [writeStmt])
  | .expression (.getIndex a i loc) => wr_exprLine (wr_expr (.getIndex a i loc)) (by simp only [writeStmt])
  | .expression (.grouping e) => wr_exprLine (wr_expr (.grouping e)) (by simp only [writeStmt])
  | .expression (.literalArray es) => wr_exprLine (wr_expr (.literalArray es)) (by simp only [writeStmt])
  | .expression (.literalMap ms) => wr_exprLine (wr_expr (.literalMap ms)) (by simp only [writeStmt])
  | .expression (.super c x loc) => wr_exprLine (wr_expr (.super c x loc)) (by simp only [writeStmt])
  | .expression (.variable x c loc) => wr_exprLine (wr_expr (.variable x c loc)) (by simp only [writeStmt])
  | .expression (.unary op e loc) => wr_exprLine (wr_expr (.unary op e loc)) (by simp only [writeStmt])
  | .expression (.literalBool b) => wr_exprLine (wr_expr (.literalBool b)) (by simp only [writeStmt])
  | .expression (.literalNumber x) => wr_exprLine (wr_expr (.literalNumber x)) (by simp only [writeStmt])
  | .expression .literalNil => wr_exprLine (wr_expr .literalNil) (by simp only [writeStmt])
  | .expression (.literalString s) => wr_exprLine (wr_expr (.literalString s)) (by simp only [writeStmt])
  | .fun (.mk x (.mk ps body k loc)) => by wr [wr_stmts body]
  | .if c a none => by wr [wr_expr c, wr_stmt a]
  | .if c a (some b) => by wr [wr_expr c, wr_stmt a, wr_stmt b]
  | .print e => by wr [wr_expr e]
  | .return e loc => by wr [wr_expr e]
  | .var x s e loc => by wr [wr_expr e]
  | .while c b => by wr [wr_expr c, wr_stmt b]
  | .whileIncrement c b i => by wr [wr_expr c, wr_stmt b, wr_expr i]

theorem wr_stmts : ∀ ss, AllWr (writeStmts ss)
  | [] => by simp [writeStmts, wr_nil]
  | s :: ss => by wr [wr_stmt s, wr_stmts ss]
end

theorem wr_lineBlock {w : List Token} (h : AllWr w) : AllWr (lineBlock w) := by
  unfold lineBlock
  split <;> simp only [wr_append, wr_cons, List.cons_append]
  · exact ⟨wr_line, wr_indent, h, wr_outdent, wr_nil⟩
  · exact ⟨wr_openBrace, h, wr_closeBrace, wr_nil⟩

mutual
theorem wr_lineMethods : ∀ ms, AllWr (lineMethods ms)
  | [] => by simp [lineMethods, wr_nil]
  | .mk x (.mk ps body k loc) :: ms => by
    have hk : AllWr (if k = .classMethod then [tok .class c!"class"] else []) := by
      split
      · exact wr_cons.2 ⟨.fixed (.inr rfl), wr_nil⟩
      · exact wr_nil
    simp only [lineMethods, wr_append, wr_cons, List.append_assoc, List.cons_append]
    exact ⟨hk, wr_name, wr_openParen, wr_params ps, wr_closeParen, wr_lineBlock (wr_lineStmts body), wr_lineMethods ms⟩

theorem wr_lineStmt : ∀ b s, AllWr (lineStmt b s)
  | b, .block body => by
    simp only [lineStmt]
    split
    · exact wr_lineBlock (wr_lineStmts body)
    · wr [wr_lineStmts body]
  | _, .break loc => by simp only [lineStmt]; exact wr_stmt _
  | _, .continue loc => by simp only [lineStmt]; exact wr_stmt _
  | _, .class x none ms loc => by wr [wr_lineBlock (wr_lineMethods ms)]
  | _, .class x (some e) ms loc => by wr [wr_lineBlock (wr_lineMethods ms), wr_expr e]
  | _, .expression e => by simp only [lineStmt]; exact wr_stmt _
  | _, .fun (.mk x (.mk ps body k loc)) => by wr [wr_lineBlock (wr_lineStmts body)]
  | _, .if c a none => by wr [wr_expr c, wr_lineStmt true a]
  | _, .if c a (some b) => by wr [wr_expr c, wr_lineStmt true a, wr_lineStmt false b]
  | _, .print e => by simp only [lineStmt]; exact wr_stmt _
  | _, .return e loc => by simp only [lineStmt]; exact wr_stmt _
  | _, .var x s e loc => by simp only [lineStmt]; exact wr_stmt _
  | _, .while c b => by wr [wr_expr c, wr_lineStmt true b]
  | _, .whileIncrement c b i => by wr [wr_expr c, wr_lineStmt true b, wr_expr i]

theorem wr_lineStmts : ∀ ss, AllWr (lineStmts ss)
  | [] => by simp [lineStmts, wr_nil]
  | s :: ss => by wr [wr_lineStmt false s, wr_lineStmts ss]
end

theorem good_of_written {t : Token} (h : Written t) : goodTok t = true := by
  cases h with
  | fixed h =>
    rename_i tt s loc
    rcases h with h | h <;> cases tt <;> simp [operator, keyword] at h <;> subst h <;> rfl
  | name => exact good_name
  | string => exact good_string
  | number => exact good_number
  | line => exact good_newline
  | indent => rfl
  | outdent => rfl

theorem good_lines (ss : List Stmt) : (lineStmts ss).all goodTok = true :=
  List.all_eq_true.2 fun t ht => good_of_written (wr_lineStmts ss t ht)

/-! ### Lines -/

/-- Where a token comes: at the beginning of a line, there after an Indent, there after so many Outdents,
or after a token of this type. -/
inductive Spot where
  | start | opened | closed (k : Nat) | mid (k : TokenType)

/-- A token on a line. -/
def Ordinary (k : TokenType) : Prop := k ∉ [.indent, .outdent, .terminator, .eof, .leftParenAbutting]

/-- `Lay p d ts q e`: from the spot `p` with `d` open blocks, the tokens lead to the spot `q` with `e` open
blocks, and end lines and blocks properly. -/
inductive Lay : Spot → Nat → List Token → Spot → Nat → Prop
  | nil {p d} : Lay p d [] p d
  | indent {d t ts q e} : t.tokenType = .indent → Lay .opened (d + 1) ts q e → Lay .start d (t :: ts) q e
  | outdent {d t ts q e} : t.tokenType = .outdent → Lay (.closed 1) d ts q e → Lay .start (d + 1) (t :: ts) q e
  | outdents {k d t ts q e} : t.tokenType = .outdent → Lay (.closed (k + 1)) d ts q e →
    Lay (.closed k) (d + 1) (t :: ts) q e
  | terminator {k d t ts q e} : t.tokenType = .terminator → continues k = false → Lay .start d ts q e →
    Lay (.mid k) d (t :: ts) q e
  | attached {k d t ts q e} : t.tokenType = .leftParenAbutting → Lay (.mid t.tokenType) d ts q e → Lay (.mid k) d (t :: ts) q e
  | token {p d t ts q e} : Ordinary t.tokenType → Lay (.mid t.tokenType) d ts q e → Lay p d (t :: ts) q e

theorem Lay.append {p d a q e} (h : Lay p d a q e) {b r f} (h' : Lay q e b r f) : Lay p d (a ++ b) r f := by
  induction h with
  | nil => exact h'
  | indent h1 _ ih => exact .indent h1 (ih h')
  | outdent h1 _ ih => exact .outdent h1 (ih h')
  | outdents h1 _ ih => exact .outdents h1 (ih h')
  | terminator h1 h2 _ ih => exact .terminator h1 h2 (ih h')
  | attached h1 _ ih => exact .attached h1 (ih h')
  | token h1 _ ih => exact .token h1 (ih h')

/-- After the end of a line comes a line, and after an Outdent can come another. -/
theorem Lay.last {p d a q e t} (h : Lay p d (a ++ [t]) q e) :
    (t.tokenType = .terminator → q = .start) ∧ (t.tokenType = .outdent → ∃ k, q = .closed k) := by
  induction a generalizing p d with
  | nil =>
    cases h with
    | indent h1 h2 => simp [h1]
    | outdent h1 h2 => cases h2; simp [h1]
    | outdents h1 h2 => cases h2; simp [h1]
    | terminator h1 h3 h2 => cases h2; simp [h1]
    | attached h1 h2 => simp [h1]
    | token h1 h2 => exact ⟨fun h => absurd h1 (by simp [Ordinary, h]), fun h => absurd h1 (by simp [Ordinary, h])⟩
  | cons x a ih => cases h <;> exact ih ‹_›

/-- The tokens of an expression: they can come anywhere, and a line can end after them. -/
def LayE (w : List Token) : Prop := ∀ p d, ∃ k, continues k = false ∧ Lay p d w (.mid k) d

/-- Tokens that can come anywhere. -/
def LayS (w : List Token) : Prop := ∀ p d, ∃ q, Lay p d w q d

section
variable {w w' : List Token} {t : Token}

theorem LayE.all (h : LayE w) : LayS w := fun p d => let ⟨_, _, h⟩ := h p d; ⟨_, h⟩

theorem LayS.nil : LayS [] := fun _ _ => ⟨_, .nil⟩

theorem LayS.append (h : LayS w) (h' : LayS w') : LayS (w ++ w') := fun p d =>
  let ⟨q, h⟩ := h p d
  let ⟨_, h'⟩ := h' q d
  ⟨_, h.append h'⟩

theorem LayS.then (h : LayS w) (h' : LayE w') : LayE (w ++ w') := fun p d =>
  let ⟨q, h⟩ := h p d
  let ⟨_, h1, h'⟩ := h' q d
  ⟨_, h1, h.append h'⟩

theorem LayS.cons (ht : Ordinary t.tokenType) (h : LayS w) : LayS (t :: w) := fun _ d =>
  let ⟨_, h⟩ := h (.mid t.tokenType) d
  ⟨_, .token ht h⟩

theorem LayE.cons (ht : Ordinary t.tokenType) (h : LayE w) : LayE (t :: w) := fun _ d =>
  let ⟨_, h1, h⟩ := h (.mid t.tokenType) d
  ⟨_, h1, .token ht h⟩

theorem LayE.one (ht : Ordinary t.tokenType) (hc : continues t.tokenType = false) : LayE [t] := fun _ _ => ⟨_, hc, .token ht .nil⟩

theorem LayE.append (h : LayE w) (h' : LayE w') : LayE (w ++ w') := h.all.then h'

theorem LayE.line (h : LayE w) : LayS (w ++ [lineEnd]) := fun p d =>
  let ⟨_, h1, h⟩ := h p d
  ⟨_, h.append (.terminator rfl h1 .nil)⟩

theorem LayE.attached {loc : SourceLoc} (h : LayE w) (h' : LayE w') : LayE (w ++ tok .leftParenAbutting c!"(" loc :: w') := fun p d =>
  let ⟨_, _, h⟩ := h p d
  let ⟨_, h2, h'⟩ := h' (.mid .leftParenAbutting) d
  ⟨_, h2, h.append (.attached rfl h')⟩
end

/-- No token opens a block. -/
def NoIndent (w : List Token) : Prop := ∀ t ∈ w, t.tokenType ≠ .indent

theorem noIndent_append {a b : List Token} : NoIndent (a ++ b) ↔ NoIndent a ∧ NoIndent b := List.forall_mem_append
theorem noIndent_cons {t : Token} {a : List Token} : NoIndent (t :: a) ↔ t.tokenType ≠ .indent ∧ NoIndent a := List.forall_mem_cons

theorem lay_params : ∀ ps, LayS (writeParams ps)
  | [] => .nil
  | [p] => .cons (by simp [name, tok, Ordinary]) .nil
  | p :: q :: ps => .cons (by simp [name, tok, Ordinary]) (.cons (by simp [comma, tok, Ordinary]) (lay_params (q :: ps)))

local macro "ord" : tactic =>
  `(tactic| first
    | decide
    | (simp [name, tok, Ordinary, binaryTok, logicalTok, unaryTok, comma, openParen, closeParen, openBrace, closeBrace, stringTok, numberTok]; done))

theorem ord_binary {op : BinaryOperator} {loc : SourceLoc} : Ordinary (binaryTok op loc).tokenType := by cases op <;> ord
theorem ord_logical {op : LogicalOperator} : Ordinary (logicalTok op).tokenType := by cases op <;> ord
theorem ord_unary {op : UnaryOperator} {loc : SourceLoc} : Ordinary (unaryTok op loc).tokenType := by cases op <;> ord

theorem lay_paren : LayE [closeParen] := .one (by ord) rfl
theorem lay_brace : LayE [closeBrace] := .one (by ord) rfl
theorem lay_bracket : LayE [tok .rightBracket c!"]"] := .one (by ord) rfl

local macro "split_noIndent" h:ident : tactic =>
  `(tactic| simp only [writeExpr, writeExprs, writeEntries, writeMethods, writeStmt, writeStmts, List.append_assoc, List.cons_append,
    noIndent_append, noIndent_cons] at $h:ident)

theorem lay_exprLine {e : Expr} (he : writeStmt (.expression e) = if startsMap e then tok .indent [] :: writeExpr e ++ [tok .outdent [], lineEnd]
      else writeExpr e ++ [lineEnd]) (h : NoIndent (writeStmt (.expression e))) (hl : NoIndent (writeExpr e) → LayE (writeExpr e)) :
    LayS (writeStmt (.expression e)) := by
  rw [he] at h ⊢
  split at h
  · exact absurd rfl (h (tok .indent []) (by simp))
  · rename_i hs
    rw [if_neg hs]
    exact (hl (noIndent_append.1 h).1).line

mutual
theorem lay_expr : ∀ e, NoIndent (writeExpr e) → LayE (writeExpr e)
  | .assign x c r loc, h => by
    split_noIndent h
    simp only [writeExpr]
    exact .cons (by ord) (.cons (by ord) (lay_expr r h.2.2))
  | .call f args loc, h => by
    split_noIndent h
    have := (lay_expr f h.1).attached (loc := loc) ((lay_exprs args h.2.2.1).then lay_paren)
    simpa [writeExpr] using this
  | .binary a op b loc, h => by
    split_noIndent h
    simp only [writeExpr]
    exact (lay_expr a h.1).append (.cons ord_binary (lay_expr b h.2.2))
  | .function (.mk ps body k loc), h => by
    split_noIndent h
    simp only [writeExpr, List.cons_append, List.append_assoc]
    exact .cons (by ord) (.cons (by ord) ((lay_params ps).then (.cons (by ord) (.cons (by ord) ((lay_wstmts body h.2.2.2.2.2.1).then lay_brace)))))
  | .get o x loc, h => by
    split_noIndent h
    simp only [writeExpr]
    exact (lay_expr o h.1).append (.cons (by ord) (.one (by ord) rfl))
  | .getIndex a i loc, h => by
    split_noIndent h
    simp only [writeExpr, List.cons_append, List.append_assoc]
    exact (lay_expr a h.1).append (.cons (by ord) ((lay_expr i h.2.2.1).append lay_bracket))
  | .grouping e, h => by
    split_noIndent h
    simp only [writeExpr]
    exact .cons (by ord) ((lay_expr e h.2.1).append lay_paren)
  | .literalArray es, h => by
    split_noIndent h
    simp only [writeExpr]
    exact .cons (by ord) ((lay_exprs es h.2.1).then lay_bracket)
  | .literalMap ms, h => by
    split_noIndent h
    simp only [writeExpr]
    exact .cons (by ord) ((lay_entries ms h.2.1).then lay_brace)
  | .logical a op b, h => by
    split_noIndent h
    simp only [writeExpr]
    exact (lay_expr a h.1).append (.cons ord_logical (lay_expr b h.2.2))
  | .set o x v loc, h => by
    split_noIndent h
    simp only [writeExpr]
    exact (lay_expr o h.1).append (.cons (by ord) (.cons (by ord) (.cons (by ord) (lay_expr v h.2.2.2.2))))
  | .setIndex a i v loc, h => by
    split_noIndent h
    simp only [writeExpr, List.cons_append, List.append_assoc]
    exact (lay_expr a h.1).append (.cons (by ord) ((lay_expr i h.2.2.1).append (.cons (by ord) (.cons (by ord) (lay_expr v h.2.2.2.2.2)))))
  | .super c x loc, _ => by
    simp only [writeExpr]
    exact .cons (by ord) (.cons (by ord) (.one (by ord) rfl))
  | .variable x c loc, _ => by
    simp only [writeExpr, variableTok]
    split <;> exact .one (by ord) rfl
  | .unary op e loc, h => by
    split_noIndent h
    simp only [writeExpr]
    exact .cons ord_unary (lay_expr e h.2)
  | .literalBool true, _ => by simp only [writeExpr]; exact .one (by ord) rfl
  | .literalBool false, _ => by simp only [writeExpr]; exact .one (by ord) rfl
  | .literalNumber x, _ => by simp only [writeExpr]; exact .one (by ord) rfl
  | .literalNil, _ => by simp only [writeExpr]; exact .one (by ord) rfl
  | .literalString s, _ => by simp only [writeExpr]; exact .one (by ord) rfl

theorem lay_exprs : ∀ es, NoIndent (writeExprs es) → LayS (writeExprs es)
  | [], _ => by simp only [writeExprs]; exact .nil
  | [e], h => by
    simp only [writeExprs] at h ⊢
    exact (lay_expr e h).all
  | e :: e' :: es, h => by
    rw [writeExprs] at h ⊢
    rw [noIndent_append, noIndent_cons] at h
    exact (lay_expr e h.1).all.append (.cons (by ord) (lay_exprs (e' :: es) h.2.2))

theorem lay_entries : ∀ ms, NoIndent (writeEntries ms) → LayS (writeEntries ms)
  | [], _ => by simp only [writeEntries]; exact .nil
  | [.mk k v], h => by
    simp only [writeEntries] at h ⊢
    rw [noIndent_cons, noIndent_cons] at h
    exact .cons (by ord) (.cons (by ord) (lay_expr v h.2.2).all)
  | .mk k v :: m :: ms, h => by
    rw [writeEntries] at h ⊢
    rw [List.cons_append, List.cons_append, noIndent_cons, noIndent_cons, noIndent_append, noIndent_cons] at h
    exact .cons (by ord) (.cons (by ord) ((lay_expr v h.2.2.1).all.append (.cons (by ord) (lay_entries (m :: ms) h.2.2.2.2))))

theorem lay_wmethods : ∀ ms, NoIndent (writeMethods ms) → LayS (writeMethods ms)
  | [], _ => by simp only [writeMethods]; exact .nil
  | .mk x (.mk ps body k loc) :: ms, h => by
    split_noIndent h
    simp only [writeMethods, List.append_assoc, List.cons_append]
    have hk : LayS (if k = .classMethod then [tok .class c!"class"] else []) := by
      split
      · exact .cons (by ord) .nil
      · exact .nil
    exact hk.append (.cons (by ord) (.cons (by ord) ((lay_params ps).append (.cons (by ord) (.cons (by ord)
      ((lay_wstmts body h.2.2.2.2.2.2.1).append (.cons (by ord) (lay_wmethods ms h.2.2.2.2.2.2.2.2))))))))

theorem lay_wstmt : ∀ s, NoIndent (writeStmt s) → LayS (writeStmt s)
  | .block body, h => by
    split_noIndent h
    simp only [writeStmt]
    exact .cons (by ord) ((lay_wstmts body h.2.1).append lay_brace.all)
  | .break loc, _ => by
    simp only [writeStmt]
    exact (LayE.one (t := tok .break c!"break" loc) (by ord) rfl).line
  | .continue loc, _ => by
    simp only [writeStmt]
    exact (LayE.one (t := tok .continue c!"continue" loc) (by ord) rfl).line
  | .class x none ms loc, h => by
    split_noIndent h
    simp only [writeStmt]
    exact .cons (by ord) (.cons (by ord) (.cons (by ord) ((lay_wmethods ms h.2.2.2.1).append lay_brace.all)))
  | .class x (some e) ms loc, h => by
    split_noIndent h
    simp only [writeStmt, List.append_assoc, List.cons_append]
    exact .cons (by ord) (.cons (by ord) (.cons (by ord) ((lay_expr e h.2.2.2.1).all.append
      (.cons (by ord) ((lay_wmethods ms h.2.2.2.2.2.1).append lay_brace.all)))))
  | .expression (.set o x v loc), h => by
    simp only [writeStmt] at h ⊢
    split at h
    · exact absurd rfl (h (tok .indent []) (by simp))
    · rename_i hs
      rw [if_neg hs]
      split_noIndent h
      have := (((lay_expr o h.1).append (.cons (t := tok .dot c!".") (by ord) (.cons (t := name x) (by ord)
        (.cons (t := tok .equal c!"=" loc) (by ord) (lay_expr v h.2.2.2.2.1))))).line)
      simpa using this
  | .expression (.setIndex a i v loc), h => by
    simp only [writeStmt] at h ⊢
    split at h
    · exact absurd rfl (h (tok .indent []) (by simp))
    · rename_i hs
      rw [if_neg hs]
      split_noIndent h
      have := (((lay_expr a h.1).append (.cons (t := tok .leftBracket c!"[") (by ord) ((lay_expr i h.2.2.1).append
        (.cons (t := tok .rightBracket c!"]") (by ord) (.cons (t := tok .equal c!"=" loc) (by ord) (lay_expr v h.2.2.2.2.2.1)))))).line)
      simpa using this
  | .expression (.assign x c r loc), h => lay_exprLine (by simp only [writeStmt]) h (lay_expr (.assign x c r loc))
  | .expression (.call f args loc), h => lay_exprLine (by simp only [writeStmt]) h (lay_expr (.call f args loc))
  | .expression (.binary a op b loc), h => lay_exprLine (by simp only [writeStmt]) h (lay_expr (.binary a op b loc))
  | .expression (.logical a op b), h => lay_exprLine (by simp only [writeStmt]) h (lay_expr (.logical a op b))
  | .expression (.function d), h => lay_exprLine (by simp only [writeStmt]) h (lay_expr (.function d))
  | .expression (.get o x loc), h => lay_exprLine (by simp only [writeStmt]) h (lay_expr (.get o x loc))
  | .expression (.getIndex a i loc), h => lay_exprLine (by simp only [writeStmt]) h (lay_expr (.getIndex a i loc))
  | .expression (.grouping e), h => lay_exprLine (by simp only [writeStmt]) h (lay_expr (.grouping e))
  | .expression (.literalArray es), h => lay_exprLine (by simp only [writeStmt]) h (lay_expr (.literalArray es))
  | .expression (.literalMap ms), h => lay_exprLine (by simp only [writeStmt]) h (lay_expr (.literalMap ms))
  | .expression (.super c x loc), h => lay_exprLine (by simp only [writeStmt]) h (lay_expr (.super c x loc))
  | .expression (.variable x c loc), h => lay_exprLine (by simp only [writeStmt]) h (lay_expr (.variable x c loc))
  | .expression (.unary op e loc), h => lay_exprLine (by simp only [writeStmt]) h (lay_expr (.unary op e loc))
  | .expression (.literalBool b), h => lay_exprLine (by simp only [writeStmt]) h (lay_expr (.literalBool b))
  | .expression (.literalNumber x), h => lay_exprLine (by simp only [writeStmt]) h (lay_expr (.literalNumber x))
  | .expression .literalNil, h => lay_exprLine (by simp only [writeStmt]) h (lay_expr .literalNil)
  | .expression (.literalString s), h => lay_exprLine (by simp only [writeStmt]) h (lay_expr (.literalString s))
  | .fun (.mk x (.mk ps body k loc)), h => by
    split_noIndent h
    simp only [writeStmt, List.append_assoc, List.cons_append]
    exact .cons (by ord) (.cons (by ord) (.cons (by ord) ((lay_params ps).append (.cons (by ord) (.cons (by ord)
      ((lay_wstmts body h.2.2.2.2.2.2.1).append lay_brace.all))))))
  | .if c a none, h => by
    split_noIndent h
    simp only [writeStmt, List.append_assoc, List.cons_append]
    exact .cons (by ord) (.cons (by ord) ((lay_expr c h.2.2.1).all.append (.cons (by ord) (lay_wstmt a h.2.2.2.2))))
  | .if c a (some b), h => by
    split_noIndent h
    simp only [writeStmt, List.append_assoc, List.cons_append]
    exact .cons (by ord) (.cons (by ord) ((lay_expr c h.2.2.1).all.append (.cons (by ord) ((lay_wstmt a h.2.2.2.2.1).append
      (.cons (by ord) (lay_wstmt b h.2.2.2.2.2.2))))))
  | .print e, h => by
    split_noIndent h
    simp only [writeStmt, List.append_assoc, List.cons_append]
    exact .cons (by ord) ((lay_expr e h.2.1).line)
  | .return e loc, h => by
    split_noIndent h
    simp only [writeStmt, List.append_assoc, List.cons_append]
    exact .cons (by ord) ((lay_expr e h.2.1).line)
  | .var x s e loc, h => by
    split_noIndent h
    simp only [writeStmt, List.append_assoc, List.cons_append]
    exact .cons (by ord) (.cons (by ord) (.cons (by ord) ((lay_expr e h.2.2.2.1).line)))
  | .while c b, h => by
    split_noIndent h
    simp only [writeStmt, List.append_assoc, List.cons_append]
    exact .cons (by ord) (.cons (by ord) ((lay_expr c h.2.2.1).all.append (.cons (by ord) (lay_wstmt b h.2.2.2.2))))
  | .whileIncrement c b i, h => by
    split_noIndent h
    simp only [writeStmt, List.append_assoc, List.cons_append]
    exact .cons (by ord) (.cons (by ord) (.cons (by ord) ((lay_expr c h.2.2.2.1).all.append (.cons (by ord)
      ((lay_expr i h.2.2.2.2.2.1).all.append (.cons (by ord) (lay_wstmt b h.2.2.2.2.2.2.2)))))))

theorem lay_wstmts : ∀ ss, NoIndent (writeStmts ss) → LayS (writeStmts ss)
  | [], _ => by simp only [writeStmts]; exact .nil
  | s :: ss, h => by
    split_noIndent h
    simp only [writeStmts]
    exact (lay_wstmt s h.1).append (lay_wstmts ss h.2)
end

/-! ### Blocks -/

/-- Tokens that can come directly after a token that does not continue its line. -/
def LayB (w : List Token) : Prop := ∀ k d, continues k = false → ∃ q, Lay (.mid k) d w q d

theorem LayS.body {w : List Token} (h : LayS w) : LayB w := fun _ d _ => h _ d

theorem LayB.after {t : Token} {w : List Token} (h : LayB w) (ht : Ordinary t.tokenType) (hc : continues t.tokenType = false) :
    LayS (t :: w) := fun _ d =>
  let ⟨_, h⟩ := h t.tokenType d hc
  ⟨_, .token ht h⟩

theorem LayE.body {w w' : List Token} (h : LayE w) (h' : LayB w') : LayS (w ++ w') := fun p d =>
  let ⟨k, h1, h⟩ := h p d
  let ⟨_, h'⟩ := h' k d h1
  ⟨_, h.append h'⟩

theorem lay_lineBlock {w : List Token} (h : LayS w) : LayB (lineBlock w) := by
  unfold lineBlock
  intro k d hk
  split
  · rename_i hl
    obtain ⟨q, h1⟩ := h .opened (d + 1)
    have hq : q = .start ∨ ∃ k, q = .closed k := by
      rcases List.eq_nil_or_concat w with rfl | ⟨a, t, rfl⟩
      · simp at hl
      · rw [List.concat_eq_append] at h1 hl
        simp only [List.getLast?_append, List.getLast?_singleton, Option.some_or, Option.any_some, isLineEnd, Bool.or_eq_true,
          beq_iff_eq] at hl
        exact hl.imp h1.last.1 h1.last.2
    rcases hq with rfl | ⟨k, rfl⟩
    · exact ⟨_, .terminator rfl hk (.indent rfl (h1.append (.outdent rfl .nil)))⟩
    · exact ⟨_, .terminator rfl hk (.indent rfl (h1.append (.outdents rfl .nil)))⟩
  · exact LayS.cons (by ord) (h.append lay_brace.all) _ _

theorem lay_stmt' {b : Bool} {w : List Token} (h : LayS w) : if b then LayB w else LayS w := by
  split
  · exact h.body
  · exact h

mutual
theorem lay_methods : ∀ ms, NoIndent (writeMethods ms) → LayS (lineMethods ms)
  | [], _ => by simp only [lineMethods]; exact .nil
  | .mk x (.mk ps body k loc) :: ms, h => by
    split_noIndent h
    have hk : LayS (if k = .classMethod then [tok .class c!"class"] else []) := by
      split
      · exact .cons (by ord) .nil
      · exact .nil
    have := hk.append (.cons (t := name x loc) (by ord) (.cons (t := openParen) (by ord) ((lay_params ps).append
      (((lay_lineBlock (lay_stmts body h.2.2.2.2.2.2.1)).after (t := closeParen) (by ord) rfl).append (lay_methods ms h.2.2.2.2.2.2.2.2)))))
    simpa [lineMethods] using this

theorem lay_stmt : ∀ (b : Bool) s, NoIndent (writeStmt s) → (if b then LayB (lineStmt b s) else LayS (lineStmt b s))
  | b, .block body, h => by
    split_noIndent h
    have hb := lay_stmts body h.2.1
    cases b
    · simp only [lineStmt, Bool.false_eq_true, if_false]
      exact .cons (by ord) (hb.append lay_brace.all)
    · simp only [lineStmt, if_true]
      exact lay_lineBlock hb
  | b, .break loc, h => lay_stmt' (by simp only [lineStmt]; exact lay_wstmt _ h)
  | b, .continue loc, h => lay_stmt' (by simp only [lineStmt]; exact lay_wstmt _ h)
  | b, .class x none ms loc, h => by
    split_noIndent h
    refine lay_stmt' ?_
    simp only [lineStmt]
    exact .cons (by ord) ((lay_lineBlock (lay_methods ms h.2.2.2.1)).after (by ord) rfl)
  | b, .class x (some e) ms loc, h => by
    split_noIndent h
    refine lay_stmt' ?_
    simp only [lineStmt]
    exact .cons (by ord) (.cons (by ord) (.cons (by ord) ((lay_expr e h.2.2.2.1).body (lay_lineBlock (lay_methods ms h.2.2.2.2.2.1)))))
  | b, .expression e, h => lay_stmt' (by simp only [lineStmt]; exact lay_wstmt _ h)
  | b, .fun (.mk x (.mk ps body k loc)), h => by
    split_noIndent h
    refine lay_stmt' ?_
    simp only [lineStmt, List.append_assoc, List.cons_append]
    exact .cons (by ord) (.cons (by ord) (.cons (by ord) ((lay_params ps).append
      ((lay_lineBlock (lay_stmts body h.2.2.2.2.2.2.1)).after (by ord) rfl))))
  | b, .if c a none, h => by
    split_noIndent h
    refine lay_stmt' ?_
    simp only [lineStmt, List.append_assoc, List.cons_append]
    have ha : LayB (lineStmt true a) := lay_stmt true a h.2.2.2.2
    exact .cons (by ord) (.cons (by ord) ((lay_expr c h.2.2.1).all.append (ha.after (by ord) rfl)))
  | b, .if c a (some b'), h => by
    split_noIndent h
    refine lay_stmt' ?_
    have ha : LayB (lineStmt true a) := lay_stmt true a h.2.2.2.2.1
    have hb : LayS (lineStmt false b') := lay_stmt false b' h.2.2.2.2.2.2
    have := LayS.cons (t := tok .if c!"if") (by ord) (.cons (t := openParen) (by ord) ((lay_expr c h.2.2.1).all.append
      ((ha.after (t := closeParen) (by ord) rfl).append (.cons (t := tok .else c!"else") (by ord) hb))))
    simpa [lineStmt] using this
  | b, .print e, h => lay_stmt' (by simp only [lineStmt]; exact lay_wstmt _ h)
  | b, .return e loc, h => lay_stmt' (by simp only [lineStmt]; exact lay_wstmt _ h)
  | b, .var x s e loc, h => lay_stmt' (by simp only [lineStmt]; exact lay_wstmt _ h)
  | b, .while c b', h => by
    split_noIndent h
    refine lay_stmt' ?_
    simp only [lineStmt, List.append_assoc, List.cons_append]
    have ha : LayB (lineStmt true b') := lay_stmt true b' h.2.2.2.2
    exact .cons (by ord) (.cons (by ord) ((lay_expr c h.2.2.1).all.append (ha.after (by ord) rfl)))
  | b, .whileIncrement c b' i, h => by
    split_noIndent h
    refine lay_stmt' ?_
    simp only [lineStmt, List.append_assoc, List.cons_append]
    have ha : LayB (lineStmt true b') := lay_stmt true b' h.2.2.2.2.2.2.2
    exact .cons (by ord) (.cons (by ord) (.cons (by ord) ((lay_expr c h.2.2.2.1).all.append (.cons (by ord)
      ((lay_expr i h.2.2.2.2.2.1).all.append (ha.after (by ord) rfl))))))

theorem lay_stmts : ∀ ss, NoIndent (writeStmts ss) → LayS (lineStmts ss)
  | [], _ => by simp only [lineStmts]; exact .nil
  | s :: ss, h => by
    split_noIndent h
    simp only [lineStmts]
    have hs : LayS (lineStmt false s) := lay_stmt false s h.1
    exact hs.append (lay_stmts ss h.2)
end

end Ws.Writing
