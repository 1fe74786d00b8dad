import Verif.Proofs.Parse.Image
import Verif.Spec.Paren
/-! Parentheses around every expression. -/
namespace Ws.Writing
open Ws Spec

/-! ### They can be written -/

theorem opensElse_parens : ∀ s, opensElse (parensStmt s) = opensElse s
  | .if c a none => by simp only [parensStmt, opensElse]
  | .if c a (some b) => by simp only [parensStmt, opensElse]; exact opensElse_parens b
  | .while c b => by simp only [parensStmt, opensElse]; exact opensElse_parens b
  | .whileIncrement c b i => by simp only [parensStmt, opensElse]; exact opensElse_parens b
  | .block _ | .break _ | .continue _ | .class .. | .expression _ | .print _ | .var .. => by simp only [parensStmt, opensElse]
  | .fun (.mk ..) => by simp only [parensStmt, opensElse]
  | .return e _ => by cases e <;> simp only [parensStmt, opensElse]

theorem isStatement_parens (s) : isStatement (parensStmt s) = isStatement s := by
  cases s with
  | «if» c a b => cases b <;> simp only [parensStmt, isStatement]
  | «fun» f => cases f; simp only [parensStmt, isStatement]
  | «return» e _ => cases e <;> simp only [parensStmt, isStatement]
  | _ => simp only [parensStmt, isStatement]

theorem parensExprs_length : ∀ es, (parensExprs es).length = es.length
  | [] => by simp [parensExprs]
  | e :: es => by simp [parensExprs, parensExprs_length es]

theorem parensEntries_keys : ∀ ms, (parensEntries ms).map MapEntry.key = ms.map MapEntry.key
  | [] => by simp [parensEntries]
  | .mk k v :: ms => by simp [parensEntries, parensEntries_keys ms, MapEntry.key]

theorem tight_binary {a b op loc} : tightness (.binary a op b loc) < 8 := by cases op <;> simp [tightness]
theorem tight_logical {a b op} : tightness (.logical a op b) < 8 := by cases op <;> simp [tightness]
theorem tight_grouping {e} : tightness (.grouping e) = 8 := by simp [tightness]

mutual
theorem writable_parens : ∀ (l : Bool) (e : Expr), Writable l e → Writable l (parensExpr e)
  | l, .assign x c r loc, h => by
    simp only [Writable, parensExpr] at h ⊢
    exact ⟨h.1, h.2.1, writable_parens l r h.2.2⟩
  | l, .call f args loc, h => by
    simp only [Writable, parensExpr, tight_grouping, parensExprs_length, Nat.le_refl, true_and] at h ⊢
    exact ⟨writable_parens l f h.2.1, h.2.2.1, writable_parensExprs l args h.2.2.2⟩
  | l, .binary a op b loc, h => by
    simp only [Writable, parensExpr, tight_grouping] at h ⊢
    exact ⟨Nat.le_of_lt tight_binary, tight_binary, writable_parens l a h.2.2.1, writable_parens l b h.2.2.2⟩
  | l, .function (.mk ps body k loc), h => by
    simp only [Writable, parensExpr, parensFun] at h ⊢
    exact ⟨h.1, h.2.1, writable_parensStmts l body h.2.2⟩
  | l, .get o x loc, h => by
    simp only [Writable, parensExpr, tight_grouping, Nat.le_refl, true_and] at h ⊢
    exact writable_parens l o h.2
  | l, .getIndex a i loc, h => by
    simp only [Writable, parensExpr, tight_grouping, Nat.le_refl, true_and] at h ⊢
    exact ⟨writable_parens l a h.2.1, writable_parens l i h.2.2⟩
  | l, .grouping e, h => by
    simp only [Writable, parensExpr] at h ⊢
    exact writable_parens l e h
  | l, .literalArray es, h => by
    simp only [Writable, parensExpr] at h ⊢
    exact writable_parensExprs l es h
  | l, .literalMap ms, h => by
    simp only [Writable, parensExpr, parensEntries_keys] at h ⊢
    exact ⟨h.1, writable_parensEntries l ms h.2⟩
  | l, .logical a op b, h => by
    simp only [Writable, parensExpr, tight_grouping] at h ⊢
    exact ⟨Nat.le_of_lt tight_logical, tight_logical, writable_parens l a h.2.2.1, writable_parens l b h.2.2.2⟩
  | l, .set o x v loc, h => by
    simp only [Writable, parensExpr, tight_grouping, Nat.le_refl, true_and] at h ⊢
    exact ⟨writable_parens l o h.2.1, writable_parens l v h.2.2⟩
  | l, .setIndex a i v loc, h => by
    simp only [Writable, parensExpr, tight_grouping, Nat.le_refl, true_and] at h ⊢
    exact ⟨writable_parens l a h.2.1, writable_parens l i h.2.2.1, writable_parens l v h.2.2.2⟩
  | l, .unary op e loc, h => by
    simp only [Writable, parensExpr, tight_grouping] at h ⊢
    exact ⟨by omega, writable_parens l e h.2⟩
  | l, .super .., h | l, .variable .., h | l, .literalBool _, h | l, .literalNumber _, h | l, .literalNil, h
  | l, .literalString _, h => by simpa only [parensExpr] using h

theorem writable_parensExprs : ∀ (l : Bool) (es : List Expr), WritableExprs l es → WritableExprs l (parensExprs es)
  | _, [], _ => by simp only [parensExprs, WritableExprs]
  | l, e :: es, h => by
    simp only [parensExprs, WritableExprs, Writable] at h ⊢
    exact ⟨writable_parens l e h.1, writable_parensExprs l es h.2⟩

theorem writable_parensEntries : ∀ (l : Bool) (ms : List MapEntry), WritableEntries l ms → WritableEntries l (parensEntries ms)
  | _, [], _ => by simp only [parensEntries, WritableEntries]
  | l, .mk k v :: ms, h => by
    simp only [parensEntries, WritableEntries, Writable] at h ⊢
    exact ⟨writable_parens l v h.1, writable_parensEntries l ms h.2⟩

theorem writable_parensMethods : ∀ (l : Bool) (ms : List NamedFun), WritableMethods l ms → WritableMethods l (parensMethods ms)
  | _, [], _ => by simp only [parensMethods, WritableMethods]
  | l, .mk x (.mk ps body k loc) :: ms, h => by
    simp only [parensMethods, parensFun, WritableMethods] at h ⊢
    exact ⟨h.1, h.2.1, writable_parensStmts l body h.2.2.1, writable_parensMethods l ms h.2.2.2⟩

theorem writable_parensStmt : ∀ (l : Bool) (s : Stmt), WritableStmt l s → WritableStmt l (parensStmt s)
  | l, .block body, h => by
    simp only [WritableStmt, parensStmt] at h ⊢
    exact writable_parensStmts l body h
  | l, .break _, h | l, .continue _, h => by simpa only [parensStmt] using h
  | l, .class x none ms loc, h => by
    simp only [WritableStmt, parensStmt] at h ⊢
    exact writable_parensMethods l ms h
  | l, .class x (some e) ms loc, h => by
    simp only [WritableStmt, parensStmt] at h ⊢
    exact ⟨h.1, writable_parensMethods l ms h.2⟩
  | l, .expression e, h => by
    simp only [WritableStmt, parensStmt, Writable] at h ⊢
    exact writable_parens l e h
  | l, .fun (.mk x (.mk ps body k loc)), h => by
    simp only [WritableStmt, parensStmt, parensFun] at h ⊢
    exact ⟨h.1, h.2.1, writable_parensStmts l body h.2.2⟩
  | l, .if c a none, h => by
    simp only [WritableStmt, parensStmt, Writable, isStatement_parens] at h ⊢
    exact ⟨writable_parens l c h.1, h.2.1, writable_parensStmt l a h.2.2⟩
  | l, .if c a (some b), h => by
    simp only [WritableStmt, parensStmt, Writable, isStatement_parens, opensElse_parens] at h ⊢
    exact ⟨writable_parens l c h.1, h.2.1, h.2.2.1, writable_parensStmt l a h.2.2.2.1, h.2.2.2.2.1,
      writable_parensStmt l b h.2.2.2.2.2⟩
  | l, .print e, h => by
    simp only [WritableStmt, parensStmt, Writable] at h ⊢
    exact writable_parens l e h
  | l, .return e loc, h => by
    have := writable_parens l e (by simpa only [WritableStmt] using h)
    cases e <;> simp only [parensStmt, WritableStmt, Writable] <;> first | trivial | exact this
  | l, .var x s e loc, h => by
    simp only [WritableStmt, parensStmt, Writable] at h ⊢
    exact ⟨h.1, writable_parens l e h.2⟩
  | l, .while c b, h => by
    simp only [WritableStmt, parensStmt, Writable, isStatement_parens] at h ⊢
    exact ⟨writable_parens l c h.1, h.2.1, writable_parensStmt true b h.2.2⟩
  | l, .whileIncrement c b i, h => by
    simp only [WritableStmt, parensStmt, Writable, isStatement_parens] at h ⊢
    exact ⟨writable_parens l c h.1, writable_parens l i h.2.1, h.2.2.1, writable_parensStmt true b h.2.2.2⟩

theorem writable_parensStmts : ∀ (l : Bool) (ss : List Stmt), WritableStmts l ss → WritableStmts l (parensStmts ss)
  | _, [], _ => by simp only [parensStmts, WritableStmts]
  | l, s :: ss, h => by
    simp only [parensStmts, WritableStmts] at h ⊢
    exact ⟨writable_parensStmt l s h.1, writable_parensStmts l ss h.2⟩
end

/-! ### They are removed again -/

theorem coreNil_parens : ∀ e, coreNil (parensExpr e) = coreNil e
  | .grouping e => by simp only [parensExpr, coreNil]; exact coreNil_parens e
  | .assign .. | .call .. | .binary .. | .function .. | .get .. | .getIndex .. | .literalArray .. | .literalMap ..
  | .logical .. | .set .. | .setIndex .. | .super .. | .variable .. | .unary .. | .literalBool .. | .literalNumber ..
  | .literalNil | .literalString .. => by simp only [parensExpr, coreNil]

variable {k : Bool}

local macro "ug" "[" ts:Lean.Parser.Tactic.simpLemma,* "]" : tactic =>
  `(tactic| simp only [parensExpr, parensExprs, parensEntries, parensFun, parensMethods, parensStmt, parensStmts,
    ungroupExpr, ungroupExprs, ungroupEntries, ungroupFun, ungroupMethods, ungroupStmt, ungroupStmts, $ts,*])

mutual
theorem ungroup_parens : ∀ e, ungroupExpr k (parensExpr e) = ungroupExpr k e
  | .assign x c r loc => by ug [ungroup_parens r]
  | .call f args loc => by ug [ungroup_parens f, ungroup_parensExprs args]
  | .binary a op b loc => by ug [ungroup_parens a, ungroup_parens b]
  | .function (.mk ps body kd loc) => by ug [ungroup_parensStmts body]
  | .get o x loc => by ug [ungroup_parens o]
  | .getIndex a i loc => by ug [ungroup_parens a, ungroup_parens i]
  | .grouping e => by ug [ungroup_parens e]
  | .literalArray es => by ug [ungroup_parensExprs es]
  | .literalMap ms => by ug [ungroup_parensEntries ms]
  | .logical a op b => by ug [ungroup_parens a, ungroup_parens b]
  | .set o x v loc => by ug [ungroup_parens o, ungroup_parens v]
  | .setIndex a i v loc => by ug [ungroup_parens a, ungroup_parens i, ungroup_parens v]
  | .unary op e loc => by ug [ungroup_parens e]
  | .super .. | .variable .. | .literalBool _ | .literalNumber _ | .literalNil | .literalString _ => by ug []

theorem ungroup_parensExprs : ∀ es, ungroupExprs k (parensExprs es) = ungroupExprs k es
  | [] => by ug []
  | e :: es => by ug [ungroup_parens e, ungroup_parensExprs es]

theorem ungroup_parensEntries : ∀ ms, ungroupEntries k (parensEntries ms) = ungroupEntries k ms
  | [] => by ug []
  | .mk x v :: ms => by ug [ungroup_parens v, ungroup_parensEntries ms]

theorem ungroup_parensMethods : ∀ ms, ungroupMethods k (parensMethods ms) = ungroupMethods k ms
  | [] => by ug []
  | .mk x (.mk ps body kd loc) :: ms => by ug [ungroup_parensStmts body, ungroup_parensMethods ms]

theorem ungroup_parensStmt : ∀ s, ungroupStmt k (parensStmt s) = ungroupStmt k s
  | .block body => by ug [ungroup_parensStmts body]
  | .break _ | .continue _ => by ug []
  | .class x sup ms loc => by ug [ungroup_parensMethods ms]
  | .expression e => by ug [ungroup_parens e]
  | .fun (.mk x (.mk ps body kd loc)) => by ug [ungroup_parensStmts body]
  | .if c a none => by ug [ungroup_parens c, ungroup_parensStmt a]
  | .if c a (some b) => by ug [ungroup_parens c, ungroup_parensStmt a, ungroup_parensStmt b]
  | .print e => by ug [ungroup_parens e]
  | .return e loc => by
    have h := ungroup_parens e
    have hn := coreNil_parens e
    cases e <;> simp only [parensStmt, ungroupStmt, parenNil, hn] <;>
      first | rfl | simp_all [coreNil, ungroupExpr]
  | .var x s e loc => by ug [ungroup_parens e]
  | .while c b => by ug [ungroup_parens c, ungroup_parensStmt b]
  | .whileIncrement c b i => by ug [ungroup_parens c, ungroup_parens i, ungroup_parensStmt b]

theorem ungroup_parensStmts : ∀ ss, ungroupStmts k (parensStmts ss) = ungroupStmts k ss
  | [] => by ug []
  | s :: ss => by ug [ungroup_parensStmt s, ungroup_parensStmts ss]
end

/-! ### No other tokens -/

/-- The token is an indent or satisfies `P`. -/
def OrIndent (P : Token → Prop) (t : Token) : Prop := t.tokenType ≠ .indent → P t

variable {P : Token → Prop}

theorem orIndent_ne {t} (h : t.tokenType ≠ .indent) : OrIndent P t ↔ P t := ⟨fun k => k h, fun k _ => k⟩
theorem orIndent_tok {k s loc} (h : k ≠ .indent) : OrIndent P (tok k s loc) ↔ P (tok k s loc) := orIndent_ne h
theorem orIndent_string {s} : OrIndent P (stringTok s) ↔ P (stringTok s) := orIndent_ne (by simp [stringTok])
theorem orIndent_number {s} : OrIndent P (numberTok s) ↔ P (numberTok s) := orIndent_ne (by simp [numberTok])
theorem orIndent_variable {x loc} : OrIndent P (variableTok x loc) ↔ P (variableTok x loc) :=
  orIndent_ne (by unfold variableTok; split <;> simp [tok, Spec.name])
theorem orIndent_binary {op loc} : OrIndent P (binaryTok op loc) ↔ P (binaryTok op loc) :=
  orIndent_ne (by cases op <;> simp [binaryTok, tok])
theorem orIndent_logical {op} : OrIndent P (logicalTok op) ↔ P (logicalTok op) :=
  orIndent_ne (by cases op <;> simp [logicalTok, tok])
theorem orIndent_unary {op loc} : OrIndent P (unaryTok op loc) ↔ P (unaryTok op loc) :=
  orIndent_ne (by cases op <;> simp [unaryTok, tok])

theorem orIndent_params : ∀ ps, AllTok (OrIndent P) (writeParams ps) → AllTok P (writeParams ps)
  | [], _ => by simp [writeParams, allTok_nil]
  | [p], h => by simp_all [writeParams, allTok_nil, allTok_cons, orIndent_tok, Spec.name]
  | p :: q :: ps, h => by
    have := orIndent_params (q :: ps)
    simp_all [writeParams, allTok_cons, orIndent_tok, Spec.name, comma]

theorem orIndent_expression (x) (h : AllTok (OrIndent P) (writeStmt (.expression x))) :
    AllTok (OrIndent P) (writeExpr x) ∧ P lineEnd := by
  cases x <;> simp only [writeStmt, writeExpr] at h ⊢ <;> (try split at h) <;>
    simp_all [allTok_append, allTok_cons, allTok_nil, orIndent_tok, lineEnd, Spec.name]

theorem orIndent_superclass {e : Expr} (hs : IsSuperclass e) (h : AllTok (OrIndent P) (writeExpr e)) : AllTok P (writeExpr e) := by
  cases e <;> simp only [IsSuperclass] at hs
  simp_all [writeExpr, allTok_cons, allTok_nil, orIndent_variable]

theorem writeStmt_grouping {e} : writeStmt (.expression (.grouping e)) = openParen :: (writeExpr e ++ [closeParen, lineEnd]) := by
  simp [writeStmt, startsMap, writeExpr]

local macro "pt" h:ident "[" ts:Lean.Parser.Tactic.simpLemma,* "]" : tactic =>
  `(tactic| (simp only [writeExpr, writeStmt, writeStmts, writeMethods, parensExpr, parensFun, parensStmt, parensStmts, parensMethods,
    allTok_append, allTok_cons, allTok_nil, Writable, WritableStmt, WritableStmts, WritableMethods,
    orIndent_string, orIndent_number, orIndent_variable, orIndent_binary, orIndent_logical, orIndent_unary, Spec.name, and_assoc,
    lineEnd] at $h:ident ⊢; simp_all [orIndent_tok, $ts,*]))

section
variable (ho : P openParen) (hc : P closeParen)
include ho hc

mutual
theorem toks_expr : ∀ (l : Bool) (e : Expr), Writable l e → AllTok (OrIndent P) (writeExpr e) → AllTok P (writeExpr (parensExpr e))
  | l, .assign x c r loc, hw, h => by
    have := toks_expr l r
    pt h [Writable]
  | l, .call f args loc, hw, h => by
    have := toks_expr l f
    have := toks_exprs l args
    pt h [Writable]
  | l, .binary a op b loc, hw, h => by
    have := toks_expr l a
    have := toks_expr l b
    pt h [Writable]
  | l, .function (.mk ps body k loc), hw, h => by
    have := toks_stmts l body
    have := orIndent_params (P := P) ps
    pt h [Writable, openBrace, closeBrace, openParen, closeParen]
  | l, .get o x loc, hw, h => by
    have := toks_expr l o
    pt h [Writable]
  | l, .getIndex a i loc, hw, h => by
    have := toks_expr l a
    have := toks_expr l i
    pt h [Writable]
  | l, .grouping e, hw, h => by
    have := toks_expr l e
    pt h [Writable]
  | l, .literalArray es, hw, h => by
    have := toks_exprs l es
    pt h [Writable]
  | l, .literalMap ms, hw, h => by
    have := toks_entries l ms
    pt h [Writable, openBrace, closeBrace]
  | l, .logical a op b, hw, h => by
    have := toks_expr l a
    have := toks_expr l b
    pt h [Writable]
  | l, .set o x v loc, hw, h => by
    have := toks_expr l o
    have := toks_expr l v
    pt h [Writable]
  | l, .setIndex a i v loc, hw, h => by
    have := toks_expr l a
    have := toks_expr l i
    have := toks_expr l v
    pt h [Writable]
  | l, .unary op e loc, hw, h => by
    have := toks_expr l e
    pt h [Writable]
  | l, .literalBool b, hw, h => by cases b <;> pt h []
  | l, .super .., hw, h | l, .variable .., hw, h | l, .literalNumber _, hw, h | l, .literalNil, hw, h
  | l, .literalString _, hw, h => by pt h []

theorem toks_exprs : ∀ (l : Bool) (es : List Expr), WritableExprs l es → AllTok (OrIndent P) (writeExprs es) → AllTok P (writeExprs (parensExprs es))
  | _, [], _, _ => by simp [parensExprs, writeExprs, allTok_nil]
  | l, [e], hw, h => by
    have := toks_expr l e
    simp_all [parensExprs, writeExprs, allTok_append, allTok_cons, allTok_nil, WritableExprs, writeExpr]
  | l, e :: e' :: es, hw, h => by
    have := toks_expr l e
    have := toks_exprs l (e' :: es)
    simp_all [parensExprs, writeExprs, allTok_append, allTok_cons, allTok_nil, WritableExprs, writeExpr, comma, orIndent_tok]

theorem toks_entries : ∀ (l : Bool) (ms : List MapEntry), WritableEntries l ms → AllTok (OrIndent P) (writeEntries ms) → AllTok P (writeEntries (parensEntries ms))
  | _, [], _, _ => by simp [parensEntries, writeEntries, allTok_nil]
  | l, [.mk k v], hw, h => by
    have := toks_expr l v
    simp_all [parensEntries, writeEntries, allTok_append, allTok_cons, allTok_nil, WritableEntries, writeExpr, orIndent_tok, orIndent_string]
  | l, .mk k v :: m :: ms, hw, h => by
    have := toks_expr l v
    have := toks_entries l (m :: ms)
    cases m
    simp_all [parensEntries, writeEntries, allTok_append, allTok_cons, allTok_nil, WritableEntries, writeExpr, comma, orIndent_tok, orIndent_string]

theorem toks_methods : ∀ (l : Bool) (ms : List NamedFun), WritableMethods l ms → AllTok (OrIndent P) (writeMethods ms) → AllTok P (writeMethods (parensMethods ms))
  | _, [], _, _ => by simp [parensMethods, writeMethods, allTok_nil]
  | l, .mk x (.mk ps body k loc) :: ms, hw, h => by
    have := toks_stmts l body
    have := orIndent_params (P := P) ps
    have := toks_methods l ms
    by_cases hk : k = .classMethod
    · subst hk; pt h [WritableMethods, openBrace, closeBrace, openParen, closeParen, allTok_cons, allTok_nil]
    · pt h [WritableMethods, openBrace, closeBrace, openParen, closeParen, allTok_cons, allTok_nil]

theorem toks_stmt : ∀ (l : Bool) (s : Stmt), WritableStmt l s → AllTok (OrIndent P) (writeStmt s) → AllTok P (writeStmt (parensStmt s))
  | l, .block body, hw, h => by
    have := toks_stmts l body
    pt h [WritableStmt, openBrace, closeBrace]
  | l, .break _, hw, h | l, .continue _, hw, h => by pt h []
  | l, .class x none ms loc, hw, h => by
    have := toks_methods l ms
    pt h [WritableStmt, openBrace, closeBrace]
  | l, .class x (some e) ms loc, hw, h => by
    have := toks_methods l ms
    have := orIndent_superclass (P := P) (e := e)
    pt h [WritableStmt, openBrace, closeBrace]
  | l, .expression e, hw, h => by
    have h := orIndent_expression e h
    have := toks_expr l e (by simpa only [WritableStmt] using hw) h.1
    simp only [parensStmt, writeStmt_grouping, allTok_append, allTok_cons, allTok_nil]
    exact ⟨ho, this, hc, h.2, trivial⟩
  | l, .fun (.mk x (.mk ps body k loc)), hw, h => by
    have := toks_stmts l body
    have := orIndent_params (P := P) ps
    pt h [WritableStmt, openBrace, closeBrace, openParen, closeParen]
  | l, .if c a none, hw, h => by
    have := toks_expr l c
    have := toks_stmt l a
    pt h [WritableStmt]
  | l, .if c a (some b), hw, h => by
    have := toks_expr l c
    have := toks_stmt l a
    have := toks_stmt l b
    pt h [WritableStmt]
  | l, .print e, hw, h => by
    have := toks_expr l e
    pt h [WritableStmt]
  | l, .return e loc, hw, h => by
    have := toks_expr l e (by simpa only [WritableStmt] using hw)
    simp only [writeStmt, allTok_append, allTok_cons, allTok_nil, orIndent_tok (k := .return) (by decide), lineEnd,
      orIndent_tok (k := .terminator) (by decide)] at h
    have this := this h.1.2
    have h1 := h.1.1
    have h2 := h.2.1
    have key : AllTok P (writeStmt (.return (.grouping (parensExpr e)) loc)) := by
      simp only [writeStmt, writeExpr, allTok_append, allTok_cons, allTok_nil, lineEnd]
      exact ⟨⟨h1, ⟨ho, this⟩, hc, trivial⟩, h2, trivial⟩
    cases e <;> simp only [parensStmt] <;> first | exact key | skip
    simp only [writeStmt, writeExpr, allTok_append, allTok_cons, allTok_nil, lineEnd, parensExpr] at this ⊢
    exact ⟨⟨h1, this⟩, h2, trivial⟩
  | l, .var x s e loc, hw, h => by
    have := toks_expr l e
    pt h [WritableStmt]
  | l, .while c b, hw, h => by
    have := toks_expr l c
    have := toks_stmt true b
    pt h [WritableStmt]
  | l, .whileIncrement c b i, hw, h => by
    have := toks_expr l c
    have := toks_expr l i
    have := toks_stmt true b
    pt h [WritableStmt]

theorem toks_stmts : ∀ (l : Bool) (ss : List Stmt), WritableStmts l ss → AllTok (OrIndent P) (writeStmts ss) → AllTok P (writeStmts (parensStmts ss))
  | _, [], _, _ => by simp [parensStmts, writeStmts, allTok_nil]
  | l, s :: ss, hw, h => by
    have := toks_stmt l s
    have := toks_stmts l ss
    simp_all [parensStmts, writeStmts, allTok_append, WritableStmts]
end
end

end Ws.Writing
