import Verif.Spec.Text
import Verif.Proofs.Parse.WriteTokens
/-! The tokens of a syntax tree on lines are derived by the unambiguous grammar as that tree. -/
namespace Ws.Writing
open Spec

variable {l : Bool} {w : List Token}

theorem lineBlock_ok {ss : List Stmt} (h : Plain false l .closed false .declarations w (.stmts ss)) :
    Plain false l .closed false .block (lineBlock w) (.stmts ss) := by
  unfold lineBlock
  split
  · exact .block_indented rfl rfl h (by decide) (by decide) rfl
  · exact .block_braces rfl h (by decide) (by decide) rfl

theorem function_block {loc : SourceLoc} {ps : List Parameter} {body : List Stmt} (hlen : ps.length ≤ 255)
    (hb : Plain false l .closed false .block w (.stmts body)) :
    Plain false l .closed false (.function loc) (openParen :: writeParams ps ++ closeParen :: w)
      (.fn (.mk ps body .plainFunction loc)) := by
  cases ps with
  | nil => simpa [writeParams] using Plain.function_empty (b := openParen) (c := closeParen) (.inl rfl) rfl hb
  | cons p ps =>
    obtain ⟨w₁, qs, q, h1, h2, h3⟩ := params_ok ps p (.parameters_nil (l := l)) hlen
    simp only [List.nil_append] at h1 h2
    rw [h1, h2]
    rw [h2] at hlen
    simp at hlen
    have := Plain.function (loc := loc) (b := openParen) (t := name q.name q.loc) (c := closeParen) (.inl rfl) h3 (by omega) rfl rfl hb
    simpa [name, tok, Token.loc] using this

theorem named_block {n : Str} {loc : SourceLoc} {ps : List Parameter} {body : List Stmt} (hlen : ps.length ≤ 255)
    (hb : Plain false l .closed false .block w (.stmts body)) :
    Plain false l .closed false .named (name n loc :: openParen :: writeParams ps ++ closeParen :: w)
      (.named (.mk n (.mk ps body .plainFunction loc))) :=
  .named (t := name n loc) rfl (function_block hlen hb)

/-- A statement on lines is a declaration, or can be used as the body of another. -/
def OkLine (l : Bool) (s : Stmt) : Prop :=
  Plain false l .closed (opensElse s) .declaration (lineStmt false s) (.stmt s) ∧
  (isStatement s = true → Plain false l .closed (opensElse s) .statement (lineStmt false s) (.stmt s) ∧
    Plain false l .closed (opensElse s) .body (lineStmt true s) (.stmt s))

theorem okLine_same {s : Stmt} (h : OkStmt l s) (he : ∀ b, lineStmt b s = writeStmt s) : OkLine l s := by
  simp only [OkLine, he]; exact h

theorem okLine_of {s : Stmt} (h : Plain false l .closed (opensElse s) .statement (lineStmt false s) (.stmt s))
    (he : lineStmt true s = lineStmt false s) (hh : headType (lineStmt false s) ≠ some .leftBrace) : OkLine l s := by
  refine ⟨.declaration h, fun _ => ⟨h, ?_⟩⟩
  rw [he]
  generalize lineStmt false s = w at *
  cases w with
  | nil =>
    obtain ⟨_, _, h1, -⟩ := (plain_first h : ExprHead stmtTs [])
    cases h1
  | cons t w => exact .body h (fun h' => hh (by rw [headType_cons, h']))

theorem okLine_decl {s : Stmt} (h : Plain false l .closed (opensElse s) .declaration (lineStmt false s) (.stmt s))
    (hs : isStatement s = false) : OkLine l s := ⟨h, fun h' => by rw [hs] at h'; cases h'⟩

theorem okLine_block {ss : List Stmt} (h : Plain false l .closed false .declarations (lineStmts ss) (.stmts ss)) :
    OkLine l (.block ss) := by
  have h1 : Plain false l .closed false .statement (lineStmt false (.block ss)) (.stmt (.block ss)) := by
    simp only [lineStmt, Bool.false_eq_true, if_false]
    exact .braces rfl h (by decide) (by decide) rfl
  refine ⟨.declaration h1, fun _ => ⟨h1, ?_⟩⟩
  simp only [lineStmt, if_true]
  exact .body_block (lineBlock_ok h)

theorem before_lines {ss : List Stmt} (h : Plain false l .closed false .declarations w (.stmts ss)) : ∀ ts : List Stmt,
    (∀ s ∈ ts, OkLine l s) → Plain false l .closed false .declarations (w ++ lineStmts ts) (.stmts (ss ++ ts)) := by
  intro ts
  induction ts generalizing ss w with
  | nil => intro _; simpa [lineStmts] using h
  | cons s ts ih =>
    intro hs
    have := ih (.declarations h (hs s (by simp)).1 ⟨by decide, by decide, by simp, by simp⟩) fun s hs' => hs s (by simp [hs'])
    simpa [lineStmts] using this

theorem lines_ok {ts : List Stmt} (h : ∀ s ∈ ts, OkLine l s) : Plain false l .closed false .declarations (lineStmts ts) (.stmts ts) :=
  before_lines .declarations_nil ts h

theorem class_line {n : Str} {loc : SourceLoc} {ms : List NamedFun} {superclass : Option Expr} (hs : ∀ e ∈ superclass, IsSuperclass e)
    (h : Plain false l .closed false .methods (lineMethods ms) (.nameds ms)) : OkLine l (.class n superclass ms loc) := by
  refine okLine_decl ?_ rfl
  cases superclass with
  | none =>
    simp only [lineStmt, opensElse, lineBlock]
    split
    · exact .class_indented (t := tok .class c!"class") (n := name n loc) (term := lineEnd) (i := indentTok) rfl rfl rfl rfl h rfl
    · exact .class_braces (t := tok .class c!"class") (n := name n loc) (b := openBrace) rfl rfl rfl h rfl
  | some e =>
    obtain ⟨m, loc', rfl, h2⟩ := superclass_ok (hs e rfl)
    simp only [lineStmt, opensElse, h2, lineBlock]
    split
    · exact .subclass_indented (t := tok .class c!"class") (n := name n loc) (lt := tok .less c!"<") (s := name m loc')
        (term := lineEnd) (i := indentTok) rfl rfl rfl rfl rfl rfl h rfl
    · exact .subclass_braces (t := tok .class c!"class") (n := name n loc) (lt := tok .less c!"<") (s := name m loc') (b := openBrace)
        rfl rfl rfl rfl rfl h rfl

theorem fun_line {n : Str} {loc : SourceLoc} {ps : List Parameter} {body : List Stmt} (hlen : ps.length ≤ 255)
    (hb : Plain false l .closed false .declarations (lineStmts body) (.stmts body)) :
    OkLine l (.fun (.mk n (.mk ps body .plainFunction loc))) := by
  refine okLine_decl ?_ rfl
  simp only [lineStmt, opensElse]
  exact .fun_decl (t := tok .fun c!"fun") rfl (named_block hlen (lineBlock_ok hb))

theorem if_line {c : Expr} {a : Stmt} (hc : Ok l (writeExpr c) c) (hs : isStatement a = true) (ha : OkLine l a) : OkLine l (.if c a none) := by
  refine okLine_of ?_ (by simp only [lineStmt]) ?_ <;> simp only [lineStmt, opensElse]
  · exact .if (t := tok .if c!"if") (b := openParen) rfl (.inl rfl) hc.expr (by decide) rfl (ha.2 hs).2
  · simp [headType, tok]

theorem if_else_line {c : Expr} {a b : Stmt} (hc : Ok l (writeExpr c) c) (hs : isStatement a = true) (ho : opensElse a = false)
    (ha : OkLine l a) (hs' : isStatement b = true) (hb : OkLine l b) : OkLine l (.if c a (some b)) := by
  refine okLine_of ?_ (by simp only [lineStmt]) ?_ <;> simp only [lineStmt, opensElse]
  · exact .if_else (t := tok .if c!"if") (b := openParen) rfl (.inl rfl) hc.expr (by decide) rfl (by have := (ha.2 hs).2; rwa [ho] at this) (by decide) (by decide) rfl (hb.2 hs').1
  · simp [headType, tok]

theorem while_line {c : Expr} {a : Stmt} (hc : Ok l (writeExpr c) c) (hs : isStatement a = true) (ha : OkLine true a) : OkLine l (.while c a) := by
  refine okLine_of ?_ (by simp only [lineStmt]) ?_ <;> simp only [lineStmt, opensElse]
  · exact .while (t := tok .while c!"while") (b := openParen) rfl (.inl rfl) hc.expr (by decide) rfl (ha.2 hs).2
  · simp [headType, tok]

theorem whileIncrement_line {c i : Expr} {a : Stmt} (hc : Ok l (writeExpr c) c) (hi : Ok l (writeExpr i) i) (hs : isStatement a = true)
    (ha : OkLine true a) : OkLine l (.whileIncrement c a i) := by
  refine okLine_of ?_ (by simp only [lineStmt]) ?_ <;> simp only [lineStmt, opensElse]
  · have := Plain.for (t := tok .for c!"for") (b := openParen) (semi := tok .semicolon c!";") (c := closeParen) rfl (.inl rfl)
      (.for_none (semi := tok .semicolon c!";") rfl) (.condition hc.expr (by decide)) (by simp) rfl (.increment hi.expr (by decide)) rfl (ha.2 hs).2
    simpa [forLoop] using this
  · simp [headType, tok]

theorem methods_block {n : Str} {loc : SourceLoc} {ps : List Parameter} {body : List Stmt} {k : FunctionType} {fs : List NamedFun}
    {w' : List Token} (h : Plain false l .closed false .methods w (.nameds fs)) (hlen : ps.length ≤ 255)
    (hk : k = .classMethod ∨ k = if n = c!"init" then .initializer else .method)
    (hb : Plain false l .closed false .block w' (.stmts body)) :
    Plain false l .closed false .methods (w ++ ((if k = .classMethod then [tok .class c!"class"] else []) ++
      name n loc :: openParen :: writeParams ps ++ closeParen :: w'))
      (.nameds (fs ++ [.mk n (.mk ps body k loc)])) := by
  have hn := named_block (n := n) (loc := loc) hlen hb
  rcases hk with rfl | rfl
  · have := Plain.class_method (t := tok .class c!"class") h rfl hn
    simpa [methodKind] using this
  · have := Plain.method h hn
    have hne : ¬ (if n = c!"init" then FunctionType.initializer else .method) = .classMethod := by split <;> decide
    rw [if_neg hne]
    simpa [methodKind] using this

theorem before_lineMethods {fs : List NamedFun} (h : Plain false l .closed false .methods w (.nameds fs)) : ∀ ms : List NamedFun,
    WritableMethods l ms → (∀ m ∈ ms, Plain false l .closed false .declarations (lineStmts (bodyOf m)) (.stmts (bodyOf m))) →
    Plain false l .closed false .methods (w ++ lineMethods ms) (.nameds (fs ++ ms)) := by
  intro ms
  induction ms generalizing fs w with
  | nil => intro _ _; simpa [lineMethods] using h
  | cons m ms ih =>
    obtain ⟨n, ⟨ps, body, k, loc⟩⟩ := m
    intro hw hb
    obtain ⟨h1, h2, -, h4⟩ := hw
    have := ih (methods_block (loc := loc) (body := body) h h1 h2 (lineBlock_ok (hb _ List.mem_cons_self))) h4
      fun m hm => hb m (List.mem_cons_of_mem _ hm)
    simpa [lineMethods, bodyOf] using this

mutual
theorem line_methods : ∀ {l : Bool} (ms : List NamedFun), WritableMethods l ms →
    ∀ m ∈ ms, Plain false l .closed false .declarations (lineStmts (bodyOf m)) (.stmts (bodyOf m))
  | _, [], _ => fun _ hy => nomatch hy
  | _, .mk x (.mk ps body k loc) :: ms, h => fun y hy => by
    rcases List.mem_cons.1 hy with h' | h'
    · rw [h']; exact lines_ok (line_stmts body h.2.2.1)
    · exact line_methods ms h.2.2.2 y h'

theorem line_stmt : ∀ {l : Bool} (s : Stmt), WritableStmt l s → OkLine l s
  | l, .block body, h => okLine_block (lines_ok (line_stmts body h))
  | l, .break loc, h => okLine_same (write_stmt (.break loc) h) (fun _ => by simp only [lineStmt])
  | l, .continue loc, h => okLine_same (write_stmt (.continue loc) h) (fun _ => by simp only [lineStmt])
  | l, .class n none ms loc, h => class_line (by simp) (before_lineMethods .methods_nil ms h (line_methods ms h))
  | l, .class n (some e) ms loc, h =>
    class_line (fun e' he => by cases he; exact h.1) (before_lineMethods .methods_nil ms h.2 (line_methods ms h.2))
  | l, .expression e, h => okLine_same (write_stmt (.expression e) h) (fun _ => by simp only [lineStmt])
  | l, .fun (.mk n (.mk ps body k loc)), h => by
    obtain ⟨h1, rfl, h2⟩ := h
    exact fun_line h1 (lines_ok (line_stmts body h2))
  | l, .if c a none, h => if_line (write_expr c h.1) h.2.1 (line_stmt a h.2.2)
  | l, .if c a (some b), h =>
    if_else_line (write_expr c h.1) h.2.1 h.2.2.1 (line_stmt a h.2.2.2.1) h.2.2.2.2.1 (line_stmt b h.2.2.2.2.2)
  | l, .print e, h => okLine_same (write_stmt (.print e) h) (fun _ => by simp only [lineStmt])
  | l, .return e loc, h => okLine_same (write_stmt (.return e loc) h) (fun _ => by simp only [lineStmt])
  | l, .var n s e loc, h => okLine_same (write_stmt (.var n s e loc) h) (fun _ => by simp only [lineStmt])
  | l, .while c b, h => while_line (write_expr c h.1) h.2.1 (line_stmt b h.2.2)
  | l, .whileIncrement c b i, h => whileIncrement_line (write_expr c h.1) (write_expr i h.2.1) h.2.2.1 (line_stmt b h.2.2.2)

theorem line_stmts : ∀ {l : Bool} (ss : List Stmt), WritableStmts l ss → ∀ s ∈ ss, OkLine l s
  | _, [], _ => fun _ hy => nomatch hy
  | _, t :: ts, h => fun s hs => by
    rcases List.mem_cons.1 hs with h' | h'
    · rw [h']; exact line_stmt t h.1
    · exact line_stmts ts h.2 s h'
end

end Ws.Writing
