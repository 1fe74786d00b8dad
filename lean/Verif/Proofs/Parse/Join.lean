import Verif.Proofs.Parse.Does
import Verif.Proofs.Parse.CompleteTop
import Verif.Proofs.Parse.ExactTop
import Verif.Proofs.Parse.Relabel
import Verif.Proofs.Parse.Positions
import Verif.Spec.Join
/-! Declarations after declarations. -/
namespace Ws
open Spec

variable {repl l e e' : Bool} {o o' : Ends} {sym : Sym} {w w' : List Token} {v : Tree}

/-! ### How expressions end -/

/-- The last token is not a newline. -/
def LastProper (w : List Token) : Prop := ∃ u t, w = u ++ [t] ∧ t.tokenType ≠ .terminator

theorem LastProper.append {a b : List Token} (h : LastProper b) : LastProper (a ++ b) := by
  obtain ⟨u, t, rfl, ht⟩ := h
  exact ⟨a ++ u, t, by simp, ht⟩

theorem LastProper.cons {t : Token} {b : List Token} (h : LastProper b) : LastProper (t :: b) := h.append (a := [t])

theorem lastProper_snoc {a : List Token} {t : Token} {k : TokenType} (h : t.tokenType = k) (hk : k ≠ .terminator) :
    LastProper (a ++ [t]) := ⟨a, t, rfl, h ▸ hk⟩

theorem lastProper_one {t : Token} {k : TokenType} (h : t.tokenType = k) (hk : k ≠ .terminator) : LastProper [t] := ⟨[], t, rfl, h ▸ hk⟩

/-- How the phrases of a nonterminal end. -/
def LastOk : Sym → List Token → Prop
  | .expression, w | .target, w | .binary _, w | .unary, w | .call, w | .primary, w | .arguments, w | .entries, w
  | .function _, w | .named, w | .block, w => LastProper w
  | .before, w | .entriesBefore, w => w = [] ∨ LastProper w
  | _, _ => True

theorem lastOk_next {p : Prec} (h : LastOk p.next w) : LastProper w := by cases p <;> exact h

theorem unary_brace {o : Ends} (h : o.unary ≠ .brace) : o ≠ .brace := by rintro rfl; exact h rfl
theorem target_brace {o : Ends} (h : o.target ≠ .brace) : o ≠ .brace := by rintro rfl; exact h rfl
theorem bare_brace {o : Ends} (h : o.bare ≠ .brace) : o ≠ .brace := by rintro rfl; exact h rfl
theorem bareMap_brace {o : Ends} (h : o.bareMap ≠ .brace) : o ≠ .brace := by rintro rfl; exact h rfl

/-- An expression does not end with a newline, unless a `}` has to follow. -/
theorem plain_last (h : Plain repl l o e sym w v) : o ≠ .brace → LastOk sym w := by
  induction h with
  | target_plain _ ih => exact fun ho => ih (target_brace ho)
  | target_indented _ _ _ _ hd => exact fun _ => lastProper_snoc hd (by decide)
  | expression _ ih => exact ih
  | assignment _ _ _ _ _ _ ih => exact fun ho => (LastProper.cons (ih ho)).append
  | operand _ ih => exact fun ho => lastOk_next (ih ho)
  | operator _ _ _ _ _ ih => exact fun ho => (LastProper.cons (lastOk_next (ih ho))).append
  | call _ ih => exact fun ho => ih (unary_brace ho)
  | «prefix» _ _ ih => exact fun ho => LastProper.cons (ih ho)
  | primary _ ih => exact ih
  | @property _ _ w _ d i _ _ _ hi => exact fun _ => (LastProper.cons (lastProper_one hi (by decide))).append
  | @call_empty _ _ w _ b c _ _ _ hc => exact fun _ => (LastProper.cons (lastProper_one hc (by decide))).append
  | call_args _ _ _ _ _ hc => exact fun _ => lastProper_snoc hc (by decide)
  | call_bare _ _ _ _ _ _ ih => exact fun ho => LastProper.append (ih (bare_brace ho))
  | index _ _ _ _ _ hc => exact fun _ => lastProper_snoc hc (by decide)
  | before_nil => exact fun _ => .inl rfl
  | before _ _ _ hc => exact fun _ => .inr (lastProper_snoc hc (by decide))
  | arguments _ _ _ _ ih => exact fun ho => LastProper.append (ih ho)
  | entries_nil => exact fun _ => .inl rfl
  | entries_comma _ _ _ _ _ _ hs => exact fun _ => .inr (lastProper_snoc hs (by decide))
  | entries_line => exact fun ho => absurd rfl ho
  | entries _ _ _ _ _ _ ih => exact fun ho => (LastProper.cons (LastProper.cons (ih ho))).append
  | «false» h | «true» h | nil h | number h | string h => exact fun _ => lastProper_one h (by decide)
  | «variable» h =>
    intro _
    rcases h with h | h <;> exact lastProper_one h (by decide)
  | map_bare _ ih => exact fun ho => ih (bareMap_brace ho)
  | map_open h h1 ih =>
    intro ho
    rcases ih ho with rfl | ih
    · exact absurd (entriesBefore_nil h) h1
    · exact ih
  | map_braces _ _ hc => exact fun _ => lastProper_snoc hc (by decide)
  | map_trailing _ _ hc => exact fun _ => lastProper_snoc hc (by decide)
  | function_literal _ _ ih => exact fun ho => LastProper.cons (ih ho)
  | grouping _ _ _ hc => exact fun _ => lastProper_snoc hc (by decide)
  | array _ _ _ _ hc => exact fun _ => lastProper_snoc hc (by decide)
  | array_trailing _ _ hc => exact fun _ => lastProper_snoc hc (by decide)
  | super _ _ hi => exact fun _ => LastProper.cons (LastProper.cons (lastProper_one hi (by decide)))
  | function_empty _ _ _ ih => exact fun ho => LastProper.cons (LastProper.cons (ih ho))
  | function _ _ _ _ _ _ _ ih => exact fun ho => LastProper.append (LastProper.cons (LastProper.cons (ih ho)))
  | block_braces _ _ _ _ hc => exact fun _ => lastProper_snoc hc (by decide)
  | block_indented _ _ _ _ _ hc => exact fun _ => lastProper_snoc hc (by decide)
  | named _ _ ih => exact fun ho => LastProper.cons (ih ho)
  | _ => exact fun _ => trivial

/-! ### The end of a program -/

/-- A declaration. -/
def isVar : Stmt → Bool
  | .var .. => true
  | _ => false

theorem opened_brace {o : Ends} (h : o.opened = .call) : o ≠ .brace := by rintro rfl; cases h
theorem line_call (o : Ends) : o.line ≠ .call := by cases o <;> simp [Ends.line]

/-- A declaration after which an expression would belong to it is a variable without a newline. -/
theorem declaration_call (h : Plain repl l .call e .declaration w v) : LastProper w ∧ ∃ s, v = .stmt s ∧ isVar s = true := by
  generalize ho : Ends.call = o at h
  cases h with
  | declaration h =>
    have := plain_ends h
    rw [← ho] at this
    exact absurd this (by decide)
  | var_init => exact absurd ho.symm (line_call _)
  | var_open _ _ _ _ h => exact ⟨(LastProper.cons (LastProper.cons (LastProper.cons
      (LastProper.append (plain_last h (opened_brace ho.symm)))))), _, rfl, rfl⟩
  | _ => cases ho

theorem declarations_call (h : Plain repl l .call e .declarations w v) :
    LastProper w ∧ ∃ ss s, v = .stmts (ss ++ [s]) ∧ isVar s = true := by
  generalize ho : Ends.call = o at h
  cases h with
  | declarations_nil => cases ho
  | declarations _ h =>
    rw [← ho] at h
    obtain ⟨h1, s, e, hs⟩ := declaration_call h
    cases e
    exact ⟨h1.append, _, _, rfl, hs⟩

theorem bare_finished (o : Ends) : o.bare ≠ .unfinished := by cases o <;> simp [Ends.bare]
theorem bareMap_finished (o : Ends) : o.bareMap ≠ .unfinished := by cases o <;> simp [Ends.bareMap]
theorem line_finished (o : Ends) : o.line ≠ .unfinished := by cases o <;> simp [Ends.line]
theorem opened_finished (o : Ends) : o.opened ≠ .unfinished := by cases o <;> simp [Ends.opened]

/-- In a file every program is finished. -/
theorem unfinished_repl (h : Plain repl l o e sym w v) : o = .unfinished → repl = true := by
  induction h with
  | expression_last _ _ _ h => exact fun _ => h
  | target_plain _ ih => intro ho; apply ih; revert ho; rename_i o _ _ _; cases o <;> simp [Ends.target]
  | call _ ih => intro ho; apply ih; revert ho; rename_i o _ _ _; cases o <;> simp [Ends.unary]
  | call_bare => exact fun ho => absurd ho (bare_finished _)
  | map_bare => exact fun ho => absurd ho (bareMap_finished _)
  | var_init => exact fun ho => absurd ho (line_finished _)
  | var_open => exact fun ho => absurd ho (opened_finished _)
  | expression_statement => exact fun ho => absurd ho (line_finished _)
  | print => exact fun ho => absurd ho (line_finished _)
  | «return» => exact fun ho => absurd ho (line_finished _)
  | for_expression => exact fun ho => absurd ho (line_finished _)
  | _ => first | (intro ho; cases ho; done) | assumption

/-- What is derived in a file is derived in the REPL. -/
theorem plain_repl (h : Plain Bool.false l o e sym w v) : Plain repl l o e sym w v := by
  induction h with
  | target_plain _ i0 => exact .target_plain i0
  | target_indented h0 _ h2 h3 h4 i1 => exact .target_indented h0 i1 h2 h3 h4
  | expression _ i0 => exact .expression i0
  | assignment _ h1 h2 _ h4 i0 i3 => exact .assignment i0 h1 h2 i3 h4
  | operand _ i0 => exact .operand i0
  | operator _ h1 h2 _ i0 i3 => exact .operator i0 h1 h2 i3
  | call _ i0 => exact .call i0
  | «prefix» h0 _ i1 => exact .«prefix» h0 i1
  | primary _ i0 => exact .primary i0
  | property _ h1 h2 h3 i0 => exact .property i0 h1 h2 h3
  | call_empty _ h1 h2 h3 i0 => exact .call_empty i0 h1 h2 h3
  | call_args _ h1 h2 _ h4 h5 i0 i3 => exact .call_args i0 h1 h2 i3 h4 h5
  | call_bare _ h1 h2 h3 _ i0 i4 => exact .call_bare i0 h1 h2 h3 i4
  | index _ h1 h2 _ h4 h5 i0 i3 => exact .index i0 h1 h2 i3 h4 h5
  | before_nil => exact .before_nil
  | before _ _ h2 h3 i0 i1 => exact .before i0 i1 h2 h3
  | arguments _ h1 _ i0 i2 => exact .arguments i0 h1 i2
  | entries_nil => exact .entries_nil
  | entries_comma _ h1 h2 _ h4 h5 h6 i0 i3 => exact .entries_comma i0 h1 h2 i3 h4 h5 h6
  | entries_line _ h1 h2 _ h4 h5 h6 h7 i0 i3 => exact .entries_line i0 h1 h2 i3 h4 h5 h6 h7
  | entries _ h1 h2 _ h4 i0 i3 => exact .entries i0 h1 h2 i3 h4
  | «false» h0 => exact .«false» h0
  | «true» h0 => exact .«true» h0
  | nil h0 => exact .nil h0
  | number h0 h1 => exact .number h0 h1
  | string h0 h1 => exact .string h0 h1
  | «variable» h0 => exact .«variable» h0
  | map_bare _ i0 => exact .map_bare i0
  | map_open _ h1 i0 => exact .map_open i0 h1
  | map_braces h0 _ h2 i1 => exact .map_braces h0 i1 h2
  | map_trailing h0 _ h2 i1 => exact .map_trailing h0 i1 h2
  | function_literal h0 _ i1 => exact .function_literal h0 i1
  | grouping h0 _ h2 h3 i1 => exact .grouping h0 i1 h2 h3
  | array h0 _ _ h3 h4 i1 i2 => exact .array h0 i1 i2 h3 h4
  | array_trailing h0 _ h2 i1 => exact .array_trailing h0 i1 h2
  | «super» h0 h1 h2 => exact .«super» h0 h1 h2
  | parameters_nil => exact .parameters_nil
  | parameters _ h1 h2 h3 i0 => exact .parameters i0 h1 h2 h3
  | function_empty h0 h1 _ i2 => exact .function_empty h0 h1 i2
  | «function» h0 _ h2 h3 h4 _ i1 i5 => exact .function h0 i1 h2 h3 h4 i5
  | block_braces h0 _ h2 h3 h4 i1 => exact .block_braces h0 i1 h2 h3 h4
  | block_indented h0 h1 _ h3 h4 h5 i2 => exact .block_indented h0 h1 i2 h3 h4 h5
  | named h0 _ i1 => exact .named h0 i1
  | methods_nil => exact .methods_nil
  | method _ _ i0 i1 => exact .method i0 i1
  | class_method _ h1 _ i0 i2 => exact .class_method i0 h1 i2
  | declarations_nil => exact .declarations_nil
  | declarations _ _ h2 i0 i1 => exact .declarations i0 i1 h2
  | declaration _ i0 => exact .declaration i0
  | fun_decl h0 _ i1 => exact .fun_decl h0 i1
  | class_braces h0 h1 h2 _ h4 i3 => exact .class_braces h0 h1 h2 i3 h4
  | class_indented h0 h1 h2 h3 _ h5 i4 => exact .class_indented h0 h1 h2 h3 i4 h5
  | subclass_braces h0 h1 h2 h3 h4 _ h6 i5 => exact .subclass_braces h0 h1 h2 h3 h4 i5 h6
  | subclass_indented h0 h1 h2 h3 h4 h5 _ h7 i6 => exact .subclass_indented h0 h1 h2 h3 h4 h5 i6 h7
  | var h0 h1 h2 => exact .var h0 h1 h2
  | var_init h0 h1 h2 h3 _ h5 h6 i4 => exact .var_init h0 h1 h2 h3 i4 h5 h6
  | var_open h0 h1 h2 h3 _ h5 i4 => exact .var_open h0 h1 h2 h3 i4 h5
  | expression_statement _ h1 h2 h3 i0 => exact .expression_statement i0 h1 h2 h3
  | expression_last _ _ _ h3 => cases h3
  | «break» h0 h1 => exact .«break» h0 h1
  | «continue» h0 h1 => exact .«continue» h0 h1
  | print h0 _ h2 h3 i1 => exact .print h0 i1 h2 h3
  | return_nil h0 h1 => exact .return_nil h0 h1
  | «return» h0 _ h2 h3 i1 => exact .«return» h0 i1 h2 h3
  | braces h0 _ h2 h3 h4 i1 => exact .braces h0 i1 h2 h3 h4
  | «if» h0 h1 _ h3 h4 _ i2 i5 => exact .«if» h0 h1 i2 h3 h4 i5
  | if_else h0 h1 _ h3 h4 _ h6 h7 h8 _ i2 i5 i9 => exact .if_else h0 h1 i2 h3 h4 i5 h6 h7 h8 i9
  | «while» h0 h1 _ h3 h4 _ i2 i5 => exact .«while» h0 h1 i2 h3 h4 i5
  | «for» h0 h1 _ _ h4 h5 _ h7 _ i2 i3 i6 i8 => exact .«for» h0 h1 i2 i3 h4 h5 i6 h7 i8
  | for_none h0 => exact .for_none h0
  | for_var h0 h1 h2 => exact .for_var h0 h1 h2
  | for_var_init h0 h1 h2 h3 _ h5 h6 i4 => exact .for_var_init h0 h1 h2 h3 i4 h5 h6
  | for_expression _ h1 h2 i0 => exact .for_expression i0 h1 h2
  | condition_none => exact .condition_none
  | condition _ h1 i0 => exact .condition i0 h1
  | increment_none => exact .increment_none
  | increment _ h1 i0 => exact .increment i0 h1
  | body_block _ i0 => exact .body_block i0
  | body _ h1 i0 => exact .body i0 h1

/-! ### One after the other -/

theorem precedes_append {o : Ends} {u : List Token} (h : o.Precedes (w ++ u)) : o.Precedes w := by
  refine ⟨h.1, h.2.1, fun ho hk => h.2.2.1 ho ?_, fun ho t r hw => h.2.2.2 ho t (r ++ u) (by simp [hw])⟩
  obtain ⟨t, c, r, rfl, h1, h2⟩ := hk
  exact ⟨t, c, r ++ u, by simp, h1, h2⟩

/-- Declarations after declarations. -/
theorem plain_append {ss ss' : List Stmt} (h : Plain repl l o e .declarations w (.stmts ss)) (hp : o.Precedes w')
    (h' : Plain repl l o' e' .declarations w' (.stmts ss')) :
    (w' = [] ∧ ss' = []) ∨ Plain repl l o' false .declarations (w ++ w') (.stmts (ss ++ ss')) := by
  have he : e = false := by
    generalize hs : Sym.declarations = s at h
    cases h <;> first | rfl | cases hs
  subst he
  generalize hs : Sym.declarations = s at h'
  generalize hv : Tree.stmts ss' = x at h'
  induction h' generalizing ss' with
  | declarations_nil => cases hv; exact .inl ⟨rfl, rfl⟩
  | declarations h1 h2 h3 ih =>
    cases hv
    right
    rcases ih (precedes_append hp) h rfl rfl with ⟨rfl, rfl⟩ | ih
    · exact .declarations h h2 hp
    · rw [← List.append_assoc, ← List.append_assoc]
      exact .declarations ih h2 h3
  | _ => cases hs

/-! ### The same tokens -/

/-- Nothing is changed. -/
def noRelabelling : Relabelling := ⟨id, id, id, id⟩

mutual
theorem unlabelled_expr : ∀ x, relabelExpr noRelabelling x = x
  | .assign x cell r loc => by rw [relabelExpr, unlabelled_expr r]; rfl
  | .call f args loc => by simp [relabelExpr, unlabelled_expr f, unlabelled_exprs args]
  | .binary a op b loc => by simp [relabelExpr, unlabelled_expr a, unlabelled_expr b]
  | .function d => by simp [relabelExpr, unlabelled_fun d]
  | .get o x loc => by rw [relabelExpr, unlabelled_expr o]; rfl
  | .getIndex a i loc => by simp [relabelExpr, unlabelled_expr a, unlabelled_expr i]
  | .grouping e => by simp [relabelExpr, unlabelled_expr e]
  | .literalArray es => by simp [relabelExpr, unlabelled_exprs es]
  | .literalMap ms => by simp [relabelExpr, unlabelled_entries ms]
  | .logical a op b => by simp [relabelExpr, unlabelled_expr a, unlabelled_expr b]
  | .set o x v loc => by rw [relabelExpr, unlabelled_expr o, unlabelled_expr v]; rfl
  | .setIndex a i v loc => by simp [relabelExpr, unlabelled_expr a, unlabelled_expr i, unlabelled_expr v]
  | .super cell x loc => by simp [relabelExpr, noRelabelling]
  | .variable x cell loc => by simp [relabelExpr, noRelabelling]
  | .unary op e loc => by simp [relabelExpr, unlabelled_expr e]
  | .literalBool b => rfl
  | .literalNumber x => rfl
  | .literalNil => rfl
  | .literalString s => rfl

theorem unlabelled_exprs : ∀ xs, relabelExprs noRelabelling xs = xs
  | [] => rfl
  | x :: xs => by rw [relabelExprs, unlabelled_expr x, unlabelled_exprs xs]

theorem unlabelled_entries : ∀ ms, relabelEntries noRelabelling ms = ms
  | [] => rfl
  | .mk k x :: ms => by rw [relabelEntries, unlabelled_expr x, unlabelled_entries ms]; rfl

theorem unlabelled_fun : ∀ d, relabelFun noRelabelling d = d
  | .mk ps body k loc => by
    rw [relabelFun, unlabelled_stmts body]
    congr 1
    exact List.map_id ps

theorem unlabelled_methods : ∀ ms, relabelMethods noRelabelling ms = ms
  | [] => rfl
  | .mk x d :: ms => by rw [relabelMethods, unlabelled_fun d, unlabelled_methods ms]; rfl

theorem unlabelled_stmt : ∀ s, relabelStmt noRelabelling s = s
  | .block body => by rw [relabelStmt, unlabelled_stmts body]
  | .break loc => rfl
  | .continue loc => rfl
  | .class x none ms loc => by rw [relabelStmt, unlabelled_methods ms]; rfl
  | .class x (some e) ms loc => by rw [relabelStmt, unlabelled_methods ms, unlabelled_expr e]; rfl
  | .expression e => by rw [relabelStmt, unlabelled_expr e]
  | .fun (.mk x d) => by rw [relabelStmt, unlabelled_fun d]; rfl
  | .if c a none => by rw [relabelStmt, unlabelled_expr c, unlabelled_stmt a]
  | .if c a (some b) => by rw [relabelStmt, unlabelled_expr c, unlabelled_stmt a, unlabelled_stmt b]
  | .print e => by rw [relabelStmt, unlabelled_expr e]
  | .return e loc => by rw [relabelStmt, unlabelled_expr e]
  | .var x slot e loc => by rw [relabelStmt, unlabelled_expr e]; rfl
  | .while c b => by rw [relabelStmt, unlabelled_expr c, unlabelled_stmt b]
  | .whileIncrement c b i => by rw [relabelStmt, unlabelled_expr c, unlabelled_stmt b, unlabelled_expr i]

theorem unlabelled_stmts : ∀ ss, relabelStmts noRelabelling ss = ss
  | [] => rfl
  | s :: ss => by rw [relabelStmts, unlabelled_stmt s, unlabelled_stmts ss]
end

theorem each_nowhere : ∀ {ts ts' : List Token}, Each SameToken ts ts' →
    Each (RelabelledToken noRelabelling) (ts.map (moveToken nowhere)) (ts'.map (moveToken nowhere))
  | _, _, .nil => .nil
  | _, _, .cons h hs => .cons ⟨h.tokenType, rfl, rfl, fun ht => h.lexeme fun hd => (nomatch (Eq.trans (Eq.symm ht) hd : _ = _)),
      fun ht => h.lexeme fun hd => (nomatch (Eq.trans (Eq.symm ht) hd : _ = _)), fun _ => by simp [moveToken, h.string, noRelabelling],
      fun _ => by simp [moveToken, h.number, noRelabelling]⟩ (each_nowhere hs)

/-- The same tokens are the same program, or are both rejected. -/
theorem parse_sameTokens {env : Env} {ts ts' : List Token} {sts : List Stmt} (h : Each SameToken ts ts')
    (hp : parseTokens env ts' repl = .done (.ok sts)) :
    ∃ sts', parseTokens env ts repl = .done (.ok sts') ∧ SameProgram sts' sts := by
  have h1 := parseTokens_relabelled (env := env) ⟨noRelabelling, ts.map (moveToken nowhere), ts'.map (moveToken nowhere),
    ⟨fun _ _ h => h, fun _ _ h => h, rfl, rfl, rfl⟩, each_nowhere h, fun _ _ _ _ _ _ => ⟨fun _ => rfl, fun _ _ _ => rfl⟩⟩ repl
  simp only [parseTokens_moved (g := nowhere) rfl] at h1
  rw [hp] at h1
  generalize parseTokens env ts repl = r at h1 ⊢
  cases r with
  | panic m => cases h1
  | diverge => cases h1
  | done r =>
    cases r with
    | error es => cases h1
    | ok sts' =>
      refine ⟨sts', rfl, ?_⟩
      simp only [mapOutcome, moveResult] at h1
      generalize hb : moveStmts nowhere sts = b at h1
      generalize ha : moveStmts nowhere sts' = a at h1
      cases h1 with
      | ok => rw [SameProgram, ha, hb, unlabelled_stmts]

end Ws
