import Verif.Proofs.Parse.Join
import Verif.Proofs.Parse.Continue
import Verif.Spec.LastNewline
/-! Nothing but the newline at the end distinguishes the REPL from a file. -/
namespace Ws
open Spec

variable {repl l e e' : Bool} {o o' : Ends} {sym : Sym} {w w' : List Token} {v : Tree}

/-- Phrases of most nonterminals are never unfinished. -/
theorem finished (h : Plain repl l o e sym w v) (hs : Ends.unfinished ∉ sym.ends) : o ≠ .unfinished := by
  rintro rfl; exact hs (plain_ends h)

theorem not_next {p : Prec} : Ends.unfinished ∉ p.next.ends := by cases p <;> decide
theorem not_binary {p : Prec} : Ends.unfinished ∉ (Sym.binary p).ends := by cases p <;> decide
theorem not_function {loc : SourceLoc} : Ends.unfinished ∉ (Sym.function loc).ends := by simp [Sym.ends]

/-- What is derived in the REPL, and finished, is derived in a file. -/
theorem plain_file (h : Plain repl l o e sym w v) : o ≠ .unfinished → Plain Bool.false l o e sym w v := by
  induction h with
  | target_plain h0 i0 => exact fun _ => .target_plain (i0 (finished h0 not_binary))
  | target_indented h0 h1 h2 h3 h4 i1 => exact fun _ => .target_indented h0 (i1 (finished h1 not_binary)) h2 h3 h4
  | expression h0 i0 => exact fun _ => .expression (i0 (finished h0 (by decide)))
  | assignment h0 h1 h2 h3 h4 i0 i3 => exact fun _ => .assignment (i0 (finished h0 (by decide))) h1 h2 (i3 (finished h3 (by decide))) h4
  | operand h0 i0 => exact fun _ => .operand (i0 (finished h0 not_next))
  | operator h0 h1 h2 h3 i0 i3 => exact fun _ => .operator (i0 (finished h0 not_binary)) h1 h2 (i3 (finished h3 not_next))
  | call h0 i0 => exact fun _ => .call (i0 (finished h0 (by decide)))
  | «prefix» h0 h1 i1 => exact fun _ => .«prefix» h0 (i1 (finished h1 (by decide)))
  | primary h0 i0 => exact fun _ => .primary (i0 (finished h0 (by decide)))
  | property h0 h1 h2 h3 i0 => exact fun _ => .property (i0 (finished h0 (by decide))) h1 h2 h3
  | call_empty h0 h1 h2 h3 i0 => exact fun _ => .call_empty (i0 (finished h0 (by decide))) h1 h2 h3
  | call_args h0 h1 h2 h3 h4 h5 i0 i3 => exact fun _ => .call_args (i0 (finished h0 (by decide))) h1 h2 (i3 (finished h3 (by decide))) h4 h5
  | call_bare h0 h1 h2 h3 h4 i0 i4 => exact fun _ => .call_bare (i0 (finished h0 (by decide))) h1 h2 h3 (i4 (finished h4 (by decide)))
  | index h0 h1 h2 h3 h4 h5 i0 i3 => exact fun _ => .index (i0 (finished h0 (by decide))) h1 h2 (i3 (finished h3 (by decide))) h4 h5
  | before_nil => exact fun _ => .before_nil
  | before h0 h1 h2 h3 i0 i1 => exact fun _ => .before (i0 (finished h0 (by decide))) (i1 (finished h1 (by decide))) h2 h3
  | arguments h0 h1 h2 i0 i2 => exact fun _ => .arguments (i0 (finished h0 (by decide))) h1 (i2 (finished h2 (by decide)))
  | entries_nil => exact fun _ => .entries_nil
  | entries_comma h0 h1 h2 h3 h4 h5 h6 i0 i3 => exact fun _ => .entries_comma (i0 (finished h0 (by decide))) h1 h2 (i3 (finished h3 (by decide))) h4 h5 h6
  | entries_line h0 h1 h2 h3 h4 h5 h6 h7 i0 i3 => exact fun _ => .entries_line (i0 (finished h0 (by decide))) h1 h2 (i3 (finished h3 (by decide))) h4 h5 h6 h7
  | entries h0 h1 h2 h3 h4 i0 i3 => exact fun _ => .entries (i0 (finished h0 (by decide))) h1 h2 (i3 (finished h3 (by decide))) h4
  | «false» h0 => exact fun _ => .«false» h0
  | «true» h0 => exact fun _ => .«true» h0
  | nil h0 => exact fun _ => .nil h0
  | number h0 h1 => exact fun _ => .number h0 h1
  | string h0 h1 => exact fun _ => .string h0 h1
  | «variable» h0 => exact fun _ => .«variable» h0
  | map_bare h0 i0 => exact fun _ => .map_bare (i0 (finished h0 (by decide)))
  | map_open h0 h1 i0 => exact fun _ => .map_open (i0 (finished h0 (by decide))) h1
  | map_braces h0 h1 h2 i1 => exact fun _ => .map_braces h0 (i1 (finished h1 (by decide))) h2
  | map_trailing h0 h1 h2 i1 => exact fun _ => .map_trailing h0 (i1 (finished h1 (by decide))) h2
  | function_literal h0 h1 i1 => exact fun _ => .function_literal h0 (i1 (finished h1 not_function))
  | grouping h0 h1 h2 h3 i1 => exact fun _ => .grouping h0 (i1 (finished h1 (by decide))) h2 h3
  | array h0 h1 h2 h3 h4 i1 i2 => exact fun _ => .array h0 (i1 (finished h1 (by decide))) (i2 (finished h2 (by decide))) h3 h4
  | array_trailing h0 h1 h2 i1 => exact fun _ => .array_trailing h0 (i1 (finished h1 (by decide))) h2
  | «super» h0 h1 h2 => exact fun _ => .«super» h0 h1 h2
  | parameters_nil => exact fun _ => .parameters_nil
  | parameters h0 h1 h2 h3 i0 => exact fun _ => .parameters (i0 (finished h0 (by decide))) h1 h2 h3
  | function_empty h0 h1 h2 i2 => exact fun _ => .function_empty h0 h1 (i2 (finished h2 (by decide)))
  | «function» h0 h1 h2 h3 h4 h5 i1 i5 => exact fun _ => .function h0 (i1 (finished h1 (by decide))) h2 h3 h4 (i5 (finished h5 (by decide)))
  | block_braces h0 h1 h2 h3 h4 i1 => exact fun _ => .block_braces h0 (i1 h3) h2 h3 h4
  | block_indented h0 h1 h2 h3 h4 h5 i2 => exact fun _ => .block_indented h0 h1 (i2 h4) h3 h4 h5
  | named h0 h1 i1 => exact fun _ => .named h0 (i1 (finished h1 not_function))
  | methods_nil => exact fun _ => .methods_nil
  | method h0 h1 i0 i1 => exact fun _ => .method (i0 (finished h0 (by decide))) (i1 (finished h1 (by decide)))
  | class_method h0 h1 h2 i0 i2 => exact fun _ => .class_method (i0 (finished h0 (by decide))) h1 (i2 (finished h2 (by decide)))
  | declarations_nil => exact fun _ => .declarations_nil
  | declarations h0 h1 h2 i0 i1 => exact fun ho => .declarations (i0 h2.2.1) (i1 ho) h2
  | declaration h0 i0 => exact fun ho => .declaration (i0 ho)
  | fun_decl h0 h1 i1 => exact fun _ => .fun_decl h0 (i1 (finished h1 (by decide)))
  | class_braces h0 h1 h2 h3 h4 i3 => exact fun _ => .class_braces h0 h1 h2 (i3 (finished h3 (by decide))) h4
  | class_indented h0 h1 h2 h3 h4 h5 i4 => exact fun _ => .class_indented h0 h1 h2 h3 (i4 (finished h4 (by decide))) h5
  | subclass_braces h0 h1 h2 h3 h4 h5 h6 i5 => exact fun _ => .subclass_braces h0 h1 h2 h3 h4 (i5 (finished h5 (by decide))) h6
  | subclass_indented h0 h1 h2 h3 h4 h5 h6 h7 i6 => exact fun _ => .subclass_indented h0 h1 h2 h3 h4 h5 (i6 (finished h6 (by decide))) h7
  | var h0 h1 h2 => exact fun _ => .var h0 h1 h2
  | var_init h0 h1 h2 h3 h4 h5 h6 i4 => exact fun _ => .var_init h0 h1 h2 h3 (i4 (finished h4 (by decide))) h5 h6
  | var_open h0 h1 h2 h3 h4 h5 i4 => exact fun _ => .var_open h0 h1 h2 h3 (i4 (finished h4 (by decide))) h5
  | expression_statement h0 h1 h2 h3 i0 => exact fun _ => .expression_statement (i0 (finished h0 (by decide))) h1 h2 h3
  | expression_last => exact fun ho => absurd rfl ho
  | «break» h0 h1 => exact fun _ => .«break» h0 h1
  | «continue» h0 h1 => exact fun _ => .«continue» h0 h1
  | print h0 h1 h2 h3 i1 => exact fun _ => .print h0 (i1 (finished h1 (by decide))) h2 h3
  | return_nil h0 h1 => exact fun _ => .return_nil h0 h1
  | «return» h0 h1 h2 h3 i1 => exact fun _ => .«return» h0 (i1 (finished h1 (by decide))) h2 h3
  | braces h0 h1 h2 h3 h4 i1 => exact fun _ => .braces h0 (i1 h3) h2 h3 h4
  | «if» h0 h1 h2 h3 h4 h5 i2 i5 => exact fun ho => .«if» h0 h1 (i2 (finished h2 (by decide))) h3 h4 (i5 ho)
  | if_else h0 h1 h2 h3 h4 h5 h6 h7 h8 h9 i2 i5 i9 => exact fun ho => .if_else h0 h1 (i2 (finished h2 (by decide))) h3 h4 (i5 h7) h6 h7 h8 (i9 ho)
  | «while» h0 h1 h2 h3 h4 h5 i2 i5 => exact fun ho => .«while» h0 h1 (i2 (finished h2 (by decide))) h3 h4 (i5 ho)
  | «for» h0 h1 h2 h3 h4 h5 h6 h7 h8 i2 i3 i6 i8 => exact fun ho => .«for» h0 h1 (i2 (finished h2 (by decide))) (i3 (finished h3 (by decide))) h4 h5 (i6 (finished h6 (by decide))) h7 (i8 ho)
  | for_none h0 => exact fun _ => .for_none h0
  | for_var h0 h1 h2 => exact fun _ => .for_var h0 h1 h2
  | for_var_init h0 h1 h2 h3 h4 h5 h6 i4 => exact fun _ => .for_var_init h0 h1 h2 h3 (i4 (finished h4 (by decide))) h5 h6
  | for_expression h0 h1 h2 i0 => exact fun _ => .for_expression (i0 (finished h0 (by decide))) h1 h2
  | condition_none => exact fun _ => .condition_none
  | condition h0 h1 i0 => exact fun _ => .condition (i0 (finished h0 (by decide))) h1
  | increment_none => exact fun _ => .increment_none
  | increment h0 h1 i0 => exact fun _ => .increment (i0 (finished h0 (by decide))) h1
  | body_block h0 i0 => exact fun _ => .body_block (i0 (finished h0 (by decide)))
  | body h0 h1 i0 => exact fun ho => .body (i0 ho) h1


/-- The tree ends with an expression. -/
def treeEnds : Tree → Bool
  | .stmt s => endsExpr s
  | .stmts ss => endsExprs ss
  | _ => false

theorem endsExprs_snoc {ss : List Stmt} {s : Stmt} : endsExprs (ss ++ [s]) = endsExpr s := by
  induction ss with
  | nil => rfl
  | cons x ss ih =>
    cases ss with
    | nil => simp [endsExprs]
    | cons y ss => simpa [endsExprs] using ih

theorem endsExpr_for {init : Option Stmt} {cond : Expr} {inc : Option Expr} {s : Stmt} : endsExpr (forLoop init cond inc s) = endsExpr s := by
  cases init <;> cases inc <;> simp [forLoop, endsExpr, endsExprs]

theorem declaration_ne {s : Stmt} (h : Plain repl l o e .declaration w (.stmt s)) : w ≠ [] := by
  have := plain_first h
  rintro rfl
  obtain ⟨t, r, h, -⟩ := this; cases h

theorem statement_ne {s : Stmt} (h : Plain repl l o e .statement w (.stmt s)) : w ≠ [] := declaration_ne (.declaration h)

theorem body_ne {s : Stmt} (h : Plain repl l o e .body w (.stmt s)) : w ≠ [] := by
  cases h with
  | body_block h => obtain ⟨u, t, rfl, -⟩ := plain_last h (by decide); simp
  | body => simp

theorem precedes_newline {nl : Token} (hn : nl.tokenType = .terminator) (hw : w ≠ []) (h : o.Precedes w) : o.Precedes (w ++ [nl]) := by
  refine ⟨h.1, h.2.1, fun ho hk => h.2.2.1 ho (keyColon_grow hw ?_ hk), fun ho t r e => ?_⟩
  · rintro t r e; cases e; rw [hn]; decide
  · obtain ⟨x, w, rfl⟩ := List.exists_cons_of_ne_nil hw
    cases e
    exact h.2.2.2 ho _ w rfl

theorem line_brace : o.line ≠ .brace := by cases o <;> simp [Ends.line]

/-- What is unfinished in the REPL is derived in a file with a newline. -/
theorem plain_newline {nl : Token} (hn : nl.tokenType = .terminator) (h : Plain repl l o e sym w v) :
    o = .unfinished → treeEnds v = true ∧ ∃ o', o' ≠ .brace ∧ Plain Bool.false l o' e sym (w ++ [nl]) v := by
  induction h with
  | target_plain h => intro ho; exact absurd ho (finished (.target_plain h) (by decide))
  | call h => intro ho; exact absurd ho (finished (.call h) (by decide))
  | call_bare h1 h2 h3 h4 h5 => intro ho; exact absurd ho (bare_finished _)
  | map_bare => exact fun ho => absurd ho (bareMap_finished _)
  | var_init => exact fun ho => absurd ho (line_finished _)
  | var_open => exact fun ho => absurd ho (opened_finished _)
  | expression_statement => exact fun ho => absurd ho (line_finished _)
  | print => exact fun ho => absurd ho (line_finished _)
  | «return» => exact fun ho => absurd ho (line_finished _)
  | for_expression => exact fun ho => absurd ho (line_finished _)
  | expression h => intro ho; exact absurd ho (finished h (by decide))
  | assignment _ _ _ h => intro ho; exact absurd ho (finished h (by decide))
  | operand h => intro ho; exact absurd ho (finished h not_next)
  | operator _ _ _ h => intro ho; exact absurd ho (finished h not_next)
  | «prefix» _ h => intro ho; exact absurd ho (finished h (by decide))
  | primary h => intro ho; exact absurd ho (finished h (by decide))
  | arguments _ _ h => intro ho; exact absurd ho (finished h (by decide))
  | entries _ _ _ h => intro ho; exact absurd ho (finished h (by decide))
  | map_open h => intro ho; exact absurd ho (finished h (by decide))
  | declarations h1 h2 h3 _ ih =>
    intro ho
    obtain ⟨ht, o', hb, h⟩ := ih ho
    refine ⟨by simpa [treeEnds, endsExprs_snoc] using ht, o', hb, ?_⟩
    rw [List.append_assoc]
    exact .declarations (plain_file h1 h3.2.1) h (precedes_newline hn (declaration_ne h2) h3)
  | declaration h1 ih =>
    intro ho
    obtain ⟨ht, o', hb, h⟩ := ih ho
    exact ⟨ht, o', hb, .declaration h⟩
  | expression_last h1 h2 h3 =>
    intro _
    refine ⟨rfl, _, ?_, .expression_statement (plain_file h1 (finished h1 (by decide))) h2 h3 hn⟩
    exact line_brace
  | «if» h0 h1 h2 h3 h4 h5 _ ih =>
    intro ho
    obtain ⟨ht, o', hb, h⟩ := ih ho
    refine ⟨by simpa [treeEnds, endsExpr] using ht, o', hb, ?_⟩
    have := Plain.«if» h0 h1 (plain_file h2 (finished h2 (by decide))) h3 h4 h
    simpa using this
  | if_else h0 h1 h2 h3 h4 h5 h6 h7 h8 h9 _ _ ih =>
    intro ho
    obtain ⟨ht, o', hb, h⟩ := ih ho
    refine ⟨by simpa [treeEnds, endsExpr] using ht, o', hb, ?_⟩
    have := Plain.if_else h0 h1 (plain_file h2 (finished h2 (by decide))) h3 h4 (plain_file h5 h7) h6 h7 h8 h
    simpa using this
  | «while» h0 h1 h2 h3 h4 h5 _ ih =>
    intro ho
    obtain ⟨ht, o', hb, h⟩ := ih ho
    refine ⟨by simpa [treeEnds, endsExpr] using ht, o', hb, ?_⟩
    have := Plain.«while» h0 h1 (plain_file h2 (finished h2 (by decide))) h3 h4 h
    simpa using this
  | «for» h0 h1 h2 h3 h4 h5 h6 h7 h8 _ _ _ ih =>
    intro ho
    obtain ⟨ht, o', hb, h⟩ := ih ho
    refine ⟨by simpa [treeEnds, endsExpr_for] using ht, o', hb, ?_⟩
    have := Plain.«for» h0 h1 (plain_file h2 (finished h2 (by decide))) (plain_file h3 (by decide)) h4 h5 (plain_file h6 (by decide)) h7 h
    simpa using this
  | body h1 h2 ih =>
    intro ho
    obtain ⟨ht, o', hb, h⟩ := ih ho
    exact ⟨ht, o', hb, .body h h2⟩
  | _ => intro ho; cases ho

theorem snoc_inj {a b : List Token} {x y : Token} (h : a ++ [x] = b ++ [y]) : a = b ∧ x = y := by
  obtain ⟨h1, h2⟩ := List.append_inj' h rfl
  exact ⟨h1, by simpa using h2⟩

/-- The last part of tokens that end with a newline ends with it. -/
theorem snoc_of {a b u : List Token} {x : Token} (hb : b ≠ []) (h : a ++ b = u ++ [x]) : ∃ b', b = b' ++ [x] ∧ u = a ++ b' := by
  rcases List.eq_nil_or_concat b with rfl | ⟨b', y, rfl⟩
  · exact absurd rfl hb
  · rw [List.concat_eq_append, ← List.append_assoc] at h
    obtain ⟨rfl, rfl⟩ := snoc_inj h
    exact ⟨b', by simp, rfl⟩

/-- A derivation in a file that ends with an expression and its newline is one in the REPL without the newline. -/
theorem plain_last_newline {nl : Token} (hn : nl.tokenType = .terminator) (h : Plain Bool.false l o e sym w v) :
    ∀ u, w = u ++ [nl] → treeEnds v = true → sym ≠ .block → Plain Bool.true l .unfinished e sym u v := by
  induction h with
  | declarations h1 h2 h3 _ ih =>
    intro u hu ht _
    obtain ⟨b', rfl, rfl⟩ := snoc_of (declaration_ne h2) hu
    have := ih b' rfl (by simpa [treeEnds, endsExprs_snoc] using ht) (by simp)
    exact .declarations (plain_repl h1) this (precedes_append h3)
  | declaration h1 ih =>
    intro u hu ht _
    exact .declaration (ih u hu ht (by simp))
  | expression_last _ _ _ h => cases h
  | expression_statement h1 h2 h3 h4 =>
    intro u hu _ _
    obtain ⟨rfl, rfl⟩ := snoc_inj hu
    exact .expression_last (plain_repl h1) h2 h3 rfl
  | «if» h0 h1 h2 h3 h4 h5 _ ih =>
    intro u hu ht _
    rename_i w₁ _ c _ _
    rw [List.append_cons] at hu
    obtain ⟨b', rfl, rfl⟩ := snoc_of (body_ne h5) hu
    have := Plain.«if» h0 h1 (plain_repl h2) h3 h4 (ih b' rfl (by simpa [treeEnds, endsExpr] using ht) (by simp))
    simpa using this
  | if_else h0 h1 h2 h3 h4 h5 h6 h7 h8 h9 _ _ ih =>
    intro u hu ht _
    rw [List.append_cons _ _ (_ : List Token)] at hu
    obtain ⟨b', rfl, rfl⟩ := snoc_of (statement_ne h9) hu
    have := Plain.if_else h0 h1 (plain_repl h2) h3 h4 (plain_repl h5) h6 h7 h8 (ih b' rfl (by simpa [treeEnds, endsExpr] using ht) (by simp))
    simpa using this
  | «while» h0 h1 h2 h3 h4 h5 _ ih =>
    intro u hu ht _
    rw [List.append_cons] at hu
    obtain ⟨b', rfl, rfl⟩ := snoc_of (body_ne h5) hu
    have := Plain.«while» h0 h1 (plain_repl h2) h3 h4 (ih b' rfl (by simpa [treeEnds, endsExpr] using ht) (by simp))
    simpa using this
  | «for» h0 h1 h2 h3 h4 h5 h6 h7 h8 _ _ _ ih =>
    intro u hu ht _
    rw [List.append_cons] at hu
    obtain ⟨b', rfl, rfl⟩ := snoc_of (body_ne h8) hu
    have := Plain.«for» h0 h1 (plain_repl h2) (plain_repl h3) h4 h5 (plain_repl h6) h7 (ih b' rfl (by simpa [treeEnds, endsExpr_for] using ht) (by simp))
    simpa using this
  | body h1 h2 ih =>
    intro u hu ht _
    cases u with
    | nil =>
      simp only [List.nil_append, List.cons.injEq] at hu
      obtain ⟨rfl, rfl⟩ := hu
      have := ih [] rfl ht (by simp)
      exact absurd rfl (statement_ne this)
    | cons x u =>
      simp only [List.cons_append, List.cons.injEq] at hu
      obtain ⟨rfl, rfl⟩ := hu
      exact .body (ih (_ :: u) rfl ht (by simp)) h2
  | body_block h =>
    intro u hu
    obtain ⟨u', t, rfl, ht⟩ := plain_last h (by decide)
    obtain ⟨-, rfl⟩ := snoc_inj hu
    exact absurd hn ht
  | braces _ _ _ _ hc => intro u hu; obtain ⟨-, rfl⟩ := snoc_inj hu; rw [hn] at hc; cases hc
  | block_braces | block_indented => intro _ _ _ h; exact absurd rfl h
  | _ => intro u hu ht; first | (cases ht; done) | (simp [treeEnds, endsExpr] at ht; done) 

end Ws
