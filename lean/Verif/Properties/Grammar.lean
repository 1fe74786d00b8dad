import Verif.Proofs.Parse.CompleteTop
import Verif.Proofs.Parse.ExactTop
import Verif.Proofs.Parse.WriteTokens
import Verif.Properties.Parser
/-! Properties C22, C53 and C54 of the parser: what it accepts. -/
namespace Ws.Properties
open Ws Spec Writing

variable {env : Env} {source : Str} {repl : Bool} {sts : List Stmt} {x : Expr} {w : List Token} {eof : Token} {o o' : Ends} {e e' : Bool}

/-! ### C53 -/

/-- C53: if the unambiguous grammar derives the tokens of a source as a program, then the source is
accepted with exactly that syntax tree. -/
theorem derived_accepted (hE : EnvLaws env) (hS : Fits env source) (hs : scanTokens env source = .done (.ok (w ++ [eof])))
    (h : Plain repl false o e .declarations w (.stmts sts)) (ho : o ≠ .brace) : Accepts env repl source sts := by
  unfold Accepts
  rw [parseIn_ok hs]
  exact parseTokens_complete (scan_tokensOk hE hs) (hS _ hs) h ho

/-- C53, for `parse_expression`. -/
theorem derived_expression (hE : EnvLaws env) (hS : Fits env source) (hs : scanTokens env source = .done (.ok (w ++ [eof])))
    (h : Plain false false o e .expression w (.expr x)) (ho : o ≠ .brace) : parseExpression env source = .done (.ok x) := by
  show (scanTokens env source).bind _ = _
  rw [hs]
  exact parseExpressionTokens_complete (scan_tokensOk hE hs) (hS _ hs) h ho

/-- C53: the unambiguous grammar is unambiguous. -/
theorem derived_unambiguous (hT : TokensOk (w ++ [eof])) {sts' : List Stmt} (h : Plain repl false o e .declarations w (.stmts sts))
    (ho : o ≠ .brace) (h' : Plain repl false o' e' .declarations w (.stmts sts')) (ho' : o' ≠ .brace) : sts = sts' := by
  have h1 := parseTokens_complete (env := { asciiEnv with usizeMax := (w ++ [eof]).length }) hT (Nat.le_refl _) h ho
  have h2 := parseTokens_complete (env := { asciiEnv with usizeMax := (w ++ [eof]).length }) hT (Nat.le_refl _) h' ho'
  rw [h1] at h2
  injection h2 with h2
  injection h2

/-- A call without parentheses whose last argument is a map without braces: `f a, b: c`. -/
def bareCall : Str := c!"f a, b: c\n"
def bareCallTokens : List Token :=
  [⟨.identifier, c!"f", none, none, 1, 1⟩, ⟨.identifier, c!"a", none, none, 1, 3⟩, ⟨.comma, c!",", none, none, 1, 4⟩,
    ⟨.identifier, c!"b", none, none, 1, 6⟩, ⟨.colon, c!":", none, none, 1, 7⟩, ⟨.identifier, c!"c", none, none, 1, 9⟩,
    ⟨.terminator, c!"\n", none, none, 1, 10⟩]
def bareCallTree : List Stmt :=
  [.expression (.call (v c!"f" 1 1) [v c!"a" 1 3, .literalMap [.mk c!"b" (v c!"c" 1 9)]] ⟨1, 3⟩)]

theorem plain_name {l : Bool} {t : Token} (h : t.tokenType = .identifier) :
    Plain repl l .closed false .expression [t] (.expr (.variable t.lexeme .placeholder t.loc)) :=
  .expression (.target_plain (.operand (.operand (.operand (.operand (.operand (.operand (.call (.primary (.variable (.inl h)))))))))))

theorem bareCall_derived : Plain repl false .map false .declarations bareCallTokens (.stmts bareCallTree) := by
  have hm : Plain repl false .map false .expression (bareCallTokens.drop 3 |>.take 3) (.expr (.literalMap [.mk c!"b" (v c!"c" 1 9)])) :=
    .expression (.target_plain (.operand (.operand (.operand (.operand (.operand (.operand (.call (.primary
      (.map_bare (.entries (w := []) .entries_nil (.inl ⟨rfl, rfl⟩) rfl (plain_name rfl) (by simp))))))))))))
  have hb : Plain repl false .closed false .before (bareCallTokens.drop 1 |>.take 2) (.exprs [v c!"a" 1 3]) :=
    .before (w := []) (w' := [⟨.identifier, c!"a", none, none, 1, 3⟩]) .before_nil (plain_name rfl) (.inl rfl) rfl
  have hc : Plain repl false .map false .call (bareCallTokens.take 6)
      (.expr (.call (v c!"f" 1 1) [v c!"a" 1 3, .literalMap [.mk c!"b" (v c!"c" 1 9)]] ⟨1, 3⟩)) :=
    .call_bare (o := .map) (w := [⟨.identifier, c!"f", none, none, 1, 1⟩]) (t := ⟨.identifier, c!"a", none, none, 1, 3⟩)
      (.primary (.variable (.inl rfl))) (.inl rfl) (by simp [startsArgument]) (by simp) (.arguments hb (by simp) hm)
  exact .declarations (w := []) .declarations_nil (.declaration (.expression_statement (o := .map) (.expression (.target_plain
    (.operand (.operand (.operand (.operand (.operand (.operand (.call hc)))))))))  (by decide) (by decide) rfl)) ⟨by decide, by decide, by simp, by simp⟩

example : EnvLaws asciiEnv ∧ Fits asciiEnv bareCall ∧
    scanTokens asciiEnv bareCall = .done (.ok (bareCallTokens ++ [⟨.eof, c!"", none, none, 2, 1⟩])) ∧
    Plain repl false .map false .declarations bareCallTokens (.stmts bareCallTree) :=
  ⟨asciiEnv_laws, fits_of_small (by by_kernel), by by_kernel, bareCall_derived⟩

/-! ### C54 -/

/-- C54: a source is accepted, with a given syntax tree, exactly if the unambiguous grammar derives its
tokens as that tree. -/
theorem accepted_iff_derived (hE : EnvLaws env) (hS : Fits env source) (hs : scanTokens env source = .done (.ok (w ++ [eof]))) :
    Accepts env repl source sts ↔ ∃ o e, Plain repl false o e .declarations w (.stmts sts) ∧ o ≠ .brace := by
  constructor
  · intro h
    unfold Accepts at h
    rw [parseIn_ok hs] at h
    obtain ⟨o, hd, ho⟩ := parseTokens_exact (scan_tokensOk hE hs) (hS _ hs) rfl h
    exact ⟨o, false, hd, ho⟩
  · rintro ⟨o, e, h, ho⟩
    exact derived_accepted hE hS hs h ho

/-- C54: a source that scans is rejected exactly if the unambiguous grammar does not derive its tokens. -/
theorem rejected_iff_underived (hE : EnvLaws env) (hS : Fits env source) (hs : scanTokens env source = .done (.ok (w ++ [eof]))) :
    Rejects env repl source ↔ ¬ ∃ sts o e, Plain repl false o e .declarations w (.stmts sts) ∧ o ≠ .brace := by
  constructor
  · rintro ⟨cs, hc⟩ ⟨sts, h⟩
    have h1 : parseIn env repl source = _ := (accepted_iff_derived hE hS hs).2 h
    rw [hc] at h1
    cases h1
  · intro h
    unfold Rejects
    rw [parseIn_ok hs]
    rcases parseTokens_ok (scan_tokensOk hE hs) (hS _ hs) repl with ⟨_, _, sts, h1, -⟩ | ⟨cs, h1, -⟩
    · refine absurd ⟨sts, (accepted_iff_derived (sts := sts) hE hS hs).1 ?_⟩ h
      unfold Accepts
      rw [parseIn_ok hs]
      exact h1
    · exact ⟨cs, h1⟩

/-- C54, for `parse_expression`. -/
theorem expression_iff_derived (hE : EnvLaws env) (hS : Fits env source) (hs : scanTokens env source = .done (.ok (w ++ [eof]))) :
    parseExpression env source = .done (.ok x) ↔ ∃ o e, Plain false false o e .expression w (.expr x) ∧ o ≠ .brace := by
  constructor
  · intro h
    have h : (scanTokens env source).bind _ = _ := h
    rw [hs] at h
    obtain ⟨o, hd, ho⟩ := parseExpressionTokens_exact (scan_tokensOk hE hs) (hS _ hs) rfl h
    exact ⟨o, false, hd, ho⟩
  · rintro ⟨o, e, h, ho⟩
    exact derived_expression hE hS hs h ho

/-- A program that is derived only in the REPL, `x` without a newline, and one that is never derived, `x +`. -/
example : let w : List Token := [⟨.identifier, c!"x", none, none, 1, 1⟩]
    (∃ o e, Plain true false o e .declarations w (.stmts [.expression (v c!"x" 1 1)]) ∧ o ≠ .brace) ∧
    ¬ ∃ sts o e, Plain false false o e .declarations w (.stmts sts) ∧ o ≠ .brace := by
  have hs : scanTokens asciiEnv c!"x" = .done (.ok ([⟨.identifier, c!"x", none, none, 1, 1⟩] ++ [⟨.eof, c!"", none, none, 1, 2⟩])) := by by_kernel
  have hS : Fits asciiEnv c!"x" := fits_of_small (by by_kernel)
  exact ⟨(accepted_iff_derived asciiEnv_laws hS hs).1 (by unfold Accepts; by_kernel),
    (rejected_iff_underived asciiEnv_laws hS hs).1 ⟨[⟨⟨1, 2⟩, some c!"", "Expect newline after expression."⟩], by by_kernel⟩⟩
example : let w : List Token := [⟨.identifier, c!"x", none, none, 1, 1⟩, ⟨.plus, c!"+", none, none, 1, 3⟩]
    ¬ ∃ sts o e, Plain repl false o e .declarations w (.stmts sts) ∧ o ≠ .brace := by
  have hs : scanTokens asciiEnv c!"x +\n" = .done (.ok ([⟨.identifier, c!"x", none, none, 1, 1⟩, ⟨.plus, c!"+", none, none, 1, 3⟩] ++ [⟨.eof, c!"", none, none, 2, 1⟩])) := by by_kernel
  refine (rejected_iff_underived asciiEnv_laws (fits_of_small (by by_kernel)) hs).1 ?_
  cases repl <;> exact ⟨[⟨⟨1, 3⟩, some c!"+", "Expect expression."⟩], by by_kernel⟩

/-! ### C22 -/

/-- The tokens that can continue an expression. -/
def Continues (t : TokenType) : Prop :=
  t ∈ [.equal, .or, .and, .bangEqual, .equalEqual, .less, .lessEqual, .greater, .greaterEqual, .plus, .minus, .star, .slash,
    .dot, .leftParenAbutting, .leftBracket, .colon] ∨ startsArgument t

/-- C22: an expression written as tokens, in any context that cannot continue it, is parsed to exactly
that expression, and parsing stops right after it. -/
theorem write_then_parse_within {tokens before after : List Token} {t : Token} {inLoops : Nat}
    (ht : tokens = before ++ writeExpr x ++ t :: after) (hT : TokensOk tokens) (hb : tokens.length ≤ env.usizeMax)
    (hx : Writable (inLoops != 0) x) (hl : inLoops ≤ before.length) (hc : ¬ Continues t.tokenType) :
    expression (recN env (depthFor tokens)) ⟨tokens, before.length, inLoops, repl⟩ =
      .ok x ⟨tokens, before.length + (writeExpr x).length, inLoops, repl⟩ := by
  obtain ⟨ws, e, h1, h2, h3⟩ := hT.eof
  have hne : ∀ u ∈ writeExpr x, u.tokenType ≠ .eof := by
    have := good_expr x
    rw [List.all_eq_true] at this
    intro u hu hk
    have := this u hu
    simp [goodTok, hk] at this
  have hr : (⟨tokens, before.length + (writeExpr x).length, inLoops, repl⟩ : Parser).rest = t :: after := by
    simp [Parser.rest, ht]
  have hm : Moves ⟨tokens, before.length, inLoops, repl⟩ (writeExpr x) ⟨tokens, before.length + (writeExpr x).length, inLoops, repl⟩ := by
    refine ⟨rfl, ?_, hne⟩
    rw [hr]
    simp [Parser.rest, ht]
  have hlen := congrArg List.length ht
  simp only [List.length_append, List.length_cons] at hlen
  have hpos : 0 < (writeExpr x).length := List.length_pos_iff.2 (writeExpr_ne x)
  have hstop : reach t.tokenType ≤ 1 := by
    unfold Continues startsArgument at hc
    revert hc
    cases t.tokenType <;> decide
  have hd : Does ([] ++ []) (expression (recN env (depthFor tokens))) ⟨tokens, before.length, inLoops, repl⟩ x _ [] :=
    loose_runs (plain_loose (write_expr x hx).expr) _ _ hm ⟨⟨hb, hl⟩, nofun, by
      show (inLoops != 0) = true ↔ 0 < inLoops
      simp; omega⟩ (by rw [hr]; exact stop_closed hstop) _
  obtain ⟨-, hd⟩ := hd
  rcases hd with hd | ⟨-, hd⟩ | ⟨_, _, _, hd, -⟩
  rotate_left
  · exact hd
  · cases hd
  · have g : Ready env ⟨tokens, before.length, inLoops, repl⟩ := by
      refine ⟨hT, hb, by show before.length < tokens.length; omega, hl, .inr ?_⟩
      obtain ⟨u, us, hu⟩ : ∃ u us, writeExpr x = u :: us := by
        cases h : writeExpr x with
        | nil => exact absurd h (writeExpr_ne x)
        | cons u us => exact ⟨u, us, rfl⟩
      have hm' := hm
      rw [hu] at hm'
      rw [isAtEnd_cons hm'.head]
      simpa using hne u (by rw [hu]; simp)
    have := (recN_ok env (depthFor tokens)).assignment _ g (by
      have : (⟨tokens, before.length, inLoops, repl⟩ : Parser).rest.length ≤ tokens.length := by simp [Parser.rest]
      unfold depthFor
      omega)
    unfold wp at this
    rcases hd with hd | ⟨_, hd⟩
    · have hd : (recN env (depthFor tokens)).assignment ⟨tokens, before.length, inLoops, repl⟩ = .diverge := hd
      rw [hd] at this
      exact this.elim
    · have hd : (recN env (depthFor tokens)).assignment ⟨tokens, before.length, inLoops, repl⟩ = .panic _ := hd
      rw [hd] at this
      exact this.elim

/-- C22: an expression written as tokens is parsed to exactly that expression. -/
theorem write_then_parse_expression (hx : Writable false x) (he : eof.tokenType = .eof)
    (hb : (writeExpr x).length < env.usizeMax) : parseExpressionTokens env (writeExpr x ++ [eof]) = .done (.ok x) :=
  parseExpressionTokens_complete (tokensOk_of_good (good_expr x) he) (by simp; omega) (write_expr x hx).expr (by decide)

/-- C22, for whole programs: a program written as tokens is parsed to exactly that program. -/
theorem write_then_parse (h : WritableStmts false sts) (he : eof.tokenType = .eof) (hb : (writeStmts sts).length < env.usizeMax) :
    parseTokens env (writeStmts sts ++ [eof]) repl = .done (.ok sts) := by
  have h1 : parseTokens env (writeStmts sts ++ [eof]) false = .done (.ok sts) :=
    parseTokens_complete (tokensOk_of_good (good_stmts sts) he) (by simp; omega) (stmts_ok (write_stmts sts h)) (by decide)
  cases repl with
  | false => exact h1
  | true => exact parseTokens_inRepl h1

/-- C22: different programs are written differently. -/
theorem write_injective {sts' : List Stmt} (h : WritableStmts false sts) (h' : WritableStmts false sts')
    (hw : writeStmts sts = writeStmts sts') : sts = sts' :=
  derived_unambiguous (eof := tok .eof []) (tokensOk_of_good (good_stmts sts) rfl) (stmts_ok (write_stmts sts h))
    (by decide) (by rw [hw]; exact stmts_ok (write_stmts sts' h')) (by decide)

/-- `{"k": [x, -y]}.f(1 == z)[x].g = x`. -/
def coreExpr : Expr :=
  .set (.getIndex (.call (.get (.literalMap [.mk c!"k" (.literalArray [v c!"x" 1 1, .unary .minus (v c!"y" 2 2) ⟨3, 3⟩])]) c!"f" ⟨4, 4⟩)
    [.binary (.literalString c!"1") .equal (v c!"z" 5 5) ⟨6, 6⟩] ⟨7, 7⟩) (v c!"x" 8 8) ⟨9, 9⟩) c!"g" (v c!"x" 1 2) ⟨1, 3⟩
theorem coreExpr_writable : Writable false coreExpr := by
  simp [coreExpr, v, Writable, WritableExprs, WritableEntries, tightness]
example : writeStmts [.expression coreExpr] ≠ [] ∧ WritableStmts false [.expression coreExpr] :=
  ⟨by simp [writeStmts, writeStmt, coreExpr, startsMap], by simp only [WritableStmts, WritableStmt]; exact ⟨coreExpr_writable, trivial⟩⟩
example : WritableStmts false operatorsTree ∧ WritableStmts false methodsTree ∧ WritableStmts false forTree ∧ WritableStmts false loopFunTree := by
  simp [operatorsTree, methodsTree, forTree, loopFunTree, v, WritableStmts, WritableStmt, WritableMethods, IsSuperclass, Writable, tightness, isStatement]
/-- What cannot be written: an operand that binds too loosely, an assignment to `this`, an `else` that
belongs to an inner `if`. -/
example : ¬ Writable false (.unary .not (.binary (v c!"x" 1 1) .plus (v c!"y" 1 1) ⟨1, 1⟩) ⟨1, 1⟩) ∧
    ¬ Writable false (.assign c!"this" .placeholder (v c!"x" 1 1) ⟨1, 1⟩) ∧
    ¬ WritableStmt false (.if (v c!"x" 1 1) (.if (v c!"y" 1 1) (.block []) none) (some (.block []))) := by
  simp [Writable, WritableStmt, tightness, opensElse]

end Ws.Properties
