import Verif.Proofs.Parse.Top
import Verif.Proofs.Parse.Nodes
import Verif.Proofs.Parse.Lists
import Verif.Proofs.Parse.Repl
import Verif.Properties.Scanner
/-! Properties C18–C21, C23–C34 and C52 of the parser. Every theorem is about `parse` or
`parse_repl_line` of an arbitrary source. -/
namespace Ws.Properties
open Ws Spec

variable {env : Env} {source : Str} {ts : List Token} {repl : Bool} {sts : List Stmt}

/-- The token list of the source has a length that fits `usize` (as the length of every `Vec` does). -/
def Fits (env : Env) (source : Str) : Prop :=
  ∀ ts, scanTokens env source = .done (.ok ts) → ts.length ≤ env.usizeMax

/-- `parse`, or `parse_repl_line` in the REPL. -/
def parseIn (env : Env) (repl : Bool) (source : Str) : Outcome (Except ParseError (List Stmt)) :=
  if repl then parseReplLine env source else parse env source

/-- `source` is accepted, with the given syntax tree. -/
def Accepts (env : Env) (repl : Bool) (source : Str) (sts : List Stmt) : Prop :=
  parseIn env repl source = .done (.ok sts)

/-- `source` is rejected. -/
def Rejects (env : Env) (repl : Bool) (source : Str) : Prop :=
  ∃ causes, parseIn env repl source = .done (.error causes)

/-- `x` is a part of the program. -/
def Part (x : Node) (sts : List Stmt) : Prop := ∃ s ∈ sts, Within x (.stmt s)

/-- What the parser relies on holds of the tokens of every source. -/
theorem scan_tokensOk (hE : EnvLaws env) (h : scanTokens env source = .done (.ok ts)) : TokensOk ts where
  eof := one_eof hE h
  number t ht hk := by
    obtain ⟨_, _, _, _, _, _, _, _, hn, _⟩ := number_value hE h ht hk
    exact Option.isSome_iff_ne_none.2 hn
  string t ht hk := by
    obtain ⟨_, _, _, _, _, hs, _⟩ := string_value hE h ht hk
    rw [hs]; rfl
  equal t ht hk := (operator_text hE h ht (s := c!"=") (by rw [hk]; rfl)).1

theorem scan_this (hE : EnvLaws env) (h : scanTokens env source = .done (.ok ts)) {t : Token} (ht : t ∈ ts)
    (hk : t.tokenType = .this) : t.lexeme = c!"this" :=
  (keyword_iff hE h ht (by rw [hk]; decide) (k := .this) rfl).1 hk

theorem parseIn_eq : parseIn env repl source = scanThen env source (parseTokens env · repl) := by
  cases repl <;> rfl

theorem parseIn_ok (h : scanTokens env source = .done (.ok ts)) : parseIn env repl source = parseTokens env ts repl := by
  rw [parseIn_eq]
  show (scanTokens env source).bind _ = _
  rw [h]; rfl

theorem parseIn_error {es} (h : scanTokens env source = .done (.error es)) :
    parseIn env repl source = .done (.error es) := by
  rw [parseIn_eq]
  show (scanTokens env source).bind _ = _
  rw [h]; rfl

theorem parseIn_diverge (h : scanTokens env source = .diverge) : parseIn env repl source = .diverge := by
  rw [parseIn_eq]
  show (scanTokens env source).bind _ = _
  rw [h]; rfl

theorem scanTokens_panic (hE : EnvLaws env) (msg : String) : scanTokens env source ≠ .panic msg :=
  scan_never_panics hE.number _ msg

/-! ### Sources for the examples -/

/-- The source has at most 1000 tokens. -/
def small (source : Str) : Bool :=
  match scanTokens asciiEnv source with
  | .done (.ok ts) => ts.length ≤ 1000
  | _ => true

theorem fits_of_small (h : small source = true) : Fits asciiEnv source := by
  intro ts hs
  simp only [small, hs, decide_eq_true_eq] at h
  show ts.length ≤ 2 ^ 64 - 1
  omega

/-- The tree of a variable. -/
def v (name : Str) (line column : Nat) : Expr := .variable name .placeholder ⟨line, column⟩

/-- Nested assignments and operators. -/
def operators : Str := c!"a = b = c - d - e * f or g\n"
def operatorsTree : List Stmt :=
  [.expression (.assign c!"a" .placeholder (.assign c!"b" .placeholder (.logical
    (.binary (.binary (v c!"c" 1 9) .minus (v c!"d" 1 13) ⟨1, 11⟩) .minus
      (.binary (v c!"e" 1 17) .multiply (v c!"f" 1 21) ⟨1, 19⟩) ⟨1, 15⟩) .or (v c!"g" 1 26)) ⟨1, 7⟩) ⟨1, 3⟩)]
theorem operators_ok : EnvLaws asciiEnv ∧ Fits asciiEnv operators ∧ Accepts asciiEnv false operators operatorsTree :=
  ⟨asciiEnv_laws, fits_of_small (by by_kernel), by unfold Accepts; by_kernel⟩

/-- Calls with and without parentheses, and a map. -/
def calls : Str := c!"f(a, b) {x: c, y: d}"
def callsTree : List Stmt :=
  [.expression (.call (.call (v c!"f" 1 1) [v c!"a" 1 3, v c!"b" 1 6] ⟨1, 2⟩)
    [.literalMap [.mk c!"x" (v c!"c" 1 13), .mk c!"y" (v c!"d" 1 19)]] ⟨1, 9⟩)]
theorem calls_ok : EnvLaws asciiEnv ∧ Fits asciiEnv calls ∧ Accepts asciiEnv true calls callsTree :=
  ⟨asciiEnv_laws, fits_of_small (by by_kernel), by unfold Accepts; by_kernel⟩

/-- A break inside a function inside a loop. -/
def loopFun : Str := c!"while (a)\n  fun f()\n    break\n"
def loopFunTree : List Stmt :=
  [.while (v c!"a" 1 8) (.block [.fun (.mk c!"f" (.mk [] [.break ⟨3, 5⟩] .plainFunction ⟨2, 7⟩))])]
theorem loopFun_ok : EnvLaws asciiEnv ∧ Fits asciiEnv loopFun ∧ Accepts asciiEnv false loopFun loopFunTree :=
  ⟨asciiEnv_laws, fits_of_small (by by_kernel), by unfold Accepts; by_kernel⟩

/-- A class with a class method named `init`, an initializer and a method. -/
def methods : Str := c!"class A < B\n  class init()\n    f\n  init(x)\n    f\n  g()\n    this\n"
def methodsTree : List Stmt :=
  [.class c!"A" (some (v c!"B" 1 11))
    [.mk c!"init" (.mk [] [.expression (v c!"f" 3 5)] .classMethod ⟨2, 9⟩),
      .mk c!"init" (.mk [⟨c!"x", ⟨4, 8⟩⟩] [.expression (v c!"f" 5 5)] .initializer ⟨4, 3⟩),
      .mk c!"g" (.mk [] [.expression (v c!"this" 7 5)] .method ⟨6, 3⟩)] ⟨1, 7⟩]
theorem methods_ok : EnvLaws asciiEnv ∧ Fits asciiEnv methods ∧ Accepts asciiEnv false methods methodsTree :=
  ⟨asciiEnv_laws, fits_of_small (by by_kernel), by unfold Accepts; by_kernel⟩

/-- A for loop. -/
def forSource : Str := c!"for (var i = a; i; i = b) print i\n"
def forTree : List Stmt :=
  [.block [.var c!"i" .placeholder (v c!"a" 1 14) ⟨1, 10⟩,
    .whileIncrement (v c!"i" 1 17) (.print (v c!"i" 1 33)) (.assign c!"i" .placeholder (v c!"b" 1 24) ⟨1, 22⟩)]]
theorem for_ok : EnvLaws asciiEnv ∧ Fits asciiEnv forSource ∧ Accepts asciiEnv false forSource forTree :=
  ⟨asciiEnv_laws, fits_of_small (by by_kernel), by unfold Accepts; by_kernel⟩

/-- A statement of the program is part of it. -/
theorem part_head {s : Stmt} {ss : List Stmt} : Part (.stmt s) (s :: ss) := ⟨s, by simp, .refl⟩

/-- A part of a part of the program is part of it. -/
theorem part_step {x y : Node} (h : Part y sts) (hx : x ∈ y.parts) : Part x sts := by
  obtain ⟨s, hs, hy⟩ := h
  refine ⟨s, hs, ?_⟩
  have tr : ∀ {n}, Within y n → Within x n := by
    intro n hn
    induction hn with
    | refl => exact .step hx .refl
    | step hc _ ih => exact .step hc ih
  exact tr hy

/-! ### C18, C19 -/

/-- C19: if scanning returns, so does parsing. -/
theorem parse_terminates (hE : EnvLaws env) (hS : Fits env source) {r}
    (h : scanTokens env source = .done r) : ∃ r', parseIn env repl source = .done r' := by
  cases r with
  | error es => exact ⟨_, parseIn_error h⟩
  | ok ts =>
    rw [parseIn_ok h]
    rcases parseTokens_ok (scan_tokensOk hE h) (hS ts h) repl with ⟨_, _, _, h, _⟩ | ⟨_, h, _⟩ <;> exact ⟨_, h⟩

/-- C18: `parse` and `parse_repl_line` never panic. -/
theorem parse_never_panics (hE : EnvLaws env) (hS : Fits env source) (msg : String) :
    parseIn env repl source ≠ .panic msg := by
  cases h : scanTokens env source with
  | panic m => exact absurd h (scanTokens_panic hE m)
  | diverge => rw [parseIn_diverge h]; simp
  | done r =>
    obtain ⟨r', hr⟩ := parse_terminates (repl := repl) hE hS h
    rw [hr]; simp

example : EnvLaws asciiEnv ∧ Fits asciiEnv operators ∧ ∃ r, scanTokens asciiEnv operators = .done r :=
  ⟨operators_ok.1, operators_ok.2.1, _, rfl⟩

/-- C18 and C19 for `parse_expression`: it panics exactly when the source has no tokens and overflow
checks are on; otherwise it returns if scanning does. -/
theorem parse_expression_panics_iff (hE : EnvLaws env) (hS : Fits env source) :
    (∃ msg, parseExpression env source = .panic msg) ↔
      env.overflowChecks = true ∧ ∃ eof, scanTokens env source = .done (.ok [eof]) := by
  have key : parseExpression env source = (scanTokens env source).bind (fun r => match r with
      | .error e => .done (.error e)
      | .ok tokens => parseExpressionTokens env tokens) := rfl
  cases h : scanTokens env source with
  | panic m => exact absurd h (scanTokens_panic hE m)
  | diverge => rw [key, h]; simp [Outcome.bind]
  | done r =>
    rw [key, h]
    cases r with
    | error es => simp [Outcome.bind]
    | ok ts =>
      simp only [Outcome.bind]
      have hT := scan_tokensOk hE h
      by_cases h2 : 2 ≤ ts.length
      · have : ∀ eof, ts ≠ [eof] := by rintro eof rfl; simp at h2
        rcases parseExpressionTokens_ok hT (hS ts h) h2 with ⟨_, _, _, h, _⟩ | ⟨_, h, _⟩ <;> simp [h, this]
      · obtain ⟨ws, e, rfl, he, -⟩ := hT.eof
        cases ws with
        | cons x ws => simp at h2
        | nil =>
          simp only [List.nil_append]
          rw [parseExpressionTokens_empty he]
          by_cases ho : env.overflowChecks = true <;> simp [ho]

/-- Both sides of the equivalence occur. -/
example : EnvLaws asciiEnv ∧ Fits asciiEnv c!"// c" ∧ asciiEnv.overflowChecks = true ∧
    scanTokens asciiEnv c!"// c" = .done (.ok [⟨.eof, [], none, none, 1, 5⟩]) :=
  ⟨asciiEnv_laws, fits_of_small (by by_kernel), rfl, by by_kernel⟩
example : parseExpression asciiEnv c!"// c" = .panic "attempt to subtract with overflow" := by by_kernel
example : parseExpression asciiEnv c!"a" = .done (.ok (v c!"a" 1 1)) := by by_kernel

/-- C19 for `parse_expression`. -/
theorem parse_expression_terminates (hE : EnvLaws env) (hS : Fits env source) {r}
    (h : scanTokens env source = .done r) : parseExpression env source ≠ .diverge := by
  have key : parseExpression env source = (scanTokens env source).bind (fun r => match r with
      | .error e => .done (.error e)
      | .ok tokens => parseExpressionTokens env tokens) := rfl
  rw [key, h]
  cases r with
  | error es => simp [Outcome.bind]
  | ok ts =>
    simp only [Outcome.bind]
    have hT := scan_tokensOk hE h
    by_cases h2 : 2 ≤ ts.length
    · rcases parseExpressionTokens_ok hT (hS ts h) h2 with ⟨_, _, _, h, _⟩ | ⟨_, h, _⟩ <;> simp [h]
    · obtain ⟨ws, e, rfl, he, -⟩ := hT.eof
      cases ws with
      | cons x ws => simp at h2
      | nil =>
        simp only [List.nil_append]
        rw [parseExpressionTokens_empty he]
        split <;> simp

/-! ### C20 -/

/-- C20: the tokens of an accepted source, up to Eof, are derived by the grammar as the syntax tree
that is returned. -/
theorem accepted_derivable (hE : EnvLaws env) (hS : Fits env source) (h : Accepts env repl source sts) :
    ∃ ws eof, scanTokens env source = .done (.ok (ws ++ [eof])) ∧ eof.tokenType = .eof ∧
      Grammar repl false .declarations ws (.stmts sts) := by
  unfold Accepts at h
  cases hs : scanTokens env source with
  | panic m => exact absurd hs (scanTokens_panic hE m)
  | diverge => rw [parseIn_diverge hs] at h; cases h
  | done r =>
    cases r with
    | error es => rw [parseIn_error hs] at h; cases h
    | ok ts =>
      rw [parseIn_ok hs] at h
      have hT := scan_tokensOk hE hs
      rcases parseTokens_ok hT (hS ts hs) repl with ⟨ws, e, sts', h1, rfl, h3⟩ | ⟨_, h1, _⟩
      · rw [h] at h1
        cases h1
        obtain ⟨ws', e', e1, e2, -⟩ := hT.eof
        obtain ⟨rfl, e3⟩ := List.append_inj' e1 rfl
        cases e3
        exact ⟨ws, e, rfl, e2, h3⟩
      · rw [h] at h1; cases h1

example : EnvLaws asciiEnv ∧ Fits asciiEnv methods ∧ Accepts asciiEnv false methods methodsTree := methods_ok
example : EnvLaws asciiEnv ∧ Fits asciiEnv calls ∧ Accepts asciiEnv true calls callsTree := calls_ok

/-- C20 for `parse_expression`. -/
theorem accepted_expression_derivable (hE : EnvLaws env) (hS : Fits env source) {x : Expr}
    (h : parseExpression env source = .done (.ok x)) :
    ∃ ws eof, scanTokens env source = .done (.ok (ws ++ [eof])) ∧ eof.tokenType = .eof ∧
      Grammar false false .expression ws (.expr x) := by
  have key : parseExpression env source = (scanTokens env source).bind (fun r => match r with
      | .error e => .done (.error e)
      | .ok tokens => parseExpressionTokens env tokens) := rfl
  rw [key] at h
  cases hs : scanTokens env source with
  | panic m => exact absurd hs (scanTokens_panic hE m)
  | diverge => rw [hs] at h; cases h
  | done r =>
    rw [hs] at h
    cases r with
    | error es => cases h
    | ok ts =>
      simp only [Outcome.bind] at h
      have hT := scan_tokensOk hE hs
      by_cases h2 : 2 ≤ ts.length
      · rcases parseExpressionTokens_ok hT (hS ts hs) h2 with ⟨ws, e, x', h1, rfl, h3⟩ | ⟨_, h1, _⟩
        · rw [h] at h1
          cases h1
          obtain ⟨ws', e', e1, e2, -⟩ := hT.eof
          obtain ⟨rfl, e3⟩ := List.append_inj' e1 rfl
          cases e3
          exact ⟨ws, e, rfl, e2, h3⟩
        · rw [h] at h1; cases h1
      · obtain ⟨ws, e, rfl, he, -⟩ := hT.eof
        cases ws with
        | cons x ws => simp at h2
        | nil =>
          simp only [List.nil_append] at h
          rw [parseExpressionTokens_empty he] at h
          split at h <;> cases h

/-! ### The parts of an accepted program -/

/-- What holds of all parts of derivations holds of all parts of accepted programs. -/
theorem accepted_parts (hE : EnvLaws env) (hS : Fits env source) (h : Accepts env repl source sts) {P : Node → Prop}
    (hP : ∀ ws, Grammar repl false .declarations ws (.stmts sts) → AllT P (.stmts sts)) {x : Node} (hx : Part x sts) : P x := by
  obtain ⟨ws, eof, -, -, hG⟩ := accepted_derivable hE hS h
  obtain ⟨s, hs, hx⟩ := hx
  exact hP ws hG s hs x hx

/-- C21: operators in an accepted program respect precedence and associativity. -/
theorem precedence (hE : EnvLaws env) (hS : Fits env source) (h : Accepts env repl source sts) {x : Node}
    (hx : Part x sts) : Precedence x :=
  accepted_parts hE hS h (fun _ hG => (grammar_precedence hG).1) hx

/-- The subtraction in `operators` is part of it. -/
example : Part (.expr (.binary (.binary (v c!"c" 1 9) .minus (v c!"d" 1 13) ⟨1, 11⟩) .minus
    (.binary (v c!"e" 1 17) .multiply (v c!"f" 1 21) ⟨1, 19⟩) ⟨1, 15⟩)) operatorsTree :=
  part_step (part_step (part_step (part_step part_head (.head _)) (.head _)) (.head _)) (.head _)
/-- `Precedence` tells trees apart: `c - (d - e)` and `(c - d) * e` without the parentheses violate it. -/
example : ¬ Precedence (.expr (.binary (v c!"c" 1 1) .minus (.binary (v c!"d" 1 1) .minus (v c!"e" 1 1) ⟨1, 1⟩) ⟨1, 1⟩)) ∧
    ¬ Precedence (.expr (.binary (.binary (v c!"c" 1 1) .minus (v c!"d" 1 1) ⟨1, 1⟩) .multiply (v c!"e" 1 1) ⟨1, 1⟩)) := by
  simp [Precedence, tightness]

/-- C23: calls and functions in an accepted program have at most 255 arguments and parameters. -/
theorem limits (hE : EnvLaws env) (hS : Fits env source) (h : Accepts env repl source sts) {x : Node}
    (hx : Part x sts) : Limits x :=
  accepted_parts hE hS h (fun _ hG => (grammar_limits hG).1) hx

/-- `calls` has a call with two arguments and a map with two keys. -/
example : Part (.expr (.call (v c!"f" 1 1) [v c!"a" 1 3, v c!"b" 1 6] ⟨1, 2⟩)) callsTree ∧
    Part (.expr (.literalMap [.mk c!"x" (v c!"c" 1 13), .mk c!"y" (v c!"d" 1 19)])) callsTree :=
  ⟨part_step (part_step part_head (.head _)) (.head _), part_step (part_step part_head (.head _)) (.tail _ (.head _))⟩

/-- C24: the keys of a map in an accepted program are distinct. -/
theorem distinct_keys (hE : EnvLaws env) (hS : Fits env source) (h : Accepts env repl source sts) {x : Node}
    (hx : Part x sts) : DistinctKeys x :=
  accepted_parts hE hS h (fun _ hG => (grammar_keys hG).1) hx

/-- C26: an accepted program does not assign to `this`. (Assignments to anything but variables,
properties and indices cannot be written as syntax trees.) -/
theorem assignment_targets (hE : EnvLaws env) (hS : Fits env source) (h : Accepts env repl source sts) {x : Node}
    (hx : Part x sts) : NotThis x :=
  accepted_parts hE hS h (fun _ hG => grammar_notThis hG) hx

/-- `operators` has an assignment. -/
example : ∃ rhs loc, Part (.expr (.assign c!"a" .placeholder rhs loc)) operatorsTree :=
  ⟨_, _, part_step part_head (.head _)⟩
example : ∃ c, parse asciiEnv c!"class A\n  f()\n    this = a\n" = .done (.error [c]) ∧ c.token = some c!"=" :=
  ⟨⟨⟨3, 10⟩, some c!"=", "Invalid assignment target."⟩, by by_kernel, rfl⟩

/-- C27: functions that are not methods are plain, methods that are not class methods are
initializers if named `init`. -/
theorem function_kinds (hE : EnvLaws env) (hS : Fits env source) (h : Accepts env repl source sts) {x : Node}
    (hx : Part x sts) : Kinds x :=
  accepted_parts hE hS h (fun _ hG => (grammar_kinds hG).1) hx

/-- C27: the methods of a class are those of consecutive parts of the tokens; those that start with
`class` are class methods, and no others. -/
theorem method_kinds (hE : EnvLaws env) (hS : Fits env source) (h : Accepts env repl source sts)
    (hs : scanTokens env source = .done (.ok ts)) {x : Node} (hx : Part x sts) : MarkedKinds ts x := by
  obtain ⟨ws, eof, hs', -, hG⟩ := accepted_derivable hE hS h
  rw [hs] at hs'
  cases hs'
  obtain ⟨s, hs, hx⟩ := hx
  exact grammar_marked hG (List.prefix_append ws [eof]).isInfix s hs x hx

/-- The class of `methods`. -/
example : ∃ ms, Part (.stmt (.class c!"A" (some (v c!"B" 1 11)) ms ⟨1, 7⟩)) methodsTree ∧
    ms.map (·.funDef.funType) = [.classMethod, .initializer, .method] := ⟨_, part_head, rfl⟩

/-- C30: names, literals and locations in an accepted program are those of tokens. -/
theorem names_from_tokens (hE : EnvLaws env) (hS : Fits env source) (h : Accepts env repl source sts)
    (hs : scanTokens env source = .done (.ok ts)) {x : Node} (hx : Part x sts) : FromTokens ts x := by
  obtain ⟨ws, eof, hs', -, hG⟩ := accepted_derivable hE hS h
  rw [hs] at hs'
  cases hs'
  obtain ⟨s, hs'', hx⟩ := hx
  exact (grammar_tokens (fun t ht hk => scan_this hE hs ht hk) hG (fun t ht => List.mem_append.2 (.inl ht))
    (by simp)).1 s hs'' x hx

/-- C30: no name in an accepted program is a keyword, except that `this` is a variable. -/
theorem names_not_keywords (hE : EnvLaws env) (hS : Fits env source) (h : Accepts env repl source sts)
    {n : Str} {cell : VarLoc} {loc : SourceLoc} (hx : Part (.expr (.variable n cell loc)) sts) :
    n = c!"this" ∨ ∀ k, keyword k ≠ some n := by
  obtain ⟨ws, eof, hs, -, hG⟩ := accepted_derivable hE hS h
  rcases names_from_tokens hE hS h hs hx with ⟨t, ht, hk, rfl, -⟩ | ⟨t, ht, hk, rfl, -⟩
  · exact .inr (identifier_text hE hs ht hk).1
  · exact .inl (scan_this hE hs ht hk)

example : Part (.expr (v c!"g" 1 26)) operatorsTree :=
  part_step (part_step (part_step (part_step part_head (.head _)) (.head _)) (.head _)) (.tail _ (.head _))

/-! ### C25 -/

/-- C25: every `break` and `continue` of an accepted program is in the body of a loop. -/
theorem break_in_loop (hE : EnvLaws env) (hS : Fits env source) (h : Accepts env repl source sts) {x : Node}
    (hx : Part x sts) {loc : SourceLoc} (hb : x = .stmt (.break loc) ∨ x = .stmt (.continue loc)) :
    ∃ y body, Part y sts ∧ loopBody y = some body ∧ Within x (.stmt body) := by
  obtain ⟨ws, eof, -, -, hG⟩ := accepted_derivable hE hS h
  obtain ⟨s, hs, hx⟩ := hx
  have hl : Loose x := by rcases hb with rfl | rfl <;> constructor
  rcases not_loose_within hx hl with h | ⟨y, b, h1, h2, h3⟩
  · exact absurd h (grammar_snug hG rfl s hs)
  · exact ⟨y, b, ⟨s, hs, h1⟩, h2, h3⟩

example : Part (.stmt (.break ⟨3, 5⟩)) loopFunTree :=
  part_step (part_step (part_step (part_step part_head (.tail _ (.head _))) (.head _)) (.head _)) (.head _)

/-- C25: the loop need not be in the same function: the break in `loopFun` is in a function that
contains no loop. -/
theorem break_in_other_function :
    Accepts asciiEnv false loopFun loopFunTree ∧
    ∃ d, Part (.fn d) loopFunTree ∧ Within (.stmt (.break ⟨3, 5⟩)) (.fn d) ∧
      ∀ y, Within y (.fn d) → loopBody y = none := by
  refine ⟨loopFun_ok.2.2, .mk [] [.break ⟨3, 5⟩] .plainFunction ⟨2, 7⟩,
    part_step (part_step (part_step part_head (.tail _ (.head _))) (.head _)) (.head _), .step (.head _) .refl, ?_⟩
  intro y hy
  cases hy with
  | refl => rfl
  | step hc hy =>
    simp only [Node.parts, FunDef.body, List.map_cons, List.map_nil, List.mem_singleton] at hc
    subst hc
    cases hy with
    | refl => rfl
    | step hc hy => simp [Node.parts, stmtParts] at hc

/-! ### C29 -/

/-- C29: if the parser rejects a source, it reports tokens of the source, in source order, each at
most once. -/
theorem parse_errors_located (hE : EnvLaws env) (hS : Fits env source) {causes : ParseError}
    (hs : scanTokens env source = .done (.ok ts)) (h : parseIn env repl source = .done (.error causes)) :
    causes ≠ [] ∧ Located ts ts.length causes := by
  rw [parseIn_ok hs] at h
  rcases parseTokens_ok (scan_tokensOk hE hs) (hS ts hs) repl with ⟨_, _, _, h1, _⟩ | ⟨_, h1, h2⟩
  · rw [h] at h1; cases h1
  · rw [h] at h1; cases h1; exact h2

example : ∃ ts, EnvLaws asciiEnv ∧ Fits asciiEnv c!"a\nb ]\n" ∧
    scanTokens asciiEnv c!"a\nb ]\n" = .done (.ok ts) ∧
    parseIn asciiEnv false c!"a\nb ]\n" = .done (.error [⟨⟨2, 3⟩, some c!"]", "Expect newline after expression."⟩]) :=
  ⟨_, asciiEnv_laws, fits_of_small (by by_kernel), rfl, by by_kernel⟩

/-! ### C52 -/

/-- C52: brackets and blocks are properly nested in the tokens of an accepted program. -/
theorem accepted_nested (hE : EnvLaws env) (hS : Fits env source) (h : Accepts env repl source sts)
    (hs : scanTokens env source = .done (.ok ts)) : WellNested ts := by
  obtain ⟨ws, eof, hs', he, hG⟩ := accepted_derivable hE hS h
  rw [hs] at hs'
  cases hs'
  show nest [] (ws ++ [eof]) = some []
  rw [nest_append, grammar_nest hG, Option.bind_some, nest_flat (flat_of he (by decide))]
  rfl

example : ∃ ts, scanTokens asciiEnv methods = .done (.ok ts) ∧ ts.length = 34 := ⟨_, rfl, by by_kernel⟩
/-- Not every list is properly nested. -/
example : ¬ WellNested [⟨.leftParen, c!"(", none, none, 1, 1⟩, ⟨.leftBrace, c!"{", none, none, 1, 2⟩,
    ⟨.rightParen, c!")", none, none, 1, 3⟩, ⟨.rightBrace, c!"}", none, none, 1, 4⟩] := by simp [WellNested, nest, closer, isCloser]

/-! ### C31 -/

/-- Sources that scan but are not derivable are rejected. -/
theorem rejects_of (hE : EnvLaws env) (hS : Fits env source) (hs : scanTokens env source = .done (.ok ts))
    (hn : ∀ ws eof, ts = ws ++ [eof] → ∀ sts, ¬ Grammar repl false .declarations ws (.stmts sts)) : Rejects env repl source := by
  obtain ⟨r, hr⟩ := parse_terminates (repl := repl) hE hS hs
  cases r with
  | error causes => exact ⟨causes, hr⟩
  | ok sts =>
    obtain ⟨ws, eof, hs', -, hG⟩ := accepted_derivable hE hS (repl := repl) (sts := sts) hr
    rw [hs] at hs'
    cases hs'
    exact absurd hG (hn ws eof rfl sts)

/-- Dropping the last token. -/
theorem drop_eof {a ws : List Token} {t u : Token} {b : List Token} {eof : Token} (h : a ++ t :: u :: b = ws ++ [eof]) :
    ∃ b', ws = a ++ t :: b' ∧ b' ++ [eof] = u :: b := by
  rcases List.append_eq_append_iff.1 h with ⟨z, rfl, e⟩ | ⟨z, rfl, e⟩
  · cases z with
    | nil => simp at e
    | cons x z =>
      simp only [List.cons_append, List.cons.injEq] at e
      exact ⟨z, by rw [e.1], e.2.symm⟩
  · cases z with
    | nil => simp at e
    | cons x z => simp at e

/-- C31 (negation): a source that starts with a block in braces followed by a newline is rejected. -/
theorem block_newline_rejected (hE : EnvLaws env) (hS : Fits env source) {o c n x : Token} {w b : List Token}
    (hs : scanTokens env source = .done (.ok (o :: w ++ c :: n :: x :: b))) (ho : o.tokenType = .leftBrace) (hw : WellNested w)
    (hc : c.tokenType = .rightBrace) (hn : n.tokenType = .terminator) : Rejects env repl source := by
  refine rejects_of hE hS hs ?_
  intro ws eof e sts hG
  rw [show o :: w ++ c :: n :: x :: b = (o :: w ++ [c]) ++ n :: x :: b by simp] at e
  obtain ⟨b', rfl, -⟩ := drop_eof e
  exact block_newline (b := b') ho hw hc hn (by simpa using hG)

/-- A block followed by a newline; without the newline the source is accepted. -/
example : scanTokens asciiEnv c!"{a\n}\nb\n" = .done (.ok (⟨.leftBrace, c!"{", none, none, 1, 1⟩ :: [⟨.identifier, c!"a", none, none, 1, 2⟩, ⟨.terminator, c!"\n", none, none, 1, 3⟩] ++
    ⟨.rightBrace, c!"}", none, none, 2, 1⟩ :: ⟨.terminator, c!"\n", none, none, 2, 2⟩ :: ⟨.identifier, c!"b", none, none, 3, 1⟩ :: [⟨.terminator, c!"\n", none, none, 3, 2⟩, ⟨.eof, c!"", none, none, 4, 1⟩])) ∧
    WellNested [⟨.identifier, c!"a", none, none, 1, 2⟩, ⟨.terminator, c!"\n", none, none, 1, 3⟩] ∧
    Accepts asciiEnv false c!"{a\n}b\n" [.block [.expression (v c!"a" 1 2)], .expression (v c!"b" 2 2)] :=
  ⟨by by_kernel, by unfold WellNested; by_kernel, by unfold Accepts; by_kernel⟩

/-- C31 (negation): a source that starts with an `if` or a `while` whose body is in braces and
followed by a newline is rejected. -/
theorem braced_body_newline_rejected (hE : EnvLaws env) (hS : Fits env source) {t p q o c n x : Token} {w₁ w b : List Token}
    (hs : scanTokens env source = .done (.ok (t :: p :: w₁ ++ q :: o :: w ++ c :: n :: x :: b)))
    (ht : t.tokenType = .while ∨ t.tokenType = .if) (hw₁ : WellNested w₁) (hq : q.tokenType = .rightParen)
    (ho : o.tokenType = .leftBrace) (hw : WellNested w)
    (hc : c.tokenType = .rightBrace) (hn : n.tokenType = .terminator) : Rejects env repl source := by
  refine rejects_of hE hS hs ?_
  intro ws eof e sts hG
  rw [show t :: p :: w₁ ++ q :: o :: w ++ c :: n :: x :: b = (t :: p :: w₁ ++ q :: o :: w ++ [c]) ++ n :: x :: b by simp] at e
  obtain ⟨b', rfl, -⟩ := drop_eof e
  exact loop_newline (b := b') (p := p) ht hw₁ hq ho hw hc hn (by simpa using hG)

example : scanTokens asciiEnv c!"if (a) {b\n}\nc\n" = .done (.ok (⟨.if, c!"if", none, none, 1, 1⟩ :: ⟨.leftParen, c!"(", none, none, 1, 4⟩ ::
    [⟨.identifier, c!"a", none, none, 1, 5⟩] ++ ⟨.rightParen, c!")", none, none, 1, 6⟩ :: ⟨.leftBrace, c!"{", none, none, 1, 8⟩ :: [⟨.identifier, c!"b", none, none, 1, 9⟩, ⟨.terminator, c!"\n", none, none, 1, 10⟩] ++
    ⟨.rightBrace, c!"}", none, none, 2, 1⟩ :: ⟨.terminator, c!"\n", none, none, 2, 2⟩ :: ⟨.identifier, c!"c", none, none, 3, 1⟩ :: [⟨.terminator, c!"\n", none, none, 3, 2⟩, ⟨.eof, c!"", none, none, 4, 1⟩])) ∧
    WellNested [⟨.identifier, c!"a", none, none, 1, 5⟩] ∧ WellNested [⟨.identifier, c!"b", none, none, 1, 9⟩, ⟨.terminator, c!"\n", none, none, 1, 10⟩] :=
  ⟨by by_kernel, by unfold WellNested; by_kernel, by unfold WellNested; by_kernel⟩

/-- C31: no declaration starts with a newline. -/
theorem declaration_not_newline {l : Bool} {n : Token} {w : List Token} {s : Stmt}
    (h : Grammar repl l .declaration (n :: w) (.stmt s)) : n.tokenType ≠ .terminator :=
  first_ne h (by decide)

/-! ### C32 -/

/-- C32 (negation): a source in which `else` is directly followed by a newline is rejected. -/
theorem else_newline_rejected (hE : EnvLaws env) (hS : Fits env source) {a b : List Token} {t n : Token}
    (hs : scanTokens env source = .done (.ok (a ++ t :: n :: b))) (ht : t.tokenType = .else)
    (hn : n.tokenType = .terminator) : Rejects env repl source := by
  refine rejects_of hE hS hs ?_
  intro ws eof e sts hG
  obtain ⟨front, eof', e', he, -⟩ := (scan_tokensOk hE hs).eof
  rw [e] at e'
  obtain ⟨-, e'⟩ := List.append_inj' e' rfl
  cases e'
  obtain ⟨b', rfl, eb⟩ := drop_eof e
  cases b' with
  | nil => simp only [List.nil_append, List.cons.injEq] at eb; rw [eb.1, hn] at he; cases he
  | cons n' b' =>
    simp only [List.cons_append, List.cons.injEq] at eb
    exact noElse_not (grammar_noElse hG) a t n' b' rfl ht (by rw [eb.1]; exact hn)

/-- Such a source, and one with the else branch on the same line, which is accepted. -/
example : (∃ a t n b, scanTokens asciiEnv c!"if (a)\n  b\nelse\n  c\n" = .done (.ok (a ++ t :: n :: b)) ∧
      t.tokenType = .else ∧ n.tokenType = .terminator) ∧
    Accepts asciiEnv false c!"if (a)\n  b\nelse c\n" [.if (v c!"a" 1 5) (.block [.expression (v c!"b" 2 3)])
      (some (.expression (v c!"c" 3 6)))] :=
  ⟨⟨[⟨.if, c!"if", none, none, 1, 1⟩, ⟨.leftParen, c!"(", none, none, 1, 4⟩, ⟨.identifier, c!"a", none, none, 1, 5⟩, ⟨.rightParen, c!")", none, none, 1, 6⟩, ⟨.terminator, c!"\n", none, none, 1, 7⟩, ⟨.indent, c!"b", none, none, 2, 3⟩, ⟨.identifier, c!"b", none, none, 2, 3⟩, ⟨.terminator, c!"\n", none, none, 2, 4⟩, ⟨.outdent, c!"e", none, none, 3, 1⟩], ⟨.else, c!"else", none, none, 3, 1⟩, ⟨.terminator, c!"\n", none, none, 3, 5⟩, [⟨.indent, c!"c", none, none, 4, 3⟩, ⟨.identifier, c!"c", none, none, 4, 3⟩, ⟨.terminator, c!"\n", none, none, 4, 4⟩, ⟨.outdent, c!"", none, none, 5, 1⟩, ⟨.eof, c!"", none, none, 5, 1⟩], by by_kernel, rfl, rfl⟩,
    by unfold Accepts; by_kernel⟩

/-! ### C33, C34 -/

/-- C34: every `for` of an accepted program starts a for loop, and the syntax tree contains the loop
it stands for. -/
theorem for_loops (hE : EnvLaws env) (hS : Fits env source) (h : Accepts env repl source sts) {a b : List Token} {t : Token}
    (hs : scanTokens env source = .done (.ok (a ++ t :: b))) (ht : t.tokenType = .for) :
    ∃ l o w₀ init w₁ cond semi w₂ inc c w₃ body b', b = o :: w₀ ++ w₁ ++ semi :: w₂ ++ c :: w₃ ++ b' ∧ IsParen o ∧
      Grammar repl l .forInit w₀ (.optStmt init) ∧ Grammar repl l .forCondition w₁ (.expr cond) ∧
      semi.tokenType = .semicolon ∧ Grammar repl l .forIncrement w₂ (.optExpr inc) ∧ c.tokenType = .rightParen ∧
      Grammar repl true .body w₃ (.stmt body) ∧ Part (.stmt (forLoop init cond inc body)) sts := by
  obtain ⟨ws, eof, hs', he, hG⟩ := accepted_derivable hE hS h
  rw [hs] at hs'
  have e : a ++ t :: b = ws ++ [eof] := by simpa using hs'
  have hb : ∃ b', ws = a ++ t :: b' ∧ b = b' ++ [eof] := by
    cases b with
    | nil =>
      obtain ⟨-, e⟩ := List.append_inj' e rfl
      cases e
      rw [ht] at he; cases he
    | cons u b =>
      obtain ⟨b', h1, h2⟩ := drop_eof e
      exact ⟨b', h1, h2.symm⟩
  obtain ⟨b', rfl, rfl⟩ := hb
  have main : HeadsFor repl (fun n => (∃ s, n = .stmt s) → Part n sts) b' :=
    grammar_for (Q := fun n => (∃ s, n = .stmt s) → Part n sts) (by rintro n h ⟨s, rfl⟩; exact absurd rfl (h s)) hG
      (fun s hs x hx _ => ⟨s, hs, hx⟩) a t b' rfl ht
  obtain ⟨l, o, w₀, init, w₁, cond, semi, w₂, inc, c, w₃, body, z, rfl, h1, h2, h3, h4, h5, h6, h7, h8⟩ := main
  exact ⟨l, o, w₀, init, w₁, cond, semi, w₂, inc, c, w₃, body, z ++ [eof], by simp, h1, h2, h3, h4, h5, h6, h7, h8 ⟨_, rfl⟩⟩

example : ∃ t b, EnvLaws asciiEnv ∧ Fits asciiEnv forSource ∧ Accepts asciiEnv false forSource forTree ∧
    scanTokens asciiEnv forSource = .done (.ok ([] ++ t :: b)) ∧ t.tokenType = .for :=
  ⟨_, _, for_ok.1, for_ok.2.1, for_ok.2.2, rfl, by by_kernel⟩

/-- C33 (negation): outside the REPL, a source with a for loop that starts with an expression and a
semicolon is rejected. The expression can be any non-empty, properly nested list of tokens that does
not start with `var` and has no semicolon or newline outside brackets. -/
theorem for_expression_rejected (hE : EnvLaws env) (hS : Fits env source) {a b w : List Token} {t o s : Token}
    (hs : scanTokens env source = .done (.ok (a ++ t :: o :: w ++ s :: b))) (ht : t.tokenType = .for)
    (hne : w ≠ []) (hn : WellNested w) (hv : ∀ x, w.head? = some x → x.tokenType ≠ .var)
    (htop : ∀ x ∈ topLevel 0 w, x.tokenType ≠ .semicolon ∧ x.tokenType ≠ .terminator)
    (hsemi : s.tokenType = .semicolon) : Rejects env false source := by
  refine rejects_of hE hS hs ?_
  intro ws eof e sts hG
  obtain ⟨front, eof', e', he, -⟩ := (scan_tokensOk hE hs).eof
  rw [e] at e'
  obtain ⟨-, e'⟩ := List.append_inj' e' rfl
  cases e'
  cases b with
  | nil =>
    obtain ⟨-, e⟩ := List.append_inj' e rfl
    cases e
    rw [hsemi] at he; cases he
  | cons u b =>
    obtain ⟨b', rfl, -⟩ := drop_eof e
    have main := grammar_for (Q := fun _ => True) (by simp) hG (fun s hs x hx => trivial) a t (o :: w ++ s :: b') (by simp) ht
    exact for_expression_head main hne hn hv htop hsemi

example : scanTokens asciiEnv c!"for (a; b; c) d\n" = .done (.ok ([] ++ ⟨.for, c!"for", none, none, 1, 1⟩ ::
    ⟨.leftParen, c!"(", none, none, 1, 5⟩ :: [⟨.identifier, c!"a", none, none, 1, 6⟩] ++ ⟨.semicolon, c!";", none, none, 1, 7⟩ :: [⟨.identifier, c!"b", none, none, 1, 9⟩, ⟨.semicolon, c!";", none, none, 1, 10⟩, ⟨.identifier, c!"c", none, none, 1, 12⟩, ⟨.rightParen, c!")", none, none, 1, 13⟩, ⟨.identifier, c!"d", none, none, 1, 15⟩, ⟨.terminator, c!"\n", none, none, 1, 16⟩, ⟨.eof, c!"", none, none, 2, 1⟩])) ∧
    WellNested [⟨.identifier, c!"a", none, none, 1, 6⟩] := ⟨by by_kernel, by unfold WellNested; by_kernel⟩

/-! ### C28 -/

/-- C28: a source that is accepted is accepted in the REPL, with the same syntax tree. -/
theorem repl_conservative (h : Accepts env false source sts) : Accepts env true source sts :=
  parseReplLine_of_parse h

example : Accepts asciiEnv false methods methodsTree := methods_ok.2.2
/-- Not the other way around. -/
example : Accepts asciiEnv true calls callsTree ∧ parse asciiEnv calls = .done (.error
    [.newWithLocation ⟨1, 21⟩ [] "Expect newline after expression."]) := ⟨calls_ok.2.2, by by_kernel⟩

end Ws.Properties
