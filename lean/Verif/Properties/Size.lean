import Verif.Proofs.Scan.Count
import Verif.Proofs.Parse.Size
import Verif.Properties.Reading
import Verif.Properties.Driver
import Verif.Properties.Resolver
/-! Property C79: how large tokens and trees can be, and that no limit but the nesting limit can be reached. -/
namespace Ws.Properties
open Ws Spec

variable {env : Env} {source : Str} {repl : Bool} {ts : List Token} {sts sts' : List Stmt} {rs rs' : Resolver}

/-- There are no more clusters than characters. -/
theorem clusters_le (hE : EnvLaws env) : (env.segment source).length ≤ source.length := by
  have h := hE.nonempty source
  rw [← congrArg List.length (hE.joined source)]
  generalize env.segment source = cs at h
  induction cs with
  | nil => simp
  | cons g cs ih =>
    have := List.length_pos_iff.2 (h g (by simp))
    have := ih fun x hx => h x (by simp [hx])
    simp only [List.flatten_cons, List.length_append, List.length_cons]
    omega

/-- C79: a source has at most two tokens for each of its characters, and Eof. -/
theorem token_count (hE : EnvLaws env) (h : scanTokens env source = .done (.ok ts)) : ts.length ≤ 2 * source.length + 1 := by
  obtain ⟨steps, ht, hr, -, rfl⟩ := (scan_accepts_iff hE ts).1 h
  have := token_bound hr
  have := clusters_le hE (source := source)
  rw [ht] at *
  omega

/-- The length of a text is at most `isize::MAX`, as Rust documents of `String`; `usize::MAX` is twice that and one. -/
def IsText (env : Env) (source : Str) : Prop := 2 * source.length + 1 ≤ env.usizeMax

/-- C79: the tokens of every text can be counted with `usize`. So what is proved of sources whose tokens
fit holds of every text. -/
theorem string_fits (hE : EnvLaws env) (h : IsText env source) : Fits env source :=
  fun _ hs => Nat.le_trans (token_count hE hs) h

/-- C79: a program has at most four nodes for each character of its source. -/
theorem tree_size (hE : EnvLaws env) (hS : IsText env source) (h : Accepts env repl source sts) : stmtsSize sts ≤ 4 * source.length := by
  obtain ⟨ws, eof, hs, -, hg⟩ := accepted_derivable hE (string_fits hE hS) h
  have h1 := token_count hE hs
  have h2 := grammar_size hg
  simp only [treeSize, slack, spare, List.length_append, List.length_cons, List.length_nil] at h1 h2
  omega

/-- C79: the scopes of a program are nested at most as deep as its source is long. -/
theorem tree_depth (hE : EnvLaws env) (hS : IsText env source) (h : Accepts env repl source sts) : stmtsDepth sts ≤ source.length := by
  obtain ⟨ws, eof, hs, -, hg⟩ := accepted_derivable hE (string_fits hE hS) h
  have h1 := token_count hE hs
  have h2 := grammar_depth hg
  simp only [treeDepth, around, List.length_append, List.length_cons, List.length_nil] at h1 h2
  omega

mutual
theorem erase_exprSize : ∀ e : Expr, exprSize (eraseExpr e) = exprSize e
  | .assign _ _ r _ => by simp [eraseExpr, exprSize, erase_exprSize r]
  | .call f args _ => by simp [eraseExpr, exprSize, erase_exprSize f, erase_exprsSize args]
  | .binary a _ b _ => by simp [eraseExpr, exprSize, erase_exprSize a, erase_exprSize b]
  | .function d => by simp [eraseExpr, exprSize, erase_funSize d]
  | .get o _ _ => by simp [eraseExpr, exprSize, erase_exprSize o]
  | .getIndex a i _ => by simp [eraseExpr, exprSize, erase_exprSize a, erase_exprSize i]
  | .grouping e => by simp [eraseExpr, exprSize, erase_exprSize e]
  | .literalArray es => by simp [eraseExpr, exprSize, erase_exprsSize es]
  | .literalMap ms => by simp [eraseExpr, exprSize, erase_entriesSize ms]
  | .logical a _ b => by simp [eraseExpr, exprSize, erase_exprSize a, erase_exprSize b]
  | .set o _ v _ => by simp [eraseExpr, exprSize, erase_exprSize o, erase_exprSize v]
  | .setIndex a i v _ => by simp [eraseExpr, exprSize, erase_exprSize a, erase_exprSize i, erase_exprSize v]
  | .unary _ e _ => by simp [eraseExpr, exprSize, erase_exprSize e]
  | .super _ _ _ | .variable _ _ _ | .literalBool _ | .literalNumber _ | .literalNil | .literalString _ => by simp [eraseExpr, exprSize]

theorem erase_exprsSize : ∀ es : List Expr, exprsSize (eraseExprs es) = exprsSize es
  | [] => rfl
  | e :: es => by simp [eraseExprs, exprsSize, erase_exprSize e, erase_exprsSize es]

theorem erase_entriesSize : ∀ ms : List MapEntry, entriesSize (eraseEntries ms) = entriesSize ms
  | [] => rfl
  | .mk _ v :: ms => by simp [eraseEntries, entriesSize, erase_exprSize v, erase_entriesSize ms]

theorem erase_funSize : ∀ d : FunDef, funSize (eraseFun d) = funSize d
  | .mk _ body _ _ => by simp [eraseFun, funSize, erase_stmtsSize body]

theorem erase_methodsSize : ∀ ms : List NamedFun, methodsSize (eraseMethods ms) = methodsSize ms
  | [] => rfl
  | .mk _ d :: ms => by simp [eraseMethods, methodsSize, erase_funSize d, erase_methodsSize ms]

theorem erase_stmtSize : ∀ s : Stmt, stmtSize (eraseStmt s) = stmtSize s
  | .block body => by simp [eraseStmt, stmtSize, erase_stmtsSize body]
  | .break _ | .continue _ => by simp [eraseStmt, stmtSize]
  | .class _ none ms _ => by simp [eraseStmt, stmtSize, erase_methodsSize ms]
  | .class _ (some e) ms _ => by simp [eraseStmt, stmtSize, erase_exprSize e, erase_methodsSize ms]
  | .expression e => by simp [eraseStmt, stmtSize, erase_exprSize e]
  | .fun (.mk _ d) => by simp [eraseStmt, stmtSize, erase_funSize d]
  | .if c a none => by simp [eraseStmt, stmtSize, erase_exprSize c, erase_stmtSize a]
  | .if c a (some b) => by simp [eraseStmt, stmtSize, erase_exprSize c, erase_stmtSize a, erase_stmtSize b]
  | .print e => by simp [eraseStmt, stmtSize, erase_exprSize e]
  | .return e _ => by simp [eraseStmt, stmtSize, erase_exprSize e]
  | .var _ _ e _ => by simp [eraseStmt, stmtSize, erase_exprSize e]
  | .while c b => by simp [eraseStmt, stmtSize, erase_exprSize c, erase_stmtSize b]
  | .whileIncrement c b i => by simp [eraseStmt, stmtSize, erase_exprSize c, erase_stmtSize b, erase_exprSize i]

theorem erase_stmtsSize : ∀ ss : List Stmt, stmtsSize (eraseStmts ss) = stmtsSize ss
  | [] => rfl
  | s :: ss => by simp [eraseStmts, stmtsSize, erase_stmtSize s, erase_stmtsSize ss]
end

/-- C79: so has the resolved program. -/
theorem run_size (hE : EnvLaws env) (hS : IsText env source) (h : run env rs source repl = .done (.ok sts, rs')) :
    stmtsSize sts ≤ 4 * source.length := by
  rw [run_eq] at h
  cases hp : parseIn env repl source with
  | panic m => rw [hp] at h; cases h
  | diverge => rw [hp] at h; cases h
  | done r =>
    rw [hp] at h
    cases r with
    | error e => cases h
    | ok ast =>
      have h1 := tree_size hE hS (repl := repl) hp
      have h2 := congrArg stmtsSize (only_locations (rs := rs) (rs' := rs') (sts := ast) (sts' := sts) h)
      rw [erase_stmtsSize, erase_stmtsSize] at h2
      omega

/-- C79: with a source of less than 65535 characters a run never panics, and ends unless the scanner hangs. -/
theorem short_run (hE : EnvLaws env) (hS : IsText env source) (hs : Session rs) (h : source.length < 65535) :
    (∃ r, run env rs source repl = .done r) ∨ run env rs source repl = .diverge ∧ Hangs env (env.segment source) := by
  rw [run_eq]
  cases hp : parseIn env repl source with
  | panic m => exact absurd hp (parse_never_panics hE (string_fits hE hS) m)
  | diverge =>
    refine .inr ⟨rfl, (scan_hangs_iff hE).1 ?_⟩
    cases hc : scanTokens env source with
    | diverge => rfl
    | panic m => exact absurd hc (scanTokens_panic hE m)
    | done r =>
      obtain ⟨r', hr⟩ := parse_terminates (repl := repl) hE (string_fits hE hS) hc
      rw [hp] at hr
      cases hr
  | done r =>
    left
    cases r with
    | error e => exact ⟨_, rfl⟩
    | ok ast =>
      have hd := tree_depth hE hS (repl := repl) hp
      obtain ⟨h1, h2⟩ := resolve_total (sts := ast) hs
      cases hr : rs.resolve ast with
      | diverge => exact absurd hr h1
      | panic m =>
        have := (h2 m hr).2
        omega
      | done r => exact ⟨r, hr⟩

/-- The number of tokens of a source. -/
def tokenCount (env : Env) (source : Str) : Nat :=
  match scanTokens env source with
  | .done (.ok ts) => ts.length
  | _ => 0

/-- A source can have more tokens than characters: here 14 and 11. The others have four characters, four nodes, and a depth of two. -/
example : tokenCount asciiEnv c!"a\n b\nc\n d\ne" = 14 ∧ IsText asciiEnv c!"a b\n" ∧
    Accepts asciiEnv true c!"a b\n" [.expression (.call (.variable c!"a" .placeholder ⟨1, 1⟩) [.variable c!"b" .placeholder ⟨1, 3⟩] ⟨1, 3⟩)] ∧
    stmtsSize [.expression (.call (.variable c!"a" .placeholder ⟨1, 1⟩) [.variable c!"b" .placeholder ⟨1, 3⟩] ⟨1, 3⟩)] = 4 ∧
    Accepts asciiEnv false c!"{{}}" [.block [.block []]] ∧ stmtsDepth [.block [.block []]] = 2 := by
  exact ⟨by by_kernel, by unfold IsText; decide, by unfold Accepts; by_kernel, rfl, by unfold Accepts; by_kernel, rfl⟩

end Ws.Properties
