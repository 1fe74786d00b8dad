import Verif.Properties.Resolver
import Verif.Properties.Lines
/-! Properties C48–C50 of the command line program, the REPL and `parseString`. -/
namespace Ws.Properties
open Ws Spec

variable {env : Env} {source : Str} {repl : Bool} {sts : List Stmt} {rs rs' : Resolver}

/-! ### C48 -/

/-- The result of a run, by stages: the errors of the first stage that fails, or the resolved program.
Only the last stage can change the resolver. -/
inductive Stages (env : Env) (repl : Bool) (source : Str) (rs : Resolver) :
    Except ParseError (List Stmt) → Resolver → Prop
  | scan {es} : scanTokens env source = .done (.error es) → Stages env repl source rs (.error es) rs
  | parse {ts es} : scanTokens env source = .done (.ok ts) → parseTokens env ts repl = .done (.error es) →
      Stages env repl source rs (.error es) rs
  | resolve {ts ast r rs'} : scanTokens env source = .done (.ok ts) → parseTokens env ts repl = .done (.ok ast) →
      rs.resolve ast = .done (r, rs') → Stages env repl source rs r rs'

theorem run_eq : run env rs source repl = (parseIn env repl source).bind fun
    | .error e => .done (.error e, rs)
    | .ok ast => rs.resolve ast := by
  unfold run parseIn
  rfl

/-- C48: a run of the program gives what its stages give. -/
theorem run_stages {r : Except ParseError (List Stmt)} :
    run env rs source repl = .done (r, rs') ↔ Stages env repl source rs r rs' := by
  rw [run_eq]
  constructor
  · intro h
    cases hs : scanTokens env source with
    | panic m => rw [parseIn_eq, scanThen, hs] at h; cases h
    | diverge => rw [parseIn_eq, scanThen, hs] at h; cases h
    | done q =>
      cases q with
      | error es => rw [parseIn_error hs] at h; cases h; exact .scan hs
      | ok ts =>
        rw [parseIn_ok hs] at h
        cases hp : parseTokens env ts repl with
        | panic m => rw [hp] at h; cases h
        | diverge => rw [hp] at h; cases h
        | done q =>
          rw [hp] at h
          cases q with
          | error es => cases h; exact .parse hs hp
          | ok ast => exact .resolve hs hp h
  · intro h
    cases h with
    | scan hs => rw [parseIn_error hs]; rfl
    | parse hs hp => rw [parseIn_ok hs, hp]; rfl
    | resolve hs hp hr => rw [parseIn_ok hs, hp]; exact hr

theorem wasm_run : wasmParseString env source = (run env .new source false).bind fun (r, _) => .done r := by
  unfold wasmParseString run Ws.resolve
  simp only [bind, Bool.false_eq_true, if_false]
  cases parse env source with
  | done q => cases q <;> rfl
  | panic m => rfl
  | diverge => rfl

/-- C48: `parseString` gives what the stages give for a new resolver; so calls do not influence one
another. -/
theorem parseString_stages {r : Except ParseError (List Stmt)} :
    wasmParseString env source = .done r ↔ ∃ rs', Stages env false source .new r rs' := by
  rw [wasm_run]
  constructor
  · intro h
    cases hr : run env .new source false with
    | panic m => rw [hr] at h; cases h
    | diverge => rw [hr] at h; cases h
    | done q => rw [hr] at h; cases h; exact ⟨q.2, run_stages.mp hr⟩
  · rintro ⟨rs', h⟩
    rw [run_stages.mpr h]
    rfl

/-- Errors are never an empty list. -/
theorem stages_errors (hE : EnvLaws env) (hS : Fits env source) {es : ParseError}
    (h : Stages env repl source rs (.error es) rs') : es ≠ [] := by
  generalize hr : Except.error es = r at h
  cases h with
  | scan hs => cases hr; exact (errors_located hE hs).1
  | parse hs hp =>
    cases hr
    exact (parse_errors_located (repl := repl) hE hS hs (by rw [parseIn_ok hs, hp])).1
  | resolve _ _ h =>
    obtain ⟨_, es', _, e⟩ := resolve_done h
    rw [← hr] at e
    cases es' with
    | nil => simp at e
    | cons c cs => simp at e; simp [e]

/-- C48: running a file prints the resolved program and exits with 0, or prints at least one line of
errors and exits with 65; it is the result of `parseString`. -/
theorem exit_code (hE : EnvLaws env) (hS : Fits env source) {printed : Printed} {exit : Exit}
    (h : runFile env source = .done (printed, exit)) :
    (∃ sts, wasmParseString env source = .done (.ok sts) ∧ printed = .statements sts ∧ exit = .code 0) ∨
    (∃ es, wasmParseString env source = .done (.error es) ∧ es ≠ [] ∧ printed = .errors (es.map reportError) ∧
      exit = .code 65) := by
  unfold runFile at h
  simp only [bind] at h
  rw [wasm_run]
  cases hr : run env .new source false with
  | panic m => rw [hr] at h; cases h
  | diverge => rw [hr] at h; cases h
  | done q =>
    rw [hr] at h
    obtain ⟨r, rs'⟩ := q
    cases r with
    | ok sts => cases h; exact .inl ⟨sts, rfl, rfl, rfl⟩
    | error es => cases h; exact .inr ⟨es, rfl, stages_errors hE hS (run_stages.mp hr), rfl, rfl⟩

/-- C48: running a file comes to an end if and only if `parseString` does. -/
theorem run_file_ends : (∃ p, runFile env source = .done p) ↔ ∃ r, wasmParseString env source = .done r := by
  unfold runFile
  rw [wasm_run]
  simp only [bind]
  cases run env .new source false with
  | panic m => simp [Outcome.bind]
  | diverge => simp [Outcome.bind]
  | done q =>
    obtain ⟨r, rs'⟩ := q
    cases r <;> simp [Outcome.bind]

/-- C48: a run that does not return hangs in the scanner, or panics because the resolver nests more than
65535 scopes. -/
theorem run_total (hE : EnvLaws env) (hS : Fits env source) (hs : Session rs) :
    (run env rs source repl = .diverge ↔ scanTokens env source = .diverge) ∧
    ∀ m, run env rs source repl = .panic m → m = "Too many nested lexical scopes" ∧
      ∃ sts, Accepts env repl source sts ∧ 65535 < 1 + stmtsDepth sts := by
  rw [run_eq]
  cases h : scanTokens env source with
  | panic m => exact absurd h (scanTokens_panic hE m)
  | diverge => rw [parseIn_diverge h]; simp [Outcome.bind]
  | done r =>
    obtain ⟨r', hr⟩ := parse_terminates (repl := repl) hE hS h
    rw [hr]
    cases r' with
    | error es => simp [Outcome.bind]
    | ok sts =>
      have := resolve_total (sts := sts) hs
      refine ⟨by simp [Outcome.bind, this.1], fun m hm => ?_⟩
      obtain ⟨h1, h2⟩ := this.2 m hm
      exact ⟨h1, sts, hr, h2⟩

example : runFile asciiEnv c!"a\nb ]\n" = .done (.errors ["[line 2:3] Error at ']': Expect newline after expression."], .code 65) ∧
    runFile asciiEnv c!"a ^\n" = .done (.errors ["[line 1:4] Error: Unexpected token: ^"], .code 65) ∧
    runFile asciiEnv c!"return\nthis\n" =
      .done (.errors ["[line 1:1] Error at 'return': Cannot return from top-level code.",
        "[line 2:1] Error at 'this': Cannot use 'this' outside of a class."], .code 65) ∧
    runFile asciiEnv scoping = .done (.statements scopingTree, .code 0) :=
  ⟨by by_kernel, by by_kernel, by by_kernel, by by_kernel⟩

/-! ### C49 -/

theorem segment_nil (hE : EnvLaws env) : env.segment [] = [] := by
  cases h : env.segment [] with
  | nil => rfl
  | cons g gs =>
    have := hE.joined []
    rw [h, List.flatten_cons] at this
    exact absurd (List.append_eq_nil_iff.mp this).1 (hE.nonempty [] g (by simp [h]))

/-- The REPL accepts the empty line. -/
theorem empty_line (hE : EnvLaws env) : run env rs [] true = .done (.ok [], rs) := by
  have : parseReplLine env [] = .done (.ok []) := by
    unfold parseReplLine scanThen scanTokens
    rw [segment_nil hE]
    rfl
  unfold run
  simp only [if_true, this]
  rfl

/-- C49 is false: at the end of its input the REPL prints a prompt and an empty program again and again,
for ever. -/
theorem repl_never_ends (hE : EnvLaws env) (printed : List Printed) (n : Nat) :
    Repl.after env n ⟨rs, [], printed, .running⟩ =
      ⟨rs, [], printed ++ (List.replicate n [.prompt, .statements []]).flatten, .running⟩ := by
  induction n generalizing printed with
  | zero => simp [Repl.after]
  | succ n ih =>
    have : Repl.step env ⟨rs, [], printed, .running⟩ = ⟨rs, [], printed ++ [.prompt, .statements []], .running⟩ := by
      simp [Repl.step, readLine, empty_line hE, printResult]
    rw [Repl.after, this, ih]
    simp [List.replicate_succ]

/-- C49: the REPL only returns after an error reading its input. -/
theorem repl_ends (env : Env) (n : Nat) (lines : Stdin) (h : (Repl.after env n (.start lines)).status = .ended) : none ∈ lines := by
  have key : ∀ n (r : Repl), r.status ≠ .ended → none ∉ r.stdin → (Repl.after env n r).status ≠ .ended := by
    intro n
    induction n with
    | zero => exact fun r h _ => h
    | succ n ih =>
      intro r hr hn
      rw [Repl.after]
      have : (r.step env).status ≠ .ended ∧ none ∉ (r.step env).stdin := by
        unfold Repl.step
        split
        · rename_i hrun
          cases hl : r.stdin with
          | nil =>
            simp only [readLine]
            split <;> simp_all
          | cons l rest =>
            cases l with
            | none => rw [hl] at hn; simp at hn
            | some l =>
              simp only [readLine]
              rw [hl] at hn
              split <;> simp_all
        · exact ⟨hr, hn⟩
      exact ih _ this.1 this.2
  exact Decidable.byContradiction fun hn => key n (.start lines) (by simp [Repl.start]) hn h

example : (Repl.after asciiEnv 1000000 (.start [])).status = .running := by
  unfold Repl.start
  rw [repl_never_ends asciiEnv_laws]

/-! ### C50 -/

/-- What the REPL has printed so far has no influence. -/
theorem after_printed (env : Env) (n : Nat) : ∀ (rs : Resolver) (stdin : Stdin) (p : List Printed) (st : ReplStatus),
    Repl.after env n ⟨rs, stdin, p, st⟩ =
      { Repl.after env n ⟨rs, stdin, [], st⟩ with printed := p ++ (Repl.after env n ⟨rs, stdin, [], st⟩).printed } := by
  induction n with
  | zero => intro rs stdin p st; simp [Repl.after]
  | succ n ih =>
    intro rs stdin p st
    have step : ∃ rs' stdin' q st', ∀ p, Repl.step env ⟨rs, stdin, p, st⟩ = ⟨rs', stdin', p ++ q, st'⟩ := by
      unfold Repl.step
      cases st with
      | running =>
        simp only
        rcases readLine stdin with ⟨_ | l, rest⟩
        · exact ⟨_, _, _, _, fun p => rfl⟩
        · simp only
          cases run env rs l true with
          | done q => exact ⟨_, _, _, _, fun p => rfl⟩
          | panic m => exact ⟨_, _, _, _, fun p => rfl⟩
          | diverge => exact ⟨_, _, _, _, fun p => rfl⟩
      | ended => exact ⟨rs, stdin, [], .ended, fun p => by simp⟩
      | panicked m => exact ⟨rs, stdin, [], .panicked m, fun p => by simp⟩
      | hung => exact ⟨rs, stdin, [], .hung, fun p => by simp⟩
    obtain ⟨rs', stdin', q, st', h⟩ := step
    simp only [Repl.after, h]
    rw [ih rs' stdin' (p ++ q) st', ih rs' stdin' ([] ++ q) st']
    simp

/-- C50: a line that the scanner or the parser rejects leaves the REPL as if it had not been entered, but
for its errors being printed. -/
theorem rejected_line_partial {line : Str} {es : ParseError} (h : parseIn env true line = .done (.error es)) (n : Nat)
    (rest : Stdin) (printed : List Printed) :
    let without := Repl.after env n ⟨rs, rest, [], .running⟩
    Repl.after env (n + 1) ⟨rs, some line :: rest, printed, .running⟩ =
      { without with printed := printed ++ [.prompt, .errors (es.map reportError)] ++ without.printed } := by
  have hr : run env rs line true = .done (.error es, rs) := by rw [run_eq, h]; rfl
  have : Repl.step env ⟨rs, some line :: rest, printed, .running⟩ =
      ⟨rs, rest, printed ++ [.prompt, .errors (es.map reportError)], .running⟩ := by
    simp [Repl.step, readLine, hr, printResult]
  simp only [Repl.after, this]
  rw [after_printed]

/-- A line that does not parse, and one that does not scan. -/
example : parseIn asciiEnv true c!"print (a\n" = .done (.error [⟨⟨1, 9⟩, some c!"\n", "Missing close parenthesis."⟩]) ∧
    parseIn asciiEnv true c!"a ^\n" = .done (.error [⟨⟨1, 4⟩, none, "Unexpected token: ^"⟩]) :=
  ⟨by by_kernel, by by_kernel⟩

/-- C50 is false of a line that only the resolver rejects: `print a` succeeds, but not after the line
`var a = this`. -/
theorem rejected_line_false :
    (Repl.after asciiEnv 1 (.start [some c!"print a\n"])).printed = [.prompt, .statements [.print (u c!"a" 0 0 1 7)]] ∧
    (Repl.after asciiEnv 2 (.start [some c!"var a = this\n", some c!"print a\n"])).printed =
      [.prompt, .errors ["[line 1:9] Error at 'this': Cannot use 'this' outside of a class."],
        .prompt, .errors ["[line 1:7] Error at 'a': Cannot read local variable in its own initializer."]] :=
  ⟨by by_kernel, by by_kernel⟩

end Ws.Properties
