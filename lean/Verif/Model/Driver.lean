import Verif.Model.Parser
import Verif.Model.Resolver
/-! Model of `src/main.rs` and `src/wasm.rs`: the three ways a user runs the library.

Not modelled: the argument parser. The conversion to a JavaScript value is in `Js.lean`, the `{:#?}`
rendering of a successful result in `Print.lean`. -/
namespace Ws

/-- `main.rs:88-102` `run`: parse, then resolve with the given resolver. Returns the result and the
resolver's new state. `RunError` has a single variant, so it is the `ParseError` itself. -/
def run (env : Env) (rs : Resolver) (source : Str) (forRepl : Bool) :
    Outcome (Except ParseError (List Stmt) × Resolver) := do
  match ← (if forRepl then parseReplLine env source else parse env source) with
  | .error e => .done (.error e, rs)
  | .ok ast => rs.resolve ast

/-- `main.rs:124-145` `print_parse_error`, `report_error` and `report_error_at_token`: the line
written to standard error. -/
def reportError (c : Cause) : String :=
  match c.token with
  | none => s!"[line {c.loc.line}:{c.loc.column}] Error: {c.message}"
  | some t =>
    s!"[line {c.loc.line}:{c.loc.column}] Error at '{String.ofList t}': {c.message}"

/-- What `print_result` prints (`main.rs:104-122`): the statements (always asked for,
`print_success` is `true` at both calls), or one line per error on standard error. -/
inductive Printed where
  | prompt
  | statements (sts : List Stmt)
  | errors (lines : List String)
  | readError

/-- `main.rs:104-122` `print_result`. -/
def printResult : Except ParseError (List Stmt) → Printed
  | .ok sts => .statements sts
  | .error causes => .errors (causes.map reportError)

/-- How a process ends. -/
inductive Exit where
  | code (n : Nat)
  deriving Repr, DecidableEq

/-- `main.rs:38-44` and `74-86` `run_file`, for a file that can be opened and read as UTF-8 (else
the program panics): what is printed and the exit code. -/
def runFile (env : Env) (contents : Str) : Outcome (Printed × Exit) := do
  let (result, _) ← run env Resolver.new contents false
  match result with
  | .ok sts => .done (printResult (.ok sts), .code 0)
  | .error e => .done (printResult (.error e), .code 65)

/-- `wasm.rs:14-23` `wasm_parse_string`, up to the conversion of the statements to a `JsValue`. -/
def wasmParseString (env : Env) (source : Str) : Outcome (Except ParseError (List Stmt)) := do
  match ← parse env source with
  | .error e => .done (.error e)
  | .ok ast => resolve ast

/-- Standard input as the results of successive `read_line` calls: `some line`, or `none` for a read
error. When the list is used up, input is at its end, and `read_line` returns `Ok(0)` leaving the
line empty, again and again. -/
abbrev Stdin := List (Option Str)

/-- `stdin.lock().read_line(&mut input)` (`main.rs:59-60`). -/
def readLine : Stdin → Option Str × Stdin
  | [] => (some [], [])
  | r :: rest => (r, rest)

/-- Is the REPL still in its loop? -/
inductive ReplStatus where
  /-- in the loop -/
  | running
  /-- left the loop: `run_repl` returned -/
  | ended
  | panicked (msg : String)
  /-- a line never finishes being processed -/
  | hung
  deriving Repr, DecidableEq

/-- The REPL between two iterations of its loop. -/
structure Repl where
  resolver : Resolver
  stdin : Stdin
  printed : List Printed
  status : ReplStatus

/-- `main.rs:50-52`: the start of `run_repl`. -/
def Repl.start (stdin : Stdin) : Repl := ⟨Resolver.new, stdin, [], .running⟩

/-- `main.rs:53-70`: one iteration of the loop of `run_repl`. -/
def Repl.step (env : Env) (r : Repl) : Repl :=
  match r.status with
  | .running =>
    match readLine r.stdin with
    | (none, rest) =>
      { r with stdin := rest, printed := r.printed ++ [.prompt, .readError], status := .ended }
    | (some input, rest) =>
      match run env r.resolver input true with
      | .done (result, rs') =>
        { r with
          resolver := rs', stdin := rest,
          printed := r.printed ++ [.prompt, printResult result] }
      | .panic m =>
        { r with stdin := rest, printed := r.printed ++ [.prompt], status := .panicked m }
      | .diverge =>
        { r with stdin := rest, printed := r.printed ++ [.prompt], status := .hung }
  | _ => r

/-- The REPL after `n` iterations. -/
def Repl.after (env : Env) : Nat → Repl → Repl
  | 0, r => r
  | n + 1, r => Repl.after env n (r.step env)

end Ws
