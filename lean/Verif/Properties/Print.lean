import Verif.Proofs.Print.Numbers
import Verif.Properties.Js
/-! Properties C63 and C64: what `main` prints says what it found. -/
namespace Ws.Properties
open Ws Spec

variable {env : Env} {st : Style} {source source' : Str} {repl repl' : Bool} {rs rs' rs1 rs1' : Resolver}
  {r r' : Except ParseError (List Stmt)}

/-! ### C63 -/

/-- C63: two runs with the same standard output, of whatever sources and in whatever sessions, both fail, or
both succeed and with the same program: the same names, values, source locations and locations of variables. -/
theorem output_faithful (hE : EnvLaws env) (hst : StyleLaws env st) (hS : Fits env source) (hS' : Fits env source')
    (h : run env rs source repl = .done (r, rs1)) (h' : run env rs' source' repl' = .done (r', rs1')) {error error' : Str}
    (he : (printResult r).out st error = (printResult r').out st error') : r.toOption = r'.toOption := by
  cases r with
  | error es =>
    cases r' with
    | error es' => rfl
    | ok sts' =>
      obtain ⟨x, hx⟩ := statements_start st sts'
      simp [printResult, Printed.out, hx] at he
  | ok sts =>
    cases r' with
    | error es' =>
      obtain ⟨x, hx⟩ := statements_start st sts
      simp [printResult, Printed.out, hx] at he
    | ok sts' =>
      have := (statements_cut hst (run_numbers hE hS h) (run_numbers hE hS' h') (r := []) (r' := []) he).1
      rw [this]

/-- What the REPL answered to each line: a program, or nothing but errors. -/
def answers (printed : List Printed) : List (Option (List Stmt)) :=
  printed.filterMap fun
    | .statements sts => some (some sts)
    | .errors _ => some none
    | _ => none

/-- A transcript: answers, and possibly an error reading a line at the end. -/
inductive Transcript (env : Env) : List Printed → Prop
  | nil : Transcript env []
  | stop : Transcript env [.prompt, .readError]
  | errors {ls ps} : Transcript env ps → Transcript env (.prompt :: .errors ls :: ps)
  | statements {sts ps} : (∀ s ∈ sts, AllNum (Written env) (.stmt s)) → Transcript env ps →
      Transcript env (.prompt :: .statements sts :: ps)

theorem after_stopped (n : Nat) {x : Repl} (h : x.status ≠ .running) : Repl.after env n x = x := by
  induction n generalizing x with
  | zero => rfl
  | succ n ih =>
    have : x.step env = x := by
      unfold Repl.step
      split
      · contradiction
      · rfl
    rw [Repl.after, this, ih h]

theorem transcript_after (hE : EnvLaws env) (n : Nat) : ∀ (rs : Resolver) (lines : Stdin), (∀ l, some l ∈ lines → Fits env l) →
    (Repl.after env n ⟨rs, lines, [], .running⟩).status = .running ∨ (Repl.after env n ⟨rs, lines, [], .running⟩).status = .ended →
    Transcript env (Repl.after env n ⟨rs, lines, [], .running⟩).printed := by
  induction n with
  | zero => intro rs lines _ _; exact .nil
  | succ n ih =>
    intro rs lines hl hs
    rw [Repl.after] at hs ⊢
    -- a line read
    have line : ∀ (l : Str) (rest : Stdin), readLine lines = (some l, rest) →
        (∀ sts rs', run env rs l true = .done (.ok sts, rs') → ∀ s ∈ sts, AllNum (Written env) (.stmt s)) → (∀ l, some l ∈ rest → Fits env l) →
        Transcript env (Repl.after env n (Repl.step env ⟨rs, lines, [], .running⟩)).printed := by
      intro l rest hr hl hrest
      cases hrun : run env rs l true with
      | panic m =>
        have : Repl.step env ⟨rs, lines, [], .running⟩ = ⟨rs, rest, [.prompt], .panicked m⟩ := by simp [Repl.step, hr, hrun]
        rw [this, after_stopped n (by simp)] at hs
        simp at hs
      | diverge =>
        have : Repl.step env ⟨rs, lines, [], .running⟩ = ⟨rs, rest, [.prompt], .hung⟩ := by simp [Repl.step, hr, hrun]
        rw [this, after_stopped n (by simp)] at hs
        simp at hs
      | done q =>
        obtain ⟨r, rs'⟩ := q
        have : Repl.step env ⟨rs, lines, [], .running⟩ = ⟨rs', rest, [.prompt, printResult r], .running⟩ := by simp [Repl.step, hr, hrun]
        rw [this, after_printed] at hs ⊢
        have hT := ih rs' rest hrest hs
        cases r with
        | error es => exact .errors hT
        | ok sts => exact .statements (hl _ _ hrun) hT
    cases lines with
    | nil =>
      refine line [] [] rfl (fun sts rs' h => ?_) (by simp)
      rw [empty_line hE] at h
      cases h
      simp
    | cons o rest =>
      cases o with
      | some l => exact line l rest rfl (fun _ _ h => run_numbers hE (hl l (by simp)) h) (fun l h => hl l (by simp [h]))
      | none =>
        have : Repl.step env ⟨rs, none :: rest, [], .running⟩ = ⟨rs, rest, [.prompt, .readError], .ended⟩ := by
          simp [Repl.step, readLine]
        rw [this, after_stopped n (by simp)]
        exact .stop

/-- How a transcript goes on. -/
theorem transcript_head {ps : List Printed} (h : Transcript env ps) (error : Str) :
    ps.flatMap (·.out st error) = [] ∨ ∃ x, ps.flatMap (·.out st error) = '>' :: ' ' :: x := by
  cases h with
  | nil => exact .inl rfl
  | _ => exact .inr ⟨_, by rw [List.flatMap_cons]; rfl⟩

theorem out_prompt {e : Str} : Printed.out st e .prompt = c!"> " := rfl
theorem out_errors {e : Str} {ls} : Printed.out st e (.errors ls) = [] := rfl
theorem out_readError {e : Str} : Printed.out st e .readError = c!"Error reading stdin: " ++ e ++ c!"\n" := rfl
theorem out_statements {e : Str} {sts} : Printed.out st e (.statements sts) = (Dbg.list (stmtsDbg sts)).text st ++ c!"\n" := rfl

theorem transcript_cut (hst : StyleLaws env st) {error error' : Str} : ∀ {ps ps' : List Printed}, Transcript env ps → Transcript env ps' →
    ps.flatMap (·.out st error) = ps'.flatMap (·.out st error') → answers ps = answers ps' := by
  intro ps ps' h
  induction h generalizing ps' with
  | nil =>
    intro h' e
    cases h' <;> first | rfl | simp [Printed.out] at e
  | stop =>
    intro h' e
    cases h' with
    | nil => simp [Printed.out] at e
    | stop => rfl
    | errors h2 =>
      simp only [List.flatMap_cons, out_prompt, out_errors, out_statements, out_readError, List.cons_append, List.nil_append, List.cons.injEq, true_and] at e
      rcases transcript_head h2 (st := st) error' with hx | ⟨x, hx⟩ <;> rw [hx] at e <;> simp at e
    | @statements sts' ps' hn h2 =>
      obtain ⟨x, hx⟩ := statements_start st sts'
      simp [Printed.out, hx] at e
  | @errors ls ps h1 ih =>
    intro h' e
    cases h' with
    | nil => simp [Printed.out] at e
    | stop =>
      simp only [List.flatMap_cons, out_prompt, out_errors, out_statements, out_readError, List.cons_append, List.nil_append, List.cons.injEq, true_and] at e
      rcases transcript_head h1 (st := st) error with hx | ⟨x, hx⟩ <;> rw [hx] at e <;> simp at e
    | errors h2 =>
      simp only [List.flatMap_cons, out_prompt, out_errors, out_statements, out_readError, List.cons_append, List.nil_append, List.cons.injEq, true_and] at e
      exact congrArg (none :: ·) (ih h2 e)
    | @statements sts' ps' hn h2 =>
      obtain ⟨y, hy⟩ := statements_start st sts'
      simp only [List.flatMap_cons, out_prompt, out_errors, out_statements, out_readError, List.cons_append, List.nil_append, List.cons.injEq, true_and, hy] at e
      rcases transcript_head h1 (st := st) error with hx | ⟨x, hx⟩ <;> rw [hx] at e <;> simp at e
  | @statements sts ps hn h1 ih =>
    intro h' e
    cases h' with
    | nil => simp [Printed.out] at e
    | stop =>
      obtain ⟨x, hx⟩ := statements_start st sts
      simp [Printed.out, hx] at e
    | errors h2 =>
      obtain ⟨y, hy⟩ := statements_start st sts
      simp only [List.flatMap_cons, out_prompt, out_errors, out_statements, out_readError, List.cons_append, List.nil_append, List.cons.injEq, true_and, hy] at e
      rcases transcript_head h2 (st := st) error' with hx | ⟨x, hx⟩ <;> rw [hx] at e <;> simp at e
    | @statements sts' ps' hn' h2 =>
      simp only [List.flatMap_cons, out_prompt, out_errors, out_statements, out_readError, List.cons_append, List.nil_append, List.cons.injEq, true_and, List.append_assoc] at e
      obtain ⟨e1, e2⟩ := statements_cut hst hn hn' e
      rw [e1]
      exact congrArg (some sts' :: ·) (ih h2 e2)

/-- C63: two REPLs with the same standard output, which wait for input or have stopped, have answered their
lines alike: the same lines have failed, and the others have given the same programs. -/
theorem transcript_faithful (hE : EnvLaws env) (hst : StyleLaws env st) {lines lines' : Stdin} {n n' : Nat}
    (hl : ∀ l, some l ∈ lines → Fits env l) (hl' : ∀ l, some l ∈ lines' → Fits env l)
    (hs : (Repl.after env n (.start lines)).status = .running ∨ (Repl.after env n (.start lines)).status = .ended)
    (hs' : (Repl.after env n' (.start lines')).status = .running ∨ (Repl.after env n' (.start lines')).status = .ended)
    {error error' : Str}
    (he : (Repl.after env n (.start lines)).printed.flatMap (·.out st error) =
      (Repl.after env n' (.start lines')).printed.flatMap (·.out st error')) :
    answers (Repl.after env n (.start lines)).printed = answers (Repl.after env n' (.start lines')).printed :=
  transcript_cut hst (transcript_after hE n _ _ hl hs) (transcript_after hE n' _ _ hl' hs') he

/-- A style: numbers are written as their bits. -/
def bitsStyle : Style := ⟨fun x => decimal x ++ c!".0", fun c => c.toNat < 32 || 127 ≤ c.toNat⟩

theorem bitsStyle_laws : StyleLaws env bitsStyle where
  number := by
    intro s x _ _
    refine .inr ⟨?_, ?_, .inl (by simp [bitsStyle])⟩
    · intro c hc
      simp only [bitsStyle, List.mem_append, List.mem_cons, List.not_mem_nil, or_false] at hc
      rcases hc with hc | rfl | rfl
      · exact .inl (dec_isDigit (decimal_digits x c hc))
      · exact .inr (by simp)
      · exact .inl (by decide)
    · obtain ⟨d, r, h1, h2⟩ := decimal_head x
      exact ⟨d, r ++ c!".0", by simp [bitsStyle, h1], dec_isDigit h2⟩
  differ := by
    intro s x s' x' _ _ _ _ h
    exact decimal_inj (List.append_cancel_right h)

/-- A program as it is printed. -/
example : runFile asciiEnv c!"var a = {b: []}\n" =
      .done (.statements [.var c!"a" ⟨0⟩ (.literalMap [.mk c!"b" (.literalArray [])]) ⟨1, 5⟩], .code 0) ∧
    (Printed.statements [.var c!"a" ⟨0⟩ (.literalMap [.mk c!"b" (.literalArray [])]) ⟨1, 5⟩]).out bitsStyle [] = c!"[
    Var(
        \"a\",
        Cell {
            value: SlotIndex(
                0,
            ),
        },
        LiteralMap(
            Map {
                map: {
                    \"b\": LiteralArray(
                        [],
                    ),
                },
            },
        ),
        SourceLoc {
            line: 1,
            column: 5,
        },
    ),
]
" := by
  constructor <;> by_kernel

/-- Different lines with the same output. -/
example : (Repl.after asciiEnv 3 (.start [some c!"print a\n", some c!"]\n", none])).printed.flatMap (·.out bitsStyle c!"X") =
      (Repl.after asciiEnv 9 (.start [some c!"print a // b\n", some c!"^\n", none])).printed.flatMap (·.out bitsStyle c!"X") ∧
    answers (Repl.after asciiEnv 3 (.start [some c!"print a\n", some c!"]\n", none])).printed =
      [some [.print (u c!"a" 0 0 1 7)], none] := by
  constructor <;> by_kernel

/-- The hypotheses hold. -/
example : answers (Repl.after asciiEnv 3 (.start [some c!"print a\n", some c!"]\n", none])).printed =
    answers (Repl.after asciiEnv 9 (.start [some c!"print a // b\n", some c!"^\n", none])).printed :=
  transcript_faithful (error := c!"X") (error' := c!"X") asciiEnv_laws (bitsStyle_laws)
    (by
      intro l hl
      simp only [List.mem_cons, Option.some.injEq, reduceCtorEq, List.not_mem_nil, or_false] at hl
      rcases hl with rfl | rfl <;> exact fits_of_small (by by_kernel))
    (by
      intro l hl
      simp only [List.mem_cons, Option.some.injEq, reduceCtorEq, List.not_mem_nil, or_false] at hl
      rcases hl with rfl | rfl <;> exact fits_of_small (by by_kernel))
    (.inr (by by_kernel)) (.inr (by by_kernel)) (by by_kernel)

/-! ### C64 -/

/-- A key that looks like the end of one line of errors and the start of another. -/
def twoLines : Str := c!"\"a': Duplicate key in literal map.\n[line 4:20] Error at 'b\""

/-- C64 is false: one duplicate key can be printed like two. -/
theorem errors_faithful_false :
    let one := c!"x = {" ++ twoLines ++ c!": 1,\n" ++ twoLines ++ c!": 2}\n"
    let two := c!"x = {a: 1,\n\na: 2}\nprint x = {b: 1,   b: 2}\n"
    ∃ e e1 e2, wasmParseString asciiEnv one = .done (.error [e]) ∧ wasmParseString asciiEnv two = .done (.error [e1, e2]) ∧
      (printResult (.error [e])).err = (printResult (.error [e1, e2])).err := by
  refine ⟨⟨⟨3, 1⟩, some c!"a': Duplicate key in literal map.\n[line 4:20] Error at 'b", "Duplicate key in literal map."⟩,
    ⟨⟨3, 1⟩, some c!"a", "Duplicate key in literal map."⟩, ⟨⟨4, 20⟩, some c!"b", "Duplicate key in literal map."⟩, ?_, ?_, ?_⟩ <;> by_kernel

/-- A cluster with a newline is `\n` or `\r\n`. (So it is with Unicode segmentation.) -/
def LineClusters (env : Env) (source : Str) : Prop := ∀ g ∈ env.segment source, '\n' ∈ g → g = c!"\n" ∨ g = c!"\r\n"

theorem plain_line {m : Str} (h : ∀ c ∈ m, c ≠ '\n') : OneLine m := ⟨m, [], by simp, h, .inl rfl⟩

theorem listed_line {m : String} (h : m ∈ scannerMessages ∨ m ∈ parserMessages ∨ m ∈ resolverMessages) : OneLine m.toList := by
  apply plain_line
  have : ∀ m ∈ scannerMessages ++ (parserMessages ++ resolverMessages), ∀ c ∈ m.toList, c ≠ '\n' := by
    decide +kernel
  exact this m (by simpa using h)

theorem errors_lines (hE : EnvLaws env) (hS : Fits env source) (hP : LineClusters env source) (hs : Session rs) {es : ParseError}
    (h : run env rs source repl = .done (.error es, rs1)) : ∀ c ∈ es, OneLine c.message.toList := by
  intro c hc
  rcases run_messages hE hS hs h with h | h | h
  · rcases h c hc with h | ⟨g, hg, h⟩
    · exact listed_line (.inl h)
    · rw [h, String.toList_append, String.toList_ofList (l := g)]
      have hu : ∀ c ∈ "Unexpected token: ".toList, c ≠ '\n' := by decide +kernel
      by_cases hn : '\n' ∈ g
      · rcases hP g hg hn with rfl | rfl
        · exact ⟨_, c!"\n", rfl, hu, .inr rfl⟩
        · refine ⟨"Unexpected token: ".toList ++ c!"\r", c!"\n", rfl, fun c hc => ?_, .inr rfl⟩
          rcases List.mem_append.mp hc with hc | hc
          · exact hu c hc
          · rw [List.mem_singleton.mp hc]; decide
      · refine plain_line ?_
        intro c hc
        rcases List.mem_append.mp hc with hc | hc
        · exact hu c hc
        · rintro rfl; exact hn hc
  · exact listed_line (.inr (.inl (h c hc)))
  · exact listed_line (.inr (.inr (h c hc)))

/-- No error is at something with an apostrophe in it. -/
def NoApostrophes (es : ParseError) : Prop := ∀ c ∈ es, ∀ t, c.token = some t → '\'' ∉ t

/-- C64: two runs with the same standard error have the same errors, if none of them is at a string with an
apostrophe in it. -/
theorem errors_faithful_partial (hE : EnvLaws env) (hS : Fits env source) (hS' : Fits env source') (hP : LineClusters env source)
    (hP' : LineClusters env source') (hs : Session rs) (hs' : Session rs') {es es' : ParseError}
    (h : run env rs source repl = .done (.error es, rs1)) (h' : run env rs' source' repl' = .done (.error es', rs1'))
    (ha : NoApostrophes es) (ha' : NoApostrophes es')
    (he : (printResult (.error es)).err = (printResult (.error es')).err) : es = es' := by
  have key : ∀ es : ParseError, (printResult (.error es)).err = linesText es := by
    intro es
    simp only [printResult, Printed.err, linesText, List.flatMap_map, reportError_text]
  rw [key, key] at he
  exact linesText_inj (fun c hc => ⟨errors_lines hE hS hP hs h c hc, ha c hc⟩)
    (fun c hc => ⟨errors_lines hE hS' hP' hs' h' c hc, ha' c hc⟩) he

theorem ascii_lines : ∀ {source : Str}, LineClusters asciiEnv source := by
  intro source
  show ∀ g ∈ asciiSegment source, '\n' ∈ g → g = c!"\n" ∨ g = c!"\r\n"
  fun_induction asciiSegment source with
  | case1 => simp
  | case2 rest ih =>
    intro g hg
    rcases List.mem_cons.mp hg with rfl | hg
    · exact fun _ => .inr rfl
    · exact ih g hg
  | case3 c rest _ ih =>
    intro g hg
    rcases List.mem_cons.mp hg with rfl | hg
    · intro h
      rw [← List.mem_singleton.mp h]
      exact .inl rfl
    · exact ih g hg

/-- The hypotheses hold, of an error at a token and of one at none. -/
example : ∃ es es', run asciiEnv .new c!"a ]\n" false = .done (.error es, .new) ∧ run asciiEnv .new c!"b ]\n" true = .done (.error es, .new) ∧
    run asciiEnv .new c!"a ^\n" false = .done (.error es', .new) ∧ NoApostrophes es ∧ NoApostrophes es' ∧
    (printResult (.error es)).err = c!"[line 1:3] Error at ']': Expect newline after expression.\n" ∧
    (printResult (.error es')).err = c!"[line 1:4] Error: Unexpected token: ^\n" ∧
    Session .new ∧ LineClusters asciiEnv c!"a ]\n" ∧ Fits asciiEnv c!"a ]\n" ∧ EnvLaws asciiEnv :=
  ⟨[⟨⟨1, 3⟩, some c!"]", "Expect newline after expression."⟩], [⟨⟨1, 4⟩, none, "Unexpected token: ^"⟩], by by_kernel, by by_kernel,
    by by_kernel, by simp [NoApostrophes], by simp [NoApostrophes], by by_kernel, by by_kernel, .new, ascii_lines,
    fits_of_small (by by_kernel), asciiEnv_laws⟩

end Ws.Properties
