import Verif.Proofs.Parse.Recover
import Verif.Properties.Parser
/-! Properties C65 and C66: what the parser does after an error. -/
namespace Ws.Properties
open Ws Spec

variable {env : Env} {source : Str} {repl : Bool} {ts : List Token} {cs : List Cause}

/-- The first error `c` is found at the token `i`, and the errors after it are `cs`: those of what follows the first of the
words at which the parser goes on, as a program of its own. -/
def GoesOn (env : Env) (repl : Bool) (ts : List Token) (i : Nat) (c : Cause) (cs : List Cause) : Prop :=
  i < ts.length ∧ SpotAt ts i c ∧ (∃ j t, j ≤ i ∧ ts[j]? = some t ∧ Reports t c) ∧
    ∃ sts, parseTokens env (afterWord (ts.drop i)) repl = .done (if cs.isEmpty then .ok sts else .error cs)

/-- C65 as it should be: after an error the parser goes on as if the program began there. -/
def Recovery : Prop := ∀ (env : Env) (source : Str) (repl : Bool) (ts : List Token) (c : Cause) (cs : List Cause), EnvLaws env →
  Fits env source → scanTokens env source = .done (.ok ts) → parseTokens env ts repl = .done (.error (c :: cs)) →
    ∃ i, GoesOn env repl ts i c cs

/-- C65, except after a loop without an indented body, if a `break` or `continue` follows where the parser goes on. What is
missing: after that error the parser takes itself to be in a loop for good. -/
theorem recovery_partial (hE : EnvLaws env) (hS : Fits env source) (hs : scanTokens env source = .done (.ok ts)) {c : Cause}
    (h : parseTokens env ts repl = .done (.error (c :: cs))) :
    ∃ i, i < ts.length ∧ SpotAt ts i c ∧ (∃ j t, j ≤ i ∧ ts[j]? = some t ∧ Reports t c) ∧
      (c.message ≠ "Expect indent to begin block" ∨ NoJumps (afterWord (ts.drop i)) → GoesOn env repl ts i c cs) := by
  obtain ⟨i, h1, h2, h3, h4⟩ := parse_recovers (scan_tokensOk hE hs) (hS ts hs) h
  exact ⟨i, h1, h2, h3, fun hc => ⟨h1, h2, h3, h4 hc⟩⟩

/-- A program with an error at the third token, after which the parser goes on after `var`, finds `= b` to be no statement,
and goes on after `print`. -/
example : EnvLaws asciiEnv ∧ Fits asciiEnv c!"a + ]\nvar = b\nprint c\n" ∧
    scanTokens asciiEnv c!"a + ]\nvar = b\nprint c\n" = .done (.ok
      [⟨.identifier, c!"a", none, none, 1, 1⟩, ⟨.plus, c!"+", none, none, 1, 3⟩, ⟨.rightBracket, c!"]", none, none, 1, 5⟩,
        ⟨.terminator, c!"\n", none, none, 1, 6⟩, ⟨.var, c!"var", none, none, 2, 1⟩, ⟨.equal, c!"=", none, none, 2, 5⟩,
        ⟨.identifier, c!"b", none, none, 2, 7⟩, ⟨.terminator, c!"\n", none, none, 2, 8⟩,
        ⟨.print, c!"print", none, none, 3, 1⟩, ⟨.identifier, c!"c", none, none, 3, 7⟩,
        ⟨.terminator, c!"\n", none, none, 3, 8⟩, ⟨.eof, [], none, none, 4, 1⟩]) ∧
    parse asciiEnv c!"a + ]\nvar = b\nprint c\n" = .done (.error
      [⟨⟨1, 5⟩, some c!"]", "Expect expression."⟩, ⟨⟨2, 5⟩, some c!"=", "Expect expression."⟩]) :=
  ⟨asciiEnv_laws, fits_of_small (by by_kernel), by by_kernel, by by_kernel⟩

/-- The tokens of the program of the next theorem. -/
def unindented : List Token :=
  [⟨.while, c!"while", none, none, 1, 1⟩, ⟨.leftParen, c!"(", none, none, 1, 7⟩, ⟨.identifier, c!"a", none, none, 1, 8⟩,
    ⟨.rightParen, c!")", none, none, 1, 9⟩, ⟨.terminator, c!"\n", none, none, 1, 10⟩, ⟨.var, c!"var", none, none, 2, 1⟩,
    ⟨.identifier, c!"b", none, none, 2, 5⟩, ⟨.equal, c!"=", none, none, 2, 7⟩, ⟨.fun, c!"fun", none, none, 2, 9⟩,
    ⟨.leftParen, c!"(", none, none, 2, 13⟩, ⟨.rightParen, c!")", none, none, 2, 14⟩, ⟨.leftBrace, c!"{", none, none, 2, 16⟩,
    ⟨.rightBrace, c!"}", none, none, 2, 18⟩, ⟨.terminator, c!"\n", none, none, 2, 19⟩, ⟨.break, c!"break", none, none, 3, 1⟩,
    ⟨.terminator, c!"\n", none, none, 3, 6⟩, ⟨.eof, [], none, none, 4, 1⟩]

/-- C65 is false: the body of the loop is not indented; after that error the `break` outside of any loop is not reported. -/
theorem recovery_false : ¬ Recovery := by
  intro hR
  obtain ⟨i, -, hi, -, sts, h⟩ := hR asciiEnv c!"while (a)\nvar b = fun () { }\nbreak\n" false unindented
    ⟨⟨2, 1⟩, some c!"var", "Expect indent to begin block"⟩ [] asciiEnv_laws (fits_of_small (by by_kernel)) (by by_kernel) (by by_kernel)
  have at5 : ∀ j, At unindented j ⟨⟨2, 1⟩, some c!"var", "Expect indent to begin block"⟩ → j = 5 := by
    rintro j ⟨t, h1, h2, h3⟩
    have hj := (List.getElem?_eq_some_iff.mp h1).1
    have : ∀ j : Fin 17, ∀ t, unindented[j.val]? = some t → t.loc = ⟨2, 1⟩ → j.val = 5 := by decide
    exact this ⟨j, hj⟩ t h1 h2.symm
  have h5 : parseTokens asciiEnv (afterWord (unindented.drop 5)) false =
    .done (.error [⟨⟨3, 1⟩, some c!"break", "Found break statement outside of loop body"⟩]) := by by_kernel
  have h6 : parseTokens asciiEnv (afterWord (unindented.drop 6)) false =
    .done (.error [⟨⟨2, 14⟩, some c!")", "Expect expression."⟩]) := by by_kernel
  rcases hi with hi | hi | ⟨j, rfl, hi⟩
  · simp [lateMessages] at hi
  · rw [at5 i hi, h5] at h; cases h
  · rw [at5 j hi, h6] at h; cases h

/-- As `GoesOn`, but the parser takes itself to be in a loop. -/
def GoesOnInLoop (env : Env) (repl : Bool) (ts : List Token) (i : Nat) (c : Cause) (cs : List Cause) : Prop :=
  i < ts.length ∧ SpotAt ts i c ∧ (∃ j t, j ≤ i ∧ ts[j]? = some t ∧ Reports t c) ∧
    ∃ w x sts, ts = w ++ x :: afterWord (ts.drop i) ∧
      parseFrom env (inLoop x (afterWord (ts.drop i)) repl) = .done (if cs.isEmpty then .ok sts else .error cs)

/-- A program is parsed from its beginning, in no loop. -/
example : parseTokens env ts repl = parseFrom env { tokens := ts, current := 0, inLoops := 0, allowTrailing := repl } := rfl

/-- C65, what the code does after every first error: it goes on as if the program began there, or, after a block that is not
indented, as if the program began there in a loop. -/
theorem recovery_exact (hE : EnvLaws env) (hS : Fits env source) (hs : scanTokens env source = .done (.ok ts)) {c : Cause}
    (h : parseTokens env ts repl = .done (.error (c :: cs))) :
    ∃ i, GoesOn env repl ts i c cs ∨ c.message = "Expect indent to begin block" ∧ GoesOnInLoop env repl ts i c cs := by
  obtain ⟨i, h1, h2, h3, h4⟩ := parse_recovers_loop (scan_tokensOk hE hs) (hS ts hs) h
  exact ⟨i, h4.imp (fun h => ⟨h1, h2, h3, h⟩) (fun h => ⟨h.1, h1, h2, h3, h.2⟩)⟩

/-- C65, and from then on: a parser that takes itself to be in a loop does so after every further error. -/
theorem recovery_in_loop (hE : EnvLaws env) (hS : Fits env source) (hs : scanTokens env source = .done (.ok ts)) {c : Cause}
    {w rest : List Token} {x : Token} (hw : ts = w ++ x :: rest) (hr : rest ≠ [])
    (h : parseFrom env (inLoop x rest repl) = .done (.error (c :: cs))) : ∃ i, GoesOnInLoop env repl (x :: rest) i c cs := by
  have hT := scan_tokensOk hE hs
  have hb := hS ts hs
  have hd : ts.drop w.length = x :: rest := by rw [hw]; simp
  have hl : w.length < ts.length := by rw [hw]; simp
  have hX := drop_ok hT hl
  rw [hd] at hX
  obtain ⟨i, h1, h2, h3, h4⟩ := inLoop_recovers hX (List.length_pos_iff.mpr hr) (by rw [← hd, List.length_drop]; omega) h
  exact ⟨i, h1, h2, h3, h4⟩

/-- After the loop without a body the `break` is passed over and the error after it is found; if the program begins there
it is the other way round. -/
example : parse asciiEnv c!"while (a)\nvar b\nbreak\n]\n" = .done (.error
      [⟨⟨2, 1⟩, some c!"var", "Expect indent to begin block"⟩, ⟨⟨4, 1⟩, some c!"]", "Expect expression."⟩]) ∧
    parse asciiEnv c!"b\nbreak\n]\n" = .done (.error
      [⟨⟨2, 1⟩, some c!"break", "Found break statement outside of loop body"⟩]) := by
  constructor <;> by_kernel

/-- The same `break` with the loop taken away is reported. -/
example : parse asciiEnv c!"while (a)\nvar b = 1\nbreak\n" =
      .done (.error [⟨⟨2, 1⟩, some c!"var", "Expect indent to begin block"⟩]) ∧
    parse asciiEnv c!"while a)\nvar b = 1\nbreak\n" = .done (.error [⟨⟨1, 7⟩, some c!"a", "Expect '(' after while."⟩,
      ⟨⟨3, 1⟩, some c!"break", "Found break statement outside of loop body"⟩]) := by
  constructor <;> by_kernel

/-- C66: there is at most one error more than there are words at which the parser goes on. -/
theorem errors_bounded (hE : EnvLaws env) (hS : Fits env source) (hs : scanTokens env source = .done (.ok ts))
    (h : parseTokens env ts repl = .done (.error cs)) : cs.length ≤ 1 + ts.countP (fun t => decide (Begins t)) :=
  parse_count (scan_tokensOk hE hs) (hS ts hs) h

/-- The bound is met with no word and with two. -/
example : parse asciiEnv c!") ) )\n) ) )\n" = .done (.error [⟨⟨1, 1⟩, some c!")", "Expect expression."⟩]) ∧
    parse asciiEnv c!")\nprint )\nprint )\n" = .done (.error [⟨⟨1, 1⟩, some c!")", "Expect expression."⟩,
      ⟨⟨2, 7⟩, some c!")", "Expect expression."⟩, ⟨⟨3, 7⟩, some c!")", "Expect expression."⟩]) := by
  constructor <;> by_kernel

end Ws.Properties
