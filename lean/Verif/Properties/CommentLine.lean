import Verif.Proofs.Scan.CommentLine
import Verif.Proofs.Unchanged
import Verif.Properties.Relabel
import Verif.Properties.Positions
import Verif.Properties.Lines
/-! Property C15, partially: comment lines before lines of code. -/
namespace Ws.Properties
open Ws Spec
variable {env : Env} {source source' : Str} {ts : List Token} {rs : Resolver} {repl : Bool}

/-- C15, partially: a comment line may also be inserted before a line of code of the same indentation,
whatever that line opens or closes, of an accepted source. Tokens of later lines move down by one. The
Indent or Outdent tokens that come before the comment now have another text and place; all else is the
same. -/
theorem comment_before_line_partial (hE : EnvLaws env) {before : List Str} (h : CompleteLines env before) {n k : Nat}
    (hk : BlockIndented env before n) {body : List Str} (hb : ['\n'] ∉ body) {g : Str} {after : List Str}
    (hg : g ∉ [[' '], ['\t'], ['\r'], ['\n'], ['\\']])
    (hs : scanClusters env (before ++ (spaces k ++ g :: after)) = .done (.ok ts)) :
    ∃ ts', scanClusters env (before ++ (spaces k ++ commentText body ++ newline) ++ (spaces k ++ g :: after)) =
        .done (.ok ts') ∧
      ts'.map unplaced = (ts.map (tokenDown (lineAfter before))).map unplaced :=
  insert_comment_before hE.toAsciiLaws h hk hb hg hs

/-- C15, partially: exactly when a comment line may be inserted. The current block is indented by `n`
and the next line of code by `m`; no line is indented by more than 65535 spaces. A comment line indented
by `k` changes nothing but the text and place of Indent and Outdent tokens, and lines, if and only if
`k` is the indentation of the block, or of the next line, or of a block that the next line closes. -/
theorem comment_line_exact_partial (hE : EnvLaws env) {before : List Str} (h : CompleteLines env before) {n k m : Nat}
    (hn : BlockIndented env before n) {body : List Str} (hb : ['\n'] ∉ body) {g : Str} {after : List Str}
    (hg : g ∉ [[' '], ['\t'], ['\r'], ['\n'], ['\\']]) (hc : ¬ (g = ['/'] ∧ after.head? = some ['/']))
    (hn' : n ≤ u16Max) (hk' : k ≤ u16Max) (hm' : m ≤ u16Max)
    (hs : scanClusters env (before ++ (spaces m ++ g :: after)) = .done (.ok ts)) :
    (∃ ts', scanClusters env (before ++ (spaces k ++ commentText body ++ newline) ++ (spaces m ++ g :: after)) =
        .done (.ok ts') ∧
      ts'.map unplaced = (ts.map (tokenDown (lineAfter before))).map unplaced) ↔
    k = n ∨ k = m ∨ (m < k ∧ k < n ∧ ∃ ts0, scanClusters env (before ++ (spaces k ++ [[';']])) = .done (.ok ts0)) :=
  insert_comment_exact hE.toAsciiLaws h hn hb hg hc hn' hk' hm' hs

/-- C15, partially: tokens that differ only in lines and in the text and place of Indent and Outdent
tokens give the same program, or errors with the same messages, at whatever positions, and leave the
resolver in the same state. With the theorems above, this is what becomes of the program when a comment
line is inserted. -/
theorem comment_line_run_partial {l : Nat} {ts' : List Token} (hs : scanTokens env source = .done (.ok ts))
    (hs' : scanTokens env source' = .done (.ok ts'))
    (hts : ts'.map unplaced = (ts.map (tokenDown l)).map unplaced) :
    (∀ sts rs1, run env rs source repl = .done (.ok sts, rs1) →
      ∃ sts', run env rs source' repl = .done (.ok sts', rs1) ∧ SameProgram sts sts') ∧
    ∀ es rs1, run env rs source repl = .done (.error es, rs1) →
      ∃ es', run env rs source' repl = .done (.error es', rs1) ∧ es'.map (·.message) = es.map (·.message) := by
  have key : RelabelledRun unchanged (movedRun nowhere (run env rs source repl))
      (movedRun nowhere (run env rs source' repl)) := by
    rw [run_nowhere, run_nowhere, hs, hs']
    have := relabelled_tokens (env := env) (repl := repl) (rs := rs) unchanged_faithful (tokens_unplaced hts)
      (fun _ _ _ _ _ _ => ⟨fun _ => rfl, fun _ _ _ => rfl⟩)
    rw [state_unchanged] at this
    exact this
  have hm : ∀ es : List Cause, (es.map (moveCause nowhere)).map (·.message) = es.map (·.message) := by
    intro es
    rw [List.map_map]
    exact List.map_congr_left fun c _ => by cases c; rfl
  constructor
  · intro sts rs1 hr
    rw [hr] at key
    have := run_unchanged_ok key
    generalize run env rs source' repl = o at this
    rcases o with ⟨es' | sts', rs2⟩ | m | _ <;> simp [movedRun, mapOutcome, moveResult] at this
    exact ⟨sts', by rw [this.2], this.1.symm⟩
  · intro es rs1 hr
    rw [hr] at key
    obtain ⟨es1, this, h1⟩ := run_unchanged_error key
    generalize run env rs source' repl = o at this
    rcases o with ⟨es' | sts', rs2⟩ | m | _ <;> simp [movedRun, mapOutcome, moveResult] at this
    exact ⟨es', by rw [this.2], by rw [← hm es', this.1, h1, hm]⟩

/-- C15, partially: the same for a comment line before a line of the same indentation. -/
theorem comment_before_line_run_partial (hE : EnvLaws env) {before : List Str} (h : CompleteLines env before) {n k : Nat}
    (hk : BlockIndented env before n) {body : List Str} (hb : ['\n'] ∉ body) {g : Str} {after : List Str}
    (hg : g ∉ [[' '], ['\t'], ['\r'], ['\n'], ['\\']]) (e : env.segment source = before ++ (spaces k ++ g :: after))
    (e' : env.segment source' = before ++ (spaces k ++ commentText body ++ newline) ++ (spaces k ++ g :: after))
    (hs : scanTokens env source = .done (.ok ts)) :
    (∀ sts rs1, run env rs source repl = .done (.ok sts, rs1) →
      ∃ sts', run env rs source' repl = .done (.ok sts', rs1) ∧ SameProgram sts sts') ∧
    ∀ es rs1, run env rs source repl = .done (.error es, rs1) →
      ∃ es', run env rs source' repl = .done (.error es', rs1) ∧ es'.map (·.message) = es.map (·.message) := by
  obtain ⟨ts', hs', hts⟩ := comment_before_line_partial hE h hk hb hg (by rw [← e]; exact hs)
  exact comment_line_run_partial hs (by rw [← e'] at hs'; exact hs') hts

/-- The line `if (nil)` is a complete line in a block without indentation. -/
theorem if_nil_line : CompleteLines asciiEnv (asciiEnv.segment c!"if (nil)\n") ∧
    BlockIndented asciiEnv (asciiEnv.segment c!"if (nil)\n") 0 := by
  have e : asciiEnv.segment c!"if (nil)\n" = [c!"i", c!"f", c!" ", c!"(", c!"n", c!"i", c!"l", c!")"] ++ newline := by by_kernel
  have h0 : scanClusters asciiEnv [c!"i", c!"f", c!" ", c!"(", c!"n", c!"i", c!"l", c!")"] = .done (.ok
      [⟨.if, c!"if", none, none, 1, 1⟩, ⟨.leftParen, c!"(", none, none, 1, 4⟩,
        ⟨.nil, c!"nil", none, none, 1, 5⟩, ⟨.rightParen, c!")", none, none, 1, 8⟩, ⟨.eof, [], none, none, 1, 9⟩]) := by
    by_kernel
  have h1 : scanClusters asciiEnv [c!"i", c!"f", c!" ", c!"(", c!"n", c!"i", c!"l", c!")", c!"\n"] = .done (.ok
      [⟨.if, c!"if", none, none, 1, 1⟩, ⟨.leftParen, c!"(", none, none, 1, 4⟩,
        ⟨.nil, c!"nil", none, none, 1, 5⟩, ⟨.rightParen, c!")", none, none, 1, 8⟩,
        ⟨.terminator, c!"\n", none, none, 1, 9⟩, ⟨.eof, [], none, none, 2, 1⟩]) := by by_kernel
  have h2 : scanClusters asciiEnv [c!"i", c!"f", c!" ", c!"(", c!"n", c!"i", c!"l", c!")", c!"\n", c!";"] = .done (.ok
      [⟨.if, c!"if", none, none, 1, 1⟩, ⟨.leftParen, c!"(", none, none, 1, 4⟩,
        ⟨.nil, c!"nil", none, none, 1, 5⟩, ⟨.rightParen, c!")", none, none, 1, 8⟩,
        ⟨.terminator, c!"\n", none, none, 1, 9⟩, ⟨.semicolon, c!";", none, none, 2, 1⟩, ⟨.eof, [], none, none, 2, 2⟩]) := by
    by_kernel
  have h3 : scanClusters asciiEnv [c!"i", c!"f", c!" ", c!"(", c!"n", c!"i", c!"l", c!")", c!"\n", c!" ", c!";"] = .done (.ok
      [⟨.if, c!"if", none, none, 1, 1⟩, ⟨.leftParen, c!"(", none, none, 1, 4⟩,
        ⟨.nil, c!"nil", none, none, 1, 5⟩, ⟨.rightParen, c!")", none, none, 1, 8⟩,
        ⟨.terminator, c!"\n", none, none, 1, 9⟩, ⟨.indent, c!";", none, none, 2, 2⟩, ⟨.semicolon, c!";", none, none, 2, 2⟩,
        ⟨.outdent, [], none, none, 2, 3⟩, ⟨.eof, [], none, none, 2, 3⟩]) := by by_kernel
  rw [e]
  refine ⟨.inr ⟨_, _, rfl, h0⟩, ?_⟩
  exact ⟨[⟨.if, c!"if", none, none, 1, 1⟩, ⟨.leftParen, c!"(", none, none, 1, 4⟩,
        ⟨.nil, c!"nil", none, none, 1, 5⟩, ⟨.rightParen, c!")", none, none, 1, 8⟩,
      ⟨.terminator, c!"\n", none, none, 1, 9⟩], _, _, _, _, _, _, h1, h2, h3, ⟨0, ⟨.outdent, [], none, none, 0, 0⟩, _, rfl, rfl, rfl⟩,
    ⟨0, ⟨.outdent, [], none, none, 0, 0⟩, _, rfl, rfl, rfl⟩, ⟨1, _, _, rfl, rfl, rfl⟩, rfl, rfl, rfl⟩

/-- A comment as the first line of a block. -/
example : ∃ sts sts' rs1, run asciiEnv .new c!"if (nil)\n  true\nnil\n" false = .done (.ok sts, rs1) ∧
    run asciiEnv .new c!"if (nil)\n  // d\n  true\nnil\n" false = .done (.ok sts', rs1) ∧ SameProgram sts sts' ∧ sts.length = 2 := by
  have hs : scanTokens asciiEnv c!"if (nil)\n  true\nnil\n" = .done (.ok
      [⟨.if, c!"if", none, none, 1, 1⟩, ⟨.leftParen, c!"(", none, none, 1, 4⟩,
        ⟨.nil, c!"nil", none, none, 1, 5⟩, ⟨.rightParen, c!")", none, none, 1, 8⟩, ⟨.terminator, c!"\n", none, none, 1, 9⟩,
        ⟨.indent, c!"t", none, none, 2, 3⟩, ⟨.true, c!"true", none, none, 2, 3⟩, ⟨.terminator, c!"\n", none, none, 2, 7⟩,
        ⟨.outdent, c!"n", none, none, 3, 1⟩, ⟨.nil, c!"nil", none, none, 3, 1⟩, ⟨.terminator, c!"\n", none, none, 3, 4⟩,
        ⟨.eof, [], none, none, 4, 1⟩]) := by by_kernel
  have hr : run asciiEnv .new c!"if (nil)\n  true\nnil\n" false = .done (.ok
      [.if .literalNil (.block [.expression (.literalBool true)]) none,
        .expression .literalNil], .new) := by by_kernel
  obtain ⟨sts', h1, h2⟩ := (comment_before_line_run_partial (rs := .new) (repl := false)
    (source' := c!"if (nil)\n  // d\n  true\nnil\n") asciiEnv_laws if_nil_line.1 if_nil_line.2 (k := 2) (body := [c!" ", c!"d"]) (by decide)
    (g := c!"t") (after := [c!"r", c!"u", c!"e", c!"\n", c!"n", c!"i", c!"l", c!"\n"]) (by decide) (by by_kernel) (by by_kernel) hs).1 _ _ hr
  exact ⟨_, _, _, hr, h1, h2, rfl⟩

/-- A comment before a line that closes a block, with the tokens. -/
example : ∃ ts', scanTokens asciiEnv c!"x\n  y\n// c\nz" = .done (.ok ts') ∧ ts'.map unplaced =
    [⟨.identifier, c!"x", none, none, 1, 1⟩, ⟨.terminator, c!"\n", none, none, 1, 2⟩,
      ⟨.indent, [], none, none, 0, 0⟩, ⟨.identifier, c!"y", none, none, 2, 3⟩, ⟨.terminator, c!"\n", none, none, 2, 4⟩,
      ⟨.outdent, [], none, none, 0, 0⟩, ⟨.identifier, c!"z", none, none, 4, 1⟩, ⟨.eof, [], none, none, 4, 2⟩] := by
  have hs : scanClusters asciiEnv (asciiEnv.segment c!"x\n  y\n" ++ (spaces 0 ++ c!"z" :: [])) = .done (.ok
      [⟨.identifier, c!"x", none, none, 1, 1⟩, ⟨.terminator, c!"\n", none, none, 1, 2⟩,
        ⟨.indent, c!"y", none, none, 2, 3⟩, ⟨.identifier, c!"y", none, none, 2, 3⟩, ⟨.terminator, c!"\n", none, none, 2, 4⟩,
        ⟨.outdent, c!"z", none, none, 3, 1⟩, ⟨.identifier, c!"z", none, none, 3, 1⟩, ⟨.eof, [], none, none, 3, 2⟩]) := by
    by_kernel
  obtain ⟨ts', h1, h2⟩ := comment_before_line_partial asciiEnv_laws two_lines.1 two_lines.2 (k := 0) (body := [c!" ", c!"c"])
    (by decide) (by decide) hs
  have e : asciiEnv.segment c!"x\n  y\n// c\nz" = asciiEnv.segment c!"x\n  y\n" ++
      (spaces 0 ++ commentText [c!" ", c!"c"] ++ newline) ++ (spaces 0 ++ c!"z" :: []) := by by_kernel
  rw [← e] at h1
  exact ⟨ts', h1, h2⟩

/-- The lines `x`, `  y` and `    z` are complete lines in a block of indentation 4. -/
theorem three_lines : CompleteLines asciiEnv (asciiEnv.segment c!"x\n  y\n    z\n") ∧
    BlockIndented asciiEnv (asciiEnv.segment c!"x\n  y\n    z\n") 4 := by
  have e : asciiEnv.segment c!"x\n  y\n    z\n" = [c!"x", c!"\n", c!" ", c!" ", c!"y", c!"\n", c!" ", c!" ", c!" ", c!" ", c!"z"] ++ newline := by by_kernel
  have h0 : scanClusters asciiEnv [c!"x", c!"\n", c!" ", c!" ", c!"y", c!"\n", c!" ", c!" ", c!" ", c!" ", c!"z"] = .done (.ok
      [⟨.identifier, c!"x", none, none, 1, 1⟩, ⟨.terminator, c!"\n", none, none, 1, 2⟩,
        ⟨.indent, c!"y", none, none, 2, 3⟩, ⟨.identifier, c!"y", none, none, 2, 3⟩, ⟨.terminator, c!"\n", none, none, 2, 4⟩,
        ⟨.indent, c!"z", none, none, 3, 5⟩, ⟨.identifier, c!"z", none, none, 3, 5⟩,
        ⟨.outdent, [], none, none, 3, 6⟩, ⟨.outdent, [], none, none, 3, 6⟩, ⟨.eof, [], none, none, 3, 6⟩]) := by by_kernel
  have h1 : scanClusters asciiEnv [c!"x", c!"\n", c!" ", c!" ", c!"y", c!"\n", c!" ", c!" ", c!" ", c!" ", c!"z", c!"\n"] = .done (.ok
      [⟨.identifier, c!"x", none, none, 1, 1⟩, ⟨.terminator, c!"\n", none, none, 1, 2⟩,
        ⟨.indent, c!"y", none, none, 2, 3⟩, ⟨.identifier, c!"y", none, none, 2, 3⟩, ⟨.terminator, c!"\n", none, none, 2, 4⟩,
        ⟨.indent, c!"z", none, none, 3, 5⟩, ⟨.identifier, c!"z", none, none, 3, 5⟩, ⟨.terminator, c!"\n", none, none, 3, 6⟩,
        ⟨.outdent, [], none, none, 4, 1⟩, ⟨.outdent, [], none, none, 4, 1⟩, ⟨.eof, [], none, none, 4, 1⟩]) := by by_kernel
  have h2 : scanClusters asciiEnv [c!"x", c!"\n", c!" ", c!" ", c!"y", c!"\n", c!" ", c!" ", c!" ", c!" ", c!"z", c!"\n", c!" ", c!" ", c!" ", c!" ", c!";"] = .done (.ok
      [⟨.identifier, c!"x", none, none, 1, 1⟩, ⟨.terminator, c!"\n", none, none, 1, 2⟩,
        ⟨.indent, c!"y", none, none, 2, 3⟩, ⟨.identifier, c!"y", none, none, 2, 3⟩, ⟨.terminator, c!"\n", none, none, 2, 4⟩,
        ⟨.indent, c!"z", none, none, 3, 5⟩, ⟨.identifier, c!"z", none, none, 3, 5⟩, ⟨.terminator, c!"\n", none, none, 3, 6⟩,
        ⟨.semicolon, c!";", none, none, 4, 5⟩, ⟨.outdent, [], none, none, 4, 6⟩, ⟨.outdent, [], none, none, 4, 6⟩, ⟨.eof, [], none, none, 4, 6⟩]) := by by_kernel
  have h3 : scanClusters asciiEnv [c!"x", c!"\n", c!" ", c!" ", c!"y", c!"\n", c!" ", c!" ", c!" ", c!" ", c!"z", c!"\n", c!" ", c!" ", c!" ", c!" ", c!" ", c!";"] = .done (.ok
      [⟨.identifier, c!"x", none, none, 1, 1⟩, ⟨.terminator, c!"\n", none, none, 1, 2⟩,
        ⟨.indent, c!"y", none, none, 2, 3⟩, ⟨.identifier, c!"y", none, none, 2, 3⟩, ⟨.terminator, c!"\n", none, none, 2, 4⟩,
        ⟨.indent, c!"z", none, none, 3, 5⟩, ⟨.identifier, c!"z", none, none, 3, 5⟩, ⟨.terminator, c!"\n", none, none, 3, 6⟩,
        ⟨.indent, c!";", none, none, 4, 6⟩, ⟨.semicolon, c!";", none, none, 4, 6⟩,
        ⟨.outdent, [], none, none, 4, 7⟩, ⟨.outdent, [], none, none, 4, 7⟩, ⟨.outdent, [], none, none, 4, 7⟩, ⟨.eof, [], none, none, 4, 7⟩]) := by by_kernel
  rw [e]
  refine ⟨.inr ⟨_, _, rfl, h0⟩, ?_⟩
  exact ⟨[⟨.identifier, c!"x", none, none, 1, 1⟩, ⟨.terminator, c!"\n", none, none, 1, 2⟩,
        ⟨.indent, c!"y", none, none, 2, 3⟩, ⟨.identifier, c!"y", none, none, 2, 3⟩, ⟨.terminator, c!"\n", none, none, 2, 4⟩,
        ⟨.indent, c!"z", none, none, 3, 5⟩, ⟨.identifier, c!"z", none, none, 3, 5⟩, ⟨.terminator, c!"\n", none, none, 3, 6⟩], _, _, _, _, _, _, h1, h2, h3,
    ⟨2, _, _, rfl, rfl, rfl⟩, ⟨2, _, _, rfl, rfl, rfl⟩, ⟨3, _, _, rfl, rfl, rfl⟩, rfl, rfl, rfl⟩

/-- After these lines and before a line without indentation, comment lines indented by 0, 2 or 4 change
nothing else, and comment lines indented by 1, 3 or 5 do. -/
example (k : Nat) (hk : k ≤ 5) :
    (∃ ts', scanClusters asciiEnv (asciiEnv.segment c!"x\n  y\n    z\n" ++
        (spaces k ++ commentText [c!"c"] ++ newline) ++ (spaces 0 ++ c!"w" :: [])) = .done (.ok ts') ∧
      ts'.map unplaced = [⟨.identifier, c!"x", none, none, 1, 1⟩, ⟨.terminator, c!"\n", none, none, 1, 2⟩,
        ⟨.indent, [], none, none, 0, 0⟩, ⟨.identifier, c!"y", none, none, 2, 3⟩, ⟨.terminator, c!"\n", none, none, 2, 4⟩,
        ⟨.indent, [], none, none, 0, 0⟩, ⟨.identifier, c!"z", none, none, 3, 5⟩, ⟨.terminator, c!"\n", none, none, 3, 6⟩,
        ⟨.outdent, [], none, none, 0, 0⟩, ⟨.outdent, [], none, none, 0, 0⟩, ⟨.identifier, c!"w", none, none, 5, 1⟩,
        ⟨.eof, [], none, none, 5, 2⟩]) ↔ k = 0 ∨ k = 2 ∨ k = 4 := by
  have hs : scanClusters asciiEnv (asciiEnv.segment c!"x\n  y\n    z\n" ++ (spaces 0 ++ c!"w" :: [])) = .done (.ok
      [⟨.identifier, c!"x", none, none, 1, 1⟩, ⟨.terminator, c!"\n", none, none, 1, 2⟩,
        ⟨.indent, c!"y", none, none, 2, 3⟩, ⟨.identifier, c!"y", none, none, 2, 3⟩, ⟨.terminator, c!"\n", none, none, 2, 4⟩,
        ⟨.indent, c!"z", none, none, 3, 5⟩, ⟨.identifier, c!"z", none, none, 3, 5⟩, ⟨.terminator, c!"\n", none, none, 3, 6⟩,
        ⟨.outdent, c!"w", none, none, 4, 1⟩, ⟨.outdent, c!"w", none, none, 4, 1⟩, ⟨.identifier, c!"w", none, none, 4, 1⟩,
        ⟨.eof, [], none, none, 4, 2⟩]) := by by_kernel
  have key := comment_line_exact_partial (k := k) asciiEnv_laws three_lines.1 three_lines.2 (body := [c!"c"]) (by decide)
    (by decide) (by simp) (by decide) (by simp only [u16Max]; omega) (by decide) hs
  refine key.trans ?_
  have c1 : scanClusters asciiEnv (asciiEnv.segment c!"x\n  y\n    z\n" ++ (spaces 1 ++ [c!";"])) =
      .done (.error [.new ⟨4, 3⟩ "Outdent does not match any previous indentation level"]) := by by_kernel
  have c2 : scanClusters asciiEnv (asciiEnv.segment c!"x\n  y\n    z\n" ++ (spaces 2 ++ [c!";"])) = .done (.ok
      [⟨.identifier, c!"x", none, none, 1, 1⟩, ⟨.terminator, c!"\n", none, none, 1, 2⟩,
        ⟨.indent, c!"y", none, none, 2, 3⟩, ⟨.identifier, c!"y", none, none, 2, 3⟩, ⟨.terminator, c!"\n", none, none, 2, 4⟩,
        ⟨.indent, c!"z", none, none, 3, 5⟩, ⟨.identifier, c!"z", none, none, 3, 5⟩, ⟨.terminator, c!"\n", none, none, 3, 6⟩,
        ⟨.outdent, c!";", none, none, 4, 3⟩, ⟨.semicolon, c!";", none, none, 4, 3⟩, ⟨.outdent, [], none, none, 4, 4⟩, ⟨.eof, [], none, none, 4, 4⟩]) := by by_kernel
  have c3 : scanClusters asciiEnv (asciiEnv.segment c!"x\n  y\n    z\n" ++ (spaces 3 ++ [c!";"])) = .diverge := by by_kernel
  have : k = 0 ∨ k = 1 ∨ k = 2 ∨ k = 3 ∨ k = 4 ∨ k = 5 := by omega
  rcases this with rfl | rfl | rfl | rfl | rfl | rfl
  · simp
  · rw [c1]; simp
  · rw [c2]; simp
  · rw [c3]; simp
  · simp
  · simp

end Ws.Properties
