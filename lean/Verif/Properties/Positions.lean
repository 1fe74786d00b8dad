import Verif.Properties.Driver
import Verif.Properties.Reading
import Verif.Proofs.Parse.Positions
import Verif.Proofs.Resolve.Positions
import Verif.Proofs.Scan.Comment
/-! Properties C67–C70: positions do not matter, so that the layout of a source matters only where it
changes the tokens. -/
namespace Ws.Properties
open Ws Spec

variable {env : Env} {source source' : Str} {repl : Bool} {rs : Resolver} {g : SourceLoc → SourceLoc}

/-! ### C67 -/

/-- A run, given what the scanner gives. -/
theorem run_scan : run env rs source repl = (scanTokens env source).bind fun
    | .error e => .done (.error e, rs)
    | .ok ts => (parseTokens env ts repl).bind fun
      | .error e => .done (.error e, rs)
      | .ok ast => rs.resolve ast := by
  rw [run_eq, parseIn_eq]
  show (Outcome.bind (Outcome.bind _ _) _) = _
  cases scanTokens env source with
  | done r => cases r <;> rfl
  | panic m => rfl
  | diverge => rfl

/-- C67: if the tokens, or the errors of the scanner, are at other positions, then the program, or the
errors, are at those positions and otherwise the same, and so is the state of the resolver. The
position 1:1 stands for a missing one and must not change. -/
theorem run_moved (hg : g .default = .default) (h : scanTokens env source' = movedScan g (scanTokens env source)) :
    run env rs source' repl = movedRun g (run env rs source repl) := by
  rw [run_scan, run_scan, h]
  cases scanTokens env source with
  | panic m => rfl
  | diverge => rfl
  | done r =>
    cases r with
    | error es => rfl
    | ok ts =>
      simp only [movedScan, mapOutcome, moveResult, Outcome.bind]
      rw [parseTokens_moved hg]
      cases parseTokens env ts repl with
      | panic m => rfl
      | diverge => rfl
      | done r =>
        cases r with
        | error es => rfl
        | ok ast =>
          simp only [mapOutcome, moveResult, Outcome.bind]
          rw [resolve_moved]
          rfl

/-- A run forgets positions if the scanner does. -/
theorem run_nowhere (s : Str) :
    movedRun nowhere (run env rs s repl) = (movedScan nowhere (scanTokens env s)).bind fun
      | .error e => .done (.error e, rs)
      | .ok ts => (parseTokens env ts repl).bind fun
        | .error e => .done (.error e, rs)
        | .ok ast => rs.resolve ast := by
  rw [run_scan]
  cases scanTokens env s with
  | panic m => rfl
  | diverge => rfl
  | done r =>
    cases r with
    | error es => rfl
    | ok ts =>
      simp only [movedScan, mapOutcome, moveResult, Outcome.bind]
      rw [parseTokens_moved (g := nowhere) rfl]
      cases parseTokens env ts repl with
      | panic m => rfl
      | diverge => rfl
      | done r =>
        cases r with
        | error es => rfl
        | ok ast =>
          simp only [mapOutcome, moveResult, Outcome.bind]
          rw [resolve_moved]
          rfl

/-- C67: sources with the same tokens, at whatever positions, have the same program, or the same
errors, and leave the resolver in the same state. -/
theorem positions_irrelevant (h : SameScan (scanTokens env source) (scanTokens env source')) :
    SameRun (run env rs source repl) (run env rs source' repl) := by
  unfold SameRun
  rw [run_nowhere, run_nowhere, show movedScan nowhere (scanTokens env source) = movedScan nowhere (scanTokens env source') from h]

/-- C67: the same for `parseString`. -/
theorem positions_irrelevant_wasm (h : SameScan (scanTokens env source) (scanTokens env source')) :
    mapOutcome (moveResult nowhere (moveStmts nowhere)) (wasmParseString env source) =
      mapOutcome (moveResult nowhere (moveStmts nowhere)) (wasmParseString env source') := by
  have := positions_irrelevant (rs := .new) (repl := false) h
  rw [wasm_run, wasm_run]
  unfold SameRun movedRun at this
  cases h1 : run env .new source false <;> cases h2 : run env .new source' false <;>
    simp_all [mapOutcome, Outcome.bind]

/-- C67: the same for a single expression. -/
theorem positions_irrelevant_expression (h : SameScan (scanTokens env source) (scanTokens env source')) :
    mapOutcome (moveResult nowhere (moveExpr nowhere)) (parseExpression env source) =
      mapOutcome (moveResult nowhere (moveExpr nowhere)) (parseExpression env source') := by
  have key : ∀ s, mapOutcome (moveResult nowhere (moveExpr nowhere)) (parseExpression env s) =
      (movedScan nowhere (scanTokens env s)).bind fun
      | .error e => .done (.error e)
      | .ok ts => parseExpressionTokens env ts := by
    intro s
    show mapOutcome _ (Outcome.bind (scanTokens env s) _) = _
    cases scanTokens env s with
    | panic m => rfl
    | diverge => rfl
    | done r =>
      cases r with
      | error es => rfl
      | ok ts =>
        simp only [movedScan, mapOutcome, moveResult, Outcome.bind]
        rw [parseExpressionTokens_moved (g := nowhere) rfl]
        rfl
  rw [key, key, show movedScan nowhere (scanTokens env source) = movedScan nowhere (scanTokens env source') from h]

/-- Two sources with the same tokens, on one line and on several. -/
example : SameScan (scanTokens asciiEnv c!"f(a, b)\nc") (scanTokens asciiEnv c!"f(a,\n   b)  // d\n\nc") := by
  have h1 : scanTokens asciiEnv c!"f(a, b)\nc" = .done (.ok
      [⟨.identifier, c!"f", none, none, 1, 1⟩, ⟨.leftParenAbutting, c!"(", none, none, 1, 2⟩,
        ⟨.identifier, c!"a", none, none, 1, 3⟩, ⟨.comma, c!",", none, none, 1, 4⟩,
        ⟨.identifier, c!"b", none, none, 1, 6⟩, ⟨.rightParen, c!")", none, none, 1, 7⟩,
        ⟨.terminator, c!"\n", none, none, 1, 8⟩, ⟨.identifier, c!"c", none, none, 2, 1⟩,
        ⟨.eof, [], none, none, 2, 2⟩]) := by by_kernel
  have h2 : scanTokens asciiEnv c!"f(a,\n   b)  // d\n\nc" = .done (.ok
      [⟨.identifier, c!"f", none, none, 1, 1⟩, ⟨.leftParenAbutting, c!"(", none, none, 1, 2⟩,
        ⟨.identifier, c!"a", none, none, 1, 3⟩, ⟨.comma, c!",", none, none, 1, 4⟩,
        ⟨.identifier, c!"b", none, none, 2, 4⟩, ⟨.rightParen, c!")", none, none, 2, 5⟩,
        ⟨.terminator, c!"\n", none, none, 2, 12⟩, ⟨.identifier, c!"c", none, none, 4, 1⟩,
        ⟨.eof, [], none, none, 4, 2⟩]) := by by_kernel
  rw [h1, h2]; rfl

/-- Sources with different tokens are not the same: `a` and `b`. -/
example : ¬ SameScan (scanTokens asciiEnv c!"a") (scanTokens asciiEnv c!"b") := by
  have h1 : scanTokens asciiEnv c!"a" = .done (.ok
      [⟨.identifier, c!"a", none, none, 1, 1⟩, ⟨.eof, [], none, none, 1, 2⟩]) := by by_kernel
  have h2 : scanTokens asciiEnv c!"b" = .done (.ok
      [⟨.identifier, c!"b", none, none, 1, 1⟩, ⟨.eof, [], none, none, 1, 2⟩]) := by by_kernel
  rw [h1, h2]
  intro h
  simp [SameScan, movedScan, mapOutcome, moveResult, moveToken] at h

/-! ### C68 -/

theorem linesDown_moved (l : Nat) (o : Outcome (Except ParseError (List Token))) :
    linesDown l o = movedScan (locDown l) o := by
  have ht : tokenDown l = moveToken (locDown l) := by
    funext t
    simp only [tokenDown, moveToken, locDown, Token.loc]
    by_cases h : l ≤ t.line <;> simp [h]
  have hc : causeDown l = moveCause (locDown l) := by
    funext c
    simp only [causeDown, moveCause, locDown]
    split <;> rfl
  cases o with
  | done r => cases r <;> simp [linesDown, movedScan, mapOutcome, moveResult, ht, hc]
  | panic m => rfl
  | diverge => rfl

theorem movedScan_same (g : SourceLoc → SourceLoc) (o : Outcome (Except ParseError (List Token))) :
    SameScan (movedScan g o) o := by
  cases o with
  | done r =>
    cases r <;> simp [SameScan, movedScan, mapOutcome, moveResult, moveToken, moveCause, nowhere, Function.comp_def]
  | panic m => rfl
  | diverge => rfl

theorem locDown_default {before : List Str} (h : CompleteLines env before) (h0 : before ≠ []) :
    locDown (lineAfter before) .default = .default := by
  obtain ⟨x, ts, rfl, -⟩ := h.resolve_left h0
  have : 2 ≤ lineAfter (x ++ newline) := by
    simp [lineAfter, List.count_append, u32Max]
    omega
  exact if_neg (by simp only [SourceLoc.default]; omega)

/-- C68: inserting a line of spaces after complete lines gives the same program, or the same errors,
with everything on later lines one line further down. -/
theorem blank_line_run (hE : EnvLaws env) {before after : List Str} (h : CompleteLines env before) (h0 : before ≠ [])
    (n : Nat) (hs : env.segment source = before ++ after)
    (hs' : env.segment source' = before ++ (spaces n ++ newline) ++ after) :
    run env rs source' repl = movedRun (locDown (lineAfter before)) (run env rs source repl) := by
  refine run_moved (locDown_default h h0) ?_
  show scanClusters env (env.segment source') = movedScan _ (scanClusters env (env.segment source))
  rw [hs, hs', blank_line hE h, linesDown_moved]

/-- C68: also at the beginning, apart from the positions. -/
theorem blank_line_same (hE : EnvLaws env) {before after : List Str} (h : CompleteLines env before)
    (n : Nat) (hs : env.segment source = before ++ after)
    (hs' : env.segment source' = before ++ (spaces n ++ newline) ++ after) :
    SameRun (run env rs source' repl) (run env rs source repl) := by
  refine positions_irrelevant ?_
  show SameScan (scanClusters env (env.segment source')) (scanClusters env (env.segment source))
  rw [hs, hs', blank_line hE h, linesDown_moved]
  exact movedScan_same _ _

/-- C68: a comment on a line of its own, at the indentation of the current block. -/
theorem comment_line_run (hE : EnvLaws env) {before after : List Str} (h : CompleteLines env before) (h0 : before ≠ [])
    {k : Nat} (hk : BlockIndented env before k) {body : List Str} (hb : ['\n'] ∉ body)
    (hs : env.segment source = before ++ after)
    (hs' : env.segment source' = before ++ (spaces k ++ commentText body ++ newline) ++ after) :
    run env rs source' repl = movedRun (locDown (lineAfter before)) (run env rs source repl) := by
  refine run_moved (locDown_default h h0) ?_
  show scanClusters env (env.segment source') = movedScan _ (scanClusters env (env.segment source))
  rw [hs, hs', comment_line_partial hE h hk hb, linesDown_moved]

example : ∀ rs repl, run asciiEnv rs c!"x\n  y\n   \n  \"z\n\" + 1\nw" repl =
    movedRun (locDown 3) (run asciiEnv rs c!"x\n  y\n  \"z\n\" + 1\nw" repl) := fun _ _ =>
  blank_line_run (before := asciiEnv.segment c!"x\n  y\n") (after := asciiEnv.segment c!"  \"z\n\" + 1\nw")
    asciiEnv_laws two_lines.1 (by decide) 3 (by by_kernel) (by by_kernel)

example : ∀ rs repl, run asciiEnv rs c!"x\n  y\n  // \tc\n  z\nw" repl =
    movedRun (locDown 3) (run asciiEnv rs c!"x\n  y\n  z\nw" repl) := fun _ _ =>
  comment_line_run (before := asciiEnv.segment c!"x\n  y\n") (after := asciiEnv.segment c!"  z\nw")
    (body := [[' '], ['\t'], ['c']])
    asciiEnv_laws two_lines.1 (by decide) two_lines.2 (by decide) (by by_kernel) (by by_kernel)

/-! ### C69 -/

theorem hasToken_begun {ps : List Piece} (h : HasToken ps) : LineBegun ps := by
  obtain ⟨t, l, h⟩ := h
  refine ⟨_, h, ?_⟩
  have := takeWhile_all _ _ _ (List.mem_reverse.mp h)
  simpa [Piece.endsLine, Piece.begins] using this

/-- C69: spaces inside a line change no token and no error, except for their positions, unless they
detach a parenthesis or separate a newline from the token that makes the line go on. -/
theorem spaces_in_line (hE : EnvLaws env) {steps : List Spec.Step} {after : List Str} (h : InsideLine env steps after)
    (ha : ¬ Attached steps after) (hg : ¬ LineGoesOn steps after) (n : Nat)
    (hs : env.segment source = textOf steps ++ after)
    (hs' : env.segment source' = textOf steps ++ spaces n ++ after) :
    SameScan (scanTokens env source') (scanTokens env source) := by
  show SameScan (scanClusters env (env.segment source')) (scanClusters env (env.segment source))
  rw [hs, hs']
  exact insert_spaces hE.toAsciiLaws hE.number (hs ▸ hE.nonempty source) h.reading (hasToken_begun h.begun) h.last
    (fun e e' => ha ⟨e, e'⟩) (fun e e' => hg ⟨e, e'⟩) n

/-- C69: nor do they change the program. -/
theorem spaces_in_line_run (hE : EnvLaws env) {steps : List Spec.Step} {after : List Str} (h : InsideLine env steps after)
    (ha : ¬ Attached steps after) (hg : ¬ LineGoesOn steps after) (n : Nat)
    (hs : env.segment source = textOf steps ++ after)
    (hs' : env.segment source' = textOf steps ++ spaces n ++ after) :
    SameRun (run env rs source' repl) (run env rs source repl) :=
  positions_irrelevant (spaces_in_line hE h ha hg n hs hs')

/-- C69: a comment at the end of a line changes no token and no error, except for their positions,
unless it comes after a token that makes the line go on. -/
theorem comment_in_line (hE : EnvLaws env) {steps : List Spec.Step} {after : List Str} (h : InsideLine env steps after)
    (he : after = [] ∨ after.head? = some ['\n']) (hg : ¬ EndsContinuing (pieces steps)) (n : Nat) {body : List Str}
    (hb : ['\n'] ∉ body) (hs : env.segment source = textOf steps ++ after)
    (hs' : env.segment source' = textOf steps ++ (spaces n ++ commentText body) ++ after) :
    SameScan (scanTokens env source') (scanTokens env source) := by
  show SameScan (scanClusters env (env.segment source')) (scanClusters env (env.segment source))
  have hne := hE.nonempty source'
  rw [hs'] at hne
  rw [hs, hs']
  exact insert_comment_blind hE.toAsciiLaws hE.number (hs ▸ hE.nonempty source) h.reading h.begun h.last hg he n hb
    fun g hg' => hne g (by simp [hg'])

/-- C69: nor the program. -/
theorem comment_in_line_run (hE : EnvLaws env) {steps : List Spec.Step} {after : List Str} (h : InsideLine env steps after)
    (he : after = [] ∨ after.head? = some ['\n']) (hg : ¬ EndsContinuing (pieces steps)) (n : Nat) {body : List Str}
    (hb : ['\n'] ∉ body) (hs : env.segment source = textOf steps ++ after)
    (hs' : env.segment source' = textOf steps ++ (spaces n ++ commentText body) ++ after) :
    SameRun (run env rs source' repl) (run env rs source repl) :=
  positions_irrelevant (comment_in_line hE h he hg n hb hs hs')

/-- The place after the first word of a source. -/
theorem after_word {after : List Str} (h : ∀ x, after.head? = some x → ¬ WordPart asciiEnv x) :
    InsideLine asciiEnv [⟨[], [], .token ⟨.identifier, c!"x", none, none, 1, 1⟩ [c!"x"]⟩] after := by
  refine ⟨?_, ⟨_, _, List.mem_singleton.mpr rfl⟩, ?_⟩
  · intro a s b e
    obtain ⟨rfl, rfl, rfl⟩ : a = [] ∧ s = ⟨[], [], .token ⟨.identifier, c!"x", none, none, 1, 1⟩ [c!"x"]⟩ ∧ b = [] := by
      cases a with
      | nil => simp only [List.nil_append, List.cons.injEq] at e; exact ⟨rfl, e.1.symm, e.2.symm⟩
      | cons y a => have := congrArg List.length e; simp at this
    have hw : IsWord asciiEnv ⟨.identifier, c!"x", none, none, 1, 1⟩ [c!"x"] after :=
      ⟨⟨_, _, rfl, ⟨_, _, rfl, .inl (by decide)⟩, by simp⟩, h, .inr ⟨rfl, fun k => by cases k <;> decide⟩, rfl, rfl⟩
    refine ⟨⟨⟨rfl, ⟨by decide, by decide⟩, .inr (.inl hw)⟩, by simp, ?_, ?_, ?_⟩, ?_, ?_⟩
    · intro t l e; cases e; simp
    · intro t l e; cases e; simp
    · intro t l e; cases e; simp
    · intro _; exact ⟨_, _, rfl, .same _ (by by_kernel)⟩
    · intro _; exact ⟨rfl, rfl⟩
  · intro x s e
    have : x = [] := by
      cases x with
      | nil => rfl
      | cons y x => have := congrArg List.length e; simp at this
    subst this
    simp at e
    rw [← e]
    rfl

/-- `x=1` and `x  =1` are the same program, -/
example : ∀ rs repl, SameRun (run asciiEnv rs c!"x  =1" repl) (run asciiEnv rs c!"x=1" repl) := fun _ _ =>
  spaces_in_line_run asciiEnv_laws (after_word (after := [['='], ['1']]) (by
      rintro _ e ⟨c, r, e', h⟩; cases e; cases e'; revert h; decide))
    (by rintro ⟨h, -⟩; cases h) (by rintro ⟨h, -⟩; cases h) 2 (by by_kernel) (by by_kernel)

/-- and so are `x` and `x // c`. -/
example : ∀ rs repl, SameRun (run asciiEnv rs c!"x // c" repl) (run asciiEnv rs c!"x" repl) := fun _ _ =>
  comment_in_line_run (body := [[' '], ['c']]) asciiEnv_laws (after_word (after := []) (by simp)) (.inl rfl)
    (by rintro ⟨t, l, h, h'⟩; cases h; revert h'; decide) 1 (by decide) (by by_kernel) (by by_kernel)

/-- Spaces before an attached parenthesis change the token: `x(1)` and `x (1)`. -/
theorem attached_space_matters : ¬ SameScan (scanTokens asciiEnv c!"x (1)") (scanTokens asciiEnv c!"x(1)") := by
  intro h
  have h1 : (scanTokens asciiEnv c!"x (1)").bind (fun r => .done (r.toOption.map (·.map (·.tokenType)))) =
      .done (some [.identifier, .leftParen, .number, .rightParen, .eof]) := by by_kernel
  have h2 : (scanTokens asciiEnv c!"x(1)").bind (fun r => .done (r.toOption.map (·.map (·.tokenType)))) =
      .done (some [.identifier, .leftParenAbutting, .number, .rightParen, .eof]) := by by_kernel
  have key : ∀ o : Outcome (Except ParseError (List Token)),
      o.bind (fun r => .done (r.toOption.map (·.map (·.tokenType)))) =
        (movedScan nowhere o).bind (fun r => .done (r.toOption.map (·.map (·.tokenType)))) := by
    intro o
    cases o with
    | done r => cases r <;> simp [movedScan, mapOutcome, moveResult, Outcome.bind, Except.toOption, moveToken, Function.comp_def]
    | panic m => rfl
    | diverge => rfl
  rw [key] at h1 h2
  rw [show movedScan nowhere _ = _ from h, h2] at h1
  cases h1

/-- Spaces between an operator and the newline after it end the statement: `x+\n1`. -/
theorem trailing_space_matters : ¬ SameScan (scanTokens asciiEnv c!"x+ \n1") (scanTokens asciiEnv c!"x+\n1") := by
  intro h
  have h1 : (scanTokens asciiEnv c!"x+ \n1").bind (fun r => .done (r.toOption.map (·.map (·.tokenType)))) =
      .done (some [.identifier, .plus, .terminator, .number, .eof]) := by by_kernel
  have h2 : (scanTokens asciiEnv c!"x+\n1").bind (fun r => .done (r.toOption.map (·.map (·.tokenType)))) =
      .done (some [.identifier, .plus, .number, .eof]) := by by_kernel
  have key : ∀ o : Outcome (Except ParseError (List Token)),
      o.bind (fun r => .done (r.toOption.map (·.map (·.tokenType)))) =
        (movedScan nowhere o).bind (fun r => .done (r.toOption.map (·.map (·.tokenType)))) := by
    intro o
    cases o with
    | done r => cases r <;> simp [movedScan, mapOutcome, moveResult, Outcome.bind, Except.toOption, moveToken, Function.comp_def]
    | panic m => rfl
    | diverge => rfl
  rw [key] at h1 h2
  rw [show movedScan nowhere _ = _ from h, h2] at h1
  cases h1

/-! ### C70 -/

/-- C70: whatever the text of a comment, there are the same tokens or errors, except for their
positions. -/
theorem comment_text (hE : EnvLaws env) {steps : List Spec.Step} {body body' after : List Str}
    (h : Reading env steps (commentText body ++ after)) (hb : ['\n'] ∉ body) (hb' : ['\n'] ∉ body')
    (ha : after = [] ∨ after.head? = some ['\n'])
    (hs : env.segment source = textOf steps ++ commentText body ++ after)
    (hs' : env.segment source' = textOf steps ++ commentText body' ++ after) :
    SameScan (scanTokens env source) (scanTokens env source') := by
  have hne := hE.nonempty source
  have hne' := hE.nonempty source'
  show SameScan (scanClusters env (env.segment source)) (scanClusters env (env.segment source'))
  rw [hs, List.append_assoc] at hne ⊢
  rw [hs', List.append_assoc] at hne' ⊢
  exact change_comment hE.toAsciiLaws hE.number hne hne' h hb hb' ha

/-- C70: and the same program or errors. -/
theorem comment_text_run (hE : EnvLaws env) {steps : List Spec.Step} {body body' after : List Str}
    (h : Reading env steps (commentText body ++ after)) (hb : ['\n'] ∉ body) (hb' : ['\n'] ∉ body')
    (ha : after = [] ∨ after.head? = some ['\n'])
    (hs : env.segment source = textOf steps ++ commentText body ++ after)
    (hs' : env.segment source' = textOf steps ++ commentText body' ++ after) :
    SameRun (run env rs source repl) (run env rs source' repl) :=
  positions_irrelevant (comment_text hE h hb hb' ha hs hs')

/-- `x//1` and `x//"\t` are the same program. -/
example : ∀ rs repl, SameRun (run asciiEnv rs c!"x//1" repl) (run asciiEnv rs c!"x//\"\t" repl) := fun _ _ =>
  comment_text_run (body := [['1']]) (body' := [['"'], ['\t']]) (after := []) asciiEnv_laws
    (after_word (by rintro _ e ⟨c, r, e', h⟩; cases e; cases e'; revert h; decide)).reading (by decide) (by decide)
    (.inl rfl) (by by_kernel) (by by_kernel)

end Ws.Properties
