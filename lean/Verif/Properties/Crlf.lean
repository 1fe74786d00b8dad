import Verif.Properties.Lines
import Verif.Properties.CommentLine
/-! Property C16, on comments: a CR LF does not end a comment. -/
namespace Ws.Properties
open Ws Spec

variable {env : Env} {source : Str} {ts : List Token} {rs : Resolver} {repl : Bool}

/-- The cluster of a Windows line ending. -/
abbrev crlf : Str := ['\r', '\n']

/-- C16: the lines after a comment that ends in CR LF, up to the first lone LF, are part of the comment.
Whatever is in them, the source is scanned as if they and the comment were not there, apart from the
column of one Terminator. -/
theorem crlf_comment_partial (hE : EnvLaws env) {before : List Str} {terminator : Token}
    (h : EndsStatement env before ts terminator) (n : Nat) {body hidden : List Str} (hb : ['\n'] ∉ body)
    (hh : ['\n'] ∉ hidden) (after : List Str) :
    scanClusters env (before ++ (spaces n ++ commentText (body ++ crlf :: hidden)) ++ newline ++ after) =
      replaceNext ts { terminator with
          column := columnAfter (before ++ (spaces n ++ commentText (body ++ crlf :: hidden))) }
        (scanClusters env (before ++ newline ++ after)) :=
  trailing_comment_partial hE h n (by simp [hb, hh]) after

/-- C16: a source that begins with a comment and has no lone LF is accepted as the empty program,
whatever its other lines are. -/
theorem crlf_source_partial {text : List Str} (he : env.segment source = commentText text) (ht : ['\n'] ∉ text) :
    (∃ eof, scanTokens env source = .done (.ok [eof]) ∧ eof.tokenType = .eof) ∧
      run env rs source repl = .done (.ok [], rs) := by
  have hs : ∃ l c, scanTokens env source = .done (.ok [⟨.eof, [], none, none, l, c⟩]) := by
    show ∃ l c, scanClusters env (env.segment source) = _
    have hstep : ∃ w, vstep env (V.init (commentText text)) = .done w ∧ w.rest = [] ∧ w.errors = [] ∧ w.tokens = [] ∧
        w.stack = [] := by
      have htw : text.takeWhile (fun g => !(g == ['\n'])) = text := by
        clear he
        induction text with
        | nil => rfl
        | cons g gs ih =>
            rw [List.mem_cons, not_or] at ht
            have hg : (g == ['\n']) = false := by simpa using Ne.symm ht.1
            rw [List.takeWhile_cons_of_pos (by simp [hg]), ih ht.2]
      refine ⟨_, by simp only [vstep, V.init, lexeme_comment, htw, V.bol]; rfl, ?_, ?_, ?_, ?_⟩ <;> simp [V.flags, V.skip]
    obtain ⟨w, h1, h2, h3, h4, h5⟩ := hstep
    rw [scan_finish, he, outcome_next (by simp [V.init]) h1, outcome_nil h2]
    refine ⟨w.line, satInc16 w.column - 1, ?_⟩
    simp only [finish, bind_def, Outcome.bind, h3, h4, V.closing, h5]
    rfl
  obtain ⟨l, c, hs⟩ := hs
  refine ⟨⟨_, hs, rfl⟩, ?_⟩
  rw [run_scan, hs]
  cases repl <;> rfl

/-- A source with Windows line endings of which only the comment is seen. -/
example : run asciiEnv .new c!"// a\r\nprint 1\r\n)(\r\n" false = .done (.ok [], .new) :=
  (crlf_source_partial (text := [c!" ", c!"a", c!"\r\n", c!"p", c!"r", c!"i", c!"n", c!"t", c!" ", c!"1", c!"\r\n", c!")", c!"(", c!"\r\n"])
    (by by_kernel) (by decide)).2

/-- A line between a comment and a lone LF that is not seen. -/
example : ∃ ts, scanTokens asciiEnv c!"x // c\r\ny\nz" = .done (.ok ts) ∧ ts.map (·.lexeme) = [c!"x", c!"\n", c!"z", []] := by
  have h0 : scanClusters asciiEnv [c!"x"] = .done (.ok [⟨.identifier, c!"x", none, none, 1, 1⟩, ⟨.eof, [], none, none, 1, 2⟩]) := by
    by_kernel
  have h1 : scanClusters asciiEnv [c!"x", c!"\n"] = .done (.ok
      [⟨.identifier, c!"x", none, none, 1, 1⟩, ⟨.terminator, c!"\n", none, none, 1, 2⟩, ⟨.eof, [], none, none, 2, 1⟩]) := by by_kernel
  have he : EndsStatement asciiEnv [c!"x"] [⟨.identifier, c!"x", none, none, 1, 1⟩] ⟨.terminator, c!"\n", none, none, 1, 2⟩ :=
    ⟨_, _, h0, h1, ⟨0, ⟨.outdent, [], none, none, 0, 0⟩, _, rfl, rfl, rfl⟩, ⟨0, ⟨.outdent, [], none, none, 0, 0⟩, _, rfl, rfl, rfl⟩, rfl⟩
  have h2 : scanClusters asciiEnv [c!"x", c!"\n", c!"z"] = .done (.ok
      [⟨.identifier, c!"x", none, none, 1, 1⟩, ⟨.terminator, c!"\n", none, none, 1, 2⟩, ⟨.identifier, c!"z", none, none, 2, 1⟩,
        ⟨.eof, [], none, none, 2, 2⟩]) := by by_kernel
  have e : asciiEnv.segment c!"x // c\r\ny\nz" =
      [c!"x"] ++ (spaces 1 ++ commentText ([c!" ", c!"c"] ++ crlf :: [c!"y"])) ++ newline ++ [c!"z"] := by by_kernel
  have := crlf_comment_partial asciiEnv_laws he 1 (body := [c!" ", c!"c"]) (hidden := [c!"y"]) (by decide) (by decide) [c!"z"]
  rw [← e, show scanClusters asciiEnv ([c!"x"] ++ newline ++ [c!"z"]) = _ from h2] at this
  exact ⟨_, this, rfl⟩

end Ws.Properties
