import Verif.Proofs.AsciiLaws
import Verif.Proofs.Scan.Insert
import Verif.Proofs.Scan.OutdentLoop
import Verif.Tests.RepoTests
/-! Properties C02, C14 and C15 of the scanner: termination, and insertion of blank lines and comments.
C14 and C15 are about clusters; a source is scanned as its clusters (`scanTokens`). -/
namespace Ws.Properties
open Ws Spec

variable {env : Env} {source : Str} {ts : List Token}

/-! ### C02 -/

/-- C02, in full: scanning returns for every source. It is false of the code. -/
def ScanTerminates (env : Env) : Prop := ∀ source, ∃ r, scanTokens env source = .done r

/-- Three lines at indentations 2, 4 and 3 make the scanner hang. -/
theorem scan_terminates_false : ¬ ScanTerminates asciiEnv := by
  intro h
  obtain ⟨r, hr⟩ := h c!"  a\n    b\n   c\n"
  have : scanTokens asciiEnv c!"  a\n    b\n   c\n" = .diverge := by by_kernel
  rw [this] at hr
  cases hr

/-- C02, partially: scanning returns for every source unless there are three lines, in this order, one
that is indented, a deeper one, and one whose indentation lies strictly between. What is missing:
sources with such lines, on some of which it does not return (`scan_hangs_partial`). -/
theorem scan_terminates_partial (hE : NumberLaw env) (h : ¬ HasBadOutdent (env.segment source)) :
    ∃ r, scanTokens env source = .done r := by
  cases hs : scanTokens env source with
  | done r => exact ⟨r, rfl⟩
  | panic m => exact absurd hs (scan_panic_free hE _ m)
  | diverge => exact absurd (scan_diverge hs) h

/-- A source that is indented, dedented to an earlier level, and meets the hypothesis. -/
example : ¬ HasBadOutdent (asciiEnv.segment c!"if a\n  b\nc") := by
  rintro ⟨b1, l1, b2, l2, b3, l3, h1, h2, h3, s1, s2, s3, hlt1, hlt2, hpos, hlt, hlt'⟩
  have hseg : asciiEnv.segment c!"if a\n  b\nc" =
      [c!"i", c!"f", c!" ", c!"a", c!"\n", c!" ", c!" ", c!"b", c!"\n", c!"c"] := by by_kernel
  rw [hseg] at h1 h2 h3
  -- only the line after the first newline is indented
  have key : ∀ b l : List Str,
      [c!"i", c!"f", c!" ", c!"a", c!"\n", c!" ", c!" ", c!"b", c!"\n", c!"c"] = b ++ l → LineStart b →
      Spec.indentation l = 0 ∨ Spec.indentation l = 2 := by
    intro b l e hb
    have hl : l = List.drop b.length [c!"i", c!"f", c!" ", c!"a", c!"\n", c!" ", c!" ", c!"b", c!"\n", c!"c"] := by
      rw [e]; simp
    have hb' : b = List.take b.length [c!"i", c!"f", c!" ", c!"a", c!"\n", c!" ", c!" ", c!"b", c!"\n", c!"c"] := by
      rw [e]; simp
    have hlen : b.length ≤ 10 := by have := congrArg List.length e; simp at this; omega
    have hb2 : b = [] ∨ b.getLast? = some ['\n'] := by
      rcases hb with rfl | ⟨c, rfl⟩
      · exact .inl rfl
      · exact .inr (by simp)
    generalize b.length = n at hl hb' hlen
    subst hl
    rw [hb'] at hb2
    clear hb' hb e
    revert hlen hb2
    revert n
    have : ∀ n : Fin 11, (List.take n.val [c!"i", c!"f", c!" ", c!"a", c!"\n", c!" ", c!" ", c!"b", c!"\n", c!"c"] = [] ∨
        (List.take n.val [c!"i", c!"f", c!" ", c!"a", c!"\n", c!" ", c!" ", c!"b", c!"\n", c!"c"]).getLast? = some ['\n']) →
        Spec.indentation (List.drop n.val [c!"i", c!"f", c!" ", c!"a", c!"\n", c!" ", c!" ", c!"b", c!"\n", c!"c"]) = 0 ∨
        Spec.indentation (List.drop n.val [c!"i", c!"f", c!" ", c!"a", c!"\n", c!" ", c!" ", c!"b", c!"\n", c!"c"]) = 2 := by
      decide
    exact fun n h2 h1 => this ⟨n, by omega⟩ h2
  have := key _ _ h1 s1
  have := key _ _ h2 s2
  have := key _ _ h3 s3
  omega

/-- C02: a family of sources on which scanning does not return. After any complete lines `a` (with
the current block indented by `n`), two lines that open blocks of indentations `i` and `j`, and a line
of indentation `k` strictly between them, make the scanner hang, whatever follows. -/
theorem scan_hangs_partial (hE : EnvLaws env) {a : List Str} (h : CompleteLines env a) {n i j k : Nat}
    (hk : BlockIndented env a n) (hni : n < i) (hik : i < k) (hkj : k < j) (hj : j ≤ u16Max) {c d : Char}
    (hc : c.isAlpha = true) (hd : d.isAlpha = true) {g : Str} {r : List Str}
    (hg : g ∉ [[' '], ['\t'], ['\r'], ['\n'], ['\\']]) :
    scanClusters env (a ++ (spaces i ++ [[c]] ++ newline) ++ (spaces j ++ [[d]] ++ newline) ++ (spaces k ++ g :: r)) =
      .diverge :=
  scan_hangs hE.toAsciiLaws h hk hni hik hkj hj hc hd hg

/-- The two lines `x` and `  y` are complete lines in a block of indentation 2. -/
theorem two_lines : CompleteLines asciiEnv (asciiEnv.segment c!"x\n  y\n") ∧
    BlockIndented asciiEnv (asciiEnv.segment c!"x\n  y\n") 2 := by
  have e : asciiEnv.segment c!"x\n  y\n" = [c!"x", c!"\n", c!" ", c!" ", c!"y"] ++ newline := by by_kernel
  have h0 : scanClusters asciiEnv [c!"x", c!"\n", c!" ", c!" ", c!"y"] = .done (.ok
      [⟨.identifier, c!"x", none, none, 1, 1⟩, ⟨.terminator, c!"\n", none, none, 1, 2⟩,
        ⟨.indent, c!"y", none, none, 2, 3⟩, ⟨.identifier, c!"y", none, none, 2, 3⟩,
        ⟨.outdent, [], none, none, 2, 4⟩, ⟨.eof, [], none, none, 2, 4⟩]) := by by_kernel
  have h1 : scanClusters asciiEnv [c!"x", c!"\n", c!" ", c!" ", c!"y", c!"\n"] = .done (.ok
      [⟨.identifier, c!"x", none, none, 1, 1⟩, ⟨.terminator, c!"\n", none, none, 1, 2⟩,
        ⟨.indent, c!"y", none, none, 2, 3⟩, ⟨.identifier, c!"y", none, none, 2, 3⟩,
        ⟨.terminator, c!"\n", none, none, 2, 4⟩,
        ⟨.outdent, [], none, none, 3, 1⟩, ⟨.eof, [], none, none, 3, 1⟩]) := by by_kernel
  have h2 : scanClusters asciiEnv [c!"x", c!"\n", c!" ", c!" ", c!"y", c!"\n", c!" ", c!" ", c!";"] = .done (.ok
      [⟨.identifier, c!"x", none, none, 1, 1⟩, ⟨.terminator, c!"\n", none, none, 1, 2⟩,
        ⟨.indent, c!"y", none, none, 2, 3⟩, ⟨.identifier, c!"y", none, none, 2, 3⟩,
        ⟨.terminator, c!"\n", none, none, 2, 4⟩, ⟨.semicolon, c!";", none, none, 3, 3⟩,
        ⟨.outdent, [], none, none, 3, 4⟩, ⟨.eof, [], none, none, 3, 4⟩]) := by by_kernel
  have h3 : scanClusters asciiEnv [c!"x", c!"\n", c!" ", c!" ", c!"y", c!"\n", c!" ", c!" ", c!" ", c!";"] = .done (.ok
      [⟨.identifier, c!"x", none, none, 1, 1⟩, ⟨.terminator, c!"\n", none, none, 1, 2⟩,
        ⟨.indent, c!"y", none, none, 2, 3⟩, ⟨.identifier, c!"y", none, none, 2, 3⟩,
        ⟨.terminator, c!"\n", none, none, 2, 4⟩, ⟨.indent, c!";", none, none, 3, 4⟩,
        ⟨.semicolon, c!";", none, none, 3, 4⟩, ⟨.outdent, [], none, none, 3, 5⟩,
        ⟨.outdent, [], none, none, 3, 5⟩, ⟨.eof, [], none, none, 3, 5⟩]) := by by_kernel
  rw [e]
  refine ⟨.inr ⟨_, _, rfl, h0⟩, ?_⟩
  refine ⟨[⟨.identifier, c!"x", none, none, 1, 1⟩, ⟨.terminator, c!"\n", none, none, 1, 2⟩,
        ⟨.indent, c!"y", none, none, 2, 3⟩, ⟨.identifier, c!"y", none, none, 2, 3⟩,
        ⟨.terminator, c!"\n", none, none, 2, 4⟩], _, _, _, _, _, _, h1, h2, h3, ⟨1, _, _, rfl, rfl, rfl⟩,
    ⟨1, _, _, rfl, rfl, rfl⟩, ⟨2, _, _, rfl, rfl, rfl⟩, rfl, rfl, rfl⟩

example : scanTokens asciiEnv c!"x\n  y\n   a\n      b\n    +1\n" = .diverge := by
  have e : asciiEnv.segment c!"x\n  y\n   a\n      b\n    +1\n" = asciiEnv.segment c!"x\n  y\n" ++
      (spaces 3 ++ [['a']] ++ newline) ++ (spaces 6 ++ [['b']] ++ newline) ++ (spaces 4 ++ ['+'] :: [['1'], ['\n']]) := by
    by_kernel
  show scanClusters asciiEnv (asciiEnv.segment _) = _
  rw [e]
  exact scan_hangs_partial asciiEnv_laws two_lines.1 two_lines.2 (by decide) (by decide) (by decide) (by decide)
    (by decide) (by decide) (by decide)

/-- C02: the value `diverge` of the model's outdent loop means that the loop of the code, run
iteration by iteration, never leaves its head; other values mean that it ends with that value. -/
theorem outdent_loop_partial (s : Scanner) :
    match Scanner.outdentLoop s.indentation s with
    | .done (b, s') => ∃ n, Scanner.LoopState.after n (.head s) = .left b s'
    | .panic m => ∃ n, Scanner.LoopState.after n (.head s) = .panicked m
    | .diverge => ∀ n, ∃ s', Scanner.LoopState.after n (.head s) = .head s' :=
  Scanner.outdentLoop_adequate s

/-! ### C14 -/

/-- C14: inserting a line of spaces after complete lines moves the tokens, or the errors, of later
lines down by one and changes nothing else. -/
theorem blank_line (hE : EnvLaws env) {before : List Str} (h : CompleteLines env before) (n : Nat)
    (after : List Str) :
    scanClusters env (before ++ (spaces n ++ newline) ++ after) =
      linesDown (lineAfter before) (scanClusters env (before ++ after)) :=
  insert_blank hE.toAsciiLaws h n after

example : scanTokens asciiEnv c!"x\n  y\n   \n  \"z\n\" + 1\nw" =
    linesDown 3 (scanTokens asciiEnv c!"x\n  y\n  \"z\n\" + 1\nw") := by
  have e1 : asciiEnv.segment c!"x\n  y\n   \n  \"z\n\" + 1\nw" =
      asciiEnv.segment c!"x\n  y\n" ++ (spaces 3 ++ newline) ++ asciiEnv.segment c!"  \"z\n\" + 1\nw" := by by_kernel
  have e2 : asciiEnv.segment c!"x\n  y\n  \"z\n\" + 1\nw" =
      asciiEnv.segment c!"x\n  y\n" ++ asciiEnv.segment c!"  \"z\n\" + 1\nw" := by by_kernel
  show scanClusters asciiEnv (asciiEnv.segment _) = linesDown 3 (scanClusters asciiEnv (asciiEnv.segment _))
  rw [e1, e2]
  exact blank_line asciiEnv_laws two_lines.1 3 _

/-! ### C15 -/

/-- C15, in full: a comment at the end of a line or on a line of its own changes no token, except for
its location. It is false of the code. -/
def CommentsInsignificant (env : Env) : Prop :=
  ∀ before body after : List Str, ['\n'] ∉ body → ∀ ts ts',
    (LineStart' before ∨ ∃ x, before = x ++ [[' ']]) →
    scanClusters env (before ++ newline ++ after) = .done (.ok ts) →
    scanClusters env (before ++ commentText body ++ newline ++ after) = .done (.ok ts') →
    ts'.map (·.tokenType) = ts.map (·.tokenType)
where
  /-- The start of a line. -/
  LineStart' (before : List Str) : Prop := before = [] ∨ ∃ b, before = b ++ newline

/-- A comment line at another indentation opens a block. -/
theorem comments_false : ¬ CommentsInsignificant asciiEnv := by
  intro h
  have h1 : scanClusters asciiEnv ([['a'], ['\n'], [' ']] ++ newline ++ [['b']]) = .done (.ok
      [⟨.identifier, ['a'], none, none, 1, 1⟩, ⟨.terminator, ['\n'], none, none, 1, 2⟩,
        ⟨.identifier, ['b'], none, none, 3, 1⟩, ⟨.eof, [], none, none, 3, 2⟩]) := by by_kernel
  have h2 : scanClusters asciiEnv ([['a'], ['\n'], [' ']] ++ commentText [] ++ newline ++ [['b']]) = .done (.ok
      [⟨.identifier, ['a'], none, none, 1, 1⟩, ⟨.terminator, ['\n'], none, none, 1, 2⟩,
        ⟨.indent, ['/'], none, none, 2, 2⟩, ⟨.outdent, ['b'], none, none, 3, 1⟩,
        ⟨.identifier, ['b'], none, none, 3, 1⟩, ⟨.eof, [], none, none, 3, 2⟩]) := by by_kernel
  have := h [['a'], ['\n'], [' ']] [] [['b']] (by simp) _ _ (.inr ⟨[['a'], ['\n']], rfl⟩) h1 h2
  simp at this

/-- A comment after a continuing operator ends the statement. -/
theorem comment_after_operator_false : ¬ CommentsInsignificant asciiEnv := by
  intro h
  have h2 : scanClusters asciiEnv ([['a'], ['+'], ['\n']] ++ newline ++ [[' '], ['b']]) = .done (.ok
      [⟨.identifier, ['a'], none, none, 1, 1⟩, ⟨.plus, ['+'], none, none, 1, 2⟩,
        ⟨.identifier, ['b'], none, none, 3, 2⟩, ⟨.eof, [], none, none, 3, 3⟩]) := by by_kernel
  have h3 : scanClusters asciiEnv ([['a'], ['+'], ['\n']] ++ commentText [] ++ newline ++ [[' '], ['b']]) = .done (.ok
      [⟨.identifier, ['a'], none, none, 1, 1⟩, ⟨.plus, ['+'], none, none, 1, 2⟩,
        ⟨.indent, ['b'], none, none, 3, 2⟩,
        ⟨.identifier, ['b'], none, none, 3, 2⟩, ⟨.outdent, [], none, none, 3, 3⟩,
        ⟨.eof, [], none, none, 3, 3⟩]) := by by_kernel
  have := h [['a'], ['+'], ['\n']] [] [[' '], ['b']] (by simp) _ _ (.inl (.inr ⟨[['a'], ['+']], rfl⟩)) h2 h3
  simp at this

/-- C15, partially: a comment after a statement, before the newline that ends it, changes the column of
the Terminator and nothing else. What is missing: comments elsewhere, see `comment_line_partial`,
`comments_false` and `comment_after_operator_false`. -/
theorem trailing_comment_partial (hE : EnvLaws env) {before : List Str} {terminator : Token}
    (h : EndsStatement env before ts terminator) (n : Nat) {body : List Str} (hb : ['\n'] ∉ body)
    (after : List Str) :
    scanClusters env (before ++ (spaces n ++ commentText body) ++ newline ++ after) =
      replaceNext ts { terminator with column := columnAfter (before ++ (spaces n ++ commentText body)) }
        (scanClusters env (before ++ newline ++ after)) :=
  insert_trailing hE.toAsciiLaws h n hb after

/-- The newline after `x\n  y` ends a statement. -/
example : ∃ ts terminator, EndsStatement asciiEnv [c!"x", c!"\n", c!" ", c!" ", c!"y"] ts terminator := by
  have h0 : scanClusters asciiEnv [c!"x", c!"\n", c!" ", c!" ", c!"y"] = .done (.ok
      [⟨.identifier, c!"x", none, none, 1, 1⟩, ⟨.terminator, c!"\n", none, none, 1, 2⟩,
        ⟨.indent, c!"y", none, none, 2, 3⟩, ⟨.identifier, c!"y", none, none, 2, 3⟩,
        ⟨.outdent, [], none, none, 2, 4⟩, ⟨.eof, [], none, none, 2, 4⟩]) := by by_kernel
  have h1 : scanClusters asciiEnv [c!"x", c!"\n", c!" ", c!" ", c!"y", c!"\n"] = .done (.ok
      [⟨.identifier, c!"x", none, none, 1, 1⟩, ⟨.terminator, c!"\n", none, none, 1, 2⟩,
        ⟨.indent, c!"y", none, none, 2, 3⟩, ⟨.identifier, c!"y", none, none, 2, 3⟩,
        ⟨.terminator, c!"\n", none, none, 2, 4⟩,
        ⟨.outdent, [], none, none, 3, 1⟩, ⟨.eof, [], none, none, 3, 1⟩]) := by by_kernel
  exact ⟨[⟨.identifier, c!"x", none, none, 1, 1⟩, ⟨.terminator, c!"\n", none, none, 1, 2⟩,
        ⟨.indent, c!"y", none, none, 2, 3⟩, ⟨.identifier, c!"y", none, none, 2, 3⟩],
    ⟨.terminator, c!"\n", none, none, 2, 4⟩, _, _, h0, h1, ⟨1, _, _, rfl, rfl, rfl⟩, ⟨1, _, _, rfl, rfl, rfl⟩, rfl⟩

/-- C15, partially: a comment on a line of its own, at the indentation of the current block, moves the
tokens, or the errors, of later lines down by one and changes nothing else. What is missing: comment
lines at other indentations and in continued lines, see `comments_false`. -/
theorem comment_line_partial (hE : EnvLaws env) {before : List Str} (h : CompleteLines env before) {k : Nat}
    (hk : BlockIndented env before k) {body : List Str} (hb : ['\n'] ∉ body) (after : List Str) :
    scanClusters env (before ++ (spaces k ++ commentText body ++ newline) ++ after) =
      linesDown (lineAfter before) (scanClusters env (before ++ after)) :=
  insert_comment_line hE.toAsciiLaws h hk hb after

example : scanTokens asciiEnv c!"x\n  y\n  // \tc\n  z\nw" = linesDown 3 (scanTokens asciiEnv c!"x\n  y\n  z\nw") := by
  have e1 : asciiEnv.segment c!"x\n  y\n  // \tc\n  z\nw" =
      asciiEnv.segment c!"x\n  y\n" ++ (spaces 2 ++ commentText [[' '], ['\t'], ['c']] ++ newline) ++
        asciiEnv.segment c!"  z\nw" := by by_kernel
  have e2 : asciiEnv.segment c!"x\n  y\n  z\nw" =
      asciiEnv.segment c!"x\n  y\n" ++ asciiEnv.segment c!"  z\nw" := by by_kernel
  show scanClusters asciiEnv (asciiEnv.segment _) = linesDown 3 (scanClusters asciiEnv (asciiEnv.segment _))
  rw [e1, e2]
  exact comment_line_partial asciiEnv_laws two_lines.1 two_lines.2 (by decide) _

end Ws.Properties
