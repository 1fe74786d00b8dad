import Verif.Spec.Layout
/-! The complete specification of the scanner: how any source is read, with the tokens, the errors,
and the sources on which the scanner does not stop.

The source is cut into pieces (`Spec/Lexical.lean`). Every piece comes with the Indents and Outdents
before it and possibly an error about the indentation. What a piece may be depends on the text after
it and on the pieces before it (`StepOK`). -/
namespace Ws.Spec
open Ws

/-- A piece with what is put before it: layout tokens, and an error if the indentation does not fit. -/
structure Step where
  layout : List Token
  misfit : List Cause
  piece : Piece

/-- The errors of a piece. -/
def Piece.causes : Piece → List Cause
  | .fault c _ => [c]
  | _ => []

def Step.toks (s : Step) : List Token := s.layout ++ s.piece.tok
def Step.causes (s : Step) : List Cause := s.misfit ++ s.piece.causes

/-- The pieces of a reading. -/
def pieces (steps : List Step) : List Piece := steps.map Step.piece
/-- The text of a reading. -/
def textOf (steps : List Step) : List Str := text (pieces steps)
/-- The tokens of a reading. -/
def tokensOf (steps : List Step) : List Token := steps.flatMap Step.toks
/-- The errors of a reading. -/
def causesOf (steps : List Step) : List Cause := steps.flatMap Step.causes

/-! ### Errors -/

/-- A cluster with which no piece begins. -/
def Unexpected (env : Env) (g : Str) : Prop :=
  g ∉ [[' '], ['\t'], ['\r'], ['\n'], ['\\'], ['"']] ∧ ¬ Digit g ∧ ¬ WordStart env g ∧
    ∀ t c, operator t = some [c] → g ≠ [c]

/-- The clusters `l`, between `before` and `rest`, are an error, reported as `c`. -/
inductive FaultOK (env : Env) (before rest : List Str) : Cause → List Str → Prop
  | tab :
    FaultOK env before rest
      ⟨⟨lineAfter before, columnAfter (before ++ [['\t']])⟩, none,
        "Illegal tab character; all whitespace must be spaces"⟩ [['\t']]
  /-- A backslash that is not at the end of the line, with the spaces and the carriage return after
  it. -/
  | backslash (n : Nat) (cr : List Str) :
    (cr = [] ∧ rest.head? ≠ some [' '] ∧ rest.head? ≠ some ['\r'] ∨ cr = [['\r']]) →
    rest.head? ≠ some ['\n'] →
    FaultOK env before rest
      ⟨⟨lineAfter before, columnAfter before⟩, none, "Unexpected character: '\\'"⟩
      (['\\'] :: (List.replicate n [' '] ++ cr))
  | unexpected (g : Str) : Unexpected env g →
    FaultOK env before rest
      ⟨⟨lineAfter before, columnAfter (before ++ [g])⟩, none, "Unexpected token: " ++ String.ofList g⟩
      [g]
  /-- A string without closing quote extends to the end of the source, and the error is there. -/
  | unterminated (body : List Str) : ['"'] ∉ body → rest = [] →
    FaultOK env before rest
      ⟨⟨lineAfter (before ++ ['"'] :: body),
          min (columnAfter (before ++ ['"'] :: body)) (u16Max - 1)⟩, none, "Unterminated string."⟩
      (['"'] :: body)

/-! ### Lines -/

/-- A piece that can be the first of a line: a token, a comment, or an error other than a tab or a
backslash. -/
def Piece.begins : Piece → Bool
  | .token t _ => t.tokenType != .terminator
  | .comment _ => true
  | .fault _ l => l.head? != some ['\t'] && l.head? != some ['\\']
  | _ => false

/-- The line has begun: there is more than blank space on it. -/
def LineBegun (ps : List Piece) : Prop := ∃ p ∈ thisLine ps, p.begins = true

/-- A space. -/
def Piece.isSpace : Piece → Bool
  | .blank g => g == [' ']
  | _ => false

/-- The spaces on the current line, up to the limit of `u16`. -/
def spacesOf (ps : List Piece) : Nat :=
  min ((thisLine ps).countP Piece.isSpace) u16Max

/-- The end of the line is the end of a statement: there is more than a comment on the line, and its
last piece is not a token after which the line goes on. -/
def StatementDone (ps : List Piece) : Prop :=
  (∃ p ∈ thisLine ps, p.begins = true ∧ ∀ body, p ≠ .comment body) ∧ ¬ EndsContinuing ps

/-- The line goes on from an earlier one: there is a line continuation, or a newline directly after a
token after which the line goes on, and since then only blank space. -/
def Joined (ps : List Piece) : Prop :=
  ∃ a p b, ps = a ++ p :: b ∧
    ((∃ mid, p = .continuation mid) ∨ p = .blank ['\n'] ∧ EndsContinuing a) ∧
    ∀ q ∈ b, q.begins = false

/-- The levels of indentation that are open after the steps, which are given in reverse order,
innermost level first. An Indent opens the level of its line; an Outdent closes a level. -/
def levelsRev : List Step → List Nat
  | [] => []
  | s :: before =>
    if s.layout.any (·.tokenType == .indent) then spacesOf (pieces before.reverse) :: levelsRev before
    else (levelsRev before).drop s.layout.length

/-- The levels of indentation that are open after the steps, innermost first. -/
def levels (steps : List Step) : List Nat := levelsRev steps.reverse

/-- `Margin line column g k joined levels layout misfit`: before the first piece of a line that is
indented by `k`, when `levels` are open, come the tokens `layout` and the errors `misfit`. The piece
begins at `line` and `column` with the cluster `g`. -/
inductive Margin (line column : Nat) (g : Str) (k : Nat) (joined : Prop) :
    List Nat → List Token → List Cause → Prop
  | same (levels : List Nat) : k = levels.head?.getD 0 → Margin line column g k joined levels [] []
  | joined (levels : List Nat) : levels.head?.getD 0 < k → joined →
    Margin line column g k joined levels [] []
  | indent (levels : List Nat) : levels.head?.getD 0 < k → ¬ joined →
    Margin line column g k joined levels [⟨.indent, g, none, none, line, column⟩] []
  /-- All deeper levels are closed, down to one that is equal. -/
  | outdent (closed below : List Nat) : closed ≠ [] → (∀ l ∈ closed, k < l) → below.head?.getD 0 = k →
    Margin line column g k joined (closed ++ below)
      (List.replicate closed.length ⟨.outdent, g, none, none, line, column⟩) []
  /-- All levels are deeper, and the line is indented. -/
  | misfit (closed : List Nat) : closed ≠ [] → (∀ l ∈ closed, k < l) → 0 < k →
    Margin line column g k joined closed
      (List.replicate closed.length ⟨.outdent, g, none, none, line, column⟩)
      [⟨⟨line, min (column + 1) u16Max⟩, none, "Outdent does not match any previous indentation level"⟩]

/-- The indentation lies strictly between two open levels. The scanner does not stop there. -/
def BetweenLevels (k : Nat) (levels : List Nat) : Prop :=
  ∃ closed l below, levels = closed ++ l :: below ∧ closed ≠ [] ∧ (∀ d ∈ closed, k < d) ∧ l < k

/-! ### Readings -/

/-- The piece `p` is well formed after the pieces `before` and in front of the clusters `rest`. -/
structure PieceAt (env : Env) (before : List Piece) (p : Piece) (rest : List Str) : Prop where
  ok : match p with
    | .layout _ => False
    | .fault c l => FaultOK env (text before) rest c l
    | p => PieceOK env (text before) p rest
  newline : p = .blank ['\n'] → ¬ StatementDone before
  terminator : ∀ t l, p = .token t l → t.tokenType = .terminator → StatementDone before
  attached : ∀ t l, p = .token t l → t.tokenType = .leftParenAbutting →
    ∃ q, lastVisible before = some q ∧ Solid q
  detached : ∀ t l, p = .token t l → t.tokenType = .leftParen →
    ∀ q, lastVisible before = some q → ¬ Solid q

/-- The piece is the first of its line. -/
def First (before : List Piece) (p : Piece) : Prop := p.begins = true ∧ ¬ LineBegun before

/-- The step `s` is well formed after the steps `done` and in front of the clusters `rest`. -/
structure StepOK (env : Env) (done : List Step) (s : Step) (rest : List Str) : Prop where
  piece : PieceAt env (pieces done) s.piece rest
  first : First (pieces done) s.piece →
    ∃ g r, s.piece.text = g :: r ∧
      Margin (lineAfter (textOf done)) (columnAfter (textOf done)) g (spacesOf (pieces done))
        (Joined (pieces done)) (levels done) s.layout s.misfit
  other : ¬ First (pieces done) s.piece → s.layout = [] ∧ s.misfit = []

/-- `steps` is a reading of a source that goes on with `rest`. -/
def Reading (env : Env) (steps : List Step) (rest : List Str) : Prop :=
  ∀ a s b, steps = a ++ s :: b → StepOK env a s (textOf b ++ rest)

/-- The tokens at the end: an Outdent for every open level, and Eof. -/
def closing (steps : List Step) : List Token :=
  let line := lineAfter (textOf steps)
  let column := min (columnAfter (textOf steps)) (u16Max - 1)
  List.replicate (levels steps).length ⟨.outdent, [], none, none, line, column⟩ ++
    [⟨.eof, [], none, none, line, column⟩]

/-- The scanner does not stop on the source: after some steps comes the first piece of a line whose
indentation lies strictly between two open levels. -/
def Hangs (env : Env) (source : List Str) : Prop :=
  ∃ steps p rest, source = textOf steps ++ (p.text ++ rest) ∧ Reading env steps (p.text ++ rest) ∧
    PieceAt env (pieces steps) p rest ∧ First (pieces steps) p ∧
    BetweenLevels (spacesOf (pieces steps)) (levels steps)

end Ws.Spec
