import Verif.Model.Token
/-! Model of `src/scanner.rs`. -/
namespace Ws

/-- `scanner.rs:14-39` `KEYWORDS`. -/
def keywords : List (Str × TokenType) :=
  [(c!"and", .and), (c!"break", .break), (c!"class", .class), (c!"continue", .continue),
   (c!"else", .else), (c!"false", .false), (c!"for", .for), (c!"fun", .fun), (c!"if", .if),
   (c!"nil", .nil), (c!"or", .or), (c!"print", .print), (c!"return", .return),
   (c!"super", .super), (c!"this", .this), (c!"true", .true), (c!"var", .var),
   (c!"while", .while)]

/-- `KEYWORDS.get(text)` with the default of `scanner.rs:549-552`. -/
def keywordType (text : Str) : TokenType :=
  match keywords.lookup text with
  | none => .identifier
  | some t => t

/-- `scanner.rs:610-617` `is_digit`. -/
def isDigit (g : Str) : Bool :=
  match g with
  | ['0'] | ['1'] | ['2'] | ['3'] | ['4'] | ['5'] | ['6'] | ['7'] | ['8'] | ['9'] => true
  | _ => false

/-- `scanner.rs:619-625` `is_alphabetic`. -/
def isAlpha (env : Env) (g : Str) : Bool :=
  match g with
  | [] => true
  | c :: _ => env.isAlphabetic c || c == '_'

/-- `scanner.rs:627-633` `is_alphanumeric`. -/
def isAlnum (env : Env) (g : Str) : Bool :=
  match g with
  | [] => true
  | c :: _ => env.isAlphanumeric c || c == '_'

/-- The byte offsets that `grapheme_indices` pairs with the clusters (`scanner.rs:70`). -/
def graphemeIndices : Nat → List Str → List (Nat × Str)
  | _, [] => []
  | i, g :: gs => (i, g) :: graphemeIndices (i + byteLen g) gs

/-- `scanner.rs:41-61` `Scanner`. `indentation` has the last element of the `Vec` first. -/
structure Scanner where
  source : Str
  tokens : List Token
  errors : List Cause
  indentation : List Nat
  graphemes : List (Nat × Str)
  start : Nat
  current : Nat
  line : Nat
  column : Nat
  startColumn : Nat
  eof : Bool
  bolSpaces : Nat
  isBol : Bool
  onlyComment : Bool
  isLineContinuation : Bool
  followingLineContinuation : Bool
  isAbutting : Bool
  deriving Repr

namespace Scanner

/-- `scanner.rs:67-87` `Scanner::new`, given the clusters of the source. -/
def ofClusters (clusters : List Str) : Scanner where
  source := clusters.flatten
  tokens := []
  errors := []
  indentation := []
  graphemes := graphemeIndices 0 clusters
  start := 0
  current := 0
  line := 1
  column := 1
  startColumn := 1
  eof := false
  bolSpaces := 0
  isBol := true
  onlyComment := false
  isLineContinuation := false
  followingLineContinuation := false
  isAbutting := false

/-- `scanner.rs:394-399` `peek_index`. -/
def peekIndex (s : Scanner) : Nat :=
  match s.graphemes with
  | [] => byteLen s.source
  | (i, _) :: _ => i

/-- `self.grapheme_indices.peek()`, cluster only. -/
def peek (s : Scanner) : Option Str :=
  match s.graphemes with
  | [] => none
  | (_, g) :: _ => some g

/-- `scanner.rs:402-414` `peek_next_grapheme`. -/
def peekNext (s : Scanner) : Option Str :=
  match s.graphemes with
  | _ :: (_, g) :: _ => some g
  | _ => none

/-- `scanner.rs:424-439` `advance`: the new state (the returned cluster is the one `peek` shows
before). -/
def advance (s : Scanner) : Scanner :=
  match s.graphemes with
  | [] => { s with column := satInc16 s.column, eof := true }
  | (i, _) :: gs => { s with column := satInc16 s.column, current := i, graphemes := gs }

/-- `scanner.rs:416-421` `is_match`. -/
def isMatch (s : Scanner) (expected : Str) : Bool :=
  match s.peek with
  | none => false
  | some g => g == expected

/-- `scanner.rs:374-392` `matches`. -/
def matchesCluster (s : Scanner) (expected : Str) : Bool × Scanner :=
  if s.eof then (false, s)
  else
    match s.peek with
    | none => (false, s)
    | some g => if g == expected then (true, s.advance) else (false, s)

/-- `scanner.rs:561-563` `error`. -/
def error (s : Scanner) (e : Cause) : Scanner := { s with errors := s.errors ++ [e] }

/-- `scanner.rs:566-577` `add_token`. -/
def addToken (s : Scanner) (t : TokenType) : Outcome Scanner := do
  let text ← sliceBytes s.source s.start s.peekIndex
  .done { s with tokens := s.tokens ++ [⟨t, text, none, none, s.line, s.startColumn⟩] }

/-- `scanner.rs:579-594` `add_string_literal_token`. -/
def addStringLiteralToken (s : Scanner) (value : Str) (startLine : Nat) : Outcome Scanner := do
  let text ← sliceBytes s.source s.start s.peekIndex
  .done { s with tokens := s.tokens ++ [⟨.string, text, some value, none, startLine, s.startColumn⟩] }

/-- `scanner.rs:596-607` `add_number_literal_token`. -/
def addNumberLiteralToken (s : Scanner) (value : F64) : Outcome Scanner := do
  let text ← sliceBytes s.source s.start s.peekIndex
  .done { s with tokens := s.tokens ++ [⟨.number, text, none, some value, s.line, s.startColumn⟩] }

/-- Advance while the next cluster satisfies `p`: the loop shared by `scanner.rs:442-453`
(`advance_to_eol`), `492-502` and `513-523` (digits), `534-544` (identifiers) and `241`
(spaces after a backslash). The recursion is over the clusters left, which is what bounds the loop
in the code. -/
def advanceWhileAux (p : Str → Bool) : List (Nat × Str) → Scanner → Scanner
  | [], s => s
  | (_, g) :: gs, s => if p g then advanceWhileAux p gs s.advance else s

/-- See `advanceWhileAux`. -/
def advanceWhile (p : Str → Bool) (s : Scanner) : Scanner := advanceWhileAux p s.graphemes s

/-- `scanner.rs:441-454` `advance_to_eol`. -/
def advanceToEol (s : Scanner) : Scanner := s.advanceWhile (fun g => !(g == ['\n']))

/-- `scanner.rs:310-323` `reset_line`. -/
def resetLine (s : Scanner) : Scanner :=
  let lineWasBlank := s.isBol
  { s with
    line := satInc32 s.line
    column := 1
    bolSpaces := 0
    isBol := true
    onlyComment := false
    isLineContinuation :=
      if lineWasBlank then s.isLineContinuation else s.followingLineContinuation
    followingLineContinuation :=
      if lineWasBlank then s.followingLineContinuation else false }

/-- `scanner.rs:346-359`: the loop that closes indentation levels. Returns `found` and the state.
In the `Ordering::Less` case (`357`) the body changes nothing and the loop condition stays true, so
the loop never ends; `Verif.Proofs.Scan.OutdentLoop` proves this reading against the loop's
step-by-step semantics. -/
def outdentLoop : List Nat → Scanner → Outcome (Bool × Scanner)
  | [], s => .done (false, s)
  | amount :: below, s =>
    if amount = s.bolSpaces then .done (true, s)
    else if amount > s.bolSpaces then do
      let s ← addToken { s with indentation := below } .outdent
      outdentLoop below s
    else .diverge

/-- `scanner.rs:327-370` `bol_indentation_tokens`. -/
def bolIndentationTokens (s : Scanner) : Outcome Scanner :=
  if !s.isBol then .done s
  else do
    let lastIndentation := s.indentation.head?.getD 0
    let s ←
      if s.bolSpaces = lastIndentation then .done s
      else if s.bolSpaces > lastIndentation then
        if !s.isLineContinuation then do
          let s ← s.addToken .indent
          .done { s with indentation := s.bolSpaces :: s.indentation }
        else .done s
      else do
        let (found, s) ← outdentLoop s.indentation s
        if !found && s.bolSpaces > 0 then
          .done (s.error (.new ⟨s.line, s.column⟩
            "Outdent does not match any previous indentation level"))
        else .done s
    .done { s with isBol := false }

/-- `scanner.rs:460-471`: the loop of `scan_string`, which also counts lines. When the clusters run
out, `advance` sets `eof`. -/
def stringLoop : List (Nat × Str) → Scanner → Scanner
  | [], s => s.advance
  | (_, g) :: gs, s =>
    if g == ['"'] then s
    else if g == ['\n'] then
      stringLoop gs { s with line := satInc32 s.line, column := 0 }.advance
    else stringLoop gs s.advance

/-- `scanner.rs:456-489` `scan_string`. -/
def scanString (s : Scanner) : Outcome Scanner :=
  let startIndex := s.peekIndex
  let startLine := s.line
  let s := stringLoop s.graphemes s
  if s.eof then
    .done (s.error (.new ⟨s.line, s.column - 1⟩ "Unterminated string."))
  else do
    let s := s.advance
    let value ← sliceBytes s.source startIndex s.current
    s.addStringLiteralToken value startLine

/-- `scanner.rs:505-524`: the optional fractional part. -/
def scanFraction (s : Scanner) : Scanner :=
  if s.isMatch ['.'] then
    let s :=
      match s.peekNext with
      | some c => if isDigit c then s.advance else s
      | none => s
    s.advanceWhile isDigit
  else s

/-- `scanner.rs:491-531` `scan_number`. -/
def scanNumber (env : Env) (s : Scanner) : Outcome Scanner := do
  let s := (s.advanceWhile isDigit).scanFraction
  let value ← sliceBytes s.source s.start s.peekIndex
  match env.parseF64 value with
  | some number => s.addNumberLiteralToken number
  | none => .panic "Unable to parse string as f64"

/-- `scanner.rs:533-555` `scan_identifier`. -/
def scanIdentifier (env : Env) (s : Scanner) : Outcome Scanner := do
  let s := s.advanceWhile (isAlnum env)
  let text ← sliceBytes s.source s.start s.peekIndex
  s.addToken (keywordType text)

/-- The clusters that are handled uniformly at `scanner.rs:134-189` (all but `(`): token type, and
whether the line continues after it. -/
def punct : Str → Option (TokenType × Bool)
  | [')'] => some (.rightParen, false)
  | ['{'] => some (.leftBrace, true)
  | ['}'] => some (.rightBrace, false)
  | ['['] => some (.leftBracket, true)
  | [']'] => some (.rightBracket, false)
  | [':'] => some (.colon, true)
  | [','] => some (.comma, true)
  | ['.'] => some (.dot, true)
  | ['-'] => some (.minus, true)
  | ['+'] => some (.plus, true)
  | [';'] => some (.semicolon, false)
  | ['*'] => some (.star, true)
  | _ => none

/-- The clusters that may be followed by `=`, at `scanner.rs:190-223`: token type with `=`, without,
and whether the line continues after it. -/
def eqPunct : Str → Option (TokenType × TokenType × Bool)
  | ['!'] => some (.bangEqual, .bang, false)
  | ['='] => some (.equalEqual, .equal, false)
  | ['<'] => some (.lessEqual, .less, true)
  | ['>'] => some (.greaterEqual, .greater, true)
  | _ => none

/-- What a branch of `scan_token` leaves in its local variables: `is_whitespace` and
`following_line_continuation`. -/
structure Flags where
  isWhitespace : Bool
  followingLineContinuation : Bool
  deriving Repr, DecidableEq

/-- `scanner.rs:236-255`: a backslash. -/
def scanBackslash (s : Scanner) : Scanner :=
  let s := s.advanceWhile (· == [' '])
  let s := (s.matchesCluster ['\r']).2
  let (found, s) := s.matchesCluster ['\n']
  if found then { s.resetLine with isLineContinuation := true }
  else s.error (.new ⟨s.line, s.startColumn⟩ "Unexpected character: '\\'")

/-- `scanner.rs:270-282`: a newline. -/
def scanNewline (s : Scanner) : Outcome Scanner := do
  let continueLine := s.followingLineContinuation
  let s ←
    if !s.isBol && !continueLine && !s.onlyComment then s.addToken .terminator
    else .done s
  .done s.resetLine

/-- `scanner.rs:224-235`: a slash, which may start a comment. -/
def scanSlash (s : Scanner) : Outcome (Scanner × Flags) := do
  let wasBol := s.isBol
  let s ← s.bolIndentationTokens
  let (found, s) := s.matchesCluster ['/']
  if found then
    .done ({ s.advanceToEol with onlyComment := wasBol }, ⟨false, false⟩)
  else do
    let s ← s.addToken .slash
    .done (s, ⟨false, true⟩)

/-- `scanner.rs:287-302`: numbers, identifiers and unexpected clusters. -/
def scanOther (env : Env) (g : Str) (s : Scanner) : Outcome (Scanner × Flags) := do
  let s ← s.bolIndentationTokens
  let s ←
    if isDigit g then s.scanNumber env
    else if isAlpha env g then s.scanIdentifier env
    else .done (s.error (.new ⟨s.line, s.column⟩ ("Unexpected token: " ++ String.ofList g)))
  .done (s, ⟨false, false⟩)

/-- `scanner.rs:124-303`: the `match grapheme_cluster`. The uniform cases are grouped by `punct` and
`eqPunct`; the cases are disjoint literals, so their order does not matter. -/
def scanCluster (env : Env) (g : Str) (s : Scanner) : Outcome (Scanner × Flags) :=
  match punct g with
  | some (t, continues) => do
    let s ← s.bolIndentationTokens
    let s ← s.addToken t
    .done (s, ⟨false, continues⟩)
  | none =>
    match eqPunct g with
    | some (tEq, t, continues) => do
      let s ← s.bolIndentationTokens
      let (found, s) := s.matchesCluster ['=']
      let s ← if found then s.addToken tEq else s.addToken t
      .done (s, ⟨false, continues⟩)
    | none =>
      if g = ['('] then do
        let s ← s.bolIndentationTokens
        let s ← if s.isAbutting then s.addToken .leftParenAbutting else s.addToken .leftParen
        .done (s, ⟨false, true⟩)
      else if g = ['/'] then s.scanSlash
      else if g = ['\\'] then .done (s.scanBackslash, ⟨false, false⟩)
      else if g = ['\t'] then
        .done (s.error (.new ⟨s.line, s.column⟩
          "Illegal tab character; all whitespace must be spaces"), ⟨true, false⟩)
      else if g = [' '] then
        .done ((if s.isBol then { s with bolSpaces := satInc16 s.bolSpaces } else s), ⟨true, false⟩)
      else if g = ['\r'] then .done (s, ⟨true, false⟩)
      else if g = ['\n'] then do
        let s ← s.scanNewline
        .done (s, ⟨true, false⟩)
      else if g = ['"'] then do
        let s ← s.bolIndentationTokens
        let s ← s.scanString
        .done (s, ⟨false, false⟩)
      else s.scanOther env g

/-- `scanner.rs:116-308` `scan_token`. -/
def scanToken (env : Env) (s : Scanner) : Outcome Scanner :=
  let s := { s with startColumn := s.column }
  match s.peek with
  | none => .done s.advance
  | some g => do
    let (s, flags) ← scanCluster env g s.advance
    .done { s with
      followingLineContinuation := flags.followingLineContinuation
      isAbutting := !flags.isWhitespace }

/-- `scanner.rs:90-94`: the main loop. `fuel` bounds the number of iterations; `scanClusters` gives
one more than there are clusters, and it is proved that this is never exhausted. -/
def scanLoop (env : Env) : Nat → Scanner → Outcome Scanner
  | 0, _ => .diverge
  | fuel + 1, s =>
    if s.eof then .done s
    else do
      let s ← scanToken env { s with start := s.peekIndex }
      scanLoop env fuel s

/-- The loop of `scanner.rs:111-113`. -/
def addOutdents : Nat → Scanner → Outcome Scanner
  | 0, s => .done s
  | n + 1, s => do
    let s ← s.addToken .outdent
    addOutdents n s

/-- `scanner.rs:109-114` `close_all_blocks`. -/
def closeAllBlocks (s : Scanner) : Outcome Scanner :=
  let s := { s with startColumn := s.column - 1 }
  addOutdents s.indentation.length s

end Scanner

/-- `scanner.rs:89-107` `scan_tokens`, on the clusters of the source. (Simplification: the scanner
object is not returned, i.e. `scan_tokens` is called once per scanner, as everywhere in the repo.) -/
def scanClusters (env : Env) (clusters : List Str) : Outcome (Except ParseError (List Token)) := do
  let s ← Scanner.scanLoop env (clusters.length + 2) (Scanner.ofClusters clusters)
  let s ← s.closeAllBlocks
  let s ← s.addToken .eof
  if s.errors.isEmpty then .done (.ok s.tokens) else .done (.error s.errors)

/-- `Scanner::new(source).scan_tokens()`. -/
def scanTokens (env : Env) (source : Str) : Outcome (Except ParseError (List Token)) :=
  scanClusters env (env.segment source)

end Ws
