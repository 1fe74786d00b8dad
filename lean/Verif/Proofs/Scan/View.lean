import Verif.Proofs.Scan.Slice
/-! A scanner on clusters, without byte offsets, that is equal to the model of `scanner.rs`
(`scanClusters_eq`). All properties of the scanner are proved about this one. -/
namespace Ws

/-- The state between two lexemes. -/
structure V where
  pre : List Str
  rest : List Str
  tokens : List Token
  errors : List Cause
  stack : List Nat
  line : Nat
  column : Nat
  bolSpaces : Nat
  isBol : Bool
  onlyComment : Bool
  isCont : Bool
  followCont : Bool
  abut : Bool

/-- What the model's state has in addition. -/
structure X where
  source : Str
  start : Nat
  current : Nat
  startColumn : Nat
  eof : Bool

/-- The model's state. -/
def conc (v : V) (x : X) : Scanner where
  source := x.source
  tokens := v.tokens
  errors := v.errors
  indentation := v.stack
  graphemes := graphemeIndices (byteLen v.pre.flatten) v.rest
  start := x.start
  current := x.current
  line := v.line
  column := v.column
  startColumn := x.startColumn
  eof := x.eof
  bolSpaces := v.bolSpaces
  isBol := v.isBol
  onlyComment := v.onlyComment
  isLineContinuation := v.isCont
  followingLineContinuation := v.followCont
  isAbutting := v.abut

/-- Advance the column over `n` clusters. -/
def addCol : Nat → Nat → Nat
  | c, 0 => c
  | c, n + 1 => addCol (satInc16 c) n

/-- Move over clusters, column only. -/
def V.skip (v : V) (cs : List Str) : V :=
  { v with
    pre := v.pre ++ cs, rest := v.rest.drop cs.length, column := addCol v.column cs.length }

/-- Line and column after the clusters of a string literal. -/
def posThrough : Nat × Nat → List Str → Nat × Nat
  | p, [] => p
  | (l, c), g :: gs => if g = ['\n'] then posThrough (satInc32 l, 1) gs else posThrough (l, satInc16 c) gs

/-- Move over clusters, counting lines. -/
def V.skipLines (v : V) (cs : List Str) : V :=
  { v with
    pre := v.pre ++ cs, rest := v.rest.drop cs.length
    line := (posThrough (v.line, v.column) cs).1, column := (posThrough (v.line, v.column) cs).2 }

def V.push (v : V) (ts : List Token) : V := { v with tokens := v.tokens ++ ts }
def V.err (v : V) (es : List Cause) : V := { v with errors := v.errors ++ es }

/-- The classes of lexemes. -/
inductive Kind where
  | tok (t : TokenType) (continues : Bool)
  | num (taken : List Str)
  | ident (taken : List Str)
  | str (taken : List Str)
  | unterminated
  | unexpected
  | comment (taken : List Str)
  | backslash (taken : List Str) (newline : Bool)
  | tab
  | space
  | cr
  | newline
  | two (t : TokenType) (second : Str) (continues : Bool)

/-- The fractional part of a number at the head of the clusters. -/
def fraction : List Str → List Str
  | d :: c :: cs => if d = ['.'] then if isDigit c then d :: (c :: cs).takeWhile isDigit else [] else []
  | _ => []

/-- A carriage return at the head of the clusters. -/
def optCr : List Str → List Str
  | g :: _ => if g = ['\r'] then [['\r']] else []
  | [] => []

/-- The clusters a backslash takes after itself, and whether they end in a newline. -/
def backslashTaken (cs : List Str) : List Str × Bool :=
  let sp := cs.takeWhile (· == [' '])
  let r := cs.dropWhile (· == [' '])
  if (r.drop (optCr r).length).head? = some ['\n'] then (sp ++ optCr r ++ [['\n']], true)
  else (sp ++ optCr r, false)

/-- The lexeme at the head of the clusters `g :: cs`. -/
def lexeme (env : Env) (abut : Bool) (g : Str) (cs : List Str) : Kind :=
  match Scanner.punct g with
  | some (t, c) => .tok t c
  | none =>
    match Scanner.eqPunct g with
    | some (tEq, t, c) => if cs.head? = some ['='] then .two tEq ['='] c else .tok t c
    | none =>
      if g = ['('] then .tok (if abut then .leftParenAbutting else .leftParen) true
      else if g = ['/'] then
        if cs.head? = some ['/'] then .comment (['/'] :: cs.tail.takeWhile (fun g => !(g == ['\n'])))
        else .tok .slash true
      else if g = ['\\'] then .backslash (backslashTaken cs).1 (backslashTaken cs).2
      else if g = ['\t'] then .tab
      else if g = [' '] then .space
      else if g = ['\r'] then .cr
      else if g = ['\n'] then .newline
      else if g = ['"'] then
        if cs.any (· == ['"']) then .str (cs.takeWhile (fun g => !(g == ['"']))) else .unterminated
      else if isDigit g then
        .num (cs.takeWhile isDigit ++ fraction (cs.dropWhile isDigit))
      else if isAlpha env g then .ident (cs.takeWhile (isAlnum env))
      else .unexpected

/-- The levels closed by a line of indentation `k`: how many, whether `k` is an open level, and
what stays open. -/
def outdents (k : Nat) : List Nat → Outcome (Nat × Bool × List Nat)
  | [] => .done (0, false, [])
  | a :: below =>
    if a = k then .done (0, true, a :: below)
    else if a > k then
      match outdents k below with
      | .done (n, found, st) => .done (n + 1, found, st)
      | .panic m => .panic m
      | .diverge => .diverge
    else .diverge

/-- An Indent or Outdent token before the cluster `g`. -/
def V.layoutTok (v : V) (t : TokenType) (g : Str) : Token := ⟨t, g, none, none, v.line, v.column⟩

def outdentError (line column : Nat) : Cause :=
  .new ⟨line, column⟩ "Outdent does not match any previous indentation level"

/-- The layout tokens before the first lexeme of a line, which starts with the cluster `g`. -/
def V.bol (v : V) (g : Str) : Outcome V :=
  if !v.isBol then .done v
  else if v.bolSpaces = v.stack.head?.getD 0 then .done { v with isBol := false }
  else if v.bolSpaces > v.stack.head?.getD 0 then
    if !v.isCont then
      .done { v with
        isBol := false, tokens := v.tokens ++ [v.layoutTok .indent g]
        stack := v.bolSpaces :: v.stack }
    else .done { v with isBol := false }
  else
    match outdents v.bolSpaces v.stack with
    | .done (n, found, st) =>
      .done { v with
        isBol := false, tokens := v.tokens ++ List.replicate n (v.layoutTok .outdent g)
        stack := st
        errors := v.errors ++
          (if !found && v.bolSpaces > 0 then [outdentError v.line (satInc16 v.column)] else []) }
    | .panic m => .panic m
    | .diverge => .diverge

def V.flags (v : V) (ws fc : Bool) : V := { v with abut := !ws, followCont := fc }

def V.resetLine (v : V) : V :=
  { v with
    line := satInc32 v.line, column := 1, bolSpaces := 0, isBol := true, onlyComment := false
    isCont := if v.isBol then v.isCont else v.followCont
    followCont := if v.isBol then v.followCont else false }

/-- One lexeme. -/
def vstep (env : Env) (v : V) : Outcome V :=
  match v.rest with
  | [] => .done v
  | g :: cs =>
    match lexeme env v.abut g cs with
    | .tok t c => do
      let w ← v.bol g
      .done (((w.skip [g]).push [⟨t, g, none, none, v.line, v.column⟩]).flags false c)
    | .two t second c => do
      let w ← v.bol g
      .done (((w.skip [g, second]).push [⟨t, g ++ second, none, none, v.line, v.column⟩]).flags
        false c)
    | .num taken => do
      let w ← v.bol g
      match env.parseF64 (g :: taken).flatten with
      | some x =>
        .done (((w.skip (g :: taken)).push
          [⟨.number, (g :: taken).flatten, none, some x, v.line, v.column⟩]).flags false false)
      | none => .panic "Unable to parse string as f64"
    | .ident taken => do
      let w ← v.bol g
      .done (((w.skip (g :: taken)).push
        [⟨keywordType (g :: taken).flatten, (g :: taken).flatten, none, none, v.line, v.column⟩]).flags
          false false)
    | .str taken => do
      let w ← v.bol g
      .done (((w.skip [g]).skipLines taken |>.skip [['"']] |>.push
        [⟨.string, (g :: (taken ++ [['"']])).flatten, some taken.flatten, none, v.line, v.column⟩]).flags
          false false)
    | .unterminated => do
      let w ← v.bol g
      let w := (w.skip [g]).skipLines cs
      .done ({ w with column := satInc16 w.column }.err
        [.new ⟨w.line, satInc16 w.column - 1⟩ "Unterminated string."] |>.flags false false)
    | .unexpected => do
      let w ← v.bol g
      .done ((w.skip [g]).err
        [.new ⟨v.line, satInc16 v.column⟩ ("Unexpected token: " ++ String.ofList g)] |>.flags
          false false)
    | .comment taken => do
      let w ← v.bol g
      .done ({ w.skip (g :: taken) with onlyComment := v.isBol }.flags false false)
    | .backslash taken newline =>
      let w := v.skip (g :: taken)
      if newline then .done ({ w.resetLine with isCont := true }.flags false false)
      else .done ((w.err [.new ⟨v.line, v.column⟩ "Unexpected character: '\\'"]).flags false false)
    | .tab =>
      .done ((v.skip [g]).err [.new ⟨v.line, satInc16 v.column⟩
        "Illegal tab character; all whitespace must be spaces"] |>.flags true false)
    | .space =>
      .done ({ v.skip [g] with
        bolSpaces := if v.isBol then satInc16 v.bolSpaces else v.bolSpaces }.flags true false)
    | .cr => .done ((v.skip [g]).flags true false)
    | .newline =>
      let w := v.skip [g]
      let w :=
        if !v.isBol && !v.followCont && !v.onlyComment then
          w.push [⟨.terminator, g, none, none, v.line, v.column⟩]
        else w
      .done (w.resetLine.flags true false)

/-- All lexemes. -/
def vloop (env : Env) : Nat → V → Outcome V
  | 0, _ => .diverge
  | n + 1, v =>
    match v.rest with
    | [] => .done v
    | _ => do
      let v ← vstep env v
      vloop env n v

def V.init (clusters : List Str) : V :=
  ⟨[], clusters, [], [], [], 1, 1, 0, true, false, false, false, false⟩

/-- The tokens added at the end of the source. -/
def V.closing (v : V) : List Token :=
  List.replicate v.stack.length ⟨.outdent, [], none, none, v.line, satInc16 v.column - 1⟩ ++
    [⟨.eof, [], none, none, v.line, satInc16 v.column - 1⟩]

def vscan (env : Env) (clusters : List Str) : Outcome (Except ParseError (List Token)) :=
  match vloop env (clusters.length + 1) (V.init clusters) with
  | .done v =>
    if v.errors.isEmpty then .done (.ok (v.tokens ++ v.closing)) else .done (.error v.errors)
  | .panic m => .panic m
  | .diverge => .diverge

end Ws
