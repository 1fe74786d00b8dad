import Verif.Model.Driver
/-! A concrete environment, for running the model and for showing that hypotheses about the
environment can be met. -/
namespace Ws

/-- Grapheme clusters of ASCII text: every character is a cluster of its own, except that CR LF is
one cluster (Unicode Standard Annex #29, rules GB3 and GB999). -/
def asciiSegment : Str → List Str
  | [] => []
  | '\r' :: '\n' :: rest => ['\r', '\n'] :: asciiSegment rest
  | c :: rest => [c] :: asciiSegment rest

/-- Value of a string of decimal digits. -/
def digitsValue (ds : Str) : Nat := ds.foldl (fun n d => 10 * n + (d.toNat - 48)) 0

/-- Number of binary digits. -/
def bitLen (n : Nat) : Nat := if n = 0 then 0 else n.log2 + 1

/-- `n / d` rounded to the nearest integer, ties to even. -/
def divRoundEven (n d : Nat) : Nat :=
  let q := n / d
  let r := n % d
  if 2 * r < d then q else if 2 * r > d then q + 1 else if q % 2 = 0 then q else q + 1

/-- The bit pattern of the binary64 number nearest to `n / d` (ties to even), for `d > 0`. -/
def ratToBits (n d : Nat) : F64 :=
  if n = 0 then 0
  else
    -- `e` such that `2^52 ≤ (n/d) * 2^(-e) < 2^53`, up to one; `e ≥ -1074` for subnormals
    let e0 : Int := (bitLen n : Int) - (bitLen d : Int) - 53
    let scaled (e : Int) : Nat × Nat :=
      if e ≥ 0 then (n, d * 2 ^ e.toNat) else (n * 2 ^ (-e).toNat, d)
    let e1 : Int := let (a, b) := scaled e0; if a / b ≥ 2 ^ 53 then e0 + 1 else e0
    let e : Int := max e1 (-1074)
    let m := let (a, b) := scaled e; divRoundEven a b
    -- `m ≤ 2^53`; adding the exponent field carries correctly when `m = 2^53`
    if m < 2 ^ 52 then m
    else
      let bits := ((e + 1074).toNat) * 2 ^ 52 + m
      if bits ≥ 2047 * 2 ^ 52 then 2047 * 2 ^ 52 else bits

/-- Decimal literals `ddd` and `ddd.ddd` to binary64. -/
def parseDecimal (s : Str) : Option F64 :=
  let int := s.takeWhile Char.isDigit
  match s.dropWhile Char.isDigit with
  | [] => if int.isEmpty then none else some (ratToBits (digitsValue int) 1)
  | '.' :: frac =>
    if int.isEmpty || frac.isEmpty || !frac.all Char.isDigit then none
    else some (ratToBits (digitsValue (int ++ frac)) (10 ^ frac.length))
  | _ => none

/-- An environment that is right for ASCII sources, in a 64-bit debug build. -/
def asciiEnv : Env where
  segment := asciiSegment
  isAlphabetic := Char.isAlpha
  isAlphanumeric := Char.isAlphanum
  parseF64 := parseDecimal
  overflowChecks := true
  usizeMax := 2 ^ 64 - 1

/-- A 64-bit release build. -/
def asciiReleaseEnv : Env := { asciiEnv with overflowChecks := false }

end Ws
