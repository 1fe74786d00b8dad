/-
Basic types shared by all parts of the model.

The model follows /repo (jtran/whitespace) function by function; every definition cites the file and
lines it models.
-/
namespace Ws

/-- Rust `&str`/`String` as the list of its characters (Unicode scalar values).
Simplification: UTF-8 bytes are not stored; byte offsets are computed from `Char.utf8Size`. -/
abbrev Str := List Char

/-- `c!"abc"` is the literal list `['a', 'b', 'c']`. -/
syntax:max "c!" str : term
macro_rules
  | `(c! $s:str) => do
    let elems : Array (Lean.TSyntax `term) := (s.getString.toList.map fun c =>
      ⟨(Lean.Syntax.mkCharLit c).raw⟩).toArray
    `([$elems,*])

/-- Outcome of a computation that cannot fail recoverably: it returns, panics, or runs forever. -/
inductive Outcome (α : Type) where
  | done (a : α)
  | panic (msg : String)
  | diverge
  deriving Repr, DecidableEq

namespace Outcome
/-- Sequencing: a panic or divergence of the first part is that of the whole. -/
@[inline] protected def bind {α β : Type} (x : Outcome α) (f : α → Outcome β) : Outcome β :=
  match x with
  | done a => f a
  | panic m => panic m
  | diverge => diverge

instance : Monad Outcome where
  pure := done
  bind := Outcome.bind
end Outcome

/-- Outcome of a fallible computation on a mutable state (`&mut self`, returning
`Result<_, ParseErrorCause>`): success, recoverable error (the state is kept: `?` does not undo
mutations), panic, or running forever. -/
inductive Res (σ ε α : Type) where
  | ok (a : α) (s : σ)
  | err (e : ε) (s : σ)
  | panic (msg : String)
  | diverge

/-- Computations on a mutable state `σ`, with `?`-style errors `ε`. -/
def M (σ ε α : Type) := σ → Res σ ε α

namespace M
variable {σ ε α β : Type}
@[inline] protected def pure (a : α) : M σ ε α := fun s => .ok a s
@[inline] protected def bind (x : M σ ε α) (f : α → M σ ε β) : M σ ε β := fun s =>
  match x s with
  | .ok a s' => f a s'
  | .err e s' => .err e s'
  | .panic m => .panic m
  | .diverge => .diverge
instance : Monad (M σ ε) where
  pure := M.pure
  bind := M.bind
/-- `return Err(e)`. -/
@[inline] def throw (e : ε) : M σ ε α := fun s => .err e s
/-- `panic!(msg)`. -/
@[inline] def panic (msg : String) : M σ ε α := fun _ => .panic msg
/-- Read the state. -/
@[inline] def get : M σ ε σ := fun s => .ok s s
/-- Update the state. -/
@[inline] def modify (f : σ → σ) : M σ ε Unit := fun s => .ok () (f s)
end M

/-- `u16::MAX`. -/
abbrev u16Max : Nat := 65535
/-- `u32::MAX`. -/
abbrev u32Max : Nat := 4294967295
/-- `u16::saturating_add(1)`. -/
def satInc16 (n : Nat) : Nat := if n < u16Max then n + 1 else u16Max
/-- `u32::saturating_add(1)`. -/
def satInc32 (n : Nat) : Nat := if n < u32Max then n + 1 else u32Max

/-- An `f64`, as its 64-bit pattern. -/
abbrev F64 := Nat

/-- Everything outside the repository that its behaviour depends on: the grapheme segmentation of
`unicode-segmentation` (`scanner.rs:70`), Rust's Unicode tables (`scanner.rs:619-633`), `f64`
parsing (`scanner.rs:527`), and the build configuration (whether arithmetic overflow panics, and the
width of `usize`). -/
structure Env where
  /-- `source.grapheme_indices(true)`, without the indices (see `graphemeIndices`). -/
  segment : Str → List Str
  /-- `char::is_alphabetic`. -/
  isAlphabetic : Char → Bool
  /-- `char::is_alphanumeric`. -/
  isAlphanumeric : Char → Bool
  /-- `str::parse::<f64>().ok()`. -/
  parseF64 : Str → Option F64
  /-- `overflow-checks`: on in debug builds, off in release builds. -/
  overflowChecks : Bool
  /-- `usize::MAX`. -/
  usizeMax : Nat

/-- Number of UTF-8 bytes (`str::len`). -/
def byteLen : Str → Nat
  | [] => 0
  | c :: cs => c.utf8Size + byteLen cs

/-- Drop `n` bytes; `none` if `n` is not a character boundary or is out of range. -/
def dropBytes : Str → Nat → Option Str
  | cs, 0 => some cs
  | [], _ + 1 => none
  | c :: cs, n => if c.utf8Size ≤ n then dropBytes cs (n - c.utf8Size) else none

/-- Take `n` bytes; `none` if `n` is not a character boundary or is out of range. -/
def takeBytes : Str → Nat → Option Str
  | _, 0 => some []
  | [], _ + 1 => none
  | c :: cs, n =>
    if c.utf8Size ≤ n then (takeBytes cs (n - c.utf8Size)).map (c :: ·) else none

/-- `&source[a..b]`, which panics unless `a ≤ b`, `b` is in range and both are boundaries. -/
def sliceBytes (source : Str) (a b : Nat) : Outcome Str :=
  if a ≤ b then
    match (dropBytes source a).bind (takeBytes · (b - a)) with
    | some r => .done r
    | none => .panic "byte index is not a char boundary or out of range"
  else .panic "slice index starts after it ends"

end Ws
