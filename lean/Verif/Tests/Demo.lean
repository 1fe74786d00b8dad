import Verif.Model.Driver
import Verif.Tests.RepoTests
import Verif.Properties.Crlf
/-! The program of the demo page, `index.html:176-236`. -/
namespace Ws.Tests
open Ws

/-- `index.html:176-236`, with `&lt;` read as `<`. -/
def demo : Str := c!"// Add numbers.
fun add(x, y)
  var sum = x + y
  return sum

// Parentheses to call a function are optional when there's at least
// one argument.
add 1, 2
add(2, 3)

// For arrays, a comma at the end of each line is required.
on_off_list = [
  1,
  0,
  1,
]

// Literal maps.  Trailing commas are optional.
var params =
  color: \"#ff00ff\"
  opacity: 0.8
  \"key with special characters\": 25

// Single line map.
var m = { fruit: \"apple\", bread: \"rye\" }

// \"print\" is super special, for now.  Parens not allowed.
print on_off_list[1]

var n = 9
while (true)
  if (n / 4 == 2)
    break
  n = n - 1

for (var i = 0; i < 10; i = i + 1)
  // No remainder or modulus operator.
  if (i == 2 or i == 4 or i == 6 or i == 8)
    continue
  print i

// Classes are a thing.
class Counter
  // This is the constructor.
  init(start)
    this.n = start

  increment()
    this.n = this.n + 1

// Instantiate it.
var c = Counter(0)
c.increment()
print c.n

// Subclass and use the superclass.
class DoubleCounter < Counter
  increment()
    super.increment()
    super.increment()
"

/-- The first word of a statement, or the sign in it. -/
def sort : Stmt → String
  | .block _ => "block" | .break _ => "break" | .class .. => "class" | .continue _ => "continue"
  | .expression (.assign ..) => "assign" | .expression (.call ..) => "call" | .expression _ => "expression"
  | .fun _ => "fun" | .if .. => "if" | .print _ => "print" | .return .. => "return" | .var .. => "var"
  | .while .. => "while" | .whileIncrement .. => "whileIncrement"

/-- The statements of a program that is accepted. -/
def sorts : Outcome (Except ParseError (List Stmt) × Resolver) → List String
  | .done (.ok ss, _) => ss.map sort
  | _ => []

/-- The demo program is accepted. -/
theorem demo_ok : sorts (run asciiEnv .new demo false) =
    ["fun", "call", "call", "assign", "var", "var", "print", "var", "while", "block", "class", "var", "call", "print", "class"] := by
  by_kernel

/-- A text with Windows line endings. -/
def windows (s : Str) : Str := s.flatMap fun c => if c = '\n' then ['\r', '\n'] else [c]

/-- With Windows line endings the demo program is accepted, too, but as the empty program: it begins with
a comment, which does not end (C16). -/
theorem demo_windows : run asciiEnv .new (windows demo) false = .done (.ok [], .new) := by
  have he : asciiEnv.segment (windows demo) = Spec.commentText ((asciiEnv.segment (windows demo)).drop 2) := by by_kernel
  have ht : ((asciiEnv.segment (windows demo)).drop 2).contains ['\n'] = false := by by_kernel
  refine (Properties.crlf_source_partial he ?_).2
  simpa using ht

end Ws.Tests
