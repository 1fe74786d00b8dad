import Verif.Spec.Scan
import Verif.Spec.Relabel
import Verif.Spec.Positions
/-! Sources with other names, strings, numbers and comments. -/
namespace Ws.Spec
open Ws

/-- Everything but names, strings and numbers. -/
def Piece.kept : Piece → Bool
  | .token t _ => t.tokenType != .identifier && t.tokenType != .string && t.tokenType != .number
  | _ => true

/-- `Respelled env ρ p l`: instead of the piece `p`, the source has the clusters `l`: for a name, a
string or a number, they spell the other name, string or number; for a comment, they are any comment;
and everything else is the same. A number with a fraction keeps having one: `1.5.5` is not `2.5`. -/
inductive Respelled (env : Env) (ρ : Relabelling) : Piece → List Str → Prop
  | name (t : Token) (l : List Str) (g : Str) (r : List Str) : t.tokenType = .identifier →
    WordStart env g → (∀ h ∈ r, WordPart env h) → (∀ k, keyword k ≠ some (g :: r).flatten) →
    ρ.name t.lexeme = (g :: r).flatten → Respelled env ρ (.token t l) (g :: r)
  | string (t : Token) (l body : List Str) : t.tokenType = .string → ['"'] ∉ body →
    t.stringLiteral.map ρ.string = some body.flatten → Respelled env ρ (.token t l) (['"'] :: (body ++ [['"']]))
  | whole (t : Token) (l digits : List Str) : t.tokenType = .number → ['.'] ∉ l → digits ≠ [] →
    (∀ g ∈ digits, Digit g) → t.floatLiteral.map ρ.number = env.parseF64 digits.flatten → Respelled env ρ (.token t l) digits
  | fraction (t : Token) (l digits more : List Str) : t.tokenType = .number → digits ≠ [] → more ≠ [] →
    (∀ g ∈ digits ++ more, Digit g) →
    t.floatLiteral.map ρ.number = env.parseF64 (digits ++ ['.'] :: more).flatten →
    Respelled env ρ (.token t l) (digits ++ ['.'] :: more)
  | comment (body body' : List Str) : ['\n'] ∉ body' → Respelled env ρ (.comment body) (['/'] :: ['/'] :: body')
  | same (p : Piece) : p.kept = true → Respelled env ρ p p.text

/-- Letters are letters or digits, as Rust documents for `char::is_alphanumeric`. -/
def LetterLaw (env : Env) : Prop := ∀ c, env.isAlphabetic c = true → env.isAlphanumeric c = true

end Ws.Spec
