import Verif.Model.Page
/-! Specification of what the demo page shows (C91). -/
namespace Ws.Spec

/-- What is used of `Number.prototype.toString`: the text begins with a digit, a minus sign, or the N or I
of NaN and Infinity, and has no comma in it. -/
structure ShowLaws (showNumber : F64 → Str) : Prop where
  first : ∀ x, ∃ c r, showNumber x = c :: r ∧ c ∉ ['"', '\n', 'u']
  comma : ∀ x, ',' ∉ showNumber x

/-- The entries of a value that the page shows in braces. A truth value has none. -/
def shownFields : JsValue → Option (List JsField)
  | .bool _ => some []
  | .object fs => some fs
  | .map fs => some fs
  | _ => none

mutual
/-- The values look the same on the page: they are the same but for what is true and what is false. (A truth
value, an object and a map look the same if they have the same entries.) -/
inductive Shown (showNumber : F64 → Str) : JsValue → JsValue → Prop
  | undefined : Shown showNumber .undefined .undefined
  | number {x y} : showNumber x = showNumber y → Shown showNumber (.number x) (.number y)
  | string (s) : Shown showNumber (.string s) (.string s)
  | array {es es'} : ShownAll showNumber es es' → Shown showNumber (.array es) (.array es')
  | braces {v w fs fs'} : shownFields v = some fs → shownFields w = some fs' → ShownFields showNumber fs fs' → Shown showNumber v w
inductive ShownAll (showNumber : F64 → Str) : List JsValue → List JsValue → Prop
  | nil : ShownAll showNumber [] []
  | cons {e e' es es'} : Shown showNumber e e' → ShownAll showNumber es es' → ShownAll showNumber (e :: es) (e' :: es')
inductive ShownFields (showNumber : F64 → Str) : List JsField → List JsField → Prop
  | nil : ShownFields showNumber [] []
  | cons {k v v' fs fs'} : Shown showNumber v v' → ShownFields showNumber fs fs' →
      ShownFields showNumber (.mk k v :: fs) (.mk k v' :: fs')
end

end Ws.Spec

