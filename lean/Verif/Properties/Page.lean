import Verif.Properties.Js
import Verif.Proofs.Page
/-! Property C91: what the demo page shows. -/
namespace Ws.Properties
open Ws Spec

variable {env : Env} {escaped : Char → Bool} {showNumber : F64 → Str} {source source' text : Str}

/-- C91, for values: they have the same text exactly if they differ only where `Shown` allows it. -/
theorem pretty_alike (hs : ShowLaws showNumber) {v w : JsValue} : pretty showNumber [] v = pretty showNumber [] w ↔ Shown showNumber v w :=
  ⟨fun h => (pretty_cut hs v w [] [] [] (.inl rfl) (.inl rfl) (by rw [h])).1, fun h => alike_pretty h []⟩

theorem page_cases (h : page env escaped showNumber source = .done text) :
    (∃ es, parseString env escaped source = .done (.error (displayError escaped es)) ∧ text = displayError escaped es) ∨
      (∃ vs, parseString env escaped source = .done (.value (.array vs)) ∧ text = pretty showNumber [] (.array vs)) := by
  unfold page at h
  have hp : parseString env escaped source = (wasmParseString env source).bind fun
      | .ok sts => .done (.value (.array (stmtsJs sts)))
      | .error es => .done (.error (displayError escaped es)) := rfl
  simp only [bind] at h
  cases h1 : wasmParseString env source with
  | panic m => rw [hp, h1] at h; cases h
  | diverge => rw [hp, h1] at h; cases h
  | done r =>
    rw [hp, h1] at h ⊢
    cases r with
    | ok sts => cases h; exact .inr ⟨_, rfl, rfl⟩
    | error es => cases h; exact .inl ⟨_, rfl, rfl⟩

/-- C91, as far as it is true: when the page shows the same for two sources, `parseString` gave the same error
for both, or values that differ only in what is true and what is false. -/
theorem page_partial (hs : ShowLaws showNumber) (h : page env escaped showNumber source = .done text)
    (h' : page env escaped showNumber source' = .done text) :
    (∃ m, parseString env escaped source = .done (.error m) ∧ parseString env escaped source' = .done (.error m)) ∨
      (∃ v w, parseString env escaped source = .done (.value v) ∧ parseString env escaped source' = .done (.value w) ∧
        Shown showNumber v w) := by
  have mixed : ∀ {es vs}, displayError escaped es ≠ pretty showNumber [] (.array vs) := by
    intro es vs e
    exact display_head (escaped := escaped) es (by rw [e]; rfl)
  rcases page_cases h with ⟨es, h1, rfl⟩ | ⟨vs, h1, rfl⟩ <;> rcases page_cases h' with ⟨es', h2, e⟩ | ⟨vs', h2, e⟩
  · exact .inl ⟨_, h1, by rw [h2, e]⟩
  · exact absurd e mixed
  · exact absurd e.symm mixed
  · exact .inr ⟨_, _, h1, h2, (pretty_alike hs).mp e⟩

/-- The decimal number of the bits of a float: something that has the laws. -/
theorem decimal_show : ShowLaws decimal where
  first x := by
    obtain ⟨c, r, h, hd⟩ := decimal_head x
    refine ⟨c, r, h, ?_⟩
    intro hc
    simp only [List.mem_cons, List.not_mem_nil, or_false] at hc
    rcases hc with rfl | rfl | rfl <;> exact absurd hd (by unfold DecDigit; decide)
  comma x h := absurd (decimal_digits x _ h) (by unfold DecDigit; decide)

/-- What the page shows for `print true`, and for `print false`. -/
def shownTruth : Str :=
  c!"\n[\n  \n  {\n    type: \"Print\",\n    args: \n    {\n      type: \"LiteralBool\",\n      args: \n      {\n      },\n    },\n  },\n]"

/-- C91 is false of the code: the page shows the same for `print true` and `print false`, whatever numbers look
like; and `parseString` does not give the same. -/
theorem page_false : page asciiEnv (fun _ => false) showNumber c!"print true\n" = .done shownTruth ∧
    page asciiEnv (fun _ => false) showNumber c!"print false\n" = .done shownTruth ∧
    parseString asciiEnv (fun _ => false) c!"print true\n" ≠ parseString asciiEnv (fun _ => false) c!"print false\n" := by
  have value : ∀ b : Bool, parseString asciiEnv (fun _ => false) (if b then c!"print true\n" else c!"print false\n") =
      .done (.value (.array [.object [.mk c!"type" (.string c!"Print"), .mk c!"args" (.object
        [.mk c!"type" (.string c!"LiteralBool"), .mk c!"args" (.bool b)])]])) := by
    intro b
    cases b <;> by_kernel
  have e1 := value true
  have e2 := value false
  simp only [if_true, Bool.false_eq_true, if_false] at e1 e2
  refine ⟨?_, ?_, ?_⟩
  · unfold page
    rw [e1]
    rfl
  · unfold page
    rw [e2]
    rfl
  · rw [e1, e2]
    simp

/-- Keys are quoted where JavaScript needs it. -/
example : page asciiEnv (fun _ => false) decimal c!"print {a: nil, \"while\": nil, \"x y\": nil}\n" = .done
    c!"\n[\n  \n  {\n    type: \"Print\",\n    args: \n    {\n      type: \"LiteralMap\",\n      args: \n      {\n        a: \n        {\n          type: \"LiteralNil\",\n        },\n        \"while\": \n        {\n          type: \"LiteralNil\",\n        },\n        \"x y\": \n        {\n          type: \"LiteralNil\",\n        },\n      },\n    },\n  },\n]" := by
  by_kernel

/-- An error is shown as it is. -/
example : page asciiEnv (fun _ => false) decimal c!"print\n" = .done c!"1:6 at \"\\n\": Expect expression.\n\n" := by
  by_kernel

/-- The theorem applies to the two programs with truth values. -/
example : (∃ m, parseString asciiEnv (fun _ => false) c!"print true\n" = .done (.error m) ∧
      parseString asciiEnv (fun _ => false) c!"print false\n" = .done (.error m)) ∨
    ∃ v w, parseString asciiEnv (fun _ => false) c!"print true\n" = .done (.value v) ∧
      parseString asciiEnv (fun _ => false) c!"print false\n" = .done (.value w) ∧ Shown decimal v w :=
  page_partial decimal_show page_false.1 page_false.2.1

end Ws.Properties
