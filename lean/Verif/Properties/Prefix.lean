import Verif.Proofs.Parse.Prefix
import Verif.Properties.Parser
/-! Property C61: what is reported of the beginning of a program does not depend on the rest. -/
namespace Ws.Properties
open Ws Spec

variable {env : Env} {source source' : Str} {repl : Bool} {ts ts' : List Token} {cs : List Cause}

/-- C61: the errors of the parser are found at increasing positions, each at the token that it reports or just after it
(except for two messages). Every program that begins with the same tokens, up to the second after the position of an error,
has the same errors up to this one. -/
theorem errors_stable (hE : EnvLaws env) (hS : Fits env source) (hs : scanTokens env source = .done (.ok ts))
    (h : parseTokens env ts repl = .done (.error cs)) :
    ∃ found : List (Nat × Cause), found.map Prod.snd = cs ∧ found.Pairwise (fun x y => x.1 < y.1) ∧
      (∀ x ∈ found, x.1 < ts.length ∧ SpotAt ts x.1 x.2) ∧
      ∀ k i c, found[k]? = some (i, c) → ∀ source' ts', Fits env source' → scanTokens env source' = .done (.ok ts') →
        ts'.take (i + 3) = ts.take (i + 3) →
        ∃ cs', parseTokens env ts' repl = .done (.error cs') ∧ cs'.take (k + 1) = cs.take (k + 1) := by
  obtain ⟨found, h1, h2, h3, h4⟩ := parse_local (scan_tokensOk hE hs) (hS ts hs) h
  exact ⟨found, h1, h2, h3, fun k i c hk source' ts' hS' hs' ht => h4 k i c hk ts' (scan_tokensOk hE hs') (hS' ts' hs') ht⟩

/-- C61: a beginning that is wrong cannot be repaired by what follows. The first error `c`, if its message is not one of the two,
reports a token, and no program is accepted that begins with the same tokens, up to the third after this token. -/
theorem no_repair (hE : EnvLaws env) (hS : Fits env source) (hs : scanTokens env source = .done (.ok ts)) {c : Cause}
    (h : parseTokens env ts repl = .done (.error (c :: cs))) (hc : c.message ∉ lateMessages) :
    ∃ i, At ts i c ∧ ∀ source' ts', Fits env source' → scanTokens env source' = .done (.ok ts') → ts'.take (i + 4) = ts.take (i + 4) →
      ∃ cs', parseTokens env ts' repl = .done (.error (c :: cs')) := by
  obtain ⟨found, h1, h2, h3, h4⟩ := errors_stable hE hS hs h
  cases found with
  | nil => simp at h1
  | cons x found =>
    obtain ⟨i, c0⟩ := x
    simp only [List.map_cons, List.cons.injEq] at h1
    obtain ⟨rfl, h1⟩ := h1
    have key : ∀ j, i ≤ j + 1 → ∀ source' ts', Fits env source' → scanTokens env source' = .done (.ok ts') →
        ts'.take (j + 4) = ts.take (j + 4) → ∃ cs', parseTokens env ts' repl = .done (.error (c0 :: cs')) := by
      intro j hj source' ts' hS' hs' ht
      obtain ⟨cs', hp, hcs⟩ := h4 0 i c0 rfl source' ts' hS' hs' (by
        have := congrArg (List.take (i + 3)) ht
        rwa [List.take_take, List.take_take, Nat.min_eq_left (by omega)] at this)
      cases cs' with
      | nil => simp at hcs
      | cons c1 cs' =>
        simp only [Nat.zero_add, List.take_succ_cons, List.take_zero, List.cons.injEq, and_true] at hcs
        exact ⟨cs', by rw [hp, hcs]⟩
    obtain ⟨-, h5 | h5 | ⟨j, rfl, h5⟩⟩ := h3 (i, c0) (by simp)
    · exact absurd h5 hc
    · exact ⟨i, h5, key i (by omega)⟩
    · exact ⟨j, h5, key j (by omega)⟩

/-- Programs with the same beginning: the first error stays, whatever follows, -/
def wrongTokens : List Token :=
  [⟨.identifier, c!"a", none, none, 1, 1⟩, ⟨.rightBracket, c!"]", none, none, 1, 3⟩, ⟨.identifier, c!"b", none, none, 1, 5⟩,
    ⟨.terminator, c!"\n", none, none, 1, 6⟩]

example : EnvLaws asciiEnv ∧ Fits asciiEnv c!"a ] b\nc = ]\n" ∧
    scanTokens asciiEnv c!"a ] b\nc = ]\n" = .done (.ok (wrongTokens ++
      [⟨.identifier, c!"c", none, none, 2, 1⟩, ⟨.equal, c!"=", none, none, 2, 3⟩, ⟨.rightBracket, c!"]", none, none, 2, 5⟩,
        ⟨.terminator, c!"\n", none, none, 2, 6⟩, ⟨.eof, [], none, none, 3, 1⟩])) ∧
    parseTokens asciiEnv (wrongTokens ++
      [⟨.identifier, c!"c", none, none, 2, 1⟩, ⟨.equal, c!"=", none, none, 2, 3⟩, ⟨.rightBracket, c!"]", none, none, 2, 5⟩,
        ⟨.terminator, c!"\n", none, none, 2, 6⟩, ⟨.eof, [], none, none, 3, 1⟩]) false =
      .done (.error [⟨⟨1, 3⟩, some c!"]", "Expect newline after expression."⟩]) ∧
    Fits asciiEnv c!"a ] b\n" ∧
    scanTokens asciiEnv c!"a ] b\n" = .done (.ok (wrongTokens ++ [⟨.eof, [], none, none, 2, 1⟩])) :=
  ⟨asciiEnv_laws, fits_of_small (by by_kernel), by by_kernel, by by_kernel, fits_of_small (by by_kernel), by by_kernel⟩

/-- and a program whose only error is found later than at the token reported: the two beginnings `1 = ` do not decide it. -/
example : parse asciiEnv c!"1 = 2\n" = .done (.error [⟨⟨1, 3⟩, some c!"=", "Invalid assignment target."⟩]) ∧
    parse asciiEnv c!"1 = ]\n" = .done (.error [⟨⟨1, 5⟩, some c!"]", "Expect expression."⟩]) := by
  constructor <;> by_kernel

end Ws.Properties
