import Verif.Properties.Reading
import Verif.Proofs.Scan.Position
import Verif.Proofs.Scan.Place
/-! Property C90: where the errors of the scanner are. -/
namespace Ws.Properties
open Ws Spec

variable {env : Env} {source : Str}

/-- C90, partially: where the errors of the scanner are reported. Only a backslash is reported where it
is. A tab, a cluster that is not of the language, and a wrong indentation are reported one column to the
right of the cluster, and a string without an end is reported at the end of the source. -/
theorem scan_error_place_partial (hE : EnvLaws env) {es : List Cause} (h : scanTokens env source = .done (.error es))
    {e : Cause} (he : e ∈ es) :
    ∃ before g after, env.segment source = before ++ g :: after ∧
      (e.message = "Unexpected character: '\\'" ∧ g = ['\\'] ∧ e.loc = ⟨lineAfter before, columnAfter before⟩ ∨
        (e.message = "Illegal tab character; all whitespace must be spaces" ∧ g = ['\t'] ∨
            e.message = "Unexpected token: " ++ String.ofList g ∧ Unexpected env g ∨
            e.message = "Outdent does not match any previous indentation level" ∧
              g ∉ [[' '], ['\t'], ['\r'], ['\n'], ['\\']]) ∧
          e.loc = ⟨lineAfter before, min (columnAfter before + 1) u16Max⟩ ∨
        e.message = "Unterminated string." ∧ g = ['"'] ∧ ['"'] ∉ after ∧
          e.loc = ⟨lineAfter (env.segment source), min (columnAfter (env.segment source)) (u16Max - 1)⟩) := by
  obtain ⟨steps, ht, hr, rfl, -⟩ := (scan_rejects_iff hE es).mp h
  simp only [causesOf, List.mem_flatMap] at he
  obtain ⟨s, hs, he⟩ := he
  obtain ⟨a, b, rfl⟩ := List.append_of_mem hs
  have hok := hr a s b rfl
  have htext : env.segment source = textOf a ++ (s.piece.text ++ textOf b) := by
    rw [← ht]; simp [textOf, pieces, text]
  rw [List.append_nil] at hok
  rw [Step.causes, List.mem_append] at he
  rcases he with he | he
  · by_cases hf : First (pieces a) s.piece
    · obtain ⟨g, r, hg, hm⟩ := hok.first hf
      refine ⟨textOf a, g, r ++ textOf b, by rw [htext, hg]; rfl, .inr (.inl ?_)⟩
      have hnot : g ∉ [[' '], ['\t'], ['\r'], ['\n'], ['\\']] := first_cluster hE.toAsciiLaws hok.piece hf.1 hg
      generalize levels a = lev, s.layout = lay, s.misfit = mis at hm he
      cases hm with
      | misfit closed h1 h2 h3 =>
        rw [List.mem_singleton] at he
        subst he
        exact ⟨.inr (.inr ⟨rfl, hnot⟩), rfl⟩
      | _ => simp at he
    · rw [(hok.other hf).2] at he
      simp at he
  · have hp := hok.piece.ok
    generalize s.piece = p at he hp htext
    cases p with
    | fault c l =>
      simp only [Piece.causes, List.mem_singleton] at he
      subst he
      simp only at hp
      have hc : ∀ (x : List Str) (g : Str), g ≠ ['\n'] → columnAfter (x ++ [g]) = min (columnAfter x + 1) u16Max := by
        intro x g hg
        rw [columnAfter_snoc, if_neg hg, satInc16]
        split <;> omega
      cases hp with
      | tab =>
        exact ⟨textOf a, _, textOf b, htext, .inr (.inl ⟨.inl ⟨rfl, rfl⟩, by
          simp only [SourceLoc.mk.injEq]; exact ⟨rfl, hc _ _ (by decide)⟩⟩)⟩
      | backslash n cr h1 h2 => exact ⟨textOf a, _, _, htext, .inl ⟨rfl, rfl, rfl⟩⟩
      | unexpected g hg =>
        exact ⟨textOf a, g, textOf b, htext, .inr (.inl ⟨.inr (.inl ⟨rfl, hg⟩), by
          simp only [SourceLoc.mk.injEq]; exact ⟨rfl, hc _ _ (fun e => hg.1 (by simp [e]))⟩⟩)⟩
      | unterminated body h1 h2 =>
        refine ⟨textOf a, ['"'], body, ?_, .inr (.inr ⟨rfl, rfl, h1, ?_⟩)⟩
        · rw [htext, h2]; simp [Piece.text]
        · rw [htext, h2]; simp [Piece.text, textOf]
    | _ => simp [Piece.causes] at he

/-- C90 is false: `a ^` is rejected because of the `^` in column 3, and column 4 is reported. -/
theorem scan_error_place_false :
    asciiEnv.segment c!"a ^" = [c!"a", c!" "] ++ c!"^" :: [] ∧ columnAfter [c!"a", c!" "] = 3 ∧
      scanTokens asciiEnv c!"a ^" = .done (.error [⟨⟨1, 4⟩, none, "Unexpected token: ^"⟩]) :=
  ⟨by by_kernel, by decide, by by_kernel⟩

end Ws.Properties
