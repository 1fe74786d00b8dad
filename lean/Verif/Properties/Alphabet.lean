import Verif.Proofs.Scan.Alphabet
import Verif.Properties.Scanner
/-! Property C89: the alphabet of the language. -/
namespace Ws.Properties
open Ws Spec

variable {env : Env} {source : Str} {ts : List Token}

/-- C89: in an accepted source every cluster is in a String, in a comment, or of the alphabet. -/
theorem alphabet_only (hE : EnvLaws env) (h : scanTokens env source = .done (.ok ts)) :
    ∃ ps, Reads env (env.segment source) ps ts ∧
      ∀ x g y, env.segment source = x ++ g :: y → InStringOrComment ps x ∨ Letter env g := by
  obtain ⟨ps, hp, -⟩ := lossless hE h
  refine ⟨ps, hp, ?_⟩
  intro x g y e
  obtain ⟨a, p, b, u, w, rfl, hu, hx, -⟩ := piece_at (hp.text.trans e)
  rcases letter_piece hE.toAsciiLaws (hp.pieces a p b rfl) (by rw [hu]; simp : g ∈ p.text) with h | h
  · exact .inl ⟨a, p, b, rfl, by rw [hx]; simp, by rw [hx, hu]; simp, h⟩
  · exact .inr h

/-- C89: the alphabet is exact. The clusters of the accepted sources without strings and comments are
those of the alphabet. -/
theorem alphabet_exact (hA : AsciiLaws env) (g : Str) :
    Letter env g ↔ ∃ source ts, scanClusters env source = .done (.ok ts) ∧ g ∈ source ∧ [] ∉ source ∧
      ['"'] ∉ source ∧ ¬ [['/'], ['/']] <:+: source := by
  have hsl : ∀ l : List Str, ['/'] ∉ l.tail → ¬ [['/'], ['/']] <:+: l := by
    rintro l hl ⟨a, b, rfl⟩
    cases a <;> simp at hl
  have hu : WordStart env ['_'] := ⟨'_', [], rfl, .inr rfl⟩
  constructor
  · rintro (⟨c, hc, rfl⟩ | h | h)
    · have hok : ∀ c ∈ signs, ∃ ts, scanClusters env ([c] :: [['\n']]) = .done (.ok ts) := by
        intro c hc
        simp only [signs, List.mem_cons, List.not_mem_nil, or_false] at hc
        rcases hc with rfl | rfl | rfl | rfl | rfl | rfl | rfl | rfl | rfl | rfl | rfl | rfl | rfl | rfl | rfl |
          rfl | rfl | rfl | rfl | rfl | rfl | rfl <;> exact ⟨_, rfl⟩
      obtain ⟨ts, h⟩ := hok c hc
      refine ⟨_, ts, h, by simp, by simp, ?_, hsl _ (by simp)⟩
      simp only [List.mem_cons, List.cons.injEq, List.not_mem_nil, or_false, and_true]
      rintro (rfl | h)
      · revert hc; decide
      · revert h; decide
    · obtain ⟨ts, e⟩ := scan_word hA h (r := []) (by simp)
      refine ⟨_, ts, e, by simp, ?_, ?_, hsl _ (by simp)⟩
      · obtain ⟨c, r, rfl, -⟩ := h; simp
      · rw [List.mem_singleton]
        rintro rfl
        exact (word_plain hA h).1.2 (by simp)
    · obtain ⟨ts, e⟩ := scan_word hA hu (r := [g]) (by simpa using h)
      have hne : ∀ c : Char, c.toNat < 128 → c.isAlphanum = false → c ≠ '_' → g ≠ [c] := by
        rintro c hc h1 h2 rfl
        obtain ⟨d, r, e, h⟩ := h
        cases e
        rw [hA.alphanumeric _ hc, h1] at h
        simp [h2] at h
      refine ⟨_, ts, e, by simp, ?_, ?_, hsl _ ?_⟩
      · obtain ⟨c, r, rfl, -⟩ := h; simp
      · have := hne '"' (by decide) (by decide) (by decide)
        simp [this.symm]
      · have := hne '/' (by decide) (by decide) (by decide)
        simp [this.symm]
  · rintro ⟨source, ts, h, hg, hn, hq, hs⟩
    obtain ⟨ps, hp, -⟩ := scan_reading hA (fun x hx => by rintro rfl; exact hn hx) h
    obtain ⟨x, y, rfl⟩ := List.append_of_mem hg
    obtain ⟨a, p, b, u, w, rfl, hu, hx, -⟩ := piece_at hp.text
    have hsub : ∀ z, z <:+: p.text → z <:+: (x ++ g :: y) := by
      rintro z ⟨l, r, e⟩
      refine ⟨text a ++ l, r ++ text b, ?_⟩
      rw [← hp.text]
      simp [text, ← e]
    rcases letter_piece hA (hp.pieces a p b rfl) (by rw [hu]; simp : g ∈ p.text) with (⟨t, l, rfl, hl⟩ | ⟨body, rfl⟩) | h
    · obtain ⟨body, rfl, -⟩ := hl.shape
      exact absurd ((hsub [['"']] ⟨[], _, rfl⟩).subset (by simp)) hq
    · exact absurd (hsub _ ⟨[], body, rfl⟩) hs
    · exact h

/-- A dollar sign is not of the alphabet; a letter, a digit and a semicolon are. -/
example : ¬ Letter asciiEnv c!"$" ∧ Letter asciiEnv c!"a" ∧ Letter asciiEnv c!"0" ∧ Letter asciiEnv c!";" := by
  refine ⟨?_, .inr (.inl ⟨_, _, rfl, .inl rfl⟩), .inr (.inr ⟨_, _, rfl, .inl rfl⟩), .inl ⟨_, by decide, rfl⟩⟩
  rintro (⟨c, hc, h⟩ | ⟨c, r, h, hc⟩ | ⟨c, r, h, hc⟩) <;> cases h <;> revert hc <;> decide

/-- A byte order mark at the beginning makes a source fail. -/
example (ts : List Token) : scanTokens asciiEnv c!"﻿print 1\n" ≠ .done (.ok ts) := by
  intro h
  have e : asciiEnv.segment c!"﻿print 1\n" =
      [] ++ [c!"﻿", c!"p", c!"r", c!"i", c!"n", c!"t", c!" ", c!"1", c!"\n"] := by by_kernel
  have := (alphabet_exact asciiEnv_laws.toAsciiLaws c!"﻿").mpr ⟨_, ts, h, by rw [e]; simp, by rw [e]; simp,
    by rw [e]; decide, by rw [e]; decide⟩
  rcases this with ⟨c, hc, h⟩ | ⟨c, r, h, hc⟩ | ⟨c, r, h, hc⟩ <;> cases h <;> revert hc <;> decide

end Ws.Properties
