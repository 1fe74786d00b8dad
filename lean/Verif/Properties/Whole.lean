import Verif.Properties.Causes
import Verif.Properties.Driver
import Verif.Properties.Faults
import Verif.Properties.Reading
import Verif.Spec.Whole
/-! Property C58: exactly which sources a run accepts and with which result, from text to resolved tree. -/
namespace Ws.Properties
open Ws Spec

variable {env : Env} {source : Str} {repl : Bool} {history : List (List Stmt)} {sts tree resolved : List Stmt}
  {rs rs' : Resolver} {es : List Cause} {w : List Token} {eof : Token}

theorem hasTokens_iff (hE : EnvLaws env) : HasTokens env source w eof ↔ scanTokens env source = .done (.ok (w ++ [eof])) := by
  rw [scan_accepts_iff hE]
  constructor
  · rintro ⟨steps, h1, h2, h3, h4⟩
    exact ⟨steps, h1, h2, h3, h4.symm⟩
  · rintro ⟨steps, h1, h2, h3, h4⟩
    exact ⟨steps, h1, h2, h3, h4.symm⟩

theorem hasScanErrors_iff (hE : EnvLaws env) : HasScanErrors env source es ↔ scanTokens env source = .done (.error es) := by
  rw [scan_rejects_iff hE]
  constructor
  · rintro ⟨h0, steps, h1, h2, h3⟩
    exact ⟨steps, h1, h2, h3.symm, h0⟩
  · rintro ⟨steps, h1, h2, h3, h0⟩
    exact ⟨h0, steps, h1, h2, h3.symm⟩

/-- Tokens of a source end with Eof. -/
theorem tokens_end (hE : EnvLaws env) {ts : List Token} (h : scanTokens env source = .done (.ok ts)) :
    ∃ w eof, ts = w ++ [eof] := by
  obtain ⟨steps, _, _, _, rfl⟩ := (scan_accepts_iff hE ts).mp h
  exact ⟨tokensOf steps ++ List.replicate (levels steps).length _, _, by rw [closing, List.append_assoc]⟩

theorem accepts_iff (hE : EnvLaws env) (hS : Fits env source) :
    Accepts env repl source tree ↔ ∃ w eof, HasTokens env source w eof ∧ HasTree repl w tree := by
  constructor
  · intro h
    cases hs : scanTokens env source with
    | panic m => exact absurd hs (scanTokens_panic hE m)
    | diverge =>
      unfold Accepts at h
      rw [parseIn_diverge hs] at h
      cases h
    | done q =>
      cases q with
      | error es =>
        unfold Accepts at h
        rw [parseIn_error hs] at h
        cases h
      | ok ts =>
        obtain ⟨w, eof, rfl⟩ := tokens_end hE hs
        exact ⟨w, eof, (hasTokens_iff hE).mpr hs, (accepted_iff_derived hE hS hs).mp h⟩
  · rintro ⟨w, eof, h1, h2⟩
    exact (accepted_iff_derived hE hS ((hasTokens_iff hE).mp h1)).mpr h2

/-- C58: after any programs, a run accepts a source with a certain result exactly if the source is a
correct program with that resolved tree. -/
theorem run_accepts_iff (hE : EnvLaws env) (hS : Fits env source) (ha : AfterPrograms history rs) :
    (∃ rs', run env rs source repl = .done (.ok resolved, rs')) ↔ Correct env repl history source resolved := by
  constructor
  · rintro ⟨rs', h⟩
    cases run_stages.mp h with
    | resolve hs hp hr =>
      obtain ⟨w, eof, h1, h2⟩ := (accepts_iff (repl := repl) hE hS).mp (by unfold Accepts; rw [parseIn_ok hs]; exact hp)
      obtain ⟨_, h4, h5⟩ := (resolved_iff ha).mp ⟨rs', hr⟩
      exact ⟨w, eof, _, h1, h2, (resolves_iff ha).mp ⟨_, rs', hr⟩, h4, h5⟩
  · rintro ⟨w, eof, tree, h1, h2, h3, h4, h5⟩
    have hp : parseIn env repl source = .done (.ok tree) := (accepts_iff hE hS).mpr ⟨w, eof, h1, h2⟩
    obtain ⟨rs', hr⟩ := (resolved_iff ha).mpr ⟨program_fine.mpr h3, h4, h5⟩
    exact ⟨rs', by rw [run_eq, hp]; exact hr⟩

/-- C58, for `parseString` and files. -/
theorem parseString_accepts_iff (hE : EnvLaws env) (hS : Fits env source) :
    wasmParseString env source = .done (.ok resolved) ↔ Correct env false [] source resolved := by
  rw [← run_accepts_iff hE hS .new, wasm_run]
  constructor
  · intro h
    cases hr : run env .new source false with
    | panic m => rw [hr] at h; cases h
    | diverge => rw [hr] at h; cases h
    | done q => rw [hr] at h; obtain ⟨r, rs2⟩ := q; cases h; exact ⟨rs2, rfl⟩
  · rintro ⟨rs', h⟩
    rw [h]
    rfl

/-- C58: the result of a correct program is determined by its text and the programs before it. -/
theorem correct_unique (hE : EnvLaws env) (hS : Fits env source) (ha : AfterPrograms history rs) {other : List Stmt}
    (h : Correct env repl history source resolved) (h' : Correct env repl history source other) : resolved = other := by
  obtain ⟨_, h1⟩ := (run_accepts_iff hE hS ha).mpr h
  obtain ⟨_, h2⟩ := (run_accepts_iff hE hS ha).mpr h'
  rw [h1] at h2
  cases h2
  rfl

/-- C58: a run rejects a source exactly if the source has scan errors, and then with those; or it has
tokens that the grammar does not derive; or it has a tree with faults, and then with those. -/
theorem run_rejects_iff (hE : EnvLaws env) (hS : Fits env source) (ha : AfterPrograms history rs) :
    (∃ rs', run env rs source repl = .done (.error es, rs')) ↔
      HasScanErrors env source es ∨
      (∃ w eof, HasTokens env source w eof ∧ (¬ ∃ tree, HasTree repl w tree) ∧ parseIn env repl source = .done (.error es)) ∨
      ∃ w eof tree b, HasTokens env source w eof ∧ HasTree repl w tree ∧ es ≠ [] ∧
        programFaults (bindingsOf history) tree = some (es, b) := by
  constructor
  · rintro ⟨rs', h⟩
    have hst := run_stages.mp h
    generalize hq : Except.error es = q at hst
    cases hst with
    | scan hs => cases hq; exact .inl ((hasScanErrors_iff hE).mpr hs)
    | parse hs hp =>
      cases hq
      obtain ⟨w, eof, rfl⟩ := tokens_end hE hs
      refine .inr (.inl ⟨w, eof, (hasTokens_iff hE).mpr hs, ?_, by rw [parseIn_ok hs]; exact hp⟩)
      rintro ⟨tree, o, e, h1, h2⟩
      exact (rejected_iff_underived (repl := repl) hE hS hs).mp ⟨es, by rw [parseIn_ok hs]; exact hp⟩ ⟨tree, o, e, h1, h2⟩
    | resolve hs hp hr =>
      subst hq
      obtain ⟨w, eof, h1, h2⟩ := (accepts_iff (repl := repl) hE hS).mp (by unfold Accepts; rw [parseIn_ok hs]; exact hp)
      obtain ⟨h3, b, h4⟩ := (rejected_iff ha).mp ⟨rs', hr⟩
      exact .inr (.inr ⟨w, eof, _, b, h1, h2, h3, h4⟩)
  · rintro (h | ⟨w, eof, _, _, h⟩ | ⟨w, eof, tree, b, h1, h2, h3, h4⟩)
    · exact ⟨rs, run_stages.mpr (.scan ((hasScanErrors_iff hE).mp h))⟩
    · exact ⟨rs, by rw [run_eq, h]; rfl⟩
    · have hp : parseIn env repl source = .done (.ok tree) := (accepts_iff hE hS).mpr ⟨w, eof, h1, h2⟩
      obtain ⟨rs', hr⟩ := (rejected_iff ha).mpr ⟨h3, b, h4⟩
      exact ⟨rs', by rw [run_eq, hp]; exact hr⟩

/-- C58: a run hangs exactly on the sources of C02. -/
theorem run_hangs_iff (hE : EnvLaws env) (hS : Fits env source) (ha : AfterPrograms history rs) :
    run env rs source repl = .diverge ↔ Hangs env (env.segment source) := by
  rw [(run_total hE hS (after_session ha)).1, scan_hangs_iff hE]

/-- C58: a run panics exactly if the source has a tree whose scopes nest too deep before any fault of
their statement. -/
theorem run_panics_iff (hE : EnvLaws env) (hS : Fits env source) (ha : AfterPrograms history rs) {m : String} :
    run env rs source repl = .panic m ↔ m = "Too many nested lexical scopes" ∧
      ∃ w eof tree, HasTokens env source w eof ∧ HasTree repl w tree ∧ programFaults (bindingsOf history) tree = none := by
  constructor
  · intro h
    obtain ⟨h1, tree, h2, _⟩ := (run_total hE hS (after_session ha)).2 m h
    obtain ⟨w, eof, h3, h4⟩ := (accepts_iff hE hS).mp h2
    refine ⟨h1, w, eof, tree, h3, h4, ?_⟩
    have h2 : parseIn env repl source = _ := h2
    rw [run_eq, h2] at h
    exact ((panics_iff ha).mp h).2
  · rintro ⟨rfl, w, eof, tree, h1, h2, h3⟩
    have hp : parseIn env repl source = .done (.ok tree) := (accepts_iff hE hS).mpr ⟨w, eof, h1, h2⟩
    rw [run_eq, hp]
    exact (panics_iff ha).mpr ⟨rfl, h3⟩

/-- A correct program with nested functions, and its resolved tree. -/
example : Correct asciiEnv false [] scoping scopingTree :=
  (parseString_accepts_iff asciiEnv_laws (fits_of_small (by by_kernel))).mp scoping_ok

/-- Sources with scan errors, with tokens that are not derived, and with faults. -/
example : HasScanErrors asciiEnv c!"@" [⟨⟨1, 2⟩, none, "Unexpected token: @"⟩] ∧
    (∃ w eof, HasTokens asciiEnv c!"x +\n" w eof ∧ ¬ ∃ tree, HasTree false w tree) ∧
    ∃ w eof tree b, HasTokens asciiEnv c!"return\nthis\n" w eof ∧ HasTree false w tree ∧
      programFaults [[]] tree = some ([⟨⟨1, 1⟩, some c!"return", "Cannot return from top-level code."⟩,
        ⟨⟨2, 1⟩, some c!"this", "Cannot use 'this' outside of a class."⟩], b) := by
  refine ⟨(hasScanErrors_iff asciiEnv_laws).mpr (by by_kernel), ?_, ?_⟩
  · have hs : scanTokens asciiEnv c!"x +\n" = .done (.ok ([⟨.identifier, c!"x", none, none, 1, 1⟩, ⟨.plus, c!"+", none, none, 1, 3⟩] ++ [⟨.eof, c!"", none, none, 2, 1⟩])) := by by_kernel
    refine ⟨_, _, (hasTokens_iff asciiEnv_laws).mpr hs, ?_⟩
    rintro ⟨tree, o, e, h1, h2⟩
    exact (rejected_iff_underived (repl := false) asciiEnv_laws (fits_of_small (by by_kernel)) hs).1
      ⟨[⟨⟨1, 3⟩, some c!"+", "Expect expression."⟩], by by_kernel⟩ ⟨tree, o, e, h1, h2⟩
  · have hp : Accepts asciiEnv false c!"return\nthis\n" [.return .literalNil ⟨1, 1⟩, .expression (v c!"this" 2 1)] := by
      unfold Accepts; by_kernel
    obtain ⟨w, eof, h1, h2⟩ := (accepts_iff asciiEnv_laws (fits_of_small (by by_kernel))).mp hp
    exact ⟨w, eof, _, [[]], h1, h2, by by_kernel⟩

end Ws.Properties
