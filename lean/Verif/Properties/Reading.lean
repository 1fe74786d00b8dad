import Verif.Proofs.AsciiLaws
import Verif.Proofs.Scan.Reading
import Verif.Tests.RepoTests
/-! Property C56 of the scanner, and what it says about C02 and C13: the specification in `Spec/Scan.lean` is
exactly what the scanner does. -/
namespace Ws.Properties
open Ws Spec

variable {env : Env} {source : Str}

/-! ### C56 -/

/-- C56: a source is accepted, with the tokens `ts`, exactly if it has a reading without errors and
`ts` are the tokens of the reading, the Outdents of the blocks that are open at the end, and Eof. -/
theorem scan_accepts_iff (hE : EnvLaws env) (ts : List Token) :
    scanTokens env source = .done (.ok ts) ↔
      ∃ steps, textOf steps = env.segment source ∧ Reading env steps [] ∧ causesOf steps = [] ∧
        ts = tokensOf steps ++ closing steps :=
  reading_ok hE.toAsciiLaws hE.number (hE.nonempty source)

/-- C56: a source is rejected, with the errors `es`, exactly if it has a reading with errors and `es`
are all of them, in order. -/
theorem scan_rejects_iff (hE : EnvLaws env) (es : List Cause) :
    scanTokens env source = .done (.error es) ↔
      ∃ steps, textOf steps = env.segment source ∧ Reading env steps [] ∧ es = causesOf steps ∧ es ≠ [] :=
  reading_error hE.toAsciiLaws hE.number (hE.nonempty source)

/-- C56 and C02: the scanner does not stop exactly if some line of the source, read up to there, begins
at an indentation strictly between two open levels. -/
theorem scan_hangs_iff (hE : EnvLaws env) :
    scanTokens env source = .diverge ↔ Hangs env (env.segment source) :=
  reading_hangs hE.toAsciiLaws hE.number (hE.nonempty source)

/-- C56: no source has two readings. -/
theorem one_reading (hE : EnvLaws env) {s t : List Spec.Step} (hs : Reading env s []) (ht : Reading env t [])
    (h : textOf s = env.segment source) (h' : textOf t = env.segment source) : s = t :=
  reading_unique hE.toAsciiLaws hE.number (h ▸ hE.nonempty source) hs ht (h.trans h'.symm)

/-- C56: every source has a reading or makes the scanner hang, and not both. -/
theorem reading_or_hangs (hE : EnvLaws env) :
    (∃ steps, textOf steps = env.segment source ∧ Reading env steps []) ↔
      ¬ Hangs env (env.segment source) := by
  rw [← scan_hangs_iff hE]
  constructor
  · rintro ⟨steps, ht, hr⟩ hd
    by_cases hc : causesOf steps = []
    · rw [(scan_accepts_iff hE _).mpr ⟨steps, ht, hr, hc, rfl⟩] at hd; cases hd
    · rw [(scan_rejects_iff hE _).mpr ⟨steps, ht, hr, rfl, hc⟩] at hd; cases hd
  · intro h
    cases hs : scanTokens env source with
    | done r =>
      cases r with
      | ok ts => obtain ⟨steps, ht, hr, -⟩ := (scan_accepts_iff hE _).mp hs; exact ⟨steps, ht, hr⟩
      | error es => obtain ⟨steps, ht, hr, -⟩ := (scan_rejects_iff hE _).mp hs; exact ⟨steps, ht, hr⟩
    | panic m => exact absurd hs (scan_panic_free hE.number _ m)
    | diverge => exact absurd hs h

/-- The reading of `a\n  b` with the block of `b` left open at the end. -/
def blockSteps : List Spec.Step :=
  [⟨[], [], .token ⟨.identifier, c!"a", none, none, 1, 1⟩ [c!"a"]⟩,
    ⟨[], [], .token ⟨.terminator, c!"\n", none, none, 1, 2⟩ [c!"\n"]⟩,
    ⟨[], [], .blank c!" "⟩, ⟨[], [], .blank c!" "⟩,
    ⟨[⟨.indent, c!"b", none, none, 2, 3⟩], [], .token ⟨.identifier, c!"b", none, none, 2, 3⟩ [c!"b"]⟩]

example : textOf blockSteps = asciiEnv.segment c!"a\n  b" ∧ levels blockSteps = [2] := by
  constructor <;> by_kernel
/-- Its tokens, with the closing Outdent and Eof, are those of the scanner. -/
example : scanTokens asciiEnv c!"a\n  b" = .done (.ok (tokensOf blockSteps ++ closing blockSteps)) := by
  by_kernel

/-- A reading with an error: the source `@`. -/
def faultSteps : List Spec.Step := [⟨[], [], .fault ⟨⟨1, 2⟩, none, "Unexpected token: @"⟩ [c!"@"]⟩]

/-- It follows the specification, -/
theorem faultSteps_reading : Reading asciiEnv faultSteps [] := by
  intro a s b h
  obtain ⟨rfl, rfl, rfl⟩ : a = [] ∧
      s = ⟨[], [], .fault ⟨⟨1, 2⟩, none, "Unexpected token: @"⟩ [c!"@"]⟩ ∧ b = [] := by
    cases a with
    | nil => simp only [faultSteps, List.nil_append, List.cons.injEq] at h; exact ⟨rfl, h.1.symm, h.2.symm⟩
    | cons x a =>
      have := congrArg List.length h
      simp [faultSteps] at this
  have hu : Unexpected asciiEnv c!"@" := by
    refine ⟨by decide, by decide, ?_, ?_⟩
    · rintro ⟨c, r, h, h'⟩; cases h; revert h'; decide
    · intro t c h h'; cases h'; revert h; cases t <;> decide
  refine ⟨⟨FaultOK.unexpected _ hu, by simp, by simp, by simp, by simp⟩, ?_, ?_⟩
  · intro _
    exact ⟨_, _, rfl, .same _ (by by_kernel)⟩
  · intro _; exact ⟨rfl, rfl⟩
/-- and its errors are those of the scanner. -/
example : scanTokens asciiEnv c!"@" = .done (.error (causesOf faultSteps)) :=
  (scan_rejects_iff asciiEnv_laws _).mpr ⟨_, by by_kernel, faultSteps_reading, rfl, List.cons_ne_nil _ _⟩

/-- A source that hangs, so that `Hangs` holds of it, -/
example : Hangs asciiEnv (asciiEnv.segment c!"  a\n    b\n   c\n") :=
  (scan_hangs_iff asciiEnv_laws).mp (by by_kernel)
/-- and one whose indentation also does not fit, which does not hang. -/
example : ¬ Hangs asciiEnv (asciiEnv.segment c!"    a\n  b\n") := fun h => by
  have hd := (scan_hangs_iff asciiEnv_laws).mpr h
  have : scanTokens asciiEnv c!"    a\n  b\n" = .done (.error
      [⟨⟨2, 4⟩, none, "Outdent does not match any previous indentation level"⟩]) := by by_kernel
  rw [this] at hd
  cases hd

/-! ### C13 -/

/-- C13, exactly: after an operator that continues the line, and on the same line after it only spaces, carriage returns
and a comment `mid`, the newline is a Terminator if and only if there is anything between. So it is in every source that
is read, also if it has errors. -/
theorem trailing_operator_exact (hE : EnvLaws env) {steps : List Spec.Step} (h : Reading env steps []) {a mid b : List Piece} {op : Token} {l : List Str}
    {p : Piece} (e : pieces steps = a ++ .token op l :: mid ++ p :: b) (hc : continues op.tokenType = true)
    (hm : ∀ q ∈ mid, q = .blank [' '] ∨ q = .blank ['\r'] ∨ ∃ body, q = .comment body) (hp : p.text = [['\n']]) :
    (∃ t, p = .token t [['\n']] ∧ t.tokenType = .terminator) ∧ mid ≠ [] ∨ p = .blank ['\n'] ∧ mid = [] := by
  obtain ⟨s1, s2, rfl, e1, e2⟩ := List.map_eq_append_iff.mp e
  cases s2 with
  | nil => simp at e2
  | cons s s2 =>
  simp only [List.map_cons, List.cons.injEq] at e2
  obtain ⟨e2, e3⟩ := e2
  have hs := (h s1 s s2 rfl).piece
  rw [e2] at hs
  have e1 : pieces s1 = a ++ .token op l :: mid := e1
  rw [e1] at hs
  have key : StatementDone (a ++ .token op l :: mid) ↔ mid ≠ [] := by
    have hop : op.tokenType ≠ .terminator := by rintro h; rw [h] at hc; cases hc
    constructor
    · rintro ⟨-, h⟩ rfl
      exact h ⟨op, l, lastVisible_snoc _ _ (by simp), hc⟩
    · intro hne
      refine ⟨⟨.token op l, ?_, by simp [Piece.begins, hop], by simp⟩, ?_⟩
      · unfold thisLine
        rw [List.reverse_append, List.reverse_cons, List.append_assoc, List.mem_reverse]
        have hall : ∀ q ∈ mid.reverse, (!q.endsLine) = true := by
          intro q hq
          rcases hm q (List.mem_reverse.mp hq) with rfl | rfl | ⟨_, rfl⟩ <;> rfl
        rw [List.takeWhile_append_of_pos hall]
        refine List.mem_append_right _ ?_
        rw [List.singleton_append, List.takeWhile_cons_of_pos (by simp [Piece.endsLine, hop])]
        exact List.mem_cons_self
      · rintro ⟨t, l', h1, -⟩
        obtain ⟨m, q, rfl⟩ : ∃ m q, mid = m ++ [q] := ⟨_, _, (List.dropLast_concat_getLast hne).symm⟩
        have hq := hm q (by simp)
        rw [show a ++ .token op l :: (m ++ [q]) = (a ++ .token op l :: m) ++ [q] by simp, lastVisible_snoc _ _ (by
          rcases hq with rfl | rfl | ⟨_, rfl⟩ <;> simp)] at h1
        rcases hq with rfl | rfl | ⟨_, rfl⟩ <;> cases h1
  have hok := hs.ok
  cases p with
  | layout t => exact hok.elim
  | comment body => simp [Piece.text] at hp
  | continuation body => simp [Piece.text] at hp
  | fault c w =>
    simp only [Piece.text] at hp
    subst hp
    cases hok with
    | unexpected g h => exact absurd h.1 (by simp)
  | blank g =>
    have : g = ['\n'] := by simpa [Piece.text] using hp
    subst this
    exact .inr ⟨rfl, Classical.byContradiction fun h => hs.newline rfl (key.mpr h)⟩
  | token t w =>
    have hw : w = [['\n']] := hp
    subst hw
    by_cases ht : t.tokenType = .terminator
    · exact .inl ⟨⟨t, rfl, ht⟩, key.mp (hs.terminator _ _ rfl ht)⟩
    · exfalso
      rcases hok.2.2 with h | h | h | h | h
      · have h1 := h.chars
        have h2 := h.spelling
        rw [show t.lexeme = ['\n'] from hok.1] at h2
        revert h2
        cases t.tokenType <;> simp [operator]
      · obtain ⟨g, r, e, ⟨c, r', rfl, hg⟩, -⟩ := h.start
        cases e
        rw [hE.alphabetic _ (by decide)] at hg
        revert hg; decide
      · obtain ⟨whole, frac, hw, hwd, -, hl'⟩ := h.shape
        obtain ⟨d, wr, rfl⟩ := List.exists_cons_of_ne_nil hw
        have hd := hwd d (by simp)
        rcases hl' with ⟨e, -⟩ | ⟨e, -⟩
        · cases e; revert hd; decide
        · simp at e
      · obtain ⟨body, e, -⟩ := h.shape; cases e
      · exact ht h.kind
/-- The source `+⏎`. -/
def plusSteps : List Spec.Step := [⟨[], [], .token ⟨.plus, c!"+", none, none, 1, 1⟩ [c!"+"]⟩, ⟨[], [], .blank c!"\n"⟩]

/-- It has this reading, with the newline directly after the operator. -/
example : textOf plusSteps = asciiEnv.segment c!"+\n" ∧ Reading asciiEnv plusSteps [] ∧
    pieces plusSteps = [] ++ .token ⟨.plus, c!"+", none, none, 1, 1⟩ [c!"+"] :: [] ++ .blank ['\n'] :: [] := by
  refine ⟨by by_kernel, ?_, rfl⟩
  have h1 : StepOK asciiEnv [] ⟨[], [], .token ⟨.plus, c!"+", none, none, 1, 1⟩ [c!"+"]⟩ [c!"\n"] := by
    refine ⟨⟨⟨rfl, ⟨by decide, by decide⟩, .inl ⟨rfl, rfl, rfl, rfl, by simp, by simp⟩⟩, by simp, ?_, ?_, ?_⟩, ?_, fun _ => ⟨rfl, rfl⟩⟩
    · rintro t l e h; cases e; cases h
    · rintro t l e h; cases e; cases h
    · rintro t l e h; cases e; cases h
    · exact fun _ => ⟨_, [], rfl, .same _ rfl⟩
  have h2 : StepOK asciiEnv [⟨[], [], .token ⟨.plus, c!"+", none, none, 1, 1⟩ [c!"+"]⟩] ⟨[], [], .blank c!"\n"⟩ [] := by
    refine ⟨⟨.inr (.inr rfl), fun _ h => h.2 ⟨_, _, rfl, rfl⟩, ?_, ?_, ?_⟩, ?_, fun _ => ⟨rfl, rfl⟩⟩
    · rintro t l e h; cases e
    · rintro t l e h; cases e
    · rintro t l e h; cases e
    · rintro ⟨h, -⟩; cases h
  intro a s b e
  rcases a with _ | ⟨x, _ | ⟨y, a⟩⟩
  · cases e; exact h1
  · cases e; exact h2
  · simp [plusSteps] at e

end Ws.Properties
