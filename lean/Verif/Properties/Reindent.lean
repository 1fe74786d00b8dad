import Verif.Properties.Positions
import Verif.Proofs.Scan.Reindent
/-! Property C78: of the indentation only the order matters. -/
namespace Ws.Properties
open Ws Spec

variable {env : Env} {source source' : Str} {repl : Bool} {rs : Resolver} {f : Nat → Nat}

/-- C78: if the indentation of all lines is changed so that what was deeper still is, then the tokens are
the same, except for their positions, or the errors are. Lines inside of strings are left alone. -/
theorem reindented_scan (hE : EnvLaws env) (h : KeepsOrder f (margins (.margin 0) (env.segment source)))
    (hs : env.segment source' = reindent f (.margin 0) (env.segment source)) :
    SameScan (scanTokens env source') (scanTokens env source) := by
  show SameScan (scanClusters env (env.segment source')) (scanClusters env (env.segment source))
  rw [hs]
  exact reindent_scan hE.toAsciiLaws h

/-- C78: and the program is the same, or the errors are. -/
theorem reindented_run (hE : EnvLaws env) (h : KeepsOrder f (margins (.margin 0) (env.segment source)))
    (hs : env.segment source' = reindent f (.margin 0) (env.segment source)) :
    SameRun (run env rs source' repl) (run env rs source repl) :=
  positions_irrelevant (reindented_scan hE h hs)

/-- C78: every level can be made the same number of times as deep. -/
theorem scaled_run (hE : EnvLaws env) {c : Nat} (hc : 0 < c)
    (hb : ∀ a ∈ margins (.margin 0) (env.segment source), a.2 ∉ [['\t'], ['\r'], ['\\']] ∧ c * a.1 ≤ 65535)
    (hs : env.segment source' = reindent (c * ·) (.margin 0) (env.segment source)) :
    SameRun (run env rs source' repl) (run env rs source repl) := by
  refine reindented_run hE ⟨rfl, fun a _ h0 => Nat.mul_pos hc h0, fun a _ b _ hl => Nat.mul_lt_mul_of_pos_left hl hc,
    fun a ha => (hb a ha).1, fun a ha => ⟨?_, (hb a ha).2⟩⟩ hs
  exact Nat.le_trans (Nat.le_mul_of_pos_left _ hc) (hb a ha).2

/-- How many indentations there are that are smaller than `n`, counting the left margin. -/
def rank (lines : List (Nat × Str)) (n : Nat) : Nat :=
  (List.range n).countP fun m => m == 0 || lines.any (·.1 == m)

theorem rank_mono (lines : List (Nat × Str)) {m n : Nat} (h : m ≤ n) : rank lines m ≤ rank lines n := by
  obtain ⟨d, rfl⟩ := Nat.exists_eq_add_of_le h
  simp only [rank, List.range_add, List.countP_append]
  omega

theorem rank_lt {lines : List (Nat × Str)} {m n : Nat} (h : m < n) (hm : m = 0 ∨ ∃ a ∈ lines, a.1 = m) : rank lines m < rank lines n := by
  refine Nat.lt_of_lt_of_le ?_ (rank_mono lines h)
  simp only [rank, List.range_succ, List.countP_append]
  have : (m == 0 || lines.any (·.1 == m)) = true := by
    rcases hm with rfl | ⟨a, ha, rfl⟩
    · rfl
    · simp only [Bool.or_eq_true, List.any_eq_true]
      exact .inr ⟨a, ha, by simp⟩
  simp [this]

theorem rank_le (lines : List (Nat × Str)) (n : Nat) : rank lines n ≤ n := by
  simpa [rank] using List.countP_le_length (l := List.range n) (p := fun m => m == 0 || lines.any (·.1 == m))

/-- C78: nothing is lost if every line is moved to the left as far as possible, with one more space for
every indentation that occurs. -/
theorem ranked_run (hE : EnvLaws env)
    (hb : ∀ a ∈ margins (.margin 0) (env.segment source), a.2 ∉ [['\t'], ['\r'], ['\\']] ∧ a.1 ≤ 65535)
    (hs : env.segment source' =
      reindent (rank (margins (.margin 0) (env.segment source))) (.margin 0) (env.segment source)) :
    SameRun (run env rs source' repl) (run env rs source repl) := by
  refine reindented_run hE ⟨rfl, fun a _ h0 => ?_, fun a ha b _ hl => rank_lt hl (.inr ⟨a, ha, rfl⟩),
    fun a ha => (hb a ha).1, fun a ha => ⟨(hb a ha).2, Nat.le_trans (rank_le _ _) (hb a ha).2⟩⟩ hs
  exact Nat.lt_of_le_of_lt (Nat.zero_le _) (rank_lt (m := 0) h0 (.inl rfl))

/-- With the same indentation the source is the same. -/
theorem reindent_id : ∀ (n : Nat) (cs : List Str), reindent id (.margin n) cs = spaces n ++ cs ∧
    ∀ w : Where, (∀ n, w ≠ .margin n) → reindent id w cs = cs
  | n, [] => ⟨(List.append_nil _).symm, fun w hw => by cases w <;> first | rfl | exact absurd rfl (hw _)⟩
  | n, g :: cs => by
    have ins : ∀ w : Where, reindent id w cs = (match w with | .margin n => spaces n ++ cs | _ => cs) := by
      intro w
      cases w with
      | margin m => exact (reindent_id m cs).1
      | _ => exact (reindent_id n cs).2 _ nofun
    have after : ∀ w : Where, reindent id (w.after g) cs = cs := by
      intro w
      have hz : ∀ m, w.after g = .margin m → m = 0 := by
        intro m
        cases w <;> simp only [Where.after] <;> repeat' split
        all_goals (intro h; first | (cases h; done) | (cases h; rfl))
      rw [ins]
      cases hw : w.after g with
      | margin m => rw [hz m hw]; rfl
      | _ => rfl
    refine ⟨?_, ?_⟩
    · show (if g = [' '] then _ else _) = _
      split
      · next e =>
        rw [(reindent_id (n + 1) cs).1, e]
        simp [List.replicate_succ']
      · rw [after]; rfl
    · intro w hw
      cases w with
      | margin m => exact absurd rfl (hw m)
      | _ => show g :: reindent id _ cs = _; rw [after]

/-- A source with two levels, a string over two lines, a comment with a quote, an empty line and a line
that goes on. -/
def uneven : Str := c!"if a\n   b \"\n  x\" // \"\n\n   if c\n       d +\n         1 / 2\n   e\n"

/-- The same with two spaces for each level. -/
def twos : Str := c!"if a\n  b \"\n  x\" // \"\n\n  if c\n    d +\n     1 / 2\n  e\n"

/-- The indentations 0, 3, 7 and 9 become 0, 2, 4 and 5. -/
def byTwos (n : Nat) : Nat := if n = 0 then 0 else if n = 3 then 2 else if n = 7 then 4 else 5

example : EnvLaws asciiEnv ∧ KeepsOrder byTwos (margins (.margin 0) (asciiEnv.segment uneven)) ∧
    asciiEnv.segment twos = reindent byTwos (.margin 0) (asciiEnv.segment uneven) ∧
    (margins (.margin 0) (asciiEnv.segment uneven)).map (·.1) = [0, 3, 3, 7, 9, 3] ∧
    (scanTokens asciiEnv uneven).bind (fun r => .done (r.toOption.map (·.map (·.tokenType)))) =
      .done (some [.if, .identifier, .terminator, .indent, .identifier, .string, .terminator, .if, .identifier, .terminator,
        .indent, .identifier, .plus, .number, .slash, .number, .terminator, .outdent, .identifier, .terminator, .outdent, .eof]) := by
  have e : margins (.margin 0) (asciiEnv.segment uneven) =
      [(0, c!"i"), (3, c!"b"), (3, c!"i"), (7, c!"d"), (9, c!"1"), (3, c!"e")] := by by_kernel
  refine ⟨asciiEnv_laws, ?_, by by_kernel, by by_kernel, by by_kernel⟩
  rw [e]
  exact ⟨rfl, by decide, by decide, by decide, by decide⟩

/-- The types of the tokens do not depend on positions. -/
theorem types_of_same {o o' : Outcome (Except ParseError (List Token))} (h : SameScan o o') :
    o.bind (fun r => .done (r.toOption.map (·.map (·.tokenType)))) =
      o'.bind (fun r => .done (r.toOption.map (·.map (·.tokenType)))) := by
  have key : ∀ o : Outcome (Except ParseError (List Token)),
      o.bind (fun r => .done (r.toOption.map (·.map (·.tokenType)))) =
        (movedScan nowhere o).bind (fun r => .done (r.toOption.map (·.map (·.tokenType)))) := by
    intro o
    cases o with
    | done r => cases r <;> simp [movedScan, mapOutcome, moveResult, Outcome.bind, Except.toOption, moveToken, Function.comp_def]
    | panic m => rfl
    | diverge => rfl
  rw [key o, key o', show movedScan nowhere o = movedScan nowhere o' from h]

/-- The order matters: with two indentations made equal, a level is lost. -/
theorem order_matters : ¬ SameScan
    (scanClusters asciiEnv (reindent (fun n => if n = 0 then 0 else 1) (.margin 0) (asciiEnv.segment c!"if a\n b\n  c\n")))
    (scanClusters asciiEnv (asciiEnv.segment c!"if a\n b\n  c\n")) := by
  intro h
  have h1 : (scanClusters asciiEnv (reindent (fun n => if n = 0 then 0 else 1) (.margin 0) (asciiEnv.segment c!"if a\n b\n  c\n"))).bind
      (fun r => .done (r.toOption.map (·.map (·.tokenType)))) =
      .done (some [.if, .identifier, .terminator, .indent, .identifier, .terminator, .identifier, .terminator, .outdent, .eof]) := by
    by_kernel
  have h2 : (scanClusters asciiEnv (asciiEnv.segment c!"if a\n b\n  c\n")).bind
      (fun r => .done (r.toOption.map (·.map (·.tokenType)))) =
      .done (some [.if, .identifier, .terminator, .indent, .identifier, .terminator, .indent, .identifier, .terminator, .outdent, .outdent,
        .eof]) := by
    by_kernel
  rw [types_of_same h, h2] at h1
  cases h1

/-- The conditions on the beginnings of lines matter: the spaces after a carriage return are also
counted. -/
theorem return_matters : ¬ SameScan
    (scanClusters asciiEnv (reindent (fun n => if n = 2 then 3 else n) (.margin 0) (asciiEnv.segment c!" \r b\n  c\n")))
    (scanClusters asciiEnv (asciiEnv.segment c!" \r b\n  c\n")) := by
  intro h
  have h1 : (scanClusters asciiEnv (reindent (fun n => if n = 2 then 3 else n) (.margin 0) (asciiEnv.segment c!" \r b\n  c\n"))).bind
      (fun r => .done (r.toOption.map (·.map (·.tokenType)))) =
      .done (some [.indent, .identifier, .terminator, .indent, .identifier, .terminator, .outdent, .outdent, .eof]) := by
    by_kernel
  have h2 : (scanClusters asciiEnv (asciiEnv.segment c!" \r b\n  c\n")).bind
      (fun r => .done (r.toOption.map (·.map (·.tokenType)))) =
      .done (some [.indent, .identifier, .terminator, .identifier, .terminator, .outdent, .eof]) := by
    by_kernel
  rw [types_of_same h, h2] at h1
  cases h1

end Ws.Properties
