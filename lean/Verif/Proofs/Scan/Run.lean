import Verif.Proofs.Scan.Pieces
namespace Ws
open Spec Scanner

/-! ### Errors never disappear -/

theorem vstep_errors {env : Env} {v w : V} (h : vstep env v = .done w) :
    ∃ es, w.errors = v.errors ++ es := by
  cases hr : v.rest with
  | nil => simp only [vstep, hr] at h; cases h; exact ⟨[], by simp⟩
  | cons g cs =>
    simp only [vstep, hr] at h
    generalize lexeme env v.abut g cs = k at h
    cases k with
    | backslash taken nl =>
      simp only at h
      split at h <;> cases h
      · exact ⟨[], by simp [V.flags, V.resetLine, V.skip]⟩
      · exact ⟨_, rfl⟩
    | tab => cases h; exact ⟨_, rfl⟩
    | space | cr => cases h; exact ⟨[], by simp [V.flags, V.skip]⟩
    | newline =>
      simp only at h
      split at h <;> cases h <;> exact ⟨[], by simp [V.flags, V.resetLine, V.skip, V.push]⟩
    | num taken =>
      obtain ⟨w0, hb, h⟩ := Outcome.bind_done h
      split at h
      · obtain ⟨es, he⟩ := bol_errors hb
        cases h; exact ⟨es, he⟩
      · cases h
    | unexpected | unterminated =>
      obtain ⟨w0, hb, h⟩ := Outcome.bind_done h
      obtain ⟨es, he⟩ := bol_errors hb
      cases h
      simp only [V.flags, V.err, V.skip, V.skipLines, he, List.append_assoc]
      exact ⟨_, rfl⟩
    | _ =>
      obtain ⟨w0, hb, h⟩ := Outcome.bind_done h
      obtain ⟨es, he⟩ := bol_errors hb
      cases h; exact ⟨es, he⟩

/-! ### Positions -/

theorem lexeme_newline (env : Env) (abut : Bool) (cs : List Str) :
    lexeme env abut ['\n'] cs = .newline := by simp [lexeme, punct, eqPunct]

theorem isAlnum_newline {env : Env} (hA : AsciiLaws env) : isAlnum env ['\n'] = false := by
  simp only [isAlnum, hA.alphanumeric '\n' (by decide)]; decide

theorem lexeme_noNewline {env : Env} (hA : AsciiLaws env) (abut : Bool) (g : Str) (cs : List Str) :
    match lexeme env abut g cs with
    | .newline | .str _ | .unterminated | .backslash _ _ => True
    | k => ['\n'] ∉ k.clusters g cs := by
  by_cases hg : g = ['\n']
  · subst hg; rw [lexeme_newline]; trivial
  have hg' : ['\n'] ≠ g := fun e => hg e.symm
  have one : ['\n'] ∉ [g] := by simp [hg']
  simp only [lexeme]
  cases punct g with
  | some tc => exact one
  | none =>
    cases eqPunct g with
    | some tc =>
      simp only
      by_cases hh : cs.head? = some ['='] <;> simp [hh, Kind.clusters, hg']
    | none =>
      simp only
      by_cases h1 : g = ['(']
      · simp only [h1, if_true]; simp [Kind.clusters]
      simp only [h1, if_false]
      by_cases h2 : g = ['/']
      · simp only [h2, if_true]
        by_cases hh : cs.head? = some ['/']
        · simp only [hh, if_true]
          simp only [Kind.clusters, List.mem_cons, not_or]
          refine ⟨by simp, by simp, fun hm => ?_⟩
          have := takeWhile_all _ _ _ hm
          simp at this
        · simp [hh, Kind.clusters]
      simp only [h2, if_false]
      by_cases h3 : g = ['\\']
      · simp [h3]
      simp only [h3, if_false]
      by_cases h4 : g = ['\t']
      · simp [h4, Kind.clusters]
      simp only [h4, if_false]
      by_cases h5 : g = [' ']
      · simp [h5, Kind.clusters]
      simp only [h5, if_false]
      by_cases h6 : g = ['\r']
      · simp [h6, Kind.clusters]
      simp only [h6, hg, if_false]
      by_cases h8 : g = ['"']
      · simp only [h8, if_true]
        cases cs.any (· == ['"']) <;> simp
      simp only [h8, if_false]
      by_cases h9 : isDigit g = true
      · simp only [h9, if_true, Kind.clusters, List.mem_cons, List.mem_append, not_or]
        refine ⟨hg', fun hm => ?_, fun hm => ?_⟩
        · have := takeWhile_all _ _ _ hm
          simp [isDigit] at this
        · rcases fraction_spec (cs.dropWhile isDigit) with ⟨e, -⟩ | ⟨frac, e, -, hd, -⟩
          · rw [e] at hm; simp at hm
          · rw [e] at hm
            simp only [List.mem_cons] at hm
            rcases hm with hm | hm
            · simp at hm
            · have := hd _ hm
              simp [Digit] at this
      simp only [h9, if_false, Bool.false_eq_true]
      by_cases h10 : isAlpha env g = true
      · simp only [h10, if_true, Kind.clusters, List.mem_cons, not_or]
        refine ⟨hg', fun hm => ?_⟩
        have := takeWhile_all _ _ _ hm
        rw [isAlnum_newline hA] at this
        simp at this
      · simp only [h10, Bool.false_eq_true, if_false]
        exact one

theorem V.PosOK.bol {v w : V} {g : Str} (h : v.PosOK) (hb : v.bol g = .done w) : w.PosOK := by
  obtain ⟨h1, -, h2, h3, -⟩ := bol_fields hb
  exact h.congr h2 h3 h1

theorem resetLine_pos {v w : V} (h : v.PosOK) (h1 : w.pre = v.pre ++ [['\n']])
    (h2 : w.line = satInc32 v.line) (h3 : w.column = 1) : w.PosOK := by
  constructor
  · rw [h1, h2, h.1, lineAfter_snoc, if_pos rfl]
  · rw [h1, h3, columnAfter_snoc, if_pos rfl]

/-- The first cluster of some lexemes. -/
theorem lexeme_first (env : Env) (abut : Bool) (g : Str) (cs : List Str) :
    match lexeme env abut g cs with
    | .newline => g = ['\n']
    | .str _ | .unterminated => g = ['"']
    | .backslash taken nl =>
      g = ['\\'] ∧ taken = (backslashTaken cs).1 ∧ nl = (backslashTaken cs).2
    | _ => True := by
  simp only [lexeme]
  cases punct g with
  | some tc => trivial
  | none =>
    cases eqPunct g with
    | some tc => simp only; by_cases hh : cs.head? = some ['='] <;> simp only [hh, if_true, if_false]
    | none =>
      simp only
      by_cases h1 : g = ['(']
      · simp only [h1, if_true]
      simp only [h1, if_false]
      by_cases h2 : g = ['/']
      · simp only [h2, if_true]
        by_cases hh : cs.head? = some ['/'] <;> simp only [hh, if_true, if_false]
      simp only [h2, if_false]
      by_cases h3 : g = ['\\']
      · simp only [h3, if_true, and_self]
      simp only [h3, if_false]
      by_cases h4 : g = ['\t']
      · simp only [h4, if_true]
      simp only [h4, if_false]
      by_cases h5 : g = [' ']
      · simp only [h5, if_true]
      simp only [h5, if_false]
      by_cases h6 : g = ['\r']
      · simp only [h6, if_true]
      simp only [h6, if_false]
      by_cases h7 : g = ['\n']
      · simp only [h7, if_true]
      simp only [h7, if_false]
      by_cases h8 : g = ['"']
      · simp only [h8, if_true]
        cases cs.any (· == ['"']) <;> simp only [Bool.false_eq_true, if_true, if_false]
      simp only [h8, if_false]
      by_cases h9 : isDigit g = true
      · simp only [h9, if_true]
      simp only [h9, if_false, Bool.false_eq_true]
      by_cases h10 : isAlpha env g = true
      · simp only [h10, if_true]
      · simp only [h10, Bool.false_eq_true, if_false]

/-- The line is always that of the text read, and so is the column as long as there is no error. -/
theorem vstep_pos {env : Env} (hA : AsciiLaws env) {v w : V} (hpos : v.PosOK)
    (h : vstep env v = .done w) :
    w.line = lineAfter w.pre ∧ (w.errors = [] ∨ w.rest ≠ [] → w.PosOK) := by
  suffices hs : w.PosOK ∨ (w.line = lineAfter w.pre ∧ w.errors ≠ [] ∧ w.rest = []) by
    rcases hs with hs | hs
    · exact ⟨hs.1, fun _ => hs⟩
    · exact ⟨hs.1, fun h => by rcases h with h | h; exact absurd h hs.2.1; exact absurd hs.2.2 h⟩
  cases hr : v.rest with
  | nil => simp only [vstep, hr] at h; cases h; exact .inl hpos
  | cons g cs =>
    have hn := lexeme_noNewline hA v.abut g cs
    have hf := lexeme_first env v.abut g cs
    have hb2 := backslashTaken_spec cs
    have hmv := vstep_moves hr h
    simp only [vstep, hr] at h
    generalize lexeme env v.abut g cs = k at h hn hmv hf
    cases k with
    | backslash taken nl =>
      obtain ⟨rfl, rfl, rfl⟩ := hf
      simp only at h
      split at h
      · next hnl =>
        obtain ⟨mid, e, n, hmid⟩ := hb2 hnl
        have hm : ['\n'] ∉ ['\\'] :: mid := by
          rcases hmid with rfl | rfl <;> simp
        have := hpos.skip hm
        cases h
        left
        refine resetLine_pos this ?_ rfl rfl
        simp only [V.flags, V.resetLine, V.skip, e]
        simp
      · next hnl =>
        have hm : ['\n'] ∉ ['\\'] :: (backslashTaken cs).1 := by
          simp only [backslashTaken] at hnl ⊢
          split at hnl
          · simp at hnl
          · next hh =>
            rw [if_neg hh]
            simp only [List.mem_cons, List.mem_append, not_or]
            refine ⟨by simp, fun hm => ?_, fun hm => ?_⟩
            · have := takeWhile_all _ _ _ hm
              simp at this
            · revert hm
              generalize cs.dropWhile (· == [' ']) = r
              match r with
              | [] => simp [optCr]
              | a :: r => simp only [optCr]; split <;> simp
        cases h
        left
        exact (hpos.skip hm).congr rfl rfl rfl
    | tab => cases h; exact .inl ((hpos.skip hn).congr rfl rfl rfl)
    | space => cases h; exact .inl ((hpos.skip hn).congr rfl rfl rfl)
    | cr => cases h; exact .inl ((hpos.skip hn).congr rfl rfl rfl)
    | newline =>
      subst hf
      left
      simp only at h
      split at h <;> (cases h; exact resetLine_pos hpos hmv.1 rfl rfl)
    | num taken =>
      obtain ⟨w0, hb, h⟩ := Outcome.bind_done h
      split at h
      · cases h; exact .inl (((hpos.bol hb).skip hn).congr rfl rfl rfl)
      · cases h
    | str taken =>
      obtain ⟨w0, hb, h⟩ := Outcome.bind_done h
      subst hf
      cases h
      exact .inl ((((((hpos.bol hb).skip (l := [['"']]) (by simp)).skipLines taken).skip (l := [['"']])
        (by simp)).congr rfl rfl rfl))
    | unterminated =>
      obtain ⟨w0, hb, h⟩ := Outcome.bind_done h
      subst hf
      have := ((hpos.bol hb).skip (l := [['"']]) (by simp)).skipLines cs
      obtain ⟨-, h2, -⟩ := bol_fields hb
      cases h
      refine .inr ⟨this.1, by simp [V.flags, V.err], ?_⟩
      simp [V.flags, V.err, V.skip, V.skipLines, h2, hr]
    | tok _ _ | two _ _ _ | ident _ | unexpected | comment _ =>
      obtain ⟨w0, hb, h⟩ := Outcome.bind_done h
      cases h; exact .inl (((hpos.bol hb).skip hn).congr rfl rfl rfl)

/-! ### Runs -/

/-- The states reached from the clusters `cs`. -/
inductive Reach (env : Env) (cs : List Str) : V → Prop
  | init : Reach env cs (V.init cs)
  | step {v w : V} : Reach env cs v → v.rest ≠ [] → vstep env v = .done w → Reach env cs w

theorem vloop_reach {env : Env} {cs : List Str} (n : Nat) {v w : V} (hv : Reach env cs v)
    (h : vloop env n v = .done w) : Reach env cs w ∧ w.rest = [] := by
  induction n generalizing v with
  | zero => cases h
  | succ n ih =>
    simp only [vloop] at h
    split at h
    · next hr => cases h; exact ⟨hv, hr⟩
    · next hr =>
      obtain ⟨u, hu, h⟩ := Outcome.bind_done h
      exact ih (hv.step (by simpa using hr) hu) h

theorem scan_ok {env : Env} {cs : List Str} {ts : List Token} (h : scanClusters env cs = .done (.ok ts)) :
    ∃ w, Reach env cs w ∧ w.rest = [] ∧ w.errors = [] ∧ ts = w.tokens ++ w.closing := by
  rw [scanClusters_eq] at h
  simp only [vscan] at h
  split at h
  · next w hw =>
    obtain ⟨h1, h2⟩ := vloop_reach _ .init hw
    split at h
    · next he =>
      cases h
      exact ⟨w, h1, h2, List.isEmpty_iff.mp he, rfl⟩
    · cases h
  · cases h
  · cases h

theorem scan_err {env : Env} {cs : List Str} {es : List Cause}
    (h : scanClusters env cs = .done (.error es)) :
    ∃ w, Reach env cs w ∧ w.rest = [] ∧ w.errors = es ∧ es ≠ [] := by
  rw [scanClusters_eq] at h
  simp only [vscan] at h
  split at h
  · next w hw =>
    obtain ⟨h1, h2⟩ := vloop_reach _ .init hw
    split at h
    · cases h
    · next he =>
      cases h
      exact ⟨w, h1, h2, rfl, fun e => he (by simp [e])⟩
  · cases h
  · cases h

theorem Reach.pre_rest {env : Env} {cs : List Str} {v : V} (h : Reach env cs v) :
    v.pre ++ v.rest = cs := by
  induction h with
  | init => rfl
  | step _ hr hs ih =>
    obtain ⟨g, r, hr⟩ := List.exists_cons_of_ne_nil hr
    obtain ⟨h1, h2⟩ := vstep_moves hr hs
    rw [← ih, h1, h2, List.append_assoc]

theorem Reach.pos {env : Env} (hA : AsciiLaws env) {cs : List Str} {v : V} (h : Reach env cs v) :
    v.line = lineAfter v.pre ∧ (v.errors = [] ∨ v.rest ≠ [] → v.PosOK) := by
  induction h with
  | init => exact ⟨rfl, fun _ => ⟨rfl, rfl⟩⟩
  | step _ hr hs ih => exact vstep_pos hA (ih.2 (.inr hr)) hs

/-- Induction over the states of a run without errors. -/
theorem Reach.induct {env : Env} (hA : AsciiLaws env) {cs : List Str} (hne : ∀ g ∈ cs, g ≠ [])
    {P : V → Prop} (init : P (V.init cs))
    (step : ∀ v w, Reach env cs v → v.PosOK → w.PosOK → v.errors = [] → w.errors = [] → P v →
      StepR env v w → P w)
    {v : V} (h : Reach env cs v) (he : v.errors = []) : P v := by
  induction h with
  | init => exact init
  | @step v w hv hr hs ih =>
    have hpos := (hv.pos hA).2 (.inr hr)
    obtain ⟨es, hes⟩ := vstep_errors hs
    have hve : v.errors = [] := by
      rw [he] at hes
      exact (List.append_eq_nil_iff.mp hes.symm).1
    obtain ⟨g, r, hr'⟩ := List.exists_cons_of_ne_nil hr
    refine step v w hv hpos ((Reach.pos hA (.step hv hr hs)).2 (.inl he)) hve he (ih hve) (vstep_stepR hr' ?_ hpos hs he)
    intro x hx
    apply hne
    rw [← hv.pre_rest]; simp [hx]

end Ws
