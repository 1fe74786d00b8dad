import Verif.Proofs.Scan.Reading
import Verif.Proofs.Scan.Insert
import Verif.Spec.Positions
/-! Scans that differ in positions only. -/
namespace Ws
open Spec Scanner

theorem lexeme_abut {env : Env} {g : Str} (hg : g ≠ ['(']) (a b : Bool) (cs : List Str) :
    lexeme env a g cs = lexeme env b g cs := by
  simp [lexeme, hg]

theorem lexeme_newline_inv {env : Env} {a : Bool} {g : Str} {cs : List Str} (h : lexeme env a g cs = .newline) :
    g = ['\n'] := by
  unfold lexeme at h
  repeat' split at h
  all_goals first | assumption | cases h

/-- The states differ in positions, and in what does not matter any more. -/
structure Blind (v v' : V) : Prop where
  rest : v'.rest = v.rest
  tokens : SameTokens v.tokens v'.tokens
  errors : SameErrors v.errors v'.errors
  stack : v'.stack = v.stack
  isBol : v'.isBol = v.isBol
  bolSpaces : v.isBol = true → v'.bolSpaces = v.bolSpaces
  isCont : v.isBol = true → v'.isCont = v.isCont
  onlyComment : v'.onlyComment = v.onlyComment
  followCont : v.rest.head? = some ['\n'] → v'.followCont = v.followCont
  abut : v.rest.head? = some ['('] → v'.abut = v.abut

inductive OBlind : Outcome V → Outcome V → Prop
  | done {v v' : V} : Blind v v' → OBlind (.done v) (.done v')
  | panic (m : String) : OBlind (.panic m) (.panic m)
  | diverge : OBlind .diverge .diverge

theorem Spec.SameTokens.append {a a' b b' : List Token} (h : SameTokens a a') (h' : SameTokens b b') :
    SameTokens (a ++ b) (a' ++ b') := by
  simp only [SameTokens, List.map_append] at *
  rw [h, h']

theorem Spec.SameErrors.append {a a' b b' : List Cause} (h : SameErrors a a') (h' : SameErrors b b') :
    SameErrors (a ++ b) (a' ++ b') := by
  simp only [SameErrors, List.map_append] at *
  rw [h, h']

/-- The states differ in positions only, in the middle of a line. -/
structure BlindIn (v v' : V) : Prop where
  rest : v'.rest = v.rest
  tokens : SameTokens v.tokens v'.tokens
  errors : SameErrors v.errors v'.errors
  stack : v'.stack = v.stack
  isBol : v.isBol = false
  isBol' : v'.isBol = false
  onlyComment : v'.onlyComment = v.onlyComment

inductive OBlindIn : Outcome V → Outcome V → Prop
  | done {v v' : V} : BlindIn v v' → OBlindIn (.done v) (.done v')
  | panic (m : String) : OBlindIn (.panic m) (.panic m)
  | diverge : OBlindIn .diverge .diverge

theorem OBlindIn.bind {o o' : Outcome V} {k k' : V → Outcome V} (h : OBlindIn o o')
    (hk : ∀ w w', BlindIn w w' → OBlind (k w) (k' w')) : OBlind (o >>= k) (o' >>= k') := by
  cases h with
  | done h => exact hk _ _ h
  | panic m => exact .panic m
  | diverge => exact .diverge

theorem BlindIn.skip {v v' : V} (h : BlindIn v v') (cs : List Str) : BlindIn (v.skip cs) (v'.skip cs) :=
  { h with rest := by simp only [V.skip, h.rest] }

theorem BlindIn.skipLines {v v' : V} (h : BlindIn v v') (cs : List Str) : BlindIn (v.skipLines cs) (v'.skipLines cs) :=
  { h with rest := by simp only [V.skipLines, h.rest] }

theorem BlindIn.push {v v' : V} (h : BlindIn v v') {ts ts' : List Token} (ht : SameTokens ts ts') :
    BlindIn (v.push ts) (v'.push ts') :=
  { h with tokens := h.tokens.append ht }

theorem BlindIn.err {v v' : V} (h : BlindIn v v') {es es' : List Cause} (he : SameErrors es es') :
    BlindIn (v.err es) (v'.err es') :=
  { h with errors := h.errors.append he }

theorem BlindIn.flags {v v' : V} (h : BlindIn v v') (a b : Bool) : Blind (v.flags a b) (v'.flags a b) :=
  ⟨h.rest, h.tokens, h.errors, h.stack, h.isBol'.trans h.isBol.symm,
    fun e => absurd (h.isBol.symm.trans e) (by simp), fun e => absurd (h.isBol.symm.trans e) (by simp),
    h.onlyComment, fun _ => rfl, fun _ => rfl⟩

theorem Blind.bol {v v' : V} (h : Blind v v') (g : Str) : OBlindIn (v.bol g) (v'.bol g) := by
  simp only [V.bol, h.isBol, h.stack]
  cases hb : v.isBol with
  | false =>
    simp only [Bool.not_false, if_true]
    exact .done ⟨h.rest, h.tokens, h.errors, h.stack, hb, h.isBol.trans hb, h.onlyComment⟩
  | true =>
    simp only [Bool.not_true, Bool.false_eq_true, if_false, h.bolSpaces hb, h.isCont hb]
    split
    · exact .done ⟨h.rest, h.tokens, h.errors, rfl, rfl, rfl, h.onlyComment⟩
    split
    · split
      · exact .done ⟨h.rest, h.tokens.append (by exact rfl), h.errors, rfl, rfl, rfl, h.onlyComment⟩
      · exact .done ⟨h.rest, h.tokens, h.errors, rfl, rfl, rfl, h.onlyComment⟩
    · split
      · next n found st ho =>
        refine .done ⟨h.rest, h.tokens.append ?_, h.errors.append ?_, rfl, rfl, rfl, h.onlyComment⟩
        · simp [SameTokens, moveToken, V.layoutTok, nowhere]
        · split
          · rfl
          · rfl
      · exact .panic _
      · exact .diverge

/-- A step of both scans. -/
theorem Blind.step {env : Env} {v v' : V} (h : Blind v v') : OBlind (vstep env v) (vstep env v') := by
  cases hr : v.rest with
  | nil => simp only [vstep, hr, h.rest]; exact .done h
  | cons g cs =>
    have hl : lexeme env v'.abut g cs = lexeme env v.abut g cs := by
      by_cases hg : g = ['(']
      · rw [h.abut (by rw [hr, hg]; rfl)]
      · exact lexeme_abut hg _ _ _
    have hf : g = ['\n'] → v'.followCont = v.followCont := fun e => h.followCont (by rw [hr, e]; rfl)
    have skip0 : ∀ l : List Str, (v'.skip l).rest = (v.skip l).rest := fun l => by simp only [V.skip, h.rest]
    have hnl : lexeme env v.abut g cs = .newline → g = ['\n'] := lexeme_newline_inv
    simp only [vstep, hr, h.rest, hl]
    generalize lexeme env v.abut g cs = k at *
    cases k with
    | tok t c => exact (h.bol g).bind fun w w' hw => .done (((hw.skip _).push (by exact rfl)).flags _ _)
    | two t second c => exact (h.bol g).bind fun w w' hw => .done (((hw.skip _).push (by exact rfl)).flags _ _)
    | num taken =>
      refine (h.bol g).bind fun w w' hw => ?_
      split
      · exact .done (((hw.skip _).push (by exact rfl)).flags _ _)
      · exact .panic _
    | ident taken => exact (h.bol g).bind fun w w' hw => .done (((hw.skip _).push (by exact rfl)).flags _ _)
    | str taken =>
      exact (h.bol g).bind fun w w' hw => .done (((((hw.skip _).skipLines _).skip _).push (by exact rfl)).flags _ _)
    | unterminated =>
      refine (h.bol g).bind fun w w' hw => .done (BlindIn.flags (BlindIn.err ?_ (by exact rfl)) _ _)
      have := (hw.skip [g]).skipLines cs
      exact ⟨this.rest, this.tokens, this.errors, this.stack, this.isBol, this.isBol', this.onlyComment⟩
    | unexpected => exact (h.bol g).bind fun w w' hw => .done (((hw.skip _).err (by exact rfl)).flags _ _)
    | comment taken =>
      refine (h.bol g).bind fun w w' hw => .done (BlindIn.flags ?_ _ _)
      have := hw.skip (g :: taken)
      exact ⟨this.rest, this.tokens, this.errors, this.stack, this.isBol, this.isBol', h.isBol⟩
    | backslash taken nl =>
      show OBlind (if nl then _ else _) (if nl then _ else _)
      split
      · exact .done ⟨skip0 _, h.tokens, h.errors, h.stack, rfl, fun _ => rfl, fun _ => rfl, rfl, fun _ => rfl, fun _ => rfl⟩
      · exact .done ⟨skip0 _, h.tokens, h.errors.append (by exact rfl), h.stack, h.isBol, h.bolSpaces, h.isCont, h.onlyComment,
          fun _ => rfl, fun _ => rfl⟩
    | tab =>
      exact .done ⟨skip0 _, h.tokens, h.errors.append (by exact rfl), h.stack, h.isBol, h.bolSpaces, h.isCont, h.onlyComment,
          fun _ => rfl, fun _ => rfl⟩
    | space =>
      refine .done ⟨skip0 _, h.tokens, h.errors, h.stack, h.isBol, fun e => ?_, h.isCont, h.onlyComment,
          fun _ => rfl, fun _ => rfl⟩
      have e' : v.isBol = true := e
      simp [V.flags, h.isBol, e', h.bolSpaces e']
    | cr =>
      exact .done ⟨skip0 _, h.tokens, h.errors, h.stack, h.isBol, h.bolSpaces, h.isCont, h.onlyComment,
          fun _ => rfl, fun _ => rfl⟩
    | newline =>
      have hf := hf (hnl rfl)
      refine .done ⟨?_, ?_, ?_, ?_, rfl, fun _ => rfl, fun _ => ?_, rfl, fun _ => rfl, fun _ => rfl⟩
      · simp only [V.flags, V.resetLine, h.isBol, hf, h.onlyComment]
        split <;> exact skip0 _
      · simp only [V.flags, V.resetLine, h.isBol, hf, h.onlyComment]
        split
        · exact h.tokens.append (by exact rfl)
        · exact h.tokens
      · simp only [V.flags, V.resetLine, h.isBol, hf, h.onlyComment]
        split <;> exact h.errors
      · simp only [V.flags, V.resetLine, h.isBol, hf, h.onlyComment]
        split <;> exact h.stack
      · simp only [V.flags, V.resetLine, h.isBol, hf, h.onlyComment]
        cases hb : v.isBol with
        | true => split <;> simp [V.push, V.skip, h.isBol, hb, h.isCont hb]
        | false => split <;> simp [V.push, V.skip, h.isBol, hb, hf]

/-- Both scans to the end. -/
theorem Blind.outcome {env : Env} {v v' : V} (h : Blind v v') : OBlind (outcome env v) (outcome env v') := by
  generalize hn : v.rest.length = n
  induction n using Nat.strongRecOn generalizing v v' with
  | ind n ih =>
    by_cases hr : v.rest = []
    · rw [outcome_nil hr, outcome_nil (h.rest.trans hr)]
      exact .done h
    · rw [outcome_step hr, outcome_step (by rw [h.rest]; exact hr)]
      have hs := h.step (env := env)
      cases hv : vstep env v with
      | done w =>
        rw [hv] at hs
        generalize vstep env v' = o' at hs
        cases hs with
        | done hw => exact ih _ (by rw [← hn]; exact vstep_length hr hv) hw rfl
      | panic m =>
        rw [hv] at hs
        generalize vstep env v' = o' at hs
        cases hs
        exact .panic m
      | diverge =>
        rw [hv] at hs
        generalize vstep env v' = o' at hs
        cases hs
        exact .diverge

theorem Blind.finish {env : Env} {v v' : V} (h : Blind v v') :
    SameScan (finish (Ws.outcome env v)) (finish (Ws.outcome env v')) := by
  have ho := h.outcome (env := env)
  generalize Ws.outcome env v = o at ho
  generalize Ws.outcome env v' = o' at ho
  cases ho with
  | panic m => rfl
  | diverge => rfl
  | @done w w' hw =>
    have he : w'.errors.isEmpty = w.errors.isEmpty := by
      have := congrArg List.isEmpty hw.errors
      simpa using this.symm
    show SameScan (if _ then _ else _) (if _ then _ else _)
    rw [he]
    split
    · simp only [SameScan, movedScan, mapOutcome, moveResult]
      congr 2
      refine SameTokens.append hw.tokens ?_
      simp [SameTokens, V.closing, moveToken, nowhere, hw.stack]
    · simp only [SameScan, movedScan, mapOutcome, moveResult]
      congr 2
      exact hw.errors

end Ws
