import Verif.Proofs.Scan.Diverge
/-! Simulation between scans that differ in what follows, in line numbers, and in what was scanned
before. -/
namespace Ws
open Spec Scanner

/-- The scan from a state to the end of the source. -/
def outcome (env : Env) (v : V) : Outcome V := vloop env (v.rest.length + 1) v

theorem outcome_nil {env : Env} {v : V} (h : v.rest = []) : outcome env v = .done v := by
  simp [outcome, vloop, h]

theorem outcome_step {env : Env} {v : V} (h : v.rest ≠ []) :
    outcome env v = (vstep env v >>= outcome env) := by
  obtain ⟨g, r, hr⟩ := List.exists_cons_of_ne_nil h
  rw [outcome, vloop]
  simp only [hr]
  cases hs : vstep env v with
  | done w =>
    show vloop env _ w = outcome env w
    have := vstep_length h hs
    rw [hr] at this
    exact vloop_fuel (Nat.lt_succ_self _) _ (by simpa using this)
  | panic m => rfl
  | diverge => rfl

theorem outcome_next {env : Env} {v w : V} (h : v.rest ≠ []) (hs : vstep env v = .done w) :
    outcome env v = outcome env w := by
  rw [outcome_step h, hs]; rfl

/-- What `scan_tokens` returns when the scan is over. -/
def finish (o : Outcome V) : Outcome (Except ParseError (List Token)) := do
  let v ← o
  if v.errors.isEmpty then .done (.ok (v.tokens ++ v.closing)) else .done (.error v.errors)

theorem scan_finish (env : Env) (cs : List Str) : scanClusters env cs = finish (outcome env (V.init cs)) := by
  rw [scanClusters_eq]
  simp only [vscan, finish, outcome]
  have : (V.init cs).rest.length + 1 = cs.length + 1 := rfl
  rw [this]
  cases vloop env (cs.length + 1) (V.init cs) <;> rfl

def moveTok (f : Nat → Nat) (t : Token) : Token := { t with line := f t.line }
def moveErr (f : Nat → Nat) (e : Cause) : Cause := { e with loc := ⟨f e.loc.line, e.loc.column⟩ }

/-- What two related scans have in common. -/
structure Par where
  z : List Str
  f : Nat → Nat
  comm : ∀ n, f (satInc32 n) = satInc32 (f n)
  T : List Token
  T' : List Token
  E : List Cause
  E' : List Cause

structure Rel (d : Par) (v v' : V) : Prop where
  rest : v'.rest = v.rest ++ d.z
  tokens : ∃ new, v.tokens = d.T ++ new ∧ v'.tokens = d.T' ++ new.map (moveTok d.f)
  errors : ∃ new, v.errors = d.E ++ new ∧ v'.errors = d.E' ++ new.map (moveErr d.f)
  stack : v'.stack = v.stack
  line : v'.line = d.f v.line
  column : v'.column = v.column
  bolSpaces : v'.bolSpaces = v.bolSpaces
  isBol : v'.isBol = v.isBol
  onlyComment : v'.onlyComment = v.onlyComment
  isCont : v'.isCont = v.isCont
  followCont : v'.followCont = v.followCont
  abut : v'.abut = v.abut

/-- Related outcomes. -/
inductive ORel (d : Par) : Outcome V → Outcome V → Prop
  | done {v v' : V} : Rel d v v' → ORel d (.done v) (.done v')
  | panic (m : String) : ORel d (.panic m) (.panic m)
  | diverge : ORel d .diverge .diverge

theorem ORel.bind {d : Par} {o o' : Outcome V} {k k' : V → Outcome V} (h : ORel d o o')
    (hk : ∀ w w', o = .done w → Rel d w w' → ORel d (k w) (k' w')) : ORel d (o >>= k) (o' >>= k') := by
  cases h with
  | done h => exact hk _ _ rfl h
  | panic m => exact .panic m
  | diverge => exact .diverge

theorem Rel.addTokens {d : Par} {v v' : V} (h : Rel d v v') (ts : List Token) :
    Rel d { v with tokens := v.tokens ++ ts } { v' with tokens := v'.tokens ++ ts.map (moveTok d.f) } := by
  obtain ⟨new, h1, h2⟩ := h.tokens
  exact { h with tokens := ⟨new ++ ts, by simp [h1], by simp [h2]⟩ }

theorem Rel.push {d : Par} {v v' : V} (h : Rel d v v') {ts ts' : List Token}
    (e : ts' = ts.map (moveTok d.f)) : Rel d (v.push ts) (v'.push ts') := by
  subst e; exact h.addTokens ts

theorem Rel.err {d : Par} {v v' : V} (h : Rel d v v') {es es' : List Cause}
    (e : es' = es.map (moveErr d.f)) : Rel d (v.err es) (v'.err es') := by
  subst e
  obtain ⟨new, h1, h2⟩ := h.errors
  exact { h with errors := ⟨new ++ es, by simp [V.err, h1], by simp [V.err, h2]⟩ }

theorem Rel.flags {d : Par} {v v' : V} (h : Rel d v v') (a b : Bool) : Rel d (v.flags a b) (v'.flags a b) :=
  { h with followCont := rfl, abut := rfl }

theorem Rel.resetLine {d : Par} {v v' : V} (h : Rel d v v') : Rel d v.resetLine v'.resetLine :=
  { h with
    line := by simp [V.resetLine, h.line, d.comm]
    column := rfl, bolSpaces := rfl, isBol := rfl, onlyComment := rfl
    isCont := by simp [V.resetLine, h.isBol, h.isCont, h.followCont]
    followCont := by simp [V.resetLine, h.isBol, h.followCont] }

theorem Rel.skip {d : Par} {v v' : V} (h : Rel d v v') {cs : List Str} (hl : cs.length ≤ v.rest.length) :
    Rel d (v.skip cs) (v'.skip cs) :=
  { h with
    rest := by simp only [V.skip, h.rest]; exact List.drop_append_of_le_length hl
    column := by simp only [V.skip, h.column] }

theorem posThrough_move {f : Nat → Nat} (hf : ∀ n, f (satInc32 n) = satInc32 (f n)) (l c : Nat) (cs : List Str) :
    posThrough (f l, c) cs = (f (posThrough (l, c) cs).1, (posThrough (l, c) cs).2) := by
  induction cs generalizing l c with
  | nil => rfl
  | cons g cs ih =>
    simp only [posThrough]
    split
    · rw [← hf, ih]
    · rw [ih]

theorem Rel.skipLines {d : Par} {v v' : V} (h : Rel d v v') {cs : List Str} (hl : cs.length ≤ v.rest.length) :
    Rel d (v.skipLines cs) (v'.skipLines cs) :=
  { h with
    rest := by simp only [V.skipLines, h.rest]; exact List.drop_append_of_le_length hl
    line := by simp only [V.skipLines, h.line, h.column, posThrough_move d.comm]
    column := by simp only [V.skipLines, h.line, h.column, posThrough_move d.comm] }

theorem Rel.bol {d : Par} {v v' : V} (h : Rel d v v') (g : Str) : ORel d (v.bol g) (v'.bol g) := by
  simp only [V.bol, h.isBol, h.bolSpaces, h.stack, h.isCont]
  split
  · exact .done h
  split
  · exact .done ⟨h.rest, h.tokens, h.errors, (by first | rfl | exact h.stack), h.line, h.column, (by first | rfl | exact h.bolSpaces), rfl, h.onlyComment,
      (by first | rfl | exact h.isCont), h.followCont, h.abut⟩
  split
  · split
    · have h2 := h.addTokens [v.layoutTok .indent g]
      refine .done ⟨h.rest, ?_, h.errors, rfl, h.line, h.column, (by first | rfl | exact h.bolSpaces), rfl, h.onlyComment,
        (by first | rfl | exact h.isCont), h.followCont, h.abut⟩
      obtain ⟨new, h3, h4⟩ := h2.tokens
      refine ⟨new, h3, ?_⟩
      rw [← h4]
      simp [V.layoutTok, moveTok, h.line, h.column]
    · exact .done ⟨h.rest, h.tokens, h.errors, (by first | rfl | exact h.stack), h.line, h.column, (by first | rfl | exact h.bolSpaces), rfl, h.onlyComment,
        (by first | rfl | exact h.isCont), h.followCont, h.abut⟩
  · split
    · next n found st ho =>
      have h2 := h.addTokens (List.replicate n (v.layoutTok .outdent g))
      have h3 := h2.err (es := if !found && v.bolSpaces > 0 then [outdentError v.line (satInc16 v.column)] else []) rfl
      refine .done ⟨h.rest, ?_, ?_, rfl, h.line, h.column, (by first | rfl | exact h.bolSpaces), rfl, h.onlyComment,
        (by first | rfl | exact h.isCont), h.followCont, h.abut⟩
      · obtain ⟨new, h3, h4⟩ := h2.tokens
        refine ⟨new, h3, ?_⟩
        rw [← h4]
        simp [V.layoutTok, moveTok, h.line, h.column]
      · obtain ⟨new, h4, h5⟩ := h3.errors
        refine ⟨new, h4, ?_⟩
        rw [← h5]
        simp only [V.err]
        congr 1
        split
        · simp [outdentError, moveErr, h.line, h.column, Cause.new]
        · rfl
    · exact .panic _
    · exact .diverge

theorem sim_step {env : Env} {d : Par} {v v' : V} (h : Rel d v v') {g : Str} {cs : List Str}
    (hr : v.rest = g :: cs) (hl : lexeme env v.abut g (cs ++ d.z) = lexeme env v.abut g cs)
    (hc : d.z = [] ∨ lexeme env v.abut g cs ≠ .unterminated) :
    ORel d (vstep env v) (vstep env v') := by
  have hr' : v'.rest = g :: (cs ++ d.z) := by rw [h.rest, hr]; rfl
  have hlen := lexeme_prefix env v.abut g cs
  obtain ⟨tail, htail⟩ := hlen
  simp only [vstep, hr, hr', h.abut, hl]
  generalize lexeme env v.abut g cs = k at *
  have len : (k.clusters g cs).length ≤ v.rest.length := by rw [hr, htail]; simp
  have bolrest : ∀ w, v.bol g = .done w → w.rest = v.rest := fun w hw => (bol_fields hw).2.1
  cases k with
  | tok t c =>
    refine (h.bol g).bind fun w w' hw hrel => .done ((Rel.push (hrel.skip ?_) ?_).flags _ _)
    · rw [bolrest w hw]; exact len
    · simp [moveTok, h.line, h.column]
  | two t second c =>
    refine (h.bol g).bind fun w w' hw hrel => .done ((Rel.push (hrel.skip ?_) ?_).flags _ _)
    · rw [bolrest w hw]; exact len
    · simp [moveTok, h.line, h.column]
  | num taken =>
    refine (h.bol g).bind fun w w' hw hrel => ?_
    split
    · refine .done ((Rel.push (hrel.skip ?_) ?_).flags _ _)
      · rw [bolrest w hw]; exact len
      · simp [moveTok, h.line, h.column]
    · exact .panic _
  | ident taken =>
    refine (h.bol g).bind fun w w' hw hrel => .done ((Rel.push (hrel.skip ?_) ?_).flags _ _)
    · rw [bolrest w hw]; exact len
    · simp [moveTok, h.line, h.column]
  | str taken =>
    refine (h.bol g).bind fun w w' hw hrel => .done ((Rel.push (((hrel.skip ?_).skipLines ?_).skip ?_) ?_).flags _ _)
    · rw [bolrest w hw, hr]; simp
    · simp only [V.skip, bolrest w hw]
      simp [Kind.clusters] at len ⊢
      omega
    · simp only [V.skip, V.skipLines, bolrest w hw]
      simp [Kind.clusters] at len ⊢
      omega
    · simp [moveTok, h.line, h.column]
  | unterminated =>
    have hz : d.z = [] := by rcases hc with hc | hc; exact hc; exact absurd rfl hc
    rw [hz, List.append_nil]
    refine (h.bol g).bind fun w w' hw hrel => .done (Rel.flags ?_ _ _)
    have h2 := (hrel.skip (cs := [g]) (by rw [bolrest w hw, hr]; simp)).skipLines (cs := cs) (by
      simp [V.skip, bolrest w hw, hr])
    refine Rel.err ?_ ?_
    · exact { h2 with column := by rw [h2.column] }
    · simp only [List.map_cons, List.map_nil, moveErr, Cause.new]
      rw [h2.line, h2.column]
  | unexpected =>
    refine (h.bol g).bind fun w w' hw hrel => .done ((Rel.err (hrel.skip ?_) ?_).flags _ _)
    · rw [bolrest w hw]; exact len
    · simp [moveErr, h.line, h.column, Cause.new]
  | comment taken =>
    refine (h.bol g).bind fun w w' hw hrel => .done (Rel.flags ?_ _ _)
    have h2 := hrel.skip (cs := g :: taken) (by rw [bolrest w hw]; exact len)
    exact { h2 with onlyComment := h.isBol }
  | backslash taken nl =>
    have h2 := h.skip (cs := g :: taken) len
    show ORel d (if nl then _ else _) (if nl then _ else _)
    split
    · have h3 := h2.resetLine
      exact .done ⟨h3.rest, h3.tokens, h3.errors, h3.stack, h3.line, h3.column, h3.bolSpaces, h3.isBol,
        h3.onlyComment, rfl, rfl, rfl⟩
    · exact .done (Rel.flags (h2.err (by simp [moveErr, h.line, h.column, Cause.new])) _ _)
  | tab =>
    have h2 := h.skip (cs := [g]) len
    exact .done (Rel.flags (h2.err (by simp [moveErr, h.line, h.column, Cause.new])) _ _)
  | space =>
    have h2 := h.skip (cs := [g]) len
    exact .done ⟨h2.rest, h2.tokens, h2.errors, h2.stack, h2.line, h2.column,
      by simp [V.flags, h.isBol, h.bolSpaces], h2.isBol, h2.onlyComment, h2.isCont, rfl, rfl⟩
  | cr => exact .done (Rel.flags (h.skip (cs := [g]) len) _ _)
  | newline =>
    have h2 := h.skip (cs := [g]) len
    refine .done (Rel.flags (Rel.resetLine ?_) _ _)
    rw [h.isBol, h.followCont, h.onlyComment]
    split
    · exact h2.push (by simp [moveTok, h.line, h.column])
    · exact h2

/-- Scans of the same clusters from related states. -/
theorem sim_outcome {env : Env} {d : Par} (hz : d.z = []) {v v' : V} (h : Rel d v v') :
    ORel d (outcome env v) (outcome env v') := by
  generalize hn : v.rest.length = n
  induction n using Nat.strongRecOn generalizing v v' with
  | ind n ih =>
    cases hr : v.rest with
    | nil =>
      rw [outcome_nil hr, outcome_nil (by rw [h.rest, hr, hz]; rfl)]
      exact .done h
    | cons g cs =>
      have hne : v.rest ≠ [] := by simp [hr]
      rw [outcome_step hne, outcome_step (by rw [h.rest, hz, List.append_nil]; exact hne)]
      refine (sim_step h hr (by rw [hz, List.append_nil]) (.inl hz)).bind fun w w' hw hrel => ?_
      exact ih w.rest.length (by rw [← hn]; exact vstep_length hne hw) hrel rfl

end Ws
