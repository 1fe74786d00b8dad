import Verif.Proofs.Scan.View
namespace Ws
open Scanner

/-! ### Byte offsets -/

theorem graphemeIndices_cons (n : Nat) (g : Str) (cs : List Str) :
    graphemeIndices n (g :: cs) = (n, g) :: graphemeIndices (n + byteLen g) cs := rfl

theorem conc_advance (v : V) (x : X) (g : Str) (cs : List Str) (h : v.rest = g :: cs) :
    (conc v x).advance = conc (v.skip [g]) { x with current := byteLen v.pre.flatten } := by
  simp [conc, advance, V.skip, h, graphemeIndices_cons, addCol]

theorem conc_advance_nil (v : V) (x : X) (h : v.rest = []) :
    (conc v x).advance = conc { v with column := satInc16 v.column } { x with eof := true } := by
  simp [conc, advance, h, graphemeIndices]

theorem conc_peek (v : V) (x : X) : (conc v x).peek = v.rest.head? := by
  cases h : v.rest <;> simp [conc, peek, h, graphemeIndices]

theorem conc_peekNext (v : V) (x : X) : (conc v x).peekNext = v.rest.tail.head? := by
  cases h : v.rest with
  | nil => simp [conc, peekNext, h, graphemeIndices]
  | cons g cs => cases cs <;> simp [conc, peekNext, h, graphemeIndices]

/-- The concrete state is in step with the clusters: `a` is the text before the lexeme, `b` the text
of the lexeme so far. -/
structure InStep (v : V) (x : X) (a b : Str) : Prop where
  src : x.source = (v.pre ++ v.rest).flatten
  start : x.start = byteLen a
  pre : v.pre.flatten = a ++ b

theorem conc_peekIndex (v : V) (x : X) (hs : x.source = (v.pre ++ v.rest).flatten) :
    (conc v x).peekIndex = byteLen v.pre.flatten := by
  cases h : v.rest with
  | nil => simp [conc, peekIndex, h, graphemeIndices, hs]
  | cons g cs => simp [conc, peekIndex, h, graphemeIndices]

theorem conc_slice {v : V} {x : X} {a b : Str} (h : InStep v x a b) :
    sliceBytes (conc v x).source (conc v x).start (conc v x).peekIndex = .done b := by
  rw [conc_peekIndex v x h.src]
  have : (conc v x).source = a ++ (b ++ v.rest.flatten) := by
    simp only [conc, h.src, List.flatten_append, h.pre, List.append_assoc]
  rw [this, h.pre]
  have : (conc v x).start = byteLen a := h.start
  rw [this, sliceBytes_append]

theorem conc_addToken {v : V} {x : X} {a b : Str} (h : InStep v x a b) (t : TokenType) :
    (conc v x).addToken t =
      .done (conc (v.push [⟨t, b, none, none, v.line, x.startColumn⟩]) x) := by
  simp only [addToken, conc_slice h]
  rfl

theorem conc_addNumber {v : V} {x : X} {a b : Str} (h : InStep v x a b) (n : F64) :
    (conc v x).addNumberLiteralToken n =
      .done (conc (v.push [⟨.number, b, none, some n, v.line, x.startColumn⟩]) x) := by
  simp only [addNumberLiteralToken, conc_slice h]
  rfl

theorem conc_addString {v : V} {x : X} {a b : Str} (h : InStep v x a b) (val : Str) (l : Nat) :
    (conc v x).addStringLiteralToken val l =
      .done (conc (v.push [⟨.string, b, some val, none, l, x.startColumn⟩]) x) := by
  simp only [addStringLiteralToken, conc_slice h]
  rfl

theorem conc_error (v : V) (x : X) (e : Cause) : (conc v x).error e = conc (v.err [e]) x := rfl

/-! ### Moving over clusters -/

theorem skip_nil (v : V) : v.skip [] = v := by simp [V.skip, addCol]

theorem addCol_add (c m n : Nat) : addCol c (m + n) = addCol (addCol c m) n := by
  induction m generalizing c with
  | zero => simp [addCol]
  | succ m ih => rw [Nat.succ_add, addCol, addCol, ih]

theorem skip_append (v : V) (a b : List Str) : v.skip (a ++ b) = (v.skip a).skip b := by
  simp only [V.skip, List.append_assoc, List.drop_drop, List.length_append, addCol_add]

theorem skip_cons (v : V) (g : Str) (b : List Str) : v.skip (g :: b) = (v.skip [g]).skip b := by
  rw [← skip_append]; rfl

theorem rest_skip {v : V} {a b : List Str} (h : v.rest = a ++ b) : (v.skip a).rest = b := by
  simp [V.skip, h]

theorem InStep.skip {v : V} {x : X} {a b : Str} (h : InStep v x a b) {cs r : List Str}
    (hr : v.rest = cs ++ r) : InStep (v.skip cs) x a (b ++ cs.flatten) where
  src := by simp [V.skip, hr, h.src]
  start := h.start
  pre := by simp [V.skip, h.pre]

theorem InStep.current {v : V} {x : X} {a b : Str} (h : InStep v x a b) (n : Nat) :
    InStep v { x with current := n } a b := ⟨h.src, h.start, h.pre⟩

theorem InStep.congr {v w : V} {x : X} {a b : Str} (h : InStep v x a b) (h1 : w.pre = v.pre)
    (h2 : w.rest = v.rest) : InStep w x a b :=
  ⟨by rw [h1, h2, h.src], h.start, by rw [h1, h.pre]⟩

/-- `advanceWhile`, as a move over the longest prefix that satisfies `p`. -/
theorem conc_advanceWhileAux (p : Str → Bool) (cs : List Str) (v : V) (x : X) (h : v.rest = cs)
    (n : Nat) :
    ∃ c, advanceWhileAux p (graphemeIndices n cs) (conc v x) =
      conc (v.skip (cs.takeWhile p)) { x with current := c } := by
  induction cs generalizing v x n with
  | nil => exact ⟨x.current, by simp [graphemeIndices, advanceWhileAux, skip_nil]⟩
  | cons g cs ih =>
    by_cases hp : p g = true
    · have hr : (v.skip [g]).rest = cs := rest_skip (a := [g]) h
      obtain ⟨c, hc⟩ := ih (v.skip [g]) { x with current := byteLen v.pre.flatten } hr
        (n + byteLen g)
      refine ⟨c, ?_⟩
      rw [graphemeIndices_cons, advanceWhileAux, if_pos hp, conc_advance v x g cs h, hc,
        List.takeWhile_cons_of_pos hp, skip_cons v g (cs.takeWhile p)]
    · refine ⟨x.current, ?_⟩
      rw [graphemeIndices_cons, advanceWhileAux, if_neg hp, List.takeWhile_cons_of_neg hp, skip_nil]

theorem conc_advanceWhile (p : Str → Bool) (v : V) (x : X) :
    ∃ c, (conc v x).advanceWhile p =
      conc (v.skip (v.rest.takeWhile p)) { x with current := c } :=
  conc_advanceWhileAux p v.rest v x rfl _

theorem rest_skip_takeWhile (v : V) (p : Str → Bool) :
    (v.skip (v.rest.takeWhile p)).rest = v.rest.dropWhile p := by
  apply rest_skip
  exact (List.takeWhile_append_dropWhile).symm

theorem conc_matchesCluster (v : V) (x : X) (e : Str) (hx : x.eof = false) :
    (conc v x).matchesCluster e =
      if v.rest.head? = some e then (true, conc (v.skip [e]) { x with current := byteLen v.pre.flatten })
      else (false, conc v x) := by
  have he : (conc v x).eof = false := hx
  simp only [matchesCluster, he, conc_peek]
  cases h : v.rest with
  | nil => simp
  | cons g cs =>
    by_cases hg : g = e
    · subst hg
      simp [conc_advance v x g cs h]
    · simp [hg]

theorem conc_outdentLoop (st : List Nat) (v : V) (x : X) (a g : Str) (h : InStep v x a g)
    (hv : v.stack = st) (hc : x.startColumn = c) :
    outdentLoop st (conc v x) =
      match outdents v.bolSpaces st with
      | .done (n, found, st') =>
        .done (found, conc { v with
          tokens := v.tokens ++ List.replicate n ⟨.outdent, g, none, none, v.line, c⟩,
          stack := st' } x)
      | .panic m => .panic m
      | .diverge => .diverge := by
  induction st generalizing v with
  | nil =>
    simp only [outdentLoop, outdents, List.replicate_zero, List.append_nil]
    rw [show ({ v with stack := [] } : V) = v by cases v; simp_all]
  | cons n below ih =>
    simp only [outdentLoop, outdents]
    have hb : (conc v x).bolSpaces = v.bolSpaces := rfl
    rw [hb]
    by_cases h1 : n = v.bolSpaces
    · simp only [if_pos h1, List.replicate_zero, List.append_nil]
      rw [show ({ v with stack := n :: below } : V) = v by cases v; simp_all]
    · rw [if_neg h1, if_neg h1]
      by_cases h2 : n > v.bolSpaces
      · rw [if_pos h2, if_pos h2]
        have hi : InStep { v with stack := below } x a g := h.congr rfl rfl
        change (do
          let s ← addToken (conc { v with stack := below } x) .outdent
          outdentLoop below s) = _
        rw [conc_addToken hi]
        have := ih (V.push { v with stack := below } [⟨.outdent, g, none, none, v.line, c⟩])
          (h.congr rfl rfl) rfl
        simp only [hc]
        show outdentLoop below _ = _
        rw [this]
        simp only [V.push]
        cases outdents v.bolSpaces below with
        | done r =>
          obtain ⟨m, f, st'⟩ := r
          simp [List.replicate_succ]
        | panic m => rfl
        | diverge => rfl
      · rw [if_neg h2, if_neg h2]

/-- The state just after the first cluster of a lexeme has been read. -/
theorem conc_bol (v : V) (x : X) (g : Str) (cs : List Str) (hr : v.rest = g :: cs)
    (hs : x.source = (v.pre ++ v.rest).flatten) (h0 : x.start = byteLen v.pre.flatten)
    (hc : x.startColumn = v.column) :
    (conc (v.skip [g]) x).bolIndentationTokens =
      match v.bol g with
      | .done w => .done (conc (w.skip [g]) x)
      | .panic m => .panic m
      | .diverge => .diverge := by
  have hi0 : InStep v x v.pre.flatten [] := ⟨hs, h0, by simp⟩
  have hi : InStep (v.skip [g]) x v.pre.flatten g := by
    have := hi0.skip (cs := [g]) (r := cs) hr
    simpa using this
  have e1 : (conc (v.skip [g]) x).isBol = v.isBol := rfl
  have e2 : (conc (v.skip [g]) x).bolSpaces = v.bolSpaces := rfl
  have e3 : (conc (v.skip [g]) x).indentation = v.stack := rfl
  have e4 : (conc (v.skip [g]) x).isLineContinuation = v.isCont := rfl
  simp only [bolIndentationTokens, V.bol, e1, e2, e3, e4]
  by_cases hb : v.isBol = true
  · simp only [hb, Bool.not_true, Bool.false_eq_true, if_false]
    by_cases h1 : v.bolSpaces = v.stack.head?.getD 0
    · simp only [if_pos h1]
      rfl
    · simp only [if_neg h1]
      by_cases h2 : v.bolSpaces > v.stack.head?.getD 0
      · simp only [if_pos h2]
        by_cases h3 : v.isCont = true
        · simp [h3, Bind.bind, Outcome.bind, conc, V.skip]
        · simp only [Bool.not_eq_true] at h3
          simp only [h3, Bool.not_false, if_true]
          rw [conc_addToken hi, hc]
          simp [h3, Bind.bind, Outcome.bind, conc, V.skip, V.push, V.layoutTok]
      · simp only [if_neg h2]
        rw [conc_outdentLoop v.stack (v.skip [g]) x v.pre.flatten g hi rfl hc]
        have e5 : (v.skip [g]).bolSpaces = v.bolSpaces := rfl
        simp only [e5]
        cases outdents v.bolSpaces v.stack with
        | done r =>
          obtain ⟨m, f, st'⟩ := r
          cases f with
          | true => simp [Bind.bind, Outcome.bind, conc, V.skip, V.layoutTok]
          | false =>
            by_cases h4 : v.bolSpaces > 0
            · simp [Bind.bind, Outcome.bind, conc, V.skip, Scanner.error, V.layoutTok, outdentError, h4,
                addCol]
            · simp [Bind.bind, Outcome.bind, conc, V.skip, V.layoutTok, h4, addCol]
        | panic m => rfl
        | diverge => rfl
  · simp only [Bool.not_eq_true] at hb
    simp only [hb, Bool.not_false, if_true]

theorem bol_fields {v w : V} {g : Str} (h : v.bol g = .done w) :
    w.pre = v.pre ∧ w.rest = v.rest ∧ w.line = v.line ∧ w.column = v.column ∧ w.abut = v.abut ∧
      w.bolSpaces = v.bolSpaces ∧ w.onlyComment = v.onlyComment ∧ w.isCont = v.isCont ∧
      w.followCont = v.followCont ∧ w.isBol = false := by
  simp only [V.bol] at h
  split at h
  · next hb =>
    cases h
    simp_all
  · split at h
    · cases h; simp
    · split at h
      · split at h <;> (cases h; simp)
      · split at h <;> cases h
        simp

theorem conc_stringLoop_some (cs : List Str) (v : V) (x : X) (h : v.rest = cs) (n : Nat)
    (hq : cs.any (· == ['"']) = true) :
    ∃ c, stringLoop (graphemeIndices n cs) (conc v x) =
      conc (v.skipLines (cs.takeWhile (fun g => !(g == ['"'])))) { x with current := c } := by
  induction cs generalizing v x n with
  | nil => simp at hq
  | cons g cs ih =>
    by_cases hg : g = ['"']
    · subst hg
      refine ⟨x.current, ?_⟩
      rw [graphemeIndices_cons, stringLoop, if_pos (by simp),
        List.takeWhile_cons_of_neg (by simp)]
      simp [V.skipLines, posThrough]
    · have hq' : cs.any (· == ['"']) = true := by simpa [hg] using hq
      rw [graphemeIndices_cons, stringLoop, if_neg (by simpa using hg),
        List.takeWhile_cons_of_pos (by simpa using hg)]
      by_cases hn : g = ['\n']
      · subst hn
        rw [if_pos (by simp)]
        have e : ({ conc v x with line := satInc32 (conc v x).line, column := 0 } : Scanner) =
            conc { v with line := satInc32 v.line, column := 0 } x := rfl
        obtain ⟨c, hc⟩ := ih (V.skip { v with line := satInc32 v.line, column := 0 } [['\n']])
          { x with current := byteLen v.pre.flatten } (by simp [V.skip, h]) (n + byteLen ['\n']) hq'
        refine ⟨c, ?_⟩
        have e2 := conc_advance { v with line := satInc32 v.line, column := 0 } x ['\n'] cs h
        refine (congrArg (stringLoop (graphemeIndices (n + byteLen ['\n']) cs)) e2).trans (hc.trans ?_)
        simp [V.skip, V.skipLines, posThrough, addCol, satInc16]
      · rw [if_neg (by simpa using hn), conc_advance v x g cs h]
        obtain ⟨c, hc⟩ := ih (v.skip [g]) { x with current := byteLen v.pre.flatten }
          (by simp [V.skip, h]) (n + byteLen g) hq'
        refine ⟨c, hc.trans ?_⟩
        simp [V.skip, V.skipLines, posThrough, addCol, hn]

theorem conc_stringLoop_none (cs : List Str) (v : V) (x : X) (h : v.rest = cs) (n : Nat)
    (hq : cs.any (· == ['"']) = false) :
    ∃ c, stringLoop (graphemeIndices n cs) (conc v x) =
      conc { v.skipLines cs with column := satInc16 (v.skipLines cs).column }
        { x with current := c, eof := true } := by
  induction cs generalizing v x n with
  | nil =>
    refine ⟨x.current, ?_⟩
    rw [graphemeIndices, stringLoop, conc_advance_nil v x h]
    simp [V.skipLines, posThrough]
  | cons g cs ih =>
    have hg : ¬ g = ['"'] := by simp at hq; exact hq.1
    have hq' : cs.any (· == ['"']) = false := by simp at hq ⊢; exact hq.2
    rw [graphemeIndices_cons, stringLoop, if_neg (by simpa using hg)]
    by_cases hn : g = ['\n']
    · subst hn
      rw [if_pos (by simp)]
      obtain ⟨c, hc⟩ := ih (V.skip { v with line := satInc32 v.line, column := 0 } [['\n']])
        { x with current := byteLen v.pre.flatten } (by simp [V.skip, h]) (n + byteLen ['\n']) hq'
      refine ⟨c, ?_⟩
      have e2 := conc_advance { v with line := satInc32 v.line, column := 0 } x ['\n'] cs h
      refine (congrArg (stringLoop (graphemeIndices (n + byteLen ['\n']) cs)) e2).trans (hc.trans ?_)
      simp [V.skip, V.skipLines, posThrough, addCol, satInc16]
    · rw [if_neg (by simpa using hn), conc_advance v x g cs h]
      obtain ⟨c, hc⟩ := ih (v.skip [g]) { x with current := byteLen v.pre.flatten }
        (by simp [V.skip, h]) (n + byteLen g) hq'
      refine ⟨c, hc.trans ?_⟩
      simp [V.skip, V.skipLines, posThrough, addCol, hn]

end Ws
