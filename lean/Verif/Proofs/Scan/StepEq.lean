import Verif.Proofs.Scan.ViewEq
namespace Ws
open Scanner

/-- The model's state `conc w x'` is a good state to go on from. -/
structure Good (src : Str) (w : V) (x' : X) : Prop where
  source : x'.source = src
  inStep : ∃ a b, InStep w x' a b
  eof : x'.eof = true → w.rest = [] ∧ w.errors ≠ []

/-- The model's outcome `o` is the view's outcome `r`. -/
def Sim (src : Str) (o : Outcome Scanner) (r : Outcome V) : Prop :=
  match r with
  | .done w => ∃ x', o = .done (conc w x') ∧ Good src w x'
  | .panic m => o = .panic m
  | .diverge => o = .diverge

/-- What `scanToken` does after `scanCluster`. -/
def finishToken (o : Outcome (Scanner × Flags)) : Outcome Scanner := do
  let (s, flags) ← o
  .done { s with
    followingLineContinuation := flags.followingLineContinuation
    isAbutting := !flags.isWhitespace }

@[simp] theorem finishToken_done (w : V) (x : X) (ws fc : Bool) :
    finishToken (.done (conc w x, ⟨ws, fc⟩)) = .done (conc (w.flags ws fc) x) := rfl

theorem InStep.flags {v : V} {x : X} {a b : Str} (h : InStep v x a b) (ws fc : Bool) :
    InStep (v.flags ws fc) x a b := h.congr rfl rfl

theorem InStep.push {v : V} {x : X} {a b : Str} (h : InStep v x a b) (ts : List Token) :
    InStep (v.push ts) x a b := h.congr rfl rfl

theorem InStep.err {v : V} {x : X} {a b : Str} (h : InStep v x a b) (es : List Cause) :
    InStep (v.err es) x a b := h.congr rfl rfl

theorem Good.of {w : V} {x' : X} {a b : Str} (h : InStep w x' a b) (he : x'.eof = false) :
    Good x'.source w x' := ⟨rfl, ⟨a, b, h⟩, by simp [he]⟩

theorem Good.of' {src : Str} {w w' : V} {x' x'' : X} {a b : Str} (h : InStep w x'' a b)
    (hp : w'.pre = w.pre) (hr : w'.rest = w.rest) (hs : x'.source = src)
    (h2 : x'.source = x''.source) (h3 : x'.start = x''.start) (he : x'.eof = false) :
    Good src w' x' :=
  ⟨hs, ⟨a, b, ⟨by rw [h2, h.src, hp, hr], by rw [h3, h.start], by rw [hp, h.pre]⟩⟩, by simp [he]⟩

section
variable (env : Env) (v : V) (x : X) (g : Str) (cs : List Str)

/-- The situation after the first cluster `g` of a lexeme has been read. -/
structure Begun : Prop where
  rest : v.rest = g :: cs
  src : x.source = (v.pre ++ v.rest).flatten
  start : x.start = byteLen v.pre.flatten
  startColumn : x.startColumn = v.column
  eof : x.eof = false

variable {v x g cs}

theorem Begun.inStep (h : Begun v x g cs) {w : V} (hp : w.pre = v.pre) (hr : w.rest = v.rest) :
    InStep (w.skip [g]) x v.pre.flatten g := by
  have h0 : InStep w x v.pre.flatten [] := ⟨by rw [hp, hr, h.src], h.start, by simp [hp]⟩
  have := h0.skip (cs := [g]) (r := cs) (by rw [hr, h.rest]; rfl)
  simpa using this

/-- Branches that first emit the layout tokens. -/
theorem sim_bol (h : Begun v x g cs) (k : Scanner → Outcome (Scanner × Flags)) (f : V → Outcome V)
    (hk : ∀ w, v.bol g = .done w → Sim x.source (finishToken (k (conc (w.skip [g]) x))) (f w)) :
    Sim x.source
      (finishToken (do
        let s ← (conc (v.skip [g]) x).bolIndentationTokens
        k s))
      (do
        let w ← v.bol g
        f w) := by
  rw [conc_bol v x g cs h.rest h.src h.start h.startColumn]
  cases hb : v.bol g with
  | done w => exact hk w hb
  | panic m => rfl
  | diverge => rfl

/-- A one-cluster token. -/
theorem sim_tok (h : Begun v x g cs) (t : TokenType) (c : Bool) {w : V} (hb : v.bol g = .done w) :
    Sim x.source
      (finishToken (do
        let s ← (conc (w.skip [g]) x).addToken t
        .done (s, ⟨false, c⟩)))
      (.done (((w.skip [g]).push [⟨t, g, none, none, v.line, v.column⟩]).flags false c)) := by
  obtain ⟨hp, hr, hl, hc, -⟩ := bol_fields hb
  have hi := h.inStep hp hr
  rw [conc_addToken hi]
  refine ⟨x, ?_, .of ((hi.push _).flags _ _) h.eof⟩
  rw [h.startColumn]
  show finishToken (.done (_, _)) = _
  rw [finishToken_done, ← hl]
  rfl

theorem scanNumber_conc (h : Begun v x g cs) {w : V} (hb : v.bol g = .done w) :
    Sim x.source
      (finishToken (do
        let s ← (conc (w.skip [g]) x).scanNumber env
        .done (s, ⟨false, false⟩)))
      (match env.parseF64 (g :: (cs.takeWhile isDigit ++ fraction (cs.dropWhile isDigit))).flatten with
      | some n =>
        .done (((w.skip (g :: (cs.takeWhile isDigit ++ fraction (cs.dropWhile isDigit)))).push
          [⟨.number, (g :: (cs.takeWhile isDigit ++ fraction (cs.dropWhile isDigit))).flatten, none,
            some n, v.line, v.column⟩]).flags false false)
      | none => .panic "Unable to parse string as f64") := by
  obtain ⟨hp, hr, hl, hc, -⟩ := bol_fields hb
  have hi := h.inStep hp hr
  have hrest : (w.skip [g]).rest = cs := rest_skip (a := [g]) (by rw [hr, h.rest]; rfl)
  obtain ⟨c1, h1⟩ := conc_advanceWhile isDigit (w.skip [g]) x
  have hi1 := (hi.skip (cs := cs.takeWhile isDigit) (r := cs.dropWhile isDigit)
    (by rw [hrest, List.takeWhile_append_dropWhile])).current c1
  have hr1 : ((w.skip [g]).skip (cs.takeWhile isDigit)).rest = cs.dropWhile isDigit := by
    have := rest_skip_takeWhile (w.skip [g]) isDigit
    rwa [hrest] at this
  rw [hrest] at h1
  -- the fraction
  have h2 : ∃ c2, (conc ((w.skip [g]).skip (cs.takeWhile isDigit)) { x with current := c1 }).scanFraction
      = conc (((w.skip [g]).skip (cs.takeWhile isDigit)).skip (fraction (cs.dropWhile isDigit)))
          { x with current := c2 } := by
    generalize hu : (w.skip [g]).skip (cs.takeWhile isDigit) = u at hr1
    generalize hd : cs.dropWhile isDigit = r at hr1
    simp only [scanFraction, isMatch, conc_peek, conc_peekNext, hr1]
    match r, hr1 with
    | [], hr1 => exact ⟨c1, by simp [fraction, skip_nil]⟩
    | [d], hr1 =>
      by_cases hd : d = ['.']
      · subst hd
        obtain ⟨c3, h3⟩ := conc_advanceWhile isDigit u { x with current := c1 }
        refine ⟨c3, ?_⟩
        simp [h3, hr1, fraction, isDigit]
      · exact ⟨c1, by simp [hd, fraction, skip_nil]⟩
    | d :: c :: r', hr1 =>
      by_cases hd : d = ['.']
      · subst hd
        by_cases hc : isDigit c = true
        · simp only [List.head?_cons, BEq.rfl, if_true, List.tail_cons, hc]
          rw [conc_advance u _ ['.'] (c :: r') hr1]
          obtain ⟨c3, h3⟩ := conc_advanceWhile isDigit (u.skip [['.']])
            { x with current := byteLen u.pre.flatten }
          refine ⟨c3, ?_⟩
          refine h3.trans ?_
          rw [rest_skip (a := [['.']]) hr1]
          simp only [fraction, if_true, hc]
          rw [← skip_cons]
        · obtain ⟨c3, h3⟩ := conc_advanceWhile isDigit u { x with current := c1 }
          refine ⟨c3, ?_⟩
          simp [h3, hr1, fraction, hc]
          simp [isDigit, skip_nil]
      · exact ⟨c1, by simp [hd, fraction, skip_nil]⟩
  obtain ⟨c2, h2⟩ := h2
  have hi2 := (hi1.skip (cs := fraction (cs.dropWhile isDigit))
    (r := (cs.dropWhile isDigit).drop (fraction (cs.dropWhile isDigit)).length) (by
      rw [hr1]
      generalize cs.dropWhile isDigit = r
      match r with
      | [] => rfl
      | [d] => rfl
      | d :: c :: r' =>
        simp only [fraction]
        split
        · split
          · simp only [List.length_cons, List.drop_succ_cons, List.cons_append, List.cons.injEq, true_and]
            conv => lhs; rw [← List.takeWhile_append_dropWhile (p := isDigit) (l := c :: r')]
            congr 1
            generalize (c :: r') = l
            induction l with
            | nil => rfl
            | cons a l ih =>
              by_cases ha : isDigit a = true
              · simp [ha, ih]
              · simp [ha]
          · rfl
        · rfl)).current c2
  have hskip : ((w.skip [g]).skip (cs.takeWhile isDigit)).skip (fraction (cs.dropWhile isDigit)) =
      w.skip (g :: (cs.takeWhile isDigit ++ fraction (cs.dropWhile isDigit))) := by
    rw [skip_cons w g (_ ++ _), skip_append]
  have hflat : g ++ (cs.takeWhile isDigit).flatten ++ (fraction (cs.dropWhile isDigit)).flatten =
      (g :: (cs.takeWhile isDigit ++ fraction (cs.dropWhile isDigit))).flatten := by simp
  rw [hskip, hflat] at hi2
  rw [hskip] at h2
  generalize (cs.takeWhile isDigit ++ fraction (cs.dropWhile isDigit)) = taken at *
  simp only [scanNumber, h1, h2]
  have hsl := conc_slice hi2
  simp only at hsl ⊢
  rw [hsl]
  simp only [Bind.bind, Outcome.bind]
  cases env.parseF64 (g :: taken).flatten with
  | none => rfl
  | some n =>
    simp only
    rw [conc_addNumber hi2]
    simp only [finishToken, Bind.bind, Outcome.bind]
    refine ⟨{ x with current := c2 }, ?_, .of ((hi2.push _).flags _ _) h.eof⟩
    rw [h.startColumn]
    show Outcome.done _ = _
    have : (w.skip (g :: taken)).line = v.line := hl
    rw [this]
    rfl


theorem scanIdentifier_conc (h : Begun v x g cs) {w : V} (hb : v.bol g = .done w) :
    Sim x.source
      (finishToken (do
        let s ← (conc (w.skip [g]) x).scanIdentifier env
        .done (s, ⟨false, false⟩)))
      (.done (((w.skip (g :: cs.takeWhile (isAlnum env))).push
        [⟨keywordType (g :: cs.takeWhile (isAlnum env)).flatten,
          (g :: cs.takeWhile (isAlnum env)).flatten, none, none, v.line, v.column⟩]).flags
          false false)) := by
  obtain ⟨hp, hr, hl, hc, -⟩ := bol_fields hb
  have hi := h.inStep hp hr
  have hrest : (w.skip [g]).rest = cs := rest_skip (a := [g]) (by rw [hr, h.rest]; rfl)
  obtain ⟨c1, h1⟩ := conc_advanceWhile (isAlnum env) (w.skip [g]) x
  have hi1 := (hi.skip (cs := cs.takeWhile (isAlnum env)) (r := cs.dropWhile (isAlnum env))
    (by rw [hrest, List.takeWhile_append_dropWhile])).current c1
  rw [hrest] at h1
  rw [← skip_cons] at h1 hi1
  rw [← List.flatten_cons] at hi1
  simp only [scanIdentifier, h1]
  generalize cs.takeWhile (isAlnum env) = taken at *
  have hsl := conc_slice hi1
  rw [hsl]
  simp only [Bind.bind, Outcome.bind]
  rw [conc_addToken hi1]
  simp only [finishToken, Bind.bind, Outcome.bind]
  refine ⟨{ x with current := c1 }, ?_, .of ((hi1.push _).flags _ _) h.eof⟩
  rw [h.startColumn]
  show Outcome.done _ = _
  have : (w.skip (g :: taken)).line = v.line := hl
  rw [this]
  rfl

theorem sim_two (h : Begun v x g cs) (e : Str) (tEq t : TokenType) (c : Bool) {w : V}
    (hb : v.bol g = .done w) :
    Sim x.source
      (finishToken (do
        let (found, s) := (conc (w.skip [g]) x).matchesCluster e
        let s ← if found then s.addToken tEq else s.addToken t
        .done (s, ⟨false, c⟩)))
      (if cs.head? = some e then
        .done (((w.skip [g, e]).push [⟨tEq, g ++ e, none, none, v.line, v.column⟩]).flags false c)
      else
        .done (((w.skip [g]).push [⟨t, g, none, none, v.line, v.column⟩]).flags false c)) := by
  obtain ⟨hp, hr, hl, hc, -⟩ := bol_fields hb
  have hi := h.inStep hp hr
  have hrest : (w.skip [g]).rest = cs := rest_skip (a := [g]) (by rw [hr, h.rest]; rfl)
  rw [conc_matchesCluster _ _ _ h.eof, hrest]
  by_cases he : cs.head? = some e
  · simp only [he, if_true]
    obtain ⟨cs', rfl⟩ : ∃ cs', cs = e :: cs' := by
      cases cs <;> simp_all
    have hi2 := (hi.skip (cs := [e]) (r := cs') (by rw [hrest]; rfl)).current
      (byteLen (w.skip [g]).pre.flatten)
    rw [← skip_cons] at hi2 ⊢
    rw [conc_addToken hi2]
    simp only [finishToken, Bind.bind, Outcome.bind]
    refine ⟨{ x with current := byteLen (w.skip [g]).pre.flatten }, ?_,
      .of ((hi2.push _).flags _ _) h.eof⟩
    rw [h.startColumn]
    show Outcome.done _ = _
    have : (w.skip [g, e]).line = v.line := hl
    rw [this]
    simp
    rfl
  · simp only [he, if_false]
    exact sim_tok h t c hb

theorem sim_slash (h : Begun v x g cs) :
    Sim x.source (finishToken (conc (v.skip [g]) x).scanSlash)
      (do
        let w ← v.bol g
        if cs.head? = some ['/'] then
          .done ({ w.skip (g :: (['/'] :: cs.tail.takeWhile (fun g => !(g == ['\n'])))) with
            onlyComment := v.isBol }.flags false false)
        else
          .done (((w.skip [g]).push [⟨.slash, g, none, none, v.line, v.column⟩]).flags false true)) := by
  refine sim_bol h (fun s => do
    let (found, s) := s.matchesCluster ['/']
    if found then
      .done ({ s.advanceToEol with onlyComment := v.isBol }, ⟨false, false⟩)
    else do
      let s ← s.addToken .slash
      .done (s, ⟨false, true⟩)) _ ?_
  intro w hb
  obtain ⟨hp, hr, hl, hc, -⟩ := bol_fields hb
  have hi := h.inStep hp hr
  have hrest : (w.skip [g]).rest = cs := rest_skip (a := [g]) (by rw [hr, h.rest]; rfl)
  simp only [conc_matchesCluster _ _ _ h.eof, hrest]
  by_cases he : cs.head? = some ['/']
  · simp only [he, if_true]
    obtain ⟨cs', rfl⟩ : ∃ cs', cs = ['/'] :: cs' := by
      cases cs <;> simp_all
    have hi2 := (hi.skip (cs := [['/']]) (r := cs') (by rw [hrest]; rfl))
    have hr2 : ((w.skip [g]).skip [['/']]).rest = cs' := rest_skip (a := [['/']]) hrest
    rw [← skip_cons] at hi2 hr2 ⊢
    obtain ⟨c1, h1⟩ := conc_advanceWhile (fun g => !(g == ['\n'])) (w.skip [g, ['/']])
      { x with current := byteLen (w.skip [g]).pre.flatten }
    rw [hr2] at h1
    have hi3 := (hi2.skip (cs := cs'.takeWhile (fun g => !(g == ['\n'])))
      (r := cs'.dropWhile (fun g => !(g == ['\n'])))
      (by rw [hr2, List.takeWhile_append_dropWhile])).current c1
    rw [← skip_append] at h1 hi3
    simp only [advanceToEol, h1]
    exact ⟨{ x with current := c1 }, rfl, .of (x' := { x with current := c1 })
      (InStep.congr hi3 rfl rfl) h.eof⟩
  · simp only [he, if_false]
    exact sim_tok h .slash true hb

theorem sim_backslash (h : Begun v x g cs) :
    Sim x.source (finishToken (.done ((conc (v.skip [g]) x).scanBackslash, ⟨false, false⟩)))
      (if (backslashTaken cs).2 then
        .done ({ (v.skip (g :: (backslashTaken cs).1)).resetLine with isCont := true }.flags false false)
      else .done (((v.skip (g :: (backslashTaken cs).1)).err
        [.new ⟨v.line, v.column⟩ "Unexpected character: '\\'"]).flags false false)) := by
  have hi := h.inStep (w := v) rfl rfl
  have hrest : (v.skip [g]).rest = cs := rest_skip (a := [g]) (by rw [h.rest]; rfl)
  obtain ⟨c1, h1⟩ := conc_advanceWhile (· == [' ']) (v.skip [g]) x
  rw [hrest] at h1
  have hi1 := (hi.skip (cs := cs.takeWhile (· == [' '])) (r := cs.dropWhile (· == [' ']))
    (by rw [hrest, List.takeWhile_append_dropWhile])).current c1
  have hr1 : ((v.skip [g]).skip (cs.takeWhile (· == [' ']))).rest = cs.dropWhile (· == [' ']) := by
    have := rest_skip_takeWhile (v.skip [g]) (· == [' '])
    rwa [hrest] at this
  simp only [scanBackslash, h1]
  have hbt : backslashTaken cs = if ((cs.dropWhile (· == [' '])).drop
      (optCr (cs.dropWhile (· == [' ']))).length).head? = some ['\n']
    then (cs.takeWhile (· == [' ']) ++ optCr (cs.dropWhile (· == [' '])) ++ [['\n']], true)
    else (cs.takeWhile (· == [' ']) ++ optCr (cs.dropWhile (· == [' '])), false) := rfl
  generalize backslashTaken cs = bt at *
  generalize hsp : cs.takeWhile (· == [' ']) = sp at *
  generalize hrr : cs.dropWhile (· == [' ']) = r at *
  rw [← skip_cons] at hi1 hr1 ⊢
  rw [conc_matchesCluster _ _ _ (by exact h.eof), hr1]
  -- after the optional carriage return
  obtain ⟨c2, b2, heq, hi2, hr2⟩ : ∃ (c2 : Nat) (b2 : Str),
      (if r.head? = some ['\r'] then
          (true, conc ((v.skip (g :: sp)).skip [['\r']])
            { x with current := byteLen (v.skip (g :: sp)).pre.flatten })
        else (false, conc (v.skip (g :: sp)) { x with current := c1 })).2 =
        conc (v.skip (g :: (sp ++ optCr r))) { x with current := c2 } ∧
      InStep (v.skip (g :: (sp ++ optCr r))) { x with current := c2 } v.pre.flatten b2 ∧
      (v.skip (g :: (sp ++ optCr r))).rest = r.drop (optCr r).length := by
    match r, hr1 with
    | [], hr1 => exact ⟨c1, _, by simp [optCr], by simpa [optCr] using hi1, by simpa [optCr] using hr1⟩
    | a :: r, hr1 =>
      by_cases ha : a = ['\r']
      · subst ha
        have h3 := hi1.skip (cs := [['\r']]) (r := r) hr1
        have h4 := rest_skip (a := [['\r']]) hr1
        rw [← skip_append] at h3 h4
        refine ⟨byteLen (v.skip (g :: sp)).pre.flatten, _, ?_, h3.current _, h4⟩
        simp only [List.head?_cons, if_true]
        rw [← skip_append]; rfl
      · exact ⟨c1, _, by simp [optCr, ha], by simpa [optCr, ha] using hi1, by simpa [optCr, ha] using hr1⟩
  rw [heq, conc_matchesCluster _ _ _ (by exact h.eof), hr2]
  subst hbt
  generalize sp ++ optCr r = cr at *
  generalize r.drop (optCr r).length = r' at *
  match r', hr2 with
  | [], hr2 =>
    simp only [List.head?_nil, reduceCtorEq, if_false, Bool.false_eq_true]
    refine ⟨{ x with current := c2 }, ?_, .of' hi2 rfl rfl rfl rfl rfl h.eof⟩
    rw [finishToken, ← h.startColumn]
    rfl
  | a :: r', hr2 =>
    by_cases ha : a = ['\n']
    · subst ha
      simp only [List.head?_cons, if_true]
      have hi3 := hi2.skip (cs := [['\n']]) (r := r') hr2
      rw [← skip_append] at hi3 ⊢
      exact ⟨{ x with current := _ }, rfl,
        .of' hi3 rfl rfl rfl rfl rfl h.eof⟩
    · simp only [List.head?_cons, Option.some.injEq, ha, if_false, Bool.false_eq_true]
      refine ⟨{ x with current := c2 }, ?_, .of' hi2 rfl rfl rfl rfl rfl h.eof⟩
      rw [finishToken, ← h.startColumn]
      rfl

theorem skipLines_line_nil (v : V) : v.skipLines [] = v := by
  simp [V.skipLines, posThrough]

theorem InStep.skipLines {v : V} {x : X} {a b : Str} (h : InStep v x a b) {cs r : List Str}
    (hr : v.rest = cs ++ r) : InStep (v.skipLines cs) x a (b ++ cs.flatten) :=
  (h.skip hr).congr rfl rfl

theorem dropWhile_quote (cs : List Str) (hq : cs.any (· == ['"']) = true) :
    ∃ r, cs = cs.takeWhile (fun g => !(g == ['"'])) ++ ['"'] :: r := by
  induction cs with
  | nil => simp at hq
  | cons a cs ih =>
    by_cases ha : a = ['"']
    · exact ⟨cs, by simp [ha]⟩
    · have : (a == ['"']) = false := by simp [ha]
      obtain ⟨r, hr⟩ := ih (by simpa [this] using hq)
      refine ⟨r, ?_⟩
      rw [List.takeWhile_cons]
      simp only [this, Bool.not_false, if_true, List.cons_append, ← hr]

theorem sim_string (h : Begun v x g cs) {w : V} (hb : v.bol g = .done w) :
    Sim x.source
      (finishToken (do
        let s ← (conc (w.skip [g]) x).scanString
        .done (s, ⟨false, false⟩)))
      (if cs.any (· == ['"']) then
        .done (((w.skip [g]).skipLines (cs.takeWhile (fun g => !(g == ['"']))) |>.skip [['"']] |>.push
        [⟨.string, (g :: (cs.takeWhile (fun g => !(g == ['"'])) ++ [['"']])).flatten,
          some (cs.takeWhile (fun g => !(g == ['"']))).flatten, none, v.line, v.column⟩]).flags
          false false)
      else
        .done ({ (w.skip [g]).skipLines cs with column := satInc16 ((w.skip [g]).skipLines cs).column }.err
        [.new ⟨((w.skip [g]).skipLines cs).line, satInc16 ((w.skip [g]).skipLines cs).column - 1⟩
          "Unterminated string."] |>.flags false false)) := by
  obtain ⟨hp, hr, hl, hc, -⟩ := bol_fields hb
  have hi := h.inStep hp hr
  have hrest : (w.skip [g]).rest = cs := rest_skip (a := [g]) (by rw [hr, h.rest]; rfl)
  cases hq : cs.any (· == ['"']) with
  | true =>
    obtain ⟨c1, h1⟩ := conc_stringLoop_some cs (w.skip [g]) x hrest
      (byteLen (w.skip [g]).pre.flatten) hq
    obtain ⟨r, hcs⟩ := dropWhile_quote cs hq
    generalize cs.takeWhile (fun g => !(g == ['"'])) = taken at *
    have hg : (conc (w.skip [g]) x).graphemes =
        graphemeIndices (byteLen (w.skip [g]).pre.flatten) cs := by simp only [conc, hrest]
    have hpi := conc_peekIndex _ _ hi.src
    have hi1 := (hi.skipLines (cs := taken) (r := ['"'] :: r) (by rw [hrest, hcs]))
    have hr1 : ((w.skip [g]).skipLines taken).rest = ['"'] :: r :=
      rest_skip (a := taken) (hrest.trans hcs)
    have hi2 := hi1.skip (cs := [['"']]) (r := r) hr1
    simp only [scanString, hg, h1, hpi]
    have he : (conc ((w.skip [g]).skipLines taken) { x with current := c1 }).eof = false := h.eof
    simp only [he, Bool.false_eq_true, if_false, if_true, conc_advance _ _ _ _ hr1]
    -- the value
    have hval : sliceBytes (conc (((w.skip [g]).skipLines taken).skip [['"']])
        { x with current := byteLen ((w.skip [g]).skipLines taken).pre.flatten }).source
        (byteLen (w.skip [g]).pre.flatten)
        (conc (((w.skip [g]).skipLines taken).skip [['"']])
        { x with current := byteLen ((w.skip [g]).skipLines taken).pre.flatten }).current
        = .done taken.flatten := by
      have e1 : x.source = (w.skip [g]).pre.flatten ++ (taken.flatten ++ (['"'] :: r).flatten) := by
        rw [hi.src, hrest, hcs]; simp
      have e2 : ((w.skip [g]).skipLines taken).pre.flatten =
          (w.skip [g]).pre.flatten ++ taken.flatten := by simp [V.skipLines]
      show sliceBytes x.source _ (byteLen ((w.skip [g]).skipLines taken).pre.flatten) = _
      rw [e2, e1, sliceBytes_append]
    rw [hval]
    simp only [Bind.bind, Outcome.bind]
    rw [conc_addString (hi2.current _)]
    simp only [finishToken, Bind.bind, Outcome.bind]
    refine ⟨{ x with current := byteLen ((w.skip [g]).skipLines taken).pre.flatten }, ?_,
      .of' hi2 rfl rfl rfl rfl rfl h.eof⟩
    rw [h.startColumn]
    have : (conc (w.skip [g]) x).line = v.line := hl
    rw [this]
    simp
    rfl
  | false =>
    obtain ⟨c1, h1⟩ := conc_stringLoop_none cs (w.skip [g]) x hrest
      (byteLen (w.skip [g]).pre.flatten) hq
    have hg : (conc (w.skip [g]) x).graphemes =
        graphemeIndices (byteLen (w.skip [g]).pre.flatten) cs := by simp only [conc, hrest]
    have hi1 := (hi.skipLines (cs := cs) (r := []) (by rw [hrest]; simp))
    simp only [scanString, hg, h1]
    simp only [conc, if_true, Bool.false_eq_true, if_false]
    refine ⟨{ x with current := c1, eof := true }, rfl, rfl, ⟨_, _, ⟨hi1.src, hi1.start, hi1.pre⟩⟩, ?_⟩
    intro _
    refine ⟨?_, by simp [V.flags, V.err]⟩
    show (w.skip [g]).rest.drop cs.length = []
    rw [hrest]; simp

/-- One lexeme of the model is one lexeme of the view. -/
theorem sim_cluster (h : Begun v x g cs) :
    Sim x.source (finishToken (scanCluster env g (conc (v.skip [g]) x))) (vstep env v) := by
  have hi := h.inStep (w := v) rfl rfl
  simp only [vstep, h.rest, lexeme, scanCluster]
  cases hp : punct g with
  | some tc =>
    obtain ⟨t, c⟩ := tc
    simp only
    exact sim_bol h _ _ fun w hb => sim_tok h t c hb
  | none =>
    simp only
    cases he : eqPunct g with
    | some tc =>
      obtain ⟨tEq, t, c⟩ := tc
      simp only
      have := sim_bol h (fun s => do
        let (found, s) := s.matchesCluster ['=']
        let s ← if found then s.addToken tEq else s.addToken t
        .done (s, ⟨false, c⟩)) _ fun w hb => sim_two h ['='] tEq t c hb
      by_cases hh : cs.head? = some ['='] <;> simp only [hh, if_true, if_false] at this ⊢ <;>
        exact this
    | none =>
      simp only
      by_cases h1 : g = ['(']
      · simp only [h1, if_true]
        subst h1
        refine sim_bol h (fun s => do
          let s ← if s.isAbutting then s.addToken .leftParenAbutting else s.addToken .leftParen
          .done (s, ⟨false, true⟩)) _ fun w hb => ?_
        have : (conc (w.skip [['(']]) x).isAbutting = v.abut := by
          have := (bol_fields hb).2.2.2.2.1
          exact this
        rw [this]
        cases v.abut
        · exact sim_tok h .leftParen true hb
        · exact sim_tok h .leftParenAbutting true hb
      simp only [h1, if_false]
      by_cases h2 : g = ['/']
      · simp only [h2, if_true]
        subst h2
        have := sim_slash h
        by_cases hh : cs.head? = some ['/'] <;> simp only [hh, if_true, if_false] at this ⊢ <;>
          exact this
      simp only [h2, if_false]
      by_cases h3 : g = ['\\']
      · simp only [h3, if_true]
        subst h3
        exact sim_backslash h
      simp only [h3, if_false]
      by_cases h4 : g = ['\t']
      · simp only [h4, if_true]
        subst h4
        exact ⟨x, rfl, .of (hi.congr rfl rfl) h.eof⟩
      simp only [h4, if_false]
      by_cases h5 : g = [' ']
      · simp only [h5, if_true]
        subst h5
        refine ⟨x, ?_, .of (hi.congr rfl rfl) h.eof⟩
        cases hv : v.isBol <;> simp [finishToken, Bind.bind, Outcome.bind, conc, V.skip, V.flags, hv]
      simp only [h5, if_false]
      by_cases h6 : g = ['\r']
      · simp only [h6, if_true]
        subst h6
        exact ⟨x, rfl, .of (hi.congr rfl rfl) h.eof⟩
      simp only [h6, if_false]
      by_cases h7 : g = ['\n']
      · simp only [h7, if_true]
        subst h7
        simp only [scanNewline]
        have e1 : (conc (v.skip [['\n']]) x).isBol = v.isBol := rfl
        have e2 : (conc (v.skip [['\n']]) x).followingLineContinuation = v.followCont := rfl
        have e3 : (conc (v.skip [['\n']]) x).onlyComment = v.onlyComment := rfl
        rw [e1, e2, e3]
        split
        · rw [conc_addToken hi, h.startColumn]
          exact ⟨x, rfl, .of (hi.congr rfl rfl) h.eof⟩
        · exact ⟨x, rfl, .of (hi.congr rfl rfl) h.eof⟩
      simp only [h7, if_false]
      by_cases h8 : g = ['"']
      · simp only [h8, if_true]
        subst h8
        have := sim_bol h (fun s => do
          let s ← s.scanString
          .done (s, ⟨false, false⟩)) _ fun w hb => sim_string h hb
        cases hh : cs.any (· == ['"']) <;>
          simp only [hh, if_true, if_false, Bool.false_eq_true] at this ⊢ <;> exact this
      simp only [h8, if_false]
      by_cases h9 : isDigit g = true
      · simp only [h9, if_true, scanOther]
        exact sim_bol h (fun s => do
          let s ← s.scanNumber env
          .done (s, ⟨false, false⟩)) _ fun w hb => scanNumber_conc env h hb
      simp only [h9, if_false, Bool.false_eq_true]
      by_cases h10 : isAlpha env g = true
      · simp only [h10, if_true, scanOther, h9]
        exact sim_bol h (fun s => do
          let s ← s.scanIdentifier env
          .done (s, ⟨false, false⟩)) _ fun w hb => scanIdentifier_conc env h hb
      simp only [h10, scanOther, h9, Bool.false_eq_true, if_false]
      refine sim_bol h (fun s => .done (s.error (.new ⟨s.line, s.column⟩
        ("Unexpected token: " ++ String.ofList g)), ⟨false, false⟩)) _ fun w hb => ?_
      obtain ⟨hp, hr, hl, hc, -⟩ := bol_fields hb
      refine ⟨x, ?_, .of ((h.inStep hp hr).congr rfl rfl) h.eof⟩
      rw [← hl, ← hc]
      rfl

theorem sim_scanToken (h : Begun v x g cs) (c : Nat) :
    Sim x.source (scanToken env (conc v { x with startColumn := c })) (vstep env v) := by
  have e : scanToken env (conc v { x with startColumn := c }) =
      finishToken (scanCluster env g (conc (v.skip [g]) { x with current := byteLen v.pre.flatten })) := by
    have hx : x = { x with startColumn := v.column } := by
      cases x; simp only [X.mk.injEq, true_and, and_true]; exact h.startColumn
    conv => rhs; rw [hx]
    have := conc_advance v { x with startColumn := v.column } g cs h.rest
    simp only at this
    rw [← this]
    have hpk : (conc v { x with startColumn := v.column }).peek = some g := by
      rw [conc_peek, h.rest]; rfl
    show (match (conc v { x with startColumn := v.column }).peek with
      | none => Outcome.done (conc v { x with startColumn := v.column }).advance
      | some g => finishToken (scanCluster env g (conc v { x with startColumn := v.column }).advance)) = _
    rw [hpk]
  rw [e]
  exact sim_cluster env (x := { x with current := byteLen v.pre.flatten })
    ⟨h.rest, h.src, h.start, h.startColumn, h.eof⟩

end

/-! ### The clusters of a lexeme -/

def Kind.clusters (g : Str) (cs : List Str) : Kind → List Str
  | .tok _ _ | .tab | .space | .cr | .newline | .unexpected => [g]
  | .two _ second _ => [g, second]
  | .num taken | .ident taken | .comment taken | .backslash taken _ => g :: taken
  | .str taken => g :: (taken ++ [['"']])
  | .unterminated => g :: cs

theorem fraction_prefix (r : List Str) : ∃ r', r = fraction r ++ r' := by
  match r with
  | [] => exact ⟨[], rfl⟩
  | [d] => exact ⟨[d], rfl⟩
  | d :: c :: r' =>
    simp only [fraction]
    split
    · split
      · exact ⟨(c :: r').dropWhile isDigit, by rw [List.cons_append, List.takeWhile_append_dropWhile]⟩
      · exact ⟨_, rfl⟩
    · exact ⟨_, rfl⟩

theorem optCr_prefix (r : List Str) : r = optCr r ++ r.drop (optCr r).length := by
  match r with
  | [] => rfl
  | a :: r =>
    simp only [optCr]
    split
    · next h => subst h; rfl
    · rfl

theorem backslashTaken_prefix (cs : List Str) : ∃ r, cs = (backslashTaken cs).1 ++ r := by
  simp only [backslashTaken]
  have h1 : cs = cs.takeWhile (· == [' ']) ++ cs.dropWhile (· == [' ']) :=
    (List.takeWhile_append_dropWhile).symm
  have h2 := optCr_prefix (cs.dropWhile (· == [' ']))
  split
  · next h =>
    refine ⟨((cs.dropWhile (· == [' '])).drop (optCr (cs.dropWhile (· == [' ']))).length).tail, ?_⟩
    have h3 : (cs.dropWhile (· == [' '])).drop (optCr (cs.dropWhile (· == [' ']))).length =
      ['\n'] :: ((cs.dropWhile (· == [' '])).drop (optCr (cs.dropWhile (· == [' ']))).length).tail := by
      revert h
      generalize (cs.dropWhile (· == [' '])).drop (optCr (cs.dropWhile (· == [' ']))).length = l
      cases l <;> simp
    simp only [List.append_assoc, List.singleton_append]
    rw [← h3, ← h2, ← h1]
  · refine ⟨(cs.dropWhile (· == [' '])).drop (optCr (cs.dropWhile (· == [' ']))).length, ?_⟩
    rw [List.append_assoc, ← h2, ← h1]

theorem lexeme_prefix (env : Env) (abut : Bool) (g : Str) (cs : List Str) :
    ∃ r, g :: cs = (lexeme env abut g cs).clusters g cs ++ r := by
  have one : ∃ r, g :: cs = [g] ++ r := ⟨cs, rfl⟩
  have head : ∀ e, cs.head? = some e → ∃ r, cs = e :: r := by
    intro e; cases cs <;> simp
  simp only [lexeme]
  cases punct g with
  | some _ => exact one
  | none =>
    cases eqPunct g with
    | some _ =>
      simp only
      split
      · next h => obtain ⟨r, h⟩ := head _ h; exact ⟨r, by rw [h]; rfl⟩
      · exact one
    | none =>
      simp only
      repeat' split
      all_goals try exact one
      · next h =>
        obtain ⟨r, h⟩ := head _ h
        refine ⟨r.dropWhile (fun g => !(g == ['\n'])), ?_⟩
        rw [h]
        simp [Kind.clusters, List.takeWhile_append_dropWhile]
      · obtain ⟨r, h⟩ := backslashTaken_prefix cs
        refine ⟨r, ?_⟩
        simp only [Kind.clusters, List.cons_append, ← h]
      · next h =>
        obtain ⟨r, h⟩ := dropWhile_quote cs h
        refine ⟨r, ?_⟩
        simp only [Kind.clusters, List.cons_append, List.append_assoc, List.nil_append, ← h]
      · exact ⟨[], by simp [Kind.clusters]⟩
      · obtain ⟨r, h⟩ := fraction_prefix (cs.dropWhile isDigit)
        refine ⟨r, ?_⟩
        simp only [Kind.clusters, List.cons_append, List.append_assoc, ← h,
          List.takeWhile_append_dropWhile]
      · exact ⟨cs.dropWhile (isAlnum env), by
          simp only [Kind.clusters, List.cons_append, List.takeWhile_append_dropWhile]⟩

theorem Outcome.bind_done {α β : Type} {o : Outcome α} {f : α → Outcome β} {b : β}
    (h : (do let a ← o; f a) = .done b) : ∃ a, o = .done a ∧ f a = .done b := by
  cases o with
  | done a => exact ⟨a, rfl, h⟩
  | panic m => cases h
  | diverge => cases h

theorem vstep_moves {env : Env} {v w : V} {g : Str} {cs : List Str} (hr : v.rest = g :: cs)
    (h : vstep env v = .done w) :
    w.pre = v.pre ++ (lexeme env v.abut g cs).clusters g cs ∧
      v.rest = (lexeme env v.abut g cs).clusters g cs ++ w.rest := by
  have hd : ∀ l : List Str, (∃ r, g :: cs = l ++ r) → g :: cs = l ++ (g :: cs).drop l.length := by
    rintro l ⟨r, hr⟩; rw [hr]; simp
  have hpre := hd _ (lexeme_prefix env v.abut g cs)
  have fin : ∀ w0 : V, w0.pre = v.pre → w0.rest = v.rest →
      w.pre = w0.pre ++ (lexeme env v.abut g cs).clusters g cs →
      w.rest = w0.rest.drop ((lexeme env v.abut g cs).clusters g cs).length →
      w.pre = v.pre ++ (lexeme env v.abut g cs).clusters g cs ∧
      v.rest = (lexeme env v.abut g cs).clusters g cs ++ w.rest := by
    intro w0 h1 h2 h3 h4
    refine ⟨by rw [h3, h1], ?_⟩
    rw [h4, h2, hr, ← hpre]
  simp only [vstep, hr] at h
  generalize hk : lexeme env v.abut g cs = k at *
  cases k with
  | backslash taken nl =>
    simp only at h
    split at h <;> (cases h; exact fin v rfl rfl rfl rfl)
  | tab | space | cr => cases h; exact fin v rfl rfl rfl rfl
  | newline =>
    simp only at h
    split at h <;> (cases h; exact fin v rfl rfl rfl rfl)
  | num taken =>
    obtain ⟨w0, hb, h⟩ := Outcome.bind_done h
    obtain ⟨h1, h2, -⟩ := bol_fields hb
    split at h
    · cases h; exact fin w0 h1 h2 rfl rfl
    · cases h
  | str taken =>
    obtain ⟨w0, hb, h⟩ := Outcome.bind_done h
    obtain ⟨h1, h2, -⟩ := bol_fields hb
    cases h
    refine fin w0 h1 h2 ?_ ?_
    · simp [V.flags, V.push, V.skip, V.skipLines, Kind.clusters]
    · simp [V.flags, V.push, V.skip, V.skipLines, Kind.clusters]
  | unterminated =>
    obtain ⟨w0, hb, h⟩ := Outcome.bind_done h
    obtain ⟨h1, h2, -⟩ := bol_fields hb
    cases h
    refine fin w0 h1 h2 ?_ ?_
    · simp [V.flags, V.err, V.skip, V.skipLines, Kind.clusters]
    · simp [V.flags, V.err, V.skip, V.skipLines, Kind.clusters]
  | _ =>
    obtain ⟨w0, hb, h⟩ := Outcome.bind_done h
    obtain ⟨h1, h2, -⟩ := bol_fields hb
    cases h
    exact fin w0 h1 h2 rfl rfl

theorem clusters_ne_nil (g : Str) (cs : List Str) (k : Kind) : k.clusters g cs ≠ [] := by
  cases k <;> simp [Kind.clusters]

theorem vstep_length {env : Env} {v w : V} (hr : v.rest ≠ [])
    (h : vstep env v = .done w) : w.rest.length < v.rest.length := by
  obtain ⟨g, cs, hr⟩ := List.exists_cons_of_ne_nil hr
  have := (vstep_moves hr h).2
  have hn := clusters_ne_nil g cs (lexeme env v.abut g cs)
  generalize (lexeme env v.abut g cs).clusters g cs = l at *
  rw [this]
  cases l with
  | nil => exact absurd rfl hn
  | cons a l => simp; omega

theorem scanLoop_conc (env : Env) (n : Nat) (v : V) (x : X) (he : x.eof = false)
    (hs : x.source = (v.pre ++ v.rest).flatten) :
    scanLoop env (n + 1) (conc v x) = (do
      let s ← scanToken env (conc v { x with start := byteLen v.pre.flatten })
      scanLoop env n s) := by
  rw [scanLoop, conc_peekIndex v x hs]
  exact if_neg (by simp [conc, he])

/-! ### The main loop -/

theorem scanLoop_eof (env : Env) (n : Nat) (s : Scanner) (h : s.eof = true) :
    scanLoop env (n + 1) s = .done s := by simp [scanLoop, h]

/-- What the end of the loop looks like. -/
structure AtEnd (src : Str) (w : V) (s : Scanner) : Prop where
  tokens : s.tokens = w.tokens
  errors : s.errors = w.errors
  stack : s.indentation = w.stack
  line : s.line = w.line
  source : s.source = src
  graphemes : s.graphemes = []
  start : ∃ a b, src = a ++ b ∧ s.start = byteLen a ∧ (w.errors = [] → b = [])
  column : w.errors = [] → s.column = satInc16 w.column

theorem sim_loop (env : Env) (src : Str) (n : Nat) (v : V) (x : X) (hx : Good src v x)
    (he : x.eof = false) :
    match vloop env n v with
    | .done w => ∃ s, scanLoop env (n + 1) (conc v x) = .done s ∧ AtEnd src w s
    | .panic m => scanLoop env (n + 1) (conc v x) = .panic m
    | .diverge => n ≤ v.rest.length ∨ scanLoop env (n + 1) (conc v x) = .diverge := by
  induction n generalizing v x with
  | zero => exact .inl (Nat.zero_le _)
  | succ n ih =>
    obtain ⟨hsrc, ⟨a, b, hi⟩, -⟩ := hx
    cases hr : v.rest with
    | nil =>
      simp only [vloop, hr]
      rw [scanLoop_conc env _ v x he hi.src]
      have : scanToken env (conc v { x with start := byteLen v.pre.flatten }) =
          .done (conc { v with column := satInc16 v.column }
            { x with start := byteLen v.pre.flatten, startColumn := v.column, eof := true }) := by
        rw [← conc_advance_nil v { x with start := byteLen v.pre.flatten, startColumn := v.column } hr]
        have hpk : (conc v { x with start := byteLen v.pre.flatten, startColumn := v.column }).peek =
            none := by rw [conc_peek, hr]; rfl
        show (match (conc v { x with start := byteLen v.pre.flatten, startColumn := v.column }).peek with
          | none => Outcome.done (conc v
              { x with start := byteLen v.pre.flatten, startColumn := v.column }).advance
          | some g => finishToken (scanCluster env g (conc v
              { x with start := byteLen v.pre.flatten, startColumn := v.column }).advance)) = _
        rw [hpk]
      rw [this]
      simp only [Bind.bind, Outcome.bind]
      refine ⟨_, scanLoop_eof env n _ rfl, ⟨rfl, rfl, rfl, rfl, hsrc, ?_, ?_, fun _ => rfl⟩⟩
      · simp [conc, hr, graphemeIndices]
      · refine ⟨v.pre.flatten, [], ?_, rfl, fun _ => rfl⟩
        rw [← hsrc, hi.src, hr]; simp
    | cons g cs =>
      have hb : Begun v { x with start := byteLen v.pre.flatten, startColumn := v.column } g cs :=
        ⟨hr, hi.src, rfl, rfl, he⟩
      have hs := sim_scanToken env hb x.startColumn
      simp only [vloop, hr]
      rw [scanLoop_conc env _ v x he hi.src]
      simp only at hs
      simp only [Bind.bind]
      cases hv : vstep env v with
      | panic m => rw [hv] at hs; rw [show scanToken env _ = Outcome.panic m from hs]; rfl
      | diverge => rw [hv] at hs; rw [show scanToken env _ = Outcome.diverge from hs]; exact .inr rfl
      | done w =>
        rw [hv] at hs
        obtain ⟨x', e', hg⟩ := hs
        rw [e']
        simp only [Outcome.bind]
        have hlen : w.rest.length < v.rest.length := vstep_length (by simp [hr]) hv
        cases hx' : x'.eof with
        | false =>
          have := ih w x' (by rw [hsrc] at hg; exact hg) hx'
          revert this
          cases vloop env n w with
          | done u => exact id
          | panic m => exact id
          | diverge =>
            rintro (h | h)
            · left; rw [← hr]; omega
            · exact .inr h
        | true =>
          have ⟨h1, h2⟩ := hg.eof hx'
          rw [hr] at hlen
          cases n with
          | zero => left; simp
          | succ n =>
            rw [scanLoop_eof _ _ _ (by exact hx')]
            simp only [vloop, h1]
            obtain ⟨h3, ⟨a, b, h4⟩, -⟩ := hg
            refine ⟨_, rfl, ⟨rfl, rfl, rfl, rfl, by rw [← hsrc]; exact h3, by simp [conc, h1, graphemeIndices],
              ⟨a, b, ?_, h4.start, fun h => absurd h h2⟩, fun h => absurd h h2⟩⟩
            rw [← h4.pre, ← hsrc]
            have := h4.src
            rw [h1] at this
            simpa [← h3] using this

theorem vloop_fuel {env : Env} {n : Nat} {v : V} (h : v.rest.length < n) :
    ∀ m, v.rest.length < m → vloop env m v = vloop env n v := by
  induction n generalizing v with
  | zero => omega
  | succ n ih =>
    intro m hm
    cases m with
    | zero => omega
    | succ m =>
      simp only [vloop]
      cases hr : v.rest with
      | nil => rfl
      | cons g cs =>
        simp only
        cases hv : vstep env v with
        | done w =>
          have := vstep_length (by simp [hr]) hv
          exact ih (by omega) m (by omega)
        | panic m => rfl
        | diverge => rfl

/-- The closing tokens of the model. -/
theorem addOutdents_eq (n : Nat) (s : Scanner) (text : Str)
    (h : sliceBytes s.source s.start s.peekIndex = .done text) :
    addOutdents n s = .done { s with
      tokens := s.tokens ++ List.replicate n ⟨.outdent, text, none, none, s.line, s.startColumn⟩ } := by
  induction n generalizing s with
  | zero => simp [addOutdents]
  | succ n ih =>
    rw [addOutdents, addToken, h]
    simp only [Bind.bind, Outcome.bind]
    rw [ih]
    · simp [List.replicate_succ]
    · exact h

/-- The model of the scanner, on clusters. -/
theorem scanClusters_eq (env : Env) (clusters : List Str) :
    scanClusters env clusters = vscan env clusters := by
  have hinit : ofClusters clusters = conc (V.init clusters) ⟨clusters.flatten, 0, 0, 1, false⟩ := rfl
  have hloop := sim_loop env clusters.flatten (clusters.length + 1) (V.init clusters)
    ⟨clusters.flatten, 0, 0, 1, false⟩ ⟨rfl, ⟨[], [], ⟨rfl, rfl, rfl⟩⟩, by simp⟩ rfl
  rw [← hinit] at hloop
  simp only [scanClusters, vscan]
  have hl : (V.init clusters).rest.length = clusters.length := rfl
  cases hv : vloop env (clusters.length + 1) (V.init clusters) with
  | panic m => rw [hv] at hloop; rw [show scanLoop env (clusters.length + 2) _ = _ from hloop]; rfl
  | diverge =>
    rw [hv] at hloop
    rcases hloop with h | h
    · rw [hl] at h; omega
    · rw [show scanLoop env (clusters.length + 2) _ = _ from h]; rfl
  | done w =>
    rw [hv] at hloop
    obtain ⟨s, h, he⟩ := hloop
    rw [show scanLoop env (clusters.length + 2) _ = _ from h]
    obtain ⟨a, b, hab, hst, hb⟩ := he.start
    have hslice : sliceBytes s.source s.start s.peekIndex = .done b := by
      have : s.peekIndex = byteLen (a ++ b) := by
        rw [peekIndex, he.graphemes]; simp only; rw [he.source, hab]
      rw [this, he.source, hst, hab]
      have := sliceBytes_append a b []
      simpa using this
    simp only [Bind.bind, Outcome.bind, closeAllBlocks]
    rw [addOutdents_eq _ { s with startColumn := s.column - 1 } b hslice]
    simp only [addToken]
    have h2 : ∀ t : List Token, sliceBytes
        ({ s with startColumn := s.column - 1, tokens := t } : Scanner).source
        ({ s with startColumn := s.column - 1, tokens := t } : Scanner).start
        ({ s with startColumn := s.column - 1, tokens := t } : Scanner).peekIndex = .done b :=
      fun _ => hslice
    have h3 := h2 (s.tokens ++ List.replicate s.indentation.length
      ⟨.outdent, b, none, none, s.line, s.column - 1⟩)
    simp only at h3
    rw [h3]
    simp only [Bind.bind, Outcome.bind, he.errors]
    cases herr : w.errors with
    | cons e es => simp
    | nil =>
      simp only [List.isEmpty_nil, if_true]
      simp only [hb herr, he.tokens, he.stack, he.line, he.column herr, V.closing, List.append_assoc]

end Ws
