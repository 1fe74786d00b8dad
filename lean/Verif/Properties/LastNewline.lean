import Verif.Proofs.Parse.LastNewline
import Verif.Proofs.Scan.LastNewline
import Verif.Properties.FunEnd
import Verif.Properties.Grammar
import Verif.Properties.Reading
import Verif.Properties.Driver
/-! Property C82, and C33 and C76 in the REPL. -/
namespace Ws.Properties
open Ws Spec

variable {env : Env} {source : Str} {repl : Bool} {sts : List Stmt} {w : List Token} {eof : Token}

/-- Accepted in a file, or else the last expression lacks its newline. -/
theorem repl_newline (hE : EnvLaws env) (hS : Fits env source) (hs : scanTokens env source = .done (.ok (w ++ [eof])))
    {nl : Token} (hn : nl.tokenType = .terminator) (h : Accepts env repl source sts) :
    ∃ o e, (Spec.Plain false false o e .declarations w (.stmts sts) ∨
      Spec.Plain false false o e .declarations (w ++ [nl]) (.stmts sts) ∧ endsExprs sts = true) ∧ o ≠ .brace := by
  obtain ⟨o, e, hd, ho⟩ := (accepted_iff_derived hE hS hs).1 h
  by_cases hu : o = .unfinished
  · obtain ⟨ht, o', ho', hd'⟩ := plain_newline hn hd hu
    exact ⟨o', e, .inr ⟨hd', ht⟩, ho'⟩
  · exact ⟨o, e, .inl (plain_file hd hu), ho⟩

theorem tokensOk_newline {nl eof' : Token} (hn : nl.tokenType = .terminator) (he : eof'.tokenType = .eof) (h : TokensOk (w ++ [eof])) :
    TokensOk (w ++ [nl, eof']) where
  eof := by
    obtain ⟨-, hw⟩ := tokensOk_snoc h
    refine ⟨w ++ [nl], eof', by simp, he, fun t ht => ?_⟩
    rcases List.mem_append.1 ht with ht | ht
    · exact hw t ht
    · rw [List.mem_singleton.1 ht, hn]; decide
  number t ht hk := by
    simp only [List.mem_append, List.mem_cons, List.not_mem_nil, or_false] at ht
    rcases ht with ht | rfl | rfl
    · exact h.number t (by simp [ht]) hk
    · rw [hn] at hk; cases hk
    · rw [he] at hk; cases hk
  string t ht hk := by
    simp only [List.mem_append, List.mem_cons, List.not_mem_nil, or_false] at ht
    rcases ht with ht | rfl | rfl
    · exact h.string t (by simp [ht]) hk
    · rw [hn] at hk; cases hk
    · rw [he] at hk; cases hk
  equal t ht hk := by
    simp only [List.mem_append, List.mem_cons, List.not_mem_nil, or_false] at ht
    rcases ht with ht | rfl | rfl
    · exact h.equal t (by simp [ht]) hk
    · rw [hn] at hk; cases hk
    · rw [he] at hk; cases hk

/-- C82: the REPL accepts the tokens that are accepted in a file, and those that are accepted in a file
with one more newline and end with an expression; and nothing else. -/
theorem repl_tokens {nl eof' : Token} (hT : TokensOk (w ++ [eof])) (hl : w.length + 2 ≤ env.usizeMax) (hn : nl.tokenType = .terminator)
    (he : eof'.tokenType = .eof) :
    parseTokens env (w ++ [eof]) true = .done (.ok sts) ↔
      parseTokens env (w ++ [eof]) false = .done (.ok sts) ∨
        parseTokens env (w ++ [nl, eof']) false = .done (.ok sts) ∧ endsExprs sts = true := by
  have hT' := tokensOk_newline hn he hT
  have e : w ++ [nl, eof'] = (w ++ [nl]) ++ [eof'] := by simp
  rw [e] at hT' ⊢
  have hb : (w ++ [eof]).length ≤ env.usizeMax := by simp; omega
  have hb' : ((w ++ [nl]) ++ [eof']).length ≤ env.usizeMax := by simp; omega
  constructor
  · intro h
    obtain ⟨o, hd, ho⟩ := parseTokens_exact hT hb rfl h
    by_cases hu : o = .unfinished
    · obtain ⟨ht, o', ho', hd'⟩ := plain_newline hn hd hu
      exact .inr ⟨parseTokens_complete hT' hb' hd' ho', ht⟩
    · exact .inl (parseTokens_complete hT hb (plain_file hd hu) ho)
  · rintro (h | ⟨h, ht⟩)
    · exact parseTokens_inRepl h
    · obtain ⟨o, hd, ho⟩ := parseTokens_exact hT' hb' rfl h
      exact parseTokens_complete hT hb (plain_last_newline hn hd w rfl ht (by simp)) (by simp)

/-- C82: a newline at the end of a source. If the last line is a statement, and no block is open, there
is one more token, a Terminator. -/
theorem newline_scan (hE : EnvLaws env) {steps : List Spec.Step} (hg : env.segment (source ++ ['\n']) = env.segment source ++ [['\n']])
    (ht : textOf steps = env.segment source) (hr : Reading env steps []) (hc : causesOf steps = []) (hd : StatementDone (pieces steps))
    (hl : levels steps = []) :
    ∃ nl eof eof', nl.tokenType = .terminator ∧ eof'.tokenType = .eof ∧ scanTokens env source = .done (.ok (tokensOf steps ++ [eof])) ∧
      scanTokens env (source ++ ['\n']) = .done (.ok (tokensOf steps ++ [nl, eof'])) := by
  have hcl : ∀ st, levels st = [] → ∃ e : Token, e.tokenType = .eof ∧ closing st = [e] := fun st h =>
    ⟨⟨.eof, [], none, none, lineAfter (textOf st), min (columnAfter (textOf st)) (u16Max - 1)⟩, rfl, by simp [closing, h]⟩
  obtain ⟨e, -, hcl1⟩ := hcl steps hl
  obtain ⟨e', he, hcl2⟩ := hcl (steps ++ [newlineStep steps]) (levels_newline.trans hl)
  refine ⟨⟨.terminator, ['\n'], none, none, lineAfter (textOf steps), columnAfter (textOf steps)⟩, e, e', rfl, he,
    (scan_accepts_iff hE _).2 ⟨steps, ht, hr, hc, by rw [hcl1]⟩,
    (scan_accepts_iff hE _).2 ⟨_, ?_, reading_newline hE.toAsciiLaws hr hc hd, ?_, ?_⟩⟩
  · rw [hg, textOf_append, ht]; rfl
  · simp only [causesOf, List.flatMap_append] at hc ⊢
    rw [hc]; rfl
  · rw [hcl2]
    simp [tokensOf, newlineStep, Step.toks, Piece.tok]

theorem parser_of {source : Str} {ts : List Token} (hs : scanTokens env source = .done (.ok ts)) : Accepts env repl source sts ↔ parseTokens env ts repl = .done (.ok sts) := by
  unfold Accepts
  rw [parseIn_ok hs]

/-- C82: if a newline at its end gives a source one more token, the REPL accepts it exactly if it is accepted in a
file, or is accepted there with the newline and ends with an expression. -/
theorem repl_source (hE : EnvLaws env) {nl eof' : Token} (hs : scanTokens env source = .done (.ok (w ++ [eof])))
    (hs' : scanTokens env (source ++ ['\n']) = .done (.ok (w ++ [nl, eof']))) (hF : Fits env (source ++ ['\n'])) (hn : nl.tokenType = .terminator) :
    Accepts env true source sts ↔ Accepts env false source sts ∨ Accepts env false (source ++ ['\n']) sts ∧ endsExprs sts = true := by
  have hlen := hF _ hs'
  simp only [List.length_append, List.length_cons, List.length_nil] at hlen
  have he := (tokensOk_snoc (w := w ++ [nl]) (eof := eof') (by simpa using scan_tokensOk hE hs')).1
  rw [parser_of hs, parser_of hs, parser_of hs', repl_tokens (scan_tokensOk hE hs) hlen hn he]

/-- An accepted source of the REPL is derived by the grammar of files, possibly with a newline at its end. -/
theorem file_grammar (hE : EnvLaws env) (hS : Fits env source) (hs : scanTokens env source = .done (.ok (w ++ [eof]))) (h : Accepts env repl source sts) :
    ∃ nl, Optional .terminator nl ∧ Grammar false false .declarations (w ++ nl) (.stmts sts) := by
  have hT := scan_tokensOk hE hs
  have he := (tokensOk_snoc hT).1
  obtain ⟨o, e, hd, ho⟩ := repl_newline hE hS hs (nl := ⟨.terminator, ['\n'], none, none, 1, 1⟩) rfl h
  have main : ∀ w', TokensOk (w' ++ [eof]) → Spec.Plain false false o e .declarations w' (.stmts sts) → Grammar false false .declarations w' (.stmts sts) := by
    intro w' hT hd
    let env' : Env := { env with usizeMax := (w' ++ [eof]).length }
    have hp := parseTokens_complete (env := env') hT (Nat.le_refl _) hd ho
    rcases parseTokens_ok (env := env') hT (Nat.le_refl _) false with ⟨ws, e', sts', h1, h2, h3⟩ | ⟨cs, h1, -⟩
    · rw [hp] at h1
      cases h1
      obtain ⟨rfl, -⟩ := List.append_inj' h2 rfl
      exact h3
    · rw [hp] at h1; cases h1
  rcases hd with hd | ⟨hd, -⟩
  · exact ⟨[], .inl rfl, by simpa using main w hT hd⟩
  · exact ⟨_, .inr ⟨_, rfl, rfl⟩, main _ (by simpa using tokensOk_newline (nl := ⟨.terminator, ['\n'], none, none, 1, 1⟩) rfl he hT) hd⟩

/-- C33 (negation): a source with a for loop that starts with an expression and a semicolon is rejected, in a
file and in the REPL. The expression can be any non-empty, properly nested list of tokens that does not
start with `var` and has no semicolon or newline outside brackets. -/
theorem for_expression_rejected_anywhere (hE : EnvLaws env) (hS : Fits env source) {a b w : List Token} {t o s : Token}
    (hs : scanTokens env source = .done (.ok (a ++ t :: o :: w ++ s :: b))) (ht : t.tokenType = .for)
    (hne : w ≠ []) (hn : WellNested w) (hv : ∀ x, w.head? = some x → x.tokenType ≠ .var)
    (htop : ∀ x ∈ topLevel 0 w, x.tokenType ≠ .semicolon ∧ x.tokenType ≠ .terminator)
    (hsemi : s.tokenType = .semicolon) : Rejects env repl source := by
  obtain ⟨r, hr⟩ := parse_terminates (repl := repl) hE hS hs
  cases r with
  | error causes => exact ⟨causes, hr⟩
  | ok sts =>
    obtain ⟨front, eof, e, he, -⟩ := (scan_tokensOk hE hs).eof
    have hb : b ≠ [] := by
      rintro rfl
      obtain ⟨-, e⟩ := List.append_inj' e rfl
      cases e
      rw [hsemi] at he; cases he
    obtain ⟨b', u, rfl⟩ := List.exists_cons_of_ne_nil hb
    obtain ⟨b', rfl, -⟩ := drop_eof e
    rw [e] at hs
    obtain ⟨nl, -, hG⟩ := file_grammar hE hS hs (sts := sts) (repl := repl) hr
    have main := grammar_for (Q := fun _ => True) (by simp) hG (fun s hs x hx => trivial) a t (o :: w ++ s :: (b' ++ nl)) (by simp) ht
    exact (for_expression_head main hne hn hv htop hsemi).elim

/-- C82: what the REPL makes of an accepted source is what a run of a file makes of it, or of it with the
newline. -/
theorem repl_run (hE : EnvLaws env) {rs : Resolver} {nl eof' : Token} (hs : scanTokens env source = .done (.ok (w ++ [eof])))
    (hs' : scanTokens env (source ++ ['\n']) = .done (.ok (w ++ [nl, eof']))) (hF : Fits env (source ++ ['\n'])) (hn : nl.tokenType = .terminator)
    (h : Accepts env true source sts) :
    run env rs source true = run env rs source false ∨ run env rs source true = run env rs (source ++ ['\n']) false := by
  rcases (repl_source hE hs hs' hF hn).1 h with h' | ⟨h', -⟩
  · left
    unfold Accepts at h h'
    rw [run_eq, run_eq, h, h']
  · right
    unfold Accepts at h h'
    rw [run_eq, run_eq, h, h']

/-- C76 (negation): so it is in the REPL, if something follows the function expression. -/
theorem indented_fun_rejected_repl (hE : EnvLaws env) (hS : Fits env source) {a f b : List Token} {k : Token}
    (hs : scanTokens env source = .done (.ok (a ++ f ++ k :: b))) (hf : IndentedFun f) (ha : ¬ EndsOpenVar a f)
    (hk : ¬ ContinuesExpr k.tokenType) (hk' : ¬ EndsExpr k.tokenType) (hne : k.tokenType ≠ .eof) : Rejects env repl source := by
  obtain ⟨r, hr⟩ := parse_terminates (repl := repl) hE hS hs
  cases r with
  | error causes => exact ⟨causes, hr⟩
  | ok sts =>
    have hn := not_newline_after hE hf hs
    obtain ⟨front, eof, e, he, -⟩ := (scan_tokensOk hE hs).eof
    have hb : b ≠ [] := by
      rintro rfl
      obtain ⟨-, e⟩ := List.append_inj' e rfl
      cases e
      exact hne he
    obtain ⟨b', u, rfl⟩ := List.exists_cons_of_ne_nil hb
    obtain ⟨b', rfl, -⟩ := drop_eof e
    rw [e] at hs
    obtain ⟨nl, -, hG⟩ := file_grammar hE hS hs (sts := sts) (repl := repl) hr
    exact (indented_fun_grammar (r := k :: b' ++ nl) (by simpa using hG) hf ha (by
      intro y hy; simp only [List.cons_append, List.head?_cons, Option.some.injEq] at hy; subst hy; exact ⟨hk, hk', hn⟩)).elim

/-! ### Examples -/

example : (∃ w nl eof eof', scanTokens asciiEnv c!"if (a) b" = .done (.ok (w ++ [eof])) ∧
      scanTokens asciiEnv (c!"if (a) b" ++ ['\n']) = .done (.ok (w ++ [nl, eof'])) ∧ nl.tokenType = .terminator) ∧
    Accepts asciiEnv true c!"if (a) b" [.if (v c!"a" 1 5) (.expression (v c!"b" 1 8)) none] ∧ Rejects asciiEnv false c!"if (a) b" :=
  ⟨⟨[⟨.if, c!"if", none, none, 1, 1⟩, ⟨.leftParen, c!"(", none, none, 1, 4⟩, ⟨.identifier, c!"a", none, none, 1, 5⟩, ⟨.rightParen, c!")", none, none, 1, 6⟩, ⟨.identifier, c!"b", none, none, 1, 8⟩],
    ⟨.terminator, c!"\n", none, none, 1, 9⟩, ⟨.eof, c!"", none, none, 1, 9⟩, ⟨.eof, c!"", none, none, 2, 1⟩, by by_kernel, by by_kernel, rfl⟩,
    by unfold Accepts; by_kernel, ⟨[⟨⟨1, 9⟩, some [], "Expect newline after expression."⟩], by by_kernel⟩⟩

/-- Without a newline `print a` is not accepted in the REPL: it does not end with an expression. -/
example : Rejects asciiEnv true c!"print a" ∧ Accepts asciiEnv false c!"print a\n" [.print (v c!"a" 1 7)] ∧ endsExprs [.print (v c!"a" 1 7)] = false :=
  ⟨⟨[⟨⟨1, 8⟩, some [], "Expect newline after print value."⟩], by by_kernel⟩, by unfold Accepts; by_kernel, rfl⟩

/-- A reading of the source `a`, whose last line is a statement. -/
def oneStep : Spec.Step := ⟨[], [], .token ⟨.identifier, c!"a", none, none, 1, 1⟩ [c!"a"]⟩

theorem oneStep_reading : Reading asciiEnv [oneStep] [] := by
  intro a s b h
  obtain ⟨rfl, rfl, rfl⟩ : a = [] ∧ s = oneStep ∧ b = [] := by
    cases a with
    | nil => simp only [List.nil_append, List.cons.injEq] at h; exact ⟨rfl, h.1.symm, h.2.symm⟩
    | cons x a =>
      have := congrArg List.length h
      simp at this
  refine ⟨⟨⟨rfl, ⟨by by_kernel, by by_kernel⟩, .inr (.inl ⟨⟨_, _, rfl, ⟨'a', [], rfl, .inl (by decide)⟩, by simp⟩, by simp [textOf, pieces, text],
    .inr ⟨rfl, fun k => by cases k <;> decide⟩, rfl, rfl⟩)⟩, by simp [oneStep], ?_, ?_, ?_⟩, fun _ => ⟨_, _, rfl, .same _ (by by_kernel)⟩, fun _ => ⟨rfl, rfl⟩⟩
  all_goals (intro t l h ht; cases h; cases ht)

theorem oneStep_done : StatementDone (pieces [oneStep]) := by
  refine ⟨⟨.token ⟨.identifier, c!"a", none, none, 1, 1⟩ [c!"a"], by simp [pieces, thisLine, Piece.endsLine, oneStep], by decide, by simp⟩, ?_⟩
  rintro ⟨t, l, h, h'⟩
  simp only [pieces, lastVisible, oneStep, List.map_cons, List.map_nil, List.reverse_cons, List.reverse_nil, List.nil_append, List.find?_cons, Option.some.injEq] at h
  cases h
  cases h'

example : ∃ nl eof eof', nl.tokenType = .terminator ∧ eof'.tokenType = .eof ∧ scanTokens asciiEnv c!"a" = .done (.ok (tokensOf [oneStep] ++ [eof])) ∧
    scanTokens asciiEnv (c!"a" ++ ['\n']) = .done (.ok (tokensOf [oneStep] ++ [nl, eof'])) :=
  newline_scan asciiEnv_laws (by by_kernel) (by by_kernel) oneStep_reading rfl oneStep_done rfl

/-- A loop that begins with an expression, in the REPL. -/
example : Rejects asciiEnv true c!"for (a; b; c) d" := ⟨[⟨⟨1, 7⟩, some c!";", "Expect newline after expression."⟩], by by_kernel⟩

end Ws.Properties
