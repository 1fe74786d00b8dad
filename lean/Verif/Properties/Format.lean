import Verif.Properties.Text
import Verif.Properties.Positions
import Verif.Properties.Scanner
import Verif.Proofs.Parse.Reformat
import Verif.Proofs.Scan.Stuck
/-! Properties C74 and C75: what the parser gives can be written again, and formatting. -/
namespace Ws.Properties
open Ws Spec Writing

variable {env : Env} {num : F64 → Str} {sts : List Stmt} {source : Str} {repl : Bool} {x : Expr}

/-! ### C74 -/

theorem scan_noThis (hE : EnvLaws env) {w : List Token} {eof : Token} (h : scanTokens env source = .done (.ok (w ++ [eof]))) : NoThis w :=
  fun _ ht hk => Ne.symm fun e => (identifier_text hE h (List.mem_append_left _ ht) hk).1 .this (congrArg some e)

/-- C74: the syntax tree of every accepted source can be written. -/
theorem accepted_writable (hE : EnvLaws env) (hS : Fits env source) (h : Accepts env repl source sts) : WritableStmts false sts := by
  obtain ⟨ws, eof, hs, -, -⟩ := accepted_derivable hE hS h
  obtain ⟨o, e, hd, -⟩ := (accepted_iff_derived hE hS hs).1 h
  exact plain_writable hd (scan_noThis hE hs)

/-- C74, for `parse_expression`. -/
theorem expression_writable (hE : EnvLaws env) (hS : Fits env source) (h : parseExpression env source = .done (.ok x)) :
    Writable false x := by
  have hs : ∃ ts, scanTokens env source = .done (.ok ts) := by
    have h : (scanTokens env source).bind _ = _ := h
    generalize scanTokens env source = r at h
    cases r with
    | panic | diverge => cases h
    | done r =>
      cases r with
      | error => cases h
      | ok ts => exact ⟨ts, rfl⟩
  obtain ⟨ts, hs⟩ := hs
  obtain ⟨ws, eof, rfl, -, -⟩ := (scan_tokensOk hE hs).eof
  obtain ⟨o, e, hd, -⟩ := (expression_iff_derived hE hS hs).1 h
  exact plain_writable hd (scan_noThis hE hs)

/-- C74: the syntax tree of an accepted source, written as tokens and parsed again, gives exactly itself. -/
theorem accepted_written (hE : EnvLaws env) (hS : Fits env source) (h : Accepts env repl source sts)
    (hb : (writeStmts sts).length < env.usizeMax) :
    parseTokens env (writeStmts sts ++ [tok .eof []]) repl = .done (.ok sts) :=
  write_then_parse (accepted_writable hE hS h) rfl hb

example : EnvLaws asciiEnv ∧ Fits asciiEnv methods ∧ Accepts asciiEnv false methods methodsTree := methods_ok

/-! ### C75 -/

theorem part_not_quote (hE : EnvLaws env) {g : Str} (h : WordStart env g ∨ WordPart env g) : g ≠ ['"'] := by
  rintro rfl
  rcases h with ⟨c, r, e, h⟩ | ⟨c, r, e, h⟩ <;> cases e <;> rcases h with h | h
  · rw [hE.alphabetic _ (by decide)] at h; cases h
  · cases h
  · rw [hE.alphanumeric _ (by decide)] at h; cases h
  · cases h

/-- The names, strings and numbers of an accepted source are names, strings and numbers. -/
theorem scan_source (hE : EnvLaws env) (hL : SliceLaw env) {w : List Token} {eof : Token}
    (h : scanTokens env source = .done (.ok (w ++ [eof]))) :
    AllTok (Source (IsName env) (fun s => ['"'] ∉ env.segment s) fun x => ∃ s, NumberText s ∧ env.parseF64 s = some x) w := by
  intro t ht
  have ht := List.mem_append_left [eof] ht
  refine ⟨⟨fun hk => ?_, fun hk s hs => ?_, fun hk x hx => ?_⟩, fun hk => ?_, fun hk => ?_⟩
  · obtain ⟨h1, a, g, r, b, e, hl, hg, hr, -⟩ := identifier_text hE h ht hk
    have := hL _ _ _ _ e
    rw [← hl] at this
    exact ⟨⟨g, r, this, hg, hr⟩, h1⟩
  · obtain ⟨a, b, c, e, hq, hv, -⟩ := string_value hE h ht hk
    have := hL source (a ++ [['"']]) b (['"'] :: c) (by rw [e]; simp)
    rw [hv] at hs
    cases hs
    rw [this]
    exact hq
  · obtain ⟨a, wh, fr, b, h1, h2, h3, h4, h5, -, h6⟩ := number_value hE h ht hk
    refine ⟨t.lexeme, ?_, by rw [← h4, hx]⟩
    have d2 := digits_flatten h2
    have d3 := digits_flatten h3
    refine ⟨wh.flatten, fr.flatten, d2.2 h1, d2.1, d3.1, ?_⟩
    rcases h6 with h6 | h6
    · exact .inl h6.2.1
    · exact .inr ⟨h6.2.1, d3.2 h6.2.2⟩
  · obtain ⟨h1, a, g, r, b, e, hl, hg, hr, -⟩ := identifier_text hE h ht hk
    have := hL _ _ _ _ e
    rw [← hl] at this
    rw [this]
    intro hm
    rcases List.mem_cons.1 hm with e | hm
    · exact part_not_quote hE (.inl hg) e.symm
    · exact part_not_quote hE (.inr (hr _ hm)) rfl
  · exact (keyword_iff hE h ht (by simp [hk]) (k := .this) rfl).1 hk

/-- C75: the syntax tree of an accepted source can be written as text, if no statement begins with a map
and no more than 32767 blocks are inside one another. -/
theorem accepted_printable (hE : EnvLaws env) (hL : SliceLaw env) (hN : WritesNumbers env num) (hS : Fits env source)
    (h : Accepts env repl source sts) (hM : ∀ t ∈ writeStmts sts, t.tokenType ≠ .indent)
    (hD : ∀ a b, lineStmts sts = a ++ b → openBlocks a ≤ 32767) : Printable env num sts where
  writable := accepted_writable hE hS h
  noMap := hM
  spellable := by
    obtain ⟨ws, eof, hs, -, -⟩ := accepted_derivable hE hS h
    obtain ⟨o, e, hd, -⟩ := (accepted_iff_derived hE hS hs).1 h
    have hl := (leaf_lineStmts sts).2 ((leaf_stmts sts).2 (plain_leaf hd (scan_source hE hL hs)))
    intro t ht
    have := hl t ht
    refine ⟨this.name, this.string, fun hk x hx => ?_⟩
    obtain ⟨s, h1, h2⟩ := this.number hk x hx
    exact hN s x h1 h2
  shallow := hD

/-- C75: formatting keeps the program. The text of the syntax tree of an accepted source is accepted, as
the same program up to positions. -/
theorem formatted_program {source' : Str} (hE : EnvLaws env) (hL : SliceLaw env) (hN : WritesNumbers env num) (hS : Fits env source)
    (h : Accepts env repl source sts) (hM : ∀ t ∈ writeStmts sts, t.tokenType ≠ .indent)
    (hD : ∀ a b, lineStmts sts = a ++ b → openBlocks a ≤ 32767)
    (hs : env.segment source' = programText env num sts) (hS' : Fits env source') :
    ∃ sts', Accepts env repl source' sts' ∧ SameProgram sts' sts :=
  printed_program hE (accepted_printable hE hL hN hS h hM hD) hs hS'

/-- C75: formatting twice is formatting once. -/
theorem formatted_twice {source' : Str} {sts' : List Stmt} (hE : EnvLaws env) (hL : SliceLaw env) (hN : WritesNumbers env num)
    (hS : Fits env source) (h : Accepts env repl source sts) (hM : ∀ t ∈ writeStmts sts, t.tokenType ≠ .indent)
    (hD : ∀ a b, lineStmts sts = a ++ b → openBlocks a ≤ 32767)
    (hs : env.segment source' = programText env num sts) (hS' : Fits env source') (h' : Accepts env repl source' sts') :
    programText env num sts' = env.segment source' := by
  obtain ⟨sts'', h1, h2⟩ := formatted_program hE hL hN hS h hM hD hs hS'
  unfold Accepts at h1 h'
  rw [h1] at h'
  cases h'
  rw [hs]
  exact programText_moved h2

/-- C75: two accepted sources with the same text after formatting are the same program. -/
theorem formatted_same {source₁ source₂ source' : Str} {sts₁ sts₂ : List Stmt} (hE : EnvLaws env) (hL : SliceLaw env) (hN : WritesNumbers env num)
    (hS₁ : Fits env source₁) (h₁ : Accepts env repl source₁ sts₁) (hM₁ : ∀ t ∈ writeStmts sts₁, t.tokenType ≠ .indent)
    (hD₁ : ∀ a b, lineStmts sts₁ = a ++ b → openBlocks a ≤ 32767)
    (hS₂ : Fits env source₂) (h₂ : Accepts env repl source₂ sts₂) (hM₂ : ∀ t ∈ writeStmts sts₂, t.tokenType ≠ .indent)
    (hD₂ : ∀ a b, lineStmts sts₂ = a ++ b → openBlocks a ≤ 32767)
    (hs : env.segment source' = programText env num sts₁) (hS' : Fits env source') :
    programText env num sts₁ = programText env num sts₂ ↔ SameProgram sts₁ sts₂ :=
  ⟨fun ht => printed_injective hE (accepted_printable hE hL hN hS₁ h₁ hM₁ hD₁) (accepted_printable hE hL hN hS₂ h₂ hM₂ hD₂) hs ht hS',
    programText_moved⟩

/-- Sources that are the same program are the same to the resolver, whatever was declared before. -/
theorem same_program_run {source₁ source₂ : Str} {sts₁ sts₂ : List Stmt} (rs : Resolver) (h₁ : Accepts env repl source₁ sts₁)
    (h₂ : Accepts env repl source₂ sts₂) (h : SameProgram sts₁ sts₂) : SameRun (run env rs source₁ repl) (run env rs source₂ repl) := by
  unfold Accepts at h₁ h₂
  unfold SameRun movedRun
  rw [run_eq, run_eq, h₁, h₂]
  show mapOutcome _ (rs.resolve sts₁) = mapOutcome _ (rs.resolve sts₂)
  rw [← resolve_moved, ← resolve_moved, h]

/-- C75: formatting does not change what `run` gives: the resolved program, or the errors, are the same up
to positions, and so is the state of the resolver. -/
theorem formatted_run {source' : Str} (hE : EnvLaws env) (hL : SliceLaw env) (hN : WritesNumbers env num) (hS : Fits env source)
    (h : Accepts env repl source sts) (hM : ∀ t ∈ writeStmts sts, t.tokenType ≠ .indent)
    (hD : ∀ a b, lineStmts sts = a ++ b → openBlocks a ≤ 32767)
    (hs : env.segment source' = programText env num sts) (hS' : Fits env source') (rs : Resolver) :
    SameRun (run env rs source' repl) (run env rs source repl) := by
  obtain ⟨sts', h', hp⟩ := formatted_program hE hL hN hS h hM hD hs hS'
  exact same_program_run rs h' h hp

/-- Numbers can always be written. -/
theorem numbers_writable (env : Env) : ∃ num, WritesNumbers env num := by
  classical
  refine ⟨fun x => if h : ∃ s, NumberText s ∧ env.parseF64 s = some x then h.choose else [], fun s x h1 h2 => ?_⟩
  have h : ∃ s, NumberText s ∧ env.parseF64 s = some x := ⟨s, h1, h2⟩
  simp only [h, dite_true]
  exact h.choose_spec

theorem ascii_drop : ∀ (a r : List Str) (s : Str), asciiSegment s = a ++ r → asciiSegment r.flatten = r
  | [], r, s, h => by
    have := (asciiSegment_laws s).1
    rw [h] at this
    rw [show r.flatten = s from this, h]
    rfl
  | g :: a, r, s, h => by
    obtain ⟨rest, hr⟩ : ∃ rest, asciiSegment rest = a ++ r := by
      revert h
      fun_cases asciiSegment s with
      | case1 => intro h; cases h
      | case2 rest => intro h; injection h with _ h; exact ⟨rest, h⟩
      | case3 c rest _ => intro h; injection h with _ h; exact ⟨rest, h⟩
    exact ascii_drop a r rest hr

theorem ascii_take : ∀ (b c : List Str) (s : Str), asciiSegment s = b ++ c → asciiSegment b.flatten = b
  | [], c, s, h => rfl
  | g :: b, c, s, h => by
    revert h
    fun_cases asciiSegment s with
    | case1 => intro h; cases h
    | case2 rest =>
      intro h
      injection h with h1 h2
      have := ascii_take b c rest h2
      rw [← h1]
      simp [asciiSegment, this]
    | case3 d rest hn =>
      intro h
      injection h with h1 h2
      have := ascii_take b c rest h2
      have hj := (asciiSegment_laws rest).1
      rw [h2] at hj
      rw [← h1]
      show asciiSegment (d :: b.flatten) = _
      rw [asciiSegment]
      · rw [this]
      · rintro rest' rfl e
        have hj : (b ++ c).flatten = rest := hj
        rw [List.flatten_append, e] at hj
        exact hn _ rfl hj.symm

theorem asciiEnv_slices : SliceLaw asciiEnv := by
  intro s a b c h
  rw [List.append_assoc] at h
  have h1 := ascii_drop _ _ _ h
  exact ascii_take _ _ _ h1

/-- A source with other spaces, braces and brackets than its text. -/
def messy : Str := c!"class A<B {init(x){while (x) {if (x<y) {print \"s t\"\n} else break\n}}} fun g(){}  var y=fun(){g   x\n}\n"
def messyTree : List Stmt :=
  match parseIn asciiEnv false messy with
  | .done (.ok sts) => sts
  | _ => []
def tidy : Str :=
  c!"class A < B\n  init ( x )\n    while ( x )\n      if ( x < y )\n        print \"s t\"\n      else break\nfun g ( ) { } var y = fun ( ) { g( x )\n}\n"
example : ∃ num, EnvLaws asciiEnv ∧ SliceLaw asciiEnv ∧ WritesNumbers asciiEnv num ∧ Fits asciiEnv messy ∧
    Accepts asciiEnv false messy messyTree ∧ (∀ t ∈ writeStmts messyTree, t.tokenType ≠ .indent) ∧
    (∀ a b, lineStmts messyTree = a ++ b → openBlocks a ≤ 32767) ∧
    asciiEnv.segment tidy = programText asciiEnv num messyTree ∧ Fits asciiEnv tidy := by
  obtain ⟨num, hN⟩ := numbers_writable asciiEnv
  refine ⟨num, asciiEnv_laws, asciiEnv_slices, hN, fits_of_small (by by_kernel), by unfold Accepts; by_kernel, ?_, ?_, by by_kernel,
    fits_of_small (by by_kernel)⟩
  · have h : (writeStmts messyTree).all (fun t => t.tokenType != .indent) = true := by by_kernel
    intro t ht
    have h := List.all_eq_true.1 h t ht
    simpa using h
  · intro a b e
    have h : (lineStmts messyTree).length = 56 := by by_kernel
    have h2 := List.countP_le_length (p := fun t : Token => t.tokenType == .indent) (l := a)
    rw [e, List.length_append] at h
    unfold openBlocks
    omega

end Ws.Properties
