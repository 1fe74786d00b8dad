import Verif.Properties.Paren
/-! Property C81: indentation is never needed. -/
namespace Ws.Properties
open Ws Spec Writing

variable {env : Env} {source source' : Str} {repl : Bool} {sts sts' : List Stmt} {num : F64 → Str}

/-! ### C81 -/

/-- The source has no indented blocks: no token is an Indent or an Outdent. -/
def Unindented (env : Env) (source : Str) : Prop :=
  ∃ ts, scanTokens env source = .done (.ok ts) ∧ ∀ t ∈ ts, t.tokenType ≠ .indent ∧ t.tokenType ≠ .outdent

theorem lay_noOutdent {p q : Writing.Spot} {d e : Nat} {w : List Token} (h : Lay p d w q e) (hd : d = 0) (hn : NoIndent w) :
    ∀ t ∈ w, t.tokenType ≠ .outdent := by
  induction h with
  | nil => simp
  | indent h => exact absurd h (hn _ (by simp))
  | outdent | outdents => omega
  | terminator h _ _ ih | attached h _ ih =>
    rw [List.forall_mem_cons]
    exact ⟨by rw [h]; simp, ih hd (noIndent_cons.1 hn).2⟩
  | token h _ ih =>
    rw [List.forall_mem_cons]
    exact ⟨fun e => h (by rw [e]; simp), ih hd (noIndent_cons.1 hn).2⟩

theorem each_types {a b : List Token} (h : Each (TokLike same) a b) (k : TokenType) (ha : ∀ t ∈ a, t.tokenType ≠ k) :
    ∀ t ∈ b, t.tokenType ≠ k := by
  induction h with
  | nil => simp
  | cons h _ ih =>
    rw [List.forall_mem_cons] at ha ⊢
    exact ⟨by rw [h.type]; exact ha.1, ih ha.2⟩

/-- The text with braces of a program that can be written. -/
theorem brace_text (hE : EnvLaws env) (hw : WritableStmts false sts) (hM : ∀ t ∈ writeStmts sts, t.tokenType ≠ .indent)
    (hp : ∀ t ∈ writeStmts sts, Spellable env num t) (hs : env.segment source = braceText env num sts) (hF : Fits env source) :
    Unindented env source ∧ ∃ sts', Accepts env repl source sts' ∧ SameProgram sts' sts := by
  obtain ⟨q, hl⟩ := lay_wstmts sts hM .start 0
  obtain ⟨ts, hts, he⟩ := laid_scan hE hl (wr_stmts sts) hp (fun a b e => by
    have : a.countP (·.tokenType == .indent) = 0 := List.countP_eq_zero.2 fun t ht => by
      simpa using hM t (by rw [e]; exact List.mem_append_left _ ht)
    unfold openBlocks
    omega) hs
  have hlen := hF ts hts
  rw [each_length he] at hlen
  refine ⟨⟨ts, hts, fun t ht => ⟨?_, ?_⟩⟩, like_accepted hts he (write_then_parse hw rfl (by rw [List.length_append] at hlen; exact hlen))⟩
  · refine each_types he .indent ?_ t ht
    rw [List.forall_mem_append]
    exact ⟨hM, by simp [tok]⟩
  · refine each_types he .outdent ?_ t ht
    rw [List.forall_mem_append]
    exact ⟨lay_noOutdent hl rfl hM, by simp [tok]⟩

/-- The tokens of an accepted program can be spelled. -/
theorem accepted_spellable (hE : EnvLaws env) (hL : SliceLaw env) (hN : WritesNumbers env num) (hS : Fits env source)
    (h : Accepts env repl source sts) : (∀ t ∈ writeStmts sts, Spellable env num t) ∧ ∀ t ∈ writeStmts (parensStmts sts), Spellable env num t := by
  obtain ⟨ws, eof, hs, -, -⟩ := accepted_derivable hE hS h
  obtain ⟨o, e, hd, -⟩ := (accepted_iff_derived hE hS hs).1 h
  have hl := (leaf_stmts sts).2 (plain_leaf hd (scan_source hE hL hs))
  have hl' := toks_stmts (by simp [openParen, leaf_tok]) (by simp [closeParen, leaf_tok]) false sts
    (accepted_writable hE hS h) fun t ht _ => hl t ht
  refine ⟨fun t ht => ?_, fun t ht => ?_⟩
  · have := hl t ht
    refine ⟨this.name, this.string, fun hk x hx => ?_⟩
    obtain ⟨s, h1, h2⟩ := this.number hk x hx
    exact hN s x h1 h2
  · have := hl' t ht
    refine ⟨this.name, this.string, fun hk x hx => ?_⟩
    obtain ⟨s, h1, h2⟩ := this.number hk x hx
    exact hN s x h1 h2

/-- C81: the program of an accepted source, written with braces around every block and no line indented, is
accepted, as the same program, if no statement begins with a map. -/
theorem braces_program (hE : EnvLaws env) (hL : SliceLaw env) (hN : WritesNumbers env num) (hS : Fits env source)
    (h : Accepts env repl source sts) (hM : ∀ t ∈ writeStmts sts, t.tokenType ≠ .indent)
    (hs : env.segment source' = braceText env num sts) (hS' : Fits env source') :
    Unindented env source' ∧ ∃ sts', Accepts env repl source' sts' ∧ SameProgram sts' sts :=
  brace_text hE (accepted_writable hE hS h) hM (accepted_spellable hE hL hN hS h).1 hs hS'

/-- C81: and a run of it gives the same. -/
theorem braces_run (hE : EnvLaws env) (hL : SliceLaw env) (hN : WritesNumbers env num) (hS : Fits env source)
    (h : Accepts env repl source sts) (hM : ∀ t ∈ writeStmts sts, t.tokenType ≠ .indent)
    (hs : env.segment source' = braceText env num sts) (hS' : Fits env source') (rs : Resolver) :
    SameRun (run env rs source' repl) (run env rs source repl) := by
  obtain ⟨-, sts', h', hp⟩ := braces_program hE hL hN hS h hM hs hS'
  exact same_program_run rs h' h hp

/-- C81: with parentheses around every expression, every accepted program can be written with braces around
every block and no line indented. -/
theorem braces_parens_program (hE : EnvLaws env) (hL : SliceLaw env) (hN : WritesNumbers env num) (hS : Fits env source)
    (h : Accepts env repl source sts) (hs : env.segment source' = braceText env num (parensStmts sts)) (hS' : Fits env source') :
    Unindented env source' ∧ ∃ sts', Accepts env repl source' sts' ∧ SameProgram sts' (parensStmts sts) :=
  brace_text hE (writable_parensStmts false sts (accepted_writable hE hS h))
    (fun t ht => toks_stmts (P := fun t => t.tokenType ≠ .indent) (by simp [openParen, tok]) (by simp [closeParen, tok])
      false sts (accepted_writable hE hS h) (fun _ _ h => h) t ht)
    (accepted_spellable hE hL hN hS h).2 hs hS'

/-- C81: and a run of it gives the same, but for the parentheses. -/
theorem braces_parens_run (hE : EnvLaws env) (hL : SliceLaw env) (hN : WritesNumbers env num) (hS : Fits env source)
    (h : Accepts env repl source sts) (hs : env.segment source' = braceText env num (parensStmts sts)) (hS' : Fits env source')
    (rs : Resolver) : SameRunButParens true (run env rs source' repl) (run env rs source repl) := by
  obtain ⟨-, sts', h', hp⟩ := braces_parens_program hE hL hN hS h hs hS'
  refine parens_irrelevant_partial rs h' h ?_
  unfold SameButParens SameProgram at *
  rw [← mv_stmts, hp, mv_stmts, ungroup_parensStmts]

/-! The text `tidy` (Properties/Format.lean), which has four blocks, one inside the other, with braces. -/

def tidyTree : List Stmt :=
  match parseIn asciiEnv false tidy with
  | .done (.ok sts) => sts
  | _ => []
def braced : Str :=
  c!"class A < B { init ( x ) { while ( x ) { if ( x < y ) { print \"s t\"\n} else break\n} } } fun g ( ) { } var y = fun ( ) { g( x )\n}\n"
example : ∃ num, EnvLaws asciiEnv ∧ SliceLaw asciiEnv ∧ WritesNumbers asciiEnv num ∧ Fits asciiEnv tidy ∧
    Accepts asciiEnv false tidy tidyTree ∧ (∀ t ∈ writeStmts tidyTree, t.tokenType ≠ .indent) ∧
    asciiEnv.segment braced = braceText asciiEnv num tidyTree ∧ Fits asciiEnv braced := by
  obtain ⟨num, hN⟩ := numbers_writable asciiEnv
  refine ⟨num, asciiEnv_laws, asciiEnv_slices, hN, fits_of_small (by by_kernel), by unfold Accepts; by_kernel, ?_, by by_kernel,
    fits_of_small (by by_kernel)⟩
  have h : (writeStmts tidyTree).all (fun t => t.tokenType != .indent) = true := by by_kernel
  intro t ht
  have h := List.all_eq_true.1 h t ht
  simpa using h
/-- It does have indented blocks before. -/
example : ¬ Unindented asciiEnv tidy := by
  rintro ⟨ts, h1, h2⟩
  have h3 : (match scanTokens asciiEnv tidy with | .done (.ok ts) => ts.any fun t => t.tokenType == .indent | _ => false) = true := by by_kernel
  rw [h1] at h3
  obtain ⟨t, ht, hk⟩ := List.any_eq_true.1 h3
  exact (h2 t ht).1 (by simpa using hk)
/-- The loop that begins with a map. -/
example : Accepts asciiEnv false mapFirst mapFirstTree ∧
    asciiEnv.segment groupedMap = braceText asciiEnv (fun _ => []) (parensStmts mapFirstTree) ∧ Fits asciiEnv groupedMap :=
  ⟨by unfold Accepts; by_kernel, by by_kernel, fits_of_small (by by_kernel)⟩

end Ws.Properties
