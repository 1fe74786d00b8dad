import Verif.Properties.Relabel
import Verif.Properties.Grammar
import Verif.Proofs.Scan.TextReading
/-! Property C73: every program can be written as a source. -/
namespace Ws.Properties
open Ws Spec Writing

variable {env : Env} {num : F64 → Str} {sts : List Stmt} {source : Str} {repl : Bool}

/-- The tokens that the scanner gives for the text of tokens that end lines and blocks properly. -/
theorem laid_scan {w : List Token} {q : Writing.Spot} (hE : EnvLaws env) (hl : Lay .start 0 w q 0) (hw : AllWr w)
    (hp : ∀ t ∈ w, Spellable env num t) (hd : ∀ a b, w = a ++ b → openBlocks a ≤ 32767)
    (hs : env.segment source = layout env num 0 true w) :
    ∃ ts, scanTokens env source = .done (.ok ts) ∧ Each (TokLike same) (w ++ [tok .eof []]) ts := by
  have hsh : Shallow 0 w := fun a b e => by
    have := hd a b e
    simpa [openBlocks] using this
  obtain ⟨steps, o₁, o₂, h1, h2, h3, h4, h5, h6, h7⟩ := layout_reads hE (num := num) hl hw hp hsh
    (done := []) (orig := []) (o₁ := []) (o₂ := []) ⟨rfl, fun _ => .inl rfl, by simp, by simp, by simp⟩ (fun a x b e => by simp at e) rfl rfl .nil rfl
  refine ⟨_, (scan_accepts_iff hE _).2 ⟨steps, ?_, h1, h3, rfl⟩, ?_⟩
  · rw [h2, hs]; rfl
  · rw [List.nil_append] at h4
    rw [h4, List.append_assoc]
    refine each_append h5 ?_
    simp only [closing]
    refine each_append ?_ (.cons (layout_like (.inr (.inr rfl)) ..) .nil)
    obtain ⟨hn, hn'⟩ : o₂.length = (levels steps).length ∧ ∀ t ∈ o₂, t.tokenType = .outdent := by
      rw [h7.levels]
      cases q with
      | opened => exact absurd (h7.opened rfl) (by simp)
      | closed k =>
        obtain ⟨h6, h8⟩ := h6
        obtain ⟨c, hc1, hc2, -⟩ := lv_add 0 k
        refine ⟨?_, h8⟩
        show _ = (lv (0 + k)).length
        rw [hc1, h6, List.length_append, hc2]
        rfl
      | start => have h6 : o₂ = [] := h6; subst h6; exact ⟨rfl, by simp⟩
      | mid k => have h6 : o₂ = [] := h6; subst h6; exact ⟨rfl, by simp⟩
    rw [← hn]
    clear h4 h6 hn
    induction o₂ with
    | nil => exact .nil
    | cons x o ih =>
      have hx := hn' x (by simp)
      rw [List.length_cons, List.replicate_succ]
      exact .cons (tokLike_same hx.symm (by simp [hx]) (by simp [hx]) (by simp [hx])) (ih fun t ht => hn' t (by simp [ht]))

/-- The tokens that the scanner gives for the text of a program. -/
theorem printed_scan (hE : EnvLaws env) (hP : Printable env num sts) (hs : env.segment source = programText env num sts) :
    ∃ ts, scanTokens env source = .done (.ok ts) ∧ Each (TokLike same) (lineStmts sts ++ [tok .eof []]) ts := by
  obtain ⟨q, hl⟩ := lay_stmts sts hP.noMap .start 0
  exact laid_scan hE hl (wr_lineStmts sts) hP.spellable hP.shallow hs

theorem relabelled_ok {α : Type} {f : α → α} {a b} (h : Relabelled f (.done (.ok a)) (.done (.ok b))) : b = f a := by
  generalize hx : Outcome.done (Except.ok (ε := ParseError) a) = x at h
  generalize hy : Outcome.done (Except.ok (ε := ParseError) b) = y at h
  cases h with
  | ok => cases hx; cases hy; rfl
  | error => cases hx
  | panic => cases hx
  | diverge => cases hx

/-- A source with tokens that are a program, but for positions and spelling. -/
theorem like_accepted {w ts : List Token} (hts : scanTokens env source = .done (.ok ts)) (hl : Each (TokLike same) (w ++ [tok .eof []]) ts)
    (h1 : parseTokens env (w ++ [tok .eof []]) repl = .done (.ok sts)) : ∃ sts', Accepts env repl source sts' ∧ SameProgram sts' sts := by
  have h2 : Each (RelabelledToken same) ((w ++ [tok .eof []]).map (moveToken nowhere)) (ts.map (moveToken nowhere)) :=
    each_map (r := TokLike same) (f := moveToken nowhere) (g := moveToken nowhere) (fun _ _ h => h) hl
  have h3 := relabelled_parse (env := env) (repl := repl) same_faithful h2 fun _ _ _ _ _ _ => ⟨fun _ => rfl, fun _ _ _ => rfl⟩
  rw [parseTokens_moved (g := nowhere) rfl, parseTokens_moved (g := nowhere) rfl, h1] at h3
  simp only [mapOutcome, moveResult] at h3
  have h4 : parseIn env repl source = parseTokens env ts repl := parseIn_ok hts
  generalize parseTokens env ts repl = r at h3 h4
  cases r with
  | panic m => cases h3
  | diverge => cases h3
  | done r =>
    cases r with
    | error es => cases h3
    | ok sts' =>
      refine ⟨sts', h4, ?_⟩
      exact (relabelled_ok h3).trans (relabelStmts_same _)

/-- C73: the text of a program is accepted, as that program, at the positions of the text. -/
theorem printed_program (hE : EnvLaws env) (hP : Printable env num sts) (hs : env.segment source = programText env num sts)
    (hF : Fits env source) : ∃ sts', Accepts env repl source sts' ∧ SameProgram sts' sts := by
  obtain ⟨ts, hts, hl⟩ := printed_scan hE hP hs
  have hlen := hF ts hts
  rw [each_length hl] at hlen
  refine like_accepted hts hl ?_
  have h1 : parseTokens env (lineStmts sts ++ [tok .eof []]) false = .done (.ok sts) :=
    parseTokens_complete (tokensOk_of_good (good_lines sts) rfl) hlen (lines_ok (line_stmts sts hP.writable)) (by decide)
  cases repl with
  | false => exact h1
  | true => exact parseTokens_inRepl h1

/-- C73: two programs with the same text are the same, but for positions. -/
theorem printed_injective {sts' : List Stmt} (hE : EnvLaws env) (hP : Printable env num sts) (hP' : Printable env num sts')
    (hs : env.segment source = programText env num sts) (ht : programText env num sts = programText env num sts')
    (hF : Fits env source) : SameProgram sts sts' := by
  obtain ⟨a, h1, h2⟩ := printed_program (repl := false) hE hP hs hF
  obtain ⟨b, h3, h4⟩ := printed_program (repl := false) hE hP' (hs.trans ht) hF
  unfold Accepts at h1 h3
  rw [h1] at h3
  cases h3
  exact h2.symm.trans h4

/-- A class with a method, a loop, branches, an empty function, a function expression, a string and a
number. The positions are wrong. -/
def printedTree : List Stmt :=
  [.class c!"A" (some (v c!"B" 7 7)) [.mk c!"init" (.mk [⟨c!"x", ⟨7, 7⟩⟩]
      [.while (v c!"x" 7 7) (.block [.if (.binary (v c!"x" 7 7) .less (.literalNumber 0x3FF8000000000000) ⟨7, 7⟩)
        (.block [.print (.literalString c!"s t")]) (some (.break ⟨7, 7⟩))])] .initializer ⟨7, 7⟩)] ⟨7, 7⟩,
    .fun (.mk c!"g" (.mk [] [] .plainFunction ⟨7, 7⟩)),
    .var c!"y" .placeholder (.function (.mk [] [.expression (.call (v c!"g" 7 7) [v c!"y" 7 7] ⟨7, 7⟩)] .plainFunction ⟨7, 7⟩)) ⟨7, 7⟩]
def printedSource : Str :=
  c!"class A < B\n  init ( x )\n    while ( x )\n      if ( x < 1.5 )\n        print \"s t\"\n      else break\nfun g ( ) { } var y = fun ( ) { g( y )\n}\n"
theorem printed_spellable : ∀ t ∈ lineStmts printedTree, Spellable asciiEnv (fun _ => c!"1.5") t := by
  have h : (lineStmts printedTree).all (fun t =>
      (t.tokenType != .identifier || [c!"A", c!"B", c!"init", c!"x", c!"g", c!"y"].contains t.lexeme) &&
      (t.stringLiteral == none || t.stringLiteral == some c!"s t") &&
      (t.floatLiteral == none || t.floatLiteral == some 0x3FF8000000000000)) = true := by by_kernel
  intro t ht
  have h := List.all_eq_true.1 h t ht
  simp only [Bool.and_eq_true, Bool.or_eq_true, beq_iff_eq, bne_iff_ne, ne_eq] at h
  obtain ⟨⟨h1, h2⟩, h3⟩ := h
  refine ⟨fun k => ?_, fun _ s e => ?_, fun _ x e => ?_⟩
  · have h1 := (h1.resolve_left fun h => h k)
    simp only [List.contains_eq_mem, decide_eq_true_eq, List.mem_cons, List.not_mem_nil, or_false] at h1
    refine ⟨?_, fun k => ?_⟩
    · rcases h1 with h | h | h | h | h | h <;> rw [h] <;>
        exact ⟨_, _, rfl, ⟨_, _, rfl, .inl rfl⟩, by simp [WordPart, asciiSegment, asciiEnv]⟩
    · rcases h1 with h | h | h | h | h | h <;> rw [h] <;> cases k <;> simp [keyword]
  · rw [e] at h2
    simp only [reduceCtorEq, Option.some.injEq, false_or] at h2
    rw [h2]
    decide
  · rw [e] at h3
    simp only [reduceCtorEq, Option.some.injEq, false_or] at h3
    rw [h3]
    exact ⟨⟨c!"1", c!"5", by simp, by decide, by decide, .inr ⟨rfl, by simp⟩⟩, by by_kernel⟩

theorem printedTree_printable : Printable asciiEnv (fun _ => c!"1.5") printedTree where
  writable := by simp [printedTree, v, WritableStmts, WritableStmt, WritableMethods, IsSuperclass, Writable, WritableExprs, tightness, isStatement, opensElse]
  noMap := by
    have h : (writeStmts printedTree).all (fun t => t.tokenType != .indent) = true := by by_kernel
    intro t ht
    have h := List.all_eq_true.1 h t ht
    simpa using h
  spellable := printed_spellable
  shallow a b e := by
    have h : (lineStmts printedTree).length = 56 := by by_kernel
    have h2 := List.countP_le_length (p := fun t : Token => t.tokenType == .indent) (l := a)
    rw [e, List.length_append] at h
    unfold openBlocks
    omega

example : EnvLaws asciiEnv ∧ Printable asciiEnv (fun _ => c!"1.5") printedTree ∧
    asciiEnv.segment printedSource = programText asciiEnv (fun _ => c!"1.5") printedTree ∧ Fits asciiEnv printedSource :=
  ⟨asciiEnv_laws, printedTree_printable, by by_kernel, fits_of_small (by by_kernel)⟩

end Ws.Properties
