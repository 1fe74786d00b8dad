import Verif.Properties.Page
import Verif.Proofs.PageFace
import Verif.Proofs.PageTruth
import Verif.Proofs.Resolve.Truth
import Verif.Properties.Print
/-! Property C91, for programs. -/
namespace Ws.Properties
open Ws Spec

variable {env : Env} {escaped : Char → Bool} {showNumber : F64 → Str} {source source' text : Str}

/-- Accepted programs that differ in truth values and in locations of variables differ in truth values only. -/
theorem wasm_truth {sts sts' : List Stmt} (h : wasmParseString env source = .done (.ok sts))
    (h' : wasmParseString env source' = .done (.ok sts')) (he : eraseStmts (truthStmts sts) = eraseStmts (truthStmts sts')) :
    truthStmts sts = truthStmts sts' := by
  have key : ∀ {source : Str} {sts : List Stmt}, wasmParseString env source = .done (.ok sts) →
      ∃ rs', Resolver.new.resolve (truthStmts sts) = .done (.ok (truthStmts sts), rs') := by
    intro source sts h
    obtain ⟨rs', h⟩ := parseString_stages.mp h
    generalize hr : Except.ok sts = r at h
    cases h with
    | scan _ => cases hr
    | parse _ _ => cases hr
    | resolve h1 h2 h3 => subst hr; exact resolve_truth (resolve_again h3)
  obtain ⟨_, h1⟩ := key h
  obtain ⟨_, h2⟩ := key h'
  rw [annotations_ignored he, h2] at h1
  simp only [Outcome.done.injEq, Prod.mk.injEq, Except.ok.injEq] at h1
  exact h1.1.symm

/-- C91, for programs: when the page shows the same for two sources, they have the same errors, or their
programs are the same, with the same names, values, source locations and locations of variables, but for which of
`true` and `false` is written. -/
theorem page_program_partial (hE : EnvLaws env) (hS : Fits env source) (hS' : Fits env source') (hP : PlainClusters env source)
    (hP' : PlainClusters env source') (hL : ShowLaws showNumber) (hI : ShowInts showNumber)
    (hW : ShowWritten env showNumber) (h : page env escaped showNumber source = .done text) (h' : page env escaped showNumber source' = .done text) :
    (∃ es, wasmParseString env source = .done (.error es) ∧ wasmParseString env source' = .done (.error es)) ∨
      (∃ sts sts', wasmParseString env source = .done (.ok sts) ∧ wasmParseString env source' = .done (.ok sts') ∧
        truthStmts sts = truthStmts sts') := by
  have value : ∀ {source v}, parseString env escaped source = .done (.value v) →
      ∃ sts, wasmParseString env source = .done (.ok sts) ∧ v = .array (stmtsJs sts) := by
    intro source v h
    unfold parseString at h
    simp only [bind] at h
    cases h1 : wasmParseString env source with
    | panic m => rw [h1] at h; cases h
    | diverge => rw [h1] at h; cases h
    | done r =>
      rw [h1] at h
      cases r with
      | ok sts => cases h; exact ⟨_, rfl, rfl⟩
      | error es => cases h
  have error : ∀ {source m}, parseString env escaped source = .done (.error m) →
      ∃ es, wasmParseString env source = .done (.error es) ∧ m = displayError escaped es := by
    intro source v h
    unfold parseString at h
    simp only [bind] at h
    cases h1 : wasmParseString env source with
    | panic m => rw [h1] at h; cases h
    | diverge => rw [h1] at h; cases h
    | done r =>
      rw [h1] at h
      cases r with
      | ok sts => cases h
      | error es => cases h; exact ⟨_, rfl, rfl⟩
  have numbers : ∀ {source sts}, Fits env source → wasmParseString env source = .done (.ok sts) →
      ∀ s ∈ sts, AllNum (Written env) (.stmt s) := by
    intro source sts hS h
    rw [wasm_run] at h
    cases hr : run env .new source false with
    | panic m => rw [hr] at h; cases h
    | diverge => rw [hr] at h; cases h
    | done q =>
      rw [hr] at h
      obtain ⟨r, rs'⟩ := q
      cases h
      exact run_numbers hE hS hr
  rcases page_partial hL h h' with ⟨m, h1, h2⟩ | ⟨v, w, h1, h2, hv⟩
  · obtain ⟨es, g1, rfl⟩ := error h1
    obtain ⟨es', g2, e⟩ := error h2
    rw [displayError_inj (errors_blocks hE hS hP g1) (errors_blocks hE hS' hP' g2) e] at g1
    exact .inl ⟨es', g1, g2⟩
  · obtain ⟨sts, g1, rfl⟩ := value h1
    obtain ⟨sts', g2, rfl⟩ := value h2
    exact .inr ⟨sts, sts', g1, g2, wasm_truth g1 g2 (stmtsJs_face hI hW _ _ (fun s hs => ⟨resolved_fits hE hS g1 s hs, numbers hS g1 s hs⟩)
      (fun s hs => ⟨resolved_fits hE hS' g2 s hs, numbers hS' g2 s hs⟩) (shown_array.mp hv))⟩

/-- C91, exactly: the page shows the same for two sources if and only if they have the same errors, or programs that are
the same but for which of `true` and `false` is written. -/
theorem page_exact_partial (hE : EnvLaws env) (hS : Fits env source) (hS' : Fits env source') (hP : PlainClusters env source)
    (hP' : PlainClusters env source') (hL : ShowLaws showNumber) (hI : ShowInts showNumber)
    (hW : ShowWritten env showNumber) (h : page env escaped showNumber source = .done text) :
    page env escaped showNumber source' = .done text ↔
      (∃ es, wasmParseString env source = .done (.error es) ∧ wasmParseString env source' = .done (.error es)) ∨
        (∃ sts sts', wasmParseString env source = .done (.ok sts) ∧ wasmParseString env source' = .done (.ok sts') ∧
          truthStmts sts = truthStmts sts') := by
  refine ⟨page_program_partial hE hS hS' hP hP' hL hI hW h, ?_⟩
  unfold page parseString at h ⊢
  rintro (⟨es, h1, h2⟩ | ⟨sts, sts', h1, h2, e⟩)
  · rw [h2, ← h1]
    exact h
  · rw [h1] at h
    rw [h2, ← h]
    show Outcome.done (pretty showNumber [] (.array (stmtsJs sts'))) = .done (pretty showNumber [] (.array (stmtsJs sts)))
    rw [← pretty_truth sts', ← pretty_truth sts, e]

/-- In particular the page tells programs apart in which every truth value is `true`. -/
theorem page_faithful_partial (hE : EnvLaws env) (hS : Fits env source) (hS' : Fits env source') (hP : PlainClusters env source)
    (hP' : PlainClusters env source') (hL : ShowLaws showNumber) (hI : ShowInts showNumber) (hW : ShowWritten env showNumber)
    (ht : ∀ sts, wasmParseString env source = .done (.ok sts) → truthStmts sts = sts)
    (ht' : ∀ sts, wasmParseString env source' = .done (.ok sts) → truthStmts sts = sts)
    (h : page env escaped showNumber source = .done text) (h' : page env escaped showNumber source' = .done text) :
    wasmParseString env source = wasmParseString env source' := by
  rcases page_program_partial hE hS hS' hP hP' hL hI hW h h' with ⟨es, h1, h2⟩ | ⟨sts, sts', h1, h2, e⟩
  · rw [h1, h2]
  · rw [h1, h2, ← ht _ h1, e, ht' _ h2]

theorem decimal_ints : ShowInts decimal := fun _ _ hm hn h => f64OfNat_inj hm hn (decimal_inj h)

/-- The hypotheses hold for the two programs with truth values. -/
example : (∃ es, wasmParseString asciiEnv c!"print true\n" = .done (.error es) ∧
      wasmParseString asciiEnv c!"print false\n" = .done (.error es)) ∨
    (∃ sts sts', wasmParseString asciiEnv c!"print true\n" = .done (.ok sts) ∧ wasmParseString asciiEnv c!"print false\n" = .done (.ok sts') ∧
      truthStmts sts = truthStmts sts') :=
  page_program_partial asciiEnv_laws (fits_of_small (by by_kernel)) (fits_of_small (by by_kernel)) ascii_plain ascii_plain
    decimal_show decimal_ints (fun _ _ _ _ h => decimal_inj h) page_false.1 page_false.2.1

/-- Two programs that look alike, with variables. -/
example : page asciiEnv (fun _ => false) decimal c!"var a = true\nprint a\n" =
    page asciiEnv (fun _ => false) decimal c!"var a = false\nprint a\n" := by
  have e1 : wasmParseString asciiEnv c!"var a = true\nprint a\n" =
      .done (.ok [.var c!"a" ⟨0⟩ (.literalBool true) ⟨1, 5⟩, .print (.variable c!"a" ⟨0, 0⟩ ⟨2, 7⟩)]) := by by_kernel
  have e2 : wasmParseString asciiEnv c!"var a = false\nprint a\n" =
      .done (.ok [.var c!"a" ⟨0⟩ (.literalBool false) ⟨1, 5⟩, .print (.variable c!"a" ⟨0, 0⟩ ⟨2, 7⟩)]) := by by_kernel
  obtain ⟨text, h⟩ : ∃ text, page asciiEnv (fun _ => false) decimal c!"var a = true\nprint a\n" = .done text :=
    ⟨_, by unfold page parseString; rw [e1]; rfl⟩
  rw [h, (page_exact_partial asciiEnv_laws (fits_of_small (by by_kernel)) (fits_of_small (by by_kernel)) ascii_plain ascii_plain
    decimal_show decimal_ints (fun _ _ _ _ h => decimal_inj h) h).mpr (.inr ⟨_, _, e1, e2, rfl⟩)]

/-- A program whose truth values are all `true`, and one that looks like it. -/
example : wasmParseString asciiEnv c!"print true  // a\n" = wasmParseString asciiEnv c!"print true\n" := by
  have e : wasmParseString asciiEnv c!"print true  // a\n" = .done (.ok [.print (.literalBool true)]) := by by_kernel
  have e' : wasmParseString asciiEnv c!"print true\n" = .done (.ok [.print (.literalBool true)]) := by by_kernel
  exact page_faithful_partial (escaped := fun _ => false) (showNumber := decimal) asciiEnv_laws (fits_of_small (by by_kernel))
    (fits_of_small (by by_kernel)) ascii_plain ascii_plain decimal_show decimal_ints (fun _ _ _ _ h => decimal_inj h)
    (fun sts h => by rw [e] at h; cases h; rfl) (fun sts h => by rw [e'] at h; cases h; rfl)
    (show page asciiEnv (fun _ => false) decimal c!"print true  // a\n" = .done shownTruth by by_kernel) page_false.1

end Ws.Properties
