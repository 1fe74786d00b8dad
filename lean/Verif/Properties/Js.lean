import Verif.Proofs.Js.Fit
import Verif.Proofs.Js.Message
import Verif.Properties.Messages
/-! Property C59: nothing is lost on the way to JavaScript. -/
namespace Ws.Properties
open Ws Spec

variable {env : Env} {escaped : Char → Bool} {source source' : Str}

/-- No cluster has an empty line in it. (Unicode segmentation breaks after every newline.) -/
def PlainClusters (env : Env) (source : Str) : Prop := ∀ g ∈ env.segment source, OneBlock g

theorem resolved_fits (hE : EnvLaws env) (hS : Fits env source) {sts : List Stmt}
    (h : wasmParseString env source = .done (.ok sts)) : ∀ s ∈ sts, AllFit (.stmt s) := by
  obtain ⟨rs', h⟩ := parseString_stages.mp h
  generalize hr : Except.ok sts = r at h
  cases h with
  | scan _ => cases hr
  | parse _ _ => cases hr
  | resolve h1 h2 h3 =>
    subst hr
    exact fit_resolved (only_locations h3) (parsed_fit (repl := false) hE hS (by rw [Accepts, parseIn_ok h1, h2]))

theorem wasm_annotations {sts sts' : List Stmt} (h : wasmParseString env source = .done (.ok sts))
    (h' : wasmParseString env source' = .done (.ok sts')) (he : eraseStmts sts = eraseStmts sts') : sts = sts' := by
  have key : ∀ {source : Str} {sts : List Stmt}, wasmParseString env source = .done (.ok sts) →
      ∃ rs', Resolver.new.resolve sts = .done (.ok sts, rs') := by
    intro source sts h
    obtain ⟨rs', h⟩ := parseString_stages.mp h
    generalize hr : Except.ok sts = r at h
    cases h with
    | scan _ => cases hr
    | parse _ _ => cases hr
    | resolve h1 h2 h3 => subst hr; exact ⟨rs', resolve_again h3⟩
  obtain ⟨_, h1⟩ := key h
  obtain ⟨_, h2⟩ := key h'
  rw [annotations_ignored he, h2] at h1
  cases h1
  rfl

theorem plain_block {m : Str} (h : ∀ c ∈ m, c ≠ '\n') : OneBlock m := by
  intro a b e
  exact h '\n' (by rw [e]; simp) rfl

theorem block_append {a m : Str} (ha : ∀ c ∈ a, c ≠ '\n') (hm : OneBlock m) : OneBlock (a ++ m) := by
  induction a with
  | nil => exact hm
  | cons c a ih =>
    intro x y e
    cases x with
    | nil =>
      simp only [List.cons_append, List.nil_append, List.cons.injEq] at e
      exact ha c (by simp) e.1
    | cons d x =>
      simp only [List.cons_append, List.cons.injEq] at e
      exact ih (fun c hc => ha c (by simp [hc])) x y e.2

theorem listed_block {m : String} (h : m ∈ scannerMessages ∨ m ∈ parserMessages ∨ m ∈ resolverMessages) :
    OneBlock m.toList := by
  apply plain_block
  have : ∀ m ∈ scannerMessages ++ (parserMessages ++ resolverMessages), ∀ c ∈ m.toList, c ≠ '\n' := by
    decide +kernel
  exact this m (by simpa using h)

theorem errors_blocks (hE : EnvLaws env) (hS : Fits env source) (hP : PlainClusters env source) {es : ParseError}
    (h : wasmParseString env source = .done (.error es)) : ∀ c ∈ es, OneBlock c.message.toList := by
  rw [wasm_run] at h
  cases hr : run env .new source false with
  | panic m => rw [hr] at h; cases h
  | diverge => rw [hr] at h; cases h
  | done q =>
    rw [hr] at h
    obtain ⟨r, rs'⟩ := q
    cases h
    intro c hc
    rcases run_messages hE hS .new hr with h | h | h
    · rcases h c hc with h | ⟨g, hg, h⟩
      · exact listed_block (.inl h)
      · rw [h, String.toList_append]
        exact block_append (by decide +kernel) (by rw [String.toList_ofList]; exact hP g hg)
    · exact listed_block (.inr (.inl (h c hc)))
    · exact listed_block (.inr (.inr (h c hc)))

/-- C59: what JavaScript gets from `parseString` determines the resolved program, with all names, values and
locations, or the list of errors, with their texts and locations. -/
theorem js_faithful (hE : EnvLaws env) (hS : Fits env source) (hS' : Fits env source') (hP : PlainClusters env source)
    (hP' : PlainClusters env source') (h : parseString env escaped source = parseString env escaped source') :
    wasmParseString env source = wasmParseString env source' := by
  unfold parseString at h
  simp only [bind] at h
  cases h1 : wasmParseString env source with
  | panic m =>
    rw [h1] at h
    cases h2 : wasmParseString env source' with
    | panic m' => rw [h2] at h; cases h; rfl
    | diverge => rw [h2] at h; cases h
    | done r => rw [h2] at h; cases r <;> cases h
  | diverge =>
    rw [h1] at h
    cases h2 : wasmParseString env source' with
    | panic m' => rw [h2] at h; cases h
    | diverge => rfl
    | done r => rw [h2] at h; cases r <;> cases h
  | done r =>
    rw [h1] at h
    cases h2 : wasmParseString env source' with
    | panic m' => rw [h2] at h; cases r <;> cases h
    | diverge => rw [h2] at h; cases r <;> cases h
    | done r' =>
      rw [h2] at h
      cases r with
      | ok sts =>
        cases r' with
        | ok sts' =>
          simp only [Outcome.bind, Outcome.done.injEq, JsResult.value.injEq, JsValue.array.injEq] at h
          rw [wasm_annotations h1 h2 (stmtsJs_inj _ _ (resolved_fits hE hS h1) (resolved_fits hE hS' h2) h)]
        | error es' => simp [Outcome.bind] at h
      | error es =>
        cases r' with
        | ok sts' => simp [Outcome.bind] at h
        | error es' =>
          simp only [Outcome.bind, Outcome.done.injEq, JsResult.error.injEq] at h
          rw [displayError_inj (errors_blocks hE hS hP h1) (errors_blocks hE hS' hP' h2) h]

/-- A tree as JavaScript sees it, -/
example : parseString asciiEnv (fun _ => false) c!"a.b = nil\n" = .done (.value (.array
    [.object [.mk c!"type" (.string c!"Expression"), .mk c!"args" (.object [.mk c!"type" (.string c!"Set"), .mk c!"args" (.array
      [.object [.mk c!"type" (.string c!"Variable"), .mk c!"args" (.array
          [.string c!"a",
            .object [.mk c!"distance" (.number 0), .mk c!"index" (.number 0)],
            .object [.mk c!"line" (.number 0x3FF0000000000000), .mk c!"column" (.number 0x3FF0000000000000)]])],
        .string c!"b",
        .object [.mk c!"type" (.string c!"LiteralNil")],
        .object [.mk c!"line" (.number 0x3FF0000000000000), .mk c!"column" (.number 0x4014000000000000)]])])]])) := by
  by_kernel

/-- and an error. -/
example : parseString asciiEnv (fun _ => false) c!"a ]\nb \"c" = .done (.error c!"2:5: Unterminated string.\n\n") ∧
    parseString asciiEnv (fun _ => false) c!"var \"c\"\n" = .done (.error c!"1:5 at \"\\\"c\\\"\": Expect variable name.\n\n") := by
  constructor <;> by_kernel

theorem ascii_plain : ∀ {source : Str}, PlainClusters asciiEnv source := by
  intro source
  show ∀ g ∈ asciiSegment source, OneBlock g
  have one : ∀ c : Char, OneBlock [c] := by
    intro c a b e
    have := congrArg List.length e
    simp at this
    omega
  fun_induction asciiSegment source with
  | case1 => simp
  | case2 rest ih =>
    intro g hg
    rcases List.mem_cons.mp hg with rfl | hg
    · intro a b e
      match a with
      | [] => simp at e
      | [x] => simp at e
      | x :: y :: a => simp at e
    · exact ih g hg
  | case3 c rest _ ih =>
    intro g hg
    rcases List.mem_cons.mp hg with rfl | hg
    · exact one c
    · exact ih g hg

/-- Sources that differ only in what is no part of the tree give the same value; -/
example : parseString asciiEnv (fun _ => false) c!"a + (b)  // c\n" = parseString asciiEnv (fun _ => false) c!"a + (b)\n" := by
  by_kernel

/-- and the hypotheses hold. -/
example : wasmParseString asciiEnv c!"a + (b)  // c\n" = wasmParseString asciiEnv c!"a + (b)\n" :=
  js_faithful (escaped := fun _ => false) asciiEnv_laws (fits_of_small (by by_kernel)) (fits_of_small (by by_kernel)) ascii_plain ascii_plain
    (by by_kernel)

end Ws.Properties
