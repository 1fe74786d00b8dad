import Verif.Properties.Format
import Verif.Proofs.Resolve.Paren
import Verif.Proofs.Parse.Paren
/-! Property C80: parentheses say what belongs together, and nothing else. -/
namespace Ws.Properties
open Ws Spec Writing

variable {env : Env} {source source' : Str} {repl : Bool} {sts sts' : List Stmt} {num : F64 → Str}

/-! ### C80 -/

/-- Resolving does not depend on parentheses. -/
theorem same_but_parens (rs : Resolver) (h : SameButParens true sts sts') : SameRunButParens true (rs.resolve sts) (rs.resolve sts') := by
  have key : ∀ a, movedRun nowhere (ungroupRun true (rs.resolve a)) = rs.resolve (moveStmts nowhere (ungroupStmts true a)) := by
    intro a
    rw [resolve_moved, resolve_ungrouped]
    rfl
  unfold SameRunButParens SameRun
  rw [key, key, h]

/-- C80: two accepted sources whose programs differ in parentheses only, and in positions, are the same to
the resolver: the resolved programs differ in parentheses only, or the errors are the same, and the state of
the resolver is the same. Both have parentheses in `return (nil)` or both do not. -/
theorem parens_irrelevant_partial (rs : Resolver) (h : Accepts env repl source sts) (h' : Accepts env repl source' sts')
    (hs : SameButParens true sts sts') : SameRunButParens true (run env rs source repl) (run env rs source' repl) := by
  unfold Accepts at h h'
  rw [run_eq, run_eq, h, h']
  exact same_but_parens rs hs

/-- C80: an accepted program is the same program, but for the parentheses, with parentheses around every
expression. -/
theorem parenthesised_same (sts : List Stmt) (keep : Bool) : SameButParens keep (parensStmts sts) sts := by
  unfold SameButParens
  rw [ungroup_parensStmts]
  rfl

/-- C80: written with parentheses around every expression, the program of an accepted source is accepted. -/
theorem parenthesised_written (hE : EnvLaws env) (hS : Fits env source) (h : Accepts env repl source sts)
    (hb : (writeStmts (parensStmts sts)).length < env.usizeMax) :
    parseTokens env (writeStmts (parensStmts sts) ++ [tok .eof []]) repl = .done (.ok (parensStmts sts)) :=
  write_then_parse (writable_parensStmts false sts (accepted_writable hE hS h)) rfl hb

/-- With parentheses around every expression, every accepted program can be written as text. -/
theorem parenthesised_printable (hE : EnvLaws env) (hL : SliceLaw env) (hN : WritesNumbers env num) (hS : Fits env source)
    (h : Accepts env repl source sts) (hD : ∀ a b, lineStmts (parensStmts sts) = a ++ b → openBlocks a ≤ 32767) :
    Printable env num (parensStmts sts) where
  writable := writable_parensStmts false sts (accepted_writable hE hS h)
  noMap := fun t ht => toks_stmts (P := fun t => t.tokenType ≠ .indent) (by simp [openParen, tok]) (by simp [closeParen, tok])
    false sts (accepted_writable hE hS h) (fun _ _ h => h) t ht
  spellable := by
    obtain ⟨ws, eof, hs, -, -⟩ := accepted_derivable hE hS h
    obtain ⟨o, e, hd, -⟩ := (accepted_iff_derived hE hS hs).1 h
    have hl := (leaf_stmts sts).2 (plain_leaf hd (scan_source hE hL hs))
    have hl := (leaf_lineStmts _).2 (toks_stmts (by simp [openParen, leaf_tok]) (by simp [closeParen, leaf_tok]) false sts
      (accepted_writable hE hS h) fun t ht _ => hl t ht)
    intro t ht
    have := hl t ht
    refine ⟨this.name, this.string, fun hk x hx => ?_⟩
    obtain ⟨s, h1, h2⟩ := this.number hk x hx
    exact hN s x h1 h2
  shallow := hD

/-- C80: the text of the program of an accepted source with parentheses around every expression is accepted,
as that program. -/
theorem parenthesised_program (hE : EnvLaws env) (hL : SliceLaw env) (hN : WritesNumbers env num) (hS : Fits env source)
    (h : Accepts env repl source sts) (hD : ∀ a b, lineStmts (parensStmts sts) = a ++ b → openBlocks a ≤ 32767)
    (hs : env.segment source' = programText env num (parensStmts sts)) (hS' : Fits env source') :
    ∃ sts', Accepts env repl source' sts' ∧ SameProgram sts' (parensStmts sts) :=
  printed_program hE (parenthesised_printable hE hL hN hS h hD) hs hS'

/-- C80: parentheses around every expression do not change what a run gives. -/
theorem parenthesised_run_partial (hE : EnvLaws env) (hL : SliceLaw env) (hN : WritesNumbers env num) (hS : Fits env source)
    (h : Accepts env repl source sts) (hD : ∀ a b, lineStmts (parensStmts sts) = a ++ b → openBlocks a ≤ 32767)
    (hs : env.segment source' = programText env num (parensStmts sts)) (hS' : Fits env source') (rs : Resolver) :
    SameRunButParens true (run env rs source' repl) (run env rs source repl) := by
  obtain ⟨sts', h', hp⟩ := parenthesised_program hE hL hN hS h hD hs hS'
  refine parens_irrelevant_partial rs h' h ?_
  unfold SameButParens SameProgram at *
  rw [← mv_stmts, hp, mv_stmts, ungroup_parensStmts]

/-- What C80 should say: parentheses do not matter to the resolver. -/
def ParensIrrelevant (env : Env) : Prop := ∀ source source' sts sts', Accepts env false source sts → Accepts env false source' sts' →
  SameButParens false sts sts' → SameRunButParens false (run env .new source false) (run env .new source' false)

def bareNil : Str := c!"class A {init() {return nil\n}}"
def bareNilTree : List Stmt :=
  [.class c!"A" none [.mk c!"init" (.mk [] [.return .literalNil ⟨1, 18⟩] .initializer ⟨1, 10⟩)] ⟨1, 7⟩]
def groupedNil : Str := c!"class A {init() {return (nil)\n}}"
def groupedNilTree : List Stmt :=
  [.class c!"A" none [.mk c!"init" (.mk [] [.return (.grouping .literalNil) ⟨1, 18⟩] .initializer ⟨1, 10⟩)] ⟨1, 7⟩]
def runOk : Outcome (Except ParseError (List Stmt) × Resolver) → Bool
  | .done (.ok _, _) => true
  | _ => false

theorem runOk_same {k : Bool} {o o'} (h : SameRunButParens k o o') : runOk o = runOk o' := by
  have key : ∀ o, runOk (movedRun nowhere (ungroupRun k o)) = runOk o := by
    intro o
    rcases o with ⟨_ | _, _⟩ | _ | _ <;> rfl
  rw [← key o, ← key o', h]

/-- C80 is false of the code: in an initializer `return nil` is allowed, and `return (nil)` is an error. -/
theorem parens_irrelevant_false : Accepts asciiEnv false bareNil bareNilTree ∧ Accepts asciiEnv false groupedNil groupedNilTree ∧
    runOk (run asciiEnv .new bareNil false) = true ∧
    (run asciiEnv .new groupedNil false).bind (fun x => .done x.1) =
      .done (.error [.newWithLocation ⟨1, 18⟩ c!"return" "Cannot return a value from an initializer."]) ∧
    ¬ ParensIrrelevant asciiEnv := by
  have h1 : Accepts asciiEnv false bareNil bareNilTree := by unfold Accepts; by_kernel
  have h2 : Accepts asciiEnv false groupedNil groupedNilTree := by unfold Accepts; by_kernel
  have h3 : runOk (run asciiEnv .new bareNil false) = true := by by_kernel
  have h4 : runOk (run asciiEnv .new groupedNil false) = false := by by_kernel
  refine ⟨h1, h2, h3, by by_kernel, fun h => ?_⟩
  have := runOk_same (h _ _ _ _ h1 h2 (by unfold SameButParens SameProgram; by_kernel))
  rw [h3, h4] at this
  cases this

/-! The same sum with and without parentheses, and a program with parentheses around every expression. A
statement of the program begins with a map, so that it cannot be written without parentheses. -/

def sum : Str := c!"print x + y * z\n"
def sumTree : List Stmt :=
  [.print (.binary (v c!"x" 1 7) .plus (.binary (v c!"y" 1 11) .multiply (v c!"z" 1 15) ⟨1, 13⟩) ⟨1, 9⟩)]
def groupedSum : Str := c!"print ((x) + (y * z))\n"
def groupedSumTree : List Stmt :=
  [.print (.grouping (.binary (.grouping (v c!"x" 1 9)) .plus (.grouping (.binary (v c!"y" 1 15) .multiply (v c!"z" 1 19) ⟨1, 17⟩)) ⟨1, 12⟩))]
example : Accepts asciiEnv false sum sumTree ∧ Accepts asciiEnv false groupedSum groupedSumTree ∧
    SameButParens true sumTree groupedSumTree ∧ runOk (run asciiEnv .new sum false) = true :=
  ⟨by unfold Accepts; by_kernel, by unfold Accepts; by_kernel, by unfold SameButParens SameProgram; by_kernel, by by_kernel⟩
/-- Where the parentheses are does matter. -/
example : ¬ SameButParens true sumTree [.print (.binary (.grouping (.binary (v c!"x" 1 7) .plus (v c!"y" 1 11) ⟨1, 9⟩)) .multiply (v c!"z" 1 15) ⟨1, 13⟩)] := by
  simp [SameButParens, SameProgram, sumTree, v, ungroupStmts, ungroupStmt, ungroupExpr, moveStmts, moveStmt, moveExpr]

def mapFirst : Str := c!"for ({\"k\": f}[x](-y)\nz;) {}"
def mapFirstTree : List Stmt :=
  match parseIn asciiEnv false mapFirst with
  | .done (.ok sts) => sts
  | _ => []
def groupedMap : Str := c!"{ ( ( ( { \"k\" : ( f ) } ) [ ( x ) ] )( ( - ( y ) ) ) )\nwhile ( ( z ) ) { } }"
example : ∃ num, EnvLaws asciiEnv ∧ SliceLaw asciiEnv ∧ WritesNumbers asciiEnv num ∧ Fits asciiEnv mapFirst ∧
    Accepts asciiEnv false mapFirst mapFirstTree ∧
    (∀ a b, lineStmts (parensStmts mapFirstTree) = a ++ b → openBlocks a ≤ 32767) ∧
    asciiEnv.segment groupedMap = programText asciiEnv num (parensStmts mapFirstTree) ∧ Fits asciiEnv groupedMap := by
  obtain ⟨num, hN⟩ := numbers_writable asciiEnv
  refine ⟨num, asciiEnv_laws, asciiEnv_slices, hN, fits_of_small (by by_kernel), by unfold Accepts; by_kernel, ?_, by by_kernel,
    fits_of_small (by by_kernel)⟩
  intro a b e
  have h : (lineStmts (parensStmts mapFirstTree)).length = 37 := by by_kernel
  have h2 := List.countP_le_length (p := fun t : Token => t.tokenType == .indent) (l := a)
  rw [e, List.length_append] at h
  unfold openBlocks
  omega

end Ws.Properties
