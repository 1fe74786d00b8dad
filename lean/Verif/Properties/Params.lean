import Verif.Proofs.Resolve.Params2
import Verif.Properties.Boxed
/-! Property C87: the names of parameters do not matter. -/
namespace Ws.Properties
open Ws Spec

variable {history : List (List Stmt)} {rs rs1 : Resolver} {sts : List Stmt} {r : Except ParseError (List Stmt)} {choose : FunDef → Str → Str}

theorem loop_alpha (hc : ∀ d, RenamesParams (choose d) d) : ∀ (sts : List Stmt) {rs : Resolver}, rs.scopes ≠ [] →
    (∀ {a es t}, resolveLoop sts rs = .done (a, es, t) → ∃ b es', resolveLoop (alphaStmts choose sts) rs = .done (b, es', t) ∧
      es'.map (fun c => (c.loc, c.message)) = es.map (fun c => (c.loc, c.message)) ∧ (es = [] → VSs a b)) ∧
    ∀ {m}, resolveLoop sts rs = .panic m → resolveLoop (alphaStmts choose sts) rs = .panic m
  | [], rs, _ => by
    simp only [alphaStmts, resolveLoop]
    exact ⟨fun h => by cases h; exact ⟨[], [], rfl, rfl, fun _ => rfl⟩, fun h => h⟩
  | s :: ss, rs, hn => by
    have key := al_stmt choose hc s rs hn
    simp only [alphaStmts, resolveLoop]
    revert key
    generalize resolveStmt s rs = o
    generalize resolveStmt (alphaStmt choose s) rs = o'
    intro key
    cases key with
    | @ok c c' u hv hl =>
      obtain ⟨ih1, ih2⟩ := loop_alpha hc ss (ne_of_length hl hn)
      simp only [bind, Outcome.bind]
      cases h2 : resolveLoop ss u with
      | panic m => rw [ih2 h2]; exact ⟨fun h => by (cases h), fun h => h⟩
      | diverge => exact ⟨fun h => (by cases h), fun h => (by cases h)⟩
      | done x =>
        obtain ⟨a, es, t⟩ := x
        obtain ⟨b, es', e1, e2, e3⟩ := ih1 h2
        rw [e1]
        refine ⟨fun h => ?_, fun h => (by cases h)⟩
        cases h
        exact ⟨_, _, rfl, e2, fun h => by have := e3 h; va⟩
    | @err c c' u h1 h1' hl =>
      obtain ⟨ih1, ih2⟩ := loop_alpha hc ss (ne_of_length hl hn)
      simp only [bind, Outcome.bind]
      cases h2 : resolveLoop ss u with
      | panic m => rw [ih2 h2]; exact ⟨fun h => by (cases h), fun h => h⟩
      | diverge => exact ⟨fun h => (by cases h), fun h => (by cases h)⟩
      | done x =>
        obtain ⟨a, es, t⟩ := x
        obtain ⟨b, es', e1, e2, e3⟩ := ih1 h2
        rw [e1]
        refine ⟨fun h => ?_, fun h => (by cases h)⟩
        cases h
        exact ⟨_, _, rfl, by simp [h1, h1', e2], fun h => (by cases h)⟩
    | panic m => exact ⟨fun h => (by cases h), fun h => h⟩
    | diverge => exact ⟨fun h => (by cases h), fun h => (by cases h)⟩

/-- C87: when the parameters of functions are renamed, each function by a renaming of its own that keeps every other
name in the function, a program is accepted if and only if it was before, with the same slots and locations; or it has
the same errors, at the same places. The session goes on the same. -/
theorem parameters_renamed (h : AfterPrograms history rs) (hc : ∀ d, RenamesParams (choose d) d)
    (h1 : rs.resolve sts = .done (r, rs1)) :
    ∃ r', rs.resolve (alphaStmts choose sts) = .done (r', rs1) ∧ SamePlaces r r' := by
  obtain ⟨g, e, _⟩ := session_scopes (after_session h)
  obtain ⟨a, es, g1, g2⟩ := resolve_by_loop h1
  obtain ⟨b, es', e1, e2, e3⟩ := (loop_alpha hc sts (by rw [e]; simp)).1 g1
  unfold Resolver.resolve
  rw [e1]
  cases es with
  | nil =>
    cases es' with
    | nil => subst g2; exact ⟨_, rfl, e3 rfl⟩
    | cons c cs => simp at e2
  | cons c cs =>
    cases es' with
    | nil => simp at e2
    | cons c' cs' => subst g2; exact ⟨_, rfl, e2⟩

/-- C87: if the program is too deeply nested, so is the other one. -/
theorem parameters_too_deep {m : String} (h : AfterPrograms history rs) (hc : ∀ d, RenamesParams (choose d) d)
    (h1 : rs.resolve sts = .panic m) : rs.resolve (alphaStmts choose sts) = .panic m := by
  obtain ⟨g, e, _⟩ := session_scopes (after_session h)
  unfold Resolver.resolve at h1 ⊢
  cases h2 : resolveLoop sts rs with
  | panic m' =>
    rw [h2] at h1
    cases h1
    rw [(loop_alpha hc sts (by rw [e]; simp)).2 h2]
    rfl
  | diverge => rw [h2] at h1; cases h1
  | done x =>
    obtain ⟨a, es, t⟩ := x
    rw [h2] at h1
    cases es <;> cases h1

theorem exchange_renaming {x z : Str} (hx : x ≠ c!"this" ∧ x ≠ c!"super") (hz : z ≠ c!"this" ∧ z ≠ c!"super") : Renaming (exchange x z) where
  inj := by
    intro a b h
    unfold exchange at h
    split at h <;> split at h <;> (try split at h) <;> (try split at h) <;> simp_all
  this := by
    unfold exchange
    rw [if_neg hx.1.symm, if_neg hz.1.symm]
  super := by
    unfold exchange
    rw [if_neg hx.2.symm, if_neg hz.2.symm]

/-- A parameter can be renamed to any name that the function does not mention. -/
theorem other_renames {x z : Str} (hx : x ≠ c!"this" ∧ x ≠ c!"super") (hz : z ≠ c!"this" ∧ z ≠ c!"super") (d : FunDef) :
    RenamesParams (chooseOther x z d) d := by
  unfold chooseOther
  split
  · rename_i h
    simp only [Bool.and_eq_true, List.contains_iff_mem, Bool.not_eq_true'] at h
    refine ⟨exchange_renaming hx hz, ?_⟩
    intro y hy hp
    unfold exchange
    rw [if_neg (fun (e : y = x) => hp (by rw [e]; exact h.1)), if_neg (fun (e : y = z) => by rw [e, h.2] at hy; cases hy)]
  · exact ⟨⟨fun _ _ h => h, rfl, rfl⟩, fun _ _ _ => rfl⟩

/-- C87: with `z` for the parameter `x` of every function that does not mention `z`. -/
theorem parameter_renamed {x z : Str} (h : AfterPrograms history rs) (hx : x ≠ c!"this" ∧ x ≠ c!"super") (hz : z ≠ c!"this" ∧ z ≠ c!"super")
    (h1 : rs.resolve sts = .done (r, rs1)) :
    ∃ r', rs.resolve (alphaStmts (chooseOther x z) sts) = .done (r', rs1) ∧ SamePlaces r r' :=
  parameters_renamed h (other_renames hx hz) h1

/-- `fun f(x) return fun (w) return x + y` or the like, after `var y`. -/
def closure (x : Str) (d i : Nat) : List Stmt := [.var c!"y" ⟨0⟩ .literalNil ⟨1, 5⟩,
  .fun (.mk c!"f" (.mk [⟨x, ⟨2, 7⟩⟩] [.return (.function (.mk [⟨c!"w", ⟨3, 10⟩⟩]
    [.return (.binary (.variable x ⟨d, 0⟩ ⟨4, 12⟩) .plus (.variable c!"y" ⟨i, 0⟩ ⟨4, 16⟩) ⟨4, 14⟩) ⟨4, 5⟩] .plainFunction ⟨3, 9⟩)) ⟨3, 3⟩]
    .plainFunction ⟨2, 5⟩))]
example : alphaStmts (chooseOther c!"x" c!"z") (closure c!"x" 0 0) = closure c!"z" 0 0 ∧
    resolve (closure c!"x" 0 0) = .done (.ok (closure c!"x" 1 2)) ∧ resolve (closure c!"z" 0 0) = .done (.ok (closure c!"z" 1 2)) :=
  ⟨by by_kernel, by by_kernel, by by_kernel⟩
/-- The function mentions `y`, and so `x` stays; with `y` for `x` it would have another meaning. -/
example : alphaStmts (chooseOther c!"x" c!"y") (closure c!"x" 0 0) = closure c!"x" 0 0 ∧
    resolve (closure c!"y" 0 0) = .done (.ok [.var c!"y" ⟨0⟩ .literalNil ⟨1, 5⟩,
      .fun (.mk c!"f" (.mk [⟨c!"y", ⟨2, 7⟩⟩] [.return (.function (.mk [⟨c!"w", ⟨3, 10⟩⟩]
        [.return (.binary (.variable c!"y" ⟨1, 0⟩ ⟨4, 12⟩) .plus (.variable c!"y" ⟨1, 0⟩ ⟨4, 16⟩) ⟨4, 14⟩) ⟨4, 5⟩] .plainFunction ⟨3, 9⟩)) ⟨3, 3⟩]
        .plainFunction ⟨2, 5⟩))]) :=
  ⟨by by_kernel, by by_kernel⟩
/-- An error quotes the new name. -/
example : let twice (x : Str) : List Stmt := [.fun (.mk c!"f" (.mk [⟨x, ⟨1, 7⟩⟩, ⟨x, ⟨1, 10⟩⟩] [] .plainFunction ⟨1, 5⟩))]
    let e (x : Str) : Cause := .newWithLocation ⟨1, 10⟩ x "Variable with this name already declared in this scope."
    alphaStmts (chooseOther c!"x" c!"z") (twice c!"x") = twice c!"z" ∧
    resolve (twice c!"x") = .done (.error [e c!"x"]) ∧ resolve (twice c!"z") = .done (.error [e c!"z"]) :=
  ⟨by by_kernel, by by_kernel, by by_kernel⟩

end Ws.Properties
