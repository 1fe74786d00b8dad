import Verif.Proofs.Resolve.Boxed
import Verif.Properties.Separate
/-! Property C86: blocks around the statements after `if`, `else` and `while` change nothing. -/
namespace Ws.Properties
open Ws Spec

variable {history : List (List Stmt)} {rs rs1 rs2 : Resolver} {sts : List Stmt} {r r' : Except ParseError (List Stmt)}

theorem wide_start {t t' : Resolver} (h : WideR [] t t') : t = t' := by
  obtain ⟨a, b, c⟩ := t
  obtain ⟨a', b', c'⟩ := t'
  obtain ⟨h1, h2, h3, _⟩ := h
  dsimp only at h1 h2 h3
  subst h2 h3
  cases h1
  rfl

theorem loop_boxed (f) : ∀ {sts a b : List Stmt} {rs rs' t t' : Resolver} {es es'}, WideR [] rs rs' → InnerClean rs.scopes →
    resolveLoop sts rs = .done (a, es, t) → resolveLoop (boxStmts f [] sts) rs' = .done (b, es', t') →
    (es = [] ∧ es' = [] ∧ b = boxStmts widenLoc [] a ∧ t' = t) ∨ ∃ e l l', es = e :: l ∧ es' = e :: l'
  | [], _, _, _, _, _, _, _, _, hp, _, h, h' => by
    cases h
    cases h'
    exact .inl ⟨rfl, rfl, rfl, (wide_start hp).symm⟩
  | s :: ss, a, b, rs, rs', t, t', es, es', hp, hc, h, h' => by
    have key := box_stmt f [] s (fun h => by cases h) _ _ hp hc
    simp only [boxStmts, resolveLoop] at h h'
    have clean : ∀ {a u}, resolveStmt s rs = .ok a u → InnerClean u.scopes :=
      fun h => (cleans_stmt s _ _ _ hp.scopes.nonempty.1 h).clean hc
    revert key h h' clean
    generalize resolveStmt s rs = r
    generalize resolveStmt (boxStmt f [] s) rs' = r'
    intro h key h' clean
    cases key with
    | panic => cases h'
    | diverge => cases h
    | @ok c c' u u' hv hw =>
      simp only [bind, Outcome.bind] at h h'
      cases h2 : resolveLoop ss u with
      | panic m => simp only [h2] at h; cases h
      | diverge => simp only [h2] at h; cases h
      | done x =>
      cases h3 : resolveLoop (boxStmts f [] ss) u' with
      | panic m => simp only [h3] at h'; cases h'
      | diverge => simp only [h3] at h'; cases h'
      | done y =>
      simp only [h2] at h
      simp only [h3] at h'
      cases h
      cases h'
      rcases loop_boxed f hw (clean rfl) h2 h3 with ⟨h4, h5, h6, h7⟩ | h4
      · exact .inl ⟨h4, h5, by rw [hv, h6, boxStmts], h7⟩
      · exact .inr h4
    | @err e u u' hw =>
      simp only [bind, Outcome.bind] at h h'
      cases h2 : resolveLoop ss u with
      | panic m => simp only [h2] at h; cases h
      | diverge => simp only [h2] at h; cases h
      | done x =>
      cases h3 : resolveLoop (boxStmts f [] ss) u' with
      | panic m => simp only [h3] at h'; cases h'
      | diverge => simp only [h3] at h'; cases h'
      | done y =>
      simp only [h2] at h
      simp only [h3] at h'
      cases h
      cases h'
      exact .inr ⟨e, _, _, rfl, rfl⟩

/-- Both programs are accepted, and differ in the blocks and the distances only; or they have the same first error. -/
def SameButBlocks (r r' : Except ParseError (List Stmt)) : Prop :=
  (∃ out, r = .ok out ∧ r' = .ok (boxedAt out)) ∨ ∃ e es es', r = .error (e :: es) ∧ r' = .error (e :: es')

/-- C86: with a block around every statement after `if`, `else` or `while` that declares nothing and is not a
block, a program is accepted if and only if it is accepted without. Every variable is found in the same slot, and
further away by the number of blocks between; the session goes on the same. If the programs are
rejected, the first error is the same. -/
theorem boxed_program (h : AfterPrograms history rs) (hb : ∀ x, ¬ IsBroken history x)
    (h1 : rs.resolve sts = .done (r, rs1)) (h2 : rs.resolve (boxed sts) = .done (r', rs2)) :
    SameButBlocks r r' ∧ ((∃ out, r = .ok out) → rs2 = rs1) := by
  obtain ⟨a, es, g1, g2⟩ := resolve_by_loop h1
  obtain ⟨b, es', g3, g4⟩ := resolve_by_loop h2
  obtain ⟨g, e, _⟩ := session_scopes (after_session h)
  have hw : WideR [] rs rs := ⟨.base (by rw [e]; simp), rfl, rfl, by rw [e]; simp [varLocMaxDistance]⟩
  have hc : InnerClean rs.scopes := by
    intro s hs y hy
    rw [e] at hs
    cases hs
    exact hb y ((broken_iff h).mpr ⟨_, by rw [e]; rfl, hy⟩)
  rcases loop_boxed _ hw hc g1 g3 with ⟨rfl, rfl, rfl, rfl⟩ | ⟨c, l, l', rfl, rfl⟩
  · exact ⟨.inl ⟨a, g2, g4⟩, fun _ => rfl⟩
  · exact ⟨.inr ⟨c, l, l', g2, g4⟩, fun ⟨out, ho⟩ => by rw [g2] at ho; cases ho⟩

/-- C86, for a program on its own. -/
theorem boxed_alone (h1 : resolve sts = .done r) (h2 : resolve (boxed sts) = .done r') : SameButBlocks r r' := by
  obtain ⟨_, h1⟩ := resolve_new h1
  obtain ⟨_, h2⟩ := resolve_new h2
  exact (boxed_program .new (fun _ => new_unbroken.1) h1 h2).1

/-- C86: a program that is accepted is accepted with blocks, if they are not nested too deeply. -/
theorem boxed_accepted {out : List Stmt} (h : AfterPrograms history rs) (hb : ∀ x, ¬ IsBroken history x)
    (h1 : rs.resolve sts = .done (.ok out, rs1)) (hd : 1 + stmtsDepth (boxed sts) ≤ 65535) :
    rs.resolve (boxed sts) = .done (.ok (boxedAt out), rs1) := by
  obtain ⟨k1, k2⟩ := resolve_total (sts := boxed sts) (after_session h)
  cases h2 : rs.resolve (boxed sts) with
  | panic m => have := (k2 m h2).2; omega
  | diverge => exact absurd h2 k1
  | done x =>
    obtain ⟨r', rs2⟩ := x
    obtain ⟨g1, g2⟩ := boxed_program h hb h1 h2
    cases g2 ⟨_, rfl⟩
    rcases g1 with ⟨o, e1, rfl⟩ | ⟨e, es, es', e1, _⟩ <;> cases e1
    rfl

/-- `fun f(x) if x while x print y` or the like: the distances without blocks, and with blocks. -/
def loops (b : Bool) (i d d' : Nat) : Stmt :=
  let body (s : Stmt) : Stmt := if b then .block [s] else s
  .fun (.mk c!"f" (.mk [⟨c!"x", ⟨1, 7⟩⟩] [
    .if (.variable c!"x" ⟨0, 0⟩ ⟨2, 4⟩) (body (.while (.variable c!"x" ⟨d, 0⟩ ⟨3, 7⟩) (body (.print (.variable c!"y" ⟨d', i⟩ ⟨4, 7⟩))))) none]
    .plainFunction ⟨1, 5⟩))
example : boxed [loops false 0 0 0] = [loops true 0 0 0] ∧ boxedAt [loops false 1 0 1] = [loops true 1 1 3] ∧
    1 + stmtsDepth (boxed [loops false 0 0 0]) ≤ 65535 ∧
    resolve [loops false 0 0 0] = .done (.ok [loops false 1 0 1]) ∧ resolve (boxed [loops false 0 0 0]) = .done (.ok [loops true 1 1 3]) :=
  ⟨rfl, rfl, by decide, by by_kernel, by by_kernel⟩
/-- A statement that declares a variable stays as it is. -/
example : boxed [.if .literalNil (.var c!"a" ⟨0⟩ .literalNil ⟨2, 5⟩) none] = [.if .literalNil (.var c!"a" ⟨0⟩ .literalNil ⟨2, 5⟩) none] := rfl
/-- With a block around the declaration, a variable of the block would not be the one outside. -/
example : resolve [.if .literalNil (.block [.var c!"a" ⟨0⟩ .literalNil ⟨2, 5⟩]) none, .fun (.mk c!"b" (.mk [] [] .plainFunction ⟨3, 5⟩)),
      .print (.variable c!"a" ⟨0, 0⟩ ⟨4, 7⟩)] =
      .done (.ok [.if .literalNil (.block [.var c!"a" ⟨0⟩ .literalNil ⟨2, 5⟩]) none, .fun (.mk c!"b" (.mk [] [] .plainFunction ⟨3, 5⟩)),
        .print (.variable c!"a" ⟨0, 1⟩ ⟨4, 7⟩)]) ∧
    resolve [.if .literalNil (.var c!"a" ⟨0⟩ .literalNil ⟨2, 5⟩) none, .fun (.mk c!"b" (.mk [] [] .plainFunction ⟨3, 5⟩)),
      .print (.variable c!"a" ⟨0, 0⟩ ⟨4, 7⟩)] =
      .done (.ok [.if .literalNil (.var c!"a" ⟨0⟩ .literalNil ⟨2, 5⟩) none, .fun (.mk c!"b" (.mk [] [] .plainFunction ⟨3, 5⟩)),
        .print (.variable c!"a" ⟨0, 0⟩ ⟨4, 7⟩)]) :=
  ⟨by by_kernel, by by_kernel⟩

end Ws.Properties
